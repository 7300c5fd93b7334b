import Verif.Model.Convert

/-!
# copyto_vec_*, copyto_mat_* (src/GenericContainerPromote.cc, `pr` below)

The result is what the destination holds when the call returns; what a call that throws leaves in it is in
`Model/CopyDest`.
-/

namespace GCV
namespace GC

/-- The loop `for i < ne { val = …; v.emplace_back(val); }` over stored elements. -/
def convLoop {α β : Type} (f : α → Out β) : List α → Out (List β)
  | [] => .ok []
  | x :: r => (f x).bind fun y => (convLoop f r).bind fun l => .ok (y :: l)

/-- The part shared by `copyto_vec_int`, `_uint`, `_long`, `_ulong`, `_real` and `_complex`
(e.g. pr:60-183): `sc` converts one stored number (the case for a scalar type, for the vector and
for the matrix of that type are the same code), `el` one element of a VECTOR.  The other types
throw inside of the loop, so not when they hold no element. -/
def copyToVec {α : Type} (sc el : GC → Out α) : GC → Out (List α)
  | notype => .ok []
  | bool b => convLoop sc [bool b]
  | int i => convLoop sc [int i]
  | long l => convLoop sc [long l]
  | real r => convLoop sc [real r]
  | complex c => convLoop sc [complex c]
  | vecBool v => convLoop (fun b => sc (bool b)) (v.take (u32 v.length))
  | vecInt v => convLoop (fun b => sc (int b)) (v.take (u32 v.length))
  | vecLong v => convLoop (fun b => sc (long b)) (v.take (u32 v.length))
  | vecReal v => convLoop (fun b => sc (real b)) (v.take (u32 v.length))
  | vecComplex v => convLoop (fun b => sc (complex b)) (v.take (u32 v.length))
  | matInt m => convLoop (fun b => sc (int b)) (m.data.take (u32 m.data.length))
  | matLong m => convLoop (fun b => sc (long b)) (m.data.take (u32 m.data.length))
  | matReal m => convLoop (fun b => sc (real b)) (m.data.take (u32 m.data.length))
  | matComplex m => convLoop (fun b => sc (complex b)) (m.data.take (u32 m.data.length))
  | vector v => convLoop el (v.take (u32 v.length))
  | pointer _ | string _ => .throw
  | vecPointer v => if u32 v.length = 0 then .ok [] else .throw
  | vecString v => if u32 v.length = 0 then .ok [] else .throw
  | map m => if u32 m.length = 0 then .ok [] else .throw

/-- One number in `copyto_vec_int`, pr:71-166. -/
def copyInt : GC → Out I32
  | bool b => .ok (I32.ofBool b)
  | int i => .ok i
  | long l => if l.toI32.toI64 = l then .ok l.toI32 else .throw
  | real r => if r.isInteger then r.toSigned 32 else .throw
  | complex c => if c.im.isZero0 ∧ c.re.isInteger then c.re.toSigned 32 else .throw
  | _ => .throw

/-- pr:60-183 -/
def copyto_vec_int : GC → Out (List I32) := copyToVec copyInt get_as_int

/-- One number in `copyto_vec_uint`, pr:200-313. -/
def copyUint : GC → Out (BitVec 32)
  | bool b => .ok (I32.ofBool b)
  | int i => if 0 ≤ i.toInt then .ok i else .throw
  | long l => if l.toI32.toI64 = l ∧ 0 ≤ l.toInt then .ok (l.setWidth 32) else .throw
  | real r => if r.isUnsigned then r.toUnsigned 32 else .throw
  | complex c => if c.im.isZero0 ∧ c.re.isUnsigned then c.re.toUnsigned 32 else .throw
  | _ => .throw

/-- pr:188-330 -/
def copyto_vec_uint : GC → Out (List (BitVec 32)) := copyToVec copyUint get_as_uint

/-- One number in `copyto_vec_long`, pr:345-422. -/
def copyLong : GC → Out I64
  | bool b => .ok (I64.ofBool b)
  | int i => .ok i.toI64
  | long l => .ok l
  | real r => if r.isInteger then r.toSigned 64 else .throw
  | complex c => if c.im.isZero0 ∧ c.re.isInteger then c.re.toSigned 64 else .throw
  | _ => .throw

/-- pr:335-439 -/
def copyto_vec_long : GC → Out (List I64) := copyToVec copyLong get_as_long

/-- One number in `copyto_vec_ulong`, pr:456-569. -/
def copyUlong : GC → Out (BitVec 64)
  | bool b => .ok (I64.ofBool b)
  | int i => if 0 ≤ i.toInt then .ok i.toI64 else .throw
  | long l => if 0 ≤ l.toInt then .ok l else .throw
  | real r => if r.isUnsigned then r.toUnsigned 64 else .throw
  | complex c => if c.im.isZero0 ∧ c.re.isUnsigned then c.re.toUnsigned 64 else .throw
  | _ => .throw

/-- pr:444-586 -/
def copyto_vec_ulong : GC → Out (List (BitVec 64)) := copyToVec copyUlong get_as_ulong

/-- One number in `copyto_vec_real`, pr:601-638. -/
def copyReal : GC → Out F64
  | bool b => .ok (F64.ofBool b)
  | int i => .ok (F64.ofI32 i)
  | long l => .ok (F64.ofI64 l)
  | real r => .ok r
  | complex c => if c.im.isZero0 then .ok c.re else .throw
  | _ => .throw

/-- pr:592-655 -/
def copyto_vec_real : GC → Out (List F64) := copyToVec copyReal get_number

/-- One number in `copyto_vec_complex`, pr:669-682. -/
def copyComplex : GC → Out Cplx
  | bool b => .ok (.ofReal (F64.ofBool b))
  | int i => .ok (.ofReal (F64.ofI32 i))
  | long l => .ok (.ofReal (F64.ofI64 l))
  | real r => .ok (.ofReal r)
  | complex c => .ok c
  | _ => .throw

/-- pr:661-698; elements of a VECTOR are read with `get_complex()` (pr:683). -/
def copyto_vec_complex : GC → Out (List Cplx) := copyToVec copyComplex get_complex_c

/-- pr:700-743; for VEC_STRING `v` is given `(unsigned) n` strings and all `n` are copied. -/
def copyto_vec_string : GC → Out (List Bytes)
  | string s => .ok [s]
  | vecString v => copyL v (List.replicate (u32 v.length) [])
  | vector v => convLoop get_string_c (v.take (u32 v.length))
  | _ => .throw

/-! ## Matrices -/

/-- `std::copy_n( src, n, m.data() )`: `m.data()` is `&front()` (hh:409), undefined for a matrix
without elements. -/
def copyN {β : Type} (src : List β) (n : Nat) (m : Mat β) : Out (Mat β) :=
  if m.data = [] then .ub
  else if n ≤ src.length ∧ n ≤ m.data.length then .ok { m with data := src.take n ++ m.data.drop n }
  else .ub

/-- `m(i,0) = …` for all elements of the vector (e.g. pr:760-764). -/
def copyColumn {β : Type} (m : Mat β) (i : Nat) : List β → Out (Mat β)
  | [] => .ok m
  | x :: r => (m.set i 0 x).bind fun m' => copyColumn m' (i + 1) r

/-- `for i < nr: m(i,j) = vj[i]`, from row `i` on. -/
def fillCol {β : Type} (m : Mat β) (j : Nat) (vj : List β) : Nat → Nat → Out (Mat β)
  | _, 0 => .ok m
  | i, n + 1 => (getL vj i).bind fun x => (m.set i j x).bind fun m' => fillCol m' j vj (i + 1) n

/-- `for j < nc: v[j].copyto_vec_T(vj); …` (e.g. pr:793-798), from column `j` on. -/
def fillCols {β : Type} (conv : GC → Out (List β)) (nr : Nat) : Mat β → Nat → List GC → Out (Mat β)
  | m, _, [] => .ok m
  | m, j, x :: r =>
    (conv x).bind fun vj => (fillCol m j vj 0 nr).bind fun m' => fillCols conv nr m' (j + 1) r

/-- The VECTOR case, e.g. pr:779-801; `v` is cut at `(unsigned) v.size()`. -/
def columns {β : Type} (d : β) (conv : GC → Out (List β)) (v : List GC) : Out (Mat β) :=
  match v.take (u32 v.length) with
  | [] => .throw
  | x :: r =>
    if r.all fun y => y.get_num_elements == x.get_num_elements then
      fillCols conv x.get_num_elements (.make d x.get_num_elements (r.length + 1)) 0 (x :: r)
    else .throw

/-- A matrix source: `resize(num_rows,num_cols)` and `copy_n` of `num_rows*num_cols` (unsigned)
elements, both addresses from `data()` (e.g. pr:773-777). -/
def copyMat {α β : Type} (d : β) (f : α → β) (m : Mat α) : Out (Mat β) :=
  if m.data = [] then .ub else copyN (m.data.map f) (u32 (m.nr * m.nc)) (.make d m.nr m.nc)

/-- pr:748-818 -/
def copyto_mat_int : GC → Out (Mat I32)
  | notype => .ok ⟨1, 1, [0]⟩
  | bool b => .ok ⟨1, 1, [I32.ofBool b]⟩
  | int i => .ok ⟨1, 1, [i]⟩
  | vecBool v => copyColumn (.make 0 (u32 v.length) 1) 0 (v.map I32.ofBool)
  | vecInt v => copyN v v.length (.make 0 (u32 v.length) 1)
  | matInt m => copyMat 0 id m
  | vector v => columns 0 copyto_vec_int v
  | _ => .throw

/-- pr:823-905 -/
def copyto_mat_long : GC → Out (Mat I64)
  | notype => .ok ⟨1, 1, [0]⟩
  | bool b => .ok ⟨1, 1, [I64.ofBool b]⟩
  | int i => .ok ⟨1, 1, [i.toI64]⟩
  | long l => .ok ⟨1, 1, [l]⟩
  | vecBool v => copyColumn (.make 0 (u32 v.length) 1) 0 (v.map I64.ofBool)
  | vecInt v => copyN (v.map I32.toI64) v.length (.make 0 (u32 v.length) 1)
  | vecLong v => copyN v v.length (.make 0 (u32 v.length) 1)
  | matInt m => copyMat 0 I32.toI64 m
  | matLong m => copyMat 0 id m
  | vector v => columns 0 copyto_vec_long v
  | _ => .throw

/-- pr:910-1004 -/
def copyto_mat_real : GC → Out (Mat F64)
  | notype => .ok ⟨1, 1, [.zero]⟩
  | bool b => .ok ⟨1, 1, [F64.ofBool b]⟩
  | int i => .ok ⟨1, 1, [F64.ofI32 i]⟩
  | long l => .ok ⟨1, 1, [F64.ofI64 l]⟩
  | real r => .ok ⟨1, 1, [r]⟩
  | vecBool v => copyColumn (.make .zero (u32 v.length) 1) 0 (v.map F64.ofBool)
  | vecInt v => copyN (v.map F64.ofI32) v.length (.make .zero (u32 v.length) 1)
  | vecLong v => copyN (v.map F64.ofI64) v.length (.make .zero (u32 v.length) 1)
  | vecReal v => copyN v v.length (.make .zero (u32 v.length) 1)
  | matInt m => copyMat .zero F64.ofI32 m
  | matLong m => copyMat .zero F64.ofI64 m
  | matReal m => copyMat .zero id m
  | vector v => columns .zero copyto_vec_real v
  | _ => .throw

/-- pr:1009-1110; MAT_COMPLEX is refused (pr:1106). -/
def copyto_mat_complex : GC → Out (Mat Cplx)
  | notype => .ok ⟨1, 1, [.zero]⟩
  | bool b => .ok ⟨1, 1, [.ofReal (F64.ofBool b)]⟩
  | int i => .ok ⟨1, 1, [.ofReal (F64.ofI32 i)]⟩
  | long l => .ok ⟨1, 1, [.ofReal (F64.ofI64 l)]⟩
  | real r => .ok ⟨1, 1, [.ofReal r]⟩
  | complex c => .ok ⟨1, 1, [c]⟩
  | vecBool v =>
    copyColumn (.make .zero (u32 v.length) 1) 0 (v.map fun b => .ofReal (F64.ofBool b))
  | vecInt v => copyN (v.map fun i => .ofReal (F64.ofI32 i)) v.length (.make .zero (u32 v.length) 1)
  | vecLong v => copyN (v.map fun l => .ofReal (F64.ofI64 l)) v.length (.make .zero (u32 v.length) 1)
  | vecReal v => copyN (v.map Cplx.ofReal) v.length (.make .zero (u32 v.length) 1)
  | vecComplex v => copyN v v.length (.make .zero (u32 v.length) 1)
  | matInt m => copyMat .zero (fun i => .ofReal (F64.ofI32 i)) m
  | matLong m => copyMat .zero (fun l => .ofReal (F64.ofI64 l)) m
  | matReal m => copyMat .zero Cplx.ofReal m
  | vector v => columns .zero copyto_vec_complex v
  | _ => .throw

end GC
end GCV
