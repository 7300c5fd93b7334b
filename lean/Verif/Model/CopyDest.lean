import Verif.Model.CopyTo
import Verif.Model.Collapse

/-!
# copyto_vec_*, copyto_mat_* with their destination (src/GenericContainerPromote.cc, `pr` below)

As in `Model/CopyTo`, with the vector or matrix of the caller as a further argument, and with what it holds when the call
throws.  The first statement of all these functions is `v.clear()` or `m.clear()`.
-/

namespace GCV
namespace GC

/-- The outcome of a call, without what a call that throws leaves. -/
def _root_.GCV.Loop.result {σ : Type} : Loop σ → Out σ
  | .ok s => .ok s
  | .throw _ => .throw
  | .ub => .ub
  | .diverge => .diverge

/-- The loop `for i < ne { val = …; v.emplace_back(val); }` (e.g. pr:70-182), `v` being what was appended so far. -/
def convInto {α β : Type} (f : α → Out β) : List β → List α → Loop (List β)
  | v, [] => .ok v
  | v, x :: r =>
    match f x with
    | .ok y => convInto f (v ++ [y]) r
    | .throw => .throw v
    | .ub => .ub
    | .diverge => .diverge

/-- As `copyToVec` (e.g. pr:60-183); `v` is the destination, `v.clear()` its first use (e.g. pr:64). -/
def vecInto {α : Type} (sc el : GC → Out α) (g : GC) (v : List α) : Loop (List α) :=
  let v := v.take 0
  match g with
  | notype => .ok v
  | bool b => convInto sc v [bool b]
  | int i => convInto sc v [int i]
  | long l => convInto sc v [long l]
  | real r => convInto sc v [real r]
  | complex c => convInto sc v [complex c]
  | vecBool w => convInto (fun b => sc (bool b)) v (w.take (u32 w.length))
  | vecInt w => convInto (fun b => sc (int b)) v (w.take (u32 w.length))
  | vecLong w => convInto (fun b => sc (long b)) v (w.take (u32 w.length))
  | vecReal w => convInto (fun b => sc (real b)) v (w.take (u32 w.length))
  | vecComplex w => convInto (fun b => sc (complex b)) v (w.take (u32 w.length))
  | matInt m => convInto (fun b => sc (int b)) v (m.data.take (u32 m.data.length))
  | matLong m => convInto (fun b => sc (long b)) v (m.data.take (u32 m.data.length))
  | matReal m => convInto (fun b => sc (real b)) v (m.data.take (u32 m.data.length))
  | matComplex m => convInto (fun b => sc (complex b)) v (m.data.take (u32 m.data.length))
  | vector w => convInto el v (w.take (u32 w.length))
  | pointer _ | string _ => .throw v
  | vecPointer w => if u32 w.length = 0 then .ok v else .throw v
  | vecString w => if u32 w.length = 0 then .ok v else .throw v
  | map m => if u32 m.length = 0 then .ok v else .throw v

/-- pr:60-183 -/
def copyto_vec_int_into : GC → List I32 → Loop (List I32) := vecInto copyInt get_as_int

/-- pr:188-330 -/
def copyto_vec_uint_into : GC → List (BitVec 32) → Loop (List (BitVec 32)) := vecInto copyUint get_as_uint

/-- pr:335-439 -/
def copyto_vec_long_into : GC → List I64 → Loop (List I64) := vecInto copyLong get_as_long

/-- pr:444-586 -/
def copyto_vec_ulong_into : GC → List (BitVec 64) → Loop (List (BitVec 64)) := vecInto copyUlong get_as_ulong

/-- pr:592-655 -/
def copyto_vec_real_into : GC → List F64 → Loop (List F64) := vecInto copyReal get_number

/-- pr:661-698 -/
def copyto_vec_complex_into : GC → List Cplx → Loop (List Cplx) := vecInto copyComplex get_complex_c

/-- pr:700-743; the types that are refused are refused after `v.clear()` (pr:702). -/
def copyto_vec_string_into (g : GC) (v : List Bytes) : Loop (List Bytes) :=
  let v := v.take 0
  match g with
  | string s => .ok (v ++ [s])
  | vecString w =>
    match copyL w (resizeL [] (u32 w.length) v) with
    | .ok r => .ok r
    | .throw => .throw v
    | .ub => .ub
    | .diverge => .diverge
  | vector w => convInto get_string_c v (w.take (u32 w.length))
  | _ => .throw v

/-! ## Matrices -/

/-- `m.clear()`: `mat_type` inherits it from `std::vector` (hh:169), the numbers of rows and columns stay. -/
def _root_.GCV.Mat.cleared {α : Type} (m : Mat α) : Mat α := { m with data := [] }

/-- `m(i,0) = …` for all elements of the vector (e.g. pr:760-764). -/
def columnInto {β : Type} (m : Mat β) (i : Nat) : List β → Loop (Mat β)
  | [] => .ok m
  | x :: r =>
    match m.set i 0 x with
    | .ok m' => columnInto m' (i + 1) r
    | .throw => .throw m
    | .ub => .ub
    | .diverge => .diverge

/-- `for i < nr: m(i,j) = vj[i]`, from row `i` on. -/
def fillColInto {β : Type} (m : Mat β) (j : Nat) (vj : List β) : Nat → Nat → Loop (Mat β)
  | _, 0 => .ok m
  | i, n + 1 =>
    match getL vj i with
    | .ok x =>
      match m.set i j x with
      | .ok m' => fillColInto m' j vj (i + 1) n
      | .throw => .throw m
      | .ub => .ub
      | .diverge => .diverge
    | .throw => .throw m
    | .ub => .ub
    | .diverge => .diverge

/-- `for j < nc: v[j].copyto_vec_T(vj); …` (e.g. pr:793-798), from column `j` on. -/
def fillColsInto {β : Type} (conv : GC → Out (List β)) (nr : Nat) : Mat β → Nat → List GC → Loop (Mat β)
  | m, _, [] => .ok m
  | m, j, x :: r =>
    match conv x with
    | .ok vj =>
      match fillColInto m j vj 0 nr with
      | .ok m' => fillColsInto conv nr m' (j + 1) r
      | .throw m' => .throw m'
      | .ub => .ub
      | .diverge => .diverge
    | .throw => .throw m
    | .ub => .ub
    | .diverge => .diverge

/-- The VECTOR case, e.g. pr:779-801: the lengths are compared before `m.resize( nr, nc )` (pr:792). -/
def columnsInto {β : Type} (d : β) (conv : GC → Out (List β)) (v : List GC) (m : Mat β) : Loop (Mat β) :=
  match v.take (u32 v.length) with
  | [] => .throw m
  | x :: r =>
    if r.all fun y => y.get_num_elements == x.get_num_elements then
      fillColsInto conv x.get_num_elements (m.resize d x.get_num_elements (r.length + 1)) 0 (x :: r)
    else .throw m

/-- The part the four functions share: `m.clear()`, then a loop for VEC_BOOL and VECTOR; what they do for the other types
(`plain`) cannot throw once it has begun to write. -/
def matInto {β : Type} (d : β) (ofBool : Bool → β) (conv : GC → Out (List β)) (plain : GC → Out (Mat β)) (g : GC)
    (m : Mat β) : Loop (Mat β) :=
  let m := m.cleared
  match g with
  | vecBool v => columnInto (m.resize d (u32 v.length) 1) 0 (v.map ofBool)
  | vector v => columnsInto d conv v m
  | g =>
    match plain g with
    | .ok r => .ok r
    | .throw => .throw m
    | .ub => .ub
    | .diverge => .diverge

/-- pr:748-818 -/
def copyto_mat_int_into : GC → Mat I32 → Loop (Mat I32) := matInto 0 I32.ofBool copyto_vec_int copyto_mat_int

/-- pr:823-905 -/
def copyto_mat_long_into : GC → Mat I64 → Loop (Mat I64) := matInto 0 I64.ofBool copyto_vec_long copyto_mat_long

/-- pr:910-1004 -/
def copyto_mat_real_into : GC → Mat F64 → Loop (Mat F64) := matInto .zero F64.ofBool copyto_vec_real copyto_mat_real

/-- pr:1009-1110 -/
def copyto_mat_complex_into : GC → Mat Cplx → Loop (Mat Cplx) :=
  matInto .zero (fun b => .ofReal (F64.ofBool b)) copyto_vec_complex copyto_mat_complex

end GC
end GCV
