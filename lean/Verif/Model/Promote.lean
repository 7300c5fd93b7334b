import Verif.Model.Core

/-!
# promote_to_* (src/GenericContainerPromote.cc, `pr` below)

`get_int_at(0) = tmp` after `set_vec_int(1)` (and the like) writes element 0 of the vector of
one element just made; the model writes that vector directly.  A call that throws does so
before touching the container, except where said otherwise.
-/

namespace GCV
namespace GC

/-- The loop over the source vector of the vector promotions (e.g. pr:1290-1295): a new vector of
`(unsigned) n` elements is made and all `n` elements are written with unchecked `[i]`. -/
def refill {α β : Type} (d : β) (f : α → β) (v : List α) : Out (List β) :=
  copyL (v.map f) (allocL d (u32 v.length) [])

/-- Outcome of a promotion whose new content is `o`; the old content is discarded first, so
there is no state for anything else. -/
def become (o : Out GC) : Res Unit :=
  match o with
  | .ok g => .ok g ()
  | .throw => .throw notype
  | .ub => .ub
  | .diverge => .diverge

/-- The loop of the matrix promotions writing through the checked `m(i,0)` (e.g. pr:1637-1642):
on a failing write the loop is left with what has been written. -/
def fillColumn {α : Type} (m : Mat α) (i : Nat) : List α → Mat α × Bool
  | [] => (m, true)
  | x :: r =>
    match m.set i 0 x with
    | .ok m' => fillColumn m' (i + 1) r
    | _ => (m, false)

/-- A column matrix made from a vector (e.g. pr:1634-1643). -/
def toColumn {α β : Type} (d : β) (f : α → β) (up : Mat β → GC) (v : List α) : Res Unit :=
  match fillColumn (.make d (u32 v.length) 1) 0 (v.map f) with
  | (m, true) => .ok (up m) ()
  | (m, false) => .throw (up m)

/-- The loop converting a matrix element by element with unchecked `[i]` (e.g. pr:1652-1659). -/
def convMat {α β : Type} (d : β) (f : α → β) (m : Mat α) : Out (Mat β) :=
  (copyL (m.data.map f) (Mat.make d m.nr m.nc).data).bind fun w => .ok ⟨m.nr, m.nc, w⟩

/-- pr:1120-1154 -/
def promote_to_int : GC → Res Unit
  | notype => .ok (int 0) ()
  | bool b => .ok (int (I32.ofBool b)) ()
  | int i => .ok (int i) ()
  | g => .throw g

/-- pr:1156-1190 -/
def promote_to_long : GC → Res Unit
  | notype => .ok (long 0) ()
  | bool b => .ok (long (I64.ofBool b)) ()
  | int i => .ok (long i.toI64) ()
  | long l => .ok (long l) ()
  | g => .throw g

/-- pr:1192-1227 -/
def promote_to_real : GC → Res Unit
  | notype => .ok (real .zero) ()
  | bool b => .ok (real (F64.ofBool b)) ()
  | int i => .ok (real (F64.ofI32 i)) ()
  | long l => .ok (real (F64.ofI64 l)) ()
  | real r => .ok (real r) ()
  | g => .throw g

/-- pr:1272-1321 -/
def promote_to_vec_int : GC → Res Unit
  | notype => .ok (vecInt [0]) ()
  | bool b => .ok (vecInt [I32.ofBool b]) ()
  | int i => .ok (vecInt [i]) ()
  | vecBool v => become ((refill 0 I32.ofBool v).bind fun w => .ok (vecInt w))
  | vecInt v => .ok (vecInt v) ()
  | g => .throw g

/-- pr:1323-1384 -/
def promote_to_vec_long : GC → Res Unit
  | notype => .ok (vecLong [0]) ()
  | bool b => .ok (vecLong [I64.ofBool b]) ()
  | int i => .ok (vecLong [i.toI64]) ()
  | long l => .ok (vecLong [l]) ()
  | vecBool v => become ((refill 0 I64.ofBool v).bind fun w => .ok (vecLong w))
  | vecInt v => become ((refill 0 I32.toI64 v).bind fun w => .ok (vecLong w))
  | vecLong v => .ok (vecLong v) ()
  | g => .throw g

/-- pr:1386-1460 -/
def promote_to_vec_real : GC → Res Unit
  | notype => .ok (vecReal [.zero]) ()
  | bool b => .ok (vecReal [F64.ofBool b]) ()
  | int i => .ok (vecReal [F64.ofI32 i]) ()
  | long l => .ok (vecReal [F64.ofI64 l]) ()
  | real r => .ok (vecReal [r]) ()
  | vecBool v => become ((refill .zero F64.ofBool v).bind fun w => .ok (vecReal w))
  | vecInt v => become ((refill .zero F64.ofI32 v).bind fun w => .ok (vecReal w))
  | vecLong v => become ((refill .zero F64.ofI64 v).bind fun w => .ok (vecReal w))
  | vecReal v => .ok (vecReal v) ()
  | g => .throw g

/-- pr:1462-1549 -/
def promote_to_vec_complex : GC → Res Unit
  | notype => .ok (vecComplex [.zero]) ()
  | bool b => .ok (vecComplex [.ofReal (F64.ofBool b)]) ()
  | int i => .ok (vecComplex [.ofReal (F64.ofI32 i)]) ()
  | long l => .ok (vecComplex [.ofReal (F64.ofI64 l)]) ()
  | real r => .ok (vecComplex [.ofReal r]) ()
  | complex c => .ok (vecComplex [c]) ()
  | vecBool v =>
    become ((refill .zero (fun b => .ofReal (F64.ofBool b)) v).bind fun w => .ok (vecComplex w))
  | vecInt v =>
    become ((refill .zero (fun i => .ofReal (F64.ofI32 i)) v).bind fun w => .ok (vecComplex w))
  | vecLong v =>
    become ((refill .zero (fun l => .ofReal (F64.ofI64 l)) v).bind fun w => .ok (vecComplex w))
  | vecReal v => become ((refill .zero Cplx.ofReal v).bind fun w => .ok (vecComplex w))
  | vecComplex v => .ok (vecComplex v) ()
  | g => .throw g

/-- pr:1229-1270; vectors (VEC_POINTER included, which then throws) go to
`promote_to_vec_complex`. -/
def promote_to_complex : GC → Res Unit
  | notype => .ok (complex .zero) ()
  | bool b => .ok (complex (.ofReal (F64.ofBool b))) ()
  | int i => .ok (complex (.ofReal (F64.ofI32 i))) ()
  | long l => .ok (complex (.ofReal (F64.ofI64 l))) ()
  | real r => .ok (complex (.ofReal r)) ()
  | complex c => .ok (complex c) ()
  | vecPointer v => promote_to_vec_complex (vecPointer v)
  | vecBool v => promote_to_vec_complex (vecBool v)
  | vecInt v => promote_to_vec_complex (vecInt v)
  | vecLong v => promote_to_vec_complex (vecLong v)
  | vecReal v => promote_to_vec_complex (vecReal v)
  | g => .throw g

/-- Writing the elements of `v` through `m_data.m_r` into a matrix that is not a real one
(pr:1576-1577, 1585-1586, 1825-1826, …): the union member `m_r` is not the active one, so the
first write is undefined; with no element nothing is written. -/
def throughWrongMember {α : Type} (v : List α) (g : GC) : Res Unit :=
  match v with
  | [] => .ok g ()
  | _ :: _ => .ub

/-- pr:1551-1607 -/
def promote_to_mat_int : GC → Res Unit
  | notype => .ok (matInt ⟨1, 1, [0]⟩) ()
  | bool b => .ok (matInt ⟨1, 1, [I32.ofBool b]⟩) ()
  | int i => .ok (matInt ⟨1, 1, [i]⟩) ()
  | vecBool v => throughWrongMember v (matInt (.make 0 (u32 v.length) 1))
  | vecInt v => throughWrongMember v (matInt (.make 0 (u32 v.length) 1))
  | matInt m => .ok (matInt m) ()
  | g => .throw g

/-- pr:1609-1681; VEC_BOOL makes a MAT_REAL (pr:1631). -/
def promote_to_mat_long : GC → Res Unit
  | notype => .ok (matLong ⟨1, 1, [0]⟩) ()
  | bool b => .ok (matLong ⟨1, 1, [I64.ofBool b]⟩) ()
  | int i => .ok (matLong ⟨1, 1, [i.toI64]⟩) ()
  | vecBool v => toColumn .zero F64.ofBool matReal v
  | vecInt v => toColumn 0 I32.toI64 matLong v
  | vecLong v => toColumn 0 id matLong v
  | matInt m => become ((convMat 0 I32.toI64 m).bind fun w => .ok (matLong w))
  | matLong m => .ok (matLong m) ()
  | g => .throw g

/-- pr:1683-1776 -/
def promote_to_mat_real : GC → Res Unit
  | notype => .ok (matReal ⟨1, 1, [.zero]⟩) ()
  | bool b => .ok (matReal ⟨1, 1, [F64.ofBool b]⟩) ()
  | int i => .ok (matReal ⟨1, 1, [F64.ofI32 i]⟩) ()
  | real r => .ok (matReal ⟨1, 1, [r]⟩) ()
  | vecBool v => toColumn .zero F64.ofBool matReal v
  | vecInt v => toColumn .zero F64.ofI32 matReal v
  | vecLong v => toColumn .zero F64.ofI64 matReal v
  | vecReal v => toColumn .zero id matReal v
  | matInt m => become ((convMat .zero F64.ofI32 m).bind fun w => .ok (matReal w))
  | matLong m => become ((convMat .zero F64.ofI64 m).bind fun w => .ok (matReal w))
  | matReal m => .ok (matReal m) ()
  | g => .throw g

/-- pr:1778-1884 -/
def promote_to_mat_complex : GC → Res Unit
  | notype => .ok (matComplex ⟨1, 1, [.zero]⟩) ()
  | bool b => .ok (matComplex ⟨1, 1, [.ofReal (F64.ofBool b)]⟩) ()
  | int i => .ok (matComplex ⟨1, 1, [.ofReal (F64.ofI32 i)]⟩) ()
  | long l => .ok (matComplex ⟨1, 1, [.ofReal (F64.ofI64 l)]⟩) ()
  | real r => .ok (matComplex ⟨1, 1, [.ofReal r]⟩) ()
  | vecBool v => throughWrongMember v (matComplex (.make .zero (u32 v.length) 1))
  | vecInt v => throughWrongMember v (matComplex (.make .zero (u32 v.length) 1))
  | vecLong v => throughWrongMember v (matComplex (.make .zero (u32 v.length) 1))
  | vecReal v => throughWrongMember v (matComplex (.make .zero (u32 v.length) 1))
  | matInt m =>
    become ((convMat .zero (fun i => Cplx.ofReal (F64.ofI32 i)) m).bind fun w => .ok (matComplex w))
  | matLong m =>
    become ((convMat .zero (fun l => Cplx.ofReal (F64.ofI64 l)) m).bind fun w => .ok (matComplex w))
  | matReal m => become ((convMat .zero Cplx.ofReal m).bind fun w => .ok (matComplex w))
  | matComplex m => .ok (matComplex m) ()
  | g => .throw g

/-- pr:1886-1986.  For scalars the value is read from the union (`m_data.i`, `*m_data.s`, …)
after `set_vector(1)` has made `m_data.v` the active member (pr:1894, …): undefined. -/
def promote_to_vector : GC → Res Unit
  | notype => .ok (vector [notype]) ()
  | pointer _ | bool _ | int _ | long _ | real _ | complex _ | string _ => .ub
  | vecPointer v => become ((refill notype pointer v).bind fun w => .ok (vector w))
  | vecBool v => become ((refill notype bool v).bind fun w => .ok (vector w))
  | vecInt v => become ((refill notype int v).bind fun w => .ok (vector w))
  | vecLong v => become ((refill notype long v).bind fun w => .ok (vector w))
  | vecReal v => become ((refill notype real v).bind fun w => .ok (vector w))
  | vecComplex v => become ((refill notype complex v).bind fun w => .ok (vector w))
  | vecString v => become ((refill notype string v).bind fun w => .ok (vector w))
  | vector v => .ok (vector v) ()
  | g => .throw g

end GC
end GCV
