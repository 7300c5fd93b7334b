import Verif.Spec.CopyTo
import Verif.Model.CopyTo

/-!
# Specification vocabulary: what a vector of containers collapses to
-/

namespace GCV
namespace GC

/-- The types in the order they are declared in. -/
def typeOrder : List Ty :=
  [.NOTYPE, .POINTER, .BOOL, .INTEGER, .LONG, .REAL, .COMPLEX, .STRING, .VEC_POINTER, .VEC_BOOL, .VEC_INTEGER, .VEC_LONG,
   .VEC_REAL, .VEC_COMPLEX, .VEC_STRING, .MAT_INTEGER, .MAT_LONG, .MAT_REAL, .MAT_COMPLEX, .VECTOR, .MAP]

/-- `t` is the last type, in that order, that occurs in `v`. -/
abbrev LastType (t : Ty) (v : List GC) : Prop :=
  (∃ x ∈ v, x.ty = t) ∧ ∀ x ∈ v, typeOrder.idxOf x.ty ≤ typeOrder.idxOf t

/-- All elements have the same number of elements. -/
abbrev sameSizes (v : List GC) : Prop := ∀ x ∈ v, ∀ y ∈ v, counted x = counted y

/-- The sizes asked of the elements: they fit in 32 bits. -/
def sizesFit (v : List GC) : Prop :=
  v.length < 2 ^ 32 ∧ ∀ x ∈ v, sizeOk x = true ∧ mapOk x ∧ counted x < 2 ^ 31 ∧ counted x * v.length < 2 ^ 32

/-- Some element is a pointer. -/
abbrev somePointer (v : List GC) : Prop := ∃ x ∈ v, x.ty = .POINTER

/-- The one matrix made of the columns; on a failure the vector is as it was. -/
def asMatrix {α : Type} (up : Mat α → GC) (v : List GC) (c : Out (Mat α)) : Res Unit :=
  match c with
  | .ok m => .ok (up m) ()
  | .throw => .throw (vector v)
  | .ub => .ub
  | .diverge => .diverge

/-- What becomes of a vector of containers `v` of equal sizes when `t` is the last type occurring in it.  The columns of a matrix
are read with `copyto_vec_int` and so on, whose results C94 gives. -/
def packedAs (t : Ty) (v : List GC) : Res Unit :=
  match t with
  | .BOOL => if somePointer v then .throw (vector v) else .ok (vecBool (v.map asBool)) ()
  | .INTEGER => if somePointer v then .throw (vector v) else .ok (vecInt (v.map asInt)) ()
  | .LONG => if somePointer v then .throw (vector v) else .ok (vecLong (v.map asLong)) ()
  | .REAL => if somePointer v then .throw (vector v) else .ok (vecReal (v.map asReal)) ()
  | .COMPLEX =>
    if ∀ x ∈ v, x.ty = .COMPLEX then .ok (vecComplex (v.map asComplex)) () else .throw (vector v)
  | .STRING =>
    if ∀ x ∈ v, x.ty = .STRING then .ok (vecString (v.map asText)) ()
    else .ok (vector v) ()
  | .VEC_INTEGER => asMatrix matInt v (columnsOf copyto_vec_int v)
  | .VEC_LONG => asMatrix matLong v (columnsOf copyto_vec_long v)
  | .VEC_REAL => asMatrix matReal v (columnsOf copyto_vec_real v)
  | .VEC_COMPLEX => asMatrix matComplex v (columnsOf copyto_vec_complex v)
  | _ => .ok (vector v) ()

end GC
end GCV
