import Verif.Spec.Number
import Verif.Spec.Tree

/-!
# Specification vocabulary: the elements of a container and numeric widening
-/

namespace GCV

/-- The elements stored in a container, each as a container: a scalar is its own only element,
matrices are listed column after column, an empty container has none. -/
def elems : GC → List GC
  | .notype => []
  | .vecPointer v => v.map .pointer
  | .vecBool v => v.map .bool
  | .vecInt v => v.map .int
  | .vecLong v => v.map .long
  | .vecReal v => v.map .real
  | .vecComplex v => v.map .complex
  | .vecString v => v.map .string
  | .matInt m => m.data.map .int
  | .matLong m => m.data.map .long
  | .matReal m => m.data.map .real
  | .matComplex m => m.data.map .complex
  | .vector v => v
  | g => [g]

/-- The same value, or the same number in another numeric type.  (A real that is not finite
widens to the complex number with that real part.) -/
def SameNumber (a b : GC) : Prop :=
  a = b ∨ (∃ q, numValue a = some q ∧ numValue b = some q) ∨
  (∃ r, a = .real r ∧ b = .complex ⟨r, .zero⟩)

/-- The same elements in the same positions. -/
def SameElems (v w : List GC) : Prop :=
  v.length = w.length ∧ ∀ (i : Nat) a b, v[i]? = some a → w[i]? = some b → SameNumber a b

/-- Two lists of the same length, related position by position. -/
def Pointwise {α β : Type} (R : α → β → Prop) (v : List α) (w : List β) : Prop :=
  v.length = w.length ∧ ∀ (i : Nat) a b, v[i]? = some a → w[i]? = some b → R a b

/-- Scalar (0), vector (1) or matrix (2). -/
def shape : Ty → Nat
  | .VEC_POINTER | .VEC_BOOL | .VEC_INTEGER | .VEC_LONG | .VEC_REAL | .VEC_COMPLEX | .VEC_STRING => 1
  | .MAT_INTEGER | .MAT_LONG | .MAT_REAL | .MAT_COMPLEX => 2
  | _ => 0

/-- Width of the element type: bool, int, long, real, complex; none when not numeric. -/
def width : Ty → Option Nat
  | .BOOL | .VEC_BOOL => some 0
  | .INTEGER | .VEC_INTEGER | .MAT_INTEGER => some 1
  | .LONG | .VEC_LONG | .MAT_LONG => some 2
  | .REAL | .VEC_REAL | .MAT_REAL => some 3
  | .COMPLEX | .VEC_COMPLEX | .MAT_COMPLEX => some 4
  | _ => none

/-- `t` is at least as wide as `s`, in element type and in shape. -/
def widens (s t : Ty) : Bool :=
  match width s, width t with
  | some a, some b => decide (a ≤ b) && decide (shape s ≤ shape t)
  | _, _ => false

/-- The widenings that are refused. -/
def refused (s t : Ty) : Bool :=
  match s, t with
  | .LONG, .MAT_LONG | .LONG, .MAT_REAL | .COMPLEX, .MAT_COMPLEX | .VEC_COMPLEX, .MAT_COMPLEX => true
  | _, _ => false

/-- Vectors have less than 2^32 elements and matrices are full. -/
def sizeOk : GC → Bool
  | .vecPointer v => decide (v.length < 2 ^ 32)
  | .vecBool v => decide (v.length < 2 ^ 32)
  | .vecInt v => decide (v.length < 2 ^ 32)
  | .vecLong v => decide (v.length < 2 ^ 32)
  | .vecReal v => decide (v.length < 2 ^ 32)
  | .vecComplex v => decide (v.length < 2 ^ 32)
  | .vecString v => decide (v.length < 2 ^ 32)
  | .vector v => decide (v.length < 2 ^ 32)
  | .matInt m => m.wf
  | .matLong m => m.wf
  | .matReal m => m.wf
  | .matComplex m => m.wf
  | _ => true

/-- Every long among the elements is at most 2^53 in magnitude. -/
def LongsExact (g : GC) : Prop := ∀ l, GC.long l ∈ elems g → l.toInt.natAbs ≤ 2 ^ 53

end GCV
