import Verif.Spec.Number

/-!
# Specification vocabulary: equality of containers
-/

namespace GCV

/-- Equal real numbers: the same finite value (so 0 and -0 are equal), or the same infinity.  Not a
number is equal to nothing. -/
def EqReal (a b : F64) : Prop :=
  (∃ q, a.value = some q ∧ b.value = some q) ∨ (a = b ∧ a.isInf = true)

/-- Equal complex numbers. -/
def EqComplex (a b : Cplx) : Prop := EqReal a.re b.re ∧ EqReal a.im b.im

/-- Two lists of the same length, equal element by element. -/
def EqList {α : Type} (E : α → α → Prop) (a b : List α) : Prop :=
  a.length = b.length ∧ ∀ (i : Nat) x y, a[i]? = some x → b[i]? = some y → E x y

/-- Two matrices of the same sizes, equal element by element. -/
def EqMat {α : Type} (E : α → α → Prop) (a b : Mat α) : Prop :=
  a.nr = b.nr ∧ a.nc = b.nc ∧ EqList E a.data b.data

namespace GC

mutual

/-- Same type, same shape, same values. -/
def Same : GC → GC → Prop
  | notype, notype => True
  | pointer a, pointer b => a = b
  | bool a, bool b => a = b
  | int a, int b => a = b
  | long a, long b => a = b
  | real a, real b => EqReal a b
  | complex a, complex b => EqComplex a b
  | string a, string b => a = b
  | vecPointer a, vecPointer b => EqList (· = ·) a b
  | vecBool a, vecBool b => EqList (· = ·) a b
  | vecInt a, vecInt b => EqList (· = ·) a b
  | vecLong a, vecLong b => EqList (· = ·) a b
  | vecReal a, vecReal b => EqList EqReal a b
  | vecComplex a, vecComplex b => EqList EqComplex a b
  | vecString a, vecString b => EqList (· = ·) a b
  | matInt a, matInt b => EqMat (· = ·) a b
  | matLong a, matLong b => EqMat (· = ·) a b
  | matReal a, matReal b => EqMat EqReal a b
  | matComplex a, matComplex b => EqMat EqComplex a b
  | vector a, vector b => SameL a b
  | map a, map b => SameM a b
  | _, _ => False
termination_by structural a => a

def SameL : List GC → List GC → Prop
  | [], [] => True
  | x :: r, y :: s => Same x y ∧ SameL r s
  | _, _ => False
termination_by structural a => a

def SameM : Entries → Entries → Prop
  | [], [] => True
  | (k, x) :: r, (l, y) :: s => k = l ∧ Same x y ∧ SameM r s
  | _, _ => False
termination_by structural a => a

end

end GC
end GCV
