import Verif.Spec.Cell
import Verif.Spec.Same
import Verif.Spec.Tree
import Verif.Spec.Listing

/-!
# Specification: the report on the first difference of two containers
-/

namespace GCV

theorem eqReal_iff (a b : F64) :
    EqReal a b ↔ (a.value.isSome = true ∧ a.value = b.value) ∨ (a = b ∧ a.isInf = true) := by
  unfold EqReal
  constructor
  · rintro (⟨q, h1, h2⟩ | h)
    · exact .inl ⟨by rw [h1]; rfl, by rw [h1, h2]⟩
    · exact .inr h
  · rintro (⟨h1, h2⟩ | h)
    · obtain ⟨q, hq⟩ := Option.isSome_iff_exists.1 h1
      exact .inl ⟨q, hq, by rw [← h2, hq]⟩
    · exact .inr h

instance (a b : F64) : Decidable (EqReal a b) := decidable_of_iff _ (eqReal_iff a b).symm

instance (a b : Cplx) : Decidable (EqComplex a b) := inferInstanceAs (Decidable (_ ∧ _))

namespace GC

/-- A container on which the comparison has no trouble: not a real number, not a non empty packed
vector, not a matrix whose number of cells overflows 32 bits. -/
def quiet : GC → Bool
  | real _ => false
  | vecPointer v => v.isEmpty
  | vecBool v => v.isEmpty
  | vecInt v => v.isEmpty
  | vecLong v => v.isEmpty
  | vecReal v => v.isEmpty
  | vecComplex v => v.isEmpty
  | vecString v => v.isEmpty
  | matInt m => decide (m.nr * m.nc < 2 ^ 32)
  | matLong m => decide (m.nr * m.nc < 2 ^ 32)
  | matReal m => decide (m.nr * m.nc < 2 ^ 32)
  | matComplex m => decide (m.nr * m.nc < 2 ^ 32)
  | _ => true

/-- No real number and no non empty packed vector. -/
def comparable : GC → Bool
  | matInt _ | matLong _ | matReal _ | matComplex _ => true
  | g => quiet g

/-- A matrix has less than 2^32 cells. -/
def matFits : GC → Bool
  | matInt m => decide (m.nr * m.nc < 2 ^ 32)
  | matLong m => decide (m.nr * m.nc < 2 ^ 32)
  | matReal m => decide (m.nr * m.nc < 2 ^ 32)
  | matComplex m => decide (m.nr * m.nc < 2 ^ 32)
  | _ => true

/-- Equal, without real numbers and non empty packed vectors inside. -/
def Alike (a b : GC) : Prop := Same a b ∧ every comparable a = true

/-- From a vector or map to one of the elements. -/
inductive Step
  | pos (i : Nat)
  | key (k : Bytes)
  deriving DecidableEq

/-- Where a comparison that goes through both containers in order comes to its end: at two containers, or at two
different keys of two maps. -/
inductive Stop
  | pair (x y : GC)
  | keys (k l : Bytes)

/-- The comparison of the two containers comes to this place: the elements before it are alike. -/
inductive Reached : List Step → GC → GC → Stop → Prop
  | here (x y : GC) : Reached [] x y (.pair x y)
  | elem (v w : List GC) (i : Nat) (x y : GC) (p : List Step) (s : Stop) :
      v.length = w.length →
      (∀ j < i, ∀ a b, v[j]? = some a → w[j]? = some b → Alike a b) →
      v[i]? = some x → w[i]? = some y → Reached p x y s →
      Reached (.pos i :: p) (vector v) (vector w) s
  | entry (m n : Entries) (i : Nat) (k : Bytes) (x y : GC) (p : List Step) (s : Stop) :
      m.length = n.length →
      (∀ j < i, ∀ k l a b, m[j]? = some (k, a) → n[j]? = some (l, b) → k = l ∧ Alike a b) →
      m[i]? = some (k, x) → n[i]? = some (k, y) → Reached p x y s →
      Reached (.key k :: p) (map m) (map n) s
  | keys (m n : Entries) (i : Nat) (k l : Bytes) (x y : GC) :
      m.length = n.length →
      (∀ j < i, ∀ k l a b, m[j]? = some (k, a) → n[j]? = some (l, b) → k = l ∧ Alike a b) →
      m[i]? = some (k, x) → n[i]? = some (l, y) → k ≠ l →
      Reached [] (map m) (map n) (.keys k l)

/-- `x <> y` and the end of the line. -/
def versus (x y : Bytes) : Bytes := x ++ str " <> " ++ y ++ [10]

/-- Different sizes, or different first elements. -/
def tellVec {α : Type} (who : Bytes) (shw : α → Bytes) (E : α → α → Prop) [∀ x y, Decidable (E x y)]
    (a b : List α) : Option Bytes :=
  if a.length ≠ b.length then some (who ++ str " size: " ++ versus (decimal a.length) (decimal b.length))
  else match a, b with
    | x :: _, y :: _ => if E x y then none else some (who ++ str " at 0 values " ++ versus (shw x) (shw y))
    | _, _ => none

/-- The cells `(i,j)` differ. -/
def tellCell {α : Type} (who : Bytes) (shw : α → Bytes) (E : α → α → Prop) [∀ x y, Decidable (E x y)]
    (a b : Mat α) (i j : Nat) : Option Bytes :=
  match a.cell i j, b.cell i j with
  | some x, some y =>
    if E x y then none
    else some (who ++ str " at (" ++ decimal i ++ str "," ++ decimal j ++ str ") values " ++ versus (shw x) (shw y))
  | _, _ => none

/-- Of the cells of row `i`, the first one that differs. -/
def tellRow {α : Type} (who : Bytes) (shw : α → Bytes) (E : α → α → Prop) [∀ x y, Decidable (E x y)]
    (a b : Mat α) (i : Nat) : Bytes :=
  ((List.range a.nc).findSome? (tellCell who shw E a b i)).getD []

/-- Different sizes, or one line for each row that differs. -/
def tellMat {α : Type} (who : Bytes) (shw : α → Bytes) (E : α → α → Prop) [∀ x y, Decidable (E x y)]
    (a b : Mat α) : Option Bytes :=
  if a.nr ≠ b.nr ∨ a.nc ≠ b.nc then
    some (who ++ str " size: " ++ versus (decimal a.nr ++ str " x " ++ decimal a.nc) (decimal b.nr ++ str " x " ++ decimal b.nc))
  else
    match (List.range a.nr).flatMap (tellRow who shw E a b) with
    | [] => none
    | t => some t

/-- The difference that is reported for two containers, if one is. -/
def tell (f : Fmt) (ptr : Ptr → Bytes) : GC → GC → Option Bytes
  | notype, notype => none
  | bool a, bool b => if a = b then none else some (str "boolean: different\n")
  | int a, int b => if a = b then none else some (str "integer: " ++ versus (decimal a.toInt) (decimal b.toInt))
  | long a, long b => if a = b then none else some (str "long: " ++ versus (decimal a.toInt) (decimal b.toInt))
  | real _, real _ => none
  | pointer a, pointer b => if a = b then none else some (str "pointer: 0x" ++ ptr a ++ str " <> 0x" ++ ptr b ++ [10])
  | string a, string b => if a = b then none else some (str "string: " ++ versus (34 :: a ++ [34]) (34 :: b ++ [34]))
  | complex a, complex b =>
    if EqComplex a b then none else some (str "complex: " ++ versus (pairText f a) (pairText f b))
  | vecPointer a, vecPointer b => tellVec (str "vector of pointer") ptr (· = ·) a b
  | vecBool a, vecBool b => tellVec (str "vector of boolean") (fun x => if x then str "1" else str "0") (· = ·) a b
  | vecInt a, vecInt b => tellVec (str "vector of integer") (decimal ·.toInt) (· = ·) a b
  | vecLong a, vecLong b => tellVec (str "vector of long") (decimal ·.toInt) (· = ·) a b
  | vecReal a, vecReal b => tellVec (str "vector of double") f.real EqReal a b
  | vecComplex a, vecComplex b => tellVec (str "vector of complex") (pairText f) EqComplex a b
  | vecString a, vecString b => tellVec (str "vector of string") id (· = ·) a b
  | matInt a, matInt b => tellMat (str "mat of integer") (decimal ·.toInt) (· = ·) a b
  | matLong a, matLong b => tellMat (str "mat of long") (decimal ·.toInt) (· = ·) a b
  | matReal a, matReal b => tellMat (str "mat of double") f.real EqReal a b
  | matComplex a, matComplex b => tellMat (str "mat of complex") (pairText f) EqComplex a b
  | vector a, vector b =>
    if a.length = b.length then none
    else some (str "vector of GC size do not match: " ++ versus (decimal a.length) (decimal b.length))
  | map a, map b =>
    if a.length = b.length then none
    else some (str "map of GC size do not match: " ++ versus (decimal a.length) (decimal b.length))
  | a, b => some (str "different type: " ++ versus a.ty.name b.ty.name)

/-- The difference that is reported at a place, if one is. -/
def Stop.told (f : Fmt) (ptr : Ptr → Bytes) : Stop → Option Bytes
  | .pair x y => tell f ptr x y
  | .keys k l => some (str "map of GC keys do not match: " ++ versus k l)

/-- The line for an element that was entered. -/
def Step.line : Step → Bytes
  | .pos i => str "position: " ++ decimal i ++ [10]
  | .key k => str "key: '" ++ k ++ str "'\n"

/-- The report: a line for each element entered, then the difference; `pre` in front of the first line, `> ` in front of
the others. -/
def report (pre : Bytes) : List Step → Bytes → Bytes
  | [], t => pre ++ t
  | s :: p, t => pre ++ s.line ++ report (str "> ") p t

/-- Two non empty lists of the same length with equal first elements. -/
def FirstEq {α : Type} (E : α → α → Prop) (a b : List α) : Prop :=
  a.length = b.length ∧ ∃ x r y s, a = x :: r ∧ b = y :: s ∧ E x y

/-- Two packed vectors of the same kind and length, not empty, with equal first elements. -/
def Stuck : GC → GC → Prop
  | vecPointer a, vecPointer b => FirstEq (· = ·) a b
  | vecBool a, vecBool b => FirstEq (· = ·) a b
  | vecInt a, vecInt b => FirstEq (· = ·) a b
  | vecLong a, vecLong b => FirstEq (· = ·) a b
  | vecReal a, vecReal b => FirstEq EqReal a b
  | vecComplex a, vecComplex b => FirstEq EqComplex a b
  | vecString a, vecString b => FirstEq (· = ·) a b
  | _, _ => False

end GC
end GCV
