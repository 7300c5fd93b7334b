import Verif.Spec.CopyTo

/-!
# Specification vocabulary: the destination of a copy that throws
-/

namespace GCV
namespace GC

/-- Reading the elements one after the other stops at one that is refused; `w` are those before it. -/
def StopsAt {β : Type} (F : GC → Out β) (xs : List GC) (w : List β) : Prop :=
  ∃ before x after, xs = before ++ x :: after ∧ gather F before = .ok w ∧ F x = .throw

/-- All have the same number of elements. -/
def oneLength (v : List GC) : Prop := ∀ x ∈ v, ∀ y ∈ v, counted x = counted y

/-- The sizes of `m` without any of its elements. -/
def hollow {β : Type} (m : Mat β) : Mat β := ⟨m.nr, m.nc, []⟩

/-- What is left of the matrix `old` by a copy that throws: its sizes and none of its elements, unless columns of one length
are read one after the other up to a column that is refused. -/
def LeavesMatrix {β : Type} (zero : β) (t : Ty) (conv : GC → β) (col : GC → Out (List β)) (g : GC) (old m : Mat β) : Prop :=
  match g with
  | vector v =>
    ((v = [] ∨ ¬ oneLength v) ∧ m = hollow old) ∨
    (oneLength v ∧ ∃ before x after cols, v = before ++ x :: after ∧ gather col before = .ok cols ∧ col x = .throw ∧
      m = ⟨counted x, v.length, cols.flatten ++ List.replicate ((after.length + 1) * counted x) zero⟩)
  | g => matrixOutcome t conv col g = .throw ∧ m = hollow old

end GC
end GCV
