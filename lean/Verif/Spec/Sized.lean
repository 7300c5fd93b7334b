import Verif.Model.History

/-! # Specification: vectors and matrices of a given size -/

namespace GCV
namespace GC

/-- `w` are the elements after asking for the size `n`, where `v` was there before: without a size everything stays. -/
def Resized {α : Type} (d : α) (n : Nat) (v w : List α) : Prop :=
  (n = 0 → w = v) ∧ (n ≠ 0 → w.length = n ∧ ∀ i, i < n → w[i]? = some ((v[i]?).getD d))

/-- `m` has the dimensions, and the entry in row `i` and column `j` is the element `i + j * nr` of `old`, `d` when there
are not as many. -/
def Shaped {α : Type} (d : α) (nr nc : Nat) (old : List α) (m : Mat α) : Prop :=
  m.nr = nr ∧ m.nc = nc ∧ m.data.length = nr * nc ∧
    ∀ i j, i < nr → j < nc → m.data[i + j * nr]? = some ((old[i + j * nr]?).getD d)

end GC
end GCV
