import Verif.Model.Basic

/-! # Specification vocabulary: cells of a matrix -/

namespace GCV

/-- Cell `(i,j)` of a matrix stored column after column. -/
def Mat.cell {α : Type} (m : Mat α) (i j : Nat) : Option α :=
  if i < m.nr ∧ j < m.nc then m.data[j * m.nr + i]? else none

end GCV
