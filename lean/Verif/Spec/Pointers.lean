import Verif.Model.Core
import Verif.Spec.Elems

/-! # Specification vocabulary: pointers to the data -/

namespace GCV

/-- The call giving a pointer to data of one element type: `mk` makes a container of an element; `s`, `v` and `m` are
the types of the scalars, vectors and matrices.  For a container of these types the pointer gives the elements, in their
order (matrices column after column), a write through it changes this element and nothing else, and what lies outside is
undefined; for any other container the call throws. -/
def PointerTo {α : Type} (mk : α → GC) (s v m : Ty) (rd : GC → Out (List α)) (wr : Nat → α → GC → Out GC) : Prop :=
  ∀ g : GC,
    if g.ty = s ∨ g.ty = v ∨ g.ty = m then
      ∃ l, rd g = .ok l ∧ elems g = l.map mk ∧
        ∀ i x, if i < l.length then
            ∃ g', wr i x g = .ok g' ∧ g'.ty = g.ty ∧ elems g' = (elems g).set i (mk x) ∧
              g'.num_rows = g.num_rows ∧ g'.num_cols = g.num_cols
          else wr i x g = .ub
    else rd g = .throw ∧ ∀ i x, wr i x g = .throw

end GCV
