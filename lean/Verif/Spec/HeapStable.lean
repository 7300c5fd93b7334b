import Verif.Spec.HeapCalls

/-!
# Which steps a reference outlives

`GenericContainer & r = g["a"][2];` and then other calls.  A step is one `r` outlives when it is not made on a container
that the one of `r` is inside of, or is one of those that are known to leave the elements where they are.
-/

namespace GCV
namespace Heap
open GC

/-- The container at `p` is the one at `x`, or inside it. -/
def AtOrAbove (x p : Place) : Prop := x.var = p.var ∧ x.path <+: p.path

/-- The container at `p` is inside the one at `x`. -/
def Above (x p : Place) : Prop := AtOrAbove x p ∧ x ≠ p

/-- A step that a reference to `p` outlives.  `R x`: what happens to the container at `x` matters. -/
def XOp.Spares (E : Vals) (R : Place → Prop) (p : Place) : XOp → Prop
  | .old (.construct _) | .old (.copyConstruct _ _) => True
  | .old (.destroy x) => x ≠ p.var
  -- looking up, or adding, an entry of a MAP moves none of the others
  | .old (.setMap x) | .old (.key x _) => R x → ∃ e, E.get x = some (map e)
  -- looking at an element that exists moves nothing
  | .old (.idx x i) => R x → ∃ v, E.get x = some (vector v) ∧ i < v.length
  -- removing another entry of a MAP
  | .old (.erase x k) => ¬ AtOrAbove ⟨x.var, x.path ++ [.key k]⟩ p
  | .old (.clear x) | .old (.set x _) | .old (.setVector x _) | .old (.assign x _) => ¬ R x
  | .call x _ | .merge x _ => ¬ R x

/-- Every step of a program is one that a reference to `p` outlives. -/
def SparesRun (R : Place → Prop) (p : Place) : Vals → List XOp → Prop
  | _, [] => True
  | E, op :: ops => op.Spares E R p ∧ SparesRun R p (E.xstep op) ops

/-- A step that ends the lifetime of the container at `p`: a container it is inside of is cleared, its variable goes, the
entry of a MAP that it is, or is inside of, is removed. -/
def XOp.Ends (p : Place) : XOp → Prop
  | .old (.clear x) => Above x p
  | .old (.destroy x) => x = p.var
  | .old (.erase x k) => AtOrAbove ⟨x.var, x.path ++ [.key k]⟩ p
  | _ => False

end Heap
end GCV
