import Verif.Spec.Heap
import Verif.Model.HeapFail

/-! # What is left when memory runs out -/

namespace GCV
namespace Heap
open GC

/-- The place a step writes to. -/
def POp.target : POp → Option Place
  | .clear x | .set x _ | .setVector x _ | .setMap x | .idx x _ | .key x _ | .erase x _ | .assign x _ => some x
  | .construct x | .destroy x => some ⟨x, []⟩
  | .copyConstruct _ _ => none

/-- The tag with which a step leaves its container, for tags with a payload. -/
def POp.tag (E : Vals) : POp → Option Ty
  | .set _ v => if immediate v then none else some v.ty
  | .setVector _ _ | .idx _ _ => some .VECTOR
  | .setMap _ | .key _ _ => some .MAP
  | .assign _ y => (E.get y).bind fun g => if immediate g then none else some g.ty
  | _ => none

/-- Steps that allocate one payload at most: not those in which a vector may grow, nor copies of a VECTOR or a MAP. -/
def POp.single (E : Vals) : POp → Prop
  | .setVector _ _ | .idx _ _ | .copyConstruct _ _ => False
  | .assign _ y => ∀ g, E.get y = some g → g.ty ≠ .VECTOR ∧ g.ty ≠ .MAP
  | _ => True

/-- The variable `y` is in order and holds `g`. -/
def HoldsVar (s : St) (y : Nat) (g : GC) : Prop :=
  ∃ a c F, s.env y = some a ∧ s.mem.blk a = some (.var c) ∧ Rep s.mem g c F ∧ ¬ F a

/-- The variable `y` cannot be destroyed, nor cleared: that frees something that is not allocated. -/
def Broken (s : St) (y : Nat) : Prop :=
  ∃ N, ∀ n, N ≤ n → ∀ ip, s.step ip n (.destroy y) = .ub ∧ s.step ip n (.clear ⟨y, []⟩) = .ub

end Heap
end GCV
