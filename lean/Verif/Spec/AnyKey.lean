import Verif.Spec.Access
import Verif.Spec.Wire
import Verif.Spec.Elems

/-! # Specification vocabulary: keys with NUL bytes -/

namespace GCV
namespace GC

/-- What is found going down from key to key. -/
def along : List Bytes → GC → Option GC
  | [], g => some g
  | k :: ks, g => (field g (beforeNul k)).bind (along ks)

/-- Types of which `get_number_at` (up to real) or `get_complex_number_at` (up to complex) reads elements. -/
def severalNumbers (top : Nat) (t : Ty) : Bool := decide (1 ≤ shape t) && (width t).any (· ≤ top)

/-- Stored value, or throw. -/
def orThrow {α β : Type} (o : Option α) (f : α → Out β) : Out β :=
  match o with
  | some x => f x
  | none => .throw

/-- `g'` is `g` with `y` under `k`. -/
def Stored (g : GC) (k : Bytes) (y g' : GC) : Prop :=
  ∃ m, g' = map m ∧ KeysSorted m ∧ ∀ l, field g' l = if l = k then some y else field g l

end GC
end GCV
