import Verif.Model.CInterface

/-!
# Specification vocabulary for the C interface

The cursor of a container: a stack of positions, each an element of the one below, the lowest one the container
itself, all of them existing.
-/

namespace GCV
namespace CApi
open GC

/-- A cursor into the tree `g`, top first. -/
inductive Chain (g : GC) : List (Option (List Sel)) → Prop
  | empty : Chain g []
  | root : Chain g [some []]
  | down {p : List Sel} {r : List (Option (List Sel))} {s : Sel} : Chain g (some p :: r) →
      (getAt (p ++ [s]) g).isSome = true → Chain g (some (p ++ [s]) :: some p :: r)

/-- The explorer of a name. -/
def Lib.named (id : Bytes) (l : Lib) : Option Explorer := (l.find id).bind fun a => l.heap[a]?

/-- The selected explorer. -/
def Lib.current (l : Lib) : Option Explorer := l.active.bind fun a => l.heap[a]?

/-- The container that the cursor of the selected explorer points to. -/
def Lib.top (l : Lib) : Option GC :=
  l.current.bind fun e => e.head.head?.bind fun q => q.bind fun p => getAt p e.data

/-- The name that a call takes. -/
def Call.id? : Call → Option Bytes
  | .new id => some id
  | .select id => some id
  | .memPtr id => some id
  | .delete id => some id
  | .fillForTest _ id => some id
  | _ => none

/-- Is the call `GC_fill_for_test`? -/
def Call.isFill : Call → Bool
  | .fillForTest _ _ => true
  | _ => false

/-- The states that calls lead to from the start of the program. -/
def Reachable (l : Lib) : Prop := ∃ cs, runs cs .init = some l

/-- The same without `GC_fill_for_test`. -/
def ReachableNoFill (l : Lib) : Prop := ∃ cs, (∀ c ∈ cs, c.isFill = false) ∧ runs cs .init = some l

end CApi
end GCV
