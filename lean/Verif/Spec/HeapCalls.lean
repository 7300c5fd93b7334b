import Verif.Spec.Heap
import Verif.Model.HeapCalls

/-!
# Programs with all the calls, on values

What a program is supposed to leave in its variables.  Only trees: no addresses, no releases.
-/

namespace GCV
namespace Heap
open GC

/-- What a step of a program does to the values of its variables: a call leaves what it leaves on trees, also when it ends
with an exception. -/
def Vals.xstep (E : Vals) : XOp → Vals
  | .old op => E.step op
  | .call x op => E.at x fun g => (GC.step op g).state?
  | .merge x y => match E.get y with
    | some src => E.at x fun g => (merge src g).state?
    | none => E

/-- Steps that may be made when the variables have the values `E`: arguments the functions are made for, a call that does
not leave C++ on this value, whose result has no vector of 2^32 elements or more, with matrices for arguments that have as
many elements as their sizes say, and a `merge` between places of which neither is inside the other. -/
def XOp.Ok (E : Vals) : XOp → Prop
  | .old op => op.Ok
  | .call x op => inMemory op = true ∧ op.argsOk (fun m => m.wf = true) ∧
      ∀ g, E.get x = some g → ∃ g', (GC.step op g).state? = some g' ∧ Fits g'
  | .merge x y => Apart x y

/-- Every step of the program may be made when it is made. -/
def OkRun : Vals → List XOp → Prop
  | _, [] => True
  | E, op :: ops => op.Ok E ∧ OkRun (E.xstep op) ops

end Heap
end GCV
