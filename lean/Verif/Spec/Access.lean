import Verif.Spec.Tree

/-!
# Specification vocabulary: what is stored under a key
-/

namespace GCV
namespace GC

/-- What the container stores under a key, if it is a map that has it. -/
def field (g : GC) (k : Bytes) : Option GC :=
  match g with
  | map m => (m.find? fun e => e.1 == k).map Prod.snd
  | _ => none

/-- Keys of the container. -/
def keysOf : GC → List Bytes
  | map m => m.map Prod.fst
  | _ => []

/-- `k` is the first of the keys `ks` that the container has. -/
def FirstPresent (g : GC) (ks : List Bytes) (k : Bytes) : Prop :=
  ∃ pre post, ks = pre ++ k :: post ∧ (∀ p ∈ pre, field g p = none) ∧ (field g k).isSome

end GC
end GCV
