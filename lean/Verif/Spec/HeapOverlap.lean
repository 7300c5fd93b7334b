import Verif.Spec.Heap
import Verif.Model.HeapOps

/-!
# `x = y` with `y` inside `x`: when `y` is lost

Specification (no code is modelled here).  `x` holds the tree `g`, and the path `p` leads from `x` to `y`.  `ip` says whether
a vector that grows from one length to another stays where it is.
-/

namespace GCV
namespace Heap
open GC

/-- `x = y` releases `y` or something that `y` is inside of, and reads it after that:

* `y` is not kept in the container itself, and is of another type than `x`;
* both are vectors, `y` has elements, and `x` is cut before the element that `y` is in;
* both are vectors, `y` is longer than `x`, and `x` moves to other storage when it grows;
* both are vectors, and `x[i] = y[i]`, which is one of the assignments to be made, replaces the element `i` of `x` that `y`
  is in by something kept in the container itself, or is an assignment of this kind in its turn;
* both are maps, and the same holds of `x[k] = y[k]`, where `k` is the key of the entry of `x` that `y` is in. -/
inductive Lost (ip : Nat → Nat → Bool) : GC → List Sel → Prop
  | other {g y : GC} {p : List Sel} : p ≠ [] → getAt p g = some y → immediate y = false → g.ty ≠ y.ty → Lost ip g p
  | cut {v w : List GC} {i : Nat} {q : List Sel} : getAt (.idx i :: q) (vector v) = some (vector w) → w ≠ [] →
      w.length ≤ i → Lost ip (vector v) (.idx i :: q)
  | moved {v w : List GC} {i : Nat} {q : List Sel} : getAt (.idx i :: q) (vector v) = some (vector w) →
      v.length < w.length → ip v.length w.length = false → Lost ip (vector v) (.idx i :: q)
  | replaced {v w : List GC} {i : Nat} {q : List Sel} {y : GC} : getAt (.idx i :: q) (vector v) = some (vector w) →
      w[i]? = some y → immediate y = true → Lost ip (vector v) (.idx i :: q)
  | elem {v w : List GC} {i : Nat} {q : List Sel} {x : GC} : getAt (.idx i :: q) (vector v) = some (vector w) →
      i < w.length → v[i]? = some x → Lost ip x (q ++ [.idx i]) → Lost ip (vector v) (.idx i :: q)
  | replacedEntry {e w : Entries} {k : Bytes} {q : List Sel} {y : GC} : getAt (.key k :: q) (map e) = some (map w) →
      mfind k w = some y → immediate y = true → Lost ip (map e) (.key k :: q)
  | entry {e w : Entries} {k : Bytes} {q : List Sel} {x y : GC} : getAt (.key k :: q) (map e) = some (map w) →
      mfind k w = some y → mfind k e = some x → Lost ip x (q ++ [.key k]) → Lost ip (map e) (.key k :: q)

/-- `x = y` changes nothing, wherever `y` is: both are vectors, or both are maps, and `y` is empty. -/
def Idle (y x : GC) : Prop := (y = vector [] ∨ y = map []) ∧ x.ty = y.ty

/-- The element `t` after `v[t] = w[t]`. -/
def assigned (w v : List GC) (t : Nat) : Option GC :=
  (w[t]?).bind fun x => (v[t]?).bind fun y => result (from_gc x y)

/-- What `x = x[i]` makes of a vector `x` that does not grow, from the elements `v` to the elements `r`.

* `x[i]` is an empty vector: nothing changes.
* `x[i]` is a vector of the elements `w`, as many as `x` has or fewer: `x` gets their number; the elements before `i` are
  assigned; then `x[i] = x[i][i]` makes `w'` of `w`, and the elements after `i` are assigned from `w'`, as far as it goes. -/
inductive Sinks (i : Nat) : List GC → List GC → Prop
  | stop {v : List GC} : v[i]? = some (vector []) → Sinks i v v
  | step {v w w' r : List GC} : v[i]? = some (vector w) → i < w.length → w.length ≤ v.length → Sinks i w w' →
      r.length = w.length → (∀ t, t < i → r[t]? = assigned w v t) → r[i]? = some (vector w') →
      (∀ t, i < t → t < w'.length → r[t]? = assigned w' v t) →
      (∀ t, i < t → w'.length ≤ t → t < w.length → r[t]? = v[t]?) → Sinks i v r

end Heap
end GCV
