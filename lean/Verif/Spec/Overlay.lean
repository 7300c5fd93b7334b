import Verif.Spec.Copy

/-!
# Specification: a container laid over another one

`Overlaid b a r`: `r` is what is seen when `b` is laid over `a`.

* A scalar, a string, a matrix, a non-empty vector covers everything.
* An empty vector is transparent over a vector of the same kind, and covers everything else.
* An element of a VECTOR is laid over the element at the same index, if there is one.
* The value of a key is laid over the value of the same key, if there is one; keys that only the
  lower map has stay visible.
-/

namespace GCV
namespace GC

/-- The keys, for a map. -/
def mapKeys : GC → List Bytes
  | map m => m.map Prod.fst
  | _ => []

mutual

def Overlaid : GC → GC → GC → Prop
  | vector v, a, r =>
    if v = [] ∧ a.ty = .VECTOR then r = a else ∃ w, r = vector w ∧ OverlaidL v a 0 w
  | map m, a, r =>
    r.ty = .MAP ∧ (∀ k, k ∈ mapKeys r ↔ k ∈ m.map Prod.fst ∨ k ∈ mapKeys a) ∧
      (∀ k, k ∉ m.map Prod.fst → valueAt r k = valueAt a k) ∧ OverlaidM m a r
  | b, a, r => if isEmptyVec b = true ∧ a.ty = b.ty then r = a else r = b
termination_by structural b => b

/-- Elements from index `i` on. -/
def OverlaidL : List GC → GC → Nat → List GC → Prop
  | [], _, _, w => w = []
  | x :: r, a, i, w => ∃ y s, w = y :: s ∧ Overlaid x (elemAt a i) y ∧ OverlaidL r a (i + 1) s
termination_by structural b => b

/-- Values of the keys of the upper map. -/
def OverlaidM : Entries → GC → GC → Prop
  | [], _, _ => True
  | (k, x) :: r, a, res => Overlaid x (valueAt a k) (valueAt res k) ∧ OverlaidM r a res
termination_by structural b => b

end

/-- One map without NUL in its keys. -/
def plainKeysNode : GC → Bool
  | map m => m.all fun e => noNul e.1
  | _ => true

/-- No key contains a NUL byte. -/
def PlainKeys (g : GC) : Prop := every plainKeysNode g = true

instance (g : GC) : Decidable (PlainKeys g) := inferInstanceAs (Decidable (_ = _))

/-- One vector of less than 2^32 elements. -/
def shortNode : GC → Bool
  | vecPointer v => decide (v.length < 2 ^ 32)
  | vecBool v => decide (v.length < 2 ^ 32)
  | vecInt v => decide (v.length < 2 ^ 32)
  | vecLong v => decide (v.length < 2 ^ 32)
  | vecReal v => decide (v.length < 2 ^ 32)
  | vecComplex v => decide (v.length < 2 ^ 32)
  | vecString v => decide (v.length < 2 ^ 32)
  | vector v => decide (v.length < 2 ^ 32)
  | _ => true

/-- Every vector has less than 2^32 elements. -/
def ShortVectors (g : GC) : Prop := every shortNode g = true

instance (g : GC) : Decidable (ShortVectors g) := inferInstanceAs (Decidable (_ = _))

end GC
end GCV
