import Verif.Spec.Tree

/-!
# Specification of copying, assignment and merging
-/

namespace GCV
namespace GC

/-- Sizes that fit the 32 bit `unsigned` used by the code for sizes, and keys without NUL
(keys are passed around as C strings), for one node. -/
def fitsNode : GC → Bool
  | vecPointer v => decide (v.length < 2 ^ 32)
  | vecBool v => decide (v.length < 2 ^ 32)
  | vecInt v => decide (v.length < 2 ^ 32)
  | vecLong v => decide (v.length < 2 ^ 32)
  | vecReal v => decide (v.length < 2 ^ 32)
  | vecComplex v => decide (v.length < 2 ^ 32)
  | vecString v => decide (v.length < 2 ^ 32)
  | vector v => decide (v.length < 2 ^ 32)
  | map m => m.all fun e => noNul e.1
  | _ => true

/-- Every vector in the tree has less than 2^32 elements and no key contains a NUL. -/
def Fits (g : GC) : Prop := every fitsNode g = true

instance (g : GC) : Decidable (Fits g) := inferInstanceAs (Decidable (_ = _))

/-- Value stored under a key; an absent key reads as an empty container. -/
def valueAt (a : GC) (k : Bytes) : GC :=
  match a with
  | map m => ((m.find? fun e => e.1 == k).map Prod.snd).getD notype
  | _ => notype

/-- Element `i`; out of range it reads as an empty container. -/
def elemAt (a : GC) (i : Nat) : GC :=
  match a with
  | vector v => v[i]?.getD notype
  | _ => notype

/-- `a` holds a non-empty vector of the very kind `b` is. -/
def sameKindNonEmpty : GC → GC → Bool
  | vecPointer _, vecPointer w => !w.isEmpty
  | vecBool _, vecBool w => !w.isEmpty
  | vecInt _, vecInt w => !w.isEmpty
  | vecLong _, vecLong w => !w.isEmpty
  | vecReal _, vecReal w => !w.isEmpty
  | vecComplex _, vecComplex w => !w.isEmpty
  | vecString _, vecString w => !w.isEmpty
  | vector _, vector w => !w.isEmpty
  | _, _ => false

/-- Vector without elements. -/
def isEmptyVec : GC → Bool
  | vecPointer v => v.isEmpty
  | vecBool v => v.isEmpty
  | vecInt v => v.isEmpty
  | vecLong v => v.isEmpty
  | vecReal v => v.isEmpty
  | vecComplex v => v.isEmpty
  | vecString v => v.isEmpty
  | vector v => v.isEmpty
  | _ => false

mutual

/-- `Clean b a`: nothing of `a` survives under `b`.
At every position of `b`: an empty vector does not meet a non-empty vector of the same
kind in `a`, and a map of `b` has every key of the map of `a` it meets. -/
def Clean : GC → GC → Prop
  | vector v, a => (isEmptyVec (vector v) = true → sameKindNonEmpty (vector v) a = false) ∧
      CleanL v a 0
  | map m, a => (∀ ma, a = map ma → ∀ k ∈ ma.map Prod.fst, k ∈ m.map Prod.fst) ∧ CleanM m a
  | b, a => isEmptyVec b = true → sameKindNonEmpty b a = false
termination_by structural b => b

/-- `Clean` for the elements from index `i` on. -/
def CleanL : List GC → GC → Nat → Prop
  | [], _, _ => True
  | x :: r, a, i => Clean x (elemAt a i) ∧ CleanL r a (i + 1)
termination_by structural b => b

/-- `Clean` for the values of a map. -/
def CleanM : Entries → GC → Prop
  | [], _ => True
  | (k, x) :: r, a => Clean x (valueAt a k) ∧ CleanM r a
termination_by structural b => b

end

end GC
end GCV
