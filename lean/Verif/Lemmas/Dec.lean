import Verif.Lemmas.Map

/-!
# Decidability of well-formedness

Only used to check concrete examples.
-/

namespace GCV

instance (a b : Bytes) : Decidable (strLT a b) := decidable_of_iff _ (blt_iff a b)

instance (m : Entries) : Decidable (KeysSorted m) :=
  inferInstanceAs (Decidable (List.Pairwise _ _))

namespace GC

mutual
def decWF : (g : GC) → Decidable (WF g)
  | vector v => decWFL v
  | map m => @instDecidableAnd _ _ (inferInstanceAs (Decidable (KeysSorted m))) (decWFM m)
  | matInt m => inferInstanceAs (Decidable (m.wf = true))
  | matLong m => inferInstanceAs (Decidable (m.wf = true))
  | matReal m => inferInstanceAs (Decidable (m.wf = true))
  | matComplex m => inferInstanceAs (Decidable (m.wf = true))
  | notype => .isTrue trivial
  | pointer _ => .isTrue trivial
  | bool _ => .isTrue trivial
  | int _ => .isTrue trivial
  | long _ => .isTrue trivial
  | real _ => .isTrue trivial
  | complex _ => .isTrue trivial
  | string _ => .isTrue trivial
  | vecPointer _ => .isTrue trivial
  | vecBool _ => .isTrue trivial
  | vecInt _ => .isTrue trivial
  | vecLong _ => .isTrue trivial
  | vecReal _ => .isTrue trivial
  | vecComplex _ => .isTrue trivial
  | vecString _ => .isTrue trivial
termination_by structural g => g
def decWFL : (v : List GC) → Decidable (WFL v)
  | [] => .isTrue trivial
  | x :: r => @instDecidableAnd _ _ (decWF x) (decWFL r)
termination_by structural v => v
def decWFM : (m : Entries) → Decidable (WFM m)
  | [] => .isTrue trivial
  | (_, x) :: r => @instDecidableAnd _ _ (decWF x) (decWFM r)
termination_by structural v => v
end

instance (g : GC) : Decidable (WF g) := decWF g

/-- A tree that uses many kinds of nodes, as a witness for non-vacuity. -/
def sample : GC :=
  map [(str "a", int 1), (str "b", vector [vecInt [1, 2], vecString [str "x", []],
      map [([], bool true)]]),
    (str "c", matReal ⟨2, 1, [.zero, .zero]⟩), (str "d", string (str "text"))]

example : WF sample := by decide +kernel

end GC
end GCV
