import Verif.Model.Names
import Verif.Lemmas.DeSerialize

/-! # C38: type names and tags -/

namespace GCV
namespace GC

/-- Two containers report the same type name exactly if they have the same type. -/
theorem C38_names_distinct (a b : GC) : a.get_type_name = b.get_type_name ↔ a.ty = b.ty := by
  unfold get_type_name
  constructor
  · intro h
    revert h
    generalize a.ty = s; generalize b.ty = t
    cases s <;> cases t <;> first | (intro _; rfl) | (intro h; exact absurd h (by decide +kernel))
  · intro h; rw [h]

/-- No type name is empty. -/
theorem C38_names_nonempty (a : GC) : a.get_type_name ≠ [] := by
  unfold get_type_name
  cases a.ty <;> decide +kernel

/-- The first four bytes `serialize` writes identify the type: containers of different types
start differently. -/
theorem C38_tags_distinct (g1 g2 : GC) (n1 n2 : Nat) (b1 b2 o1 o2 : Bytes) (k1 k2 : Int)
    (h1 : n1 < 2 ^ 31) (h2 : n2 < 2 ^ 31) (l1 : n1 ≤ b1.length) (l2 : n2 ≤ b2.length)
    (w1 : Writable g1) (w2 : Writable g2)
    (e1 : serialize n1 b1 g1 = .ok (o1, k1)) (e2 : serialize n2 b2 g2 = .ok (o2, k2))
    (h : o1.take 4 = o2.take 4) : g1.ty = g2.ty := by
  have key : ∀ {g n b o k}, n < 2 ^ 31 → n ≤ b.length → Writable g →
      serialize (n : Nat) b g = .ok (o, k) → o.take 4 = leBytes 4 g.ty.code := by
    intro g n b o k h31 hl hw he
    unfold serialize at he
    rw [ser_eq.1 g hw _ ⟨by simp, by simp; omega, by simp; omega⟩] at he
    unfold Wr.tryPut at he
    split at he
    · rw [Out.bind_ok] at he
      injection he with he
      injection he with he _
      rw [← he]
      have : ∃ r, enc g = leBytes 4 g.ty.code ++ r := by
        cases g <;> first
          | exact ⟨_, rfl⟩
          | exact ⟨[], by simp [enc, ty]⟩
      obtain ⟨r, hr⟩ := this
      simp only [Wr.write, hr, List.take_zero, List.nil_append, List.append_assoc]
      rw [List.take_append_of_le_length (by simp [length_leBytes]),
        List.take_of_length_le (by simp [length_leBytes])]
    · simp [Out.bind] at he
  have a1 := key h1 l1 w1 e1
  have a2 := key h2 l2 w2 e2
  rw [a1, a2] at h
  have h' := congrArg leValue h
  rw [leValue_le_of_lt (code_lt _), leValue_le_of_lt (code_lt _)] at h'
  have h3 := congrArg Ty.ofCode h'
  rw [ofCode_code, ofCode_code] at h3
  simpa using h3

/-- Every tag is recognised by the reader as the type it stands for, and the number of a
type is below 21. -/
theorem C38_tags_recognised (t : Ty) : Ty.ofCode t.code = some t ∧ t.code < 21 :=
  ⟨ofCode_code t, by cases t <;> decide⟩

example : Writable (vecInt [1]) ∧ (vecInt [1]).ty ≠ (int 1).ty := by decide +kernel

end GC
end GCV
