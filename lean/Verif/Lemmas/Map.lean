import Verif.Model.Core
import Verif.Spec.Tree

/-! # Lemmas on the byte order, association lists and vectors -/

namespace GCV

theorem ult_iff (x y : Byte) : x.ult y = true ↔ x.toNat < y.toNat := by
  simp [BitVec.ult]

theorem blt_iff : ∀ a b : Bytes, blt a b = true ↔ strLT a b
  | [], [] => by simp [blt, strLT]
  | [], y :: ys => by simp [blt, strLT]
  | x :: xs, [] => by
    simp only [blt, strLT, Bool.false_eq_true, false_iff]
    rintro (⟨c, t, h⟩ | ⟨p, a, b, s, t, _, h, _⟩)
    · simp at h
    · cases p <;> simp at h
  | x :: xs, y :: ys => by
    rw [blt, Bool.or_eq_true, Bool.and_eq_true, beq_iff_eq, ult_iff, blt_iff xs ys]
    constructor
    · rintro (h | ⟨rfl, h⟩)
      · exact .inr ⟨[], x, y, xs, ys, rfl, rfl, h⟩
      · rcases h with ⟨c, t, rfl⟩ | ⟨p, a, b, s, t, rfl, rfl, h⟩
        · exact .inl ⟨c, t, rfl⟩
        · exact .inr ⟨x :: p, a, b, s, t, rfl, rfl, h⟩
    · rintro (⟨c, t, h⟩ | ⟨p, a, b, s, t, h1, h2, h⟩)
      · simp at h; exact .inr ⟨h.1.symm, .inl ⟨c, t, h.2⟩⟩
      · cases p with
        | nil => simp at h1 h2; rw [h1.1, h2.1]; exact .inl h
        | cons q p =>
          simp at h1 h2
          exact .inr ⟨h1.1.trans h2.1.symm, .inr ⟨p, a, b, s, t, h1.2, h2.2, h⟩⟩

theorem blt_irrefl : ∀ a, blt a a = false
  | [] => rfl
  | x :: xs => by
    have := blt_irrefl xs
    simp [blt, BitVec.ult, this]

theorem blt_trans : ∀ {a b c}, blt a b = true → blt b c = true → blt a c = true
  | [], [], _, h, _ => by simp [blt] at h
  | [], _ :: _, [], _, h => by simp [blt] at h
  | [], _ :: _, _ :: _, _, _ => by simp [blt]
  | _ :: _, [], _, h, _ => by simp [blt] at h
  | _ :: _, _ :: _, [], _, h => by simp [blt] at h
  | x :: xs, y :: ys, z :: zs, h1, h2 => by
    rw [blt, Bool.or_eq_true, Bool.and_eq_true, beq_iff_eq, ult_iff] at *
    rcases h1 with h1 | ⟨rfl, h1⟩
    · rcases h2 with h2 | ⟨rfl, h2⟩
      · left; omega
      · left; omega
    · rcases h2 with h2 | ⟨rfl, h2⟩
      · left; omega
      · right; exact ⟨rfl, blt_trans h1 h2⟩

theorem blt_total : ∀ {a b}, a ≠ b → blt a b = false → blt b a = true
  | [], [], h, _ => absurd rfl h
  | [], _ :: _, _, h => by simp [blt] at h
  | _ :: _, [], _, _ => by simp [blt]
  | x :: xs, y :: ys, hne, h => by
    rw [blt, Bool.or_eq_false_iff, Bool.and_eq_false_iff] at h
    rw [blt, Bool.or_eq_true, Bool.and_eq_true, beq_iff_eq, ult_iff]
    obtain ⟨h1, h2⟩ := h
    have h1' : ¬ x.toNat < y.toNat := by rw [← ult_iff]; simp [h1]
    by_cases hxy : x = y
    · subst hxy
      right; refine ⟨rfl, blt_total (fun h => hne (by rw [h])) ?_⟩
      simpa using h2
    · left
      have : x.toNat ≠ y.toNat := fun h => hxy (BitVec.eq_of_toNat_eq h)
      omega

theorem strLT_irrefl (a : Bytes) : ¬ strLT a a := by
  rw [← blt_iff, blt_irrefl]; simp

theorem strLT_trans {a b c : Bytes} (h1 : strLT a b) (h2 : strLT b c) : strLT a c := by
  rw [← blt_iff] at *; exact blt_trans h1 h2

theorem strLT_total {a b : Bytes} (hne : a ≠ b) : strLT a b ∨ strLT b a := by
  rw [← blt_iff, ← blt_iff]
  cases h : blt a b
  · exact .inr (blt_total hne h)
  · exact .inl rfl

/-! ## Lookup, insertion, erasure -/

theorem mfind_mset_same (k : Bytes) (v : GC) : ∀ m, mfind k (mset k v m) = some v
  | [] => by simp [mset, mfind]
  | (k', v') :: r => by
    rw [mset]
    split
    · simp [mfind]
    · split
      · simp [mfind]
      · next h _ => simp [mfind, h, mfind_mset_same k v r]

theorem mfind_mset_other {k l : Bytes} (h : l ≠ k) (v : GC) :
    ∀ m, mfind l (mset k v m) = mfind l m
  | [] => by simp [mset, mfind, h]
  | (k', v') :: r => by
    rw [mset]
    split
    · next e => subst e; simp [mfind, h]
    · split
      · simp [mfind, h]
      · simp [mfind, mfind_mset_other h v r]

theorem mem_mset {k : Bytes} {v : GC} : ∀ {m : Entries} {e}, e ∈ mset k v m → e = (k, v) ∨ e ∈ m
  | [], e, h => by simp [mset] at h; exact .inl h
  | (k', v') :: r, e, h => by
    rw [mset] at h
    split at h
    · simp at h; rcases h with h | h
      · exact .inl h
      · exact .inr (.tail _ h)
    · split at h
      · simp at h; rcases h with h | h | h
        · exact .inl h
        · exact .inr (by simp [h])
        · exact .inr (.tail _ h)
      · simp at h; rcases h with h | h
        · exact .inr (by simp [h])
        · rcases mem_mset h with h | h
          · exact .inl h
          · exact .inr (.tail _ h)

theorem sorted_mset (k : Bytes) (v : GC) : ∀ m, KeysSorted m → KeysSorted (mset k v m)
  | [], _ => by simp [mset, KeysSorted]
  | (k', v') :: r, h => by
    rw [KeysSorted, List.pairwise_cons] at h
    obtain ⟨h1, h2⟩ := h
    rw [mset]
    split
    · next e => subst e; rw [KeysSorted, List.pairwise_cons]; exact ⟨h1, h2⟩
    · next hne =>
      split
      · next hlt =>
        rw [blt_iff] at hlt
        rw [KeysSorted, List.pairwise_cons, List.pairwise_cons]
        refine ⟨?_, h1, h2⟩
        intro e he
        simp at he
        rcases he with rfl | he
        · exact hlt
        · exact strLT_trans hlt (h1 e he)
      · next hnlt =>
        have hgt : strLT k' k := by
          rw [← blt_iff]; exact blt_total hne (by simpa using hnlt)
        rw [KeysSorted, List.pairwise_cons]
        refine ⟨?_, sorted_mset k v r h2⟩
        intro e he
        rcases mem_mset he with rfl | he
        · exact hgt
        · exact h1 e he

theorem mem_merase {k : Bytes} : ∀ {m : Entries} {e}, e ∈ merase k m → e ∈ m
  | [], _, h => h
  | (k', v') :: r, e, h => by
    rw [merase] at h
    split at h
    · exact .tail _ h
    · simp at h; rcases h with h | h
      · simp [h]
      · exact .tail _ (mem_merase h)

theorem sorted_merase (k : Bytes) : ∀ m, KeysSorted m → KeysSorted (merase k m)
  | [], h => h
  | (k', v') :: r, h => by
    rw [KeysSorted, List.pairwise_cons] at h
    rw [merase]
    split
    · exact h.2
    · rw [KeysSorted, List.pairwise_cons]
      exact ⟨fun e he => h.1 e (mem_merase he), sorted_merase k r h.2⟩

theorem mfind_none_of_lt {k : Bytes} : ∀ {m : Entries}, (∀ e ∈ m, strLT k e.1) → mfind k m = none
  | [], _ => rfl
  | (k', v') :: r, h => by
    have h1 := h (k', v') (by simp)
    have : k ≠ k' := by rintro rfl; exact strLT_irrefl _ h1
    simp [mfind, this, mfind_none_of_lt fun e he => h e (.tail _ he)]

theorem mfind_merase_same (k : Bytes) : ∀ m, KeysSorted m → mfind k (merase k m) = none
  | [], _ => rfl
  | (k', v') :: r, h => by
    rw [KeysSorted, List.pairwise_cons] at h
    rw [merase]
    split
    · next e => subst e; exact mfind_none_of_lt h.1
    · next hne => simp [mfind, hne, mfind_merase_same k r h.2]

theorem mfind_merase_other {k l : Bytes} (h : l ≠ k) : ∀ m, mfind l (merase k m) = mfind l m
  | [] => rfl
  | (k', v') :: r => by
    rw [merase]
    split
    · next e => subst e; simp [mfind, h]
    · simp [mfind, mfind_merase_other h r]

theorem mfind_isSome {k : Bytes} : ∀ {m : Entries}, (mfind k m).isSome ↔ k ∈ m.map Prod.fst
  | [] => by simp [mfind]
  | (k', v') :: r => by
    rw [mfind]
    split
    · next e => simp [e]
    · next hne => simp [hne, mfind_isSome (m := r)]

theorem mem_of_mfind {k : Bytes} {v : GC} : ∀ {m : Entries}, mfind k m = some v → (k, v) ∈ m
  | (k', v') :: r, h => by
    rw [mfind] at h
    split at h
    · next e => simp at h; simp [e, h]
    · exact .tail _ (mem_of_mfind h)

theorem mfind_of_mem {k : Bytes} {v : GC} : ∀ {m : Entries}, KeysSorted m → (k, v) ∈ m →
    mfind k m = some v
  | (k', v') :: r, hs, h => by
    rw [KeysSorted, List.pairwise_cons] at hs
    rw [mfind]
    split
    · next e =>
      rcases List.mem_cons.1 h with h | h
      · simp at h; rw [h.2]
      · exact absurd (hs.1 _ h) (by rw [e]; exact strLT_irrefl _)
    · next hne =>
      rcases List.mem_cons.1 h with h | h
      · simp at h; exact absurd h.1 hne
      · exact mfind_of_mem hs.2 h

/-- Two sorted maps with the same lookups are the same list. -/
theorem sorted_ext : ∀ {m n : Entries}, KeysSorted m → KeysSorted n →
    (∀ k, mfind k m = mfind k n) → m = n
  | [], [], _, _, _ => rfl
  | [], (k, v) :: r, _, _, h => by have := h k; simp [mfind] at this
  | (k, v) :: r, [], _, _, h => by have := h k; simp [mfind] at this
  | (k, v) :: r, (l, w) :: s, hm, hn, h => by
    rw [KeysSorted, List.pairwise_cons] at hm hn
    have hkl : k = l := by
      apply Decidable.byContradiction; intro hne
      rcases strLT_total hne with hlt | hlt
      · have h1 := h k
        have : mfind k ((l, w) :: s) = none := mfind_none_of_lt (by
          intro e he; simp at he
          rcases he with rfl | he
          · exact hlt
          · exact strLT_trans hlt (hn.1 e he))
        rw [this] at h1; simp [mfind] at h1
      · have h1 := h l
        have : mfind l ((k, v) :: r) = none := mfind_none_of_lt (by
          intro e he; simp at he
          rcases he with rfl | he
          · exact hlt
          · exact strLT_trans hlt (hm.1 e he))
        rw [this] at h1; simp [mfind] at h1
    subst hkl
    have hv := h k
    simp [mfind] at hv; subst hv
    congr 1
    apply sorted_ext hm.2 hn.2
    intro q
    by_cases hq : q = k
    · subst hq; rw [mfind_none_of_lt hm.1, mfind_none_of_lt hn.1]
    · have := h q; simpa [mfind, hq] using this

/-- Inserting a new greatest key appends. -/
theorem mset_append {k : Bytes} {v : GC} : ∀ {m : Entries}, (∀ e ∈ m, strLT e.1 k) →
    mset k v m = m ++ [(k, v)]
  | [], _ => rfl
  | (k', v') :: r, h => by
    have h1 := h (k', v') (by simp)
    have hne : k ≠ k' := by rintro rfl; exact strLT_irrefl _ h1
    have hnlt : blt k k' = false := by
      cases hb : blt k k'
      · rfl
      · rw [blt_iff] at hb; exact absurd (strLT_trans h1 hb) (strLT_irrefl _)
    simp [mset, hne, hnlt, mset_append fun e he => h e (.tail _ he)]

theorem cstr_of_noNul {s : Bytes} (h : noNul s = true) : cstr s = s := by
  unfold cstr
  induction s with
  | nil => rfl
  | cons x r ih =>
    simp [noNul] at h
    rw [List.takeWhile_cons]
    rw [if_pos (by simpa using h.1), ih (by simpa [noNul] using h.2)]

/-! ## Vectors -/

theorem u32_of_lt {n : Nat} (h : n < 2 ^ 32) : u32 n = n := Nat.mod_eq_of_lt h

@[simp] theorem length_resizeL {α : Type} (d : α) (n : Nat) (l : List α) :
    (resizeL d n l).length = n := by
  simp [resizeL]; omega

theorem length_allocL {α : Type} (d : α) (n : Nat) (l : List α) (h : 0 < n) :
    (allocL d n l).length = n := by simp [allocL, h]

theorem allocL_nil_zero {α : Type} (d : α) : allocL d 0 ([] : List α) = [] := rfl

theorem length_allocL_nil {α : Type} (d : α) (n : Nat) : (allocL d n ([] : List α)).length = n := by
  unfold allocL; split
  · simp
  · simp; omega

theorem copyL_eq {α : Type} {v w : List α} (h : v.length = w.length) : copyL v w = .ok v := by
  simp [copyL, h]

/-- What `set_vec_*(v)` stores: `v`, provided its size fits `unsigned` and it is not empty or
the old vector is. -/
theorem copy_alloc {α : Type} (d : α) {v w : List α} (h : v.length < 2 ^ 32)
    (h0 : v ≠ [] ∨ w = []) : copyL v (allocL d (u32 v.length) w) = .ok v := by
  rw [u32_of_lt h]
  apply copyL_eq
  rcases h0 with h0 | h0
  · rw [length_allocL]; exact List.length_pos_iff.2 h0
  · rw [h0, length_allocL_nil]

end GCV
