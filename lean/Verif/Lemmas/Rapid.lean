import Verif.Model.Rapid
import Verif.Spec.Rfc
import Verif.Lemmas.Writer

/-! # Lemmas on the RapidJSON reader -/

namespace GCV
namespace Rapid
open Json

/-! ## Blanks -/

theorem blank_iff (c : Byte) : blank c = true ↔ c = 32 ∨ c = 9 ∨ c = 10 ∨ c = 13 := by
  simp only [blank, Bool.or_eq_true, beq_iff_eq]
  constructor
  · rintro (((h | h) | h) | h) <;> simp [h]
  · rintro (h | h | h | h) <;> simp [h]

theorem skip_split : ∀ t : Bytes, ∃ b, t = b ++ skip t ∧ Rfc.Blanks b
  | [] => ⟨[], rfl, by intro c hc; cases hc⟩
  | c :: r => by
    by_cases h : blank c = true
    · obtain ⟨b, h1, h2⟩ := skip_split r
      refine ⟨c :: b, ?_, ?_⟩
      · rw [skip, if_pos h, List.cons_append, ← h1]
      · intro d hd
        rcases List.mem_cons.1 hd with rfl | hd
        · exact (blank_iff _).1 h
        · exact h2 d hd
    · exact ⟨[], by rw [skip, if_neg h]; rfl, by intro c hc; cases hc⟩

theorem skip_blanks : ∀ (b t : Bytes), Rfc.Blanks b → skip (b ++ t) = skip t
  | [], _, _ => rfl
  | c :: b, t, h => by
    rw [List.cons_append, skip, if_pos ((blank_iff c).2 (h c (by simp)))]
    exact skip_blanks b t fun d hd => h d (.tail _ hd)

theorem skip_of_not {c : Byte} {r : Bytes} (h : blank c = false) : skip (c :: r) = c :: r := by
  rw [skip, if_neg (by simp [h])]

theorem skip_skip : ∀ t : Bytes, skip (skip t) = skip t
  | [] => rfl
  | c :: r => by
    by_cases h : blank c = true
    · rw [skip, if_pos h, skip_skip r]
    · rw [skip, if_neg h, skip, if_neg h]

theorem length_skip (t : Bytes) : (skip t).length ≤ t.length := by
  obtain ⟨b, h, _⟩ := skip_split t
  have := congrArg List.length h
  rw [List.length_append] at this; omega

theorem consume_some {c : Byte} {t r : Bytes} : consume c t = some r ↔ t = c :: r := by
  cases t with
  | nil => simp [consume]
  | cons d t =>
    rw [consume]
    by_cases h : d = c
    · rw [if_pos h]; simp [h]
    · rw [if_neg h]; simp [h]

theorem consume_cons (c : Byte) (r : Bytes) : consume c (c :: r) = some r := consume_some.2 rfl

theorem consume_ne {c d : Byte} {r : Bytes} (h : d ≠ c) : consume c (d :: r) = none := by
  rw [consume, if_neg h]

/-! ## Strings -/

theorem hexDigit_iff {c : Byte} {n : Nat} : hexDigit c = some n ↔ Rfc.Hex c n := by
  unfold hexDigit Rfc.Hex
  have := c.isLt
  split
  · simp only [Option.some.injEq]; omega
  split
  · simp only [Option.some.injEq]; omega
  split
  · simp only [Option.some.injEq]; omega
  · simp only [reduceCtorEq, false_iff]; omega

theorem hex4_iff {a b c d : Byte} {u : Nat} : hex4 a b c d = some u ↔ Rfc.Hex4 [a, b, c, d] u := by
  unfold hex4 Rfc.Hex4
  constructor
  · intro h
    split at h
    · next i j k l h1 h2 h3 h4 =>
      simp only [Option.some.injEq] at h
      exact ⟨a, b, c, d, i, j, k, l, rfl, hexDigit_iff.1 h1, hexDigit_iff.1 h2, hexDigit_iff.1 h3, hexDigit_iff.1 h4,
        by omega⟩
    · cases h
  · rintro ⟨a', b', c', d', i, j, k, l, he, h1, h2, h3, h4, rfl⟩
    simp only [List.cons.injEq, and_true] at he
    obtain ⟨rfl, rfl, rfl, rfl⟩ := he
    rw [hexDigit_iff.2 h1, hexDigit_iff.2 h2, hexDigit_iff.2 h3, hexDigit_iff.2 h4]
    simp only [Option.some.injEq]; omega

theorem hex4_lt {h : Bytes} {u : Nat} (hh : Rfc.Hex4 h u) : u < 65536 ∧ ∃ a b c d, h = [a, b, c, d] := by
  obtain ⟨a, b, c, d, i, j, k, l, rfl, h1, h2, h3, h4, rfl⟩ := hh
  refine ⟨?_, a, b, c, d, rfl⟩
  have lt : ∀ {c n}, Rfc.Hex c n → n < 16 := by
    intro c n h
    rcases h with h | h | h <;> omega
  have := lt h1; have := lt h2; have := lt h3; have := lt h4
  omega

theorem or_low (i a b : Nat) (h : b < 2 ^ i) : 2 ^ i * a ||| b = 2 ^ i * a + b :=
  (Nat.two_pow_add_eq_or_of_lt h a).symm

theorem encode_eq {u : Nat} (h : u < 0x110000) : encode u = Rfc.utf8 u := by
  have hp : (BitVec.ofNat 32 u).toNat = u := by rw [BitVec.toNat_ofNat]; omega
  have m63 : ∀ n : Nat, n &&& 63 = n % 64 := fun n => Nat.and_two_pow_sub_one_eq_mod n 6
  have m255 : ∀ n : Nat, n &&& 255 = n % 256 := fun n => Nat.and_two_pow_sub_one_eq_mod n 8
  have o80 : ∀ n : Nat, 128 ||| n % 64 = 128 + n % 64 := fun n => or_low 6 2 (n % 64) (by omega)
  have byte : ∀ (x : BitVec 32) (n : Nat), x.toNat = n → x.setWidth 8 = BitVec.ofNat 8 n := by
    rintro x n rfl
    apply BitVec.eq_of_toNat_eq
    rw [BitVec.toNat_setWidth, BitVec.toNat_ofNat]
  have low : ∀ s : Nat, (0x80 ||| ((BitVec.ofNat 32 u >>> s) &&& 0x3F) : BitVec 32).toNat = 128 + u / 2 ^ s % 64 := by
    intro s
    rw [BitVec.toNat_or, BitVec.toNat_and, BitVec.toNat_ushiftRight, hp, Nat.shiftRight_eq_div_pow]
    show 128 ||| (u / 2 ^ s &&& 63) = _
    rw [m63, o80]
  have low0 : (0x80 ||| (BitVec.ofNat 32 u &&& 0x3F) : BitVec 32).toNat = 128 + u % 64 := by
    rw [BitVec.toNat_or, BitVec.toNat_and, hp]
    show 128 ||| (u &&& 63) = _
    rw [m63, o80]
  have top : ∀ (x : BitVec 32) (s i a : Nat), x.toNat = 2 ^ i * a → u / 2 ^ s < 2 ^ i → i ≤ 8 →
      (x ||| ((BitVec.ofNat 32 u >>> s) &&& 0xFF) : BitVec 32).toNat = 2 ^ i * a + u / 2 ^ s := by
    intro x s i a hx hi h8
    rw [BitVec.toNat_or, BitVec.toNat_and, BitVec.toNat_ushiftRight, hp, Nat.shiftRight_eq_div_pow, hx]
    show 2 ^ i * a ||| (u / 2 ^ s &&& 255) = _
    have : 2 ^ i ≤ 2 ^ 8 := Nat.pow_le_pow_right (by omega) h8
    rw [m255, Nat.mod_eq_of_lt (by omega), or_low _ _ _ hi]
  unfold encode Rfc.utf8
  dsimp only
  by_cases h1 : u ≤ 0x7F
  · rw [if_pos h1, if_pos (show u < 0x80 by omega)]
    congr 1
    refine byte _ _ ?_
    rw [BitVec.toNat_and, hp]
    show u &&& 255 = u
    rw [m255]; omega
  rw [if_neg h1, if_neg (show ¬ u < 0x80 by omega)]
  by_cases h2 : u ≤ 0x7FF
  · rw [if_pos h2, if_pos (show u < 0x800 by omega), byte _ _ (top 0xC0 6 6 3 rfl (by omega) (by omega)), byte _ _ low0]
  rw [if_neg h2, if_neg (show ¬ u < 0x800 by omega)]
  by_cases h3 : u ≤ 0xFFFF
  · rw [if_pos h3, if_pos (show u < 0x10000 by omega), byte _ _ (top 0xE0 12 5 7 rfl (by omega) (by omega)), byte _ _ (low 6),
      byte _ _ low0]
  · rw [if_neg h3, if_neg (show ¬ u < 0x10000 by omega), byte _ _ (top 0xF0 18 4 15 rfl (by omega) (by omega)), byte _ _ (low 12),
      byte _ _ (low 6), byte _ _ low0]

theorem escape_mem {e c : Byte} (h : (e, c) ∈ Rfc.escapes) : escape e = c ∧ c ≠ 0 := by
  simp only [Rfc.escapes, List.mem_cons, Prod.mk.injEq, List.not_mem_nil, or_false] at h
  rcases h with ⟨rfl, rfl⟩ | ⟨rfl, rfl⟩ | ⟨rfl, rfl⟩ | ⟨rfl, rfl⟩ | ⟨rfl, rfl⟩ | ⟨rfl, rfl⟩ | ⟨rfl, rfl⟩ | ⟨rfl, rfl⟩ <;>
    decide

theorem mem_escape {e : Byte} (h : escape e ≠ 0) : (e, escape e) ∈ Rfc.escapes := by
  unfold escape at h ⊢
  repeat' split
  all_goals first | (subst e; decide) | skip
  simp_all

theorem surrogates {u v : Nat} (h3 : 0xDC00 ≤ v) (h4 : v < 0xE000) :
    (((u - 0xD800) <<< 10) ||| (v - 0xDC00)) + 0x10000 = 0x10000 + 0x400 * (u - 0xD800) + (v - 0xDC00) := by
  have := or_low 10 (u - 0xD800) (v - 0xDC00) (by omega)
  rw [Nat.shiftLeft_eq, Nat.mul_comm, this]
  omega

/-- What stands for a text is read as that text. -/
theorem string_complete {s b : Bytes} (h : Rfc.Body s b) (r : Bytes) : string (b ++ 34 :: r) = some (s, r) := by
  induction h with
  | nil => rw [List.nil_append, string.eq_def]; rfl
  | plain h1 h2 h3 _ ih =>
    rw [List.cons_append, string.eq_def]; dsimp only; rw [if_neg h3, if_neg h2, if_neg (by omega), ih]; rfl
  | @escape e c s b h1 _ ih =>
    obtain ⟨h2, h3⟩ := escape_mem h1
    rw [List.cons_append, List.cons_append, string.eq_def]; dsimp only; rw [if_pos rfl]
    rw [if_pos (by rw [h2]; exact h3), ih, h2]; rfl
  | @unicode h u s b h1 h2 _ ih =>
    obtain ⟨hu, a, b', c, d, rfl⟩ := hex4_lt h1
    show string (92 :: 117 :: a :: b' :: c :: d :: (b ++ 34 :: r)) = _
    rw [string.eq_def]; dsimp only
    rw [if_pos rfl]
    rw [if_neg (by decide), if_pos rfl]
    simp only [hex4_iff.2 h1, ih]
    rw [if_neg (by omega), encode_eq (by omega)]; rfl
  | @pair h l u v s b h1 h2 h3 h4 h5 h6 _ ih =>
    obtain ⟨_, a, b', c, d, rfl⟩ := hex4_lt h1
    obtain ⟨_, a2, b2, c2, d2, rfl⟩ := hex4_lt h2
    show string (92 :: 117 :: a :: b' :: c :: d :: 92 :: 117 :: a2 :: b2 :: c2 :: d2 :: (b ++ 34 :: r)) = _
    rw [string.eq_def]; dsimp only
    rw [if_pos rfl]
    rw [if_neg (by decide), if_pos rfl]
    simp only [hex4_iff.2 h1, hex4_iff.2 h2, ih]
    rw [if_pos (by omega), if_pos (by omega), if_pos (by decide), if_neg (by omega), surrogates (u := u) h5 h6,
      encode_eq (by omega)]; rfl

theorem puts_some {a : Bytes} {x : Option (Bytes × Bytes)} {s r : Bytes} (h : puts a x = some (s, r)) :
    ∃ s', x = some (s', r) ∧ s = a ++ s' := by
  match x with
  | none => cases h
  | some (t, r') =>
    simp only [puts, Option.some.injEq, Prod.mk.injEq] at h
    obtain ⟨rfl, rfl⟩ := h
    exact ⟨t, rfl, rfl⟩

/-- What is read as a text stands for it. -/
theorem string_sound : ∀ (n : Nat) (t s r : Bytes), t.length ≤ n → string t = some (s, r) →
    ∃ b, Rfc.Body s b ∧ t = b ++ 34 :: r
  | _, [], s, r, _, h => by simp [string] at h
  | 0, _ :: _, _, _, hn, _ => by simp at hn
  | n + 1, c :: t, s, r, hn, h => by
    have ih := string_sound n
    simp only [List.length_cons] at hn
    rw [string.eq_def] at h
    dsimp only at h
    split at h
    · next hc =>
      subst hc
      split at h
      · cases h
      · next e t =>
        simp only [List.length_cons] at hn
        split at h
        · next he =>
          obtain ⟨s', h1, rfl⟩ := puts_some h
          obtain ⟨b, h2, rfl⟩ := ih _ _ _ (by omega) h1
          exact ⟨92 :: e :: b, .escape (mem_escape he) h2, rfl⟩
        · split at h
          · next he =>
            subst he
            split at h
            · next a b c d t =>
              simp only [List.length_cons] at hn
              split at h
              · cases h
              · next u hu =>
                have hu := hex4_iff.1 hu
                have := (hex4_lt hu).1
                split at h
                · next hs =>
                  split at h
                  · next hs' =>
                    split at h
                    · next x y a2 b2 c2 d2 t =>
                      simp only [List.length_cons] at hn
                      split at h
                      · next hxy =>
                        obtain ⟨rfl, rfl⟩ := hxy
                        split at h
                        · cases h
                        · next v hv =>
                          have hv := hex4_iff.1 hv
                          split at h
                          · cases h
                          · next hvr =>
                            obtain ⟨s', h1, es⟩ := puts_some h
                            obtain ⟨bb, h2, rfl⟩ := ih _ _ _ (by omega) h1
                            have hb := Rfc.Body.pair hu hv (by omega) (by omega) (by omega) (by omega) h2
                            rw [← encode_eq (by omega), ← surrogates (u := u) (v := v) (by omega) (by omega)] at hb
                            rw [← es] at hb
                            exact ⟨_, hb, rfl⟩
                      · cases h
                    · cases h
                  · cases h
                · next hs =>
                  obtain ⟨s', h1, rfl⟩ := puts_some h
                  obtain ⟨bb, h2, rfl⟩ := ih _ _ _ (by omega) h1
                  refine ⟨92 :: 117 :: [a, b, c, d] ++ bb, ?_, rfl⟩
                  rw [encode_eq (by omega)]
                  exact .unicode hu (by omega) h2
            · cases h
          · cases h
    · next hc =>
      split at h
      · next hq =>
        subst hq
        simp only [Option.some.injEq, Prod.mk.injEq] at h
        obtain ⟨rfl, rfl⟩ := h
        exact ⟨[], .nil, rfl⟩
      · next hq =>
        split at h
        · cases h
        · next hl =>
          obtain ⟨s', h1, rfl⟩ := puts_some h
          obtain ⟨b, h2, rfl⟩ := ih _ _ _ (by omega) h1
          exact ⟨c :: b, .plain (by omega) hq hc h2, rfl⟩

end Rapid
end GCV
