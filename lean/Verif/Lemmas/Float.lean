import Verif.Lemmas.Round

/-! # Single precision numbers: auxiliary facts -/

namespace GCV
namespace F32

set_option exponentiation.threshold 3000

theorem pack_parts (n : Bool) {b : Nat} (h : b < 2 ^ 31) :
    (pack n b).sign = n ∧ (pack n b).expo = b / 2 ^ 23 ∧ (pack n b).frac = b % 2 ^ 23 := by
  unfold pack sign expo frac
  cases n
  · simp only [Bool.false_eq_true, if_false, BitVec.msb_eq_decide, BitVec.toNat_ofNat, decide_eq_false_iff_not]
    omega
  · simp only [if_true, BitVec.msb_eq_decide, BitVec.toNat_ofNat, decide_eq_true_eq]
    omega

theorem pack_mag (n : Bool) {e m : Nat} (he : e = 0 ∨ 2 ^ 23 ≤ m) (hm : m ≤ 2 ^ 24) (hb : e * 2 ^ 23 + m < 255 * 2 ^ 23) :
    (pack n (e * 2 ^ 23 + m)).isFinite = true ∧ (pack n (e * 2 ^ 23 + m)).mag = m * 2 ^ (e + 925) ∧
      (pack n (e * 2 ^ 23 + m)).frac % 2 = m % 2 := by
  obtain ⟨_, h2, h3⟩ := pack_parts n (b := e * 2 ^ 23 + m) (by omega)
  generalize pack n (e * 2 ^ 23 + m) = x at *
  refine ⟨?_, ?_, by omega⟩
  · rw [isFinite, h2, bne_iff_ne]; omega
  · unfold mag
    rcases Nat.lt_or_ge m (2 ^ 23) with h | h
    · have e0 : e = 0 := by omega
      subst e0
      rw [if_pos (by rw [h2]; omega), h3]
      congr 1; omega
    · rcases Nat.lt_or_ge m (2 ^ 24) with h' | h'
      · have a1 : x.expo = e + 1 := by omega
        have a2 : x.frac = m - 2 ^ 23 := by omega
        rw [if_neg (by omega), a1, a2, show 2 ^ 23 + (m - 2 ^ 23) = m by omega]
        rfl
      · have a1 : x.expo = e + 2 := by omega
        have a2 : x.frac = 0 := by omega
        have a3 : m = 2 ^ 24 := by omega
        rw [if_neg (by omega), a1, a2, a3, Nat.add_zero, ← Nat.pow_add, ← Nat.pow_add]
        exact congrArg (2 ^ ·) (by omega)

theorem ofMag_eq (a : Nat) :
    ofMag a = min ((max (a.log2 + 1 - 24) 925 - 925) * 2 ^ 23 + rne a (max (a.log2 + 1 - 24) 925)) (255 * 2 ^ 23) := rfl

theorem finite_form (x : F32) : ∃ m e, m < 2 ^ 24 ∧ 925 ≤ e ∧ x.mag = m * 2 ^ e := by
  have hf : x.frac < 2 ^ 23 := by unfold frac; omega
  unfold mag
  split
  · exact ⟨x.frac, 925, by omega, Nat.le_refl _, rfl⟩
  · exact ⟨2 ^ 23 + x.frac, x.expo - 1 + 925, by omega, by omega, rfl⟩

theorem scaled_natAbs (x : F32) : x.scaled.natAbs = x.mag := by
  unfold scaled; split <;> omega

/-- When rounding leaves the range of finite floats. -/
theorem overflow_iff {a : Nat} (ha : a ≠ 0) :
    (2 ^ 25 - 1) * 2 ^ 103 * F64.unit ≤ a ↔
      255 * 2 ^ 23 ≤ (max (a.log2 + 1 - 24) 925 - 925) * 2 ^ 23 + rne a (max (a.log2 + 1 - 24) 925) := by
  rw [show (2 ^ 25 - 1) * 2 ^ 103 * F64.unit = (2 ^ 25 - 1) * 2 ^ 1177 by rw [F64.unit_eq, mul_assoc, ← Nat.pow_add]]
  have hb := F64.log2_bounds ha
  have hr := rne_bounds (p := 24) (emin := 925) (by omega) ha
  simp only at hr
  have e1 : (2 : Nat) ^ 1201 = 2 ^ 24 * 2 ^ 1177 := (Nat.pow_add 2 24 1177)
  have e2 : (2 : Nat) ^ 1202 = 2 ^ 25 * 2 ^ 1177 := (Nat.pow_add 2 25 1177)
  have hP := Nat.two_pow_pos 1177
  rcases Nat.lt_trichotomy a.log2 1201 with h | h | h
  · have : 2 ^ (a.log2 + 1) ≤ 2 ^ 1201 := Nat.pow_le_pow_right (by norm_num) (by omega)
    have hlt : a < 2 ^ 24 * 2 ^ 1177 := by rw [← e1]; omega
    have := hr.1
    have hs : max (a.log2 + 1 - 24) 925 ≤ 1177 := by omega
    generalize max (a.log2 + 1 - 24) 925 = s at *
    generalize 2 ^ 1177 = P at *
    generalize rne a s = R at *
    omega
  · have hs : max (a.log2 + 1 - 24) 925 = 1178 := by omega
    rw [hs] at hr ⊢
    have e3 : (2 : Nat) ^ 1178 = 2 * 2 ^ 1177 := by rw [Nat.pow_succ, Nat.mul_comm]
    have hlt : a < 2 ^ 25 * 2 ^ 1177 := by rw [← e2]; rw [h] at hb; exact hb.2
    have h1 := Nat.div_add_mod a (2 ^ 1178)
    have h2 := Nat.mod_lt a (Nat.two_pow_pos 1178)
    unfold rne
    rw [e3] at *
    clear hr hb e1 e2 e3
    generalize a / (2 * 2 ^ 1177) = q at *
    generalize a % (2 * 2 ^ 1177) = r at *
    generalize 2 ^ 1177 = P at *
    have hq : q ≤ 2 ^ 24 - 1 := by
      by_contra hq
      have : 2 * P * 2 ^ 24 ≤ 2 * P * q := Nat.mul_le_mul_left _ (by omega)
      omega
    by_cases hq' : q = 2 ^ 24 - 1
    · subst hq'
      split <;> omega
    · have : 2 * P * q ≤ 2 * P * (2 ^ 24 - 2) := Nat.mul_le_mul_left _ (by omega)
      split <;> omega
  · have : 2 ^ 1202 ≤ 2 ^ a.log2 := Nat.pow_le_pow_right (by norm_num) (by omega)
    have hge : 2 ^ 25 * 2 ^ 1177 ≤ a := by rw [← e2]; omega
    have h3 := hr.2 (by omega)
    have hs : 1179 ≤ max (a.log2 + 1 - 24) 925 := by omega
    generalize max (a.log2 + 1 - 24) 925 = s at *
    generalize 2 ^ 1177 = P at *
    generalize rne a s = R at *
    omega

/-- Rounding a magnitude. -/
theorem pack_near (n : Bool) (a : Nat) :
    (pack n (ofMag a)).sign = n ∧ NearestFloat (if n then -(a : Int) else a) (pack n (ofMag a)) := by
  have hlt : ofMag a < 2 ^ 31 := by rw [ofMag_eq]; omega
  refine ⟨(pack_parts n hlt).1, ?_⟩
  have hn : (if n then -(a : Int) else a).natAbs = a := by split <;> omega
  unfold NearestFloat
  rw [hn]
  by_cases ha : a = 0
  · subst ha
    rw [if_neg (by have := F64.unit_pos; omega)]
    have e0 : ofMag 0 = 0 := by decide +kernel
    rw [e0]
    have hp := pack_mag n (e := 0) (m := 0) (.inl rfl) (by omega) (by omega)
    simp only [Nat.zero_mul, Nat.zero_add] at hp
    have hs : (pack n 0).scaled = 0 := by have := scaled_natAbs (pack n 0); omega
    refine ⟨0, by rw [value, if_pos hp.1, hs], fun z w _ => ⟨by simp, fun _ => .inr (by omega)⟩⟩
  · have ho := overflow_iff ha
    have hr := rne_bounds (p := 24) (emin := 925) (by omega) ha
    simp only at hr
    rw [ofMag_eq]
    split
    · rename_i h
      rw [Nat.min_eq_right (ho.1 h)]
      obtain ⟨_, h2, h3⟩ := pack_parts n (b := 255 * 2 ^ 23) (by omega)
      rw [isInf, h2, h3]; rfl
    · rename_i h
      have hlt := Nat.lt_of_not_le (fun h' => h (ho.2 h'))
      rw [Nat.min_eq_left (by omega)]
      have hp := pack_mag n (e := max (a.log2 + 1 - 24) 925 - 925) (m := rne a (max (a.log2 + 1 - 24) 925))
        (by
          by_cases hs : 925 < max (a.log2 + 1 - 24) 925
          · exact .inr (hr.2 hs)
          · left; omega) hr.1 hlt
      have hsgn := (pack_parts n (b := (max (a.log2 + 1 - 24) 925 - 925) * 2 ^ 23 + rne a (max (a.log2 + 1 - 24) 925))
        (by omega)).1
      have es : max (a.log2 + 1 - 24) 925 - 925 + 925 = max (a.log2 + 1 - 24) 925 := by omega
      rw [es] at hp
      refine ⟨_, by rw [value, if_pos hp.1], fun z w hz => ?_⟩
      have hz' : z.isFinite = true ∧ w = z.scaled := by
        unfold value at hz
        split at hz
        · simp at hz; exact ⟨by assumption, hz.symm⟩
        · simp at hz
      obtain ⟨m, e, hm, he, hze⟩ := finite_form z
      have hy : w.natAbs = m * 2 ^ e := by rw [hz'.2, scaled_natAbs, hze]
      have h1 := round_near (p := 24) (emin := 925) (a := a) (by omega) ha hm he
      have h0 := round_near (p := 24) (emin := 925) (a := a) (m := 0) (e := 925) (by omega) ha (by omega) (by omega)
      simp only at h1 h0
      rw [scaled, hsgn, hp.2.1, hp.2.2]
      refine near_signed (n := n) hy _ h1 ⟨by simpa using h0.1, fun hh => ?_⟩
      rcases h0.2 (by simpa using hh) with h4 | h4
      · left; rw [← h4, Nat.zero_mul]
      · exact .inr h4

theorem log2_eq {a k : Nat} (h1 : 2 ^ k ≤ a) (h2 : a < 2 ^ (k + 1)) : a.log2 = k := by
  have ha : a ≠ 0 := by have := Nat.two_pow_pos k; omega
  have b := F64.log2_bounds ha
  have c1 : k < a.log2 + 1 := (Nat.pow_lt_pow_iff_right (a := 2) (by norm_num)).1 (by omega)
  have c2 : a.log2 < k + 1 := (Nat.pow_lt_pow_iff_right (a := 2) (by norm_num)).1 (by omega)
  omega

theorem bits_eq (x : F32) : x = pack x.sign (x.expo * 2 ^ 23 + x.frac) := by
  obtain ⟨b⟩ := x
  unfold pack sign expo frac
  congr 1
  apply BitVec.eq_of_toNat_eq
  simp only [BitVec.msb_eq_decide, BitVec.toNat_ofNat, decide_eq_true_eq]
  split <;> omega

/-- The magnitude of a finite float is rounded to the same float. -/
theorem ofMag_mag {x : F32} (h : x.isFinite = true) : ofMag x.mag = x.expo * 2 ^ 23 + x.frac := by
  have hf : x.frac < 2 ^ 23 := by unfold frac; omega
  have he : x.expo ≤ 254 := by
    have : x.expo ≠ 255 := by simpa [isFinite] using h
    have : x.expo < 2 ^ 8 := by unfold expo; omega
    omega
  rw [ofMag_eq]
  unfold mag
  by_cases h0 : x.expo = 0
  · rw [if_pos h0, h0]
    by_cases hz : x.frac = 0
    · rw [hz]; decide +kernel
    · have hl : (x.frac * 2 ^ 925).log2 = x.frac.log2 + 925 := by
        have b := F64.log2_bounds hz
        apply log2_eq
        · rw [Nat.pow_add]; exact Nat.mul_le_mul_right _ b.1
        · rw [show x.frac.log2 + 925 + 1 = x.frac.log2 + 1 + 925 by omega, Nat.pow_add 2 (x.frac.log2 + 1)]
          exact (Nat.mul_lt_mul_right (Nat.two_pow_pos 925)).2 b.2
      have hlf : x.frac.log2 ≤ 22 := F64.log2_le_of_le (by omega)
      have hs : max ((x.frac * 2 ^ 925).log2 + 1 - 24) 925 = 925 := by rw [hl]; omega
      rw [hs, rne_exact]; omega
  · rw [if_neg h0]
    have hl : ((2 ^ 23 + x.frac) * 2 ^ (x.expo - 1 + 925)).log2 = 23 + (x.expo - 1 + 925) := by
      apply log2_eq
      · rw [Nat.pow_add]; exact Nat.mul_le_mul_right _ (by omega)
      · rw [show 23 + (x.expo - 1 + 925) + 1 = 24 + (x.expo - 1 + 925) by omega, Nat.pow_add 2 24]
        exact (Nat.mul_lt_mul_right (Nat.two_pow_pos _)).2 (by omega)
    have hs : max (((2 ^ 23 + x.frac) * 2 ^ (x.expo - 1 + 925)).log2 + 1 - 24) 925 = x.expo - 1 + 925 := by rw [hl]; omega
    rw [hs, rne_exact]; omega

theorem toF64_parts (x : F32) : x.toF64.sign = x.sign ∧
    (x.expo = 255 → x.toF64.expo = 2047 ∧ (x.toF64.frac = 0 ↔ x.frac = 0)) ∧
    (x.expo ≠ 255 → x.toF64.isFinite = true ∧ x.toF64.mag = x.mag) := by
  have hf : x.frac < 2 ^ 23 := by unfold frac; omega
  have he : x.expo < 2 ^ 8 := by unfold expo; omega
  have key : ∀ b, b < 2 ^ 63 → (⟨BitVec.ofNat 64 ((if x.sign then 2 ^ 63 else 0) + b)⟩ : F64).sign = x.sign ∧
      (⟨BitVec.ofNat 64 ((if x.sign then 2 ^ 63 else 0) + b)⟩ : F64).expo = b / 2 ^ 52 ∧
      (⟨BitVec.ofNat 64 ((if x.sign then 2 ^ 63 else 0) + b)⟩ : F64).frac = b % 2 ^ 52 := by
    intro b hb
    unfold F64.sign F64.expo F64.frac
    cases x.sign
    · simp only [Bool.false_eq_true, if_false, BitVec.msb_eq_decide, BitVec.toNat_ofNat, decide_eq_false_iff_not]
      omega
    · simp only [if_true, BitVec.msb_eq_decide, BitVec.toNat_ofNat, decide_eq_true_eq]
      omega
  unfold toF64
  generalize (if x.sign = true then 2 ^ 63 else 0) = σ at *
  by_cases h : x.expo = 255
  · rw [if_pos h]
    split
    · rename_i h0
      obtain ⟨k1, k2, k3⟩ := key (2047 * 2 ^ 52) (by omega)
      generalize (⟨BitVec.ofNat 64 (σ + 2047 * 2 ^ 52)⟩ : F64) = y at *
      exact ⟨k1, fun _ => ⟨by omega, by omega⟩, fun h' => absurd h h'⟩
    · rename_i h0
      obtain ⟨k1, k2, k3⟩ := key (2047 * 2 ^ 52 + 2 ^ 51 + x.frac % 2 ^ 22 * 2 ^ 29) (by omega)
      generalize (⟨BitVec.ofNat 64 (σ + (2047 * 2 ^ 52 + 2 ^ 51 + x.frac % 2 ^ 22 * 2 ^ 29))⟩ : F64) = y at *
      exact ⟨k1, fun _ => ⟨by omega, by omega⟩, fun h' => absurd h h'⟩
  · rw [if_neg h]
    by_cases h0 : x.expo = 0
    · rw [if_neg (by simpa using h0)]
      unfold mag
      rw [if_pos h0]
      split
      · rename_i hz
        obtain ⟨k1, k2, k3⟩ := key 0 (by omega)
        generalize (⟨BitVec.ofNat 64 (σ + 0)⟩ : F64) = y at *
        refine ⟨k1, fun h' => absurd h' h, fun _ => ⟨by rw [F64.isFinite, k2]; rfl, ?_⟩⟩
        unfold F64.mag
        rw [if_pos (by omega), hz, k3, Nat.zero_mul]
        rfl
      · rename_i hz
        have b := F64.log2_bounds hz
        have hlf : x.frac.log2 ≤ 22 := F64.log2_le_of_le (by omega)
        have e1 : 2 ^ x.frac.log2 * 2 ^ (52 - x.frac.log2) = 2 ^ 52 := by rw [← Nat.pow_add]; congr 1; omega
        have e2 : (x.frac - 2 ^ x.frac.log2) * 2 ^ (52 - x.frac.log2) < 2 ^ 52 := by
          rw [← e1]
          exact (Nat.mul_lt_mul_right (Nat.two_pow_pos _)).2 (by rw [Nat.pow_succ] at b; omega)
        obtain ⟨k1, k2, k3⟩ := key ((x.frac.log2 + 874) * 2 ^ 52 + (x.frac - 2 ^ x.frac.log2) * 2 ^ (52 - x.frac.log2)) (by omega)
        generalize (⟨BitVec.ofNat 64 (σ + ((x.frac.log2 + 874) * 2 ^ 52 +
          (x.frac - 2 ^ x.frac.log2) * 2 ^ (52 - x.frac.log2)))⟩ : F64) = y at *
        have k2' : y.expo = x.frac.log2 + 874 := by omega
        have k3' : y.frac = (x.frac - 2 ^ x.frac.log2) * 2 ^ (52 - x.frac.log2) := by omega
        refine ⟨k1, fun h' => absurd h' h, fun _ => ⟨?_, ?_⟩⟩
        · rw [F64.isFinite, k2', bne_iff_ne]; omega
        · unfold F64.mag
          rw [if_neg (by omega), k2', k3', ← e1, ← Nat.add_mul, show 2 ^ x.frac.log2 + (x.frac - 2 ^ x.frac.log2) = x.frac by omega,
            mul_assoc, ← Nat.pow_add]
          exact congrArg (fun k => x.frac * 2 ^ k) (by omega)
    · rw [if_pos h0]
      unfold mag
      rw [if_neg h0]
      obtain ⟨k1, k2, k3⟩ := key ((x.expo + 896) * 2 ^ 52 + x.frac * 2 ^ 29) (by omega)
      generalize (⟨BitVec.ofNat 64 (σ + ((x.expo + 896) * 2 ^ 52 + x.frac * 2 ^ 29))⟩ : F64) = y at *
      have k2' : y.expo = x.expo + 896 := by omega
      have k3' : y.frac = x.frac * 2 ^ 29 := by omega
      refine ⟨k1, fun h' => absurd h' h, fun _ => ⟨?_, ?_⟩⟩
      · rw [F64.isFinite, k2', bne_iff_ne]; omega
      · unfold F64.mag
        rw [if_neg (by omega), k2', k3', show 2 ^ 52 + x.frac * 2 ^ 29 = (2 ^ 23 + x.frac) * 2 ^ 29 by omega, mul_assoc, ← Nat.pow_add]
        exact congrArg (fun k => (2 ^ 23 + x.frac) * 2 ^ k) (by omega)

end F32
end GCV
