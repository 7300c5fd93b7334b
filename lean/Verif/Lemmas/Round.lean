import Verif.Lemmas.Num
import Verif.Spec.Float

/-! # Rounding to nearest, ties to even -/

namespace GCV

/-- The multiple of `2^s` nearest to `a`, divided by `2^s`. -/
def rne (a s : Nat) : Nat :=
  if 2 * (a % 2 ^ s) > 2 ^ s ∨ (2 * (a % 2 ^ s) = 2 ^ s ∧ a / 2 ^ s % 2 = 1) then a / 2 ^ s + 1 else a / 2 ^ s

theorem rne_near (a s k : Nat) :
    ((rne a s * 2 ^ s : Nat) - (a : Int)).natAbs ≤ ((k * 2 ^ s : Nat) - (a : Int)).natAbs ∧
    (((k * 2 ^ s : Nat) - (a : Int)).natAbs = ((rne a s * 2 ^ s : Nat) - (a : Int)).natAbs → k = rne a s ∨ rne a s % 2 = 0) := by
  unfold rne
  have h1 := Nat.div_add_mod a (2 ^ s)
  have h2 := Nat.mod_lt a (Nat.two_pow_pos s)
  generalize a / 2 ^ s = q at *
  generalize a % 2 ^ s = r at *
  generalize 2 ^ s = p at *
  have e0 : q * p = p * q := Nat.mul_comm ..
  have e1 : (q + 1) * p = p * q + p := by ring
  rcases Nat.lt_trichotomy k q with h | h | h
  · obtain ⟨d, rfl⟩ : ∃ d, q = k + 1 + d := ⟨q - k - 1, by omega⟩
    have e2 : p * (k + 1 + d) = k * p + p + d * p := by ring
    have e3 : d * p = 0 ∨ p ≤ d * p := by
      rcases Nat.eq_zero_or_pos d with rfl | hd
      · left; ring
      · right; exact Nat.le_mul_of_pos_left _ hd
    rw [e2] at h1 e0 e1
    split
    · rw [e1]; generalize k * p = x at *; generalize d * p = y at *; clear e0 e1 e2; omega
    · rw [e0]; generalize k * p = x at *; generalize d * p = y at *; clear e0 e1 e2; omega
  · subst h
    rw [e0]
    split
    · rw [e1]; generalize p * k = x at *; omega
    · generalize p * k = x at *; omega
  · obtain ⟨d, rfl⟩ : ∃ d, k = q + 1 + d := ⟨k - q - 1, by omega⟩
    have e2 : (q + 1 + d) * p = p * q + p + d * p := by ring
    have e3 : (d = 0 ∧ d * p = 0) ∨ p ≤ d * p := by
      rcases Nat.eq_zero_or_pos d with rfl | hd
      · left; exact ⟨rfl, by ring⟩
      · right; exact Nat.le_mul_of_pos_left _ hd
    rw [e2]
    split
    · rw [e1]; generalize p * q = x at *; generalize d * p = y at *; omega
    · rw [e0]; generalize p * q = x at *; generalize d * p = y at *; omega

/-- Nearest of all numbers with `p` significant bits that are multiples of `2^emin`. -/
theorem round_near {p emin a m e : Nat} (hp : 1 ≤ p) (ha : a ≠ 0) (hm : m < 2 ^ p) (he : emin ≤ e) :
    let s := max (a.log2 + 1 - p) emin
    ((rne a s * 2 ^ s : Nat) - (a : Int)).natAbs ≤ ((m * 2 ^ e : Nat) - (a : Int)).natAbs ∧
    (((m * 2 ^ e : Nat) - (a : Int)).natAbs = ((rne a s * 2 ^ s : Nat) - (a : Int)).natAbs →
      m * 2 ^ e = rne a s * 2 ^ s ∨ rne a s % 2 = 0) := by
  intro s
  by_cases h : s ≤ e
  · have e1 : m * 2 ^ e = (m * 2 ^ (e - s)) * 2 ^ s := by
      rw [mul_assoc, ← Nat.pow_add]; congr 2; omega
    have := rne_near a s (m * 2 ^ (e - s))
    rw [← e1] at this
    refine ⟨this.1, fun hh => ?_⟩
    rcases this.2 hh with h' | h'
    · left; rw [e1, h']
    · right; exact h'
  · have hb := F64.log2_bounds ha
    have hs : s = a.log2 + 1 - p := by omega
    have hlt : m * 2 ^ e < 2 ^ a.log2 := by
      calc m * 2 ^ e < 2 ^ p * 2 ^ e := (Nat.mul_lt_mul_right (Nat.two_pow_pos e)).2 hm
        _ = 2 ^ (p + e) := (Nat.pow_add ..).symm
        _ ≤ 2 ^ a.log2 := Nat.pow_le_pow_right (by norm_num) (by omega)
    have e1 : 2 ^ a.log2 = 2 ^ (a.log2 - s) * 2 ^ s := by rw [← Nat.pow_add]; congr 1; omega
    have := (rne_near a s (2 ^ (a.log2 - s))).1
    rw [← e1] at this
    omega

theorem rne_scale (a s k : Nat) : rne (a * 2 ^ k) (s + k) = rne a s := by
  unfold rne
  have hk := Nat.two_pow_pos k
  rw [Nat.pow_add, Nat.mul_div_mul_right _ _ hk, Nat.mul_mod_mul_right]
  have e1 : 2 * (a % 2 ^ s * 2 ^ k) = 2 * (a % 2 ^ s) * 2 ^ k := by ring
  rw [e1]
  simp only [gt_iff_lt, Nat.mul_lt_mul_right hk, Nat.mul_left_inj (Nat.ne_of_gt hk)]

theorem rne_exact (m s : Nat) : rne (m * 2 ^ s) s = m := by
  have := rne_scale m 0 s
  rw [Nat.zero_add] at this
  rw [this]; unfold rne
  simp [Nat.mod_one]

/-- The significand after rounding. -/
theorem rne_bounds {p emin a : Nat} (hp : 1 ≤ p) (ha : a ≠ 0) :
    let s := max (a.log2 + 1 - p) emin
    rne a s ≤ 2 ^ p ∧ (emin < s → 2 ^ (p - 1) ≤ rne a s) := by
  intro s
  have hb := F64.log2_bounds ha
  have hq : a / 2 ^ s ≤ rne a s ∧ rne a s ≤ a / 2 ^ s + 1 := by unfold rne; split <;> omega
  have hlt : a / 2 ^ s < 2 ^ p := by
    rw [Nat.div_lt_iff_lt_mul (Nat.two_pow_pos s), ← Nat.pow_add]
    exact Nat.lt_of_lt_of_le hb.2 (Nat.pow_le_pow_right (by norm_num) (by omega))
  refine ⟨by omega, fun h => ?_⟩
  have hs : s = a.log2 + 1 - p := by omega
  have : 2 ^ (p - 1) ≤ a / 2 ^ s := by
    rw [Nat.le_div_iff_mul_le (Nat.two_pow_pos s), ← Nat.pow_add]
    exact Nat.le_trans (Nat.pow_le_pow_right (by norm_num) (by omega)) hb.1
  omega

/-- A signed number: the sign follows, zero and numbers of the other sign are not nearer. -/
theorem near_signed {R a y : Nat} {n : Bool} {w : Int} (hy : w.natAbs = y) (P : Prop)
    (h : ((R : Nat) - (a : Int)).natAbs ≤ ((y : Nat) - (a : Int)).natAbs ∧
      (((y : Nat) - (a : Int)).natAbs = ((R : Nat) - (a : Int)).natAbs → y = R ∨ P))
    (h0 : ((R : Nat) - (a : Int)).natAbs ≤ a ∧ (a = ((R : Nat) - (a : Int)).natAbs → R = 0 ∨ P)) :
    let v : Int := if n then -(R : Int) else R
    let q : Int := if n then -(a : Int) else a
    (v - q).natAbs ≤ (w - q).natAbs ∧ ((w - q).natAbs = (v - q).natAbs → w = v ∨ P) := by
  intro v q
  have hd : (v - q).natAbs = ((R : Nat) - (a : Int)).natAbs := by cases n <;> simp only [v, q] <;> simp <;> omega
  rw [hd]
  by_cases hs : (w - q).natAbs = ((y : Nat) - (a : Int)).natAbs
  · rw [hs]
    refine ⟨h.1, fun he => ?_⟩
    rcases h.2 he with h1 | h1
    · left
      have h2 : R = 0 ∨ a ≠ 0 := by have := h0.1; clear h h0; omega
      clear h h0
      cases n <;> simp only [v, q, if_true, if_false, Bool.false_eq_true] at hs ⊢ <;> omega
    · exact .inr h1
  · have hd2 : (w - q).natAbs = y + a := by cases n <;> simp only [q, if_true, if_false, Bool.false_eq_true] at hs ⊢ <;> clear h h0 hd <;> omega
    rw [hd2]
    refine ⟨by omega, fun he => ?_⟩
    have hy0 : y = 0 := by omega
    subst hy0
    rcases h0.2 (by omega) with h1 | h1
    · left; subst h1; cases n <;> simp [v] <;> omega
    · exact .inr h1

end GCV
