import Verif.Model.Num
import Mathlib.Tactic.Ring
import Mathlib.Tactic.Linarith

/-! # Facts about the floating point model -/

namespace GCV
namespace F64

set_option exponentiation.threshold 2000 in
theorem unit_eq : unit = 2 ^ 1074 := by unfold unit; rfl

set_option exponentiation.threshold 2000 in
theorem unit_pos : 0 < unit := by rw [unit_eq]; exact Nat.two_pow_pos _

set_option exponentiation.threshold 2000 in
theorem pow_le_unit {k : Nat} (h : k ≤ 1074) : 2 ^ k ≤ unit := by
  rw [unit_eq]; exact Nat.pow_le_pow_right (by norm_num) h

theorem pow_dvd_unit {k : Nat} (h : k ≤ 1074) : 2 ^ k ∣ unit := by
  rw [unit_eq]; exact pow_dvd_pow 2 h

theorem unit_dvd_pow {k : Nat} (h : 1074 ≤ k) : unit ∣ 2 ^ k := by
  rw [unit_eq]; exact pow_dvd_pow 2 h

example : (ofInt 1).bits = 0x3FF0000000000000#64 := by decide
example : (ofInt (-3)).bits = 0xC008000000000000#64 := by decide
example : (ofInt (2^53+1)).bits = 0x4340000000000000#64 := by decide
example : (ofInt (2^53+3)).bits = 0x4340000000000002#64 := by decide
example : (ofInt (2^63-1)).bits = 0x43E0000000000000#64 := by decide
example : isInteger ⟨0x4004000000000000#64⟩ = false := by decide +kernel -- 2.5
example : isInteger ⟨0xC000000000000000#64⟩ = true := by decide +kernel
example : isInteger ⟨1#64⟩ = true := by decide +kernel
example : isInteger ⟨0x43E0000000000001#64⟩ = true := by decide +kernel
example : isInteger ⟨0x3FE0000000000000#64⟩ = false := by decide +kernel
example : toSigned 32 ⟨0xC008000000000000#64⟩ = .ok (-3) := by decide +kernel

theorem expo_lt (x : F64) : x.expo < 2048 := by unfold expo; omega
theorem frac_lt (x : F64) : x.frac < 2 ^ 52 := by unfold frac; omega

theorem natAbs_scaled (x : F64) : x.scaled.natAbs = x.mag := by
  unfold scaled; split <;> simp

/-- Magnitudes with a non-zero exponent field are multiples of the spacing. -/
theorem mag_lt_of_expo_zero {x : F64} (h : x.expo = 0) : x.mag < 2 ^ 52 := by
  unfold mag; rw [if_pos h]; exact frac_lt x

theorem le_mag_of_expo_pos {x : F64} (h : x.expo ≠ 0) : 2 ^ 52 ≤ x.mag := by
  unfold mag; rw [if_neg h]
  exact le_trans (Nat.le_add_right _ _) (Nat.le_mul_of_pos_right _ (Nat.two_pow_pos _))

theorem isZero0_iff (x : F64) : x.isZero0 = true ↔ x.mag < 2 ^ 52 := by
  unfold isZero0
  constructor
  · intro h; exact mag_lt_of_expo_zero (by simpa using h)
  · intro h; by_contra h'
    exact absurd (le_mag_of_expo_pos (by simpa using h')) (not_le.mpr h)

theorem roundMag_dvd (m : Nat) : unit ∣ roundMag m := Dvd.intro_left _ rfl

theorem roundMag_of_dvd {m : Nat} (h : unit ∣ m) : roundMag m = m := by
  obtain ⟨k, rfl⟩ := h
  unfold roundMag
  have hu := unit_pos
  have : (2 * (unit * k) + unit) / (2 * unit) = k := by
    rw [show 2 * (unit * k) + unit = unit + k * (2 * unit) by ring,
      Nat.add_mul_div_right _ _ (by omega), Nat.div_eq_of_lt (by omega), Nat.zero_add]
  rw [this, Nat.mul_comm]

/-- `2^53 ≤ spacing * 2^53`, i.e. a number with magnitude at least 1/2 whose distance to
an integer is below `2^-1022` is that integer. -/
theorem dvd_mag {x : F64} (h : x.expo ≠ 0) : 2 ^ (x.expo - 1) ∣ x.mag := by
  unfold mag; rw [if_neg h]; exact Dvd.intro_left _ rfl

theorem mag_lt {x : F64} (h : x.expo ≠ 0) : x.mag < 2 ^ (x.expo + 52) := by
  unfold mag; rw [if_neg h]
  have := frac_lt x
  calc (2 ^ 52 + x.frac) * 2 ^ (x.expo - 1) < 2 ^ 53 * 2 ^ (x.expo - 1) :=
        Nat.mul_lt_mul_of_pos_right (by omega) (Nat.two_pow_pos _)
    _ = 2 ^ (x.expo + 52) := by rw [← Nat.pow_add]; congr 1; omega

theorem roundMag_close (m : Nat) : 2 * ((m : Int) - (roundMag m : Int)).natAbs ≤ unit := by
  unfold roundMag
  have hu := unit_pos
  have h1 := Nat.div_add_mod (2 * m + unit) (2 * unit)
  have h2 := Nat.mod_lt (2 * m + unit) (show 0 < 2 * unit by omega)
  generalize (2 * m + unit) / (2 * unit) = q at *
  generalize (2 * m + unit) % (2 * unit) = r at *
  have h3 : (2 * (unit * q : Nat) : Int) + r = 2 * m + unit := by
    have : 2 * unit * q = 2 * (unit * q) := by ring
    rw [this] at h1; exact_mod_cast h1
  rw [mul_comm q unit]
  generalize unit * q = w at *
  generalize unit = u at *
  omega

/-- What the code's integrality test accepts: the integers, and the subnormal numbers
(which it confuses with 0). -/
theorem isInteger_iff (x : F64) : x.isInteger = true ↔
    x.isFinite = true ∧ (x.mag < 2 ^ 52 ∨ unit ∣ x.mag) := by
  unfold isInteger
  simp only [Bool.and_eq_true, decide_eq_true_eq]
  refine and_congr_right fun hf => ?_
  constructor
  · intro h
    by_cases h0 : x.expo = 0
    · exact Or.inl (mag_lt_of_expo_zero h0)
    · right
      -- the distance is a multiple of the spacing `2^(expo-1)` and below `2^52`
      by_cases hbig : 1075 ≤ x.expo
      · exact Dvd.dvd.trans (unit_dvd_pow (by omega)) (dvd_mag h0)
      · have hE : x.expo - 1 ≤ 1074 := by omega
        have hd : ((2 ^ (x.expo - 1) : Nat) : Int) ∣ (x.mag : Int) - (roundMag x.mag : Int) := by
          apply Int.dvd_sub
          · exact_mod_cast dvd_mag h0
          · have : 2 ^ (x.expo - 1) ∣ roundMag x.mag :=
              Dvd.dvd.trans (pow_dvd_unit hE) (roundMag_dvd _)
            exact_mod_cast this
        have hd' := Int.natAbs_dvd_natAbs.mpr hd
        simp only [Int.natAbs_natCast] at hd'
        by_cases hz : ((x.mag : Int) - (roundMag x.mag : Int)).natAbs = 0
        · have : x.mag = roundMag x.mag := by omega
          rw [this]; exact roundMag_dvd _
        · exfalso
          have hle := Nat.le_of_dvd (by omega) hd'
          -- spacing below 2^52 gives magnitude below 1/2: rounds to 0
          have hs : x.expo - 1 < 52 := by
            by_contra hc
            have := Nat.pow_le_pow_right (show 0 < 2 by norm_num) (show 52 ≤ x.expo - 1 by omega)
            omega
          have hm : x.mag < 2 ^ 105 :=
            lt_of_lt_of_le (mag_lt h0) (Nat.pow_le_pow_right (by norm_num) (by omega))
          have hr : roundMag x.mag = 0 := by
            unfold roundMag
            rw [Nat.div_eq_of_lt, Nat.zero_mul]
            have hu : (2:Nat) ^ 106 ≤ unit := pow_le_unit (by norm_num)
            have h106 : (2:Nat) ^ 106 = 2 * 2 ^ 105 := by norm_num
            omega
          rw [hr] at h
          have := le_mag_of_expo_pos h0
          omega
  · rintro (h | h)
    · have hr : roundMag x.mag = 0 := by
        unfold roundMag
        rw [Nat.div_eq_of_lt, Nat.zero_mul]
        have hu : (2:Nat) ^ 54 ≤ unit := pow_le_unit (by norm_num)
        omega
      rw [hr]; simpa using h
    · rw [roundMag_of_dvd h]; simp

/-! ## Integer to double -/


theorem log2_bounds {a : Nat} (h : a ≠ 0) : 2 ^ a.log2 ≤ a ∧ a < 2 ^ (a.log2 + 1) :=
  ⟨Nat.log2_self_le h, Nat.lt_log2_self⟩

/-- The significand chosen by `ofNatBits`. -/
def sig (a : Nat) : Nat :=
  let L := a.log2
  if L ≤ 52 then a * 2 ^ (52 - L)
  else
    let q := a / 2 ^ (L - 52)
    let r := a % 2 ^ (L - 52)
    if 2 * r > 2 ^ (L - 52) ∨ (2 * r = 2 ^ (L - 52) ∧ q % 2 = 1) then q + 1 else q

theorem ofNatBits_eq (a : Nat) : ofNatBits a = (a.log2 + 1022) * 2 ^ 52 + sig a := rfl

theorem sig_bounds {a : Nat} (h : a ≠ 0) : 2 ^ 52 ≤ sig a ∧ sig a ≤ 2 ^ 53 := by
  obtain ⟨h1, h2⟩ := log2_bounds h
  unfold sig
  simp only
  split
  · rename_i hL
    have e1 : 2 ^ a.log2 * 2 ^ (52 - a.log2) = 2 ^ 52 := by rw [← Nat.pow_add]; congr 1; omega
    have e2 : 2 ^ (a.log2 + 1) * 2 ^ (52 - a.log2) = 2 ^ 53 := by
      rw [← Nat.pow_add]; congr 1; omega
    constructor
    · rw [← e1]; exact Nat.mul_le_mul_right _ h1
    · rw [← e2]; exact Nat.mul_le_mul_right _ h2.le
  · rename_i hL
    have e1 : 2 ^ a.log2 = 2 ^ 52 * 2 ^ (a.log2 - 52) := by rw [← Nat.pow_add]; congr 1; omega
    have e2 : 2 ^ (a.log2 + 1) = 2 ^ 53 * 2 ^ (a.log2 - 52) := by
      rw [← Nat.pow_add]; congr 1; omega
    have q1 : 2 ^ 52 ≤ a / 2 ^ (a.log2 - 52) := by
      rw [Nat.le_div_iff_mul_le (Nat.two_pow_pos _), ← e1]; exact h1
    have q2 : a / 2 ^ (a.log2 - 52) < 2 ^ 53 := by
      rw [Nat.div_lt_iff_lt_mul (Nat.two_pow_pos _), ← e2]; exact h2
    split <;> omega

/-- Distance of the rounded significand from the exact one: at most half a unit in the
last place, and zero when the number has at most 53 significant bits. -/
theorem sig_exact {a : Nat} (hL : a.log2 ≤ 52) : sig a * 2 ^ a.log2 = a * 2 ^ 52 := by
  unfold sig
  simp only [if_pos hL]
  rw [mul_assoc, ← Nat.pow_add]; congr 2; omega

theorem sig_near {a : Nat} (hL : ¬ a.log2 ≤ 52) :
    2 * ((sig a * 2 ^ (a.log2 - 52) : Nat) - (a : Int)).natAbs ≤ 2 ^ (a.log2 - 52) := by
  unfold sig
  simp only [if_neg hL]
  have h1 := Nat.div_add_mod a (2 ^ (a.log2 - 52))
  have h2 := Nat.mod_lt a (Nat.two_pow_pos (a.log2 - 52))
  generalize a / 2 ^ (a.log2 - 52) = q at *
  generalize a % 2 ^ (a.log2 - 52) = r at *
  generalize 2 ^ (a.log2 - 52) = p at *
  split
  · rename_i hc
    have e : (q + 1) * p = p * q + p := by ring
    rw [e]
    generalize p * q = w at *
    omega
  · rename_i hc
    have e : q * p = p * q := by ring
    rw [e]
    generalize p * q = w at *
    omega

theorem ofNatBits_lt {a : Nat} (h0 : a ≠ 0) (h : a.log2 ≤ 1022) :
    ofNatBits a < 2047 * 2 ^ 52 := by
  have := (sig_bounds h0).2
  rw [ofNatBits_eq]
  omega

/-- Exponent/fraction/magnitude of a packed pattern. -/
theorem mag_pack {x : F64} {e m : Nat} (he : 1 ≤ e) (hm : 2 ^ 52 ≤ m) (hm' : m ≤ 2 ^ 53)
    (he' : e ≤ 2045) (hx : x.bits.toNat % 2 ^ 63 = (e - 1) * 2 ^ 52 + m) :
    x.isFinite = true ∧ x.mag = m * 2 ^ (e - 1) := by
  rcases Nat.lt_or_ge m (2 ^ 53) with hlt | hge
  · have h1 : x.expo = e := by unfold expo; omega
    have h2 : x.frac = m - 2 ^ 52 := by unfold frac; omega
    refine ⟨by simp [isFinite, h1]; omega, ?_⟩
    unfold mag; rw [if_neg (by omega), h1, h2, show 2 ^ 52 + (m - 2 ^ 52) = m by omega]
  · have hm2 : m = 2 ^ 53 := by omega
    have h1 : x.expo = e + 1 := by unfold expo; omega
    have h2 : x.frac = 0 := by unfold frac; omega
    refine ⟨by simp [isFinite, h1]; omega, ?_⟩
    unfold mag; rw [if_neg (by omega), h1, h2, hm2, Nat.add_zero, ← Nat.pow_add, ← Nat.pow_add]
    congr 1; omega

theorem ofInt_parts {n : Int} (h0 : n ≠ 0) (h : n.natAbs.log2 ≤ 1022) :
    (ofInt n).isFinite = true ∧ (ofInt n).sign = decide (n < 0) ∧
    (ofInt n).mag = sig n.natAbs * 2 ^ (n.natAbs.log2 + 1022) := by
  have ha : n.natAbs ≠ 0 := by omega
  have hb := ofNatBits_lt ha h
  have hs := sig_bounds ha
  have key : (ofInt n).bits.toNat % 2 ^ 63 = (n.natAbs.log2 + 1023 - 1) * 2 ^ 52 + sig n.natAbs ∧
      (ofInt n).sign = decide (n < 0) := by
    unfold ofInt sign
    rw [if_neg h0]
    rw [ofNatBits_eq] at *
    split
    · rename_i hn
      simp only [BitVec.toNat_ofNat, BitVec.msb_eq_decide, hn, decide_true]
      constructor
      · omega
      · simp only [decide_eq_true_eq]; omega
    · rename_i hn
      simp only [BitVec.toNat_ofNat, BitVec.msb_eq_decide, hn, decide_false]
      constructor
      · omega
      · simp only [decide_eq_false_iff_not]; omega
  have := mag_pack (x := ofInt n) (e := n.natAbs.log2 + 1023) (by omega) hs.1 hs.2 (by omega) key.1
  exact ⟨this.1, key.2, by rw [this.2]; congr 2⟩

theorem log2_le_of_le {a k : Nat} (h : a < 2 ^ (k + 1)) : a.log2 ≤ k := by
  by_cases h0 : a = 0
  · subst h0; simp
  · exact Nat.lt_succ_iff.mp ((Nat.log2_lt h0).mpr h)

set_option exponentiation.threshold 2000 in
/-- Integers of magnitude at most `2^53` are converted exactly. -/
theorem ofInt_exact {n : Int} (h : n.natAbs ≤ 2 ^ 53) :
    (ofInt n).isFinite = true ∧ (ofInt n).scaled = n * unit := by
  by_cases h0 : n = 0
  · subst h0; constructor
    · decide
    · have : (ofInt 0).scaled = 0 := by decide
      simp [this]
  · have ha : n.natAbs ≠ 0 := by omega
    have hL : n.natAbs.log2 ≤ 53 := log2_le_of_le (by omega)
    obtain ⟨h1, h2, h3⟩ := ofInt_parts h0 (by omega)
    refine ⟨h1, ?_⟩
    have hm : (ofInt n).mag = n.natAbs * unit := by
      rw [h3, unit_eq]
      by_cases hc : n.natAbs.log2 ≤ 52
      · have := sig_exact hc
        calc sig n.natAbs * 2 ^ (n.natAbs.log2 + 1022)
            = sig n.natAbs * 2 ^ n.natAbs.log2 * 2 ^ 1022 := by rw [Nat.pow_add, mul_assoc]
          _ = n.natAbs * 2 ^ 52 * 2 ^ 1022 := by rw [this]
          _ = n.natAbs * 2 ^ 1074 := by rw [mul_assoc, ← Nat.pow_add]
      · have hb := (log2_bounds ha).1
        have hl : n.natAbs.log2 = 53 := by omega
        rw [hl] at hb
        have : n.natAbs = 2 ^ 53 := by omega
        rw [hl, this]
        have hs : sig (2 ^ 53) = 2 ^ 52 := by decide
        rw [hs, ← Nat.pow_add, ← Nat.pow_add]
    unfold scaled
    rw [h2, hm]
    by_cases hn : n < 0
    · simp only [hn, decide_true, if_true]
      have : (n.natAbs : Int) = -n := by omega
      rw [Nat.cast_mul, this]; ring
    · simp only [hn, decide_false, Bool.false_eq_true, if_false]
      have : (n.natAbs : Int) = n := by omega
      rw [Nat.cast_mul, this]

/-- Every 64 bit integer is converted to a finite number at relative distance at most `2^-53`. -/
theorem ofInt_near {n : Int} (h : n.natAbs < 2 ^ 64) :
    (ofInt n).isFinite = true ∧
    2 ^ 53 * ((ofInt n).scaled - n * unit).natAbs ≤ n.natAbs * unit := by
  by_cases hs : n.natAbs ≤ 2 ^ 53
  · obtain ⟨h1, h2⟩ := ofInt_exact hs
    refine ⟨h1, ?_⟩
    rw [h2]; simp
  · have h0 : n ≠ 0 := by omega
    have ha : n.natAbs ≠ 0 := by omega
    have hL : n.natAbs.log2 ≤ 63 := log2_le_of_le (by omega)
    obtain ⟨h1, h2, h3⟩ := ofInt_parts h0 (by omega)
    refine ⟨h1, ?_⟩
    have hb := log2_bounds ha
    have hc : ¬ n.natAbs.log2 ≤ 52 := by
      intro hc
      have : 2 ^ (n.natAbs.log2 + 1) ≤ 2 ^ 53 := Nat.pow_le_pow_right (by norm_num) (by omega)
      omega
    have hn := sig_near hc
    have hmag : (ofInt n).mag = (sig n.natAbs * 2 ^ (n.natAbs.log2 - 52)) * unit := by
      rw [h3, unit_eq, mul_assoc, ← Nat.pow_add]; congr 2; omega
    have hsc : ((ofInt n).scaled - n * unit).natAbs =
        ((sig n.natAbs * 2 ^ (n.natAbs.log2 - 52) : Nat) - (n.natAbs : Int)).natAbs * unit := by
      rw [show ∀ z : Int, z.natAbs * unit = (z * unit).natAbs from fun z => by
        rw [Int.natAbs_mul, Int.natAbs_natCast]]
      unfold scaled
      rw [h2, hmag]
      by_cases hneg : n < 0
      · simp only [hneg, decide_true, if_true]
        have : (n.natAbs : Int) = -n := by omega
        rw [this, ← Int.natAbs_neg, Nat.cast_mul]; congr 1; ring
      · simp only [hneg, decide_false, Bool.false_eq_true, if_false]
        have : (n.natAbs : Int) = n := by omega
        rw [this, Nat.cast_mul]; congr 1; ring
    rw [hsc, ← mul_assoc]
    apply Nat.mul_le_mul_right
    have e : 2 ^ 52 * 2 ^ (n.natAbs.log2 - 52) = 2 ^ n.natAbs.log2 := by
      rw [← Nat.pow_add]; congr 1; omega
    calc 2 ^ 53 * ((sig n.natAbs * 2 ^ (n.natAbs.log2 - 52) : Nat) - (n.natAbs : Int)).natAbs
        = 2 ^ 52 * (2 * ((sig n.natAbs * 2 ^ (n.natAbs.log2 - 52) : Nat) - (n.natAbs : Int)).natAbs) := by ring
      _ ≤ 2 ^ 52 * 2 ^ (n.natAbs.log2 - 52) := Nat.mul_le_mul_left _ hn
      _ = 2 ^ n.natAbs.log2 := e
      _ ≤ n.natAbs := hb.1

/-! ## Double to integer -/

theorem trunc_of_scaled {x : F64} {n : Int} (h : x.scaled = n * unit) : x.trunc = n := by
  unfold trunc; rw [h]; exact Int.mul_tdiv_cancel _ (by have := unit_pos; omega)

theorem trunc_of_small {x : F64} (h : x.mag < 2 ^ 52) : x.trunc = 0 := by
  unfold trunc
  have hu : 2 ^ 52 ≤ unit := pow_le_unit (by norm_num)
  have := natAbs_scaled x
  rw [← Int.natAbs_eq_zero, Int.natAbs_tdiv, Int.natAbs_natCast]
  exact Nat.div_eq_of_lt (by omega)

theorem scaled_of_dvd {x : F64} (h : unit ∣ x.mag) : ∃ n : Int, x.scaled = n * unit := by
  obtain ⟨k, hk⟩ := h
  unfold scaled; rw [hk]
  split
  · exact ⟨-k, by push_cast; ring⟩
  · exact ⟨k, by push_cast; ring⟩

theorem dvd_of_scaled {x : F64} {n : Int} (h : x.scaled = n * unit) : unit ∣ x.mag := by
  rw [← natAbs_scaled, h, Int.natAbs_mul]; simp

end F64
end GCV
