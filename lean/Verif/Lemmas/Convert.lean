import Verif.Model.Convert
import Verif.Spec.Number
import Verif.Lemmas.Num

/-! # Numeric conversions: auxiliary facts -/

namespace GCV

open F64

theorem unit_ne : (unit : Int) ≠ 0 := by have := unit_pos; omega

theorem mul_unit_inj {a b : Int} (h : a * (unit : Int) = b * unit) : a = b :=
  Int.eq_of_mul_eq_mul_right unit_ne h

theorem isZero_iff (x : F64) : x.isZero = true ↔ x.isFinite = true ∧ x.mag = 0 := by
  unfold isZero isFinite mag
  by_cases h : x.expo = 0
  · simp [h]
  · have h2 : 2 ^ 52 ≤ (2 ^ 52 + x.frac) * 2 ^ (x.expo - 1) :=
      le_trans (Nat.le_add_right _ _) (Nat.le_mul_of_pos_right _ (Nat.two_pow_pos _))
    simp only [h, if_false]
    constructor
    · intro h'; simp [h] at h'
    · rintro ⟨_, h'⟩; omega

theorem isFinite_of_isZero0 {x : F64} (h : x.isZero0 = true) : x.isFinite = true := by
  unfold isZero0 at h; unfold isFinite
  have : x.expo = 0 := by simpa using h
  simp [this]

theorem scaled_eq_zero {x : F64} (h : x.mag = 0) : x.scaled = 0 := by
  unfold scaled; simp [h]

/-- Without subnormals `isInteger` says what its name says. -/
theorem isInteger_spec {x : F64} (h : x.isZero0 = true → x.isZero = true) :
    x.isInteger = true ↔ ∃ n : Int, x.value = some (n * unit) := by
  rw [isInteger_iff]
  constructor
  · rintro ⟨hf, h1 | h1⟩
    · have hz := (isZero_iff x).1 (h ((isZero0_iff x).2 h1))
      exact ⟨0, by simp [value, hf, scaled_eq_zero hz.2]⟩
    · obtain ⟨n, hn⟩ := scaled_of_dvd h1
      exact ⟨n, by simp [value, hf, hn]⟩
  · rintro ⟨n, hn⟩
    unfold value at hn
    split at hn
    · rename_i hf
      refine ⟨hf, .inr (dvd_of_scaled (n := n) (by simpa using hn))⟩
    · simp at hn

theorem geZero_spec {x : F64} {n : Int} (h : x.value = some (n * unit)) :
    x.geZero = true ↔ 0 ≤ n := by
  have hu := unit_pos
  unfold value at h
  split at h
  · rename_i hf
    have hs : x.scaled = n * unit := by simpa using h
    have hnan : x.isNaN = false := by
      unfold isNaN; unfold isFinite at hf
      have : x.expo ≠ 2047 := by simpa using hf
      simp [this]
    unfold geZero
    simp only [hnan, Bool.not_false, Bool.true_and, hf, Bool.or_eq_true, Bool.not_eq_true',
      beq_iff_eq]
    unfold scaled at hs
    by_cases hsg : x.sign = true
    · simp only [hsg, if_true] at hs
      simp only [hsg, Bool.true_eq_false, false_or]
      constructor
      · intro h0
        rw [h0] at hs
        have : n * (unit : Int) = 0 := by rw [← hs]; simp
        rcases Int.mul_eq_zero.1 this with h | h
        · omega
        · exact absurd h unit_ne
      · intro h0
        have : 0 ≤ n * (unit : Int) := Int.mul_nonneg h0 (by omega)
        omega
    · simp only [hsg] at hs
      simp only [Bool.not_eq_true] at hsg
      simp only [hsg, true_or, true_iff]
      have h1 : 0 ≤ n * (unit : Int) := by rw [← hs]; simp
      exact Int.nonneg_of_mul_nonneg_left h1 (by omega)
  · simp at h

theorem isUnsigned_spec {x : F64} (h : x.isZero0 = true → x.isZero = true) :
    x.isUnsigned = true ↔ ∃ n : Int, x.value = some (n * unit) ∧ 0 ≤ n := by
  unfold isUnsigned
  rw [Bool.and_eq_true, isInteger_spec h]
  constructor
  · rintro ⟨⟨n, hn⟩, h2⟩; exact ⟨n, hn, (geZero_spec hn).1 h2⟩
  · rintro ⟨n, hn, h2⟩; exact ⟨⟨n, hn⟩, (geZero_spec hn).2 h2⟩

theorem toSigned_spec {x : F64} {n : Int} {w : Nat} (hw : 0 < w) (h : x.value = some (n * unit))
    (h1 : -(2 ^ (w - 1) : Int) ≤ n) (h2 : n < 2 ^ (w - 1)) :
    ∃ r : BitVec w, x.toSigned w = .ok r ∧ r.toInt = n := by
  unfold value at h
  split at h
  · rename_i hf
    have ht := trunc_of_scaled (x := x) (n := n) (by simpa using h)
    refine ⟨BitVec.ofInt w n, ?_, ?_⟩
    · unfold toSigned; rw [ht, if_pos ⟨hf, h1, h2⟩]
    · have e : (2 : Int) ^ w = 2 * 2 ^ (w - 1) := by
        conv => lhs; rw [show w = w - 1 + 1 by omega]
        rw [Int.pow_succ]; omega
      rw [BitVec.toInt_ofInt]
      apply Int.bmod_eq_of_le
      · push_cast; rw [e]; omega
      · push_cast; rw [e]; omega
  · simp at h

theorem toUnsigned_spec {x : F64} {n : Int} {w : Nat} (h : x.value = some (n * unit))
    (h1 : 0 ≤ n) (h2 : n < 2 ^ w) :
    ∃ r : BitVec w, x.toUnsigned w = .ok r ∧ (r.toNat : Int) = n := by
  unfold value at h
  split at h
  · rename_i hf
    have ht := trunc_of_scaled (x := x) (n := n) (by simpa using h)
    refine ⟨BitVec.ofInt w n, ?_, ?_⟩
    · unfold toUnsigned; rw [ht, if_pos ⟨hf, h1, h2⟩]
    · rw [BitVec.toNat_ofInt]
      have : ((2 ^ w : Nat) : Int) = 2 ^ w := by push_cast; rfl
      rw [this, Int.emod_eq_of_lt h1 h2]; omega
  · simp at h

namespace GC

/-- Two forms of "exact or throw". -/
theorem exact_of {α : Type} {o : Out α} {val : α → Int} {v : Option Int}
    (h : (∃ n : Int, v = some (n * unit)) → ∃ r, o = .ok r ∧ v = some (val r * unit))
    (h' : (¬ ∃ n : Int, v = some (n * unit)) → o = .throw) :
    (∀ r, o = .ok r → v = some (val r * unit)) ∧
    (∀ n : Int, v = some (n * unit) → ∃ r, o = .ok r ∧ val r = n) ∧
    ((¬ ∃ n : Int, v = some (n * unit)) → o = .throw) := by
  refine ⟨fun r hr => ?_, fun n hn => ?_, h'⟩
  · by_cases hc : ∃ n : Int, v = some (n * unit)
    · obtain ⟨r', h1, h2⟩ := h hc
      rw [h1] at hr; simp at hr; rw [← hr]; exact h2
    · rw [h' hc] at hr; simp at hr
  · obtain ⟨r, h1, h2⟩ := h ⟨n, hn⟩
    refine ⟨r, h1, ?_⟩
    rw [hn] at h2
    exact (mul_unit_inj (by simpa using h2)).symm

theorem numValue_bool (b : Bool) : numValue (bool b) = some ((if b then 1 else 0 : Int) * unit) := by
  cases b <;> simp [numValue]

theorem real_value (r : F64) : numValue (real r) = r.value := rfl

theorem complex_value (c : Cplx) : numValue (complex c) = if c.im.isZero then c.re.value else none := by
  unfold numValue F64.value
  by_cases h : c.im.isZero <;> by_cases h' : c.re.isFinite <;> simp [h, h']


theorem toI32_exact {l : I64} (h1 : -2 ^ 31 ≤ l.toInt) (h2 : l.toInt < 2 ^ 31) :
    (l.toI32).toInt = l.toInt := by
  unfold I64.toI32
  rw [BitVec.toInt_eq_toNat_cond] at *
  rw [BitVec.toInt_eq_toNat_cond, BitVec.toNat_setWidth] at *
  have := l.isLt
  split at h1 <;> split <;> omega

theorem toI64_exact (i : I32) : (i.toI64).toInt = i.toInt := by
  unfold I32.toI64
  rw [BitVec.toInt_signExtend_of_le (by omega)]

theorem toNat_of_nonneg {w : Nat} {x : BitVec w} (h : 0 ≤ x.toInt) : (x.toNat : Int) = x.toInt := by
  rw [BitVec.toInt_eq_toNat_cond] at *
  have := x.isLt
  split <;> split at h <;> omega

theorem setWidth_exact {l : I64} (h1 : 0 ≤ l.toInt) (h2 : l.toInt < 2 ^ 32) :
    ((l.setWidth 32).toNat : Int) = l.toInt := by
  have := toNat_of_nonneg h1
  rw [BitVec.toNat_setWidth]; omega

theorem isZero0_of_isZero {x : F64} (h : x.isZero = true) : x.isZero0 = true := by
  unfold isZero at h; unfold isZero0
  simp only [Bool.and_eq_true] at h
  exact h.1

end GC
end GCV
