import Verif.Lemmas.Float
import Verif.Props.Convert
import Verif.Props.Exact

/-!
# C11, C83: rounding to `double` and `float`
-/

namespace GCV

set_option exponentiation.threshold 3000

namespace F64

theorem finite_form64 (x : F64) : ∃ m e, m < 2 ^ 53 ∧ x.mag = m * 2 ^ e := by
  have hf : x.frac < 2 ^ 52 := by unfold frac; omega
  unfold mag
  split
  · exact ⟨x.frac, 0, by omega, by simp⟩
  · exact ⟨2 ^ 52 + x.frac, x.expo - 1, by omega, rfl⟩

theorem scaled_natAbs64 (x : F64) : x.scaled.natAbs = x.mag := by
  unfold scaled; split <;> omega

theorem log2_mul_pow {a : Nat} (ha : a ≠ 0) (k : Nat) : (a * 2 ^ k).log2 = a.log2 + k := by
  have b := log2_bounds ha
  apply F32.log2_eq
  · rw [Nat.pow_add]; exact Nat.mul_le_mul_right _ b.1
  · rw [Nat.add_right_comm, Nat.pow_add 2 (a.log2 + 1)]
    exact (Nat.mul_lt_mul_right (Nat.two_pow_pos k)).2 b.2

theorem signed_mul (n : Int) (u : Nat) :
    n * u = if decide (n < 0) = true then -((n.natAbs * u : Nat) : Int) else ((n.natAbs * u : Nat) : Int) := by
  by_cases hn : n < 0
  · simp only [hn, decide_true, if_true]
    have : (n.natAbs : Int) = -n := by omega
    rw [Nat.cast_mul, this, Int.neg_mul, Int.neg_neg]
  · simp only [hn, decide_false, Bool.false_eq_true, if_false]
    have : (n.natAbs : Int) = n := by omega
    rw [Nat.cast_mul, this]

theorem max_aux {l k : Nat} (h : l = k + 1074) : max (l + 1 - 53) 0 = k + 1022 := by omega

theorem sig_rne {a : Nat} : sig a = rne (a * unit) (a.log2 + 1022) := by
  rw [unit_eq]
  by_cases h : a.log2 ≤ 52
  · have : a * 2 ^ 1074 = (a * 2 ^ (52 - a.log2)) * 2 ^ (a.log2 + 1022) := by
      rw [mul_assoc, ← Nat.pow_add]; exact congrArg (fun k => a * 2 ^ k) (by omega)
    rw [this, rne_exact]
    unfold sig; simp only [if_pos h]
  · have := rne_scale a (a.log2 - 52) 1074
    rw [show a.log2 - 52 + 1074 = a.log2 + 1022 by omega] at this
    rw [this]
    unfold sig rne; simp only [if_neg h]

theorem ofInt_frac {n : Int} (h0 : n ≠ 0) (h : n.natAbs.log2 ≤ 1022) : (ofInt n).frac % 2 = sig n.natAbs % 2 := by
  have hb := ofNatBits_lt (a := n.natAbs) (by omega) h
  unfold ofInt frac
  rw [if_neg h0]
  rw [ofNatBits_eq] at *
  split <;> (simp only [BitVec.toNat_ofNat]; omega)

theorem ofInt_nearest {n : Int} (h : n.natAbs < 2 ^ 64) : NearestDouble (n * unit) (ofInt n) := by
  by_cases h0 : n = 0
  · subst h0
    have h1 : (ofInt 0).value = some 0 := by decide
    exact ⟨0, h1, fun z w _ => ⟨by simp, fun _ => .inr (by decide)⟩⟩
  · have ha : n.natAbs ≠ 0 := by omega
    have hL : n.natAbs.log2 ≤ 63 := log2_le_of_le (by omega)
    have hL' : n.natAbs.log2 ≤ 1022 := by omega
    obtain ⟨h1, h2, h3⟩ := ofInt_parts h0 hL'
    refine ⟨_, by rw [value, if_pos h1], fun z w hz => ?_⟩
    have hz' : w = z.scaled := by
      unfold value at hz
      split at hz
      · simp at hz; exact hz.symm
      · simp at hz
    obtain ⟨m, e, hm, hze⟩ := finite_form64 z
    have hy : w.natAbs = m * 2 ^ e := by rw [hz', scaled_natAbs64, hze]
    have hu := unit_pos
    have ha' : n.natAbs * unit ≠ 0 := Nat.mul_ne_zero ha (Nat.ne_of_gt hu)
    have hlog : (n.natAbs * unit).log2 = n.natAbs.log2 + 1074 := by
      rw [unit_eq]; exact log2_mul_pow ha 1074
    have hs : max ((n.natAbs * unit).log2 + 1 - 53) 0 = n.natAbs.log2 + 1022 := max_aux hlog
    have r1 := round_near (p := 53) (emin := 0) (a := n.natAbs * unit) (by omega) ha' hm (Nat.zero_le e)
    have r0 := round_near (p := 53) (emin := 0) (a := n.natAbs * unit) (m := 0) (e := 0) (by omega) ha' (by omega) (by omega)
    simp only [hs] at r1 r0
    rw [← sig_rne] at r1 r0
    have hz0 : (((0 * 2 ^ 0 : Nat) : Int) - ((n.natAbs * unit : Nat) : Int)).natAbs = n.natAbs * unit := by
      rw [Nat.zero_mul, Int.natCast_zero, Int.zero_sub, Int.natAbs_neg, Int.natAbs_natCast]
    rw [hz0] at r0
    rw [scaled, h2, h3, ofInt_frac h0 hL']
    have hq := signed_mul n unit
    rw [hq]
    refine near_signed (n := decide (n < 0)) hy _ r1 ⟨r0.1, fun hh => ?_⟩
    rcases r0.2 hh with h4 | h4
    · left; rw [← h4, Nat.zero_mul]
    · exact .inr h4

end F64

namespace GC

open F64

/-- **C11**, every long included: the double returned is the one nearest to the number stored. -/
theorem C11_nearest (g : GC) (q : Int) (h : isRealNumber g = true) (hq : numValue g = some q) :
    ∃ x, get_number g = .ok x ∧ get_value_double g = .ok x ∧ NearestDouble q x ∧
      get_complex_number g = .ok ⟨x, ⟨0⟩⟩ := by
  have key : ∀ n : Int, n.natAbs < 2 ^ 64 → n * unit = q → NearestDouble q (ofInt n) := by
    intro n h1 h2; rw [← h2]; exact ofInt_nearest h1
  cases g with
  | bool b => cases b
              · exact ⟨ofInt 0, rfl, rfl, key 0 (by decide) (by simpa [numValue] using hq), rfl⟩
              · exact ⟨ofInt 1, rfl, rfl, key 1 (by decide) (by simpa [numValue] using hq), rfl⟩
  | int i =>
    have h1 := i.toInt_lt; have h2 := i.le_toInt
    exact ⟨_, rfl, rfl, key i.toInt (by omega) (by simpa [numValue] using hq), rfl⟩
  | long i =>
    have h1 := i.toInt_lt; have h2 := i.le_toInt
    exact ⟨_, rfl, rfl, key i.toInt (by omega) (by simpa [numValue] using hq), rfl⟩
  | real r =>
    refine ⟨r, rfl, rfl, ⟨q, hq, fun z w _ => ⟨by simp, fun hw => ?_⟩⟩, rfl⟩
    left; simp only [Int.sub_self, Int.natAbs_zero, Int.natAbs_eq_zero] at hw; omega
  | _ => simp [isRealNumber] at h

example : NearestDouble (9007199254740993 * unit) ⟨0x4340000000000000⟩ := by
  obtain ⟨x, h1, _, h2, _⟩ := C11_nearest (long 9007199254740993) _ rfl rfl
  have : x = ⟨0x4340000000000000⟩ := by
    have e : get_number (long 9007199254740993) = .ok ⟨0x4340000000000000⟩ := by decide
    rw [e] at h1; simpa using h1.symm
  rw [← this]; exact h2

/-! ## C83 -/

theorem floatOf (x : F64) : FloatOf x (F32.ofF64 x) := by
  unfold FloatOf F32.ofF64 F64.value
  by_cases hn : x.isNaN = true
  · have hf : x.isFinite = false := by
      simp [F64.isNaN] at hn; simp [F64.isFinite, hn.1]
    rw [if_pos hn]
    obtain ⟨h1, h2, h3⟩ := F32.pack_parts x.sign (b := 255 * 2 ^ 23 + 2 ^ 22 + x.frac / 2 ^ 29 % 2 ^ 22) (by omega)
    refine ⟨h1, ?_⟩
    simp only [hf, hn, Bool.false_eq_true, if_false, if_true]
    rw [F32.isNaN, h2, h3]
    simp only [Bool.and_eq_true, beq_iff_eq, bne_iff_ne]
    omega
  · rw [if_neg hn]
    by_cases hi : x.isInf = true
    · have hf : x.isFinite = false := by
        simp [F64.isInf] at hi; simp [F64.isFinite, hi.1]
      rw [if_pos hi]
      obtain ⟨h1, h2, h3⟩ := F32.pack_parts x.sign (b := 255 * 2 ^ 23) (by omega)
      refine ⟨h1, ?_⟩
      simp only [hf, hn, Bool.false_eq_true, if_false]
      rw [F32.isInf, h2, h3]; rfl
    · have hf : x.isFinite = true := by
        simp [F64.isNaN, F64.isInf, F64.isFinite] at *
        intro h; exact hi h (hn h)
      rw [if_neg hi]
      have := F32.pack_near x.sign x.mag
      refine ⟨this.1, ?_⟩
      simp only [hf, if_true]
      exact this.2

/-- **C83**: a number read as float is the nearest float, with the sign of the number. -/
theorem C83_nearest (g : GC) :
    (∀ n : Int, (g = bool true ∧ n = 1) ∨ (g = bool false ∧ n = 0) ∨ (∃ i, g = int i ∧ i.toInt = n) ∨
        (∃ l, g = long l ∧ l.toInt = n) →
      ∃ y, get_value_float g = .ok y ∧ NearestFloat (n * unit) y ∧ y.sign = decide (n < 0)) ∧
    (∀ r, g = real r → ∃ y, get_value_float g = .ok y ∧ FloatOf r y) ∧
    (∀ c, g = complex c → if c.im.tiny then ∃ y, get_value_float g = .ok y ∧ FloatOf c.re y
      else get_value_float g = .throw) ∧
    (isNumber g = false → get_value_float g = .throw) := by
  have key : ∀ n : Int, NearestFloat (n * unit) (F32.ofInt n) ∧ (F32.ofInt n).sign = decide (n < 0) := by
    intro n
    have := F32.pack_near (decide (n < 0)) (n.natAbs * unit)
    have he : F32.ofInt n = F32.pack (decide (n < 0)) (F32.ofMag (n.natAbs * unit)) := by rw [F32.ofInt, unit_eq]
    rw [he, signed_mul n unit]
    exact ⟨this.2, this.1⟩
  refine ⟨?_, ?_, ?_, ?_⟩
  · rintro n (⟨rfl, rfl⟩ | ⟨rfl, rfl⟩ | ⟨i, rfl, rfl⟩ | ⟨i, rfl, rfl⟩) <;> exact ⟨_, rfl, key _⟩
  · rintro r rfl; exact ⟨_, rfl, floatOf r⟩
  · rintro c rfl
    have ht : c.im.tiny = c.im.isZero0 := tiny_eq c.im
    rw [ht, get_value_float]
    by_cases h : c.im.isZero0 = true
    · rw [if_pos h, if_pos h]; exact ⟨_, rfl, floatOf _⟩
    · rw [if_neg h, if_neg h]
  · cases g <;> simp [isNumber, get_value_float]

/-- **C83**: a float that is stored has its exact value in the container and comes back as the same float; a NaN comes back
as a NaN. -/
theorem C83_round_trip (f : F32) (g : GC) :
    (∀ q, f.value = some q → numValue (assign_float f g) = some q) ∧
    (f.isNaN = false → get_value_float (assign_float f g) = .ok f) ∧
    (f.isNaN = true → ∃ y, get_value_float (assign_float f g) = .ok y ∧ y.isNaN = true) := by
  obtain ⟨p1, p2, p3⟩ := F32.toF64_parts f
  refine ⟨?_, ?_, ?_⟩
  · intro q hq
    unfold F32.value at hq
    split at hq
    · rename_i hf
      have he : f.expo ≠ 255 := by simpa [F32.isFinite] using hf
      obtain ⟨a, b⟩ := p3 he
      rw [assign_float, numValue, if_pos a, ← hq]
      unfold F64.scaled F32.scaled
      rw [p1, b]
    · simp at hq
  · intro hn
    rw [assign_float, get_value_float]
    congr 1
    rw [F32.ofF64]
    by_cases he : f.expo = 255
    · obtain ⟨a, b⟩ := p2 he
      have hf0 : f.frac = 0 := by
        simp [F32.isNaN, he] at hn; exact hn
      rw [if_neg (by simp [F64.isNaN, a, b.2 hf0]), if_pos (by simp [F64.isInf, a, b.2 hf0]), p1]
      have := F32.bits_eq f
      rw [he, hf0] at this
      exact this.symm
    · obtain ⟨a, b⟩ := p3 he
      have ha : f.toF64.expo ≠ 2047 := by simpa [F64.isFinite] using a
      rw [if_neg (by simp [F64.isNaN, ha]), if_neg (by simp [F64.isInf, ha]), p1, b,
        F32.ofMag_mag (by simp [F32.isFinite, he])]
      exact (F32.bits_eq f).symm
  · intro hn
    have hn' : f.expo = 255 ∧ f.frac ≠ 0 := by simpa [F32.isNaN] using hn
    obtain ⟨a, b⟩ := p2 hn'.1
    have hx : f.toF64.isNaN = true := by simp [F64.isNaN, a, mt b.1 hn'.2]
    refine ⟨_, rfl, ?_⟩
    have := floatOf f.toF64
    unfold FloatOf F64.value at this
    have hf : f.toF64.isFinite = false := by simp [F64.isFinite, a]
    simp only [hf, hx, Bool.false_eq_true, if_false, if_true] at this
    exact this.2

/-- **C83**: a complex number made of floats has exactly their values. -/
theorem C83_complex (re im : F32) (g : GC) : ∃ c, assign_complex_float re im g = complex c ∧
    (∀ q, re.value = some q → c.re.value = some q) ∧ (∀ q, im.value = some q → c.im.value = some q) ∧
    (re.isNaN = true → c.re.isNaN = true) ∧ (im.isNaN = true → c.im.isNaN = true) ∧
    (re.isInf = true → c.re.isInf = true) ∧ (im.isInf = true → c.im.isInf = true) ∧
    c.re.sign = re.sign ∧ c.im.sign = im.sign := by
  have key : ∀ f : F32, (∀ q, f.value = some q → f.toF64.value = some q) ∧ (f.isNaN = true → f.toF64.isNaN = true) ∧
      (f.isInf = true → f.toF64.isInf = true) ∧ f.toF64.sign = f.sign := by
    intro f
    obtain ⟨p1, p2, p3⟩ := F32.toF64_parts f
    refine ⟨fun q hq => ?_, fun hn => ?_, fun hn => ?_, p1⟩
    · have := (C83_round_trip f g).1 q hq
      simpa [assign_float, numValue, F64.value] using this
    · have hn' : f.expo = 255 ∧ f.frac ≠ 0 := by simpa [F32.isNaN] using hn
      obtain ⟨a, b⟩ := p2 hn'.1
      simp [F64.isNaN, a, mt b.1 hn'.2]
    · have hn' : f.expo = 255 ∧ f.frac = 0 := by simpa [F32.isInf] using hn
      obtain ⟨a, b⟩ := p2 hn'.1
      simp [F64.isInf, a, b.2 hn'.2]
  obtain ⟨a1, a2, a3, a4⟩ := key re
  obtain ⟨b1, b2, b3, b4⟩ := key im
  exact ⟨_, rfl, a1, b1, a2, b2, a3, b3, a4, b4⟩

/-- 16777217 is not a float: it is read as 16777216; 2^1000 as infinity; 0.1 as the nearest float, which is stored
exactly. -/
example : get_value_float (int 16777217) = .ok (F32.ofInt 16777216) ∧
    get_value_float (real ⟨0x7E70000000000000⟩) = .ok ⟨0x7F800000⟩ ∧
    get_value_float (real ⟨0x3FB999999999999A⟩) = .ok ⟨0x3DCCCCCD⟩ ∧
    assign_float ⟨0x3DCCCCCD⟩ notype = real ⟨0x3FB99999A0000000⟩ := by decide +kernel

end GC
end GCV
