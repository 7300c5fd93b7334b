import Verif.Spec.Texts
import Verif.Spec.Listing
import Verif.Lemmas.Convert

/-! # C53: complex numbers and the columns of a matrix in a listing -/

namespace GCV

namespace F64

theorem expo_neg (x : F64) : x.neg.expo = x.expo := by
  have h : ∀ b : BitVec 64, b.toNat / 2 ^ 52 % 2 ^ 11 = (b.extractLsb' 52 11).toNat := fun b => by
    rw [BitVec.extractLsb'_toNat, Nat.shiftRight_eq_div_pow]
  simp only [expo, neg, h, BitVec.extractLsb'_xor]
  have : (BitVec.ofNat 64 (2 ^ 63)).extractLsb' 52 11 = 0#11 := by decide
  rw [this, BitVec.xor_zero]

theorem frac_neg (x : F64) : x.neg.frac = x.frac := by
  have h : ∀ b : BitVec 64, b.toNat % 2 ^ 52 = (b.extractLsb' 0 52).toNat := fun b => by
    rw [BitVec.extractLsb'_toNat, Nat.shiftRight_zero]
  simp only [frac, neg, h, BitVec.extractLsb'_xor]
  have : (BitVec.ofNat 64 (2 ^ 63)).extractLsb' 0 52 = 0#52 := by decide
  rw [this, BitVec.xor_zero]

theorem sign_neg (x : F64) : x.neg.sign = !x.sign := by
  have : (BitVec.ofNat 64 (2 ^ 63)).msb = true := by decide
  simp only [sign, neg, BitVec.msb_xor, this, Bool.xor_true]

theorem value_neg {x : F64} {q : Int} (h : x.value = some q) : x.neg.value = some (-q) := by
  have hf : x.neg.isFinite = x.isFinite := by simp only [isFinite, expo_neg]
  have hm : x.neg.mag = x.mag := by simp only [mag, expo_neg, frac_neg]
  by_cases h0 : x.isFinite = true
  · rw [value, if_pos h0] at h
    rw [value, hf, if_pos h0]
    injection h with h
    subst h
    simp only [scaled, hm, sign_neg]
    cases x.sign <;> simp
  · rw [value, if_neg h0] at h
    cases h

end F64

theorem complexText_cplxOut (f : Fmt) (c : Cplx) : ComplexText f c (cplxOut f c) := by
  obtain ⟨re, x⟩ := c
  have e43 : str "+" = [43] := by decide +kernel
  have e45 : str "-" = [45] := by decide +kernel
  have e105 : str "i" = [105] := by decide +kernel
  have plus : x.gtZero = true → x.ltZero = false →
      cplxOut f ⟨re, x⟩ = f.real12 re ++ str "+" ++ f.real12 x ++ str "i" := fun h1 h2 => by
    simp [cplxOut, h1, h2, e43, e105]
  have minus : x.gtZero = false → x.ltZero = true →
      cplxOut f ⟨re, x⟩ = f.real12 re ++ str "-" ++ f.real12 x.neg ++ str "i" := fun h1 h2 => by
    simp [cplxOut, h1, h2, e45, e105]
  have none' : x.gtZero = false → x.ltZero = false → cplxOut f ⟨re, x⟩ = f.real12 re := fun h1 h2 => by
    simp [cplxOut, h1, h2]
  by_cases hn : x.isNaN = true
  · rw [none' (by simp [F64.gtZero, hn]) (by simp [F64.ltZero, hn])]
    exact .real (.inr hn)
  by_cases hf : x.isFinite = true
  · have hv : x.value = some x.scaled := by rw [F64.value, if_pos hf]
    by_cases hz : x.isZero = true
    · rw [none' (by simp [F64.gtZero, hz]) (by simp [F64.ltZero, hz])]
      refine .real (.inl ?_)
      show x.value = some 0
      rw [hv, scaled_eq_zero ((isZero_iff x).1 hz).2]
    · have hm : x.mag ≠ 0 := fun h => hz ((isZero_iff x).2 ⟨hf, h⟩)
      cases hs : x.sign with
      | false =>
        rw [plus (by simp [F64.gtZero, hn, hz, hs]) (by simp [F64.ltZero, hs])]
        refine .plus (q := x.scaled) hv ?_
        rw [F64.scaled, hs]; simp; omega
      | true =>
        rw [minus (by simp [F64.gtZero, hs]) (by simp [F64.ltZero, hn, hz, hs])]
        refine .minus (q := x.scaled) hv ?_ (F64.value_neg hv)
        rw [F64.scaled, hs]; simp; omega
  · have hi : x.isInf = true := by
      simp only [F64.isFinite, F64.isNaN, F64.isInf] at hf hn ⊢
      simp_all
    have hz : ¬ x.isZero = true := fun h => hf ((isZero_iff x).1 h).1
    cases hs : x.sign with
    | false =>
      rw [plus (by simp [F64.gtZero, hn, hz, hs]) (by simp [F64.ltZero, hs])]
      exact .plusInf hi hs
    | true =>
      rw [minus (by simp [F64.gtZero, hs]) (by simp [F64.ltZero, hn, hz, hs])]
      refine .minusInf hi hs ?_ (by rw [F64.sign_neg, hs]; rfl)
      simpa only [F64.isInf, F64.expo_neg, F64.frac_neg] using hi

theorem rightIn_padded (n : Nat) (t : Bytes) : RightIn n t (padded n t) :=
  ⟨_, fun _ hx => (List.mem_replicate.1 hx).2, rfl, by simp [padded]; omega⟩

namespace GC

/-- C53.  A complex number in a listing. -/
theorem C53_complex (f : Fmt) (pre ind : Bytes) (h : Bool) (c : Cplx) :
    ∃ t, ComplexText f c t ∧ dump f pre ind (complex c) h = .ok (pre ++ t ++ str "\n", h) :=
  ⟨_, complexText_cplxOut f c, rfl⟩

/-- C53.  The cells of a matrix: right justified, the complex numbers of the first column as pairs `(re,im)`. -/
theorem C53_cells (f : Fmt) (j : Nat) :
    (∀ c, ∃ t, (if j = 0 then t = str "(" ++ f.real c.re ++ str "," ++ f.real c.im ++ str ")" else ComplexText f c t) ∧
      RightIn (if j = 0 then 8 else 12) t (showCell f j (complex c))) ∧
    (∀ r, RightIn 8 (f.real r) (showCell f j (real r))) ∧
    (∀ i, RightIn 8 (decimal (BitVec.toInt i)) (showCell f j (int i))) ∧
    (∀ i, RightIn 8 (decimal (BitVec.toInt i)) (showCell f j (long i))) := by
  refine ⟨fun c => ?_, fun r => rightIn_padded _ _, fun i => rightIn_padded _ _, fun i => rightIn_padded _ _⟩
  by_cases hj : j = 0
  · subst hj
    refine ⟨pairText f c, ?_, rightIn_padded _ _⟩
    have e1 : str "(" = [40] := by decide +kernel
    have e2 : str "," = [44] := by decide +kernel
    have e3 : str ")" = [41] := by decide +kernel
    simp [pairText, e1, e2, e3]
  · refine ⟨cplxOut f c, ?_, ?_⟩
    · rw [if_neg hj]; exact complexText_cplxOut f c
    · simp only [showCell, if_neg hj]; exact rightIn_padded _ _

/-- A way to write numbers, for the examples: `1`, `-1` and `0` only. -/
private def unitFmt : Fmt := ⟨fun x => if x.isZero then str "0" else if x.sign then str "-1" else str "1",
  fun x => if x.isZero then str "0" else if x.sign then str "-1" else str "1"⟩

/-- `1-1i` -/
example : cplxOut unitFmt ⟨⟨0x3FF0000000000000#64⟩, ⟨0xBFF0000000000000#64⟩⟩ = str "1-1i" := by decide +kernel

/-- The first column: `(1,-1)` in eight places. -/
example : showCell unitFmt 0 (complex ⟨⟨0x3FF0000000000000#64⟩, ⟨0xBFF0000000000000#64⟩⟩) = str "  (1,-1)" := by decide +kernel

end GC
end GCV
