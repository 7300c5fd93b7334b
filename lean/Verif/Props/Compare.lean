import Verif.Model.Compare
import Verif.Spec.Report
import Verif.Lemmas.Convert
import Verif.Lemmas.Num
import Verif.Props.Matrix

/-! # C23: compare_content -/

namespace GCV

namespace F64

theorem bits_eq {a b : F64} (h1 : a.sign = b.sign) (h2 : a.expo = b.expo) (h3 : a.frac = b.frac) : a = b := by
  have key : ∀ x : F64, x.bits.toNat = (if x.sign then 2 ^ 63 else 0) + x.expo * 2 ^ 52 + x.frac := by
    intro x
    have hlt := x.bits.isLt
    unfold sign expo frac
    rw [BitVec.msb_eq_decide]
    by_cases h : 2 ^ (64 - 1) ≤ x.bits.toNat
    · simp only [h, decide_true, if_true]; omega
    · simp only [h, decide_false]; simp only [Bool.false_eq_true, if_false]; omega
  have : a.bits.toNat = b.bits.toNat := by rw [key a, key b, h1, h2, h3]
  cases a; cases b
  simp at this ⊢
  exact BitVec.eq_of_toNat_eq this

theorem mag_inj {a b : F64} (h : a.mag = b.mag) : a.expo = b.expo ∧ a.frac = b.frac := by
  by_cases ha : a.expo = 0
  · have h1 := mag_lt_of_expo_zero ha
    have hb : b.expo = 0 := by
      rcases Nat.eq_zero_or_pos b.expo with h0 | h0
      · exact h0
      · have := le_mag_of_expo_pos (x := b) (by omega); omega
    unfold mag at h; rw [if_pos ha, if_pos hb] at h
    exact ⟨by rw [ha, hb], h⟩
  · have hb : b.expo ≠ 0 := by
      intro hb
      have := mag_lt_of_expo_zero hb; have := le_mag_of_expo_pos ha; omega
    have lo : ∀ {x : F64}, x.expo ≠ 0 → 2 ^ (x.expo + 51) ≤ x.mag := by
      intro x hx
      unfold mag; rw [if_neg hx]
      have : x.expo + 51 = 52 + (x.expo - 1) := by omega
      rw [this, Nat.pow_add]
      exact Nat.mul_le_mul_right _ (by omega)
    have e : a.expo = b.expo := by
      rcases Nat.lt_trichotomy a.expo b.expo with h1 | h1 | h1
      · have := Nat.pow_le_pow_right (n := 2) (by decide) (show a.expo + 52 ≤ b.expo + 51 by omega)
        have := lo hb; have := mag_lt ha; omega
      · exact h1
      · have := Nat.pow_le_pow_right (n := 2) (by decide) (show b.expo + 52 ≤ a.expo + 51 by omega)
        have := lo ha; have := mag_lt hb; omega
    refine ⟨e, ?_⟩
    unfold mag at h
    rw [if_neg ha, if_neg hb, e] at h
    have := Nat.eq_of_mul_eq_mul_right (Nat.two_pow_pos _) h
    omega

/-- The comparison of C++ is equality of real numbers. -/
theorem feq_iff (a b : F64) : a.feq b = true ↔ EqReal a b := by
  have cls : ∀ x : F64, x.isFinite = true ∧ x.isNaN = false ∧ x.isInf = false ∨
      x.isFinite = false ∧ x.isNaN = true ∧ x.isInf = false ∨ x.isFinite = false ∧ x.isNaN = false ∧ x.isInf = true := by
    intro x
    unfold isFinite isNaN isInf
    by_cases h : x.expo = 2047 <;> by_cases h' : x.frac = 0 <;> simp [h, h']
  unfold feq EqReal F64.value
  constructor
  · intro h
    simp only [Bool.and_eq_true, Bool.not_eq_true', Bool.or_eq_true, beq_iff_eq] at h
    obtain ⟨⟨h1, h2⟩, h3⟩ := h
    rcases h3 with rfl | ⟨h3, h4⟩
    · rcases cls a with ⟨h5, -, -⟩ | ⟨-, h5, -⟩ | ⟨-, -, h5⟩
      · exact .inl ⟨_, by rw [if_pos h5], by rw [if_pos h5]⟩
      · rw [h5] at h1; simp at h1
      · exact .inr ⟨rfl, h5⟩
    · rw [isZero_iff] at h3 h4
      exact .inl ⟨0, by rw [if_pos h3.1, scaled_eq_zero h3.2], by rw [if_pos h4.1, scaled_eq_zero h4.2]⟩
  · rintro (⟨q, h1, h2⟩ | ⟨rfl, h⟩)
    · split at h1
      · split at h2
        · rename_i ha hb
          injection h1 with h1; injection h2 with h2
          have na : a.isNaN = false := by rcases cls a with h | h | h <;> simp_all
          have nb : b.isNaN = false := by rcases cls b with h | h | h <;> simp_all
          have hm : a.mag = b.mag := by rw [← natAbs_scaled, ← natAbs_scaled, h1, h2]
          rw [na, nb]
          by_cases hz : a.mag = 0
          · have : a.isZero = true ∧ b.isZero = true :=
              ⟨(isZero_iff a).2 ⟨ha, hz⟩, (isZero_iff b).2 ⟨hb, by rw [← hm, hz]⟩⟩
            simp [this.1, this.2]
          · have hs : a.sign = b.sign := by
              have e : a.scaled = b.scaled := by rw [h1, h2]
              unfold scaled at e
              rw [hm] at e
              have : (b.mag : Int) ≠ 0 := by rw [← hm]; omega
              cases h5 : a.sign <;> cases h6 : b.sign <;> simp [h5, h6] at e ⊢ <;> omega
            have := bits_eq hs (mag_inj hm).1 (mag_inj hm).2
            simp [this]
        · simp at h2
      · simp at h1
    · have : a.isNaN = false := by rcases cls a with h' | h' | h' <;> simp_all
      simp [this]

end F64

theorem Cplx.feq_iff (a b : Cplx) : a.feq b = true ↔ EqComplex a b := by
  unfold Cplx.feq EqComplex
  rw [Bool.and_eq_true, F64.feq_iff, F64.feq_iff]

namespace GC

/-- An answer, when there is one, is the right one. -/
def Right (o : Out Bool) (P : Prop) : Prop := ∀ e, o = .ok e → (e = true ↔ P)

theorem compareVec_right {α : Type} {eq : α → α → Bool} {E : α → α → Prop} (h : ∀ x y, eq x y = true ↔ E x y)
    (a b : List α) : Right (compareVec eq a b) (EqList E a b) := by
  intro e he
  unfold compareVec at he
  by_cases hl : a.length = b.length
  · rw [if_pos hl] at he
    cases a with
    | nil =>
      simp at he; subst he
      exact ⟨fun _ => ⟨hl, by intro i x y h; simp at h⟩, fun _ => rfl⟩
    | cons x r =>
      cases b with
      | nil => simp at hl
      | cons y s =>
        simp only at he
        by_cases hxy : eq x y = true
        · rw [if_pos hxy] at he; simp at he
        · rw [if_neg hxy] at he; simp at he; subst he
          refine ⟨by simp, fun h' => absurd ((h x y).2 (h'.2 0 x y rfl rfl)) hxy⟩
  · rw [if_neg hl] at he; simp at he; subst he
    exact ⟨by simp, fun h' => absurd h'.1 hl⟩

theorem compareRow_spec {α : Type} {eq : α → α → Bool} {a b : Mat α} {i : Nat} :
    ∀ (n j : Nat) (e : Bool), compareRow eq a b i j n = .ok e →
    (e = true → ∀ k, j ≤ k → k < j + n → ∃ x y, a.get i k = .ok x ∧ b.get i k = .ok y ∧ eq x y = true) ∧
    (e = false → ∃ k, j ≤ k ∧ k < j + n ∧ ∃ x y, a.get i k = .ok x ∧ b.get i k = .ok y ∧ eq x y = false)
  | 0, j, e, h => by
    simp [compareRow] at h; subst h
    exact ⟨fun _ k h1 h2 => by omega, by simp⟩
  | n + 1, j, e, h => by
    rw [compareRow] at h
    cases ha : a.get i j with
    | ok x =>
      cases hb : b.get i j with
      | ok y =>
        rw [ha, hb] at h; simp only [Out.bind] at h
        by_cases hxy : eq x y = true
        · rw [if_pos hxy] at h
          obtain ⟨h1, h2⟩ := compareRow_spec n (j + 1) e h
          refine ⟨fun he k hk1 hk2 => ?_, fun he => ?_⟩
          · by_cases hk : k = j
            · subst hk; exact ⟨x, y, ha, hb, hxy⟩
            · exact h1 he k (by omega) (by omega)
          · obtain ⟨k, hk1, hk2, hk3⟩ := h2 he; exact ⟨k, by omega, by omega, hk3⟩
        · rw [if_neg hxy] at h; simp at h; subst h
          exact ⟨by simp, fun _ => ⟨j, by omega, by omega, x, y, ha, hb, by simpa using hxy⟩⟩
      | throw => rw [ha, hb] at h; simp [Out.bind] at h
      | ub => rw [ha, hb] at h; simp [Out.bind] at h
      | diverge => rw [ha, hb] at h; simp [Out.bind] at h
    | throw => rw [ha] at h; simp [Out.bind] at h
    | ub => rw [ha] at h; simp [Out.bind] at h
    | diverge => rw [ha] at h; simp [Out.bind] at h

theorem compareRows_spec {α : Type} {eq : α → α → Bool} {a b : Mat α} :
    ∀ (n i : Nat) (e : Bool), compareRows eq a b i n = .ok e →
    (e = true → ∀ p, i ≤ p → p < i + n → ∀ k, k < a.nc →
      ∃ x y, a.get p k = .ok x ∧ b.get p k = .ok y ∧ eq x y = true) ∧
    (e = false → ∃ p k x y, a.get p k = .ok x ∧ b.get p k = .ok y ∧ eq x y = false)
  | 0, i, e, h => by
    simp [compareRows] at h; subst h
    exact ⟨fun _ p h1 h2 => by omega, by simp⟩
  | n + 1, i, e, h => by
    rw [compareRows] at h
    cases hs : compareRow eq a b i 0 a.nc with
    | ok s =>
      cases ht : compareRows eq a b (i + 1) n with
      | ok t =>
        rw [hs, ht] at h; simp [Out.bind] at h; subst h
        obtain ⟨h1, h2⟩ := compareRow_spec _ _ _ hs
        obtain ⟨h3, h4⟩ := compareRows_spec n (i + 1) t ht
        refine ⟨fun he p hp1 hp2 k hk => ?_, fun he => ?_⟩
        · rw [Bool.and_eq_true] at he
          by_cases hp : p = i
          · subst hp; exact h1 he.1 k (by omega) (by omega)
          · exact h3 he.2 p (by omega) (by omega) k hk
        · cases hsv : s with
          | false => obtain ⟨k, -, -, x, y, hk⟩ := h2 hsv; exact ⟨i, k, x, y, hk⟩
          | true =>
            rw [hsv] at he; exact h4 (by simpa using he)
      | throw => rw [hs, ht] at h; simp [Out.bind] at h
      | ub => rw [hs, ht] at h; simp [Out.bind] at h
      | diverge => rw [hs, ht] at h; simp [Out.bind] at h
    | throw => rw [hs] at h; simp [Out.bind] at h
    | ub => rw [hs] at h; simp [Out.bind] at h
    | diverge => rw [hs] at h; simp [Out.bind] at h

theorem get_data {α : Type} {m : Mat α} {i j : Nat} {x : α} (h : m.get i j = .ok x) :
    m.data[m.index i j]? = some x := by
  unfold Mat.get at h
  split at h
  · simp at h; subst h; assumption
  · simp at h

theorem compareMat_right {α : Type} {eq : α → α → Bool} {E : α → α → Prop} (h : ∀ x y, eq x y = true ↔ E x y)
    (a b : Mat α) (ha : a.wf = true) (hb : b.wf = true) : Right (compareMat eq a b) (EqMat E a b) := by
  intro e he
  unfold compareMat at he
  by_cases hl : a.nr = b.nr ∧ a.nc = b.nc
  · rw [if_pos hl] at he
    obtain ⟨h1, h2⟩ := compareRows_spec _ _ _ he
    unfold Mat.wf at ha hb
    simp only [Bool.and_eq_true, decide_eq_true_eq] at ha hb
    have hlen : a.data.length = b.data.length := by rw [ha.2, hb.2, hl.1, hl.2]
    have hidx : ∀ i j, a.index i j = b.index i j := by intro i j; unfold Mat.index; rw [hl.1]
    constructor
    · intro ht
      refine ⟨hl.1, hl.2, hlen, ?_⟩
      intro k x y hx hy
      have hk : k < a.data.length := (List.getElem?_eq_some_iff.1 hx).1
      have hk2 : k < a.nr * a.nc := by
        rw [ha.2] at hk; exact Nat.lt_of_lt_of_le hk (Nat.mod_le _ _)
      have hnr : 0 < a.nr := by
        rcases Nat.eq_zero_or_pos a.nr with h0 | h0
        · rw [h0] at hk2; simp at hk2
        · exact h0
      have h32 : k < 2 ^ 32 := by
        rw [ha.2] at hk; exact Nat.lt_trans hk (Nat.mod_lt _ (by decide))
      have hi : a.index (k % a.nr) (k / a.nr) = k := by
        unfold Mat.index u32
        have : k % a.nr + k / a.nr * a.nr = k := by rw [Nat.mul_comm]; exact Nat.mod_add_div k a.nr
        rw [this, Nat.mod_eq_of_lt h32]
      obtain ⟨x', y', hx', hy', he'⟩ := h1 ht (k % a.nr) (by omega)
        (by have := Nat.mod_lt k hnr; omega) (k / a.nr) (Nat.div_lt_of_lt_mul hk2)
      have e1 := get_data hx'; rw [hi, hx] at e1; injection e1 with e1
      have e2 := get_data hy'; rw [← hidx, hi, hy] at e2; injection e2 with e2
      subst e1; subst e2
      exact (h x y).1 he'
    · intro hE
      cases hv : e with
      | true => rfl
      | false =>
        obtain ⟨p, k, x, y, hx, hy, hxy⟩ := h2 hv
        have e1 := get_data hx; have e2 := get_data hy
        rw [← hidx] at e2
        have := (h x y).2 (hE.2.2.2 _ x y e1 e2)
        rw [hxy] at this; simp at this
  · rw [if_neg hl] at he; simp at he; subst he
    exact ⟨by simp, fun h' => absurd ⟨h'.1, h'.2.1⟩ hl⟩

theorem bind_if {o : Out Bool} {k : Out Bool} {e : Bool}
    (h : (o.bind fun x => if x then k else .ok false) = .ok e) :
    (o = .ok true ∧ k = .ok e) ∨ (o = .ok false ∧ e = false) := by
  cases o with
  | ok x =>
    cases x with
    | true => exact .inl ⟨rfl, by simpa [Out.bind] using h⟩
    | false => simp [Out.bind] at h; exact .inr ⟨rfl, h⟩
  | throw => simp [Out.bind] at h
  | ub => simp [Out.bind] at h
  | diverge => simp [Out.bind] at h

mutual

theorem compare_right : ∀ a b : GC, WF a → WF b → Right (compare_content a b) (Same a b)
  | vector a, b, ha, hb => by
    cases b with
    | vector b =>
      intro e he
      rw [compare_content] at he
      by_cases hl : a.length = b.length
      · rw [if_pos hl] at he; exact compareL_right a b ha hb hl e he
      · rw [if_neg hl] at he; simp at he; subst he
        refine ⟨by simp, fun h => absurd (SameL_length h) hl⟩
    | _ => intro e he; simp [compare_content] at he; subst he; simp [Same]
  | map a, b, ha, hb => by
    cases b with
    | map b =>
      intro e he
      rw [compare_content] at he
      by_cases hl : a.length = b.length
      · rw [if_pos hl] at he; exact compareM_right a b ha.2 hb.2 hl e he
      · rw [if_neg hl] at he; simp at he; subst he
        refine ⟨by simp, fun h => absurd (SameM_length h) hl⟩
    | _ => intro e he; simp [compare_content] at he; subst he; simp [Same]
  | notype, b, _, _ => by cases b <;> (intro e he; simp [compare_content] at he; subst he; simp [Same])
  | bool a, b, _, _ => by cases b <;> (intro e he; simp [compare_content] at he; subst he; simp [Same])
  | int a, b, _, _ => by cases b <;> (intro e he; simp [compare_content] at he; subst he; simp [Same])
  | long a, b, _, _ => by cases b <;> (intro e he; simp [compare_content] at he; subst he; simp [Same])
  | pointer a, b, _, _ => by cases b <;> (intro e he; simp [compare_content] at he; subst he; simp [Same])
  | string a, b, _, _ => by cases b <;> (intro e he; simp [compare_content] at he; subst he; simp [Same])
  | real a, b, _, _ => by
    cases b <;> (intro e he; simp [compare_content] at he; try (subst he; simp [Same]))
  | complex a, b, _, _ => by
    cases b <;> (intro e he; simp [compare_content] at he; subst he; simp [Same, Cplx.feq_iff])
  | vecPointer a, b, _, _ => by
    cases b <;> first
      | exact compareVec_right (by simp) _ _
      | (intro e he; simp [compare_content] at he; subst he; simp [Same])
  | vecBool a, b, _, _ => by
    cases b <;> first
      | exact compareVec_right (by simp) _ _
      | (intro e he; simp [compare_content] at he; subst he; simp [Same])
  | vecInt a, b, _, _ => by
    cases b <;> first
      | exact compareVec_right (by simp) _ _
      | (intro e he; simp [compare_content] at he; subst he; simp [Same])
  | vecLong a, b, _, _ => by
    cases b <;> first
      | exact compareVec_right (by simp) _ _
      | (intro e he; simp [compare_content] at he; subst he; simp [Same])
  | vecReal a, b, _, _ => by
    cases b <;> first
      | exact compareVec_right F64.feq_iff _ _
      | (intro e he; simp [compare_content] at he; subst he; simp [Same])
  | vecComplex a, b, _, _ => by
    cases b <;> first
      | exact compareVec_right Cplx.feq_iff _ _
      | (intro e he; simp [compare_content] at he; subst he; simp [Same])
  | vecString a, b, _, _ => by
    cases b <;> first
      | exact compareVec_right (by simp) _ _
      | (intro e he; simp [compare_content] at he; subst he; simp [Same])
  | matInt a, b, ha, hb => by
    cases b <;> first
      | exact compareMat_right (by simp) _ _ ha hb
      | (intro e he; simp [compare_content] at he; subst he; simp [Same])
  | matLong a, b, ha, hb => by
    cases b <;> first
      | exact compareMat_right (by simp) _ _ ha hb
      | (intro e he; simp [compare_content] at he; subst he; simp [Same])
  | matReal a, b, ha, hb => by
    cases b <;> first
      | exact compareMat_right F64.feq_iff _ _ ha hb
      | (intro e he; simp [compare_content] at he; subst he; simp [Same])
  | matComplex a, b, ha, hb => by
    cases b <;> first
      | exact compareMat_right Cplx.feq_iff _ _ ha hb
      | (intro e he; simp [compare_content] at he; subst he; simp [Same])

theorem compareL_right : ∀ a b : List GC, WFL a → WFL b → a.length = b.length →
    Right (compareL a b) (SameL a b)
  | [], [], _, _, _ => by intro e he; simp [compareL] at he; subst he; simp [SameL]
  | [], _ :: _, _, _, h => by simp at h
  | _ :: _, [], _, _, h => by simp at h
  | x :: r, y :: s, ha, hb, hl => by
    intro e he
    rw [compareL] at he
    rcases bind_if he with ⟨h1, h2⟩ | ⟨h1, rfl⟩
    · have hx := (compare_right x y ha.1 hb.1 true h1).1 rfl
      have := compareL_right r s ha.2 hb.2 (by simpa using hl) e h2
      rw [this]; simp [SameL, hx]
    · have hx := (compare_right x y ha.1 hb.1 false h1)
      simp at hx; simp [SameL, hx]

theorem compareM_right : ∀ a b : Entries, WFM a → WFM b → a.length = b.length →
    Right (compareM a b) (SameM a b)
  | [], [], _, _, _ => by intro e he; simp [compareM] at he; subst he; simp [SameM]
  | [], _ :: _, _, _, h => by simp at h
  | _ :: _, [], _, _, h => by simp at h
  | (k, x) :: r, (l, y) :: s, ha, hb, hl => by
    intro e he
    rw [compareM] at he
    by_cases hk : k = l
    · rw [if_pos hk] at he
      rcases bind_if he with ⟨h1, h2⟩ | ⟨h1, rfl⟩
      · have hx := (compare_right x y ha.1 hb.1 true h1).1 rfl
        have := compareM_right r s ha.2 hb.2 (by simpa using hl) e h2
        rw [this]; simp [SameM, hx, hk]
      · have hx := (compare_right x y ha.1 hb.1 false h1)
        simp at hx; simp [SameM, hx]
    · rw [if_neg hk] at he; simp at he; subst he; simp [SameM, hk]

theorem SameL_length : ∀ {a b : List GC}, SameL a b → a.length = b.length
  | [], [], _ => rfl
  | [], _ :: _, h => by simp [SameL] at h
  | _ :: _, [], h => by simp [SameL] at h
  | _ :: _, _ :: _, h => by simp only [List.length_cons]; rw [SameL_length h.2]

theorem SameM_length : ∀ {a b : Entries}, SameM a b → a.length = b.length
  | [], [], _ => rfl
  | [], _ :: _, h => by simp [SameM] at h
  | (_, _) :: _, [], h => by simp [SameM] at h
  | (_, _) :: _, (_, _) :: _, h => by simp only [List.length_cons]; rw [SameM_length h.2.2]

end

/-! ## The answers are right -/

/-- C23, partial: whenever `compare_content` returns, the string is empty exactly when the two containers
have the same type, the same shape and the same values.  Missing: it does not return for all inputs, see
below. -/
theorem C23_answer_partial (a b : GC) (ha : WF a) (hb : WF b) (e : Bool)
    (h : compare_content a b = .ok e) : e = true ↔ Same a b := compare_right a b ha hb e h

/-! ## When it returns -/

theorem compareVec_nil {α : Type} {eq : α → α → Bool} {a b : List α} (h : a.isEmpty = true) :
    ∃ e, compareVec eq a b = .ok e := by
  cases a with
  | nil => unfold compareVec; split <;> exact ⟨_, rfl⟩
  | cons _ _ => simp at h

theorem compareRow_ok {α : Type} {eq : α → α → Bool} {a b : Mat α} {i : Nat}
    (h : ∀ j, j < a.nc → ∃ x y, a.get i j = .ok x ∧ b.get i j = .ok y) :
    ∀ n j, j + n ≤ a.nc → ∃ e, compareRow eq a b i j n = .ok e
  | 0, _, _ => ⟨_, rfl⟩
  | n + 1, j, hj => by
    obtain ⟨x, y, hx, hy⟩ := h j (by omega)
    rw [compareRow, hx, hy]; simp only [Out.bind]
    split
    · exact compareRow_ok h n (j + 1) (by omega)
    · exact ⟨_, rfl⟩

theorem compareRows_ok {α : Type} {eq : α → α → Bool} {a b : Mat α}
    (h : ∀ i, i < a.nr → ∀ j, j < a.nc → ∃ x y, a.get i j = .ok x ∧ b.get i j = .ok y) :
    ∀ n i, i + n ≤ a.nr → ∃ e, compareRows eq a b i n = .ok e
  | 0, _, _ => ⟨_, rfl⟩
  | n + 1, i, hi => by
    obtain ⟨s, hs⟩ := compareRow_ok (eq := eq) (h i (by omega)) a.nc 0 (by omega)
    obtain ⟨t, ht⟩ := compareRows_ok h n (i + 1) (by omega)
    rw [compareRows, hs, ht]; exact ⟨_, rfl⟩

theorem compareMat_ok {α : Type} {eq : α → α → Bool} {a b : Mat α} (ha : a.wf = true) (hb : b.wf = true)
    (hc : decide (a.nr * a.nc < 2 ^ 32) = true) : ∃ e, compareMat eq a b = .ok e := by
  unfold compareMat
  split
  · rename_i hl
    have hc := of_decide_eq_true hc
    refine compareRows_ok (fun i hi j hj => ?_) _ _ (by omega)
    obtain ⟨x, -, hx⟩ := Mat.get_eq ha hc hi hj
    obtain ⟨y, -, hy⟩ := Mat.get_eq hb (by rw [← hl.1, ← hl.2]; exact hc) (hl.1 ▸ hi) (hl.2 ▸ hj)
    exact ⟨x, y, hx, hy⟩
  · exact ⟨_, rfl⟩

mutual

theorem compare_ok : ∀ a b : GC, WF a → WF b → every quiet a = true → ∃ e, compare_content a b = .ok e
  | vector a, b, ha, hb, hq => by
    cases b with
    | vector b =>
      rw [compare_content]
      split
      · rw [every] at hq; simp only [Bool.and_eq_true] at hq
        exact compareL_ok a b ha hb hq.2 (by assumption)
      · exact ⟨_, rfl⟩
    | _ => exact ⟨_, rfl⟩
  | map a, b, ha, hb, hq => by
    cases b with
    | map b =>
      rw [compare_content]
      split
      · rw [every] at hq; simp only [Bool.and_eq_true] at hq
        exact compareM_ok a b ha.2 hb.2 hq.2 (by assumption)
      · exact ⟨_, rfl⟩
    | _ => exact ⟨_, rfl⟩
  | notype, b, _, _, _ => by cases b <;> exact ⟨_, rfl⟩
  | bool a, b, _, _, _ => by cases b <;> exact ⟨_, rfl⟩
  | int a, b, _, _, _ => by cases b <;> exact ⟨_, rfl⟩
  | long a, b, _, _, _ => by cases b <;> exact ⟨_, rfl⟩
  | pointer a, b, _, _, _ => by cases b <;> exact ⟨_, rfl⟩
  | string a, b, _, _, _ => by cases b <;> exact ⟨_, rfl⟩
  | real a, b, _, _, hq => by simp [every, quiet] at hq
  | complex a, b, _, _, _ => by cases b <;> exact ⟨_, rfl⟩
  | vecPointer a, b, _, _, hq => by cases b <;> first | exact compareVec_nil hq | exact ⟨_, rfl⟩
  | vecBool a, b, _, _, hq => by cases b <;> first | exact compareVec_nil hq | exact ⟨_, rfl⟩
  | vecInt a, b, _, _, hq => by cases b <;> first | exact compareVec_nil hq | exact ⟨_, rfl⟩
  | vecLong a, b, _, _, hq => by cases b <;> first | exact compareVec_nil hq | exact ⟨_, rfl⟩
  | vecReal a, b, _, _, hq => by cases b <;> first | exact compareVec_nil hq | exact ⟨_, rfl⟩
  | vecComplex a, b, _, _, hq => by cases b <;> first | exact compareVec_nil hq | exact ⟨_, rfl⟩
  | vecString a, b, _, _, hq => by cases b <;> first | exact compareVec_nil hq | exact ⟨_, rfl⟩
  | matInt a, b, ha, hb, hq => by cases b <;> first | exact compareMat_ok ha hb hq | exact ⟨_, rfl⟩
  | matLong a, b, ha, hb, hq => by cases b <;> first | exact compareMat_ok ha hb hq | exact ⟨_, rfl⟩
  | matReal a, b, ha, hb, hq => by cases b <;> first | exact compareMat_ok ha hb hq | exact ⟨_, rfl⟩
  | matComplex a, b, ha, hb, hq => by cases b <;> first | exact compareMat_ok ha hb hq | exact ⟨_, rfl⟩

theorem compareL_ok : ∀ a b : List GC, WFL a → WFL b → everyL quiet a = true → a.length = b.length →
    ∃ e, compareL a b = .ok e
  | [], [], _, _, _, _ => ⟨_, rfl⟩
  | [], _ :: _, _, _, _, h => by simp at h
  | _ :: _, [], _, _, _, h => by simp at h
  | x :: r, y :: s, ha, hb, hq, hl => by
    rw [everyL, Bool.and_eq_true] at hq
    obtain ⟨e, he⟩ := compare_ok x y ha.1 hb.1 hq.1
    rw [compareL, he]; simp only [Out.bind]
    split
    · exact compareL_ok r s ha.2 hb.2 hq.2 (by simpa using hl)
    · exact ⟨_, rfl⟩

theorem compareM_ok : ∀ a b : Entries, WFM a → WFM b → everyM quiet a = true → a.length = b.length →
    ∃ e, compareM a b = .ok e
  | [], [], _, _, _, _ => ⟨_, rfl⟩
  | [], _ :: _, _, _, _, h => by simp at h
  | _ :: _, [], _, _, _, h => by simp at h
  | (k, x) :: r, (l, y) :: s, ha, hb, hq, hl => by
    rw [everyM, Bool.and_eq_true] at hq
    rw [compareM]
    split
    · obtain ⟨e, he⟩ := compare_ok x y ha.1 hb.1 hq.1
      rw [he]; simp only [Out.bind]
      split
      · exact compareM_ok r s ha.2 hb.2 hq.2 (by simpa using hl)
      · exact ⟨_, rfl⟩
    · exact ⟨_, rfl⟩

end

/-- C23, partial: on trees without real numbers and without non empty packed vectors the comparison
returns, and it decides equality. -/
theorem C23_decides_partial (a b : GC) (ha : WF a) (hb : WF b) (hq : every quiet a = true) :
    (Same a b ∧ compare_content a b = .ok true) ∨ (¬ Same a b ∧ compare_content a b = .ok false) := by
  obtain ⟨e, he⟩ := compare_ok a b ha hb hq
  have := C23_answer_partial a b ha hb e he
  cases e with
  | true => exact .inl ⟨this.1 rfl, he⟩
  | false => exact .inr ⟨by simpa using this, he⟩

/-- An instance: two maps with a vector, a complex number and a matrix. -/
def compareEx (n : I32) : GC :=
  map [([97], vector [int n, complex ⟨⟨0x3ff0000000000000⟩, ⟨0x8000000000000000⟩⟩]), ([98], matInt ⟨1, 2, [3, 4]⟩)]

example : WF (compareEx 1) ∧ WF (compareEx 2) ∧ every quiet (compareEx 1) = true ∧
    compare_content (compareEx 1) (compareEx 1) = .ok true ∧
    compare_content (compareEx 1) (compareEx 2) = .ok false := by
  refine ⟨?_, ?_, by decide, by decide, by decide⟩ <;>
  · refine ⟨?_, ⟨trivial, trivial, trivial⟩, (by decide : Mat.wf _ = true), trivial⟩
    refine List.Pairwise.cons ?_ (List.Pairwise.cons (by simp) List.Pairwise.nil)
    intro e he
    simp at he; subst he
    exact .inr ⟨[], 97, 98, [], [], rfl, rfl, by decide⟩

/-! ## When it does not -/

/-- C23 is false: comparing a container holding a non empty packed vector with its own copy never ends. -/
theorem C23_vector_negation :
    (∀ x r, compare_content (vecInt (x :: r)) (vecInt (x :: r)) = .diverge) ∧
    (∀ x r, compare_content (vecBool (x :: r)) (vecBool (x :: r)) = .diverge) ∧
    (∀ x r, compare_content (vecString (x :: r)) (vecString (x :: r)) = .diverge) := by
  refine ⟨fun x r => ?_, fun x r => ?_, fun x r => ?_⟩ <;> simp [compare_content, compareVec]

/-- C23 is false: comparing two reals, equal or not, has undefined behaviour. -/
theorem C23_real_negation (x y : F64) : compare_content (real x) (real y) = .ub := rfl

theorem compareVec_same {α : Type} {eq : α → α → Bool} {E : α → α → Prop} (h : ∀ x y, eq x y = true ↔ E x y)
    {a b : List α} (hs : EqList E a b) (hq : a.isEmpty = false) (e : Bool) : compareVec eq a b ≠ .ok e := by
  cases a with
  | nil => simp at hq
  | cons x r =>
    cases b with
    | nil => have := hs.1; simp at this
    | cons y s =>
      have hl := hs.1
      have := (h x y).2 (hs.2 0 x y rfl rfl)
      simp only [List.length_cons] at hl
      simp [compareVec, hl, this]

mutual

theorem same_stuck : ∀ a b : GC, WF a → WF b → Same a b → every comparable a = false → ∀ e, compare_content a b ≠ .ok e
  | vector a, b, ha, hb, hs, hq => by
    intro e he
    cases b with
    | vector b =>
      have hl := SameL_length hs
      rw [compare_content, if_pos hl] at he
      rw [every] at hq; simp only [comparable, quiet, Bool.true_and] at hq
      exact sameL_stuck a b ha hb hs hq e he
    | _ => exact hs
  | map a, b, ha, hb, hs, hq => by
    intro e he
    cases b with
    | map b =>
      have hl := SameM_length hs
      rw [compare_content, if_pos hl] at he
      rw [every] at hq; simp only [comparable, quiet, Bool.true_and] at hq
      exact sameM_stuck a b ha.2 hb.2 hs hq e he
    | _ => exact hs
  | notype, b, _, _, _, h => by simp [every, comparable, quiet] at h
  | bool a, b, ha, hb, _, h => by simp [every, comparable, quiet] at h
  | int a, b, ha, hb, _, h => by simp [every, comparable, quiet] at h
  | long a, b, ha, hb, _, h => by simp [every, comparable, quiet] at h
  | pointer a, b, ha, hb, _, h => by simp [every, comparable, quiet] at h
  | string a, b, ha, hb, _, h => by simp [every, comparable, quiet] at h
  | complex a, b, ha, hb, _, h => by simp [every, comparable, quiet] at h
  | matInt a, b, ha, hb, _, h => by simp [every, comparable] at h
  | matLong a, b, ha, hb, _, h => by simp [every, comparable] at h
  | matReal a, b, ha, hb, _, h => by simp [every, comparable] at h
  | matComplex a, b, ha, hb, _, h => by simp [every, comparable] at h
  | real a, b, ha, hb, hs, hq => by cases b <;> first | exact hs.elim | (intro e he; simp [compare_content] at he)
  | vecPointer a, b, ha, hb, hs, hq => by cases b <;> first | exact hs.elim | exact compareVec_same (by simp) hs hq
  | vecBool a, b, ha, hb, hs, hq => by cases b <;> first | exact hs.elim | exact compareVec_same (by simp) hs hq
  | vecInt a, b, ha, hb, hs, hq => by cases b <;> first | exact hs.elim | exact compareVec_same (by simp) hs hq
  | vecLong a, b, ha, hb, hs, hq => by cases b <;> first | exact hs.elim | exact compareVec_same (by simp) hs hq
  | vecReal a, b, ha, hb, hs, hq => by cases b <;> first | exact hs.elim | exact compareVec_same F64.feq_iff hs hq
  | vecComplex a, b, ha, hb, hs, hq => by cases b <;> first | exact hs.elim | exact compareVec_same Cplx.feq_iff hs hq
  | vecString a, b, ha, hb, hs, hq => by cases b <;> first | exact hs.elim | exact compareVec_same (by simp) hs hq

theorem sameL_stuck : ∀ a b : List GC, WFL a → WFL b → SameL a b → everyL comparable a = false → ∀ e, compareL a b ≠ .ok e
  | [], _, _, _, _, hq => by simp [everyL] at hq
  | _ :: _, [], _, _, hs, _ => hs.elim
  | x :: r, y :: s, ha, hb, hs, hq => by
    intro e he
    rw [compareL] at he
    rw [everyL] at hq
    cases hx : every comparable x with
    | false => rcases bind_if he with ⟨h1, -⟩ | ⟨h1, -⟩ <;> exact same_stuck x y ha.1 hb.1 hs.1 hx _ h1
    | true =>
      rw [hx, Bool.true_and] at hq
      rcases bind_if he with ⟨-, h2⟩ | ⟨h1, -⟩
      · exact sameL_stuck r s ha.2 hb.2 hs.2 hq e h2
      · have := (compare_right x y ha.1 hb.1 false h1).2 hs.1; simp at this

theorem sameM_stuck : ∀ a b : Entries, WFM a → WFM b → SameM a b → everyM comparable a = false → ∀ e, compareM a b ≠ .ok e
  | [], _, _, _, _, hq => by simp [everyM] at hq
  | (_, _) :: _, [], _, _, hs, _ => hs.elim
  | (k, x) :: r, (l, y) :: s, ha, hb, hs, hq => by
    intro e he
    rw [compareM, if_pos hs.1] at he
    rw [everyM] at hq
    cases hx : every comparable x with
    | false => rcases bind_if he with ⟨h1, -⟩ | ⟨h1, -⟩ <;> exact same_stuck x y ha.1 hb.1 hs.2.1 hx _ h1
    | true =>
      rw [hx, Bool.true_and] at hq
      rcases bind_if he with ⟨-, h2⟩ | ⟨h1, -⟩
      · exact sameM_stuck r s ha.2 hb.2 hs.2.2 hq e h2
      · have := (compare_right x y ha.1 hb.1 false h1).2 hs.2.1; simp at this

end

/-- C23 is false, in general: for two equal containers the comparison returns only if there is no real
number and no non empty packed vector anywhere in them. -/
theorem C23_equal_negation (a b : GC) (ha : WF a) (hb : WF b) (hs : Same a b)
    (hq : every comparable a = false) : ¬ ∃ e, compare_content a b = .ok e :=
  fun ⟨e, he⟩ => same_stuck a b ha hb hs hq e he

/-- An instance: equal maps holding a list of integers. -/
example : WF (map [([97], vecInt [1, 2])]) ∧ Same (map [([97], vecInt [1, 2])]) (map [([97], vecInt [1, 2])]) ∧
    every comparable (map [([97], vecInt [1, 2])]) = false := by
  refine ⟨⟨List.Pairwise.cons (by simp) List.Pairwise.nil, trivial, trivial⟩, ⟨rfl, ⟨rfl, ?_⟩, trivial⟩, by decide⟩
  intro i x y hx hy
  rw [hx] at hy; injection hy

end GC
end GCV
