import Verif.Model.CopyTo
import Verif.Spec.Elems
import Verif.Props.Convert
import Verif.Lemmas.Promote

/-! # Lemmas about copyto_* -/

namespace GCV
namespace GC

open F64

/-- Exact or refused, refused only if not representable. -/
def ExactConv {α : Type} (sc : GC → Out α) (R : GC → α → Prop) (x : GC) : Prop :=
  (∃ a, sc x = .ok a ∧ R x a) ∨ (sc x = .throw ∧ ¬ ∃ a, R x a)

/-- Exact or refused. -/
def SoundConv {α : Type} (sc : GC → Out α) (R : GC → α → Prop) (x : GC) : Prop :=
  (∃ a, sc x = .ok a ∧ R x a) ∨ sc x = .throw

theorem convLoop_exact {α β : Type} (f : α → Out β) (up : α → GC) (R : GC → β → Prop) :
    ∀ v : List α, (∀ x ∈ v, (∃ a, f x = .ok a ∧ R (up x) a) ∨ (f x = .throw ∧ ¬ ∃ a, R (up x) a)) →
    (∃ w, convLoop f v = .ok w ∧ Pointwise R (v.map up) w) ∨
    (convLoop f v = .throw ∧ ¬ ∃ w, Pointwise R (v.map up) w)
  | [], _ => .inl ⟨[], rfl, rfl, by intro i x a h; simp at h⟩
  | x :: r, h => by
    have ih := convLoop_exact f up R r (fun y hy => h y (by simp [hy]))
    rcases h x (by simp) with ⟨a, h1, h2⟩ | ⟨h1, h2⟩
    · rcases ih with ⟨w, h3, h4⟩ | ⟨h3, h4⟩
      · refine .inl ⟨a :: w, by rw [convLoop, h1, Out.bind, h3]; rfl, ?_⟩
        refine ⟨by simp [← h4.1], ?_⟩
        intro i y b h5 h6
        cases i with
        | zero => simp at h5 h6; rw [← h5, ← h6]; exact h2
        | succ n => simp only [List.map_cons, List.getElem?_cons_succ] at h5 h6; exact h4.2 n y b h5 h6
      · refine .inr ⟨by rw [convLoop, h1, Out.bind, h3]; rfl, ?_⟩
        rintro ⟨w, h5, h6⟩
        apply h4
        cases w with
        | nil => simp at h5
        | cons b w =>
          exact ⟨w, by simpa using h5, fun i y c h7 h8 => h6 (i + 1) y c (by simpa using h7) (by simpa using h8)⟩
    · refine .inr ⟨by rw [convLoop, h1]; rfl, ?_⟩
      rintro ⟨w, h5, h6⟩
      cases w with
      | nil => simp at h5
      | cons b w => exact h2 ⟨b, h6 0 _ b (by simp) (by simp)⟩

theorem convLoop_sound {α β : Type} (f : α → Out β) (up : α → GC) (R : GC → β → Prop) :
    ∀ v : List α, (∀ x ∈ v, (∃ a, f x = .ok a ∧ R (up x) a) ∨ f x = .throw) →
    (∃ w, convLoop f v = .ok w ∧ Pointwise R (v.map up) w) ∨ convLoop f v = .throw
  | [], _ => .inl ⟨[], rfl, rfl, by intro i x a h; simp at h⟩
  | x :: r, h => by
    have ih := convLoop_sound f up R r (fun y hy => h y (by simp [hy]))
    rcases h x (by simp) with ⟨a, h1, h2⟩ | h1
    · rcases ih with ⟨w, h3, h4⟩ | h3
      · refine .inl ⟨a :: w, by rw [convLoop, h1, Out.bind, h3]; rfl, ?_⟩
        refine ⟨by simp [← h4.1], ?_⟩
        intro i y b h5 h6
        cases i with
        | zero => simp at h5 h6; rw [← h5, ← h6]; exact h2
        | succ n => simp only [List.map_cons, List.getElem?_cons_succ] at h5 h6; exact h4.2 n y b h5 h6
      · exact .inr (by rw [convLoop, h1, Out.bind, h3]; rfl)
    · exact .inr (by rw [convLoop, h1]; rfl)

/-- The whole of `copyToVec`, from its two element conversions. -/
theorem copyToVec_exact {α : Type} (sc el : GC → Out α) (R : GC → α → Prop) (g : GC)
    (hs : sizeOk g = true) (hm : g.ty ≠ .MAP) (hR : ∀ x a, R x a → isNumber x = true)
    (h1 : g.ty ≠ .VECTOR → ∀ x ∈ elems g, isNumber x = true → ExactConv sc R x)
    (h2 : g.ty = .VECTOR → ∀ x ∈ elems g, ExactConv el R x) :
    (∃ w, copyToVec sc el g = .ok w ∧ Pointwise R (elems g) w) ∨
    (copyToVec sc el g = .throw ∧ ¬ ∃ w, Pointwise R (elems g) w) := by
  have one : ∀ x, isNumber x = true → ExactConv sc R x →
      (∃ w, convLoop sc [x] = .ok w ∧ Pointwise R [x] w) ∨
      (convLoop sc [x] = .throw ∧ ¬ ∃ w, Pointwise R [x] w) := by
    intro x _ hx
    have := convLoop_exact sc id R [x] (by intro y hy; simp at hy; subst hy; exact hx)
    simpa using this
  have many : ∀ {β : Type} (up : β → GC) (v : List β), v.length < 2 ^ 32 →
      (∀ b ∈ v, ExactConv sc R (up b)) →
      (∃ w, convLoop (fun b => sc (up b)) (v.take (u32 v.length)) = .ok w ∧ Pointwise R (v.map up) w) ∨
      (convLoop (fun b => sc (up b)) (v.take (u32 v.length)) = .throw ∧ ¬ ∃ w, Pointwise R (v.map up) w) := by
    intro β up v hv h
    rw [u32_of_lt hv, List.take_length]
    exact convLoop_exact (fun b => sc (up b)) up R v h
  have nope : ∀ {β : Type} (up : β → GC) (v : List β), v.length < 2 ^ 32 →
      (∀ b, isNumber (up b) = false) →
      (∃ w, (if u32 v.length = 0 then Out.ok ([] : List α) else .throw) = .ok w ∧ Pointwise R (v.map up) w) ∨
      ((if u32 v.length = 0 then Out.ok ([] : List α) else .throw) = .throw ∧ ¬ ∃ w, Pointwise R (v.map up) w) := by
    intro β up v hv h
    rw [u32_of_lt hv]
    cases v with
    | nil => exact .inl ⟨[], rfl, rfl, by intro i x a h; simp at h⟩
    | cons b r =>
      refine .inr ⟨by simp, ?_⟩
      rintro ⟨w, h3, h4⟩
      cases w with
      | nil => simp at h3
      | cons c w =>
        have := hR _ _ (h4 0 (up b) c (by simp) (by simp))
        rw [h b] at this; simp at this
  have no1 : ∀ x, isNumber x = false → ¬ ∃ w, Pointwise R [x] w := by
    rintro x hx ⟨w, h3, h4⟩
    cases w with
    | nil => simp at h3
    | cons c w =>
      have := hR _ _ (h4 0 x c (by simp) (by simp))
      rw [hx] at this; simp at this
  have wfl : ∀ {β : Type} (m : Mat β), m.wf = true → m.data.length < 2 ^ 32 := by
    intro β m h
    unfold Mat.wf at h
    simp only [Bool.and_eq_true, decide_eq_true_eq] at h
    rw [h.2]; exact Nat.mod_lt _ (by decide)
  cases g with
  | notype => exact .inl ⟨[], rfl, rfl, by intro i x a h; simp [elems] at h⟩
  | pointer p => exact .inr ⟨rfl, no1 _ rfl⟩
  | string p => exact .inr ⟨rfl, no1 _ rfl⟩
  | map m => exact absurd rfl hm
  | vector v =>
    simp only [copyToVec]
    rw [u32_of_lt (of_decide_eq_true hs), List.take_length]
    have := convLoop_exact el id R v (fun x hx => h2 rfl x hx)
    simpa [elems] using this
  | vecPointer v => exact nope pointer v (of_decide_eq_true hs) (fun _ => rfl)
  | vecString v => exact nope string v (of_decide_eq_true hs) (fun _ => rfl)
  | bool b => exact one _ rfl (h1 (by simp [GC.ty]) _ (by simp [elems]) rfl)
  | int b => exact one _ rfl (h1 (by simp [GC.ty]) _ (by simp [elems]) rfl)
  | long b => exact one _ rfl (h1 (by simp [GC.ty]) _ (by simp [elems]) rfl)
  | real b => exact one _ rfl (h1 (by simp [GC.ty]) _ (by simp [elems]) rfl)
  | complex b => exact one _ rfl (h1 (by simp [GC.ty]) _ (by simp [elems]) rfl)
  | vecBool v => exact many bool v (of_decide_eq_true hs) (fun b hb => h1 (by simp [GC.ty]) _ (by simp [elems, hb]) rfl)
  | vecInt v => exact many int v (of_decide_eq_true hs) (fun b hb => h1 (by simp [GC.ty]) _ (by simp [elems, hb]) rfl)
  | vecLong v => exact many long v (of_decide_eq_true hs) (fun b hb => h1 (by simp [GC.ty]) _ (by simp [elems, hb]) rfl)
  | vecReal v => exact many real v (of_decide_eq_true hs) (fun b hb => h1 (by simp [GC.ty]) _ (by simp [elems, hb]) rfl)
  | vecComplex v => exact many complex v (of_decide_eq_true hs) (fun b hb => h1 (by simp [GC.ty]) _ (by simp [elems, hb]) rfl)
  | matInt m => exact many int m.data (wfl m hs) (fun b hb => h1 (by simp [GC.ty]) _ (by simp [elems, hb]) rfl)
  | matLong m => exact many long m.data (wfl m hs) (fun b hb => h1 (by simp [GC.ty]) _ (by simp [elems, hb]) rfl)
  | matReal m => exact many real m.data (wfl m hs) (fun b hb => h1 (by simp [GC.ty]) _ (by simp [elems, hb]) rfl)
  | matComplex m => exact many complex m.data (wfl m hs) (fun b hb => h1 (by simp [GC.ty]) _ (by simp [elems, hb]) rfl)

/-! ## The element conversions -/

theorem isNumber_of_value {x : GC} {q : Int} (h : numValue x = some q) : isNumber x = true := by
  cases x <;> simp [numValue] at h <;> rfl

theorem exact_of_C10 {o : Out I32} {x : GC}
    (h : (∀ i, o = .ok i → numValue x = some (i.toInt * unit)) ∧
      (∀ n : Int, numValue x = some (n * unit) → ∃ i : I32, o = .ok i ∧ i.toInt = n) ∧
      ((¬ ∃ n : Int, numValue x = some (n * unit)) → o = .throw)) :
    (∃ a, o = .ok a ∧ numValue x = some (a.toInt * unit)) ∨
    (o = .throw ∧ ¬ ∃ a : I32, numValue x = some (a.toInt * unit)) := by
  by_cases hc : ∃ n : Int, numValue x = some (n * unit)
  · obtain ⟨n, hn⟩ := hc
    obtain ⟨i, h1, h2⟩ := h.2.1 n hn
    exact .inl ⟨i, h1, by rw [hn, h2]⟩
  · exact .inr ⟨h.2.2 hc, fun ⟨a, ha⟩ => hc ⟨_, ha⟩⟩

theorem exact_of_C10_long {o : Out I64} {x : GC}
    (h : (∀ i, o = .ok i → numValue x = some (i.toInt * unit)) ∧
      (∀ n : Int, numValue x = some (n * unit) → ∃ i : I64, o = .ok i ∧ i.toInt = n) ∧
      ((¬ ∃ n : Int, numValue x = some (n * unit)) → o = .throw)) :
    (∃ a, o = .ok a ∧ numValue x = some (a.toInt * unit)) ∨
    (o = .throw ∧ ¬ ∃ a : I64, numValue x = some (a.toInt * unit)) := by
  by_cases hc : ∃ n : Int, numValue x = some (n * unit)
  · obtain ⟨n, hn⟩ := hc
    obtain ⟨i, h1, h2⟩ := h.2.1 n hn
    exact .inl ⟨i, h1, by rw [hn, h2]⟩
  · exact .inr ⟨h.2.2 hc, fun ⟨a, ha⟩ => hc ⟨_, ha⟩⟩

theorem exact_of_C10_u {w : Nat} {o : Out (BitVec w)} {x : GC}
    (h : (∀ i : BitVec w, o = .ok i → numValue x = some ((i.toNat : Int) * unit)) ∧
      (∀ n : Nat, numValue x = some ((n : Int) * unit) → ∃ i : BitVec w, o = .ok i ∧ i.toNat = n) ∧
      ((¬ ∃ n : Nat, numValue x = some ((n : Int) * unit)) → o = .throw)) :
    (∃ a, o = .ok a ∧ numValue x = some ((a.toNat : Int) * unit)) ∨
    (o = .throw ∧ ¬ ∃ a : BitVec w, numValue x = some ((a.toNat : Int) * unit)) := by
  by_cases hc : ∃ n : Nat, numValue x = some ((n : Int) * unit)
  · obtain ⟨n, hn⟩ := hc
    obtain ⟨i, h1, h2⟩ := h.2.1 n hn
    exact .inl ⟨i, h1, by rw [hn, h2]⟩
  · exact .inr ⟨h.2.2 hc, fun ⟨a, ha⟩ => hc ⟨_, ha⟩⟩

theorem toI32_toI64_iff (l : I64) : l.toI32.toI64 = l ↔ -2 ^ 31 ≤ l.toInt ∧ l.toInt < 2 ^ 31 := by
  constructor
  · intro h
    have := toI64_exact l.toI32
    rw [h] at this
    have h1 := l.toI32.le_toInt; have h2 := l.toI32.toInt_lt
    omega
  · rintro ⟨h1, h2⟩
    apply BitVec.eq_of_toInt_eq
    rw [toI64_exact, toI32_exact h1 h2]

theorem copyInt_exact {x : GC} (hs : NoSubnormal x)
    (hr : (∃ l, x = long l) ∨ IntegerIn (-2 ^ 31) (2 ^ 31) x) :
    ExactConv copyInt (fun x a => numValue x = some (a.toInt * unit)) x := by
  by_cases hl : ∃ l, x = long l
  · obtain ⟨l, rfl⟩ := hl
    by_cases hc : l.toI32.toI64 = l
    · have h1 := (toI32_toI64_iff l).1 hc
      exact .inl ⟨l.toI32, by rw [copyInt, if_pos hc], by
        show numValue (long l) = _
        rw [numValue, toI32_exact h1.1 h1.2]⟩
    · refine .inr ⟨by rw [copyInt, if_neg hc], ?_⟩
      rintro ⟨a, ha⟩
      apply hc
      rw [toI32_toI64_iff]
      have : l.toInt = a.toInt := mul_unit_inj (by simpa [numValue] using ha)
      have h1 := a.le_toInt; have h2 := a.toInt_lt
      omega
  · have h := exact_of_C10 (C10_as_int_partial x hs (hr.resolve_left hl))
    have e : copyInt x = get_as_int x := by
      cases x <;> first | rfl | (exact absurd ⟨_, rfl⟩ hl)
    unfold ExactConv; rw [e]; exact h

theorem copyLong_exact {x : GC} (hs : NoSubnormal x) (hr : IntegerIn (-2 ^ 63) (2 ^ 63) x) :
    ExactConv copyLong (fun x a => numValue x = some (a.toInt * unit)) x := by
  have h := exact_of_C10_long (C10_as_long_partial x hs hr)
  have e : copyLong x = get_as_long x := by cases x <;> rfl
  unfold ExactConv; rw [e]; exact h

theorem copyUlong_exact {x : GC} (hs : NoSubnormal x)
    (hr : ∀ n : Int, numValue x = some (n * unit) → n < 2 ^ 64) :
    ExactConv copyUlong (fun x a => numValue x = some ((a.toNat : Int) * unit)) x := by
  have h := exact_of_C10_u (C10_as_ulong_partial x hs hr)
  have e : copyUlong x = get_as_ulong x := by
    cases x with
    | real r =>
      simp only [copyUlong, get_as_ulong]
      by_cases hu : r.isUnsigned
      · have : r.geZero = true := by unfold isUnsigned at hu; simp at hu; exact hu.2
        simp [hu, this]
      · simp [hu]
    | _ => rfl
  unfold ExactConv; rw [e]; exact h

theorem copyUint_exact {x : GC} (hs : NoSubnormal x)
    (hr : ∀ n : Int, numValue x = some (n * unit) → n < 2 ^ 32)
    (hl : ∀ l, x = long l → l.toInt < 2 ^ 31) :
    ExactConv copyUint (fun x a => numValue x = some ((a.toNat : Int) * unit)) x := by
  have h := exact_of_C10_u (C10_as_uint_partial x hs hr)
  have e : copyUint x = get_as_uint x := by
    cases x with
    | real r =>
      simp only [copyUint, get_as_uint]
      by_cases hu : r.isUnsigned
      · have : r.geZero = true := by unfold isUnsigned at hu; simp at hu; exact hu.2
        simp [hu, this]
      · simp [hu]
    | long l =>
      simp only [copyUint, get_as_uint, toI32_toI64_iff]
      have := hl l rfl
      by_cases h0 : 0 ≤ l.toInt
      · rw [if_pos h0, if_pos ⟨⟨by omega, this⟩, h0⟩]
      · rw [if_neg h0, if_neg (by omega)]
    | _ => rfl
  unfold ExactConv; rw [e]; exact h

theorem isNumber_of_same_real {x : GC} {a : F64} (h : SameNumber x (real a)) : isNumber x = true := by
  rcases h with h | ⟨q, h, _⟩ | ⟨r, h, _⟩
  · rw [h]; rfl
  · exact isNumber_of_value h
  · rw [h]; rfl

theorem isNumber_of_same_complex {x : GC} {a : Cplx} (h : SameNumber x (complex a)) :
    isNumber x = true := by
  rcases h with h | ⟨q, h, _⟩ | ⟨r, h, _⟩
  · rw [h]; rfl
  · exact isNumber_of_value h
  · rw [h]; rfl

end GC
end GCV
