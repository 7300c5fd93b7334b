import Verif.Model.CompareText
import Verif.Lemmas.Print
import Verif.Lemmas.SerializeCut
import Verif.Props.Compare

/-! # Lemmas about the text of compare_content -/

namespace GCV
namespace GC

theorem nonempty_right {α : Type} {a b : List α} (h : b.isEmpty = false) : (a ++ b).isEmpty = false := by
  cases a with
  | nil => exact h
  | cons x r => rfl

theorem nonempty_left {α : Type} {a b : List α} (h : a.isEmpty = false) : (a ++ b).isEmpty = false := by
  cases a with
  | nil => simp at h
  | cons x r => rfl

theorem diffText_ne {α : Type} (shw : α → Bytes) (x y : α) : (diffText shw x y).isEmpty = false :=
  nonempty_right rfl

/-- Only whether the text is empty. -/
def silent (o : Out Bytes) : Out Bool := o.bind fun t => .ok t.isEmpty

theorem silent_withFrom (pre : Bytes) (o : Out Bytes) : silent (withFrom pre o) = silent o := by
  cases o with
  | ok t =>
    simp only [silent, withFrom, Out.bind]
    cases t with
    | nil => rfl
    | cons x r => simp only [List.isEmpty_cons, Bool.false_eq_true, if_false]; rw [nonempty_right rfl]
  | throw => rfl
  | ub => rfl
  | diverge => rfl

theorem silent_unless {e : Bool} {t : Bytes} (h : t.isEmpty = false) : silent (unlessEq e t) = .ok e := by
  unfold silent unlessEq
  cases e
  · simp only [Bool.false_eq_true, if_false, Out.bind]; rw [h]
  · rfl

theorem silent_vec {α : Type} (who : Bytes) (shw : α → Bytes) (eq : α → α → Bool) (a b : List α) :
    silent (compareVecText who shw eq a b) = compareVec eq a b := by
  unfold compareVecText compareVec
  by_cases h : a.length = b.length
  · rw [if_pos h, if_pos h]
    match a, b with
    | [], [] => rfl
    | [], y :: s => rfl
    | x :: r, [] => rfl
    | x :: r, y :: s =>
      show silent (if eq x y then _ else _) = if eq x y then _ else _
      by_cases he : eq x y = true
      · rw [if_pos he, if_pos he]; rfl
      · rw [if_neg he, if_neg he]
        show Out.ok _ = _
        rw [nonempty_right (diffText_ne _ _ _)]
  · rw [if_neg h, if_neg h]
    show Out.ok _ = _
    rw [nonempty_right (diffText_ne _ _ _)]

theorem silent_row {α : Type} (who : Bytes) (shw : α → Bytes) (eq : α → α → Bool) (a b : Mat α) (i : Nat) :
    ∀ n j, silent (compareRowText who shw eq a b i j n) = compareRow eq a b i j n
  | 0, j => rfl
  | n + 1, j => by
    rw [compareRowText, compareRow]
    cases a.get i j with
    | ok x =>
      cases b.get i j with
      | ok y =>
        simp only [Out.bind]
        by_cases he : eq x y = true
        · rw [if_pos he, if_pos he]; exact silent_row who shw eq a b i n (j + 1)
        · rw [if_neg he, if_neg he]
          show Out.ok _ = _
          rw [nonempty_right (diffText_ne _ _ _)]
      | throw => rfl
      | ub => rfl
      | diverge => rfl
    | throw => rfl
    | ub => rfl
    | diverge => rfl

theorem silent_rows {α : Type} (who : Bytes) (shw : α → Bytes) (eq : α → α → Bool) (a b : Mat α) :
    ∀ n i, silent (compareRowsText who shw eq a b i n) = compareRows eq a b i n
  | 0, i => rfl
  | n + 1, i => by
    rw [compareRowsText, compareRows, ← silent_row who shw, ← silent_rows who shw]
    cases compareRowText who shw eq a b i 0 a.nc with
    | ok s =>
      cases compareRowsText who shw eq a b (i + 1) n with
      | ok t => simp only [silent, Out.bind]; cases s <;> simp
      | throw => rfl
      | ub => rfl
      | diverge => rfl
    | throw => rfl
    | ub => rfl
    | diverge => rfl

theorem silent_mat {α : Type} (who : Bytes) (shw : α → Bytes) (eq : α → α → Bool) (a b : Mat α) :
    silent (compareMatText who shw eq a b) = compareMat eq a b := by
  unfold compareMatText compareMat
  split
  · exact silent_rows ..
  · show Out.ok _ = _
    rw [nonempty_right rfl]

theorem silent_bind {o : Out Bytes} {k : Out Bytes} {t : Bytes → Bytes} (ht : ∀ r, (t r).isEmpty = false) :
    silent (o.bind fun r => if r.isEmpty then k else .ok (t r)) =
      (silent o).bind fun e => if e then silent k else .ok false := by
  cases o with
  | ok r =>
    simp only [silent, Out.bind]
    by_cases h : r.isEmpty = true
    · rw [if_pos h, if_pos h]
    · rw [if_neg h, if_neg h]; simp only [ht]
  | throw => rfl
  | ub => rfl
  | diverge => rfl

theorem str_ne {s : String} (h : (str s).isEmpty = false) (a b : Bytes) : (a ++ str s ++ b).isEmpty = false :=
  nonempty_left (nonempty_right h)

mutual

/-- Only whether the text is empty: `compare_content` of Verif/Model/Compare.lean. -/
theorem compareText_silent (f : Fmt) (ptr : Ptr → Bytes) : ∀ (a b : GC) (pre : Bytes),
    silent (compareText f ptr pre a b) = compare_content a b
  | vector v, b, pre => by
    cases b with
    | vector w =>
      rw [compareText, compare_content]
      split
      · exact compareTextL_silent f ptr v w pre 0
      · show Out.ok _ = _
        rw [nonempty_right (diffText_ne _ _ _)]
    | _ =>
      show Out.ok _ = Out.ok _
      rw [nonempty_right (diffText_ne _ _ _)]
  | map m, b, pre => by
    cases b with
    | map n =>
      rw [compareText, compare_content]
      split
      · exact compareTextM_silent f ptr m n pre
      · show Out.ok _ = _
        rw [nonempty_right (diffText_ne _ _ _)]
    | _ =>
      show Out.ok _ = Out.ok _
      rw [nonempty_right (diffText_ne _ _ _)]
  | notype, b, pre => by
    cases b <;> first
      | rfl
      | (show Out.ok _ = Out.ok _; rw [nonempty_right (diffText_ne _ _ _)])
  | bool a, b, pre => by
    cases b <;> first
      | exact silent_unless (nonempty_right (by decide +kernel))
      | (show Out.ok _ = Out.ok _; rw [nonempty_right (diffText_ne _ _ _)])
  | int a, b, pre => by
    cases b <;> first
      | exact silent_unless (nonempty_right (diffText_ne _ _ _))
      | (show Out.ok _ = Out.ok _; rw [nonempty_right (diffText_ne _ _ _)])
  | long a, b, pre => by
    cases b <;> first
      | exact silent_unless (nonempty_right (diffText_ne _ _ _))
      | (show Out.ok _ = Out.ok _; rw [nonempty_right (diffText_ne _ _ _)])
  | real a, b, pre => by
    cases b <;> first
      | rfl
      | (show Out.ok _ = Out.ok _; rw [nonempty_right (diffText_ne _ _ _)])
  | pointer a, b, pre => by
    cases b <;> first
      | exact silent_unless (nonempty_right rfl)
      | (show Out.ok _ = Out.ok _; rw [nonempty_right (diffText_ne _ _ _)])
  | string a, b, pre => by
    cases b <;> first
      | exact silent_unless (nonempty_right (by decide +kernel))
      | (show Out.ok _ = Out.ok _; rw [nonempty_right (diffText_ne _ _ _)])
  | complex a, b, pre => by
    cases b <;> first
      | exact silent_unless (nonempty_right (diffText_ne _ _ _))
      | (show Out.ok _ = Out.ok _; rw [nonempty_right (diffText_ne _ _ _)])
  | vecPointer a, b, pre => by
    cases b <;> first
      | (rw [compareText, silent_withFrom, silent_vec]; rfl)
      | (show Out.ok _ = Out.ok _; rw [nonempty_right (diffText_ne _ _ _)])
  | vecBool a, b, pre => by
    cases b <;> first
      | (rw [compareText, silent_withFrom, silent_vec]; rfl)
      | (show Out.ok _ = Out.ok _; rw [nonempty_right (diffText_ne _ _ _)])
  | vecInt a, b, pre => by
    cases b <;> first
      | (rw [compareText, silent_withFrom, silent_vec]; rfl)
      | (show Out.ok _ = Out.ok _; rw [nonempty_right (diffText_ne _ _ _)])
  | vecLong a, b, pre => by
    cases b <;> first
      | (rw [compareText, silent_withFrom, silent_vec]; rfl)
      | (show Out.ok _ = Out.ok _; rw [nonempty_right (diffText_ne _ _ _)])
  | vecReal a, b, pre => by
    cases b <;> first
      | (rw [compareText, silent_withFrom, silent_vec]; rfl)
      | (show Out.ok _ = Out.ok _; rw [nonempty_right (diffText_ne _ _ _)])
  | vecComplex a, b, pre => by
    cases b <;> first
      | (rw [compareText, silent_withFrom, silent_vec]; rfl)
      | (show Out.ok _ = Out.ok _; rw [nonempty_right (diffText_ne _ _ _)])
  | vecString a, b, pre => by
    cases b <;> first
      | (rw [compareText, silent_withFrom, silent_vec]; rfl)
      | (show Out.ok _ = Out.ok _; rw [nonempty_right (diffText_ne _ _ _)])
  | matInt a, b, pre => by
    cases b <;> first
      | (rw [compareText, silent_withFrom, silent_mat]; rfl)
      | (show Out.ok _ = Out.ok _; rw [nonempty_right (diffText_ne _ _ _)])
  | matLong a, b, pre => by
    cases b <;> first
      | (rw [compareText, silent_withFrom, silent_mat]; rfl)
      | (show Out.ok _ = Out.ok _; rw [nonempty_right (diffText_ne _ _ _)])
  | matReal a, b, pre => by
    cases b <;> first
      | (rw [compareText, silent_withFrom, silent_mat]; rfl)
      | (show Out.ok _ = Out.ok _; rw [nonempty_right (diffText_ne _ _ _)])
  | matComplex a, b, pre => by
    cases b <;> first
      | (rw [compareText, silent_withFrom, silent_mat]; rfl)
      | (show Out.ok _ = Out.ok _; rw [nonempty_right (diffText_ne _ _ _)])

theorem compareTextL_silent (f : Fmt) (ptr : Ptr → Bytes) : ∀ (v w : List GC) (pre : Bytes) (i : Nat),
    silent (compareTextL f ptr pre i v w) = compareL v w
  | [], w, pre, i => by rw [compareTextL, compareL]; rfl
  | x :: r, [], pre, i => by rw [compareTextL, compareL]; rfl
  | x :: r, y :: s, pre, i => by
    rw [compareTextL, compareL,
      silent_bind (fun r => nonempty_left (nonempty_left (str_ne (by decide +kernel) _ _))),
      compareText_silent f ptr x y]
    simp only [compareTextL_silent f ptr r s]

theorem compareTextM_silent (f : Fmt) (ptr : Ptr → Bytes) : ∀ (m n : Entries) (pre : Bytes),
    silent (compareTextM f ptr pre m n) = compareM m n
  | [], n, pre => by rw [compareTextM, compareM]; rfl
  | (k, x) :: r, [], pre => by rw [compareTextM, compareM]; rfl
  | (k, x) :: r, (l, y) :: s, pre => by
    rw [compareTextM, compareM]
    split
    · rw [silent_bind (fun r => nonempty_left (nonempty_right (by decide +kernel))), compareText_silent f ptr x y]
      simp only [compareTextM_silent f ptr r s]
    · show Out.ok _ = _
      rw [nonempty_right (diffText_ne _ _ _)]

end

/-! ## Single nodes -/

theorem show_int {w : Nat} : (intOut false : BitVec w → Bytes) = (decimal ·.toInt) := funext decimal_int

theorem bitOut_eq : bitOut = fun x => if x then str "1" else str "0" := by
  funext x; cases x <;> decide +kernel

theorem diffText_eq {α : Type} (shw : α → Bytes) (x y : α) : diffText shw x y = versus (shw x) (shw y) := rfl

theorem versus_ne (x y : Bytes) : (versus x y).isEmpty = false := nonempty_right rfl

theorem diffText_nat (x y : Nat) : diffText (natOut false) x y = versus (decimal x) (decimal y) := by
  rw [diffText_eq, decimal_nat, decimal_nat]

theorem zero_text (who t : Bytes) :
    who ++ str " at " ++ natOut false 0 ++ str " values " ++ t = who ++ str " at 0 values " ++ t := by
  have : str " at " ++ natOut false 0 ++ str " values " = str " at 0 values " := by decide +kernel
  rw [← this]; simp only [List.append_assoc]

theorem withFrom_ok {pre t : Bytes} (h : t.isEmpty = false) : withFrom pre (.ok t) = .ok (pre ++ t) := by
  show (if t.isEmpty then _ else _) = _
  rw [h]; rfl

theorem unless_ok {e : Bool} {P : Prop} [Decidable P] (h : e = true ↔ P) (pre a b t : Bytes)
    (ht : pre ++ a ++ b = pre ++ t) :
    unlessEq e (pre ++ a ++ b) = .ok (if P then [] else pre ++ t) := by
  unfold unlessEq
  rw [ht]
  by_cases hp : P
  · rw [if_pos (h.2 hp), if_pos hp]
  · rw [if_neg (fun he => hp (h.1 he)), if_neg hp]

theorem vec_told {α : Type} (pre who : Bytes) (shw : α → Bytes) {eq : α → α → Bool} {E : α → α → Prop}
    [∀ x y, Decidable (E x y)] (h : ∀ x y, eq x y = true ↔ E x y) (a b : List α) :
    (∀ t, tellVec who shw E a b = some t → withFrom pre (compareVecText who shw eq a b) = .ok (pre ++ t)) ∧
    (FirstEq E a b → withFrom pre (compareVecText who shw eq a b) = .diverge) ∧
    (tellVec who shw E a b = none → ¬ FirstEq E a b → EqList E a b ∧ a.isEmpty = true) := by
  unfold tellVec compareVecText
  by_cases hl : a.length = b.length
  · rw [if_pos hl, if_neg (by simpa using hl)]
    match a, b, hl with
    | [], [], _ =>
      refine ⟨fun t ht => by simp at ht, ?_, fun _ _ => ⟨⟨rfl, by intro i x y h; simp at h⟩, rfl⟩⟩
      rintro ⟨-, x, r, y, s, h1, -⟩; simp at h1
    | x :: r, y :: s, hl =>
      by_cases he : E x y
      · refine ⟨fun t ht => ?_, fun _ => ?_, fun _ hn => absurd ⟨hl, x, r, y, s, rfl, rfl, he⟩ hn⟩
        · simp [he] at ht
        · show withFrom pre (if eq x y then _ else _) = _
          rw [if_pos ((h x y).2 he)]; rfl
      · refine ⟨fun t ht => ?_, fun hf => ?_, fun ht => ?_⟩
        · simp only [he, if_false, Option.some.injEq] at ht
          show withFrom pre (if eq x y then _ else _) = _
          rw [if_neg (fun hc => he ((h x y).1 hc)), withFrom_ok (nonempty_right (diffText_ne _ _ _)), zero_text,
            diffText_eq, ht]
        · obtain ⟨-, x', r', y', s', h1, h2, h3⟩ := hf
          injection h1 with h1; injection h2 with h2
          subst h1; subst h2; exact absurd h3 he
        · simp [he] at ht
  · rw [if_neg hl, if_pos hl]
    refine ⟨fun t ht => ?_, fun hf => absurd hf.1 hl, fun ht => by simp at ht⟩
    rw [withFrom_ok (nonempty_right (diffText_ne _ _ _)), diffText_nat]
    injection ht with ht
    rw [ht]

theorem row_told {α : Type} (who : Bytes) (shw : α → Bytes) {eq : α → α → Bool} {E : α → α → Prop}
    [∀ x y, Decidable (E x y)] (h : ∀ x y, eq x y = true ↔ E x y) (a b : Mat α) (i : Nat)
    (hab : ∀ j, j < a.nc → ∃ x y, a.cell i j = some x ∧ a.get i j = .ok x ∧ b.cell i j = some y ∧ b.get i j = .ok y) :
    ∀ n j, j + n ≤ a.nc → compareRowText who shw eq a b i j n =
      .ok (((List.range' j n).findSome? (tellCell who shw E a b i)).getD [])
  | 0, j, _ => rfl
  | n + 1, j, hj => by
    obtain ⟨x, y, h1, h2, h3, h4⟩ := hab j (by omega)
    rw [compareRowText, h2, h4, Out.bind_ok, Out.bind_ok, List.range'_succ, List.findSome?_cons]
    by_cases he : E x y
    · rw [if_pos ((h x y).2 he), row_told who shw h a b i hab n (j + 1) (by omega),
        show tellCell who shw E a b i j = none by simp [tellCell, h1, h3, he]]
    · rw [if_neg (fun hc => he ((h x y).1 hc))]
      simp [tellCell, h1, h3, he, diffText_eq, decimal_nat]

theorem rows_told {α : Type} (who : Bytes) (shw : α → Bytes) {eq : α → α → Bool} {E : α → α → Prop}
    [∀ x y, Decidable (E x y)] (h : ∀ x y, eq x y = true ↔ E x y) (a b : Mat α)
    (hab : ∀ i, i < a.nr → ∀ j, j < a.nc →
      ∃ x y, a.cell i j = some x ∧ a.get i j = .ok x ∧ b.cell i j = some y ∧ b.get i j = .ok y) :
    ∀ n i, i + n ≤ a.nr → compareRowsText who shw eq a b i n =
      .ok ((List.range' i n).flatMap (tellRow who shw E a b))
  | 0, i, _ => rfl
  | n + 1, i, hi => by
    rw [compareRowsText, row_told who shw h a b i (hab i (by omega)) a.nc 0 (by omega), Out.bind_ok,
      rows_told who shw h a b hab n (i + 1) (by omega), Out.bind_ok, List.range'_succ, List.flatMap_cons]
    unfold tellRow
    rw [List.range_eq_range']

theorem tellRow_nil {α : Type} {who : Bytes} {shw : α → Bytes} {E : α → α → Prop}
    [∀ x y, Decidable (E x y)] {a b : Mat α} {i : Nat} (h : tellRow who shw E a b i = []) {j : Nat} (hj : j < a.nc)
    {x y : α} (hx : a.cell i j = some x) (hy : b.cell i j = some y) : E x y := by
  unfold tellRow at h
  by_cases he : E x y
  · exact he
  · exfalso
    cases hf : (List.range a.nc).findSome? (tellCell who shw E a b i) with
    | none =>
      rw [List.findSome?_eq_none_iff] at hf
      have := hf j (List.mem_range.2 hj)
      simp [tellCell, hx, hy, he] at this
    | some t =>
      rw [hf] at h
      obtain ⟨j', -, hj'⟩ := List.exists_of_findSome?_eq_some hf
      simp only [Option.getD_some] at h
      subst h
      unfold tellCell at hj'
      split at hj'
      · split at hj'
        · simp at hj'
        · injection hj' with hj'
          have := congrArg List.isEmpty hj'
          rw [nonempty_right (versus_ne _ _)] at this; simp at this
      · simp at hj'

theorem mat_told {α : Type} (pre who : Bytes) (shw : α → Bytes) {eq : α → α → Bool} {E : α → α → Prop}
    [∀ x y, Decidable (E x y)] (h : ∀ x y, eq x y = true ↔ E x y) (a b : Mat α)
    (ha : a.wf = true) (hb : b.wf = true) (hc : decide (a.nr * a.nc < 2 ^ 32) = true) :
    (∀ t, tellMat who shw E a b = some t → withFrom pre (compareMatText who shw eq a b) = .ok (pre ++ t)) ∧
    (tellMat who shw E a b = none → EqMat E a b) := by
  have hc := of_decide_eq_true hc
  unfold tellMat compareMatText
  by_cases hl : a.nr = b.nr ∧ a.nc = b.nc
  · rw [if_pos hl, if_neg (by rintro (h | h); exact h hl.1; exact h hl.2)]
    have hab : ∀ i, i < a.nr → ∀ j, j < a.nc →
        ∃ x y, a.cell i j = some x ∧ a.get i j = .ok x ∧ b.cell i j = some y ∧ b.get i j = .ok y := by
      intro i hi j hj
      obtain ⟨x, h1, h2⟩ := Mat.get_eq ha hc hi hj
      obtain ⟨y, h3, h4⟩ := Mat.get_eq hb (by rw [← hl.1, ← hl.2]; exact hc) (hl.1 ▸ hi) (hl.2 ▸ hj)
      exact ⟨x, y, h1, h2, h3, h4⟩
    rw [rows_told who shw h a b hab a.nr 0 (by omega), ← List.range_eq_range']
    cases ht : (List.range a.nr).flatMap (tellRow who shw E a b) with
    | cons c r =>
      refine ⟨fun t h => ?_, fun h => by simp at h⟩
      simp only [Option.some.injEq] at h
      rw [withFrom_ok rfl, h]
    | nil =>
      refine ⟨fun t h => by simp at h, fun _ => ⟨hl.1, hl.2, ?_⟩⟩
      rw [List.flatMap_eq_nil_iff] at ht
      have la := Mat.wf_length ha hc
      have lb := Mat.wf_length hb (by rw [← hl.1, ← hl.2]; exact hc)
      refine ⟨by rw [la, lb, hl.1, hl.2], fun k x y hx hy => ?_⟩
      have hk : k < a.nr * a.nc := by rw [← la]; exact (List.getElem?_eq_some_iff.1 hx).1
      have hr : 0 < a.nr := by
        rcases Nat.eq_zero_or_pos a.nr with h0 | h0
        · rw [h0] at hk; simp at hk
        · exact h0
      have hi := Nat.mod_lt k hr
      have hj : k / a.nr < a.nc := Nat.div_lt_of_lt_mul hk
      have e : k / a.nr * a.nr + k % a.nr = k := by rw [Nat.mul_comm]; exact Nat.div_add_mod k a.nr
      refine tellRow_nil (ht (k % a.nr) (List.mem_range.2 hi)) hj ?_ ?_
      · rw [Mat.cell, if_pos ⟨hi, hj⟩, e, hx]
      · rw [Mat.cell, ← hl.1, ← hl.2, if_pos ⟨hi, hj⟩, e, hy]
  · rw [if_neg hl, if_pos (by
      by_cases h1 : a.nr = b.nr
      · exact .inr fun h2 => hl ⟨h1, h2⟩
      · exact .inl h1)]
    refine ⟨fun t ht => ?_, fun ht => by simp at ht⟩
    rw [withFrom_ok (nonempty_right rfl)]
    injection ht with ht
    rw [← ht]
    simp only [versus, decimal_nat, List.append_assoc]

end GC
end GCV
