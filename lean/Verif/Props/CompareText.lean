import Verif.Lemmas.CompareText

/-!
# C87: what compare_content reports

`compareText f ptr pre a b` is the text that `a.compare_content( b, pre )` returns.  `f` gives the decimal form of a
`double`, `ptr` the form of a pointer.  The specification is Verif/Spec/Report.lean.
-/

namespace GCV
namespace GC

/-! ## Auxiliary facts -/

theorem quiet_of {g : GC} (h1 : comparable g = true) (h2 : matFits g = true) : quiet g = true := by
  cases g <;> first | exact h1 | exact h2 | rfl

theorem every_quiet :
    (∀ g, every comparable g = true → every matFits g = true → every quiet g = true) ∧
    (∀ v, everyL comparable v = true → everyL matFits v = true → everyL quiet v = true) ∧
    (∀ m, everyM comparable m = true → everyM matFits m = true → everyM quiet m = true) := by
  apply GC.induct
  · intro g hv hm h1 h2
    cases g <;> first
      | (simp only [every] at *; exact quiet_of h1 h2)
      | exact absurd rfl (hv _)
      | exact absurd rfl (hm _)
  · intro v ih h1 h2
    rw [every, Bool.and_eq_true] at *
    exact ⟨rfl, ih h1.2 h2.2⟩
  · intro m ih h1 h2
    rw [every, Bool.and_eq_true] at *
    exact ⟨rfl, ih h1.2 h2.2⟩
  · intro _ _; rfl
  · intro x xs h1 h2 h3 h4
    rw [everyL, Bool.and_eq_true] at *
    exact ⟨h1 h3.1 h4.1, h2 h3.2 h4.2⟩
  · intro _ _; rfl
  · intro k x xs h1 h2 h3 h4
    rw [everyM, Bool.and_eq_true] at *
    exact ⟨h1 h3.1 h4.1, h2 h3.2 h4.2⟩

theorem silent_ok {o : Out Bytes} {e : Bool} (h : silent o = .ok e) : ∃ t, o = .ok t ∧ t.isEmpty = e := by
  cases o with
  | ok t => exact ⟨t, rfl, by simpa [silent, Out.bind] using h⟩
  | throw => simp [silent, Out.bind] at h
  | ub => simp [silent, Out.bind] at h
  | diverge => simp [silent, Out.bind] at h

theorem alike_ok (f : Fmt) (ptr : Ptr → Bytes) (pre : Bytes) {a b : GC} (ha : WF a) (hb : WF b)
    (hm : every matFits a = true) (h : Alike a b) : compareText f ptr pre a b = .ok [] := by
  obtain ⟨e, he⟩ := compare_ok a b ha hb (every_quiet.1 a h.2 hm)
  have hr := (compare_right a b ha hb e he).2 h.1
  subst hr
  rw [← compareText_silent f ptr a b pre] at he
  obtain ⟨t, ht, h0⟩ := silent_ok he
  rw [ht, List.isEmpty_iff.1 h0]

theorem skipL (f : Fmt) (ptr : Ptr → Bytes) (pre : Bytes) : ∀ (i k : Nat) (v w : List GC) (x y : GC),
    WFL v → WFL w → everyL matFits v = true → v.length = w.length →
    (∀ j < i, ∀ a b, v[j]? = some a → w[j]? = some b → Alike a b) →
    v[i]? = some x → w[i]? = some y →
    compareTextL f ptr pre k v w = (compareText f ptr (str "> ") x y).bind fun res =>
      if res.isEmpty then compareTextL f ptr pre (k + i + 1) (v.drop (i + 1)) (w.drop (i + 1))
      else .ok (pre ++ str "position: " ++ natOut false (k + i) ++ [10] ++ res)
  | 0, k, a :: r, b :: s, x, y, _, _, _, _, _, hx, hy => by
    simp only [List.getElem?_cons_zero, Option.some.injEq] at hx hy
    subst hx; subst hy; rfl
  | i + 1, k, a :: r, b :: s, x, y, hv, hw, hm, hl, hj, hx, hy => by
    rw [everyL, Bool.and_eq_true] at hm
    rw [compareTextL, alike_ok f ptr _ hv.1 hw.1 hm.1 (hj 0 (by omega) a b rfl rfl), Out.bind_ok]
    rw [if_pos (by rfl), skipL f ptr pre i (k + 1) r s x y hv.2 hw.2 hm.2 (by simpa using hl)
      (fun j hji a b ha hb => hj (j + 1) (by omega) a b (by simpa using ha) (by simpa using hb))
      (by simpa using hx) (by simpa using hy)]
    rw [show k + 1 + i = k + (i + 1) by omega]
    rfl
  | _, _, [], _, _, _, _, _, _, _, _, hx, _ => by simp at hx
  | _, _, _ :: _, [], _, _, _, _, _, _, _, _, hy => by simp at hy

theorem skipM (f : Fmt) (ptr : Ptr → Bytes) (pre : Bytes) : ∀ (i : Nat) (m n : Entries) (k l : Bytes) (x y : GC),
    WFM m → WFM n → everyM matFits m = true → m.length = n.length →
    (∀ j < i, ∀ k l a b, m[j]? = some (k, a) → n[j]? = some (l, b) → k = l ∧ Alike a b) →
    m[i]? = some (k, x) → n[i]? = some (l, y) →
    compareTextM f ptr pre m n = if k = l then
      (compareText f ptr (str "> ") x y).bind fun res =>
        if res.isEmpty then compareTextM f ptr pre (m.drop (i + 1)) (n.drop (i + 1))
        else .ok (pre ++ str "key: '" ++ k ++ str "'\n" ++ res)
      else .ok (pre ++ str "map of GC keys do not match: " ++ diffText id k l)
  | 0, (c, a) :: r, (d, b) :: s, k, l, x, y, _, _, _, _, _, hx, hy => by
    simp only [List.getElem?_cons_zero, Option.some.injEq, Prod.mk.injEq] at hx hy
    obtain ⟨rfl, rfl⟩ := hx
    obtain ⟨rfl, rfl⟩ := hy
    rfl
  | i + 1, (c, a) :: r, (d, b) :: s, k, l, x, y, hv, hw, hm, hl, hj, hx, hy => by
    rw [everyM, Bool.and_eq_true] at hm
    obtain ⟨h1, h2⟩ := hj 0 (by omega) c d a b rfl rfl
    rw [compareTextM, if_pos h1, alike_ok f ptr _ hv.1 hw.1 hm.1 h2, Out.bind_ok]
    rw [if_pos (by rfl), skipM f ptr pre i r s k l x y hv.2 hw.2 hm.2 (by simpa using hl)
      (fun j hji k l a b ha hb => hj (j + 1) (by omega) k l a b (by simpa using ha) (by simpa using hb))
      (by simpa using hx) (by simpa using hy)]
    rfl
  | _, [], _, _, _, _, _, _, _, _, _, _, hx, _ => by simp at hx
  | _, (_, _) :: _, [], _, _, _, _, _, _, _, _, _, _, hy => by simp at hy

/-- Where the comparison ends: a difference is reported, two real numbers, or two vectors that keep it busy. -/
def Stop.ends (f : Fmt) (ptr : Ptr → Bytes) (s : Stop) : Prop :=
  (∃ t, s.told f ptr = some t) ∨ (∃ x y, s = .pair (real x) (real y)) ∨ (∃ x y, s = .pair x y ∧ Stuck x y)

/-- What happens at the end, given the path to it. -/
def Stop.result (f : Fmt) (ptr : Ptr → Bytes) (pre : Bytes) (p : List Step) (s : Stop) (o : Out Bytes) : Prop :=
  (∀ t, s.told f ptr = some t → o = .ok (report pre p t)) ∧
  (∀ x y, s = .pair (real x) (real y) → o = .ub) ∧
  (∀ x y, s = .pair x y → Stuck x y → o = .diverge)

theorem tell_type {f : Fmt} {ptr : Ptr → Bytes} {pre : Bytes} {a b : GC}
    (h : compareText f ptr pre a b = .ok (pre ++ str "different type: " ++ diffText Ty.name a.ty b.ty))
    (h2 : tell f ptr a b = some (str "different type: " ++ versus a.ty.name b.ty.name)) (h3 : ¬ Stuck a b)
    (h4 : ∀ x y, a = real x → b = real y → False) :
    Stop.result f ptr pre [] (.pair a b) (compareText f ptr pre a b) ∧
    (tell f ptr a b = none → ¬ Stuck a b → (∀ x y, a = real x → b ≠ real y) → Alike a b) := by
  refine ⟨⟨fun t ht => ?_, fun x y hs => ?_, fun x y hs hst => ?_⟩, fun ht => ?_⟩
  · rw [Stop.told, h2] at ht
    injection ht with ht
    rw [h, ← ht, report, List.append_assoc, diffText_eq]
  · injection hs with h5 h6
    exact absurd h6 fun h6 => h4 x y h5 h6
  · injection hs with h5 h6
    subst h5; subst h6; exact absurd hst h3
  · rw [h2] at ht; simp at ht

theorem tell_scalar {f : Fmt} {ptr : Ptr → Bytes} {pre t : Bytes} {a b : GC} {e : Bool} {P : Prop} [Decidable P]
    (he : e = true ↔ P) (h : compareText f ptr pre a b = unlessEq e (pre ++ t))
    (h2 : tell f ptr a b = if P then none else some t) (h3 : ¬ Stuck a b)
    (h4 : ∀ x y, a = real x → b = real y → False) (h5 : P → Alike a b) :
    Stop.result f ptr pre [] (.pair a b) (compareText f ptr pre a b) ∧
    (tell f ptr a b = none → ¬ Stuck a b → (∀ x y, a = real x → b ≠ real y) → Alike a b) := by
  refine ⟨⟨fun t' ht => ?_, fun x y hs => ?_, fun x y hs hst => ?_⟩, fun ht _ _ => ?_⟩
  · rw [Stop.told, h2] at ht
    split at ht
    · simp at ht
    · rename_i hp
      injection ht with ht
      rw [h, ← ht, report, unlessEq, if_neg fun hc => hp (he.1 hc)]
  · injection hs with h5 h6
    exact absurd h6 fun h6 => h4 x y h5 h6
  · injection hs with h5 h6
    subst h5; subst h6; exact absurd hst h3
  · rw [h2] at ht
    split at ht
    · rename_i hp; exact h5 hp
    · simp at ht

theorem tell_vec {α : Type} {f : Fmt} {ptr : Ptr → Bytes} {pre who : Bytes} {shw : α → Bytes} {eq : α → α → Bool}
    {E : α → α → Prop} [∀ x y, Decidable (E x y)] (he : ∀ x y, eq x y = true ↔ E x y) {a b : GC} {v w : List α}
    (h : compareText f ptr pre a b = withFrom pre (compareVecText who shw eq v w))
    (h2 : tell f ptr a b = tellVec who shw E v w) (h3 : Stuck a b = FirstEq E v w)
    (h4 : ∀ x y, a = real x → b = real y → False) (h5 : EqList E v w → v.isEmpty = true → Alike a b) :
    Stop.result f ptr pre [] (.pair a b) (compareText f ptr pre a b) ∧
    (tell f ptr a b = none → ¬ Stuck a b → (∀ x y, a = real x → b ≠ real y) → Alike a b) := by
  obtain ⟨k1, k2, k3⟩ := vec_told pre who shw he v w
  refine ⟨⟨fun t' ht => ?_, fun x y hs => ?_, fun x y hs hst => ?_⟩, fun ht hn _ => ?_⟩
  · rw [Stop.told, h2] at ht
    rw [h, k1 _ ht]; rfl
  · injection hs with h5 h6
    exact absurd h6 fun h6 => h4 x y h5 h6
  · injection hs with h5 h6
    subst h5; subst h6
    rw [h3] at hst
    rw [h, k2 hst]
  · rw [h2] at ht; rw [h3] at hn
    exact h5 (k3 ht hn).1 (k3 ht hn).2

theorem tell_mat {α : Type} {f : Fmt} {ptr : Ptr → Bytes} {pre who : Bytes} {shw : α → Bytes} {eq : α → α → Bool}
    {E : α → α → Prop} [∀ x y, Decidable (E x y)] (he : ∀ x y, eq x y = true ↔ E x y) {a b : GC} {v w : Mat α}
    (ha : v.wf = true) (hb : w.wf = true) (hc : decide (v.nr * v.nc < 2 ^ 32) = true)
    (h : compareText f ptr pre a b = withFrom pre (compareMatText who shw eq v w))
    (h2 : tell f ptr a b = tellMat who shw E v w) (h3 : ¬ Stuck a b)
    (h4 : ∀ x y, a = real x → b = real y → False) (h5 : EqMat E v w → Alike a b) :
    Stop.result f ptr pre [] (.pair a b) (compareText f ptr pre a b) ∧
    (tell f ptr a b = none → ¬ Stuck a b → (∀ x y, a = real x → b ≠ real y) → Alike a b) := by
  obtain ⟨k1, k2⟩ := mat_told pre who shw he v w ha hb hc
  refine ⟨⟨fun t' ht => ?_, fun x y hs => ?_, fun x y hs hst => ?_⟩, fun ht hn _ => ?_⟩
  · rw [Stop.told, h2] at ht
    rw [h, k1 _ ht]; rfl
  · injection hs with h5 h6
    exact absurd h6 fun h6 => h4 x y h5 h6
  · injection hs with h5 h6
    subst h5; subst h6
    exact absurd hst h3
  · rw [h2] at ht
    exact h5 (k2 ht)

/-- Single nodes, that is, not two vectors or two maps of the same size. -/
theorem compare_node (f : Fmt) (ptr : Ptr → Bytes) (pre : Bytes) (a b : GC) (ha : WF a) (hb : WF b)
    (hm : every matFits a = true) (hv : ∀ v w, a = vector v → b = vector w → v.length ≠ w.length)
    (hn : ∀ v w, a = map v → b = map w → v.length ≠ w.length) :
    Stop.result f ptr pre [] (.pair a b) (compareText f ptr pre a b) ∧
    (tell f ptr a b = none → ¬ Stuck a b → (∀ x y, a = real x → b ≠ real y) → Alike a b) := by
  have alike : ∀ {a b : GC}, Same a b → every comparable a = true → Alike a b := fun h1 h2 => ⟨h1, h2⟩
  cases a with
  | vector v =>
    cases b with
    | vector w =>
      refine tell_scalar (e := false) (P := v.length = w.length) (by simpa using hv v w rfl rfl)
        (t := str "vector of GC size do not match: " ++ diffText (natOut false) v.length w.length) ?_ ?_ (fun h => h)
        (by simp) (fun h => absurd h (hv v w rfl rfl))
      · rw [compareText, if_neg (hv v w rfl rfl), ← List.append_assoc]; rfl
      · rw [tell, diffText_nat]
    | _ => exact tell_type rfl rfl (fun h => h) (by simp)
  | map v =>
    cases b with
    | map w =>
      refine tell_scalar (e := false) (P := v.length = w.length) (by simpa using hn v w rfl rfl)
        (t := str "map of GC size do not match: " ++ diffText (natOut false) v.length w.length) ?_ ?_ (fun h => h)
        (by simp) (fun h => absurd h (hn v w rfl rfl))
      · rw [compareText, if_neg (hn v w rfl rfl), ← List.append_assoc]; rfl
      · rw [tell, diffText_nat]
    | _ => exact tell_type rfl rfl (fun h => h) (by simp)
  | notype =>
    cases b with
    | notype =>
      exact tell_scalar (e := true) (P := True) (t := []) (by simp) rfl rfl (fun h => h) (by simp)
        (fun _ => alike trivial rfl)
    | _ => exact tell_type rfl rfl (fun h => h) (by simp)
  | bool x =>
    cases b with
    | bool y =>
      exact tell_scalar (e := x == y) (P := x = y) (by simp) rfl rfl (fun h => h) (by simp)
        (fun h => alike h rfl)
    | _ => exact tell_type rfl rfl (fun h => h) (by simp)
  | int x =>
    cases b with
    | int y =>
      refine tell_scalar (e := x == y) (P := x = y) (t := str "integer: " ++ diffText (intOut false) x y) (by simp) ?_ ?_
        (fun h => h) (by simp) (fun h => alike h rfl)
      · rw [compareText, List.append_assoc]
      · rw [tell, diffText_eq, decimal_int, decimal_int]
    | _ => exact tell_type rfl rfl (fun h => h) (by simp)
  | long x =>
    cases b with
    | long y =>
      refine tell_scalar (e := x == y) (P := x = y) (t := str "long: " ++ diffText (intOut false) x y) (by simp) ?_ ?_
        (fun h => h) (by simp) (fun h => alike h rfl)
      · rw [compareText, List.append_assoc]
      · rw [tell, diffText_eq, decimal_int, decimal_int]
    | _ => exact tell_type rfl rfl (fun h => h) (by simp)
  | real x =>
    cases b with
    | real y =>
      refine ⟨⟨fun t ht => by simp [Stop.told, tell] at ht, fun _ _ _ => rfl, fun x y hs hst => ?_⟩,
        fun _ _ h => absurd rfl (h _ _ rfl)⟩
      injection hs with h5 h6
      subst h5; subst h6; exact absurd hst (fun h => h)
    | _ => exact tell_type rfl rfl (fun h => h) (by simp)
  | pointer x =>
    cases b with
    | pointer y =>
      refine tell_scalar (e := x == y) (P := x = y) (by simp) ?_ rfl (fun h => h) (by simp) (fun h => alike h rfl)
      rw [compareText]; simp only [List.append_assoc]
    | _ => exact tell_type rfl rfl (fun h => h) (by simp)
  | string x =>
    cases b with
    | string y =>
      refine tell_scalar (e := x == y) (P := x = y) (by simp) ?_ rfl (fun h => h) (by simp) (fun h => alike h rfl)
      rw [compareText]
      congr 1
      have h1 : str "string: \"" = str "string: " ++ [34] := by decide +kernel
      have h2 : str "\" <> \"" = [34] ++ (str " <> " ++ [34]) := by decide +kernel
      have h3 : str "\"\n" = [34] ++ [10] := by decide +kernel
      rw [h1, h2, h3]
      simp only [versus, List.append_assoc, List.cons_append, List.nil_append]
    | _ => exact tell_type rfl rfl (fun h => h) (by simp)
  | complex x =>
    cases b with
    | complex y =>
      refine tell_scalar (e := x.feq y) (P := EqComplex x y) (t := str "complex: " ++ diffText (pairText f) x y)
        (Cplx.feq_iff x y) ?_ ?_ (fun h => h) (by simp) (fun h => alike h rfl)
      · rw [compareText, List.append_assoc]
      · rw [tell, diffText_eq]
    | _ => exact tell_type rfl rfl (fun h => h) (by simp)
  | vecPointer x =>
    cases b with
    | vecPointer y => exact tell_vec (by simp) rfl rfl rfl (by simp) (fun h1 h2 => alike h1 h2)
    | _ => exact tell_type rfl rfl (fun h => h) (by simp)
  | vecBool x =>
    cases b with
    | vecBool y =>
      exact tell_vec (eq := (· == ·)) (by simp) (by rw [compareText, bitOut_eq]) rfl rfl (by simp) (fun h1 h2 => alike h1 h2)
    | _ => exact tell_type rfl rfl (fun h => h) (by simp)
  | vecInt x =>
    cases b with
    | vecInt y =>
      exact tell_vec (eq := (· == ·)) (by simp) (by rw [compareText, show_int]) rfl rfl (by simp) (fun h1 h2 => alike h1 h2)
    | _ => exact tell_type rfl rfl (fun h => h) (by simp)
  | vecLong x =>
    cases b with
    | vecLong y =>
      exact tell_vec (eq := (· == ·)) (by simp) (by rw [compareText, show_int]) rfl rfl (by simp) (fun h1 h2 => alike h1 h2)
    | _ => exact tell_type rfl rfl (fun h => h) (by simp)
  | vecReal x =>
    cases b with
    | vecReal y => exact tell_vec F64.feq_iff rfl rfl rfl (by simp) (fun h1 h2 => alike h1 h2)
    | _ => exact tell_type rfl rfl (fun h => h) (by simp)
  | vecComplex x =>
    cases b with
    | vecComplex y => exact tell_vec Cplx.feq_iff rfl rfl rfl (by simp) (fun h1 h2 => alike h1 h2)
    | _ => exact tell_type rfl rfl (fun h => h) (by simp)
  | vecString x =>
    cases b with
    | vecString y => exact tell_vec (by simp) rfl rfl rfl (by simp) (fun h1 h2 => alike h1 h2)
    | _ => exact tell_type rfl rfl (fun h => h) (by simp)
  | matInt x =>
    cases b with
    | matInt y =>
      exact tell_mat (eq := (· == ·)) (by simp) ha hb hm (by rw [compareText, show_int]) rfl (fun h => h) (by simp) (fun h => alike h rfl)
    | _ => exact tell_type rfl rfl (fun h => h) (by simp)
  | matLong x =>
    cases b with
    | matLong y =>
      exact tell_mat (eq := (· == ·)) (by simp) ha hb hm (by rw [compareText, show_int]) rfl (fun h => h) (by simp) (fun h => alike h rfl)
    | _ => exact tell_type rfl rfl (fun h => h) (by simp)
  | matReal x =>
    cases b with
    | matReal y =>
      exact tell_mat F64.feq_iff ha hb hm rfl rfl (fun h => h) (by simp) (fun h => alike h rfl)
    | _ => exact tell_type rfl rfl (fun h => h) (by simp)
  | matComplex x =>
    cases b with
    | matComplex y =>
      exact tell_mat Cplx.feq_iff ha hb hm rfl rfl (fun h => h) (by simp) (fun h => alike h rfl)
    | _ => exact tell_type rfl rfl (fun h => h) (by simp)

theorem report_ne (p : List Step) (t : Bytes) : (report (str "> ") p t).isEmpty = false := by
  cases p with
  | nil => rfl
  | cons s r => rfl

theorem report_pos (pre t : Bytes) (i : Nat) (p : List Step) :
    pre ++ str "position: " ++ natOut false i ++ [10] ++ report (str "> ") p t = report pre (.pos i :: p) t := by
  rw [report, Step.line, decimal_nat]
  simp only [List.append_assoc]

theorem report_key (pre t k : Bytes) (p : List Step) :
    pre ++ str "key: '" ++ k ++ str "'\n" ++ report (str "> ") p t = report pre (.key k :: p) t := by
  rw [report, Step.line]
  simp only [List.append_assoc]

theorem result_lift {f : Fmt} {ptr : Ptr → Bytes} {pre pre' : Bytes} {q p : List Step} {s : Stop}
    {o r : Out Bytes} {rest : Out Bytes} {g : Bytes → Bytes} (h : Stop.result f ptr pre p s o)
    (hr : r = o.bind fun t => if t.isEmpty then rest else .ok (g t))
    (hp : ∀ t, g (report pre p t) = report pre' q t)
    (hne : ∀ t, (report pre p t).isEmpty = false) :
    Stop.result f ptr pre' q s r := by
  refine ⟨fun t ht => ?_, fun x y hs => ?_, fun x y hs hst => ?_⟩
  · rw [hr, h.1 t ht, Out.bind_ok, hne t, ← hp]; rfl
  · rw [hr, h.2.1 x y hs]; rfl
  · rw [hr, h.2.2 x y hs hst]; rfl

theorem reached_result (f : Fmt) (ptr : Ptr → Bytes) {p : List Step} {a b : GC} {s : Stop} (h : Reached p a b s) :
    WF a → WF b → every matFits a = true → ∀ pre, Stop.result f ptr pre p s (compareText f ptr pre a b) := by
  induction h with
  | here x y =>
    intro ha hb hm pre
    by_cases hv : ∀ v w, x = vector v → y = vector w → v.length ≠ w.length
    · by_cases hn : ∀ v w, x = map v → y = map w → v.length ≠ w.length
      · exact (compare_node f ptr pre x y ha hb hm hv hn).1
      · push Not at hn
        obtain ⟨v, w, rfl, rfl, hl⟩ := hn
        refine ⟨fun t ht => ?_, fun x y hs => by simp at hs, fun x y hs hst => ?_⟩
        · rw [Stop.told, tell, if_pos hl] at ht; simp at ht
        · injection hs with h5 h6
          subst h5; subst h6; exact hst.elim
    · push Not at hv
      obtain ⟨v, w, rfl, rfl, hl⟩ := hv
      refine ⟨fun t ht => ?_, fun x y hs => by simp at hs, fun x y hs hst => ?_⟩
      · rw [Stop.told, tell, if_pos hl] at ht; simp at ht
      · injection hs with h5 h6
        subst h5; subst h6; exact hst.elim
  | elem v w i x y p s hl hj hx hy _ ih =>
    intro ha hb hm pre
    have hm' : everyL matFits v = true := by
      rw [every, Bool.and_eq_true] at hm; exact hm.2
    refine result_lift (rest := compareTextL f ptr pre (i + 1) (v.drop (i + 1)) (w.drop (i + 1))) (ih (WFL_iff.1 ha x (List.mem_of_getElem? hx)) (WFL_iff.1 hb y (List.mem_of_getElem? hy))
      (everyL_iff.1 hm' x (List.mem_of_getElem? hx)) (str "> ")) ?_ (fun t => report_pos pre t i p)
      (fun t => report_ne p t)
    rw [compareText, if_pos hl, skipL f ptr pre i 0 v w x y ha hb hm' hl hj hx hy, Nat.zero_add]
  | entry m n i k x y p s hl hj hx hy _ ih =>
    intro ha hb hm pre
    have hm' : everyM matFits m = true := by
      rw [every, Bool.and_eq_true] at hm; exact hm.2
    refine result_lift (rest := compareTextM f ptr pre (m.drop (i + 1)) (n.drop (i + 1))) (ih (WFM_iff.1 ha.2 (k, x) (List.mem_of_getElem? hx)) (WFM_iff.1 hb.2 (k, y) (List.mem_of_getElem? hy))
      (everyM_iff.1 hm' (k, x) (List.mem_of_getElem? hx)) (str "> ")) ?_ (fun t => report_key pre t k p)
      (fun t => report_ne p t)
    rw [compareText, if_pos hl, skipM f ptr pre i m n k k x y ha.2 hb.2 hm' hl hj hx hy, if_pos rfl]
  | keys m n i k l x y hl hj hx hy hne =>
    intro ha hb hm pre
    have hm' : everyM matFits m = true := by
      rw [every, Bool.and_eq_true] at hm; exact hm.2
    refine ⟨fun t ht => ?_, fun x y hs => by simp at hs, fun x y hs => by simp at hs⟩
    rw [Stop.told] at ht
    injection ht with ht
    rw [compareText, if_pos hl, skipM f ptr pre i m n k l x y ha.2 hb.2 hm' hl hj hx hy, if_neg hne, report, ← ht,
      diffText_eq, List.append_assoc]
    rfl

theorem classify (f : Fmt) (ptr : Ptr → Bytes) :
    (∀ a b, WF a → WF b → every matFits a = true →
      Alike a b ∨ ∃ p s, Reached p a b s ∧ s.ends f ptr) ∧
    (∀ v w, WFL v → WFL w → everyL matFits v = true → v.length = w.length →
      (SameL v w ∧ everyL comparable v = true) ∨ ∃ (i : Nat) (x y : GC) (p : List Step) (s : Stop),
        (∀ j < i, ∀ a b, v[j]? = some a → w[j]? = some b → Alike a b) ∧ v[i]? = some x ∧ w[i]? = some y ∧
          Reached p x y s ∧ s.ends f ptr) ∧
    (∀ m n, WFM m → WFM n → everyM matFits m = true → m.length = n.length →
      (SameM m n ∧ everyM comparable m = true) ∨ ∃ (i : Nat) (k l : Bytes) (x y : GC),
        (∀ j < i, ∀ k l a b, m[j]? = some (k, a) → n[j]? = some (l, b) → k = l ∧ Alike a b) ∧
          m[i]? = some (k, x) ∧ n[i]? = some (l, y) ∧
          (k ≠ l ∨ (k = l ∧ ∃ p s, Reached p x y s ∧ s.ends f ptr))) := by
  have leaf : ∀ a b, WF a → WF b → every matFits a = true →
      (∀ v w, a = vector v → b = vector w → v.length ≠ w.length) →
      (∀ v w, a = map v → b = map w → v.length ≠ w.length) →
      Alike a b ∨ ∃ p s, Reached p a b s ∧ s.ends f ptr := by
    intro a b ha hb hm hv hn
    by_cases h : Stop.ends f ptr (.pair a b)
    · exact .inr ⟨[], _, .here a b, h⟩
    · refine .inl ((compare_node f ptr [] a b ha hb hm hv hn).2 ?_ ?_ ?_)
      · cases ht : tell f ptr a b with
        | none => rfl
        | some t => exact absurd (.inl ⟨t, ht⟩) h
      · exact fun hs => h (.inr (.inr ⟨a, b, rfl, hs⟩))
      · rintro x y rfl rfl
        exact h (.inr (.inl ⟨x, y, rfl⟩))
  apply GC.induct
  · intro g hv hm b ha hb h
    exact leaf g b ha hb h (fun v w hg => absurd hg (hv v)) (fun v w hg => absurd hg (hm v))
  · intro v ih b ha hb h
    by_cases hl : ∀ u w, vector v = vector u → b = vector w → u.length ≠ w.length
    · exact leaf _ b ha hb h hl (by simp)
    · push Not at hl
      obtain ⟨u, w, hu, rfl, hl⟩ := hl
      injection hu with hu
      subst hu
      rw [every, Bool.and_eq_true] at h
      rcases ih w ha hb h.2 hl with ⟨h1, h2⟩ | ⟨i, x, y, p, s, hj, hx, hy, hr, he⟩
      · exact .inl ⟨h1, by rw [every, h2]; rfl⟩
      · exact .inr ⟨_, s, .elem v w i x y p s hl hj hx hy hr, he⟩
  · intro m ih b ha hb h
    by_cases hl : ∀ u w, map m = map u → b = map w → u.length ≠ w.length
    · exact leaf _ b ha hb h (by simp) hl
    · push Not at hl
      obtain ⟨u, w, hu, rfl, hl⟩ := hl
      injection hu with hu
      subst hu
      rw [every, Bool.and_eq_true] at h
      rcases ih w ha.2 hb.2 h.2 hl with ⟨h1, h2⟩ | ⟨i, k, l, x, y, hj, hx, hy, hr⟩
      · exact .inl ⟨h1, by rw [every, h2]; rfl⟩
      · rcases hr with hne | ⟨rfl, p, s, hr, he⟩
        · exact .inr ⟨_, _, .keys m w i k l x y hl hj hx hy hne, .inl ⟨_, rfl⟩⟩
        · exact .inr ⟨_, s, .entry m w i k x y p s hl hj hx hy hr, he⟩
  · intro w _ _ _ hl
    cases w with
    | nil => exact .inl ⟨trivial, rfl⟩
    | cons y s => simp at hl
  · intro x r h1 h2 w ha hb h hl
    cases w with
    | nil => simp at hl
    | cons y s =>
      rw [everyL, Bool.and_eq_true] at h
      rcases h1 y ha.1 hb.1 h.1 with h3 | ⟨p, st, hr, he⟩
      · rcases h2 s ha.2 hb.2 h.2 (by simpa using hl) with ⟨h4, h5⟩ | ⟨i, a, b, p, st, hj, hx, hy, hr, he⟩
        · exact .inl ⟨⟨h3.1, h4⟩, by rw [everyL, h3.2, h5]; rfl⟩
        · refine .inr ⟨i + 1, a, b, p, st, fun j hji c d hc hd => ?_, by simpa using hx, by simpa using hy, hr, he⟩
          cases j with
          | zero =>
            simp only [List.getElem?_cons_zero, Option.some.injEq] at hc hd
            subst hc; subst hd; exact h3
          | succ j => exact hj j (by omega) c d (by simpa using hc) (by simpa using hd)
      · exact .inr ⟨0, x, y, p, st, by simp, rfl, rfl, hr, he⟩
  · intro w _ _ _ hl
    cases w with
    | nil => exact .inl ⟨trivial, rfl⟩
    | cons y s => simp at hl
  · intro k x r h1 h2 w ha hb h hl
    cases w with
    | nil => simp at hl
    | cons e s =>
      obtain ⟨l, y⟩ := e
      rw [everyM, Bool.and_eq_true] at h
      by_cases hkl : k = l
      · subst hkl
        rcases h1 y ha.1 hb.1 h.1 with h3 | ⟨p, st, hr, he⟩
        · rcases h2 s ha.2 hb.2 h.2 (by simpa using hl) with ⟨h4, h5⟩ | ⟨i, c, d, a, b, hj, hx, hy, hr⟩
          · exact .inl ⟨⟨rfl, h3.1, h4⟩, by rw [everyM, h3.2, h5]; rfl⟩
          · refine .inr ⟨i + 1, c, d, a, b, fun j hji k' l' c d hc hd => ?_, by simpa using hx, by simpa using hy, hr⟩
            cases j with
            | zero =>
              simp only [List.getElem?_cons_zero, Option.some.injEq, Prod.mk.injEq] at hc hd
              obtain ⟨rfl, rfl⟩ := hc
              obtain ⟨rfl, rfl⟩ := hd
              exact ⟨rfl, h3⟩
            | succ j => exact hj j (by omega) k' l' c d (by simpa using hc) (by simpa using hd)
        · exact .inr ⟨0, k, k, x, y, by simp, rfl, rfl, .inr ⟨rfl, p, st, hr, he⟩⟩
      · exact .inr ⟨0, k, l, x, y, by simp, rfl, rfl, .inl hkl⟩

/-! ## The theorems -/

/-- The text is empty exactly when the comparison of C23 says "no difference", and one of the two fails to return
exactly when the other one does. -/
theorem C87_agrees (f : Fmt) (ptr : Ptr → Bytes) (pre : Bytes) (a b : GC) :
    ((compareText f ptr pre a b).bind fun t => .ok t.isEmpty) = compare_content a b :=
  compareText_silent f ptr a b pre

/-- A comparison that returns gives the empty text for containers that are alike, and otherwise the report on the first
difference: the way to it, then the difference. -/
theorem C87_report (f : Fmt) (ptr : Ptr → Bytes) (pre : Bytes) (a b : GC) (ha : WF a) (hb : WF b)
    (hm : every matFits a = true) (t : Bytes) :
    compareText f ptr pre a b = .ok t ↔
      (t = [] ∧ Alike a b) ∨
      ∃ path stop line, Reached path a b stop ∧ stop.told f ptr = some line ∧ t = report pre path line := by
  constructor
  · intro h
    rcases (classify f ptr).1 a b ha hb hm with hal | ⟨p, s, hr, he⟩
    · rw [alike_ok f ptr pre ha hb hm hal] at h
      injection h with h
      exact .inl ⟨h.symm, hal⟩
    · have := reached_result f ptr hr ha hb hm pre
      rcases he with ⟨l, hl⟩ | ⟨x, y, hs⟩ | ⟨x, y, hs, hst⟩
      · rw [this.1 l hl] at h
        injection h with h
        exact .inr ⟨p, s, l, hr, hl, h.symm⟩
      · rw [this.2.1 x y hs] at h; cases h
      · rw [this.2.2 x y hs hst] at h; cases h
  · rintro (⟨rfl, h⟩ | ⟨p, s, l, hr, hl, rfl⟩)
    · exact alike_ok f ptr pre ha hb hm h
    · exact (reached_result f ptr hr ha hb hm pre).1 l hl

/-- The comparison is undefined exactly when it comes to two real numbers, equal or not. -/
theorem C87_undefined (f : Fmt) (ptr : Ptr → Bytes) (pre : Bytes) (a b : GC) (ha : WF a) (hb : WF b)
    (hm : every matFits a = true) :
    compareText f ptr pre a b = .ub ↔ ∃ path x y, Reached path a b (.pair (real x) (real y)) := by
  constructor
  · intro h
    rcases (classify f ptr).1 a b ha hb hm with hal | ⟨p, s, hr, he⟩
    · rw [alike_ok f ptr pre ha hb hm hal] at h; cases h
    · have := reached_result f ptr hr ha hb hm pre
      rcases he with ⟨l, hl⟩ | ⟨x, y, hs⟩ | ⟨x, y, hs, hst⟩
      · rw [this.1 l hl] at h; cases h
      · exact ⟨p, x, y, hs ▸ hr⟩
      · rw [this.2.2 x y hs hst] at h; cases h
  · rintro ⟨p, x, y, hr⟩
    exact (reached_result f ptr hr ha hb hm pre).2.1 x y rfl

/-- The comparison does not return exactly when it comes to two packed vectors of the same type and size, not empty,
with the same first element. -/
theorem C87_endless (f : Fmt) (ptr : Ptr → Bytes) (pre : Bytes) (a b : GC) (ha : WF a) (hb : WF b)
    (hm : every matFits a = true) :
    compareText f ptr pre a b = .diverge ↔ ∃ path x y, Reached path a b (.pair x y) ∧ Stuck x y := by
  constructor
  · intro h
    rcases (classify f ptr).1 a b ha hb hm with hal | ⟨p, s, hr, he⟩
    · rw [alike_ok f ptr pre ha hb hm hal] at h; cases h
    · have := reached_result f ptr hr ha hb hm pre
      rcases he with ⟨l, hl⟩ | ⟨x, y, hs⟩ | ⟨x, y, hs, hst⟩
      · rw [this.1 l hl] at h; cases h
      · rw [this.2.1 x y hs] at h; cases h
      · exact ⟨p, x, y, hs ▸ hr, hst⟩
  · rintro ⟨p, x, y, hr, hst⟩
    exact (reached_result f ptr hr ha hb hm pre).2.2 x y rfl hst

/-- It never throws. -/
theorem C87_no_throw (f : Fmt) (ptr : Ptr → Bytes) (pre : Bytes) (a b : GC) (ha : WF a) (hb : WF b)
    (hm : every matFits a = true) : compareText f ptr pre a b ≠ .throw := by
  intro h
  rcases (classify f ptr).1 a b ha hb hm with hal | ⟨p, s, hr, he⟩
  · rw [alike_ok f ptr pre ha hb hm hal] at h; cases h
  · have := reached_result f ptr hr ha hb hm pre
    rcases he with ⟨l, hl⟩ | ⟨x, y, hs⟩ | ⟨x, y, hs, hst⟩
    · rw [this.1 l hl] at h; cases h
    · rw [this.2.1 x y hs] at h; cases h
    · rw [this.2.2 x y hs hst] at h; cases h

/-- There is at most one report, and none for containers that are alike: the first difference is unique. -/
theorem C87_first (f : Fmt) (ptr : Ptr → Bytes) (pre : Bytes) (a b : GC) (ha : WF a) (hb : WF b)
    (hm : every matFits a = true) {p q : List Step} {s r : Stop} {l k : Bytes} (h1 : Reached p a b s)
    (h2 : s.told f ptr = some l) (h3 : Reached q a b r) (h4 : r.told f ptr = some k) :
    report pre p l = report pre q k := by
  have e1 := (reached_result f ptr h1 ha hb hm pre).1 l h2
  have e2 := (reached_result f ptr h3 ha hb hm pre).1 k h4
  rw [e1] at e2
  injection e2

/-! ## Examples -/

/-- A map for the examples. -/
def sampleWith (n : I32) : GC := map [(str "a", int 1), (str "b", vector [bool true, int n])]

theorem sampleWith_wf (n : I32) : WF (sampleWith n) := by
  refine ⟨?_, trivial, ⟨trivial, trivial, trivial⟩, trivial⟩
  unfold KeysSorted
  simp
  exact (blt_iff _ _).1 (by decide +kernel)

example (f : Fmt) (ptr : Ptr → Bytes) :
    compareText f ptr (str "in: ") (sampleWith 7) (sampleWith 8)
    = .ok (str "in: key: 'b'\n> position: 1\n> integer: 7 <> 8\n") := by
  refine (C87_report f ptr _ _ _ (sampleWith_wf 7) (sampleWith_wf 8) (by decide +kernel) _).2 (.inr ?_)
  refine ⟨[.key (str "b"), .pos 1], .pair (int 7) (int 8), str "integer: 7 <> 8\n", ?_, ?_, by decide +kernel⟩
  · refine .entry _ _ 1 _ (vector [bool true, int 7]) (vector [bool true, int 8]) _ _ rfl ?_ rfl rfl ?_
    · intro j hj k l a b ha hb
      obtain rfl : j = 0 := by omega
      simp only [List.getElem?_cons_zero, Option.some.injEq, Prod.mk.injEq] at ha hb
      obtain ⟨rfl, rfl⟩ := ha
      obtain ⟨rfl, rfl⟩ := hb
      exact ⟨rfl, rfl, rfl⟩
    · refine .elem _ _ 1 (int 7) (int 8) _ _ rfl ?_ rfl rfl (.here _ _)
      intro j hj a b ha hb
      obtain rfl : j = 0 := by omega
      simp only [List.getElem?_cons_zero, Option.some.injEq] at ha hb
      subst ha; subst hb
      exact ⟨rfl, rfl⟩
  · show (if (7 : I32) = 8 then none else some _) = _
    rw [if_neg (by decide)]
    decide +kernel

example (f : Fmt) (ptr : Ptr → Bytes) (pre : Bytes) (x y : F64) :
    compareText f ptr pre (vector [real x]) (vector [real y]) = .ub :=
  (C87_undefined f ptr pre (vector [real _]) (vector [real _]) ⟨trivial, trivial⟩ ⟨trivial, trivial⟩ rfl).2
    ⟨[.pos 0], x, y, .elem _ _ 0 _ _ _ _ rfl (by simp) rfl rfl (.here _ _)⟩

example (f : Fmt) (ptr : Ptr → Bytes) (pre : Bytes) :
    compareText f ptr pre (vecInt [1, 2]) (vecInt [1, 3]) = .diverge :=
  (C87_endless f ptr pre (vecInt _) (vecInt _) trivial trivial rfl).2
    ⟨[], _, _, .here _ _, rfl, 1, [2], 1, [3], rfl, rfl, rfl⟩

example (f : Fmt) (ptr : Ptr → Bytes) (pre : Bytes) :
    compareText f ptr pre (matInt ⟨2, 2, [1, 2, 3, 4]⟩) (matInt ⟨2, 2, [0, 2, 3, 5]⟩)
    = .ok (pre ++ (str "mat of integer at (0,0) values 1 <> 0\n" ++ str "mat of integer at (1,1) values 4 <> 5\n")) :=
  (C87_report f ptr pre (matInt _) (matInt _) (by decide +kernel : Mat.wf _ = true) (by decide +kernel : Mat.wf _ = true)
    (by decide +kernel) _).2
    (.inr ⟨[], _, _, .here _ _, by
      show tellMat (str "mat of integer") (fun x : I32 => decimal x.toInt) (· = ·) ⟨2, 2, [1, 2, 3, 4]⟩
        ⟨2, 2, [0, 2, 3, 5]⟩ = some _
      decide +kernel, rfl⟩)

end GC
end GCV
