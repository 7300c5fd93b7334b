import Verif.Lemmas.MatlabBack

/-! # Lemmas on the MATLAB interface: what comes back the same -/

namespace GCV
namespace GC

/-! ## Containers -/

theorem rowForm_fixed {α : Type} {sc : α → GC} {ve : List α → GC} (h : ∀ x v, sc x ≠ ve v) (v : List α) :
    rowForm sc ve v = ve v ↔ v.length ≠ 1 := by
  match v with
  | [] => simp [rowForm]
  | [x] => simp [rowForm, h]
  | x :: y :: v => simp [rowForm]

theorem matForm_fixed {α : Type} {sc : α → GC} {ve : List α → GC} {ma : Mat α → GC} (h1 : ∀ x m, sc x ≠ ma m)
    (h2 : ∀ v m, ve v ≠ ma m) (m : Mat α) : matForm sc ve ma m = ma m ↔ m.nr ≠ 1 ∧ m.data.length ≠ 1 := by
  rw [matForm]
  by_cases hr : m.nr = 1
  · rw [if_pos hr]
    match m.data with
    | [] => simp [rowForm, h2, hr]
    | [x] => simp [rowForm, h1]
    | x :: y :: v => simp [rowForm, h2, hr]
  · rw [if_neg hr]
    match m.data with
    | [] => simp [hr]
    | [x] => simp [h1]
    | x :: y :: v => simp [hr]

theorem cut_fixed (s : Bytes) : cut s = s ↔ noNul s = true := by
  rw [cut_eq]
  constructor
  · intro h
    rw [← h, noNul]
    exact List.all_takeWhile
  · exact cstr_of_noNul

theorem fixed :
    (∀ g : GC, mxForm g = g ↔ every mxNormal g = true) ∧ (∀ v : List GC, mxFormL v = v ↔ everyL mxNormal v = true) ∧
    (∀ m : Entries, mxFormM m = m ↔ everyM mxNormal m = true) := by
  refine induct ?_ ?_ ?_ ?_ ?_ ?_ ?_
  · intro g hv hm
    cases g
    case vector v => exact absurd rfl (hv v)
    case map m => exact absurd rfl (hm m)
    case string s => simp [mxForm, every, mxNormal, cut_fixed]
    case vecLong v => rw [mxForm, rowForm_fixed (by simp)]; simp [every, mxNormal]
    case vecReal v => rw [mxForm, rowForm_fixed (by simp)]; simp [every, mxNormal]
    case vecComplex v => rw [mxForm, rowForm_fixed (by simp)]; simp [every, mxNormal]
    case matInt v => rw [mxForm, matForm_fixed (by simp) (by simp)]; simp [every, mxNormal]
    case matLong v => rw [mxForm, matForm_fixed (by simp) (by simp)]; simp [every, mxNormal]
    case matReal v => rw [mxForm, matForm_fixed (by simp) (by simp)]; simp [every, mxNormal]
    case matComplex v => rw [mxForm, matForm_fixed (by simp) (by simp)]; simp [every, mxNormal]
    case vecBool v =>
      match v with
      | [] => simp [mxForm, every, mxNormal, rowForm]
      | [x] => simp [mxForm, every, mxNormal, rowForm]
      | x :: y :: v => simp [mxForm, every, mxNormal, rowForm]
    case vecInt v =>
      match v with
      | [] => simp [mxForm, every, mxNormal, rowForm]
      | [x] => simp [mxForm, every, mxNormal, rowForm]
      | x :: y :: v => simp [mxForm, every, mxNormal, rowForm]
    all_goals simp [mxForm, every, mxNormal]
  · intro v ih
    rw [mxForm, every, ← Bool.true_and (everyL mxNormal v)] 
    simp [ih, mxNormal]
  · intro m ih
    rw [mxForm, every]
    simp [ih, mxNormal]
  · simp [mxFormL, everyL]
  · intro x v h1 h2
    rw [mxFormL, everyL, List.cons.injEq, Bool.and_eq_true, h1, h2]
  · simp [mxFormM, everyM]
  · intro k x m h1 h2
    rw [mxFormM, everyM, List.cons.injEq, Bool.and_eq_true, Prod.mk.injEq, h2, h1]
    simp

theorem normal_bools : ∀ v : List Bool, everyL mxNormal (v.map bool) = true
  | [] => rfl
  | x :: v => by rw [List.map_cons, everyL, normal_bools v]; rfl

theorem normal_strings : ∀ v : List Bytes, everyL mxNormal (v.map fun s => string (cut s)) = true
  | [] => rfl
  | x :: v => by
    rw [List.map_cons, everyL, normal_strings v]
    simp only [every, mxNormal, Bool.and_true]
    exact (cut_fixed _).1 (cstr_twice x)

theorem row_normal {α : Type} {sc : α → GC} {ve : List α → GC} (h1 : ∀ x, every mxNormal (sc x) = true)
    (h2 : ∀ v, v.length ≠ 1 → every mxNormal (ve v) = true) (v : List α) : every mxNormal (rowForm sc ve v) = true := by
  match v with
  | [] => exact h2 _ (by simp)
  | [x] => exact h1 x
  | x :: y :: v => exact h2 _ (by simp)

theorem mat_normal {α : Type} {sc : α → GC} {ve : List α → GC} {ma : Mat α → GC} (h1 : ∀ x, every mxNormal (sc x) = true)
    (h2 : ∀ v, v.length ≠ 1 → every mxNormal (ve v) = true)
    (h3 : ∀ m, m.nr ≠ 1 → m.data.length ≠ 1 → every mxNormal (ma m) = true) (m : Mat α) :
    every mxNormal (matForm sc ve ma m) = true := by
  rw [matForm]
  by_cases hr : m.nr = 1
  · rw [if_pos hr]; exact row_normal h1 h2 _
  · rw [if_neg hr]
    match hd : m.data with
    | [] => exact h3 m hr (by simp [hd])
    | [x] => exact h1 x
    | x :: y :: v => exact h3 m hr (by simp [hd])

theorem normal_one : ∀ g : GC, (∀ v, g ≠ vector v) → (∀ m, g ≠ map m) → (∀ m, g ≠ matInt m) →
    every mxNormal (mxForm g) = true
  | vector v, h, _, _ => absurd rfl (h v)
  | map m, _, h, _ => absurd rfl (h m)
  | matInt m, _, _, h => absurd rfl (h m)
  | notype, _, _, _ => rfl
  | pointer _, _, _, _ => rfl
  | vecPointer _, _, _, _ => rfl
  | bool _, _, _, _ => rfl
  | int _, _, _, _ => rfl
  | long _, _, _, _ => rfl
  | real _, _, _, _ => rfl
  | complex _, _, _, _ => rfl
  | string s, _, _, _ => (cut_fixed _).1 (cstr_twice s)
  | vecBool v, _, _, _ => row_normal (fun _ => rfl) (fun v _ => by
      rw [every, normal_bools]; rfl) v
  | vecInt v, _, _, _ => row_normal (fun _ => rfl) (fun v h => by simpa [every, mxNormal] using h) _
  | vecLong v, _, _, _ => row_normal (fun _ => rfl) (fun v h => by simpa [every, mxNormal] using h) v
  | vecReal v, _, _, _ => row_normal (fun _ => rfl) (fun v h => by simpa [every, mxNormal] using h) v
  | vecComplex v, _, _, _ => row_normal (fun _ => rfl) (fun v h => by simpa [every, mxNormal] using h) v
  | vecString v, _, _, _ => by
    rw [mxForm, every, normal_strings]; rfl
  | matLong m, _, _, _ => mat_normal (fun _ => rfl) (fun v h => by simpa [every, mxNormal] using h)
      (fun m h1 h2 => by simpa [every, mxNormal] using ⟨h1, h2⟩) m
  | matReal m, _, _, _ => mat_normal (fun _ => rfl) (fun v h => by simpa [every, mxNormal] using h)
      (fun m h1 h2 => by simpa [every, mxNormal] using ⟨h1, h2⟩) m
  | matComplex m, _, _, _ => mat_normal (fun _ => rfl) (fun v h => by simpa [every, mxNormal] using h)
      (fun m h1 h2 => by simpa [every, mxNormal] using ⟨h1, h2⟩) m

/-- What comes back the second time. -/
theorem normal_two :
    (∀ g : GC, every mxNormal (mxForm (mxForm g)) = true) ∧
    (∀ v : List GC, everyL mxNormal (mxFormL (mxFormL v)) = true) ∧
    (∀ m : Entries, everyM mxNormal (mxFormM (mxFormM m)) = true) := by
  refine induct ?_ ?_ ?_ ?_ ?_ ?_ ?_
  · intro g hv hm
    by_cases hi : ∃ m, g = matInt m
    · obtain ⟨m, rfl⟩ := hi
      rw [mxForm, matForm]
      by_cases hr : m.nr = 1
      · rw [if_pos hr]
        match m.data with
        | [] => rfl
        | [x] => rfl
        | x :: y :: v => rfl
      · rw [if_neg hr]
        have : m.data.length ≠ 1 → every mxNormal (mxForm (matInt m)) = true := fun h => by
          rw [mxForm, (matForm_fixed (by simp) (by simp) m).2 ⟨hr, h⟩]
          simpa [every, mxNormal] using ⟨hr, h⟩
        match hd : m.data with
        | [] => exact this (by simp [hd])
        | [x] => rfl
        | x :: y :: v => exact this (by simp [hd])
    · have := normal_one g hv hm (fun m h => hi ⟨m, h⟩)
      rw [(fixed.1 _).2 this]; exact this
  · intro v ih
    rw [mxForm, mxForm, every, ih]; rfl
  · intro m ih
    rw [mxForm, mxForm, every, ih]; rfl
  · rfl
  · intro x v h1 h2
    rw [mxFormL, mxFormL, everyL, h1, h2]; rfl
  · rfl
  · intro k x m h1 h2
    rw [mxFormM, mxFormM, everyM, h1, h2]; rfl

/-! ## Numbers -/

theorem row_elems {α : Type} {sc : α → GC} {ve : List α → GC} (h1 : ∀ x, elems (sc x) = [sc x])
    (h2 : ∀ v, elems (ve v) = v.map sc) (v : List α) : elems (rowForm sc ve v) = v.map sc := by
  match v with
  | [] => exact h2 _
  | [x] => exact h1 x
  | x :: y :: v => exact h2 _

theorem mat_elems {α : Type} {sc : α → GC} {ve : List α → GC} {ma : Mat α → GC} (h1 : ∀ x, elems (sc x) = [sc x])
    (h2 : ∀ v, elems (ve v) = v.map sc) (h3 : ∀ m, elems (ma m) = m.data.map sc) (m : Mat α) :
    elems (matForm sc ve ma m) = m.data.map sc := by
  rw [matForm]
  split
  · exact row_elems h1 h2 _
  · have := h3 m
    match hd : m.data with
    | [] => rw [hd] at this; exact this
    | [x] => exact h1 x
    | x :: y :: v => rw [hd] at this; exact this

theorem same_int' (i : I32) : SameNumber (int i) (long (BitVec.ofInt 64 i.toInt)) := same_int i

theorem form_elems (g : GC) (h : numeric g = true) : SameElems (elems g) (elems (mxForm g)) := by
  cases g
  case bool b => exact sameElems_refl _
  case int i => exact sameElems_one (same_int' i)
  case long b => exact sameElems_refl _
  case real b => exact sameElems_refl _
  case complex b => exact sameElems_refl _
  case vecBool v => rw [mxForm, row_elems (fun _ => rfl) (fun _ => rfl)]; exact sameElems_refl _
  case vecInt v =>
    rw [mxForm, row_elems (fun _ => rfl) (fun _ => rfl)]
    exact sameElems_map v _ _ _ fun x _ => same_int' x
  case vecLong v => rw [mxForm, row_elems (fun _ => rfl) (fun _ => rfl)]; exact sameElems_refl _
  case vecReal v => rw [mxForm, row_elems (fun _ => rfl) (fun _ => rfl)]; exact sameElems_refl _
  case vecComplex v => rw [mxForm, row_elems (fun _ => rfl) (fun _ => rfl)]; exact sameElems_refl _
  case matInt v => rw [mxForm, mat_elems (fun _ => rfl) (fun _ => rfl) (fun _ => rfl)]; exact sameElems_refl _
  case matLong v => rw [mxForm, mat_elems (fun _ => rfl) (fun _ => rfl) (fun _ => rfl)]; exact sameElems_refl _
  case matReal v => rw [mxForm, mat_elems (fun _ => rfl) (fun _ => rfl) (fun _ => rfl)]; exact sameElems_refl _
  case matComplex v => rw [mxForm, mat_elems (fun _ => rfl) (fun _ => rfl) (fun _ => rfl)]; exact sameElems_refl _
  all_goals exact absurd h (by simp [numeric, ty, width])

/-! ## MATLAB values -/

/-- The value comes back the same. -/
def MxSame (mx : Mx) : Prop := ∃ g, fromMx mx notype = .ok g ∧ toMx g = .ok mx

theorem mul_one_of {r c : Nat} (h : 1 = [r, c].prod) : r = 1 ∧ c = 1 := by
  have : r * c = 1 := by simpa using h.symm
  exact ⟨Nat.eq_one_of_mul_eq_one_right this, Nat.eq_one_of_mul_eq_one_left this⟩

/-- A numeric array, given what its three forms become. -/
theorem same_num {α : Type} {dims : List Nat} {l : List α} {sc : α → GC} {ve : List α → GC} {ma : Mat α → GC} {d : MxNum}
    {ks kv km : Prop}
    (hf : fromNum dims d = mx_to_vec dims l sc ve ma) (hp : l.length = dims.prod) (h32 : l.length < 2 ^ 32)
    (hd : ∀ n ∈ dims, n < 2 ^ 32) (h0 : 0 < dims.length)
    (hnot : ∀ ds, toMx notype ≠ .ok (.num ds d) ∨ ds = [0, 0])
    (hs : ∀ x, l = [x] → (toMx (sc x) = .ok (.num dims d) ↔ dims = [1, 1] ∧ ks))
    (hv : toMx (ve l) = .ok (.num dims d) ↔ dims = [1, l.length] ∧ kv)
    (hm : ∀ r c, (Mat.mk r c l).wf = true → r * c < 2 ^ 32 → (toMx (ma ⟨r, c, l⟩) = .ok (.num dims d) ↔ dims = [r, c] ∧ km)) :
    MxSame (.num dims d) ↔ ∃ r c, dims = [r, c] ∧ if l.length = 1 then ks else if r = 1 then kv else km := by
  have e : MxSame (.num dims d) ↔ ∃ g, mx_to_vec dims l sc ve ma = .ok g ∧ toMx g = .ok (.num dims d) := by
    unfold MxSame; rw [fromMx, hf]
  rw [e]
  by_cases h1 : l.length = 1
  · obtain ⟨x, rfl⟩ := length_one h1
    simp only [mx_to_vec_one, Out.ok.injEq, exists_eq_left', if_true, h1]
    rw [hs x rfl]
    constructor
    · rintro ⟨rfl, h⟩; exact ⟨1, 1, rfl, h⟩
    · rintro ⟨r, c, rfl, h⟩
      obtain ⟨rfl, rfl⟩ := mul_one_of (show 1 = _ from hp)
      exact ⟨rfl, h⟩
  · simp only [mx_to_vec_many sc ve ma h1, if_neg h1]
    match dims, hp, hd, h0, hnot, hs, hv, hm with
    | [n], hp, hd, _, _, _, hv, _ =>
      simp only [if_pos h32, Out.ok.injEq, exists_eq_left', hv]
      simp
    | [r, c], hp, hd, _, _, _, hv, hm =>
      by_cases hr : r = 1
      · subst hr
        simp only [if_true, if_pos h32, Out.ok.injEq, exists_eq_left', hv]
        constructor
        · rintro ⟨h, hk⟩; exact ⟨1, c, rfl, by simpa using hk⟩
        · rintro ⟨r', c', h, hk⟩
          have hp' : l.length = c := by simpa using hp
          simp only [List.cons.injEq, and_true] at h
          rw [← h.1] at hk
          exact ⟨by rw [hp'], by simpa using hk⟩
      · have hprod : l.length = r * c := by simpa using hp
        have hr32 := hd r (by simp)
        have hc32 := hd c (by simp)
        have hw : (Mat.mk r c l).wf = true := by
          simp only [Mat.wf, Bool.and_eq_true, decide_eq_true_eq]
          exact ⟨⟨hr32, hc32⟩, by rw [Nat.mod_eq_of_lt (by omega)]; exact hprod⟩
        have hlt : r * c < 2 ^ 32 := by omega
        have hcond : r < 2 ^ 32 ∧ c < 2 ^ 32 ∧ r * c < 2 ^ 32 := ⟨hr32, hc32, hlt⟩
        simp only [if_neg hr, if_pos hcond, Out.ok.injEq, exists_eq_left', hm r c hw hlt, true_and]
        constructor
        · intro h; exact ⟨r, c, rfl, by rw [if_neg hr]; exact h⟩
        · rintro ⟨r', c', h, hk⟩
          simp only [List.cons.injEq, and_true] at h
          rw [← h.1, if_neg hr] at hk; exact hk
    | a :: b :: c :: ds, hp, hd, _, hnot, _, _, _ =>
      simp only [Out.ok.injEq, exists_eq_left']
      constructor
      · intro h
        rcases hnot (a :: b :: c :: ds) with h' | h'
        · exact absurd h h'
        · simp at h'
      · rintro ⟨r, c', h, _⟩; simp at h

theorem notype_dims (d : MxNum) (ds : List Nat) : toMx notype ≠ .ok (.num ds d) ∨ ds = [0, 0] := by
  by_cases h : ds = [0, 0]
  · exact .inr h
  · refine .inl fun e => h ?_
    rw [toMx, Out.ok.injEq, Mx.num.injEq] at e
    exact e.1.symm

theorem toMx_vec {g : GC} (h : full g = true) (hv : ∀ v, g ≠ vector v) (hm : ∀ m, g ≠ map m) (mx : Mx) :
    toMx g = .ok mx ↔ mxOf g = mx := by rw [toMx_leaf g h hv hm, Out.ok.injEq]

theorem full_mat {α : Type} {m : Mat α} {g : GC} (hs : sizeOk g = m.wf) (hr : g.num_rows = m.nr) (hc : g.num_cols = m.nc)
    (hw : m.wf = true) (h : m.nr * m.nc < 2 ^ 32) : full g = true := by
  rw [full, hs, hr, hc, hw, Bool.true_and]
  exact decide_eq_true h

theorem full_vec {n : Nat} {g : GC} (hs : sizeOk g = decide (n < 2 ^ 32)) (hr : g.num_rows = 1) (hc : g.num_cols = u32 n)
    (h : n < 2 ^ 32) : full g = true := by
  rw [full, hs, hr, hc, u32_of_lt h, Nat.one_mul]
  simp only [decide_eq_true h, Bool.and_self]

theorem range64 {l : List Int} (h : ∀ x ∈ l, IntCls.i64.has x) : (l.map (BitVec.ofInt 64)).map BitVec.toInt = l := by
  rw [List.map_map]
  conv => rhs; rw [← List.map_id l]
  refine List.map_congr_left fun x hx => ?_
  have := h x hx
  simp only [IntCls.has, IntCls.signed, IntCls.bits, if_true] at this
  simp only [Function.comp_apply, id, BitVec.toInt_ofInt, Int.bmod_def]
  omega

theorem range32 {l : List Int} (h : ∀ x ∈ l, IntCls.i32.has x) : (l.map (BitVec.ofInt 32)).map BitVec.toInt = l := by
  rw [List.map_map]
  conv => rhs; rw [← List.map_id l]
  refine List.map_congr_left fun x hx => ?_
  have := h x hx
  simp only [IntCls.has, IntCls.signed, IntCls.bits, if_true] at this
  simp only [Function.comp_apply, id, BitVec.toInt_ofInt, Int.bmod_def]
  omega

theorem kept_double {α : Type} {dims : List Nat} {l : List α} {sc : α → GC} {ve : List α → GC} {ma : Mat α → GC}
    {mk : List α → MxNum} {d : MxNum} {k : Prop}
    (hf : fromNum dims d = mx_to_vec dims l sc ve ma) (hp : l.length = dims.prod) (h32 : l.length < 2 ^ 32)
    (hd : ∀ n ∈ dims, n < 2 ^ 32) (h0 : 0 < dims.length) (hk : mk l = d ↔ k)
    (hs : ∀ x, toMx (sc x) = .ok (.num [1, 1] (mk [x])))
    (hv : toMx (ve l) = .ok (.num [1, l.length] (mk l)))
    (hm : ∀ r c, (Mat.mk r c l).wf = true → r * c < 2 ^ 32 → toMx (ma ⟨r, c, l⟩) = .ok (.num [r, c] (mk l))) :
    MxSame (.num dims d) ↔ (∃ r c, dims = [r, c]) ∧ k := by
  rw [same_num (ks := k) (kv := k) (km := k) hf hp h32 hd h0 (notype_dims d)]
  · constructor
    · rintro ⟨r, c, h, hk⟩
      exact ⟨⟨r, c, h⟩, by split at hk; exact hk; split at hk <;> exact hk⟩
    · rintro ⟨⟨r, c, h⟩, hk⟩
      exact ⟨r, c, h, by split; exact hk; split <;> exact hk⟩
  · rintro x rfl
    rw [hs, Out.ok.injEq, Mx.num.injEq, hk, eq_comm]
  · rw [hv, Out.ok.injEq, Mx.num.injEq, hk, eq_comm]
  · intro r c hw hc
    rw [hm r c hw hc, Out.ok.injEq, Mx.num.injEq, hk, eq_comm]

theorem kept_num (dims : List Nat) (d : MxNum) (h : (Mx.num dims d).Legal) : MxSame (.num dims d) ↔ MxKept (.num dims d) := by
  obtain ⟨hp, h0, h32, hr, hd⟩ := h
  have kept : MxKept (.num dims d) ↔ ∃ r c, dims = [r, c] ∧
      ((d.cls = .logical ∧ d.values.length = 1) ∨ (d.cls = .int .i32 ∧ d.values.length ≠ 1 ∧ r ≠ 1) ∨
        d.cls = .int .i64 ∨ d.cls = .double ∨ d.cls = .cdouble) := by
    match dims with
    | [] => simp [MxKept]
    | [a] => simp [MxKept]
    | [a, b] => simp [MxKept]
    | a :: b :: c :: ds => simp [MxKept]
  rw [kept]
  cases d with
  | logical l =>
    simp only [MxNum.values, List.length_map] at hp h32
    by_cases h1 : l.length = 1
    · obtain ⟨x, rfl⟩ := length_one h1
      simp only [MxSame, fromMx, fromNum, mx_to_vec_bool, Out.ok.injEq, exists_eq_left', toMx, Mx.num.injEq, MxNum.cls,
        MxNum.values]
      constructor
      · rintro ⟨h, -⟩; exact ⟨1, 1, h.symm, .inl ⟨trivial, rfl⟩⟩
      · rintro ⟨r, c, rfl, -⟩
        obtain ⟨rfl, rfl⟩ := mul_one_of (show 1 = _ from hp)
        exact ⟨rfl, trivial⟩
    · constructor
      · rintro ⟨g, h2, h3⟩
        exfalso
        have : fromMx (.num dims (.logical l)) notype = .ok (vector (l.map bool)) := by
          rw [fromMx, fromNum]
          match l, h1, h32 with
          | [], _, _ => rfl
          | [x], h1, _ => exact absurd rfl h1
          | x :: y :: l, _, h32 => exact if_pos h32
        rw [this, Out.ok.injEq] at h2
        subst h2
        rw [toMx] at h3
        obtain ⟨l', _, h3⟩ := out_bind_ok h3
        cases h3
      · rintro ⟨r, c, -, h⟩
        simp [MxNum.cls, MxNum.values, h1] at h
  | ints c l =>
    simp only [MxNum.values, List.length_map] at hp h32
    by_cases hl : c.isLong = true
    · rw [kept_double (l := l.map (BitVec.ofInt 64)) (mk := fun l => .ints .i64 (l.map BitVec.toInt)) (k := c = .i64)
        (show fromNum dims (.ints c l) = mx_to_vec dims (l.map (BitVec.ofInt 64)) long vecLong matLong by
          rw [fromNum, if_pos hl]) (by simpa using hp) (by simpa using h32) hd h0]
      · have : c ≠ .i32 := by rintro rfl; exact absurd hl (by decide)
        simp only [MxNum.cls, MxCls.int.injEq, this]
        constructor
        · rintro ⟨⟨r, c, h⟩, hk⟩; exact ⟨r, c, h, .inr (.inr (.inl hk))⟩
        · rintro ⟨r, c', h, hk⟩
          simp at hk
          exact ⟨⟨r, c', h⟩, hk⟩
      · simp only [MxNum.ints.injEq]
        constructor
        · rintro ⟨h, -⟩; exact h.symm
        · rintro rfl; exact ⟨rfl, range64 hr⟩
      · exact fun x => rfl
      · rw [toMx_leaf _ (full_vec rfl rfl rfl (by simpa using h32)) (by simp) (by simp)]; rfl
      · intro r c' hw hc
        rw [toMx_leaf _ (full_mat (m := ⟨r, c', _⟩) rfl rfl rfl hw hc) (by simp) (by simp)]; rfl
    · rw [same_num (l := l.map (BitVec.ofInt 32)) (ks := False) (kv := False) (km := c = .i32)
        (show fromNum dims (.ints c l) = mx_to_vec dims (l.map (BitVec.ofInt 32)) int vecInt matInt by
          rw [fromNum, if_neg hl]) (by simpa using hp) (by simpa using h32) hd h0 (notype_dims _)]
      · have : c ≠ .i64 := by rintro rfl; exact absurd rfl hl
        simp only [MxNum.cls, MxNum.values, MxCls.int.injEq, this, List.length_map]
        constructor
        · rintro ⟨r, c', h, hk⟩
          refine ⟨r, c', h, ?_⟩
          split at hk
          · cases hk
          · next h1 =>
            split at hk
            · cases hk
            · next h2 => exact .inr (.inl ⟨hk, h1, h2⟩)
        · rintro ⟨r, c', h, hk⟩
          simp at hk
          exact ⟨r, c', h, by rw [if_neg hk.2.1, if_neg hk.2.2]; exact hk.1⟩
      · rintro x -
        simp only [toMx, Out.ok.injEq, Mx.num.injEq, MxNum.ints.injEq, and_false, iff_false]
        rintro ⟨-, rfl, -⟩; exact absurd rfl hl
      · rw [toMx_leaf _ (full_vec rfl rfl rfl (by simpa using h32)) (by simp) (by simp)]
        simp only [mxOf, Out.ok.injEq, Mx.num.injEq, MxNum.ints.injEq, and_false, iff_false]
        rintro ⟨-, rfl, -⟩; exact absurd rfl hl
      · intro r c' hw hc
        rw [toMx_leaf _ (full_mat (m := ⟨r, c', _⟩) rfl rfl rfl hw hc) (by simp) (by simp)]
        simp only [mxOf, Out.ok.injEq, Mx.num.injEq, MxNum.ints.injEq]
        constructor
        · rintro ⟨h1, h2, -⟩; exact ⟨h1.symm, h2.symm⟩
        · rintro ⟨h1, rfl⟩; exact ⟨h1.symm, rfl, range32 hr⟩
  | single l =>
    simp only [MxNum.values, List.length_map] at hp h32
    rw [kept_double (l := l) (mk := .double) (k := False) (sc := real) (ve := vecReal) (ma := matReal) rfl hp h32 hd h0
      (by simp) (fun _ => rfl)]
    · simp [MxNum.cls]
    · rw [toMx_leaf _ (full_vec rfl rfl rfl h32) (by simp) (by simp)]; rfl
    · intro r c' hw hc
      rw [toMx_leaf _ (full_mat (m := ⟨r, c', _⟩) rfl rfl rfl hw hc) (by simp) (by simp)]; rfl
  | double l =>
    simp only [MxNum.values, List.length_map] at hp h32
    rw [kept_double (l := l) (mk := .double) (k := True) (sc := real) (ve := vecReal) (ma := matReal) rfl hp h32 hd h0
      (by simp) (fun _ => rfl)]
    · simp [MxNum.cls]
    · rw [toMx_leaf _ (full_vec rfl rfl rfl h32) (by simp) (by simp)]; rfl
    · intro r c' hw hc
      rw [toMx_leaf _ (full_mat (m := ⟨r, c', _⟩) rfl rfl rfl hw hc) (by simp) (by simp)]; rfl
  | cints c l =>
    simp only [MxNum.values, List.length_map] at hp h32
    rw [kept_double (l := l.map fun p => Cplx.mk (F64.ofInt p.1) (F64.ofInt p.2)) (mk := .cdouble) (k := False)
      (sc := complex) (ve := vecComplex) (ma := matComplex) rfl (by simpa using hp) (by simpa using h32) hd h0
      (by simp) (fun _ => rfl)]
    · simp [MxNum.cls]
    · rw [toMx_leaf _ (full_vec rfl rfl rfl (by simpa using h32)) (by simp) (by simp)]; rfl
    · intro r c' hw hc
      rw [toMx_leaf _ (full_mat (m := ⟨r, c', _⟩) rfl rfl rfl hw hc) (by simp) (by simp)]; rfl
  | csingle l =>
    simp only [MxNum.values, List.length_map] at hp h32
    rw [kept_double (l := l) (mk := .cdouble) (k := False) (sc := complex) (ve := vecComplex) (ma := matComplex) rfl hp h32
      hd h0 (by simp) (fun _ => rfl)]
    · simp [MxNum.cls]
    · rw [toMx_leaf _ (full_vec rfl rfl rfl h32) (by simp) (by simp)]; rfl
    · intro r c' hw hc
      rw [toMx_leaf _ (full_mat (m := ⟨r, c', _⟩) rfl rfl rfl hw hc) (by simp) (by simp)]; rfl
  | cdouble l =>
    simp only [MxNum.values, List.length_map] at hp h32
    rw [kept_double (l := l) (mk := .cdouble) (k := True) (sc := complex) (ve := vecComplex) (ma := matComplex) rfl hp h32
      hd h0 (by simp) (fun _ => rfl)]
    · simp [MxNum.cls]
    · rw [toMx_leaf _ (full_vec rfl rfl rfl h32) (by simp) (by simp)]; rfl
    · intro r c' hw hc
      rw [toMx_leaf _ (full_mat (m := ⟨r, c', _⟩) rfl rfl rfl hw hc) (by simp) (by simp)]; rfl

theorem legalF_nul {n : Nat} : ∀ {fs : List (Bytes × List Mx)}, Mx.LegalF n fs → ∀ k ∈ fs.map Prod.fst, (0 : Byte) ∉ k
  | [], _, k, hk => by cases hk
  | (k', l) :: fs, h, k, hk => by
    rw [Mx.LegalF] at h
    rcases List.mem_cons.1 hk with rfl | hk
    · exact h.1
    · exact legalF_nul h.2.2.2 k hk

theorem toFields_keys : ∀ {m : Entries} {fs : List (Bytes × List Mx)}, toFields m = .ok fs →
    fs.map Prod.fst = m.map fun e => cstr e.1
  | [], fs, h => by rw [toFields] at h; cases h; rfl
  | (k, x) :: m, fs, h => by
    rw [toFields] at h
    obtain ⟨y, _, h⟩ := out_bind_ok h
    obtain ⟨gs, h2, h⟩ := out_bind_ok h
    cases h
    rw [List.map_cons, List.map_cons, toFields_keys h2]

theorem same_iff {mx : Mx} {g : GC} (h : fromMx mx notype = .ok g) : MxSame mx ↔ toMx g = .ok mx := by
  constructor
  · rintro ⟨g', h1, h2⟩
    rw [h, Out.ok.injEq] at h1
    rw [h1]; exact h2
  · exact fun h2 => ⟨g, h, h2⟩

theorem toMx_map {m : Entries} {mx : Mx} (h : toMx (map m) = .ok mx) : m ≠ [] ∧ ∃ fs, mx = .struct 1 1 fs ∧ toFields m = .ok fs := by
  match m with
  | [] => rw [toMx] at h; cases h
  | (k, x) :: m =>
    rw [toMx] at h
    obtain ⟨y, h1, h⟩ := out_bind_ok h
    obtain ⟨gs, h2, h⟩ := out_bind_ok h
    cases h
    refine ⟨by simp, _, rfl, ?_⟩
    rw [toFields, h1]
    simp only [Out.bind, h2]

theorem map_toMx {m : Entries} {fs : List (Bytes × List Mx)} (h : toFields m = .ok fs) (h0 : m ≠ []) :
    toMx (map m) = .ok (.struct 1 1 fs) := by
  match m, h0 with
  | (k, x) :: m, _ =>
    rw [toFields] at h
    obtain ⟨y, h1, h⟩ := out_bind_ok h
    obtain ⟨gs, h2, h⟩ := out_bind_ok h
    cases h
    rw [toMx, h1]
    simp only [Out.bind, h2]

mutual

theorem kept_iff : ∀ mx : Mx, mx.Legal → (MxSame mx ↔ MxKept mx)
  | .null, _ => by
    rw [same_iff (g := notype) rfl]
    constructor
    · intro h; cases h
    · intro h; cases h
  | .other, _ => by
    rw [same_iff (g := notype) rfl]
    constructor
    · intro h; cases h
    · intro h; cases h
  | .char s, h => by
    have h1 : fromMx (.char s) notype = .ok (string s) := by rw [fromMx, cstr_of_notMem h]; rfl
    rw [same_iff h1, toMx, mxString, cstr_of_notMem h]
    exact ⟨fun _ => trivial, fun _ => rfl⟩
  | .text n s, h => by
    rw [same_iff (g := string (cstr (s.take (n * 2)))) rfl]
    constructor
    · intro h; cases h
    · intro h; cases h
  | .sparse nc jc ir v, h => by
    obtain ⟨g, h1, h2⟩ := fromSparse_holds nc jc ir v h
    rw [same_iff (g := g) (by rw [fromMx, clear, h1])]
    obtain ⟨w, -, -, -, rfl⟩ := h2
    constructor
    · intro h
      obtain ⟨-, fs, h, -⟩ := toMx_map h
      cases h
    · intro h; cases h
  | .num dims d, h => kept_num dims d h
  | .cell dims l, h => by
    obtain ⟨h1, h2, h3⟩ := h
    obtain ⟨v, h4, h5, h6⟩ := kept_iffL l h3 (List.replicate l.length notype) (by simp)
    have hf : fromMx (.cell dims l) notype = .ok (vector v) := by
      rw [fromMx, clear, fresh_vector, u32_of_lt h2, h4]; rfl
    rw [same_iff hf, toMx, get_num_elements, h5, u32_of_lt h2, MxKept]
    constructor
    · intro h
      obtain ⟨l', h7, h⟩ := out_bind_ok h
      simp only [Out.ok.injEq, Mx.cell.injEq] at h
      rw [h.2] at h7
      exact ⟨h.1.symm, h6.1 h7⟩
    · rintro ⟨h, hk⟩
      rw [h6.2 hk, h]; rfl
  | .struct nr nc fs, h => by
    obtain ⟨h1, h2, h3, h4, h5⟩ := h
    obtain ⟨m, h6, h7, h8, -, -⟩ := from_holdsF fs nr nc h1 h2 h3 h5 h4 [] List.Pairwise.nil (fun _ _ => rfl)
    have hf : fromMx (.struct nr nc fs) notype = .ok (map m) := by
      rw [fromMx]
      show (fromFields nr nc fs []).bind _ = _
      rw [h6]; rfl
    rw [same_iff hf, MxKept]
    have clean : ∀ e ∈ m, cstr e.1 = e.1 := fun e he =>
      cstr_of_notMem (legalF_nul h5 e.1 ((by simpa using h8 : (m.map Prod.fst).Perm _).subset (List.mem_map_of_mem he)))
    constructor
    · intro h
      obtain ⟨h9, fs', h, h10⟩ := toMx_map h
      simp only [Mx.struct.injEq] at h
      obtain ⟨rfl, rfl, rfl⟩ := h
      have hkeys : fs.map Prod.fst = m.map Prod.fst := by
        rw [toFields_keys h10]
        exact List.map_congr_left fun e he => clean e he
      have hs : List.Pairwise (fun a b => strLT a.1 b.1) fs := by
        have : List.Pairwise strLT (fs.map Prod.fst) := by
          rw [hkeys, List.pairwise_map]; exact h7
        rwa [List.pairwise_map] at this
      refine ⟨rfl, rfl, ?_, hs, ?_⟩
      · rintro rfl
        rw [List.map_nil] at hkeys
        exact h9 (List.map_eq_nil_iff.1 hkeys.symm)
      · obtain ⟨m', h11, h12⟩ := kept_iffF fs h5 hs [] (fun e he => by cases he)
        rw [h6, Out.ok.injEq, List.nil_append] at h11
        subst h11
        exact h12.1 h10
    · rintro ⟨rfl, rfl, h9, h10, h11⟩
      obtain ⟨m', h12, h13⟩ := kept_iffF fs h5 h10 [] (fun e he => by cases he)
      rw [h6, Out.ok.injEq, List.nil_append] at h12
      subst h12
      refine map_toMx (h13.2 h11) ?_
      rintro rfl
      have := h8.length_eq
      simp only [List.map_nil, List.append_nil, List.length_nil, List.length_map] at this
      exact h9 (List.length_eq_zero_iff.1 this.symm)

theorem kept_iffL : ∀ l : List Mx, Mx.LegalL l → ∀ w : List GC, w.length = l.length →
    ∃ v, fromCells l l.length w = .ok v ∧ v.length = l.length ∧ (toCells l.length v = .ok l ↔ MxKeptL l)
  | [], _, w, hw => ⟨[], by rw [List.length_nil, fromCells, List.length_eq_zero_iff.1 hw], rfl, by
      rw [List.length_nil, toCells]; exact ⟨fun _ => trivial, fun _ => rfl⟩⟩
  | x :: l, h, w, hw => by
    obtain ⟨g, h1, -⟩ := from_holds x h.1
    have hx := kept_iff x h.1
    rw [same_iff h1] at hx
    obtain ⟨v, h2, h3, h4⟩ := kept_iffL l h.2 w.tail (by simp [hw])
    refine ⟨g :: v, ?_, by rw [List.length_cons, List.length_cons, h3], ?_⟩
    · rw [List.length_cons, fromCells, fromMx_clear, h1]
      simp only [Out.bind, h2]
    · rw [List.length_cons, toCells, MxKeptL, ← hx, ← h4]
      constructor
      · intro h
        obtain ⟨y, h5, h⟩ := out_bind_ok h
        obtain ⟨l', h6, h⟩ := out_bind_ok h
        cases h
        exact ⟨h5, h6⟩
      · rintro ⟨h5, h6⟩
        rw [h5]
        simp only [Out.bind, h6]

theorem kept_iffF : ∀ fs : List (Bytes × List Mx), Mx.LegalF (1 * 1) fs → List.Pairwise (fun a b => strLT a.1 b.1) fs →
    ∀ a : Entries, (∀ e ∈ a, ∀ f ∈ fs, strLT e.1 f.1) →
    ∃ m, fromFields 1 1 fs a = .ok (a ++ m) ∧ (toFields m = .ok fs ↔ MxKeptF fs)
  | [], _, _, a, _ => ⟨[], by rw [fromFields, List.append_nil], by
      rw [toFields]; exact ⟨fun _ => trivial, fun _ => rfl⟩⟩
  | (k, [x]) :: fs, h, hs, a, ha => by
    obtain ⟨hk, -, hx, hf⟩ := h
    obtain ⟨g, h1, -⟩ := from_holds x hx.1
    have hx' := kept_iff x hx.1
    rw [same_iff h1] at hx'
    rw [List.pairwise_cons] at hs
    obtain ⟨m, h2, h3⟩ := kept_iffF fs hf hs.2 (a ++ [(k, g)]) (fun e he f hf' => by
      rcases List.mem_append.1 he with he | he
      · exact ha e he f (.tail _ hf')
      · rw [List.mem_singleton] at he
        rw [he]; exact hs.1 f hf')
    refine ⟨(k, g) :: m, ?_, ?_⟩
    · rw [fromFields_one, h1]
      show fromFields 1 1 fs (mset (cstr k) g a) = _
      rw [cstr_of_notMem hk, mset_append (fun e he => ha e he (k, [x]) (.head _)), h2, List.append_assoc]; rfl
    · rw [toFields, MxKeptF, MxKeptL, MxKeptL, and_true, ← hx', ← h3, cstr_of_notMem hk]
      constructor
      · intro h
        obtain ⟨y, h5, h⟩ := out_bind_ok h
        obtain ⟨l', h6, h⟩ := out_bind_ok h
        cases h
        exact ⟨h5, h6⟩
      · rintro ⟨h5, h6⟩
        rw [h5]
        simp only [Out.bind, h6]
  | (k, []) :: fs, h, _, a, _ => absurd h.2.1 (by simp)
  | (k, _ :: _ :: _) :: fs, h, _, a, _ => absurd h.2.1 (by simp)

end

end GC
end GCV
