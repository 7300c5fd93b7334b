import Verif.Lemmas.Matlab

/-! # Lemmas on the MATLAB interface: there and back -/

namespace GCV
namespace GC

/-! ## What is shown -/

theorem same_int (i : I32) : SameNumber (int i) (IntCls.i64.stored i.toInt) := by
  refine .inr (.inl ⟨_, rfl, ?_⟩)
  have h1 := BitVec.toInt_lt (x := i)
  have h2 := BitVec.le_toInt (x := i)
  have : (BitVec.ofInt 64 i.toInt).toInt = i.toInt := by rw [BitVec.toInt_ofInt, Int.bmod_def]; omega
  simp only [IntCls.stored, IntCls.bits, if_true, numValue, this]

theorem stored_long (l : I64) : IntCls.i64.stored l.toInt = long l := by
  simp only [IntCls.stored, IntCls.bits, if_true, BitVec.ofInt_toInt]

theorem stored_int (i : I32) : IntCls.i32.stored i.toInt = int i := by
  simp only [IntCls.stored, IntCls.bits, BitVec.ofInt_toInt]; rfl

theorem map_toInt {α : Type} (up : α → GC) (c : IntCls) (f : α → Int) (h : ∀ x, c.stored (f x) = up x) (v : List α) :
    (v.map f).map c.stored = v.map up := by
  rw [List.map_map]; congr 1; funext x; exact h x

theorem shown_leaf : ∀ g : GC, (∀ v, g ≠ vector v) → (∀ m, g ≠ map m) → Shown g (mxOf g)
  | vector v, h, _ => absurd rfl (h v)
  | map m, _, h => absurd rfl (h m)
  | notype, _, _ => rfl
  | pointer _, _, _ => rfl
  | vecPointer _, _, _ => rfl
  | string _, _, _ => rfl
  | vecString _, _, _ => rfl
  | bool b, _, _ => ⟨_, rfl, rfl, sameElems_refl _⟩
  | int i, _, _ => ⟨_, rfl, rfl, sameElems_one (same_int i)⟩
  | long l, _, _ => ⟨_, rfl, rfl, sameElems_one (by rw [stored_long]; exact .inl rfl)⟩
  | real r, _, _ => ⟨_, rfl, rfl, sameElems_refl _⟩
  | complex c, _, _ => ⟨_, rfl, rfl, sameElems_refl _⟩
  | vecBool v, _, _ => ⟨.logical v, by simp [mxOf, mxDims, elems], rfl, sameElems_refl _⟩
  | vecInt v, _, _ => ⟨.ints .i64 (v.map BitVec.toInt), by simp [mxOf, mxDims, elems], rfl,
      sameElems_map v _ _ _ fun x _ => same_int x⟩
  | vecLong v, _, _ => ⟨.ints .i64 (v.map BitVec.toInt), by simp [mxOf, mxDims, elems], rfl, by
      rw [MxNum.values, map_toInt long _ _ stored_long]; exact sameElems_refl _⟩
  | vecReal v, _, _ => ⟨.double v, by simp [mxOf, mxDims, elems], rfl, sameElems_refl _⟩
  | vecComplex v, _, _ => ⟨.cdouble v, by simp [mxOf, mxDims, elems], rfl, sameElems_refl _⟩
  | matInt m, _, _ => ⟨_, rfl, rfl, by
      rw [MxNum.values, map_toInt int _ _ stored_int]; exact sameElems_refl _⟩
  | matLong m, _, _ => ⟨_, rfl, rfl, by
      rw [MxNum.values, map_toInt long _ _ stored_long]; exact sameElems_refl _⟩
  | matReal m, _, _ => ⟨_, rfl, rfl, sameElems_refl _⟩
  | matComplex m, _, _ => ⟨_, rfl, rfl, sameElems_refl _⟩

theorem shown : (∀ g : GC, Shown g (mxOf g)) ∧ (∀ v : List GC, ShownL v (mxOfL v)) ∧
    (∀ m : Entries, ShownM m (mxOfM m)) := by
  refine induct shown_leaf ?_ ?_ ?_ ?_ ?_ ?_
  · exact fun v ih => ⟨_, rfl, ih⟩
  · exact fun m ih => ⟨_, rfl, ih⟩
  · exact rfl
  · exact fun x v h1 h2 => ⟨_, _, rfl, h1, h2⟩
  · exact rfl
  · exact fun k x m h1 h2 => ⟨_, _, rfl, h1, h2⟩

/-! ## What comes back -/

theorem back_row {α : Type} {sc : α → GC} {ve : List α → GC} {ma : Mat α → GC} {l : List α} {n : Nat}
    (h : l.length < 2 ^ 32) : mx_to_vec [1, n] l sc ve ma = .ok (rowForm sc ve l) := by
  match l, h with
  | [], _ => rfl
  | [x], _ => rfl
  | x :: y :: l, h => exact (mx_to_vec_many sc ve ma (by simp)).trans ((if_pos rfl).trans (if_pos h))

theorem back_mat {α : Type} {sc : α → GC} {ve : List α → GC} {ma : Mat α → GC} {m : Mat α} (hw : m.wf = true)
    (hc : m.nr * m.nc < 2 ^ 32) : mx_to_vec [m.nr, m.nc] m.data sc ve ma = .ok (matForm sc ve ma m) := by
  have hl := Mat.wf_length hw hc
  simp only [Mat.wf, Bool.and_eq_true, decide_eq_true_eq] at hw
  rw [matForm]
  by_cases hr : m.nr = 1
  · rw [if_pos hr, hr]
    exact back_row (by omega)
  · rw [if_neg hr]
    have key : m.data.length ≠ 1 → mx_to_vec [m.nr, m.nc] m.data sc ve ma = .ok (ma m) := fun h1 =>
      (mx_to_vec_many sc ve ma h1).trans ((if_neg hr).trans (if_pos ⟨hw.1.1, hw.1.2, hc⟩))
    match hd : m.data with
    | [x] => rfl
    | [] => rw [hd] at key; exact key (by simp)
    | x :: y :: l => rw [hd] at key; exact key (by simp)

theorem map_ofInt64 (v : List I64) : (v.map BitVec.toInt).map (BitVec.ofInt 64) = v := by
  rw [List.map_map, show (BitVec.ofInt 64 ∘ BitVec.toInt) = id from funext fun x => BitVec.ofInt_toInt, List.map_id]

theorem map_ofInt32 (v : List I32) : (v.map BitVec.toInt).map (BitVec.ofInt 32) = v := by
  rw [List.map_map, show (BitVec.ofInt 32 ∘ BitVec.toInt) = id from funext fun x => BitVec.ofInt_toInt, List.map_id]

theorem cstr_twice (s : Bytes) : cstr (cstr s) = cstr s := by
  refine cstr_of_noNul ?_
  rw [noNul]
  exact List.all_takeWhile

theorem back_strings : ∀ (v : List Bytes) (w : List GC), w.length = v.length →
    fromCells (v.map fun s => .char (cut s)) v.length w = .ok (v.map fun s => string (cut s))
  | [], w, h => by rw [List.length_nil, fromCells, List.length_eq_zero_iff.1 h]; rfl
  | s :: v, w, h => by
    rw [List.length_cons, List.map_cons, fromCells, fromMx_clear, fromMx, cut_eq, cstr_twice]
    simp only [Out.bind]
    rw [back_strings v w.tail (by simp [h])]; rfl

theorem length_mxOfL : ∀ v : List GC, (mxOfL v).length = v.length
  | [] => rfl
  | x :: v => by rw [mxOfL, List.length_cons, List.length_cons, length_mxOfL v]

theorem back_leaf : ∀ g : GC, full g = true → (∀ v, g ≠ vector v) → (∀ m, g ≠ map m) →
    fromMx (mxOf g) notype = .ok (mxForm g)
  | vector v, _, h, _ => absurd rfl (h v)
  | map m, _, _, h => absurd rfl (h m)
  | notype, _, _, _ => rfl
  | pointer _, _, _, _ => rfl
  | vecPointer _, _, _, _ => rfl
  | bool _, _, _, _ => rfl
  | int _, _, _, _ => rfl
  | long l, _, _, _ => by
    show Out.ok (long (BitVec.ofInt 64 l.toInt)) = .ok (long l)
    rw [BitVec.ofInt_toInt]
  | real _, _, _, _ => rfl
  | complex _, _, _, _ => rfl
  | string s, _, _, _ => by rw [mxOf, fromMx, cut_eq, cstr_twice]; rfl
  | vecBool v, h, _, _ => by
    have hl : v.length < 2 ^ 32 := by simp [full, sizeOk] at h; omega
    rw [mxOf, fromMx, fromNum]
    match v, hl with
    | [], _ => rfl
    | [x], _ => rfl
    | x :: y :: v, hl => exact if_pos hl
  | vecInt v, h, _, _ => by
    have hl : v.length < 2 ^ 32 := by simp [full, sizeOk] at h; omega
    rw [mxOf, fromMx, fromNum, if_pos (by rfl), back_row (by simpa using hl), List.map_map]; rfl
  | vecLong v, h, _, _ => by
    have hl : v.length < 2 ^ 32 := by simp [full, sizeOk] at h; omega
    rw [mxOf, fromMx, fromNum, if_pos (by rfl), back_row (by simpa using hl), map_ofInt64]; rfl
  | vecReal v, h, _, _ => by
    have hl : v.length < 2 ^ 32 := by simp [full, sizeOk] at h; omega
    rw [mxOf, fromMx, fromNum, back_row hl]; rfl
  | vecComplex v, h, _, _ => by
    have hl : v.length < 2 ^ 32 := by simp [full, sizeOk] at h; omega
    rw [mxOf, fromMx, fromNum, back_row hl]; rfl
  | vecString v, h, _, _ => by
    have hl : v.length < 2 ^ 32 := by simp [full, sizeOk] at h; omega
    rw [mxOf, fromMx, clear, fresh_vector, List.length_map, u32_of_lt hl, back_strings v _ (by simp)]; rfl
  | matInt m, h, _, _ => by
    simp only [full, sizeOk, num_rows, num_cols, Bool.and_eq_true] at h
    replace h := And.intro h.1 (of_decide_eq_true h.2)
    rw [mxOf, fromMx, fromNum, if_neg (by decide), map_ofInt32, back_mat h.1 h.2]; rfl
  | matLong m, h, _, _ => by
    simp only [full, sizeOk, num_rows, num_cols, Bool.and_eq_true] at h
    replace h := And.intro h.1 (of_decide_eq_true h.2)
    rw [mxOf, fromMx, fromNum, if_pos (by rfl), map_ofInt64, back_mat h.1 h.2]; rfl
  | matReal m, h, _, _ => by
    simp only [full, sizeOk, num_rows, num_cols, Bool.and_eq_true] at h
    replace h := And.intro h.1 (of_decide_eq_true h.2)
    rw [mxOf, fromMx, fromNum, back_mat h.1 h.2]; rfl
  | matComplex m, h, _, _ => by
    simp only [full, sizeOk, num_rows, num_cols, Bool.and_eq_true] at h
    replace h := And.intro h.1 (of_decide_eq_true h.2)
    rw [mxOf, fromMx, fromNum, back_mat h.1 h.2]; rfl

/-- A field of a single structure. -/
theorem fromFields_one (k : Bytes) (x : Mx) (fs : List (Bytes × List Mx)) (m : Entries) :
    fromFields 1 1 ((k, [x]) :: fs) m = (fromMx x notype).bind fun y => fromFields 1 1 fs (mset (cstr k) y m) := by
  rw [fromFields]
  have : (u32 1 = 1 ∧ u32 1 = 1) := by decide
  simp only [if_pos this]
  rw [fromCells, fromMx_clear]
  cases fromMx x notype with
  | ok y =>
    simp only [Out.bind, fromCells]
    rfl
  | throw => rfl
  | ub => rfl
  | diverge => rfl

theorem back :
    (∀ g : GC, every full g = true → every cleanKeys g = true → WF g → fromMx (mxOf g) notype = .ok (mxForm g)) ∧
    (∀ v : List GC, everyL full v = true → everyL cleanKeys v = true → WFL v → ∀ w : List GC, w.length = v.length →
      fromCells (mxOfL v) v.length w = .ok (mxFormL v)) ∧
    (∀ m : Entries, everyM full m = true → everyM cleanKeys m = true → WFM m → (∀ e ∈ m, noNul e.1 = true) →
      ∀ a : Entries, KeysSorted (a ++ m) → fromFields 1 1 (mxOfM m) a = .ok (a ++ mxFormM m)) := by
  refine induct ?_ ?_ ?_ ?_ ?_ ?_ ?_
  · exact fun g hv hm h _ _ => back_leaf g (every_leaf hv hm h) hv hm
  · intro v ih h hk hw
    rw [every, Bool.and_eq_true] at h hk
    have hl : v.length < 2 ^ 32 := by have := h.1; simp [full, sizeOk] at this; omega
    rw [mxOf, fromMx, clear, fresh_vector, length_mxOfL, u32_of_lt hl,
      ih h.2 hk.2 (by simpa [WF] using hw) _ (by simp)]; rfl
  · intro m ih h hk hw
    rw [every, Bool.and_eq_true] at h hk
    rw [WF] at hw
    have := ih h.2 hk.2 hw.2 (fun e he => (List.all_eq_true.1 hk.1) e he) [] hw.1
    rw [mxOf, fromMx]
    show (fromFields 1 1 (mxOfM m) []).bind _ = _
    rw [this]; rfl
  · intro _ _ _ w hw
    rw [mxOfL, List.length_nil, fromCells, List.length_eq_zero_iff.1 hw]; rfl
  · intro x v ih1 ih2 h hk hw w hl
    rw [everyL, Bool.and_eq_true] at h hk
    rw [WFL] at hw
    rw [mxOfL, List.length_cons, fromCells, fromMx_clear, ih1 h.1 hk.1 hw.1]
    simp only [Out.bind]
    rw [ih2 h.2 hk.2 hw.2 w.tail (by simp [hl])]; rfl
  · intro _ _ _ _ a _
    rw [mxOfM, fromFields, mxFormM, List.append_nil]
  · intro k x m ih1 ih2 h hk hw hn a hs
    rw [everyM, Bool.and_eq_true] at h hk
    rw [WFM] at hw
    have hk0 : cstr (cut k) = k := by rw [cut_eq, cstr_twice, cstr_of_noNul (hn (k, x) (.head _))]
    rw [mxOfM, fromFields_one, ih1 h.1 hk.1 hw.1]
    show fromFields 1 1 (mxOfM m) (mset (cstr (cut k)) (mxForm x) a) = _
    have hs' := List.pairwise_append.1 hs
    rw [hk0, mset_append (fun e he => hs'.2.2 e he (k, x) (.head _))]
    rw [ih2 h.2 hk.2 hw.2 (fun e he => hn e (.tail _ he)), mxFormM, List.append_assoc]; rfl
    have := List.pairwise_cons.1 hs'.2.1
    show List.Pairwise _ _
    rw [List.append_assoc, List.pairwise_append]
    refine ⟨hs'.1, List.pairwise_cons.2 ⟨this.1, this.2⟩, fun e he e' he' => ?_⟩
    rcases List.mem_cons.1 he' with rfl | he'
    · exact hs'.2.2 e he (k, x) (.head _)
    · exact hs'.2.2 e he e' (.tail _ he')

end GC
end GCV
