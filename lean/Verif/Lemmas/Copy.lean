import Verif.Model.Copy
import Verif.Spec.Copy
import Verif.Lemmas.Map

/-! # Lemmas on copying -/

namespace GCV

namespace GC

theorem valueAt_map (m : Entries) (k : Bytes) : valueAt (map m) k = (mfind k m).getD notype := by
  simp only [valueAt]
  congr 1
  induction m with
  | nil => rfl
  | cons e r ih =>
    obtain ⟨k', v⟩ := e
    rw [mfind, List.find?_cons]
    by_cases h : k = k'
    · simp [h]
    · have : (k' == k) = false := by simp; exact fun h' => h h'.symm
      simp [h, this, ih]

theorem valueAt_old (a : GC) (k : Bytes) : valueAt a k = (mfind k a.oldMap).getD notype := by
  cases a <;> first | exact valueAt_map _ _ | rfl

theorem elemAt_old (a : GC) (i : Nat) : elemAt a i = a.oldVector[i]?.getD notype := by
  cases a <;> first | rfl | simp [elemAt, oldVector]

end GC

theorem allocL_get (w : List GC) {n i : Nat} (hn : 0 < n) (hi : i < n) :
    (allocL GC.notype n w)[i]? = some (w[i]?.getD .notype) := by
  simp only [allocL, hn, if_true, resizeL]
  rw [List.getElem?_append]
  by_cases h : i < w.length
  · have h1 : i < (w.take n).length := by simp; omega
    rw [if_pos h1, List.getElem?_take]
    simp [hi, h]
  · have h1 : ¬ i < (w.take n).length := by simp; omega
    rw [if_neg h1]
    have : w[i]? = none := by simp; omega
    rw [this]
    simp only [Option.getD_none, List.getElem?_replicate]
    rw [if_pos]; simp; omega

/-- Copying a vector `v` into the vector of `w` gives `v` exactly when `v` is not empty or `w`
is. -/
theorem copy_alloc_iff {α : Type} (d : α) {v w : List α} (h : v.length < 2 ^ 32) :
    copyL v (allocL d (u32 v.length) w) = .ok v ↔ (v.isEmpty = true → (!w.isEmpty) = false) := by
  constructor
  · intro hc hv
    have : v = [] := by simpa using hv
    subst this
    simp [copyL, allocL, u32] at hc
    simp [hc]
  · intro hc
    apply copy_alloc d h
    cases v
    · right; simpa using hc rfl
    · left; simp

theorem bind_ok_inj {α β : Type} {x : Out α} {f : α → β} (hf : Function.Injective f) (a : α) :
    (x.bind fun w => .ok (f w)) = .ok (f a) ↔ x = .ok a := by
  cases x with
  | ok b => simp only [Out.bind, Out.ok.injEq]; exact hf.eq_iff
  | throw => simp [Out.bind]
  | ub => simp [Out.bind]
  | diverge => simp [Out.bind]

namespace GC

theorem Fits_vector {v : List GC} (h : Fits (vector v)) :
    v.length < 2 ^ 32 ∧ everyL fitsNode v = true := by
  simpa [Fits, every, fitsNode] using h

theorem Fits_map {m : Entries} (h : Fits (map m)) :
    (∀ e ∈ m, noNul e.1 = true) ∧ everyM fitsNode m = true := by
  simpa [Fits, every, fitsNode] using h

theorem everyL_iff {p : GC → Bool} : ∀ {v : List GC},
    everyL p v = true ↔ ∀ x ∈ v, every p x = true
  | [] => by simp [everyL]
  | x :: r => by simp [everyL, everyL_iff (v := r)]

theorem everyM_iff {p : GC → Bool} : ∀ {m : Entries},
    everyM p m = true ↔ ∀ e ∈ m, every p e.2 = true
  | [] => by simp [everyM]
  | (k, x) :: r => by simp [everyM, everyM_iff (m := r)]

theorem WFL_iff : ∀ {v : List GC}, WFL v ↔ ∀ x ∈ v, WF x
  | [] => by simp [WFL]
  | x :: r => by simp [WFL, WFL_iff (v := r)]

theorem WFM_iff : ∀ {m : Entries}, WFM m ↔ ∀ e ∈ m, WF e.2
  | [] => by simp [WFM]
  | (k, x) :: r => by simp [WFM, WFM_iff (m := r)]

theorem WF_valueAt {a : GC} (h : WF a) (k : Bytes) : WF ((mfind k a.oldMap).getD notype) := by
  cases hk : mfind k a.oldMap with
  | none => simp [WF]
  | some x =>
    cases a <;> simp [oldMap, mfind] at hk
    exact WFM_iff.1 h.2 _ (mem_of_mfind hk)

theorem WF_elemAt {a : GC} (h : WF a) (i : Nat) : WF (elemAt a i) := by
  rw [elemAt_old]
  cases hk : a.oldVector[i]? with
  | none => simp [WF]
  | some x =>
    cases a <;> simp [oldVector] at hk
    exact WFL_iff.1 h _ (List.mem_of_getElem? hk)

theorem sorted_oldMap {a : GC} (h : WF a) : KeysSorted a.oldMap := by
  cases a <;> simp [oldMap, KeysSorted]
  exact h.1

/-! ## Maps -/

theorem from_gcM_sorted : ∀ (m : Entries) {w w' : Entries}, KeysSorted w →
    from_gcM m w = .ok w' → KeysSorted w'
  | [], w, w', hw, h => by simp [from_gcM] at h; exact h ▸ hw
  | (k, x) :: r, w, w', hw, h => by
    rw [from_gcM] at h
    cases hx : from_gc x ((mfind (cstr k) w).getD notype) with
    | ok y => rw [hx] at h; exact from_gcM_sorted r (sorted_mset _ _ _ hw) h
    | throw => rw [hx] at h; simp [Out.bind] at h
    | ub => rw [hx] at h; simp [Out.bind] at h
    | diverge => rw [hx] at h; simp [Out.bind] at h

theorem from_gcM_spec : ∀ (m : Entries) {w w' : Entries}, KeysSorted m →
    (∀ e ∈ m, noNul e.1 = true) → from_gcM m w = .ok w' →
    (∀ k, k ∉ m.map Prod.fst → mfind k w' = mfind k w) ∧
    (∀ e ∈ m, ∃ y, from_gc e.2 ((mfind e.1 w).getD notype) = .ok y ∧ mfind e.1 w' = some y)
  | [], w, w', _, _, h => by
    simp [from_gcM] at h; subst h; simp
  | (k, x) :: r, w, w', hs, hn, h => by
    rw [KeysSorted, List.pairwise_cons] at hs
    rw [from_gcM, cstr_of_noNul (show noNul k = true from hn (k, x) (by simp))] at h
    cases hx : from_gc x ((mfind k w).getD notype) with
    | ok y =>
      rw [hx] at h
      obtain ⟨h1, h2⟩ := from_gcM_spec r hs.2 (fun e he => hn e (.tail _ he)) h
      have hkr : k ∉ r.map Prod.fst := by
        intro hk
        obtain ⟨e, he, rfl⟩ := List.mem_map.1 hk
        exact strLT_irrefl _ (hs.1 e he)
      constructor
      · intro l hl
        simp only [List.map_cons, List.mem_cons, not_or] at hl
        rw [h1 l hl.2, mfind_mset_other hl.1]
      · intro e he
        rcases List.mem_cons.1 he with rfl | he
        · exact ⟨y, hx, by rw [h1 k hkr, mfind_mset_same]⟩
        · have hne : e.1 ≠ k := by
            intro hek; exact hkr (hek ▸ List.mem_map.2 ⟨e, he, rfl⟩)
          obtain ⟨z, hz, hz'⟩ := h2 e he
          rw [mfind_mset_other hne] at hz
          exact ⟨z, hz, hz'⟩
    | throw => rw [hx] at h; simp [Out.bind] at h
    | ub => rw [hx] at h; simp [Out.bind] at h
    | diverge => rw [hx] at h; simp [Out.bind] at h

theorem from_gcM_ok : ∀ (m : Entries) {w : Entries}, KeysSorted m →
    (∀ e ∈ m, noNul e.1 = true) →
    (∀ e ∈ m, ∃ y, from_gc e.2 ((mfind e.1 w).getD notype) = .ok y) →
    ∃ w', from_gcM m w = .ok w'
  | [], w, _, _, _ => ⟨w, rfl⟩
  | (k, x) :: r, w, hs, hn, h => by
    rw [KeysSorted, List.pairwise_cons] at hs
    obtain ⟨y, hy⟩ := h (k, x) (by simp)
    have := from_gcM_ok r (w := mset k y w) hs.2 (fun e he => hn e (.tail _ he)) (by
      intro e he
      have hne : e.1 ≠ k := by
        rintro hek; exact strLT_irrefl _ (hek ▸ hs.1 e he)
      rw [mfind_mset_other hne]
      exact h e (.tail _ he))
    obtain ⟨w', hw'⟩ := this
    refine ⟨w', ?_⟩
    rw [from_gcM, cstr_of_noNul (show noNul k = true from hn (k, x) (by simp))]
    simp only at hy
    rw [hy]; exact hw'

theorem CleanM_iff : ∀ {m : Entries} {a : GC},
    CleanM m a ↔ ∀ e ∈ m, Clean e.2 ((mfind e.1 a.oldMap).getD notype)
  | [], a => by simp [CleanM]
  | (k, x) :: r, a => by simp [CleanM, CleanM_iff (m := r), valueAt_old]

/-! ## Vectors -/

theorem from_gcL_iff : ∀ (v w : List GC), v.length = w.length →
    (from_gcL v w = .ok v ↔ ∀ (i : Nat) x y, v[i]? = some x → w[i]? = some y → from_gc x y = .ok x)
  | [], [], _ => by simp [from_gcL]
  | [], _ :: _, h => by simp at h
  | _ :: _, [], h => by simp at h
  | x :: xs, y :: ys, h => by
    have ih := from_gcL_iff xs ys (by simpa using h)
    rw [from_gcL]
    constructor
    · intro h1 i a b ha hb
      cases hx : from_gc x y with
      | ok y' =>
        rw [hx] at h1
        cases hr : from_gcL xs ys with
        | ok r' =>
          rw [hr] at h1
          simp [Out.bind] at h1
          obtain ⟨rfl, rfl⟩ := h1
          cases i with
          | zero => simp at ha hb; subst ha hb; exact hx
          | succ i => exact ih.1 hr i a b (by simpa using ha) (by simpa using hb)
        | throw => rw [hr] at h1; simp [Out.bind] at h1
        | ub => rw [hr] at h1; simp [Out.bind] at h1
        | diverge => rw [hr] at h1; simp [Out.bind] at h1
      | throw => rw [hx] at h1; simp [Out.bind] at h1
      | ub => rw [hx] at h1; simp [Out.bind] at h1
      | diverge => rw [hx] at h1; simp [Out.bind] at h1
    · intro h1
      have hx := h1 0 x y rfl rfl
      have hr := ih.2 fun i a b ha hb => h1 (i + 1) a b (by simpa using ha) (by simpa using hb)
      rw [hx, hr]; rfl

theorem CleanL_iff : ∀ {v : List GC} {a : GC} {i : Nat},
    CleanL v a i ↔ ∀ (j : Nat) x, v[j]? = some x → Clean x (elemAt a (i + j))
  | [], a, i => by simp [CleanL]
  | y :: r, a, i => by
    rw [CleanL, CleanL_iff (v := r)]
    constructor
    · rintro ⟨h1, h2⟩ j x hx
      cases j with
      | zero => simp at hx; subst hx; exact h1
      | succ j =>
        have := h2 j x (by simpa using hx)
        rwa [show i + 1 + j = i + (j + 1) by omega] at this
    · intro h
      refine ⟨h 0 y rfl, fun j x hx => ?_⟩
      have := h (j + 1) x (by simpa using hx)
      rwa [show i + (j + 1) = i + 1 + j by omega] at this

/-! ## The characterisation -/

theorem mat_copy {α : Type} (d : α) {m w : Mat α} (hm : m.wf = true)
    (hw : w = .make d m.nr m.nc ∨ ∃ q, w = Mat.resize d m.nr m.nc q) :
    copyL m.data w.data = .ok m.data ∧ w.nr = m.nr ∧ w.nc = m.nc := by
  simp [Mat.wf] at hm
  have : w.data.length = m.data.length := by
    rcases hw with rfl | ⟨q, rfl⟩
    · simp [Mat.make, u32, hm.2]
    · simp [Mat.resize, u32, hm.2]
  refine ⟨copyL_eq this.symm, ?_⟩
  rcases hw with rfl | ⟨q, rfl⟩ <;> simp [Mat.make, Mat.resize]

theorem from_gc_iff : ∀ b, Fits b → WF b → ∀ a, WF a → (from_gc b a = .ok b ↔ Clean b a) := by
  refine (GC.induct (P := fun b => Fits b → WF b → ∀ a, WF a → (from_gc b a = .ok b ↔ Clean b a))
    (PL := fun v => ∀ b ∈ v, Fits b → WF b → ∀ a, WF a → (from_gc b a = .ok b ↔ Clean b a))
    (PM := fun m => ∀ e ∈ m, Fits e.2 → WF e.2 → ∀ a, WF a →
      (from_gc e.2 a = .ok e.2 ↔ Clean e.2 a)) ?_ ?_ ?_ ?_ ?_ ?_ ?_).1
  · -- leaves
    intro g hv hm hf hw a ha
    cases g with
    | vector v => exact absurd rfl (hv v)
    | map m => exact absurd rfl (hm m)
    | notype => simp [from_gc, clear, Clean, isEmptyVec]
    | pointer p => simp [from_gc, set_pointer, Clean, isEmptyVec]
    | bool b => simp [from_gc, set_bool, Clean, isEmptyVec]
    | int i => simp [from_gc, set_int, Clean, isEmptyVec]
    | long l => simp [from_gc, set_long, Clean, isEmptyVec]
    | real r => simp [from_gc, set_real, Clean, isEmptyVec]
    | complex c => simp [from_gc, set_complex, Clean, isEmptyVec]
    | string s =>
      simp only [from_gc, set_string, Clean, isEmptyVec]
      cases a <;> simp [allocate_string]
    | vecPointer v =>
      have h32 : v.length < 2 ^ 32 := by simpa [Fits, every, fitsNode] using hf
      rw [from_gc, set_vec_pointer, bind_ok_inj (fun _ _ h => by simpa using h),
        copy_alloc_iff _ h32]
      cases a <;> simp [Clean, isEmptyVec, sameKindNonEmpty, oldVecPointer]
    | vecBool v =>
      have h32 : v.length < 2 ^ 32 := by simpa [Fits, every, fitsNode] using hf
      rw [from_gc, set_vec_bool, bind_ok_inj (fun _ _ h => by simpa using h),
        copy_alloc_iff _ h32]
      cases a <;> simp [Clean, isEmptyVec, sameKindNonEmpty, oldVecBool]
    | vecInt v =>
      have h32 : v.length < 2 ^ 32 := by simpa [Fits, every, fitsNode] using hf
      rw [from_gc, set_vec_int, bind_ok_inj (fun _ _ h => by simpa using h),
        copy_alloc_iff _ h32]
      cases a <;> simp [Clean, isEmptyVec, sameKindNonEmpty, oldVecInt]
    | vecLong v =>
      have h32 : v.length < 2 ^ 32 := by simpa [Fits, every, fitsNode] using hf
      rw [from_gc, set_vec_long, bind_ok_inj (fun _ _ h => by simpa using h),
        copy_alloc_iff _ h32]
      cases a <;> simp [Clean, isEmptyVec, sameKindNonEmpty, oldVecLong]
    | vecReal v =>
      have h32 : v.length < 2 ^ 32 := by simpa [Fits, every, fitsNode] using hf
      rw [from_gc, set_vec_real, bind_ok_inj (fun _ _ h => by simpa using h),
        copy_alloc_iff _ h32]
      cases a <;> simp [Clean, isEmptyVec, sameKindNonEmpty, oldVecReal]
    | vecComplex v =>
      have h32 : v.length < 2 ^ 32 := by simpa [Fits, every, fitsNode] using hf
      rw [from_gc, set_vec_complex, bind_ok_inj (fun _ _ h => by simpa using h),
        copy_alloc_iff _ h32]
      cases a <;> simp [Clean, isEmptyVec, sameKindNonEmpty, oldVecComplex]
    | vecString v =>
      have h32 : v.length < 2 ^ 32 := by simpa [Fits, every, fitsNode] using hf
      rw [from_gc, set_vec_string, bind_ok_inj (fun _ _ h => by simpa using h),
        copy_alloc_iff _ h32]
      cases a <;> simp [Clean, isEmptyVec, sameKindNonEmpty, oldVecString]
    | matInt m =>
      rw [from_gc, set_mat_int]
      have : ∃ w, allocate_mat_int m.nr m.nc a = matInt w ∧
          (w = .make 0 m.nr m.nc ∨ ∃ q, w = Mat.resize 0 m.nr m.nc q) := by
        cases a <;> simp [allocate_mat_int]
        exact .inr ⟨_, rfl⟩
      obtain ⟨w, h1, h2⟩ := this
      obtain ⟨h3, h4, h5⟩ := mat_copy 0 hw h2
      rw [h1]; simp only [h3, Out.bind, Clean, isEmptyVec]
      cases w; cases m; simp_all
    | matLong m =>
      rw [from_gc, set_mat_long]
      have : ∃ w, allocate_mat_long m.nr m.nc a = matLong w ∧
          (w = .make 0 m.nr m.nc ∨ ∃ q, w = Mat.resize 0 m.nr m.nc q) := by
        cases a <;> simp [allocate_mat_long]
        exact .inr ⟨_, rfl⟩
      obtain ⟨w, h1, h2⟩ := this
      obtain ⟨h3, h4, h5⟩ := mat_copy 0 hw h2
      rw [h1]; simp only [h3, Out.bind, Clean, isEmptyVec]
      cases w; cases m; simp_all
    | matReal m =>
      rw [from_gc, set_mat_real]
      have : ∃ w, allocate_mat_real m.nr m.nc a = matReal w ∧
          (w = .make .zero m.nr m.nc ∨ ∃ q, w = Mat.resize .zero m.nr m.nc q) := by
        cases a <;> simp [allocate_mat_real]
        exact .inr ⟨_, rfl⟩
      obtain ⟨w, h1, h2⟩ := this
      obtain ⟨h3, h4, h5⟩ := mat_copy .zero hw h2
      rw [h1]; simp only [h3, Out.bind, Clean, isEmptyVec]
      cases w; cases m; simp_all
    | matComplex m =>
      rw [from_gc, set_mat_complex]
      have : ∃ w, allocate_mat_complex m.nr m.nc a = matComplex w ∧
          (w = .make .zero m.nr m.nc ∨ ∃ q, w = Mat.resize .zero m.nr m.nc q) := by
        cases a <;> simp [allocate_mat_complex]
        exact .inr ⟨_, rfl⟩
      obtain ⟨w, h1, h2⟩ := this
      obtain ⟨h3, h4, h5⟩ := mat_copy .zero hw h2
      rw [h1]; simp only [h3, Out.bind, Clean, isEmptyVec]
      cases w; cases m; simp_all
  · -- VECTOR
    intro v ih hf hw a ha
    obtain ⟨h32, hfl⟩ := Fits_vector hf
    rw [from_gc, bind_ok_inj (fun _ _ h => by simpa using h), u32_of_lt h32, Clean]
    cases v with
    | nil =>
      simp [from_gcL, allocL, isEmptyVec, CleanL]
      cases a <;> simp [oldVector, sameKindNonEmpty]
    | cons x xs =>
      have hlen : 0 < (x :: xs).length := by simp
      rw [from_gcL_iff _ _ (by rw [length_allocL _ _ _ hlen]), CleanL_iff]
      simp only [isEmptyVec, List.isEmpty_cons, Bool.false_eq_true, false_implies, true_and]
      constructor
      · intro h j y hy
        have hj : j < (x :: xs).length := by
          rcases List.getElem?_eq_some_iff.1 hy with ⟨hj, _⟩; exact hj
        have := h j y _ hy (allocL_get a.oldVector hlen hj)
        have hmem := List.mem_of_getElem? hy
        rw [Nat.zero_add, elemAt_old]
        rw [← elemAt_old] at this ⊢
        exact (ih y hmem (everyL_iff.1 hfl y hmem) (WFL_iff.1 hw y hmem) _
          (WF_elemAt ha j)).1 this
      · intro h j y z hy hz
        have hj : j < (x :: xs).length := by
          rcases List.getElem?_eq_some_iff.1 hy with ⟨hj, _⟩; exact hj
        rw [allocL_get a.oldVector hlen hj, ← elemAt_old] at hz
        simp at hz; subst hz
        have hmem := List.mem_of_getElem? hy
        have := h j y hy
        rw [Nat.zero_add] at this
        exact (ih y hmem (everyL_iff.1 hfl y hmem) (WFL_iff.1 hw y hmem) _
          (WF_elemAt ha j)).2 this
  · -- MAP
    intro m ih hf hw a ha
    obtain ⟨hnul, hfm⟩ := Fits_map hf
    have hms := hw.1
    rw [from_gc, bind_ok_inj (fun _ _ h => by simpa using h), Clean, CleanM_iff]
    constructor
    · intro h
      obtain ⟨h1, h2⟩ := from_gcM_spec m hms hnul h
      constructor
      · rintro ma rfl k hk
        apply Decidable.byContradiction
        intro hkm
        have := h1 k hkm
        rw [oldMap] at this
        have h3 : (mfind k ma).isSome := mfind_isSome.2 hk
        rw [← this] at h3
        exact hkm (mfind_isSome.1 h3)
      · intro e he
        obtain ⟨y, hy, hy'⟩ := h2 e he
        rw [mfind_of_mem hms he] at hy'
        simp at hy'; rw [← hy'] at hy
        exact (ih e he (everyM_iff.1 hfm e he) (WFM_iff.1 hw.2 e he) _ (WF_valueAt ha _)).1 hy
    · rintro ⟨h1, h2⟩
      have h3 : ∀ e ∈ m, from_gc e.2 ((mfind e.1 a.oldMap).getD notype) = .ok e.2 := fun e he =>
        (ih e he (everyM_iff.1 hfm e he) (WFM_iff.1 hw.2 e he) _ (WF_valueAt ha _)).2 (h2 e he)
      obtain ⟨w', hw'⟩ := from_gcM_ok m hms hnul (fun e he => ⟨_, h3 e he⟩)
      rw [hw']
      have hs' := from_gcM_sorted m (sorted_oldMap ha) hw'
      obtain ⟨h4, h5⟩ := from_gcM_spec m hms hnul hw'
      congr 1
      apply sorted_ext hs' hms
      intro k
      by_cases hk : k ∈ m.map Prod.fst
      · obtain ⟨e, he, rfl⟩ := List.mem_map.1 hk
        obtain ⟨y, hy, hy'⟩ := h5 e he
        rw [h3 e he] at hy
        simp at hy; subst hy
        rw [hy', mfind_of_mem hms he]
      · rw [h4 k hk]
        have hn : mfind k m = none := by
          have := mt mfind_isSome.1 hk; simpa using this
        rw [hn]
        have : ¬ (mfind k a.oldMap).isSome := by
          intro hs
          rw [mfind_isSome] at hs
          cases a <;> simp [oldMap] at hs
          exact hk (h1 _ rfl k (by simpa using hs))
        simpa using this
  · simp
  · intro x xs hx hxs b hb
    rcases List.mem_cons.1 hb with rfl | hb
    · exact hx
    · exact hxs b hb
  · simp
  · intro k x xs hx hxs b hb
    rcases List.mem_cons.1 hb with rfl | hb
    · exact hx
    · exact hxs b hb

theorem Clean_notype : ∀ b, Clean b notype := by
  refine (GC.induct (P := fun b => Clean b notype) (PL := fun v => ∀ a, a ∈ v → Clean a notype)
    (PM := fun m => ∀ e ∈ m, Clean e.2 notype) ?_ ?_ ?_ ?_ ?_ ?_ ?_).1
  · intro g hv hm
    cases g <;> simp [Clean, isEmptyVec, sameKindNonEmpty]
    · exact absurd rfl (hv _)
    · exact absurd rfl (hm _)
  · intro v ih
    simp only [Clean, sameKindNonEmpty, implies_true, true_and, CleanL_iff]
    intro j x hx
    rw [show elemAt notype (0 + j) = notype from rfl]
    exact ih x (List.mem_of_getElem? hx)
  · intro m ih
    simp only [Clean, CleanM_iff]
    refine ⟨fun ma h => by simp at h, fun e he => ?_⟩
    simpa [oldMap, mfind] using ih e he
  · simp
  · intro x xs hx hxs b hb
    rcases List.mem_cons.1 hb with rfl | hb
    · exact hx
    · exact hxs b hb
  · simp
  · intro k x xs hx hxs b hb
    rcases List.mem_cons.1 hb with rfl | hb
    · exact hx
    · exact hxs b hb

/-! ## Assignment always succeeds -/

theorem copyL_ok {α : Type} (d : α) {v w : List α} (h : v.length < 2 ^ 32) :
    ∃ r, copyL v (allocL d (u32 v.length) w) = .ok r := by
  by_cases hv : v = []
  · subst hv; exact ⟨allocL d (u32 0) w, by simp [copyL]⟩
  · exact ⟨v, copy_alloc d h (.inl hv)⟩

theorem from_gcL_ok : ∀ (v w : List GC), v.length ≤ w.length →
    (∀ x ∈ v, ∀ a, ∃ r, from_gc x a = .ok r) → ∃ r, from_gcL v w = .ok r
  | [], w, _, _ => ⟨w, rfl⟩
  | _ :: _, [], h, _ => by simp at h
  | x :: xs, y :: ys, h, hx => by
    obtain ⟨r, hr⟩ := hx x (by simp) y
    obtain ⟨s, hs⟩ := from_gcL_ok xs ys (by simpa using h) (fun x h => hx x (.tail _ h))
    exact ⟨r :: s, by simp [from_gcL, hr, hs, Out.bind]⟩

theorem from_gc_ok : ∀ b, Fits b → WF b → ∀ a, ∃ r, from_gc b a = .ok r := by
  refine (GC.induct (P := fun b => Fits b → WF b → ∀ a, ∃ r, from_gc b a = .ok r)
    (PL := fun v => ∀ b ∈ v, Fits b → WF b → ∀ a, ∃ r, from_gc b a = .ok r)
    (PM := fun m => ∀ e ∈ m, Fits e.2 → WF e.2 → ∀ a, ∃ r, from_gc e.2 a = .ok r)
    ?_ ?_ ?_ ?_ ?_ ?_ ?_).1
  · intro g hv hm hf hw a
    have key : ∀ {α : Type} (d : α) (v w : List α) (c : List α → GC), v.length < 2 ^ 32 →
        ∃ r, ((copyL v (allocL d (u32 v.length) w)).bind fun w => .ok (c w)) = Out.ok r := by
      intro α d v w c h
      obtain ⟨r, hr⟩ := copyL_ok d (w := w) h
      exact ⟨c r, by rw [hr]; rfl⟩
    cases g with
    | vector v => exact absurd rfl (hv v)
    | map m => exact absurd rfl (hm m)
    | vecPointer v => exact key _ _ _ _ (by simpa [Fits, every, fitsNode] using hf)
    | vecBool v => exact key _ _ _ _ (by simpa [Fits, every, fitsNode] using hf)
    | vecInt v => exact key _ _ _ _ (by simpa [Fits, every, fitsNode] using hf)
    | vecLong v => exact key _ _ _ _ (by simpa [Fits, every, fitsNode] using hf)
    | vecReal v => exact key _ _ _ _ (by simpa [Fits, every, fitsNode] using hf)
    | vecComplex v => exact key _ _ _ _ (by simpa [Fits, every, fitsNode] using hf)
    | vecString v => exact key _ _ _ _ (by simpa [Fits, every, fitsNode] using hf)
    | matInt m =>
      rw [from_gc, set_mat_int]
      have : ∃ w, allocate_mat_int m.nr m.nc a = matInt w ∧
          (w = .make 0 m.nr m.nc ∨ ∃ q, w = Mat.resize 0 m.nr m.nc q) := by
        cases a <;> simp [allocate_mat_int]
        exact .inr ⟨_, rfl⟩
      obtain ⟨w, h1, h2⟩ := this
      obtain ⟨h3, h4, h5⟩ := mat_copy 0 hw h2
      rw [h1]; simp [h3, Out.bind]
    | matLong m =>
      rw [from_gc, set_mat_long]
      have : ∃ w, allocate_mat_long m.nr m.nc a = matLong w ∧
          (w = .make 0 m.nr m.nc ∨ ∃ q, w = Mat.resize 0 m.nr m.nc q) := by
        cases a <;> simp [allocate_mat_long]
        exact .inr ⟨_, rfl⟩
      obtain ⟨w, h1, h2⟩ := this
      obtain ⟨h3, h4, h5⟩ := mat_copy 0 hw h2
      rw [h1]; simp [h3, Out.bind]
    | matReal m =>
      rw [from_gc, set_mat_real]
      have : ∃ w, allocate_mat_real m.nr m.nc a = matReal w ∧
          (w = .make .zero m.nr m.nc ∨ ∃ q, w = Mat.resize .zero m.nr m.nc q) := by
        cases a <;> simp [allocate_mat_real]
        exact .inr ⟨_, rfl⟩
      obtain ⟨w, h1, h2⟩ := this
      obtain ⟨h3, h4, h5⟩ := mat_copy .zero hw h2
      rw [h1]; simp [h3, Out.bind]
    | matComplex m =>
      rw [from_gc, set_mat_complex]
      have : ∃ w, allocate_mat_complex m.nr m.nc a = matComplex w ∧
          (w = .make .zero m.nr m.nc ∨ ∃ q, w = Mat.resize .zero m.nr m.nc q) := by
        cases a <;> simp [allocate_mat_complex]
        exact .inr ⟨_, rfl⟩
      obtain ⟨w, h1, h2⟩ := this
      obtain ⟨h3, h4, h5⟩ := mat_copy .zero hw h2
      rw [h1]; simp [h3, Out.bind]
    | _ => simp [from_gc]
  · intro v ih hf hw a
    obtain ⟨h32, hfl⟩ := Fits_vector hf
    rw [from_gc, u32_of_lt h32]
    obtain ⟨r, hr⟩ := from_gcL_ok v (allocL notype v.length a.oldVector) (by
        by_cases h0 : 0 < v.length
        · rw [length_allocL _ _ _ h0]; exact Nat.le_refl _
        · omega) (fun x hx =>
        ih x hx (everyL_iff.1 hfl x hx) (WFL_iff.1 hw x hx))
    exact ⟨vector r, by rw [hr]; rfl⟩
  · intro m ih hf hw a
    obtain ⟨hnul, hfm⟩ := Fits_map hf
    rw [from_gc]
    obtain ⟨w, hw'⟩ := from_gcM_ok m (w := a.oldMap) hw.1 hnul (fun e he =>
      ih e he (everyM_iff.1 hfm e he) (WFM_iff.1 hw.2 e he) _)
    exact ⟨map w, by rw [hw']; rfl⟩
  · simp
  · intro x xs hx hxs b hb
    rcases List.mem_cons.1 hb with rfl | hb
    · exact hx
    · exact hxs b hb
  · simp
  · intro k x xs hx hxs b hb
    rcases List.mem_cons.1 hb with rfl | hb
    · exact hx
    · exact hxs b hb

/-! ## `to_gc` is `from_gc` with the roles exchanged -/

mutual
theorem to_gc_eq : ∀ b a, to_gc b a = from_gc b a
  | b, a => by
    cases b <;> simp [to_gc, from_gc, to_gcL_eq, to_gcM_eq]
theorem to_gcL_eq : ∀ v w, to_gcL v w = from_gcL v w
  | [], w => by simp [to_gcL, from_gcL]
  | x :: r, [] => by simp [to_gcL, from_gcL]
  | x :: r, y :: s => by simp [to_gcL, from_gcL, to_gc_eq x, to_gcL_eq r]
theorem to_gcM_eq : ∀ m w, to_gcM m w = from_gcM m w
  | [], w => by simp [to_gcM, from_gcM]
  | (k, x) :: r, w => by simp [to_gcM, from_gcM, to_gc_eq x, to_gcM_eq r]
end

end GC
end GCV
