import Verif.Lemmas.CopyAlias

/-!
# C125: copying a container to a vector or matrix inside of it

`copyto_vec_int_at p g` is `g.copyto_vec_int( y.get_vec_int() )` where `y` is what the path `p` leads to in `g`; `p = []` is
`g.copyto_vec_int( g.get_vec_int() )`.  The result is `g` afterwards.
-/

namespace GCV
namespace GC

private theorem refuse_int (u : GC) (h : u.ty = .VECTOR ∨ u.ty = .MAP) : get_as_int u = .throw := by
  cases u <;> first | rfl | (simp [GC.ty] at h; done)

private theorem refuse_long (u : GC) (h : u.ty = .VECTOR ∨ u.ty = .MAP) : get_as_long u = .throw := by
  cases u <;> first | rfl | (simp [GC.ty] at h; done)

private theorem refuse_real (u : GC) (h : u.ty = .VECTOR ∨ u.ty = .MAP) : get_number u = .throw := by
  cases u <;> first | rfl | (simp [GC.ty] at h; done)

private theorem refuse_complex (u : GC) (h : u.ty = .VECTOR ∨ u.ty = .MAP) : get_complex_c u = .throw := by
  cases u <;> first | rfl | (simp [GC.ty] at h; done)

private theorem refuse_string (u : GC) (h : u.ty = .VECTOR ∨ u.ty = .MAP) : get_string_c u = .throw := by
  cases u <;> first | rfl | (simp [GC.ty] at h; done)

/-- **C125**: `x.copyto_vec_T( x.get_vec_T() )` empties `x`, whatever it holds, and returns. -/
theorem C125_own_vector :
    (∀ v, copyto_vec_int_at [] (vecInt v) = .ok (vecInt [])) ∧ (∀ v, copyto_vec_long_at [] (vecLong v) = .ok (vecLong [])) ∧
    (∀ v, copyto_vec_real_at [] (vecReal v) = .ok (vecReal [])) ∧
    (∀ v, copyto_vec_complex_at [] (vecComplex v) = .ok (vecComplex [])) ∧
    (∀ v, copyto_vec_string_at [] (vecString v) = .ok (vecString [])) :=
  ⟨fun _ => rfl, fun _ => rfl, fun _ => rfl, fun _ => rfl, fun _ => rfl⟩

private theorem own_matrix {β : Type} (d : β) (conv : GC → Out (List β)) (mk : Mat β → GC)
    (hv : ∀ m v, mk m ≠ vector v) (hm : ∀ m e, mk m ≠ map e) (m : Mat β) (h : m.wf = true) :
    (m.data ≠ [] → matAt d conv mk true [] (mk m) m = .ok (mk ⟨m.nr, m.nc, List.replicate m.data.length d⟩)) ∧
    (m.data = [] → matAt d conv mk true [] (mk m) m = .ub) := by
  have hlen : u32 (m.nr * m.nc) = m.data.length := by
    simp only [Mat.wf, Bool.and_eq_true, decide_eq_true_eq] at h
    unfold u32
    omega
  have hr : (m.cleared.resize d m.nr m.nc) = ⟨m.nr, m.nc, List.replicate m.data.length d⟩ := by
    simp [Mat.cleared, Mat.resize, resizeL, hlen]
  have hd : matAt d conv mk true [] (mk m) m =
      match copyN (m.cleared.resize d m.nr m.nc).data (u32 (m.nr * m.nc)) (m.cleared.resize d m.nr m.nc) with
      | .ok m => .ok (mk m)
      | .throw => .throw (mk (m.cleared.resize d m.nr m.nc))
      | .ub => .ub
      | .diverge => .diverge := by
    simp only [matAt, modAt]
    split
    · rename_i v hx; exact absurd hx (hv _ _)
    · rename_i v hx; exact absurd hx (hm _ _)
    · rfl
  rw [hd, hr, hlen]
  constructor
  · intro hne
    have h1 : List.replicate m.data.length d ≠ [] := by
      rw [ne_eq, List.replicate_eq_nil_iff, List.length_eq_zero_iff]; exact hne
    have h2 : copyN (List.replicate m.data.length d) m.data.length (⟨m.nr, m.nc, List.replicate m.data.length d⟩ : Mat β) =
        .ok ⟨m.nr, m.nc, List.replicate m.data.length d⟩ := by
      simp only [copyN]
      rw [if_neg h1, if_pos (by simp)]
      simp
    rw [h2]
  · intro h0
    rw [h0]
    simp [copyN]

/-- **C125**: `x.copyto_mat_T( x.get_mat_T() )` keeps the sizes and makes every element zero, for integers, long integers and
real numbers; for complex numbers it throws, and the elements are gone. -/
theorem C125_own_matrix :
    (∀ m, m.wf = true → m.data ≠ [] →
      copyto_mat_int_at [] (matInt m) m = .ok (matInt ⟨m.nr, m.nc, List.replicate m.data.length 0⟩)) ∧
    (∀ m, m.wf = true → m.data ≠ [] →
      copyto_mat_long_at [] (matLong m) m = .ok (matLong ⟨m.nr, m.nc, List.replicate m.data.length 0⟩)) ∧
    (∀ m, m.wf = true → m.data ≠ [] →
      copyto_mat_real_at [] (matReal m) m = .ok (matReal ⟨m.nr, m.nc, List.replicate m.data.length .zero⟩)) ∧
    (∀ m, copyto_mat_complex_at [] (matComplex m) m = .throw (matComplex ⟨m.nr, m.nc, []⟩)) :=
  ⟨fun m h => (own_matrix 0 _ matInt (by simp) (by simp) m h).1, fun m h => (own_matrix 0 _ matLong (by simp) (by simp) m h).1,
    fun m h => (own_matrix F64.zero copyto_vec_real matReal (by simp) (by simp) m h).1, fun _ => rfl⟩

/-- **C125**, a matrix without elements: `front()` of an empty vector is undefined. -/
theorem C125_own_matrix_empty :
    (∀ m, m.wf = true → m.data = [] → copyto_mat_int_at [] (matInt m) m = .ub) ∧
    (∀ m, m.wf = true → m.data = [] → copyto_mat_long_at [] (matLong m) m = .ub) ∧
    (∀ m, m.wf = true → m.data = [] → copyto_mat_real_at [] (matReal m) m = .ub) :=
  ⟨fun m h => (own_matrix 0 _ matInt (by simp) (by simp) m h).2, fun m h => (own_matrix 0 _ matLong (by simp) (by simp) m h).2,
    fun m h => (own_matrix F64.zero copyto_vec_real matReal (by simp) (by simp) m h).2⟩

/-- **C125**: the destination is a vector inside of an element: the call does what it does with a vector that is not part of
the container, and the vector inside then holds what that one would. -/
theorem C125_inside (g : GC) (hw : WF g) (p : List Sel) (hp : p ≠ []) :
    (∀ old, getAt p g = some (vecInt old) →
      copyto_vec_int_at p g = (copyto_vec_int_into g old).into fun w => modAt p (fun _ => vecInt w) g) ∧
    (∀ old, getAt p g = some (vecLong old) →
      copyto_vec_long_at p g = (copyto_vec_long_into g old).into fun w => modAt p (fun _ => vecLong w) g) ∧
    (∀ old, getAt p g = some (vecReal old) →
      copyto_vec_real_at p g = (copyto_vec_real_into g old).into fun w => modAt p (fun _ => vecReal w) g) ∧
    (∀ old, getAt p g = some (vecComplex old) →
      copyto_vec_complex_at p g = (copyto_vec_complex_into g old).into fun w => modAt p (fun _ => vecComplex w) g) ∧
    (∀ old, getAt p g = some (vecString old) →
      copyto_vec_string_at p g = (copyto_vec_string_into g old).into fun w => modAt p (fun _ => vecString w) g) := by
  cases p with
  | nil => exact absurd rfl hp
  | cons s q =>
    refine ⟨fun old h => vecAt_inside refuse_int (fun _ => rfl) hw h, fun old h => vecAt_inside refuse_long (fun _ => rfl) hw h,
      fun old h => vecAt_inside refuse_real (fun _ => rfl) hw h, fun old h => vecAt_inside refuse_complex (fun _ => rfl) hw h,
      fun old h => ?_⟩
    cases s with
    | idx j =>
      cases g <;> try (simp [getAt] at h; done)
      rename_i v
      obtain ⟨x, hj, -⟩ : ∃ x, v[j]? = some x ∧ True := by
        simp only [getAt] at h
        cases hj : v[j]? with
        | none => simp [hj] at h
        | some x => exact ⟨x, rfl, trivial⟩
      have hle : u32 v.length ≤ v.length := Nat.mod_le _ _
      have key := loopAt_vector (R := readText) (fun _ _ => rfl) refuse_string (fun _ => rfl) h hle (u32 v.length) 0 [] (Nat.add_zero _)
      rw [List.drop_zero] at key
      simp only [copyto_vec_string_at, copyto_vec_string_into, List.take_zero]
      rw [← key]
      have e : modAt (.idx j :: q) (fun _ => vecString []) (vector v) = vector (v.set j (modAt q (fun _ => vecString []) x)) := by
        simp only [modAt, hj]
      rw [e]
      simp only [List.length_set]
    | key k =>
      cases g <;> try (simp [getAt] at h; done)
      rename_i m
      simp only [getAt] at h
      cases hk : mfind k m with
      | none => simp [hk] at h
      | some x => simp only [copyto_vec_string_at, copyto_vec_string_into, List.take_zero, modAt, hk, Loop.into]

private theorem vec_not_ok {α : Type} {sc el : GC → Out α} (hel : ∀ u : GC, u.ty = .VECTOR ∨ u.ty = .MAP → el u = .throw)
    {g y : GC} (hy : el y = .throw) {s : Sel} {q : List Sel} (hg : getAt (s :: q) g = some y) (hs : sizeOk g = true) (hm : mapOk g)
    (old w : List α) : vecInto sc el g old ≠ .ok w := by
  cases s with
  | idx j =>
    cases g <;> try (simp [getAt] at hg; done)
    rename_i v
    simp only [getAt] at hg
    cases hj : v[j]? with
    | none => simp [hj] at hg
    | some x =>
      rw [hj, Option.bind_some] at hg
      have hx : el x = .throw := by
        cases q with
        | nil => simp only [getAt, Option.some.injEq] at hg; rw [hg]; exact hy
        | cons s q => exact hel _ (modAt_ty id hg).1
      have hu : u32 v.length = v.length := Nat.mod_eq_of_lt (by simpa [sizeOk] using hs)
      simp only [vecInto]
      rw [hu, List.take_length]
      exact convInto_not_ok hx _ _ (List.mem_of_getElem? hj)
  | key k =>
    cases g <;> try (simp [getAt] at hg; done)
    rename_i m
    have hne : m.length ≠ 0 := by
      intro h0
      rw [List.length_eq_zero_iff] at h0
      subst h0
      simp [getAt, mfind] at hg
    have hu : u32 m.length = m.length := Nat.mod_eq_of_lt (hm m rfl)
    simp only [vecInto, hu]
    rw [if_neg hne]
    simp

/-- **C125**: so it never returns: the element that the destination is in is not a number. -/
theorem C125_inside_never_returns (g : GC) (hw : WF g) (hs : sizeOk g = true) (hm : mapOk g) (p : List Sel) (hp : p ≠ []) :
    (∀ old g', getAt p g = some (vecInt old) → copyto_vec_int_at p g ≠ .ok g') ∧
    (∀ old g', getAt p g = some (vecLong old) → copyto_vec_long_at p g ≠ .ok g') ∧
    (∀ old g', getAt p g = some (vecReal old) → copyto_vec_real_at p g ≠ .ok g') ∧
    (∀ old g', getAt p g = some (vecComplex old) → copyto_vec_complex_at p g ≠ .ok g') ∧
    (∀ old g', getAt p g = some (vecString old) → copyto_vec_string_at p g ≠ .ok g') := by
  obtain ⟨h1, h2, h3, h4, h5⟩ := C125_inside g hw p hp
  have into : ∀ {α : Type} {r : Loop (List α)} {f : List α → GC} {g' : GC}, (∀ w, r ≠ .ok w) → r.into f ≠ .ok g' := by
    intro α r f g' h
    cases r with
    | ok w => exact absurd rfl (h w)
    | throw w => simp [Loop.into]
    | ub => simp [Loop.into]
    | diverge => simp [Loop.into]
  cases p with
  | nil => exact absurd rfl hp
  | cons s q =>
    refine ⟨fun old g' h => ?_, fun old g' h => ?_, fun old g' h => ?_, fun old g' h => ?_, fun old g' h => ?_⟩
    · rw [h1 old h]; exact into fun w => vec_not_ok refuse_int rfl h hs hm old w
    · rw [h2 old h]; exact into fun w => vec_not_ok refuse_long rfl h hs hm old w
    · rw [h3 old h]; exact into fun w => vec_not_ok refuse_real rfl h hs hm old w
    · rw [h4 old h]; exact into fun w => vec_not_ok refuse_complex rfl h hs hm old w
    · rw [h5 old h]
      refine into fun w => ?_
      have := vec_not_ok (sc := get_string_c) refuse_string rfl h hs hm old w
      cases g <;> first | (cases s <;> simp [getAt] at h; done) | (simp [copyto_vec_string_into]; done) | exact this

/-- **C125**: the destination is a matrix inside of an element: the call does what it does with a matrix that is not part of the
container, for the container in which the matrix has lost its elements. -/
theorem C125_inside_matrix (g : GC) (hs : sizeOk g = true) (p : List Sel) (hp : p ≠ []) :
    (∀ m, getAt p g = some (matInt m) → copyto_mat_int_at p g m =
      (copyto_mat_int_into (modAt p (fun _ => matInt (hollow m)) g) m).into fun m' => modAt p (fun _ => matInt m') g) ∧
    (∀ m, getAt p g = some (matLong m) → copyto_mat_long_at p g m =
      (copyto_mat_long_into (modAt p (fun _ => matLong (hollow m)) g) m).into fun m' => modAt p (fun _ => matLong m') g) ∧
    (∀ m, getAt p g = some (matReal m) → copyto_mat_real_at p g m =
      (copyto_mat_real_into (modAt p (fun _ => matReal (hollow m)) g) m).into fun m' => modAt p (fun _ => matReal m') g) ∧
    (∀ m, getAt p g = some (matComplex m) → copyto_mat_complex_at p g m =
      (copyto_mat_complex_into (modAt p (fun _ => matComplex (hollow m)) g) m).into fun m' => modAt p (fun _ => matComplex m') g) := by
  cases p with
  | nil => exact absurd rfl hp
  | cons s q =>
    exact ⟨fun m h => matAt_inside 0 I32.ofBool copyto_mat_int true refuse_int (fun _ => rfl)
        (fun m h => by simp [copyToVec, h, convLoop]) (fun m h => by simp [get_num_elements, h, u32]) (fun _ => rfl) hs h,
      fun m h => matAt_inside 0 I64.ofBool copyto_mat_long true refuse_long (fun _ => rfl)
        (fun m h => by simp [copyToVec, h, convLoop]) (fun m h => by simp [get_num_elements, h, u32]) (fun _ => rfl) hs h,
      fun m h => matAt_inside (sc := copyReal) F64.zero F64.ofBool copyto_mat_real true refuse_real (fun _ => rfl)
        (fun m h => by simp [copyToVec, h, convLoop]) (fun m h => by simp [get_num_elements, h, u32]) (fun _ => rfl) hs h,
      fun m h => matAt_inside (sc := copyComplex) Cplx.zero (fun b => .ofReal (F64.ofBool b)) copyto_mat_complex false refuse_complex (fun _ => rfl)
        (fun m h => by simp [copyToVec, h, convLoop]) (fun m h => by simp [get_num_elements, h, u32]) (fun _ => rfl) hs h⟩

private theorem columns_differ {β : Type} (d : β) (conv : GC → Out (List β)) {v : List GC} (m : Mat β) (hv : v.length < 2 ^ 32)
    {a b : GC} (ha : a ∈ v) (hb : b ∈ v) (hab : a.get_num_elements ≠ b.get_num_elements) : columnsInto d conv v m = .throw m := by
  have hu : u32 v.length = v.length := Nat.mod_eq_of_lt hv
  rw [columnsInto, hu, List.take_length]
  cases v with
  | nil => rfl
  | cons x r =>
    simp only []
    rw [if_neg]
    intro hall
    have key : ∀ y ∈ x :: r, y.get_num_elements = x.get_num_elements := fun y hy => by
      rcases List.mem_cons.1 hy with rfl | hy
      · rfl
      · exact beq_iff_eq.1 (List.all_eq_true.1 hall y hy)
    exact hab ((key a ha).trans (key b hb).symm)

/-- **C125**: `x.copyto_mat_T( x[j].get_mat_T() )` of a vector with another element that has elements: the matrix `x[j]`, being
empty by then, is a column of another length.  The call throws and the matrix is left with its sizes and no elements. -/
theorem C125_column (v : List GC) (hv : v.length < 2 ^ 32) (i j : Nat) (hij : i ≠ j) (a : GC) (hi : v[i]? = some a)
    (ha : a.get_num_elements ≠ 0) :
    (∀ m, v[j]? = some (matInt m) → copyto_mat_int_at [.idx j] (vector v) m = .throw (vector (v.set j (matInt ⟨m.nr, m.nc, []⟩)))) ∧
    (∀ m, v[j]? = some (matLong m) →
      copyto_mat_long_at [.idx j] (vector v) m = .throw (vector (v.set j (matLong ⟨m.nr, m.nc, []⟩)))) ∧
    (∀ m, v[j]? = some (matReal m) →
      copyto_mat_real_at [.idx j] (vector v) m = .throw (vector (v.set j (matReal ⟨m.nr, m.nc, []⟩)))) ∧
    (∀ m, v[j]? = some (matComplex m) →
      copyto_mat_complex_at [.idx j] (vector v) m = .throw (vector (v.set j (matComplex ⟨m.nr, m.nc, []⟩)))) := by
  obtain ⟨h1, h2, h3, h4⟩ := C125_inside_matrix (vector v) (by simpa [sizeOk] using hv) [.idx j] (by simp)
  have key : ∀ {β : Type} (d : β) (conv : GC → Out (List β)) (m : Mat β) (y z : GC), v[j]? = some z → y.get_num_elements = 0 →
      columnsInto d conv (v.set j y) m = .throw m := fun d conv m y z hz hy => by
    have hj : j < v.length := (List.getElem?_eq_some_iff.1 hz).1
    refine columns_differ d conv m (by rw [List.length_set]; exact hv) (a := a) (b := y) ?_ (List.mem_set hj _) (by rw [hy]; exact ha)
    refine List.mem_of_getElem? (i := i) ?_
    rw [List.getElem?_set_ne (Ne.symm hij)]
    exact hi
  have hg : ∀ y, v[j]? = some y → getAt [.idx j] (vector v) = some y := fun y hy => by simp [getAt, hy]
  refine ⟨fun m h => ?_, fun m h => ?_, fun m h => ?_, fun m h => ?_⟩
  · rw [h1 m (hg _ h)]
    simp only [modAt, h, copyto_mat_int_into, matInto, key _ _ _ _ _ h (show (matInt (hollow m)).get_num_elements = 0 from rfl), Loop.into]
    rfl
  · rw [h2 m (hg _ h)]
    simp only [modAt, h, copyto_mat_long_into, matInto, key _ _ _ _ _ h (show (matLong (hollow m)).get_num_elements = 0 from rfl), Loop.into]
    rfl
  · rw [h3 m (hg _ h)]
    simp only [modAt, h, copyto_mat_real_into, matInto, key _ _ _ _ _ h (show (matReal (hollow m)).get_num_elements = 0 from rfl), Loop.into]
    rfl
  · rw [h4 m (hg _ h)]
    simp only [modAt, h, copyto_mat_complex_into, matInto, key _ _ _ _ _ h (show (matComplex (hollow m)).get_num_elements = 0 from rfl), Loop.into]
    rfl

/-! ## Calls the theorems are about -/

/-- `g.copyto_vec_int( g[1].get_vec_int() )`, `g = [ 7, { 1, 2 }, 8 ]` -/
example : copyto_vec_int_at [.idx 1] (vector [int 7, vecInt [1, 2], int 8]) = .throw (vector [int 7, vecInt [7], int 8]) := by
  rw [(C125_inside _ (by simp [WF, WFL]) [.idx 1] (by simp)).1 [1, 2] rfl]
  rfl

/-- The destination is in a map of an element: `g = [ 7, { "a": { 1, 2 } } ]` -/
example : copyto_vec_int_at [.idx 1, .key [97]] (vector [int 7, map [([97], vecInt [1, 2])]]) =
    .throw (vector [int 7, map [([97], vecInt [7])]]) := by
  rw [(C125_inside _ (by simp [WF, WFL, WFM, KeysSorted]) [.idx 1, .key [97]] (by simp)).1 [1, 2] rfl]
  rfl

example : ∀ g', copyto_vec_int_at [.idx 1] (vector [int 7, vecInt [1, 2], int 8]) ≠ .ok g' := fun g' =>
  (C125_inside_never_returns _ (by simp [WF, WFL]) rfl (by intro m h; cases h) [.idx 1] (by simp)).1 [1, 2] g' rfl

/-- `g.copyto_mat_int( g.get_mat_int() )` -/
example : copyto_mat_int_at [] (matInt ⟨2, 1, [5, 6]⟩) ⟨2, 1, [5, 6]⟩ = .ok (matInt ⟨2, 1, [0, 0]⟩) :=
  C125_own_matrix.1 _ (by decide) (by decide)

example : copyto_mat_int_at [] (matInt ⟨0, 3, []⟩) ⟨0, 3, []⟩ = .ub :=
  C125_own_matrix_empty.1 _ (by decide) rfl

/-- `g.copyto_mat_int( g[1].get_mat_int() )`, `g = [ { 1, 2 }, a matrix ]`: refused, and the matrix has sizes and no elements. -/
example : copyto_mat_int_at [.idx 1] (vector [vecInt [1, 2], matInt ⟨2, 1, [5, 6]⟩]) ⟨2, 1, [5, 6]⟩ =
    .throw (vector [vecInt [1, 2], matInt ⟨2, 1, []⟩]) := by
  rw [(C125_inside_matrix _ rfl [.idx 1] (by simp)).1 _ rfl]
  rfl

example : copyto_mat_int_at [.idx 1] (vector [vecInt [1, 2], matInt ⟨2, 1, [5, 6]⟩]) ⟨2, 1, [5, 6]⟩ =
    .throw (vector [vecInt [1, 2], matInt ⟨2, 1, []⟩]) :=
  (C125_column _ (by decide) 0 1 (by decide) (vecInt [1, 2]) rfl (by decide)).1 _ rfl

/-- With columns that have no elements it returns. -/
example : copyto_mat_int_at [.idx 1] (vector [vecInt [], matInt ⟨2, 1, [5, 6]⟩]) ⟨2, 1, [5, 6]⟩ =
    .ok (vector [vecInt [], matInt ⟨0, 2, []⟩]) := by
  rw [(C125_inside_matrix _ rfl [.idx 1] (by simp)).1 _ rfl]
  rfl

end GC
end GCV
