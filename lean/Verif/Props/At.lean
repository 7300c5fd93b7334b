import Verif.Props.Promote
import Verif.Props.Matrix

/-! # C27: positional access on mutable containers; C13 for mutable containers -/

namespace GCV
namespace GC

open F64

/-! ## C27 -/

/-- Element `j` of `v` when `v` is filled up with `d` until it has an element `i`. -/
def grownAt {α : Type} (d : α) (v : List α) (i j : Nat) : Option α :=
  if j < v.length then v[j]? else if j ≤ i then some d else none

/-- What the property asks of an access `at i upd` (`upd` being what is done through the
reference) to a container `up v` with elements `v`: it finds element `i` (or `d` if there was
none), afterwards `i` is as the caller left it and all other elements are as before. -/
def AtSpec {α : Type} (d : α) (up : List α → GC) (v : List α) (i : Nat) (upd : α → α)
    (r : Res α) : Prop :=
  ∃ w x, r = .ok (up w) x ∧ grownAt d v i i = some x ∧ w[i]? = some (upd x) ∧
    w.length = max v.length (i + 1) ∧ ∀ j, j ≠ i → w[j]? = grownAt d v i j

theorem checkResize_spec {α : Type} (d : α) (i : Nat) (v : List α) (h : i + 1 < 2 ^ 32) :
    (checkResize d i v).length = max v.length (i + 1) ∧
    ∀ j, (checkResize d i v)[j]? = grownAt d v i j := by
  unfold checkResize grownAt
  split
  · rename_i hle
    rw [u32_of_lt h]
    unfold resizeL
    constructor
    · simp; omega
    · intro j
      rw [List.take_of_length_le (by omega)]
      by_cases hj : j < v.length
      · rw [List.getElem?_append_left hj, if_pos hj]
      · rw [List.getElem?_append_right (by omega), if_neg hj]
        by_cases hj' : j ≤ i
        · rw [if_pos hj']; simp [List.getElem?_replicate]; omega
        · rw [if_neg hj']; simp [List.getElem?_replicate]; omega
  · rename_i hlt
    constructor
    · omega
    · intro j
      by_cases hj : j < v.length
      · rw [if_pos hj]
      · rw [if_neg hj, if_neg (by omega)]; simp; omega

theorem refAt_spec {α : Type} (d : α) (up : List α → GC) (v : List α) (i : Nat) (upd : α → α)
    (h : i + 1 < 2 ^ 32) : AtSpec d up v i upd (refAt d up v i upd) := by
  obtain ⟨h1, h2⟩ := checkResize_spec d i v h
  have hx : i < (checkResize d i v).length := by omega
  refine ⟨(checkResize d i v).set i (upd ((checkResize d i v)[i])), (checkResize d i v)[i], ?_, ?_, ?_, ?_, ?_⟩
  · simp only [refAt, List.getElem?_eq_getElem hx]
  · rw [← h2, List.getElem?_eq_getElem hx]
  · simp [hx]
  · simp [h1]
  · intro j hj
    rw [List.getElem?_set_ne (fun e => hj e.symm), h2]

/-- **C27**: `get_T_at(i)` on a vector of T, for every T.  Partial: not for vectors of
containers (see the negation) and not for the index 2^32-1. -/
theorem C27_at_partial (i : Nat) (h : i + 1 < 2 ^ 32) :
    (∀ v, AtSpec false vecBool v i id (get_bool_at i (vecBool v))) ∧
    (∀ v upd, AtSpec 0 vecInt v i upd (get_int_at i upd (vecInt v))) ∧
    (∀ v upd, AtSpec 0 vecLong v i upd (get_long_at i upd (vecLong v))) ∧
    (∀ v upd, AtSpec .zero vecReal v i upd (get_real_at i upd (vecReal v))) ∧
    (∀ v upd, AtSpec .zero vecComplex v i upd (get_complex_at i upd (vecComplex v))) ∧
    (∀ v upd, AtSpec [] vecString v i upd (get_string_at i upd (vecString v))) :=
  ⟨fun v => refAt_spec _ _ v i _ h, fun v _ => refAt_spec _ _ v i _ h,
    fun v _ => refAt_spec _ _ v i _ h, fun v _ => refAt_spec _ _ v i _ h,
    fun v _ => refAt_spec _ _ v i _ h, fun v _ => refAt_spec _ _ v i _ h⟩

/-- An empty container behaves as an empty vector of T. -/
theorem C27_at_empty (i : Nat) (h : i + 1 < 2 ^ 32) :
    AtSpec false vecBool [] i id (get_bool_at i notype) ∧
    (∀ upd, AtSpec 0 vecInt [] i upd (get_int_at i upd notype)) ∧
    (∀ upd, AtSpec 0 vecLong [] i upd (get_long_at i upd notype)) ∧
    (∀ upd, AtSpec .zero vecReal [] i upd (get_real_at i upd notype)) ∧
    (∀ upd, AtSpec .zero vecComplex [] i upd (get_complex_at i upd notype)) ∧
    (∀ upd, AtSpec [] vecString [] i upd (get_string_at i upd notype)) :=
  ⟨refAt_spec _ _ _ i _ h, fun _ => refAt_spec _ _ _ i _ h,
    fun _ => refAt_spec _ _ _ i _ h, fun _ => refAt_spec _ _ _ i _ h,
    fun _ => refAt_spec _ _ _ i _ h, fun _ => refAt_spec _ _ _ i _ h⟩

/-- Narrower vectors are widened first, element by element. -/
theorem C27_at_widening (i : Nat) (h : i + 1 < 2 ^ 32) :
    (∀ v : List Bool, v.length < 2 ^ 32 → ∀ upd,
      AtSpec 0 vecInt (v.map I32.ofBool) i upd (get_int_at i upd (vecBool v))) ∧
    (∀ v : List Bool, v.length < 2 ^ 32 → ∀ upd,
      AtSpec 0 vecLong (v.map I64.ofBool) i upd (get_long_at i upd (vecBool v))) ∧
    (∀ v : List I32, v.length < 2 ^ 32 → ∀ upd,
      AtSpec 0 vecLong (v.map I32.toI64) i upd (get_long_at i upd (vecInt v))) ∧
    (∀ v : List Bool, v.length < 2 ^ 32 → ∀ upd,
      AtSpec .zero vecReal (v.map F64.ofBool) i upd (get_real_at i upd (vecBool v))) ∧
    (∀ v : List I32, v.length < 2 ^ 32 → ∀ upd,
      AtSpec .zero vecReal (v.map F64.ofI32) i upd (get_real_at i upd (vecInt v))) ∧
    (∀ v : List I64, v.length < 2 ^ 32 → ∀ upd,
      AtSpec .zero vecReal (v.map F64.ofI64) i upd (get_real_at i upd (vecLong v))) ∧
    (∀ v : List Bool, v.length < 2 ^ 32 → ∀ upd,
      AtSpec .zero vecComplex (v.map (fun b => .ofReal (F64.ofBool b))) i upd (get_complex_at i upd (vecBool v))) ∧
    (∀ v : List I32, v.length < 2 ^ 32 → ∀ upd,
      AtSpec .zero vecComplex (v.map (fun i => .ofReal (F64.ofI32 i))) i upd (get_complex_at i upd (vecInt v))) ∧
    (∀ v : List I64, v.length < 2 ^ 32 → ∀ upd,
      AtSpec .zero vecComplex (v.map (fun l => .ofReal (F64.ofI64 l))) i upd (get_complex_at i upd (vecLong v))) ∧
    (∀ v : List F64, v.length < 2 ^ 32 → ∀ upd,
      AtSpec .zero vecComplex (v.map Cplx.ofReal) i upd (get_complex_at i upd (vecReal v))) := by
  refine ⟨?_, ?_, ?_, ?_, ?_, ?_, ?_, ?_, ?_, ?_⟩ <;> intro v hv upd
  · simp only [get_int_at, promote_to_vec_int, become_refill _ _ _ hv]
    exact refAt_spec _ _ _ i _ h
  · simp only [get_long_at, promote_to_vec_long, become_refill _ _ _ hv]
    exact refAt_spec _ _ _ i _ h
  · simp only [get_long_at, promote_to_vec_long, become_refill _ _ _ hv]
    exact refAt_spec _ _ _ i _ h
  · simp only [get_real_at, promote_to_vec_real, become_refill _ _ _ hv]
    exact refAt_spec _ _ _ i _ h
  · simp only [get_real_at, promote_to_vec_real, become_refill _ _ _ hv]
    exact refAt_spec _ _ _ i _ h
  · simp only [get_real_at, promote_to_vec_real, become_refill _ _ _ hv]
    exact refAt_spec _ _ _ i _ h
  · simp only [get_complex_at, promote_to_vec_complex, become_refill _ _ _ hv]
    exact refAt_spec _ _ _ i _ h
  · simp only [get_complex_at, promote_to_vec_complex, become_refill _ _ _ hv]
    exact refAt_spec _ _ _ i _ h
  · simp only [get_complex_at, promote_to_vec_complex, become_refill _ _ _ hv]
    exact refAt_spec _ _ _ i _ h
  · simp only [get_complex_at, promote_to_vec_complex, become_refill _ _ _ hv]
    exact refAt_spec _ _ _ i _ h

theorem refAt_write {α : Type} (d : α) (up : List α → GC) (v : List α) (i : Nat) (y : α)
    (h : i + 1 < 2 ^ 32) : ∃ w x, refAt d up v i (fun _ => y) = .ok (up w) x ∧ w[i]? = some y := by
  obtain ⟨w, x, h1, _, h3, _⟩ := refAt_spec d up v i (fun _ => y) h
  exact ⟨w, x, h1, h3⟩

/-- **C27**, write then read: a value written with `get_T_at(i) = y` is what the const
`get_T_at(i)` then returns. -/
theorem C27_write_read (i : Nat) (h : i + 1 < 2 ^ 32) :
    (∀ v y, ∃ g' x, get_int_at i (fun _ => y) (vecInt v) = .ok g' x ∧ get_int_at_c i g' = .ok y) ∧
    (∀ v y, ∃ g' x, get_long_at i (fun _ => y) (vecLong v) = .ok g' x ∧ get_long_at_c i g' = .ok y) ∧
    (∀ v y, ∃ g' x, get_real_at i (fun _ => y) (vecReal v) = .ok g' x ∧ get_real_at_c i g' = .ok y) ∧
    (∀ v y, ∃ g' x, get_complex_at i (fun _ => y) (vecComplex v) = .ok g' x ∧
      get_complex_at_c i g' = .ok y) ∧
    (∀ v y, ∃ g' x, get_string_at i (fun _ => y) (vecString v) = .ok g' x ∧
      get_string_at_c i g' = .ok y) := by
  refine ⟨?_, ?_, ?_, ?_, ?_⟩ <;> intro v y
  · obtain ⟨w, x, h1, h2⟩ := refAt_write 0 vecInt v i y h
    exact ⟨_, _, h1, by simp [get_int_at_c, checkedAt, h2]⟩
  · obtain ⟨w, x, h1, h2⟩ := refAt_write 0 vecLong v i y h
    exact ⟨_, _, h1, by simp [get_long_at_c, checkedAt, h2]⟩
  · obtain ⟨w, x, h1, h2⟩ := refAt_write .zero vecReal v i y h
    exact ⟨_, _, h1, by simp [get_real_at_c, checkedAt, h2]⟩
  · obtain ⟨w, x, h1, h2⟩ := refAt_write .zero vecComplex v i y h
    exact ⟨_, _, h1, by simp [get_complex_at_c, checkedAt, h2]⟩
  · obtain ⟨w, x, h1, h2⟩ := refAt_write [] vecString v i y h
    exact ⟨_, _, h1, by simp [get_string_at_c, checkedAt, h2]⟩

theorem refAt_read {α : Type} (d : α) (up : List α → GC) (v : List α) (i : Nat) (hi : i < v.length) :
    refAt d up v i id = .ok (up v) v[i] := by
  have : checkResize d i v = v := by rw [checkResize, if_neg (by omega)]
  simp only [refAt, this, List.getElem?_eq_getElem hi]
  simp

/-- **C27**, read: reading an element the vector has does not change the container. -/
theorem C27_read_partial (i : Nat) :
    (∀ v (hi : i < v.length), get_bool_at i (vecBool v) = .ok (vecBool v) v[i]) ∧
    (∀ v (hi : i < v.length), get_int_at i id (vecInt v) = .ok (vecInt v) v[i]) ∧
    (∀ v (hi : i < v.length), get_long_at i id (vecLong v) = .ok (vecLong v) v[i]) ∧
    (∀ v (hi : i < v.length), get_real_at i id (vecReal v) = .ok (vecReal v) v[i]) ∧
    (∀ v (hi : i < v.length), get_complex_at i id (vecComplex v) = .ok (vecComplex v) v[i]) ∧
    (∀ v (hi : i < v.length), get_string_at i id (vecString v) = .ok (vecString v) v[i]) :=
  ⟨fun v h => refAt_read _ _ v i h, fun v h => refAt_read _ _ v i h, fun v h => refAt_read _ _ v i h,
    fun v h => refAt_read _ _ v i h, fun v h => refAt_read _ _ v i h, fun v h => refAt_read _ _ v i h⟩

example : get_int_at 3 (fun _ => 7) (vecInt [1, 2]) = .ok (vecInt [1, 2, 0, 7]) 0 ∧
    get_int_at 1 id (vecInt [1, 2]) = .ok (vecInt [1, 2]) 2 := ⟨rfl, rfl⟩

/-- But reading element `i` of a vector of containers with `get_int_at(i)` (the same holds for
the other types) overwrites it with zero and returns zero, whatever was there. -/
theorem C27_vector_negation (v : List GC) (i : Nat) (hi : i < v.length) :
    get_int_at i id (vector v) = .ok (vector (v.set i (int 0))) 0 ∧
    get_real_at i id (vector v) = .ok (vector (v.set i (real .zero))) .zero ∧
    get_string_at i id (vector v) = .ok (vector (v.set i (string []))) [] := by
  have : checkResize notype i v = v := by rw [checkResize, if_neg (by omega)]
  simp [get_int_at, get_real_at, get_string_at, refAtVector, promote_to_vector, Res.bind, this, hi]

/-- At index 2^32-1 the growth wraps to no elements, and the access is undefined. -/
theorem C27_wrap_negation (v : List I32) (hv : v.length < 2 ^ 32) :
    get_int_at (2 ^ 32 - 1) id (vecInt v) = .ub := by
  have : checkResize (0 : I32) (2 ^ 32 - 1) v = [] := by
    rw [checkResize, if_pos (by omega), show u32 (2 ^ 32 - 1 + 1) = 0 from by decide]
    simp [resizeL]
  simp only [get_int_at, refAt, this]
  rfl

/-! ## C13, mutable containers -/

theorem refAt2_spec {α : Type} (up : Mat α → GC) (m : Mat α) (h : m.wf = true)
    (hc : m.nr * m.nc < 2 ^ 32) (i j : Nat) (hi : i < m.nr) (hj : j < m.nc) (upd : α → α) :
    ∃ m' x, refAt2 up m i j upd = .ok (up m') x ∧ m.cell i j = some x ∧
      m'.nr = m.nr ∧ m'.nc = m.nc ∧ m'.cell i j = some (upd x) ∧
      ∀ i' j', (i', j') ≠ (i, j) → m'.cell i' j' = m.cell i' j' := by
  obtain ⟨x, h1, h2⟩ := Mat.get_eq h hc hi hj
  have hl : j * m.nr + i < m.data.length := by rw [Mat.wf_length h hc]; exact Mat.index_lt hi hj
  have hidx := Mat.index_eq hc hi hj
  refine ⟨{ m with data := m.data.set (j * m.nr + i) (upd x) }, x, ?_, h1, rfl, rfl, ?_, ?_⟩
  · simp only [refAt2, h2, Mat.set, hidx, if_pos hl]
  · rw [Mat.cell, if_pos ⟨hi, hj⟩]; simp [hl]
  · intro i' j' hne
    simp only [Mat.cell]
    by_cases hr : i' < m.nr ∧ j' < m.nc
    · rw [if_pos hr, if_pos hr]
      apply List.getElem?_set_ne
      intro e
      obtain ⟨e1, e2⟩ := Mat.index_inj hi hr.1 e
      exact hne (by rw [e1, e2])
    · rw [if_neg hr, if_neg hr]

/-- **C13**, mutable `get_T_at(i,j)` on a matrix of T: in range it gives cell (i,j), changes no
other cell and no size.  Partial: out of range see `C13_mutable_throws_partial`. -/
theorem C13_mutable_partial (i j : Nat) :
    (∀ (m : Mat I32) upd, m.wf = true → m.nr * m.nc < 2 ^ 32 → i < m.nr → j < m.nc →
      ∃ m' x, get_int_at2 i j upd (matInt m) = .ok (matInt m') x ∧ m.cell i j = some x ∧
        m'.nr = m.nr ∧ m'.nc = m.nc ∧ m'.cell i j = some (upd x) ∧
        ∀ i' j', (i', j') ≠ (i, j) → m'.cell i' j' = m.cell i' j') ∧
    (∀ (m : Mat I64) upd, m.wf = true → m.nr * m.nc < 2 ^ 32 → i < m.nr → j < m.nc →
      ∃ m' x, get_long_at2 i j upd (matLong m) = .ok (matLong m') x ∧ m.cell i j = some x ∧
        m'.nr = m.nr ∧ m'.nc = m.nc ∧ m'.cell i j = some (upd x) ∧
        ∀ i' j', (i', j') ≠ (i, j) → m'.cell i' j' = m.cell i' j') ∧
    (∀ (m : Mat F64) upd, m.wf = true → m.nr * m.nc < 2 ^ 32 → i < m.nr → j < m.nc →
      ∃ m' x, get_real_at2 i j upd (matReal m) = .ok (matReal m') x ∧ m.cell i j = some x ∧
        m'.nr = m.nr ∧ m'.nc = m.nc ∧ m'.cell i j = some (upd x) ∧
        ∀ i' j', (i', j') ≠ (i, j) → m'.cell i' j' = m.cell i' j') ∧
    (∀ (m : Mat Cplx) upd, m.wf = true → m.nr * m.nc < 2 ^ 32 → i < m.nr → j < m.nc →
      ∃ m' x, get_complex_at2 i j upd (matComplex m) = .ok (matComplex m') x ∧ m.cell i j = some x ∧
        m'.nr = m.nr ∧ m'.nc = m.nc ∧ m'.cell i j = some (upd x) ∧
        ∀ i' j', (i', j') ≠ (i, j) → m'.cell i' j' = m.cell i' j') :=
  ⟨fun m upd h hc hi hj => refAt2_spec matInt m h hc i j hi hj upd,
    fun m upd h hc hi hj => refAt2_spec matLong m h hc i j hi hj upd,
    fun m upd h hc hi hj => refAt2_spec matReal m h hc i j hi hj upd,
    fun m upd h hc hi hj => refAt2_spec matComplex m h hc i j hi hj upd⟩

theorem refAt2_throw {α : Type} (up : Mat α → GC) (m : Mat α) (i j : Nat) (upd : α → α)
    (h : m.data.length ≤ (i + j * m.nr) % 2 ^ 32) : refAt2 up m i j upd = .throw (up m) := by
  have := ((C13_unchecked_partial m i j).2).2 h
  simp only [refAt2, this]

/-- When the flat position is past the end the call throws and the matrix is as before.  Partial:
a row index past the end with a flat position inside does not throw (`C13_mutable_negation`). -/
theorem C13_mutable_throws_partial (i j : Nat) :
    (∀ (m : Mat I32) upd, m.data.length ≤ (i + j * m.nr) % 2 ^ 32 →
      get_int_at2 i j upd (matInt m) = .throw (matInt m)) ∧
    (∀ (m : Mat I64) upd, m.data.length ≤ (i + j * m.nr) % 2 ^ 32 →
      get_long_at2 i j upd (matLong m) = .throw (matLong m)) ∧
    (∀ (m : Mat F64) upd, m.data.length ≤ (i + j * m.nr) % 2 ^ 32 →
      get_real_at2 i j upd (matReal m) = .throw (matReal m)) ∧
    (∀ (m : Mat Cplx) upd, m.data.length ≤ (i + j * m.nr) % 2 ^ 32 →
      get_complex_at2 i j upd (matComplex m) = .throw (matComplex m)) :=
  ⟨fun m upd h => refAt2_throw _ m i j upd h, fun m upd h => refAt2_throw _ m i j upd h,
    fun m upd h => refAt2_throw _ m i j upd h, fun m upd h => refAt2_throw _ m i j upd h⟩

example : get_int_at2 1 2 (fun x => x + 1) (matInt Mat.m23) =
    .ok (matInt ⟨2, 3, [10, 20, 11, 21, 12, 23]⟩) 22 ∧
    get_int_at2 0 3 id (matInt Mat.m23) = .throw (matInt Mat.m23) := ⟨rfl, rfl⟩

/-- Writing row 2 of a matrix of 2 rows changes row 0 of the next column. -/
theorem C13_mutable_negation : get_int_at2 2 0 (fun _ => 99) (matInt Mat.m23) =
    .ok (matInt ⟨2, 3, [10, 20, 99, 21, 12, 22]⟩) 11 := rfl

end GC
end GCV
