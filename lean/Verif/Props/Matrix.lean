import Verif.Spec.Cell
import Verif.Model.Convert
import Verif.Spec.Tree
import Verif.Lemmas.Map

/-!
# C12, C13: matrices; C28: const positional access
-/

namespace GCV

namespace Mat

theorem index_lt {nr nc i j : Nat} (hi : i < nr) (hj : j < nc) : j * nr + i < nr * nc := by
  have h : (j + 1) * nr ≤ nc * nr := Nat.mul_le_mul_right _ hj
  rw [Nat.succ_mul] at h
  rw [Nat.mul_comm nr nc]; omega

theorem index_inj {nr i j i' j' : Nat} (hi : i < nr) (hi' : i' < nr)
    (h : j * nr + i = j' * nr + i') : i = i' ∧ j = j' := by
  have h1 : (j * nr + i) % nr = i := by rw [Nat.mul_comm, Nat.mul_add_mod, Nat.mod_eq_of_lt hi]
  have h2 : (j' * nr + i') % nr = i' := by
    rw [Nat.mul_comm, Nat.mul_add_mod, Nat.mod_eq_of_lt hi']
  have h3 : i = i' := by rw [← h1, ← h2, h]
  refine ⟨h3, ?_⟩
  subst h3
  have : j * nr = j' * nr := by omega
  exact Nat.eq_of_mul_eq_mul_right (by omega) this

/-- Well-formed with a true (unwrapped) number of cells. -/
theorem wf_length {α : Type} {m : Mat α} (h : m.wf = true) (hc : m.nr * m.nc < 2 ^ 32) :
    m.data.length = m.nr * m.nc := by
  unfold wf at h
  simp only [Bool.and_eq_true, decide_eq_true_eq] at h
  rw [h.2, Nat.mod_eq_of_lt hc]

theorem index_eq {α : Type} {m : Mat α} (hc : m.nr * m.nc < 2 ^ 32) {i j : Nat}
    (hi : i < m.nr) (hj : j < m.nc) : m.index i j = j * m.nr + i := by
  have := index_lt hi hj
  unfold index u32
  rw [Nat.mod_eq_of_lt (by omega)]; omega

theorem get_of_data {α : Type} {m : Mat α} {i j k : Nat} (e : m.index i j = k) :
    m.get i j = match m.data[k]? with | some a => .ok a | none => .throw := by
  rw [get, e]; cases m.data[k]? <;> rfl

theorem get_eq {α : Type} {m : Mat α} (h : m.wf = true) (hc : m.nr * m.nc < 2 ^ 32) {i j : Nat}
    (hi : i < m.nr) (hj : j < m.nc) : ∃ x, m.cell i j = some x ∧ m.get i j = .ok x := by
  have hl : j * m.nr + i < m.data.length := by rw [wf_length h hc]; exact index_lt hi hj
  refine ⟨m.data[j * m.nr + i], ?_, ?_⟩
  · rw [cell, if_pos ⟨hi, hj⟩, List.getElem?_eq_getElem hl]
  · rw [get_of_data (index_eq hc hi hj), List.getElem?_eq_getElem hl]

/-! ## C12 Matrix cells are independent

Missing for the full statement: matrices with 2^32 cells or more, whose 32 bit element count
wraps (`C12_wrap_negation`). -/

/-- In range, `m(i,j)` reads cell `(i,j)`; after `m(i,j) = x` it reads `x`, and every other
cell reads as before. -/
theorem C12_cells_partial {α : Type} (m : Mat α) (h : m.wf = true) (hc : m.nr * m.nc < 2 ^ 32)
    (i j : Nat) (hi : i < m.nr) (hj : j < m.nc) (x : α) :
    (∃ y, m.cell i j = some y ∧ m.get i j = .ok y) ∧
    ∃ m', m.set i j x = .ok m' ∧ m'.nr = m.nr ∧ m'.nc = m.nc ∧ m'.wf = true ∧
      m'.get i j = .ok x ∧
      ∀ i' j', i' < m.nr → j' < m.nc → (i', j') ≠ (i, j) → m'.get i' j' = m.get i' j' := by
  have hl : j * m.nr + i < m.data.length := by rw [wf_length h hc]; exact index_lt hi hj
  have hidx := index_eq hc hi hj
  refine ⟨get_eq h hc hi hj, { m with data := m.data.set (j * m.nr + i) x }, ?_, rfl, rfl, ?_, ?_, ?_⟩
  · rw [set, hidx, if_pos hl]
  · unfold wf at *; simpa using h
  · rw [get_of_data (m := { m with data := m.data.set (j * m.nr + i) x }) hidx]
    simp [hl]
  · intro i' j' hi' hj' hne
    have hidx' := index_eq hc hi' hj'
    rw [get_of_data (m := { m with data := m.data.set (j * m.nr + i) x }) hidx', get_of_data hidx']
    have : j * m.nr + i ≠ j' * m.nr + i' := by
      intro e
      obtain ⟨e1, e2⟩ := index_inj hi hi' e
      exact hne (by rw [e1, e2])
    rw [List.getElem?_set_ne this]

theorem collect_spec {α : Type} (f : Nat → Out α) : ∀ n, (∀ i, i < n → ∃ x, f i = .ok x) →
    ∃ l, collect f n = .ok l ∧ l.length = n ∧ ∀ i, i < n → ∃ x, l[i]? = some x ∧ f i = .ok x
  | 0, _ => ⟨[], rfl, rfl, by omega⟩
  | n + 1, h => by
    obtain ⟨l, h1, h2, h3⟩ := collect_spec f n (fun i hi => h i (by omega))
    obtain ⟨x, hx⟩ := h n (by omega)
    refine ⟨l ++ [x], ?_, by simp [h2], ?_⟩
    · rw [collect, h1]; simp [Out.bind, hx]
    · intro i hi
      by_cases e : i = n
      · subst e; exact ⟨x, by simp [← h2], hx⟩
      · obtain ⟨y, h4, h5⟩ := h3 i (by omega)
        exact ⟨y, by rw [List.getElem?_append_left (by omega)]; exact h4, h5⟩

/-- `get_column(j)` lists m(0,j) … m(nr-1,j), `get_row(i)` lists m(i,0) … m(i,nc-1), and both
throw out of range. -/
theorem C12_columns_rows_partial {α : Type} (m : Mat α) (h : m.wf = true)
    (hc : m.nr * m.nc < 2 ^ 32) :
    (∀ j, j < m.nc → ∃ l, m.getColumn j = .ok l ∧ l.length = m.nr ∧
      ∀ i, i < m.nr → l[i]? = m.cell i j) ∧
    (∀ i, i < m.nr → ∃ l, m.getRow i = .ok l ∧ l.length = m.nc ∧
      ∀ j, j < m.nc → l[j]? = m.cell i j) ∧
    (∀ j, m.nc ≤ j → m.getColumn j = .throw) ∧ (∀ i, m.nr ≤ i → m.getRow i = .throw) := by
  refine ⟨?_, ?_, ?_, ?_⟩
  · intro j hj
    obtain ⟨l, h1, h2, h3⟩ := collect_spec (fun i => m.get i j) m.nr (fun i hi => by
      obtain ⟨x, _, hx⟩ := get_eq h hc hi hj; exact ⟨x, hx⟩)
    refine ⟨l, by rw [getColumn, if_pos hj, h1], h2, ?_⟩
    intro i hi
    obtain ⟨x, h4, h5⟩ := h3 i hi
    obtain ⟨y, h6, h7⟩ := get_eq h hc hi hj
    rw [h7] at h5
    rw [h4, h6]; simpa using h5.symm
  · intro i hi
    obtain ⟨l, h1, h2, h3⟩ := collect_spec (fun j => m.get i j) m.nc (fun j hj => by
      obtain ⟨x, _, hx⟩ := get_eq h hc hi hj; exact ⟨x, hx⟩)
    refine ⟨l, by rw [getRow, if_pos hi, h1], h2, ?_⟩
    intro j hj
    obtain ⟨x, h4, h5⟩ := h3 j hj
    obtain ⟨y, h6, h7⟩ := get_eq h hc hi hj
    rw [h7] at h5
    rw [h4, h6]; simpa using h5.symm
  · intro j hj; rw [getColumn, if_neg (by omega)]
  · intro i hi; rw [getRow, if_neg (by omega)]

/-- A 2 x 3 matrix. -/
def m23 : Mat I32 := ⟨2, 3, [10, 20, 11, 21, 12, 22]⟩

example : m23.wf = true ∧ m23.nr * m23.nc < 2 ^ 32 ∧ m23.get 1 2 = .ok 22 ∧
    m23.getRow 1 = .ok [20, 21, 22] ∧ m23.getColumn 2 = .ok [12, 22] ∧
    (m23.set 0 1 5).bind (fun m => m.getRow 0) = .ok [10, 5, 12] := by decide

/-- With 2^16 rows and 2^16 columns no element is stored and every access throws. -/
theorem C12_wrap_negation :
    (make (0 : I32) (2 ^ 16) (2 ^ 16)).wf = true ∧
    (make (0 : I32) (2 ^ 16) (2 ^ 16)).get 0 0 = .throw := by decide

end Mat

namespace GC

/-! ## C13 Matrix index checking -/

/-- `get_int_at(i,j)` and `get_long_at(i,j)` (const) return the cell in range, and throw on every
index pair out of range.  Missing: `m(i,j)`, `get_real_at`, `get_complex_at`, for which it is
false (`C13_negation`), and matrices of 2^32 cells or more. -/
theorem C13_checked_partial (m : Mat I32) (n : Mat I64) (i j : Nat)
    (hm : m.wf = true) (hn : n.wf = true) (hcm : m.nr * m.nc < 2 ^ 32) (hcn : n.nr * n.nc < 2 ^ 32) :
    (∀ x, get_int_at2_c i j (matInt m) = .ok x ↔ m.cell i j = some x) ∧
    (m.cell i j = none → get_int_at2_c i j (matInt m) = .throw) ∧
    (∀ x, get_long_at2_c i j (matLong n) = .ok x ↔ n.cell i j = some x) ∧
    (n.cell i j = none → get_long_at2_c i j (matLong n) = .throw) := by
  have key : ∀ {α : Type} (m : Mat α), m.wf = true → m.nr * m.nc < 2 ^ 32 →
      (if i < m.nr ∧ j < m.nc then m.get i j else .throw) =
        match m.cell i j with | some x => .ok x | none => .throw := by
    intro α m hm hc
    by_cases h : i < m.nr ∧ j < m.nc
    · obtain ⟨x, h1, h2⟩ := Mat.get_eq hm hc h.1 h.2
      rw [if_pos h, h1, h2]
    · rw [if_neg h, Mat.cell, if_neg h]
  have k1 := key m hm hcm
  have k2 := key n hn hcn
  refine ⟨?_, ?_, ?_, ?_⟩
  · intro x; rw [get_int_at2_c, k1]; cases m.cell i j <;> simp
  · intro h; rw [get_int_at2_c, k1, h]
  · intro x; rw [get_long_at2_c, k2]; cases n.cell i j <;> simp
  · intro h; rw [get_long_at2_c, k2, h]

/-- Whatever the indices, no access leaves the stored elements. -/
theorem C13_no_overrun {α : Type} (m : Mat α) (i j : Nat) :
    (∃ x, x ∈ m.data ∧ m.get i j = .ok x) ∨ m.get i j = .throw := by
  rw [Mat.get]
  cases h : m.data[m.index i j]? with
  | none => exact .inr rfl
  | some x => exact .inl ⟨x, List.mem_of_getElem? h, rfl⟩

/-- In a 2 x 3 matrix row 2 does not exist, but `m(2,0)`, `get_real_at(2,0)` and
`get_complex_at(2,0)` return the element of row 0, column 1. -/
theorem C13_negation :
    (∃ (m : Mat I32), m.wf = true ∧ m.cell 2 0 = none ∧ m.get 2 0 = m.get 0 1 ∧ m.get 2 0 = .ok 11) ∧
    (∃ (m : Mat F64) (x : F64), m.wf = true ∧ m.cell 2 0 = none ∧
      get_real_at2_c 2 0 (matReal m) = .ok x) ∧
    (∃ (m : Mat Cplx) (x : Cplx), m.wf = true ∧ m.cell 2 0 = none ∧
      get_complex_at2_c 2 0 (matComplex m) = .ok x) :=
  ⟨⟨Mat.m23, by decide⟩, ⟨⟨2, 3, List.replicate 6 .one⟩, .one, by decide⟩,
    ⟨⟨2, 3, List.replicate 6 .zero⟩, .zero, by decide⟩⟩

/-- What `m(i,j)` does out of range, exactly: it throws iff the flat (32 bit) position is past the
end, otherwise it returns the element there. -/
theorem C13_unchecked_partial {α : Type} (m : Mat α) (i j : Nat) :
    (∀ x, m.get i j = .ok x ↔ m.data[(i + j * m.nr) % 2 ^ 32]? = some x) ∧
    (m.get i j = .throw ↔ m.data.length ≤ (i + j * m.nr) % 2 ^ 32) := by
  rw [Mat.get, Mat.index, u32]
  cases h : m.data[(i + j * m.nr) % 2 ^ 32]? with
  | none => simpa using h
  | some x =>
    constructor
    · intro y; simp
    · have := (List.getElem?_eq_some_iff.1 h).1
      simp only [reduceCtorEq, false_iff]; omega

/-! ## C28 Const positional access is range checked -/

/-- `get_T_at(i,where) const`: element `i` in range, otherwise throw; throw on any other type. -/
theorem C28_const_at (g : GC) (i : Nat) :
    (∀ x, get_bool_at_c i g = .ok x ↔ ∃ v, g = vecBool v ∧ v[i]? = some x) ∧
    (∀ x, get_int_at_c i g = .ok x ↔ ∃ v, g = vecInt v ∧ v[i]? = some x) ∧
    (∀ x, get_long_at_c i g = .ok x ↔ ∃ v, g = vecLong v ∧ v[i]? = some x) ∧
    (∀ x, get_real_at_c i g = .ok x ↔ ∃ v, g = vecReal v ∧ v[i]? = some x) ∧
    (∀ x, get_complex_at_c i g = .ok x ↔ ∃ v, g = vecComplex v ∧ v[i]? = some x) ∧
    (∀ x, get_string_at_c i g = .ok x ↔ ∃ v, g = vecString v ∧ v[i]? = some x) ∧
    (∀ x, call_idx_c i g = .ok x ↔ ∃ v, g = vector v ∧ v[i]? = some x) ∧
    (∀ x, idx_c i g = .ok x ↔ ∃ v, g = vector v ∧ v[i]? = some x) := by
  have key : ∀ {α : Type} (v : List α) x, checkedAt v i = .ok x ↔ v[i]? = some x := by
    intro α v x; unfold checkedAt; cases v[i]? <;> simp
  refine ⟨?_, ?_, ?_, ?_, ?_, ?_, ?_, ?_⟩ <;> intro x <;> cases g <;>
    simp [get_bool_at_c, get_int_at_c, get_long_at_c, get_real_at_c, get_complex_at_c,
      get_string_at_c, call_idx_c, idx_c, key] <;>
    (rename_i v; cases v[i]? <;> simp)

theorem C28_const_at_throws (g : GC) (i : Nat) :
    ((∃ x, get_bool_at_c i g = .ok x) ∨ get_bool_at_c i g = .throw) ∧
    ((∃ x, get_int_at_c i g = .ok x) ∨ get_int_at_c i g = .throw) ∧
    ((∃ x, get_long_at_c i g = .ok x) ∨ get_long_at_c i g = .throw) ∧
    ((∃ x, get_real_at_c i g = .ok x) ∨ get_real_at_c i g = .throw) ∧
    ((∃ x, get_complex_at_c i g = .ok x) ∨ get_complex_at_c i g = .throw) ∧
    ((∃ x, get_string_at_c i g = .ok x) ∨ get_string_at_c i g = .throw) ∧
    ((∃ x, call_idx_c i g = .ok x) ∨ call_idx_c i g = .throw) ∧
    ((∃ x, idx_c i g = .ok x) ∨ idx_c i g = .throw) := by
  have key : ∀ {α : Type} (v : List α), (∃ x, checkedAt v i = .ok x) ∨ checkedAt v i = .throw := by
    intro α v; unfold checkedAt; cases v[i]? <;> simp
  have e1 : ∀ v : List GC, call_idx_c i (vector v) = checkedAt v i := by
    intro v; simp only [call_idx_c, checkedAt]; cases v[i]? <;> rfl
  have e2 : ∀ v : List GC, idx_c i (vector v) = checkedAt v i := by
    intro v; simp only [idx_c, checkedAt]; cases v[i]? <;> rfl
  refine ⟨?_, ?_, ?_, ?_, ?_, ?_, ?_, ?_⟩ <;> cases g <;>
    first | exact .inr rfl | exact key _ | (rw [e1]; exact key _) | (rw [e2]; exact key _)

/-- `get_number_at(i)` and `get_complex_number_at(i)` are not range checked: on every packed
vector, matrix or vector of containers, every index past the end reads outside of the storage. -/
theorem C28_number_at_negation (i : Nat) :
    (∀ v : List F64, v.length ≤ i → get_number_at i (vecReal v) = .ub ∧
      get_complex_number_at i (vecReal v) = .ub) ∧
    (∀ v : List I32, v.length ≤ i → get_number_at i (vecInt v) = .ub) ∧
    (∀ m : Mat F64, m.data.length ≤ i → get_number_at i (matReal m) = .ub) ∧
    (∀ v : List GC, v.length ≤ i → get_number_at i (vector v) = .ub) := by
  have key : ∀ {α : Type} (v : List α), v.length ≤ i → getL v i = .ub := by
    intro α v h; unfold getL; rw [List.getElem?_eq_none h]
  refine ⟨?_, ?_, ?_, ?_⟩ <;> intro v h <;>
    simp [get_number_at, get_complex_number_at, key _ h, Out.bind]

example : get_int_at_c 1 (vecInt [4, 5]) = .ok 5 ∧ get_int_at_c 2 (vecInt [4, 5]) = .throw := by
  decide

end GC
end GCV
