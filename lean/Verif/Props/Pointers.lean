import Verif.Props.At
import Verif.Model.Pointers
import Verif.Spec.Pointers
import Verif.Props.Matrix

/-!
# C80, C81, C82, C118: pointers to the data, arrays of the caller, indices of other types
-/

namespace GCV
namespace GC

/-! ## C80 -/

theorem pointer_dims {α : Type} (up : Mat α → GC) (ty : Ty) (mk : α → GC)
    (h1 : ∀ m, (up m).num_rows = m.nr) (h2 : ∀ m, (up m).num_cols = m.nc) (h3 : ∀ m, (up m).ty = ty)
    (h4 : ∀ m, elems (up m) = m.data.map mk) (m : Mat α) (i : Nat) (x : α) :
    if i < m.data.length then
      ∃ g', putAt m.data i x (fun l => up { m with data := l }) = .ok g' ∧ g'.ty = (up m).ty ∧
        elems g' = (elems (up m)).set i (mk x) ∧ g'.num_rows = (up m).num_rows ∧ g'.num_cols = (up m).num_cols
    else putAt m.data i x (fun l => up { m with data := l }) = .ub := by
  split
  · rename_i h
    exact ⟨_, by rw [putAt, if_pos h], by rw [h3, h3], by rw [h4, h4, List.map_set], by rw [h1, h1], by rw [h2, h2]⟩
  · rename_i h; rw [putAt, if_neg h]

theorem pointer_vec {α : Type} (up : List α → GC) (ty : Ty) (mk : α → GC)
    (h1 : ∀ l, (up l).num_rows = 1) (h2 : ∀ l, (up l).num_cols = u32 l.length) (h3 : ∀ m, (up m).ty = ty)
    (h4 : ∀ m, elems (up m) = m.map mk) (l : List α) (i : Nat) (x : α) :
    if i < l.length then
      ∃ g', putAt l i x up = .ok g' ∧ g'.ty = (up l).ty ∧
        elems g' = (elems (up l)).set i (mk x) ∧ g'.num_rows = (up l).num_rows ∧ g'.num_cols = (up l).num_cols
    else putAt l i x up = .ub := by
  split
  · rename_i h
    exact ⟨_, by rw [putAt, if_pos h], by rw [h3, h3], by rw [h4, h4, List.map_set], by rw [h1, h1],
      by rw [h2, h2, List.length_set]⟩
  · rename_i h; rw [putAt, if_neg h]

theorem pointer_one {α : Type} (up : α → GC) (h : ∀ a, elems (up a) = [up a]) (hr : ∀ a b, (up a).num_rows = (up b).num_rows)
    (hc : ∀ a b, (up a).num_cols = (up b).num_cols) (ht : ∀ a b, (up a).ty = (up b).ty) (a : α) (i : Nat) (x : α) :
    if i < [a].length then
      ∃ g', putAt [a] i x (fun l => up (l.headD a)) = .ok g' ∧ g'.ty = (up a).ty ∧
        elems g' = (elems (up a)).set i (up x) ∧ g'.num_rows = (up a).num_rows ∧ g'.num_cols = (up a).num_cols
    else putAt [a] i x (fun l => up (l.headD a)) = .ub := by
  split
  · rename_i hi
    have : i = 0 := by simpa using hi
    subst this
    exact ⟨up x, by rw [putAt, if_pos hi]; rfl, ht _ _, by rw [h, h]; rfl, hr _ _, hc _ _⟩
  · rename_i hi; rw [putAt, if_neg hi]

/-- **C80**: the four calls that give a pointer to the data. -/
theorem C80_pointers :
    PointerTo int .INTEGER .VEC_INTEGER .MAT_INTEGER get_int_pointer put_int ∧
    PointerTo long .LONG .VEC_LONG .MAT_LONG get_long_pointer put_long ∧
    PointerTo real .REAL .VEC_REAL .MAT_REAL get_real_pointer put_real ∧
    PointerTo complex .COMPLEX .VEC_COMPLEX .MAT_COMPLEX get_complex_pointer put_complex := by
  refine ⟨?_, ?_, ?_, ?_⟩ <;> intro g <;> cases g
  all_goals first
    | (rw [if_neg (by simp [ty])]; exact ⟨rfl, fun _ _ => rfl⟩)
    | (rw [if_pos (by simp [ty])]
       refine ⟨_, rfl, rfl, ?_⟩
       intro i x
       first
         | exact pointer_one int (fun _ => rfl) (fun _ _ => rfl) (fun _ _ => rfl) (fun _ _ => rfl) _ i x
         | exact pointer_vec vecInt _ int (fun _ => rfl) (fun _ => rfl) (fun _ => rfl) (fun _ => rfl) _ i x
         | exact pointer_dims matInt _ int (fun _ => rfl) (fun _ => rfl) (fun _ => rfl) (fun _ => rfl) _ i x
         | exact pointer_one long (fun _ => rfl) (fun _ _ => rfl) (fun _ _ => rfl) (fun _ _ => rfl) _ i x
         | exact pointer_vec vecLong _ long (fun _ => rfl) (fun _ => rfl) (fun _ => rfl) (fun _ => rfl) _ i x
         | exact pointer_dims matLong _ long (fun _ => rfl) (fun _ => rfl) (fun _ => rfl) (fun _ => rfl) _ i x
         | exact pointer_one real (fun _ => rfl) (fun _ _ => rfl) (fun _ _ => rfl) (fun _ _ => rfl) _ i x
         | exact pointer_vec vecReal _ real (fun _ => rfl) (fun _ => rfl) (fun _ => rfl) (fun _ => rfl) _ i x
         | exact pointer_dims matReal _ real (fun _ => rfl) (fun _ => rfl) (fun _ => rfl) (fun _ => rfl) _ i x
         | exact pointer_one complex (fun _ => rfl) (fun _ _ => rfl) (fun _ _ => rfl) (fun _ _ => rfl) _ i x
         | exact pointer_vec vecComplex _ complex (fun _ => rfl) (fun _ => rfl) (fun _ => rfl) (fun _ => rfl) _ i x
         | exact pointer_dims matComplex _ complex (fun _ => rfl) (fun _ => rfl) (fun _ => rfl) (fun _ => rfl) _ i x)

/-- **C80**: `get_pointer` and `get_ppvoid` refer to the stored pointer. -/
theorem C80_pointer (p : Ptr) (g : GC) :
    (∀ q, g = pointer q → put_pointer p g = .ok (pointer p) q) ∧ ((∀ q, g ≠ pointer q) → put_pointer p g = .throw g) := by
  refine ⟨fun q h => by rw [h]; rfl, fun h => ?_⟩
  cases g <;> first | rfl | exact absurd rfl (h _)

/-- **C80**, false for vectors of pointers: `get_pointer_at` never gives one of their elements; the const version
throws, the other one throws after it has removed all of them. -/
theorem C80_pointer_at_negation (v : List Ptr) (i : Nat) (hi : i + 1 < 2 ^ 32) (p : Ptr) :
    get_pointer_at i (vecPointer v) = .throw ∧
    put_pointer_at i p (vecPointer v) = .throw (vector (List.replicate (i + 1) notype)) := by
  refine ⟨rfl, ?_⟩
  have e : checkResize notype i ([] : List GC) = List.replicate (i + 1) notype := by
    rw [checkResize, if_pos (by simp), u32, Nat.mod_eq_of_lt hi, resizeL]
    simp
  rw [put_pointer_at, withIdx]
  simp only [show (vecPointer v).oldVector = [] from rfl, e]
  rw [List.getElem?_replicate, if_pos (by omega)]
  show Res.throw (vector ((List.replicate (i + 1) notype).set i notype)) = _
  congr 2
  apply List.ext_getElem?
  intro j
  rw [List.getElem?_set, List.getElem?_replicate, List.length_replicate]
  by_cases h : i = j
  · subst h; simp
  · rw [if_neg h]

/-- **C118**: `get_pointer_at` for reading, for every content and index. -/
theorem C118_read (g : GC) (i : Nat) :
    (∀ v q, g = vector v → v[i]? = some (pointer q) → get_pointer_at i g = .ok q) ∧
    ((∀ v q, g = vector v → v[i]? ≠ some (pointer q)) → get_pointer_at i g = .throw) := by
  constructor
  · rintro v q rfl h
    simp [get_pointer_at, idx_c, h, Out.bind, get_pvoid]
  · intro h
    cases g with
    | vector v =>
      rw [get_pointer_at, idx_c]
      cases hi : v[i]? with
      | none => rfl
      | some x =>
        have := h v
        cases x <;> first | rfl | (rename_i q; exact absurd hi (this q rfl))
    | _ => rfl

/-- **C118**: `get_pointer_at` for writing, for every content and index: where there is a pointer it is replaced and nothing
else changes; otherwise the call throws, and by then what was no VECTOR is gone and the vector has grown to hold the index,
with empty containers. -/
theorem C118_write (g : GC) (i : Nat) (hi : i + 1 < 2 ^ 32) (p : Ptr) :
    (∀ v q, g = vector v → v[i]? = some (pointer q) → put_pointer_at i p g = .ok (vector (v.set i (pointer p))) q) ∧
    (∀ v, g = vector v → (∀ q, v[i]? ≠ some (pointer q)) →
      put_pointer_at i p g = .throw (vector (v ++ List.replicate (i + 1 - v.length) notype))) ∧
    (g.ty ≠ .VECTOR → put_pointer_at i p g = .throw (vector (List.replicate (i + 1) notype))) := by
  have grow : ∀ v : List GC, checkResize notype i v = v ++ List.replicate (i + 1 - v.length) notype := by
    intro v
    obtain ⟨h1, h2⟩ := checkResize_spec notype i v hi
    apply List.ext_getElem?
    intro j
    rw [h2, grownAt]
    by_cases hj : j < v.length
    · rw [if_pos hj, List.getElem?_append_left hj]
    · rw [if_neg hj, List.getElem?_append_right (by omega), List.getElem?_replicate]
      by_cases hj' : j ≤ i
      · rw [if_pos hj', if_pos (by omega)]
      · rw [if_neg hj', if_neg (by omega)]
  have other : ∀ v : List GC, (∀ q, v[i]? ≠ some (pointer q)) → ∀ g, g.oldVector = v →
      put_pointer_at i p g = .throw (vector (v ++ List.replicate (i + 1 - v.length) notype)) := by
    intro v hv g hg
    rw [put_pointer_at, withIdx, hg, grow]
    have hlt : i < (v ++ List.replicate (i + 1 - v.length) notype).length := by simp; omega
    have hx : ∀ q, (v ++ List.replicate (i + 1 - v.length) notype)[i]? ≠ some (pointer q) := by
      intro q h
      by_cases hj : i < v.length
      · rw [List.getElem?_append_left hj] at h; exact hv q h
      · rw [List.getElem?_append_right (by omega), List.getElem?_replicate] at h
        split at h <;> simp at h
    generalize hw : v ++ List.replicate (i + 1 - v.length) notype = w at hlt hx ⊢
    have hget := List.getElem?_eq_getElem hlt
    simp only [hget]
    have hput : put_pointer p w[i] = .throw w[i] := by
      rw [hget] at hx
      cases h : w[i] with
      | pointer q => rw [h] at hx; exact absurd rfl (hx q)
      | _ => rfl
    rw [hput, Res.mapState, List.set_getElem_self]
  refine ⟨?_, fun v hg hv => other v hv g (by rw [hg]; rfl), fun hg => ?_⟩
  · rintro v q rfl h
    have hlt : i < v.length := (List.getElem?_eq_some_iff.1 h).1
    have hz : v ++ List.replicate (i + 1 - v.length) notype = v := by
      rw [show i + 1 - v.length = 0 by omega]; simp
    rw [put_pointer_at, withIdx, show (vector v).oldVector = v from rfl, grow, hz]
    simp only [h]
    rfl
  · have h0 : g.oldVector = [] := by cases g <;> first | rfl | simp [GC.ty] at hg
    simpa using other [] (by simp) g h0

example : put_pointer_at 1 9 (vector [bool true, pointer 5]) = .ok (vector [bool true, pointer 9]) 5 ∧
    put_pointer_at 1 9 (vector [bool true]) = .throw (vector [bool true, notype]) := by decide

example : get_int_pointer (matInt ⟨2, 2, [1, 2, 3, 4]⟩) = .ok [1, 2, 3, 4] ∧
    put_int 2 9 (matInt ⟨2, 2, [1, 2, 3, 4]⟩) = .ok (matInt ⟨2, 2, [1, 2, 9, 4]⟩) ∧
    get_pointer_at 0 (vector [pointer 5]) = .ok 5 := by decide

/-! ## C81 -/

open Mat in
/-- **C81**: `get_column` and `get_row` write the column or the row to the start of the array and leave the rest of it;
out of range they throw. -/
theorem C81_to_array {α : Type} (m : Mat α) (h : m.wf = true) (hc : m.nr * m.nc < 2 ^ 32) (buf : List α) :
    (∀ j, j < m.nc → m.nr ≤ buf.length → ∃ l, m.getColumnTo j buf = .ok l ∧ l.length = buf.length ∧
      (∀ i, i < m.nr → l[i]? = m.cell i j) ∧ ∀ i, m.nr ≤ i → l[i]? = buf[i]?) ∧
    (∀ i, i < m.nr → m.nc ≤ buf.length → ∃ l, m.getRowTo i buf = .ok l ∧ l.length = buf.length ∧
      (∀ j, j < m.nc → l[j]? = m.cell i j) ∧ ∀ j, m.nc ≤ j → l[j]? = buf[j]?) ∧
    (∀ j, m.nc ≤ j → m.getColumnTo j buf = .throw) ∧ (∀ i, m.nr ≤ i → m.getRowTo i buf = .throw) ∧
    (∀ j, j < m.nc → buf.length < m.nr → m.getColumnTo j buf = .ub) ∧
    (∀ i, i < m.nr → buf.length < m.nc → m.getRowTo i buf = .ub) := by
  obtain ⟨c1, c2, _, _⟩ := C12_columns_rows_partial m h hc
  have key : ∀ (l : List α) (n : Nat), l.length = n → n ≤ buf.length → ∀ (f : Nat → Option α), (∀ i, i < n → l[i]? = f i) →
      store l buf = .ok (l ++ buf.drop n) ∧ (l ++ buf.drop n).length = buf.length ∧
      (∀ i, i < n → (l ++ buf.drop n)[i]? = f i) ∧ ∀ i, n ≤ i → (l ++ buf.drop n)[i]? = buf[i]? := by
    intro l n hl hn f hf
    refine ⟨by rw [store, if_pos (by omega), hl], by simp; omega, fun i hi => ?_, fun i hi => ?_⟩
    · rw [List.getElem?_append_left (by omega)]; exact hf i hi
    · rw [List.getElem?_append_right (by omega), List.getElem?_drop]; congr 1; omega
  refine ⟨?_, ?_, ?_, ?_, ?_, ?_⟩
  · intro j hj hb
    obtain ⟨l, h1, h2, h3⟩ := c1 j hj
    rw [getColumn, if_pos hj] at h1
    obtain ⟨k1, k2⟩ := key l m.nr h2 hb (fun i => m.cell i j) h3
    exact ⟨_, by rw [getColumnTo, if_pos hj, h1]; exact k1, k2⟩
  · intro i hi hb
    obtain ⟨l, h1, h2, h3⟩ := c2 i hi
    rw [getRow, if_pos hi] at h1
    obtain ⟨k1, k2⟩ := key l m.nc h2 hb (fun j => m.cell i j) h3
    exact ⟨_, by rw [getRowTo, if_pos hi, h1]; exact k1, k2⟩
  · intro j hj; rw [getColumnTo, if_neg (by omega)]
  · intro j hj; rw [getRowTo, if_neg (by omega)]
  · intro j hj hb
    obtain ⟨l, h1, h2, h3⟩ := c1 j hj
    rw [getColumn, if_pos hj] at h1
    rw [getColumnTo, if_pos hj, h1]
    show store l buf = .ub
    rw [store, if_neg (by omega)]
  · intro i hi hb
    obtain ⟨l, h1, h2, h3⟩ := c2 i hi
    rw [getRow, if_pos hi] at h1
    rw [getRowTo, if_pos hi, h1]
    show store l buf = .ub
    rw [store, if_neg (by omega)]

/-- **C81**: the two variables get the real and the imaginary part. -/
theorem C81_complex_parts (g : GC) (i : Nat) :
    (∀ re im, get_complex_number2 g = .ok (re, im) ↔ get_complex_number g = .ok ⟨re, im⟩) ∧
    (∀ re im, get_complex_number_at2 i g = .ok (re, im) ↔ get_complex_number_at i g = .ok ⟨re, im⟩) := by
  constructor <;> intro re im
  · rw [get_complex_number2]
    cases get_complex_number g with
    | ok c => obtain ⟨a, b⟩ := c; simp [Out.bind]
    | _ => simp [Out.bind]
  · rw [get_complex_number_at2]
    cases get_complex_number_at i g with
    | ok c => obtain ⟨a, b⟩ := c; simp [Out.bind]
    | _ => simp [Out.bind]

open Mat in
example : m23.getColumnTo 2 [0, 0, 7] = .ok [12, 22, 7] ∧ m23.getRowTo 1 [0, 0] = .ub ∧ m23.getRowTo 2 [0, 0, 0] = .throw := by
  decide

/-! ## C82 -/

/-- **C82**: with an index of another integer type from 0 to 2^32-1 the calls do what they do with the same unsigned
index. -/
theorem C82_index_partial (i : Nat) (h : i < 2 ^ 32) :
    get_bool_at_T i = get_bool_at i ∧ get_int_at_T i = get_int_at i ∧ get_long_at_T i = get_long_at i ∧
    get_real_at_T i = get_real_at i ∧ get_complex_at_T i = get_complex_at i ∧ get_string_at_T i = get_string_at i ∧
    ∀ f : GC → Res Unit, get_gc_at_T i f = get_gc_at i f := by
  have e : castIndex i = i := by unfold castIndex; omega
  simp only [get_bool_at_T, get_int_at_T, get_long_at_T, get_real_at_T, get_complex_at_T, get_string_at_T, get_gc_at_T, e]
  simp

/-- **C82**, false for other indices: with -1 a vector is emptied and an element outside of it is used (undefined
behaviour), for every vector of the type of the call, every vector of containers, and every empty container. -/
theorem C82_negative_negation :
    (∀ v : List Bool, v.length < 2 ^ 32 → get_bool_at_T (-1) (vecBool v) = .ub) ∧
    (∀ (v : List I32) u, v.length < 2 ^ 32 → get_int_at_T (-1) u (vecInt v) = .ub) ∧
    (∀ (v : List I64) u, v.length < 2 ^ 32 → get_long_at_T (-1) u (vecLong v) = .ub) ∧
    (∀ (v : List F64) u, v.length < 2 ^ 32 → get_real_at_T (-1) u (vecReal v) = .ub) ∧
    (∀ (v : List Cplx) u, v.length < 2 ^ 32 → get_complex_at_T (-1) u (vecComplex v) = .ub) ∧
    (∀ (v : List Bytes) u, v.length < 2 ^ 32 → get_string_at_T (-1) u (vecString v) = .ub) ∧
    (∀ (v : List GC) (f : GC → Res Unit), v.length < 2 ^ 32 → get_gc_at_T (-1) f (vector v) = .ub) := by
  have hi : castIndex (-1) = 2 ^ 32 - 1 := by decide
  have key : ∀ {α : Type} (d : α) (v : List α), v.length < 2 ^ 32 → (checkResize d (2 ^ 32 - 1) v) = [] := by
    intro α d v h
    rw [checkResize, if_pos (by omega), show u32 (2 ^ 32 - 1 + 1) = 0 from rfl, resizeL]
    simp
  have key2 : ∀ {α : Type} (d : α) (up : List α → GC) (v : List α) (u : α → α), v.length < 2 ^ 32 →
      refAt d up v (2 ^ 32 - 1) u = .ub := by
    intro α d up v u h
    rw [refAt, key d v h]; rfl
  refine ⟨?_, ?_, ?_, ?_, ?_, ?_, ?_⟩
  · intro v h; rw [get_bool_at_T, hi]; exact key2 _ _ _ _ h
  · intro v u h; rw [get_int_at_T, hi]; exact key2 _ _ _ _ h
  · intro v u h; rw [get_long_at_T, hi]; exact key2 _ _ _ _ h
  · intro v u h; rw [get_real_at_T, hi]; exact key2 _ _ _ _ h
  · intro v u h; rw [get_complex_at_T, hi]; exact key2 _ _ _ _ h
  · intro v u h; rw [get_string_at_T, hi]; exact key2 _ _ _ _ h
  · intro v f h
    rw [get_gc_at_T, hi, get_gc_at, withIdx]
    show (match (checkResize notype (2 ^ 32 - 1) v)[2 ^ 32 - 1]? with | none => Res.ub | some x => _) = _
    rw [key _ _ h]; rfl

/-- **C82**, false for large indices: with 2^32 + k the calls do what they do with k. -/
theorem C82_wrap_negation (k : Nat) (h : k < 2 ^ 32) :
    get_bool_at_T (2 ^ 32 + k) = get_bool_at k ∧ get_int_at_T (2 ^ 32 + k) = get_int_at k ∧ get_long_at_T (2 ^ 32 + k) = get_long_at k ∧
    get_real_at_T (2 ^ 32 + k) = get_real_at k ∧ get_complex_at_T (2 ^ 32 + k) = get_complex_at k ∧ get_string_at_T (2 ^ 32 + k) = get_string_at k ∧
    ∀ f : GC → Res Unit, get_gc_at_T (2 ^ 32 + k) f = get_gc_at k f := by
  have e : castIndex (2 ^ 32 + k) = k := by unfold castIndex; omega
  simp only [get_bool_at_T, get_int_at_T, get_long_at_T, get_real_at_T, get_complex_at_T, get_string_at_T, get_gc_at_T, e]
  simp

example : get_int_at_T 4294967297 (fun _ => 9) (vecInt [1, 2, 3]) = .ok (vecInt [1, 9, 3]) 2 := by decide

end GC
end GCV
