import Verif.Props.Table
import Verif.Lemmas.History

/-! # C41, C44: table writer, and reading back what it wrote -/

namespace GCV
namespace GC

/-! ## C41 -/

theorem joinFields_eq (delim : Byte) : ∀ fs : List Bytes, joinFields delim fs = [delim].intercalate fs
  | [] => rfl
  | [x] => by simp [joinFields, List.intercalate]
  | x :: y :: r => by
    rw [joinFields.eq_def]; dsimp only
    rw [joinFields_eq delim (y :: r)]
    simp [List.intercalate]

theorem collect_ok {α : Type} {f : Nat → Out α} : ∀ {n i : Nat} {xs : List α}, collect f i n = .ok xs →
    xs.length = n ∧ ∀ j x, xs[j]? = some x → f (i + j) = .ok x
  | 0, i, xs, h => by cases h; simp
  | n + 1, i, xs, h => by
    obtain ⟨x, hx, h⟩ := out_bind_ok h
    obtain ⟨ys, hy, h⟩ := out_bind_ok h
    cases h
    obtain ⟨h1, h2⟩ := collect_ok hy
    refine ⟨by simp [h1], fun j y hj => ?_⟩
    cases j with
    | zero => simp at hj; rw [← hj]; exact hx
    | succ j => rw [show i + (j + 1) = i + 1 + j by omega]; exact h2 j y (by simpa using hj)

theorem collect_of {α : Type} {f : Nat → Out α} {g : Nat → α} : ∀ {n i : Nat},
    (∀ j, j < n → f (i + j) = .ok (g (i + j))) → collect f i n = .ok ((List.range' i n).map g)
  | 0, i, _ => rfl
  | n + 1, i, h => by
    have h0 := h 0 (by omega)
    rw [Nat.add_zero] at h0
    rw [collect, h0, Out.bind, collect_of (n := n) (i := i + 1) (fun j hj => by
      have := h (j + 1) (by omega)
      rwa [show i + (j + 1) = i + 1 + j by omega] at this)]
    rfl

theorem writeLine_ok {delim : Byte} {ncol : Nat} {field : Nat → Out Bytes} {out : Bytes} (h0 : 0 < ncol)
    (h : writeLine delim ncol field = .ok out) :
    ∃ fs : List Bytes, out = [delim].intercalate fs ++ [10] ∧ fs.length = ncol ∧
      ∀ j t, fs[j]? = some t → field j = .ok t := by
  obtain ⟨fs, h1, h⟩ := out_bind_ok h
  cases h
  obtain ⟨h2, h3⟩ := collect_ok h1
  refine ⟨fs, by rw [joinFields_eq], by omega, fun j t hj => ?_⟩
  have := h3 j t hj
  rwa [Nat.zero_add] at this

theorem getL_ok {α : Type} {v : List α} {i : Nat} {x : α} (h : getL v i = .ok x) : v[i]? = some x := by
  unfold getL at h
  split at h
  · rename_i e; cases h; exact e
  · cases h

theorem choose_rows {P : Nat → Bytes → List Bytes → Prop} : ∀ {rows : List Bytes} {k : Nat},
    (∀ i l, rows[i]? = some l → ∃ fs, P (k + i) l fs) →
    ∃ fss : List (List Bytes), fss.length = rows.length ∧ ∀ i l fs, rows[i]? = some l → fss[i]? = some fs → P (k + i) l fs
  | [], k, _ => ⟨[], rfl, by simp⟩
  | l :: rows, k, h => by
    obtain ⟨fs, hfs⟩ := h 0 l rfl
    obtain ⟨fss, h1, h2⟩ := choose_rows (k := k + 1) (rows := rows) (P := P) (fun i l hl => by
      have := h (i + 1) l (by simpa using hl)
      rwa [show k + (i + 1) = k + 1 + i by omega] at this)
    refine ⟨fs :: fss, by simp [h1], fun i l' fs' hl hf => ?_⟩
    cases i with
    | zero => simp at hl hf; subst hl hf; exact hfs
    | succ i =>
      rw [show k + (i + 1) = k + 1 + i by omega]
      exact h2 i l' fs' (by simpa using hl) (by simpa using hf)

/-- Rows written with `writeLine`. -/
theorem rows_ok {delim : Byte} {ncol : Nat} {field : Nat → Nat → Out Bytes} {n : Nat} {rows : List Bytes}
    (h0 : 0 < ncol) (h : collect (fun row => writeLine delim ncol (field row)) 0 n = .ok rows) :
    ∃ fss : List (List Bytes), rows.flatten = unlines (fss.map fun fs => [delim].intercalate fs) ∧ fss.length = n ∧
      ∀ i fs, fss[i]? = some fs → fs.length = ncol ∧ ∀ j t, fs[j]? = some t → field i j = .ok t := by
  obtain ⟨h1, h2⟩ := collect_ok h
  obtain ⟨fss, e1, e2⟩ := choose_rows (rows := rows) (k := 0)
    (P := fun i l fs => l = [delim].intercalate fs ++ [10] ∧ fs.length = ncol ∧ ∀ j t, fs[j]? = some t → field i j = .ok t)
    (fun i l hl => by
      have := h2 i l hl
      exact writeLine_ok h0 this)
  refine ⟨fss, ?_, by omega, ?_⟩
  · unfold unlines
    congr 1
    apply List.ext_getElem?
    intro i
    rw [List.getElem?_map, List.getElem?_map]
    cases hl : rows[i]? with
    | none =>
      have : fss[i]? = none := by
        rw [List.getElem?_eq_none_iff] at hl ⊢; omega
      rw [this]; rfl
    | some l =>
      have hi : i < fss.length := by
        have := (List.getElem?_eq_some_iff.1 hl).1; omega
      have hf : fss[i]? = some fss[i] := List.getElem?_eq_getElem hi
      rw [hf]
      have := (e2 i l _ hl hf).1
      simp [this]
  · intro i fs hf
    have hi : i < rows.length := by
      have := (List.getElem?_eq_some_iff.1 hf).1; omega
    have := e2 i rows[i] fs (List.getElem?_eq_getElem hi) hf
    rw [Nat.zero_add] at this
    exact this.2

theorem list_of_getL {α : Type} {v fs : List α} (h2 : ∀ j t, fs[j]? = some t → getL v j = .ok t) : fs = v.take fs.length := by
  apply List.ext_getElem?
  intro i
  cases hf : fs[i]? with
  | none =>
    have := List.getElem?_eq_none_iff.1 hf
    rw [List.getElem?_take_eq_none this]
  | some t =>
    have hi := (List.getElem?_eq_some_iff.1 hf).1
    rw [List.getElem?_take_of_lt hi]; exact (getL_ok (h2 i t hf)).symm

/-- C41: what write_table writes for columns: lines of fields separated by the delimiter, the first one
made of the headers, then one line per element of the first column, with one field per header, field j
being the number in column j. -/
theorem C41_layout (fmt : F64 → Bytes) (headers : List Bytes) (data : List GC) (delim : Byte) (out : Bytes)
    (hh : headers.length < 2 ^ 32) (h : write_table fmt headers data delim = .ok out) :
    ∃ (rows : List (List Bytes)) (d0 : GC), data.head? = some d0 ∧ rows.length = d0.get_num_elements ∧
      out = unlines ((headers :: rows).map fun fs => [delim].intercalate fs) ∧
      ∀ (i : Nat) (fs : List Bytes), rows[i]? = some fs → fs.length = headers.length ∧
        ∀ (j : Nat) (t : Bytes), fs[j]? = some t → ∃ c x, data[j]? = some c ∧ get_number_at i c = .ok x ∧ t = fmt x := by
  unfold write_table at h
  rw [show u32 headers.length = headers.length from Nat.mod_eq_of_lt hh] at h
  obtain ⟨d0, hd, h⟩ := out_bind_ok h
  obtain ⟨hl, h1, h⟩ := out_bind_ok h
  obtain ⟨rows, h2, h⟩ := out_bind_ok h
  cases h
  have hpos : 0 < headers.length := by
    cases headers with
    | nil =>
      obtain ⟨fs, e, _⟩ := out_bind_ok h1
      obtain ⟨x, hx, _⟩ := out_bind_ok e
      cases hx
    | cons => simp
  obtain ⟨fs, e1, e2, e3⟩ := writeLine_ok hpos h1
  obtain ⟨fss, f1, f2, f3⟩ := rows_ok hpos h2
  have hfs : fs = headers := by
    have := list_of_getL (v := headers) e3
    rwa [e2, List.take_length] at this
  refine ⟨fss, d0, by rw [List.head?_eq_getElem?]; exact getL_ok hd, f2, ?_, fun i r hr => ?_⟩
  · rw [e1, f1, hfs]; simp [unlines]
  · obtain ⟨g1, g2⟩ := f3 i r hr
    refine ⟨g1, fun j t ht => ?_⟩
    obtain ⟨c, hc, q⟩ := out_bind_ok (g2 j t ht)
    obtain ⟨x, hx, q⟩ := out_bind_ok q
    cases q
    exact ⟨c, x, getL_ok hc, hx, rfl⟩

/-- C41 for a matrix: one line per row, one field per column of the matrix; the first line has as many
headers as there are columns. -/
theorem C41_layout_matrix (fmt : F64 → Bytes) (headers : List Bytes) (m : Mat F64) (delim : Byte) (out : Bytes)
    (hc : 0 < m.nc) (h : write_table_mat fmt headers m delim = .ok out) :
    ∃ rows : List (List Bytes), rows.length = m.nr ∧ m.nc ≤ headers.length ∧
      out = unlines ((headers.take m.nc :: rows).map fun fs => [delim].intercalate fs) ∧
      ∀ (i : Nat) (fs : List Bytes), rows[i]? = some fs → fs.length = m.nc ∧
        ∀ (j : Nat) (t : Bytes), fs[j]? = some t → ∃ x, m.get i j = .ok x ∧ t = fmt x := by
  unfold write_table_mat at h
  obtain ⟨hl, h1, h⟩ := out_bind_ok h
  obtain ⟨rows, h2, h⟩ := out_bind_ok h
  cases h
  obtain ⟨fs, e1, e2, e3⟩ := writeLine_ok hc h1
  obtain ⟨fss, f1, f2, f3⟩ := rows_ok hc h2
  have hle : fs.length ≤ headers.length := by
    have hlt : fs.length - 1 < fs.length := by omega
    have := getL_ok (e3 _ _ (List.getElem?_eq_getElem hlt))
    have := (List.getElem?_eq_some_iff.1 this).1
    omega
  have hfs : fs = headers.take m.nc := by
    have := list_of_getL (v := headers) e3
    rwa [e2] at this
  refine ⟨fss, f2, by omega, ?_, fun i r hr => ?_⟩
  · rw [e1, f1, hfs]; simp [unlines]
  · obtain ⟨g1, g2⟩ := f3 i r hr
    refine ⟨g1, fun j t ht => ?_⟩
    obtain ⟨x, hx, q⟩ := out_bind_ok (g2 j t ht)
    cases q
    exact ⟨x, hx, rfl⟩

theorem getL_lt {α : Type} {v : List α} {i : Nat} (h : i < v.length) : getL v i = .ok v[i] := by
  simp [getL, h]

theorem range_getD {α β : Type} (v : List α) (d : α) (f : α → β) :
    (List.range' 0 v.length).map (fun i => f (v.getD i d)) = v.map f := by
  apply List.ext_getElem
  · simp
  · intro i h1 h2
    have : i < v.length := by simpa using h2
    simp [this]

/-- C41: write_table returns for every list of equally long columns of numbers, one per header. -/
theorem C41_returns (fmt : F64 → Bytes) (headers : List Bytes) (cols : List (List F64)) (delim : Byte) (n : Nat)
    (h0 : headers ≠ []) (hh : headers.length < 2 ^ 32) (hn : n < 2 ^ 32) (hc : cols.length = headers.length)
    (hl : ∀ c ∈ cols, c.length = n) :
    write_table fmt headers (cols.map vecReal) delim =
      .ok (unlines ((headers :: (List.range n).map fun i => cols.map fun c => fmt (c.getD i ⟨0⟩)).map
        fun fs => [delim].intercalate fs)) := by
  have hpos : 0 < headers.length := List.length_pos_iff.2 h0
  have hline : ∀ field : Nat → Out Bytes, ∀ g : Nat → Bytes, (∀ j, j < headers.length → field j = .ok (g j)) →
      writeLine delim headers.length field =
        .ok ([delim].intercalate ((List.range' 0 headers.length).map g) ++ [10]) := by
    intro field g hf
    rw [writeLine, show max headers.length 1 = headers.length by omega,
      collect_of (g := g) (fun j hj => by rw [Nat.zero_add]; exact hf j hj), Out.bind, joinFields_eq]
  obtain ⟨c0, cr, rfl⟩ : ∃ c0 cr, cols = c0 :: cr := by
    cases cols with
    | nil => simp at hc; omega
    | cons a b => exact ⟨a, b, rfl⟩
  unfold write_table
  rw [show u32 headers.length = headers.length from Nat.mod_eq_of_lt hh]
  have hd : getL ((c0 :: cr).map vecReal) 0 = .ok (vecReal c0) := rfl
  have hnum : (vecReal c0).get_num_elements = n := by
    rw [get_num_elements, hl c0 (by simp)]; exact Nat.mod_eq_of_lt hn
  rw [hd, Out.bind]
  rw [hline _ (fun j => headers.getD j []) (fun j hj => by simp [getL_lt hj, hj]), Out.bind]
  rw [hnum]
  have hr := range_getD headers [] id
  rw [List.map_id] at hr
  simp only [id] at hr
  rw [hr, collect_of (g := fun i => [delim].intercalate ((c0 :: cr).map fun c => fmt (c.getD i ⟨0⟩)) ++ [10])]
  · rw [Out.bind]
    congr 1
    simp only [unlines, List.map_cons, List.map_map, List.flatten_cons, List.range_eq_range']
    rfl
  · intro i hi
    rw [Nat.zero_add, hline _ (fun j => fmt (((c0 :: cr).getD j []).getD i ⟨0⟩)), ← hc,
      range_getD (c0 :: cr) [] (fun c => fmt (c.getD i ⟨0⟩))]
    intro j hj
    have hj' : j < (c0 :: cr).length := by omega
    have hj2 : j < ((c0 :: cr).map vecReal).length := by simpa using hj'
    rw [getL_lt hj2, Out.bind, List.getElem_map]
    have hlen := hl (c0 :: cr)[j] (List.getElem_mem hj')
    have hi' : i < (c0 :: cr)[j].length := by omega
    dsimp only [get_number_at]
    rw [getL_lt hi', Out.bind]
    simp only [List.getD_eq_getElem?_getD, List.getElem?_eq_getElem hj', Option.getD_some,
      List.getElem?_eq_getElem hi']

example (fmt : F64 → Bytes) (x y : F64) :
    write_table fmt [str "a", str "b"] [vecReal [x], vecReal [y]] 44 =
      .ok (str "a,b" ++ [10] ++ (fmt x ++ str "," ++ fmt y) ++ [10]) := by
  simp [write_table, writeLine, collect, joinFields, Out.bind, getL, get_num_elements, get_number_at, u32, str]

/-- C41 asks nothing of headers or data, but without them write_table reads outside the lists. -/
theorem C41_negation (fmt : F64 → Bytes) (headers : List Bytes) (data : List GC) (delim : Byte)
    (h : headers = [] ∨ data = []) : write_table fmt headers data delim = .ub := by
  unfold write_table
  rcases h with rfl | rfl
  · cases data <;> rfl
  · rfl

/-! ### The formatted version -/

/-- What is written between the two rulers. -/
theorem C41_formatted (fmt : F64 → Bytes) (headers : List Bytes) (data : List GC) (out : Bytes)
    (h0 : headers ≠ []) (hh : headers.length < 2 ^ 32) (h : write_table_formatted fmt headers data = .ok out) :
    ∃ (w : Nat) (rows : List (List Bytes)) (d0 : GC) (rule : Bytes), 8 ≤ w ∧ w ≤ 20 ∧ data.head? = some d0 ∧
      (∀ c ∈ rule, c = 45) ∧ (headers.length * 21 < 2 ^ 32 → rule.length + 1 = headers.length * (w + 1)) ∧
      rows.length = d0.get_num_elements ∧
      out = unlines ([32].intercalate (headers.map fun t => setw w (t.takeWhile (· ≠ 0))) :: rule ::
        rows.map (fun fs => [32].intercalate fs) ++ [rule]) ∧
      ∀ (i : Nat) (fs : List Bytes), rows[i]? = some fs → fs.length = headers.length ∧
        ∀ (j : Nat) (t : Bytes), fs[j]? = some t →
          ∃ c x, data[j]? = some c ∧ get_number_at i c = .ok x ∧ t = setw w (fmt x) := by
  unfold write_table_formatted at h
  rw [show u32 headers.length = headers.length from Nat.mod_eq_of_lt hh] at h
  obtain ⟨d0, hd, h⟩ := out_bind_ok h
  have hpos : 0 < headers.length := List.length_pos_iff.2 h0
  rw [if_neg (by omega)] at h
  obtain ⟨hl, h1, h⟩ := out_bind_ok h
  obtain ⟨rows, h2, h⟩ := out_bind_ok h
  cases h
  obtain ⟨fss, f1, f2, f3⟩ := rows_ok hpos h2
  have hw : 8 ≤ widthOf headers ∧ widthOf headers ≤ 20 := by
    unfold widthOf; dsimp only; split
    · omega
    · split <;> omega
  have hhl : hl = [32].intercalate (headers.map fun t => setw (widthOf headers) (t.takeWhile (· ≠ 0))) ++ [10] := by
    unfold headLine at h1
    split at h1
    · cases h1
    · cases h1; rw [joinFields_eq]; rfl
  refine ⟨widthOf headers, fss, d0,
    List.replicate (u32 (headers.length * (widthOf headers + 1) - 1)) 45, hw.1, hw.2,
    by rw [List.head?_eq_getElem?]; exact getL_ok hd, fun c hc => List.eq_of_mem_replicate hc, ?_, f2, ?_, fun i r hr => ?_⟩
  · intro hb
    rw [List.length_replicate, u32]
    have : headers.length * (widthOf headers + 1) ≤ headers.length * 21 := Nat.mul_le_mul_left _ (by omega)
    have : headers.length * 1 ≤ headers.length * (widthOf headers + 1) := Nat.mul_le_mul_left _ (by omega)
    omega
  · rw [hhl, f1, ruler]
    generalize List.replicate (u32 (headers.length * (widthOf headers + 1) - 1)) (45 : Byte) = q
    simp [unlines]
  · obtain ⟨g1, g2⟩ := f3 i r hr
    refine ⟨g1, fun j t ht => ?_⟩
    obtain ⟨c, hc, q⟩ := out_bind_ok (g2 j t ht)
    obtain ⟨x, hx, q⟩ := out_bind_ok q
    cases q
    exact ⟨c, x, getL_ok hc, hx, rfl⟩

/-- A field is the text, right adjusted to the width. -/
theorem setw_spec (w : Nat) (t : Bytes) :
    (setw w t).length = max w t.length ∧ ∃ k, setw w t = List.replicate k 32 ++ t := by
  refine ⟨by simp [setw]; omega, _, rfl⟩

example (fmt : F64 → Bytes) (x y : F64) : ∃ out,
    write_table_formatted fmt [str "a", str "b"] [vecReal [x], vecReal [y]] = .ok out := by
  have hu : u32 (List.length [str "a", str "b"]) = 2 := rfl
  have hn : (vecReal [x]).get_num_elements = 1 := rfl
  unfold write_table_formatted
  rw [hu]
  generalize hr : ruler 2 (widthOf [str "a", str "b"]) = r
  exact ⟨_, rfl⟩

/-- For a matrix the formatted version writes all the headers, also when there are more of them than
columns: the header line then has more fields than the rows. -/
theorem C41_formatted_matrix_negation (fmt : F64 → Bytes) (x : F64) :
    write_table_formatted_mat fmt [str "a", str "b"] ⟨1, 1, [x]⟩ =
      .ok (str "       a        b" ++ [10] ++ str "--------" ++ [10] ++ setw 8 (fmt x) ++ [10] ++
        str "--------" ++ [10]) := by
  have hw : widthOf [str "a", str "b"] = 8 := by decide +kernel
  have hr : ruler 1 8 = str "--------" ++ [10] := by decide +kernel
  have hh : headLine 8 [str "a", str "b"] = .ok (str "       a        b" ++ [10]) := by decide +kernel
  have hg : (⟨1, 1, [x]⟩ : Mat F64).get 0 0 = .ok x := rfl
  unfold write_table_formatted_mat
  rw [if_neg (by simp), hw]
  dsimp only
  rw [hr, hh]
  simp [Out.bind, collect, writeLine, hg, joinFields]

/-! ## C44: round trip -/

theorem words_join {d : Byte → Bool} {delim : Byte} (hd : d delim = true) : ∀ fs : List Bytes,
    (∀ f ∈ fs, f ≠ [] ∧ ∀ c ∈ f, d c = false) → words d ([delim].intercalate fs) = fs
  | [], _ => words_nil d
  | [x], h => by
    have h1 := h x (by simp)
    simp [List.intercalate, words, pieces_one x h1.2, h1.1]
  | x :: y :: r, h => by
    have h1 := h x (by simp)
    have e : [delim].intercalate (x :: y :: r) = x ++ delim :: [delim].intercalate (y :: r) := by
      simp [List.intercalate]
    have ih := words_join hd (y :: r) (fun f hf => h f (.tail _ hf))
    rw [words] at ih
    rw [e, words, pieces_mid hd x _ h1.2, List.filter_cons, ih]
    simp [h1.1]

theorem mem_intercalate {delim c : Byte} : ∀ {fs : List Bytes}, c ∈ [delim].intercalate fs → c = delim ∨ ∃ f ∈ fs, c ∈ f
  | [], h => by simp [List.intercalate] at h
  | [x], h => by simp [List.intercalate] at h; exact .inr ⟨x, by simp, h⟩
  | x :: y :: r, h => by
    have e : [delim].intercalate (x :: y :: r) = x ++ delim :: [delim].intercalate (y :: r) := by
      simp [List.intercalate]
    rw [e, List.mem_append, List.mem_cons] at h
    rcases h with h | h | h
    · exact .inr ⟨x, by simp, h⟩
    · exact .inl h
    · rcases mem_intercalate h with h | ⟨f, hf, h⟩
      · exact .inl h
      · exact .inr ⟨f, .tail _ hf, h⟩

theorem takeWhile_self {α : Type} {p : α → Bool} : ∀ {l : List α}, (∀ x ∈ l, p x = true) → l.takeWhile p = l
  | [], _ => rfl
  | x :: l, h => by
    rw [List.takeWhile_cons, if_pos (h x (by simp)), takeWhile_self fun y hy => h y (.tail _ hy)]

/-- C44: a text that can stand in a field. -/
def Field (cs ds t : Bytes) : Prop :=
  t ≠ [] ∧ ∀ c ∈ t, c ≠ 10 ∧ c ≠ 13 ∧ c ≠ 0 ∧ c ∉ cs ∧ c ∉ ds

/-- C44: write_table followed by read_formatted_data with the delimiter among the delimiters gives back
the headers and, in the same columns, the numbers as the C library reads them from what it wrote. -/
theorem C44_roundtrip (fmt : F64 → Bytes) (atof : Bytes → F64) (headers : List Bytes) (cols : List (List F64))
    (delim : Byte) (cs ds : Bytes) (n : Nat) (g : GC)
    (h0 : headers ≠ []) (hhl : headers.length < 2 ^ 32) (hn : n < 2 ^ 32)
    (hc : cols.length = headers.length) (hl : ∀ c ∈ cols, c.length = n)
    (hdel : delim ∈ ds ∧ delim ∉ cs ∧ delim ≠ 10)
    (hh : ∀ t ∈ headers, Field cs ds t) (hf : ∀ c ∈ cols, ∀ x ∈ c, Field cs ds (fmt x))
    (hd : g.exists (str "data") = false) (text : Bytes)
    (hw : write_table fmt headers (cols.map vecReal) delim = .ok text) (hlen : text.length + 2 < 2 ^ 32) :
    ∃ g', read_formatted_data atof text cs ds g = .ok g' () ∧
      call_key_c (str "headers") g' = .ok (vecString headers) ∧
      call_key_c (str "data") g' = .ok (vector (cols.map fun c => vecReal (c.map fun x => atof (fmt x)))) := by
  rw [C41_returns fmt headers cols delim n h0 hhl hn hc hl] at hw
  cases hw
  let d : Byte → Bool := fun c => ds.contains c
  let rows := (List.range n).map fun i => cols.map fun c => fmt (c.getD i ⟨0⟩)
  have hdd : d delim = true := List.contains_iff_mem.2 hdel.1
  have hfield : ∀ fs ∈ headers :: rows, ∀ t ∈ fs, Field cs ds t := by
    intro fs hfs t ht
    cases hfs with
    | head => exact hh t ht
    | tail _ hfs =>
      obtain ⟨i, hi, rfl⟩ := List.mem_map.1 hfs
      obtain ⟨c, hcm, rfl⟩ := List.mem_map.1 ht
      have hi' : i < c.length := by rw [hl c hcm]; exact List.mem_range.1 hi
      rw [List.getD_eq_getElem?_getD, List.getElem?_eq_getElem hi', Option.getD_some]
      exact hf c hcm _ (List.getElem_mem hi')
  have hne : ∀ fs ∈ headers :: rows, fs ≠ [] := by
    intro fs hfs
    cases hfs with
    | head => exact h0
    | tail _ hfs =>
      obtain ⟨i, hi, rfl⟩ := List.mem_map.1 hfs
      have := List.length_pos_iff.2 h0
      rw [← List.length_pos_iff, List.length_map]; omega
  have hchar : ∀ fs ∈ headers :: rows, ∀ c ∈ [delim].intercalate fs,
      c ≠ 10 ∧ c ∉ cs ∧ (c = 13 → (13 : Byte) ∈ ds) := by
    intro fs hfs c hcm
    rcases mem_intercalate hcm with rfl | ⟨t, ht, hct⟩
    · exact ⟨hdel.2.2, hdel.2.1, fun e => e ▸ hdel.1⟩
    · obtain ⟨a1, a2, a3, a4, a5⟩ := (hfield fs hfs t ht).2 c hct
      exact ⟨a1, a4, fun e => absurd e a2⟩
  have hwords : ∀ fs ∈ headers :: rows, words d ([delim].intercalate fs) = fs := by
    intro fs hfs
    refine words_join hdd fs fun t ht => ⟨(hfield fs hfs t ht).1, fun c hct => ?_⟩
    have := ((hfield fs hfs t ht).2 c hct).2.2.2.2
    cases e : d c with
    | false => rfl
    | true => exact absurd (List.contains_iff_mem.1 e) this
  have key := C36_table_partial atof ((headers :: rows).map fun fs => [delim].intercalate fs) cs ds g
    (fun l hm => by
      obtain ⟨fs, hfs, rfl⟩ := List.mem_map.1 hm
      exact fun hc => (hchar fs hfs 10 hc).1 rfl)
    (by
      by_cases h13 : (13 : Byte) ∈ ds
      · exact .inl h13
      · refine .inr fun l hm hc => ?_
        obtain ⟨fs, hfs, rfl⟩ := List.mem_map.1 hm
        exact h13 ((hchar fs hfs 13 hc).2.2 rfl))
    hlen hd
  have hkept : (((headers :: rows).map fun fs => [delim].intercalate fs).filter
      fun l => !l.any fun c => cs.contains c) = (headers :: rows).map fun fs => [delim].intercalate fs := by
    rw [List.filter_eq_self]
    intro l hm
    obtain ⟨fs, hfs, rfl⟩ := List.mem_map.1 hm
    rw [Bool.not_eq_true', List.any_eq_false]
    intro c hcm hcs
    exact (hchar fs hfs c hcm).2.1 (List.contains_iff_mem.1 hcs)
  have hrows : ((rows.map fun fs => [delim].intercalate fs).map (words d)).takeWhile (· ≠ []) = rows := by
    have e : (rows.map fun fs => [delim].intercalate fs).map (words d) = rows := by
      rw [List.map_map]
      refine (List.map_congr_left fun fs hfs => ?_).trans (List.map_id rows)
      exact hwords fs (.tail _ hfs)
    rw [e]
    refine takeWhile_self fun fs hfs => ?_
    simpa using hne fs (.tail _ hfs)
  have hhs := hwords headers (by simp)
  dsimp only at key
  rw [hkept] at key
  simp only [List.map_cons, List.headD_cons, List.tail_cons] at key
  simp only [d] at hhs hrows
  rw [hhs, hrows] at key
  obtain ⟨g', e1, e2, e3, _⟩ := key.1 (fun r hr => by
    obtain ⟨i, hi, rfl⟩ := List.mem_map.1 hr
    rw [List.length_map, hc])
  refine ⟨g', by simpa only [List.map_cons] using e1, e2, ?_⟩
  rw [e3]
  congr 2
  rw [tableCols, ← hc]
  apply List.ext_getElem
  · simp
  · intro j q1 q2
    have hj : j < cols.length := by simpa using q2
    simp only [List.getElem_map, List.getElem_range, column, rows, List.map_map]
    congr 1
    apply List.ext_getElem
    · simp [hl cols[j] (List.getElem_mem hj)]
    · intro i r1 r2
      have hi : i < cols[j].length := by simpa using r2
      have hz : ∀ c ∈ fmt cols[j][i], (c ≠ 0) :=
        fun c hcm => ((hf _ (List.getElem_mem hj) _ (List.getElem_mem hi)).2 c hcm).2.2.1
      have ht : (fmt cols[j][i]).takeWhile (· ≠ 0) = fmt cols[j][i] := by
        exact takeWhile_self (by simpa using hz)
      simp only [List.getElem_map, List.getElem_range, Function.comp, List.getD_eq_getElem?_getD,
        List.getElem?_map, List.getElem?_eq_getElem hj, Option.map_some, Option.getD_some,
        List.getElem?_eq_getElem hi, ht]

/-- A table with two columns of two numbers meets the conditions, with a library that writes every number
as `7`. -/
example : let fmt : F64 → Bytes := fun _ => str "7"
    (∀ t ∈ [str "a", str "b"], Field (str "#") (str " ,") t) ∧
    (∀ c ∈ [[(⟨1⟩ : F64), ⟨2⟩], [⟨3⟩, ⟨4⟩]], ∀ x ∈ c, Field (str "#") (str " ,") (fmt x)) ∧
    ((44 : Byte) ∈ str " ,") ∧ (44 : Byte) ∉ str "#" ∧ (44 : Byte) ≠ 10 := by
  have key : ∀ t ∈ [str "a", str "b", str "7"], t ≠ [] ∧
      ∀ c ∈ t, c ≠ 10 ∧ c ≠ 13 ∧ c ≠ 0 ∧ c ∉ str "#" ∧ c ∉ str " ," := by decide +kernel
  refine ⟨fun t ht => key t ?_, fun c _ x _ => key _ (by simp), by decide +kernel⟩
  simp at ht ⊢; rcases ht with h | h <;> simp [h]

end GC
end GCV
