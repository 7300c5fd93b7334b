import Verif.Spec.TableStream
import Verif.Props.TableWrite
import Verif.Model.CopyDest

/-!
# C111: exactly what write_table writes, also when an exception ends it
-/

namespace GCV
namespace GC

theorem setw_zero (f : Bytes) : setw 0 f = f := by simp [setw]

/-- The fields can be read from column `i` on. -/
def Fields (field : Nat → Out Bytes) (i : Nat) (fs : List Bytes) : Prop :=
  ∀ c t, fs[c]? = some t → field (i + c) = .ok t

theorem Fields.cons {field : Nat → Out Bytes} {i : Nat} {f : Bytes} {fs : List Bytes} :
    Fields field i (f :: fs) ↔ field i = .ok f ∧ Fields field (i + 1) fs := by
  constructor
  · intro h
    refine ⟨h 0 f rfl, fun c t hc => ?_⟩
    have := h (c + 1) t (by simpa using hc)
    rwa [show i + 1 + c = i + (c + 1) by omega]
  · rintro ⟨h1, h2⟩ c t hc
    cases c with
    | zero => simp at hc; subst hc; exact h1
    | succ c =>
      have := h2 c t (by simpa using hc)
      rwa [show i + (c + 1) = i + 1 + c by omega]

/-- What a loop gives that stops with the outcome `o`. -/
def stopsWith {α : Type} (o : Out α) (s : TStream) : Loop TStream :=
  match o with
  | .ok _ => .ok s
  | .throw => .throw s
  | .ub => .ub
  | .diverge => .diverge

theorem put_width (s : TStream) (wd : Option Nat) (h : s.width = 0) : (s.setWidth wd).width = wd.getD 0 := by
  cases wd
  · exact h
  · rfl

theorem put_text (s : TStream) (wd : Option Nat) : (s.setWidth wd).text = s.text := by cases wd <;> rfl

theorem put_field (s : TStream) (wd : Option Nat) (h : s.width = 0) (f : Bytes) :
    (s.setWidth wd).put f = ⟨s.text ++ setw (wd.getD 0) f, 0⟩ := by
  rw [TStream.put, put_width s wd h, put_text]

theorem put_sep (s : TStream) (h : s.width = 0) (f : Bytes) : s.put f = ⟨s.text ++ f, 0⟩ := by
  rw [TStream.put, h, setw_zero]

theorem setWidth_eq (t : Bytes) (wd : Option Nat) : TStream.setWidth wd ⟨t, 0⟩ = ⟨t, wd.getD 0⟩ := by cases wd <;> rfl

theorem putCells_ok (sep : Byte) (wd : Option Nat) (field : Nat → Out Bytes) : ∀ (fs : List Bytes) (i : Nat) (t : Bytes),
    Fields field i fs →
    putCells sep wd field i fs.length ⟨t, 0⟩ = .ok ⟨t ++ (fs.map fun f => sep :: setw (wd.getD 0) f).flatten, 0⟩
  | [], i, t, _ => by simp [putCells]
  | f :: fs, i, t, h => by
    obtain ⟨h1, h2⟩ := Fields.cons.1 h
    rw [List.length_cons, putCells]
    simp only [h1]
    rw [put_sep ⟨t, 0⟩ rfl, put_field _ wd rfl, putCells_ok sep wd field fs (i + 1) _ h2]
    simp

theorem putCells_bad (sep : Byte) (wd : Option Nat) (field : Nat → Out Bytes) (o : Out Bytes) (ho : ∀ t, o ≠ .ok t) :
    ∀ (fs : List Bytes) (i n : Nat) (t : Bytes), Fields field i fs → fs.length < n → field (i + fs.length) = o →
    putCells sep wd field i n ⟨t, 0⟩ =
      stopsWith o ⟨t ++ (fs.map fun f => sep :: setw (wd.getD 0) f).flatten ++ [sep], wd.getD 0⟩
  | [], i, n, t, _, hn, hf => by
    obtain ⟨n, rfl⟩ : ∃ k, n = k + 1 := ⟨n - 1, by simp at hn; omega⟩
    rw [putCells]
    simp only [List.length_nil, Nat.add_zero] at hf
    simp only [hf]
    rw [put_sep _ rfl, setWidth_eq]
    cases o with
    | ok t => exact absurd rfl (ho t)
    | _ => simp [stopsWith]
  | f :: fs, i, n, t, h, hn, hf => by
    obtain ⟨n, rfl⟩ : ∃ k, n = k + 1 := ⟨n - 1, by simp at hn; omega⟩
    obtain ⟨h1, h2⟩ := Fields.cons.1 h
    rw [putCells]
    simp only [h1]
    rw [put_sep ⟨t, 0⟩ rfl, put_field _ wd rfl, putCells_bad sep wd field o ho fs (i + 1) n _ h2 (by simp at hn; omega)
      (by rw [← hf, List.length_cons]; congr 1; omega)]
    simp

theorem line_cons (sep : Byte) (w : Nat) : ∀ (f : Bytes) (fs : List Bytes),
    tableLine sep w (f :: fs) = setw w f ++ (fs.map fun f => sep :: setw w f).flatten
  | f, [] => by simp [tableLine, List.intercalate]
  | f, g :: fs => by
    have := line_cons sep w g fs
    rw [tableLine] at this
    rw [tableLine, List.map_cons, List.map_cons]
    rw [List.map_cons] at this
    simp only [List.intercalate, List.intersperse_cons_cons, List.flatten_cons] at this ⊢
    rw [this]; simp

theorem part_cons (sep : Byte) (w : Nat) : ∀ (f : Bytes) (fs : List Bytes),
    ((f :: fs).map fun t => setw w t ++ [sep]).flatten = setw w f ++ (fs.map fun f => sep :: setw w f).flatten ++ [sep]
  | f, [] => by simp
  | f, g :: fs => by
    rw [List.map_cons, List.flatten_cons, part_cons sep w g fs]; simp

theorem putRow_ok (sep : Byte) (wd : Option Nat) (ncol : Nat) (field : Nat → Out Bytes) (fs : List Bytes) (t : Bytes)
    (h : Fields field 0 fs) (hl : fs.length = ncol) (h0 : 0 < ncol) :
    putRow sep wd ncol field ⟨t, 0⟩ = .ok ⟨t ++ tableLine sep (wd.getD 0) fs ++ [10], 0⟩ := by
  cases fs with
  | nil => simp at hl; omega
  | cons f fs =>
    obtain ⟨h1, h2⟩ := Fields.cons.1 h
    have hn : ncol - 1 = fs.length := by simp at hl; omega
    unfold putRow
    simp only [h1]
    rw [put_field _ wd rfl, hn, putCells_ok sep wd field fs _ _ h2, line_cons]
    simp only
    rw [put_sep _ rfl]; simp

theorem putRow_bad (sep : Byte) (wd : Option Nat) (ncol : Nat) (field : Nat → Out Bytes) (o : Out Bytes)
    (ho : ∀ t, o ≠ .ok t) (fs : List Bytes) (t : Bytes) (h : Fields field 0 fs) (hl : fs.length < ncol)
    (hf : field fs.length = o) :
    putRow sep wd ncol field ⟨t, 0⟩ =
      stopsWith o ⟨t ++ (fs.map fun t => setw (wd.getD 0) t ++ [sep]).flatten, wd.getD 0⟩ := by
  cases fs with
  | nil =>
    unfold putRow
    simp only [List.length_nil] at hf
    simp only [hf]
    rw [setWidth_eq]
    cases o with
    | ok t => exact absurd rfl (ho t)
    | _ => simp [stopsWith]
  | cons f fs =>
    obtain ⟨h1, h2⟩ := Fields.cons.1 h
    unfold putRow
    simp only [h1]
    rw [put_field _ wd rfl, putCells_bad sep wd field o ho fs _ (ncol - 1) _ h2 (by simp at hl; omega)
      (by rw [← hf, List.length_cons]; congr 1; omega), part_cons]
    cases o with
    | ok t => exact absurd rfl (ho t)
    | _ => simp [stopsWith]

/-- Rows that can be read from row `i` on. -/
def Lines (cell : Nat → Nat → Out Bytes) (ncol i : Nat) (rows : List (List Bytes)) : Prop :=
  ∀ r row, rows[r]? = some row → row.length = ncol ∧ Fields (cell (i + r)) 0 row

theorem Lines.cons {cell : Nat → Nat → Out Bytes} {ncol i : Nat} {f : List Bytes} {fs : List (List Bytes)} :
    Lines cell ncol i (f :: fs) ↔ (f.length = ncol ∧ Fields (cell i) 0 f) ∧ Lines cell ncol (i + 1) fs := by
  constructor
  · intro h
    refine ⟨h 0 f rfl, fun c t hc => ?_⟩
    have := h (c + 1) t (by simpa using hc)
    rwa [show i + 1 + c = i + (c + 1) by omega]
  · rintro ⟨h1, h2⟩ c t hc
    cases c with
    | zero => simp at hc; subst hc; exact h1
    | succ c =>
      have := h2 c t (by simpa using hc)
      rwa [show i + (c + 1) = i + 1 + c by omega]

theorem putRows_ok (sep : Byte) (wd : Option Nat) (ncol : Nat) (cell : Nat → Nat → Out Bytes) (h0 : 0 < ncol) :
    ∀ (rows : List (List Bytes)) (i : Nat) (t : Bytes), Lines cell ncol i rows →
    putRows sep wd ncol cell i rows.length ⟨t, 0⟩ = .ok ⟨t ++ unlines (rows.map (tableLine sep (wd.getD 0))), 0⟩
  | [], i, t, _ => by simp [putRows, unlines]
  | f :: fs, i, t, h => by
    obtain ⟨h1, h2⟩ := Lines.cons.1 h
    rw [List.length_cons, putRows, putRow_ok sep wd ncol (cell i) f t h1.2 h1.1 h0]
    simp only
    rw [putRows_ok sep wd ncol cell h0 fs (i + 1) _ h2]
    simp [unlines]

theorem putRows_bad (sep : Byte) (wd : Option Nat) (ncol : Nat) (cell : Nat → Nat → Out Bytes) (h0 : 0 < ncol)
    (o : Out Bytes) (ho : ∀ t, o ≠ .ok t) (part : List Bytes) :
    ∀ (rows : List (List Bytes)) (i n : Nat) (t : Bytes), Lines cell ncol i rows → rows.length < n →
    Fields (cell (i + rows.length)) 0 part → part.length < ncol → cell (i + rows.length) part.length = o →
    putRows sep wd ncol cell i n ⟨t, 0⟩ = stopsWith o ⟨t ++ textUpTo sep (wd.getD 0) rows part, wd.getD 0⟩
  | [], i, n, t, _, hn, hp, hl, hf => by
    obtain ⟨n, rfl⟩ : ∃ k, n = k + 1 := ⟨n - 1, by simp at hn; omega⟩
    rw [putRows, putRow_bad sep wd ncol (cell i) o ho part t hp hl hf]
    cases o with
    | ok t => exact absurd rfl (ho t)
    | _ => simp [stopsWith, textUpTo, unlines]
  | f :: fs, i, n, t, h, hn, hp, hl, hf => by
    obtain ⟨n, rfl⟩ : ∃ k, n = k + 1 := ⟨n - 1, by simp at hn; omega⟩
    obtain ⟨h1, h2⟩ := Lines.cons.1 h
    have e : i + (f :: fs).length = i + 1 + fs.length := by rw [List.length_cons]; omega
    rw [e] at hp hf
    rw [putRows, putRow_ok sep wd ncol (cell i) f t h1.2 h1.1 h0]
    simp only
    rw [putRows_bad sep wd ncol cell h0 o ho part fs (i + 1) n _ h2 (by simp at hn; omega) hp hl hf]
    cases o with
    | ok t => exact absurd rfl (ho t)
    | _ => simp [stopsWith, textUpTo, unlines]

theorem fields_or (field : Nat → Out Bytes) : ∀ (n i : Nat),
    (∃ fs, fs.length = n ∧ Fields field i fs) ∨
    (∃ fs, fs.length < n ∧ Fields field i fs ∧ ∀ t, field (i + fs.length) ≠ .ok t)
  | 0, i => .inl ⟨[], rfl, fun c t h => by simp at h⟩
  | n + 1, i => by
    cases hf : field i with
    | ok f =>
      rcases fields_or field n (i + 1) with ⟨fs, h1, h2⟩ | ⟨fs, h1, h2, h3⟩
      · exact .inl ⟨f :: fs, by simp [h1], Fields.cons.2 ⟨hf, h2⟩⟩
      · refine .inr ⟨f :: fs, by simp [h1], Fields.cons.2 ⟨hf, h2⟩, ?_⟩
        rw [List.length_cons, show i + (fs.length + 1) = i + 1 + fs.length by omega]
        exact h3
    | _ => exact .inr ⟨[], by simp, fun c t h => by simp at h, fun t => by simp [hf]⟩

theorem lines_or (cell : Nat → Nat → Out Bytes) (ncol : Nat) : ∀ (n i : Nat),
    (∃ rows, rows.length = n ∧ Lines cell ncol i rows) ∨
    (∃ rows part, rows.length < n ∧ Lines cell ncol i rows ∧ part.length < ncol ∧
      Fields (cell (i + rows.length)) 0 part ∧ ∀ t, cell (i + rows.length) part.length ≠ .ok t)
  | 0, i => .inl ⟨[], rfl, fun c t h => by simp at h⟩
  | n + 1, i => by
    rcases fields_or (cell i) ncol 0 with ⟨fs, h1, h2⟩ | ⟨fs, h1, h2, h3⟩
    · rcases lines_or cell ncol n (i + 1) with ⟨rows, g1, g2⟩ | ⟨rows, part, g1, g2, g3, g4, g5⟩
      · exact .inl ⟨fs :: rows, by simp [g1], Lines.cons.2 ⟨⟨h1, h2⟩, g2⟩⟩
      · refine .inr ⟨fs :: rows, part, by simp [g1], Lines.cons.2 ⟨⟨h1, h2⟩, g2⟩, g3, ?_, ?_⟩ <;>
          rw [List.length_cons, show i + (rows.length + 1) = i + 1 + rows.length by omega]
        · exact g4
        · exact g5
    · refine .inr ⟨[], fs, by simp, fun c t h => by simp at h, h1, h2, ?_⟩
      rw [Nat.zero_add] at h3
      exact h3

theorem readUpTo_of {cell : Nat → Nat → Out Bytes} {ncol : Nat} {rows : List (List Bytes)} {part : List Bytes}
    (h : Lines cell ncol 0 rows) (hp : Fields (cell rows.length) 0 part) :
    ReadUpTo cell ncol rows.length part.length rows part := by
  refine ⟨rfl, rfl, fun r row hr => ?_, fun c t hc => ?_⟩
  · obtain ⟨h1, h2⟩ := h r row hr
    rw [Nat.zero_add] at h2
    refine ⟨h1, fun c t hc => ?_⟩
    have := h2 c t hc
    rwa [Nat.zero_add] at this
  · have := hp c t hc
    rwa [Nat.zero_add] at this

/-- What follows the rows. -/
def endWith (tail : Bytes) : Loop TStream → Loop TStream
  | .ok s => .ok (s.put tail)
  | .throw s => .throw s
  | .ub => .ub
  | .diverge => .diverge

theorem writes_rows (sep : Byte) (wd : Option Nat) (ncol nrow : Nat) (cell shown : Nat → Nat → Out Bytes) (h0 : 0 < ncol)
    (hc : ∀ i j, cell i j = shown i j) (hd : ∀ i j, shown i j ≠ .diverge) (t tail : Bytes) :
    WritesRows sep (wd.getD 0) shown nrow ncol t tail (endWith tail (putRows sep wd ncol cell 0 nrow ⟨t, 0⟩)) := by
  have e : cell = shown := by funext i j; exact hc i j
  subst e
  rcases lines_or cell ncol nrow 0 with ⟨rows, h1, h2⟩ | ⟨rows, part, h1, h2, h3, h4, h5⟩
  · refine .inl ⟨rows, ?_, ?_⟩
    · subst h1
      exact readUpTo_of (part := []) h2 (fun c t h => by simp at h)
    · subst h1
      rw [putRows_ok sep wd ncol cell h0 rows 0 t h2]
      simp only [endWith, textUpTo]
      rw [put_sep _ rfl]; simp
  · rw [Nat.zero_add] at h4 h5
    refine .inr ⟨rows.length, part.length, rows, part, h1, h3, readUpTo_of h2 h4, ?_⟩
    rw [putRows_bad sep wd ncol cell h0 _ h5 part rows 0 nrow t h2 h1 (by rw [Nat.zero_add]; exact h4) h3
      (by rw [Nat.zero_add])]
    cases ho : cell rows.length part.length with
    | ok t => exact absurd ho (h5 t)
    | throw => exact .inl ⟨rfl, rfl⟩
    | ub => exact .inr ⟨rfl, rfl⟩
    | diverge => exact absurd ho (hd _ _)

theorem endWith_nil (r : Loop TStream) (h : ∀ s, r = .ok s → s.width = 0) : endWith [] r = r := by
  cases r with
  | ok s =>
    have := h s rfl
    cases s with
    | mk a b => simp only at this; subst this; simp only [endWith]; rw [put_sep _ rfl]; simp
  | _ => rfl

theorem getL_or {α : Type} (v : List α) (i : Nat) : getL v i = match v[i]? with | some x => .ok x | none => .ub := by
  unfold getL; split <;> simp_all

theorem number_at_total (i : Nat) (c : GC) : get_number_at i c ≠ .diverge := by
  have h : ∀ {α : Type} (v : List α) (f : α → Out F64), (∀ x, f x ≠ .diverge) → ((getL v i).bind f) ≠ .diverge := by
    intro α v f hf
    rw [getL_or]
    cases v[i]? with
    | some x => exact hf x
    | none => simp [Out.bind]
  have h' : ∀ (v : List F64), getL v i ≠ .diverge := by
    intro v; rw [getL_or]; cases v[i]? <;> simp
  cases c with
  | vector v => exact h v _ (fun x => by cases x <;> simp [get_number])
  | vecBool v => exact h v _ (fun x => by simp)
  | vecInt v => exact h v _ (fun x => by simp)
  | vecLong v => exact h v _ (fun x => by simp)
  | vecReal v => exact h' v
  | matInt v => exact h v.data _ (fun x => by simp)
  | matLong v => exact h v.data _ (fun x => by simp)
  | matReal v => exact h' v.data
  | _ => simp [get_number_at]

theorem columnCell_shown (fmt : F64 → Bytes) (data : List GC) (i j : Nat) :
    columnCell fmt data i j = shownColumn fmt data i j := by
  unfold columnCell shownColumn
  rw [getL_or]
  cases data[j]? with
  | none => rfl
  | some c =>
    simp only [Out.bind]
    have := number_at_total i c
    cases h : get_number_at i c with
    | diverge => exact absurd h this
    | _ => rfl

theorem shownColumn_total (fmt : F64 → Bytes) (data : List GC) (i j : Nat) : shownColumn fmt data i j ≠ .diverge := by
  unfold shownColumn
  split
  · simp
  · split <;> simp

theorem matrixCell_shown (fmt : F64 → Bytes) (m : Mat F64) (i j : Nat) :
    matrixCell fmt m i j = shownCell fmt m i j := by
  unfold matrixCell shownCell Mat.get Mat.index u32
  by_cases h : (i + j * m.nr) % 2 ^ 32 < m.data.length
  · simp [h, getL, Out.bind]
  · simp [h, getL, Out.bind]

theorem shownCell_total (fmt : F64 → Bytes) (m : Mat F64) (i j : Nat) : shownCell fmt m i j ≠ .diverge := by
  unfold shownCell
  split <;> simp

theorem fields_take (v : List Bytes) (n : Nat) : Fields (getL v) 0 (v.take n) := by
  intro c t h
  rw [Nat.zero_add, getL_or]
  have hc : c < n := by
    rcases Nat.lt_or_ge c n with h' | h'
    · exact h'
    · rw [List.getElem?_take_eq_none h'] at h; simp at h
  rw [List.getElem?_take_of_lt hc] at h
  rw [h]

theorem putRows_width (sep : Byte) (wd : Option Nat) (ncol : Nat) (cell : Nat → Nat → Out Bytes) (h0 : 0 < ncol)
    (n : Nat) (t : Bytes) (s : TStream) (h : putRows sep wd ncol cell 0 n ⟨t, 0⟩ = .ok s) : s.width = 0 := by
  rcases lines_or cell ncol n 0 with ⟨rows, h1, h2⟩ | ⟨rows, part, h1, h2, h3, h4, h5⟩
  · subst h1
    rw [putRows_ok sep wd ncol cell h0 rows 0 t h2] at h
    injection h with h; subst h; rfl
  · rw [Nat.zero_add] at h4 h5
    rw [putRows_bad sep wd ncol cell h0 _ h5 part rows 0 n t h2 h1 (by rw [Nat.zero_add]; exact h4) h3
      (by rw [Nat.zero_add])] at h
    cases ho : cell rows.length part.length with
    | ok t => exact absurd ho (h5 t)
    | _ => rw [ho] at h; simp [stopsWith] at h

/-- **C111**, `write_table` for columns, on a stream that holds `t`: the headers, then the rows; without headers or columns
undefined. -/
theorem C111_columns (fmt : F64 → Bytes) (headers : List Bytes) (data : List GC) (delim : Byte) (t : Bytes)
    (hh : headers.length < 2 ^ 32) :
    (headers = [] ∨ data = [] → write_table_to fmt headers data delim ⟨t, 0⟩ = .ub) ∧
    (∀ d0 rest, headers ≠ [] → data = d0 :: rest →
      WritesRows delim 0 (shownColumn fmt data) d0.get_num_elements headers.length
        (t ++ [delim].intercalate headers ++ [10]) [] (write_table_to fmt headers data delim ⟨t, 0⟩)) := by
  constructor
  · rintro (rfl | rfl)
    · cases data <;> rfl
    · rfl
  · rintro d0 rest hne rfl
    have hpos : 0 < headers.length := List.length_pos_iff.2 hne
    unfold write_table_to
    simp only [getL, List.getElem?_cons_zero]
    have hrow := putRow_ok delim none headers.length (getL headers) headers t
      (by have := fields_take headers headers.length; rwa [List.take_length] at this) rfl hpos
    have hl : tableLine delim 0 headers = [delim].intercalate headers := by
      rw [tableLine]; congr 1
      rw [show setw 0 = id from funext setw_zero]; simp
    rw [u32_of_lt hh]
    change WritesRows _ _ _ _ _ _ _ (match putRow delim none headers.length (getL headers) ⟨t, 0⟩ with
      | .ok s => putRows delim none headers.length (columnCell fmt (d0 :: rest)) 0 d0.get_num_elements s
      | .throw s => .throw s
      | .ub => .ub
      | .diverge => .diverge)
    rw [hrow]
    simp only [Option.getD_none]
    rw [hl, ← endWith_nil (putRows _ _ _ _ _ _ _) (putRows_width _ _ _ _ hpos _ _)]
    exact writes_rows delim none headers.length d0.get_num_elements _ _ hpos (columnCell_shown fmt _)
      (shownColumn_total fmt _) _ []

/-- **C111**, `write_table` for a matrix: as many headers as there are columns (one when there is none); undefined when
there are less. -/
theorem C111_matrix (fmt : F64 → Bytes) (headers : List Bytes) (m : Mat F64) (delim : Byte) (t : Bytes) :
    (headers.length < max m.nc 1 → write_table_mat_to fmt headers m delim ⟨t, 0⟩ = .ub) ∧
    (max m.nc 1 ≤ headers.length →
      WritesRows delim 0 (shownCell fmt m) m.nr (max m.nc 1)
        (t ++ [delim].intercalate (headers.take (max m.nc 1)) ++ [10]) [] (write_table_mat_to fmt headers m delim ⟨t, 0⟩)) := by
  have h1 : ∀ field s, putRow delim none m.nc field s = putRow delim none (max m.nc 1) field s := by
    intro field s
    unfold putRow
    rw [show m.nc - 1 = max m.nc 1 - 1 by omega]
  have h2 : ∀ cell n i s, putRows delim none m.nc cell i n s = putRows delim none (max m.nc 1) cell i n s := by
    intro cell n
    induction n with
    | zero => intro i s; rfl
    | succ n ih =>
      intro i s
      rw [putRows, putRows, h1]
      cases putRow delim none (max m.nc 1) (cell i) s with
      | ok s' => exact ih (i + 1) s'
      | _ => rfl
  generalize hN : max m.nc 1 = N at *
  have hpos : 0 < N := by omega
  constructor
  · intro h
    unfold write_table_mat_to
    rw [h1, putRow_bad delim none N (getL headers) .ub (by simp) headers t
      (by have := fields_take headers headers.length; rwa [List.take_length] at this) h (by simp [getL])]
    rfl
  · intro h
    unfold write_table_mat_to
    rw [h1, putRow_ok delim none N (getL headers) (headers.take N) t (fields_take headers N)
      (by rw [List.length_take]; omega) hpos]
    simp only [h2, Option.getD_none]
    have hl : tableLine delim 0 (headers.take N) = [delim].intercalate (headers.take N) := by
      rw [tableLine]; congr 1
      rw [show setw 0 = id from funext setw_zero]; simp
    rw [hl, ← endWith_nil (putRows _ _ _ _ _ _ _) (putRows_width _ _ _ _ hpos _ _)]
    exact writes_rows delim none N m.nr _ _ hpos (matrixCell_shown fmt _) (shownCell_total fmt _) _ []

/-- The width of the columns of a formatted table: that of the longest header, at least 8 and at most 20. -/
theorem widthOf_clamp (headers : List Bytes) (h : ∀ x ∈ headers, x.length < 2 ^ 32) :
    widthOf headers = min 20 (max 8 ((headers.map List.length).foldl max 0)) := by
  have key : ∀ (l : List Bytes) (a : Nat), (∀ x ∈ l, x.length < 2 ^ 32) →
      l.foldl (fun ml h => if ml < h.length then u32 h.length else ml) a = (l.map List.length).foldl max a := by
    intro l
    induction l with
    | nil => intro a _; rfl
    | cons x l ih =>
      intro a hl
      rw [List.foldl_cons, List.map_cons, List.foldl_cons, ← ih _ (fun y hy => hl y (by simp [hy]))]
      congr 1
      rw [u32_of_lt (hl x (by simp))]
      split <;> omega
  unfold widthOf
  rw [key headers 0 h]
  dsimp only
  generalize (headers.map List.length).foldl max 0 = k
  split
  · omega
  · split <;> omega

theorem formatted_rows (headers : List Bytes) (ncol nrow : Nat) (cell shown : Nat → Nat → Out Bytes) (h0 : 0 < ncol)
    (hne : headers ≠ []) (hc : ∀ i j, cell i j = shown i j) (hd : ∀ i j, shown i j ≠ .diverge) (t : Bytes) :
    WritesRows 32 (widthOf headers) shown nrow ncol
      (t ++ tableLine 32 (widthOf headers) (headers.map cstr) ++ [10] ++ ruler ncol (widthOf headers))
      (ruler ncol (widthOf headers)) (writeFormattedTo headers ncol nrow cell ⟨t, 0⟩) := by
  have hpos : 0 < headers.length := List.length_pos_iff.2 hne
  unfold writeFormattedTo
  simp only
  rw [putRow_ok 32 (some (widthOf headers)) headers.length _ (headers.map cstr) t ?_ (by simp) hpos]
  · simp only
    rw [put_sep _ rfl]
    exact writes_rows 32 (some (widthOf headers)) ncol nrow cell shown h0 hc hd _ _
  · intro c x hx
    simp only [Nat.zero_add]
    rw [getL_or]
    rw [List.getElem?_map] at hx
    cases hg : headers[c]? with
    | none => rw [hg] at hx; simp at hx
    | some y => rw [hg] at hx; simp at hx; subst hx; rfl

/-- **C111**, `write_table_formatted` for columns. -/
theorem C111_formatted (fmt : F64 → Bytes) (headers : List Bytes) (data : List GC) (t : Bytes)
    (hh : headers.length < 2 ^ 32) :
    (data = [] → write_table_formatted_to fmt headers data ⟨t, 0⟩ = .ub) ∧
    (headers = [] → data ≠ [] → write_table_formatted_to fmt headers data ⟨t, 0⟩ = .ok ⟨t, 0⟩) ∧
    (∀ d0 rest, headers ≠ [] → data = d0 :: rest →
      WritesRows 32 (widthOf headers) (shownColumn fmt data) d0.get_num_elements headers.length
        (t ++ tableLine 32 (widthOf headers) (headers.map cstr) ++ [10] ++ ruler headers.length (widthOf headers))
        (ruler headers.length (widthOf headers)) (write_table_formatted_to fmt headers data ⟨t, 0⟩)) := by
  refine ⟨?_, ?_, ?_⟩
  · rintro rfl; rfl
  · rintro rfl hd
    cases data with
    | nil => exact absurd rfl hd
    | cons x r => rfl
  · rintro d0 rest hne rfl
    have hpos : 0 < headers.length := List.length_pos_iff.2 hne
    unfold write_table_formatted_to
    rw [u32_of_lt hh]
    simp only [getL, List.getElem?_cons_zero]
    rw [if_neg (by omega)]
    exact formatted_rows headers headers.length d0.get_num_elements _ _ hpos hne (columnCell_shown fmt _)
      (shownColumn_total fmt _) t

/-- **C111**, `write_table_formatted` for a matrix: all the headers are written, whatever the number of columns. -/
theorem C111_formatted_matrix (fmt : F64 → Bytes) (headers : List Bytes) (m : Mat F64) (t : Bytes) :
    (m.nc = 0 → write_table_formatted_mat_to fmt headers m ⟨t, 0⟩ = .ok ⟨t, 0⟩) ∧
    (m.nc ≠ 0 → headers = [] → write_table_formatted_mat_to fmt headers m ⟨t, 0⟩ = .ub) ∧
    (m.nc ≠ 0 → headers ≠ [] →
      WritesRows 32 (widthOf headers) (shownCell fmt m) m.nr m.nc
        (t ++ tableLine 32 (widthOf headers) (headers.map cstr) ++ [10] ++ ruler m.nc (widthOf headers))
        (ruler m.nc (widthOf headers)) (write_table_formatted_mat_to fmt headers m ⟨t, 0⟩)) := by
  refine ⟨?_, ?_, ?_⟩
  · intro h; rw [write_table_formatted_mat_to, if_pos h]
  · rintro h rfl; rw [write_table_formatted_mat_to, if_neg h]; rfl
  · intro h hne
    rw [write_table_formatted_mat_to, if_neg h]
    exact formatted_rows headers m.nc m.nr _ _ (by omega) hne (matrixCell_shown fmt _) (shownCell_total fmt _) t

/-! ## The functions of `Model/Support` -/

theorem putCells_result (sep : Byte) (wd : Option Nat) (field F : Nat → Out Bytes)
    (hF : ∀ i, F i = (field i).bind fun f => .ok (setw (wd.getD 0) f)) : ∀ (n i : Nat) (t : Bytes),
    (putCells sep wd field i n ⟨t, 0⟩).result =
      (collect F i n).bind fun fs => .ok ⟨t ++ (fs.map (sep :: ·)).flatten, 0⟩
  | 0, i, t => by simp [putCells, collect, Loop.result, Out.bind]
  | n + 1, i, t => by
    rw [putCells, collect, hF]
    cases field i with
    | ok f =>
      have ih := putCells_result sep wd field F hF n (i + 1) (t ++ [sep] ++ setw (wd.getD 0) f)
      simp only [Out.bind] at ih ⊢
      rw [put_sep ⟨t, 0⟩ rfl, put_field _ wd rfl, ih]
      cases collect F (i + 1) n <;> simp
    | _ => rfl

theorem joinFields_cons (sep : Byte) : ∀ (f : Bytes) (fs : List Bytes),
    joinFields sep (f :: fs) = f ++ (fs.map (sep :: ·)).flatten
  | f, [] => by simp [joinFields]
  | f, g :: fs => by
    rw [joinFields.eq_def]
    simp only
    rw [joinFields_cons sep g fs]; simp

theorem putRow_result (sep : Byte) (wd : Option Nat) (ncol : Nat) (field F : Nat → Out Bytes)
    (hF : ∀ i, F i = (field i).bind fun f => .ok (setw (wd.getD 0) f)) (t : Bytes) :
    (putRow sep wd ncol field ⟨t, 0⟩).result = (writeLine sep ncol F).bind fun l => .ok ⟨t ++ l, 0⟩ := by
  obtain ⟨k, hk⟩ : ∃ k, max ncol 1 = k + 1 := ⟨max ncol 1 - 1, by omega⟩
  have hk' : ncol - 1 = k := by omega
  unfold putRow writeLine
  rw [hk, hk', collect, hF]
  cases field 0 with
  | ok f =>
    simp only [Out.bind]
    rw [put_field _ wd rfl]
    have h := putCells_result sep wd field F hF k 1 (t ++ setw (wd.getD 0) f)
    simp only [Out.bind] at h
    revert h
    cases putCells sep wd field 1 k ⟨t ++ setw (wd.getD 0) f, 0⟩ <;> cases collect F (0 + 1) k <;> intro h <;>
      simp [Loop.result] at h ⊢
    subst h
    rw [put_sep _ rfl]
    simp [joinFields_cons]
  | _ => rfl

theorem putRows_result (sep : Byte) (wd : Option Nat) (ncol : Nat) (cell F : Nat → Nat → Out Bytes)
    (hF : ∀ r i, F r i = (cell r i).bind fun f => .ok (setw (wd.getD 0) f)) : ∀ (n i : Nat) (t : Bytes),
    (putRows sep wd ncol cell i n ⟨t, 0⟩).result =
      (collect (fun r => writeLine sep ncol (F r)) i n).bind fun rows => .ok ⟨t ++ rows.flatten, 0⟩
  | 0, i, t => by simp [putRows, collect, Loop.result, Out.bind]
  | n + 1, i, t => by
    rw [putRows, collect]
    have h := putRow_result sep wd ncol (cell i) (F i) (hF i) t
    revert h
    cases writeLine sep ncol (F i) with
    | ok l =>
      cases putRow sep wd ncol (cell i) ⟨t, 0⟩ with
      | ok s =>
        intro h
        simp only [Loop.result, Out.bind, Out.ok.injEq] at h
        subst h
        have ih := putRows_result sep wd ncol cell F hF n (i + 1) (t ++ l)
        simp only [Out.bind] at ih ⊢
        rw [ih]
        cases collect (fun r => writeLine sep ncol (F r)) (i + 1) n <;> simp
      | _ => simp [Loop.result, Out.bind]
    | _ =>
      cases putRow sep wd ncol (cell i) ⟨t, 0⟩ <;> simp [Loop.result, Out.bind]

theorem formatted_result (headers : List Bytes) (ncol nrow : Nat) (cell F : Nat → Nat → Out Bytes) (t : Bytes)
    (hF : ∀ r i, F r i = (cell r i).bind fun f => .ok (setw (widthOf headers) f)) :
    (writeFormattedTo headers ncol nrow cell ⟨t, 0⟩).result =
      ((headLine (widthOf headers) headers).bind fun h => (collect (fun r => writeLine 32 ncol (F r)) 0 nrow).bind
        fun rows => .ok (h ++ ruler ncol (widthOf headers) ++ rows.flatten ++ ruler ncol (widthOf headers))).bind
          fun x => .ok ⟨t ++ x, 0⟩ := by
  unfold writeFormattedTo
  cases headers with
  | nil => rfl
  | cons a r =>
    generalize hh : a :: r = headers at *
    have hpos : 0 < headers.length := by rw [← hh]; simp
    have hl : headLine (widthOf headers) headers =
        .ok (joinFields 32 (headers.map fun h => setw (widthOf headers) (cstr h)) ++ [10]) := by rw [← hh]; rfl
    rw [hl]
    have hrow := putRow_ok 32 (some (widthOf headers)) headers.length
      (fun i => (getL headers i).bind fun h => .ok (cstr h)) (headers.map cstr) t (by
        intro c x hx
        simp only [Nat.zero_add]
        rw [getL_or]
        rw [List.getElem?_map] at hx
        cases hg : headers[c]? with
        | none => rw [hg] at hx; simp at hx
        | some y => rw [hg] at hx; simp at hx; subst hx; rfl) (by simp) hpos
    simp only
    rw [hrow]
    simp only
    rw [put_sep _ rfl]
    have ht : tableLine 32 ((some (widthOf headers)).getD 0) (headers.map cstr) =
        joinFields 32 (headers.map fun h => setw (widthOf headers) (cstr h)) := by
      rw [tableLine, joinFields_eq, List.map_map]; rfl
    rw [ht]
    have h := putRows_result 32 (some (widthOf headers)) ncol cell F hF nrow 0
      (t ++ joinFields 32 (headers.map fun h => setw (widthOf headers) (cstr h)) ++ [10] ++ ruler ncol (widthOf headers))
    simp only [Out.bind] at h ⊢
    revert h
    cases putRows 32 (some (widthOf headers)) ncol cell 0 nrow ⟨t ++ joinFields 32 (headers.map fun h => setw (widthOf headers) (cstr h)) ++ [10] ++ ruler ncol (widthOf headers), 0⟩ <;>
      cases collect (fun r => writeLine 32 ncol (F r)) 0 nrow <;> intro h <;> simp [Loop.result] at h ⊢
    subst h
    rw [put_sep _ rfl]; simp

/-- **C111**: the fields of a formatted table have the width of the longest header, at least 8 and at most 20; the rulers
are as long as a line of such fields. -/
theorem C111_width (headers : List Bytes) (h : ∀ x ∈ headers, x.length < 2 ^ 32) (n w : Nat) (hn : 0 < n)
    (hw : n * (w + 1) ≤ 2 ^ 32) :
    widthOf headers = min 20 (max 8 ((headers.map List.length).foldl max 0)) ∧
    (∀ fields : List Bytes, fields.length = n → (∀ f ∈ fields, f.length ≤ w) →
      ruler n w = List.replicate (tableLine 32 w fields).length 45 ++ [10]) := by
  refine ⟨widthOf_clamp headers h, fun fields hl hf => ?_⟩
  have key : ∀ (fs : List Bytes) (f : Bytes), (∀ x ∈ f :: fs, x.length ≤ w) →
      (tableLine 32 w (f :: fs)).length + 1 = (fs.length + 1) * (w + 1) := by
    intro fs
    induction fs with
    | nil => intro f hx; have := hx f (by simp); simp [tableLine, setw]; omega
    | cons g fs ih =>
      intro f hx
      have h1 := ih g (fun x hm => hx x (List.mem_cons_of_mem _ hm))
      have h2 := hx f (by simp)
      rw [tableLine] at h1 ⊢
      rw [← joinFields_eq] at h1 ⊢
      simp only [List.map_cons, joinFields, List.length_append, List.length_cons] at h1 ⊢
      rw [Nat.add_mul]
      simp only [setw, List.length_append, List.length_replicate] at h1 ⊢
      omega
  cases fields with
  | nil => simp at hl; omega
  | cons f fs =>
    have := key fs f hf
    simp at hl
    rw [hl] at this
    rw [ruler, u32, Nat.mod_eq_of_lt (by omega), show n * (w + 1) - 1 = (tableLine 32 w (f :: fs)).length by omega]

example : C111_width [[65], [66, 67]] (by decide) 2 8 (by decide) (by decide) = C111_width _ (by decide) _ _ (by decide) (by decide) ∧
    ruler 2 8 = List.replicate 17 45 ++ [10] ∧ widthOf [[65], [66, 67]] = 8 := ⟨rfl, by decide +kernel, by decide +kernel⟩

/-- **C111**: without its stream the outcome is that of C41. -/
theorem C111_result (fmt : F64 → Bytes) (headers : List Bytes) (data : List GC) (m : Mat F64) (delim : Byte) (t : Bytes) :
    (write_table_to fmt headers data delim ⟨t, 0⟩).result =
      ((write_table fmt headers data delim).bind fun x => .ok ⟨t ++ x, 0⟩) ∧
    (write_table_mat_to fmt headers m delim ⟨t, 0⟩).result =
      ((write_table_mat fmt headers m delim).bind fun x => .ok ⟨t ++ x, 0⟩) ∧
    (write_table_formatted_to fmt headers data ⟨t, 0⟩).result =
      ((write_table_formatted fmt headers data).bind fun x => .ok ⟨t ++ x, 0⟩) ∧
    (write_table_formatted_mat_to fmt headers m ⟨t, 0⟩).result =
      ((write_table_formatted_mat fmt headers m).bind fun x => .ok ⟨t ++ x, 0⟩) := by
  have hz : ∀ o : Out Bytes, (o.bind fun f => .ok (setw ((none : Option Nat).getD 0) f)) = o := by
    intro o; cases o <;> simp [Out.bind, setw_zero]
  have plain : ∀ (ncol nrow : Nat) (field : Nat → Out Bytes) (cell : Nat → Nat → Out Bytes),
      (match putRow delim none ncol field ⟨t, 0⟩ with
        | .ok s => putRows delim none ncol cell 0 nrow s
        | .throw s => .throw s
        | .ub => .ub
        | .diverge => .diverge).result =
      ((writeLine delim ncol field).bind fun h => (collect (fun r => writeLine delim ncol (cell r)) 0 nrow).bind
        fun rows => .ok (h ++ rows.flatten)).bind fun x => .ok ⟨t ++ x, 0⟩ := by
    intro ncol nrow field cell
    have h1 := putRow_result delim none ncol field field (fun i => (hz _).symm) t
    revert h1
    cases writeLine delim ncol field with
    | ok l =>
      cases putRow delim none ncol field ⟨t, 0⟩ with
      | ok s =>
        intro h
        simp only [Loop.result, Out.bind, Out.ok.injEq] at h
        subst h
        have h2 := putRows_result delim none ncol cell cell (fun r i => (hz _).symm) nrow 0 (t ++ l)
        simp only [Out.bind] at h2 ⊢
        rw [h2]
        cases collect (fun r => writeLine delim ncol (cell r)) 0 nrow <;> simp
      | _ => simp [Loop.result, Out.bind]
    | _ => cases putRow delim none ncol field ⟨t, 0⟩ <;> simp [Loop.result, Out.bind]
  have cw : ∀ (w : Nat) (r i : Nat), ((getL data i).bind fun c => (get_number_at r c).bind fun x => Out.ok (setw w (fmt x))) =
      (columnCell fmt data r i).bind fun f => .ok (setw w f) := by
    intro w r i
    unfold columnCell
    cases getL data i with
    | ok c => simp only [Out.bind]; cases get_number_at r c <;> rfl
    | _ => rfl
  have mw : ∀ (w : Nat) (r i : Nat), ((m.get r i).bind fun x => Out.ok (setw w (fmt x))) =
      (matrixCell fmt m r i).bind fun f => .ok (setw w f) := by
    intro w r i
    unfold matrixCell
    cases m.get r i <;> rfl
  refine ⟨?_, plain m.nc m.nr (getL headers) (matrixCell fmt m), ?_, ?_⟩
  · unfold write_table_to write_table
    cases data with
    | nil => rfl
    | cons d0 r => exact plain (u32 headers.length) d0.get_num_elements (getL headers) (columnCell fmt (d0 :: r))
  · unfold write_table_formatted_to write_table_formatted
    cases data with
    | nil => rfl
    | cons d0 r =>
      simp only [getL, List.getElem?_cons_zero, Out.bind]
      by_cases h : u32 headers.length = 0
      · rw [if_pos h, if_pos h]; simp [Loop.result]
      · rw [if_neg h, if_neg h]
        exact formatted_result headers _ _ _ _ t (cw _)
  · unfold write_table_formatted_mat_to write_table_formatted_mat
    by_cases h : m.nc = 0
    · rw [if_pos h, if_pos h]; simp [Loop.result, Out.bind]
    · rw [if_neg h, if_neg h]
      exact formatted_result headers _ _ _ _ t (mw _)

/-- **C111**: `write_formatted_data` writes the table in the fields `headers` and `data` of a map; on any other content it
throws and writes nothing. -/
theorem C111_container (fmt : F64 → Bytes) (delim : Byte) (s : TStream) :
    (∀ m headers mat, mfind (str "headers") m = some (vecString headers) → mfind (str "data") m = some (matReal mat) →
      write_formatted_data_to fmt delim (map m) s = write_table_mat_to fmt headers mat delim s) ∧
    (∀ m headers data, mfind (str "headers") m = some (vecString headers) → mfind (str "data") m = some (vector data) →
      write_formatted_data_to fmt delim (map m) s = write_table_to fmt headers data delim s) ∧
    (∀ g, (∀ m headers data, g = map m → mfind (str "headers") m = some (vecString headers) →
        mfind (str "data") m = some data → (∀ x, data ≠ matReal x) ∧ ∀ x, data ≠ vector x) →
      write_formatted_data_to fmt delim g s = .throw s) ∧
    (∀ g t, (write_formatted_data_to fmt delim g ⟨t, 0⟩).result =
      (write_formatted_data fmt delim g).bind fun x => .ok ⟨t ++ x, 0⟩) := by
  have ch : cstr (str "headers") = str "headers" := by decide +kernel
  have cd : cstr (str "data") = str "data" := by decide +kernel
  refine ⟨?_, ?_, ?_, ?_⟩
  · intro m headers mat h1 h2
    simp [write_formatted_data_to, GC.exists, call_key_c, ch, cd, h1, h2, Out.bind, get_vec_string]
  · intro m headers data h1 h2
    simp [write_formatted_data_to, GC.exists, call_key_c, ch, cd, h1, h2, Out.bind, get_vec_string, get_vector]
  · intro g hg
    cases g with
    | map m =>
      cases h1 : mfind (str "headers") m with
      | none => simp [write_formatted_data_to, GC.exists, ch, h1]
      | some h =>
        cases h2 : mfind (str "data") m with
        | none => simp [write_formatted_data_to, GC.exists, ch, cd, h2]
        | some d =>
          cases h with
          | vecString headers =>
            have := hg m headers d rfl h1 h2
            cases d with
            | matReal x => exact absurd rfl (this.1 x)
            | vector x => exact absurd rfl (this.2 x)
            | _ => simp [write_formatted_data_to, GC.exists, call_key_c, ch, cd, h1, h2, Out.bind, get_vec_string, get_vector]
          | _ => simp [write_formatted_data_to, GC.exists, call_key_c, ch, cd, h1, h2, Out.bind, get_vec_string]
    | _ => simp [write_formatted_data_to, GC.exists]
  · intro g t
    unfold write_formatted_data_to write_formatted_data
    split
    · split
      · cases call_key_c (str "data") g with
        | ok d =>
          cases call_key_c (str "headers") g with
          | ok h =>
            simp only [Out.bind]
            cases get_vec_string h with
            | ok headers =>
              have r1 := fun m => (C111_result fmt headers [] m delim t).2.1
              have r2 := fun v => (C111_result fmt headers v ⟨0, 0, []⟩ delim t).1
              simp only [Out.bind] at r1 r2
              cases d with
              | matReal m => simp only; exact r1 m
              | vector v => simp only [get_vector]; exact r2 v
              | _ => rfl
            | _ => rfl
          | _ => rfl
        | _ => rfl
      · rfl
    · rfl

/-- Both fields are there. -/
example (x : F64) : ∃ m : Entries, mfind (str "headers") m = some (vecString [[65]]) ∧
    mfind (str "data") m = some (vector [vecReal [x]]) :=
  ⟨[(str "data", vector [vecReal [x]]), (str "headers", vecString [[65]])], by
    have h : (str "headers" = str "data") ↔ False := by decide +kernel
    constructor <;> simp [mfind, h]⟩

/-- The second column has a string in its second position: the first row is there and the beginning of the second, and what
goes on. -/
example (fmt : F64 → Bytes) (x : F64) :
    write_table_to fmt [[65], [66]] [vector [real x, real x], vector [real x, string [65]]] 44 ⟨[], 0⟩ =
      .throw ⟨[65, 44, 66, 10] ++ (fmt x ++ 44 :: fmt x ++ [10]) ++ (fmt x ++ [44]), 0⟩ ∧
    ReadUpTo (shownColumn fmt [vector [real x, real x], vector [real x, string [65]]]) 2 1 1 [[fmt x, fmt x]] [fmt x] ∧
    shownColumn fmt [vector [real x, real x], vector [real x, string [65]]] 1 1 = .throw := by
  refine ⟨?_, ⟨rfl, rfl, ?_, ?_⟩, rfl⟩
  · simp [write_table_to, getL, putRow, putRows, putCells, columnCell, TStream.put, TStream.setWidth, setw, u32,
      get_num_elements, get_number_at, get_number, Out.bind]
  · intro r row h
    match r, h with
    | 0, h =>
      simp at h; subst h
      refine ⟨rfl, fun c t h => ?_⟩
      match c, h with
      | 0, h => simp at h; subst h; rfl
      | 1, h => simp at h; subst h; rfl
  · intro c t h
    match c, h with
    | 0, h => simp at h; subst h; rfl

/-- In a formatted table the next field stays padded after the exception. -/
example (fmt : F64 → Bytes) :
    write_table_formatted_to fmt [[65]] [vector [string [66]]] ⟨[], 0⟩ =
      .throw ⟨str "       A\n--------\n", 8⟩ := by
  have h : ∀ cell : Nat → Nat → Out Bytes, cell 0 0 = .throw →
      writeFormattedTo [[65]] 1 1 cell ⟨[], 0⟩ = .throw ⟨str "       A\n--------\n", 8⟩ := by
    intro cell hc
    have e : ∀ s, putRows 32 (some 8) 1 cell 0 1 s = .throw (s.setWidth (some 8)) := by
      intro s; simp [putRows, putRow, hc, TStream.setWidth]
    have hw : widthOf [[65]] = 8 := by decide +kernel
    unfold writeFormattedTo
    rw [hw]
    simp only [putRow, putCells, getL, Out.bind, e, List.length_singleton]
    decide +kernel
  exact h (columnCell fmt [vector [string [66]]]) rfl

end GC
end GCV
