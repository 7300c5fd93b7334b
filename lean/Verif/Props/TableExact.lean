import Verif.Spec.TableRead
import Verif.Props.Table
import Verif.Props.Map

/-!
# C97: exactly what `read_formatted_data` stores
-/

namespace GCV

theorem handed_tableLines : ∀ ps : List Bytes, ps ≠ [] →
    handed ps = if ps.getLastD [] = [] then ps else ps ++ [ps.getLastD []]
  | [], h => absurd rfl h
  | [p], _ => by
    by_cases h : p = []
    · subst h; rfl
    · simp [handed, h]
  | p :: q :: r, _ => by
    rw [handed_cons (by simp), handed_tableLines (q :: r) (by simp)]
    have e : (p :: q :: r).getLastD [] = (q :: r).getLastD [] := by simp
    rw [e]
    split <;> rfl

theorem linesSeen_read (text : Bytes) : GC.linesSeen text = tableLines text := by
  unfold GC.linesSeen tableLines
  exact handed_tableLines _ (pieces_ne_nil _ _)

theorem tok_read (ds l : Bytes) : GC.tok ds l = tableWords ds l := by
  unfold GC.tok tableWords dropEol
  dsimp only
  cases h : (words (fun c => ds.contains c) l).getLast? with
  | none => simp
  | some t =>
    cases t with
    | nil => simp
    | cons c r => simp

namespace GC

/-- Columns `old i` followed by the numbers of the rows. -/
def colsAfter (atof : Bytes → F64) (old : Nat → List F64) (n : Nat) (rows : List (List Bytes)) : List GC :=
  (List.range n).map fun i => vecReal (old i ++ (column [] i rows).map fun w => atof (cstr w))

theorem pushRow_after (atof : Bytes → F64) (old : Nat → List F64) {n : Nat} (rows : List (List Bytes)) {ts : List Bytes}
    (h : ts.length = n) :
    pushRow atof n ts (colsAfter atof old n rows) = .ok (colsAfter atof old n (rows ++ [ts])) := by
  have := pushRow_range atof (fun i => old i ++ (column [] i rows).map fun t => atof (cstr t)) n 0 ts h
  rw [colsAfter, List.range_eq_range', this, colsAfter, List.range_eq_range']
  simp [column]

theorem rowsOf_after (atof : Bytes → F64) (ds : Bytes) (ncol : Nat) (old : Nat → List F64) : ∀ (ls : List Bytes)
    (seen : List (List Bytes)), (∀ l ∈ ls, u32 (tok ds l).length = (tok ds l).length) →
    let rows := (ls.map (tok ds)).takeWhile (· ≠ [])
    let good := rows.takeWhile fun r => decide (r.length = ncol)
    rowsOf atof ds ncol ls (colsAfter atof old ncol seen) =
      if good = rows then .ok (colsAfter atof old ncol (seen ++ good))
      else .throw (colsAfter atof old ncol (seen ++ good))
  | [], seen, _ => by simp [rowsOf]
  | l :: ls, seen, hu => by
    have ih := rowsOf_after atof ds ncol old ls (seen ++ [tok ds l]) fun x hx => hu x (.tail _ hx)
    have hl := hu l (by simp)
    simp only [List.map_cons] at ih ⊢
    rw [rowsOf, show dropEol (words (fun c => ds.contains c) l) = tok ds l from rfl]
    generalize tok ds l = t at ih hl ⊢
    by_cases ht : t = []
    · subst ht; simp
    · rw [List.takeWhile_cons_of_pos (by simpa using ht)]
      simp only [if_neg ht, hl]
      by_cases hn : t.length = ncol
      · rw [if_neg (by simpa using hn), pushRow_after atof old seen hn,
          List.takeWhile_cons_of_pos (by simpa using hn)]
        dsimp only
        rw [ih]
        simp only [List.cons.injEq, true_and, List.append_assoc, List.singleton_append]
      · rw [if_pos hn, List.takeWhile_cons_of_neg (by simpa using hn), if_neg (by simp)]
        simp

theorem setn_real (x : GC) : set_vec_real_n 0 x = vecReal (match x with | vecReal v => v | _ => []) := by
  cases x <;> rfl

theorem oldVector_there (g : GC) :
    ((mfind (str "data") g.oldMap).getD notype).oldVector = columnsThere g := by
  rw [field_oldMap, columnsThere]
  cases field g (str "data") with
  | none => rfl
  | some x => cases x <;> rfl

theorem columns_before (atof : Bytes → F64) (n : Nat) (hn : n ≠ 0) (g : GC) :
    (((allocL notype n (columnsThere g)).take n).map (set_vec_real_n 0) ++
      (allocL notype n (columnsThere g)).drop n) = colsAfter atof (numbersThere g) n [] := by
  have e : allocL notype n (columnsThere g) = resizeL notype n (columnsThere g) := if_pos (by omega)
  have hl : (resizeL notype n (columnsThere g)).length = n := by simp [resizeL]; omega
  rw [e, List.take_of_length_le (by omega), List.drop_of_length_le (by omega), List.append_nil]
  apply List.ext_getElem?
  intro i
  unfold colsAfter
  rw [List.getElem?_map, List.getElem?_map]
  by_cases hi : i < n
  · rw [List.getElem?_range hi]
    simp only [Option.map_some, column, List.map_nil, List.append_nil]
    have : (resizeL notype n (columnsThere g))[i]? = some (((columnsThere g)[i]?).getD notype) := by
      unfold resizeL
      by_cases h : i < (columnsThere g).length
      · rw [List.getElem?_append_left (by simp; omega), List.getElem?_take_of_lt hi, List.getElem?_eq_getElem h]; rfl
      · rw [List.getElem?_append_right (by simp; omega), List.getElem?_eq_none (by omega : (columnsThere g).length ≤ i),
          List.getElem?_replicate, if_pos (by simp; omega)]; rfl
    rw [this, Option.map_some, setn_real, numbersThere]
    cases (columnsThere g)[i]? with
    | none => rfl
    | some x => cases x <;> rfl
  · rw [List.getElem?_eq_none (by omega), List.getElem?_eq_none (by simp; omega)]; rfl

/-- The empty table without headers. -/
theorem rowsOf_zero (atof : Bytes → F64) (ds : Bytes) (xs : List GC) : ∀ (ls : List Bytes),
    (∀ l ∈ ls, u32 (tok ds l).length = (tok ds l).length) →
    let rows := (ls.map (tok ds)).takeWhile (· ≠ [])
    rowsOf atof ds 0 ls xs = if rows.takeWhile (fun r => decide (r.length = 0)) = rows then .ok xs else .throw xs
  | [], _ => by simp [rowsOf]
  | l :: ls, hu => by
    have hl := hu l (by simp)
    simp only [List.map_cons]
    rw [rowsOf, show dropEol (words (fun c => ds.contains c) l) = tok ds l from rfl]
    generalize tok ds l = t at hl ⊢
    by_cases ht : t = []
    · subst ht; simp
    · have : t.length ≠ 0 := fun h => ht (List.length_eq_zero_iff.1 h)
      rw [List.takeWhile_cons_of_pos (by simpa using ht)]
      simp only [if_neg ht, hl]
      rw [if_pos this, List.takeWhile_cons_of_neg (by simpa using this), if_neg (by simp)]

theorem read_table (atof : Bytes → F64) (text cs ds : Bytes) (g : GC) (hlen : text.length + 2 < 2 ^ 32) :
    let t := tableIn text cs ds
    read_formatted_data atof text cs ds g =
      if t.good = t.rows then .ok (tableOf g.oldMap t.headers (t.columns atof g)) ()
      else .throw (tableOf g.oldMap t.headers (t.columns atof g)) := by
  have hseen : (Stream.ofText text).seen [] = linesSeen text := by
    simp [Stream.seen, Stream.ofText, linesSeen]
  have hsl := seen_length (Stream.ofText text) []
  have hrest : (Stream.ofText text).rest.length = text.length := rfl
  have hle : ∀ l ∈ linesSeen text, l.length ≤ text.length := fun l hl => mem_pieces (mem_handed hl)
  obtain ⟨k, s', line', e, hk⟩ := skipComments_eq cs (text.length + 3) 0 (.ofText text) [] (by omega)
  obtain ⟨f1, f2⟩ := dropWhile_filter (hasAny cs) (linesSeen text)
  have hu : ∀ l : Bytes, l.length ≤ text.length → u32 (tok ds l).length = (tok ds l).length := fun l hl =>
    Nat.mod_eq_of_lt (by have := tok_length ds l; omega)
  rw [hseen] at hk hsl
  -- the rows that follow, and what is kept of them
  have main : ∃ ls : List Bytes, (∀ l ∈ ls, l.length ≤ text.length) ∧ line'.length ≤ text.length ∧
      (s'.seen line').length ≤ text.length + 2 ∧ ls = (s'.seen line').filter (fun l => !hasAny cs l) ∧
      tableIn text cs ds = ⟨tok ds line', (ls.map (tok ds)).takeWhile (· ≠ [])⟩ := by
    refine ⟨(s'.seen line').filter fun l => !hasAny cs l, ?_⟩
    have ht : tableIn text cs ds = ⟨tok ds (((linesSeen text).filter fun l => !hasAny cs l).headD ((linesSeen text).getLastD [])),
        ((((linesSeen text).filter fun l => !hasAny cs l).tail).map (tok ds)).takeWhile (· ≠ [])⟩ := by
      rw [linesSeen_read, tok_read, show tok ds = tableWords ds from funext (tok_read ds)]; rfl
    rcases hk with ⟨h1, h2, h3, h4⟩ | ⟨h1, h2, h3⟩
    · have hs0 : s'.seen line' = [] := by simp [Stream.seen, h3]
      have hline : line' = (linesSeen text).getLastD [] := by
        rw [h4]; cases linesSeen text <;> rfl
      refine ⟨by rw [hs0]; simp, ?_, by rw [hs0]; simp, rfl, ?_⟩
      · rw [h4]; refine (?_ : ∀ l ∈ [] :: linesSeen text, l.length ≤ text.length) _ (List.getLast_mem _)
        intro l hl; cases hl with
        | head => simp
        | tail _ hl => exact hle l hl
      · rw [ht, f1 h1, hs0, hline]; rfl
    · have hsub : ∀ l ∈ line' :: s'.seen line', l ∈ linesSeen text := by
        rw [← h1]; intro l hl; exact (List.dropWhile_sublist _).subset hl
      have := dropWhile_length (hasAny cs) (linesSeen text)
      rw [h1] at this
      simp at this
      refine ⟨fun l hl => hle l (hsub l (.tail _ (List.mem_filter.1 hl).1)), hle _ (hsub _ (by simp)), by omega, rfl, ?_⟩
      rw [ht, f2 _ _ h1]; rfl
  obtain ⟨ls, hls, hline, hcount, hfil, ht⟩ := main
  intro t
  have et : t = ⟨tok ds line', (ls.map (tok ds)).takeWhile (· ≠ [])⟩ := ht
  clear_value t
  subst et
  unfold read_formatted_data
  dsimp only
  rw [e]
  dsimp only
  rw [tokenize_eq]
  dsimp only
  rw [show dropEol (words (fun c => ds.contains c) line') = tok ds line' from rfl, hu _ hline, oldVector_there,
    readRows_eq _ _ _ _ _ _ _ _ (by omega) (by omega), ← hfil]
  have hu' : ∀ l ∈ ls, u32 (tok ds l).length = (tok ds l).length := fun l hl => hu l (hls l hl)
  by_cases h0 : tok ds line' = []
  · rw [h0]
    have := rowsOf_zero atof ds (columnsThere g) ls hu'
    dsimp only at this
    have e0 : ((allocL notype ([] : List Bytes).length (columnsThere g)).take ([] : List Bytes).length).map (set_vec_real_n 0) ++
        (allocL notype ([] : List Bytes).length (columnsThere g)).drop ([] : List Bytes).length = columnsThere g := rfl
    rw [e0, List.length_nil, this]
    simp only [Table.good, Table.columns, if_true, List.length_nil]
    by_cases hc : ((ls.map (tok ds)).takeWhile (· ≠ [])).takeWhile (fun r => decide (r.length = 0)) =
        (ls.map (tok ds)).takeWhile (· ≠ [])
    · rw [if_pos hc, if_pos hc]
    · rw [if_neg hc, if_neg hc]
  · have hn : (tok ds line').length ≠ 0 := fun h => h0 (List.length_eq_zero_iff.1 h)
    have := rowsOf_after atof ds (tok ds line').length (numbersThere g) ls [] hu'
    dsimp only at this
    rw [columns_before atof _ hn g, this, List.nil_append]
    simp only [Table.good, Table.columns, if_neg h0, colsAfter, cstr]
    by_cases hc : ((ls.map (tok ds)).takeWhile (· ≠ [])).takeWhile (fun r => decide (r.length = (tok ds line').length)) =
        (ls.map (tok ds)).takeWhile (· ≠ [])
    · rw [if_pos hc, if_pos hc]
    · rw [if_neg hc, if_neg hc]

theorem takeWhile_all_iff {α : Type} (p : α → Bool) : ∀ l : List α, l.takeWhile p = l ↔ ∀ x ∈ l, p x = true
  | [] => by simp
  | x :: l => by
    have ih := takeWhile_all_iff p l
    cases h : p x with
    | true => rw [List.takeWhile_cons_of_pos h]; simp [h, ih]
    | false => rw [List.takeWhile_cons_of_neg (by simp [h])]; simp [h]

/-- **C97.** Reading a text table into any container: the call returns if every row has a word for each header, otherwise it
throws; in both cases the headers and the rows before the first bad one are stored as `headers` and `data`, behind the
numbers that were there, and no other entry changes. -/
theorem C97_read (atof : Bytes → F64) (text cs ds : Bytes) (g : GC) (hlen : text.length + 2 < 2 ^ 32)
    (hs : KeysSorted g.oldMap) :
    let t := tableIn text cs ds
    ∃ m, KeysSorted m ∧
      read_formatted_data atof text cs ds g =
        (if ∀ r ∈ t.rows, r.length = t.headers.length then .ok (map m) () else .throw (map m)) ∧
      ∀ k, field (map m) k =
        if k = str "data" then some (vector (t.columns atof g))
        else if k = str "headers" then some (vecString t.headers)
        else field g k := by
  intro t
  refine ⟨mset (str "data") (vector (t.columns atof g)) (mset (str "headers") (vecString t.headers) g.oldMap),
    sorted_mset _ _ _ (sorted_mset _ _ _ hs), ?_, fun k => ?_⟩
  · have := read_table atof text cs ds g hlen
    dsimp only at this
    rw [this]
    have hiff : (tableIn text cs ds).good = (tableIn text cs ds).rows ↔
        ∀ r ∈ t.rows, r.length = t.headers.length := by
      unfold Table.good
      rw [takeWhile_all_iff]
      simp [t]
    by_cases h : ∀ r ∈ t.rows, r.length = t.headers.length
    · rw [if_pos (hiff.2 h), if_pos h]; rfl
    · rw [if_neg (fun q => h (hiff.1 q)), if_neg h]; rfl
  · rw [← mfind_eq_field]
    by_cases h1 : k = str "data"
    · rw [if_pos h1, h1, mfind_mset_same]
    · rw [if_neg h1, mfind_mset_other h1]
      by_cases h2 : k = str "headers"
      · rw [if_pos h2, h2, mfind_mset_same]
      · rw [if_neg h2, mfind_mset_other h2, field_oldMap]

/-- A second text, with its last line not terminated, after a first one: four numbers in the first column, and a column that is
too short. -/
example (atof : Bytes → F64) :
    let t := tableIn (str "x y" ++ [10] ++ str "2 3") (str "#") (str " ")
    t.headers = [str "x", str "y"] ∧ t.rows = [[str "2", str "3"], [str "2", str "3"]] ∧
    t.columns atof (map [(str "data", vector [vecReal [.zero], int 4])]) =
      [vecReal [.zero, atof (str "2"), atof (str "2")], vecReal [atof (str "3"), atof (str "3")]] := by
  exact ⟨by decide +kernel, by decide +kernel, rfl⟩

end GC
end GCV
