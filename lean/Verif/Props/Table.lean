import Verif.Lemmas.TableRead
import Verif.Model.Access

/-! # C35, C36: tokenizer and table reader -/

namespace GCV

/-! ## C35 -/

/-- The runs of a text are unique: `Runs` says which tokens are right. -/
theorem Runs_unique {d : Byte → Bool} {s : Bytes} {a b : List Bytes} (h1 : Runs d s a) (h2 : Runs d s b) :
    a = b := (words_of_runs h1).trans (words_of_runs h2).symm

theorem tokenize_words (ds s : Bytes) :
    ∃ ts, Runs (fun c => ds.contains c) s ts ∧ tokenize ds s = .ok (dropEol ts) :=
  ⟨_, runs_words _ _ s (Nat.le_refl _), tokenize_eq ds s⟩

theorem dropEol_id {ts : List Bytes} (h : ∀ t ∈ ts, ∀ c ∈ t, c ≠ 10 ∧ c ≠ 13) : dropEol ts = ts := by
  unfold dropEol
  split
  · rename_i c r e
    have hm : c :: r ∈ ts := List.mem_of_getLast? e
    have := h _ hm c (by simp)
    rw [if_neg fun h => h.elim this.1 this.2]
  · rfl

theorem mem_runs {d : Byte → Bool} {s : Bytes} {ts : List Bytes} (h : Runs d s ts) :
    ∀ t ∈ ts, t ≠ [] ∧ ∀ c ∈ t, d c = false ∧ c ∈ s := by
  induction h with
  | none => intro t ht; cases ht
  | run _ h0 ht _ _ ih =>
    intro t h
    cases h with
    | head => exact ⟨h0, fun c hc => ⟨ht c hc, by simp [hc]⟩⟩
    | tail _ h =>
      obtain ⟨h1, h2⟩ := ih t h
      exact ⟨h1, fun c hc => ⟨(h2 c hc).1, by simp [(h2 c hc).2]⟩⟩

theorem filter_runs {d : Byte → Bool} {s : Bytes} {ts : List Bytes} (h : Runs d s ts) :
    ts.flatten = s.filter fun c => !d c := by
  induction h with
  | none hg =>
    symm; rw [List.flatten_nil, List.filter_eq_nil_iff]; intro c hc; simp [hg c hc]
  | @run g t r ts hg _ ht _ _ ih =>
    have h1 : (g.filter fun c => !d c) = [] := by rw [List.filter_eq_nil_iff]; intro c hc; simp [hg c hc]
    have h2 : (t.filter fun c => !d c) = t := by rw [List.filter_eq_self]; intro c hc; simp [ht c hc]
    rw [List.flatten_cons, List.filter_append, List.filter_append, h1, h2, ih]; rfl

/-- C35: the tokens are the maximal non empty runs of non delimiters, in order, when the text has no end
of line character outside the delimiters (see `C35_negation` for the others). -/
theorem C35_tokens_partial (ds s : Bytes) (ts : List Bytes)
    (h : ∀ c ∈ s, ds.contains c = false → c ≠ 10 ∧ c ≠ 13) (hr : Runs (fun c => ds.contains c) s ts) :
    tokenize ds s = .ok ts := by
  rw [tokenize_eq, ← words_of_runs hr, dropEol_id]
  intro t ht c hc
  have := (mem_runs hr t ht).2 c hc
  exact h c this.2 this.1

/-- C35, for every text: no token is empty or contains a delimiter, and the call returns. -/
theorem C35_no_delimiter (ds s : Bytes) :
    ∃ ts, tokenize ds s = .ok ts ∧ ∀ t ∈ ts, t ≠ [] ∧ ∀ c ∈ t, c ∉ ds ∧ c ∈ s := by
  obtain ⟨ts, hr, e⟩ := tokenize_words ds s
  refine ⟨_, e, fun t ht => ?_⟩
  have hm : t ∈ ts := by
    unfold dropEol at ht
    split at ht
    · split at ht
      · exact List.dropLast_subset _ ht
      · exact ht
    · exact ht
  obtain ⟨h1, h2⟩ := mem_runs hr t hm
  exact ⟨h1, fun c hc => ⟨by simpa using (h2 c hc).1, (h2 c hc).2⟩⟩

/-- C35: joining the tokens loses only delimiters (same condition). -/
theorem C35_join_partial (ds s : Bytes) (h : ∀ c ∈ s, ds.contains c = false → c ≠ 10 ∧ c ≠ 13) :
    ∃ ts, tokenize ds s = .ok ts ∧ ts.flatten = s.filter fun c => !ds.contains c := by
  obtain ⟨ts, hr, _⟩ := tokenize_words ds s
  exact ⟨ts, C35_tokens_partial ds s ts h hr, filter_runs hr⟩

/-- The conditions are met by a text with runs of delimiters on both sides. -/
example : tokenize (str " ,") (str ", ab,, c ") = .ok [str "ab", str "c"] ∧
    Runs (fun c => (str " ,").contains c) (str ", ab,, c ") [str "ab", str "c"] ∧
    ∀ c ∈ str ", ab,, c ", (str " ,").contains c = false → c ≠ 10 ∧ c ≠ 13 := by
  refine ⟨by decide +kernel, ?_, by decide +kernel⟩
  have : words (fun c => (str " ,").contains c) (str ", ab,, c ") = [str "ab", str "c"] := by decide +kernel
  exact this ▸ runs_words _ _ _ (Nat.le_refl _)

/-- C35 as stated is false: a last run that starts with a carriage return is dropped, whatever
follows in it. -/
theorem C35_negation : tokenize (str " ") (str "1 " ++ [13] ++ str "2") = .ok [str "1"] := by
  decide +kernel

/-! ## C61 Exactly which tokens are returned -/

/-- Starts with a newline or a carriage return. -/
def startsEol (t : Bytes) : Bool := t.head? == some 10 || t.head? == some 13

/-- For every text and all delimiters the tokens are the maximal non empty runs of non delimiters, in
order, except that a last run starting with a newline or a carriage return is dropped. -/
theorem C61_tokens (ds s : Bytes) (ts : List Bytes) (hr : Runs (fun c => ds.contains c) s ts) :
    tokenize ds s = .ok (if ts.getLast?.any startsEol then ts.dropLast else ts) := by
  rw [tokenize_eq, ← words_of_runs hr]
  congr 1
  unfold dropEol
  cases h : ts.getLast? with
  | none => simp
  | some t =>
    cases t with
    | nil => simp [startsEol]
    | cons c r => simp [startsEol]

/-- So all the runs are returned if and only if the last one does not start with such a character. -/
theorem C61_all_iff (ds s : Bytes) (ts : List Bytes) (hr : Runs (fun c => ds.contains c) s ts) :
    tokenize ds s = .ok ts ↔ ts.getLast?.any startsEol = false := by
  rw [C61_tokens ds s ts hr]
  cases h : ts.getLast?.any startsEol with
  | false => simp
  | true =>
    have hne : ts ≠ [] := by rintro rfl; simp at h
    simp only [if_true, Out.ok.injEq, Bool.true_eq_false, iff_false]
    intro e
    have := congrArg List.length e
    have := List.length_pos_iff.2 hne
    simp at *; omega

/-- Every text has runs. -/
example (ds s : Bytes) : ∃ ts, Runs (fun c => ds.contains c) s ts :=
  let ⟨ts, h, _⟩ := tokenize_words ds s; ⟨ts, h⟩

example : tokenize (str " ") (str "1 " ++ [13]) = .ok [str "1"] ∧
    tokenize (str " ") (str "1" ++ [13]) = .ok [str "1" ++ [13]] := by decide +kernel

namespace GC

/-! ## C36 -/

theorem find_data {m : Entries} {hs : List Bytes} {xs : List GC} :
    call_key_c (str "data") (tableOf m hs xs) = .ok (vector xs) := by
  have : cstr (str "data") = str "data" := by decide +kernel
  simp [call_key_c, tableOf, this, mfind_mset_same]

theorem find_headers {m : Entries} {hs : List Bytes} {xs : List GC} :
    call_key_c (str "headers") (tableOf m hs xs) = .ok (vecString hs) := by
  have h1 : cstr (str "headers") = str "headers" := by decide +kernel
  have h2 : str "headers" ≠ str "data" := by decide +kernel
  simp [call_key_c, tableOf, h1, mfind_mset_other h2, mfind_mset_same]

theorem find_other {m : Entries} {hs : List Bytes} {xs : List GC} {k : Bytes} (h1 : cstr k ≠ str "headers")
    (h2 : cstr k ≠ str "data") : call_key_c k (tableOf m hs xs) = call_key_c k (map m) := by
  simp [call_key_c, tableOf, mfind_mset_other h1, mfind_mset_other h2]

theorem no_data {g : GC} (h : g.exists (str "data") = false) : mfind (str "data") g.oldMap = none := by
  have : cstr (str "data") = str "data" := by decide +kernel
  cases g <;> first | rfl | (simp only [oldMap]; simpa [«exists», this] using h)

theorem linesSeen_unlines : ∀ (ls : List Bytes), (∀ l ∈ ls, (10 : Byte) ∉ l) → ∀ r : Bytes,
    pieces nl (unlines ls ++ r) = ls ++ pieces nl r
  | [], _, r => rfl
  | l :: ls, h, r => by
    have h1 : unlines (l :: ls) ++ r = l ++ 10 :: (unlines ls ++ r) := by simp [unlines]
    rw [h1, pieces_mid (by rfl) l _ (fun x hx => by
      have := h l (by simp); simp only [nl, beq_eq_false_iff_ne, ne_eq]; rintro rfl; exact this hx),
      linesSeen_unlines ls (fun x hx => h x (.tail _ hx)) r]
    rfl

theorem handed_append {p : Bytes} : ∀ (ls : List Bytes), handed (ls ++ [p]) = ls ++ handed [p]
  | [] => rfl
  | l :: ls => by
    rw [List.cons_append, handed_cons (by simp), handed_append ls]; rfl

theorem linesSeen_complete {ls : List Bytes} (h : ∀ l ∈ ls, (10 : Byte) ∉ l) :
    linesSeen (unlines ls) = ls ++ [[]] := by
  have := linesSeen_unlines ls h []
  rw [List.append_nil] at this
  rw [linesSeen, this, show pieces nl [] = [[]] from rfl, handed_append]; rfl

theorem linesSeen_cut {ls : List Bytes} {last : Bytes} (h : ∀ l ∈ ls, (10 : Byte) ∉ l) (h1 : (10 : Byte) ∉ last)
    (h2 : last ≠ []) : linesSeen (unlines ls ++ last) = ls ++ [last, last] := by
  rw [linesSeen, linesSeen_unlines ls h, pieces_one last (fun x hx => by
    simp only [nl, beq_eq_false_iff_ne, ne_eq]; rintro rfl; exact h1 hx), handed_append]
  simp [handed, h2]

theorem tok_words {ds l : Bytes} (h1 : (10 : Byte) ∉ l) (h2 : (13 : Byte) ∈ ds ∨ (13 : Byte) ∉ l) :
    tok ds l = words (fun c => ds.contains c) l := by
  refine dropEol_id fun t ht c hc => ?_
  have := (mem_runs (runs_words _ _ l (Nat.le_refl _)) t ht).2 c hc
  refine ⟨fun e => h1 (e ▸ this.2), fun e => ?_⟩
  subst e
  rcases h2 with h2 | h2
  · exact absurd (List.contains_iff_mem.2 h2) (by rw [this.1]; simp)
  · exact h2 this.2

theorem words_nil (d : Byte → Bool) : words d [] = [] := by simp [words, pieces]

theorem takeWhile_sentinel {α : Type} (p : α → Bool) {x : α} (h : p x = false) : ∀ l : List α,
    (l ++ [x]).takeWhile p = l.takeWhile p
  | [] => by simp [h]
  | y :: l => by
    rw [List.cons_append, List.takeWhile_cons, List.takeWhile_cons, takeWhile_sentinel p h l]

/-- C36: a text made of complete lines, of which those with a comment character count for nothing.  The
first other line gives the headers, the following ones up to one without words give the rows; the
numbers of column i are those of the i-th words.  A row with a number of words different from the number
of headers makes the call throw.  For a container without an entry `data`, a text below 2^32 bytes, and a
carriage return only as delimiter. -/
theorem C36_table_partial (atof : Bytes → F64) (ls : List Bytes) (cs ds : Bytes) (g : GC)
    (hnl : ∀ l ∈ ls, (10 : Byte) ∉ l) (hcr : (13 : Byte) ∈ ds ∨ ∀ l ∈ ls, (13 : Byte) ∉ l)
    (hlen : (unlines ls).length + 2 < 2 ^ 32) (hd : g.exists (str "data") = false) :
    let w := words fun c => ds.contains c
    let kept := ls.filter fun l => !l.any fun c => cs.contains c
    let hs := w (kept.headD [])
    let rows := (kept.tail.map w).takeWhile (· ≠ [])
    ((∀ r ∈ rows, r.length = hs.length) →
      ∃ g', read_formatted_data atof (unlines ls) cs ds g = .ok g' () ∧
        call_key_c (str "headers") g' = .ok (vecString hs) ∧
        call_key_c (str "data") g' = .ok (vector (tableCols atof hs.length rows)) ∧
        ∀ k x, call_key_c k g = .ok x → cstr k ≠ str "headers" → call_key_c k g' = .ok x) ∧
    ((∃ r ∈ rows, r.length ≠ hs.length) →
      ∃ g', read_formatted_data atof (unlines ls) cs ds g = .throw g') := by
  intro w kept hs rows
  have hread := read_eq atof (unlines ls) cs ds g hlen (no_data hd)
  have hkept : ((linesSeen (unlines ls)).filter fun l => !hasAny cs l) = kept ++ [[]] := by
    rw [linesSeen_complete hnl, List.filter_append]; rfl
  have hw : ∀ l ∈ kept, tok ds l = w l := fun l hl =>
    tok_words (hnl l (List.mem_filter.1 hl).1) (hcr.imp id fun h => h l (List.mem_filter.1 hl).1)
  have htn : tok ds [] = [] := by rw [tok_words (by simp) (.inr (by simp)), words_nil]
  have hhs : tok ds ((kept ++ [[]]).headD ((linesSeen (unlines ls)).getLastD [])) = hs := by
    cases hk : kept with
    | nil => simp only [hs, hk, List.nil_append, List.headD_cons, List.headD_nil, htn, w, words_nil]
    | cons l r =>
      simp only [hs, hk, List.cons_append, List.headD_cons]
      exact hw l (by rw [hk]; simp)
  have hrows : (((kept ++ [[]]).tail.map (tok ds)).takeWhile (· ≠ [])) = rows := by
    cases hk : kept with
    | nil => simp [rows, hk]
    | cons l r =>
      simp only [List.cons_append, List.tail_cons, List.map_append, List.map_cons, List.map_nil, htn, rows, hk]
      rw [takeWhile_sentinel _ (by simp)]
      congr 1
      refine List.map_congr_left fun x hx => hw x ?_
      rw [hk]; exact .tail _ hx
  dsimp only at hread
  rw [hkept, hhs, hrows] at hread
  refine ⟨fun h => ⟨_, hread.1 h, find_headers, find_data, ?_⟩, fun h => ?_⟩
  · intro k x hk h1
    have h2 : cstr k ≠ str "data" := by
      intro e
      cases g <;> simp only [call_key_c] at hk <;> try cases hk
      have hn := no_data hd
      simp only [oldMap] at hn
      rw [e, hn] at hk
      cases hk
    rw [find_other h1 h2]
    cases g <;> first | exact hk | cases hk
  · obtain ⟨ys, hy⟩ := hread.2 h
    exact ⟨_, hy⟩

/-- A table with comments, an empty last column refused, and a good one accepted. -/
example : let ls := [str "# units", str "x y", str "1 2", str "# more", str "3 4", [], str "5"]
    (∀ l ∈ ls, (10 : Byte) ∉ l) ∧ (∀ l ∈ ls, (13 : Byte) ∉ l) ∧
    (ls.filter fun l => !l.any fun c => (str "#").contains c) = [str "x y", str "1 2", str "3 4", [], str "5"] ∧
    (∀ r ∈ ([str "1 2", str "3 4", [], str "5"].map (words fun c => (str " ").contains c)).takeWhile (· ≠ []),
      r.length = 2) := by
  decide +kernel

/-- C36, for every text: the stored headers and columns agree in number and all columns have the same
number of entries (container without an entry `data`, text below 2^32 bytes). -/
theorem C36_shape_partial (atof : Bytes → F64) (text cs ds : Bytes) (g g' : GC)
    (hlen : text.length + 2 < 2 ^ 32) (hd : g.exists (str "data") = false)
    (h : read_formatted_data atof text cs ds g = .ok g' ()) :
    ∃ hs cols n, call_key_c (str "headers") g' = .ok (vecString hs) ∧
      call_key_c (str "data") g' = .ok (vector cols) ∧ cols.length = hs.length ∧
      ∀ c ∈ cols, ∃ v, c = vecReal v ∧ v.length = n := by
  obtain ⟨h1, h2⟩ := read_eq atof text cs ds g hlen (no_data hd)
  by_cases hall : ∀ r ∈ ((((linesSeen text).filter fun l => !hasAny cs l).tail.map (tok ds)).takeWhile (· ≠ [])),
      r.length = (tok ds ((((linesSeen text).filter fun l => !hasAny cs l)).headD ((linesSeen text).getLastD []))).length
  · have e := h1 hall
    rw [e] at h
    cases h
    refine ⟨_, _, ((((linesSeen text).filter fun l => !hasAny cs l).tail.map (tok ds)).takeWhile (· ≠ [])).length,
      find_headers, find_data, by simp [tableCols], fun c hc => ?_⟩
    obtain ⟨i, _, rfl⟩ := List.mem_map.1 hc
    exact ⟨_, rfl, by simp [column]⟩
  · have : ∃ r ∈ ((((linesSeen text).filter fun l => !hasAny cs l).tail.map (tok ds)).takeWhile (· ≠ [])),
        r.length ≠ (tok ds ((((linesSeen text).filter fun l => !hasAny cs l)).headD ((linesSeen text).getLastD []))).length := by
      simpa using hall
    obtain ⟨ys, e⟩ := h2 this
    rw [e] at h; cases h

/-- C36 is false for a text whose last line is not terminated: that line (when it is not the header) counts
twice.  Stated for every such text: the result is that of the text with the line written twice. -/
theorem C36_last_line_negation (atof : Bytes → F64) (ls : List Bytes) (last cs ds : Bytes) (g : GC)
    (hnl : ∀ l ∈ ls, (10 : Byte) ∉ l) (h1 : (10 : Byte) ∉ last) (h2 : last ≠ [])
    (hc : (last.any fun c => cs.contains c) = false)
    (hlen : (unlines (ls ++ [last, last])).length + 2 < 2 ^ 32) (hd : g.exists (str "data") = false) (g' : GC) :
    read_formatted_data atof (unlines ls ++ last) cs ds g = .ok g' () ↔
      read_formatted_data atof (unlines (ls ++ [last, last])) cs ds g = .ok g' () := by
  have hlen2 : (unlines ls ++ last).length + 2 < 2 ^ 32 := by
    have : (unlines (ls ++ [last, last])).length = (unlines ls ++ last).length + (last.length + 2) := by
      simp [unlines]; omega
    omega
  have e1 := read_eq atof (unlines ls ++ last) cs ds g hlen2 (no_data hd)
  have e2 := read_eq atof (unlines (ls ++ [last, last])) cs ds g hlen (no_data hd)
  have hnl2 : ∀ l ∈ ls ++ [last, last], (10 : Byte) ∉ l := by
    intro l hl
    rcases List.mem_append.1 hl with hl | hl
    · exact hnl l hl
    · simp at hl; rw [hl]; exact h1
  have hc' : hasAny cs last = false := hc
  have htn : tok ds [] = [] := by rw [tok_words (by simp) (.inr (by simp)), words_nil]
  rw [linesSeen_cut hnl h1 h2] at e1
  rw [linesSeen_complete hnl2] at e2
  have hk1 : ((ls ++ [last, last]).filter fun l => !hasAny cs l) =
      (ls.filter fun l => !hasAny cs l) ++ [last, last] := by
    simp [List.filter_append, hc']
  have hk2 : ((ls ++ [last, last] ++ [[]]).filter fun l => !hasAny cs l) =
      (ls.filter fun l => !hasAny cs l) ++ [last, last] ++ [[]] := by
    rw [List.filter_append, hk1]; rfl
  rw [hk1] at e1
  rw [hk2] at e2
  generalize (ls.filter fun l => !hasAny cs l) = k at e1 e2
  have hh : ∀ d d' : Bytes, (k ++ [last, last] ++ [[]]).headD d = (k ++ [last, last]).headD d' := by
    intro d d'; cases k <;> simp
  have ht : (((k ++ [last, last] ++ [[]]).tail.map (tok ds)).takeWhile (· ≠ [])) =
      (((k ++ [last, last]).tail.map (tok ds)).takeWhile (· ≠ [])) := by
    have : (k ++ [last, last] ++ [[]]).tail = (k ++ [last, last]).tail ++ [[]] := by cases k <;> simp
    rw [this, List.map_append, List.map_cons, List.map_nil, htn, takeWhile_sentinel _ (by simp)]
  dsimp only at e1 e2
  rw [ht, hh _ ((ls ++ [last, last]).getLastD [])] at e2
  generalize (((k ++ [last, last]).tail.map (tok ds)).takeWhile (· ≠ [])) = rows at e1 e2
  generalize tok ds ((k ++ [last, last]).headD ((ls ++ [last, last]).getLastD [])) = hs at e1 e2
  by_cases hall : ∀ r ∈ rows, r.length = hs.length
  · rw [e1.1 hall, e2.1 hall]
  · have : ∃ r ∈ rows, r.length ≠ hs.length := by simpa using hall
    obtain ⟨y1, q1⟩ := e1.2 this
    obtain ⟨y2, q2⟩ := e2.2 this
    rw [q1, q2]; simp

/-- The text `"x\n1"`: the column has two entries. -/
theorem C36_last_line_example_negation (atof : Bytes → F64) :
    read_formatted_data atof (str "x" ++ [10] ++ str "1") (str "#") (str " ") notype =
      .ok (map [(str "data", vector [vecReal [atof (str "1"), atof (str "1")]]),
        (str "headers", vecString [str "x"])]) () := by
  rfl

/-- C36 is false for a container that already has a table: new entries go after the old ones, and columns
get different lengths. -/
theorem C36_twice_negation (atof : Bytes → F64) :
    ∃ g, read_formatted_data atof (str "x" ++ [10] ++ str "1" ++ [10]) (str "#") (str " ") notype = .ok g () ∧
      ∃ g', read_formatted_data atof (str "x y" ++ [10] ++ str "2 3" ++ [10]) (str "#") (str " ") g = .ok g' () ∧
        call_key_c (str "data") g' =
          .ok (vector [vecReal [atof (str "1"), atof (str "2")], vecReal [atof (str "3")]]) := by
  exact ⟨_, rfl, _, rfl, rfl⟩

end GC
end GCV
