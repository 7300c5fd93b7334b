import Verif.Lemmas.Table2
import Verif.Props.Table

/-! # C74, C75: tables read into a map of columns, and their parameters -/

namespace GCV

theorem handed_last : ∀ ps : List Bytes, ps ≠ [] →
    handed ps = if ps.getLastD [] = [] then ps else ps ++ [ps.getLastD []]
  | [], h => absurd rfl h
  | [p], _ => by by_cases hp : p = [] <;> simp [handed, hp]
  | p :: q :: r, _ => by
    rw [handed_cons (by simp), handed_last (q :: r) (by simp)]
    simp only [List.getLastD_cons]
    split <;> rfl

namespace GC

theorem linesSeen_text (text : Bytes) : linesSeen text = textLines text :=
  handed_last _ (pieces_ne_nil _ _)

theorem tok_cells {ds l : Bytes} (h : (10 : Byte) ∉ l) : tok ds l = cells ds l := by
  unfold tok cells dropEol
  have hm : ∀ t ∈ words (fun c => ds.contains c) l, t ≠ [] ∧ ∀ c ∈ t, c ∈ l := fun t ht => mem_words ht
  generalize words (fun c => ds.contains c) l = ws at hm ⊢
  dsimp only
  rw [List.getLastD_eq_getLast?]
  cases e : ws.getLast? with
  | none => simp
  | some t =>
    have ht := hm t (List.mem_of_getLast? e)
    cases t with
    | nil => exact absurd rfl ht.1
    | cons c r =>
      have hc : c ≠ 10 := by rintro rfl; exact h (ht.2 _ (by simp))
      by_cases h13 : c = 13
      · subst h13; simp
      · exact (if_neg (fun hh : c = 10 ∨ c = 13 => hh.elim hc h13)).trans
          (if_neg (fun hh : some c = some 13 => h13 (Option.some.inj hh))).symm

theorem nl_lines {text l : Bytes} (h : l ∈ textLines text) : (10 : Byte) ∉ l := by
  rw [← linesSeen_text] at h
  have hseen : (Stream.ofText text).seen [] = linesSeen text := by
    simp [Stream.seen, Stream.ofText, linesSeen]
  rw [← hseen] at h
  exact nl_seen (by simp) l h

theorem entry_map (k : Bytes) (m : Entries) : entry k (map m) = mfind (cstr k) m := by
  simp only [entry, call_key_c]
  cases mfind (cstr k) m <;> rfl

theorem entry_old (k : Bytes) (g : GC) : entry k g = mfind (cstr k) g.oldMap := by
  cases g <;> first | exact entry_map k _ | rfl

theorem str_data : cstr (str "data") = str "data" := by decide +kernel
theorem str_headers : cstr (str "headers") = str "headers" := by decide +kernel
theorem headers_data : str "headers" ≠ str "data" := by decide +kernel

theorem upTo_congr {α : Type} {p q : α → Bool} : ∀ {ls : List α}, (∀ l ∈ ls, p l = q l) → upTo p ls = upTo q ls
  | [], _ => rfl
  | x :: r, h => by
    rw [upTo, upTo, h x (by simp), upTo_congr fun l hl => h l (.tail _ hl)]

theorem linesRead_congr {c p q : Bytes → Bool} {ls : List Bytes} (h : ∀ l ∈ ls, p l = q l) :
    linesRead c p ls = linesRead c q ls := by
  unfold linesRead
  congr 1
  cases e : ls.dropWhile (fun l => !c l) with
  | nil => rfl
  | cons x r =>
    simp only
    rw [upTo_congr fun l hl => ?_]
    have hm : l ∈ ls.dropWhile (fun l => !c l) := by rw [e]; exact .tail _ hl
    rw [h l ((List.dropWhile_sublist _).subset hm)]

theorem filterMap_counts (strtod : Bytes → Option F64) (cs : Bytes) (ls : List Bytes) :
    (ls.filter fun l => !countsLine cs l).filterMap (parOf strtod) = parsOf strtod cs ls := by
  unfold parsOf
  induction ls with
  | nil => rfl
  | cons l r ih =>
    rw [List.filterMap_cons]
    cases h : countsLine cs l with
    | true => rw [List.filter_cons_of_neg (by simp [h]), ih]; simp
    | false =>
      rw [List.filter_cons_of_pos (by simp [h]), List.filterMap_cons, ih]; simp

/-- What is read from a text, for every text below 2^32 bytes. -/
theorem read2_lines (atof : Bytes → F64) (strtod : Bytes → Option F64) (text cs ds : Bytes) (g : GC)
    (hlen : text.length + 2 < 2 ^ 32) :
    let lines := textLines text
    let kept := lines.filter (countsLine cs)
    let hs := cells ds (kept.headD (lines.getLastD []))
    let good := fun r : List Bytes => r ≠ [] && r.length == hs.length
    let data := kept.tail.map (cells ds)
    let rows := data.takeWhile good
    let old := ((mfind (str "data") g.oldMap).getD notype).oldMap
    let ps := parsOf strtod cs (linesRead (countsLine cs) (fun l => !good (cells ds l)) lines)
    ∃ d', (∀ pars, read_formatted_data2 atof strtod text cs ds pars g =
        (if (data.dropWhile good).headD [] = []
          then .ok (tableOf2 g.oldMap hs d', pars.map fun p => ps.foldl setPar p)
          else .throw (tableOf2 g.oldMap hs d', pars.map fun p => ps.foldl setPar p))) ∧
      ∀ k, mfind k d' = if k ∈ hs.map cstr
        then some (vecReal (reals (mfind k old) ++ rows.flatMap (rowAt atof hs k))) else mfind k old := by
  intro lines kept hs good data rows old ps
  have h := read2_eq atof strtod text cs ds g hlen
  rw [linesSeen_text] at h
  have hlast : (10 : Byte) ∉ lines.getLastD [] := by
    rw [List.getLastD_eq_getLast?]
    cases e : lines.getLast? with
    | none => simp
    | some t => exact nl_lines (List.mem_of_getLast? e)
  have hhead : (10 : Byte) ∉ kept.headD (lines.getLastD []) := by
    cases e : kept with
    | nil => exact hlast
    | cons x r => exact nl_lines (List.mem_filter.1 (e ▸ (by simp : x ∈ x :: r) : x ∈ kept)).1
  have hhs : tok ds ((((textLines text).filter (countsLine cs)).headD ((textLines text).getLastD []))) = hs :=
    tok_cells hhead
  have hdata : ((textLines text).filter (countsLine cs)).tail.map (tok ds) = data :=
    List.map_congr_left fun l hl => tok_cells (nl_lines (List.mem_filter.1 (List.mem_of_mem_tail hl)).1)
  have hused : linesRead (countsLine cs) (fun l => !goodRow hs.length (tok ds l)) (textLines text) =
      linesRead (countsLine cs) (fun l => !good (cells ds l)) lines :=
    linesRead_congr fun l hl => by rw [tok_cells (nl_lines hl)]; rfl
  dsimp only at h
  rw [hhs, hdata, hused] at h
  obtain ⟨d', h1, h2⟩ := h
  refine ⟨d', fun pars => ?_, h2⟩
  rw [h1 pars]
  simp only [setPars, filterMap_counts]
  rfl

/-! ## C74 -/

/-- C74: what `read_formatted_data2` stores, for every text below 2^32 bytes, all comment characters and
delimiters, and every container.  The first line that counts gives the headers (when there is none: the last
line); the following ones that count give the rows, up to one without fields.  The call throws exactly when
a row before this has a number of fields different from the number of headers, and then the rows before it are
stored.  The column of a name gets, row by row, the numbers below the headers with this name, behind the
numbers it had; all other entries stay.  The parameters play no part. -/
theorem C74_table (atof : Bytes → F64) (strtod : Bytes → Option F64) (text cs ds : Bytes) (g : GC)
    (hlen : text.length + 2 < 2 ^ 32) :
    let lines := textLines text
    let kept := lines.filter (countsLine cs)
    let hs := cells ds (kept.headD (lines.getLastD []))
    let good := fun r : List Bytes => r ≠ [] && r.length == hs.length
    let data := kept.tail.map (cells ds)
    let rows := data.takeWhile good
    let names := hs.map fun h => h.takeWhile (· ≠ 0)
    let was := fun k => (entry (str "data") g).bind (entry k)
    ∃ g', (∀ pars, ∃ pars', read_formatted_data2 atof strtod text cs ds pars g =
        (if (data.dropWhile good).headD [] = [] then .ok (g', pars') else .throw (g', pars'))) ∧
      entry (str "headers") g' = some (vecString hs) ∧
      (hs ≠ [] → ∃ d, entry (str "data") g' = some d ∧ d.ty = .MAP ∧
        ∀ k, (0 : Byte) ∉ k → entry k d =
          if k ∈ names then some (vecReal (reals (was k) ++ rows.flatMap (rowAt atof hs k))) else was k) ∧
      (hs = [] → entry (str "data") g' = some ((entry (str "data") g).getD notype)) ∧
      ∀ k, (0 : Byte) ∉ k → k ≠ str "headers" → k ≠ str "data" → entry k g' = entry k g := by
  intro lines kept hs good data rows names was
  obtain ⟨d', h1, h2⟩ := read2_lines atof strtod text cs ds g hlen
  change ∀ pars, _ = if (data.dropWhile good).headD [] = [] then Loop.ok (tableOf2 g.oldMap hs d', _) else
    .throw (tableOf2 g.oldMap hs d', _) at h1
  have hhl : u32 hs.length = hs.length := by
    refine Nat.mod_eq_of_lt ?_
    have hl : ∀ l ∈ lines, l.length ≤ text.length := fun l hl => by
      change l ∈ textLines text at hl
      rw [← linesSeen_text] at hl
      exact mem_pieces (mem_handed hl)
    have : (kept.headD (lines.getLastD [])).length ≤ text.length := by
      cases e : kept with
      | nil =>
        rw [List.headD_nil, List.getLastD_eq_getLast?]
        cases e : lines.getLast? with
        | none => simp
        | some t => exact hl t (List.mem_of_getLast? e)
      | cons x r => exact hl x (List.mem_filter.1 (e ▸ (by simp : x ∈ x :: r) : x ∈ kept)).1
    have h3 : hs.length ≤ (words (fun c => ds.contains c) (kept.headD (lines.getLastD []))).length := by
      simp only [hs, cells]
      split
      · simp
      · exact Nat.le_refl _
    have := words_length (fun c => ds.contains c) (kept.headD (lines.getLastD []))
    omega
  have hck : ∀ k : Bytes, (0 : Byte) ∉ k → cstr k = k := fun k hk => by
    refine cstr_of_noNul (by rw [noNul, List.all_eq_true]; intro c hc; simp only [ne_eq, decide_eq_true_eq]; rintro rfl; exact hk hc)
  refine ⟨tableOf2 g.oldMap hs d', fun pars => ⟨_, h1 pars⟩, ?_, fun hne => ⟨map d', ?_, rfl, fun k hk => ?_⟩,
    fun he => ?_, fun k hk k1 k2 => ?_⟩
  · rw [tableOf2, entry_map, str_headers, mfind_mset_other headers_data, mfind_mset_same]
  · rw [tableOf2, entry_map, str_data, mfind_mset_same, hhl,
      if_neg fun h => hne (List.length_eq_zero_iff.1 h)]
  · rw [entry_map, hck k hk, h2 k]
    have hw : mfind k ((mfind (str "data") g.oldMap).getD notype).oldMap = was k := by
      simp only [was, entry_old, str_data]
      cases mfind (str "data") g.oldMap with
      | none => rfl
      | some x => simp [entry_old, hck k hk]
    rw [hw]
    rfl
  · rw [tableOf2, entry_map, str_data, mfind_mset_same, hhl, if_pos (List.length_eq_zero_iff.2 he), entry_old, str_data]
  · rw [tableOf2, entry_map, hck k hk, mfind_mset_other k2, mfind_mset_other k1, entry_old, hck k hk]

theorem rowAt_distinct (atof : Bytes → F64) : ∀ (hs row : List Bytes) (i : Nat) (h : i < hs.length),
    (hs.map fun h => h.takeWhile (· ≠ 0)).Nodup → row.length = hs.length →
    rowAt atof hs (hs[i].takeWhile (· ≠ 0)) row = [atof ((row.getD i []).takeWhile (· ≠ 0))]
  | [], _, i, h, _, _ => by simp at h
  | x :: hs, [], i, _, _, hl => by simp at hl
  | x :: hs, t :: row, 0, h, hn, hl => by
    have hn := List.nodup_cons.1 hn
    unfold rowAt
    rw [List.zip_cons_cons, List.filter_cons_of_pos (by simp)]
    have : ((hs.zip row).filter fun p => p.1.takeWhile (· ≠ 0) == x.takeWhile (· ≠ 0)) = [] := by
      rw [List.filter_eq_nil_iff]
      rintro ⟨a, b⟩ hp hab
      refine hn.1 (List.mem_map.2 ⟨a, (List.of_mem_zip hp).1, ?_⟩)
      simpa using hab
    simp only [List.getElem_cons_zero]
    rw [this]
    rfl
  | x :: hs, t :: row, i + 1, h, hn, hl => by
    have hn := List.nodup_cons.1 hn
    have ih := rowAt_distinct atof hs row i (by simpa using h) hn.2 (by simpa using hl)
    rw [List.getElem_cons_succ, List.getD_cons_succ, ← ih]
    unfold rowAt
    rw [List.zip_cons_cons, List.filter_cons_of_neg]
    simp only [beq_iff_eq]
    intro e
    exact hn.1 (List.mem_map.2 ⟨hs[i]'(by simpa using h), List.getElem_mem _, e.symm⟩)

/-- C74: with distinct names the column of the i-th header holds the numbers of the i-th fields. -/
theorem C74_columns (atof : Bytes → F64) (hs : List Bytes) (rows : List (List Bytes)) (i : Nat)
    (hi : i < hs.length) (hn : (hs.map fun h => h.takeWhile (· ≠ 0)).Nodup)
    (hr : ∀ r ∈ rows, r.length = hs.length) :
    rows.flatMap (rowAt atof hs (hs[i].takeWhile (· ≠ 0))) =
      (column [] i rows).map fun t => atof (t.takeWhile (· ≠ 0)) := by
  induction rows with
  | nil => rfl
  | cons r rows ih =>
    rw [List.flatMap_cons, ih fun x hx => hr x (.tail _ hx), rowAt_distinct atof hs r i hi hn (hr r (by simp))]
    rfl

/-- A text with a comment, an empty line, a name that occurs twice and rows around them. -/
example : let text := unlines [str "# units", str "x y x", [], str "1 2 3", str "4 5 6"]
    let lines := textLines text
    let kept := lines.filter (countsLine (str "#"))
    cells (str " ") (kept.headD []) = [str "x", str "y", str "x"] ∧
      kept.tail.map (cells (str " ")) = [[str "1", str "2", str "3"], [str "4", str "5", str "6"]] := by
  decide +kernel

/-- There the column `x` gets four numbers: both fields of each row. -/
example (atof : Bytes → F64) :
    ([[str "1", str "2", str "3"], [str "4", str "5", str "6"]].flatMap
      (rowAt atof [str "x", str "y", str "x"] (str "x"))) =
      [atof (str "1"), atof (str "3"), atof (str "4"), atof (str "6")] := by
  rfl

/-- C74: a last line without newline is stored twice. -/
theorem C74_last_line (atof : Bytes → F64) (strtod : Bytes → Option F64) :
    read_formatted_data2 atof strtod (str "x" ++ [10] ++ str "1") (str "#") (str " ") none notype =
      .ok (map [(str "data", map [(str "x", vecReal [atof (str "1"), atof (str "1")])]),
        (str "headers", vecString [str "x"])], none) := by
  rfl

/-- C74: a text that is one comment without newline gives headers: the fields of the comment. -/
theorem C74_comment_header (atof : Bytes → F64) (strtod : Bytes → Option F64) :
    read_formatted_data2 atof strtod (str "# ab") (str "#") (str " ") none notype =
      .ok (map [(str "data", map [(str "#", vecReal []), (str "ab", vecReal [])]),
        (str "headers", vecString [str "#", str "ab"])], none) := by
  rfl

/-- C74: reading a second text appends to the columns. -/
theorem C74_twice (atof : Bytes → F64) (strtod : Bytes → Option F64) :
    ∃ g, read_formatted_data2 atof strtod (str "x" ++ [10] ++ str "1" ++ [10]) (str "#") (str " ") none notype =
        .ok (g, none) ∧
      read_formatted_data2 atof strtod (str "x y" ++ [10] ++ str "2 3" ++ [10]) (str "#") (str " ") none g =
        .ok (map [(str "data", map [(str "x", vecReal [atof (str "1"), atof (str "2")]),
            (str "y", vecReal [atof (str "3")])]),
          (str "headers", vecString [str "x", str "y"])], none) :=
  ⟨_, rfl, rfl⟩

/-! ## C75 -/

theorem setPar_find (ps : List (Bytes × GC)) (p : GC) (k : Bytes) :
    mfind k (ps.foldl setPar p).oldMap =
      ((ps.reverse.find? fun kv => kv.1 == k).map (·.2)).or (mfind k p.oldMap) := by
  induction ps generalizing p with
  | nil => rfl
  | cons kv ps ih =>
    rw [List.foldl_cons, ih, List.reverse_cons, List.find?_append]
    cases ps.reverse.find? fun kv => kv.1 == k with
    | some x => rfl
    | none =>
      simp only [Option.map_none, Option.none_or, setPar, oldMap, List.find?_cons, List.find?_nil]
      by_cases h : kv.1 = k
      · subst h; simp [mfind_mset_same]
      · rw [mfind_mset_other (Ne.symm h)]
        simp only [beq_eq_false_iff_ne.2 h]; rfl

theorem setPar_type (ps : List (Bytes × GC)) (p : GC) (h : ps ≠ []) : ∃ m, ps.foldl setPar p = map m := by
  rw [← List.dropLast_concat_getLast h, List.foldl_append]
  exact ⟨_, rfl⟩

/-- C75: which parameters are stored, for every text below 2^32 bytes.  They are those of the lines that do
not count among the lines read; for each name the last value counts; what the parameter container holds
under other names stays.  Without a parameter line it is not touched, otherwise it is a map (so it loses
everything when it was something else).  Without a parameter container nothing happens. -/
theorem C75_parameters (atof : Bytes → F64) (strtod : Bytes → Option F64) (text cs ds : Bytes) (g : GC)
    (hlen : text.length + 2 < 2 ^ 32) :
    let lines := textLines text
    let kept := lines.filter (countsLine cs)
    let hs := cells ds (kept.headD (lines.getLastD []))
    let good := fun r : List Bytes => r ≠ [] && r.length == hs.length
    let ps := parsOf strtod cs (linesRead (countsLine cs) (fun l => !good (cells ds l)) lines)
    (∃ g', read_formatted_data2 atof strtod text cs ds none g = .ok (g', none) ∨
      read_formatted_data2 atof strtod text cs ds none g = .throw (g', none)) ∧
    ∀ p, ∃ g' q, (read_formatted_data2 atof strtod text cs ds (some p) g = .ok (g', some q) ∨
        read_formatted_data2 atof strtod text cs ds (some p) g = .throw (g', some q)) ∧
      (ps = [] → q = p) ∧ (ps ≠ [] → q.ty = .MAP) ∧
      ∀ k, (0 : Byte) ∉ k → entry k q = ((ps.reverse.find? fun kv => kv.1 == k).map (·.2)).or (entry k p) := by
  intro lines kept hs good ps
  obtain ⟨d', h1, _⟩ := read2_lines atof strtod text cs ds g hlen
  have hck : ∀ k : Bytes, (0 : Byte) ∉ k → cstr k = k := fun k hk => by
    refine cstr_of_noNul (by rw [noNul, List.all_eq_true]; intro c hc; simp only [ne_eq, decide_eq_true_eq]; rintro rfl; exact hk hc)
  have hor : ∀ pars, (∃ g', read_formatted_data2 atof strtod text cs ds pars g =
        .ok (g', pars.map fun p => ps.foldl setPar p) ∨
      read_formatted_data2 atof strtod text cs ds pars g = .throw (g', pars.map fun p => ps.foldl setPar p)) := by
    intro pars
    refine ⟨tableOf2 g.oldMap hs d', ?_⟩
    rw [h1 pars]
    split
    · exact .inl rfl
    · exact .inr rfl
  refine ⟨hor none, fun p => ?_⟩
  obtain ⟨g', hg'⟩ := hor (some p)
  refine ⟨g', ps.foldl setPar p, hg', fun h => by rw [h]; rfl, fun h => ?_, fun k hk => ?_⟩
  · obtain ⟨m, hm⟩ := setPar_type ps p h
    rw [hm]; rfl
  · rw [entry_old, entry_old, hck k hk, setPar_find]

/-- Parameters around a table: the first has a number, the second a text, the third replaces the first;
one line has no second text, one is no parameter line. -/
example (x : F64) : let strtod := fun s => if s = str "1" then some x else none
    let lines := [str "#! a b = 1", str "#! a b =", str "# c = 1", str "u", str "#!d=x y", str "1", str "#!a b=2"]
    parsOf strtod (str "#") lines =
      [(str "a b", real x), (str "d", string (str "x y")), (str "a b", string (str "2"))] := by
  rfl

/-- A line is a parameter line also when the comment character comes later, and then what follows is part of
the text. -/
example (strtod : Bytes → Option F64) (h : strtod (str "x # y") = none) :
    parsOf strtod (str "#") [str "z!a= x # y"] = [(str "a", string (str "x # y"))] := by
  have e : parsOf strtod (str "#") [str "z!a= x # y"] =
    [(str "a", match strtod (str "x # y") with | some x => real x | none => string (str "x # y"))] := by rfl
  rw [e, h]

/-- Only the first two texts count: what follows a second `=` is lost. -/
example (strtod : Bytes → Option F64) (h : strtod (str "b") = none) :
    parsOf strtod (str "#") [str "#! a = b = c"] = [(str "a", string (str "b"))] := by
  have e : parsOf strtod (str "#") [str "#! a = b = c"] =
    [(str "a", match strtod (str "b") with | some x => real x | none => string (str "b"))] := by rfl
  rw [e, h]

end GC
end GCV
