import Verif.Lemmas.Table

/-! # Lemmas about reading lines and rows -/

namespace GCV

/-- The newline. -/
def nl (c : Byte) : Bool := c == 10

theorem pieces_mid {d : Byte → Bool} {c : Byte} (hc : d c = true) : ∀ (t r : Bytes),
    (∀ x ∈ t, d x = false) → pieces d (t ++ c :: r) = t :: pieces d r
  | [], r, _ => by rw [List.nil_append, pieces, if_pos hc]
  | x :: t, r, h => by
    rw [List.cons_append, pieces, if_neg (by simp [h x (by simp)]),
      pieces_mid hc t r fun y hy => h y (.tail _ hy)]

theorem pieces_one {d : Byte → Bool} : ∀ (t : Bytes), (∀ x ∈ t, d x = false) → pieces d t = [t]
  | [], _ => rfl
  | x :: t, h => by
    rw [pieces, if_neg (by simp [h x (by simp)]), pieces_one t fun y hy => h y (.tail _ hy)]

/-- The lines `getline` hands out for pieces: the last piece, when not empty, comes twice. -/
def handed : List Bytes → List Bytes
  | [] => []
  | [p] => if p = [] then [[]] else [p, p]
  | p :: ps => p :: handed ps

theorem handed_cons {p : Bytes} {ps : List Bytes} (h : ps ≠ []) : handed (p :: ps) = p :: handed ps := by
  cases ps with
  | nil => exact absurd rfl h
  | cons => rfl

/-- The lines still handed out by a stream. -/
def Stream.seen (s : Stream) (line : Bytes) : List Bytes :=
  if s.fail then [] else if s.eof then [line] else handed (pieces nl s.rest)

theorem seen_step {s : Stream} {line : Bytes} (h : s.fail = false) :
    s.seen line = (s.getline line).2 :: (s.getline line).1.seen (s.getline line).2 := by
  obtain ⟨rest, eof, fail⟩ := s
  simp only at h; subst h
  cases eof with
  | true => simp [Stream.seen, Stream.getline]
  | false =>
    have hs : rest = rest.takeWhile (· ≠ 10) ++ rest.dropWhile (· ≠ 10) :=
      (List.takeWhile_append_dropWhile).symm
    have hl : ∀ x ∈ rest.takeWhile (fun x => decide (x ≠ 10)), nl x = false := fun x hx => by
      have := mem_takeWhile hx; simpa [nl] using this
    simp only [Stream.getline, Bool.false_eq_true, or_self, if_false, drop_takeWhile]
    cases hd : rest.dropWhile (fun x => decide (x ≠ 10)) with
    | nil =>
      rw [hd, List.append_nil] at hs
      simp only
      rw [← hs] at hl ⊢
      rw [Stream.seen, if_neg (by simp), if_neg (by simp)]
      simp only
      rw [pieces_one rest hl]
      cases rest <;> simp [handed, Stream.seen]
    | cons c r =>
      have hc : nl c = true := by
        have := takeWhile_head (fun x => decide (x ≠ 10)) rest c (by rw [hd]; rfl)
        simpa [nl] using this
      rw [hd] at hs
      have hp : pieces nl rest = rest.takeWhile (fun x => decide (x ≠ 10)) :: pieces nl r := by
        exact (congrArg (pieces nl) hs).trans (pieces_mid hc _ r hl)
      simp only
      rw [Stream.seen, if_neg (by simp), if_neg (by simp)]
      simp only
      rw [hp, handed_cons (pieces_ne_nil _ _)]
      simp [Stream.seen]

theorem pieces_length (d : Byte → Bool) : ∀ s, (pieces d s).length ≤ s.length + 1
  | [] => by simp [pieces]
  | c :: r => by
    have := pieces_length d r
    rw [pieces]; split
    · simp; omega
    · split <;> (simp_all; try omega)

theorem handed_length : ∀ ps, (handed ps).length ≤ ps.length + 1
  | [] => by simp [handed]
  | [p] => by rw [handed]; split <;> simp
  | p :: q :: ps => by
    have := handed_length (q :: ps)
    rw [handed_cons (by simp)]; simp at *; omega

theorem seen_length (s : Stream) (line : Bytes) : (s.seen line).length ≤ s.rest.length + 2 := by
  have h1 := handed_length (pieces nl s.rest)
  have h2 := pieces_length nl s.rest
  rw [Stream.seen]; split
  · simp
  · split
    · simp
    · omega

theorem getline_rest (s : Stream) (line : Bytes) : (s.getline line).1.rest.length ≤ s.rest.length := by
  unfold Stream.getline
  split
  · exact Nat.le_refl _
  · dsimp only
    split
    · rename_i r h
      have := congrArg List.length h
      rw [List.length_drop, List.length_cons] at this
      dsimp only; omega
    · exact Nat.zero_le _

/-- What `skipComments` returns, in terms of the lines handed out. -/
theorem skipComments_eq (cs : Bytes) : ∀ (fuel n : Nat) (s : Stream) (line : Bytes),
    (s.seen line).length < fuel →
    ∃ k s' line', skipComments cs fuel n s line = .ok (k, s', line') ∧
      ((s.seen line).dropWhile (hasAny cs) = [] ∧ k = 0 ∧ s'.fail = true ∧
          line' = (line :: s.seen line).getLast (by simp) ∨
        (s.seen line).dropWhile (hasAny cs) = line' :: s'.seen line' ∧
          (n + (s.seen line).length < 2 ^ 32 → 0 < k) ∧ s'.rest.length ≤ s.rest.length)
  | 0, n, s, line, h => by omega
  | fuel + 1, n, s, line, h => by
    rw [skipComments]
    cases hf : s.fail with
    | true =>
      have hs : s.seen line = [] := by simp [Stream.seen, hf]
      refine ⟨0, s, line, by simp, .inl ⟨?_, rfl, hf, ?_⟩⟩ <;> simp [hs]
    | false =>
      have hstep := seen_step (line := line) hf
      have hrest := getline_rest s line
      generalize s.getline line = q at hstep hrest
      obtain ⟨s', line'⟩ := q
      simp only [Bool.false_eq_true, if_false] at hstep hrest ⊢
      split
      · rename_i hc
        obtain ⟨k, s2, l2, e, hk⟩ := skipComments_eq cs fuel (u32 (n + 1)) s' line' (by
          rw [hstep] at h; simp at h; omega)
        refine ⟨k, s2, l2, e, ?_⟩
        rw [hstep, List.dropWhile_cons_of_pos hc]
        rcases hk with ⟨h1, h2, h3, h4⟩ | ⟨h1, h2, h3⟩
        · exact .inl ⟨h1, h2, h3, by rw [h4]; simp⟩
        · refine .inr ⟨h1, fun hlt => h2 ?_, by omega⟩
          have : u32 (n + 1) ≤ n + 1 := Nat.mod_le _ _
          simp at hlt; omega
      · rename_i hc
        refine ⟨_, _, _, rfl, .inr ⟨?_, fun hlt => ?_, hrest⟩⟩
        · rw [hstep, List.dropWhile_cons_of_neg hc]
        · rw [u32, Nat.mod_eq_of_lt (by rw [hstep] at hlt; simp at hlt; omega)]; omega

theorem dropWhile_filter {α : Type} (p : α → Bool) : ∀ l : List α,
    (l.dropWhile p = [] → l.filter (fun x => !p x) = []) ∧
    ∀ x r, l.dropWhile p = x :: r → l.filter (fun x => !p x) = x :: r.filter (fun x => !p x)
  | [] => by simp
  | y :: l => by
    obtain ⟨h1, h2⟩ := dropWhile_filter p l
    cases hy : p y with
    | true =>
      rw [List.dropWhile_cons_of_pos hy, List.filter_cons_of_neg (by simp [hy])]; exact ⟨h1, h2⟩
    | false =>
      rw [List.dropWhile_cons_of_neg (by simp [hy]), List.filter_cons_of_pos (by simp [hy])]
      exact ⟨by simp, fun x r h => by cases h; rfl⟩

theorem dropWhile_length {α : Type} (p : α → Bool) (l : List α) : (l.dropWhile p).length ≤ l.length :=
  (List.dropWhile_sublist p).length_le

theorem words_length (d : Byte → Bool) (s : Bytes) : (words d s).length ≤ s.length := by
  have h := runs_words d s.length s (Nat.le_refl _)
  generalize words d s = ts at h
  induction h with
  | none => simp
  | run _ h0 _ _ _ ih =>
    have := List.length_pos_iff.2 h0
    simp only [List.length_append, List.length_cons]; omega

theorem dropEol_length (ts : List Bytes) : (dropEol ts).length ≤ ts.length := by
  unfold dropEol
  split
  · split
    · simp
    · exact Nat.le_refl _
  · exact Nat.le_refl _

theorem mem_pieces {d : Byte → Bool} : ∀ {s : Bytes} {p : Bytes}, p ∈ pieces d s → p.length ≤ s.length
  | [], p, h => by simp [pieces] at h; simp [h]
  | c :: r, p, h => by
    rw [pieces] at h
    split at h
    · cases h with
      | head => simp
      | tail _ h => have := mem_pieces h; simp; omega
    · split at h
      · rename_i q ps e
        cases h with
        | head => have := mem_pieces (d := d) (s := r) (p := q) (by rw [e]; simp); simp; omega
        | tail _ h => have := mem_pieces (d := d) (s := r) (p := p) (by rw [e]; exact .tail _ h); simp; omega
      · simp at h; simp [h]

theorem mem_handed : ∀ {ps : List Bytes} {p : Bytes}, p ∈ handed ps → p ∈ ps
  | [], p, h => by simp [handed] at h
  | [q], p, h => by
    rw [handed] at h
    split at h
    · rename_i e; simpa [e] using h
    · simpa using h
  | q :: r :: ps, p, h => by
    rw [handed_cons (by simp)] at h
    cases h with
    | head => simp
    | tail _ h => exact .tail _ (mem_handed h)

namespace GC

/-- The data lines, comments removed. -/
def rowsOf (atof : Bytes → F64) (ds : Bytes) (ncol : Nat) : List Bytes → List GC → Loop (List GC)
  | [], xs => .ok xs
  | l :: r, xs =>
    let tokens := dropEol (words (fun c => ds.contains c) l)
    if tokens = [] then .ok xs
    else if u32 tokens.length ≠ ncol then .throw xs
    else match pushRow atof ncol tokens xs with
      | .ok ys => rowsOf atof ds ncol r ys
      | .throw => .throw xs
      | .ub => .ub
      | .diverge => .diverge

theorem readRows_eq (atof : Bytes → F64) (cs ds : Bytes) (ncol : Nat) : ∀ (fuel : Nat) (s : Stream)
    (line : Bytes) (xs : List GC), (s.seen line).length < fuel → (s.seen line).length < 2 ^ 32 →
    readRows atof cs ds ncol fuel s line xs =
      rowsOf atof ds ncol ((s.seen line).filter fun l => !hasAny cs l) xs
  | 0, s, line, xs, h, _ => by omega
  | fuel + 1, s, line, xs, h, hb => by
    obtain ⟨k, s', line', e, hk⟩ := skipComments_eq cs (s.rest.length + 3) 0 s line
      (by have := seen_length s line; omega)
    obtain ⟨f1, f2⟩ := dropWhile_filter (hasAny cs) (s.seen line)
    rw [readRows, e]
    dsimp only
    rcases hk with ⟨h1, h2, _⟩ | ⟨h1, h2, _⟩
    · rw [f1 h1, if_pos h2]; rfl
    · rw [f2 _ _ h1, if_neg (by have := h2 (by omega); omega), rowsOf, tokenize_eq]
      have hl : (s'.seen line').length < (s.seen line).length := by
        have := dropWhile_length (hasAny cs) (s.seen line)
        rw [h1] at this; simp at this; omega
      dsimp only
      split
      · rfl
      · split
        · rfl
        · cases pushRow atof ncol (dropEol (words (fun c => ds.contains c) line')) xs with
          | ok ys => exact readRows_eq atof cs ds ncol fuel s' line' ys (by omega) (by omega)
          | throw => rfl
          | ub => rfl
          | diverge => rfl

theorem pushRow_range (atof : Bytes → F64) (f : Nat → List F64) : ∀ (n k : Nat) (ts : List Bytes), ts.length = n →
    pushRow atof n ts ((List.range' k n).map fun i => vecReal (f i)) =
      .ok ((List.range' k n).map fun i => vecReal (f i ++ [atof (cstr (ts.getD (i - k) []))]))
  | 0, k, ts, h => by simp [pushRow]
  | n + 1, k, [], h => by simp at h
  | n + 1, k, t :: ts, h => by
    rw [List.range'_succ, List.map_cons, List.map_cons, pushRow,
      pushRow_range atof f n (k + 1) ts (by simpa using h)]
    simp only [Out.bind, Nat.sub_self, List.getD_cons_zero, Out.ok.injEq, List.cons.injEq, true_and]
    refine List.map_congr_left fun i hi => ?_
    have : k + 1 ≤ i := (List.mem_range'_1.1 hi).1
    obtain ⟨j, rfl⟩ : ∃ j, i = k + 1 + j := ⟨i - (k + 1), by omega⟩
    rw [show k + 1 + j - (k + 1) = j by omega, show k + 1 + j - k = j + 1 by omega]
    simp

theorem pushRow_columns (atof : Bytes → F64) {n : Nat} (rows : List (List Bytes)) {ts : List Bytes}
    (h : ts.length = n) :
    pushRow atof n ts (tableCols atof n rows) = .ok (tableCols atof n (rows ++ [ts])) := by
  have := pushRow_range atof (fun i => (column [] i rows).map fun t => atof (cstr t)) n 0 ts h
  unfold cstr at this
  rw [tableCols, List.range_eq_range', this, tableCols, List.range_eq_range']
  simp [column]

theorem rowsOf_columns (atof : Bytes → F64) (ds : Bytes) (ncol : Nat) : ∀ (ls : List Bytes)
    (seen : List (List Bytes)),
    (∀ l ∈ ls, u32 (dropEol (words (fun c => ds.contains c) l)).length =
      (dropEol (words (fun c => ds.contains c) l)).length) →
    let rows := (ls.map fun l => dropEol (words (fun c => ds.contains c) l)).takeWhile (· ≠ [])
    ((∀ r ∈ rows, r.length = ncol) →
      rowsOf atof ds ncol ls (tableCols atof ncol seen) = .ok (tableCols atof ncol (seen ++ rows))) ∧
    ((∃ r ∈ rows, r.length ≠ ncol) → ∃ ys, rowsOf atof ds ncol ls (tableCols atof ncol seen) = .throw ys)
  | [], seen, _ => by simp [rowsOf]
  | l :: ls, seen, hu => by
    have ih := rowsOf_columns atof ds ncol ls (seen ++ [dropEol (words (fun c => ds.contains c) l)])
      fun x hx => hu x (.tail _ hx)
    have hl := hu l (by simp)
    simp only [List.map_cons] at ih ⊢
    rw [rowsOf]
    generalize dropEol (words (fun c => ds.contains c) l) = t at ih hl ⊢
    by_cases ht : t = []
    · subst ht; simp
    · rw [List.takeWhile_cons_of_pos (by simpa using ht)]
      simp only [if_neg ht, hl]
      by_cases hn : t.length = ncol
      · rw [if_neg (by simpa using hn), pushRow_columns atof seen hn]
        refine ⟨fun h => ?_, fun h => ?_⟩
        · have := ih.1 fun r hr => h r (.tail _ hr)
          rw [List.append_assoc] at this
          exact this
        · refine ih.2 ?_
          obtain ⟨r, hr, hne⟩ := h
          cases hr with
          | head => exact absurd hn hne
          | tail _ hr => exact ⟨r, hr, hne⟩
      · rw [if_pos hn]
        exact ⟨fun h => absurd (h t (by simp)) hn, fun _ => ⟨_, rfl⟩⟩

/-- The words of a line as the tokenizer returns them. -/
def tok (ds l : Bytes) : List Bytes := dropEol (words (fun c => ds.contains c) l)

theorem tok_length (ds l : Bytes) : (tok ds l).length ≤ l.length :=
  Nat.le_trans (dropEol_length _) (words_length _ _)

theorem first_columns (atof : Bytes → F64) (n : Nat) (m : Entries) (h : mfind (str "data") m = none) :
    (((allocL notype n ((mfind (str "data") m).getD notype).oldVector).take n).map (set_vec_real_n 0) ++
      (allocL notype n ((mfind (str "data") m).getD notype).oldVector).drop n) = tableCols atof n [] := by
  rw [h]
  have : allocL notype n (oldVector notype) = List.replicate n notype := by
    unfold allocL; split
    · simp [resizeL, oldVector]
    · rw [show n = 0 by omega]; rfl
  simp only [Option.getD_none, this, tableCols, column]
  rw [List.take_of_length_le (by simp), List.drop_of_length_le (by simp), List.append_nil]
  simp [set_vec_real_n, allocate_vec_real, allocL, oldVecReal, List.map_const']

/-- The lines `getline` hands out for a text. -/
def linesSeen (text : Bytes) : List Bytes := handed (pieces nl text)

theorem read_eq (atof : Bytes → F64) (text cs ds : Bytes) (g : GC) (hlen : text.length + 2 < 2 ^ 32)
    (hd : mfind (str "data") g.oldMap = none) :
    let kept := (linesSeen text).filter fun l => !hasAny cs l
    let hs := tok ds (kept.headD ((linesSeen text).getLastD []))
    let rows := (kept.tail.map (tok ds)).takeWhile (· ≠ [])
    ((∀ r ∈ rows, r.length = hs.length) →
      read_formatted_data atof text cs ds g =
        .ok (tableOf g.oldMap hs (tableCols atof hs.length rows)) ()) ∧
    ((∃ r ∈ rows, r.length ≠ hs.length) →
      ∃ ys, read_formatted_data atof text cs ds g = .throw (tableOf g.oldMap hs ys)) := by
  have hseen : (Stream.ofText text).seen [] = linesSeen text := by
    simp [Stream.seen, Stream.ofText, linesSeen]
  have hsl := seen_length (Stream.ofText text) []
  have hrest : (Stream.ofText text).rest.length = text.length := rfl
  have hle : ∀ l ∈ linesSeen text, l.length ≤ text.length := fun l hl => mem_pieces (mem_handed hl)
  obtain ⟨k, s', line', e, hk⟩ := skipComments_eq cs (text.length + 3) 0 (.ofText text) [] (by omega)
  obtain ⟨f1, f2⟩ := dropWhile_filter (hasAny cs) (linesSeen text)
  have hu : ∀ l : Bytes, l.length ≤ text.length → u32 (tok ds l).length = (tok ds l).length := fun l hl =>
    Nat.mod_eq_of_lt (by have := tok_length ds l; omega)
  rw [hseen] at hk hsl
  intro kept hs rows
  unfold read_formatted_data
  dsimp only
  rw [e]
  dsimp only
  rw [tokenize_eq]
  dsimp only
  rcases hk with ⟨h1, h2, h3, h4⟩ | ⟨h1, h2, h3⟩
  · have hk0 : kept = [] := f1 h1
    have hline : line' = (linesSeen text).getLastD [] := by
      rw [h4]; cases linesSeen text <;> rfl
    have hhs : hs = tok ds line' := by simp only [hs, hk0, List.headD_nil, hline]
    have hs0 : s'.seen line' = [] := by simp [Stream.seen, h3]
    have hrows : rows = [] := by simp only [rows, hk0]; rfl
    have hl : line'.length ≤ text.length := by
      rw [h4]; refine (?_ : ∀ l ∈ [] :: linesSeen text, l.length ≤ text.length) _ (List.getLast_mem _)
      intro l hl; cases hl with
      | head => simp
      | tail _ hl => exact hle l hl
    rw [show dropEol (words (fun c => ds.contains c) line') = tok ds line' from rfl, ← hhs,
      show u32 hs.length = hs.length by rw [hhs]; exact hu _ hl, first_columns atof hs.length _ hd,
      readRows_eq _ _ _ _ _ _ _ _ (by rw [hs0]; simp) (by rw [hs0]; simp), hs0]
    refine ⟨fun _ => ?_, fun h => ?_⟩
    · rw [hrows]; rfl
    · rw [hrows] at h; obtain ⟨r, hr, _⟩ := h; cases hr
  · have hk1 : kept = line' :: (s'.seen line').filter fun l => !hasAny cs l := f2 _ _ h1
    have hsub : ∀ l ∈ line' :: s'.seen line', l ∈ linesSeen text := by
      rw [← h1]; intro l hl; exact (List.dropWhile_sublist _).subset hl
    have hhs : hs = tok ds line' := by simp only [hs, hk1, List.headD_cons]
    have hrows : rows = (((s'.seen line').filter fun l => !hasAny cs l).map (tok ds)).takeWhile (· ≠ []) := by
      simp only [rows, hk1, List.tail_cons]
    have hl : line'.length ≤ text.length := hle _ (hsub _ (by simp))
    have hcount : (s'.seen line').length < (linesSeen text).length := by
      have := dropWhile_length (hasAny cs) (linesSeen text)
      rw [h1] at this; simp at this; omega
    have hr := rowsOf_columns atof ds hs.length ((s'.seen line').filter fun l => !hasAny cs l) [] (by
      intro l hl
      exact hu l (hle l (hsub l (.tail _ (List.mem_filter.1 hl).1))))
    rw [show dropEol (words (fun c => ds.contains c) line') = tok ds line' from rfl, ← hhs,
      show u32 hs.length = hs.length by rw [hhs]; exact hu _ hl, first_columns atof hs.length _ hd,
      readRows_eq _ _ _ _ _ _ _ _ (by omega) (by omega)]
    dsimp only at hr
    rw [List.nil_append] at hr
    rw [show (fun l => dropEol (words (fun c => ds.contains c) l)) = tok ds from rfl, ← hrows] at hr
    refine ⟨fun h => ?_, fun h => ?_⟩
    · rw [hr.1 h]
    · obtain ⟨ys, hy⟩ := hr.2 h
      exact ⟨ys, by rw [hy]⟩

end GC
end GCV
