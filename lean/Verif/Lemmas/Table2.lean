import Verif.Lemmas.TableRead
import Verif.Model.Support2
import Verif.Spec.Table2

/-! # Lemmas about tables with parameters -/

namespace GCV

theorem findIdx?_dropWhile {α : Type} (p : α → Bool) : ∀ s : List α,
    (s.findIdx? p = none ∧ s.dropWhile (fun c => !p c) = [] ∧ s.all (fun c => !p c) = true) ∨
    ∃ i, s.findIdx? p = some i ∧ i < s.length ∧ s.drop i = s.dropWhile (fun c => !p c) ∧
      s.all (fun c => !p c) = false
  | [] => .inl ⟨rfl, rfl, rfl⟩
  | x :: s => by
    cases hx : p x with
    | true => exact .inr ⟨0, by simp [List.findIdx?_cons, hx], by simp, by simp [hx], by simp [hx]⟩
    | false =>
      rcases findIdx?_dropWhile p s with ⟨h1, h2, h3⟩ | ⟨i, h1, h2, h3, h4⟩
      · exact .inl ⟨by simp [List.findIdx?_cons, hx, h1], by simp [hx, h2], by
          rw [List.all_cons, h3, hx]; rfl⟩
      · exact .inr ⟨i + 1, by simp [List.findIdx?_cons, hx, h1], by simp; omega, by
          simp [hx, h3], by rw [List.all_cons, h4, hx]; rfl⟩

theorem not_blank : (fun c : Byte => !!(c == 32 || c == 9)) = isBlank := by
  funext c; simp [isBlank]

theorem all_reverse' {α : Type} (p : α → Bool) (s : List α) : s.reverse.all p = s.all p := by
  rw [Bool.eq_iff_iff]; simp

theorem dropEnd_drop (s : Bytes) (h : s.all isBlank = false) :
    (match firstNotBlank s with | some b => s.drop b | none => s) = s.dropWhile isBlank := by
  unfold firstNotBlank
  rcases findIdx?_dropWhile (fun c : Byte => !(c == 32 || c == 9)) s with ⟨h1, h2, h3⟩ | ⟨i, h1, h2, h3, h4⟩
  · rw [not_blank] at h3; rw [h] at h3; cases h3
  · rw [h1]; simp only; rw [h3, not_blank]

theorem dropWhile_all {α : Type} (p : α → Bool) (s : List α) (h : s.all p = false) :
    ∃ x r, s.dropWhile p = x :: r ∧ p x = false := by
  cases e : s.dropWhile p with
  | nil =>
    exfalso
    have : s.all p = true := by
      rw [List.all_eq_true]
      intro x hx
      have := List.takeWhile_append_dropWhile (p := p) (l := s)
      rw [e, List.append_nil] at this
      exact mem_takeWhile (this ▸ hx)
    rw [this] at h; cases h
  | cons x r => exact ⟨x, r, rfl, takeWhile_head p s x (by rw [e]; rfl)⟩

/-- Blanks at the end removed first, then those at the start. -/
theorem trim_comm (p : Byte → Bool) (s : Bytes) (h : s.all p = false) :
    ((s.reverse.dropWhile p).reverse).dropWhile p = ((s.dropWhile p).reverse.dropWhile p).reverse := by
  obtain ⟨a, t, ht⟩ : ∃ a t, s = a ++ t ∧ (∀ x ∈ a, p x = true) ∧ ∃ x r, t = x :: r ∧ p x = false := by
    refine ⟨s.takeWhile p, s.dropWhile p, (List.takeWhile_append_dropWhile).symm, fun x hx => mem_takeWhile hx, ?_⟩
    exact dropWhile_all p s h
  obtain ⟨rfl, ha, x, r, rfl, hx⟩ := ht
  have hd : (a ++ x :: r).dropWhile p = x :: r := by
    rw [List.dropWhile_append_of_pos ha, List.dropWhile_cons_of_neg (by simp [hx])]
  rw [hd]
  obtain ⟨y, z, hy, hyp⟩ := dropWhile_all p (x :: r).reverse (by
    rw [all_reverse', List.all_cons, hx]; rfl)
  have hr : ((a ++ x :: r).reverse).dropWhile p = (x :: r).reverse.dropWhile p ++ a.reverse := by
    rw [List.reverse_append, List.dropWhile_append, hy]; simp
  rw [hr, List.reverse_append, List.reverse_reverse, List.dropWhile_append_of_pos ha]
  have : ∃ q, ((x :: r).reverse.dropWhile p).reverse = x :: q := by
    have h2 := List.takeWhile_append_dropWhile (p := p) (l := (x :: r).reverse)
    have h3 : (x :: r) = ((x :: r).reverse.dropWhile p).reverse ++ ((x :: r).reverse.takeWhile p).reverse := by
      rw [← List.reverse_append, h2, List.reverse_reverse]
    rw [hy] at h3 ⊢
    cases hz : (y :: z).reverse with
    | nil => simp at hz
    | cons c q =>
      rw [hz] at h3
      injection h3 with h4
      exact ⟨q, by rw [h4]⟩
  obtain ⟨q, hq⟩ := this
  rw [hq, List.dropWhile_cons_of_neg (by simp [hx])]

theorem trimBlanks_eq (s : Bytes) : trimBlanks s = trimmed s := by
  unfold trimBlanks trimmed lastNotBlank
  rcases findIdx?_dropWhile (fun c : Byte => !(c == 32 || c == 9)) s.reverse with ⟨h1, h2, h3⟩ | ⟨i, h1, h2, h3, h4⟩
  · rw [not_blank, all_reverse'] at h3
    rw [h1, if_pos h3]
    simp only [Option.map_none]
    unfold firstNotBlank
    rcases findIdx?_dropWhile (fun c : Byte => !(c == 32 || c == 9)) s with ⟨h1, h2, _⟩ | ⟨i, h1, h2, _, h4⟩
    · rw [h1]
    · rw [not_blank, h3] at h4; cases h4
  · rw [not_blank] at h3 h4
    rw [all_reverse'] at h4
    rw [h1]
    simp only [Option.map_some]
    rw [if_neg (by simp [h4])]
    have e : s.take (s.length - 1 - i + 1) = (s.reverse.dropWhile isBlank).reverse := by
      rw [← h3, List.drop_reverse, List.reverse_reverse]
      congr 1
      simp at h2; omega
    rw [e]
    have ha : ((s.reverse.dropWhile isBlank).reverse).all isBlank = false := by
      rw [all_reverse']
      obtain ⟨x, r, hx, hp⟩ := dropWhile_all isBlank s.reverse (by rw [all_reverse', h4])
      rw [hx, List.all_cons, hp]; rfl
    exact (dropEnd_drop _ ha).trans (trim_comm isBlank s h4)

namespace GC

/-- What a line does to the parameters. -/
def setPar (p : GC) (kv : Bytes × GC) : GC := map (mset kv.1 kv.2 p.oldMap)

theorem dropEol_pair (ts : List Bytes) (hne : ∀ t ∈ ts, t ≠ []) (h10 : ∀ t ∈ ts, (10 : Byte) ∉ t) :
    (∃ l r m, ts = l :: r :: m ∧ ((m = [] ∧ r.head? = some 13 ∧ dropEol ts = [l]) ∨
      (¬ (m = [] ∧ r.head? = some 13) ∧ ∃ m', dropEol ts = l :: r :: m'))) ∨
    ((∀ l r m, ts ≠ l :: r :: m) ∧ ∀ l r m, dropEol ts ≠ l :: r :: m) := by
  match ts with
  | [] => exact .inr ⟨by simp, by simp [dropEol]⟩
  | [t] =>
    refine .inr ⟨by simp, ?_⟩
    intro l r m
    have := dropEol_length [t]
    intro e; rw [e] at this; simp at this
  | l :: r :: m =>
    refine .inl ⟨l, r, m, rfl, ?_⟩
    cases m with
    | nil =>
      have hr := hne r (by simp)
      have h0 := h10 r (by simp)
      cases r with
      | nil => exact absurd rfl hr
      | cons c q =>
        have hc : c ≠ 10 := by rintro rfl; simp at h0
        by_cases h : c = 13
        · subst h; exact .inl ⟨rfl, rfl, by simp [dropEol]⟩
        · refine .inr ⟨fun hh => h (Option.some.inj hh.2), [], ?_⟩
          simp only [dropEol, List.getLast?_cons_cons, List.getLast?_singleton]
          exact if_neg fun hh => hh.elim hc h
    | cons x m =>
      refine .inr ⟨by simp, ?_⟩
      have : dropEol (l :: r :: x :: m) = l :: r :: x :: m ∨
          dropEol (l :: r :: x :: m) = (l :: r :: x :: m).dropLast := by
        unfold dropEol
        split
        · split
          · exact .inr rfl
          · exact .inl rfl
        · exact .inl rfl
      rcases this with h | h
      · exact ⟨_, h⟩
      · exact ⟨_, by rw [h]; rfl⟩

theorem mem_words {d : Byte → Bool} {s t : Bytes} (h : t ∈ words d s) : t ≠ [] ∧ ∀ c ∈ t, c ∈ s := by
  have hr := runs_words d _ s (Nat.le_refl _)
  generalize words d s = ts at h hr
  induction hr with
  | none => cases h
  | run _ h0 _ _ _ ih =>
    cases h with
    | head => exact ⟨h0, fun c hc => by simp [hc]⟩
    | tail _ h =>
      obtain ⟨h1, h2⟩ := ih h
      exact ⟨h1, fun c hc => by simp [h2 c hc]⟩

theorem contains_single (b : Byte) : (fun c => [b].contains c) = (fun c => c == b) := by
  funext c; by_cases h : c = b <;> simp [h]

theorem parLine_eq (strtod : Bytes → Option F64) (l : Bytes) (h : (10 : Byte) ∉ l) (pars : Option GC) :
    parLine strtod l pars = .ok (pars.map fun p => (parOf strtod l).toList.foldl setPar p) := by
  cases pars with
  | none => rfl
  | some p =>
    unfold parLine parOf
    simp only [Option.map_some]
    by_cases hc : 2 < l.length ∧ l[1]? = some 33
    · rw [if_pos hc, if_pos hc, tokenize_eq, contains_single]
      simp only [Out.bind]
      have hp := dropEol_pair (words (fun c => c == 61) (l.drop 2)) (fun t ht => (mem_words ht).1)
        (fun t ht h' => h (List.mem_of_mem_drop ((mem_words ht).2 _ h')))
      rcases hp with ⟨a, b, m, e, ⟨h1, h2, h3⟩ | ⟨h1, m', h3⟩⟩ | ⟨h1, h2⟩
      · rw [h3, e]
        simp only
        rw [if_pos ⟨h1, h2⟩]; rfl
      · rw [h3, e]
        simp only
        rw [if_neg h1, trimBlanks_eq, trimBlanks_eq]
        simp only [cstr, setPar, Option.toList_some, List.foldl_cons, List.foldl_nil]
        cases strtod ((trimmed b).takeWhile (· ≠ 0)) <;> rfl
      · generalize dropEol (words (fun c => c == 61) (l.drop 2)) = A at h2 ⊢
        generalize words (fun c => c == 61) (l.drop 2) = B at h1 ⊢
        match A, B, h1, h2 with
        | _ :: _ :: _, _, _, h2 => exact absurd rfl (h2 _ _ _)
        | _, _ :: _ :: _, h1, _ => exact absurd rfl (h1 _ _ _)
        | [], [], _, _ => rfl
        | [], [_], _, _ => rfl
        | [_], [], _, _ => rfl
        | [_], [_], _, _ => rfl
    · rw [if_neg hc, if_neg hc]; rfl

/-- What some lines that do not count do to the parameters. -/
def setPars (strtod : Bytes → Option F64) (ls : List Bytes) (pars : Option GC) : Option GC :=
  pars.map fun p => (ls.filterMap (parOf strtod)).foldl setPar p

theorem setPars_nil (strtod : Bytes → Option F64) (pars : Option GC) : setPars strtod [] pars = pars := by
  cases pars <;> rfl

theorem setPars_cons (strtod : Bytes → Option F64) (l : Bytes) (ls : List Bytes) (pars : Option GC) :
    setPars strtod (l :: ls) pars =
      setPars strtod ls (pars.map fun p => (parOf strtod l).toList.foldl setPar p) := by
  cases pars with
  | none => rfl
  | some p =>
    simp only [setPars, Option.map_some, List.filterMap_cons]
    cases parOf strtod l <;> rfl

theorem setPars_append (strtod : Bytes → Option F64) (a b : List Bytes) (pars : Option GC) :
    setPars strtod (a ++ b) pars = setPars strtod b (setPars strtod a pars) := by
  cases pars with
  | none => rfl
  | some p => simp [setPars, List.foldl_append]

theorem skip_counts (cs l : Bytes) : (l.isEmpty || hasAny cs l) = !countsLine cs l := by
  simp [countsLine, hasAny]

theorem nl_seen {s : Stream} {line : Bytes} (h : (10 : Byte) ∉ line) :
    ∀ l ∈ s.seen line, (10 : Byte) ∉ l := by
  intro l hl
  unfold Stream.seen at hl
  split at hl
  · cases hl
  · split at hl
    · simp at hl; rw [hl]; exact h
    · have := mem_handed hl
      intro h10
      clear hl
      generalize s.rest = t at this
      induction t generalizing l with
      | nil => simp [pieces] at this; subst this; cases h10
      | cons c r ih =>
        rw [pieces] at this
        split at this
        · cases this with
          | head => cases h10
          | tail _ h => exact ih l h10 h
        · rename_i hc
          have hc : c ≠ 10 := by simpa [nl] using hc
          split at this
          · rename_i q ps e
            cases this with
            | head =>
              cases h10 with
              | head => exact hc rfl
              | tail _ h10 => exact ih q h10 (by rw [e]; simp)
            | tail _ h => exact ih l h10 (by rw [e]; exact .tail _ h)
          · simp at this; subst this
            cases h10 with
            | head => exact hc rfl
            | tail _ h => cases h

/-- What `skipComments2` returns, in terms of the lines handed out. -/
theorem skipComments2_eq (strtod : Bytes → Option F64) (cs : Bytes) : ∀ (fuel n : Nat) (s : Stream)
    (line : Bytes), (s.seen line).length < fuel → (10 : Byte) ∉ line →
    ∃ k s' line', (∀ pars, skipComments2 strtod cs fuel n s line pars =
        .ok (k, s', line', setPars strtod ((s.seen line).takeWhile fun l => !countsLine cs l) pars)) ∧
      ((s.seen line).dropWhile (fun l => !countsLine cs l) = [] ∧ k = 0 ∧ s'.fail = true ∧
          line' = (line :: s.seen line).getLast (by simp) ∨
        (s.seen line).dropWhile (fun l => !countsLine cs l) = line' :: s'.seen line' ∧
          (n + (s.seen line).length < 2 ^ 32 → 0 < k) ∧ s'.rest.length ≤ s.rest.length)
  | 0, n, s, line, h, _ => by omega
  | fuel + 1, n, s, line, h, hn => by
    simp only [skipComments2]
    cases hf : s.fail with
    | true =>
      have hs : s.seen line = [] := by simp [Stream.seen, hf]
      refine ⟨0, s, line, by simp [hs, setPars_nil], .inl ⟨?_, rfl, hf, ?_⟩⟩ <;> simp [hs]
    | false =>
      have hstep := seen_step (line := line) hf
      have hrest := getline_rest s line
      have hn' := nl_seen (s := s) hn
      generalize s.getline line = q at hstep hrest
      obtain ⟨s', line'⟩ := q
      simp only [Bool.false_eq_true, if_false] at hstep hrest ⊢
      simp only [skip_counts]
      have hl' : (10 : Byte) ∉ line' := hn' _ (by rw [hstep]; simp)
      cases hc : countsLine cs line' with
      | false =>
        simp only [Bool.not_false, if_true]
        simp only [parLine_eq strtod line' hl', Out.bind]
        obtain ⟨k, s2, l2, e, hk⟩ := skipComments2_eq strtod cs fuel (u32 (n + 1)) s' line' (by
            rw [hstep] at h; simp at h; omega) hl'
        refine ⟨k, s2, l2, fun pars => ?_, ?_⟩
        · rw [e, hstep, List.takeWhile_cons_of_pos (by simp [hc]), setPars_cons]
        · rw [hstep, List.dropWhile_cons_of_pos (by simp [hc])]
          rcases hk with ⟨h1, h2, h3, h4⟩ | ⟨h1, h2, h3⟩
          · exact .inl ⟨h1, h2, h3, by rw [h4]; simp⟩
          · refine .inr ⟨h1, fun hlt => h2 ?_, by omega⟩
            have : u32 (n + 1) ≤ n + 1 := Nat.mod_le _ _
            simp at hlt; omega
      | true =>
        refine ⟨u32 (n + 1), s', line', fun pars => ?_, .inr ⟨?_, fun hlt => ?_, hrest⟩⟩
        · rw [hstep, List.takeWhile_cons_of_neg (by simp [hc]), setPars_nil]
          rfl
        · rw [hstep, List.dropWhile_cons_of_neg (by simp [hc])]
        · rw [u32, Nat.mod_eq_of_lt (by rw [hstep] at hlt; simp at hlt; omega)]; omega

/-- The data lines, with those that do not count. -/
def rowsOf2 (atof : Bytes → F64) (strtod : Bytes → Option F64) (cs ds : Bytes) (headers : List Bytes) :
    List Bytes → Option GC → Entries → Loop (Entries × Option GC)
  | [], pars, d => .ok (d, pars)
  | l :: r, pars, d =>
    if countsLine cs l then
      if tok ds l = [] then .ok (d, pars)
      else if u32 (tok ds l).length ≠ u32 headers.length then .throw (d, pars)
      else match pushRow2 atof (headers.take (u32 headers.length)) (tok ds l) d with
        | .ok d' => rowsOf2 atof strtod cs ds headers r pars d'
        | .throw => .throw (d, pars)
        | .ub => .ub
        | .diverge => .diverge
    else rowsOf2 atof strtod cs ds headers r (setPars strtod [l] pars) d

theorem rowsOf2_skip (atof : Bytes → F64) (strtod : Bytes → Option F64) (cs ds : Bytes) (headers : List Bytes)
    (d : Entries) : ∀ (ls : List Bytes) (pars : Option GC),
    rowsOf2 atof strtod cs ds headers ls pars d =
      rowsOf2 atof strtod cs ds headers (ls.dropWhile fun l => !countsLine cs l)
        (setPars strtod (ls.takeWhile fun l => !countsLine cs l) pars) d
  | [], pars => by simp [setPars_nil]
  | l :: ls, pars => by
    cases h : countsLine cs l with
    | true =>
      rw [List.dropWhile_cons_of_neg (by simp [h]), List.takeWhile_cons_of_neg (by simp [h]), setPars_nil]
    | false =>
      rw [List.dropWhile_cons_of_pos (by simp [h]), List.takeWhile_cons_of_pos (by simp [h]), rowsOf2,
        if_neg (by simp [h]), rowsOf2_skip atof strtod cs ds headers d ls, ← setPars_append]
      rfl

theorem readRows2_eq (atof : Bytes → F64) (strtod : Bytes → Option F64) (cs ds : Bytes) (headers : List Bytes) :
    ∀ (fuel : Nat) (s : Stream) (line : Bytes) (pars : Option GC) (d : Entries),
    (s.seen line).length < fuel → (s.seen line).length < 2 ^ 32 → (10 : Byte) ∉ line →
    readRows2 atof strtod cs ds headers fuel s line pars d =
      rowsOf2 atof strtod cs ds headers (s.seen line) pars d
  | 0, s, line, _, _, h, _, _ => by omega
  | fuel + 1, s, line, pars, d, h, hb, hn => by
    obtain ⟨k, s', line', e, hk⟩ := skipComments2_eq strtod cs (s.rest.length + 3) 0 s line
      (by have := seen_length s line; omega) hn
    rw [readRows2, e, rowsOf2_skip]
    have hsub : ∀ l ∈ (s.seen line).dropWhile (fun l => !countsLine cs l), (10 : Byte) ∉ l := fun l hl =>
      nl_seen hn l ((List.dropWhile_sublist _).subset hl)
    dsimp only
    rcases hk with ⟨h1, h2, _⟩ | ⟨h1, h2, _⟩
    · rw [h1, if_pos h2]; rfl
    · have hc : countsLine cs line' = true := by
        have := takeWhile_head (fun l => !countsLine cs l) (s.seen line) line' (by rw [h1]; rfl)
        simpa using this
      rw [h1] at hsub
      rw [h1, if_neg (by have := h2 (by omega); omega), rowsOf2, tokenize_eq, if_pos hc]
      have hl : (s'.seen line').length < (s.seen line).length := by
        have := dropWhile_length (fun l => !countsLine cs l) (s.seen line)
        rw [h1] at this; simp at this; omega
      change (if tok ds line' = [] then _ else _) = _
      split
      · rfl
      · change (if u32 (tok ds line').length ≠ u32 headers.length then _ else _) = _
        split
        · rfl
        · change (match pushRow2 atof (headers.take (u32 headers.length)) (tok ds line') d with
            | .ok d' => _ | .throw => _ | .ub => _ | .diverge => _) = _
          cases pushRow2 atof (headers.take (u32 headers.length)) (tok ds line') d with
          | ok ys =>
            exact readRows2_eq atof strtod cs ds headers fuel s' line' _ ys (by omega) (by omega)
              (hsub _ (by simp))
          | throw => rfl
          | ub => rfl
          | diverge => rfl

theorem pushRow2_eq (atof : Bytes → F64) : ∀ (hs ts : List Bytes) (d : Entries), ts.length = hs.length →
    (∀ h ∈ hs, ∃ v, mfind (cstr h) d = some (vecReal v)) →
    ∃ d', pushRow2 atof hs ts d = .ok d' ∧ ∀ k, mfind k d' =
      if k ∈ hs.map cstr then some (vecReal (reals (mfind k d) ++ rowAt atof hs k ts)) else mfind k d
  | [], ts, d, _, _ => ⟨d, by simp [pushRow2], by simp⟩
  | h :: hs, [], d, hl, _ => by simp at hl
  | h :: hs, t :: ts, d, hl, hd => by
    obtain ⟨v, hv⟩ := hd h (by simp)
    obtain ⟨d', e, hk⟩ := pushRow2_eq atof hs ts (mset (cstr h) (vecReal (v ++ [atof (cstr t)])) d)
      (by simpa using hl) (fun x hx => by
        by_cases hxh : cstr x = cstr h
        · exact ⟨_, by rw [hxh, mfind_mset_same]⟩
        · rw [mfind_mset_other hxh]; exact hd x (.tail _ hx))
    refine ⟨d', by rw [pushRow2, hv]; exact e, fun k => ?_⟩
    rw [hk k]
    by_cases hkh : k = cstr h
    · subst hkh
      rw [mfind_mset_same, hv]
      simp only [List.map_cons, List.mem_cons, true_or, if_true, reals]
      have : rowAt atof (h :: hs) (cstr h) (t :: ts) = atof (cstr t) :: rowAt atof hs (cstr h) ts := by
        unfold rowAt
        rw [List.zip_cons_cons, List.filter_cons_of_pos (by simp [cstr])]
        rfl
      rw [this]
      split
      · simp
      · rename_i hnm
        have hz : rowAt atof hs (cstr h) ts = [] := by
          unfold rowAt
          rw [List.map_eq_nil_iff, List.filter_eq_nil_iff]
          rintro ⟨a, b⟩ hp hab
          refine hnm (List.mem_map.2 ⟨a, (List.of_mem_zip hp).1, ?_⟩)
          simpa [cstr] using hab
        rw [hz]
    · rw [mfind_mset_other hkh]
      have : rowAt atof (h :: hs) k (t :: ts) = rowAt atof hs k ts := by
        unfold rowAt
        rw [List.zip_cons_cons, List.filter_cons_of_neg]
        simp only [beq_iff_eq]
        intro e; exact hkh e.symm
      rw [this]
      simp [hkh]

theorem columns2_eq : ∀ (hs : List Bytes) (d : Entries) (k : Bytes), mfind k (columns2 hs d) =
    if k ∈ hs.map cstr then some (vecReal (reals (mfind k d))) else mfind k d
  | [], d, k => by simp [columns2]
  | h :: hs, d, k => by
    rw [columns2, columns2_eq hs]
    by_cases hkh : k = cstr h
    · subst hkh
      rw [mfind_mset_same]
      have : set_vec_real_n 0 ((mfind (cstr h) d).getD notype) = vecReal (reals (mfind (cstr h) d)) := by
        cases mfind (cstr h) d with
        | none => rfl
        | some x => cases x <;> simp [set_vec_real_n, allocate_vec_real, allocL, oldVecReal, reals]
      rw [this]
      simp [reals]
    · rw [mfind_mset_other hkh]; simp [hkh]

/-- A data line that can be stored. -/
def goodRow (n : Nat) (r : List Bytes) : Bool := r ≠ [] && r.length == n

theorem rowsOf2_eq (atof : Bytes → F64) (strtod : Bytes → Option F64) (cs ds : Bytes) (hs : List Bytes)
    (hhs : hs.length < 2 ^ 32) : ∀ (ls : List Bytes) (d : Entries),
    (∀ l ∈ ls, l.length < 2 ^ 32) → (∀ h ∈ hs, ∃ v, mfind (cstr h) d = some (vecReal v)) →
    let data := (ls.filter (countsLine cs)).map (tok ds)
    let rows := data.takeWhile (goodRow hs.length)
    let pars' := setPars strtod ((upTo (fun l => countsLine cs l && !goodRow hs.length (tok ds l)) ls).filter
      fun l => !countsLine cs l)
    ∃ d', (∀ pars, rowsOf2 atof strtod cs ds hs ls pars d =
        (if (data.dropWhile (goodRow hs.length)).headD [] = [] then .ok (d', pars' pars)
          else .throw (d', pars' pars))) ∧
      ∀ k, mfind k d' = if k ∈ hs.map cstr
        then some (vecReal (reals (mfind k d) ++ rows.flatMap (rowAt atof hs k))) else mfind k d
  | [], d, _, hd => by
    refine ⟨d, by simp [rowsOf2, upTo, setPars_nil], fun k => ?_⟩
    split
    · rename_i hk
      obtain ⟨h, hh, rfl⟩ := List.mem_map.1 hk
      obtain ⟨v, hv⟩ := hd h hh
      simp [hv, reals]
    · rfl
  | l :: ls, d, hl, hd => by
    have hu : u32 hs.length = hs.length := Nat.mod_eq_of_lt hhs
    have hut : u32 (tok ds l).length = (tok ds l).length := Nat.mod_eq_of_lt (by
      have := tok_length ds l; have := hl l (by simp); omega)
    dsimp only
    simp only [rowsOf2]
    cases hc : countsLine cs l with
    | false =>
      simp only [Bool.false_eq_true, if_false]
      obtain ⟨d', e, hk⟩ := rowsOf2_eq atof strtod cs ds hs hhs ls d
        (fun x hx => hl x (.tail _ hx)) hd
      refine ⟨d', fun pars => ?_, ?_⟩
      · rw [e, List.filter_cons_of_neg (by simp [hc]), upTo, hc]
        simp only [Bool.false_and, Bool.false_eq_true, if_false]
        rw [List.filter_cons_of_pos (by simp [hc]), ← setPars_append]
        rfl
      · rw [List.filter_cons_of_neg (by simp [hc])]; exact hk
    | true =>
      simp only [if_true]
      rw [List.filter_cons_of_pos hc, List.map_cons, upTo, hc, Bool.true_and]
      have hd0 : ∀ k, mfind k d = if k ∈ hs.map cstr then some (vecReal (reals (mfind k d))) else mfind k d := by
        intro k
        split
        · rename_i hk
          obtain ⟨h, hh, rfl⟩ := List.mem_map.1 hk
          obtain ⟨v, hv⟩ := hd h hh
          rw [hv]; rfl
        · rfl
      by_cases ht : tok ds l = []
      · simp only [if_pos ht]
        have hg : goodRow hs.length (tok ds l) = false := by simp [goodRow, ht]
        refine ⟨d, fun pars => ?_, ?_⟩
        · rw [List.dropWhile_cons_of_neg (by simp [hg]), List.headD_cons, if_pos ht, hg]
          simp [hc, setPars_nil]
        · rw [List.takeWhile_cons_of_neg (by simp [hg])]
          simpa using hd0
      · simp only [if_neg ht, hu, hut]
        by_cases hlen : (tok ds l).length = hs.length
        · have hg : goodRow hs.length (tok ds l) = true := by simp [goodRow, ht, hlen]
          simp only [ne_eq, hlen, not_true_eq_false, if_false]
          rw [List.take_of_length_le (Nat.le_refl _)]
          obtain ⟨d1, e1, hk1⟩ := pushRow2_eq atof hs (tok ds l) d hlen hd
          rw [e1]
          dsimp only
          obtain ⟨d', e, hk⟩ := rowsOf2_eq atof strtod cs ds hs hhs ls d1
            (fun x hx => hl x (.tail _ hx)) (fun h hh => ⟨_, by
              rw [hk1, if_pos (List.mem_map_of_mem hh)]⟩)
          refine ⟨d', fun pars => ?_, fun k => ?_⟩
          · rw [e, List.dropWhile_cons_of_pos hg, hg]
            simp [hc]
          · rw [hk k, List.takeWhile_cons_of_pos hg, hk1 k]
            split
            · simp [reals]
            · rfl
        · have hg : goodRow hs.length (tok ds l) = false := by simp [goodRow, hlen]
          simp only [ne_eq, hlen, not_false_eq_true, if_true]
          refine ⟨d, fun pars => ?_, ?_⟩
          · rw [List.dropWhile_cons_of_neg (by simp [hg]), List.headD_cons, if_neg ht, hg]
            simp [hc, setPars_nil]
          · rw [List.takeWhile_cons_of_neg (by simp [hg])]
            simpa using hd0

theorem read2_eq (atof : Bytes → F64) (strtod : Bytes → Option F64) (text cs ds : Bytes)
    (g : GC) (hlen : text.length + 2 < 2 ^ 32) :
    let kept := (linesSeen text).filter (countsLine cs)
    let hs := tok ds (kept.headD ((linesSeen text).getLastD []))
    let data := kept.tail.map (tok ds)
    let rows := data.takeWhile (goodRow hs.length)
    let old := ((mfind (str "data") g.oldMap).getD notype).oldMap
    let pars' := setPars strtod ((linesRead (countsLine cs) (fun l => !goodRow hs.length (tok ds l))
      (linesSeen text)).filter fun l => !countsLine cs l)
    ∃ d', (∀ pars, read_formatted_data2 atof strtod text cs ds pars g =
        (if (data.dropWhile (goodRow hs.length)).headD [] = [] then .ok (tableOf2 g.oldMap hs d', pars' pars)
          else .throw (tableOf2 g.oldMap hs d', pars' pars))) ∧
      ∀ k, mfind k d' = if k ∈ hs.map cstr
        then some (vecReal (reals (mfind k old) ++ rows.flatMap (rowAt atof hs k))) else mfind k old := by
  have hseen : (Stream.ofText text).seen [] = linesSeen text := by
    simp [Stream.seen, Stream.ofText, linesSeen]
  have hsl := seen_length (Stream.ofText text) []
  have hrest : (Stream.ofText text).rest.length = text.length := rfl
  have hle : ∀ l ∈ linesSeen text, l.length ≤ text.length := fun l hl => mem_pieces (mem_handed hl)
  have hnl : ∀ l ∈ linesSeen text, (10 : Byte) ∉ l := by
    intro l hl; rw [← hseen] at hl; exact nl_seen (by simp) l hl
  obtain ⟨k, s', line', e, hk⟩ := skipComments2_eq strtod cs (text.length + 3) 0 (.ofText text) []
    (by omega) (by simp)
  have hcf : (fun l => !(fun l => !countsLine cs l) l) = countsLine cs := by funext l; simp
  obtain ⟨f1, f2⟩ := dropWhile_filter (fun l => !countsLine cs l) (linesSeen text)
  rw [hcf] at f1 f2
  have hu : ∀ l : Bytes, l.length ≤ text.length → u32 (tok ds l).length = (tok ds l).length := fun l hl =>
    Nat.mod_eq_of_lt (by have := tok_length ds l; omega)
  rw [hseen] at hk hsl e
  intro kept hs data rows old pars'
  simp only [read_formatted_data2, e, tokenize_eq]
  have htw : ((linesSeen text).takeWhile fun l => !countsLine cs l).filter (fun l => !countsLine cs l) =
      (linesSeen text).takeWhile fun l => !countsLine cs l :=
    List.filter_eq_self.2 fun l hl => mem_takeWhile (p := fun l => !countsLine cs l) hl
  have main : ∀ (ls : List Bytes), s'.seen line' = ls → (10 : Byte) ∉ line' → line'.length ≤ text.length →
      (∀ l ∈ ls, l ∈ linesSeen text) → ls.length ≤ (linesSeen text).length → hs = tok ds line' →
      kept.tail = ls.filter (countsLine cs) →
      (∀ pars, pars' pars = setPars strtod ((upTo (fun l => countsLine cs l && !goodRow hs.length (tok ds l)) ls).filter
        fun l => !countsLine cs l) (setPars strtod ((linesSeen text).takeWhile fun l => !countsLine cs l) pars)) →
      ∃ d', (∀ pars, (match readRows2 atof strtod cs ds (dropEol (words (fun c => ds.contains c) line')) (text.length + 3) s' line'
          (setPars strtod ((linesSeen text).takeWhile fun l => !countsLine cs l) pars)
          (columns2 ((dropEol (words (fun c => ds.contains c) line')).take
            (u32 (dropEol (words (fun c => ds.contains c) line')).length)) old) with
        | .ok (d, pars) => .ok (tableOf2 g.oldMap (dropEol (words (fun c => ds.contains c) line')) d, pars)
        | .throw (d, pars) => .throw (tableOf2 g.oldMap (dropEol (words (fun c => ds.contains c) line')) d, pars)
        | .ub => .ub
        | .diverge => .diverge) = (if (data.dropWhile (goodRow hs.length)).headD [] = []
          then Loop.ok (tableOf2 g.oldMap hs d', pars' pars)
          else .throw (tableOf2 g.oldMap hs d', pars' pars))) ∧
      ∀ k, mfind k d' = if k ∈ hs.map cstr
        then some (vecReal (reals (mfind k old) ++ rows.flatMap (rowAt atof hs k))) else mfind k old := by
    intro ls hls hnl' hll hsub hcount hhs hkept hpars
    have hul : u32 hs.length = hs.length := by rw [hhs]; exact hu _ hll
    obtain ⟨d', e', hd'⟩ := rowsOf2_eq atof strtod cs ds hs
      (by have := tok_length ds line'; rw [hhs]; omega) ls (columns2 hs old)
      (fun l hl => by have := hle l (hsub l hl); omega)
      (fun h hh => ⟨_, by rw [columns2_eq, if_pos (List.mem_map_of_mem hh)]⟩)
    rw [← hkept] at e' hd'
    refine ⟨d', fun pars => ?_, fun k => ?_⟩
    · rw [show dropEol (words (fun c => ds.contains c) line') = tok ds line' from rfl, ← hhs, hul,
        List.take_of_length_le (Nat.le_refl _),
        readRows2_eq _ _ _ _ _ _ _ _ _ _ (by rw [hls]; omega) (by rw [hls]; omega) hnl', hls, e', ← hpars]
      change _ = if ((kept.tail.map (tok ds)).dropWhile (goodRow hs.length)).headD [] = [] then _ else _
      by_cases hz : ((kept.tail.map (tok ds)).dropWhile (goodRow hs.length)).headD [] = []
      · rw [if_pos hz, if_pos hz]
      · rw [if_neg hz, if_neg hz]
    · rw [hd' k, columns2_eq]
      split <;> simp [reals, rows, data]
  rcases hk with ⟨h1, h2, h3, h4⟩ | ⟨h1, h2, h3⟩
  · have hk0 : kept = [] := f1 h1
    have hline : line' = (linesSeen text).getLastD [] := by
      rw [h4]; cases linesSeen text <;> rfl
    have hmem : ∀ l ∈ [] :: linesSeen text, (10 : Byte) ∉ l ∧ l.length ≤ text.length := by
      intro l hl; cases hl with
      | head => simp
      | tail _ hl => exact ⟨hnl l hl, hle l hl⟩
    have hm := hmem line' (by rw [h4]; exact List.getLast_mem _)
    refine main [] (by simp [Stream.seen, h3]) hm.1 hm.2 (by simp) (by simp)
      (by simp only [hs, hk0, List.headD_nil, hline]) (by rw [hk0]; rfl) fun pars => ?_
    simp only [pars', linesRead, h1, List.append_nil, htw, upTo, List.filter_nil, setPars_nil]
  · have hk1 : kept = line' :: (s'.seen line').filter (countsLine cs) := f2 _ _ h1
    have hsub : ∀ l ∈ line' :: s'.seen line', l ∈ linesSeen text := by
      rw [← h1]; intro l hl; exact (List.dropWhile_sublist _).subset hl
    have hcount : (s'.seen line').length < (linesSeen text).length := by
      have := dropWhile_length (fun l => !countsLine cs l) (linesSeen text)
      rw [h1] at this; simp at this; omega
    have hc : countsLine cs line' = true := by
      have := takeWhile_head (fun l => !countsLine cs l) (linesSeen text) line' (by rw [h1]; rfl)
      simpa using this
    refine main _ rfl (hnl _ (hsub _ (by simp))) (hle _ (hsub _ (by simp))) (fun l hl => hsub l (.tail _ hl))
      (by omega) (by simp only [hs, hk1, List.headD_cons]) (by rw [hk1]; rfl) fun pars => ?_
    simp only [pars', linesRead, h1, List.filter_append, htw, setPars_append]
    rw [List.filter_cons_of_neg (by simp [hc])]

end GC
end GCV
