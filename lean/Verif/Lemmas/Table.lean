import Verif.Model.Support
import Verif.Spec.Table
import Verif.Lemmas.Map

/-! # Lemmas about pieces, words and the tokenizer -/

namespace GCV

theorem pieces_ne_nil (d : Byte → Bool) : ∀ s, pieces d s ≠ []
  | [] => by simp [pieces]
  | c :: r => by
    rw [pieces]; split
    · simp
    · split <;> simp

theorem pieces_cons (d : Byte → Bool) (c : Byte) (r : Bytes) (h : d c = false) :
    ∃ p ps, pieces d r = p :: ps ∧ pieces d (c :: r) = (c :: p) :: ps := by
  cases hp : pieces d r with
  | nil => exact absurd hp (pieces_ne_nil d r)
  | cons p ps => exact ⟨p, ps, rfl, by rw [pieces, h, hp]; rfl⟩

theorem words_sep {d : Byte → Bool} {c : Byte} (r : Bytes) (h : d c = true) : words d (c :: r) = words d r := by
  rw [words, pieces, if_pos h]; simp [words]

theorem words_seps {d : Byte → Bool} : ∀ (g r : Bytes), (∀ c ∈ g, d c = true) → words d (g ++ r) = words d r
  | [], r, _ => rfl
  | c :: g, r, h => by
    rw [List.cons_append, words_sep _ (h c (by simp)), words_seps g r fun x hx => h x (.tail _ hx)]

theorem pieces_run {d : Byte → Bool} : ∀ (t r : Bytes), (∀ c ∈ t, d c = false) →
    (∀ c, r.head? = some c → d c = true) → ∃ ps, pieces d (t ++ r) = t :: ps ∧
      ps.filter (· ≠ []) = words d r
  | [], [], _, _ => ⟨[], rfl, by simp [words, pieces]⟩
  | [], c :: r, _, h => by
    refine ⟨pieces d r, ?_, ?_⟩
    · rw [List.nil_append, pieces, if_pos (h c rfl)]
    · rw [words_sep _ (h c rfl)]; rfl
  | c :: t, r, ht, hr => by
    obtain ⟨ps, h1, h2⟩ := pieces_run t r (fun x hx => ht x (.tail _ hx)) hr
    refine ⟨ps, ?_, h2⟩
    rw [List.cons_append, pieces, if_neg (by simp [ht c (by simp)]), h1]

theorem words_run {d : Byte → Bool} {t r : Bytes} (h0 : t ≠ []) (ht : ∀ c ∈ t, d c = false)
    (hr : ∀ c, r.head? = some c → d c = true) : words d (t ++ r) = t :: words d r := by
  obtain ⟨ps, h1, h2⟩ := pieces_run t r ht hr
  rw [words, h1, List.filter_cons_of_pos (by simpa using h0), h2]

theorem words_of_runs {d : Byte → Bool} {s : Bytes} {ts : List Bytes} (h : Runs d s ts) : ts = words d s := by
  induction h with
  | none hg =>
    rename_i g
    have := words_seps g [] hg
    rw [List.append_nil] at this
    rw [this]; simp [words, pieces]
  | run hg h0 ht hr _ ih =>
    rw [List.append_assoc, words_seps _ _ hg, words_run h0 ht hr, ih]

theorem takeWhile_head {α : Type} (p : α → Bool) (s : List α) :
    ∀ c, (s.dropWhile p).head? = some c → p c = false := by
  intro c h
  induction s with
  | nil => simp at h
  | cons x r ih =>
    rw [List.dropWhile_cons] at h
    split at h
    · exact ih h
    · simp at h; subst h; simpa using ‹¬ p x = true›

theorem mem_takeWhile {α : Type} {p : α → Bool} {s : List α} {c : α} (h : c ∈ s.takeWhile p) : p c = true := by
  induction s with
  | nil => simp at h
  | cons x r ih =>
    rw [List.takeWhile_cons] at h
    split at h
    · cases h with
      | head => assumption
      | tail _ h => exact ih h
    · simp at h

/-- Induction following the runs of a text. -/
theorem runs_words (d : Byte → Bool) : ∀ (n : Nat) (s : Bytes), s.length ≤ n → Runs d s (words d s)
  | n, s, hn => by
    have hsplit : s = s.takeWhile d ++ s.dropWhile d := (List.takeWhile_append_dropWhile).symm
    have hg : ∀ c ∈ s.takeWhile d, d c = true := fun c hc => mem_takeWhile hc
    cases h1 : s.dropWhile d with
    | nil =>
      have hs : s = s.takeWhile d := by rw [h1, List.append_nil] at hsplit; exact hsplit
      have hall : ∀ c ∈ s, d c = true := by rw [hs]; exact hg
      have hw : words d s = [] := by
        have := words_seps s [] hall
        rw [List.append_nil] at this; rw [this]; simp [words, pieces]
      rw [hw]; exact .none hall
    | cons c r =>
      have hc : d c = false := takeWhile_head d s c (by rw [h1]; rfl)
      let t := (c :: r).takeWhile (fun x => !d x)
      let u := (c :: r).dropWhile (fun x => !d x)
      have htu : c :: r = t ++ u := (List.takeWhile_append_dropWhile).symm
      have ht : ∀ x ∈ t, d x = false := fun x hx => by simpa using mem_takeWhile hx
      have ht0 : t ≠ [] := by simp [t, List.takeWhile_cons, hc]
      have hu : ∀ x, u.head? = some x → d x = true := fun x hx => by
        simpa using takeWhile_head (fun x => !d x) (c :: r) x hx
      have hlen : u.length < n := by
        have e1 : s.length = (s.takeWhile d).length + (t ++ u).length := by
          rw [← htu, ← h1, ← List.length_append]; exact congrArg List.length hsplit
        have e2 : (t ++ u).length = t.length + u.length := List.length_append
        have e3 : 0 < t.length := List.length_pos_iff.2 ht0
        omega
      have hs : s = s.takeWhile d ++ t ++ u := by
        rw [List.append_assoc, ← htu, ← h1]; exact hsplit
      have hw : words d s = t :: words d u := by
        rw [hs, List.append_assoc, words_seps _ _ hg, words_run ht0 ht hu]
      rw [hw]
      have ih := runs_words d (n - 1) u (by omega)
      have := Runs.run hg ht0 ht hu ih
      rwa [← hs] at this
termination_by n => n
decreasing_by all_goals omega

theorem findIdx?_eq (p : Byte → Bool) : ∀ s : Bytes, s.findIdx? p =
    if s.dropWhile (fun x => !p x) = [] then none else some (s.takeWhile (fun x => !p x)).length
  | [] => by simp
  | c :: r => by
    rw [List.findIdx?_cons, List.dropWhile_cons, List.takeWhile_cons, findIdx?_eq p r]
    cases h : p c
    · by_cases e : r.dropWhile (fun x => !p x) = [] <;> simp [e]
    · simp

theorem drop_takeWhile {p : Byte → Bool} (s : Bytes) : s.drop (s.takeWhile p).length = s.dropWhile p := by
  have h : s = s.takeWhile p ++ s.dropWhile p := (List.takeWhile_append_dropWhile).symm
  have := congrArg (List.drop (s.takeWhile p).length) h
  rw [this, List.drop_left]

theorem take_takeWhile {p : Byte → Bool} (s : Bytes) : s.take (s.takeWhile p).length = s.takeWhile p := by
  have h : s = s.takeWhile p ++ s.dropWhile p := (List.takeWhile_append_dropWhile).symm
  have := congrArg (List.take (s.takeWhile p).length) h
  rw [this, List.take_left]

theorem takeWhile_all {p : Byte → Bool} {s : Bytes} (h : s.dropWhile p = []) : s.takeWhile p = s := by
  have : s.takeWhile p ++ s.dropWhile p = s := List.takeWhile_append_dropWhile
  rwa [h, List.append_nil] at this

theorem tokLoop_eq (d : Byte → Bool) (s : Bytes) : ∀ (fuel i : Nat), (s.drop i).length < fuel →
    tokLoop d s fuel (findFrom (fun c => !d c) s (some i))
      (findFrom d s (findFrom (fun c => !d c) s (some i))) = .ok (words d (s.drop i))
  | 0, i, h => by omega
  | fuel + 1, i, h => by
    have hg : ∀ c ∈ (s.drop i).takeWhile d, d c = true := fun c hc => mem_takeWhile hc
    have hsplit : s.drop i = (s.drop i).takeWhile d ++ (s.drop i).dropWhile d :=
      (List.takeWhile_append_dropWhile).symm
    have hf : findFrom (fun c => !d c) s (some i) =
        if (s.drop i).dropWhile d = [] then none else some (((s.drop i).takeWhile d).length + i) := by
      rw [findFrom, findIdx?_eq]
      simp only [Bool.not_not]
      split <;> rfl
    cases hv : (s.drop i).dropWhile d with
    | nil =>
      rw [hf, if_pos hv]
      have : words d (s.drop i) = [] := by
        rw [hsplit, hv, words_seps _ _ hg]; simp [words, pieces]
      rw [this]; rfl
    | cons c r =>
      rw [hf, if_neg (by rw [hv]; simp)]
      have hdrop : s.drop (((s.drop i).takeWhile d).length + i) = c :: r := by
        rw [Nat.add_comm, ← List.drop_drop, drop_takeWhile, hv]
      have hc : d c = false := takeWhile_head d (s.drop i) c (by rw [hv]; rfl)
      have ht0 : (c :: r).takeWhile (fun x => !d x) ≠ [] := by simp [List.takeWhile_cons, hc]
      have ht : ∀ x ∈ (c :: r).takeWhile (fun x => !d x), d x = false := fun x hx => by
        simpa using mem_takeWhile hx
      have hu : ∀ x, ((c :: r).dropWhile (fun x => !d x)).head? = some x → d x = true := fun x hx => by
        simpa using takeWhile_head (fun x => !d x) (c :: r) x hx
      have htu : c :: r = (c :: r).takeWhile (fun x => !d x) ++ (c :: r).dropWhile (fun x => !d x) :=
        (List.takeWhile_append_dropWhile).symm
      have hw : words d (s.drop i) = (c :: r).takeWhile (fun x => !d x) ::
          words d ((c :: r).dropWhile (fun x => !d x)) := by
        rw [hsplit, hv, words_seps _ _ hg]
        exact (congrArg (words d) htu).trans (words_run ht0 ht hu)
      have hlen : (c :: r).length ≤ (s.drop i).length := by
        have := congrArg List.length hsplit
        rw [hv, List.length_append] at this; omega
      have hpos : findFrom d s (some (((s.drop i).takeWhile d).length + i)) =
          if (c :: r).dropWhile (fun x => !d x) = [] then none
          else some (((c :: r).takeWhile (fun x => !d x)).length + (((s.drop i).takeWhile d).length + i)) := by
        rw [findFrom, findIdx?_eq, hdrop]
        split <;> rfl
      rw [hpos, tokLoop.eq_def]
      dsimp only
      rw [hdrop, hw]
      have hfu : ∃ f, fuel = f + 1 := ⟨fuel - 1, by simp only [List.length_cons] at hlen; omega⟩
      obtain ⟨f, rfl⟩ := hfu
      split
      · rename_i hnil
        dsimp only
        rw [hnil, takeWhile_all hnil]
        simp [findFrom, tokLoop, Out.bind, words, pieces]
      · have hd2 : s.drop (((c :: r).takeWhile (fun x => !d x)).length + (((s.drop i).takeWhile d).length + i)) =
            (c :: r).dropWhile (fun x => !d x) := by
          rw [Nat.add_comm, ← List.drop_drop, hdrop, drop_takeWhile]
        have ih := tokLoop_eq d s (f + 1)
          (((c :: r).takeWhile (fun x => !d x)).length + (((s.drop i).takeWhile d).length + i)) (by
            rw [hd2]
            have e := congrArg List.length htu
            rw [List.length_append] at e
            have e3 := List.length_pos_iff.2 ht0
            omega)
        dsimp only
        rw [ih, hd2, Nat.add_sub_cancel, take_takeWhile]; rfl

theorem tokenize_eq (ds s : Bytes) : tokenize ds s = .ok (dropEol (words (fun c => ds.contains c) s)) := by
  have := tokLoop_eq (fun c => ds.contains c) s (s.length + 2) 0 (by simp)
  rw [List.drop_zero] at this
  unfold tokenize; dsimp only; rw [this]; rfl

end GCV
