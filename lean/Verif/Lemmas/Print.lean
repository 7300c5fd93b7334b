import Verif.Spec.Listing
import Verif.Lemmas.Writer

/-! # Lemmas: listings -/

namespace GCV

theorem digit_char (d : Nat) (h : d < 10) : natText.digit d = BitVec.ofNat 8 (Nat.digitChar d).toNat := by
  have : d = 0 ∨ d = 1 ∨ d = 2 ∨ d = 3 ∨ d = 4 ∨ d = 5 ∨ d = 6 ∨ d = 7 ∨ d = 8 ∨ d = 9 := by omega
  rcases this with h | h | h | h | h | h | h | h | h | h <;> subst h <;> decide

theorem natText_ten : ∀ (fuel n : Nat), n < fuel →
    natText 10 fuel n = (Nat.toDigits 10 n).map fun c => BitVec.ofNat 8 c.toNat
  | 0, _, h => absurd h (by omega)
  | fuel + 1, n, h => by
    rw [natText]
    split
    · rename_i hn
      rw [Nat.toDigits_of_lt_base hn, digit_char n hn]; rfl
    · rename_i hn
      rw [Nat.toDigits_of_base_le (by omega) (by omega), natText_ten fuel (n / 10) (by omega),
        digit_char _ (Nat.mod_lt _ (by omega))]
      simp

theorem decimal_nat (n : Nat) : natOut false n = decimal n := by
  have e : (toString (n : Int)).toList = Nat.toDigits 10 n := by
    show (Nat.repr n).toList = _
    rw [Nat.repr]; simp
  rw [decimal, str, e]
  exact natText_ten _ _ (by omega)

theorem decimal_int {w : Nat} (i : BitVec w) : intOut false i = decimal i.toInt := by
  unfold intOut
  rw [if_neg (by simp)]
  cases hm : i.msb with
  | false =>
    have h0 : 0 ≤ i.toInt := by
      have := BitVec.msb_eq_toInt (x := i); rw [hm] at this; simp at this; exact this
    rw [if_neg (by simp), decimal_nat, Int.natAbs_of_nonneg h0]
  | true =>
    have h0 : i.toInt < 0 := by
      have := BitVec.msb_eq_toInt (x := i); rw [hm] at this; simpa using this.symm
    rw [if_pos rfl]
    obtain ⟨n, hn⟩ := Int.eq_negSucc_of_lt_zero h0
    rw [hn]
    have e : (toString (Int.negSucc n)).toList = '-' :: Nat.toDigits 10 (n + 1) := by
      show ("-" ++ Nat.repr (n + 1)).toList = _
      rw [Nat.repr]; simp
    rw [decimal, str, e, show (Int.negSucc n).natAbs = n + 1 from rfl]
    show 45 :: natOut false (n + 1) = _
    rw [List.map_cons]
    congr 1
    exact natText_ten _ _ (by omega)

theorem dropWhile_append_all {p : Byte → Bool} {a b : Bytes} (h : ∀ c ∈ a, p c = true) :
    (a ++ b).dropWhile p = b.dropWhile p := by
  induction a with
  | nil => rfl
  | cons c a ih => rw [List.cons_append, List.dropWhile_cons, if_pos (h c (.head _)), ih fun d hd => h d (.tail _ hd)]

theorem dropWhile_head {p : Byte → Bool} {b : Bytes} (h : ∀ c, b.head? = some c → p c = false) : b.dropWhile p = b := by
  cases b with
  | nil => rfl
  | cons c b => rw [List.dropWhile_cons, if_neg]; simp [h c rfl]

theorem head_dropWhile {p : Byte → Bool} {b : Bytes} : ∀ c, (b.dropWhile p).head? = some c → p c = false := by
  induction b with
  | nil => intro c h; simp at h
  | cons d b ih =>
    intro c h
    rw [List.dropWhile_cons] at h
    split at h
    · exact ih c h
    · rename_i hd; simp at h; subst h; simpa using hd

theorem mem_takeWhile_true {p : Byte → Bool} {b : Bytes} {c : Byte} (h : c ∈ b.takeWhile p) : p c = true := by
  induction b with
  | nil => simp at h
  | cons d b ih =>
    rw [List.takeWhile_cons] at h
    split at h
    · rename_i hd
      rcases List.mem_cons.1 h with rfl | h
      · exact hd
      · exact ih h
    · simp at h

theorem blank_iff (c : Byte) : Json.isSpace c = true ↔ Blank c := Json.isSpace_iff c

/-- The part after the digits and blanks. -/
def headingRest (r : Bytes) : Option (Bytes × Bytes × Bytes) :=
  let (s, r) : Bytes × Bytes := if r.head? = some 35 then ([35, 35], r.drop 1) else ([35], r)
  let (u, r) : Bytes × Bytes := match r with
    | [] => ([], [])
    | d :: r' => if d = 45 ∨ d = 61 ∨ d = 126 ∨ d = 95 then ([d], r') else ([], d :: r')
  let h := r.dropWhile Json.isSpace
  if h.all fun d => d ≠ 10 ∧ d ≠ 13 then some (s, u, h) else none

theorem heading_front {w1 d w2 r : Bytes} (h1 : ∀ c ∈ w1, Blank c) (h2 : ∀ c ∈ w2, Blank c)
    (hd : d ≠ [] ∧ ∀ c ∈ d, 48 ≤ c.toNat ∧ c.toNat ≤ 57) :
    heading (w1 ++ (d ++ (w2 ++ 35 :: r))) = headingRest r := by
  have nb : ∀ c ∈ d, Json.isSpace c = false := by
    intro c hc
    have := hd.2 c hc
    cases hs : Json.isSpace c with
    | false => rfl
    | true =>
      rcases (blank_iff c).1 hs with rfl | h
      · simp at this
      · omega
  have e1 : (w1 ++ (d ++ (w2 ++ 35 :: r))).dropWhile Json.isSpace = d ++ (w2 ++ 35 :: r) := by
    rw [dropWhile_append_all fun c hc => (blank_iff c).2 (h1 c hc), dropWhile_head]
    obtain ⟨hd0, _⟩ := hd
    cases d with
    | nil => exact absurd rfl hd0
    | cons c d => intro c' h; simp at h; subst h; exact nb _ (.head _)
  have e2 : (d ++ (w2 ++ 35 :: r)).dropWhile Json.isDigit = w2 ++ 35 :: r := by
    rw [dropWhile_append_all fun c hc => (Json.isDigit_iff c).2 (hd.2 c hc), dropWhile_head]
    cases w2 with
    | nil => intro c h; simp at h; subst h; decide
    | cons c w2 =>
      intro c' h; simp at h; subst h
      cases hs : Json.isDigit c with
      | false => rfl
      | true =>
        have := (Json.isDigit_iff c).1 hs
        rcases h2 c (.head _) with rfl | h
        · simp at this
        · omega
  have e3 : (w2 ++ 35 :: r).dropWhile Json.isSpace = 35 :: r := by
    rw [dropWhile_append_all fun c hc => (blank_iff c).2 (h2 c hc), dropWhile_head]
    intro c h; simp at h; subst h; decide
  unfold heading
  simp only [e1, e2, e3]
  rw [if_neg]
  · rfl
  · have := List.length_pos_iff.2 hd.1
    simp only [List.length_append]; omega

theorem heading_shape {k : Bytes} {x : Bytes × Bytes × Bytes} (h : heading k = some x) :
    ∃ w1 d w2 r, k = w1 ++ (d ++ (w2 ++ 35 :: r)) ∧ (∀ c ∈ w1, Blank c) ∧ (∀ c ∈ w2, Blank c) ∧
      (d ≠ [] ∧ ∀ c ∈ d, 48 ≤ c.toNat ∧ c.toNat ≤ 57) ∧ headingRest r = some x := by
  have h0 := h
  unfold heading at h
  simp only at h
  split at h
  · cases h
  rename_i hl
  split at h
  · cases h
  rename_i c r hc
  by_cases h35 : c = 35
  · subst h35
    have hk : k = k.takeWhile Json.isSpace ++ ((k.dropWhile Json.isSpace).takeWhile Json.isDigit ++
        (((k.dropWhile Json.isSpace).dropWhile Json.isDigit).takeWhile Json.isSpace ++ 35 :: r)) := by
      rw [← hc, List.takeWhile_append_dropWhile, List.takeWhile_append_dropWhile, List.takeWhile_append_dropWhile]
    have hw1 : ∀ c ∈ k.takeWhile Json.isSpace, Blank c := fun c hc => (blank_iff c).1 (mem_takeWhile_true hc)
    have hw2 : ∀ c ∈ ((k.dropWhile Json.isSpace).dropWhile Json.isDigit).takeWhile Json.isSpace, Blank c :=
      fun c hc => (blank_iff c).1 (mem_takeWhile_true hc)
    have hd : ∀ c ∈ (k.dropWhile Json.isSpace).takeWhile Json.isDigit, 48 ≤ c.toNat ∧ c.toNat ≤ 57 :=
      fun c hc => (Json.isDigit_iff c).1 (mem_takeWhile_true hc)
    have hne : (k.dropWhile Json.isSpace).takeWhile Json.isDigit ≠ [] := by
      intro h'
      have := List.takeWhile_append_dropWhile (p := Json.isDigit) (l := k.dropWhile Json.isSpace)
      rw [h'] at this
      exact hl (congrArg List.length (by simpa using this))
    refine ⟨_, _, _, r, hk, hw1, hw2, ⟨hne, hd⟩, ?_⟩
    rw [hk, heading_front hw1 hw2 ⟨hne, hd⟩] at h0
    exact h0
  · rw [if_pos h35] at h; cases h

theorem headingRest_spec {r : Bytes} {s u h : Bytes} (hx : headingRest r = some (s, u, h)) :
    ∃ w3, 35 :: r = s ++ (u ++ (w3 ++ h)) ∧ (∀ c ∈ w3, Blank c) ∧ (s = str "#" ∨ s = str "##") ∧
      (u = [] ∨ ∃ c, Mark c ∧ u = [c]) ∧ ((10 : Byte) ∉ h ∧ (13 : Byte) ∉ h) ∧ Greedy s u w3 h := by
  have fin : ∀ s u r, (s = str "#" ∨ s = str "##") → (u = [] ∨ ∃ c, Mark c ∧ u = [c]) →
      (s = str "#" → (u ++ r).head? ≠ some 35) → (u = [] → ∀ c, r.head? = some c → ¬ Mark c) →
      ∀ x, (if (r.dropWhile Json.isSpace).all (fun d => d ≠ 10 ∧ d ≠ 13) then some (s, u, r.dropWhile Json.isSpace) else none) =
        some x → ∃ w3, x.1 = s ∧ x.2.1 = u ∧ s ++ (u ++ r) = s ++ (u ++ (w3 ++ x.2.2)) ∧ (∀ c ∈ w3, Blank c) ∧
          ((10 : Byte) ∉ x.2.2 ∧ (13 : Byte) ∉ x.2.2) ∧ Greedy s u w3 x.2.2 := by
    intro s u r hs hu hg1 hg2 x hx
    split at hx
    · rename_i hall
      cases hx
      have e : r.takeWhile Json.isSpace ++ r.dropWhile Json.isSpace = r := List.takeWhile_append_dropWhile
      refine ⟨r.takeWhile Json.isSpace, rfl, rfl, by rw [e], fun c hc => (blank_iff c).1 (mem_takeWhile_true hc), ?_, ?_⟩
      · simp at hall
        exact ⟨fun h => (hall _ h).1 rfl, fun h => (hall _ h).2 rfl⟩
      · refine ⟨by rw [e]; exact hg1, by rw [e]; exact hg2, fun c hc hb => ?_⟩
        have := head_dropWhile c hc
        rw [(blank_iff c).2 hb] at this; cases this
    · cases hx
  have go : ∀ s r, (s = str "#" ∨ s = str "##") → (s = str "#" → r.head? ≠ some 35) → ∀ x,
      (let (u, r) : Bytes × Bytes := match r with
        | [] => ([], [])
        | d :: r' => if d = 45 ∨ d = 61 ∨ d = 126 ∨ d = 95 then ([d], r') else ([], d :: r')
       let h := r.dropWhile Json.isSpace
       if h.all fun d => d ≠ 10 ∧ d ≠ 13 then some (s, u, h) else none) = some x →
      ∃ w3, x.1 = s ∧ s ++ r = s ++ (x.2.1 ++ (w3 ++ x.2.2)) ∧ (∀ c ∈ w3, Blank c) ∧ (x.2.1 = [] ∨ ∃ c, Mark c ∧ x.2.1 = [c]) ∧
          ((10 : Byte) ∉ x.2.2 ∧ (13 : Byte) ∉ x.2.2) ∧ Greedy s x.2.1 w3 x.2.2 := by
    intro s r hs hg x hx
    cases r with
    | nil =>
      obtain ⟨w3, h1, h2, h3, h4, h5, h6⟩ := fin s [] [] hs (.inl rfl) (by simp) (by simp) x hx
      rw [← h2] at h3 h6
      exact ⟨w3, h1, by rw [← h3, h2]; rfl, h4, .inl h2, h5, h6⟩
    | cons d r' =>
      by_cases hm : d = 45 ∨ d = 61 ∨ d = 126 ∨ d = 95
      · simp only [if_pos hm] at hx
        obtain ⟨w3, h1, h2, h3, h4, h5, h6⟩ := fin s [d] r' hs (.inr ⟨d, hm, rfl⟩) (by simpa using hg) (by simp) x hx
        rw [← h2] at h3 h6
        exact ⟨w3, h1, by rw [← h3, h2]; rfl, h4, .inr ⟨d, hm, h2⟩, h5, h6⟩
      · simp only [if_neg hm] at hx
        obtain ⟨w3, h1, h2, h3, h4, h5, h6⟩ := fin s [] (d :: r') hs (.inl rfl) (by simpa using hg)
          (by intro _ c hc; simp at hc; subst hc; exact hm) x hx
        rw [← h2] at h3 h6
        exact ⟨w3, h1, by rw [← h3, h2]; rfl, h4, .inl h2, h5, h6⟩
  unfold headingRest at hx
  by_cases h35 : r.head? = some 35
  · simp only [if_pos h35] at hx
    obtain ⟨w3, h1, h2, h3, h4, h5, h6⟩ := go (str "##") (r.drop 1) (.inr rfl) (by intro h; cases h) _ hx
    simp only at h1 h2 h3 h4 h5 h6
    rw [← h1] at h6
    refine ⟨w3, ?_, h3, .inr h1, h4, h5, h6⟩
    cases r with
    | nil => simp at h35
    | cons c r => simp at h35; subst h35; rw [h1, ← h2]; rfl
  · simp only [if_neg h35] at hx
    obtain ⟨w3, h1, h2, h3, h4, h5, h6⟩ := go (str "#") r (.inl rfl) (fun _ => h35) _ hx
    simp only at h1 h2 h3 h4 h5 h6
    rw [← h1] at h6
    exact ⟨w3, by rw [h1, ← h2]; rfl, h3, .inl h1, h4, h5, h6⟩

theorem all_iff (h : Bytes) : (h.all fun d => decide (d ≠ 10 ∧ d ≠ 13)) = true ↔ (10 : Byte) ∉ h ∧ (13 : Byte) ∉ h := by
  simp only [List.all_eq_true, decide_eq_true_eq]
  constructor
  · intro hall; exact ⟨fun h => (hall _ h).1 rfl, fun h => (hall _ h).2 rfl⟩
  · rintro ⟨h1, h2⟩ d hd
    exact ⟨fun e => h1 (e ▸ hd), fun e => h2 (e ▸ hd)⟩

theorem headingRest_greedy {r s u w3 h : Bytes} (e : 35 :: r = s ++ (u ++ (w3 ++ h))) (h3 : ∀ c ∈ w3, Blank c)
    (hs : s = str "#" ∨ s = str "##") (hu : u = [] ∨ ∃ c, Mark c ∧ u = [c]) (ht : (10 : Byte) ∉ h ∧ (13 : Byte) ∉ h)
    (g : Greedy s u w3 h) : headingRest r = some (s, u, h) := by
  have e1 : (if r.head? = some 35 then (([35, 35], r.drop 1) : Bytes × Bytes) else ([35], r)) = (s, u ++ (w3 ++ h)) := by
    rcases hs with rfl | rfl
    · have : r = u ++ (w3 ++ h) := by simpa [str] using e
      rw [if_neg (this ▸ g.sharp rfl), this]; rfl
    · have : r = 35 :: (u ++ (w3 ++ h)) := by simpa [str] using e
      rw [this]; rfl
  have e2 : (match u ++ (w3 ++ h) with
      | [] => (([], []) : Bytes × Bytes)
      | d :: r' => if d = 45 ∨ d = 61 ∨ d = 126 ∨ d = 95 then ([d], r') else ([], d :: r')) = (u, w3 ++ h) := by
    rcases hu with rfl | ⟨c, hc, rfl⟩
    · have := g.mark rfl
      cases hw : w3 ++ h with
      | nil => simp
      | cons d r' => exact if_neg (this d (by rw [hw]; rfl))
    · exact if_pos hc
  have e3 : (w3 ++ h).dropWhile Json.isSpace = h := by
    rw [dropWhile_append_all fun c hc => (blank_iff c).2 (h3 c hc), dropWhile_head]
    intro c hc
    cases hb : Json.isSpace c with
    | false => rfl
    | true => exact absurd ((blank_iff c).1 hb) (g.text c hc)
  unfold headingRest
  rw [e1]; dsimp only
  rw [e2]; dsimp only
  rw [e3, if_pos ((all_iff h).2 ht)]

theorem no_breaks_suffix {a h : Bytes} (hs : a <:+ h) (ht : (10 : Byte) ∉ h ∧ (13 : Byte) ∉ h) :
    (10 : Byte) ∉ a ∧ (13 : Byte) ∉ a := ⟨fun h' => ht.1 (hs.subset h'), fun h' => ht.2 (hs.subset h')⟩

theorem headingRest_some {r s u w3 h : Bytes} (e : 35 :: r = s ++ (u ++ (w3 ++ h))) (h3 : ∀ c ∈ w3, Blank c)
    (hs : s = str "#" ∨ s = str "##") (hu : u = [] ∨ ∃ c, Mark c ∧ u = [c]) (ht : (10 : Byte) ∉ h ∧ (13 : Byte) ∉ h) :
    headingRest r ≠ none := by
  -- the end of the text is what is left after blanks, or a suffix of it
  have fin : ∀ r : Bytes, (∃ w h', r = w ++ h' ∧ (∀ c ∈ w, Blank c) ∧ h' <:+ h) →
      (r.dropWhile Json.isSpace).all (fun d => decide (d ≠ 10 ∧ d ≠ 13)) = true := by
    rintro r ⟨w, h', rfl, hw, hsuf⟩
    rw [dropWhile_append_all fun c hc => (blank_iff c).2 (hw c hc), all_iff]
    exact no_breaks_suffix ((List.dropWhile_suffix _).trans hsuf) ht
  have mid : ∀ r : Bytes, (∃ w h', r = w ++ h' ∧ (∀ c ∈ w, Blank c) ∧ h' <:+ h) ∨
      (∃ c, Mark c ∧ r = c :: (w3 ++ h)) → ∀ s, (let (u, r) : Bytes × Bytes := match r with
        | [] => ([], [])
        | d :: r' => if d = 45 ∨ d = 61 ∨ d = 126 ∨ d = 95 then ([d], r') else ([], d :: r')
       let h := r.dropWhile Json.isSpace
       if h.all fun d => d ≠ 10 ∧ d ≠ 13 then some (s, u, h) else none) ≠ (none : Option (Bytes × Bytes × Bytes)) := by
    intro r hr s
    rcases hr with ⟨w, h', rfl, hw, hsuf⟩ | ⟨c, hc, rfl⟩
    · cases hwh : w ++ h' with
      | nil => simp
      | cons d r' =>
        dsimp only
        by_cases hm : d = 45 ∨ d = 61 ∨ d = 126 ∨ d = 95
        · rw [if_pos hm]; dsimp only
          rw [if_pos (fin r' ?_)]
          · simp
          · cases w with
            | nil =>
              simp only [List.nil_append] at hwh
              exact ⟨[], r', rfl, by simp, (List.suffix_cons d r').trans (hwh ▸ hsuf)⟩
            | cons b w =>
              simp only [List.cons_append, List.cons.injEq] at hwh
              have := hw b (.head _)
              rw [hwh.1] at this
              rcases hm with rfl | rfl | rfl | rfl <;> exact absurd this (by unfold Blank; decide)
        · rw [if_neg hm]; dsimp only
          rw [if_pos (fin (d :: r') ⟨w, h', hwh.symm, hw, hsuf⟩)]; simp
    · dsimp only
      rw [if_pos (show _ ∨ _ from hc)]; dsimp only
      rw [if_pos (fin _ ⟨w3, h, rfl, h3, List.suffix_rfl⟩)]; simp
  unfold headingRest
  by_cases h35 : r.head? = some 35
  · rw [if_pos h35]; dsimp only
    refine mid _ ?_ _
    cases r with
    | nil => simp at h35
    | cons c r =>
      simp only [List.head?_cons, Option.some.injEq] at h35; subst h35
      simp only [List.drop_one, List.tail_cons]
      rcases hs with rfl | rfl
      · have e' : 35 :: r = u ++ (w3 ++ h) := by simpa [str] using e
        rcases hu with rfl | ⟨c, hc, rfl⟩
        · cases w3 with
          | nil => exact .inl ⟨[], r, rfl, by simp, by rw [List.nil_append, List.nil_append] at e'; rw [← e']; exact List.suffix_cons _ _⟩
          | cons b w3 =>
            simp only [List.nil_append, List.cons_append, List.cons.injEq] at e'
            have := h3 b (.head _)
            rw [← e'.1] at this
            exact absurd this (by unfold Blank; decide)
        · simp only [List.cons_append, List.cons.injEq] at e'
          rw [← e'.1] at hc
          exact absurd hc (by unfold Mark; decide)
      · have e' : r = u ++ (w3 ++ h) := by simpa [str] using e
        rcases hu with rfl | ⟨c, hc, rfl⟩
        · exact .inl ⟨w3, h, e', h3, List.suffix_rfl⟩
        · exact .inr ⟨c, hc, e'⟩
  · rw [if_neg h35]; dsimp only
    refine mid _ ?_ _
    rcases hs with rfl | rfl
    · have e' : r = u ++ (w3 ++ h) := by simpa [str] using e
      rcases hu with rfl | ⟨c, hc, rfl⟩
      · exact .inl ⟨w3, h, e', h3, List.suffix_rfl⟩
      · exact .inr ⟨c, hc, e'⟩
    · have e' : r = 35 :: (u ++ (w3 ++ h)) := by simpa [str] using e
      rw [e'] at h35; simp at h35

theorem heading_iff (k s u h : Bytes) : heading k = some (s, u, h) ↔
    ∃ w1 d w2 w3, Numbered k w1 d w2 s u w3 h ∧ Greedy s u w3 h := by
  constructor
  · intro hk
    obtain ⟨w1, d, w2, r, e, h1, h2, hd, hr⟩ := heading_shape hk
    obtain ⟨w3, e', h3, hs, hu, ht, hg⟩ := headingRest_spec hr
    exact ⟨w1, d, w2, w3, ⟨by rw [e, e'], ⟨h1, h2, h3⟩, hd, hs, hu, ht⟩, hg⟩
  · rintro ⟨w1, d, w2, w3, ⟨e, ⟨h1, h2, h3⟩, hd, hs, hu, ht⟩, hg⟩
    obtain ⟨r, hr⟩ : ∃ r, s ++ (u ++ (w3 ++ h)) = 35 :: r := by
      rcases hs with rfl | rfl <;> exact ⟨_, rfl⟩
    rw [e, hr, heading_front h1 h2 hd, headingRest_greedy hr.symm h3 hs hu ht hg]

theorem heading_none (k : Bytes) : heading k = none ↔ ¬ ∃ w1 d w2 s u w3 h, Numbered k w1 d w2 s u w3 h := by
  constructor
  · rintro hk ⟨w1, d, w2, s, u, w3, h, ⟨e, ⟨h1, h2, h3⟩, hd, hs, hu, ht⟩⟩
    obtain ⟨r, hr⟩ : ∃ r, s ++ (u ++ (w3 ++ h)) = 35 :: r := by
      rcases hs with rfl | rfl <;> exact ⟨_, rfl⟩
    rw [e, hr, heading_front h1 h2 hd] at hk
    exact headingRest_some hr.symm h3 hs hu ht hk
  · intro h
    cases hk : heading k with
    | none => rfl
    | some x =>
      obtain ⟨s, u, t⟩ := x
      obtain ⟨w1, d, w2, w3, h', _⟩ := (heading_iff k s u t).1 hk
      exact absurd ⟨w1, d, w2, s, u, w3, t, h'⟩ h

end GCV
