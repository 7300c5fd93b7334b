import Verif.Spec.JsonLoose
import Verif.Lemmas.JsonTree
import Mathlib.Tactic.ByContra

/-! # Lemmas: the tokens the JSON lexer finds, and what the parser does with them -/

namespace GCV
namespace Json
open GC

/-! ## Strings -/

theorem ok_iff (c : Byte) : okUnicode c = true ↔ Cont c := by
  revert c; unfold Cont; exact byte_cases (by decide +kernel)

theorem ok_not (c : Byte) : ((!okUnicode c) = true) ↔ ¬ Cont c := by
  rw [← ok_iff]; simp

theorem lexStr_loose {s b : Bytes} (h : LBody s b) : ∀ (acc r : Bytes),
    lexStr acc (b ++ 34 :: r) = .tok STRING (acc ++ s) r := by
  induction h with
  | nil => intro acc r; rw [List.nil_append, lexStr.eq_def]; simp
  | @plain c s b hc h1 h2 _ ih =>
    intro acc r
    rw [List.cons_append, lexStr.eq_def]; dsimp only
    rw [if_neg h1, if_pos ((unicode1_iff c).2 hc), if_neg h2, ih]; simp
  | quote _ ih | backslash _ ih | newline _ ih | ret _ ih | tab _ ih | back _ ih | form _ ih =>
    intro acc r
    rw [List.cons_append, List.cons_append, lexStr.eq_def]; dsimp only
    rw [if_neg (by decide), if_pos (by decide), if_pos rfl, ih]; simp [unescape]
  | @other c s b h1 h2 h3 h4 h5 h6 h7 _ ih =>
    intro acc r
    rw [List.cons_append, List.cons_append, lexStr.eq_def]; dsimp only
    rw [if_neg (by decide), if_pos (by decide), if_pos rfl, ih, unescape, if_neg h3, if_neg h5, if_neg h2, if_neg h1, if_neg h4, if_neg h6,
      if_neg h7]; simp
  | @two c d s b h1 h2 hd _ ih =>
    intro acc r
    rw [List.cons_append, List.cons_append, lexStr.eq_def]; dsimp only
    rw [if_neg (high_ne h1 (by decide)), high_unicode1 h1]
    simp only [(ok_iff d).2 hd, min3_of c h2, Bool.not_true, Bool.false_eq_true, if_false]
    rw [ih]; simp
  | @three c d e s b h1 h2 hd he _ ih =>
    intro acc r
    rw [List.cons_append, List.cons_append, List.cons_append, lexStr.eq_def]; dsimp only
    rw [if_neg (high_ne (by omega) (by decide)), high_unicode1 (by omega)]
    simp only [(ok_iff d).2 hd, (ok_iff e).2 he, min3_on c h1, min4_of c h2, Bool.not_true, Bool.false_eq_true, if_false,
      if_true]
    rw [ih]; simp
  | @four c d e f s b h1 hd he hf _ ih =>
    intro acc r
    rw [List.cons_append, List.cons_append, List.cons_append, List.cons_append, lexStr.eq_def]; dsimp only
    rw [if_neg (high_ne (by omega) (by decide)), high_unicode1 (by omega)]
    simp only [(ok_iff d).2 hd, (ok_iff e).2 he, (ok_iff f).2 hf, min3_on c (by omega), min4_on c h1, Bool.not_true,
      Bool.false_eq_true, if_false, if_true]
    rw [ih]; simp

/-- `\` and a byte. -/
theorem lbody_escape (d : Byte) {s b : Bytes} (h : LBody s b) : LBody (unescape d ++ s) (92 :: d :: b) := by
  unfold unescape
  by_cases h1 : d = 110
  · subst h1; exact .newline h
  by_cases h2 : d = 116
  · subst h2; exact .tab h
  by_cases h3 : d = 92
  · subst h3; exact .backslash h
  by_cases h4 : d = 34
  · subst h4; exact .quote h
  by_cases h5 : d = 114
  · subst h5; exact .ret h
  by_cases h6 : d = 98
  · subst h6; exact .back h
  by_cases h7 : d = 102
  · subst h7; exact .form h
  rw [if_neg h1, if_neg h2, if_neg h3, if_neg h4, if_neg h5, if_neg h6, if_neg h7]
  exact .other h4 h3 h1 h5 h2 h6 h7 h

theorem lexStr_found : ∀ (n : Nat) (acc inp : Bytes) {code : Int} {l r : Bytes}, inp.length ≤ n →
    lexStr acc inp = .tok code l r → code = STRING ∧ ∃ s b, l = acc ++ s ∧ LBody s b ∧ inp = b ++ 34 :: r
  | n, acc, [], code, l, r, _, h => by rw [lexStr.eq_def] at h; cases h
  | 0, acc, c :: t, code, l, r, hn, _ => by simp at hn
  | n + 1, acc, c :: t, code, l, r, hn, h => by
    have ih := @lexStr_found n
    simp only [List.length_cons] at hn
    rw [lexStr.eq_def] at h; dsimp only at h
    split at h
    · next hc =>
      cases h; subst hc
      exact ⟨rfl, [], [], by simp, .nil, rfl⟩
    next h34 =>
    split at h
    · next hu =>
      split at h
      · next h92 =>
        subst h92
        split at h
        · cases h
        · next d t =>
          obtain ⟨h1, s, b, h2, h3, h4⟩ := ih _ _ (by simp only [List.length_cons] at hn; omega) h
          exact ⟨h1, unescape d ++ s, 92 :: d :: b, by rw [h2]; simp, lbody_escape d h3, by rw [h4]; rfl⟩
      · next h92 =>
        obtain ⟨h1, s, b, h2, h3, h4⟩ := ih _ _ (by omega) h
        exact ⟨h1, c :: s, c :: b, by rw [h2]; simp, .plain ((unicode1_iff c).1 hu) h34 h92 h3, by rw [h4]; rfl⟩
    · next hu =>
      have h80 : 0x80 ≤ c.toNat := by
        rw [unicode1_iff] at hu; omega
      split at h
      · cases h
      · next d t =>
        simp only [List.length_cons] at hn
        split at h
        · cases h
        · next hd =>
          rw [ok_not, Classical.not_not] at hd
          split at h
          · next h3 =>
            have hE0 : 0xE0 ≤ c.toNat := by
              by_contra hc
              rw [min3_of c (by omega)] at h3; cases h3
            split at h
            · cases h
            · next e t =>
              simp only [List.length_cons] at hn
              split at h
              · cases h
              · next he =>
                rw [ok_not, Classical.not_not] at he
                split at h
                · next h4 =>
                  have hF0 : 0xF0 ≤ c.toNat := by
                    by_contra hc
                    rw [min4_of c (by omega)] at h4; cases h4
                  split at h
                  · cases h
                  · next f t =>
                    simp only [List.length_cons] at hn
                    split at h
                    · cases h
                    · next hf =>
                      rw [ok_not, Classical.not_not] at hf
                      obtain ⟨h1, s, b, h2, h3, h4⟩ := ih _ _ (by omega) h
                      exact ⟨h1, c :: d :: e :: f :: s, c :: d :: e :: f :: b, by rw [h2]; simp, .four hF0 hd he hf h3,
                        by rw [h4]; rfl⟩
                · next h4 =>
                  have hF0 : c.toNat < 0xF0 := by
                    by_contra hc
                    exact h4 (min4_on c (by omega))
                  obtain ⟨h1, s, b, h2, h3, h4⟩ := ih _ _ (by omega) h
                  exact ⟨h1, c :: d :: e :: s, c :: d :: e :: b, by rw [h2]; simp, .three hE0 hF0 hd he h3, by rw [h4]; rfl⟩
          · next h3 =>
            have hE0 : c.toNat < 0xE0 := by
              by_contra hc
              exact h3 (min3_on c (by omega))
            obtain ⟨h1, s, b, h2, h3, h4⟩ := ih _ _ (by omega) h
            exact ⟨h1, c :: d :: s, c :: d :: b, by rw [h2]; simp, .two h80 hE0 hd h3, by rw [h4]; rfl⟩

/-! ## Numbers -/

/-- The part of a number that is read from a state on, with the code it gives. -/
inductive NumFrom : Nat → Bytes → Int → Prop
  | end1 : NumFrom 1 [] INTEGER
  | end2 : NumFrom 2 [] FLOAT
  | end4 : NumFrom 4 [] FLOAT
  | digit {st : Nat} {c : Byte} {w : Bytes} {code : Int} : 48 ≤ c.toNat ∧ c.toNat ≤ 57 →
      NumFrom (if st = 0 then 1 else if st = 3 then 4 else st) w code → NumFrom st (c :: w) code
  | point {st : Nat} {w : Bytes} {code : Int} : st ≤ 1 → NumFrom 2 w code → NumFrom st (46 :: w) code
  | exp {st : Nat} {c : Byte} {w : Bytes} {code : Int} : st ≤ 2 → st ≠ 0 → c = 101 ∨ c = 69 → NumFrom 3 w code →
      NumFrom st (c :: w) code
  | sign {c : Byte} {w : Bytes} {code : Int} : c = 43 ∨ c = 45 → NumFrom 4 w code → NumFrom 3 (c :: w) code

theorem lexNum_iff (r : Bytes) (code : Int) : ∀ (inp : Bytes) (st : Nat) (acc l : Bytes),
    lexNum st acc inp = .tok code l r ↔ ∃ w, inp = w ++ r ∧ l = acc ++ w ∧ NumFrom st w code ∧ AfterNumber r
  | [], st, acc, l => by
    rw [lexNum]
    constructor
    · intro h; cases h
    · rintro ⟨w, h1, -, -, c, t, rfl, -⟩
      simp at h1
  | c :: t, st, acc, l => by
    have step : ∀ (st' : Nat), (∀ w, NumFrom st (c :: w) code ↔ NumFrom st' w code) →
        ¬ (¬ (48 ≤ c.toNat ∧ c.toNat ≤ 57) ∧ c ≠ 46 ∧ c ≠ 101 ∧ c ≠ 69 ∧ c ≠ 43 ∧ c ≠ 45) →
        (lexNum st' (acc ++ [c]) t = .tok code l r ↔
          ∃ w, c :: t = w ++ r ∧ l = acc ++ w ∧ NumFrom st w code ∧ AfterNumber r) := by
      intro st' hst hc
      rw [lexNum_iff r code t st' (acc ++ [c]) l]
      constructor
      · rintro ⟨w, rfl, rfl, h3, h4⟩
        exact ⟨c :: w, rfl, by simp, (hst w).2 h3, h4⟩
      · rintro ⟨w, h1, h2, h3, h4⟩
        cases w with
        | nil =>
          obtain ⟨c', t', rfl, h5⟩ := h4
          simp only [List.nil_append, List.cons.injEq] at h1
          obtain ⟨rfl, rfl⟩ := h1
          exact absurd h5 hc
        | cons d w =>
          simp only [List.cons_append, List.cons.injEq] at h1
          obtain ⟨rfl, rfl⟩ := h1
          exact ⟨w, rfl, by rw [h2]; simp, (hst w).1 h3, h4⟩
    have none : ∀ (o : Scan), (∀ code l r, o ≠ .tok code l r) → (∀ w, ¬ NumFrom st (c :: w) code) →
        ¬ (¬ (48 ≤ c.toNat ∧ c.toNat ≤ 57) ∧ c ≠ 46 ∧ c ≠ 101 ∧ c ≠ 69 ∧ c ≠ 43 ∧ c ≠ 45) →
        (o = .tok code l r ↔ ∃ w, c :: t = w ++ r ∧ l = acc ++ w ∧ NumFrom st w code ∧ AfterNumber r) := by
      intro o ho hst hc
      constructor
      · intro h; exact absurd h (ho _ _ _)
      · rintro ⟨w, h1, h2, h3, h4⟩
        cases w with
        | nil =>
          obtain ⟨c', t', rfl, h5⟩ := h4
          simp only [List.nil_append, List.cons.injEq] at h1
          obtain ⟨rfl, rfl⟩ := h1
          exact absurd h5 hc
        | cons d w =>
          simp only [List.cons_append, List.cons.injEq] at h1
          obtain ⟨rfl, rfl⟩ := h1
          exact absurd h3 (hst w)
    have n46 : (46 : Byte).toNat = 46 := rfl
    have n101 : (101 : Byte).toNat = 101 := rfl
    have n69 : (69 : Byte).toNat = 69 := rfl
    have n43 : (43 : Byte).toNat = 43 := rfl
    have n45 : (45 : Byte).toNat = 45 := rfl
    rw [lexNum]
    by_cases hd : isDigit c = true
    · rw [if_pos hd]
      rw [isDigit_iff] at hd
      refine step _ (fun w => ⟨fun h => ?_, fun h => .digit hd h⟩) (fun h => h.1 hd)
      cases h with
      | digit _ h => exact h
      | point => omega
      | exp _ _ hc => rcases hc with rfl | rfl <;> omega
      | sign hc => rcases hc with rfl | rfl <;> omega
    rw [if_neg hd]
    rw [isDigit_iff] at hd
    by_cases hp : c = 46
    · subst hp
      rw [if_pos rfl]
      by_cases hs : st > 1
      · rw [if_pos hs]
        refine none _ (by simp) (fun w h => ?_) (by simp)
        cases h with
        | digit h _ => exact hd h
        | point h _ => omega
        | exp _ _ hc => exact absurd hc (by decide)
        | sign hc => exact absurd hc (by decide)
      · rw [if_neg hs]
        refine step _ (fun w => ⟨fun h => ?_, fun h => .point (by omega) h⟩) (by simp)
        cases h with
        | digit h _ => exact absurd h hd
        | point _ h => exact h
        | exp _ _ hc => exact absurd hc (by decide)
        | sign hc => exact absurd hc (by decide)
    rw [if_neg hp]
    by_cases he : c = 101 ∨ c = 69
    · rw [if_pos he]
      have hne : ¬ (c = 43 ∨ c = 45) := by rcases he with rfl | rfl <;> decide
      have hcc : ¬ (¬ (48 ≤ c.toNat ∧ c.toNat ≤ 57) ∧ c ≠ 46 ∧ c ≠ 101 ∧ c ≠ 69 ∧ c ≠ 43 ∧ c ≠ 45) := by
        rcases he with rfl | rfl <;> simp
      by_cases hs : st > 2 ∨ st = 0
      · rw [if_pos hs]
        refine none _ (by simp) (fun w h => ?_) hcc
        cases h with
        | digit h _ => exact hd h
        | point h _ => exact hp rfl
        | exp _ _ hc => omega
        | sign hc => exact hne hc
      · rw [if_neg hs]
        refine step _ (fun w => ⟨fun h => ?_, fun h => .exp (by omega) (by omega) he h⟩) hcc
        cases h with
        | digit h _ => exact absurd h hd
        | point h _ => exact absurd rfl hp
        | exp _ _ _ h => exact h
        | sign hc => exact absurd hc hne
    rw [if_neg he]
    by_cases hsg : c = 43 ∨ c = 45
    · rw [if_pos hsg]
      have hcc : ¬ (¬ (48 ≤ c.toNat ∧ c.toNat ≤ 57) ∧ c ≠ 46 ∧ c ≠ 101 ∧ c ≠ 69 ∧ c ≠ 43 ∧ c ≠ 45) := by
        rcases hsg with rfl | rfl <;> simp
      by_cases hs : st ≠ 3
      · rw [if_pos hs]
        refine none _ (by simp) (fun w h => ?_) hcc
        cases h with
        | digit h _ => exact hd h
        | point h _ => exact hp rfl
        | exp _ _ hc => exact he hc
        | sign hc => exact hs rfl
      · rw [if_neg hs]
        have hs : st = 3 := by omega
        subst hs
        refine step _ (fun w => ⟨fun h => ?_, fun h => .sign hsg h⟩) hcc
        cases h with
        | digit h _ => exact absurd h hd
        | point h _ => exact absurd rfl hp
        | exp _ _ h => exact absurd h he
        | sign _ h => exact h
    rw [if_neg hsg]
    have hcc : ¬ (48 ≤ c.toNat ∧ c.toNat ≤ 57) ∧ c ≠ 46 ∧ c ≠ 101 ∧ c ≠ 69 ∧ c ≠ 43 ∧ c ≠ 45 :=
      ⟨hd, hp, fun h => he (.inl h), fun h => he (.inr h), fun h => hsg (.inl h), fun h => hsg (.inr h)⟩
    have last : ∀ (co : Int), NumFrom st [] co → (∀ co', NumFrom st [] co' → co' = co) →
        (Scan.tok co acc (c :: t) = .tok code l r ↔
          ∃ w, c :: t = w ++ r ∧ l = acc ++ w ∧ NumFrom st w code ∧ AfterNumber r) := by
      intro co h1 h2
      constructor
      · intro h
        simp only [Scan.tok.injEq] at h
        obtain ⟨rfl, rfl, rfl⟩ := h
        exact ⟨[], rfl, by simp, h1, c, t, rfl, hcc⟩
      · rintro ⟨w, h3, h4, h5, h6⟩
        cases w with
        | nil =>
          rw [h2 _ h5, h4]
          simp only [List.nil_append] at h3
          rw [h3]; simp
        | cons d w =>
          simp only [List.cons_append, List.cons.injEq] at h3
          obtain ⟨rfl, -⟩ := h3
          cases h5 with
          | digit h _ => exact absurd h hd
          | point h _ => exact absurd rfl hp
          | exp _ _ h => exact absurd h he
          | sign h => exact absurd h hsg
    by_cases h1 : st = 1
    · subst h1
      rw [if_pos rfl]
      exact last _ .end1 (by intro co' h; cases h; rfl)
    rw [if_neg h1]
    by_cases h2 : st = 4 ∨ st = 2
    · rw [if_pos h2]
      rcases h2 with rfl | rfl
      · exact last _ .end4 (by intro co' h; cases h; rfl)
      · exact last _ .end2 (by intro co' h; cases h; rfl)
    rw [if_neg h2]
    constructor
    · intro h; cases h
    · rintro ⟨w, h3, h4, h5, h6⟩
      cases w with
      | nil => cases h5 <;> omega
      | cons d w =>
        simp only [List.cons_append, List.cons.injEq] at h3
        obtain ⟨rfl, -⟩ := h3
        cases h5 with
        | digit h _ => exact absurd h hd
        | point h _ => exact absurd rfl hp
        | exp _ _ h => exact absurd h he
        | sign h => exact absurd h hsg

theorem digit_ne {c : Byte} (h : 48 ≤ c.toNat ∧ c.toNat ≤ 57) : c ≠ 46 ∧ ¬ (c = 101 ∨ c = 69) ∧ ¬ (c = 43 ∨ c = 45) := by
  refine ⟨?_, ?_, ?_⟩
  · rintro rfl; exact absurd h (by decide)
  · rintro (rfl | rfl) <;> exact absurd h (by decide)
  · rintro (rfl | rfl) <;> exact absurd h (by decide)

theorem allDigits_cons {c : Byte} {w : Bytes} (h : 48 ≤ c.toNat ∧ c.toNat ≤ 57) (hw : AllDigits w) : AllDigits (c :: w) := by
  intro d hd
  cases hd with
  | head => exact h
  | tail _ h => exact hw d h

theorem num4_iff : ∀ (w : Bytes) (code : Int), NumFrom 4 w code ↔ code = FLOAT ∧ AllDigits w
  | [], code => ⟨fun h => by cases h; exact ⟨rfl, nofun⟩, fun h => by rw [h.1]; exact .end4⟩
  | c :: w, code => by
    constructor
    · intro h
      cases h with
      | digit hc h =>
        rw [if_neg (by decide), if_neg (by decide), num4_iff w code] at h
        exact ⟨h.1, allDigits_cons hc h.2⟩
      | point h => omega
      | exp h => omega
    · rintro ⟨rfl, h⟩
      refine .digit (h c (by simp)) ?_
      rw [if_neg (by decide), if_neg (by decide), num4_iff w]
      exact ⟨rfl, fun d hd => h d (.tail _ hd)⟩

theorem num3_iff (w : Bytes) (code : Int) : NumFrom 3 w code ↔
    code = FLOAT ∧ ((w ≠ [] ∧ AllDigits w) ∨ ∃ s d, w = s :: d ∧ (s = 43 ∨ s = 45) ∧ AllDigits d) := by
  constructor
  · intro h
    cases h with
    | digit hc h =>
      rw [if_neg (by decide), if_pos rfl, num4_iff] at h
      exact ⟨h.1, .inl ⟨by simp, allDigits_cons hc h.2⟩⟩
    | point h => omega
    | exp h => omega
    | sign hc h =>
      rw [num4_iff] at h
      exact ⟨h.1, .inr ⟨_, _, rfl, hc, h.2⟩⟩
  · rintro ⟨rfl, ⟨h1, h2⟩ | ⟨s, d, rfl, h1, h2⟩⟩
    · cases w with
      | nil => exact absurd rfl h1
      | cons c w =>
        refine .digit (h2 c (by simp)) ?_
        rw [if_neg (by decide), if_pos rfl, num4_iff]
        exact ⟨rfl, fun d hd => h2 d (.tail _ hd)⟩
    · exact .sign h1 ((num4_iff _ _).2 ⟨rfl, h2⟩)

theorem numExp {st : Nat} {c : Byte} {w : Bytes} {code : Int} (hs : st = 1 ∨ st = 2) (hc : c = 101 ∨ c = 69) :
    NumFrom st (c :: w) code ↔ code = FLOAT ∧ LExp (c :: w) := by
  constructor
  · intro h
    cases h with
    | digit hd => exact absurd hc (digit_ne hd).2.1
    | point h => exact absurd hc (by decide)
    | exp _ _ _ h =>
      rw [num3_iff] at h
      exact ⟨h.1, c, w, rfl, hc, h.2⟩
    | sign => omega
  · rintro ⟨rfl, x, y, h, h1, h2⟩
    cases h
    exact .exp (by omega) (by omega) h1 ((num3_iff _ _).2 ⟨rfl, h2⟩)

theorem num2_iff : ∀ (w : Bytes) (code : Int), NumFrom 2 w code ↔
    code = FLOAT ∧ ∃ d e, w = d ++ e ∧ AllDigits d ∧ (e = [] ∨ LExp e)
  | [], code => by
    constructor
    · intro h; cases h; exact ⟨rfl, [], [], rfl, nofun, .inl rfl⟩
    · rintro ⟨rfl, -⟩; exact .end2
  | c :: w, code => by
    constructor
    · intro h
      have h' := h
      cases h with
      | digit hc h =>
        rw [if_neg (by decide), if_neg (by decide), num2_iff w code] at h
        obtain ⟨h1, d, e, rfl, h2, h3⟩ := h
        exact ⟨h1, c :: d, e, rfl, allDigits_cons hc h2, h3⟩
      | point h => omega
      | exp h _ hc _ =>
        rw [numExp (.inr rfl) hc] at h'
        exact ⟨h'.1, [], c :: w, rfl, nofun, .inr h'.2⟩
    · rintro ⟨rfl, d, e, h1, h2, h3⟩
      cases d with
      | nil =>
        rw [List.nil_append] at h1
        subst h1
        rcases h3 with h3 | h3
        · cases h3
        · have h4 := h3
          obtain ⟨x, y, h, hx, -⟩ := h3
          cases h
          exact (numExp (.inr rfl) hx).2 ⟨rfl, h4⟩
      | cons x d =>
        simp only [List.cons_append, List.cons.injEq] at h1
        obtain ⟨rfl, rfl⟩ := h1
        refine .digit (h2 c (by simp)) ?_
        rw [if_neg (by decide), if_neg (by decide), num2_iff]
        exact ⟨rfl, d, e, rfl, fun y hy => h2 y (.tail _ hy), h3⟩

/-- Digits, a fraction, an exponent; at least one of the last two. -/
def FloatTail (w : Bytes) : Prop :=
  ∃ b f e, w = b ++ f ++ e ∧ AllDigits b ∧ (f = [] ∨ ∃ d, f = 46 :: d ∧ AllDigits d) ∧ (e = [] ∨ LExp e) ∧
    (f ≠ [] ∨ e ≠ [])

theorem num1_iff : ∀ (w : Bytes) (code : Int), NumFrom 1 w code ↔
    (code = INTEGER ∧ AllDigits w) ∨ (code = FLOAT ∧ FloatTail w)
  | [], code => by
    constructor
    · intro h; cases h; exact .inl ⟨rfl, nofun⟩
    · rintro (⟨rfl, -⟩ | ⟨-, b, f, e, h, -, -, -, h1⟩)
      · exact .end1
      · simp only [List.nil_eq, List.append_eq_nil_iff] at h
        rcases h1 with h1 | h1
        · exact absurd h.1.2 h1
        · exact absurd h.2 h1
  | c :: w, code => by
    constructor
    · intro h
      have h' := h
      cases h with
      | digit hc h =>
        rw [if_neg (by decide), if_neg (by decide), num1_iff w code] at h
        rcases h with ⟨h1, h2⟩ | ⟨h1, b, f, e, rfl, h2, h3⟩
        · exact .inl ⟨h1, allDigits_cons hc h2⟩
        · exact .inr ⟨h1, c :: b, f, e, rfl, allDigits_cons hc h2, h3⟩
      | point _ h =>
        rw [num2_iff] at h
        obtain ⟨h1, d, e, rfl, h2, h3⟩ := h
        exact .inr ⟨h1, [], 46 :: d, e, rfl, nofun, .inr ⟨d, rfl, h2⟩, h3, .inl (by simp)⟩
      | exp h _ hc _ =>
        rw [numExp (.inl rfl) hc] at h'
        exact .inr ⟨h'.1, [], [], c :: w, rfl, nofun, .inl rfl, .inr h'.2, .inr (by simp)⟩
    · rintro (⟨rfl, h⟩ | ⟨rfl, b, f, e, h1, h2, h3, h4, h5⟩)
      · refine .digit (h c (by simp)) ?_
        rw [if_neg (by decide), if_neg (by decide), num1_iff w]
        exact .inl ⟨rfl, fun d hd => h d (.tail _ hd)⟩
      cases b with
      | cons x b =>
        simp only [List.cons_append, List.cons.injEq] at h1
        obtain ⟨rfl, rfl⟩ := h1
        refine .digit (h2 c (by simp)) ?_
        rw [if_neg (by decide), if_neg (by decide), num1_iff]
        exact .inr ⟨rfl, b, f, e, rfl, fun y hy => h2 y (.tail _ hy), h3, h4, h5⟩
      | nil =>
        rcases h3 with rfl | ⟨d, rfl, hd⟩
        · simp only [List.append_nil, List.nil_append] at h1
          subst h1
          rcases h4 with h4 | h4
          · cases h4
          · have h6 := h4
            obtain ⟨x, y, h, hx, -⟩ := h4
            cases h
            exact (numExp (.inl rfl) hx).2 ⟨rfl, h6⟩
        · simp only [List.nil_append, List.cons_append, List.cons.injEq] at h1
          obtain ⟨rfl, rfl⟩ := h1
          exact .point (by omega) ((num2_iff _ _).2 ⟨rfl, d, e, rfl, hd, h4⟩)

theorem num0_iff (w : Bytes) (code : Int) : NumFrom 0 w code ↔
    (code = INTEGER ∧ Digits w) ∨
    (code = FLOAT ∧ ∃ b f e, w = b ++ f ++ e ∧ AllDigits b ∧ (f = [] ∨ ∃ d, f = 46 :: d ∧ AllDigits d) ∧ (e = [] ∨ LExp e) ∧
      (f ≠ [] ∨ e ≠ []) ∧ (b = [] → f ≠ [])) := by
  constructor
  · intro h
    cases h with
    | digit hc h =>
      rw [if_pos rfl, num1_iff] at h
      rcases h with ⟨h1, h2⟩ | ⟨h1, b, f, e, rfl, h2, h3, h4, h5⟩
      · exact .inl ⟨h1, by simp, allDigits_cons hc h2⟩
      · exact .inr ⟨h1, _ :: b, f, e, rfl, allDigits_cons hc h2, h3, h4, h5, by simp⟩
    | point _ h =>
      rw [num2_iff] at h
      obtain ⟨h1, d, e, rfl, h2, h3⟩ := h
      exact .inr ⟨h1, [], 46 :: d, e, rfl, nofun, .inr ⟨d, rfl, h2⟩, h3, .inl (by simp), by simp⟩
    | exp _ h => exact absurd rfl h
  · rintro (⟨rfl, h1, h2⟩ | ⟨rfl, b, f, e, rfl, h2, h3, h4, h5, h6⟩)
    · cases w with
      | nil => exact absurd rfl h1
      | cons c w =>
        refine .digit (h2 c (by simp)) ?_
        rw [if_pos rfl, num1_iff]
        exact .inl ⟨rfl, fun d hd => h2 d (.tail _ hd)⟩
    cases b with
    | cons x b =>
      refine .digit (h2 x (by simp)) ?_
      rw [if_pos rfl, num1_iff]
      exact .inr ⟨rfl, b, f, e, by simp, fun y hy => h2 y (.tail _ hy), h3, h4, h5⟩
    | nil =>
      rcases h3 with rfl | ⟨d, rfl, hd⟩
      · exact absurd rfl (h6 rfl)
      · exact .point (by omega) ((num2_iff _ _).2 ⟨rfl, d, e, by simp, hd, h4⟩)

/-! ## Tokens -/

theorem scan_int {l r : Bytes} (hl : IntLit l) (hr : AfterNumber r) :
    ∃ x t, l ++ r = x :: t ∧ unicode1 x = true ∧ isSpace x = false ∧ scan x t = .tok INTEGER l r := by
  obtain ⟨a, b, rfl, ha, hb⟩ := hl
  obtain ⟨x, t, e, h1, h2, h3⟩ := scan_number (x := []) (r := r) ha hb
  rw [List.append_nil] at e
  refine ⟨x, t, e, h1, h2, ?_⟩
  rw [h3, List.nil_append, lexNum_iff]
  exact ⟨[], rfl, by simp, .end1, hr⟩

theorem sign_scan {a t : Bytes} (ha : a ≠ []) (h : Sign a) :
    ∃ x, a ++ t = x :: t ∧ unicode1 x = true ∧ isSpace x = false ∧ scan x t = lexNum 0 a t := by
  rcases h with rfl | rfl | rfl
  · exact absurd rfl ha
  · exact ⟨43, rfl, by decide, by decide, rfl⟩
  · exact ⟨45, rfl, by decide, by decide, rfl⟩

theorem scan_float {l r : Bytes} (hl : LFloat l) (hr : AfterNumber r) :
    ∃ x t, l ++ r = x :: t ∧ unicode1 x = true ∧ isSpace x = false ∧ scan x t = .tok FLOAT l r := by
  obtain ⟨a, b, f, e, rfl, ha, hb, hf, he, hne, hb0⟩ := hl
  by_cases h0 : b = []
  · obtain ⟨x, h1, h2, h3, h4⟩ := sign_scan (t := b ++ f ++ e ++ r) (hb0 h0).1 ha
    refine ⟨x, _, by rw [← h1]; simp, h2, h3, ?_⟩
    rw [h4, lexNum_iff]
    exact ⟨b ++ f ++ e, rfl, by simp, (num0_iff _ _).2 (.inr ⟨rfl, b, f, e, rfl, hb, hf, he, hne, fun h => (hb0 h).2⟩), hr⟩
  · obtain ⟨x, t, eq, h1, h2, h3⟩ := scan_number (x := f ++ e) (r := r) ha ⟨h0, hb⟩
    refine ⟨x, t, by rw [← eq]; simp, h1, h2, ?_⟩
    rw [h3, lexNum_iff]
    exact ⟨f ++ e, by simp, by simp, (num1_iff _ _).2 (.inr ⟨rfl, [], f, e, rfl, nofun, hf, he, hne⟩), hr⟩

/-- A token at the start of a text. -/
theorem scan_lwritten {t : Tok} {w r : Bytes} (h : LWritten t w r) :
    ∃ c u, w ++ r = c :: u ∧ unicode1 c = true ∧ isSpace c = false ∧ scan c u = .tok t.code t.val r := by
  cases h with
  | lcurly | rcurly | lbrack | rbrack | comma | colon =>
    exact ⟨_, _, rfl, by decide, by decide, rfl⟩
  | true | false | null => exact ⟨_, _, rfl, by decide, by decide, rfl⟩
  | @string s b r hbody =>
    refine ⟨34, b ++ 34 :: r, by simp, by decide, by decide, ?_⟩
    have : scan 34 (b ++ 34 :: r) = lexStr [] (b ++ 34 :: r) := rfl
    rw [this, lexStr_loose hbody]; rfl
  | int hl hc => exact scan_int hl hc
  | num hl hc => exact scan_float hl hc

theorem scan_found {c : Byte} {u : Bytes} {code : Int} {l r : Bytes} (h : scan c u = .tok code l r) :
    ∃ t w, code = t.code ∧ t.Is l ∧ c :: u = w ++ r ∧ LWritten t w r := by
  unfold scan at h
  by_cases hc : c = 123
  · rw [if_pos hc] at h; cases h; subst hc; exact ⟨_, _, rfl, by simp [Tok.Is], rfl, .lcurly⟩
  rw [if_neg hc] at h; clear hc
  by_cases hc : c = 125
  · rw [if_pos hc] at h; cases h; subst hc; exact ⟨_, _, rfl, by simp [Tok.Is], rfl, .rcurly⟩
  rw [if_neg hc] at h; clear hc
  by_cases hc : c = 91
  · rw [if_pos hc] at h; cases h; subst hc; exact ⟨_, _, rfl, by simp [Tok.Is], rfl, .lbrack⟩
  rw [if_neg hc] at h; clear hc
  by_cases hc : c = 93
  · rw [if_pos hc] at h; cases h; subst hc; exact ⟨_, _, rfl, by simp [Tok.Is], rfl, .rbrack⟩
  rw [if_neg hc] at h; clear hc
  by_cases hc : c = 44
  · rw [if_pos hc] at h; cases h; subst hc; exact ⟨_, _, rfl, by simp [Tok.Is], rfl, .comma⟩
  rw [if_neg hc] at h; clear hc
  by_cases hc : c = 58
  · rw [if_pos hc] at h; cases h; subst hc; exact ⟨_, _, rfl, by simp [Tok.Is], rfl, .colon⟩
  rw [if_neg hc] at h; clear hc
  by_cases hc : c = 116
  · rw [if_pos hc] at h
    obtain ⟨rfl, _, h⟩ := lexWord_rest h
    exact ⟨_, _, rfl, by simp [Tok.Is], h, .true⟩
  rw [if_neg hc] at h; clear hc
  by_cases hc : c = 102
  · rw [if_pos hc] at h
    obtain ⟨rfl, _, h⟩ := lexWord_rest h
    exact ⟨_, _, rfl, by simp [Tok.Is], h, .false⟩
  rw [if_neg hc] at h; clear hc
  by_cases hc : c = 110
  · rw [if_pos hc] at h
    obtain ⟨rfl, _, h⟩ := lexWord_rest h
    exact ⟨_, _, rfl, by simp [Tok.Is], h, .null⟩
  rw [if_neg hc] at h; clear hc
  by_cases hc : c = 34
  · rw [if_pos hc] at h
    obtain ⟨rfl, s, b, rfl, h1, rfl⟩ := lexStr_found _ _ _ (Nat.le_refl _) h
    subst hc
    exact ⟨.string _, 34 :: b ++ [34], rfl, by simp [Tok.Is], by simp, .string h1⟩
  rw [if_neg hc] at h; clear hc
  by_cases hc : c = 43 ∨ c = 45
  · rw [if_pos hc, lexNum_iff] at h
    obtain ⟨w, rfl, rfl, h1, h2⟩ := h
    have hs : Sign [c] := by rcases hc with rfl | rfl <;> simp [Sign]
    rw [num0_iff] at h1
    rcases h1 with ⟨rfl, h1⟩ | ⟨rfl, b, f, e, rfl, h3, h4, h5, h6, h7⟩
    · exact ⟨.int (c :: w), c :: w, rfl, by simp [Tok.Is], rfl, .int ⟨[c], w, rfl, hs, h1⟩ h2⟩
    · exact ⟨.num (c :: (b ++ f ++ e)), c :: (b ++ f ++ e), rfl, by simp [Tok.Is], by simp,
        .num ⟨[c], b, f, e, by simp, hs, h3, h4, h5, h6, fun h => ⟨by simp, h7 h⟩⟩ h2⟩
  rw [if_neg hc] at h; clear hc
  by_cases hc : isDigit c = true
  · rw [if_pos hc, lexNum_iff] at h
    rw [isDigit_iff] at hc
    obtain ⟨w, rfl, rfl, h1, h2⟩ := h
    rw [num1_iff] at h1
    rcases h1 with ⟨rfl, h1⟩ | ⟨rfl, b, f, e, rfl, h3, h4, h5, h6⟩
    · exact ⟨.int (c :: w), c :: w, rfl, by simp [Tok.Is], rfl,
        .int ⟨[], c :: w, rfl, by simp [Sign], by simp, allDigits_cons hc h1⟩ h2⟩
    · exact ⟨.num (c :: (b ++ f ++ e)), c :: (b ++ f ++ e), rfl, by simp [Tok.Is], by simp,
        .num ⟨[], c :: b, f, e, by simp, by simp [Sign], allDigits_cons hc h3, h4, h5, h6, nofun⟩ h2⟩
  rw [if_neg hc] at h; cases h

theorem yylex_scan {b : Bytes} {c : Byte} {u : Bytes} (hb : Blanks b) (hs : isSpace c = false) (hu : unicode1 c = true) :
    yylex (b ++ c :: u) = match scan c u with
      | .tok code lexeme rest => .ok (code, lexeme, rest)
      | .zero => .ok (0, [], [])
      | .fail => .ok (-1, [], c :: u) := by
  unfold yylex
  cases hx : b ++ c :: u with
  | nil => simp at hx
  | cons x xs =>
    dsimp only
    rw [← hx, dropWhile_blank b hb hs]
    dsimp only
    rw [hu]; rfl

theorem yylex_high {b : Bytes} {c : Byte} {u : Bytes} (hb : Blanks b) (hs : isSpace c = false) (hu : unicode1 c = false) :
    yylex (b ++ c :: u) = .ok (ERROR, [], c :: u) := by
  unfold yylex
  cases hx : b ++ c :: u with
  | nil => simp at hx
  | cons x xs =>
    dsimp only
    rw [← hx, dropWhile_blank b hb hs]
    dsimp only
    rw [hu]; rfl

/-- Nothing, only blanks, or blanks and something else. -/
theorem blanks_split (inp : Bytes) : inp = [] ∨ (yylex inp = .ub) ∨ ∃ b c u, inp = b ++ c :: u ∧ Blanks b ∧ isSpace c = false := by
  cases inp with
  | nil => exact .inl rfl
  | cons a t =>
    obtain ⟨b, hb, e⟩ := dropWhile_split (a :: t)
    cases hd : (a :: t).dropWhile isSpace with
    | nil => exact .inr (.inl (by simp only [yylex, hd]))
    | cons c r =>
      refine .inr (.inr ⟨b, c, r, by rw [← hd]; exact e, fun x hx => (isSpace_iff x).1 (hb x hx), ?_⟩)
      have := List.head_dropWhile_not isSpace (l := a :: t) (by rw [hd]; simp)
      simpa [hd] using this

theorem reads_iff (inp : Bytes) (t : Tok) (rest : Bytes) :
    Reads inp t rest ↔ ∃ b w, inp = b ++ w ++ rest ∧ Blanks b ∧ LWritten t w rest := by
  constructor
  · rintro ⟨v, h, hv⟩
    rcases blanks_split inp with rfl | hu | ⟨b, c, u, rfl, hb, hs⟩
    · rw [yylex] at h
      cases t <;> cases h
    · rw [hu] at h; cases h
    · cases hc : unicode1 c with
      | false =>
        rw [yylex_high hb hs hc] at h
        cases t <;> simp [Tok.code, ERROR, LEFT_CURLY, RIGHT_CURLY, LEFT_BRACE, RIGHT_BRACE, COMMA, COLON, VTRUE, VFALSE, VNULL,
          STRING, INTEGER, FLOAT] at h
      | true =>
        rw [yylex_scan hb hs hc] at h
        cases hsc : scan c u with
        | zero => rw [hsc] at h; cases t <;> cases h
        | fail => rw [hsc] at h; cases t <;> cases h
        | tok code l r =>
          rw [hsc] at h
          cases h
          obtain ⟨t', w, h1, h2, h3, h4⟩ := scan_found hsc
          have : t' = t := by
            cases t <;> cases t' <;>
              first
                | rfl
                | (simp only [Tok.Is] at hv h2; subst hv; subst h2; rfl)
                | (exact absurd h1 (by simp [Tok.code, LEFT_CURLY, RIGHT_CURLY, LEFT_BRACE, RIGHT_BRACE, COMMA, COLON, VTRUE,
                    VFALSE, VNULL, STRING, INTEGER, FLOAT]))
          subst this
          exact ⟨b, w, by rw [h3]; simp, hb, h4⟩
  · rintro ⟨b, w, rfl, hb, hw⟩
    obtain ⟨c, u, h1, h2, h3, h4⟩ := scan_lwritten hw
    refine ⟨t.val, ?_, by cases t <;> simp [Tok.Is, Tok.val]⟩
    rw [List.append_assoc, h1, yylex_scan hb h3 h2, h4]

theorem lexes_iff {ts : List Tok} : ∀ (inp rest : Bytes), Lexes inp ts rest ↔ LSpells ts inp rest := by
  induction ts with
  | nil => exact fun inp rest => ⟨fun h => by cases h; exact .nil, fun h => by cases h; exact .nil⟩
  | cons t ts ih =>
    intro inp rest
    constructor
    · intro h
      cases h with
      | cons h1 h2 =>
        obtain ⟨b, w, rfl, hb, hw⟩ := (reads_iff _ _ _).1 h1
        exact .cons hb hw ((ih _ _).1 h2)
    · intro h
      cases h with
      | cons hb hw h2 => exact .cons ((reads_iff _ _ _).2 ⟨_, _, rfl, hb, hw⟩) ((ih _ _).2 h2)

theorem noMore_iff (rest : Bytes) : (∃ code w r, yylex rest = .ok (code, w, r) ∧ code ≤ 0) ↔ NoMore rest := by
  constructor
  · rintro ⟨code, w, r, h, hc⟩
    rcases blanks_split rest with rfl | hu | ⟨b, c, u, rfl, hb, hs⟩
    · exact .inl rfl
    · rw [hu] at h; cases h
    · right
      cases hc' : unicode1 c with
      | false =>
        rw [yylex_high hb hs hc'] at h
        cases h
        exact absurd hc (by decide)
      | true =>
        refine ⟨b, c, u, rfl, hb, ?_, (unicode1_iff c).1 hc', ?_⟩
        · rw [← isSpace_iff, hs]; simp
        · intro t w' z hw e
          obtain ⟨c', u', h1, h2, h3, h4⟩ := scan_lwritten hw
          rw [← e] at h1
          cases h1
          rw [yylex_scan hb hs hc', h4] at h
          cases h
          exact absurd hc (by cases t <;> simp [Tok.code, LEFT_CURLY, RIGHT_CURLY, LEFT_BRACE, RIGHT_BRACE, COMMA, COLON, VTRUE,
            VFALSE, VNULL, STRING, INTEGER, FLOAT])
  · rintro (rfl | ⟨b, c, r, rfl, hb, hs, hc, hn⟩)
    · exact ⟨0, [], [], rfl, by decide⟩
    · have hs' : isSpace c = false := by
        cases h : isSpace c with
        | false => rfl
        | true => exact absurd ((isSpace_iff c).1 h) hs
      rw [yylex_scan hb hs' ((unicode1_iff c).2 hc)]
      cases hsc : scan c r with
      | zero => exact ⟨_, _, _, rfl, by decide⟩
      | fail => exact ⟨_, _, _, rfl, by decide⟩
      | tok code l z =>
        obtain ⟨t, w, h1, h2, h3, h4⟩ := scan_found hsc
        exact absurd h3 (hn t w z h4)

theorem parse_end {inp w r : Bytes} {code : Int} (hy : yylex inp = .ok (code, w, r)) (hc : code ≤ 0) :
    parse inp = .accept [] := by
  have hk : translate code = 0 := by simp [translate, hc]
  have hd : turn ⟨[(0, [])], inp⟩ = default 0 ⟨[(0, [])], inp⟩ :=
    turn_look hy (by decide) (by decide) (by rw [hk]; decide) (by rw [hk]; decide)
  have g : Goes [] ⟨[(0, [])], inp⟩ ⟨[(9, []), (0, [])], inp⟩ := Goes.step (hd.trans rfl)
  exact parse_of_ends (g.ends ((Goes.step (turn_shift 15 hy (by decide) (by decide) (by rw [hk]; decide)
    (by rw [hk]; decide))).ends (Ends.accept rfl)))

/-! ## What is stored -/

/-- The literals of the tokens. -/
def Tok.Lit : Tok → Prop
  | .int l => IntLit l
  | .num l => LFloat l
  | _ => True

theorem lspells_lit {ts : List Tok} {a b : Bytes} (h : LSpells ts a b) : ∀ t ∈ ts, t.Lit := by
  induction h with
  | nil => nofun
  | cons _ hw _ ih =>
    intro t ht
    cases ht with
    | head => cases hw <;> first | assumption | trivial
    | tail _ h => exact ih t h

theorem setInteger_stored {l : Bytes} (h : IntLit l) (g : GC) : setInteger l g = intStored l := by
  have e := strtoll_lit h
  have hm : (if intValue l < -2 ^ 63 then -2 ^ 63 else if 2 ^ 63 - 1 < intValue l then 2 ^ 63 - 1 else intValue l) =
      max (-2 ^ 63) (min (2 ^ 63 - 1) (intValue l)) := by
    split
    · omega
    · split <;> omega
  rw [hm] at e
  simp only [setInteger, e, intStored, set_int, set_long, if_true]
  generalize max (-2 ^ 63) (min (2 ^ 63 - 1) (intValue l)) = n
  by_cases hc : -2 ^ 31 ≤ n ∧ n < 2 ^ 31
  · rw [if_pos hc, if_pos ⟨by omega, hc.1⟩]
  · rw [if_neg hc, if_neg]
    rintro ⟨a, b⟩
    exact hc ⟨b, by omega⟩

theorem cstr_lfloat {l : Bytes} (h : LFloat l) : cstr l = l := by
  obtain ⟨a, b, f, e, rfl, ha, hb, hf, he, _⟩ := h
  apply takeWhile_all
  have dig : ∀ {d : Bytes}, AllDigits d → ∀ c ∈ d, c ≠ 0 := by
    rintro d hd c hc rfl
    exact absurd (hd _ hc).1 (by decide)
  intro c hc
  have : c ≠ 0 := by
    simp only [List.mem_append] at hc
    rcases hc with ((hc | hc) | hc) | hc
    · rcases ha with rfl | rfl | rfl
      · cases hc
      · simp at hc; subst hc; decide
      · simp at hc; subst hc; decide
    · exact dig hb c hc
    · rcases hf with rfl | ⟨d, rfl, hd⟩
      · cases hc
      · rcases List.mem_cons.1 hc with rfl | hc
        · decide
        · exact dig hd c hc
    · rcases he with rfl | ⟨x, y, rfl, hx, hy⟩
      · cases hc
      · rcases List.mem_cons.1 hc with rfl | hc
        · rcases hx with rfl | rfl <;> decide
        · rcases hy with ⟨-, hd⟩ | ⟨s, d, rfl, hs, hd⟩
          · exact dig hd c hc
          · rcases List.mem_cons.1 hc with rfl | hc
            · rcases hs with rfl | rfl <;> decide
            · exact dig hd c hc
  simpa using this

variable (strtod : Bytes → Option F64)

theorem mfind_field (k : Bytes) : ∀ m, mfind k m = field (map m) k
  | [] => rfl
  | (k', v) :: m => by
    have ih := mfind_field k m
    simp only [mfind, field, List.find?_cons] at ih ⊢
    by_cases h : k = k'
    · simp [h]
    · rw [if_neg h, ih]
      have : (k' == k) = false := by simpa using Ne.symm h
      rw [this]

theorem setFloat_lfloat {l : Bytes} (h : LFloat l) (g : GC) : setFloat strtod l g = layLeaf strtod (.num l) g := by
  simp only [setFloat, cstr_lfloat h, layLeaf]
  cases strtod l <;> rfl

theorem toksTail_mem {x : Doc} {t : Tok} (ht : t ∈ x.toks) : ∀ {ds : List Doc}, x ∈ ds → t ∈ toksTail ds
  | d :: ds, h => by
    rw [toksTail]
    cases h with
    | head => simp [ht]
    | tail _ h => simp [toksTail_mem ht h]

theorem toksMembers_mem {x : Bytes × Doc} {t : Tok} (ht : t ∈ x.2.toks) : ∀ {ms : List (Bytes × Doc)}, x ∈ ms →
    t ∈ toksMembers ms
  | (k, d) :: ms, h => by
    rw [toksMembers]
    cases h with
    | head => simp [ht]
    | tail _ h => simp [toksMembers_mem ht h]

theorem arr_lit {ds : List Doc} (h : ∀ t ∈ (Doc.arr ds).toks, t.Lit) : ∀ x ∈ ds, ∀ t ∈ x.toks, t.Lit := by
  intro x hx t ht
  refine h t ?_
  cases ds with
  | nil => cases hx
  | cons d ds =>
    rw [Doc.toks]
    cases hx with
    | head => simp [ht]
    | tail _ hx => simp [toksTail_mem ht hx]

theorem obj_lit {ms : List (Bytes × Doc)} (h : ∀ t ∈ (Doc.obj ms).toks, t.Lit) : ∀ x ∈ ms, ∀ t ∈ x.2.toks, t.Lit := by
  intro x hx t ht
  refine h t ?_
  cases ms with
  | nil => cases hx
  | cons d ms =>
    obtain ⟨k, d⟩ := d
    rw [Doc.toks]
    cases hx with
    | head => simp [ht]
    | tail _ hx => simp [toksMembers_mem ht hx]

mutual
theorem put_lay : ∀ (d : Doc), (∀ t ∈ d.toks, t.Lit) → ∀ g, put strtod d g = lay strtod d g
  | .null, _, g => by cases g <;> rfl
  | .bool b, _, g => by cases g <;> rfl
  | .string s, _, g => by cases g <;> rfl
  | .int l, h, g => by
    have hl : IntLit l := h (.int l) (by simp [Doc.toks])
    have e : setInteger l = fun _ => intStored l := funext (setInteger_stored hl)
    rw [put, e]
    cases g <;> rfl
  | .num l, h, g => by
    have hl : LFloat l := h (.num l) (by simp [Doc.toks])
    have e : setFloat strtod l = layLeaf strtod (.num l) := funext (setFloat_lfloat strtod hl)
    rw [put, e]
    cases g <;> rfl
  | .arr ds, h, g => by
    have e := puts_added ds (arr_lit h)
    rw [put]
    cases g
    case vector v =>
      show puts strtod ds (vector (v ++ [vector []])) = vector (v ++ vector [] :: addedAll strtod ds)
      rw [e]; simp
    all_goals
      show puts strtod ds (vector []) = vector (addedAll strtod ds)
      rw [e]; simp
  | .obj ms, h, g => by
    have e := putMembers_lay ms (obj_lit h)
    rw [put]
    cases g
    case vector v =>
      show vector (v ++ [putMembers strtod ms (map [])]) = vector (v ++ [map (layMembers strtod ms [])])
      rw [e]
    case map m =>
      show putMembers strtod ms (map m) = map (layMembers strtod ms m)
      rw [e]
    all_goals
      show putMembers strtod ms (map []) = map (layMembers strtod ms [])
      rw [e]
theorem put_added : ∀ (d : Doc), (∀ t ∈ d.toks, t.Lit) → ∀ v, put strtod d (vector v) = vector (v ++ added strtod d)
  | .null, _, v => rfl
  | .bool b, _, v => rfl
  | .string s, _, v => rfl
  | .int l, h, v => by
    have hl : IntLit l := h (.int l) (by simp [Doc.toks])
    have e : setInteger l = fun _ => intStored l := funext (setInteger_stored hl)
    rw [put, e]
    rfl
  | .num l, h, v => by
    have hl : LFloat l := h (.num l) (by simp [Doc.toks])
    have e : setFloat strtod l = layLeaf strtod (.num l) := funext (setFloat_lfloat strtod hl)
    rw [put, e]
    rfl
  | .arr ds, h, v => by
    have e := puts_added ds (arr_lit h)
    rw [put]
    show puts strtod ds (vector (v ++ [vector []])) = vector (v ++ vector [] :: addedAll strtod ds)
    rw [e]; simp
  | .obj ms, h, v => by
    have e := putMembers_lay ms (obj_lit h)
    rw [put]
    show vector (v ++ [putMembers strtod ms (map [])]) = vector (v ++ [map (layMembers strtod ms [])])
    rw [e]
theorem puts_added : ∀ (ds : List Doc), (∀ d ∈ ds, ∀ t ∈ d.toks, t.Lit) → ∀ v,
    puts strtod ds (vector v) = vector (v ++ addedAll strtod ds)
  | [], _, v => by simp [puts, addedAll]
  | d :: ds, h, v => by
    rw [puts, addedAll]
    dsimp only
    rw [put_added d (h d (by simp)), puts_added ds (fun x hx => h x (.tail _ hx))]
    simp
theorem putMembers_lay : ∀ (ms : List (Bytes × Doc)), (∀ p ∈ ms, ∀ t ∈ p.2.toks, t.Lit) → ∀ m,
    putMembers strtod ms (map m) = map (layMembers strtod ms m)
  | [], _, m => by simp [putMembers, layMembers]
  | (k, d) :: ms, h, m => by
    rw [putMembers, layMembers]
    dsimp only
    rw [putMembers_lay ms (fun x hx => h x (.tail _ hx)), put_lay d (h (k, d) (by simp))]
    rw [oldAt, ← mfind_field]; rfl
end

/-! ## Escaped texts -/

theorem escape_cases (x : Byte) :
    (escapeByte x = [x] ∧ backByte x = [x] ∧ x ≠ 34 ∧ x ≠ 92) ∨
    ∃ e : Byte, escapeByte x = [92, e] ∧ x.toNat < 0x80 ∧ backByte x = unescape e := by
  by_cases h : escapeByte x = [x]
  · left
    revert h
    exact byte_cases (P := fun x => escapeByte x = [x] → escapeByte x = [x] ∧ backByte x = [x] ∧ x ≠ 34 ∧ x ≠ 92)
      (by decide +kernel) x
  · right
    refine ⟨(escapeByte x).getD 1 0, ?_⟩
    revert h
    exact byte_cases (P := fun x => ¬ escapeByte x = [x] → escapeByte x = [92, (escapeByte x).getD 1 0] ∧ x.toNat < 0x80 ∧
      backByte x = unescape ((escapeByte x).getD 1 0)) (by decide +kernel) x

theorem backByte_high {c : Byte} (h : 0x80 ≤ c.toNat) : backByte c = [c] ∧ escapeByte c = [c] := by
  revert h
  exact byte_cases (P := fun c => 0x80 ≤ c.toNat → backByte c = [c] ∧ escapeByte c = [c]) (by decide +kernel) c

theorem lexStr_escape {s : Bytes} (h : Grouped s) : ∀ (acc r : Bytes),
    lexStr acc ((s.map escapeByte).flatten ++ 34 :: r) = .tok STRING (acc ++ readBack s) r := by
  have key : LBody (readBack s) (s.map escapeByte).flatten := by
    induction h with
    | nil => exact .nil
    | @one c s hc _ ih =>
      rw [readBack, List.flatMap_cons, ← readBack, List.map_cons, List.flatten_cons]
      rcases escape_cases c with ⟨h1, h2, h3, h4⟩ | ⟨e, h1, h2, h3⟩
      · rw [h1, h2]; exact .plain hc h3 h4 ih
      · rw [h1, h3]; exact lbody_escape e ih
    | @two c d s h1 h2 hd _ ih =>
      have := hd.1
      simp only [readBack, List.flatMap_cons, List.map_cons, List.flatten_cons, backByte_high h1, backByte_high hd.1]
      exact .two h1 h2 hd ih
    | @three c d e s h1 h2 hd he _ ih =>
      have h0 : 0x80 ≤ c.toNat := by omega
      simp only [readBack, List.flatMap_cons, List.map_cons, List.flatten_cons, backByte_high h0, backByte_high hd.1,
        backByte_high he.1]
      exact .three h1 h2 hd he ih
    | @four c d e f s h1 hd he hf _ ih =>
      have h0 : 0x80 ≤ c.toNat := by omega
      simp only [readBack, List.flatMap_cons, List.map_cons, List.flatten_cons, backByte_high h0, backByte_high hd.1,
        backByte_high he.1, backByte_high hf.1]
      exact .four h1 hd he hf ih
  intro acc r
  exact lexStr_loose key acc r

theorem escape_above {c : Byte} (h : 0x80 ≤ c.toNat) {x : Byte} {t u : Bytes} (e : escapeByte x ++ t = c :: u) :
    x = c ∧ t = u := by
  rcases escape_cases x with ⟨h1, -, -, -⟩ | ⟨y, h1, -, -⟩
  · rw [h1] at e; simpa using e
  · rw [h1] at e
    simp only [List.cons_append, List.cons.injEq] at e
    rw [← e.1] at h
    exact absurd h (by decide)

/-- A byte that continues a character is the next byte of the text. -/
theorem escape_next {c : Byte} (h : Cont c) {s u : Bytes} (e : (s.map escapeByte).flatten ++ [34] = c :: u) :
    ∃ t, s = c :: t ∧ (t.map escapeByte).flatten ++ [34] = u := by
  cases s with
  | nil =>
    simp only [List.map_nil, List.flatten_nil, List.nil_append, List.cons.injEq] at e
    rw [← e.1] at h
    exact absurd h.1 (by decide)
  | cons x t =>
    rw [List.map_cons, List.flatten_cons, List.append_assoc] at e
    obtain ⟨rfl, h2⟩ := escape_above h.1 e
    exact ⟨t, rfl, h2⟩

theorem grouped_of : ∀ (n : Nat) (s acc : Bytes) {code : Int} {l r : Bytes}, s.length ≤ n →
    lexStr acc ((s.map escapeByte).flatten ++ [34]) = .tok code l r → Grouped s
  | _, [], _, _, _, _, _, _ => .nil
  | 0, c :: s, _, _, _, _, hn, _ => by simp at hn
  | n + 1, c :: s, acc, code, l, r, hn, h => by
    have ih := @grouped_of n
    simp only [List.length_cons] at hn
    rw [List.map_cons, List.flatten_cons, List.append_assoc] at h
    by_cases hc : c.toNat < 0x80
    · refine .one hc ?_
      rcases escape_cases c with ⟨h1, h2, h3, h4⟩ | ⟨e, h1, h2, h3⟩
      · rw [h1, List.singleton_append, lexStr.eq_def] at h
        dsimp only at h
        rw [if_neg h3, if_pos ((unicode1_iff c).2 hc), if_neg h4] at h
        exact ih s _ (by omega) h
      · rw [h1, List.cons_append, List.cons_append, List.nil_append, lexStr.eq_def] at h
        dsimp only at h
        rw [if_neg (by decide), if_pos (by decide), if_pos rfl] at h
        exact ih s _ (by omega) h
    · have h80 : 0x80 ≤ c.toNat := by omega
      rw [(backByte_high h80).2, List.singleton_append] at h
      obtain ⟨-, s', b, -, h1, h2⟩ := lexStr_found _ _ _ (Nat.le_refl _) h
      cases h1 with
      | nil =>
        simp only [List.nil_append, List.cons.injEq] at h2
        rw [h2.1] at h80
        exact absurd h80 (by decide)
      | plain h3 h4 h5 h6 =>
        simp only [List.cons_append, List.cons.injEq] at h2
        rw [h2.1] at hc
        exact absurd h3 hc
      | quote | backslash | newline | ret | tab | back | form | other =>
        simp only [List.cons_append, List.cons.injEq] at h2
        rw [h2.1] at h80
        exact absurd h80 (by decide)
      | @two c' d s' b h3 h4 hd h5 =>
        simp only [List.cons_append, List.cons.injEq] at h2
        obtain ⟨rfl, h2⟩ := h2
        obtain ⟨t, rfl, h6⟩ := escape_next hd h2
        refine .two h3 h4 hd (ih t [] (by simp only [List.length_cons] at hn; omega) (code := STRING) (l := [] ++ s') (r := r) ?_)
        rw [h6, lexStr_loose h5]
      | @three c' d e s' b h3 h4 hd he h5 =>
        simp only [List.cons_append, List.cons.injEq] at h2
        obtain ⟨rfl, h2⟩ := h2
        obtain ⟨t, rfl, h6⟩ := escape_next hd h2
        obtain ⟨t, rfl, h7⟩ := escape_next he h6
        refine .three h3 h4 hd he (ih t [] (by simp only [List.length_cons] at hn; omega) (code := STRING) (l := [] ++ s')
          (r := r) ?_)
        rw [h7, lexStr_loose h5]
      | @four c' d e f s' b h3 hd he hf h5 =>
        simp only [List.cons_append, List.cons.injEq] at h2
        obtain ⟨rfl, h2⟩ := h2
        obtain ⟨t, rfl, h6⟩ := escape_next hd h2
        obtain ⟨t, rfl, h7⟩ := escape_next he h6
        obtain ⟨t, rfl, h8⟩ := escape_next hf h7
        refine .four h3 hd he hf (ih t [] (by simp only [List.length_cons] at hn; omega) (code := STRING) (l := [] ++ s')
          (r := r) ?_)
        rw [h8, lexStr_loose h5]

end Json
end GCV
