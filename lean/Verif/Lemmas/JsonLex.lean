import Verif.Spec.Json

/-! # Lemmas about the JSON lexer -/

namespace GCV
namespace Json

/-- The code and the value `yylex` returns for a token. -/
def Tok.code : Tok → Int
  | .lcurly => LEFT_CURLY | .rcurly => RIGHT_CURLY | .lbrack => LEFT_BRACE | .rbrack => RIGHT_BRACE
  | .comma => COMMA | .colon => COLON | .true => VTRUE | .false => VFALSE | .null => VNULL
  | .string _ => STRING | .int _ => INTEGER | .num _ => FLOAT

def Tok.val : Tok → Bytes
  | .lcurly => [123] | .rcurly => [125] | .lbrack => [91] | .rbrack => [93]
  | .comma => [44] | .colon => [58] | .true => str "true" | .false => str "false" | .null => str "null"
  | .string s => s | .int l => l | .num l => l

/-! ## Bytes -/

theorem byte_cases {P : Byte → Prop} (h : ∀ n : Fin 256, P (BitVec.ofFin n)) (c : Byte) : P c := by
  have := h c.toFin
  simpa using this

theorem unicode1_iff (c : Byte) : unicode1 c = true ↔ c.toNat < 0x80 := by
  revert c; exact byte_cases (by decide +kernel)

theorem ok_of (c : Byte) (h1 : 0x80 ≤ c.toNat) (h2 : c.toNat < 0xC0) : okUnicode c = true := by
  revert c; exact byte_cases (by decide +kernel)

theorem min3_of (c : Byte) (h : c.toNat < 0xE0) : min3 c = false := by
  revert c; exact byte_cases (by decide +kernel)

theorem min3_on (c : Byte) (h1 : 0xE0 ≤ c.toNat) : min3 c = true := by
  revert c; exact byte_cases (by decide +kernel)

theorem min4_of (c : Byte) (h2 : c.toNat < 0xF0) : min4 c = false := by
  revert c; exact byte_cases (by decide +kernel)

theorem min4_on (c : Byte) (h1 : 0xF0 ≤ c.toNat) : min4 c = true := by
  revert c; exact byte_cases (by decide +kernel)

theorem isDigit_iff (c : Byte) : isDigit c = true ↔ 48 ≤ c.toNat ∧ c.toNat ≤ 57 := by
  simp [isDigit]

theorem isSpace_iff (c : Byte) : isSpace c = true ↔ c = 32 ∨ (9 ≤ c.toNat ∧ c.toNat ≤ 13) := by
  simp [isSpace]

/-! ## Strings -/

theorem high_ne {c : Byte} {n : Byte} (h1 : 0x80 ≤ c.toNat) (h2 : n.toNat < 0x80) : c ≠ n := by
  rintro rfl; omega

theorem high_unicode1 {c : Byte} (h : 0x80 ≤ c.toNat) : unicode1 c = false := by
  cases e : unicode1 c with
  | false => rfl
  | true => have := (unicode1_iff c).1 e; omega

theorem lexStr_body {s b : Bytes} (h : Body s b) : ∀ (acc r : Bytes),
    lexStr acc (b ++ 34 :: r) = .tok STRING (acc ++ s) r := by
  induction h with
  | nil => intro acc r; rw [List.nil_append, lexStr.eq_def]; simp
  | @plain c s b hc h1 h2 _ ih =>
    intro acc r
    rw [List.cons_append, lexStr.eq_def]; dsimp only
    rw [if_neg h1, if_pos ((unicode1_iff c).2 hc), if_neg h2, ih]; simp
  | quote _ ih | backslash _ ih | newline _ ih | ret _ ih | tab _ ih | back _ ih | form _ ih =>
    intro acc r
    rw [List.cons_append, List.cons_append, lexStr.eq_def]; dsimp only
    rw [if_neg (by decide), if_pos (by decide), if_pos rfl, ih]
    simp [unescape]
  | @two c d s b c1 c2 d1 d2 _ ih =>
    intro acc r
    rw [List.cons_append, List.cons_append, lexStr.eq_def]; dsimp only
    rw [if_neg (high_ne (by omega) (by decide)), high_unicode1 (by omega)]
    simp only [ok_of d d1 d2, min3_of c c2, Bool.not_true, Bool.false_eq_true, if_false]
    rw [ih]; simp
  | @three c d e s b c1 c2 d1 d2 e1 e2 _ ih =>
    intro acc r
    rw [List.cons_append, List.cons_append, List.cons_append, lexStr.eq_def]; dsimp only
    rw [if_neg (high_ne (by omega) (by decide)), high_unicode1 (by omega)]
    simp only [ok_of d d1 d2, ok_of e e1 e2, min3_on c c1, min4_of c c2, Bool.not_true, Bool.false_eq_true, if_false,
      if_true]
    rw [ih]; simp
  | @four c d e f s b c1 c2 d1 d2 e1 e2 f1 f2 _ ih =>
    intro acc r
    rw [List.cons_append, List.cons_append, List.cons_append, List.cons_append, lexStr.eq_def]; dsimp only
    rw [if_neg (high_ne (by omega) (by decide)), high_unicode1 (by omega)]
    simp only [ok_of d d1 d2, ok_of e e1 e2, ok_of f f1 f2, min3_on c (by omega), min4_on c c1, Bool.not_true,
      Bool.false_eq_true, if_false, if_true]
    rw [ih]; simp

/-! ## Numbers -/

theorem lexNum_digits (st : Nat) (h0 : st ≠ 0) (h3 : st ≠ 3) : ∀ (ds acc r : Bytes),
    (∀ c ∈ ds, 48 ≤ c.toNat ∧ c.toNat ≤ 57) → lexNum st acc (ds ++ r) = lexNum st (acc ++ ds) r
  | [], acc, r, _ => by simp
  | c :: ds, acc, r, h => by
    rw [List.cons_append, lexNum.eq_def]; dsimp only
    rw [if_pos ((isDigit_iff c).2 (h c (by simp))), if_neg h0, if_neg h3,
      lexNum_digits st h0 h3 ds _ r fun d hd => h d (.tail _ hd)]
    simp

/-- State 0 and 3 move on with the first digit. -/
theorem lexNum_first (st st' : Nat) (h : st = 0 ∧ st' = 1 ∨ st = 3 ∧ st' = 4) (ds acc r : Bytes) (hd : Digits ds) :
    lexNum st acc (ds ++ r) = lexNum st' (acc ++ ds) r := by
  obtain ⟨h0, h1⟩ := hd
  cases ds with
  | nil => exact absurd rfl h0
  | cons c ds =>
    have e : (if st = 0 then 1 else if st = 3 then 4 else st) = st' := by
      rcases h with ⟨rfl, rfl⟩ | ⟨rfl, rfl⟩ <;> rfl
    have hs : st' ≠ 0 ∧ st' ≠ 3 := by rcases h with ⟨_, rfl⟩ | ⟨_, rfl⟩ <;> decide
    rw [List.cons_append, lexNum.eq_def]; dsimp only
    rw [if_pos ((isDigit_iff c).2 (h1 c (by simp))), e,
      lexNum_digits st' hs.1 hs.2 ds _ r fun d hd => h1 d (.tail _ hd)]
    simp

/-- Characters that may follow a number. -/
def Follows (c : Byte) : Prop := c = 44 ∨ c = 93 ∨ c = 125 ∨ c = 32 ∨ (9 ≤ c.toNat ∧ c.toNat ≤ 13)

theorem follows_not {c : Byte} (h : Follows c) :
    isDigit c = false ∧ c ≠ 46 ∧ ¬(c = 101 ∨ c = 69) ∧ ¬(c = 43 ∨ c = 45) := by
  revert h
  unfold Follows
  exact byte_cases (P := fun c => (c = 44 ∨ c = 93 ∨ c = 125 ∨ c = 32 ∨ (9 ≤ c.toNat ∧ c.toNat ≤ 13)) →
    isDigit c = false ∧ c ≠ 46 ∧ ¬(c = 101 ∨ c = 69) ∧ ¬(c = 43 ∨ c = 45)) (by decide +kernel) c

theorem lexNum_end (st : Nat) (acc r : Bytes) {c : Byte} (h : Follows c) (hs : st = 1 ∨ st = 2 ∨ st = 4) :
    lexNum st acc (c :: r) = .tok (if st = 1 then INTEGER else FLOAT) acc (c :: r) := by
  obtain ⟨h1, h2, h3, h4⟩ := follows_not h
  rw [lexNum.eq_def]; dsimp only
  rw [if_neg (by rw [h1]; decide), if_neg h2, if_neg h3, if_neg h4]
  rcases hs with rfl | rfl | rfl <;> rfl

theorem digit_scan {c : Byte} (r : Bytes) (h : 48 ≤ c.toNat ∧ c.toNat ≤ 57) : scan c r = lexNum 1 [c] r := by
  unfold scan
  have hn : ∀ n : Byte, n.toNat < 48 ∨ 57 < n.toNat → c ≠ n := by rintro n hn rfl; omega
  rw [if_neg (hn _ (by decide)), if_neg (hn _ (by decide)), if_neg (hn _ (by decide)), if_neg (hn _ (by decide)),
    if_neg (hn _ (by decide)), if_neg (hn _ (by decide)), if_neg (hn _ (by decide)), if_neg (hn _ (by decide)),
    if_neg (hn _ (by decide)), if_neg (hn _ (by decide)),
    if_neg (fun e => e.elim (hn _ (by decide)) (hn _ (by decide))), if_pos ((isDigit_iff c).2 h)]

/-- Behind the integer part. -/
theorem scan_number {a b x r : Bytes} (ha : Sign a) (hb : Digits b) :
    ∃ c t, a ++ b ++ x ++ r = c :: t ∧ unicode1 c = true ∧ isSpace c = false ∧
      scan c t = lexNum 1 (a ++ b) (x ++ r) := by
  obtain ⟨h0, h1⟩ := hb
  cases b with
  | nil => exact absurd rfl h0
  | cons c b =>
    have hc := h1 c (by simp)
    have hb' : ∀ d ∈ b, 48 ≤ d.toNat ∧ d.toNat ≤ 57 := fun d hd => h1 d (.tail _ hd)
    rcases ha with rfl | rfl | rfl
    · refine ⟨c, b ++ x ++ r, by simp, (unicode1_iff c).2 (by omega), ?_, ?_⟩
      · cases e : isSpace c with
        | false => rfl
        | true =>
          rcases (isSpace_iff c).1 e with rfl | h
          · exact absurd hc.1 (by decide)
          · omega
      · rw [digit_scan _ hc, List.append_assoc, lexNum_digits 1 (by decide) (by decide) b _ _ hb']; simp
    · refine ⟨43, c :: b ++ x ++ r, by simp, by decide, by decide, ?_⟩
      have : scan 43 (c :: b ++ x ++ r) = lexNum 0 [43] (c :: b ++ x ++ r) := rfl
      rw [this, List.append_assoc, lexNum_first 0 1 (.inl ⟨rfl, rfl⟩) (c :: b) _ _ ⟨h0, h1⟩]
    · refine ⟨45, c :: b ++ x ++ r, by simp, by decide, by decide, ?_⟩
      have : scan 45 (c :: b ++ x ++ r) = lexNum 0 [45] (c :: b ++ x ++ r) := rfl
      rw [this, List.append_assoc, lexNum_first 0 1 (.inl ⟨rfl, rfl⟩) (c :: b) _ _ ⟨h0, h1⟩]

theorem lex_int {l r : Bytes} {c : Byte} (hl : IntLit l) (hc : Follows c) :
    ∃ x t, l ++ c :: r = x :: t ∧ unicode1 x = true ∧ isSpace x = false ∧ scan x t = .tok INTEGER l (c :: r) := by
  obtain ⟨a, b, rfl, ha, hb⟩ := hl
  obtain ⟨x, t, e, h1, h2, h3⟩ := scan_number (x := []) (r := c :: r) ha hb
  rw [List.append_nil] at e
  refine ⟨x, t, e, h1, h2, ?_⟩
  rw [h3, List.nil_append, lexNum_end 1 _ r hc (.inl rfl)]; rfl

theorem lex_float {l r : Bytes} {c : Byte} (hl : FloatLit l) (hc : Follows c) :
    ∃ x t, l ++ c :: r = x :: t ∧ unicode1 x = true ∧ isSpace x = false ∧ scan x t = .tok FLOAT l (c :: r) := by
  obtain ⟨a, b, f, e, rfl, ha, hb, hf, he, hne⟩ := hl
  obtain ⟨x, t, eq, h1, h2, h3⟩ := scan_number (x := f ++ e) (r := c :: r) ha hb
  refine ⟨x, t, by rw [← eq]; simp, h1, h2, ?_⟩
  rw [h3]
  -- the exponent part, from a state where it is allowed
  have hexp : ∀ (st : Nat) (acc : Bytes), st = 1 ∧ e ≠ [] ∨ st = 2 →
      lexNum st acc (e ++ c :: r) = .tok FLOAT (acc ++ e) (c :: r) := by
    intro st acc hst
    rcases he with rfl | ⟨x, y, d, rfl, hx, hy, hd⟩
    · rcases hst with ⟨_, h⟩ | rfl
      · exact absurd rfl h
      · rw [List.nil_append, lexNum_end 2 acc r hc (.inr (.inl rfl))]; simp
    · have hxd : isDigit x = false ∧ x ≠ 46 := by rcases hx with rfl | rfl <;> decide
      have hstep : lexNum st acc (x :: y ++ d ++ c :: r) = lexNum 3 (acc ++ [x]) (y ++ (d ++ c :: r)) := by
        rw [List.cons_append, List.cons_append, List.append_assoc, lexNum.eq_def]; dsimp only
        rw [if_neg (by rw [hxd.1]; decide), if_neg hxd.2, if_pos hx, if_neg]
        rcases hst with ⟨rfl, _⟩ | rfl <;> decide
      rw [hstep]
      rcases hy with rfl | rfl | rfl
      · rw [List.nil_append, lexNum_first 3 4 (.inr ⟨rfl, rfl⟩) d _ _ hd,
          lexNum_end 4 _ r hc (.inr (.inr rfl))]; simp
      · have : lexNum 3 (acc ++ [x]) ([43] ++ (d ++ c :: r)) = lexNum 4 (acc ++ [x] ++ [43]) (d ++ c :: r) := rfl
        rw [this, lexNum_digits 4 (by decide) (by decide) d _ _ hd.2, lexNum_end 4 _ r hc (.inr (.inr rfl))]; simp
      · have : lexNum 3 (acc ++ [x]) ([45] ++ (d ++ c :: r)) = lexNum 4 (acc ++ [x] ++ [45]) (d ++ c :: r) := rfl
        rw [this, lexNum_digits 4 (by decide) (by decide) d _ _ hd.2, lexNum_end 4 _ r hc (.inr (.inr rfl))]; simp
  rcases hf with rfl | ⟨d, rfl, hd⟩
  · rw [List.nil_append, hexp 1 _ (.inl ⟨rfl, by simpa using hne⟩)]; simp
  · have : lexNum 1 (a ++ b) (46 :: d ++ e ++ c :: r) = lexNum 2 (a ++ b ++ [46]) (d ++ (e ++ c :: r)) := by
      rw [List.cons_append, List.cons_append, List.append_assoc, lexNum.eq_def]; rfl
    rw [this, lexNum_digits 2 (by decide) (by decide) d _ _ hd.2, hexp 2 _ (.inr rfl)]; simp

/-! ## A token -/

theorem dropWhile_blank : ∀ (b : Bytes) {c : Byte} {t : Bytes}, (∀ x ∈ b, x = 32 ∨ (9 ≤ x.toNat ∧ x.toNat ≤ 13)) →
    isSpace c = false → (b ++ c :: t).dropWhile isSpace = c :: t
  | [], c, t, _, h => by simp [h]
  | x :: b, c, t, hb, h => by
    rw [List.cons_append, List.dropWhile_cons, if_pos ((isSpace_iff x).2 (hb x (by simp))),
      dropWhile_blank b (fun y hy => hb y (.tail _ hy)) h]

/-- A written token, with blanks in front, is what `yylex` finds. -/
theorem yylex_written {t : Tok} {b w r : Bytes} (hb : ∀ x ∈ b, x = 32 ∨ (9 ≤ x.toNat ∧ x.toNat ≤ 13))
    (h : Written t w r) : yylex (b ++ w ++ r) = .ok (t.code, t.val, r) := by
  have key : ∃ c u, w ++ r = c :: u ∧ unicode1 c = true ∧ isSpace c = false ∧ scan c u = .tok t.code t.val r := by
    cases h with
    | lcurly | rcurly | lbrack | rbrack | comma | colon =>
      exact ⟨_, _, rfl, by decide, by decide, rfl⟩
    | true | false | null => exact ⟨_, _, rfl, by decide, by decide, rfl⟩
    | @string s b r hbody =>
      refine ⟨34, b ++ 34 :: r, by simp, by decide, by decide, ?_⟩
      have : scan 34 (b ++ 34 :: r) = lexStr [] (b ++ 34 :: r) := rfl
      rw [this, lexStr_body hbody]; rfl
    | int hl hc => exact lex_int hl hc
    | num hl hc => exact lex_float hl hc
  obtain ⟨c, u, e, h1, h2, h3⟩ := key
  rw [List.append_assoc, e]
  unfold yylex
  cases hx : b ++ c :: u with
  | nil => simp at hx
  | cons x xs =>
    dsimp only
    rw [← hx, dropWhile_blank b hb h2]
    dsimp only
    rw [h1, h3]; rfl

/-! ## C32 -/

theorem lexStr_rest : ∀ (n : Nat) (acc inp : Bytes) {code : Int} {l r : Bytes}, inp.length ≤ n →
    lexStr acc inp = .tok code l r → code = STRING ∧ ∃ x, inp = x ++ 34 :: r
  | n, acc, [], code, l, r, _, h => by rw [lexStr.eq_def] at h; cases h
  | 0, acc, c :: t, code, l, r, hn, _ => by simp at hn
  | n + 1, acc, c :: t, code, l, r, hn, h => by
    have ih := @lexStr_rest n
    simp only [List.length_cons] at hn
    rw [lexStr.eq_def] at h; dsimp only at h
    split at h
    · next hc =>
      cases h; subst hc
      exact ⟨rfl, [], rfl⟩
    · split at h
      · split at h
        · split at h
          · cases h
          · next d t =>
            obtain ⟨h1, x, h2⟩ := ih _ _ (by simp only [List.length_cons] at hn; omega) h
            exact ⟨h1, c :: d :: x, by rw [h2]; rfl⟩
        · obtain ⟨h1, x, h2⟩ := ih _ _ (by omega) h
          exact ⟨h1, c :: x, by rw [h2]; rfl⟩
      · split at h
        · cases h
        · next d t =>
          simp only [List.length_cons] at hn
          split at h
          · cases h
          · split at h
            · split at h
              · cases h
              · next e t =>
                simp only [List.length_cons] at hn
                split at h
                · cases h
                · split at h
                  · split at h
                    · cases h
                    · next f t =>
                      simp only [List.length_cons] at hn
                      split at h
                      · cases h
                      · obtain ⟨h1, x, h2⟩ := ih _ _ (by omega) h
                        exact ⟨h1, c :: d :: e :: f :: x, by rw [h2]; rfl⟩
                  · obtain ⟨h1, x, h2⟩ := ih _ _ (by omega) h
                    exact ⟨h1, c :: d :: e :: x, by rw [h2]; rfl⟩
            · obtain ⟨h1, x, h2⟩ := ih _ _ (by omega) h
              exact ⟨h1, c :: d :: x, by rw [h2]; rfl⟩

theorem lexNum_rest : ∀ (st : Nat) (acc inp : Bytes) {code : Int} {l r : Bytes},
    lexNum st acc inp = .tok code l r → (code = INTEGER ∨ code = FLOAT) ∧ l ++ r = acc ++ inp ∧
      ∃ x, l = acc ++ x
  | st, acc, [], code, l, r, h => by rw [lexNum.eq_def] at h; cases h
  | st, acc, c :: t, code, l, r, h => by
    rw [lexNum.eq_def] at h; dsimp only at h
    have step : ∀ st', lexNum st' (acc ++ [c]) t = .tok code l r →
        (code = INTEGER ∨ code = FLOAT) ∧ l ++ r = acc ++ c :: t ∧ ∃ x, l = acc ++ x := by
      intro st' h
      obtain ⟨h1, h2, x, h3⟩ := lexNum_rest st' _ _ h
      exact ⟨h1, by rw [h2]; simp, c :: x, by rw [h3]; simp⟩
    split at h
    · exact step _ h
    · split at h
      · split at h
        · cases h
        · exact step _ h
      · split at h
        · split at h
          · cases h
          · exact step _ h
        · split at h
          · split at h
            · cases h
            · exact step _ h
          · split at h
            · cases h; exact ⟨.inl rfl, rfl, [], by simp⟩
            · split at h
              · cases h; exact ⟨.inr rfl, rfl, [], by simp⟩
              · cases h

theorem lexWord_rest {w inp : Bytes} {code c : Int} {l r : Bytes} (h : lexWord w code inp = .tok c l r) :
    c = code ∧ l = w ∧ inp = w ++ r := by
  unfold lexWord at h
  split at h
  · next hw =>
    cases h
    refine ⟨rfl, rfl, ?_⟩
    have := List.take_append_drop w.length inp
    rw [hw] at this; exact this.symm
  · cases h

/-- A scanned token is one of the twelve, and was read from at least one byte. -/
theorem scan_rest {c : Byte} {t : Bytes} {code : Int} {l r : Bytes} (h : scan c t = .tok code l r) :
    258 ≤ code ∧ code ≤ 269 ∧ ∃ x, x ≠ [] ∧ c :: t = x ++ r := by
  unfold scan at h
  have one : ∀ {code'}, 258 ≤ code' → code' ≤ 269 → Scan.tok code' [c] t = .tok code l r →
      258 ≤ code ∧ code ≤ 269 ∧ ∃ x, x ≠ [] ∧ c :: t = x ++ r := by
    intro code' h1 h2 h; cases h; exact ⟨h1, h2, [c], by simp⟩
  have word : ∀ {w code'}, w ≠ [] → 258 ≤ code' → code' ≤ 269 → lexWord w code' (c :: t) = .tok code l r →
      258 ≤ code ∧ code ≤ 269 ∧ ∃ x, x ≠ [] ∧ c :: t = x ++ r := by
    intro w code' hw h1 h2 h
    obtain ⟨rfl, _, h⟩ := lexWord_rest h
    exact ⟨h1, h2, _, hw, h⟩
  have num : ∀ st, lexNum st [c] t = .tok code l r → 258 ≤ code ∧ code ≤ 269 ∧ ∃ x, x ≠ [] ∧ c :: t = x ++ r := by
    intro st h
    obtain ⟨h1, h2, x, h3⟩ := lexNum_rest _ _ _ h
    have hc : 258 ≤ code ∧ code ≤ 269 := by rcases h1 with rfl | rfl <;> decide
    exact ⟨hc.1, hc.2, l, by rw [h3]; simp, by rw [h2]; rfl⟩
  by_cases hc : c = 123
  · rw [if_pos hc] at h; exact one (by decide) (by decide) h
  rw [if_neg hc] at h; clear hc
  by_cases hc : c = 125
  · rw [if_pos hc] at h; exact one (by decide) (by decide) h
  rw [if_neg hc] at h; clear hc
  by_cases hc : c = 91
  · rw [if_pos hc] at h; exact one (by decide) (by decide) h
  rw [if_neg hc] at h; clear hc
  by_cases hc : c = 93
  · rw [if_pos hc] at h; exact one (by decide) (by decide) h
  rw [if_neg hc] at h; clear hc
  by_cases hc : c = 44
  · rw [if_pos hc] at h; exact one (by decide) (by decide) h
  rw [if_neg hc] at h; clear hc
  by_cases hc : c = 58
  · rw [if_pos hc] at h; exact one (by decide) (by decide) h
  rw [if_neg hc] at h; clear hc
  by_cases hc : c = 116
  · rw [if_pos hc] at h; exact word (by decide) (by decide) (by decide) h
  rw [if_neg hc] at h; clear hc
  by_cases hc : c = 102
  · rw [if_pos hc] at h; exact word (by decide) (by decide) (by decide) h
  rw [if_neg hc] at h; clear hc
  by_cases hc : c = 110
  · rw [if_pos hc] at h; exact word (by decide) (by decide) (by decide) h
  rw [if_neg hc] at h; clear hc
  by_cases hc : c = 34
  · rw [if_pos hc] at h
    obtain ⟨rfl, x, h⟩ := lexStr_rest _ _ _ (Nat.le_refl _) h
    exact ⟨by decide, by decide, c :: x ++ [34], by simp, by rw [h]; simp⟩
  rw [if_neg hc] at h; clear hc
  by_cases hc : c = 43 ∨ c = 45
  · rw [if_pos hc] at h; exact num _ h
  rw [if_neg hc] at h; clear hc
  by_cases hc : isDigit c = true
  · rw [if_pos hc] at h; exact num _ h
  rw [if_neg hc] at h; cases h

theorem dropWhile_split : ∀ (inp : Bytes), ∃ b, (∀ x ∈ b, isSpace x = true) ∧ inp = b ++ inp.dropWhile isSpace
  | [] => ⟨[], by simp, rfl⟩
  | c :: t => by
    obtain ⟨b, h1, h2⟩ := dropWhile_split t
    rw [List.dropWhile_cons]
    split
    · next hc => exact ⟨c :: b, by simpa [hc] using h1, by rw [List.cons_append, ← h2]⟩
    · exact ⟨[], by simp, rfl⟩

/-- What a call of `yylex` does, by cases. -/
theorem yylex_cases (inp : Bytes) :
    (yylex inp = .ub ∧ inp ≠ [] ∧ ∀ c ∈ inp, isSpace c = true) ∨
    (∃ code v r, yylex inp = .ok (code, v, r) ∧ code ≤ 0) ∨
    (∃ v r, yylex inp = .ok (ERROR, v, r)) ∨
    (∃ code v r, yylex inp = .ok (code, v, r) ∧ 258 ≤ code ∧ code ≤ 269 ∧ ∃ x, x ≠ [] ∧ inp = x ++ r) := by
  cases inp with
  | nil => exact .inr (.inl ⟨0, [], [], rfl, by decide⟩)
  | cons a t =>
    obtain ⟨b, hb, e⟩ := dropWhile_split (a :: t)
    cases hd : (a :: t).dropWhile isSpace with
    | nil =>
      left
      refine ⟨by simp only [yylex, hd], by simp, ?_⟩
      rw [e, hd, List.append_nil]; exact hb
    | cons c r =>
      right
      rw [hd] at e
      cases hu : unicode1 c with
      | false => exact .inr (.inl ⟨[], c :: r, by simp [yylex, hd, hu]⟩)
      | true =>
        cases hs : scan c r with
        | zero => exact .inl ⟨0, [], [], by simp [yylex, hd, hu, hs], by decide⟩
        | fail => exact .inl ⟨-1, [], c :: r, by simp [yylex, hd, hu, hs], by decide⟩
        | tok code l rest =>
          obtain ⟨h1, h2, x, h3, h4⟩ := scan_rest hs
          exact .inr (.inr ⟨code, l, rest, by simp [yylex, hd, hu, hs], h1, h2, b ++ x, by simp [h3],
            by rw [e, h4]; simp⟩)

end Json
end GCV
