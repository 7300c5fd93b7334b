import Verif.Lemmas.JsonLex

/-! # Lemmas about the JSON parser -/

set_option linter.unusedSimpArgs false

namespace GCV
namespace Json

mutual
/-- The actions for a document. -/
def docActs : Doc → List Act
  | .null => [.setNull]
  | .bool b => [if b then .setTrue else .setFalse]
  | .string s => [.setString s]
  | .int l => [.setInteger l]
  | .num l => [.setFloat l]
  | .arr ds => .openVector :: (docsActs ds ++ [.closeVector])
  | .obj ms => .openMap :: (membersActs ms ++ [.closeMap])
def docsActs : List Doc → List Act
  | [] => []
  | d :: ds => docActs d ++ docsActs ds
def membersActs : List (Bytes × Doc) → List Act
  | [] => []
  | (k, d) :: ms => .setKey k :: (docActs d ++ [.pop]) ++ membersActs ms
end

/-! ## Termination -/

theorem yylex_le {inp : Bytes} {code : Int} {v r : Bytes} (h : yylex inp = .ok (code, v, r)) :
    r.length ≤ inp.length := by
  unfold yylex at h
  split at h
  · cases h; simp
  · obtain ⟨b, _, e⟩ := dropWhile_split inp
    have hl := congrArg List.length e
    rw [List.length_append] at hl
    split at h
    · cases h
    · next c t hd =>
      rw [hd] at hl
      split at h
      · cases h; omega
      · split at h
        · next hs =>
          cases h
          obtain ⟨_, _, x, _, h4⟩ := scan_rest hs
          have := congrArg List.length h4
          rw [List.length_append] at this; omega
        · cases h; simp
        · cases h; omega

/-- Number of reductions that may follow a state before the next shift. -/
def rank (s : Nat) : Nat :=
  ([2, 2, 2, 4, 4, 4, 4, 4, 4, 1, 2, 4, 4, 1, 1, 0, 1, 0, 1, 2, 2, 0, 1, 0, 5, 0, 5, 0, 0, 2, 2, 3] : List Nat).getD s 0

theorem lookup_cases {i : Int} {want s : Nat} (h : lookup i want = some s) :
    ∃ j : Fin 19, i = (j.val : Int) ∧ yycheck.getD j.val 0 = want ∧ yytable.getD j.val 0 = s := by
  unfold lookup at h
  split at h
  · cases h
  · next hi =>
    split at h
    · next hw =>
      cases h
      refine ⟨⟨i.toNat, by omega⟩, by simp; omega, hw, rfl⟩
    · cases h

/-- Whatever state is uncovered, `goto` leads to a state of lower rank than the one that reduces. -/
theorem rank_goto : ∀ t : Fin 32, t.val ≠ 15 → yydefact.getD t.val 0 ≠ 0 → ∀ s : Nat,
    (yyr2.getD (yydefact.getD t.val 0) 0 = 0 → s = t.val) →
    rank (gotoState s (yyr1.getD (yydefact.getD t.val 0) 0)) < rank t.val := by
  have hbig : ∀ t : Fin 32, t.val ≠ 15 → yydefact.getD t.val 0 ≠ 0 → yyr2.getD (yydefact.getD t.val 0) 0 ≠ 0 →
      rank (yydefgoto.getD (yyr1.getD (yydefact.getD t.val 0) 0 - 16) 0) < rank t.val ∧
      ∀ s : Fin 32, rank (gotoState s.val (yyr1.getD (yydefact.getD t.val 0) 0)) < rank t.val := by
    decide +kernel
  have hzero : ∀ t : Fin 32, t.val ≠ 15 → yydefact.getD t.val 0 ≠ 0 → yyr2.getD (yydefact.getD t.val 0) 0 = 0 →
      rank (gotoState t.val (yyr1.getD (yydefact.getD t.val 0) 0)) < rank t.val := by
    decide +kernel
  intro t h15 h0 s hs
  by_cases hl : yyr2.getD (yydefact.getD t.val 0) 0 = 0
  · rw [hs hl]; exact hzero t h15 h0 hl
  · by_cases h32 : s < 32
    · exact (hbig t h15 h0 hl).2 ⟨s, h32⟩
    · have : gotoState s (yyr1.getD (yydefact.getD t.val 0) 0) =
          yydefgoto.getD (yyr1.getD (yydefact.getD t.val 0) 0 - 16) 0 := by
        unfold gotoState
        cases hk : lookup (yypgoto.getD (yyr1.getD (yydefact.getD t.val 0) 0 - 16) 0 + s) s with
        | none => rfl
        | some x =>
          obtain ⟨j, _, hj, _⟩ := lookup_cases hk
          have : ∀ j : Fin 19, yycheck.getD j.val 0 < 32 := by decide
          have := this j; omega
      rw [this]; exact (hbig t h15 h0 hl).1

/-- State on top of the stack. -/
def Cfg.top (c : Cfg) : Nat := (c.stack.headD (0, [])).1

/-- What is left to do. -/
def Cfg.work (c : Cfg) : Nat := rank c.top + 20 * c.input.length

theorem rank_le (s : Nat) : rank s ≤ 7 := by
  by_cases h : s < 32
  · have : ∀ s : Fin 32, rank s.val ≤ 7 := by decide
    exact this ⟨s, h⟩
  · unfold rank
    rw [List.getD_eq_getElem?_getD, List.getElem?_eq_none (by simp; omega)]; decide

theorem default_work {s : Nat} {v : Bytes} {st : List (Nat × Bytes)} {inp : Bytes} {a : List Act} {c' : Cfg}
    (h15 : s ≠ 15) (h : default s ⟨(s, v) :: st, inp⟩ = .go a c') : c'.work < (Cfg.mk ((s, v) :: st) inp).work := by
  unfold default at h
  dsimp only at h
  split at h
  · cases h
  · next h0 =>
    have hs : s < 32 := by
      apply Classical.byContradiction; intro hn
      exact h0 (by rw [List.getD_eq_getElem?_getD, List.getElem?_eq_none (by simp [yydefact]; omega)]; rfl)
    have key := rank_goto ⟨s, hs⟩ h15 h0
    unfold reduce at h
    dsimp only at h
    split at h
    · next x v1 st1 y w st2 h1 h2 =>
      cases h
      simp only [Cfg.work, Cfg.top, List.headD_cons]
      have := key y (fun hl => ?_)
      · dsimp only at this; omega
      · rw [show yyr2.getD (yydefact.getD s 0) 0 = 0 from hl] at h2
        simp at h2; exact h2.1.1.symm
    · cases h

/-- Only state 9 shifts the end of the text. -/
theorem shift_eof {s s' : Nat} (h : lookup (yypact.getD s 0) 0 = some s') : s = 9 ∧ s' = 15 := by
  by_cases hs : s < 32
  · have : ∀ s : Fin 32, ∀ s', lookup (yypact.getD s.val 0) 0 = some s' → s.val = 9 ∧ s' = 15 := by
      intro s s' h
      have h9 : ∀ s : Fin 32, lookup (yypact.getD s.val 0) 0 = if s.val = 9 then some 15 else none := by decide
      rw [h9] at h
      split at h
      · next e => cases h; exact ⟨e, rfl⟩
      · cases h
    exact this ⟨s, hs⟩ s' h
  · rw [List.getD_eq_getElem?_getD, List.getElem?_eq_none (by simp [yypact]; omega)] at h
    cases h

/-- The kind of the error token is never shifted. -/
theorem shift_error (i : Int) : lookup i 15 = none := by
  cases h : lookup i 15 with
  | none => rfl
  | some s =>
    obtain ⟨j, _, h1, _⟩ := lookup_cases h
    have : ∀ j : Fin 19, yycheck.getD j.val 0 ≠ 15 := by decide
    exact absurd h1 (this j)

theorem turn_work {c c' : Cfg} {a : List Act} (h : turn c = .go a c') : c'.work < c.work := by
  obtain ⟨st, inp⟩ := c
  unfold turn at h
  cases st with
  | nil => cases h
  | cons x st =>
    obtain ⟨s, v⟩ := x
    dsimp only at h
    split at h
    · cases h
    · next h15 =>
      split at h
      · exact default_work h15 h
      · split at h
        · next code val rest hy =>
          split at h
          · cases h
          · split at h
            · exact default_work h15 h
            · next s' hl =>
              cases h
              rcases yylex_cases inp with ⟨h1, _⟩ | ⟨c1, v1, r1, h1, h2⟩ | ⟨v1, r1, h1⟩ | ⟨c1, v1, r1, h1, h2, h3, y, h4, h5⟩
              · rw [h1] at hy; cases hy
              · rw [h1] at hy; cases hy
                have hk : translate code = 0 := by simp [translate, h2]
                rw [hk] at hl
                obtain ⟨rfl, rfl⟩ := shift_eof (by simpa using hl)
                have hr : rest.length ≤ inp.length := yylex_le h1
                have h15 : rank 15 = 0 := rfl
                have h9 : rank 9 = 1 := rfl
                simp only [Cfg.work, Cfg.top, List.headD_cons]
                omega
              · rw [h1] at hy; cases hy
                have hk : translate ERROR = 15 := rfl
                rw [hk, shift_error] at hl; cases hl
              · rw [h1] at hy; cases hy
                have hr : rest.length < inp.length := by
                  rw [h5, List.length_append]
                  have := List.length_pos_iff.2 h4
                  omega
                have := rank_le s'
                simp only [Cfg.work, Cfg.top, List.headD_cons]
                omega
        · cases h

/-- Enough fuel. -/
theorem run_returns : ∀ (n : Nat) (acts : List Act) (c : Cfg), c.work < n → run n acts c ≠ .diverge
  | 0, _, _, h => by omega
  | n + 1, acts, c, h => by
    rw [run]
    cases ht : turn c with
    | go a c' => exact run_returns n _ c' (by have := turn_work ht; omega)
    | _ => simp

theorem parse_returns (inp : Bytes) : parse inp ≠ .diverge := by
  apply run_returns
  have : rank 0 = 2 := rfl
  simp only [Cfg.work, Cfg.top, List.headD_cons]; omega

/-- More fuel changes nothing. -/
theorem run_more : ∀ (n : Nat) {acts : List Act} {c : Cfg}, run n acts c ≠ .diverge → ∀ k,
    run (n + k) acts c = run n acts c
  | 0, acts, c, h, k => by simp [run] at h
  | n + 1, acts, c, h, k => by
    rw [show n + 1 + k = n + k + 1 by omega, run, run]
    rw [run] at h
    cases ht : turn c with
    | go a c' => rw [ht] at h; exact run_more n h k
    | _ => rfl

/-! ## Reaching a configuration -/

/-- From `c` the parser arrives at `c'` with the actions `a`. -/
def Goes (a : List Act) (c c' : Cfg) : Prop := ∃ n, ∀ k acc, run (n + k) acc c = run k (acc ++ a) c'

theorem Goes.refl (c : Cfg) : Goes [] c c := ⟨0, fun k acc => by simp⟩

theorem Goes.trans {a b : List Act} {c c' c'' : Cfg} (h1 : Goes a c c') (h2 : Goes b c' c'') :
    Goes (a ++ b) c c'' := by
  obtain ⟨n, h1⟩ := h1
  obtain ⟨m, h2⟩ := h2
  exact ⟨n + m, fun k acc => by rw [Nat.add_assoc, h1, h2, List.append_assoc]⟩

theorem Goes.step {a : List Act} {c c' : Cfg} (h : turn c = .go a c') : Goes a c c' :=
  ⟨1, fun k acc => by rw [Nat.add_comm, run, h]⟩

/-- One turn, then more. -/
theorem Goes.cons {a b : List Act} {c c' c'' : Cfg} (h1 : turn c = .go a c') (h2 : Goes b c' c'') :
    Goes (a ++ b) c c'' := (Goes.step h1).trans h2

/-- From `c` the parser ends with `r`, after the actions `a`. -/
def Ends (r : List Act → Run) (a : List Act) (c : Cfg) : Prop := ∃ n, ∀ k acc, run (n + 1 + k) acc c = r (acc ++ a)

theorem Goes.ends {r : List Act → Run} {a b : List Act} {c c' : Cfg} (h1 : Goes a c c') (h2 : Ends r b c') :
    Ends r (a ++ b) c := by
  obtain ⟨n, h1⟩ := h1
  obtain ⟨m, h2⟩ := h2
  exact ⟨n + m, fun k acc => by rw [show n + m + 1 + k = n + (m + 1 + k) by omega, h1, h2, List.append_assoc]⟩

theorem Ends.accept {c : Cfg} (h : turn c = .accept) : Ends .accept [] c :=
  ⟨0, fun k acc => by rw [show 0 + 1 + k = k + 1 by omega, run, h]; simp⟩

theorem Ends.error {c : Cfg} (h : turn c = .error) : Ends .error [] c :=
  ⟨0, fun k acc => by rw [show 0 + 1 + k = k + 1 by omega, run, h]; simp⟩

theorem Ends.ub {c : Cfg} (h : turn c = .ub) : Ends (fun _ => .ub) [] c :=
  ⟨0, fun k acc => by rw [show 0 + 1 + k = k + 1 by omega, run, h]⟩

/-- How `parse` ends. -/
theorem parse_of_ends {r : List Act → Run} {a : List Act} {inp : Bytes} (h : Ends r a ⟨[(0, [])], inp⟩) :
    parse inp = r a := by
  obtain ⟨n, h⟩ := h
  have h1 := run_more _ (parse_returns inp) (n + 1)
  rw [show parse inp = run (20 * inp.length + 20) [] ⟨[(0, [])], inp⟩ from rfl, ← h1, Nat.add_comm]
  have := h (20 * inp.length + 20) []
  simpa using this

/-! ## Tokens -/

/-- What `yylex` gives for a token; the text matters for strings and numbers only. -/
def Tok.Is : Tok → Bytes → Prop
  | .string s, v => v = s
  | .int l, v => v = l
  | .num l, v => v = l
  | _, _ => True

/-- One call of `yylex` gives the token. -/
def Reads (inp : Bytes) (t : Tok) (rest : Bytes) : Prop :=
  ∃ v, yylex inp = .ok (t.code, v, rest) ∧ t.Is v

/-- Successive calls of `yylex` give the tokens. -/
inductive Lexes : Bytes → List Tok → Bytes → Prop
  | nil {inp : Bytes} : Lexes inp [] inp
  | cons {inp mid rest : Bytes} {t : Tok} {ts : List Tok} : Reads inp t mid → Lexes mid ts rest →
      Lexes inp (t :: ts) rest

theorem Lexes.append {a b c : Bytes} {ts us : List Tok} (h : Lexes a ts b) : Lexes b us c → Lexes a (ts ++ us) c := by
  induction h with
  | nil => exact id
  | cons h1 _ ih => exact fun h => .cons h1 (ih h)

theorem Lexes.split {ts us : List Tok} : ∀ {a c : Bytes}, Lexes a (ts ++ us) c → ∃ b, Lexes a ts b ∧ Lexes b us c := by
  induction ts with
  | nil => exact fun h => ⟨_, .nil, h⟩
  | cons t ts ih =>
    intro a c h
    cases h with
    | cons h1 h2 =>
      obtain ⟨b, h3, h4⟩ := ih h2
      exact ⟨b, .cons h1 h3, h4⟩

/-- States in which a value is expected. -/
def Start (s : Nat) : Prop := s = 0 ∨ s = 14 ∨ s = 27 ∨ s = 28

/-- State reached with that value. -/
def vState (s : Nat) : Nat := gotoState s 18

/-- Shift of a token. -/
theorem turn_shift {s : Nat} {v w : Bytes} {st : List (Nat × Bytes)} {inp rest : Bytes} {code : Int}
    (s' : Nat) (hy : yylex inp = .ok (code, w, rest)) (h15 : s ≠ 15) (hp : yypact.getD s 0 ≠ -15)
    (hk : translate code ≠ 1) (hl : lookup (yypact.getD s 0 + translate code) (translate code) = some s') :
    turn ⟨(s, v) :: st, inp⟩ = .go [] ⟨(s', w) :: (s, v) :: st, rest⟩ := by
  simp only [turn, if_neg h15, if_neg hp, hy, if_neg hk, hl]

/-- Default reduction after a look at the next token. -/
theorem turn_look {s : Nat} {v w : Bytes} {st : List (Nat × Bytes)} {inp rest : Bytes} {code : Int}
    (hy : yylex inp = .ok (code, w, rest)) (h15 : s ≠ 15) (hp : yypact.getD s 0 ≠ -15)
    (hk : translate code ≠ 1) (hl : lookup (yypact.getD s 0 + translate code) (translate code) = none) :
    turn ⟨(s, v) :: st, inp⟩ = default s ⟨(s, v) :: st, inp⟩ := by
  simp only [turn, if_neg h15, if_neg hp, hy, if_neg hk, hl]

section turns
variable {s : Nat} {v v0 v1 v2 v3 : Bytes} {st : List (Nat × Bytes)} {inp rest : Bytes}

theorem start_pact (hs : Start s) : s ≠ 15 ∧ yypact.getD s 0 = -2 := by
  rcases hs with rfl | rfl | rfl | rfl <;> decide

/-- A value starts with this token, in this state. -/
theorem shift_value (s' : Nat) {t : Tok} (hs : Start s) (h : Reads inp t rest)
    (hk : translate t.code ≠ 1) (hl : lookup (-2 + translate t.code) (translate t.code) = some s') :
    ∃ w, t.Is w ∧ ∀ v st, turn ⟨(s, v) :: st, inp⟩ = .go [] ⟨(s', w) :: (s, v) :: st, rest⟩ := by
  obtain ⟨w, hy, hw⟩ := h
  obtain ⟨h15, hp⟩ := start_pact hs
  exact ⟨w, hw, fun v st => turn_shift s' hy h15 (by rw [hp]; decide) hk (by rw [hp]; exact hl)⟩

/-- A scalar, when its token has been shifted. -/
theorem reduce_scalar (hs : Start s) (q : Nat) (hq : q = 3 ∨ q = 4 ∨ q = 5 ∨ q = 6 ∨ q = 7 ∨ q = 8) :
    turn ⟨(q, v) :: (s, v0) :: st, inp⟩ =
      .go (ruleAct (yydefact.getD q 0) v) ⟨(vState s, v) :: (s, v0) :: st, inp⟩ := by
  rcases hs with rfl | rfl | rfl | rfl <;> rcases hq with rfl | rfl | rfl | rfl | rfl | rfl <;> rfl

theorem turn_2 : turn ⟨(2, v) :: (s, v0) :: st, inp⟩ =
    .go [.openVector] ⟨(14, v) :: (2, v) :: (s, v0) :: st, inp⟩ := rfl
theorem turn_20 : turn ⟨(20, v) :: (14, v0) :: st, inp⟩ = .go [] ⟨(22, v) :: (14, v0) :: st, inp⟩ := rfl
theorem turn_30 : turn ⟨(30, v) :: (27, v0) :: (22, v1) :: (14, v2) :: st, inp⟩ =
    .go [] ⟨(22, v1) :: (14, v2) :: st, inp⟩ := rfl
theorem default_14 : default 14 ⟨(14, v) :: st, inp⟩ = .go [] ⟨(21, v) :: (14, v) :: st, inp⟩ := rfl
theorem default_22 : default 22 ⟨(22, v) :: (14, v0) :: st, inp⟩ = .go [] ⟨(21, v) :: (14, v0) :: st, inp⟩ := rfl
theorem turn_26 (hs : Start s) : turn ⟨(26, v) :: (21, v1) :: (14, v2) :: (2, v3) :: (s, v0) :: st, inp⟩ =
    .go [.closeVector] ⟨(12, v3) :: (s, v0) :: st, inp⟩ := by
  rcases hs with rfl | rfl | rfl | rfl <;> rfl
theorem turn_12 (hs : Start s) : turn ⟨(12, v) :: (s, v0) :: st, inp⟩ =
    .go [] ⟨(vState s, v) :: (s, v0) :: st, inp⟩ := by
  rcases hs with rfl | rfl | rfl | rfl <;> rfl

theorem turn_1 : turn ⟨(1, v) :: (s, v0) :: st, inp⟩ =
    .go [.openMap] ⟨(13, v) :: (1, v) :: (s, v0) :: st, inp⟩ := rfl
theorem turn_16 : turn ⟨(16, v) :: (s, v0) :: st, inp⟩ =
    .go [.setKey v] ⟨(23, v) :: (16, v) :: (s, v0) :: st, inp⟩ := rfl
theorem turn_31_13 : turn ⟨(31, v) :: (28, v1) :: (23, v2) :: (16, v3) :: (13, v0) :: st, inp⟩ =
    .go [.pop] ⟨(19, v3) :: (13, v0) :: st, inp⟩ := rfl
theorem turn_31_25 : turn ⟨(31, v) :: (28, v1) :: (23, v2) :: (16, v3) :: (25, v0) :: st, inp⟩ =
    .go [.pop] ⟨(29, v3) :: (25, v0) :: st, inp⟩ := rfl
theorem turn_19 : turn ⟨(19, v) :: (13, v0) :: st, inp⟩ = .go [] ⟨(18, v) :: (13, v0) :: st, inp⟩ := rfl
theorem turn_29 : turn ⟨(29, v) :: (25, v0) :: (18, v1) :: (13, v2) :: st, inp⟩ =
    .go [] ⟨(18, v1) :: (13, v2) :: st, inp⟩ := rfl
theorem default_13 : default 13 ⟨(13, v) :: st, inp⟩ = .go [] ⟨(17, v) :: (13, v) :: st, inp⟩ := rfl
theorem default_18 : default 18 ⟨(18, v) :: (13, v0) :: st, inp⟩ = .go [] ⟨(17, v) :: (13, v0) :: st, inp⟩ := rfl
theorem turn_24 (hs : Start s) : turn ⟨(24, v) :: (17, v1) :: (13, v2) :: (1, v3) :: (s, v0) :: st, inp⟩ =
    .go [.closeMap] ⟨(11, v3) :: (s, v0) :: st, inp⟩ := by
  rcases hs with rfl | rfl | rfl | rfl <;> rfl
theorem turn_11 (hs : Start s) : turn ⟨(11, v) :: (s, v0) :: st, inp⟩ =
    .go [] ⟨(vState s, v) :: (s, v0) :: st, inp⟩ := by
  rcases hs with rfl | rfl | rfl | rfl <;> rfl
theorem turn_10 : turn ⟨[(10, v), (0, v0)], inp⟩ = .go [] ⟨[(9, v), (0, v0)], inp⟩ := rfl

end turns

/-! ## A document is read -/

/-- The end of an array. -/
theorem close_array {s : Nat} {v0 v1 v2 v3 : Bytes} {st : List (Nat × Bytes)} {inp rest : Bytes} (hs : Start s)
    (h : Reads inp .rbrack rest) : ∃ v', Goes [.closeVector]
      ⟨(21, v1) :: (14, v2) :: (2, v3) :: (s, v0) :: st, inp⟩ ⟨(vState s, v') :: (s, v0) :: st, rest⟩ := by
  obtain ⟨w, hy, _⟩ := h
  exact ⟨_, Goes.cons (turn_shift 26 hy (by decide) (by decide) (by decide) (by decide))
    (Goes.cons (turn_26 hs) (Goes.step (turn_12 hs)))⟩

/-- The end of an object. -/
theorem close_object {s : Nat} {v0 v1 v2 v3 : Bytes} {st : List (Nat × Bytes)} {inp rest : Bytes} (hs : Start s)
    (h : Reads inp .rcurly rest) : ∃ v', Goes [.closeMap]
      ⟨(17, v1) :: (13, v2) :: (1, v3) :: (s, v0) :: st, inp⟩ ⟨(vState s, v') :: (s, v0) :: st, rest⟩ := by
  obtain ⟨w, hy, _⟩ := h
  exact ⟨_, Goes.cons (turn_shift 24 hy (by decide) (by decide) (by decide) (by decide))
    (Goes.cons (turn_24 hs) (Goes.step (turn_11 hs)))⟩

/-- A key and its colon, in front of the value. -/
theorem open_member {s : Nat} {v0 : Bytes} {st : List (Nat × Bytes)} {k inp mid rest : Bytes} (hs : s = 13 ∨ s = 25)
    (h1 : Reads inp (.string k) mid) (h2 : Reads mid .colon rest) : ∃ v, Goes [.setKey k]
      ⟨(s, v0) :: st, inp⟩ ⟨(28, v) :: (23, k) :: (16, k) :: (s, v0) :: st, rest⟩ := by
  obtain ⟨w, hy, hw⟩ := h1
  obtain ⟨w2, hy2, _⟩ := h2
  have hw' : w = k := hw
  subst hw'
  refine ⟨w2, Goes.cons (a := []) (b := [.setKey w]) (turn_shift 16 hy ?_ ?_ (by simp only [Tok.code]; decide) ?_) (Goes.cons (b := []) turn_16
    (Goes.step (turn_shift 28 hy2 (by decide) (by decide) (by decide) (by decide))))⟩
  all_goals rcases hs with rfl | rfl <;> first | decide | (simp only [Tok.code]; decide)

mutual
theorem value_goes : ∀ (d : Doc) {s : Nat} {v : Bytes} {st : List (Nat × Bytes)} {inp rest : Bytes}, Start s →
    Lexes inp d.toks rest → ∃ v', Goes (docActs d) ⟨(s, v) :: st, inp⟩ ⟨(vState s, v') :: (s, v) :: st, rest⟩
  | .null, s, v, st, inp, rest, hs, h => by
    rw [Doc.toks] at h
    cases h with | cons h1 h2 =>
    cases h2
    obtain ⟨w, hw, ht⟩ := shift_value 5 hs h1 (by decide) (by decide)
    exact ⟨w, Goes.cons (ht v st) (Goes.step (reduce_scalar hs 5 (by simp)))⟩
  | .bool true, s, v, st, inp, rest, hs, h => by
    rw [Doc.toks] at h
    cases h with | cons h1 h2 =>
    cases h2
    obtain ⟨w, hw, ht⟩ := shift_value 3 hs h1 (by decide) (by decide)
    exact ⟨w, Goes.cons (ht v st) (Goes.step (reduce_scalar hs 3 (by simp)))⟩
  | .bool false, s, v, st, inp, rest, hs, h => by
    rw [Doc.toks] at h
    cases h with | cons h1 h2 =>
    cases h2
    obtain ⟨w, hw, ht⟩ := shift_value 4 hs h1 (by decide) (by decide)
    exact ⟨w, Goes.cons (ht v st) (Goes.step (reduce_scalar hs 4 (by simp)))⟩
  | .string x, s, v, st, inp, rest, hs, h => by
    rw [Doc.toks] at h
    cases h with | cons h1 h2 =>
    cases h2
    obtain ⟨w, hw, ht⟩ := shift_value 6 hs h1 (by simp only [Tok.code]; decide) (by simp only [Tok.code]; decide)
    cases hw
    exact ⟨_, Goes.cons (ht v st) (Goes.step (reduce_scalar hs 6 (by simp)))⟩
  | .int x, s, v, st, inp, rest, hs, h => by
    rw [Doc.toks] at h
    cases h with | cons h1 h2 =>
    cases h2
    obtain ⟨w, hw, ht⟩ := shift_value 8 hs h1 (by simp only [Tok.code]; decide) (by simp only [Tok.code]; decide)
    cases hw
    exact ⟨_, Goes.cons (ht v st) (Goes.step (reduce_scalar hs 8 (by simp)))⟩
  | .num x, s, v, st, inp, rest, hs, h => by
    rw [Doc.toks] at h
    cases h with | cons h1 h2 =>
    cases h2
    obtain ⟨w, hw, ht⟩ := shift_value 7 hs h1 (by simp only [Tok.code]; decide) (by simp only [Tok.code]; decide)
    cases hw
    exact ⟨_, Goes.cons (ht v st) (Goes.step (reduce_scalar hs 7 (by simp)))⟩
  | .arr [], s, v, st, inp, rest, hs, h => by
    rw [Doc.toks] at h
    cases h with | cons h1 h2 =>
    cases h2 with | cons h2 h3 =>
    cases h3
    obtain ⟨w, hw, ht⟩ := shift_value 2 hs h1 (by decide) (by decide)
    obtain ⟨v', hc⟩ := close_array (v0 := v) (v1 := w) (v2 := w) (v3 := w) (st := st) hs h2
    obtain ⟨w2, hy, _⟩ := h2
    refine ⟨v', Goes.cons (b := [.openVector, .closeVector]) (ht v st) (Goes.cons (b := [.closeVector]) turn_2
      (Goes.cons (a := []) ?_ hc))⟩
    rw [turn_look hy (by decide) (by decide) (by decide) (by decide)]; exact default_14
  | .arr (d :: ds), s, v, st, inp, rest, hs, h => by
    rw [Doc.toks] at h
    cases h with | cons h1 h2 =>
    obtain ⟨b1, h2, h4⟩ := h2.split
    obtain ⟨b2, h2, h3⟩ := h2.split
    cases h4 with | cons h4 h5 =>
    cases h5
    obtain ⟨w, hw, ht⟩ := shift_value 2 hs h1 (by decide) (by decide)
    obtain ⟨v1, g1⟩ := value_goes d (s := 14) (v := w) (st := (2, w) :: (s, v) :: st) (.inr (.inl rfl)) h2
    obtain ⟨v2, g2⟩ := tail_goes ds (v := v1) (v0 := w) (st := (2, w) :: (s, v) :: st) h3
    obtain ⟨v3, g3⟩ := close_array (v0 := v) (v1 := v2) (v2 := w) (v3 := w) (st := st) hs h4
    obtain ⟨w2, hy, _⟩ := h4
    refine ⟨v3, ?_⟩
    have g4 : Goes [] ⟨(22, v2) :: (14, w) :: (2, w) :: (s, v) :: st, b1⟩ ⟨(21, v2) :: (14, w) :: (2, w) :: (s, v) :: st, b1⟩ := by
      apply Goes.step
      rw [turn_look hy (by decide) (by decide) (by decide) (by decide)]; exact default_22
    have := (Goes.step (ht v st)).trans ((Goes.step turn_2).trans (g1.trans ((Goes.step turn_20).trans (g2.trans (g4.trans g3)))))
    simpa [docActs, docsActs] using this
  | .obj [], s, v, st, inp, rest, hs, h => by
    rw [Doc.toks] at h
    cases h with | cons h1 h2 =>
    cases h2 with | cons h2 h3 =>
    cases h3
    obtain ⟨w, hw, ht⟩ := shift_value 1 hs h1 (by decide) (by decide)
    obtain ⟨v', hc⟩ := close_object (v0 := v) (v1 := w) (v2 := w) (v3 := w) (st := st) hs h2
    obtain ⟨w2, hy, _⟩ := h2
    refine ⟨v', Goes.cons (b := [.openMap, .closeMap]) (ht v st) (Goes.cons (b := [.closeMap]) turn_1
      (Goes.cons (a := []) ?_ hc))⟩
    rw [turn_look hy (by decide) (by decide) (by decide) (by decide)]; exact default_13
  | .obj ((k, d) :: ms), s, v, st, inp, rest, hs, h => by
    rw [Doc.toks] at h
    cases h with | cons h1 h2 =>
    obtain ⟨b1, h2, h4⟩ := h2.split
    obtain ⟨b2, h2, h3⟩ := h2.split
    cases h4 with | cons h4 h5 =>
    cases h5
    cases h2 with | cons k1 k2 =>
    cases k2 with | cons k2 k3 =>
    obtain ⟨w, hw, ht⟩ := shift_value 1 hs h1 (by decide) (by decide)
    obtain ⟨v0, g0⟩ := open_member (s := 13) (v0 := w) (st := (1, w) :: (s, v) :: st) (.inl rfl) k1 k2
    obtain ⟨v1, g1⟩ := value_goes d (s := 28) (v := v0) (st := (23, k) :: (16, k) :: (13, w) :: (1, w) :: (s, v) :: st)
      (.inr (.inr (.inr rfl))) k3
    obtain ⟨v2, g2⟩ := members_goes ms (v := k) (v0 := w) (st := (1, w) :: (s, v) :: st) h3
    obtain ⟨v3, g3⟩ := close_object (v0 := v) (v1 := v2) (v2 := w) (v3 := w) (st := st) hs h4
    obtain ⟨w2, hy, _⟩ := h4
    refine ⟨v3, ?_⟩
    have g4 : Goes [] ⟨(18, v2) :: (13, w) :: (1, w) :: (s, v) :: st, b1⟩ ⟨(17, v2) :: (13, w) :: (1, w) :: (s, v) :: st, b1⟩ := by
      apply Goes.step
      rw [turn_look hy (by decide) (by decide) (by decide) (by decide)]; exact default_18
    have := (Goes.step (ht v st)).trans ((Goes.step turn_1).trans (g0.trans (g1.trans
      ((Goes.step turn_31_13).trans ((Goes.step turn_19).trans (g2.trans (g4.trans g3)))))))
    simpa [docActs, membersActs] using this
theorem tail_goes : ∀ (ds : List Doc) {v v0 : Bytes} {st : List (Nat × Bytes)} {inp rest : Bytes},
    Lexes inp (toksTail ds) rest →
      ∃ v', Goes (docsActs ds) ⟨(22, v) :: (14, v0) :: st, inp⟩ ⟨(22, v') :: (14, v0) :: st, rest⟩
  | [], v, v0, st, inp, rest, h => by
    rw [toksTail] at h
    cases h
    exact ⟨v, Goes.refl _⟩
  | d :: ds, v, v0, st, inp, rest, h => by
    rw [toksTail] at h
    cases h with | cons h1 h2 =>
    obtain ⟨b, h2, h3⟩ := h2.split
    obtain ⟨w, hy, _⟩ := h1
    obtain ⟨v1, g1⟩ := value_goes d (s := 27) (v := w) (st := (22, v) :: (14, v0) :: st) (.inr (.inr (.inl rfl))) h2
    obtain ⟨v2, g2⟩ := tail_goes ds (v := v) (v0 := v0) (st := st) h3
    refine ⟨v2, ?_⟩
    have := (Goes.step (turn_shift (s := 22) (v := v) (st := (14, v0) :: st) 27 hy (by decide) (by decide) (by decide) (by decide))).trans
      (g1.trans ((Goes.step turn_30).trans g2))
    simpa [docsActs] using this
theorem members_goes : ∀ (ms : List (Bytes × Doc)) {v v0 : Bytes} {st : List (Nat × Bytes)} {inp rest : Bytes},
    Lexes inp (toksMembers ms) rest →
      ∃ v', Goes (membersActs ms) ⟨(18, v) :: (13, v0) :: st, inp⟩ ⟨(18, v') :: (13, v0) :: st, rest⟩
  | [], v, v0, st, inp, rest, h => by
    rw [toksMembers] at h
    cases h
    exact ⟨v, Goes.refl _⟩
  | (k, d) :: ms, v, v0, st, inp, rest, h => by
    rw [toksMembers] at h
    cases h with | cons h1 h2 =>
    cases h2 with | cons k1 h2 =>
    cases h2 with | cons k2 h2 =>
    obtain ⟨b, h2, h3⟩ := h2.split
    obtain ⟨w, hy, _⟩ := h1
    obtain ⟨w0, g0⟩ := open_member (s := 25) (v0 := w) (st := (18, v) :: (13, v0) :: st) (.inr rfl) k1 k2
    obtain ⟨v1, g1⟩ := value_goes d (s := 28) (v := w0) (st := (23, k) :: (16, k) :: (25, w) :: (18, v) :: (13, v0) :: st)
      (.inr (.inr (.inr rfl))) h2
    obtain ⟨v2, g2⟩ := members_goes ms (v := v) (v0 := v0) (st := st) h3
    refine ⟨v2, ?_⟩
    have := (Goes.step (turn_shift (s := 18) (v := v) (st := (13, v0) :: st) 25 hy (by decide) (by decide) (by decide) (by decide))).trans
      (g0.trans (g1.trans ((Goes.step turn_31_25).trans ((Goes.step turn_29).trans g2))))
    simpa [membersActs] using this
end

/-- Behind the document: `yylex` reports the end of the text (or an error). -/
theorem end_accepts {v v0 inp w rest : Bytes} {code : Int} (hy : yylex inp = .ok (code, w, rest)) (hc : code ≤ 0) :
    Ends .accept [] ⟨[(10, v), (0, v0)], inp⟩ := by
  have hk : translate code = 0 := by simp [translate, hc]
  refine (Goes.step turn_10).ends ((Goes.step (turn_shift 15 hy (by decide) (by decide) (by rw [hk]; decide)
    (by rw [hk]; decide))).ends (Ends.accept rfl))

/-- The tokens of a document, then the end: the parser accepts, with the actions of the document. -/
theorem parse_doc {d : Doc} {inp rest w r : Bytes} {code : Int} (h : Lexes inp d.toks rest)
    (hy : yylex rest = .ok (code, w, r)) (hc : code ≤ 0) : parse inp = .accept (docActs d) := by
  obtain ⟨v', g⟩ := value_goes d (s := 0) (v := []) (st := []) (.inl rfl) h
  have := parse_of_ends (g.ends (end_accepts hy hc))
  simpa using this

/-! ## Whatever the text is -/

/-- One of the twelve tokens. -/
theorem tok_of_code {code : Int} {v : Bytes} (h1 : 258 ≤ code) (h2 : code ≤ 269) : ∃ t : Tok, t.code = code ∧ t.Is v := by
  have : code = 258 ∨ code = 259 ∨ code = 260 ∨ code = 261 ∨ code = 262 ∨ code = 263 ∨ code = 264 ∨ code = 265 ∨
    code = 266 ∨ code = 267 ∨ code = 268 ∨ code = 269 := by omega
  rcases this with rfl | rfl | rfl | rfl | rfl | rfl | rfl | rfl | rfl | rfl | rfl | rfl
  · exact ⟨.lcurly, rfl, trivial⟩
  · exact ⟨.rcurly, rfl, trivial⟩
  · exact ⟨.lbrack, rfl, trivial⟩
  · exact ⟨.rbrack, rfl, trivial⟩
  · exact ⟨.comma, rfl, trivial⟩
  · exact ⟨.colon, rfl, trivial⟩
  · exact ⟨.true, rfl, trivial⟩
  · exact ⟨.false, rfl, trivial⟩
  · exact ⟨.null, rfl, trivial⟩
  · exact ⟨.string v, rfl, rfl⟩
  · exact ⟨.num v, rfl, rfl⟩
  · exact ⟨.int v, rfl, rfl⟩

/-- Blanks up to the end of the text. -/
def Blank (b : Bytes) : Prop := b ≠ [] ∧ ∀ c ∈ b, isSpace c = true

/-- What the next call of `yylex` gives. -/
theorem next_token (inp : Bytes) :
    (yylex inp = .ub ∧ Blank inp) ∨
    (∃ code w r, yylex inp = .ok (code, w, r) ∧ (code ≤ 0 ∨ code = ERROR)) ∨
    (∃ t r, Reads inp t r ∧ r.length < inp.length ∧ r <:+ inp) := by
  rcases yylex_cases inp with ⟨h1, h2, h3⟩ | ⟨c, v, r, h1, h2⟩ | ⟨v, r, h1⟩ | ⟨c, v, r, h1, h2, h3, x, h4, h5⟩
  · exact .inl ⟨h1, h2, h3⟩
  · exact .inr (.inl ⟨c, v, r, h1, .inl h2⟩)
  · exact .inr (.inl ⟨_, v, r, h1, .inr rfl⟩)
  · obtain ⟨t, ht, hv⟩ := tok_of_code (v := v) h2 h3
    refine .inr (.inr ⟨t, r, ⟨v, by rw [ht]; exact h1, hv⟩, ?_, x, h5.symm⟩)
    have := List.length_pos_iff.2 h4
    rw [h5, List.length_append]; omega

/-- The actions are the first ones of some document. -/
def PreDoc (a : List Act) : Prop := ∃ d b, docActs d = a ++ b
/-- ... of the rest of an array. -/
def PreTail (a : List Act) : Prop := ∃ ds b, docsActs ds ++ [.closeVector] = a ++ b
/-- ... of the rest of an object. -/
def PreMembers (a : List Act) : Prop := ∃ ms b, membersActs ms ++ [.closeMap] = a ++ b
/-- ... of a member. -/
def PreMember (k : Bytes) (a : List Act) : Prop := ∃ d b, .setKey k :: (docActs d ++ [.pop]) = a ++ b
def PreNone (a : List Act) : Prop := a = []

/-- The parser stops with an error, or reads blanks up to the end of the text (undefined behaviour). -/
def Fails (R : List Act → Prop) (c : Cfg) : Prop :=
  (∃ a, R a ∧ Ends .error a c) ∨ (∃ a b, Ends (fun _ => .ub) a c ∧ Blank b ∧ b <:+ c.input)

theorem Fails.of_goes {R R' : List Act → Prop} {a : List Act} {c c' : Cfg} (h : Goes a c c')
    (hs : c'.input <:+ c.input) (hr : ∀ x, R x → R' (a ++ x)) (hf : Fails R c') : Fails R' c := by
  rcases hf with ⟨b, hb, hf⟩ | ⟨a', b, hf, h1, h2⟩
  · exact .inl ⟨_, hr b hb, h.ends hf⟩
  · exact .inr ⟨_, b, h.ends hf, h1, h2.trans hs⟩

/-- Turn of a state that looks at the next token, when that is not a token that it shifts. -/
theorem turn_ub {R : List Act → Prop} {s : Nat} {v : Bytes} {st : List (Nat × Bytes)} {inp : Bytes} (h15 : s ≠ 15)
    (hp : yypact.getD s 0 ≠ -15) (hy : yylex inp = .ub) (hb : Blank inp) : Fails R ⟨(s, v) :: st, inp⟩ :=
  .inr ⟨[], inp, Ends.ub (by simp only [turn, if_neg h15, if_neg hp, hy]), hb, List.suffix_refl _⟩

theorem turn_stop {s : Nat} {v : Bytes} {st : List (Nat × Bytes)} {inp w r : Bytes} {code : Int} (h15 : s ≠ 15)
    (h9 : s ≠ 9) (hp : yypact.getD s 0 ≠ -15) (hy : yylex inp = .ok (code, w, r)) (hc : code ≤ 0 ∨ code = ERROR) :
    turn ⟨(s, v) :: st, inp⟩ = default s ⟨(s, v) :: st, inp⟩ := by
  rcases hc with hc | rfl
  · have hk : translate code = 0 := by simp [translate, hc]
    refine turn_look hy h15 hp (by rw [hk]; decide) ?_
    rw [hk]
    cases hl : lookup (yypact.getD s 0 + (0 : Nat)) 0 with
    | none => rfl
    | some s' => exact absurd (shift_eof (by simpa using hl)).1 h9
  · have hk : translate ERROR = 15 := rfl
    exact turn_look hy h15 hp (by rw [hk]; decide) (by rw [hk, shift_error])

/-- Tokens that start a value. -/
def Tok.starts : Tok → Bool
  | .rcurly | .rbrack | .comma | .colon => Bool.false
  | _ => Bool.true

theorem error_27_28 {s : Nat} {c : Cfg} (h : s = 27 ∨ s = 28 ∨ s = 17 ∨ s = 21 ∨ s = 23 ∨ s = 25) :
    default s c = .error := by
  rcases h with rfl | rfl | rfl | rfl | rfl | rfl <;> rfl

/-- Alternatives in a state that expects a value. -/
def ValueAlt (s : Nat) (v : Bytes) (st : List (Nat × Bytes)) (inp : Bytes) : Prop :=
  Fails PreDoc ⟨(s, v) :: st, inp⟩ ∨
  (turn ⟨(s, v) :: st, inp⟩ = default s ⟨(s, v) :: st, inp⟩ ∧
    ((∃ code w r, yylex inp = .ok (code, w, r) ∧ (code ≤ 0 ∨ code = ERROR)) ∨
      ∃ t r, Reads inp t r ∧ t.starts = false)) ∨
  ∃ d rest v', Lexes inp d.toks rest ∧ rest.length < inp.length ∧ rest <:+ inp ∧
    Goes (docActs d) ⟨(s, v) :: st, inp⟩ ⟨(vState s, v') :: (s, v) :: st, rest⟩

def ValueAt (inp : Bytes) : Prop := ∀ s v st, Start s → ValueAlt s v st inp

/-- Alternatives behind an element of an array. -/
def TailAt (inp : Bytes) : Prop := ∀ s v v0 v1 v2 st, Start s →
  Fails PreTail ⟨(22, v0) :: (14, v1) :: (2, v2) :: (s, v) :: st, inp⟩ ∨
  ∃ ds rest v', Lexes inp (toksTail ds ++ [.rbrack]) rest ∧ rest.length < inp.length ∧ rest <:+ inp ∧
    Goes (docsActs ds ++ [.closeVector]) ⟨(22, v0) :: (14, v1) :: (2, v2) :: (s, v) :: st, inp⟩
      ⟨(vState s, v') :: (s, v) :: st, rest⟩

/-- Alternatives behind a member of an object. -/
def MembersAt (inp : Bytes) : Prop := ∀ s v v0 v1 v2 st, Start s →
  Fails PreMembers ⟨(18, v0) :: (13, v1) :: (1, v2) :: (s, v) :: st, inp⟩ ∨
  ∃ ms rest v', Lexes inp (toksMembers ms ++ [.rcurly]) rest ∧ rest.length < inp.length ∧ rest <:+ inp ∧
    Goes (membersActs ms ++ [.closeMap]) ⟨(18, v0) :: (13, v1) :: (1, v2) :: (s, v) :: st, inp⟩
      ⟨(vState s, v') :: (s, v) :: st, rest⟩

/-- In the states 27 and 28 a value must follow. -/
theorem ValueAt.must {inp : Bytes} (h : ValueAt inp) (s : Nat) (v : Bytes) (st : List (Nat × Bytes)) (hs : s = 27 ∨ s = 28) :
    Fails PreDoc ⟨(s, v) :: st, inp⟩ ∨
    ∃ d rest v', Lexes inp d.toks rest ∧ rest.length < inp.length ∧ rest <:+ inp ∧
      Goes (docActs d) ⟨(s, v) :: st, inp⟩ ⟨(vState s, v') :: (s, v) :: st, rest⟩ := by
  have hst : Start s := by rcases hs with rfl | rfl <;> simp [Start]
  rcases h s v st hst with h | ⟨h, _⟩ | h
  · exact .inl h
  · rw [error_27_28 (by rcases hs with rfl | rfl <;> simp)] at h
    exact .inl (.inl ⟨[], ⟨.null, _, rfl⟩, Ends.error h⟩)
  · exact .inr h

/-- Closing an array: state 21. -/
theorem close_array_any {s : Nat} {v0 v1 v2 v3 : Bytes} {st : List (Nat × Bytes)} {inp : Bytes} (hs : Start s) :
    Fails PreNone ⟨(21, v1) :: (14, v2) :: (2, v3) :: (s, v0) :: st, inp⟩ ∨
    ∃ rest v', Reads inp .rbrack rest ∧ rest.length < inp.length ∧ rest <:+ inp ∧
      Goes [.closeVector] ⟨(21, v1) :: (14, v2) :: (2, v3) :: (s, v0) :: st, inp⟩ ⟨(vState s, v') :: (s, v0) :: st, rest⟩ := by
  have err : ∀ {c : Cfg}, turn c = default 21 c → Fails PreNone c := fun h => .inl ⟨_, rfl, Ends.error h⟩
  rcases next_token inp with ⟨h1, h2⟩ | ⟨c, w, r, h1, h2⟩ | ⟨t, r, h1, h2, h3⟩
  · exact .inl (turn_ub (by decide) (by decide) h1 h2)
  · exact .inl (err (turn_stop (by decide) (by decide) (by decide) h1 h2))
  · by_cases ht : t = .rbrack
    · subst ht
      obtain ⟨v', g⟩ := close_array (v0 := v0) (v1 := v1) (v2 := v2) (v3 := v3) (st := st) hs h1
      exact .inr ⟨r, v', h1, h2, h3, g⟩
    · obtain ⟨w, hy, _⟩ := h1
      refine .inl (err (turn_look hy (by decide) (by decide) ?_ ?_))
      all_goals cases t <;> first | exact absurd rfl ht | (simp only [Tok.code]; decide)

/-- Closing an object: state 17. -/
theorem close_object_any {s : Nat} {v0 v1 v2 v3 : Bytes} {st : List (Nat × Bytes)} {inp : Bytes} (hs : Start s) :
    Fails PreNone ⟨(17, v1) :: (13, v2) :: (1, v3) :: (s, v0) :: st, inp⟩ ∨
    ∃ rest v', Reads inp .rcurly rest ∧ rest.length < inp.length ∧ rest <:+ inp ∧
      Goes [.closeMap] ⟨(17, v1) :: (13, v2) :: (1, v3) :: (s, v0) :: st, inp⟩ ⟨(vState s, v') :: (s, v0) :: st, rest⟩ := by
  have err : ∀ {c : Cfg}, turn c = default 17 c → Fails PreNone c := fun h => .inl ⟨_, rfl, Ends.error h⟩
  rcases next_token inp with ⟨h1, h2⟩ | ⟨c, w, r, h1, h2⟩ | ⟨t, r, h1, h2, h3⟩
  · exact .inl (turn_ub (by decide) (by decide) h1 h2)
  · exact .inl (err (turn_stop (by decide) (by decide) (by decide) h1 h2))
  · by_cases ht : t = .rcurly
    · subst ht
      obtain ⟨v', g⟩ := close_object (v0 := v0) (v1 := v1) (v2 := v2) (v3 := v3) (st := st) hs h1
      exact .inr ⟨r, v', h1, h2, h3, g⟩
    · obtain ⟨w, hy, _⟩ := h1
      refine .inl (err (turn_look hy (by decide) (by decide) ?_ ?_))
      all_goals cases t <;> first | exact absurd rfl ht | (simp only [Tok.code]; decide)

/-- The colon behind a key: state 23. -/
theorem colon_any {v k : Bytes} {st : List (Nat × Bytes)} {inp : Bytes} :
    Fails PreNone ⟨(23, v) :: (16, k) :: st, inp⟩ ∨
    ∃ rest w, Reads inp .colon rest ∧ rest.length < inp.length ∧ rest <:+ inp ∧
      Goes [] ⟨(23, v) :: (16, k) :: st, inp⟩ ⟨(28, w) :: (23, v) :: (16, k) :: st, rest⟩ := by
  have err : ∀ {c : Cfg}, turn c = default 23 c → Fails PreNone c := fun h => .inl ⟨_, rfl, Ends.error h⟩
  rcases next_token inp with ⟨h1, h2⟩ | ⟨c, w, r, h1, h2⟩ | ⟨t, r, h1, h2, h3⟩
  · exact .inl (turn_ub (by decide) (by decide) h1 h2)
  · exact .inl (err (turn_stop (by decide) (by decide) (by decide) h1 h2))
  · by_cases ht : t = .colon
    · subst ht
      obtain ⟨w, hy, hw⟩ := h1
      exact .inr ⟨r, w, ⟨w, hy, hw⟩, h2, h3,
        Goes.step (turn_shift 28 hy (by decide) (by decide) (by decide) (by decide))⟩
    · obtain ⟨w, hy, _⟩ := h1
      refine .inl (err (turn_look hy (by decide) (by decide) ?_ ?_))
      all_goals cases t <;> first | exact absurd rfl ht | (simp only [Tok.code]; decide)

/-- A member of an object, whose key has been seen, up to the state behind its value. -/
theorem member_any {s : Nat} {v0 k : Bytes} {st : List (Nat × Bytes)} {inp rest : Bytes} (hs : s = 13 ∨ s = 25)
    (h1 : Reads inp (.string k) rest) (h2 : rest.length < inp.length) (h3 : rest <:+ inp)
    (hv : ∀ r : Bytes, r.length < rest.length → ValueAt r) :
    Fails (PreMember k) ⟨(s, v0) :: st, inp⟩ ∨
    ∃ d b r v w, Reads rest .colon b ∧ Lexes b d.toks r ∧ r.length < inp.length ∧ r <:+ inp ∧
      Goes (.setKey k :: docActs d) ⟨(s, v0) :: st, inp⟩
        ⟨(31, v) :: (28, w) :: (23, k) :: (16, k) :: (s, v0) :: st, r⟩ := by
  obtain ⟨w, hy, hw⟩ := h1
  have hw' : w = k := hw
  subst hw'
  have g1 : Goes ([] ++ ([.setKey w] ++ [])) ⟨(s, v0) :: st, inp⟩ ⟨(23, w) :: (16, w) :: (s, v0) :: st, rest⟩ := by
    refine Goes.cons (turn_shift 16 hy ?_ ?_ (by simp only [Tok.code]; decide) ?_) (Goes.cons turn_16 (Goes.refl _))
    all_goals rcases hs with rfl | rfl <;> first | decide | (simp only [Tok.code]; decide)
  simp only [List.nil_append, List.append_nil] at g1
  rcases colon_any (v := w) (k := w) (st := (s, v0) :: st) (inp := rest) with hf | ⟨b, w2, h4, h5, h6, g2⟩
  · exact .inl (hf.of_goes g1 h3 (fun x hx => by cases hx; exact ⟨.null, _, rfl⟩))
  · rcases (hv b h5).must 28 w2 ((23, w) :: (16, w) :: (s, v0) :: st) (.inr rfl) with hf | ⟨d, r, v', h7, h8, h9, g3⟩
    · exact .inl (hf.of_goes (g1.trans g2) (h6.trans h3)
        (fun x ⟨d, b, h⟩ => ⟨d, b ++ [.pop], by simp [h]⟩))
    · refine .inr ⟨d, b, r, v', w2, h4, h7, by omega, h9.trans (h6.trans h3), ?_⟩
      have := (g1.trans g2).trans g3
      have e : vState 28 = 31 := rfl
      rw [e] at this
      simpa using this

/-- Every text, in every state that matters. -/
theorem any_input : ∀ (n : Nat) (inp : Bytes), inp.length ≤ n → ValueAt inp ∧ TailAt inp ∧ MembersAt inp
  | n, inp, hn => by
    have ih : ∀ r : Bytes, r.length < inp.length → ValueAt r ∧ TailAt r ∧ MembersAt r := by
      intro r hr
      cases n with
      | zero => omega
      | succ n => exact any_input n r (by omega)
    refine ⟨?_, ?_, ?_⟩
    · -- a value
      intro s v st hs
      obtain ⟨h15, hp⟩ := start_pact hs
      have hp' : yypact.getD s 0 ≠ -15 := by rw [hp]; decide
      have h9 : s ≠ 9 := by rcases hs with rfl | rfl | rfl | rfl <;> decide
      rcases next_token inp with ⟨h1, h2⟩ | ⟨c, w, r, h1, h2⟩ | ⟨t, r, h1, h2, h3⟩
      · exact .inl (turn_ub h15 hp' h1 h2)
      · exact .inr (.inl ⟨turn_stop h15 h9 hp' h1 h2, .inl ⟨c, w, r, h1, h2⟩⟩)
      · have scalar : ∀ d : Doc, d.toks = [t] → ValueAlt s v st inp := by
          intro d hd
          have hl : Lexes inp d.toks r := by rw [hd]; exact .cons h1 .nil
          obtain ⟨v', g⟩ := value_goes d (v := v) (st := st) hs hl
          exact .inr (.inr ⟨d, r, v', hl, h2, h3, g⟩)
        have other : t.starts = false → turn ⟨(s, v) :: st, inp⟩ = default s ⟨(s, v) :: st, inp⟩ := by
          intro ht
          obtain ⟨w, hy, _⟩ := h1
          refine turn_look hy h15 hp' ?_ ?_
          all_goals cases t <;> first | decide | (rw [hp]; decide) | (exact Bool.noConfusion ht)
        have other' : t.starts = false → ValueAlt s v st inp :=
          fun ht => .inr (.inl ⟨other ht, .inr ⟨t, r, h1, ht⟩⟩)
        cases t with
        | rcurly | rbrack | comma | colon => exact other' rfl
        | null => exact scalar .null (by rw [Doc.toks])
        | «true» => exact scalar (.bool true) (by rw [Doc.toks]; rfl)
        | «false» => exact scalar (.bool false) (by rw [Doc.toks]; rfl)
        | string x => exact scalar (.string x) (by rw [Doc.toks])
        | int x => exact scalar (.int x) (by rw [Doc.toks])
        | num x => exact scalar (.num x) (by rw [Doc.toks])
        | lbrack =>
          obtain ⟨w, hw, ht⟩ := shift_value 2 hs h1 (by decide) (by decide)
          have g1 := (Goes.step (ht v st)).trans (Goes.step turn_2)
          rcases (ih r h2).1 14 w ((2, w) :: (s, v) :: st) (.inr (.inl rfl)) with hf | ⟨hd, hno⟩ | ⟨d, b, v1, h4, h5, h6, g2⟩
          · exact .inl (hf.of_goes g1 h3
                (fun x ⟨d', b, h⟩ => ⟨.arr [d'], b ++ [.closeVector], by simp [docActs, docsActs, membersActs] at h ⊢; simp [h]⟩))
          · have g2 := g1.trans (Goes.step (hd.trans default_14))
            rcases close_array_any (v0 := v) (v1 := w) (v2 := w) (v3 := w) (st := st) (inp := r) hs with
              hf | ⟨b, v', h4, h5, h6, g3⟩
            · exact .inl (hf.of_goes g2 h3
                (fun x hx => by cases hx; exact ⟨.arr [], _, by simp only [List.append_nil, List.nil_append, List.append_assoc, docActs, docsActs, membersActs]; rfl⟩))
            · refine .inr (.inr ⟨.arr [], b, v', ?_, by omega, h6.trans h3, ?_⟩)
              · rw [Doc.toks]; exact .cons h1 (.cons h4 .nil)
              · have := g2.trans g3
                simpa [docActs, docsActs] using this
          · have g3 := (g1.trans g2).trans (Goes.step turn_20)
            rcases (ih b (by omega)).2.1 s v v1 w w st hs with hf | ⟨ds, e, v', h7, h8, h9, g4⟩
            · exact .inl (hf.of_goes g3 (h6.trans h3)
                (fun x ⟨d', b, h⟩ => ⟨.arr (d :: d'), b, by simp [docActs, docsActs, membersActs] at h ⊢; simp [h]⟩))
            · refine .inr (.inr ⟨.arr (d :: ds), e, v', ?_, by omega, h9.trans (h6.trans h3), ?_⟩)
              · rw [Doc.toks, List.append_assoc]; exact .cons h1 (h4.append h7)
              · have := g3.trans g4
                simpa [docActs, docsActs] using this
        | lcurly =>
          obtain ⟨w, hw, ht⟩ := shift_value 1 hs h1 (by decide) (by decide)
          have g1 := (Goes.step (ht v st)).trans (Goes.step turn_1)
          have empty : turn ⟨(13, w) :: (1, w) :: (s, v) :: st, r⟩ = default 13 ⟨(13, w) :: (1, w) :: (s, v) :: st, r⟩ →
              Fails PreDoc ⟨(s, v) :: st, inp⟩ ∨ ∃ d rest v', Lexes inp d.toks rest ∧ rest.length < inp.length ∧ rest <:+ inp ∧
                Goes (docActs d) ⟨(s, v) :: st, inp⟩ ⟨(vState s, v') :: (s, v) :: st, rest⟩ := by
            intro hd
            have g2 := g1.trans (Goes.step (hd.trans default_13))
            rcases close_object_any (v0 := v) (v1 := w) (v2 := w) (v3 := w) (st := st) (inp := r) hs with
              hf | ⟨b, v', h4, h5, h6, g3⟩
            · exact .inl (hf.of_goes g2 h3
                (fun x hx => by cases hx; exact ⟨.obj [], _, by simp only [List.append_nil, List.nil_append, List.append_assoc, docActs, docsActs, membersActs]; rfl⟩))
            · refine .inr ⟨.obj [], b, v', ?_, by omega, h6.trans h3, ?_⟩
              · rw [Doc.toks]; exact .cons h1 (.cons h4 .nil)
              · have := g2.trans g3
                simpa [docActs, membersActs] using this
          have fin : (Fails PreDoc ⟨(s, v) :: st, inp⟩ ∨ ∃ d rest v', Lexes inp d.toks rest ∧ rest.length < inp.length ∧ rest <:+ inp ∧
                Goes (docActs d) ⟨(s, v) :: st, inp⟩ ⟨(vState s, v') :: (s, v) :: st, rest⟩) → ValueAlt s v st inp :=
            fun h => h.elim .inl (fun h => .inr (.inr h))
          apply fin
          rcases next_token r with ⟨k1, k2⟩ | ⟨c, w2, r2, k1, k2⟩ | ⟨t, r2, k1, k2, k3⟩
          · exact .inl ((turn_ub (R := PreNone) (by decide) (by decide) k1 k2).of_goes g1 h3
                (fun x hx => by cases hx; exact ⟨.obj [], _, by simp only [List.append_nil, List.nil_append, List.append_assoc, docActs, docsActs, membersActs]; rfl⟩))
          · exact empty (turn_stop (by decide) (by decide) (by decide) k1 k2)
          · by_cases hstr : ∃ k, t = .string k
            · obtain ⟨k, rfl⟩ := hstr
              rcases member_any (s := 13) (v0 := w) (st := (1, w) :: (s, v) :: st) (.inl rfl) k1 k2 k3
                  (fun b hb => (ih b (by omega)).1) with hf | ⟨d, b, e, v1, v2, h4, h5, h6, h7, g2⟩
              · exact .inl (hf.of_goes g1 h3
                (fun x ⟨d', b, h⟩ => ⟨.obj [(k, d')], b ++ [.closeMap], by have := congrArg (· ++ [Act.closeMap]) h; simpa [docActs, membersActs] using this⟩))
              · have g3 := (g1.trans g2).trans ((Goes.step turn_31_13).trans (Goes.step turn_19))
                rcases (ih e (by omega)).2.2 s v k w w st hs with hf | ⟨ms, f, v', h8, h9, h10, g4⟩
                · exact .inl (hf.of_goes g3 (h7.trans h3)
                (fun x ⟨d', b, h⟩ => ⟨.obj ((k, d) :: d'), b, by simp [docActs, docsActs, membersActs] at h ⊢; simp [h]⟩))
                · refine .inr ⟨.obj ((k, d) :: ms), f, v', ?_, by omega, h10.trans (h7.trans h3), ?_⟩
                  · rw [Doc.toks]
                    have := (Lexes.cons k1 (Lexes.cons h4 h5)).append h8
                    exact .cons h1 (by simpa using this)
                  · have := g3.trans g4
                    simpa [docActs, membersActs] using this
            · refine empty ?_
              obtain ⟨w2, hy, _⟩ := k1
              refine turn_look hy (by decide) (by decide) ?_ ?_
              all_goals cases t <;> first | exact absurd ⟨_, rfl⟩ hstr | (simp only [Tok.code]; decide)
    · -- behind an element
      intro s v v0 v1 v2 st hs
      have close : turn ⟨(22, v0) :: (14, v1) :: (2, v2) :: (s, v) :: st, inp⟩ =
            default 22 ⟨(22, v0) :: (14, v1) :: (2, v2) :: (s, v) :: st, inp⟩ →
          Fails PreTail ⟨(22, v0) :: (14, v1) :: (2, v2) :: (s, v) :: st, inp⟩ ∨
          ∃ ds rest v', Lexes inp (toksTail ds ++ [.rbrack]) rest ∧ rest.length < inp.length ∧ rest <:+ inp ∧
            Goes (docsActs ds ++ [.closeVector]) ⟨(22, v0) :: (14, v1) :: (2, v2) :: (s, v) :: st, inp⟩
              ⟨(vState s, v') :: (s, v) :: st, rest⟩ := by
        intro hd
        have g1 := Goes.step (hd.trans default_22)
        rcases close_array_any (v0 := v) (v1 := v0) (v2 := v1) (v3 := v2) (st := st) (inp := inp) hs with
          hf | ⟨b, v', h4, h5, h6, g2⟩
        · exact .inl (hf.of_goes g1 (List.suffix_refl _)
                (fun x hx => by cases hx; exact ⟨[], _, by simp only [List.append_nil, List.nil_append, List.append_assoc, docActs, docsActs, membersActs]; rfl⟩))
        · refine .inr ⟨[], b, v', ?_, h5, h6, ?_⟩
          · rw [toksTail]; exact .cons h4 .nil
          · have := g1.trans g2
            simpa [docsActs] using this
      rcases next_token inp with ⟨h1, h2⟩ | ⟨c, w, r, h1, h2⟩ | ⟨t, r, h1, h2, h3⟩
      · exact .inl (turn_ub (by decide) (by decide) h1 h2)
      · exact close (turn_stop (by decide) (by decide) (by decide) h1 h2)
      · by_cases ht : t = .comma
        · subst ht
          have h1' := h1
          obtain ⟨w, hy, _⟩ := h1
          have g1 : Goes [] ⟨(22, v0) :: (14, v1) :: (2, v2) :: (s, v) :: st, inp⟩
              ⟨(27, w) :: (22, v0) :: (14, v1) :: (2, v2) :: (s, v) :: st, r⟩ :=
            Goes.step (turn_shift 27 hy (by decide) (by decide) (by decide) (by decide))
          rcases (ih r h2).1.must 27 w ((22, v0) :: (14, v1) :: (2, v2) :: (s, v) :: st) (.inl rfl) with
            hf | ⟨d, b, v3, h4, h5, h6, g2⟩
          · exact .inl (hf.of_goes g1 h3
                (fun x ⟨d', b, h⟩ => ⟨[d'], b ++ [.closeVector], by simp [docActs, docsActs, membersActs] at h ⊢; simp [h]⟩))
          · have g3 := (g1.trans g2).trans (Goes.step turn_30)
            rcases (ih b (by omega)).2.1 s v v0 v1 v2 st hs with hf | ⟨ds, e, v', h7, h8, h9, g4⟩
            · exact .inl (hf.of_goes g3 (h6.trans h3)
                (fun x ⟨d', b, h⟩ => ⟨d :: d', b, by simp [docActs, docsActs, membersActs] at h ⊢; simp [h]⟩))
            · refine .inr ⟨d :: ds, e, v', ?_, by omega, h9.trans (h6.trans h3), ?_⟩
              · rw [toksTail, List.cons_append, List.append_assoc]; exact .cons h1' (h4.append h7)
              · have := g3.trans g4
                simpa [docsActs] using this
        · refine close ?_
          obtain ⟨w, hy, _⟩ := h1
          refine turn_look hy (by decide) (by decide) ?_ ?_
          all_goals cases t <;> first | exact absurd rfl ht | (simp only [Tok.code]; decide)
    · -- behind a member
      intro s v v0 v1 v2 st hs
      have close : turn ⟨(18, v0) :: (13, v1) :: (1, v2) :: (s, v) :: st, inp⟩ =
            default 18 ⟨(18, v0) :: (13, v1) :: (1, v2) :: (s, v) :: st, inp⟩ →
          Fails PreMembers ⟨(18, v0) :: (13, v1) :: (1, v2) :: (s, v) :: st, inp⟩ ∨
          ∃ ms rest v', Lexes inp (toksMembers ms ++ [.rcurly]) rest ∧ rest.length < inp.length ∧ rest <:+ inp ∧
            Goes (membersActs ms ++ [.closeMap]) ⟨(18, v0) :: (13, v1) :: (1, v2) :: (s, v) :: st, inp⟩
              ⟨(vState s, v') :: (s, v) :: st, rest⟩ := by
        intro hd
        have g1 := Goes.step (hd.trans default_18)
        rcases close_object_any (v0 := v) (v1 := v0) (v2 := v1) (v3 := v2) (st := st) (inp := inp) hs with
          hf | ⟨b, v', h4, h5, h6, g2⟩
        · exact .inl (hf.of_goes g1 (List.suffix_refl _)
                (fun x hx => by cases hx; exact ⟨[], _, by simp only [List.append_nil, List.nil_append, List.append_assoc, docActs, docsActs, membersActs]; rfl⟩))
        · refine .inr ⟨[], b, v', ?_, h5, h6, ?_⟩
          · rw [toksMembers]; exact .cons h4 .nil
          · have := g1.trans g2
            simpa [membersActs] using this
      rcases next_token inp with ⟨h1, h2⟩ | ⟨c, w, r, h1, h2⟩ | ⟨t, r, h1, h2, h3⟩
      · exact .inl (turn_ub (by decide) (by decide) h1 h2)
      · exact close (turn_stop (by decide) (by decide) (by decide) h1 h2)
      · by_cases ht : t = .comma
        · subst ht
          have h1' := h1
          obtain ⟨w, hy, _⟩ := h1
          have g1 : Goes [] ⟨(18, v0) :: (13, v1) :: (1, v2) :: (s, v) :: st, inp⟩
              ⟨(25, w) :: (18, v0) :: (13, v1) :: (1, v2) :: (s, v) :: st, r⟩ :=
            Goes.step (turn_shift 25 hy (by decide) (by decide) (by decide) (by decide))
          have err : ∀ {c : Cfg}, turn c = default 25 c → Fails PreNone c := fun h => .inl ⟨_, rfl, Ends.error h⟩
          rcases next_token r with ⟨k1, k2⟩ | ⟨c, w2, r2, k1, k2⟩ | ⟨t, r2, k1, k2, k3⟩
          · exact .inl ((turn_ub (R := PreNone) (by decide) (by decide) k1 k2).of_goes g1 h3
                (fun x hx => by cases hx; exact ⟨[], _, by simp only [List.append_nil, List.nil_append, List.append_assoc, docActs, docsActs, membersActs]; rfl⟩))
          · exact .inl ((err (turn_stop (by decide) (by decide) (by decide) k1 k2)).of_goes g1 h3
                (fun x hx => by cases hx; exact ⟨[], _, by simp only [List.append_nil, List.nil_append, List.append_assoc, docActs, docsActs, membersActs]; rfl⟩))
          · by_cases hstr : ∃ k, t = .string k
            · obtain ⟨k, rfl⟩ := hstr
              rcases member_any (s := 25) (v0 := w) (st := (18, v0) :: (13, v1) :: (1, v2) :: (s, v) :: st) (.inr rfl) k1 k2 k3
                  (fun b hb => (ih b (by omega)).1) with hf | ⟨d, b, e, v3, v4, h4, h5, h6, h7, g2⟩
              · exact .inl (hf.of_goes g1 h3
                (fun x ⟨d', b, h⟩ => ⟨[(k, d')], b ++ [.closeMap], by have := congrArg (· ++ [Act.closeMap]) h; simpa [docActs, membersActs] using this⟩))
              · have g3 := (g1.trans g2).trans ((Goes.step turn_31_25).trans (Goes.step turn_29))
                rcases (ih e (by omega)).2.2 s v v0 v1 v2 st hs with hf | ⟨ms, f, v', h8, h9, h10, g4⟩
                · exact .inl (hf.of_goes g3 (h7.trans h3)
                (fun x ⟨d', b, h⟩ => ⟨(k, d) :: d', b, by simp [docActs, docsActs, membersActs] at h ⊢; simp [h]⟩))
                · refine .inr ⟨(k, d) :: ms, f, v', ?_, by omega, h10.trans (h7.trans h3), ?_⟩
                  · rw [toksMembers]
                    have := (Lexes.cons k1 (Lexes.cons h4 h5)).append h8
                    exact .cons h1' (by simpa using this)
                  · have := g3.trans g4
                    simpa [membersActs] using this
            · obtain ⟨w2, hy, _⟩ := k1
              refine .inl ((err (turn_look hy (by decide) (by decide) ?_ ?_)).of_goes g1 h3
                (fun x hx => by cases hx; exact ⟨[], _, by simp only [List.append_nil, List.nil_append, List.append_assoc, docActs, docsActs, membersActs]; rfl⟩))
              all_goals cases t <;> first | exact absurd ⟨_, rfl⟩ hstr | (simp only [Tok.code]; decide)
        · refine close ?_
          obtain ⟨w, hy, _⟩ := h1
          refine turn_look hy (by decide) (by decide) ?_ ?_
          all_goals cases t <;> first | exact absurd rfl ht | (simp only [Tok.code]; decide)

/-- State 9: the end of the text must follow. -/
theorem end_any (v v0 inp : Bytes) : Fails PreNone ⟨[(9, v), (0, v0)], inp⟩ ∨
    ∃ code w r, yylex inp = .ok (code, w, r) ∧ code ≤ 0 ∧ Ends .accept [] ⟨[(9, v), (0, v0)], inp⟩ := by
  have err : ∀ {c : Cfg}, turn c = default 9 c → Fails PreNone c := fun h => .inl ⟨_, rfl, Ends.error h⟩
  rcases next_token inp with ⟨h1, h2⟩ | ⟨c, w, r, h1, h2 | rfl⟩ | ⟨t, r, ⟨w, hy, _⟩, h2, h3⟩
  · exact .inl (turn_ub (by decide) (by decide) h1 h2)
  · have hk : translate c = 0 := by simp [translate, h2]
    exact .inr ⟨c, w, r, h1, h2, (Goes.step (turn_shift 15 h1 (by decide) (by decide) (by rw [hk]; decide)
      (by rw [hk]; decide))).ends (Ends.accept rfl)⟩
  · exact .inl (err (turn_look h1 (by decide) (by decide) (by decide) (by decide)))
  · refine .inl (err (turn_look hy (by decide) (by decide) ?_ ?_))
    all_goals cases t <;> first | decide | (simp only [Tok.code]; decide)

/-- `parse` on any text: an error; blanks read up to the end (undefined behaviour); the end of the text, or
something that is no token, in place of a document; the tokens of a document, followed by the end of the
text or something that is no token. -/
theorem parse_any (inp : Bytes) :
    (∃ a, parse inp = .error a ∧ PreDoc a) ∨
    (parse inp = .ub ∧ ∃ b, Blank b ∧ b <:+ inp) ∨
    (∃ code w r, yylex inp = .ok (code, w, r) ∧ code ≤ 0 ∧ parse inp = .accept []) ∨
    (∃ d rest code w r, Lexes inp d.toks rest ∧ yylex rest = .ok (code, w, r) ∧ code ≤ 0 ∧
      parse inp = .accept (docActs d)) := by
  have fails : Fails PreDoc ⟨[(0, [])], inp⟩ → (∃ a, parse inp = .error a ∧ PreDoc a) ∨ (parse inp = .ub ∧ ∃ b, Blank b ∧ b <:+ inp) := by
    rintro (⟨a, hp, h⟩ | ⟨a, b, h, h1, h2⟩)
    · exact .inl ⟨a, parse_of_ends h, hp⟩
    · exact .inr ⟨parse_of_ends h, b, h1, h2⟩
  rcases (any_input _ inp (Nat.le_refl _)).1 0 [] [] (.inl rfl) with hf | ⟨hd, _⟩ | ⟨d, rest, v, h1, _, h3, g⟩
  · exact (fails hf).elim .inl (fun h => .inr (.inl h))
  · have g : Goes [] ⟨[(0, [])], inp⟩ ⟨[(9, []), (0, [])], inp⟩ := Goes.step (hd.trans rfl)
    rcases end_any [] [] inp with hf | ⟨c, w, r, h1, h2, he⟩
    · exact (fails (hf.of_goes g (List.suffix_refl _)
                (fun x hx => by cases hx; exact ⟨.null, _, rfl⟩))).elim .inl (fun h => .inr (.inl h))
    · exact .inr (.inr (.inl ⟨c, w, r, h1, h2, parse_of_ends (g.ends he)⟩))
  · have g2 := g.trans (Goes.step turn_10)
    rcases end_any v [] rest with hf | ⟨c, w, r, h4, h5, he⟩
    · exact (fails (hf.of_goes g2 h3
                (fun x hx => by cases hx; exact ⟨d, [], by simp⟩))).elim .inl (fun h => .inr (.inl h))
    · refine .inr (.inr (.inr ⟨d, rest, c, w, r, h1, h4, h5, ?_⟩))
      have := parse_of_ends (g2.ends he)
      simpa using this

/-! ## Spelled documents -/

theorem reads_written {t : Tok} {b w r : Bytes} (hb : ∀ x ∈ b, x = 32 ∨ (9 ≤ x.toNat ∧ x.toNat ≤ 13))
    (h : Written t w r) : Reads (b ++ w ++ r) t r :=
  ⟨t.val, yylex_written hb h, by cases t <;> first | trivial | rfl⟩

theorem lexes_spelled {ts : List Tok} {inp : Bytes} (h : Spells ts inp) : Lexes inp ts [] := by
  induction h with
  | nil => exact .nil
  | cons hb hw _ ih => exact .cons (reads_written hb hw) ih

end Json
end GCV
