import Verif.Lemmas.JsonTree

/-! # Lemmas about JSON texts -/

namespace GCV
namespace Json
open GC

/-! ## Escaping -/

theorem escape_high {c : Byte} (h : 0x80 ≤ c.toNat) : escapeByte c = [c] := by
  unfold escapeByte
  have hn : ∀ n : Byte, n.toNat < 0x80 → c ≠ n := fun n hn => high_ne h hn
  rw [if_neg (hn _ (by decide)), if_neg (hn _ (by decide)), if_neg (hn _ (by decide)), if_neg (hn _ (by decide)),
    if_neg (hn _ (by decide)), if_neg (hn _ (by decide)), if_neg (hn _ (by decide)), if_neg (hn _ (by decide))]

theorem body_escape {s : Bytes} (h : Utf8 s) (h7 : (7 : Byte) ∉ s) (h11 : (11 : Byte) ∉ s) :
    Body s (s.map escapeByte).flatten := by
  induction h with
  | nil => exact .nil
  | @one c t hc _ ih =>
    simp only [List.mem_cons, not_or] at h7 h11
    have ih := ih h7.2 h11.2
    simp only [List.map_cons, List.flatten_cons, escapeByte]
    split; · next e => subst e; exact .quote ih
    split; · next e => subst e; exact .newline ih
    split; · next e => subst e; exact .ret ih
    split; · next e => subst e; exact .tab ih
    split; · next e => exact absurd e.symm h11.1
    split; · next e => subst e; exact .back ih
    split; · next e => exact absurd e.symm h7.1
    split; · next e => subst e; exact .backslash ih
    next h34 _ _ _ _ _ _ h92 => exact .plain hc h34 h92 ih
  | two c1 c2 d1 d2 _ ih =>
    simp only [List.mem_cons, not_or] at h7 h11
    simp only [List.map_cons, List.flatten_cons, escape_high (Nat.le_trans (by decide) c1), escape_high d1]
    exact .two c1 c2 d1 d2 (ih h7.2.2 h11.2.2)
  | three c1 c2 d1 d2 e1 e2 _ ih =>
    simp only [List.mem_cons, not_or] at h7 h11
    simp only [List.map_cons, List.flatten_cons, escape_high (Nat.le_trans (by decide) c1), escape_high d1, escape_high e1]
    exact .three c1 c2 d1 d2 e1 e2 (ih h7.2.2.2 h11.2.2.2)
  | four c1 c2 d1 d2 e1 e2 f1 f2 _ ih =>
    simp only [List.mem_cons, not_or] at h7 h11
    simp only [List.map_cons, List.flatten_cons, escape_high (Nat.le_trans (by decide) c1), escape_high d1, escape_high e1,
      escape_high f1]
    exact .four c1 c2 d1 d2 e1 e2 f1 f2 (ih h7.2.2.2.2 h11.2.2.2.2)

/-- What an escape starts with, and that its first two bytes tell which byte it stands for. -/
theorem escape_shape (c : Byte) : (escapeByte c = [c] ∧ c ≠ 34 ∧ c ≠ 92 ∧ c ≠ 10 ∧ c ≠ 13 ∧ c ≠ 9 ∧ c ≠ 11 ∧ c ≠ 8 ∧ c ≠ 7) ∨
    ∃ x, escapeByte c = [92, x] ∧ x ≠ 10 ∧ x ≠ 13 := by
  revert c
  refine byte_cases (P := fun c => (escapeByte c = [c] ∧ c ≠ 34 ∧ c ≠ 92 ∧ c ≠ 10 ∧ c ≠ 13 ∧ c ≠ 9 ∧ c ≠ 11 ∧ c ≠ 8 ∧ c ≠ 7) ∨
    ∃ x, escapeByte c = [92, x] ∧ x ≠ 10 ∧ x ≠ 13) ?_
  intro n
  by_cases h : (escapeByte (BitVec.ofFin n)).length = 1
  · left
    revert n
    decide +kernel
  · right
    have : ∀ n : Fin 256, (escapeByte (BitVec.ofFin n)).length ≠ 1 →
        escapeByte (BitVec.ofFin n) = [92, (escapeByte (BitVec.ofFin n)).getD 1 0] ∧
        (escapeByte (BitVec.ofFin n)).getD 1 0 ≠ 10 ∧ (escapeByte (BitVec.ofFin n)).getD 1 0 ≠ 13 := by decide +kernel
    exact ⟨_, this n h⟩

theorem escape_two {c d : Byte} {x : Byte} (h1 : escapeByte c = [92, x]) (h2 : escapeByte d = [92, x]) : c = d := by
  have key : ∀ c : Byte, ∀ x, escapeByte c = [92, x] → c = if x = 34 then 34 else if x = 110 then 10 else if x = 114 then 13
      else if x = 116 then 9 else if x = 118 then 11 else if x = 98 then 8 else if x = 97 then 7 else 92 := by
    intro c x h
    unfold escapeByte at h
    by_cases e : c = 34; · subst e; cases h; rfl
    rw [if_neg e] at h; clear e
    by_cases e : c = 10; · subst e; cases h; rfl
    rw [if_neg e] at h; clear e
    by_cases e : c = 13; · subst e; cases h; rfl
    rw [if_neg e] at h; clear e
    by_cases e : c = 9; · subst e; cases h; rfl
    rw [if_neg e] at h; clear e
    by_cases e : c = 11; · subst e; cases h; rfl
    rw [if_neg e] at h; clear e
    by_cases e : c = 8; · subst e; cases h; rfl
    rw [if_neg e] at h; clear e
    by_cases e : c = 7; · subst e; cases h; rfl
    rw [if_neg e] at h; clear e
    by_cases e : c = 92; · subst e; cases h; rfl
    rw [if_neg e] at h
    simp at h
  rw [key c x h1, key d x h2]

theorem escape_inj : ∀ (s t : Bytes), (s.map escapeByte).flatten = (t.map escapeByte).flatten → s = t
  | [], [], _ => rfl
  | [], d :: t, h => by
    rcases escape_shape d with ⟨e, _⟩ | ⟨x, e, _⟩ <;> simp [e] at h
  | c :: s, [], h => by
    rcases escape_shape c with ⟨e, _⟩ | ⟨x, e, _⟩ <;> simp [e] at h
  | c :: s, d :: t, h => by
    rcases escape_shape c with ⟨e, _, h92, _⟩ | ⟨x, e, _⟩ <;> rcases escape_shape d with ⟨f, _, g92, _⟩ | ⟨y, f, _⟩
    · simp only [List.map_cons, List.flatten_cons, e, f, List.singleton_append, List.cons.injEq] at h
      rw [h.1, escape_inj s t h.2]
    · simp [e, f] at h; exact absurd h.1 h92
    · simp [e, f] at h; exact absurd h.1.symm g92
    · simp only [List.map_cons, List.flatten_cons, e, f, List.cons_append, List.nil_append, List.cons.injEq] at h
      obtain ⟨_, rfl, h⟩ := h
      rw [escape_two e f, escape_inj s t h]

/-! ## A text followed by something -/

theorem Written.append {t : Tok} {w r : Bytes} (h : Written t w r) (b : Bytes) : Written t w (r ++ b) := by
  cases h with
  | lcurly => exact .lcurly
  | rcurly => exact .rcurly
  | lbrack => exact .lbrack
  | rbrack => exact .rbrack
  | comma => exact .comma
  | colon => exact .colon
  | true => exact .true
  | false => exact .false
  | null => exact .null
  | string h => exact .string h
  | int h1 h2 => exact .int h1 h2
  | num h1 h2 => exact .num h1 h2

theorem lexes_followed {ts : List Tok} {inp : Bytes} (h : Spells ts inp) (b : Bytes) : Lexes (inp ++ b) ts b := by
  induction h with
  | nil => exact .nil
  | @cons t ts b' w r hb hw _ ih =>
    rw [List.append_assoc]
    exact .cons (reads_written hb (hw.append b)) ih

/-- A number is not seen when nothing follows it. -/
theorem yylex_lonely_int {l : Bytes} (h : IntLit l) : yylex l = .ok (-1, [], l) := by
  obtain ⟨a, b, rfl, ha, hb⟩ := h
  obtain ⟨x, t, e, h1, h2, h3⟩ := scan_number (x := []) (r := []) ha hb
  simp only [List.append_nil] at e h3
  rw [e]
  rw [show lexNum 1 (a ++ b) [] = .fail from rfl] at h3
  have hd : (x :: t).dropWhile isSpace = x :: t := by rw [List.dropWhile_cons, h2]; rfl
  unfold yylex
  dsimp only
  rw [hd]
  dsimp only
  rw [h1, h3]; rfl

end Json
end GCV
