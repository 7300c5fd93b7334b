import Verif.Lemmas.JsonLoose
import Verif.Props.Json

/-! # C88 (exactly which texts survive escaping), C89 (exactly what from_json2 stores) -/

namespace GCV
namespace GC
open Json

/-! ## C89 -/

/-- C89: what the parser leaves in the container, for every text and every previous contents.  It accepts the text
exactly when the text consists of the tokens of a document with nothing behind it that would be taken for a token, or
when there is no token at all; and then exactly this is stored. -/
theorem C89_stores (strtod : Bytes → Option F64) (text : Bytes) (g t : GC) :
    json2_tree strtod text g = .ok (t, true) ↔
      (∃ d rest, LSpells d.toks text rest ∧ NoMore rest ∧ t = lay strtod d g) ∨ (NoMore text ∧ t = g) := by
  constructor
  · intro h
    unfold json2_tree at h
    rcases parse_any text with ⟨a, hp, _⟩ | ⟨hp, _⟩ | ⟨code, w, r, h1, h2, hp⟩ | ⟨d, rest, code, w, r, h1, h2, h3, hp⟩
    · rw [hp] at h
      dsimp only at h
      cases hw : Wrapper.acts strtod ⟨g, [[]]⟩ a <;> rw [hw] at h <;> simp [Out.bind] at h
    · rw [hp] at h; cases h
    · rw [hp] at h
      simp only [Wrapper.acts, Out.bind, Out.ok.injEq, Prod.mk.injEq, and_true] at h
      exact .inr ⟨(noMore_iff text).1 ⟨code, w, r, h1, h2⟩, h.symm⟩
    · rw [hp] at h
      dsimp only at h
      rw [acts_doc strtod d (p := []) rfl] at h
      simp only [Out.bind, modAt, Out.ok.injEq, Prod.mk.injEq, and_true] at h
      have hs := (lexes_iff _ _).1 h1
      exact .inl ⟨d, rest, hs, (noMore_iff rest).1 ⟨code, w, r, h2, h3⟩, by rw [← h, put_lay strtod d (lspells_lit hs)]⟩
  · rintro (⟨d, rest, h1, h2, rfl⟩ | ⟨h1, rfl⟩)
    · obtain ⟨code, w, r, h3, h4⟩ := (noMore_iff rest).2 h2
      unfold json2_tree
      rw [parse_doc ((lexes_iff _ _).2 h1) h3 h4]
      dsimp only
      rw [acts_doc strtod d (p := []) rfl]
      simp only [Out.bind, modAt]
      rw [put_lay strtod d (lspells_lit h1)]
    · obtain ⟨code, w, r, h3, h4⟩ := (noMore_iff text).2 h1
      unfold json2_tree
      rw [parse_end h3 h4]
      rfl

/-- A text read as `lay` says: `[[1],[2]]` gives four elements of one vector; the members of an object are added to a map
that is there. -/
example : lay (fun _ => none) (.arr [.arr [.int (str "1")], .arr [.int (str "2")]]) notype =
      vector [vector [], int 1, vector [], int 2] ∧
    lay (fun _ => none) (.obj [(str "b", .bool true), (str "a", .null)]) (map [(str "a", int 7), (str "c", int 8)]) =
      map [(str "a", notype), (str "b", bool true), (str "c", int 8)] := by
  constructor <;> decide +kernel

example : LSpells (Doc.arr [.arr [.int (str "1")]]).toks (str " [[1]]") [] ∧ NoMore [] := by
  refine ⟨?_, .inl rfl⟩
  have one : IntLit (str "1") := ⟨[], str "1", rfl, .inl rfl, by decide, by decide +kernel⟩
  exact .cons (b := str " ") (w := str "[") (r := str "[1]]") (by unfold Blanks; decide +kernel) .lbrack
    (.cons (b := []) (w := str "[") (r := str "1]]") nofun .lbrack
      (.cons (b := []) (w := str "1") (r := str "]]") nofun (.int one ⟨93, [93], rfl, by decide⟩)
        (.cons (b := []) (w := str "]") (r := str "]") nofun .rbrack
          (.cons (b := []) (w := str "]") (r := []) nofun .rbrack .nil))))

/-- C89: `from_json2` returns exactly for these texts, with `true`, and the container holds what was stored, after
`collapse`. -/
theorem C89_returns (strtod : Bytes → Option F64) (text : Bytes) (g x : GC) (b : Bool) :
    from_json2 strtod text g = .ok x b ↔ b = true ∧ ∃ t, collapse t = .ok x () ∧
      ((∃ d rest, LSpells d.toks text rest ∧ NoMore rest ∧ t = lay strtod d g) ∨ (NoMore text ∧ t = g)) := by
  have e : (∃ t, collapse t = .ok x () ∧
      ((∃ d rest, LSpells d.toks text rest ∧ NoMore rest ∧ t = lay strtod d g) ∨ (NoMore text ∧ t = g))) ↔
      ∃ t, collapse t = .ok x () ∧ json2_tree strtod text g = .ok (t, true) :=
    ⟨fun ⟨t, h1, h2⟩ => ⟨t, h1, (C89_stores strtod text g t).2 h2⟩,
      fun ⟨t, h1, h2⟩ => ⟨t, h1, (C89_stores strtod text g t).1 h2⟩⟩
  rw [e]
  constructor
  · intro h
    unfold from_json2 at h
    cases hj : json2_tree strtod text g with
    | ok p =>
      obtain ⟨t, b'⟩ := p
      rw [hj] at h
      cases b' with
      | false => simp at h
      | true =>
        simp only at h
        cases hc : collapse t with
        | ok g' u =>
          rw [hc] at h
          simp only [Res.bind, Res.ok.injEq] at h
          obtain ⟨rfl, rfl⟩ := h
          exact ⟨rfl, t, hc, rfl⟩
        | _ => rw [hc] at h; simp [Res.bind] at h
    | _ => rw [hj] at h; simp at h
  · rintro ⟨rfl, t, h1, h2⟩
    rw [from_json2, h2]
    simp only [h1, Res.bind]

example : from_json2 (fun _ => none) (str "[1,2] trailing") (int 5) = .ok (vecInt [1, 2]) true := by decide +kernel

/-- C89: any other text that does not end in a blank makes it throw. -/
theorem C89_throws (strtod : Bytes → Option F64) (text : Bytes) (g : GC)
    (h1 : ¬ ∃ (d : Doc) (rest : Bytes), LSpells d.toks text rest ∧ NoMore rest) (h2 : ¬ NoMore text)
    (h3 : ∀ c, text.getLast? = some c → ¬ (c = 32 ∨ (9 ≤ c.toNat ∧ c.toNat ≤ 13))) :
    ∃ t, from_json2 strtod text g = .throw t := by
  rcases C32_parser_partial strtod text g with ⟨t, ok, h⟩ | ⟨_, c, hc, hs⟩
  · cases ok with
    | false => exact ⟨t, by rw [from_json2, h]⟩
    | true =>
      rcases (C89_stores strtod text g t).1 h with ⟨d, rest, h4, h5, _⟩ | ⟨h4, _⟩
      · exact absurd ⟨d, rest, h4, h5⟩ h1
      · exact absurd h4 h2
  · exact absurd hs (h3 c hc)

example : from_json2 (fun _ => none) (str "[1,]") (int 5) = .throw (vector [int 1]) ∧
    (str "[1,]").getLast? = some 93 := by
  constructor <;> decide +kernel

/-! ## C88 -/

/-- C88: a text whose bytes from 0x80 on are grouped into characters, escaped and read: itself, but BEL and VT come back as
a backslash and a letter. -/
theorem C88_read (strtod : Bytes → Option F64) (s : Bytes) (h : Grouped s) :
    from_json2 strtod (string_escape s) notype = .ok (string (readBack s)) true := by
  have hr : Reads (string_escape s) (.string (readBack s)) [] := by
    refine ⟨readBack s, ?_, rfl⟩
    have e : string_escape s = [] ++ 34 :: ((s.map escapeByte).flatten ++ 34 :: []) := rfl
    rw [e, yylex_scan (by intro c hc; cases hc) (by decide) (by decide)]
    have : scan 34 ((s.map escapeByte).flatten ++ 34 :: []) = lexStr [] ((s.map escapeByte).flatten ++ 34 :: []) := rfl
    rw [this, lexStr_escape h]
    rfl
  have hl := (lexes_iff _ _).1 (Lexes.cons hr .nil)
  have := (C89_stores strtod (string_escape s) notype (string (readBack s))).2
    (.inl ⟨.string (readBack s), [], hl, .inl rfl, rfl⟩)
  rw [from_json2, this]
  rfl

example : Grouped [0x61, 7, 0xC3, 0xA8, 34, 0xE0, 0x80, 0x80] ∧
    readBack [0x61, 7, 0xC3, 0xA8, 34, 0xE0, 0x80, 0x80] = [0x61, 92, 97, 0xC3, 0xA8, 34, 0xE0, 0x80, 0x80] := by
  refine ⟨.one (by decide) (.one (by decide) (.two (by decide) (by decide) (by unfold Cont; decide) (.one (by decide)
    (.three (by decide) (by decide) (by unfold Cont; decide) (by unfold Cont; decide) .nil)))), by decide +kernel⟩

/-- C88: any other text is taken for no document at all: the call returns `true` and the container is only collapsed. -/
theorem C88_lost (strtod : Bytes → Option F64) (s : Bytes) (h : ¬ Grouped s) (g : GC) :
    json2_tree strtod (string_escape s) g = .ok (g, true) := by
  refine (C89_stores strtod (string_escape s) g g).2 (.inr ⟨(noMore_iff _).1 ?_, rfl⟩)
  have e : string_escape s = [] ++ 34 :: ((s.map escapeByte).flatten ++ [34]) := rfl
  rw [e, yylex_scan (by intro c hc; cases hc) (by decide) (by decide)]
  have : scan 34 ((s.map escapeByte).flatten ++ [34]) = lexStr [] ((s.map escapeByte).flatten ++ [34]) := rfl
  rw [this]
  cases hl : lexStr [] ((s.map escapeByte).flatten ++ [34]) with
  | zero => exact ⟨_, _, _, rfl, by decide⟩
  | fail => exact ⟨_, _, _, rfl, by decide⟩
  | tok code l r => exact absurd (grouped_of _ s [] (Nat.le_refl _) hl) h

theorem grouped_high {c : Byte} {s : Bytes} (h : Grouped (c :: s)) (hc : 0x80 ≤ c.toNat) : ∃ d t, s = d :: t ∧ Cont d := by
  cases h with
  | one h => omega
  | two _ _ h => exact ⟨_, _, rfl, h⟩
  | three _ _ h => exact ⟨_, _, rfl, h⟩
  | four _ h => exact ⟨_, _, rfl, h⟩

example : ¬ Grouped [0x61, 0xC3, 0x61] := by
  intro h
  cases h with
  | one _ h =>
    obtain ⟨d, t, h1, h2⟩ := grouped_high h (by decide)
    cases h1
    exact absurd h2.1 (by decide)
  | two h => exact absurd h (by decide)
  | three h => exact absurd h (by decide)

theorem readBack_self : ∀ (s : Bytes), readBack s = s ↔ (7 : Byte) ∉ s ∧ (11 : Byte) ∉ s := by
  have len : ∀ s : Bytes, s.length ≤ (readBack s).length := by
    intro s
    induction s with
    | nil => simp [readBack]
    | cons c s ih =>
      simp only [readBack, List.flatMap_cons, List.length_append, List.length_cons] at ih ⊢
      have : 1 ≤ (backByte c).length := by
        unfold backByte
        split
        · decide
        · split
          · decide
          · simp
      omega
  intro s
  induction s with
  | nil => simp [readBack]
  | cons c s ih =>
    have e : readBack (c :: s) = backByte c ++ readBack s := by simp [readBack]
    rw [e]
    by_cases h7 : c = 7
    · subst h7
      refine ⟨fun h => ?_, fun h => absurd (by simp) h.1⟩
      have := congrArg List.length h
      have l := len s
      rw [show backByte 7 = [92, 97] from rfl] at this
      simp at this
      omega
    by_cases h11 : c = 11
    · subst h11
      refine ⟨fun h => ?_, fun h => absurd (by simp) h.2⟩
      have := congrArg List.length h
      have l := len s
      rw [show backByte 11 = [92, 118] from rfl] at this
      simp at this
      omega
    have : backByte c = [c] := by rw [backByte, if_neg h7, if_neg h11]
    rw [this, List.singleton_append, List.cons.injEq, ih]
    rw [List.mem_cons, List.mem_cons, not_or, not_or]
    exact ⟨fun h => ⟨⟨Ne.symm h7, h.2.1⟩, Ne.symm h11, h.2.2⟩, fun h => ⟨rfl, h.1.2, h.2.2⟩⟩

/-- C88: exactly which texts survive: those grouped into characters, without BEL and VT. -/
theorem C88_survives (strtod : Bytes → Option F64) (s : Bytes) :
    from_json2 strtod (string_escape s) notype = .ok (string s) true ↔ Grouped s ∧ (7 : Byte) ∉ s ∧ (11 : Byte) ∉ s := by
  by_cases h : Grouped s
  · rw [C88_read strtod s h, ← readBack_self s]
    simp [h]
  · refine ⟨fun h1 => ?_, fun h1 => absurd h1.1 h⟩
    rw [from_json2, C88_lost strtod s h] at h1
    cases h1

end GC
end GCV
