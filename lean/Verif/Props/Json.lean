import Verif.Lemmas.JsonText
import Verif.Props.Map

/-! # C29 (escaping), C30 (the tree of a document), C31 (integers), C32 (the lexer and the parser on any text) -/

namespace GCV
namespace GC
open Json

/-! ## C29 -/

/-- Reading a single string from JSON. -/
theorem from_json2_string (strtod : Bytes → Option F64) {s : Bytes} {text : Bytes} (h : Spells [.string s] text) :
    from_json2 strtod text notype = .ok (string s) true := by
  have hd : Lexes text (Doc.string s).toks [] := by rw [Doc.toks]; exact lexes_spelled h
  have hp := parse_doc (code := 0) (w := []) (r := []) hd rfl (by decide)
  unfold from_json2 json2_tree
  rw [hp]
  dsimp only
  rw [acts_doc strtod (.string s) (p := []) rfl]
  rfl

/-- C29: the escaped form of a text in UTF-8 without the control characters BEL and VT is read back as that
text. -/
theorem C29_roundtrip_partial (strtod : Bytes → Option F64) (s : Bytes) (hu : Utf8 s) (h7 : (7 : Byte) ∉ s)
    (h11 : (11 : Byte) ∉ s) : from_json2 strtod (string_escape s) notype = .ok (string s) true := by
  refine from_json2_string strtod (s := s) ?_
  have : Spells [.string s] ([] ++ (34 :: (s.map escapeByte).flatten ++ [34]) ++ []) :=
    .cons (by simp) (.string (body_escape hu h7 h11)) .nil
  simpa [string_escape] using this

example : Utf8 [0x61, 0xC3, 0xA8, 34, 92, 10] ∧ (7 : Byte) ∉ [0x61, 0xC3, 0xA8, 34, 92, 10] := by
  refine ⟨.one (by decide) (.two (by decide) (by decide) (by decide) (by decide) (.one (by decide) (.one (by decide)
    (.one (by decide) .nil)))), by decide⟩

/-- C29: different texts have different escaped forms. -/
theorem C29_injective (s t : Bytes) (h : string_escape s = string_escape t) : s = t := by
  simp only [string_escape, List.cons_append, List.cons.injEq, true_and] at h
  exact escape_inj s t (List.append_cancel_right h)

/-- BEL and VT come back as a backslash and a letter. -/
theorem C29_control_negation (strtod : Bytes → Option F64) :
    from_json2 strtod (string_escape [7]) notype = .ok (string [92, 97]) true ∧
    from_json2 strtod (string_escape [11]) notype = .ok (string [92, 118]) true := by
  constructor
  · exact rfl
  · exact rfl

/-- A byte that is not UTF-8 before the closing quote makes the text be taken for an empty document: nothing
is stored and no error is reported. -/
theorem C29_utf8_negation (strtod : Bytes → Option F64) (g : GC) :
    json2_tree strtod (string_escape [0xFF]) g = .ok (g, true) := rfl

/-! ## C30 -/

/-- C30: a text that spells a document (blanks allowed before each token, none behind the last one) without an
array directly inside an array, without repeated keys in an object and with integers of 64 bits, read into an
empty container: the tree of the document; `from_json2` then collapses it. -/
theorem C30_tree_partial (strtod : Bytes → Option F64) (d : Doc) (text : Bytes) (hs : Spells d.toks text) (hu : d.Usual) :
    json2_tree strtod text notype = .ok (docTree strtod d, true) ∧
    from_json2 strtod text notype = (collapse (docTree strtod d)).bind fun g _ => .ok g true := by
  have hp := parse_doc (code := 0) (w := []) (r := []) (lexes_spelled hs) rfl (by decide)
  have h1 : json2_tree strtod text notype = .ok (docTree strtod d, true) := by
    unfold json2_tree
    rw [hp]
    dsimp only
    rw [acts_doc strtod d (p := []) rfl]
    simp only [Out.bind, modAt, put_notype strtod d hu]
  exact ⟨h1, by rw [from_json2, h1]⟩

/-- `{"a":[1,{"b":null}]}` with some blanks. -/
example : ∃ d text, Spells d.toks text ∧ d.Usual ∧
    docTree (fun _ => none) d = map [(str "a", vector [int 1, map [(str "b", notype)]])] ∧
    text = str "{\"a\": [1 ,{\"b\":null}]}" := by
  refine ⟨.obj [(str "a", .arr [.int (str "1"), .obj [(str "b", .null)]])], _, ?_, ?_, by decide +kernel, rfl⟩
  · have key : ∀ k : Bytes, Body k k → Written (.string k) (34 :: k ++ [34]) [] := fun k h => .string h
    have ba : Body (str "a") (str "a") := .plain (by decide) (by decide) (by decide) .nil
    have bb : Body (str "b") (str "b") := .plain (by decide) (by decide) (by decide) .nil
    have nb : ∀ c ∈ ([] : Bytes), c = 32 ∨ (9 ≤ c.toNat ∧ c.toNat ≤ 13) := by simp
    have b1 : ∀ c ∈ str " ", c = 32 ∨ (9 ≤ c.toNat ∧ c.toNat ≤ 13) := by decide +kernel
    simp only [Doc.toks, toksTail, toksMembers, List.cons_append, List.nil_append]
    exact .cons nb .lcurly (.cons nb (.string ba) (.cons nb .colon (.cons b1 .lbrack (.cons nb
      (.int (l := str "1") (c := 32) ⟨[], str "1", rfl, .inl rfl, by decide +kernel, by decide +kernel⟩ (by decide))
      (.cons b1 .comma (.cons nb .lcurly (.cons nb (.string bb) (.cons nb .colon (.cons nb .null (.cons nb .rcurly
      (.cons nb .rbrack (.cons nb .rcurly .nil))))))))))))
  · simp only [Doc.Usual, UsualElems, UsualMembers, Doc.isArr, and_true, true_and]
    refine ⟨by decide, ⟨⟨[], str "1", rfl, .inl rfl, by decide +kernel, by decide +kernel⟩, by decide +kernel⟩, by decide⟩

theorem docEntries_field (strtod : Bytes → Option F64) : ∀ (ms : List (Bytes × Doc)) (m : Entries) (k : Bytes),
    field (map (docEntries strtod m ms)) k =
      match (ms.reverse.find? fun e => e.1 == k) with
      | some e => some (docTree strtod e.2)
      | none => field (map m) k
  | [], m, k => by rw [docEntries]; rfl
  | (l, d) :: ms, m, k => by
    rw [docEntries, docEntries_field strtod ms _ k]
    simp only [List.reverse_cons, List.find?_append]
    cases ms.reverse.find? (fun e => e.1 == k) with
    | some e => rfl
    | none =>
      simp only [Option.none_or, List.find?_cons, List.find?_nil]
      by_cases hk : l = k
      · subst hk
        simp [← mfind_eq_field, mfind_mset_same]
      · have : (l == k) = false := by simpa using hk
        simp [this, ← mfind_eq_field, mfind_mset_other (Ne.symm hk)]

theorem docTrees_map (strtod : Bytes → Option F64) : ∀ ds : List Doc, docTrees strtod ds = ds.map (docTree strtod)
  | [] => by rw [docTrees]; rfl
  | d :: ds => by rw [docTrees, docTrees_map strtod ds]; rfl

/-- C30: what the tree of a document is: an array is the vector of the trees of its elements in their order, an
object is a map that has under each key of a member the tree of that member and nothing else, the others
are values of their kind. -/
theorem C30_shape (strtod : Bytes → Option F64) :
    (∀ ds : List Doc, docTree strtod (.arr ds) = vector (ds.map (docTree strtod))) ∧
    (∀ ms : List (Bytes × Doc), (∃ m, docTree strtod (.obj ms) = map m) ∧
      ∀ k, field (docTree strtod (.obj ms)) k =
        (ms.reverse.find? fun e => e.1 == k).map fun e => docTree strtod e.2) ∧
    (∀ s, docTree strtod (.string s) = string s) ∧
    (∀ b, docTree strtod (.bool b) = bool b) ∧ docTree strtod .null = notype := by
  refine ⟨fun ds => by rw [docTree, docTrees_map], fun ms => ⟨⟨_, by rw [docTree]⟩, fun k => ?_⟩,
    fun s => by rw [docTree], fun b => by rw [docTree], by rw [docTree]⟩
  rw [docTree, docEntries_field]
  cases ms.reverse.find? (fun e => e.1 == k) <;> rfl

/-- C30: nothing else is accepted: when a text is accepted for an empty container, the tokens that the lexer
finds in it are those of a document, and then the lexer finds no further token; or it finds none at all, and
the container stays empty. -/
theorem C30_accepted (strtod : Bytes → Option F64) (text : Bytes) (t : GC)
    (h : json2_tree strtod text notype = .ok (t, true)) :
    (∃ d rest code v r, Lexes text d.toks rest ∧ yylex rest = .ok (code, v, r) ∧ code ≤ 0 ∧
      (d.Usual → t = docTree strtod d)) ∨
    (∃ code v r, yylex text = .ok (code, v, r) ∧ code ≤ 0 ∧ t = notype) := by
  unfold json2_tree at h
  rcases parse_any text with ⟨a, hp, _⟩ | ⟨hp, _⟩ | ⟨code, w, r, h1, h2, hp⟩ | ⟨d, rest, code, w, r, h1, h2, h3, hp⟩
  · rw [hp] at h
    dsimp only at h
    cases hw : Wrapper.acts strtod ⟨notype, [[]]⟩ a <;> rw [hw] at h <;> simp [Out.bind] at h
  · rw [hp] at h; cases h
  · rw [hp] at h
    simp only [Wrapper.acts, Out.bind, Out.ok.injEq, Prod.mk.injEq, and_true] at h
    exact .inr ⟨code, w, r, h1, h2, h.symm⟩
  · rw [hp] at h
    dsimp only at h
    rw [acts_doc strtod d (p := []) rfl] at h
    simp only [Out.bind, modAt, Out.ok.injEq, Prod.mk.injEq, and_true] at h
    exact .inl ⟨d, rest, code, w, r, h1, h2, h3, fun hu => by rw [← h, put_notype strtod d hu]⟩

example : json2_tree (fun _ => none) (str "[1]") notype = .ok (vector [int 1], true) := by decide +kernel

/-- C30: `from_json2` into an empty container returns only for such texts, it then returns `true` and the container
holds the tree after `collapse`; a text that is not accepted makes it throw. -/
theorem C30_returns (strtod : Bytes → Option F64) (text : Bytes) :
    (∀ g b, from_json2 strtod text notype = .ok g b → b = true ∧ ∃ t, collapse t = .ok g () ∧
      ((∃ d rest code v r, Lexes text d.toks rest ∧ yylex rest = .ok (code, v, r) ∧ code ≤ 0 ∧
        (d.Usual → t = docTree strtod d)) ∨
      (∃ code v r, yylex text = .ok (code, v, r) ∧ code ≤ 0 ∧ t = notype))) ∧
    (∀ t, json2_tree strtod text notype = .ok (t, false) → from_json2 strtod text notype = .throw t) := by
  refine ⟨fun g b h => ?_, fun t h => by rw [from_json2, h]⟩
  unfold from_json2 at h
  cases hj : json2_tree strtod text notype with
  | ok p =>
    obtain ⟨t, b'⟩ := p
    rw [hj] at h
    cases b' with
    | false => simp at h
    | true =>
      simp only at h
      cases hc : collapse t with
      | ok g' u =>
        rw [hc] at h
        simp only [Res.bind, Res.ok.injEq] at h
        obtain ⟨rfl, rfl⟩ := h
        exact ⟨rfl, t, hc, C30_accepted strtod text t hj⟩
      | _ => rw [hc] at h; simp [Res.bind] at h
  | _ => rw [hj] at h; simp at h

example : json2_tree (fun _ => none) (str "[1,]") notype = .ok (vector [int 1], false) ∧
    from_json2 (fun _ => none) (str "[1]") notype = .ok (vecInt [1]) true := by
  constructor <;> decide +kernel

/-- The elements of an array inside an array go to the outer one, behind an empty array. -/
theorem C30_nested_negation (strtod : Bytes → Option F64) (ds es : List Doc) (text : Bytes)
    (hs : Spells (Doc.arr (.arr ds :: es)).toks text) (hd : UsualElems ds) (he : UsualElems es) :
    json2_tree strtod text notype = .ok (vector (vector [] :: docTrees strtod ds ++ docTrees strtod es), true) := by
  have hp := parse_doc (code := 0) (w := []) (r := []) (lexes_spelled hs) rfl (by decide)
  unfold json2_tree
  rw [hp]
  dsimp only
  rw [acts_doc strtod _ (p := []) rfl]
  have e1 : into (set_vector 0) notype = vector [] := rfl
  have e2 : into (set_vector 0) (vector []) = vector [vector []] := rfl
  simp only [Out.bind, modAt, put, puts, e1, e2]
  rw [puts_vector strtod ds hd, puts_vector strtod es he]
  rfl

/-- `[[1],[2]]` -/
theorem C30_nested_witness_negation : json2_tree (fun _ => none) (str "[[1],[2]]") notype =
    .ok (vector [vector [], int 1, vector [], int 2], true) := by decide +kernel

/-- A repeated key: the second value is added to the array of the first, or merged into its object. -/
theorem C30_repeated_key_negation :
    json2_tree (fun _ => none) (str "{\"a\":[1],\"a\":2}") notype = .ok (map [(str "a", vector [int 1, int 2])], true) ∧
    json2_tree (fun _ => none) (str "{\"a\":{\"x\":1},\"a\":{\"y\":2}}") notype =
      .ok (map [(str "a", map [(str "x", int 1), (str "y", int 2)])], true) := by
  constructor <;> decide +kernel

/-- What was in a vector before stays in front of what is read. -/
theorem C30_not_cleared_negation (strtod : Bytes → Option F64) (v : List GC) (d : Doc) (text : Bytes)
    (hs : Spells d.toks text) (hu : d.Usual) (hd : d.isArr = false) :
    json2_tree strtod text (vector v) = .ok (vector (v ++ [docTree strtod d]), true) := by
  have hp := parse_doc (code := 0) (w := []) (r := []) (lexes_spelled hs) rfl (by decide)
  unfold json2_tree
  rw [hp]
  dsimp only
  rw [acts_doc strtod d (p := []) rfl]
  have e : put strtod d (vector v) = vector (v ++ [put strtod d notype]) := by
    cases d with
    | arr ds => cases hd
    | _ => simp only [put, into]
  simp only [Out.bind, modAt, e, put_notype strtod d hu]

/-- A text that is just an integer is accepted and leaves the container as it was. -/
theorem C30_number_negation (strtod : Bytes → Option F64) (l : Bytes) (hl : IntLit l) (g : GC) :
    json2_tree strtod l g = .ok (g, true) := by
  have hy := yylex_lonely_int hl
  have hp : parse l = .accept [] := by
    have g1 : Goes [] ⟨[(0, [])], l⟩ ⟨[(9, []), (0, [])], l⟩ :=
      Goes.step ((turn_stop (by decide) (by decide) (by decide) hy (.inl (by decide))).trans rfl)
    have g2 : Goes [] ⟨[(9, []), (0, [])], l⟩ ⟨[(15, []), (9, []), (0, [])], l⟩ :=
      Goes.step (turn_shift 15 hy (by decide) (by decide) (by decide) (by decide))
    have := parse_of_ends ((g1.trans g2).ends (Ends.accept rfl))
    simpa using this
  unfold json2_tree
  rw [hp]; rfl

example : IntLit (str "-42") := ⟨[45], str "42", rfl, .inr (.inr rfl), by decide +kernel, by decide +kernel⟩

/-- Whatever follows a document is ignored when it does not start with a token. -/
theorem C30_garbage_negation (strtod : Bytes → Option F64) (d : Doc) (text junk w r : Bytes) (code : Int)
    (hs : Spells d.toks text) (hu : d.Usual) (hy : yylex junk = .ok (code, w, r)) (hc : code ≤ 0) :
    json2_tree strtod (text ++ junk) notype = .ok (docTree strtod d, true) := by
  have hp := parse_doc (lexes_followed hs junk) hy hc
  unfold json2_tree
  rw [hp]
  dsimp only
  rw [acts_doc strtod d (p := []) rfl]
  simp only [Out.bind, modAt, put_notype strtod d hu]

example : yylex (str "garbage") = .ok (-1, [], str "garbage") := by decide +kernel

/-! ## C31 -/

/-- `[l]` spelled without blanks. -/
theorem spells_singleton {l : Bytes} (hl : IntLit l) : Spells (Doc.arr [.int l]).toks (91 :: l ++ [93]) := by
  have nb : ∀ c ∈ ([] : Bytes), c = 32 ∨ (9 ≤ c.toNat ∧ c.toNat ≤ 13) := by simp
  simp only [Doc.toks, toksTail, List.append_nil, List.singleton_append]
  have := Spells.cons nb .lbrack (.cons nb (.int (c := 93) hl (by decide)) (.cons nb .rbrack .nil))
  simpa using this

/-- An integer within 64 bits is stored exactly, as `int` when it fits 32 bits and as `long` otherwise. -/
def StoredExactly (l : Bytes) (x : GC) : Prop :=
  ((∃ i, x = int i ∧ i.toInt = intValue l) ∨ (∃ i, x = long i ∧ i.toInt = intValue l)) ∧
  ((∃ i, x = int i) ↔ -2 ^ 31 ≤ intValue l ∧ intValue l < 2 ^ 31)

theorem storedExactly {l : Bytes} (h1 : -2 ^ 63 ≤ intValue l) (h2 : intValue l < 2 ^ 63) :
    StoredExactly l (intTree l) := by
  constructor
  · by_cases hc : -2 ^ 31 ≤ intValue l ∧ intValue l < 2 ^ 31
    · left
      refine ⟨_, by rw [intTree]; simp only [hc, and_self, if_true]; rfl, ?_⟩
      rw [BitVec.toInt_ofInt, Int.bmod_eq_of_le (by omega) (by omega)]
    · right
      refine ⟨_, by rw [intTree]; simp only [hc, if_false]; rfl, ?_⟩
      rw [BitVec.toInt_ofInt, Int.bmod_eq_of_le (by omega) (by omega)]
  · by_cases hc : -2 ^ 31 ≤ intValue l ∧ intValue l < 2 ^ 31
    · refine ⟨fun _ => hc, fun _ => ⟨BitVec.ofInt 32 (intValue l), ?_⟩⟩
      rw [intTree]; exact if_pos hc
    · refine ⟨fun ⟨i, hi⟩ => ?_, fun h => absurd h hc⟩
      rw [intTree] at hi
      rw [if_neg hc] at hi
      cases hi

/-- C31: an integer literal of at most 64 bits, element of an array: `[l]`. -/
theorem C31_exact (strtod : Bytes → Option F64) (l : Bytes) (hl : IntLit l) (h1 : -2 ^ 63 ≤ intValue l)
    (h2 : intValue l < 2 ^ 63) :
    ∃ x, json2_tree strtod (91 :: l ++ [93]) notype = .ok (vector [x], true) ∧ StoredExactly l x := by
  have hu : (Doc.arr [.int l]).Usual := by
    simp only [Doc.Usual, UsualElems, Doc.isArr, and_true, true_and]
    exact ⟨hl, h1, h2⟩
  have := (C30_tree_partial strtod _ _ (spells_singleton hl) hu).1
  exact ⟨intTree l, by simpa [docTree, docTrees] using this, storedExactly h1 h2⟩

/-- C31: anywhere in an array, between other values. -/
theorem C31_exact_element (strtod : Bytes → Option F64) (l text : Bytes) (as bs : List Doc) (hl : IntLit l)
    (h1 : -2 ^ 63 ≤ intValue l) (h2 : intValue l < 2 ^ 63) (ha : UsualElems as) (hb : UsualElems bs)
    (ht : Spells (Doc.arr (as ++ .int l :: bs)).toks text) :
    ∃ x xs ys, json2_tree strtod text notype = .ok (vector (xs ++ x :: ys), true) ∧
      xs.length = as.length ∧ ys.length = bs.length ∧ StoredExactly l x := by
  have happ : ∀ as, UsualElems as → UsualElems (as ++ .int l :: bs) := by
    intro as h
    induction as with
    | nil => exact ⟨rfl, ⟨hl, h1, h2⟩, hb⟩
    | cons d ds ih => exact ⟨h.1, h.2.1, ih h.2.2⟩
  have htr : ∀ as, docTrees strtod (as ++ .int l :: bs) =
      docTrees strtod as ++ intTree l :: docTrees strtod bs := by
    intro as
    induction as with
    | nil => simp [docTrees, docTree]
    | cons d ds ih => simp [docTrees, ih]
  have hlen : ∀ as, (docTrees strtod as).length = as.length := by
    intro as
    induction as with
    | nil => rfl
    | cons d ds ih => simp [docTrees, ih]
  have hu : (Doc.arr (as ++ .int l :: bs)).Usual := by rw [Doc.Usual]; exact happ as ha
  have := (C30_tree_partial strtod _ _ ht hu).1
  refine ⟨intTree l, docTrees strtod as, docTrees strtod bs, ?_, hlen _, hlen _, storedExactly h1 h2⟩
  rw [this, docTree, htr]

/-- C31: a member of an object, whatever its key and the blanks. -/
theorem C31_exact_member (strtod : Bytes → Option F64) (k l text : Bytes) (hl : IntLit l)
    (h1 : -2 ^ 63 ≤ intValue l) (h2 : intValue l < 2 ^ 63) (ht : Spells (Doc.obj [(k, .int l)]).toks text) :
    ∃ x, json2_tree strtod text notype = .ok (map [(k, x)], true) ∧ StoredExactly l x := by
  have hu : (Doc.obj [(k, .int l)]).Usual := by
    simp only [Doc.Usual, UsualMembers, List.map_cons, List.map_nil, List.nodup_cons, List.not_mem_nil,
      not_false_eq_true, List.nodup_nil, and_self, and_true, true_and]
    exact ⟨hl, h1, h2⟩
  have := (C30_tree_partial strtod _ _ ht hu).1
  exact ⟨intTree l, by simpa [docTree, docEntries, mset] using this, storedExactly h1 h2⟩

example : IntLit (str "4294967296") ∧ intValue (str "4294967296") = 4294967296 :=
  ⟨⟨[], str "4294967296", rfl, .inl rfl, by decide +kernel, by decide +kernel⟩, by decide +kernel⟩

/-- Larger integers become the largest (or smallest) 64 bit one. -/
theorem C31_saturates (strtod : Bytes → Option F64) (l : Bytes) (hl : IntLit l) :
    (2 ^ 63 ≤ intValue l → json2_tree strtod (91 :: l ++ [93]) notype = .ok (vector [long (BitVec.ofInt 64 (2 ^ 63 - 1))], true)) ∧
    (intValue l < -2 ^ 63 → json2_tree strtod (91 :: l ++ [93]) notype = .ok (vector [long (BitVec.ofInt 64 (-2 ^ 63))], true)) := by
  have hp := parse_doc (code := 0) (w := []) (r := []) (lexes_spelled (spells_singleton hl)) rfl (by decide)
  have hj : json2_tree strtod (91 :: l ++ [93]) notype = .ok (vector [setInteger l notype], true) := by
    unfold json2_tree
    rw [hp]
    dsimp only
    rw [acts_doc strtod _ (p := []) rfl]
    simp only [Out.bind, modAt, put, puts, into]
    rfl
  have e := strtoll_lit hl
  constructor <;> intro h
  · rw [if_neg (by omega), if_pos (by omega)] at e
    rw [hj]
    simp only [setInteger, e, if_true]
    rw [if_neg (by decide)]; rfl
  · rw [if_pos (by omega)] at e
    rw [hj]
    simp only [setInteger, e, if_true]
    rw [if_neg (by decide)]; rfl

example : 2 ^ 63 ≤ intValue (str "9223372036854775808") := by decide +kernel

/-! ## C32 -/

/-- C32: a call of the lexer ends with an error or end code, or gives one of the twelve tokens and has used up
at least one byte of the text, never more than there is; undefined behaviour only when nothing but blanks
is left. -/
theorem C32_lexer_partial (text : Bytes) :
    (yylex text = .ub ↔ text ≠ [] ∧ ∀ c ∈ text, c = 32 ∨ (9 ≤ c.toNat ∧ c.toNat ≤ 13)) ∧
    (yylex text ≠ .ub → ∃ code v rest, yylex text = .ok (code, v, rest) ∧
      (code ≤ 0 ∨ code = ERROR ∨ (258 ≤ code ∧ code ≤ 269 ∧ ∃ x, x ≠ [] ∧ text = x ++ rest))) := by
  constructor
  · constructor
    · intro h
      rcases yylex_cases text with ⟨_, h2, h3⟩ | ⟨c, v, r, h1, _⟩ | ⟨v, r, h1⟩ | ⟨c, v, r, h1, _⟩
      · exact ⟨h2, fun c hc => (isSpace_iff c).1 (h3 c hc)⟩
      · rw [h1] at h; cases h
      · rw [h1] at h; cases h
      · rw [h1] at h; cases h
    · rintro ⟨h1, h2⟩
      have : text.dropWhile isSpace = [] := by
        have : ∀ t : Bytes, (∀ c ∈ t, c = 32 ∨ (9 ≤ c.toNat ∧ c.toNat ≤ 13)) → t.dropWhile isSpace = [] := by
          intro t
          induction t with
          | nil => intro _; rfl
          | cons c t ih =>
            intro h
            rw [List.dropWhile_cons, if_pos ((isSpace_iff c).2 (h c (by simp)))]
            exact ih fun d hd => h d (.tail _ hd)
        exact this text h2
      unfold yylex
      cases text with
      | nil => exact absurd rfl h1
      | cons c t => dsimp only; rw [this]
  · intro hn
    rcases yylex_cases text with ⟨h, _⟩ | ⟨c, v, r, h1, h2⟩ | ⟨v, r, h1⟩ | ⟨c, v, r, h1, h2, h3, x, h4, h5⟩
    · exact absurd h hn
    · exact ⟨c, v, r, h1, .inl h2⟩
    · exact ⟨_, v, r, h1, .inr (.inl rfl)⟩
    · exact ⟨c, v, r, h1, .inr (.inr ⟨h2, h3, x, h4, h5⟩)⟩

/-- The actions executed before an error do not go wrong either. -/
theorem acts_prefix (strtod : Bytes → Option F64) {a : List Act} (h : PreDoc a) (g : GC) :
    ∃ w, Wrapper.acts strtod ⟨g, [[]]⟩ a = .ok w := by
  obtain ⟨d, b, hd⟩ := h
  have h1 := acts_doc strtod d (root := g) (p := []) (ps := []) rfl
  rw [hd, acts_append] at h1
  cases hw : Wrapper.acts strtod ⟨g, [[]]⟩ a with
  | ok w => exact ⟨w, rfl⟩
  | _ => rw [hw] at h1; cases h1

/-- C32: for every text and every previous content of the container the parser returns: it accepts or it
rejects; it has undefined behaviour only for texts that end with blanks. -/
theorem C32_parser_partial (strtod : Bytes → Option F64) (text : Bytes) (g : GC) :
    (∃ t ok, json2_tree strtod text g = .ok (t, ok)) ∨
    (json2_tree strtod text g = .ub ∧ ∃ c, text.getLast? = some c ∧ (c = 32 ∨ (9 ≤ c.toNat ∧ c.toNat ≤ 13))) := by
  unfold json2_tree
  rcases parse_any text with ⟨a, hp, ha⟩ | ⟨hp, b, ⟨hb, hs⟩, x, hx⟩ | ⟨code, w, r, h1, h2, hp⟩ | ⟨d, rest, code, w, r, h1, h2, h3, hp⟩
  · left
    rw [hp]
    obtain ⟨w, hw⟩ := acts_prefix strtod ha g
    exact ⟨w.root, false, by dsimp only; rw [hw]; rfl⟩
  · right
    rw [hp]
    refine ⟨rfl, b.getLast hb, ?_, (isSpace_iff _).1 (hs _ (List.getLast_mem hb))⟩
    rw [← hx, List.getLast?_append, List.getLast?_eq_some_getLast hb]; rfl
  · left
    rw [hp]; exact ⟨g, true, rfl⟩
  · left
    rw [hp]
    dsimp only
    rw [acts_doc strtod d (p := []) rfl]
    exact ⟨_, true, rfl⟩

/-- A document followed by blanks (for instance by a newline): undefined behaviour. -/
theorem C32_trailing_blank_negation (strtod : Bytes → Option F64) (d : Doc) (text blanks : Bytes) (g : GC)
    (hs : Spells d.toks text) (h1 : blanks ≠ []) (h2 : ∀ c ∈ blanks, c = 32 ∨ (9 ≤ c.toNat ∧ c.toNat ≤ 13)) :
    json2_tree strtod (text ++ blanks) g = .ub := by
  have hy := (C32_lexer_partial blanks).1.2 ⟨h1, h2⟩
  obtain ⟨v', g1⟩ := value_goes d (s := 0) (v := []) (st := []) (.inl rfl) (lexes_followed hs blanks)
  have he : Ends (fun _ => .ub) [] ⟨[(10, v'), (0, [])], blanks⟩ := by
    have h9 : turn ⟨[(9, v'), (0, [])], blanks⟩ = .ub := by
      have h15 : ¬ (9 = 15) := by decide
      have hp : ¬ (yypact.getD 9 0 = -15) := by decide
      simp only [turn, if_neg h15, if_neg hp, hy]
    exact (Goes.step turn_10).ends (Ends.ub h9)
  have hp : parse (text ++ blanks) = .ub := parse_of_ends (g1.ends he)
  unfold json2_tree
  rw [hp]

/-- **C32** fails for `[1]` with a line feed behind it. -/
theorem C32_newline_negation : json2_tree (fun _ => none) (str "[1]\n") notype = .ub := by decide +kernel

end GC
end GCV
