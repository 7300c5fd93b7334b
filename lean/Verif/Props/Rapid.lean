import Verif.Lemmas.RapidTree

/-!
# C70, C71, C72: from_json with RapidJSON
-/

namespace GCV
namespace GC

open Json Rfc

/-! ## C70 -/

/-- **C70**: from_json returns false if and only if the text, up to the first NUL, is not a JSON text (RFC 8259) with
readable numbers; it leaves the container as it was then. -/
theorem C70_rejects (conv : Bytes → Option F64) (text : Bytes) (g g' : GC) :
    from_json conv text g = .ok g' false ↔ g' = g ∧ ¬ ∃ d, JsonText d (cstr text) ∧ Readable conv d := by
  obtain ⟨x, hx⟩ := Rapid.parse_total (conv := conv) text
  have key : x = none ↔ ¬ ∃ d, JsonText d (cstr text) ∧ Readable conv d := by
    constructor
    · rintro rfl ⟨d, hd, hr⟩
      rw [Rapid.parse_doc hd, Out.ok.injEq] at hx
      have := (docVal_some d (lits_of hd)).2 hr
      rw [hx] at this
      cases this
    · intro h
      cases x with
      | none => rfl
      | some v =>
        obtain ⟨d, hd, hv⟩ := Rapid.parse_some hx
        exact absurd ⟨d, hd, (docVal_some d (lits_of hd)).1 (by rw [hv]; rfl)⟩ h
  rw [from_json, hx, ← key]
  cases x with
  | none => simp [eq_comm]
  | some v =>
    simp only [reduceCtorEq, and_false, iff_false]
    cases (decode_json v g).bind fun g' _ => collapse g' <;> simp [Res.bind]

theorem cstr_nul (text more : Bytes) : cstr (text ++ 0 :: more) = cstr text := by
  unfold cstr
  rw [List.takeWhile_append]
  split
  · rename_i h
    have : text.takeWhile (fun x => decide (x ≠ 0)) = text := (List.takeWhile_prefix _).eq_of_length h
    rw [this]; simp
  · rfl

theorem parse_cstr (conv : Bytes → Option F64) {a b : Bytes} (h : cstr a = cstr b) :
    Rapid.parse conv a = Rapid.parse conv b := by
  obtain ⟨x, hx⟩ := Rapid.parse_total (conv := conv) a
  obtain ⟨y, hy⟩ := Rapid.parse_total (conv := conv) b
  cases x with
  | some v =>
    obtain ⟨d, hd, hv⟩ := Rapid.parse_some hx
    rw [hx, Rapid.parse_doc (h ▸ hd), hv]
  | none =>
    cases y with
    | none => rw [hx, hy]
    | some v =>
      obtain ⟨d, hd, hv⟩ := Rapid.parse_some hy
      rw [← h] at hd
      rw [hy, Rapid.parse_doc hd, hv]

/-- Nothing behind a NUL is looked at. -/
theorem C70_nul (conv : Bytes → Option F64) (text more : Bytes) (g : GC) :
    from_json conv (text ++ 0 :: more) g = from_json conv text g := by
  rw [from_json, parse_cstr conv (cstr_nul text more), from_json]

/-- The layout of the text does not matter, nor how the strings are escaped. -/
theorem C70_layout (conv : Bytes → Option F64) (a b : Bytes) (d : Doc) (g : GC) (ha : JsonText d (cstr a))
    (hb : JsonText d (cstr b)) : from_json conv a g = from_json conv b g := by
  rw [from_json, Rapid.parse_doc ha, from_json, Rapid.parse_doc hb]

theorem bind_returns {α β : Type} {c : Out α} {f : α → Out β} (h : c ≠ .diverge) (hf : ∀ a, f a ≠ .diverge) :
    c.bind f ≠ .diverge := by
  cases c with
  | ok a => exact hf a
  | throw => intro h; cases h
  | ub => intro h; cases h
  | diverge => exact absurd rfl h

theorem convLoop_returns {α β : Type} {f : α → Out β} (hf : ∀ a, f a ≠ .diverge) : ∀ l, convLoop f l ≠ .diverge
  | [] => by intro h; cases h
  | x :: r => bind_returns (hf x) fun _ => bind_returns (convLoop_returns hf r) fun _ h => by cases h

theorem toSigned_returns (w : Nat) (r : F64) : r.toSigned w ≠ .diverge := by
  unfold F64.toSigned; split <;> (intro h; cases h)

theorem copyToVec_returns {α : Type} {sc el : GC → Out α} (h1 : ∀ g, sc g ≠ .diverge) (h2 : ∀ g, el g ≠ .diverge) (g : GC) :
    copyToVec sc el g ≠ .diverge := by
  cases g <;> rw [copyToVec] <;> first
    | exact convLoop_returns (fun _ => h1 _) _
    | exact convLoop_returns h2 _
    | (intro h; cases h; done)
    | (split <;> (intro h; cases h))

theorem copyL_returns {α : Type} (v w : List α) : copyL v w ≠ .diverge := by
  unfold copyL; split <;> (intro h; cases h)

theorem fillCol_returns {β : Type} (j : Nat) (vj : List β) : ∀ (n : Nat) (m : Mat β) (i : Nat), fillCol m j vj i n ≠ .diverge
  | 0, _, _ => by intro h; cases h
  | n + 1, m, i => by
    rw [fillCol]
    refine bind_returns ?_ fun x => bind_returns ?_ fun m' => fillCol_returns j vj n m' (i + 1)
    · unfold getL; split <;> (intro h; cases h)
    · unfold Mat.set; split <;> (intro h; cases h)

theorem fillCols_returns {β : Type} {conv : GC → Out (List β)} (hc : ∀ g, conv g ≠ .diverge) (nr : Nat) : ∀ (v : List GC)
    (m : Mat β) (j : Nat), fillCols conv nr m j v ≠ .diverge
  | [], _, _ => by intro h; cases h
  | x :: v, m, j => by
    rw [fillCols]
    exact bind_returns (hc x) fun vj => bind_returns (fillCol_returns j vj nr m 0) fun m' => fillCols_returns hc nr v m' (j + 1)

theorem assignPacked_returns {α : Type} {v : List GC} {c : Out α} {set : α → GC → Out GC} (h : c ≠ .diverge)
    (hs : ∀ a g, set a g ≠ .diverge) : assignPacked v c set ≠ .diverge := by
  have := bind_returns h fun a => hs a (vector v)
  unfold assignPacked
  split <;> first | (intro h; cases h; done) | exact absurd ‹_› this

theorem copyInt_returns (g : GC) : copyInt g ≠ .diverge ∧ copyLong g ≠ .diverge ∧ get_as_int g ≠ .diverge ∧
    get_as_long g ≠ .diverge := by
  refine ⟨?_, ?_, ?_, ?_⟩ <;> (cases g <;> first
    | (intro h; cases h; done)
    | (simp only [copyInt, copyLong, get_as_int, get_as_long]; split <;>
        first | exact toSigned_returns _ _ | (intro h; cases h)))

theorem copyReal_returns (g : GC) : copyReal g ≠ .diverge ∧ copyComplex g ≠ .diverge ∧ get_number g ≠ .diverge ∧
    get_complex_c g ≠ .diverge ∧ get_bool_c g ≠ .diverge ∧ get_string_c g ≠ .diverge := by
  refine ⟨?_, ?_, ?_, ?_, ?_, ?_⟩ <;> (cases g <;> first
    | (intro h; cases h; done)
    | (simp only [copyReal]; split <;> (intro h; cases h)))

theorem pack_returns (v : List GC) : pack v ≠ .diverge := by
  have hm : ∀ {α : Type} (w : Mat α) (d : List α) (up : Mat α → GC),
      ((copyL d w.data).bind fun d => Out.ok (up { w with data := d })) ≠ .diverge :=
    fun w d up => bind_returns (copyL_returns _ _) fun _ h => by cases h
  unfold pack
  dsimp only
  split
  · intro h; cases h
  · split
    · exact assignPacked_returns (convLoop_returns (fun g => (copyReal_returns g).2.2.2.2.2) _)
        fun _ _ => bind_returns (copyL_returns _ _) fun _ h => by cases h
    · split
      · exact assignPacked_returns (convLoop_returns (fun g => (copyReal_returns g).2.2.2.2.1) _)
          fun _ _ => bind_returns (copyL_returns _ _) fun _ h => by cases h
      · exact assignPacked_returns (copyToVec_returns (fun g => (copyInt_returns g).1) (fun g => (copyInt_returns g).2.2.1) _)
          fun _ _ => bind_returns (copyL_returns _ _) fun _ h => by cases h
      · exact assignPacked_returns (copyToVec_returns (fun g => (copyInt_returns g).2.1) (fun g => (copyInt_returns g).2.2.2) _)
          fun _ _ => bind_returns (copyL_returns _ _) fun _ h => by cases h
      · exact assignPacked_returns (copyToVec_returns (fun g => (copyReal_returns g).1) (fun g => (copyReal_returns g).2.2.1) _)
          fun _ _ => bind_returns (copyL_returns _ _) fun _ h => by cases h
      · exact assignPacked_returns (copyToVec_returns (fun g => (copyReal_returns g).2.1) (fun g => (copyReal_returns g).2.2.2.1) _)
          fun _ _ => bind_returns (copyL_returns _ _) fun _ h => by cases h
      · refine assignPacked_returns (fillCols_returns (copyToVec_returns (fun g => (copyInt_returns g).1) (fun g => (copyInt_returns g).2.2.1)) _ _ _ _)
          fun a g => ?_
        unfold set_mat_int; split <;> first | exact hm _ _ _ | (intro h; cases h)
      · refine assignPacked_returns (fillCols_returns (copyToVec_returns (fun g => (copyInt_returns g).2.1) (fun g => (copyInt_returns g).2.2.2)) _ _ _ _)
          fun a g => ?_
        unfold set_mat_long; split <;> first | exact hm _ _ _ | (intro h; cases h)
      · refine assignPacked_returns (fillCols_returns (copyToVec_returns (fun g => (copyReal_returns g).1) (fun g => (copyReal_returns g).2.2.1)) _ _ _ _)
          fun a g => ?_
        unfold set_mat_real; split <;> first | exact hm _ _ _ | (intro h; cases h)
      · refine assignPacked_returns (fillCols_returns (copyToVec_returns (fun g => (copyReal_returns g).2.1) (fun g => (copyReal_returns g).2.2.2.1)) _ _ _ _)
          fun a g => ?_
        unfold set_mat_complex; split <;> first | exact hm _ _ _ | (intro h; cases h)
      · intro h; cases h

theorem collapse_returns (g : GC) : collapse g ≠ .diverge := by
  refine (GC.induct (P := fun g => collapse g ≠ .diverge) (PL := fun v => collapseL v ≠ .diverge)
    (PM := fun m => collapseM m ≠ .diverge) ?_ ?_ ?_ ?_ ?_ ?_ ?_).1 g
  · intro g hv hm
    cases g <;> first | (intro h; cases h; done) | exact absurd rfl (hv _) | exact absurd rfl (hm _)
  · intro v ih
    rw [collapse_vector]
    split
    · intro h; cases h
    · split <;> first | exact pack_returns _ | exact absurd ‹_› ih | (intro h; cases h)
  · intro m ih
    rw [collapse]
    split <;> first | exact absurd ‹_› ih | (intro h; cases h)
  · intro h; cases h
  · intro x v hx hv
    rw [collapseL]
    split
    · split <;> first | exact absurd ‹_› hv | (intro h; cases h)
    all_goals first | exact absurd ‹_› hx | (intro h; cases h)
  · intro h; cases h
  · intro k x v hx hv
    rw [collapseM]
    split
    · split <;> first | exact absurd ‹_› hv | (intro h; cases h)
    all_goals first | exact absurd ‹_› hx | (intro h; cases h)

mutual

theorem decode_returns : ∀ (v : Rapid.Val) (g : GC), decode_json v g ≠ .diverge
  | .arr l, g => by
    have := decodeElems_returns l
    rw [decode_json]
    split <;> first | exact absurd ‹_› (this _) | (intro h; cases h)
  | .obj l, g => by
    have := decodeMembers_returns l
    rw [decode_json]
    split <;> first | exact absurd ‹_› (this _) | (intro h; cases h)
  | .null, _ => by intro h; cases h
  | .bool _, _ => by intro h; cases h
  | .double _, _ => by intro h; cases h
  | .str _, _ => by intro h; cases h
  | .int _, _ => by rw [decode_json.eq_def]; dsimp only; (repeat' split) <;> (intro h; cases h)
  | .uint _, _ => by rw [decode_json.eq_def]; dsimp only; (repeat' split) <;> (intro h; cases h)
  | .int64 _, _ => by rw [decode_json.eq_def]; dsimp only; (repeat' split) <;> (intro h; cases h)
  | .uint64 _, _ => by rw [decode_json.eq_def]; dsimp only; (repeat' split) <;> (intro h; cases h)

theorem decodeElems_returns : ∀ (l : List Rapid.Val) (v : List GC), decodeElems l v ≠ .diverge
  | [], _ => by intro h; cases h
  | d :: l, [] => by intro h; cases h
  | d :: l, x :: v => by
    have h1 := decode_returns d x
    have h2 := decodeElems_returns l v
    rw [decodeElems]
    split
    · split <;> first | exact absurd ‹_› h2 | (intro h; cases h)
    all_goals first | exact absurd ‹_› h1 | (intro h; cases h)

theorem decodeMembers_returns : ∀ (l : List (Bytes × Rapid.Val)) (e : Entries), decodeMembers l e ≠ .diverge
  | [], _ => by intro h; cases h
  | (k, d) :: l, e => by
    have h1 := decode_returns d
    have h2 := decodeMembers_returns l
    rw [decodeMembers]
    split
    · exact h2 _
    all_goals first | exact absurd ‹_› (h1 _) | (intro h; cases h)

end

/-- from_json comes to an end, whatever the text is. -/
theorem C70_returns (conv : Bytes → Option F64) (text : Bytes) (g : GC) : from_json conv text g ≠ .diverge := by
  obtain ⟨x, hx⟩ := Rapid.parse_total (conv := conv) text
  rw [from_json, hx]
  cases x with
  | none => intro h; cases h
  | some v =>
    dsimp only
    have h1 := decode_returns v g
    cases hd : decode_json v g with
    | ok g' u =>
      have h2 := collapse_returns g'
      rw [Res.bind]
      cases hc : collapse g' with
      | diverge => exact absurd hc h2
      | _ => intro h; cases h
    | diverge => exact absurd hd h1
    | _ => intro h; cases h

/-- A text with the escapes, both kinds of numbers and layout. -/
def jsonExample : Bytes := str " {\"k\" : [1, -2.5e1,\t\"\\u00e9\\n\"], \"m\":[[1,2],[3,4]] }\n"

def jsonDoc : Doc := .obj [(str "k", .arr [.int (str "1"), .num (str "-2.5e1"), .string [0xC3, 0xA9, 10]]),
  (str "m", .arr [.arr [.int (str "1"), .int (str "2")], .arr [.int (str "3"), .int (str "4")]])]

/-! ## C71 -/

/-- **C71**, exactly: in an empty container, the tree of the document is stored (`stored`, see there what becomes of big
integers and of strings with a NUL), and collapse() is applied to it. -/
theorem C71_stores (conv : Bytes → Option F64) (text : Bytes) (d : Doc) (h : JsonText d (cstr text)) (hr : Readable conv d)
    (hd : Distinct d) :
    from_json conv text notype = (collapse (stored conv d)).bind fun g _ => .ok g true := by
  have h1 := (docVal_some d (lits_of h)).2 hr
  obtain ⟨v, hv⟩ := Option.isSome_iff_exists.1 h1
  rw [from_json, Rapid.parse_doc h, hv]
  simp only [decode_tree d v hv (lits_of h) hd, Res.bind]

/-- **C71**, exactly, for every container and every document: what is read is stored over what is there (`over`), and
then collapsed. -/
theorem C71_over (conv : Bytes → Option F64) (text : Bytes) (d : Doc) (g : GC) (h : JsonText d (cstr text))
    (hr : Readable conv d) (hd : ∀ ds, Part (.arr ds) d → ds.length < 2 ^ 32) :
    from_json conv text g = (collapse (over conv d g)).bind fun g' _ => .ok g' true := by
  have h1 := (docVal_some d (lits_of h)).2 hr
  obtain ⟨v, hv⟩ := Option.isSome_iff_exists.1 h1
  rw [from_json, Rapid.parse_doc h, hv]
  simp only [decode_over d v g hv (lits_of h) hd, Res.bind]

theorem Kept.distinct {d : Doc} (h : Kept d) : Distinct d where
  keys ms hp := by
    have : (ms.map fun e => cstr e.1) = ms.map Prod.fst :=
      List.map_congr_left fun e he => cstr_clean (h.names ms hp e he)
    rw [this]; exact h.keys ms hp
  size := h.size

/-- **C71**: a JSON text read into an empty container leaves the data of the document there.  Partial: documents as in
`Kept`. -/
theorem C71_data_partial (conv : Bytes → Option F64) (text : Bytes) (d : Doc) (h : JsonText d (cstr text))
    (hr : Readable conv d) (hk : Kept d) :
    ∃ g, from_json conv text notype = .ok g true ∧ SameTree (view (faithful conv d)) (view g) := by
  obtain ⟨g, h1, h2⟩ := faithful_collapse (conv := conv) hk
  exact ⟨g, by rw [C71_stores conv text d h hr (Kept.distinct hk), stored_faithful d hk, h1]; rfl, h2⟩

/-- The numbers of the examples. -/
def convExample : Bytes → Option F64 := fun l =>
  if l = str "-2.5e1" then some ⟨0xC039000000000000⟩ else if l = str "1e300" then some ⟨0x7E37E43C8800759C⟩ else none

example : from_json convExample jsonExample notype = .ok (map [(str "k", vector [int 1, real ⟨0xC039000000000000⟩,
    string [0xC3, 0xA9, 10]]), (str "m", matInt ⟨2, 2, [1, 2, 3, 4]⟩)]) true := by decide +kernel

/-- null empties, an empty array leaves the elements of a vector, members are added to a map. -/
example : from_json convExample (str "{\"a\":null,\"b\":[],\"c\":[1,{\"y\":2}]}")
    (map [(str "a", int 1), (str "b", vector [string (str "x"), bool true]), (str "c", vector [map [], map [(str "x", int 7)], int 3])]) =
    .ok (map [(str "a", notype), (str "b", vector [string (str "x"), bool true]),
      (str "c", vector [int 1, map [(str "x", int 7), (str "y", int 2)]])]) true := by decide +kernel

theorem spells_next {t : Tok} {ts : List Tok} {w r : Bytes} (h : Rfc.Written t w) (hs : Rfc.Spells ts r) :
    Rfc.Spells (t :: ts) (w ++ r) := Rfc.Spells.cons (b := []) (by unfold Rfc.Blanks; decide) h hs

theorem spells_space {t : Tok} {ts : List Tok} {w r : Bytes} (c : Byte) (hc : c = 32 ∨ c = 9 ∨ c = 10 ∨ c = 13)
    (h : Rfc.Written t w) (hs : Rfc.Spells ts r) : Rfc.Spells (t :: ts) ([c] ++ w ++ r) :=
  Rfc.Spells.cons (b := [c]) (fun x hx => by rw [List.mem_singleton] at hx; rw [hx]; exact hc) h hs

theorem digit_lit (c : Byte) (h : 49 ≤ c.toNat ∧ c.toNat ≤ 57) : Rfc.IntLit [c] := by
  refine ⟨[], [c], rfl, .inl rfl, .inr ⟨⟨by simp, fun x hx => ?_⟩, ?_⟩⟩
  · rw [List.mem_singleton] at hx
    subst hx
    exact ⟨by omega, by omega⟩
  · rw [List.head?_cons]
    intro e
    rw [Option.some.injEq] at e
    rw [e] at h
    exact absurd h.1 (by decide)

theorem jsonExample_text : JsonText jsonDoc (cstr jsonExample) := by
  have key : ∀ c : Byte, 0x20 ≤ c.toNat → c ≠ 34 → c ≠ 92 → Rfc.Written (.string [c]) (34 :: [c] ++ [34]) :=
    fun c h1 h2 h3 => .string (.plain h1 h2 h3 .nil)
  have one := fun c h => Rfc.Written.int (digit_lit c h)
  have num : Rfc.Written (.num (str "-2.5e1")) (str "-2.5e1") := by
    refine .num ⟨[45], [50], str ".5", str "e1", by decide, .inr rfl, .inr ⟨by unfold Digits; decide, by decide⟩, .inr ⟨str "5", by decide, by unfold Digits; decide⟩,
      .inr ⟨101, [], str "1", by decide, .inl rfl, ?_, by unfold Digits; decide⟩, .inl (by decide)⟩
    unfold Sign; decide
  have body : Rfc.Body [0xC3, 0xA9, 10] (str "\\u00e9\\n") := by
    have h : Hex4 (str "00e9") 0xE9 := ⟨48, 48, 101, 57, 0, 0, 14, 9, by decide, by unfold Hex; decide, by unfold Hex; decide,
      by unfold Hex; decide, by unfold Hex; decide, by decide⟩
    have := Rfc.Body.unicode h (by decide) (.escape (e := 110) (c := 10) (by decide) .nil)
    exact this
  have last : Rfc.Spells [] (str "\n") := .nil (by unfold Rfc.Blanks; decide)
  have h := spells_space 32 (.inl rfl) .lcurly <| spells_next (key 107 (by decide) (by decide) (by decide)) <|
    spells_space 32 (.inl rfl) .colon <| spells_space 32 (.inl rfl) .lbrack <| spells_next (one 49 (by decide)) <|
    spells_next .comma <| spells_space 32 (.inl rfl) num <| spells_next .comma <| spells_space 9 (by decide) (.string body) <|
    spells_next .rbrack <| spells_next .comma <| spells_space 32 (.inl rfl) (key 109 (by decide) (by decide) (by decide)) <|
    spells_next .colon <| spells_next .lbrack <| spells_next .lbrack <| spells_next (one 49 (by decide)) <| spells_next .comma <|
    spells_next (one 50 (by decide)) <| spells_next .rbrack <| spells_next .comma <| spells_next .lbrack <|
    spells_next (one 51 (by decide)) <| spells_next .comma <| spells_next (one 52 (by decide)) <| spells_next .rbrack <|
    spells_next .rbrack <| spells_space 32 (.inl rfl) .rcurly last
  have e : cstr jsonExample = jsonExample := by decide +kernel
  rw [e]
  exact h

mutual
/-- The parts of a document, for the examples. -/
def partsOf : Doc → List Doc
  | .arr ds => .arr ds :: partsOfL ds
  | .obj ms => .obj ms :: partsOfM ms
  | d => [d]
def partsOfL : List Doc → List Doc
  | [] => []
  | d :: ds => partsOf d ++ partsOfL ds
def partsOfM : List (Bytes × Doc) → List Doc
  | [] => []
  | (_, d) :: ms => partsOf d ++ partsOfM ms
end

theorem partsOfL_mem : ∀ {ds : List Doc} {d y : Doc}, d ∈ ds → y ∈ partsOf d → y ∈ partsOfL ds
  | x :: ds, d, y, h, hy => by
    rw [partsOfL, List.mem_append]
    rcases List.mem_cons.1 h with rfl | h
    · exact .inl hy
    · exact .inr (partsOfL_mem h hy)

theorem partsOfM_mem : ∀ {ms : List (Bytes × Doc)} {k : Bytes} {d y : Doc}, (k, d) ∈ ms → y ∈ partsOf d → y ∈ partsOfM ms
  | (l, x) :: ms, k, d, y, h, hy => by
    rw [partsOfM, List.mem_append]
    rcases List.mem_cons.1 h with e | h
    · simp only [Prod.mk.injEq] at e
      exact .inl (e.2 ▸ hy)
    · exact .inr (partsOfM_mem h hy)

theorem part_mem {y d : Doc} (h : Part y d) : y ∈ partsOf d := by
  induction h with
  | self => cases y <;> exact List.mem_cons_self
  | elem hx _ ih => exact List.mem_cons_of_mem _ (partsOfL_mem hx ih)
  | value hx _ ih => exact List.mem_cons_of_mem _ (partsOfM_mem hx ih)

theorem jsonExample_kept : Readable convExample jsonDoc ∧ Kept jsonDoc := by
  have hi : ∀ l, Part (.int l) jsonDoc → l = str "1" ∨ l = str "2" ∨ l = str "3" ∨ l = str "4" := by
    intro l h
    have := part_mem h
    simp [jsonDoc, partsOf, partsOfL, partsOfM] at this
    tauto
  have hs : ∀ l, Part (.string l) jsonDoc → l = [0xC3, 0xA9, 10] := by
    intro l h
    have := part_mem h
    simp [jsonDoc, partsOf, partsOfL, partsOfM] at this
    exact this
  have ho : ∀ l, Part (.obj l) jsonDoc → Doc.obj l = jsonDoc := by
    intro l h
    have := part_mem h
    simp [jsonDoc, partsOf, partsOfL, partsOfM] at this
    rw [this]; rfl
  have ha : ∀ l, Part (.arr l) jsonDoc → l = [.int (str "1"), .num (str "-2.5e1"), .string [0xC3, 0xA9, 10]] ∨
      l = [.arr [.int (str "1"), .int (str "2")], .arr [.int (str "3"), .int (str "4")]] ∨
      l = [.int (str "1"), .int (str "2")] ∨ l = [.int (str "3"), .int (str "4")] := by
    intro l h
    have := part_mem h
    simp [jsonDoc, partsOf, partsOfL, partsOfM] at this
    tauto
  refine ⟨(docVal_some jsonDoc (lits_of jsonExample_text)).1 (by decide +kernel), ?_, ?_, ?_, ?_, ?_, ?_, ?_, ?_⟩
  · intro l h; rw [hs l h]; decide
  · intro l h e he
    have := ho l h
    rw [jsonDoc, Doc.obj.injEq] at this
    subst this
    simp only [List.mem_cons, List.not_mem_nil, or_false] at he
    rcases he with rfl | rfl <;> decide
  · intro l h
    have := ho l h
    rw [jsonDoc, Doc.obj.injEq] at this
    subst this
    decide
  · intro l h
    rcases ha l h with rfl | rfl | rfl | rfl <;> decide
  · intro l h
    rcases hi l h with rfl | rfl | rfl | rfl <;> decide +kernel
  · intro l h
    rcases ha l h with rfl | rfl | rfl | rfl
    · right; intro x hx l e; subst e; simp at hx
    · left; simp
    · right; intro x hx l e; subst e; simp at hx
    · right; intro x hx l e; subst e; simp at hx
  · intro l h r hr
    rcases ha l h with rfl | rfl | rfl | rfl <;> simp at hr
    rcases hr with rfl | rfl <;> decide
  · left
    intro l h
    rcases hi l h with rfl | rfl | rfl | rfl <;> decide +kernel

example : ∃ g, from_json convExample jsonExample notype = .ok g true ∧ SameTree (view (faithful convExample jsonDoc)) (view g) :=
  C71_data_partial convExample jsonExample jsonDoc jsonExample_text jsonExample_kept.1 jsonExample_kept.2

/-- What is not kept: a string is cut at a NUL; keys of a map that was there remain; a key given twice gets both values
mixed; a number beside a list of one number becomes a list. -/
theorem C71_negation :
    from_json convExample (str "\"a\\u0000b\"") notype = .ok (string (str "a")) true ∧
    from_json convExample (str "{\"a\":1}") (map [(str "b", int 2)]) = .ok (map [(str "a", int 1), (str "b", int 2)]) true ∧
    from_json convExample (str "{\"a\":{\"x\":1},\"a\":{\"y\":2}}") notype =
      .ok (map [(str "a", map [(str "x", int 1), (str "y", int 2)])]) true ∧
    from_json convExample (str "[1,[2]]") notype = .ok (matInt ⟨1, 2, [1, 2]⟩) true := by
  decide +kernel

/-- A JSON text can make from_json throw, the container changed. -/
theorem C71_throw_negation :
    from_json convExample (str "[\"x\",[1]]") notype = .throw (vector [string (str "x"), vecInt [1]]) := by decide +kernel

/-- A JSON text can make from_json convert a number that no int holds to int, which is undefined behaviour. -/
theorem C71_ub_negation : from_json convExample (str "[1e300,[1]]") notype = .ub := by decide +kernel

/-! ## C72 -/

/-- **C72**: a text that is an integer, read into any container, leaves exactly this (`storedInt`). -/
theorem C72_integers (conv : Bytes → Option F64) (text l : Bytes) (g : GC) (h : JsonText (.int l) (cstr text))
    (hr : (-2 ^ 63 ≤ intValue l ∧ intValue l < 2 ^ 64) ∨ conv l ≠ none) :
    from_json conv text g = .ok (storedInt conv l) true := by
  have hl := lits_of h l .self
  have hs : (Rapid.docVal conv (.int l)).isSome := by
    rw [docVal_some _ (lits_of h)]
    refine ⟨fun l' hp => ?_, fun l' hp => ?_⟩
    · cases hp
    · cases hp
      intro hn
      exact hr.resolve_left hn
  obtain ⟨v, hv⟩ := Option.isSome_iff_exists.1 hs
  rw [from_json, Rapid.parse_doc h, hv]
  simp only [intVal_some hl hv g, Res.bind]
  have : collapse (storedInt conv l) = .ok (storedInt conv l) () := by
    unfold storedInt numTree
    dsimp only
    split
    · rfl
    · split
      · rfl
      · split <;> rfl
  rw [this]

/-- Integers from -2^63 to 2^63-1 are stored with their value, but those from 2^31 to 2^32-1. -/
theorem C72_value_partial (conv : Bytes → Option F64) (text l : Bytes) (g : GC) (h : JsonText (.int l) (cstr text))
    (h1 : -2 ^ 63 ≤ intValue l) (h2 : intValue l < 2 ^ 63) (h3 : ¬ (2 ^ 31 ≤ intValue l ∧ intValue l < 2 ^ 32)) :
    (∃ i, from_json conv text g = .ok (int i) true ∧ i.toInt = intValue l) ∨
    ∃ i, from_json conv text g = .ok (long i) true ∧ i.toInt = intValue l := by
  rw [C72_integers conv text l g h (.inl ⟨h1, by omega⟩), storedInt]
  by_cases hc : -2 ^ 31 ≤ intValue l ∧ intValue l < 2 ^ 32
  · rw [if_pos hc]
    exact .inl ⟨_, rfl, by rw [BitVec.toInt_ofInt, Int.bmod_def]; omega⟩
  · rw [if_neg hc, if_pos (by omega)]
    exact .inr ⟨_, rfl, whole64 h1 h2⟩

/-- The integers from 2^31 to 2^32-1, and those from 2^63 to 2^64-1, are stored as negative numbers. -/
theorem C72_negation (conv : Bytes → Option F64) (text l : Bytes) (g : GC) (h : JsonText (.int l) (cstr text)) :
    (2 ^ 31 ≤ intValue l → intValue l < 2 ^ 32 →
      ∃ i, from_json conv text g = .ok (int i) true ∧ i.toInt = intValue l - 2 ^ 32) ∧
    (2 ^ 63 ≤ intValue l → intValue l < 2 ^ 64 →
      ∃ i, from_json conv text g = .ok (long i) true ∧ i.toInt = intValue l - 2 ^ 64) := by
  refine ⟨fun h1 h2 => ?_, fun h1 h2 => ?_⟩
  · rw [C72_integers conv text l g h (.inl (by omega)), storedInt]
    rw [if_pos (by omega)]
    exact ⟨_, rfl, by rw [BitVec.toInt_ofInt, Int.bmod_def]; omega⟩
  · rw [C72_integers conv text l g h (.inl (by omega)), storedInt]
    rw [if_neg (by omega), if_pos (by omega)]
    exact ⟨_, rfl, by rw [BitVec.toInt_ofInt, Int.bmod_def]; omega⟩

/-- 3000000000 is in the first range. -/
example (conv : Bytes → Option F64) (g : GC) : ∃ i, from_json conv (str "3000000000") g = .ok (int i) true ∧
    i.toInt = -1294967296 := by
  have hl : Rfc.IntLit (str "3000000000") := ⟨[], _, rfl, .inl rfl, .inr ⟨by unfold Digits; decide, by decide⟩⟩
  have e : cstr (str "3000000000") = str "3000000000" := by decide +kernel
  have hi : intValue (str "3000000000") = 3000000000 := by decide +kernel
  have h : JsonText (.int (str "3000000000")) (cstr (str "3000000000")) := by
    rw [e]
    have := spells_next (.int hl) (.nil (b := []) (by unfold Rfc.Blanks; decide))
    rw [List.append_nil] at this
    exact this
  have := (C72_negation conv _ _ g h).1 (by rw [hi]; decide) (by rw [hi]; decide)
  rw [hi] at this
  exact this

end GC
end GCV
