import Verif.Lemmas.YamlBack
import Verif.Props.Writer

/-!
# C69: writing YAML and reading it back
-/

namespace GCV
namespace GC
open YamlText
open Json (Doc)

/-- **C69**: the text written by to_yaml is YAML: it stands for a document, and the document says what is in the
container.  Partial: containers as in `YamlFine`. -/
theorem C69_document_partial (f : Fmt) (g : GC) (h : YamlFine f g) :
    ∃ text d, to_yaml f [] g = .ok text ∧ Describes f g d ∧ Text d text := by
  obtain ⟨t, d, h1, h2, h3⟩ := write_yaml g h (n := -1) (k := 0) (by omega)
  exact ⟨t, d, by rw [to_yaml, show ([] : Bytes) = spaces 0 from rfl, h1]; rfl, h2, h3⟩

/-- The same behind a dash or a key at column `n`, written with a prefix of more than `n` spaces. -/
theorem C69_nested_partial (f : Fmt) (n k : Nat) (g : GC) (hk : n < k) (h : YamlFine f g) :
    ∃ text d, to_yaml f (List.replicate k 32) g = .ok text ∧ Describes f g d ∧ Node n d text := by
  obtain ⟨t, d, h1, h2, h3⟩ := write_yaml g h (n := n) (k := k) (by omega)
  exact ⟨t, d, by rw [to_yaml, show List.replicate k (32 : Byte) = spaces k from rfl, h1]; rfl, h2, h3⟩

/-- A YAML text stands for one document only. -/
theorem C69_unambiguous (d d' : Doc) (t : Bytes) (h : Text d t) (h' : Text d' t) : d = d' :=
  (node_unique h h' (.inl rfl) (.inl rfl) rfl).1

/-- **C69**: two containers with the same YAML text are described by the same document. -/
theorem C69_faithful_partial (f : Fmt) (g g' : GC) (h : YamlFine f g) (h' : YamlFine f g')
    (he : to_yaml f [] g = to_yaml f [] g') : ∃ d, Describes f g d ∧ Describes f g' d := by
  obtain ⟨t, d, h1, h2, h3⟩ := C69_document_partial f g h
  obtain ⟨t', d', h1', h2', h3'⟩ := C69_document_partial f g' h'
  rw [h1, h1'] at he
  cases he
  cases C69_unambiguous _ _ _ h3 h3'
  exact ⟨d, h2, h2'⟩

theorem nodes_unique {strtod : Bytes → Option F64} {d : Doc} {y : Yaml} (h : NodesOf strtod d y) :
    ∀ {y'}, NodesOf strtod d y' → y = y' := by
  induction h with
  | null => intro y' h'; cases h'; rfl
  | bool => intro y' h'; cases h'; rfl
  | string => intro y' h'; cases h'; rfl
  | int h => intro y' h'; cases h' with | int h' => rw [BitVec.eq_of_toInt_eq (h.symm.trans h')]
  | num h => intro y' h'; cases h' with | num h' => rw [Option.some.inj (h.symm.trans h')]
  | @arr ds ys hl hd ih =>
    intro y' h'
    cases h' with
    | @arr _ ys' hl' hd' =>
      congr 1
      apply List.ext_getElem?
      intro i
      cases hi : ds[i]? with
      | none =>
        rw [List.getElem?_eq_none_iff] at hi
        rw [List.getElem?_eq_none_iff.2 (by omega), List.getElem?_eq_none_iff.2 (by omega)]
      | some d =>
        obtain ⟨a, ha⟩ := get_of_lt hl.symm hi
        obtain ⟨a', ha'⟩ := get_of_lt hl'.symm hi
        rw [ha, ha', ih i d a hi ha (hd' i d a' hi ha')]
  | @obj ms ys hk hd ih =>
    intro y' h'
    cases h' with
    | @obj _ ys' hk' hd' =>
      have hl : ms.length = ys.length := by simpa using congrArg List.length hk
      have hl' : ms.length = ys'.length := by simpa using congrArg List.length hk'
      congr 1
      apply List.ext_getElem?
      intro i
      cases hi : ms[i]? with
      | none =>
        rw [List.getElem?_eq_none_iff] at hi
        rw [List.getElem?_eq_none_iff.2 (by omega), List.getElem?_eq_none_iff.2 (by omega)]
      | some d =>
        obtain ⟨a, ha⟩ := get_of_lt hl.symm hi
        obtain ⟨a', ha'⟩ := get_of_lt hl'.symm hi
        have h1 := ih i d a hi ha (hd' i d a' hi ha')
        have h2 := congrArg (fun l => l[i]?) hk
        have h3 := congrArg (fun l => l[i]?) hk'
        simp only [List.getElem?_map, hi, ha, ha', Option.map_some, Option.some.injEq] at h2 h3
        rw [ha, ha', Prod.ext (h2.symm.trans h3) h1]

/-- There is a parser as asked for. -/
theorem parser_exists (strtod : Bytes → Option F64) : ∃ parse, Parses strtod parse := by
  classical
  refine ⟨fun t => if h : ∃ y d, Text d t ∧ NodesOf strtod d y then some h.choose else none, fun d t y h1 h2 => ?_⟩
  have h : ∃ y d, Text d t ∧ NodesOf strtod d y := ⟨y, d, h1, h2⟩
  dsimp only
  rw [dif_pos h]
  obtain ⟨d', h3, h4⟩ := h.choose_spec
  cases C69_unambiguous _ _ _ h1 h3
  rw [nodes_unique h4 h2]

/-- **C69**: what to_yaml writes, from_yaml reads back as the same data, given a parser that delivers the nodes of the
texts of `Text`.  Partial: containers as in `YamlFine` and `YamlBack`. -/
theorem C69_round_trip_partial (f : Fmt) (strtod : Bytes → Option F64) (parse : Bytes → Option Yaml) (hp : Parses strtod parse)
    (g : GC) (h : YamlFine f g) (hb : YamlBack f strtod g) :
    ∃ text g', to_yaml f [] g = .ok text ∧ from_yaml (parse text) notype = .ok g' true ∧ SameTree (view g) (view g') := by
  obtain ⟨t, d, h1, h2, h3⟩ := C69_document_partial f g h
  obtain ⟨m, hm⟩ : ∃ m, LeavesOk f strtod m (view g) := by
    rcases hb.nums with hl | hr
    · exact ⟨true, fun r hr => ⟨hb.reals r hr, rfl⟩, hb.plain, fun _ => hl⟩
    · exact ⟨false, fun r h => absurd h (hr r), hb.plain, fun h => absurd h (by simp)⟩
  obtain ⟨y, h4, h5⟩ := tree_nodes (tree_doc h2 hb.full) hm
  obtain ⟨g2, g', h6, h7, h8⟩ := C49_yaml_partial y (nodes_ok h5 hb.keys hb.size) (nodes_flat h5 hb.apart hb.cells)
  exact ⟨t, g', h1, by rw [hp d t y h3 h4]; exact h7, SameTree.trans (nodes_same h5 hb.keys g2 h6) h8⟩

/-- **C69**: to_yaml returns, for every container whose matrices are full (at most 2^32 elements) and every state of the
stream: no exception, no undefined behaviour. -/
theorem C69_returns (f : Fmt) (pre : Bytes) (g : GC) (hex : Bool)
    (h : ∀ x nr nc, Inside x g → matDims x = some (nr, nc) → sizeOk x = true ∧ nr * nc < 2 ^ 32) :
    ∃ r, toYaml f pre g hex = .ok r := by
  have mat : ∀ {α : Type} (txt : α → Bytes) (m : Mat α) (pre : Bytes) (hex : Bool), m.wf = true → m.nr * m.nc < 2 ^ 32 →
      ∃ r, ((yamlMat pre txt m).bind fun t => Out.ok (t, hex)) = .ok r := by
    intro α txt m pre hex h1 h2
    obtain ⟨cols, hc, -⟩ := Json.columns_full h1 h2
    exact ⟨_, by rw [yamlMat, hc]; rfl⟩
  refine (GC.induct (P := fun g => (∀ x nr nc, Inside x g → matDims x = some (nr, nc) → sizeOk x = true ∧ nr * nc < 2 ^ 32) →
      ∀ pre hex, ∃ r, toYaml f pre g hex = .ok r)
    (PL := fun v => (∀ y ∈ v, ∀ x nr nc, Inside x y → matDims x = some (nr, nc) → sizeOk x = true ∧ nr * nc < 2 ^ 32) →
      ∀ pre hex, ∃ r, toYamlElems f pre v hex = .ok r)
    (PM := fun m => (∀ y ∈ m, ∀ x nr nc, Inside x y.2 → matDims x = some (nr, nc) → sizeOk x = true ∧ nr * nc < 2 ^ 32) →
      ∀ pre hex, ∃ r, toYamlEntries f pre m hex = .ok r) ?_ ?_ ?_ ?_ ?_ ?_ ?_).1 g h pre hex
  · intro g hv hm h pre hex
    cases g with
    | vector => exact absurd rfl (hv _)
    | map => exact absurd rfl (hm _)
    | matInt m => exact mat _ m pre hex (h _ _ _ .self rfl).1 (h _ _ _ .self rfl).2
    | matLong m => exact mat _ m pre hex (h _ _ _ .self rfl).1 (h _ _ _ .self rfl).2
    | matReal m => exact mat _ m pre hex (h _ _ _ .self rfl).1 (h _ _ _ .self rfl).2
    | matComplex m => exact mat _ m pre hex (h _ _ _ .self rfl).1 (h _ _ _ .self rfl).2
    | _ => exact ⟨_, rfl⟩
  · intro v ih h pre hex
    obtain ⟨r, hr⟩ := ih (fun y hy x nr nc hx => h x nr nc (.elem hy hx)) pre hex
    rw [toYaml, hr]
    split <;> exact ⟨_, rfl⟩
  · intro m ih h pre hex
    obtain ⟨r, hr⟩ := ih (fun y hy x nr nc hx => h x nr nc (.value (k := y.1) hy hx)) pre hex
    rw [toYaml, hr]
    split <;> exact ⟨_, rfl⟩
  · intro _ pre hex; exact ⟨_, rfl⟩
  · intro x r ihx ihr h pre hex
    obtain ⟨a, ha⟩ := ihx (h x (.head _)) (pre ++ str "  ") hex
    obtain ⟨b, hb⟩ := ihr (fun y hy => h y (.tail _ hy)) pre a.2
    exact ⟨_, by rw [toYamlElems, ha]; simp only [Out.bind, hb]; rfl⟩
  · intro _ pre hex; exact ⟨_, rfl⟩
  · intro k x r ihx ihr h pre hex
    obtain ⟨a, ha⟩ := ihx (h (k, x) (.head _)) (pre ++ str "  ") hex
    obtain ⟨b, hb⟩ := ihr (fun y hy => h y (.tail _ hy)) pre a.2
    exact ⟨_, by rw [toYamlEntries, ha]; simp only [Out.bind, hb]; rfl⟩

example : ∃ r, toYaml ⟨fun _ => [], fun _ => []⟩ [] (vector [matInt ⟨2, 1, [1, 2]⟩, pointer 0]) true = .ok r := by
  refine C69_returns _ _ _ _ fun x nr nc hx hm => ?_
  cases hx with
  | self => simp [matDims] at hm
  | elem hx hi =>
    simp at hx
    rcases hx with rfl | rfl <;> cases hi <;> simp [matDims] at hm
    obtain ⟨rfl, rfl⟩ := hm; decide

/-! ## Examples -/

theorem key_letter {c : Byte} (h : Letter c) (hn : c ≠ 121 ∧ c ≠ 110 ∧ c ≠ 89 ∧ c ≠ 78) : Key [c] := by
  refine ⟨⟨c, [], rfl, .inl h⟩, by intro d hd; rw [List.mem_singleton.1 hd]; exact .inl h, ?_⟩
  simp only [List.map_cons, List.map_nil]
  revert c; unfold Letter; decide +kernel

theorem writeExample_yaml : YamlFine fmt0 writeExample := by
  unfold writeExample
  refine ⟨by simp, by decide, key_letter (by unfold Letter; decide) (by decide), by simp [YamlFine],
    key_letter (by unfold Letter; decide) (by decide), ⟨by simp, ?_⟩,
    key_letter (by unfold Letter; decide) (by decide), ⟨by decide, by decide, by decide, by decide⟩, trivial⟩
  exact ⟨⟨utf8_ascii _ (by decide), by decide⟩, .inr fmt0_lit, trivial, trivial⟩

example : ∃ text d, to_yaml fmt0 [] writeExample = .ok text ∧ Describes fmt0 writeExample d ∧ Text d text :=
  C69_document_partial fmt0 _ writeExample_yaml

example : to_yaml fmt0 [] writeExample = .ok (str
  "\na: [ 1, -2 ]\nb: \n  - \"x\\\"y\"\n  - 0.5\n  - null\nm: \n  - [ 1, 2 ]\n  - [ 3, 4 ]\n") := by decide +kernel

/-- A map with a matrix and a list of strings, numbers and nothing. -/
def yamlExample : GC := map [(str "a", matInt ⟨2, 2, [1, 2, 3, 4]⟩),
  (str "b", vector [string (str "x\"y"), real ⟨0x3FE0000000000000⟩, notype])]

theorem yamlExample_fine : YamlFine fmt0 yamlExample := by
  unfold yamlExample
  refine ⟨by simp, by decide, key_letter (by unfold Letter; decide) (by decide), ⟨by decide, by decide, by decide, by decide⟩,
    key_letter (by unfold Letter; decide) (by decide), ⟨by simp, ?_⟩, trivial⟩
  exact ⟨⟨utf8_ascii _ (by decide), by decide⟩, .inr fmt0_lit, trivial, trivial⟩

theorem yamlExample_back : YamlBack fmt0 (fun _ => some ⟨0x3FE0000000000000⟩) yamlExample := by
  have hv : view yamlExample = .dict [(str "a", .list [.list [.leaf (int 1), .leaf (int 2)], .list [.leaf (int 3), .leaf (int 4)]]),
      (str "b", .list [.leaf (string (str "x\"y")), .leaf (real ⟨0x3FE0000000000000⟩), .leaf notype])] := by
    rfl
  have hin : ∀ t, Part t (view yamlExample) → t = view yamlExample ∨
      t = .list [.list [.leaf (int 1), .leaf (int 2)], .list [.leaf (int 3), .leaf (int 4)]] ∨
      t = .list [.leaf (int 1), .leaf (int 2)] ∨ t = .list [.leaf (int 3), .leaf (int 4)] ∨
      t = .list [.leaf (string (str "x\"y")), .leaf (real ⟨0x3FE0000000000000⟩), .leaf notype] ∨
      t = .leaf (int 1) ∨ t = .leaf (int 2) ∨ t = .leaf (int 3) ∨ t = .leaf (int 4) ∨ t = .leaf (string (str "x\"y")) ∨
      t = .leaf (real ⟨0x3FE0000000000000⟩) ∨ t = .leaf notype := by
    intro t ht
    rw [hv] at ht ⊢
    cases ht with
    | self => exact .inl rfl
    | value hx hi =>
      simp at hx
      rcases hx with ⟨rfl, rfl⟩ | ⟨rfl, rfl⟩
      · cases hi with
        | self => simp
        | elem hx hi =>
          simp at hx
          rcases hx with rfl | rfl <;>
          · cases hi with
            | self => simp
            | elem hx hi => simp at hx; rcases hx with rfl | rfl <;> cases hi <;> simp
      · cases hi with
        | self => simp
        | elem hx hi => simp at hx; rcases hx with rfl | rfl | rfl <;> cases hi <;> simp
  refine ⟨?_, ?_, ?_, ?_, ?_, ?_, ?_, ?_⟩
  · intro x nr nc hx hm
    unfold yamlExample at hx
    cases hx with
    | self => simp [matDims] at hm
    | value hx hi =>
      simp at hx
      rcases hx with ⟨rfl, rfl⟩ | ⟨rfl, rfl⟩
      · cases hi
        simp [matDims] at hm
        obtain ⟨rfl, rfl⟩ := hm; rfl
      · cases hi with
        | self => simp [matDims] at hm
        | elem hx hi => simp at hx; rcases hx with rfl | rfl | rfl <;> cases hi <;> simp [matDims] at hm
  · intro m hm
    rcases hin _ hm with h | h | h | h | h | h | h | h | h | h | h | h <;> (try cases h; done)
    rw [hv] at h
    cases h
    rw [List.pairwise_cons]
    refine ⟨?_, by simp⟩
    intro p hp
    simp at hp
    subst hp
    decide
  · intro l hl
    rcases hin _ hl with h | h | h | h | h | h | h | h | h | h | h | h <;> cases h <;> simp
  · intro l hl
    rcases hin _ hl with h | h | h | h | h | h | h | h | h | h | h | h <;> cases h <;> simp
  · intro l hl s hs
    rcases hin _ hl with h | h | h | h | h | h | h | h | h | h | h | h <;> cases h <;> simp at hs
    rcases hs with rfl | rfl <;> simp
  · intro r hr
    rcases hin _ hr with h | h | h | h | h | h | h | h | h | h | h | h <;> cases h
    refine ⟨fun _ => rfl, fun h => ?_⟩
    exfalso
    obtain ⟨a, b, e, h1, h2⟩ := h
    have := (intLit_bytes ⟨a, b, e, h1, h2⟩).2 46 (by simp [fmt0]; decide)
    revert this; decide
  · intro c hc
    rcases hin _ hc with h | h | h | h | h | h | h | h | h | h | h | h <;> cases h
  · refine .inl fun l hl => ?_
    rcases hin _ hl with h | h | h | h | h | h | h | h | h | h | h | h <;> cases h

example : ∃ (parse : Bytes → Option Yaml) (text : Bytes) (g' : GC), to_yaml fmt0 [] yamlExample = .ok text ∧ from_yaml (parse text) notype = .ok g' true ∧
    SameTree (view yamlExample) (view g') := by
  obtain ⟨parse, hp⟩ := parser_exists fun _ => some ⟨0x3FE0000000000000⟩
  exact ⟨parse, C69_round_trip_partial fmt0 _ parse hp _ yamlExample_fine yamlExample_back⟩

/-! ## Where it fails -/

theorem text_head {d : Doc} {t : Bytes} (h : Text d t) : ∃ c u, t = c :: u ∧ c ≠ 32 := by
  cases h with
  | @flow _ _ t h =>
    cases h with
    | scalar h =>
      rcases scalar_cases h with ⟨s, b, rfl, rfl, hq⟩ | ⟨hne, hw⟩
      · exact ⟨_, _, rfl, by decide⟩
      · cases t with
        | nil => exact absurd rfl hne
        | cons c t => exact ⟨_, _, rfl, wordByte_ne (hw c (.head _)) (by simp)⟩
    | seq => exact ⟨_, _, rfl, by decide⟩
  | seq => exact ⟨_, _, rfl, by decide⟩
  | map => exact ⟨_, _, rfl, by decide⟩

/-- **C69** fails for containers without elements: packed vectors are written as ` ]` alone, which is no YAML; empty
vectors and maps as null, like the container without content. -/
theorem C69_empty_negation (f : Fmt) (pre : Bytes) :
    (∀ g, shape g.ty = 1 → elems g = [] → g.ty ≠ .VEC_POINTER → to_yaml f pre g = .ok (str " ]\n")) ∧
    (¬ ∃ d, Text d (str " ]\n")) ∧
    to_yaml f pre (vector []) = to_yaml f pre notype ∧ to_yaml f pre (map []) = to_yaml f pre notype := by
  refine ⟨fun g h1 h2 h3 => ?_, ?_, rfl, rfl⟩
  · cases g <;> simp [shape, ty] at h1 h3 <;> simp [elems] at h2 <;> subst h2 <;> rfl
  · rintro ⟨d, h⟩
    obtain ⟨c, u, e, hc⟩ := text_head h
    injection e with e _
    exact hc e.symm

/-- **C69** fails for keys with special characters, which are written as they are: two different maps have the same
text. -/
theorem C69_key_negation (f : Fmt) :
    to_yaml f [] (map [(str "a: 1\nb", int 2)]) = to_yaml f [] (map [(str "a", int 1), (str "b", int 2)]) := by
  have e : ∀ i : I32, toYaml f (str "  ") (int i) false = .ok (intOut false i ++ [10], false) := fun _ => rfl
  unfold to_yaml
  simp only [toYaml, toYamlEntries, Out.bind, List.isEmpty_cons, Bool.false_eq_true, if_false]
  decide +kernel

theorem not_word_paren {d : Doc} {t u : Bytes} (h : Scalar d t) : t ≠ 40 :: u := by
  rintro rfl
  rcases scalar_cases h with ⟨s, b, -, e, hq⟩ | ⟨hne, hw⟩
  · injection e with e _; exact absurd e (by decide)
  · have := hw 40 (.head _)
    revert this
    unfold WordByte NumByte
    decide

/-- **C69** fails for complex numbers: without an imaginary part they are written like reals, and vectors of them are not
written as strings. -/
theorem C69_complex_negation (f : Fmt) (pre : Bytes) (r : F64) (c : Cplx) (v : List Cplx) :
    (f.real12 r = f.real r → to_yaml f pre (complex ⟨r, .zero⟩) = to_yaml f pre (real r)) ∧
    (∃ text, to_yaml f pre (vecComplex (c :: v)) = .ok text ∧ ¬ ∃ d, Text d text) := by
  refine ⟨fun h => ?_, _, rfl, ?_⟩
  · have e1 : F64.zero.gtZero = false := by decide +kernel
    have e2 : F64.zero.ltZero = false := by decide +kernel
    unfold to_yaml
    simp [toYaml, Out.bind, cplxOut, e1, e2, h]
  · rintro ⟨d, h⟩
    have key : ∀ {t u : Bytes} {ds : List Doc}, FlowItems ds t → t ≠ 40 :: u := by
      intro t u ds h e
      cases h with
      | one h => exact not_word_paren h e
      | @cons _ _ t _ h _ =>
        cases t with
        | nil => obtain ⟨c, u, e, -⟩ := scalar_head h; cases e
        | cons c t => injection e with e _; subst e; exact not_word_paren h rfl
    have ht : ∃ u, yamlVec ((c :: v).map (pairText f)) = 91 :: 32 :: 40 :: u := by
      have e1 : str "[ " = [91, 32] := by decide
      simp only [yamlVec, List.map_cons, sepText, pairText, e1, List.cons_append, List.nil_append]
      exact ⟨_, rfl⟩
    obtain ⟨u, ht⟩ := ht
    rw [ht] at h
    generalize hT : (91 : Byte) :: 32 :: 40 :: u = T at h
    cases h with
    | @flow _ _ t h =>
      cases h with
      | scalar h =>
        obtain ⟨c, w, rfl, -, hc⟩ := scalar_head h
        injection hT with e _
        exact hc e.symm
      | @seq ds t h =>
        simp only [List.cons_append, List.append_assoc, List.cons.injEq, true_and] at hT
        cases t with
        | nil =>
          simp only [List.nil_append, List.cons.injEq] at hT
          exact absurd hT.1 (by decide)
        | cons c t =>
          injection hT with e _
          subst e
          exact key h rfl
    | seq => injection hT with e _; exact absurd e (by decide)
    | map => injection hT with e _; exact absurd e (by decide)

/-- **C69** fails behind a pointer, which leaves the stream in base 16: a negative number has the text of another
number. -/
theorem C69_pointer_negation (f : Fmt) (p : Ptr) :
    to_yaml f [] (vector [pointer p, int (-1)]) = to_yaml f [] (vector [pointer p, long 4294967295]) := by
  unfold to_yaml
  simp only [toYaml, toYamlElems, Out.bind, List.isEmpty_cons, Bool.false_eq_true, if_false]
  congr 5

end GC
end GCV
