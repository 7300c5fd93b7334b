import Verif.Lemmas.RapidWrite
import Verif.Props.Rapid
import Verif.Props.YamlWrite

/-! # What `to_json` writes, read by `from_json` -/

namespace GCV
open Json (Doc Tok intValue toksTail toksMembers)
open GC YamlText

/-- No NUL in strings and keys. -/
structure NulFree (t : Tree) : Prop where
  strings : ∀ s, GCV.Part (.leaf (GC.string s)) t → (0 : Byte) ∉ s
  names : ∀ m, GCV.Part (.dict m) t → ∀ e ∈ m, (0 : Byte) ∉ e.1

theorem NulFree.ofList {l : List Tree} (h : ∀ x ∈ l, NulFree x) : NulFree (.list l) where
  strings s hp := by cases hp with | elem hx hp => exact (h _ hx).strings s hp
  names m hp := by cases hp with | elem hx hp => exact (h _ hx).names m hp

theorem NulFree.ofDict {l : List (Bytes × Tree)} (hk : ∀ e ∈ l, (0 : Byte) ∉ e.1) (h : ∀ x ∈ l, NulFree x.2) : NulFree (.dict l) where
  strings s hp := by cases hp with | value hx hp => exact (h _ hx).strings s hp
  names m hp := by
    cases hp with
    | self => exact hk
    | value hx hp => exact (h _ hx).names m hp

theorem NulFree.ofLeaf {g : GC} (h : ∀ s, g = GC.string s → (0 : Byte) ∉ s) : NulFree (.leaf g) where
  strings s hp := by cases hp; exact h s rfl
  names m hp := by cases hp

theorem nulfree_leaves {α : Type} {up : α → GC} {v : List α} (h : ∀ x ∈ v, ∀ s, up x = GC.string s → (0 : Byte) ∉ s) :
    NulFree (leaves1 up v) := by
  refine .ofList fun t ht => ?_
  obtain ⟨x, hx, rfl⟩ := List.mem_map.1 ht
  exact .ofLeaf (h x hx)

theorem nulfree_mat {α : Type} {up : α → GC} {m : Mat α} (h : ∀ x s, up x ≠ GC.string s) : NulFree (leaves2 up m) := by
  refine .ofList fun t ht => ?_
  obtain ⟨c, hc, rfl⟩ := List.mem_map.1 ht
  exact nulfree_leaves fun x _ s e => absurd e (h x s)

theorem carried_nul {s : Bytes} (h : Rfc.Carried s) : (0 : Byte) ∉ s := fun h0 => by
  rcases h 0 h0 with h | h | h | h | h <;> revert h <;> decide

theorem bare_nul {s : Bytes} (h : Rfc.Bare s) : (0 : Byte) ∉ s := fun h0 => by
  have := (h 0 h0).1; revert this; decide

mutual
theorem nulfree_view {f : Fmt} : ∀ g : GC, RfcOk f g → NulFree (view g)
  | .notype, _ => .ofLeaf (by simp)
  | .pointer _, h => h.elim
  | .bool _, _ => .ofLeaf (by simp)
  | .int _, _ => .ofLeaf (by simp)
  | .long _, _ => .ofLeaf (by simp)
  | .real _, _ => .ofLeaf (by simp)
  | .complex _, _ => .ofLeaf (by simp)
  | .string s, h => .ofLeaf fun s' e => by cases e; exact carried_nul h
  | .vecPointer _, h => h.elim
  | .vecBool _, _ => nulfree_leaves (by simp)
  | .vecInt _, _ => nulfree_leaves (by simp)
  | .vecLong _, _ => nulfree_leaves (by simp)
  | .vecReal _, _ => nulfree_leaves (by simp)
  | .vecComplex _, _ => nulfree_leaves (by simp)
  | .vecString v, h => nulfree_leaves fun x hx s e => by cases e; exact carried_nul (h.2 _ hx)
  | .matInt _, _ => nulfree_mat (by simp)
  | .matLong _, _ => nulfree_mat (by simp)
  | .matReal _, _ => nulfree_mat (by simp)
  | .matComplex _, h => h.elim
  | .vector v, h => .ofList (nulfree_views v h.2)
  | .map m, h => .ofDict (fun e he => (nulfree_entries m h.2 e he).1) fun e he => (nulfree_entries m h.2 e he).2
theorem nulfree_views {f : Fmt} : ∀ v : List GC, RfcOkL f v → ∀ x ∈ viewL v, NulFree x
  | [], _, x, hx => by cases hx
  | g :: v, h, x, hx => by
    rcases List.mem_cons.1 hx with rfl | hx
    · exact nulfree_view g h.1
    · exact nulfree_views v h.2 x hx
theorem nulfree_entries {f : Fmt} : ∀ m : Entries, RfcOkM f m → ∀ x ∈ viewM m, (0 : Byte) ∉ x.1 ∧ NulFree x.2
  | [], _, x, hx => by cases hx
  | (k, g) :: m, h, x, hx => by
    rcases List.mem_cons.1 hx with rfl | hx
    · exact ⟨bare_nul h.1, nulfree_view g h.2.1⟩
    · exact nulfree_entries m h.2.2 x hx
end

/-- The parts of the document stand for parts of the data. -/
theorem doc_part {f : Fmt} {t : Tree} {d e : Doc} (h : TreeDoc f t d) : Rfc.Part e d → ∃ s, GCV.Part s t ∧ TreeDoc f s e := by
  induction h with
  | @leaf g d h h1 h2 =>
    intro hp
    cases hp with
    | self => exact ⟨_, .self, .leaf h h1 h2⟩
    | elem => exact absurd rfl (h1 _)
    | value => exact absurd rfl (h2 _)
  | @list l ds hlen hd ih =>
    intro hp
    cases hp with
    | self => exact ⟨_, .self, .list hlen hd⟩
    | elem hx hp =>
      obtain ⟨i, hi', rfl⟩ := List.mem_iff_getElem.1 hx
      obtain ⟨a, ha⟩ := get_of_lt hlen (List.getElem?_eq_getElem hi')
      obtain ⟨s, h1, h2⟩ := ih i a _ ha (List.getElem?_eq_getElem hi') hp
      exact ⟨s, .elem (List.mem_of_getElem? ha) h1, h2⟩
  | @dict m ms hk hd ih =>
    intro hp
    cases hp with
    | self => exact ⟨_, .self, .dict hk hd⟩
    | @value k x _ hx hp =>
      obtain ⟨i, hi', e⟩ := List.mem_iff_getElem.1 hx
      obtain ⟨a, ha⟩ := get_of_lt (l := m) (l' := ms) (by simpa using congrArg List.length hk) (List.getElem?_eq_getElem hi')
      obtain ⟨s, h1, h2⟩ := ih i a _ ha (List.getElem?_eq_getElem hi') (by rw [e]; exact hp)
      exact ⟨s, .value (k := a.1) (List.mem_of_getElem? ha) h1, h2⟩

theorem part_list {f : Fmt} {t : Tree} {d : Doc} (h : TreeDoc f t d) {ds : List Doc} (hp : Rfc.Part (.arr ds) d) :
    ∃ l, GCV.Part (.list l) t ∧ l.length = ds.length ∧ ∀ (i : Nat) t d, l[i]? = some t → ds[i]? = some d → TreeDoc f t d := by
  obtain ⟨s, h1, h2⟩ := doc_part h hp
  cases h2 with
  | leaf _ h3 _ => exact absurd rfl (h3 _)
  | list h3 h4 => exact ⟨_, h1, h3, h4⟩

theorem part_dict {f : Fmt} {t : Tree} {d : Doc} (h : TreeDoc f t d) {ms : List (Bytes × Doc)} (hp : Rfc.Part (.obj ms) d) :
    ∃ m, GCV.Part (.dict m) t ∧ m.map Prod.fst = ms.map Prod.fst := by
  obtain ⟨s, h1, h2⟩ := doc_part h hp
  cases h2 with
  | leaf _ _ h3 => exact absurd rfl (h3 _)
  | dict h3 _ => exact ⟨_, h1, h3⟩

theorem part_leaf {f : Fmt} {t : Tree} {d e : Doc} (h : TreeDoc f t d) (hp : Rfc.Part e d) (h1 : ∀ ds, e ≠ .arr ds)
    (h2 : ∀ ms, e ≠ .obj ms) : ∃ g, GCV.Part (.leaf g) t ∧ Describes f g e := by
  obtain ⟨s, h3, h4⟩ := doc_part h hp
  cases h4 with
  | leaf h5 _ _ => exact ⟨_, h3, h5⟩
  | list => exact absurd rfl (h1 _)
  | dict => exact absurd rfl (h2 _)

theorem tree_arr {f : Fmt} {l : List Tree} {d : Doc} (h : TreeDoc f (.list l) d) : ∃ ds, d = .arr ds ∧ l.length = ds.length := by
  cases h with | list h _ => exact ⟨_, rfl, h⟩

theorem tree_of_arr {f : Fmt} {t : Tree} {ds : List Doc} (h : TreeDoc f t (.arr ds)) : ∃ l, t = .list l ∧ l.length = ds.length := by
  cases h with
  | leaf _ h _ => exact absurd rfl (h _)
  | list h _ => exact ⟨_, rfl, h⟩

/-- The document of a container that can be read back is one whose data are kept. -/
theorem kept_of {f : Fmt} {conv : Bytes → Option F64} {g : GC} {d : Doc} (hb : RfcBack f conv g) (hc : NulFree (view g))
    (h : TreeDoc f (view g) d) (hl : Lits d) : Rfc.Kept d ∧ Rfc.Readable conv d := by
  have whole : ∀ l, Rfc.Part (.int l) d → (∃ i : I32, intValue l = i.toInt) ∨
      (∃ i : I64, GCV.Part (.leaf (long i)) (view g) ∧ intValue l = i.toInt) ∨
      ∃ r, GCV.Part (.leaf (real r)) (view g) ∧ l = f.real r ∧ (intValue l).natAbs ≤ 2 ^ 53 := by
    intro l hp
    obtain ⟨x, h1, h2⟩ := part_leaf h hp (by simp) (by simp)
    cases h2 with
    | int _ h3 => exact .inl ⟨_, h3⟩
    | long _ h3 => exact .inr (.inl ⟨_, h1, h3⟩)
    | whole h3 => exact .inr (.inr ⟨_, h1, rfl, ((hb.reals _ h1).2 h3).1⟩)
  have num : ∀ l, Rfc.Part (.num l) d → ∃ r, GCV.Part (.leaf (real r)) (view g) ∧ conv l = some r := by
    intro l hp
    obtain ⟨x, h1, h2⟩ := part_leaf h hp (by simp) (by simp)
    cases h2 with
    | real h3 => exact ⟨_, h1, (hb.reals _ h1).1 h3⟩
  have ints : ∀ l, Rfc.Part (.int l) d →
      ¬ (2 ^ 31 ≤ intValue l ∧ intValue l < 2 ^ 32) ∧ -2 ^ 63 ≤ intValue l ∧ intValue l < 2 ^ 63 := by
    intro l hp
    rcases whole l hp with ⟨i, hi⟩ | ⟨i, h1, hi⟩ | ⟨r, h1, rfl, h2⟩
    · have := i.toInt_lt; have := i.le_toInt
      rw [hi]; omega
    · have := i.toInt_lt; have := i.le_toInt
      have h3 := hb.longs i h1
      rw [hi]; omega
    · have h3 := hb.whole r h1 (hl _ hp)
      omega
  have place : ∀ {l : List Tree} {ds : List Doc}, l.length = ds.length → ∀ x ∈ ds, ∃ (i : Nat) (t : Tree), l[i]? = some t ∧ ds[i]? = some x := by
    intro l ds hlen x hx
    obtain ⟨i, hi, rfl⟩ := List.mem_iff_getElem.1 hx
    obtain ⟨a, ha⟩ := get_of_lt hlen (List.getElem?_eq_getElem hi)
    exact ⟨i, a, ha, List.getElem?_eq_getElem hi⟩
  refine ⟨⟨?_, ?_, ?_, ?_, ints, ?_, ?_, ?_⟩, ⟨?_, ?_⟩⟩
  · intro s hp
    obtain ⟨x, h1, h2⟩ := part_leaf h hp (by simp) (by simp)
    cases h2 with
    | complex => exact absurd h1 (hb.plain _)
    | string => exact hc.strings s h1
  · intro ms hp e he
    obtain ⟨m, h1, h2⟩ := part_dict h hp
    have : e.1 ∈ m.map Prod.fst := by rw [h2]; exact List.mem_map_of_mem he
    obtain ⟨e', he', h3⟩ := List.mem_map.1 this
    rw [← h3]; exact hc.names m h1 e' he'
  · intro ms hp
    obtain ⟨m, h1, h2⟩ := part_dict h hp
    rw [← h2]; exact nodup_keys (hb.keys m h1)
  · intro ds hp
    obtain ⟨l, h1, h2, -⟩ := part_list h hp
    rw [← h2]; exact hb.size l h1
  · intro ds hp
    obtain ⟨l, h1, h2, h3⟩ := part_list h hp
    rcases hb.apart l h1 with h4 | h4
    · left
      intro x hx
      obtain ⟨i, t, ht, hx'⟩ := place h2 x hx
      obtain ⟨s, rfl⟩ := h4 t (List.mem_of_getElem? ht)
      obtain ⟨es, rfl, -⟩ := tree_arr (h3 i _ _ ht hx')
      exact ⟨_, rfl⟩
    · right
      rintro x hx es rfl
      obtain ⟨i, t, ht, hx'⟩ := place h2 _ hx
      obtain ⟨s, rfl, -⟩ := tree_of_arr (h3 i _ _ ht hx')
      exact h4 _ (List.mem_of_getElem? ht) s rfl
  · intro ds hp r hr
    obtain ⟨l, h1, h2, h3⟩ := part_list h hp
    obtain ⟨i, t, ht, hx'⟩ := place h2 _ hr
    obtain ⟨s, rfl, h5⟩ := tree_of_arr (h3 i _ _ ht hx')
    rw [← h5, ← h2]
    exact hb.cells l h1 s (List.mem_of_getElem? ht)
  · rcases hb.nums with h1 | h1
    · left
      intro l hp
      rcases whole l hp with ⟨i, hi⟩ | ⟨i, h2, hi⟩ | ⟨r, -, -, h2⟩
      · have := i.toInt_lt; have := i.le_toInt
        rw [hi]; omega
      · rw [hi]; exact h1 i h2
      · exact h2
    · right
      intro l hp
      obtain ⟨r, h2, -⟩ := num l hp
      exact h1 r h2
  · intro l hp
    obtain ⟨r, -, h2⟩ := num l hp
    rw [h2]; simp
  · intro l hp hn
    have := (ints l hp).2
    exact absurd ⟨this.1, by omega⟩ hn

theorem nodesOf_node {conv : Bytes → Option F64} {d : Doc} {y : Yaml} (h : NodesOf conv d y) : y = node conv d := by
  induction h with
  | null => rfl
  | bool => rfl
  | string => rfl
  | @int l n h => rw [node, h, BitVec.ofInt_toInt]
  | num h => rw [node, h]
  | @arr ds ys hlen _ ih =>
    rw [node, nodes_map]
    congr 1
    refine List.ext_getElem (by simpa using hlen.symm) fun i h1 h2 => ?_
    have h3 : i < ds.length := by omega
    rw [List.getElem_map]
    exact ih i _ _ (List.getElem?_eq_getElem h3) (List.getElem?_eq_getElem h1)
  | @obj ms ys hk _ ih =>
    rw [node, nodeMembers_map]
    congr 1
    have hlen : ms.length = ys.length := by simpa using congrArg List.length hk
    refine List.ext_getElem (by simpa using hlen.symm) fun i h1 h2 => ?_
    have h3 : i < ms.length := by omega
    rw [List.getElem_map]
    have e1 := ih i _ _ (List.getElem?_eq_getElem h3) (List.getElem?_eq_getElem h1)
    have e2 : (ms.map fun p => some p.1)[i]? = (ys.map Prod.fst)[i]? := by rw [hk]
    rw [List.getElem?_map, List.getElem?_map, List.getElem?_eq_getElem h3, List.getElem?_eq_getElem h1] at e2
    simp only [Option.map_some, Option.some.injEq] at e2
    exact Prod.ext e2.symm e1

/-! ## C73 -/

namespace GC

/-- **C73**: the text written by to_json is JSON as in RFC 8259, and the document says what is in the container.  Partial:
containers as in `RfcOk`. -/
theorem C73_document_partial (f : Fmt) (pre : Bytes) (g : GC) (h : RfcOk f g) (hp : Rfc.Blanks pre) :
    ∃ text d, to_json f pre g = .ok text ∧ Describes f g d ∧ Rfc.JsonText d text := by
  obtain ⟨t, d, h1, h2, h3⟩ := Rfc.write_json g h hp
  refine ⟨t, d, by rw [to_json, h1]; rfl, h2, ?_⟩
  have := h3 [] [] [] Rfc.blank_nil (.nil Rfc.blank_nil)
  simpa [Rfc.JsonText] using this

/-- **C73**: what to_json writes, from_json reads back as the same data.  Partial: containers as in `RfcOk` and
`RfcBack`. -/
theorem C73_round_trip_partial (f : Fmt) (conv : Bytes → Option F64) (pre : Bytes) (g : GC) (h : RfcOk f g)
    (hb : RfcBack f conv g) (hp : Rfc.Blanks pre) :
    ∃ text g', to_json f pre g = .ok text ∧ from_json conv text notype = .ok g' true ∧ SameTree (view g) (view g') := by
  obtain ⟨t, d, h1, h2, h3⟩ := C73_document_partial f pre g h hp
  have ht := tree_doc h2 hb.full
  obtain ⟨hk, hr⟩ := kept_of hb (nulfree_view g h) ht (lits_of h3)
  have h3' : Rfc.JsonText d (cstr t) := by rw [cstr_clean (Rapid.spells_no_nul h3)]; exact h3
  obtain ⟨g', h4, h5⟩ := C71_data_partial conv t d h3' hr hk
  obtain ⟨m, hm⟩ : ∃ m, LeavesOk f conv m (view g) := by
    rcases hb.nums with hl | hr
    · exact ⟨true, fun r hr => ⟨hb.reals r hr, rfl⟩, hb.plain, fun _ => hl⟩
    · exact ⟨false, fun r h => absurd h (hr r), hb.plain, fun h => absurd h (by simp)⟩
  obtain ⟨y, h6, h7⟩ := tree_nodes ht hm
  obtain rfl := nodesOf_node h6
  obtain ⟨g2, h8, h9⟩ := yaml_read (nodes_ok h7 hb.keys hb.size)
  rw [node_read d hk] at h8
  cases h8
  exact ⟨t, g', h1, h4, SameTree.trans (nodes_same h7 hb.keys _ h9) h5⟩

example : RfcOk fmt0 yamlExample := by
  unfold yamlExample
  refine ⟨by simp, ?_, ⟨by decide, by decide, by decide, by decide⟩, ?_, ⟨by simp, ?_, .inr ?_, trivial, trivial⟩, trivial⟩
  · unfold Rfc.Bare; decide
  · unfold Rfc.Bare; decide
  · show Rfc.Carried _; unfold Rfc.Carried; decide
  · exact ⟨[], [48], [46, 53], [], by decide, .inl rfl, .inl rfl, .inr ⟨[53], rfl, by unfold Json.Digits; decide⟩, .inl rfl,
      .inl (by simp)⟩

theorem yamlExample_rfc : RfcBack fmt0 (fun _ => some ⟨0x3FE0000000000000⟩) yamlExample :=
  { yamlExample_back with
    longs := by
      intro l hl
      exfalso
      have hv : view yamlExample = .dict [(str "a", .list [.list [.leaf (int 1), .leaf (int 2)], .list [.leaf (int 3), .leaf (int 4)]]),
          (str "b", .list [.leaf (string (str "x\"y")), .leaf (real ⟨0x3FE0000000000000⟩), .leaf notype])] := rfl
      rw [hv] at hl
      cases hl with
      | value hx hi =>
        simp at hx
        rcases hx with ⟨rfl, rfl⟩ | ⟨rfl, rfl⟩
        · cases hi with
          | elem hx hi =>
            simp at hx
            rcases hx with rfl | rfl <;>
            · cases hi with
              | elem hx hi => simp at hx; rcases hx with rfl | rfl <;> cases hi
        · cases hi with
          | elem hx hi => simp at hx; rcases hx with rfl | rfl | rfl <;> cases hi
    whole := by
      intro r hr h
      exfalso
      have h := Rfc.IntLit.json h
      obtain ⟨a, b, e, h1, h2⟩ := h
      have := (intLit_bytes ⟨a, b, e, h1, h2⟩).2 46 (by simp [fmt0]; decide)
      revert this; decide }

/-! ### Strings -/

theorem body_carried : ∀ (s x b r tail : Bytes), Rfc.Body x b → b ++ 34 :: r = (s.map escapeByte).flatten ++ tail →
    tail = [] ∨ tail = [34] → tail = [34] ∧ Rfc.Carried s
  | [], x, b, r, tail, _, he, ht => by
    rcases ht with rfl | rfl
    · simp at he
    · exact ⟨rfl, fun c hc => by cases hc⟩
  | c :: s, x, b, r, tail, hb, he, ht => by
    have cons : ∀ {b' x' : Bytes}, Rfc.Body x' b' → b' ++ 34 :: r = (s.map escapeByte).flatten ++ tail →
        (0x20 ≤ c.toNat ∨ c = 8 ∨ c = 9 ∨ c = 10 ∨ c = 13) → tail = [34] ∧ Rfc.Carried (c :: s) := by
      intro b' x' h1 h2 h3
      obtain ⟨h4, h5⟩ := body_carried s x' b' r tail h1 h2 ht
      refine ⟨h4, fun y hy => ?_⟩
      rcases List.mem_cons.1 hy with rfl | hy
      · exact h3
      · exact h5 y hy
    rw [List.map_cons, List.flatten_cons, List.append_assoc] at he
    have esc : ∀ e : Byte, escapeByte c = [92, e] → e ≠ 117 → ∃ x' b', Rfc.Body x' b' ∧
        b' ++ 34 :: r = (s.map escapeByte).flatten ++ tail ∧ ∃ y, (e, y) ∈ Rfc.escapes := by
      intro e h1 h2
      rw [h1] at he
      cases hb with
      | nil => simp at he
      | plain _ _ h3 _ => simp at he; exact absurd he.1 h3
      | escape h3 h4 =>
        simp at he
        obtain ⟨rfl, he⟩ := he
        exact ⟨_, _, h4, he, _, h3⟩
      | unicode _ _ _ => simp at he; exact absurd he.1.symm h2
      | pair _ _ _ _ _ _ _ => simp at he; exact absurd he.1.symm h2
    by_cases h1 : c = 34
    · obtain ⟨x', b', h2, h3, -⟩ := esc 34 (by rw [h1]; decide) (by decide)
      exact cons h2 h3 (.inl (by rw [h1]; decide))
    by_cases h2 : c = 10
    · obtain ⟨x', b', h3, h4, -⟩ := esc 110 (by rw [h2]; decide) (by decide)
      exact cons h3 h4 (by rw [h2]; decide)
    by_cases h3 : c = 13
    · obtain ⟨x', b', h4, h5, -⟩ := esc 114 (by rw [h3]; decide) (by decide)
      exact cons h4 h5 (by rw [h3]; decide)
    by_cases h4 : c = 9
    · obtain ⟨x', b', h5, h6, -⟩ := esc 116 (by rw [h4]; decide) (by decide)
      exact cons h5 h6 (by rw [h4]; decide)
    by_cases h5 : c = 11
    · obtain ⟨x', b', -, -, y, hy⟩ := esc 118 (by rw [h5]; decide) (by decide)
      simp [Rfc.escapes] at hy
    by_cases h6 : c = 8
    · obtain ⟨x', b', h7, h8, -⟩ := esc 98 (by rw [h6]; decide) (by decide)
      exact cons h7 h8 (by rw [h6]; decide)
    by_cases h7 : c = 7
    · obtain ⟨x', b', -, -, y, hy⟩ := esc 97 (by rw [h7]; decide) (by decide)
      simp [Rfc.escapes] at hy
    by_cases h8 : c = 92
    · obtain ⟨x', b', h9, h10, -⟩ := esc 92 (by rw [h8]; decide) (by decide)
      exact cons h9 h10 (by rw [h8]; decide)
    have e : escapeByte c = [c] := by
      unfold escapeByte
      rw [if_neg h1, if_neg h2, if_neg h3, if_neg h4, if_neg h5, if_neg h6, if_neg h7, if_neg h8]
    rw [e] at he
    cases hb with
    | nil => simp at he; exact absurd he.1.symm h1
    | plain h9 _ _ h10 =>
      simp at he
      obtain ⟨rfl, he⟩ := he
      exact cons h10 he (.inl h9)
    | escape _ _ => simp at he; exact absurd he.1.symm h8
    | unicode _ _ _ => simp at he; exact absurd he.1.symm h8
    | pair _ _ _ _ _ _ _ => simp at he; exact absurd he.1.symm h8

theorem cstr_escape : ∀ s : Bytes, ∃ p tail, cstr ((s.map escapeByte).flatten ++ [34]) = (p.map escapeByte).flatten ++ tail ∧
    (tail = [] ∨ tail = [34]) ∧ (tail = [34] → p = s)
  | [] => ⟨[], [34], by decide, .inr rfl, fun _ => rfl⟩
  | c :: s => by
    by_cases hc : c = 0
    · subst hc
      exact ⟨[], [], by simp [cstr, escapeByte], .inl rfl, by simp⟩
    · obtain ⟨p, tail, h1, h2, h3⟩ := cstr_escape s
      refine ⟨c :: p, tail, ?_, h2, fun h => by rw [h3 h]⟩
      have hn : ∀ x ∈ escapeByte c, x ≠ 0 := by
        unfold escapeByte
        repeat' split
        all_goals first | decide | (intro x hx; rw [List.mem_singleton] at hx; rw [hx]; exact hc)
      rw [List.map_cons, List.flatten_cons, List.append_assoc, List.map_cons, List.flatten_cons, List.append_assoc, ← h1]
      unfold cstr
      rw [List.takeWhile_append_of_pos]
      intro x hx
      simpa using hn x hx

theorem json_string {d : Doc} {w : Bytes} (h : Rfc.JsonText d (34 :: w)) : ∃ x b r, Rfc.Body x b ∧ w = b ++ 34 :: r := by
  unfold Rfc.JsonText at h
  generalize ht : d.toks = ts at h
  generalize he : 34 :: w = text at h
  cases h with
  | nil hb => subst he; exact absurd (hb 34 (.head _)) (by decide)
  | @cons t ts' b v r hb hw hs =>
    have hb0 : b = [] := by
      cases b with
      | nil => rfl
      | cons c b =>
        simp at he
        exact absurd (hb c (.head _)) (by rw [← he.1]; decide)
    subst hb0
    rw [List.nil_append] at he
    have digit : ∀ {a z : Bytes} {q : Bytes}, (a = [] ∨ a = [45]) → Rfc.Int z → 34 :: w = a ++ z ++ q → False := by
      intro a z q ha hz e
      rcases ha with rfl | rfl
      · have hz' := Rapid.Rfc.Int.digits hz
        cases z with
        | nil => exact hz'.1 rfl
        | cons c z =>
          simp at e
          exact absurd (hz'.2 c (.head _)) (by rw [← e.1]; decide)
      · simp at e
    cases hw with
    | string hb' =>
      simp at he
      exact ⟨_, _, _, hb', he⟩
    | int hl =>
      obtain ⟨a, z, rfl, ha, hz⟩ := hl
      exact (digit ha hz he).elim
    | num hl =>
      obtain ⟨a, z, f, e, rfl, ha, hz, -⟩ := hl
      exact (digit (q := f ++ (e ++ r)) ha hz (by simpa using he)).elim
    | true => exact absurd he (by rw [show str "true" = [116, 114, 117, 101] by decide]; simp)
    | false => exact absurd he (by rw [show str "false" = [102, 97, 108, 115, 101] by decide]; simp)
    | null => exact absurd he (by rw [show str "null" = [110, 117, 108, 108] by decide]; simp)
    | _ => simp at he

/-- **C73**: a string written by to_json is read back, into any container, if and only if its only control characters are
backspace, tab, line feed and carriage return; the text is refused otherwise and the container left as it was. -/
theorem C73_strings (f : Fmt) (conv : Bytes → Option F64) (pre s : Bytes) (g : GC) :
    ∃ text, to_json f pre (string s) = .ok text ∧
      (Rfc.Carried s → from_json conv text g = .ok (string s) true) ∧
      (¬ Rfc.Carried s → from_json conv text g = .ok g false) := by
  refine ⟨string_escape s, rfl, fun h => ?_, fun h => ?_⟩
  · have h1 : Rfc.JsonText (.string s) (string_escape s) := by
      have := Rfc.wr_escape h [] [] [] Rfc.blank_nil (.nil Rfc.blank_nil)
      simpa [Rfc.JsonText] using this
    have h2 : Rfc.JsonText (.string s) (cstr (string_escape s)) := by
      rw [cstr_clean (Rapid.spells_no_nul h1)]; exact h1
    rw [from_json, Rapid.parse_doc h2]
    show Res.bind (Res.bind (decode_json _ g) _) _ = _
    simp only [decode_json, cstr_clean (carried_nul h)]
    have : set_string s g = string s := by cases g <;> rfl
    rw [this]; rfl
  · rw [C70_rejects]
    refine ⟨rfl, ?_⟩
    rintro ⟨d, hd, -⟩
    obtain ⟨p, tail, h1, h2, h3⟩ := cstr_escape s
    have e : cstr (string_escape s) = 34 :: ((p.map escapeByte).flatten ++ tail) := by
      rw [← h1, string_escape]
      unfold cstr
      rw [List.cons_append, List.takeWhile_cons_of_pos (by decide)]
    rw [e] at hd
    obtain ⟨x, b, r, h4, h5⟩ := json_string hd
    obtain ⟨h6, h7⟩ := body_carried p x b r tail h4 h5.symm h2
    rw [h3 h6] at h7
    exact h h7

example : Rfc.Carried (str "a\tb") ∧ ¬ Rfc.Carried [97, 7] ∧ ¬ Rfc.Carried [11] ∧ ¬ Rfc.Carried [12] ∧ ¬ Rfc.Carried [0] := by
  unfold Rfc.Carried; decide

/-! ### What is not read back -/

theorem json_refused {text : Bytes} (h : from_json (fun _ => some ⟨0⟩) text notype = .ok notype false)
    (conv : Bytes → Option F64) (g : GC) : from_json conv text g = .ok g false := by
  rw [C70_rejects] at h ⊢
  refine ⟨rfl, ?_⟩
  rintro ⟨d, hd, -⟩
  exact h.2 ⟨d, hd, by simp, by simp⟩

/-- **C73** fails for vectors and maps without elements: the text is refused. -/
theorem C73_empty_negation (f : Fmt) (conv : Bytes → Option F64) (pre : Bytes) (g : GC) :
    (∀ x, shape x.ty = 1 → elems x = [] → to_json f pre x = .ok (str " ]")) ∧
    (∀ x, x = vector [] ∨ x = map [] → to_json f pre x = .ok []) ∧
    from_json conv (str " ]") g = .ok g false ∧ from_json conv [] g = .ok g false := by
  refine ⟨fun g h1 h2 => ?_, fun g hg => ?_, json_refused (by decide +kernel) conv g, json_refused (by decide +kernel) conv g⟩
  · cases g <;> simp [shape, ty] at h1 <;> simp [elems] at h2 <;> subst h2 <;> rfl
  · rcases hg with rfl | rfl <;> rfl

/-- **C73** fails for keys with a quote or a line break: they are written as they are, and the text is refused. -/
theorem C73_key_negation (f : Fmt) (conv : Bytes → Option F64) (g : GC) :
    to_json f [] (map [(str "a\"b", notype)]) = .ok (str "\n{\n  \"a\"b\": null\n}") ∧
    from_json conv (str "\n{\n  \"a\"b\": null\n}") g = .ok g false ∧
    to_json f [] (map [(str "a\nb", notype)]) = .ok (str "\n{\n  \"a\nb\": null\n}") ∧
    from_json conv (str "\n{\n  \"a\nb\": null\n}") g = .ok g false :=
  ⟨rfl, json_refused (by decide +kernel) conv g, rfl, json_refused (by decide +kernel) conv g⟩

/-- A long is written in decimal and read back as `storedInt` has it. -/
theorem C73_long (f : Fmt) (conv : Bytes → Option F64) (pre : Bytes) (l : I64) (g : GC) :
    ∃ text, to_json f pre (long l) = .ok text ∧
      from_json conv text g = .ok (if -2 ^ 31 ≤ l.toInt ∧ l.toInt < 2 ^ 32 then int (BitVec.ofInt 32 l.toInt) else long l) true := by
  refine ⟨intOut false l, rfl, ?_⟩
  have hl := (GCV.intOut_lit l).2
  have h1 : Rfc.JsonText (.int (intOut false l)) (intOut false l) := by
    have := Rfc.wr_int (Rfc.intOut_lit l) [] [] [] Rfc.blank_nil (.nil Rfc.blank_nil)
    simpa [Rfc.JsonText] using this
  have h2 : Rfc.JsonText (.int (intOut false l)) (cstr (intOut false l)) := by
    rw [cstr_clean (Rapid.spells_no_nul h1)]; exact h1
  have h3 := l.toInt_lt
  have h4 := l.le_toInt
  rw [C72_integers conv _ _ g h2 (.inl (by rw [hl]; omega)), storedInt]
  rw [hl]
  by_cases h5 : -2 ^ 31 ≤ l.toInt ∧ l.toInt < 2 ^ 32
  · rw [if_pos h5, if_pos h5]
  · rw [if_neg h5, if_neg h5, if_pos (by omega), BitVec.ofInt_toInt]

/-- **C73** fails for the longs from 2^31 to 2^32-1: they come back negative. -/
theorem C73_long_negation (f : Fmt) (conv : Bytes → Option F64) (pre : Bytes) (l : I64) (g : GC)
    (h : 2 ^ 31 ≤ l.toInt ∧ l.toInt < 2 ^ 32) :
    ∃ text i, to_json f pre (long l) = .ok text ∧ from_json conv text g = .ok (int i) true ∧ i.toInt = l.toInt - 2 ^ 32 := by
  obtain ⟨text, h1, h2⟩ := C73_long f conv pre l g
  rw [if_pos (by omega)] at h2
  refine ⟨text, _, h1, h2, ?_⟩
  rw [BitVec.toInt_ofInt, Int.bmod_def]; omega

example : (2 : Int) ^ 31 ≤ (3000000000 : I64).toInt ∧ (3000000000 : I64).toInt < 2 ^ 32 := by decide

end GC
end GCV
