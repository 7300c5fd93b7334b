import Verif.Spec.DocsExact
import Verif.Props.Docs
import Verif.Lemmas.RapidTree

/-!
# C106: exactly what from_yaml and from_toml do
-/

namespace GCV.GC

theorem setWhole_eq (n : I64) (g : GC) : setWhole n g = whole n := by
  unfold setWhole whole
  by_cases h : -2147483648 ≤ n.toInt ∧ n.toInt ≤ 2147483647
  · rw [if_pos h, if_pos (by omega), set_int]
    congr 1
    apply BitVec.eq_of_toInt_eq
    rw [toInt_low (by omega), BitVec.toInt_ofInt, Int.bmod_def]
    omega
  · rw [if_neg h, if_neg (by omega), set_long]

theorem low_eq (n : I64) : n.setWidth 32 = BitVec.ofInt 32 n.toInt := by
  apply BitVec.eq_of_toNat_eq
  rw [BitVec.toNat_setWidth, BitVec.toNat_ofInt]
  have := BitVec.toInt_eq_toNat_cond n
  have := n.isLt
  split at * <;> omega

mutual

theorem yaml_over : ∀ (d : Yaml) (g : GC), d.sized = true →
    if d.keyed then YAML_to_GC d g = .ok (yamlOver d g) () else ∃ g', YAML_to_GC d g = .throw g'
  | .null, g, _ => rfl
  | .bool _, g, _ => rfl
  | .int n, g, _ => by
    show YAML_to_GC (.int n) g = _
    rw [YAML_to_GC, yamlOver, setWhole_eq]
  | .float _, g, _ => rfl
  | .str _, g, _ => by cases g <;> rfl
  | .seq [], g, _ => by
    rw [Yaml.keyed, Yaml.keyedL, if_pos rfl, YAML_to_GC, yamlElems, yamlOver]; cases g <;> rfl
  | .seq (d :: l), g, h => by
    rw [Yaml.sized, Bool.and_eq_true, decide_eq_true_eq] at h
    have ih := yaml_overs (d :: l) (itemsOf g) h.2
    rw [Yaml.keyed, YAML_to_GC, set_vector_over h.1 (by simp)]
    by_cases hk : Yaml.keyedL (d :: l) = true
    · rw [if_pos hk] at ih ⊢
      rw [ih, yamlOver, yamlOvers]
    · rw [if_neg hk] at ih ⊢
      obtain ⟨v, hv⟩ := ih
      exact ⟨vector v, by rw [hv]⟩
  | .mapping m, g, h => by
    rw [Yaml.sized] at h
    have ih := yaml_overMembers m (entriesOf g) h
    have e : (set_map g).oldMap = entriesOf g := by cases g <;> rfl
    rw [Yaml.keyed, YAML_to_GC, e]
    by_cases hk : Yaml.keyedM m = true
    · rw [if_pos hk] at ih ⊢
      rw [ih, yamlOver]
    · rw [if_neg hk] at ih ⊢
      obtain ⟨v, hv⟩ := ih
      exact ⟨map v, by rw [hv]⟩
termination_by structural d => d

theorem yaml_overs : ∀ (l : List Yaml) (v : List GC), Yaml.sizedL l = true →
    if Yaml.keyedL l then
      yamlElems l (v.take l.length ++ List.replicate (l.length - v.length) notype) = .ok (yamlOvers l v)
    else ∃ v', yamlElems l (v.take l.length ++ List.replicate (l.length - v.length) notype) = .throw v'
  | [], v, _ => by simp [Yaml.keyedL, yamlElems, yamlOvers]
  | d :: r, v, h => by
    rw [Yaml.sizedL, Bool.and_eq_true] at h
    have e : v.take (d :: r).length ++ List.replicate ((d :: r).length - v.length) notype =
        v.headD notype :: (v.tail.take r.length ++ List.replicate (r.length - v.tail.length) notype) := by
      cases v with
      | nil => simp [List.replicate_succ]
      | cons x w => simp
    have i1 := yaml_over d (v.headD notype) h.1
    have i2 := yaml_overs r v.tail h.2
    rw [e, Yaml.keyedL, yamlElems]
    by_cases h1 : d.keyed = true
    · rw [if_pos h1] at i1
      rw [h1, Bool.true_and, i1]
      by_cases h2 : Yaml.keyedL r = true
      · rw [if_pos h2] at i2 ⊢
        simp only [i2]; rw [yamlOvers]
      · rw [if_neg h2] at i2 ⊢
        obtain ⟨v', e2⟩ := i2
        exact ⟨yamlOver d (v.headD notype) :: v', by simp only [e2]⟩
    · rw [if_neg h1] at i1
      obtain ⟨x', e1⟩ := i1
      rw [if_neg (by simp [h1]), e1]
      exact ⟨_, rfl⟩
termination_by structural l => l

theorem yaml_overMembers : ∀ (m : List (Option Bytes × Yaml)) (e : Entries), Yaml.sizedM m = true →
    if Yaml.keyedM m then yamlEntries m e = .ok (yamlOverMembers m e) else ∃ e', yamlEntries m e = .throw e'
  | [], e, _ => by simp [Yaml.keyedM, yamlEntries, yamlOverMembers]
  | (none, d) :: r, e, _ => by simp [Yaml.keyedM, yamlEntries]
  | (some k, d) :: r, e, h => by
    rw [Yaml.sizedM, Bool.and_eq_true] at h
    have i1 := yaml_over d ((mfind k e).getD notype) h.1
    rw [Yaml.keyedM, yamlEntries]
    by_cases h1 : d.keyed = true
    · rw [if_pos h1] at i1
      rw [h1, Bool.true_and, i1, yamlOverMembers]
      exact yaml_overMembers r _ h.2
    · rw [if_neg h1] at i1
      obtain ⟨x', e1⟩ := i1
      rw [if_neg (by simp [h1]), e1]
      exact ⟨_, rfl⟩
termination_by structural l => l

end

theorem strings_all : ∀ l : List Toml, tomlStrings l = if l.all Toml.isStr then some (l.map Toml.strOf) else none
  | [] => rfl
  | d :: r => by
    cases d <;> simp [tomlStrings, Toml.isStr, Toml.strOf, strings_all r]

theorem ints_all : ∀ l : List Toml, tomlInts l = if l.all Toml.isInt then some (l.map Toml.intOf) else none
  | [] => rfl
  | d :: r => by
    cases d <;> simp [tomlInts, Toml.isInt, Toml.intOf, ints_all r]

theorem floats_all : ∀ l : List Toml, tomlFloats l = if l.all Toml.isFloat then some (l.map Toml.floatOf) else none
  | [] => rfl
  | d :: r => by
    cases d <;> simp [tomlFloats, Toml.isFloat, Toml.floatOf, floats_all r]

theorem withIdx_over {f : GC → Res Unit} {a v : List GC} {x : GC} (h : f (v.headD notype) = .ok x ())
    (hl : a.length + 1 < 2 ^ 32) : withIdx (u32 a.length) f (vector (a ++ v)) = .ok (vector (a ++ x :: v.tail)) () := by
  cases v with
  | nil => rw [List.append_nil]; exact withIdx_next h hl
  | cons y w =>
    unfold withIdx
    rw [u32_of_lt (by omega), oldVector, checkResize, if_neg (by simp)]
    simp only [List.headD_cons] at h
    simp [h, Res.mapState]

mutual

theorem toml_over : ∀ (d : Toml) (g : GC), d.sized = true → TOML_to_GC d g = .ok (tomlOver d g) ()
  | .str s, g, _ => by rw [TOML_to_GC, tomlOver]; cases g <;> rfl
  | .int n, g, _ => by rw [TOML_to_GC, tomlOver, setWhole_eq]
  | .float _, g, _ => by rw [TOML_to_GC, tomlOver]; rfl
  | .bool _, g, _ => by rw [TOML_to_GC, tomlOver]; rfl
  | .date s, g, _ => by
    rw [TOML_to_GC, tomlOver, withKey, show cstr (GCV.str "$date") = GCV.str "$date" by decide +kernel]
    have : ∀ x, set_string s x = string s := by intro x; cases x <;> rfl
    simp only [this, Res.mapState]
    cases g <;> rfl
  | .time s, g, _ => by
    rw [TOML_to_GC, tomlOver, withKey, show cstr (GCV.str "$time") = GCV.str "$time" by decide +kernel]
    have : ∀ x, set_string s x = string s := by intro x; cases x <;> rfl
    simp only [this, Res.mapState]
    cases g <;> rfl
  | .date_time s, g, _ => by
    rw [TOML_to_GC, tomlOver, withKey, show cstr (GCV.str "$date_time") = GCV.str "$date_time" by decide +kernel]
    have : ∀ x, set_string s x = string s := by intro x; cases x <;> rfl
    simp only [this, Res.mapState]
    cases g <;> rfl
  | .table m, g, h => by
    rw [Toml.sized] at h
    have e : (set_map g).oldMap = entriesOf g := by cases g <;> rfl
    rw [TOML_to_GC, tomlOver, e, toml_overMembers m (entriesOf g) h]
  | .arr l, g, h => by
    rw [Toml.sized, Bool.and_eq_true, decide_eq_true_eq] at h
    have e : set_vector 0 g = vector (itemsOf g) := by cases g <;> rfl
    have ih := toml_overs l [] (itemsOf g) h.2 (by simpa using h.1)
    rw [List.nil_append, List.nil_append] at ih
    have e1 : (set_vec_string_n 0 g).oldVecString = stringsOf g := by cases g <;> rfl
    have e2 : (set_vec_int_n 0 g).oldVecInt = intsOf g := by cases g <;> rfl
    have e3 : (set_vec_real_n 0 g).oldVecReal = realsOf g := by cases g <;> rfl
    rw [TOML_to_GC, tomlOver, tomlArray, e, e1, e2, e3, strings_all, ints_all, floats_all]
    by_cases ht : Toml.areTables l = true
    · rw [if_pos ht]
      have : l.all Toml.isStr = false ∧ l.all Toml.isInt = false ∧ l.all Toml.isFloat = false := by
        cases l with
        | nil => simp [Toml.areTables] at ht
        | cons d r =>
          have : d.isTable = true := by simp [Toml.areTables] at ht; exact ht.1
          cases d <;> simp [Toml.isTable] at this
          simp [Toml.isStr, Toml.isInt, Toml.isFloat]
      rw [this.1, this.2.1, this.2.2]
      exact ih
    · rw [if_neg ht]
      by_cases h1 : l.all Toml.isStr = true
      · rw [if_pos h1, if_pos h1]
      · rw [if_neg h1, if_neg h1]
        by_cases h2 : l.all Toml.isInt = true
        · rw [if_pos h2, if_pos h2]
          simp only [List.map_map, Function.comp_def, low_eq]
        · rw [if_neg h2, if_neg h2]
          by_cases h3 : l.all Toml.isFloat = true
          · rw [if_pos h3, if_pos h3]
          · rw [if_neg h3, if_neg h3]
            exact ih
termination_by structural d => d

theorem toml_overs : ∀ (l : List Toml) (a v : List GC), Toml.sizedL l = true → a.length + l.length < 2 ^ 32 →
    tomlElems l a.length (vector (a ++ v)) = .ok (vector (a ++ tomlOvers l v)) ()
  | [], a, v, _, _ => by rw [tomlElems, tomlOvers]
  | d :: l, a, v, h, hl => by
    rw [Toml.sizedL, Bool.and_eq_true] at h
    rw [List.length_cons] at hl
    rw [tomlElems, withIdx_over (toml_over d _ h.1) (by omega), Res.bind, tomlOvers]
    have := toml_overs l (a ++ [tomlOver d (v.headD notype)]) v.tail h.2 (by simp; omega)
    simpa using this
termination_by structural l => l

theorem toml_overMembers : ∀ (m : List (Bytes × Toml)) (e : Entries), Toml.sizedM m = true →
    tomlEntries m e = .ok (tomlOverMembers m e)
  | [], e, _ => by rw [tomlEntries, tomlOverMembers]
  | (k, d) :: r, e, h => by
    rw [Toml.sizedM, Bool.and_eq_true] at h
    rw [tomlEntries, toml_over d _ h.1, tomlOverMembers]
    exact toml_overMembers r _ h.2
termination_by structural l => l

end

/-- **C106**: a text that is no document is refused: the answer is false and the container is as before. -/
theorem C106_refused (g : GC) : from_yaml none g = .ok g false ∧ from_toml none g = .ok g false := ⟨rfl, rfl⟩

/-- **C106**: exactly what from_yaml does with a document: stored over what the container has, then packed.  A key that is not
a string, at any depth, makes the answer false. -/
theorem C106_yaml (d : Yaml) (hs : d.sized = true) (g : GC) :
    (d.keyed = true → from_yaml (some d) g = answered (collapse (yamlOver d g))) ∧
    (d.keyed = false → ∃ g', from_yaml (some d) g = .ok g' false) := by
  have h := yaml_over d g hs
  constructor
  · intro hk
    rw [if_pos hk] at h
    rw [from_yaml, importDoc, h, Res.bind]
    cases collapse (yamlOver d g) <;> rfl
  · intro hk
    rw [hk, if_neg (by simp)] at h
    obtain ⟨g1, h1⟩ := h
    exact ⟨g1, by rw [from_yaml, importDoc, h1, Res.bind]⟩

/-- **C106**: exactly what from_toml does with a document. -/
theorem C106_toml (d : Toml) (hs : d.sized = true) (g : GC) : from_toml (some d) g = answered (collapse (tomlOver d g)) := by
  rw [from_toml, importDoc, toml_over d g hs, Res.bind]
  cases collapse (tomlOver d g) <;> rfl

/-- **C106**: from_yaml and from_toml do not throw, whatever the text and the container. -/
theorem C106_never_throws (g g' : GC) :
    (∀ d, from_yaml d g ≠ .throw g') ∧ ∀ d, from_toml d g ≠ .throw g' := by
  have : ∀ conv, importDoc conv g ≠ .throw g' := by
    intro conv
    unfold importDoc
    cases (conv g).bind fun g' _ => collapse g' <;> simp
  constructor
  · rintro (_ | d)
    · simp [from_yaml]
    · exact this _
  · rintro (_ | d)
    · simp [from_toml]
    · exact this _

/-- Strings are appended to a vector of strings that is there; a record is stored over the map that is there. -/
example : from_toml (some (.table [(str "a", .arr [.str (str "y")]), (str "b", .date (str "d"))]))
    (map [(str "a", vecString [str "x"]), (str "c", int 3)]) =
    .ok (map [(str "a", vecString [str "x", str "y"]), (str "b", map [(str "$date", string (str "d"))]), (str "c", int 3)]) true :=
  by rw [C106_toml _ (by decide +kernel)]; decide +kernel

/-- A key that is a number. -/
example : ∃ g', from_yaml (some (.mapping [(some (str "a"), .seq [.mapping [(none, .null)]])])) (int 1) = .ok g' false :=
  (C106_yaml _ (by decide +kernel) _).2 (by decide +kernel)

/-- **C49**, refuted: a valid document with a list of a string and a list of numbers is refused, and the container has its data
all the same. -/
theorem C49_mixed_list_negation :
    from_yaml (some (.seq [.str (str "x"), .seq [.int 1]])) notype =
      .ok (vector [string (str "x"), vecInt [1]]) false ∧
    from_toml (some (.table [(str "k", .arr [.str (str "x"), .arr [.int 1]])])) notype =
      .ok (map [(str "k", vector [string (str "x"), vecInt [1]])]) false := by
  constructor <;> decide +kernel

end GCV.GC
