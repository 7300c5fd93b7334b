import Verif.Lemmas.Docs

/-!
# C42, C49: numbers and documents read from YAML and TOML
-/

namespace GCV
namespace GC

/-! ## C42 -/

theorem whole_cases {n : I64} {x : GC} (h : Whole n x) : (∃ i : I32, x = int i ∧ i.toInt = n.toInt) ∨ x = long n := by
  unfold Whole at h
  split at h
  · exact .inl h
  · exact .inr h

theorem whole_leaf {n : I64} {x : GC} (h : Whole n x) : collapse x = .ok x () := by
  rcases whole_cases h with ⟨i, rfl, -⟩ | rfl <;> rfl

/-- **C42** for scalars: a whole number read from YAML is stored with its value, as int when it fits 32 bits and as
long otherwise, whatever the container held before. -/
theorem C42_yaml_scalar (n : I64) (g : GC) : ∃ x, from_yaml (some (.int n)) g = .ok x true ∧ Whole n x := by
  refine ⟨setWhole n g, ?_, setWhole_whole n g⟩
  rw [from_yaml, importDoc, YAML_to_GC, Res.bind, whole_leaf (setWhole_whole n g)]

/-- **C42** for the values of a TOML table: the same. -/
theorem C42_toml_scalar (k : Bytes) (n : I64) (g : GC) (hg : g.ty ≠ .MAP) :
    ∃ x, from_toml (some (.table [(k, .int n)])) g = .ok (map [(k, x)]) true ∧ Whole n x := by
  refine ⟨setWhole n notype, ?_, setWhole_whole n _⟩
  have h1 : TOML_to_GC (.table [(k, .int n)]) g = .ok (map [(k, setWhole n notype)]) () := by
    have : (set_map g).oldMap = [] := by
      cases g <;> first | rfl | exact absurd rfl hg
    rw [TOML_to_GC, this, tomlEntries, TOML_to_GC]
    simp only [tomlEntries]; rfl
  rw [from_toml, importDoc, h1, Res.bind, collapse, collapseM, whole_leaf (setWhole_whole n _), collapseM]

example : Whole 5 (int 5) ∧ Whole (BitVec.ofInt 64 (-2147483648)) (int (BitVec.ofInt 32 (-2147483648))) ∧
    Whole 2147483648 (long 2147483648) := by
  refine ⟨?_, ?_, ?_⟩ <;> unfold Whole
  · exact ⟨5, rfl, by decide⟩
  · exact ⟨_, rfl, by decide⟩
  · rw [if_neg (by decide)]

theorem yaml_ints : ∀ (ns : List I64) (v : List GC), ns.length = v.length →
    yamlElems (ns.map .int) v = .ok (ns.map fun n => setWhole n notype)
  | [], [], _ => by simp [yamlElems]
  | [], _ :: _, h => by simp at h
  | _ :: _, [], h => by simp at h
  | n :: ns, x :: v, h => by
    simp only [List.map_cons]
    rw [yamlElems, YAML_to_GC, setWhole_any n x notype]
    simp only [yaml_ints ns v (by simpa using h)]

theorem int_of_same {i : I32} {n : I64} {x : GC} (hw : Whole n x) (h : SameNumber x (int i)) : i.toInt = n.toInt := by
  have hx : numValue x = some (n.toInt * F64.unit) := by
    rcases whole_cases hw with ⟨j, rfl, hj⟩ | rfl
    · rw [numValue, hj]
    · rfl
  rcases h with h | ⟨q, h1, h2⟩ | ⟨r, h, h'⟩
  · rw [h, numValue, Option.some.injEq] at hx; exact mul_unit_inj hx
  · rw [hx] at h1; rw [numValue] at h2
    rw [← h2, Option.some.injEq] at h1
    exact (mul_unit_inj h1).symm
  · simp at h'

theorem long_of_same {l n : I64} {x : GC} (hw : Whole n x) (h : SameNumber x (long l)) : l = n := by
  have hx : numValue x = some (n.toInt * F64.unit) := by
    rcases whole_cases hw with ⟨j, rfl, hj⟩ | rfl
    · rw [numValue, hj]
    · rfl
  apply BitVec.eq_of_toInt_eq
  rcases h with h | ⟨q, h1, h2⟩ | ⟨r, h, h'⟩
  · rw [h, numValue, Option.some.injEq] at hx; exact mul_unit_inj hx
  · rw [hx] at h1; rw [numValue] at h2
    rw [← h2, Option.some.injEq] at h1
    exact (mul_unit_inj h1).symm
  · simp at h'

/-- **C42** for YAML sequences: a sequence of whole numbers becomes a vector of int with the same values when all of
them fit 32 bits, and otherwise a vector of long with the same values, whatever the container held before. -/
theorem C42_yaml_array (ns : List I64) (g : GC) (hne : ns ≠ []) (hl : ns.length < 2 ^ 32) :
    ∃ x, from_yaml (some (.seq (ns.map .int))) g = .ok x true ∧
      ((∀ n ∈ ns, -2 ^ 31 ≤ n.toInt ∧ n.toInt < 2 ^ 31) → ∃ w : List I32, x = vecInt w ∧ w.map BitVec.toInt = ns.map BitVec.toInt) ∧
      ((∃ n ∈ ns, ¬ (-2 ^ 31 ≤ n.toInt ∧ n.toInt < 2 ^ 31)) → x = vecLong ns) := by
  have hlen : 0 < ns.length := by
    cases ns with
    | nil => exact absurd rfl hne
    | cons => simp
  let v := ns.map fun n => setWhole n notype
  have h1 : YAML_to_GC (.seq (ns.map .int)) g = .ok (vector v) () := by
    rw [YAML_to_GC, yaml_ints ns _ ?_]
    rw [set_vector, allocate_vector, oldVector, List.length_map, u32_of_lt hl, length_allocL _ _ _ hlen]
  have hv : ∀ x ∈ v, ∃ n ∈ ns, Whole n x := by
    intro x hx
    obtain ⟨n, hn, rfl⟩ := List.mem_map.1 hx
    exact ⟨n, hn, setWhole_whole n _⟩
  have hnum : ∀ x ∈ v, (∃ i, x = int i) ∨ ∃ l, x = long l := by
    intro x hx
    obtain ⟨n, -, hw⟩ := hv x hx
    rcases whole_cases hw with ⟨i, h, -⟩ | h
    · exact .inl ⟨i, h⟩
    · exact .inr ⟨_, h⟩
  obtain ⟨g', h2, ⟨h3, h4⟩, h5, ⟨y, hy, h6⟩, h7⟩ := C17_packs_numbers_partial v (by simpa [v] using hne) (by simpa [v] using hl)
    (fun x hx => by rcases hnum x hx with ⟨i, rfl⟩ | ⟨l, rfl⟩ <;> rfl)
    (fun c hc => by rcases hnum _ hc with ⟨i, h⟩ | ⟨l, h⟩ <;> simp at h)
    (.inr ⟨fun r hr => by rcases hnum _ hr with ⟨i, h⟩ | ⟨l, h⟩ <;> simp at h,
      fun r hr => by rcases hnum _ hr with ⟨i, h⟩ | ⟨l, h⟩ <;> simp at h⟩)
  refine ⟨g', by rw [from_yaml, importDoc, h1, Res.bind, h2], ?_, ?_⟩
  · intro hf
    have hint : ∀ x ∈ v, ∃ i, x = int i := by
      intro x hx
      obtain ⟨n, hn, hw⟩ := hv x hx
      unfold Whole at hw
      rw [if_pos (hf n hn)] at hw
      obtain ⟨i, hi, -⟩ := hw
      exact ⟨i, hi⟩
    obtain ⟨i, rfl⟩ := hint y hy
    have : ∃ w, g' = vecInt w := by
      cases g' <;> first | exact ⟨_, rfl⟩ | (exfalso; simp [shape, width, ty] at h5 h6)
    obtain ⟨w, rfl⟩ := this
    refine ⟨w, rfl, List.ext_getElem? fun j => ?_⟩
    have hlw : ns.length = w.length := by simpa [v, elems] using h3
    by_cases hj : j < ns.length
    · have e1 : v[j]? = some (setWhole ns[j] notype) := by simp [v, hj]
      have e2 : (elems (vecInt w))[j]? = some (int (w[j]'(hlw ▸ hj))) := by simp [elems, hlw ▸ hj]
      have := int_of_same (setWhole_whole _ _) (h4 j _ _ e1 e2)
      simp [hj, hlw ▸ hj, this]
    · simp [List.getElem?_eq_none (Nat.le_of_not_lt hj), List.getElem?_eq_none (hlw ▸ Nat.le_of_not_lt hj)]
  · rintro ⟨n, hn, hnf⟩
    have hm : long n ∈ v := by
      refine List.mem_map.2 ⟨n, hn, ?_⟩
      have := setWhole_whole n notype
      unfold Whole at this
      rwa [if_neg hnf] at this
    have hw : width y.ty = some 1 ∨ width y.ty = some 2 := by
      rcases hnum y hy with ⟨i, rfl⟩ | ⟨l, rfl⟩
      · exact .inl rfl
      · exact .inr rfl
    obtain ⟨a, b, ha, hb, hab⟩ := h7 _ hm
    simp [width, ty] at ha
    have : ∃ w, g' = vecLong w := by
      rw [← h6, hb] at hw
      have : b = 2 := by rcases hw with hw | hw <;> simp at hw <;> omega
      subst this
      cases g' <;> first | exact ⟨_, rfl⟩ | (exfalso; simp [shape, width, ty] at h5 hb)
    obtain ⟨w, rfl⟩ := this
    congr 1
    refine List.ext_getElem? fun j => ?_
    have hlw : ns.length = w.length := by simpa [v, elems] using h3
    by_cases hj : j < ns.length
    · have e1 : v[j]? = some (setWhole ns[j] notype) := by simp [v, hj]
      have e2 : (elems (vecLong w))[j]? = some (long (w[j]'(hlw ▸ hj))) := by simp [elems, hlw ▸ hj]
      have := long_of_same (setWhole_whole _ _) (h4 j _ _ e1 e2)
      simp [hj, hlw ▸ hj, this]
    · simp [List.getElem?_eq_none (Nat.le_of_not_lt hj), List.getElem?_eq_none (hlw ▸ Nat.le_of_not_lt hj)]

example : from_yaml (some (.seq [.int 1, .int 4294967296])) (vecInt [7]) = .ok (vecLong [1, 4294967296]) true := by
  obtain ⟨x, h1, -, h2⟩ := C42_yaml_array [1, 4294967296] (vecInt [7]) (by simp) (by decide)
  rw [h2 ⟨4294967296, by simp, by decide⟩] at h1
  exact h1

/-- A TOML array of whole numbers, read into a container that holds no vector of int: a vector of int. -/
theorem toml_ints (ns : List I64) (g : GC) (hne : ns ≠ []) (hg : g.ty ≠ .VEC_INTEGER) :
    TOML_to_GC (.arr (ns.map .int)) g = .ok (vecInt (ns.map fun n => n.setWidth 32)) () := by
  have h1 : Toml.areTables (ns.map .int) = false := by
    cases ns with
    | nil => rfl
    | cons n ns => simp [Toml.areTables, Toml.isTable]
  have h2 : (ns.map Toml.int).all Toml.isStr = false := by
    cases ns with
    | nil => exact absurd rfl hne
    | cons n ns => simp [Toml.isStr]
  have h3 : (ns.map Toml.int).all Toml.isInt = true := by simp [Toml.isInt]
  have h4 : (set_vec_int_n 0 g).oldVecInt = [] := by
    cases g <;> first | rfl | exact absurd rfl hg
  rw [TOML_to_GC, if_neg (by simp [h1]), if_neg (by simp [h2]), if_pos h3, h4]
  simp [Toml.intOf, Function.comp_def]

/-- **C42** for TOML arrays.  Partial: the whole numbers of an array are stored with their values when all of them fit
32 bits. -/
theorem C42_toml_array_partial (k : Bytes) (ns : List I64) (hne : ns ≠ [])
    (hf : ∀ n ∈ ns, -2 ^ 31 ≤ n.toInt ∧ n.toInt < 2 ^ 31) :
    ∃ w : List I32, from_toml (some (.table [(k, .arr (ns.map .int))])) notype = .ok (map [(k, vecInt w)]) true ∧
      w.map BitVec.toInt = ns.map BitVec.toInt := by
  refine ⟨ns.map fun n => n.setWidth 32, ?_, ?_⟩
  · have h1 : TOML_to_GC (.table [(k, .arr (ns.map .int))]) notype = .ok (map [(k, vecInt (ns.map fun n => n.setWidth 32))]) () := by
      rw [TOML_to_GC]
      show (match tomlEntries [(k, Toml.arr (ns.map .int))] [] with | .ok e => _ | .throw e => _ | .ub => _ | .diverge => _) = _
      rw [tomlEntries, mfind, Option.getD_none, toml_ints ns notype hne (by simp [ty])]
      simp only [tomlEntries]; rfl
    rw [from_toml, importDoc, h1]; rfl
  · rw [List.map_map]
    exact List.map_congr_left fun n hn => toInt_low (hf n hn)

/-- **C42** fails for every other TOML array of whole numbers: the value of a number that does not fit 32 bits is
lost, because the array is stored as a vector of int all the same. -/
theorem C42_toml_array_negation (k : Bytes) (ns : List I64) (n : I64) (hn : n ∈ ns)
    (hf : ¬ (-2 ^ 31 ≤ n.toInt ∧ n.toInt < 2 ^ 31)) :
    ∃ w : List I32, from_toml (some (.table [(k, .arr (ns.map .int))])) notype = .ok (map [(k, vecInt w)]) true ∧
      ∀ i : Nat, ns[i]? = some n → ∃ m : I32, w[i]? = some m ∧ m.toInt ≠ n.toInt := by
  have hne : ns ≠ [] := fun h => by simp [h] at hn
  refine ⟨ns.map fun n => n.setWidth 32, ?_, ?_⟩
  · have h1 : TOML_to_GC (.table [(k, .arr (ns.map .int))]) notype = .ok (map [(k, vecInt (ns.map fun n => n.setWidth 32))]) () := by
      rw [TOML_to_GC]
      show (match tomlEntries [(k, Toml.arr (ns.map .int))] [] with | .ok e => _ | .throw e => _ | .ub => _ | .diverge => _) = _
      rw [tomlEntries, mfind, Option.getD_none, toml_ints ns notype hne (by simp [ty])]
      simp only [tomlEntries]; rfl
    rw [from_toml, importDoc, h1]; rfl
  · intro i hi
    refine ⟨n.setWidth 32, by simp [hi], fun h => hf ?_⟩
    have := (n.setWidth 32).toInt_lt
    have := (n.setWidth 32).le_toInt
    omega

example : ¬ (-2 ^ 31 ≤ (4294967297 : I64).toInt ∧ (4294967297 : I64).toInt < 2 ^ 31) := by decide

/-- **C42** for TOML arrays, exactly: of every number of an array of whole numbers the low 32 bits are stored, as a signed
number. -/
theorem C42_toml_array_exact (k : Bytes) (ns : List I64) (hne : ns ≠ []) :
    ∃ w : List I32, from_toml (some (.table [(k, .arr (ns.map .int))])) notype = .ok (map [(k, vecInt w)]) true ∧
      w.map BitVec.toInt = ns.map fun n => (n.toInt + 2 ^ 31) % 2 ^ 32 - 2 ^ 31 := by
  refine ⟨ns.map fun n => n.setWidth 32, ?_, ?_⟩
  · have h1 : TOML_to_GC (.table [(k, .arr (ns.map .int))]) notype = .ok (map [(k, vecInt (ns.map fun n => n.setWidth 32))]) () := by
      rw [TOML_to_GC]
      show (match tomlEntries [(k, Toml.arr (ns.map .int))] [] with | .ok e => _ | .throw e => _ | .ub => _ | .diverge => _) = _
      rw [tomlEntries, mfind, Option.getD_none, toml_ints ns notype hne (by simp [ty])]
      simp only [tomlEntries]; rfl
    rw [from_toml, importDoc, h1]; rfl
  · rw [List.map_map]
    refine List.map_congr_left fun n _ => ?_
    rw [Function.comp, BitVec.toInt_setWidth, Int.bmod_def, BitVec.toInt_eq_toNat_cond]
    have := n.isLt
    split <;> split <;> omega

/-! ## C49 -/

theorem says_list {d : Yaml} {x : GC} (h : YamlSays d x) : (listLike x ↔ ∃ l, d = .seq l) ∧
    (∀ l v, d = .seq l → x = vector v → l.length = v.length) := by
  unfold listLike
  cases h with
  | int h => rcases whole_cases h with ⟨i, rfl, -⟩ | rfl <;> simp [shape, ty]
  | seq h1 h2 =>
    refine ⟨by simp [shape, ty], ?_⟩
    rintro l v ⟨⟩ ⟨⟩; exact h1
  | _ => simp [shape, ty]

theorem yaml_parts {d : Yaml} {g x : GC} (h : YamlSays d g) (hi : Inside x g) : ∃ d', YInside d' d ∧ YamlSays d' x := by
  induction hi generalizing d with
  | self => exact ⟨d, .self, h⟩
  | elem hx _ ih =>
    cases h with
    | int h => rcases whole_cases h with ⟨i, h, -⟩ | h <;> simp at h
    | @seq l v h1 h2 =>
      obtain ⟨i, hi, rfl⟩ := List.mem_iff_getElem.1 hx
      have hl : i < l.length := h1 ▸ hi
      obtain ⟨d', h3, h4⟩ := ih (h2 i l[i] _ (List.getElem?_eq_getElem hl) (List.getElem?_eq_getElem hi))
      exact ⟨d', .elem (List.getElem_mem hl) h3, h4⟩
  | value hx _ ih =>
    cases h with
    | int h => rcases whole_cases h with ⟨i, h, -⟩ | h <;> simp at h
    | mapping hs h1 h2 =>
      obtain ⟨d1, hd⟩ := (h1 _).2 ⟨_, hx⟩
      obtain ⟨d', h3, h4⟩ := ih (h2 _ _ _ hd hx)
      exact ⟨d', .value hd h3, h4⟩

theorem yamlOk_parts {d d' : Yaml} (h : YamlOk d) (hi : YInside d' d) : YamlOk d' := by
  induction hi with
  | self => exact h
  | elem hx _ ih => cases h with | seq _ h => exact ih (h _ hx)
  | value hx _ ih => cases h with | mapping _ _ h => exact ih (h _ hx)

theorem yInside_trans {a b c : Yaml} (h1 : YInside a b) (h2 : YInside b c) : YInside a c := by
  induction h2 with
  | self => exact h1
  | elem hx _ ih => exact .elem hx ih
  | value hx _ ih => exact .value hx ih

theorem inside_trans {a b c : GC} (h1 : Inside a b) (h2 : Inside b c) : Inside a c := by
  induction h2 with
  | self => exact h1
  | elem hx _ ih => exact .elem hx ih
  | value hx _ ih => exact .value hx ih

/-- The document's element behind an element of the vector. -/
theorem yaml_elem {l : List Yaml} {v : List GC} (h : YamlSays (.seq l) (vector v)) {x : GC} (hx : x ∈ v) :
    ∃ d ∈ l, YamlSays d x := by
  cases h with
  | seq h1 h2 =>
    obtain ⟨i, hi, rfl⟩ := List.mem_iff_getElem.1 hx
    have hl : i < l.length := h1 ▸ hi
    exact ⟨l[i], List.getElem_mem hl, h2 i l[i] _ (List.getElem?_eq_getElem hl) (List.getElem?_eq_getElem hi)⟩

theorem seq_of_vector {d : Yaml} {v : List GC} (h : YamlSays d (vector v)) : ∃ l, d = .seq l ∧ l.length = v.length := by
  cases h with
  | int h => rcases whole_cases h with ⟨i, h, -⟩ | h <;> simp at h
  | seq h1 h2 => exact ⟨_, rfl, h1⟩

theorem yaml_listLike {d : Yaml} {x : GC} (h : YamlSays d x) (hx : listLike x) :
    ∃ l v, d = .seq l ∧ x = vector v ∧ l.length = v.length := by
  cases h with
  | int h => rcases whole_cases h with ⟨i, rfl, -⟩ | rfl <;> simp [listLike, shape, ty] at hx
  | seq h1 h2 => exact ⟨_, _, rfl, rfl, h1⟩
  | _ => simp [listLike, shape, ty] at hx

theorem yaml_vectorOk {d : Yaml} {g : GC} (h : YamlOk d) (hf : YamlFlat d) (hs : YamlSays d g) {v : List GC}
    (hv : Inside (vector v) g) : VectorOk v := by
  obtain ⟨d1, hd1, hs1⟩ := yaml_parts hs hv
  obtain ⟨l, rfl, hl⟩ := seq_of_vector hs1
  have hok := yamlOk_parts h hd1
  have hlen : l.length < 2 ^ 32 := by cases hok; assumption
  have hel : ∀ x ∈ v, ∃ d ∈ l, YamlSays d x := fun x hx => yaml_elem hs1 hx
  have hno : ∀ x ∈ v, (∀ q, x ≠ pointer q) ∧ (∀ q, x ≠ vecPointer q) ∧ ∀ c, x ≠ complex c := by
    intro x hx
    obtain ⟨d, -, hd⟩ := hel x hx
    cases hd with
    | int h => rcases whole_cases h with ⟨i, rfl, -⟩ | rfl <;> simp
    | _ => simp
  refine ⟨hl ▸ hlen, ?_, ?_, ?_, ?_, ?_, ?_⟩
  · intro x hx
    obtain ⟨d, hd, hds⟩ := hel x hx
    have hdok := yamlOk_parts hok (.elem hd .self)
    cases hds with
    | int h => rcases whole_cases h with ⟨i, rfl, -⟩ | rfl <;> rfl
    | seq h1 h2 =>
      cases hdok with
      | seq h3 _ => simpa [sizeOk] using h1 ▸ h3
    | _ => rfl
  · intro x hx hx'
    obtain ⟨d, hd, hds⟩ := hel x hx
    obtain ⟨s, w, rfl, rfl, h1⟩ := yaml_listLike hds hx'
    have := hf.cells l hd1 s hd
    rw [h1, hl] at this
    exact this
  · intro x hx y hy hsc hly
    obtain ⟨d, hd, hds⟩ := hel x hx
    obtain ⟨d', hd', hds'⟩ := hel y hy
    obtain ⟨s, w, rfl, rfl, -⟩ := yaml_listLike hds' hly
    rcases hf.apart l hd1 with h1 | h1
    · obtain ⟨t, rfl⟩ := h1 d hd
      have := (says_list hds).1.2 ⟨t, rfl⟩
      exfalso
      cases x <;> simp [listLike, shape, ty] at this <;> simp [scalar, ty, Ty.rank] at hsc
    · exact absurd rfl (h1 _ hd' s)
  · intro q hq; exact absurd rfl ((hno _ hq).1 q)
  · intro q hq; exact absurd rfl ((hno _ hq).2.1 q)
  · intro c hc; exact absurd rfl ((hno _ hc).2.2 c)

theorem elem_inside {x y : GC} (h : y ∈ elems x) : (x.ty = .VECTOR ∧ ∃ v, x = vector v ∧ y ∈ v) ∨ y = x ∨ shape x.ty = 1 ∨ shape x.ty = 2 := by
  cases x <;> simp [elems] at h <;> simp_all [ty, shape]

/-- The tree of a document keeps its data in `collapse`. -/
theorem yaml_collapse {d : Yaml} {g : GC} (h : YamlOk d) (hf : YamlFlat d) (h2 : YamlSays d g) :
    ∃ g', collapse g = .ok g' () ∧ SameTree (view g) (view g') := by
  have hin : ∀ x y, Inside x g → y ∈ elems x → Inside y g := by
    intro x y hx hy
    rcases elem_inside hy with ⟨-, v, rfl, hv⟩ | rfl | hs
    · exact inside_trans (.elem hv .self) hx
    · exact hx
    · obtain ⟨d', -, hs'⟩ := yaml_parts h2 hx
      exfalso
      cases hs' with
      | int h => rcases whole_cases h with ⟨i, rfl, -⟩ | rfl <;> simp [shape, ty] at hs
      | _ => simp [shape, ty] at hs
  exact C17_data_partial g (fun v hv => yaml_vectorOk h hf h2 hv) (by
    rcases hf.nums with hn | hn
    · left
      intro x hx l hl
      obtain ⟨d', hd', hs'⟩ := yaml_parts h2 (hin x _ hx hl)
      cases hs' with
      | int h =>
        rcases whole_cases h with ⟨i, h, -⟩ | h
        · simp at h
        · simp at h; subst h; exact hn _ hd'
    · right
      intro x hx
      refine ⟨fun r hr => ?_, fun c hc => ?_⟩
      · obtain ⟨d', hd', hs'⟩ := yaml_parts h2 (hin x _ hx hr)
        cases hs' with
        | int h => rcases whole_cases h with ⟨i, h, -⟩ | h <;> simp at h
        | float => exact hn r hd'
      · obtain ⟨d', hd', hs'⟩ := yaml_parts h2 (hin x _ hx hc)
        cases hs' with
        | int h => rcases whole_cases h with ⟨i, h, -⟩ | h <;> simp at h)

/-- **C49** for YAML.  A document read into an empty container is there with all its data: the container holds the
tree of the document, packed vectors and matrices standing for the lists of their elements and columns.  Partial:
documents as in `YamlOk` and `YamlFlat`. -/
theorem C49_yaml_partial (d : Yaml) (h : YamlOk d) (hf : YamlFlat d) :
    ∃ g g', YamlSays d g ∧ from_yaml (some d) notype = .ok g' true ∧ SameTree (view g) (view g') := by
  obtain ⟨g, h1, h2⟩ := yaml_read h
  obtain ⟨g', h3, h4⟩ := yaml_collapse h hf h2
  exact ⟨g, g', h2, by rw [from_yaml, importDoc, h1, Res.bind, h3], h4⟩

example : YamlOk (.mapping [(some (str "b"), .seq [.int 1, .float ⟨0x3FF8000000000000⟩]), (some (str "a"), .null)]) ∧
    YamlFlat (.mapping [(some (str "b"), .seq [.int 1, .float ⟨0x3FF8000000000000⟩]), (some (str "a"), .null)]) := by
  have hin : ∀ y, YInside y (.mapping [(some (str "b"), .seq [.int 1, .float ⟨0x3FF8000000000000⟩]), (some (str "a"), .null)]) →
      y = .mapping [(some (str "b"), .seq [.int 1, .float ⟨0x3FF8000000000000⟩]), (some (str "a"), .null)] ∨
      y = .seq [.int 1, .float ⟨0x3FF8000000000000⟩] ∨ y = .int 1 ∨ y = .float ⟨0x3FF8000000000000⟩ ∨ y = .null := by
    intro y hy
    cases hy with
    | self => exact .inl rfl
    | value hm hy =>
      simp at hm
      rcases hm with ⟨-, rfl⟩ | ⟨-, rfl⟩
      · cases hy with
        | self => simp
        | elem hm hy =>
          simp at hm
          rcases hm with rfl | rfl <;> cases hy <;> simp
      · cases hy; simp
  refine ⟨.mapping (by decide) (by simp) ?_, ⟨?_, ?_, .inl ?_⟩⟩
  · intro e he
    simp at he
    rcases he with rfl | rfl
    · refine .seq (by decide) ?_
      intro d hd; simp at hd; rcases hd with rfl | rfl
      · exact .int
      · exact .float
    · exact .null
  · intro l hl; rcases hin _ hl with h | h | h | h | h <;> simp at h
    subst h; right; simp
  · intro l hl s hs; rcases hin _ hl with h | h | h | h | h <;> simp at h
    subst h; simp at hs
  · intro n hn; rcases hin _ hn with h | h | h | h | h <;> simp at h
    subst h; decide

/-! ### TOML -/

theorem toml_list {d : Toml} {x : GC} (h : TomlSays d x) (hx : listLike x) :
    ∃ l, d = .arr l ∧ l.length = (elems x).length ∧ ∀ y ∈ elems x, ∃ d' ∈ l, TomlSays d' y := by
  cases h with
  | int h => rcases whole_cases h with ⟨i, rfl, -⟩ | rfl <;> simp [listLike, shape, ty] at hx
  | @arr l _ h1 h2 h3 =>
    refine ⟨_, rfl, h2, fun y hy => ?_⟩
    obtain ⟨i, hi, rfl⟩ := List.mem_iff_getElem.1 hy
    have hl : i < l.length := h2 ▸ hi
    exact ⟨l[i], List.getElem_mem hl, h3 i l[i] _ (List.getElem?_eq_getElem hl) (List.getElem?_eq_getElem hi)⟩
  | _ => simp [listLike, shape, ty] at hx

theorem toml_parts {d : Toml} {g x : GC} (h : TomlSays d g) (hi : Inside x g) :
    (∃ d', TInside d' d ∧ TomlSays d' x) ∨ ∃ s, x = string s := by
  induction hi generalizing d with
  | self => exact .inl ⟨d, .self, h⟩
  | elem hx _ ih =>
    obtain ⟨l, rfl, -, h1⟩ := toml_list h (.inr rfl)
    obtain ⟨d1, hd1, hs⟩ := h1 _ hx
    rcases ih hs with ⟨d', h2, h3⟩ | h2
    · exact .inl ⟨d', .elem hd1 h2, h3⟩
    · exact .inr h2
  | value hx hi ih =>
    have text : ∀ (k' t : Bytes) {k : Bytes} {z : GC}, (k, z) ∈ [(k', string t)] → ∀ {y}, Inside y z → ∃ s, y = string s := by
      intro k' t k z hm y hy
      simp at hm
      rw [hm.2] at hy
      cases hy; exact ⟨t, rfl⟩
    cases h with
    | int h => rcases whole_cases h with ⟨i, h, -⟩ | h <;> simp at h
    | arr h => simp [shape, ty] at h
    | date => exact .inr (text _ _ hx hi)
    | time => exact .inr (text _ _ hx hi)
    | date_time => exact .inr (text _ _ hx hi)
    | table hs h1 h2 =>
      obtain ⟨d1, hd⟩ := (h1 _).2 ⟨_, hx⟩
      rcases ih (h2 _ _ _ hd hx) with ⟨d', h3, h4⟩ | h3
      · exact .inl ⟨d', .value hd h3, h4⟩
      · exact .inr h3

theorem tomlOk_parts {d d' : Toml} (h : TomlOk d) (hi : TInside d' d) : TomlOk d' := by
  induction hi with
  | self => exact h
  | elem hx _ ih => cases h with | arr _ h => exact ih (h _ hx)
  | value hx _ ih => cases h with | table _ h => exact ih (h _ hx)

theorem tInside_trans {a b c : Toml} (h1 : TInside a b) (h2 : TInside b c) : TInside a c := by
  induction h2 with
  | self => exact h1
  | elem hx _ ih => exact .elem hx ih
  | value hx _ ih => exact .value hx ih

/-- No pointers and no complex numbers come from TOML. -/
theorem toml_plain {d : Toml} {x : GC} (h : TomlSays d x) : (∀ q, x ≠ pointer q) ∧ (∀ c, x ≠ complex c) ∧ shape x.ty ≠ 2 := by
  cases h with
  | int h => rcases whole_cases h with ⟨i, rfl, -⟩ | rfl <;> simp [shape, ty]
  | arr h => cases x <;> simp [shape, ty] at h ⊢
  | _ => simp [shape, ty]

theorem sizeOk_list {x : GC} (hx : listLike x) (h : (elems x).length < 2 ^ 32) : sizeOk x = true := by
  cases x <;> first
    | (simp [listLike, shape, ty] at hx; done)
    | (simpa [elems, sizeOk] using h)

theorem sizeOk_plain {x : GC} (hx : ¬ listLike x) (h : shape x.ty ≠ 2) : sizeOk x = true := by
  cases x <;> simp [listLike, shape, ty, sizeOk] at hx h ⊢

theorem toml_vectorOk {d : Toml} {g : GC} (h : TomlOk d) (hf : TomlFlat d) (hs : TomlSays d g) {v : List GC}
    (hv : Inside (vector v) g) : VectorOk v := by
  rcases toml_parts hs hv with ⟨d1, hd1, hs1⟩ | ⟨s, hs⟩
  case inr => simp at hs
  obtain ⟨l, rfl, hl, hel⟩ := toml_list hs1 (.inr rfl)
  have hok := tomlOk_parts h hd1
  have hlen : l.length < 2 ^ 32 := by cases hok; assumption
  change l.length = v.length at hl
  change ∀ x ∈ v, ∃ d ∈ l, TomlSays d x at hel
  refine ⟨hl ▸ hlen, ?_, ?_, ?_, ?_, ?_, ?_⟩
  · intro x hx
    obtain ⟨d, hd, hds⟩ := hel x hx
    by_cases hx' : listLike x
    · obtain ⟨s, rfl, h1, -⟩ := toml_list hds hx'
      refine sizeOk_list hx' ?_
      have := tomlOk_parts hok (.elem hd .self)
      cases this with | arr h2 _ => exact h1 ▸ h2
    · exact sizeOk_plain hx' (toml_plain hds).2.2
  · intro x hx hx'
    obtain ⟨d, hd, hds⟩ := hel x hx
    obtain ⟨s, rfl, h1, -⟩ := toml_list hds hx'
    have := hf.cells l hd1 s hd
    rw [h1, hl] at this
    exact this
  · intro x hx y hy hsc hly
    obtain ⟨d, hd, hds⟩ := hel x hx
    obtain ⟨d', hd', hds'⟩ := hel y hy
    obtain ⟨s, rfl, -, -⟩ := toml_list hds' hly
    rcases hf.apart l hd1 with h1 | h1
    · obtain ⟨t, rfl⟩ := h1 d hd
      exfalso
      cases hds with
      | arr h2 => cases x <;> simp [shape, ty] at h2 <;> simp [scalar, ty, Ty.rank] at hsc
    · exact absurd rfl (h1 _ hd' s)
  · intro q hq
    obtain ⟨d, -, hds⟩ := hel _ hq
    exact absurd rfl ((toml_plain hds).1 q)
  · intro q hq hne
    obtain ⟨d, -, hds⟩ := hel _ hq
    obtain ⟨s, -, -, h1⟩ := toml_list hds (.inl rfl)
    cases q with
    | nil => exact absurd rfl hne
    | cons p q =>
      obtain ⟨d', -, h2⟩ := h1 (pointer p) (by simp [elems])
      exact absurd rfl ((toml_plain h2).1 p)
  · intro c hc
    obtain ⟨d, -, hds⟩ := hel _ hc
    exact absurd rfl ((toml_plain hds).2.1 c)

theorem toml_collapse {d : Toml} {g : GC} (h : TomlOk d) (hf : TomlFlat d) (h2 : TomlSays d g) :
    ∃ g', collapse g = .ok g' () ∧ SameTree (view g) (view g') := by
  have hel : ∀ x y, Inside x g → y ∈ elems x → (∃ d', TInside d' d ∧ TomlSays d' y) ∨ ∃ s, y = string s := by
    intro x y hx hy
    rcases elem_inside hy with ⟨-, v, rfl, hv⟩ | rfl | hs | hs
    · exact toml_parts h2 (inside_trans (.elem hv .self) hx)
    · exact toml_parts h2 hx
    · rcases toml_parts h2 hx with ⟨d', h3, h4⟩ | ⟨s, rfl⟩
      · obtain ⟨l, rfl, -, h5⟩ := toml_list h4 (.inl hs)
        obtain ⟨d1, h6, h7⟩ := h5 y hy
        exact .inl ⟨d1, tInside_trans (.elem h6 .self) h3, h7⟩
      · simp [shape, ty] at hs
    · rcases toml_parts h2 hx with ⟨d', h3, h4⟩ | ⟨s, rfl⟩
      · exact absurd hs (toml_plain h4).2.2
      · simp [shape, ty] at hs
  refine C17_data_partial g (fun v hv => toml_vectorOk h hf h2 hv) ?_
  rcases hf.nums with hn | hn
  · left
    intro x hx l hl
    rcases hel x _ hx hl with ⟨d', hd', hs'⟩ | ⟨s, hs⟩
    · cases hs' with
      | int h =>
        rcases whole_cases h with ⟨i, h, -⟩ | h
        · simp at h
        · simp at h; subst h; exact hn _ hd'
      | arr h => simp [shape, ty] at h
    · simp at hs
  · right
    intro x hx
    refine ⟨fun r hr => ?_, fun c hc => ?_⟩
    · rcases hel x _ hx hr with ⟨d', hd', hs'⟩ | ⟨s, hs⟩
      · cases hs' with
        | int h => rcases whole_cases h with ⟨i, h, -⟩ | h <;> simp at h
        | float => exact hn r hd'
        | arr h => simp [shape, ty] at h
      · simp at hs
    · rcases hel x _ hx hc with ⟨d', hd', hs'⟩ | ⟨s, hs⟩
      · exact absurd rfl ((toml_plain hs').2.1 c)
      · simp at hs

/-- **C49** for TOML: the same.  Partial: documents as in `TomlOk` and `TomlFlat`, and arrays of whole numbers with all
numbers within 32 bits. -/
theorem C49_toml_partial (d : Toml) (h : TomlOk d) (hs : TomlSmall d) (hf : TomlFlat d) :
    ∃ g g', TomlSays d g ∧ from_toml (some d) notype = .ok g' true ∧ SameTree (view g) (view g') := by
  obtain ⟨g, h1, h2⟩ := toml_read h hs
  obtain ⟨g', h3, h4⟩ := toml_collapse h hf h2
  exact ⟨g, g', h2, by rw [from_toml, importDoc, h1, Res.bind, h3], h4⟩

example : TomlOk (.table [(str "t", .date (str "2020-01-01"))]) ∧ TomlSmall (.table [(str "t", .date (str "2020-01-01"))]) ∧
    TomlFlat (.table [(str "t", .date (str "2020-01-01"))]) := by
  have hin : ∀ y, TInside y (.table [(str "t", .date (str "2020-01-01"))]) →
      y = .table [(str "t", .date (str "2020-01-01"))] ∨ y = .date (str "2020-01-01") := by
    intro y hy
    cases hy with
    | self => exact .inl rfl
    | value hm hy => simp at hm; rw [hm.2] at hy; cases hy; exact .inr rfl
  refine ⟨.table (by simp) ?_, .table ?_, ⟨?_, ?_, .inl ?_⟩⟩
  · intro e he; simp at he; subst he; exact .date
  · intro e he; simp at he; subst he; exact .date
  · intro l hl; rcases hin _ hl with h | h <;> simp at h
  · intro l hl; rcases hin _ hl with h | h <;> simp at h
  · intro l hl; rcases hin _ hl with h | h <;> simp at h

/-! ### Where it fails -/

/-- **C49** for documents of one value: the container holds that value and nothing else, whatever it held before. -/
theorem C49_scalar (g : GC) (b : Bool) (r : F64) (t : Bytes) :
    from_yaml (some .null) g = .ok notype true ∧ from_yaml (some (.bool b)) g = .ok (bool b) true ∧
    from_yaml (some (.float r)) g = .ok (real r) true ∧ from_yaml (some (.str t)) g = .ok (string t) true :=
  ⟨rfl, rfl, rfl, by cases g <;> rfl⟩

/-- **C49** fails for a container that is not empty: an empty mapping or table read into a map, and an empty sequence read
into a vector, leave what was there, only collapsed. -/
theorem C49_stale_negation (e : Entries) (v : List GC) (g' : GC) :
    (collapse (map e) = .ok g' () → from_yaml (some (.mapping [])) (map e) = .ok g' true ∧
      from_toml (some (.table [])) (map e) = .ok g' true) ∧
    (collapse (vector v) = .ok g' () → from_yaml (some (.seq [])) (vector v) = .ok g' true) := by
  refine ⟨fun h => ⟨?_, ?_⟩, fun h => ?_⟩
  · have : YAML_to_GC (.mapping []) (map e) = .ok (map e) () := by rw [YAML_to_GC, yamlEntries]; rfl
    rw [from_yaml, importDoc, this, Res.bind, h]
  · have : TOML_to_GC (.table []) (map e) = .ok (map e) () := by rw [TOML_to_GC, tomlEntries]; rfl
    rw [from_toml, importDoc, this, Res.bind, h]
  · have : YAML_to_GC (.seq []) (vector v) = .ok (vector v) () := by rw [YAML_to_GC, yamlElems]; rfl
    rw [from_yaml, importDoc, this, Res.bind, h]

example : collapse (map [(str "a", int 1)]) = .ok (map [(str "a", int 1)]) () := rfl

/-- A key that the document has not stays, whatever else is read. -/
theorem C49_stale_key_negation (k : Bytes) (x : GC) (k' : Bytes) (n : I64) (hne : k' ≠ k) (hx : collapse x = .ok x ()) :
    ∃ e, from_yaml (some (.mapping [(some k', .int n)])) (map [(k, x)]) = .ok (map e) true ∧ (k, x) ∈ e := by
  have h1 : YAML_to_GC (.mapping [(some k', .int n)]) (map [(k, x)]) = .ok (map (mset k' (setWhole n notype) [(k, x)])) () := by
    rw [YAML_to_GC, show (set_map (map [(k, x)])).oldMap = [(k, x)] from rfl, yamlEntries, YAML_to_GC, setWhole_any n _ notype]
    simp only [yamlEntries]
  have hw := whole_leaf (setWhole_whole n notype)
  rw [from_yaml, importDoc, h1, Res.bind]
  simp only [mset, if_neg hne]
  by_cases hb : blt k' k = true
  · rw [if_pos hb]
    refine ⟨[(k', setWhole n notype), (k, x)], ?_, by simp⟩
    simp only [collapse, collapseM, hw, hx]
  · rw [if_neg hb]
    refine ⟨[(k, x), (k', setWhole n notype)], ?_, by simp⟩
    simp only [collapse, collapseM, hw, hx]

/-- **C49** fails for valid documents that collapse() refuses, and for keys that are not strings: the answer is false. -/
theorem C49_refused_negation (s : Bytes) (n : I64) (d : Yaml) :
    (∃ g, from_yaml (some (.seq [.str s, .seq [.int n]])) notype = .ok g false) ∧
    (∃ g, from_toml (some (.table [(str "a", .arr [.str s, .arr [.int n]])])) notype = .ok g false) ∧
    from_yaml (some (.mapping [(none, d)])) notype = .ok (map []) false := by
  refine ⟨?_, ?_, ?_⟩
  · obtain ⟨x, h1, hx⟩ : ∃ x, from_yaml (some (.seq [.int n])) notype = .ok x true ∧ ((∃ i, x = vecInt [i]) ∨ ∃ l, x = vecLong [l]) := by
      obtain ⟨x, h1, h2, h3⟩ := C42_yaml_array [n] notype (by simp) (by simp)
      refine ⟨x, h1, ?_⟩
      by_cases hf : -2 ^ 31 ≤ n.toInt ∧ n.toInt < 2 ^ 31
      · obtain ⟨w, rfl, hw⟩ := h2 (by simpa using hf)
        match w with
        | [i] => exact .inl ⟨i, rfl⟩
        | [] => simp at hw
        | _ :: _ :: _ => simp at hw
      · exact .inr ⟨n, h3 ⟨n, by simp, hf⟩⟩
    have h2 : YAML_to_GC (.seq [.int n]) notype = .ok (vector [setWhole n notype]) () := rfl
    have h3 : collapse (vector [setWhole n notype]) = .ok x () := by
      rw [from_yaml, importDoc, h2, Res.bind] at h1
      cases hc : collapse (vector [setWhole n notype]) <;> rw [hc] at h1 <;> simp at h1
      rw [h1]
    have h4 : YAML_to_GC (.seq [.str s, .seq [.int n]]) notype = .ok (vector [string s, vector [setWhole n notype]]) () := rfl
    refine ⟨vector [string s, x], ?_⟩
    rw [from_yaml, importDoc, h4, Res.bind, collapse, if_neg (by simp)]
    simp only [collapseL, h3]
    rcases hx with ⟨i, rfl⟩ | ⟨l, rfl⟩ <;> rfl
  · exact ⟨map [(str "a", vector [string s, vecInt [n.setWidth 32]])], rfl⟩
  · rfl

/-- **C49** fails for a scalar beside a sequence of one number: both become columns of a matrix. -/
theorem C49_mixed_negation : from_yaml (some (.seq [.int 1, .seq [.int 2]])) notype = .ok (matInt ⟨1, 2, [1, 2]⟩) true := by
  decide +kernel

end GC
end GCV
