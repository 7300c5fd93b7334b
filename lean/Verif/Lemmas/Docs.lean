import Verif.Spec.Docs
import Verif.Lemmas.Map
import Verif.Props.Collapse

/-! # Lemmas on documents -/

namespace GCV
namespace GC

theorem setWhole_whole (n : I64) (g : GC) : Whole n (setWhole n g) := by
  unfold Whole setWhole
  by_cases h : -2147483648 ≤ n.toInt ∧ n.toInt ≤ 2147483647
  · rw [if_pos h, if_pos (by omega)]
    refine ⟨_, rfl, ?_⟩
    rw [BitVec.toInt_setWidth, Int.bmod_def]
    have := BitVec.toInt_eq_toNat_cond n
    split at this <;> omega
  · rw [if_neg h, if_neg (by omega)]; rfl

theorem setWhole_any (n : I64) (g g' : GC) : setWhole n g = setWhole n g' := by
  unfold setWhole set_int set_long; rfl

theorem yaml_elems_fresh : ∀ l : List Yaml, (∀ d ∈ l, ∃ g, YAML_to_GC d notype = .ok g () ∧ YamlSays d g) →
    ∃ v, yamlElems l (List.replicate l.length notype) = .ok v ∧ l.length = v.length ∧
      ∀ (i : Nat) d x, l[i]? = some d → v[i]? = some x → YamlSays d x
  | [], _ => ⟨[], by rw [yamlElems]; rfl, rfl, by simp⟩
  | d :: l, h => by
    obtain ⟨g, h1, h2⟩ := h d (.head _)
    obtain ⟨v, h3, h4, h5⟩ := yaml_elems_fresh l fun d hd => h d (.tail _ hd)
    refine ⟨g :: v, ?_, by simp [h4], ?_⟩
    · rw [List.length_cons, List.replicate_succ, yamlElems, h1]; simp only [h3]
    · intro i d' x hd hx
      cases i with
      | zero => simp at hd hx; subst hd; subst hx; exact h2
      | succ i => simp at hd hx; exact h5 i d' x hd hx

theorem yaml_entries_fresh : ∀ (m : List (Option Bytes × Yaml)) (e : Entries), KeysSorted e →
    (m.map Prod.fst).Nodup → none ∉ m.map Prod.fst → (∀ k, some k ∈ m.map Prod.fst → mfind k e = none) →
    (∀ p ∈ m, ∃ g, YAML_to_GC p.2 notype = .ok g () ∧ YamlSays p.2 g) →
    ∃ e', yamlEntries m e = .ok e' ∧ KeysSorted e' ∧ (∀ k, some k ∉ m.map Prod.fst → mfind k e' = mfind k e) ∧
      ∀ k d, (some k, d) ∈ m → ∃ x, mfind k e' = some x ∧ YamlSays d x
  | [], e, he, _, _, _, _ => ⟨e, by rw [yamlEntries], he, fun _ _ => rfl, by simp⟩
  | (none, d) :: m, e, _, _, hn, _, _ => absurd (by simp) hn
  | (some k, d) :: m, e, he, hd, hn, hf, h => by
    obtain ⟨g, h1, h2⟩ := h _ (.head _)
    rw [List.map_cons, List.nodup_cons] at hd
    simp only at h1 h2 hd
    have hkm : some k ∉ m.map Prod.fst := hd.1
    obtain ⟨e', h3, h4, h5, h6⟩ := yaml_entries_fresh m (mset k g e) (sorted_mset k g e he) hd.2
      (fun hm => hn (by rw [List.map_cons]; exact .tail _ hm))
      (fun k' hk' => by
        have : k' ≠ k := fun h => hkm (h ▸ hk')
        rw [mfind_mset_other this]
        exact hf k' (by rw [List.map_cons]; exact .tail _ hk'))
      (fun p hp => h p (.tail _ hp))
    refine ⟨e', ?_, h4, ?_, ?_⟩
    · rw [yamlEntries, hf k (by simp)]; simp only [Option.getD_none, h1, h3]
    · intro k' hk'
      rw [List.map_cons, List.mem_cons] at hk'
      have hne : k' ≠ k := fun h => hk' (.inl (by rw [h]))
      rw [h5 k' fun h => hk' (.inr h), mfind_mset_other hne]
    · intro k' d' hm
      rcases List.mem_cons.1 hm with hm | hm
      · simp only [Prod.mk.injEq, Option.some.injEq] at hm
        obtain ⟨rfl, rfl⟩ := hm
        exact ⟨g, by rw [h5 _ hkm, mfind_mset_same], h2⟩
      · exact h6 k' d' hm

theorem yaml_read {d : Yaml} (h : YamlOk d) : ∃ g, YAML_to_GC d notype = .ok g () ∧ YamlSays d g := by
  induction h with
  | null => exact ⟨_, rfl, .null⟩
  | bool => exact ⟨_, rfl, .bool⟩
  | int => exact ⟨_, rfl, .int (setWhole_whole _ _)⟩
  | float => exact ⟨_, rfl, .float⟩
  | str => exact ⟨_, rfl, .str⟩
  | @seq l hl _ ih =>
    obtain ⟨v, h1, h2, h3⟩ := yaml_elems_fresh l ih
    refine ⟨vector v, ?_, .seq h2 h3⟩
    have : (set_vector (u32 l.length) notype).oldVector = List.replicate l.length notype := by
      rw [u32_of_lt hl, set_vector, allocate_vector, oldVector, oldVector, allocL]
      split
      · simp [resizeL]
      · next h => have : l.length = 0 := by omega
                  rw [this]; rfl
      · simp
    rw [YAML_to_GC, this, h1]
  | @mapping m hn hk _ ih =>
    obtain ⟨e, h1, h2, h3, h4⟩ := yaml_entries_fresh m [] .nil hn hk (fun _ _ => rfl) ih
    refine ⟨map e, ?_, .mapping h2 ?_ ?_⟩
    · rw [YAML_to_GC]; show (match yamlEntries m [] with | .ok e => _ | .throw e => _ | .ub => _ | .diverge => _) = _
      rw [h1]
    · intro k
      constructor
      · rintro ⟨d, hd⟩
        obtain ⟨x, hx, -⟩ := h4 k d hd
        exact ⟨x, mem_of_mfind hx⟩
      · rintro ⟨x, hx⟩
        by_cases hm : some k ∈ m.map Prod.fst
        · obtain ⟨⟨a, d⟩, hd, rfl⟩ := List.mem_map.1 hm
          rename_i heq
          exact ⟨d, hd⟩
        · have := h3 k hm
          rw [mfind_of_mem h2 hx] at this
          simp [mfind] at this
    · intro k d x hd hx
      obtain ⟨y, hy, hs⟩ := h4 k d hd
      rw [mfind_of_mem h2 hx] at hy
      cases hy; exact hs

/-! ## TOML -/

theorem withIdx_next {α : Type} {f : GC → Res α} {v : List GC} {x : GC} {a : α} (h : f notype = .ok x a)
    (hl : v.length + 1 < 2 ^ 32) : withIdx (u32 v.length) f (vector v) = .ok (vector (v ++ [x])) a := by
  unfold withIdx
  have h1 : checkResize notype (u32 v.length) (vector v).oldVector = v ++ [notype] := by
    rw [u32_of_lt (by omega)]
    unfold checkResize
    rw [oldVector, if_pos (Nat.le_refl _), u32_of_lt hl, resizeL, List.take_of_length_le (by omega)]
    simp
  rw [h1, u32_of_lt (by omega)]
  simp [h, Res.mapState]

theorem toml_elems_fresh : ∀ (l : List Toml) (v : List GC), v.length + l.length < 2 ^ 32 →
    (∀ d ∈ l, ∃ g, TOML_to_GC d notype = .ok g () ∧ TomlSays d g) →
    ∃ w, tomlElems l v.length (vector v) = .ok (vector (v ++ w)) () ∧ l.length = w.length ∧
      ∀ (i : Nat) d x, l[i]? = some d → w[i]? = some x → TomlSays d x
  | [], v, _, _ => ⟨[], by rw [tomlElems]; simp, rfl, by simp⟩
  | d :: l, v, hl, h => by
    obtain ⟨g, h1, h2⟩ := h d (.head _)
    rw [List.length_cons] at hl
    obtain ⟨w, h3, h4, h5⟩ := toml_elems_fresh l (v ++ [g]) (by simp; omega) fun d hd => h d (.tail _ hd)
    refine ⟨g :: w, ?_, by simp [h4], ?_⟩
    · rw [tomlElems, withIdx_next h1 (by omega), Res.bind]
      simpa using h3
    · intro i d' x hd hx
      cases i with
      | zero => simp at hd hx; subst hd; subst hx; exact h2
      | succ i => simp at hd hx; exact h5 i d' x hd hx

theorem toml_entries_fresh : ∀ (m : List (Bytes × Toml)) (e : Entries), KeysSorted e →
    (m.map Prod.fst).Nodup → (∀ k, k ∈ m.map Prod.fst → mfind k e = none) →
    (∀ p ∈ m, ∃ g, TOML_to_GC p.2 notype = .ok g () ∧ TomlSays p.2 g) →
    ∃ e', tomlEntries m e = .ok e' ∧ KeysSorted e' ∧ (∀ k, k ∉ m.map Prod.fst → mfind k e' = mfind k e) ∧
      ∀ k d, (k, d) ∈ m → ∃ x, mfind k e' = some x ∧ TomlSays d x
  | [], e, he, _, _, _ => ⟨e, by rw [tomlEntries], he, fun _ _ => rfl, by simp⟩
  | (k, d) :: m, e, he, hd, hf, h => by
    obtain ⟨g, h1, h2⟩ := h _ (.head _)
    rw [List.map_cons, List.nodup_cons] at hd
    simp only at h1 h2 hd
    have hkm : k ∉ m.map Prod.fst := hd.1
    obtain ⟨e', h3, h4, h5, h6⟩ := toml_entries_fresh m (mset k g e) (sorted_mset k g e he) hd.2
      (fun k' hk' => by
        have : k' ≠ k := fun h => hkm (h ▸ hk')
        rw [mfind_mset_other this]
        exact hf k' (by rw [List.map_cons]; exact .tail _ hk'))
      (fun p hp => h p (.tail _ hp))
    refine ⟨e', ?_, h4, ?_, ?_⟩
    · rw [tomlEntries, hf k (by simp)]; simp only [Option.getD_none, h1, h3]
    · intro k' hk'
      rw [List.map_cons, List.mem_cons] at hk'
      have hne : k' ≠ k := fun h => hk' (.inl h)
      rw [h5 k' fun h => hk' (.inr h), mfind_mset_other hne]
    · intro k' d' hm
      rcases List.mem_cons.1 hm with hm | hm
      · simp only [Prod.mk.injEq] at hm
        obtain ⟨rfl, rfl⟩ := hm
        exact ⟨g, by rw [h5 _ hkm, mfind_mset_same], h2⟩
      · exact h6 k' d' hm

theorem toml_packed {l : List Toml} {α : Type} {up : α → GC} {pr : Toml → α} {g : GC} (hg : elems g = (l.map pr).map up)
    (ht : shape g.ty = 1 ∨ g.ty = .VECTOR) (h : ∀ d ∈ l, TomlSays d (up (pr d))) : TomlSays (.arr l) g := by
  refine .arr ht (by rw [hg]; simp) ?_
  intro i d x hd hx
  rw [hg, List.map_map, List.getElem?_map, hd] at hx
  simp at hx; subst hx
  exact h d (List.mem_of_getElem? hd)

/-- Fits 32 bits. -/
theorem toInt_low {n : I64} (h : -2 ^ 31 ≤ n.toInt ∧ n.toInt < 2 ^ 31) : (n.setWidth 32).toInt = n.toInt := by
  rw [BitVec.toInt_setWidth, Int.bmod_def]
  have := BitVec.toInt_eq_toNat_cond n
  split at this <;> omega

theorem toml_read {d : Toml} (h : TomlOk d) : TomlSmall d → ∃ g, TOML_to_GC d notype = .ok g () ∧ TomlSays d g := by
  induction h with
  | str => exact fun _ => ⟨_, rfl, .str⟩
  | int => exact fun _ => ⟨_, rfl, .int (setWhole_whole _ _)⟩
  | float => exact fun _ => ⟨_, rfl, .float⟩
  | bool => exact fun _ => ⟨_, rfl, .bool⟩
  | date => exact fun _ => ⟨_, rfl, .date⟩
  | time => exact fun _ => ⟨_, rfl, .time⟩
  | date_time => exact fun _ => ⟨_, rfl, .date_time⟩
  | @arr l hl _ ih =>
    intro hs
    have hw : ∀ d ∈ l, TomlSmall d := by cases hs; assumption
    have hi : (∀ d ∈ l, ∃ n, d = .int n) → ∀ n, .int n ∈ l → -2 ^ 31 ≤ n.toInt ∧ n.toInt < 2 ^ 31 := by
      cases hs; assumption
    have ih' := fun d hd => ih d hd (hw d hd)
    have gen : ∃ g, tomlElems l 0 (set_vector 0 notype) = .ok g () ∧ TomlSays (.arr l) g := by
      obtain ⟨w, h1, h2, h3⟩ := toml_elems_fresh l [] (by simpa using hl) ih'
      exact ⟨vector w, by simpa [set_vector, allocate_vector, oldVector, allocL] using h1,
        .arr (.inr rfl) h2 h3⟩
    rw [TOML_to_GC]
    by_cases h1 : Toml.areTables l = true
    · rw [if_pos h1]; exact gen
    rw [if_neg h1]
    by_cases h2 : l.all Toml.isStr = true
    · rw [if_pos h2]
      refine ⟨_, rfl, toml_packed (pr := Toml.strOf) (up := string) rfl (.inl rfl) ?_⟩
      intro d hd
      have := List.all_eq_true.1 h2 d hd
      cases d <;> first | exact .str | simp [Toml.isStr] at this
    rw [if_neg h2]
    by_cases h3 : l.all Toml.isInt = true
    · rw [if_pos h3]
      have hall : ∀ d ∈ l, ∃ n, d = .int n := by
        intro d hd
        have := List.all_eq_true.1 h3 d hd
        cases d <;> first | exact ⟨_, rfl⟩ | simp [Toml.isInt] at this
      refine ⟨_, rfl, toml_packed (pr := fun d => d.intOf.setWidth 32) (up := int) rfl (.inl rfl) ?_⟩
      intro d hd
      obtain ⟨n, rfl⟩ := hall d hd
      have hn := hi hall n hd
      refine .int ?_
      unfold Whole
      rw [if_pos hn]
      exact ⟨_, rfl, toInt_low hn⟩
    rw [if_neg h3]
    by_cases h4 : l.all Toml.isFloat = true
    · rw [if_pos h4]
      refine ⟨_, rfl, toml_packed (pr := Toml.floatOf) (up := real) rfl (.inl rfl) ?_⟩
      intro d hd
      have := List.all_eq_true.1 h4 d hd
      cases d <;> first | exact .float | simp [Toml.isFloat] at this
    rw [if_neg h4]; exact gen
  | @table m hn _ ih =>
    intro hs
    have hw : ∀ e ∈ m, TomlSmall e.2 := by cases hs; assumption
    obtain ⟨e, h1, h2, h3, h4⟩ := toml_entries_fresh m [] .nil hn (fun _ _ => rfl) fun p hp => ih p hp (hw p hp)
    refine ⟨map e, ?_, .table h2 ?_ ?_⟩
    · rw [TOML_to_GC]; show (match tomlEntries m [] with | .ok e => _ | .throw e => _ | .ub => _ | .diverge => _) = _
      rw [h1]
    · intro k
      constructor
      · rintro ⟨d, hd⟩
        obtain ⟨x, hx, -⟩ := h4 k d hd
        exact ⟨x, mem_of_mfind hx⟩
      · rintro ⟨x, hx⟩
        by_cases hm : k ∈ m.map Prod.fst
        · obtain ⟨⟨a, d⟩, hd, rfl⟩ := List.mem_map.1 hm
          exact ⟨d, hd⟩
        · have := h3 k hm
          rw [mfind_of_mem h2 hx] at this
          simp [mfind] at this
    · intro k d x hd hx
      obtain ⟨y, hy, hs⟩ := h4 k d hd
      rw [mfind_of_mem h2 hx] at hy
      cases hy; exact hs

end GC
end GCV
