import Verif.Spec.Yaml
import Verif.Lemmas.Writer

/-! # Lemmas about the YAML writer -/

namespace GCV
namespace YamlText
open Json

theorem quoted_escape {s : Bytes} (h : Utf8 s)
    (hp : ∀ c ∈ s, (c.toNat < 0x20 → (7 ≤ c.toNat ∧ c.toNat ≤ 11) ∨ c.toNat = 13) ∧ c.toNat ≠ 0x7F) :
    Quoted s (s.map escapeByte).flatten := by
  induction h with
  | nil => exact .nil
  | @one c t hc _ ih =>
    have ih := ih fun d hd => hp d (.tail _ hd)
    have hc' := hp c (.head _)
    simp only [List.map_cons, List.flatten_cons, escapeByte]
    split; · next e => subst e; exact .quote ih
    split; · next e => subst e; exact .newline ih
    split; · next e => subst e; exact .ret ih
    split; · next e => subst e; exact .tab ih
    split; · next e => subst e; exact .vtab ih
    split; · next e => subst e; exact .back ih
    split; · next e => subst e; exact .bell ih
    split; · next e => subst e; exact .backslash ih
    next h34 h10 h13 h9 h11 h8 h7 h92 =>
      have ne : ∀ {k : Nat} {b : Byte}, c ≠ b → b.toNat = k → c.toNat ≠ k := by
        intro k b h1 h2 h3; exact h1 (BitVec.eq_of_toNat_eq (h3.trans h2.symm))
      have a1 := ne h10 (k := 10) rfl
      have a2 := ne h13 (k := 13) rfl
      have a3 := ne h9 (k := 9) rfl
      have a4 := ne h11 (k := 11) rfl
      have a5 := ne h8 (k := 8) rfl
      have a6 := ne h7 (k := 7) rfl
      refine .plain ?_ ?_ h34 h92 ih
      · apply Classical.byContradiction
        intro h
        have := hc'.1 (by omega)
        omega
      · omega
  | two c1 c2 d1 d2 _ ih =>
    simp only [List.map_cons, List.flatten_cons, escape_high (Nat.le_trans (by decide) c1), escape_high d1]
    exact .two c1 c2 d1 d2 (ih fun d hd => hp d (.tail _ (.tail _ hd)))
  | three c1 c2 d1 d2 e1 e2 _ ih =>
    simp only [List.map_cons, List.flatten_cons, escape_high (Nat.le_trans (by decide) c1), escape_high d1, escape_high e1]
    exact .three c1 c2 d1 d2 e1 e2 (ih fun d hd => hp d (.tail _ (.tail _ (.tail _ hd))))
  | four c1 c2 d1 d2 e1 e2 f1 f2 _ ih =>
    simp only [List.map_cons, List.flatten_cons, escape_high (Nat.le_trans (by decide) c1), escape_high d1, escape_high e1,
      escape_high f1]
    exact .four c1 c2 d1 d2 e1 e2 f1 f2 (ih fun d hd => hp d (.tail _ (.tail _ (.tail _ (.tail _ hd)))))

theorem scalar_bool (b : Bool) : Scalar (.bool b) (boolOut b) := by
  cases b
  · exact .false
  · exact .true

theorem scalar_string {s : Bytes} (h : Printable s) : Scalar (.string s) (string_escape s) := .quoted (quoted_escape h.1 h.2)

theorem flow_items : ∀ {ps : List (Doc × Bytes)}, ps ≠ [] → (∀ p ∈ ps, Scalar p.1 p.2) →
    ∃ t, FlowItems (ps.map Prod.fst) t ∧ ∀ a, sepText a (str ", ") (ps.map Prod.snd) = a ++ t
  | [], h, _ => absurd rfl h
  | [(d, t)], _, h => ⟨t, .one (h (d, t) (.head _)), fun a => by simp [sepText]⟩
  | (d, t) :: p :: ps, _, h => by
    obtain ⟨r, h1, h2⟩ := flow_items (ps := p :: ps) (by simp) fun q hq => h q (.tail _ hq)
    refine ⟨_, .cons (h (d, t) (.head _)) h1, fun a => ?_⟩
    rw [List.map_cons, sepText, h2]
    have e : str ", " = [44, 32] := by decide
    simp [e]

theorem flow_vec {ps : List (Doc × Bytes)} (hne : ps ≠ []) (hps : ∀ p ∈ ps, Scalar p.1 p.2) :
    ∃ t, Flow (.arr (ps.map Prod.fst)) t ∧ ∀ a, sepText (a ++ str "[ ") (str ", ") (ps.map Prod.snd) ++ str " ]\n" =
      a ++ t ++ [10] := by
  obtain ⟨t, h1, h2⟩ := flow_items hne hps
  refine ⟨_, .seq h1, fun a => ?_⟩
  have e1 : str "[ " = [91, 32] := by decide
  have e2 : str " ]\n" = [32, 93, 10] := by decide
  rw [h2, e1, e2]
  simp

variable {f : Fmt}

/-- A packed vector. -/
theorem yaml_packed {g : GC} (hv : isVec g) {α : Type} {v : List α} {mk : α → GC} (he : elems g = v.map mk) (hne : v ≠ [])
    (doc : α → Doc) (txt : α → Bytes) (hd : ∀ x ∈ v, Describes f (mk x) (doc x)) (hw : ∀ x ∈ v, Scalar (doc x) (txt x))
    (n : Int) : ∃ d, Describes f g d ∧ Node n d (yamlVec (v.map txt)) := by
  refine ⟨_, describes_packed hv he hd, ?_⟩
  obtain ⟨t, h1, h2⟩ := flow_vec (ps := v.map fun x => (doc x, txt x)) (by simpa using hne) (by
    intro p hp
    obtain ⟨x, hx, rfl⟩ := List.mem_map.1 hp
    exact hw x hx)
  have h3 := h2 []
  simp only [List.nil_append, List.map_map, Function.comp_def] at h1 h3
  rw [yamlVec, h3]
  exact .flow h1

/-- The lines of the columns. -/
theorem items_cols {α : Type} (doc : α → Doc) (txt : α → Bytes) (k : Nat) : ∀ (cols : List (List α)), (∀ c ∈ cols, c ≠ []) →
    (∀ c ∈ cols, ∀ x ∈ c, Scalar (doc x) (txt x)) →
    Items k (cols.map fun c => .arr (c.map doc))
      (cols.flatMap fun c => spaces k ++ sepText (str "- [ ") (str ", ") (c.map txt) ++ str " ]\n")
  | [], _, _ => .nil
  | c :: cols, hne, hw => by
    obtain ⟨t, h1, h2⟩ := flow_vec (ps := c.map fun x => (doc x, txt x)) (by simpa using hne c (.head _)) (by
      intro p hp
      obtain ⟨x, hx, rfl⟩ := List.mem_map.1 hp
      exact hw c (.head _) x hx)
    have ih := items_cols doc txt k cols (fun c hc => hne c (.tail _ hc)) (fun c hc => hw c (.tail _ hc))
    have h3 := h2 (str "- ")
    simp only [List.map_map, Function.comp_def] at h1 h3
    have h4 := Items.cons (m := k) (.flow h1) ih
    have e : str "- [ " = str "- " ++ str "[ " := by decide
    have e' : str "- " = [45, 32] := by decide
    simp only [List.flatMap_cons, List.map_cons]
    rw [List.append_assoc (spaces k), e, h3, e']
    simpa [e, e'] using h4

theorem yaml_mat {g : GC} {α : Type} {m : Mat α} {mk : α → GC} (hm : matDims g = some (m.nr, m.nc))
    (he : elems g = m.data.map mk) (h : FullMat m) (doc : α → Doc) (txt : α → Bytes)
    (hd : ∀ x ∈ m.data, Describes f (mk x) (doc x)) (hw : ∀ x ∈ m.data, Scalar (doc x) (txt x)) {n : Int} {k : Nat}
    (hk : n < k) : ∃ t d, yamlMat (spaces k) txt m = .ok t ∧ Describes f g d ∧ Node n d t := by
  obtain ⟨cols, h1, h2, h3, h4⟩ := columns_full h.1 h.2.2.2
  obtain ⟨_, hr, hc, _⟩ := h
  have hne : cols ≠ [] := by rintro rfl; simp at h2; omega
  have hne' : ∀ c ∈ cols, c ≠ [] := by rintro c hc' rfl; have := h3 _ hc'; simp at this; omega
  have hmem : ∀ c ∈ cols, ∀ x ∈ c, x ∈ m.data := by
    intro c hc' x hx
    obtain ⟨j, hj, e⟩ := List.getElem_of_mem hc'
    obtain ⟨i, hi, e'⟩ := List.getElem_of_mem hx
    obtain ⟨y, h5, h6⟩ := h4 i j c (by rw [← h3 c hc']; exact hi) (List.getElem?_eq_some_iff.2 ⟨hj, e⟩)
    rw [List.getElem?_eq_some_iff.2 ⟨hi, e'⟩] at h5
    cases h5
    exact List.mem_of_getElem? h6
  have hi := items_cols doc txt k cols hne' (fun c hc' x hx => hw x (hmem c hc' x hx))
  refine ⟨_, .arr ((cols.map (·.map doc)).map .arr), by rw [yamlMat, h1]; rfl, ?_, ?_⟩
  · refine .mat hm (by simpa using h2) ?_ ?_
    · intro c hc'
      obtain ⟨c0, h5, rfl⟩ := List.mem_map.1 hc'
      simpa using h3 c0 h5
    · intro i j c x d hi hj hx hd'
      rw [List.getElem?_map] at hj
      cases hcj : cols[j]? with
      | none => rw [hcj] at hj; simp at hj
      | some c0 =>
        rw [hcj] at hj
        simp only [Option.map_some, Option.some.injEq] at hj
        subst hj
        obtain ⟨y, h5, h6⟩ := h4 i j c0 hi hcj
        rw [he, List.getElem?_map, h6] at hx
        rw [List.getElem?_map, h5] at hd'
        simp only [Option.map_some, Option.some.injEq] at hx hd'
        subst hx hd'
        exact hd y (List.mem_of_getElem? h6)
  · rw [List.map_map]
    exact .seq hk (by simpa using hne) hi

theorem numDoc_scalar {r : F64} (h : Numeral (f.real r)) : Scalar (numDoc (f.real r)) (f.real r) := by
  unfold numDoc
  by_cases hi : IntLit (f.real r)
  · rw [if_pos hi]; exact .int hi
  · rw [if_neg hi]; exact .num (h.resolve_left hi)

theorem spaces_two (k : Nat) : spaces k ++ str "  " = spaces (k + 2) := by
  have e : str "  " = spaces 2 := by decide
  rw [e, spaces, spaces, spaces, List.replicate_append_replicate]

mutual
theorem write_yaml : ∀ (g : GC), GC.YamlFine f g → ∀ {n : Int} {k : Nat}, n < k →
    ∃ t d, GC.toYaml f (spaces k) g false = .ok (t, false) ∧ Describes f g d ∧ Node n d t
  | .notype, _, n, k, _ => ⟨_, .null, rfl, .null, .flow (t := str "null") (.scalar .null)⟩
  | .pointer p, h, n, k, _ => by simp [GC.YamlFine] at h
  | .bool b, _, n, k, _ => ⟨_, _, rfl, .bool, .flow (.scalar (scalar_bool b))⟩
  | .int i, _, n, k, _ => ⟨_, _, rfl, .int (intOut_lit i).1 (intOut_lit i).2, .flow (.scalar (.int (intOut_lit i).1))⟩
  | .long i, _, n, k, _ => ⟨_, _, rfl, .long (intOut_lit i).1 (intOut_lit i).2, .flow (.scalar (.int (intOut_lit i).1))⟩
  | .real r, h, n, k, _ => by
    rw [GC.YamlFine] at h
    exact ⟨_, _, rfl, (numDoc_spec h).1, .flow (.scalar (numDoc_scalar h))⟩
  | .complex c, h, n, k, _ => by
    rw [GC.YamlFine] at h
    exact ⟨_, _, rfl, .complex, .flow (.scalar (.cplx h))⟩
  | .string s, h, n, k, _ => by
    rw [GC.YamlFine] at h
    exact ⟨_, _, rfl, .string, .flow (.scalar (scalar_string h))⟩
  | .vecPointer p, h, n, k, _ => by simp [GC.YamlFine] at h
  | .vecBool v, h, n, k, _ => by
    rw [GC.YamlFine] at h
    obtain ⟨d, h1, h2⟩ := yaml_packed (f := f) (g := .vecBool v) (.inl rfl) (mk := .bool) rfl h .bool boolOut
      (fun _ _ => .bool) (fun x _ => scalar_bool x) n
    exact ⟨_, d, rfl, h1, h2⟩
  | .vecInt v, h, n, k, _ => by
    rw [GC.YamlFine] at h
    obtain ⟨d, h1, h2⟩ := yaml_packed (f := f) (g := .vecInt v) (.inl rfl) (mk := .int) rfl h
      (fun i => .int (intOut false i)) (intOut false) (fun i _ => .int (intOut_lit i).1 (intOut_lit i).2)
      (fun i _ => .int (intOut_lit i).1) n
    exact ⟨_, d, rfl, h1, h2⟩
  | .vecLong v, h, n, k, _ => by
    rw [GC.YamlFine] at h
    obtain ⟨d, h1, h2⟩ := yaml_packed (f := f) (g := .vecLong v) (.inl rfl) (mk := .long) rfl h
      (fun i => .int (intOut false i)) (intOut false) (fun i _ => .long (intOut_lit i).1 (intOut_lit i).2)
      (fun i _ => .int (intOut_lit i).1) n
    exact ⟨_, d, rfl, h1, h2⟩
  | .vecReal v, h, n, k, _ => by
    rw [GC.YamlFine] at h
    obtain ⟨d, h1, h2⟩ := yaml_packed (f := f) (g := .vecReal v) (.inl rfl) (mk := .real) rfl h.1
      (fun r => numDoc (f.real r)) f.real (fun r hr => (numDoc_spec (h.2 r hr)).1) (fun r hr => numDoc_scalar (h.2 r hr)) n
    exact ⟨_, d, rfl, h1, h2⟩
  | .vecComplex v, h, n, k, _ => by simp [GC.YamlFine] at h
  | .vecString v, h, n, k, _ => by
    rw [GC.YamlFine] at h
    obtain ⟨d, h1, h2⟩ := yaml_packed (f := f) (g := .vecString v) (.inl rfl) (mk := .string) rfl h.1
      .string string_escape (fun c _ => .string) (fun s hs => scalar_string (h.2 s hs)) n
    exact ⟨_, d, rfl, h1, h2⟩
  | .matInt m, h, n, k, hk => by
    rw [GC.YamlFine] at h
    obtain ⟨t, d, h0, h1, h2⟩ := yaml_mat (f := f) (g := .matInt m) (mk := .int) rfl rfl h
      (fun i => .int (intOut false i)) (intOut false) (fun i _ => .int (intOut_lit i).1 (intOut_lit i).2)
      (fun i _ => .int (intOut_lit i).1) hk
    exact ⟨t, d, by rw [GC.toYaml, h0]; rfl, h1, h2⟩
  | .matLong m, h, n, k, hk => by
    rw [GC.YamlFine] at h
    obtain ⟨t, d, h0, h1, h2⟩ := yaml_mat (f := f) (g := .matLong m) (mk := .long) rfl rfl h
      (fun i => .int (intOut false i)) (intOut false) (fun i _ => .long (intOut_lit i).1 (intOut_lit i).2)
      (fun i _ => .int (intOut_lit i).1) hk
    exact ⟨t, d, by rw [GC.toYaml, h0]; rfl, h1, h2⟩
  | .matReal m, h, n, k, hk => by
    rw [GC.YamlFine] at h
    obtain ⟨t, d, h0, h1, h2⟩ := yaml_mat (f := f) (g := .matReal m) (mk := .real) rfl rfl h.1
      (fun r => numDoc (f.real r)) f.real (fun r hr => (numDoc_spec (h.2 r hr)).1) (fun r hr => numDoc_scalar (h.2 r hr)) hk
    exact ⟨t, d, by rw [GC.toYaml, h0]; rfl, h1, h2⟩
  | .matComplex m, h, n, k, _ => by simp [GC.YamlFine] at h
  | .vector v, h, n, k, hk => by
    rw [GC.YamlFine] at h
    obtain ⟨t, ds, h1, h2, h3⟩ := write_yaml_elems v h.2 (k := k)
    refine ⟨_, _, ?_, .vec (.inr rfl) h3.1.symm (fun i x d hx hd => h3.2 i x d hx hd), .seq hk ?_ h2⟩
    · rw [GC.toYaml, if_neg (by simpa using h.1), h1]; rfl
    · rintro rfl
      have := h3.1
      simp at this
      exact h.1 this
  | .map m, h, n, k, hk => by
    rw [GC.YamlFine] at h
    obtain ⟨t, ms, h1, h2, h3, h4⟩ := write_yaml_entries m h.2.2 (k := k)
    refine ⟨_, _, ?_, .map h2 h3, .map hk ?_ (by rw [h2]; exact h.2.1) h4⟩
    · rw [GC.toYaml, if_neg (by simpa using h.1), h1]; rfl
    · rintro rfl
      simp at h2
      exact h.1 h2
theorem write_yaml_elems : ∀ (v : List GC), GC.YamlFineL f v → ∀ {k : Nat}, ∃ t ds,
    GC.toYamlElems f (spaces k) v false = .ok (t, false) ∧ Items k ds t ∧ Pointwise (Describes f) v ds
  | [], _, k => ⟨[], [], rfl, .nil, rfl, by simp⟩
  | x :: v, h, k => by
    rw [GC.YamlFineL] at h
    obtain ⟨t, d, h1, h2, h3⟩ := write_yaml x h.1 (n := k) (k := k + 2) (by omega)
    obtain ⟨u, ds, h4, h5, h6⟩ := write_yaml_elems v h.2 (k := k)
    refine ⟨_, _, ?_, .cons h3 h5, pointwise_cons h2 h6⟩
    rw [GC.toYamlElems, spaces_two, h1, Out.bind]
    simp only [h4, Out.bind]
    have e : str "- " = [45, 32] := by decide
    simp [e]
theorem write_yaml_entries : ∀ (m : Entries), GC.YamlFineM f m → ∀ {k : Nat}, ∃ t ms,
    GC.toYamlEntries f (spaces k) m false = .ok (t, false) ∧ ms.map Prod.fst = m.map Prod.fst ∧
    (∀ (i : Nat) k x l d, m[i]? = some (k, x) → ms[i]? = some (l, d) → Describes f x d) ∧ Pairs k ms t
  | [], _, k => ⟨[], [], rfl, rfl, by simp, .nil⟩
  | (key, x) :: m, h, k => by
    rw [GC.YamlFineM] at h
    obtain ⟨t, d, h1, h2, h3⟩ := write_yaml x h.2.1 (n := k) (k := k + 2) (by omega)
    obtain ⟨u, ms, h4, h5, h6, h7⟩ := write_yaml_entries m h.2.2 (k := k)
    refine ⟨_, (key, d) :: ms, ?_, by simp [h5], ?_, .cons h.1 h3 h7⟩
    · rw [GC.toYamlEntries, spaces_two, h1, Out.bind]
      simp only [h4, Out.bind]
      have e : str ": " = [58, 32] := by decide
      simp [e]
    · intro i k' x' l d' hm hms
      cases i with
      | zero => simp at hm hms; obtain ⟨-, rfl⟩ := hm; obtain ⟨-, rfl⟩ := hms; exact h2
      | succ i => exact h6 i k' x' l d' (by simpa using hm) (by simpa using hms)
end

end YamlText
end GCV
