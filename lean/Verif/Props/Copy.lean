import Verif.Lemmas.Copy
import Verif.Lemmas.Dec

/-!
# C06, C07, C22: copy construction, assignment, merge

`copy b` is the copy constructor, `from_gc b a` the outcome of `a = b`, `merge b a` the
outcome of `a.merge(b)`.
-/

namespace GCV
namespace GC

/-! ## C06 Copy construction is faithful -/

/-- The copy of a well-formed container whose keys contain no NUL byte and whose vectors have
less than 2^32 elements is that container: same types, keys, sizes and values everywhere.
Missing from the full statement: keys with NUL bytes and longer vectors, for which it is
false (`C06_copy_negation`). -/
theorem C06_copy_faithful_partial (b : GC) (hw : WF b) (hf : Fits b) : copy b = .ok b :=
  (from_gc_iff b hf hw notype trivial).2 (Clean_notype b)

/-- The same for `to_gc` into an empty container. -/
theorem C06_to_gc_faithful_partial (b : GC) (hw : WF b) (hf : Fits b) :
    to_gc b notype = .ok b := by
  rw [to_gc_eq]; exact C06_copy_faithful_partial b hw hf

/-- Without the restriction on keys the claim is false: the copy of `{"x\0y": 1}` is
`{"x": 1}`. -/
theorem C06_copy_negation : ∃ b, WF b ∧ copy b ≠ .ok b :=
  ⟨map [([120, 0, 121], int 1)], by decide +kernel, by decide +kernel⟩

example : WF sample ∧ Fits sample := by decide +kernel

/-! ## C07 Assignment replaces the old content -/

/-- Assignment never throws and is never undefined. -/
theorem C07_assign_succeeds (a b : GC) (hw : WF b) (hf : Fits b) :
    ∃ r, from_gc b a = .ok r := from_gc_ok b hf hw a

/-- Exact extent of the claim: `a = b` makes `a` equal to `b` if and only if nothing of `a`
is hidden under `b` (`Clean`): at no position an empty vector of `b` meets a non-empty vector
of the same kind in `a`, nor a map of `b` meets a map of `a` with a further key.
Missing from the full statement: the pairs that are not `Clean`, where it fails
(`C07_assign_negation`). -/
theorem C07_assign_iff_partial (a b : GC) (hb : WF b) (hf : Fits b) (ha : WF a) :
    from_gc b a = .ok b ↔ Clean b a := from_gc_iff b hf hb a ha

/-- In particular assignment over a container of a different type replaces it. -/
theorem C07_assign_other_type_partial (a b : GC) (hb : WF b) (hf : Fits b) (ha : WF a)
    (h : a.ty ≠ b.ty) : from_gc b a = .ok b := by
  have : from_gc b a = from_gc b notype := by
    cases b <;> cases a <;>
      first
      | rfl
      | exact absurd rfl h
  rw [this]; exact C06_copy_faithful_partial b hb hf

/-- `{x:1} = {}` leaves `{x:1}`, and assigning an empty `vec_int` leaves the old elements. -/
theorem C07_assign_negation :
    (∃ a b, WF a ∧ WF b ∧ Fits b ∧ from_gc b a = .ok a ∧ a ≠ b ∧ a = map [(str "x", int 1)]) ∧
    (∃ a b, WF a ∧ WF b ∧ Fits b ∧ from_gc b a = .ok a ∧ a ≠ b ∧ a = vecInt [1, 2]) :=
  ⟨⟨_, map [], by decide +kernel, by decide +kernel, by decide +kernel, by decide +kernel,
      by decide +kernel, rfl⟩,
   ⟨_, vecInt [], by decide +kernel, by decide +kernel, by decide +kernel, by decide +kernel,
      by decide +kernel, rfl⟩⟩

example : WF sample ∧ Fits sample ∧ WF (vecInt [3]) ∧ (vecInt [3]).ty ≠ sample.ty := by
  decide +kernel

/-- `Clean` holds non-trivially: `{a:…,b:…,c:…,d:…} ` over `{b: [7,8], d: 1}`. -/
example : Clean sample (map [(str "b", vector [vecInt [7], notype]), (str "d", int 1)]) :=
  (from_gc_iff _ (by decide +kernel) (by decide +kernel) _ (by decide +kernel)).1
    (by decide +kernel)

/-! ## C22 merge -/

/-- Merging an empty container changes nothing. -/
theorem C22_merge_empty (a : GC) : merge notype a = .ok a () := rfl

/-- Merging anything that is not a map throws and changes nothing. -/
theorem C22_merge_not_map (a b : GC) (h1 : b.ty ≠ .NOTYPE) (h2 : b.ty ≠ .MAP) :
    merge b a = .throw a := by
  cases b <;> simp_all [merge, ty]

/-- Merging a map into something that is neither a map nor empty throws and changes nothing. -/
theorem C22_merge_into_other (a : GC) (mb : Entries) (h1 : a.ty ≠ .NOTYPE) (h2 : a.ty ≠ .MAP) :
    merge (map mb) a = .throw a := by
  cases a <;> simp_all [merge, ty]

/-- Merging a map into a map (or into an empty container, `ma = []`) succeeds.  The result has
exactly the keys of both; keys only in `a` keep their value; a key of `b` gets the value that
`a[k] = b[k]` gives, which is `b[k]` unless something of `a[k]` is hidden under it.
Missing from the full statement: equality with `b[k]` when `Clean` fails; it is false there
(`C22_merge_negation`). -/
theorem C22_merge_map_partial (a : GC) (ma mb : Entries)
    (ha : a = map ma ∨ (a = notype ∧ ma = [])) (hwa : WF a) (hwb : WF (map mb))
    (hf : Fits (map mb)) :
    ∃ m, merge (map mb) a = .ok (map m) () ∧ KeysSorted m ∧
      (∀ k, k ∈ m.map Prod.fst ↔ k ∈ ma.map Prod.fst ∨ k ∈ mb.map Prod.fst) ∧
      (∀ k, k ∉ mb.map Prod.fst → valueAt (map m) k = valueAt a k) ∧
      (∀ k ∈ mb.map Prod.fst,
        from_gc (valueAt (map mb) k) (valueAt a k) = .ok (valueAt (map m) k) ∧
        (Clean (valueAt (map mb) k) (valueAt a k) →
          valueAt (map m) k = valueAt (map mb) k)) := by
  obtain ⟨hnul, hfm⟩ := Fits_map hf
  obtain ⟨m, hm⟩ := from_gcM_ok mb (w := ma) hwb.1 hnul (fun e he =>
    from_gc_ok _ (everyM_iff.1 hfm e he) (WFM_iff.1 hwb.2 e he) _)
  have hma : KeysSorted ma := by
    rcases ha with rfl | ⟨rfl, rfl⟩
    · exact hwa.1
    · simp [KeysSorted]
  have hold : ma = a.oldMap := by rcases ha with rfl | ⟨rfl, rfl⟩ <;> rfl
  obtain ⟨h1, h2⟩ := from_gcM_spec mb hwb.1 hnul hm
  refine ⟨m, ?_, from_gcM_sorted mb hma hm, ?_, ?_, ?_⟩
  · rcases ha with rfl | ⟨rfl, rfl⟩
    · simp [merge, hm]
    · simp [merge, set_map, allocate_map, oldMap, hm]
  · intro k
    by_cases hk : k ∈ mb.map Prod.fst
    · simp only [hk, or_true, iff_true]
      obtain ⟨e, he, rfl⟩ := List.mem_map.1 hk
      obtain ⟨y, _, hy⟩ := h2 e he
      exact mfind_isSome.1 (by simp [hy])
    · simp only [hk, or_false]
      rw [← mfind_isSome, ← mfind_isSome, h1 k hk]
  · intro k hk
    rw [valueAt_old, valueAt_old, ← hold]
    simp only [oldMap, h1 k hk]
  · intro k hk
    obtain ⟨e, he, rfl⟩ := List.mem_map.1 hk
    obtain ⟨y, hy, hy'⟩ := h2 e he
    have hb : valueAt (map mb) e.1 = e.2 := by
      rw [valueAt_old]; simp [oldMap, mfind_of_mem hwb.1 he]
    have hm' : valueAt (map m) e.1 = y := by
      rw [valueAt_old]; simp [oldMap, hy']
    have hva : valueAt a e.1 = (mfind e.1 ma).getD notype := by rw [valueAt_old, hold]
    rw [hb, hm', hva]
    refine ⟨hy, fun hc => ?_⟩
    have hwv : WF ((mfind e.1 ma).getD notype) := hold ▸ WF_valueAt hwa e.1
    have := (from_gc_iff _ (everyM_iff.1 hfm e he) (WFM_iff.1 hwb.2 e he) _ hwv).2 hc
    rw [this] at hy
    simpa using hy.symm

/-- Merging `{k: {}}` into `{k: {x: 1}}` does not make `k` read `{}`. -/
theorem C22_merge_negation : ∃ a b, WF a ∧ WF b ∧ Fits b ∧ b.ty = .MAP ∧
    merge b a = .ok a () ∧ valueAt a (str "k") ≠ valueAt b (str "k") :=
  ⟨map [(str "k", map [(str "x", int 1)])], map [(str "k", map [])], by decide +kernel,
    by decide +kernel, by decide +kernel, by decide +kernel, by decide +kernel, by decide +kernel⟩

example : WF (map [(str "d", int 3)]) ∧ WF sample ∧ Fits sample := by decide +kernel

end GC
end GCV
