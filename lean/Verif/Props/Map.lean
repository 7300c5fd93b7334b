import Verif.Model.Convert
import Verif.Spec.Access
import Verif.Lemmas.Map
import Verif.Lemmas.Dec
import Verif.Lemmas.Copy

/-!
# C19, C21, C43: access by key
-/

namespace GCV
namespace GC

theorem mfind_eq_field (k : Bytes) : ∀ m, mfind k m = field (map m) k
  | [] => rfl
  | (k', v) :: r => by
    have ih := mfind_eq_field k r
    rw [mfind]
    by_cases h : k = k'
    · subst h; simp [field]
    · have h' : (k' == k) = false := by simp; exact fun e => h e.symm
      simp only [field] at ih
      simp [field, h, h', ih]

theorem field_oldMap (g : GC) (k : Bytes) : mfind k g.oldMap = field g k := by
  cases g <;> first | rfl | exact mfind_eq_field k _

theorem field_isSome (g : GC) (k : Bytes) : (field g k).isSome ↔ k ∈ keysOf g := by
  cases g <;> simp [field, keysOf]

/-! ## C19 Map access laws -/

/-- `gc[k]`, used by any call `f` that returns or throws, leaves under `k` what `f` left, and
every other key as it was.  (An absent key is created empty before `f` runs.) -/
theorem C19_access_key {α : Type} (g : GC) (k : Bytes) (f : GC → Res α) (y : GC)
    (hk : noNul k = true) (hf : (f ((field g k).getD notype)).state? = some y) :
    ∃ g', (withKey k f g).state? = some g' ∧ field g' k = some y ∧ g'.exists k = true ∧
      call_key_c k g' = .ok y ∧
      (∀ l, l ≠ k → field g' l = field g l) ∧
      (∀ l, noNul l = true → l ≠ k →
        g'.exists l = g.exists l ∧ call_key_c l g' = call_key_c l g) := by
  have hst : (withKey k f g).state? = some (map (mset k y g.oldMap)) := by
    unfold withKey
    simp only [cstr_of_noNul hk, field_oldMap]
    cases h : f ((field g k).getD notype) <;> simp [h, Res.state?] at hf <;>
      simp [Res.mapState, Res.state?, hf]
  refine ⟨_, hst, ?_, ?_, ?_, ?_, ?_⟩
  · rw [← mfind_eq_field, mfind_mset_same]
  · simp [GC.exists, cstr_of_noNul hk, mfind_mset_same]
  · simp [call_key_c, cstr_of_noNul hk, mfind_mset_same]
  · intro l hl
    rw [← mfind_eq_field, mfind_mset_other hl, field_oldMap]
  · intro l hn hl
    have h1 : ∀ h : GC, h.exists l = (field h l).isSome := by
      intro h; cases h <;> simp [GC.exists, field, cstr_of_noNul hn, mfind_eq_field]
    have h2 : ∀ h : GC, call_key_c l h = match field h l with | some x => .ok x | none => .throw := by
      intro h
      cases h <;> simp only [call_key_c, cstr_of_noNul hn, mfind_eq_field] <;> rfl
    have h3 : field (map (mset k y g.oldMap)) l = field g l := by
      rw [← mfind_eq_field, mfind_mset_other hl, field_oldMap]
    rw [h1, h1, h2, h2, h3]
    exact ⟨rfl, rfl⟩

/-- `erase(k)` removes `k` and nothing else. -/
theorem C19_erase (m : Entries) (k : Bytes) (hs : KeysSorted m) :
    ∃ g', erase k (map m) = .ok g' () ∧ field g' k = none ∧
      (∀ l, l ≠ k → field g' l = field (map m) l) := by
  refine ⟨_, rfl, ?_, ?_⟩
  · rw [← mfind_eq_field, mfind_merase_same k m hs]
  · intro l hl
    rw [← mfind_eq_field, ← mfind_eq_field, mfind_merase_other hl]

/-- `exists`, `operator()(k)` and `get_keys` say what is stored. -/
theorem C19_exists (g : GC) (k : Bytes) (hk : noNul k = true) :
    (g.exists k = true ↔ k ∈ keysOf g) ∧
    (∀ x, call_key_c k g = .ok x ↔ field g k = some x) ∧
    (field g k = none → call_key_c k g = .throw) := by
  have h2 : call_key_c k g = match field g k with | some x => .ok x | none => .throw := by
    cases g <;> simp only [call_key_c, cstr_of_noNul hk, mfind_eq_field] <;> rfl
  refine ⟨?_, ?_, ?_⟩
  · rw [← field_isSome]
    cases g <;> simp [GC.exists, field, cstr_of_noNul hk, mfind_eq_field]
  · intro x; rw [h2]; cases field g k <;> simp
  · intro h; rw [h2, h]

/-- One step of a history of uses of a map: `gc[k]` followed by a call through the reference, or
`erase(k)`. -/
inductive MapOp where
  | use (k : Bytes) (f : GC → Res Unit)
  | erase (k : Bytes)

/-- Keys have no NUL, and calls through the reference return or throw. -/
def MapOp.ok : MapOp → Prop
  | .use k f => noNul k = true ∧ ∀ x, ∃ y, (f x).state? = some y
  | .erase _ => True

/-- The container after the step. -/
def MapOp.run (g : GC) : MapOp → Option GC
  | .use k f => (withKey k f g).state?
  | .erase k => (GC.erase k g).state?

/-- Specification: a map is a partial function from keys to contents. -/
def MapOp.spec (h : Bytes → Option GC) : MapOp → Bytes → Option GC
  | .use k f, l => if l = k then (f ((h k).getD notype)).state? else h l
  | .erase k, l => if l = k then none else h l

def runMap : Option GC → List MapOp → Option GC
  | g, [] => g
  | g, o :: r => runMap (g.bind fun x => o.run x) r

/-- After any history of accesses and erasures, starting from any map: the container behaves as
the partial function obtained by the history, and `get_keys()` lists the keys on which it is
defined, once each, in increasing order. -/
theorem C19_history : ∀ (ops : List MapOp) (m : Entries), KeysSorted m → (∀ o ∈ ops, o.ok) →
    ∃ m', runMap (some (map m)) ops = some (map m') ∧
      (∀ k, field (map m') k = ops.foldl MapOp.spec (field (map m)) k) ∧
      (∀ k, k ∈ get_keys (map m') ↔ (ops.foldl MapOp.spec (field (map m)) k).isSome) ∧
      (get_keys (map m')).Pairwise strLT := by
  have main : ∀ (ops : List MapOp) (m : Entries), KeysSorted m → (∀ o ∈ ops, o.ok) →
    ∃ m', runMap (some (map m)) ops = some (map m') ∧ KeysSorted m' ∧
      (∀ k, field (map m') k = ops.foldl MapOp.spec (field (map m)) k) := by
    intro ops
    induction ops with
    | nil => intro m hs _; exact ⟨m, rfl, hs, fun _ => rfl⟩
    | cons o r ih =>
      intro m hs ho
      have step : ∃ m1, o.run (map m) = some (map m1) ∧ KeysSorted m1 ∧
          field (map m1) = o.spec (field (map m)) := by
        cases o with
        | erase k =>
          refine ⟨_, rfl, sorted_merase k m hs, ?_⟩
          funext l
          rw [MapOp.spec]
          split
          · rename_i h; subst h; rw [← mfind_eq_field, mfind_merase_same _ m hs]
          · rename_i h; rw [← mfind_eq_field, ← mfind_eq_field, mfind_merase_other h]
        | use k f =>
          obtain ⟨hk, hf⟩ := ho _ (List.mem_cons_self)
          obtain ⟨y, hy⟩ := hf ((field (map m) k).getD notype)
          have hst : (withKey k f (map m)).state? = some (map (mset k y m)) := by
            unfold withKey
            simp only [cstr_of_noNul hk, oldMap, mfind_eq_field]
            cases h : f ((field (map m) k).getD notype) <;> simp [h, Res.state?] at hy <;>
              simp [Res.mapState, Res.state?, hy]
          refine ⟨_, hst, sorted_mset k y m hs, ?_⟩
          funext l
          rw [MapOp.spec]
          split
          · rename_i h; subst h; rw [← mfind_eq_field, mfind_mset_same, hy]
          · rename_i h; rw [← mfind_eq_field, ← mfind_eq_field, mfind_mset_other h]
      obtain ⟨m1, h1, h2, h3⟩ := step
      obtain ⟨m', h4, h5, h6⟩ := ih m1 h2 (fun o ho' => ho o (List.mem_cons_of_mem _ ho'))
      refine ⟨m', ?_, h5, ?_⟩
      · simp [runMap, h1, h4]
      · intro k; rw [h6, h3]; rfl
  intro ops m hs ho
  obtain ⟨m', h1, h2, h3⟩ := main ops m hs ho
  refine ⟨m', h1, h3, ?_, ?_⟩
  · intro k
    rw [← h3, field_isSome]; rfl
  · unfold KeysSorted at h2
    simp only [get_keys, List.pairwise_map]
    exact h2

/-- Non-trivial history: insert b, insert a, overwrite b, erase a. -/
example : (runMap (some (map [])) [.use (str "b") (fun _ => .ok (int 1) ()),
      .use (str "a") (fun _ => .ok (int 2) ()), .use (str "b") (fun _ => .ok (bool true) ()),
      .use (str "c") (fun x => .throw x), .erase (str "a")]) =
    some (map [(str "b", bool true), (str "c", notype)]) := by decide

example : (MapOp.use (str "b") (fun _ => .ok (int 1) ())).ok :=
  ⟨by decide, fun _ => ⟨_, rfl⟩⟩

/-- A NUL in a key breaks the law: `gc["a\0b"] = 2` changes what is stored under "a". -/
theorem C19_nul_negation :
    ∃ (g : GC) (k l : Bytes) (f : GC → Res Unit) (g' : GC), l ≠ k ∧
      f ((field g k).getD notype) = .ok (int 2) () ∧ withKey k f g = .ok g' () ∧
      field g l = some (int 1) ∧ field g' l = some (int 2) ∧ field g' k = none :=
  ⟨map [([97], int 1)], [97, 0, 98], [97], fun _ => .ok (int 2) (), _, by decide, rfl, rfl,
    by decide, by decide, by decide⟩

/-- On a container of another type `gc[k]` discards the old content without complaint. -/
theorem C19_access_other_type {α : Type} (g : GC) (k : Bytes) (f : GC → Res α)
    (hk : noNul k = true) (hg : ∀ m, g ≠ map m) (a : α) (y : GC) (hf : f notype = .ok y a) :
    withKey k f g = .ok (map [(k, y)]) a := by
  have : g.oldMap = [] := by cases g <;> first | rfl | (exact absurd rfl (hg _))
  simp [withKey, this, cstr_of_noNul hk, mfind, hf, Res.mapState, mset]

/-! ## C43 Const calls do not modify the container -/

/-- `gc[k]` on a const map that has the key reads it and changes nothing. -/
theorem C43_const_key_partial (m : Entries) (k : Bytes) (x : GC) (hk : noNul k = true)
    (hs : KeysSorted m) (h : field (map m) k = some x) : key_c k (map m) = .ok (map m) x := by
  have hf : mfind k m = some x := by rw [mfind_eq_field, h]
  have : mset k x m = m := by
    apply sorted_ext (sorted_mset _ _ _ hs) hs
    intro l
    by_cases e : l = k
    · subst e; rw [mfind_mset_same, hf]
    · rw [mfind_mset_other e]
  simp [key_c, cstr_of_noNul hk, hf, this]

/-- On anything but a map it throws and changes nothing. -/
theorem C43_const_key_throws (g : GC) (k : Bytes) (hg : ∀ m, g ≠ map m) :
    key_c k g = .throw g := by
  cases g <;> first | rfl | (exact absurd rfl (hg _))

/-- But reading an absent key of a const map inserts it. -/
theorem C43_const_key_negation : ∀ (m : Entries) (k : Bytes), noNul k = true →
    field (map m) k = none →
    ∃ m', key_c k (map m) = .ok (map m') notype ∧ m' ≠ m ∧
      field (map m') k = some notype := by
  intro m k hk h
  have hf : mfind k m = none := by rw [mfind_eq_field, h]
  refine ⟨mset k notype m, ?_, ?_, ?_⟩
  · simp [key_c, cstr_of_noNul hk, hf]
  · intro e
    have := mfind_mset_same k notype m
    rw [e, hf] at this; simp at this
  · rw [← mfind_eq_field, mfind_mset_same]

example : key_c (str "z") (map [(str "a", int 1)]) =
    .ok (map [(str "a", int 1), (str "z", notype)]) notype := by decide

/-! ## C21 must_exists and alternative keys -/

theorem firstKey_eq (m : Entries) : ∀ ks, (∀ k, firstKey m ks = some k ↔ FirstPresent (map m) ks k) ∧
    (firstKey m ks = none ↔ ∀ k ∈ ks, field (map m) k = none)
  | [] => by simp [firstKey, FirstPresent]
  | s :: r => by
    obtain ⟨ih1, ih2⟩ := firstKey_eq m r
    rw [firstKey, mfind_eq_field]
    by_cases h : (field (map m) s).isSome = true
    · rw [if_pos h]
      refine ⟨fun k => ⟨?_, ?_⟩, ?_⟩
      · rintro ⟨rfl⟩; exact ⟨[], r, rfl, by simp, h⟩
      · rintro ⟨pre, post, h1, h2, h3⟩
        cases pre with
        | nil => simp at h1; simp [h1]
        | cons p ps =>
          simp at h1
          have := h2 p (by simp)
          rw [← h1.1] at this; simp [this] at h
      · simp only [reduceCtorEq, false_iff]
        intro h'; have := h' s (by simp); simp [this] at h
    · rw [if_neg h]
      have hn : field (map m) s = none := by simpa using h
      refine ⟨fun k => ?_, ?_⟩
      · rw [ih1]
        constructor
        · rintro ⟨pre, post, h1, h2, h3⟩
          refine ⟨s :: pre, post, by simp [h1], ?_, h3⟩
          intro p hp
          rcases List.mem_cons.1 hp with e | e
          · rw [e, hn]
          · exact h2 p e
        · rintro ⟨pre, post, h1, h2, h3⟩
          cases pre with
          | nil => simp at h1; rw [← h1.1] at h3; exact absurd h3 h
          | cons p ps =>
            simp at h1
            exact ⟨ps, post, h1.2, fun q hq => h2 q (by simp [hq]), h3⟩
      · rw [ih2]; simp [hn]

/-- `must_exists(ks)` returns the first key that exists, and throws when none does. -/
theorem C21_must_exists (g : GC) (ks : List Bytes) :
    (∀ k, must_exists ks g = .ok k ↔ FirstPresent g ks k) ∧
    ((∀ k ∈ ks, field g k = none) → must_exists ks g = .throw) := by
  cases g with
  | map m =>
    obtain ⟨h1, h2⟩ := firstKey_eq m ks
    constructor
    · intro k
      rw [← h1 k, must_exists]
      cases firstKey m ks <;> simp
    · intro h
      rw [must_exists, h2.2 h]
  | _ => simp [must_exists, FirstPresent, field]

/-- `operator()(ks)` (const) reads what is stored under the first key that exists, and throws
when none does. -/
theorem C21_call_keys (g : GC) (ks : List Bytes) :
    (∀ k, FirstPresent g ks k → ∃ x, field g k = some x ∧ call_keys_c ks g = .ok x) ∧
    ((∀ k ∈ ks, field g k = none) → call_keys_c ks g = .throw) := by
  cases g with
  | map m =>
    obtain ⟨h1, h2⟩ := firstKey_eq m ks
    constructor
    · intro k h
      have h3 := (h1 k).2 h
      obtain ⟨_, _, _, _, h4⟩ := h
      obtain ⟨x, hx⟩ := Option.isSome_iff_exists.1 h4
      refine ⟨x, hx, ?_⟩
      simp [call_keys_c, h3, mfind_eq_field, hx]
    · intro h
      rw [call_keys_c, h2.2 h]
  | _ => simp [call_keys_c, FirstPresent, field]

/-- `operator()(ks)` on a mutable container gives access to the value of the first key that
exists and to nothing else; when none does it throws and nothing changes. -/
theorem C21_with_keys {α : Type} (g : GC) (ks : List Bytes) (f : GC → Res α) :
    (∀ k x y a, FirstPresent g ks k → field g k = some x → f x = .ok y a →
      ∃ g', withKeysChecked ks f g = .ok g' a ∧ field g' k = some y ∧
        ∀ l, l ≠ k → field g' l = field g l) ∧
    ((∀ k ∈ ks, field g k = none) → withKeysChecked ks f g = .throw g) := by
  cases g with
  | map m =>
    obtain ⟨h1, h2⟩ := firstKey_eq m ks
    constructor
    · intro k x y a h hx hf
      have h3 := (h1 k).2 h
      refine ⟨map (mset k y m), ?_, ?_, ?_⟩
      · simp [withKeysChecked, h3, mfind_eq_field, hx, hf, Res.mapState]
      · rw [← mfind_eq_field, mfind_mset_same]
      · intro l hl; rw [← mfind_eq_field, ← mfind_eq_field, mfind_mset_other hl]
    · intro h
      rw [withKeysChecked, h2.2 h]
  | _ => simp [withKeysChecked, FirstPresent, field]

/-- `get_map_*(ks)` applies the getter to the value of the first key that exists. -/
theorem C21_get_map_keys {α : Type} (get : GC → Out α) (g : GC) (ks : List Bytes) :
    (∀ k x, FirstPresent g ks k → field g k = some x → get_map_keys get ks g = get x) ∧
    ((∀ k ∈ ks, field g k = none) → get_map_keys get ks g = .throw) := by
  cases g with
  | map m =>
    obtain ⟨h1, h2⟩ := firstKey_eq m ks
    constructor
    · intro k x h hx
      have h3 := (h1 k).2 h
      simp [get_map_keys, must_exists, h3, mfind_eq_field, hx, Out.bind]
    · intro h
      simp [get_map_keys, must_exists, h2.2 h, Out.bind]
  | _ => simp [get_map_keys, must_exists, FirstPresent, field, Out.bind]

/-- `exists(ks)` tells which of the two happens, for keys without NUL. -/
theorem C21_exists_any_partial (g : GC) (ks : List Bytes) (hk : ∀ k ∈ ks, noNul k = true) :
    (existsAny ks g = true ↔ ∃ k, must_exists ks g = .ok k) ∧
    (existsAny ks g = false ↔ must_exists ks g = .throw) := by
  have key : existsAny ks g = true ↔ ∃ k, must_exists ks g = .ok k := by
    constructor
    · intro h
      cases g with
      | map m =>
        rw [must_exists]
        cases hf : firstKey m ks with
        | some k => exact ⟨k, rfl⟩
        | none =>
          have := (firstKey_eq m ks).2.1 hf
          simp only [existsAny, List.any_eq_true] at h
          obtain ⟨k, h1, h2⟩ := h
          rw [cstr_of_noNul (hk k h1), mfind_eq_field, this k h1] at h2
          simp at h2
      | _ => simp [existsAny] at h
    · rintro ⟨k, h⟩
      obtain ⟨pre, post, h1, h2, h3⟩ := ((C21_must_exists g ks).1 k).1 h
      cases g with
      | map m =>
        simp only [existsAny, List.any_eq_true]
        have hm : k ∈ ks := by rw [h1]; simp
        refine ⟨k, hm, ?_⟩
        rw [cstr_of_noNul (hk k hm), mfind_eq_field, h3]
      | _ => simp [field] at h3
  refine ⟨key, ?_⟩
  have hd : (∃ k, must_exists ks g = .ok k) ∨ must_exists ks g = .throw := by
    cases g with
    | map m => rw [must_exists]; cases firstKey m ks <;> simp
    | _ => simp [must_exists]
  rcases hd with h | h
  · obtain ⟨k, hk'⟩ := h
    rw [key.2 ⟨k, hk'⟩, hk']; simp
  · rw [h]; simp only [iff_true]
    cases he : existsAny ks g with
    | false => rfl
    | true => obtain ⟨k, hk'⟩ := key.1 he; rw [h] at hk'; simp at hk'

/-- With a NUL in a key, `exists(ks)` holds and `must_exists(ks)` throws. -/
theorem C21_exists_any_negation :
    ∃ g ks, existsAny ks g = true ∧ must_exists ks g = .throw :=
  ⟨map [([97], int 1)], [[97, 0, 98]], by decide, by decide⟩

/-- The alternatives are tried in the order of the list, not in the order of the map. -/
example : must_exists [str "z", str "y", str "a"] (map [(str "a", int 1), (str "y", int 2)]) =
    .ok (str "y") := by decide

/-- Single key versions: the getter applied to what is stored, or throw. -/
theorem C21_get_map_key {α : Type} (get : GC → Out α) (g : GC) (k : Bytes) (hk : noNul k = true) :
    (∀ x, field g k = some x → get_map_key get k g = get x) ∧
    (field g k = none → get_map_key get k g = .throw) := by
  constructor
  · intro x hx
    cases g with
    | map m => simp [get_map_key, GC.exists, cstr_of_noNul hk, mfind_eq_field, hx]
    | _ => simp [field] at hx
  · intro hx
    cases g with
    | map m => simp [get_map_key, GC.exists, cstr_of_noNul hk, mfind_eq_field, hx]
    | _ => simp [get_map_key, GC.exists]

/-- What a path of keys leads to. -/
def pathAt : List Bytes → GC → Option GC
  | [], g => some g
  | k :: ks, g => (field g k).bind (pathAt ks)

/-- `get_map_*({k1,...,kn})` walks down the keys. -/
theorem C21_get_map_path {α : Type} (get : GC → Out α) : ∀ (ks : List Bytes) (g : GC),
    (∀ k ∈ ks, noNul k = true) →
    get_map_path get ks g = match pathAt ks g with | some x => get x | none => .throw
  | [], g, _ => by simp [get_map_path, pathAt]
  | k :: ks, g, h => by
    have hk := h k (by simp)
    obtain ⟨h1, h2, h3⟩ := C19_exists g k hk
    rw [get_map_path, pathAt]
    cases hf : field g k with
    | none =>
      rw [if_neg]; · rfl
      rw [h1, ← field_isSome, hf]; simp
    | some x =>
      rw [if_pos (h1.2 ((field_isSome g k).1 (by simp [hf]))), (h2 x).2 hf]
      simp only [Out.bind, Option.bind_some]
      exact C21_get_map_path get ks x (fun k' h' => h k' (by simp [h']))

example : get_map_path get_as_int [str "a", str "b"] (map [(str "a", map [(str "b", long 3)])]) =
    .ok 3 := by decide

end GC
end GCV
