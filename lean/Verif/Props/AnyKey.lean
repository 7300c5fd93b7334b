import Verif.Spec.AnyKey
import Verif.Props.GetIfExists
import Verif.Props.CopyToExact

/-!
# C95, C96: counts, get_number_at, and access by key, for every container and every key
-/

namespace GCV
namespace GC

open F64

/-! ## C95 -/

/-- **C95.** The counts of every container, whatever its size: modulo 2^32. -/
theorem C95_counts (g : GC) :
    get_num_elements g = counted g % 2 ^ 32 ∧
    num_rows g = (if g.ty = .NOTYPE then 0 else if shape g.ty = 2 then tall g else 1) ∧
    num_cols g = (if shape g.ty = 2 then wide g else counted g % 2 ^ 32) := by
  cases g <;> first
    | exact ⟨rfl, rfl, rfl⟩
    | (refine ⟨?_, rfl, ?_⟩ <;> simp [get_num_elements, num_cols, counted, elems, u32, shape, GC.ty]; done)
    | (refine ⟨?_, rfl, rfl⟩; simp [get_num_elements, counted, elems, u32])

/-- **C95.** `get_number_at(i)` and `get_complex_number_at(i)` on every container and for every index: the element as a
number, refused if it is none; outside of the elements undefined; refused on every other type. -/
theorem C95_number_at (g : GC) (i : Nat) :
    get_number_at i g =
      (if g.ty = .VECTOR ∨ severalNumbers 3 g.ty then
        match (elems g)[i]? with
        | some x => onlyReal x
        | none => .ub
       else .throw) ∧
    get_complex_number_at i g =
      (if g.ty = .VECTOR ∨ severalNumbers 4 g.ty then
        match (elems g)[i]? with
        | some x => fitComplex x
        | none => .ub
       else .throw) := by
  constructor
  · cases g <;> first
      | rfl
      | (refine Eq.trans ?_ (if_pos (by simp [GC.ty, severalNumbers, shape, width])).symm
         rename_i v
         simp only [elems, List.getElem?_map, get_number_at, getL]
         first
         | (cases v[i]? <;> first | rfl | (rename_i x; cases x <;> rfl))
         | (cases v.data[i]? <;> rfl))
  · cases g <;> first
      | rfl
      | (refine Eq.trans ?_ (if_pos (by simp [GC.ty, severalNumbers, shape, width])).symm
         rename_i v
         simp only [elems, List.getElem?_map, get_complex_number_at, getL]
         first
         | (cases v[i]? <;> first | rfl | (rename_i x; cases x <;> rfl))
         | (cases v.data[i]? <;> rfl))

example : get_number_at 1 (vector [int 1, string []]) = .throw ∧ get_number_at 2 (vecInt [1, 2]) = .ub ∧
    get_complex_number_at 0 (matInt ⟨1, 1, [3]⟩) = .ok ⟨F64.ofI32 3, .zero⟩ := by decide +kernel

/-! ## C96 -/

theorem cstr_eq (k : Bytes) : cstr k = beforeNul k := rfl

theorem noNul_beforeNul : ∀ k, noNul (beforeNul k) = true
  | [] => rfl
  | c :: r => by
    have ih := noNul_beforeNul r
    unfold beforeNul at ih ⊢
    by_cases h : c = 0
    · rw [List.takeWhile_cons_of_neg (by rw [decide_eq_true_iff]; exact fun q => q h)]; rfl
    · rw [List.takeWhile_cons_of_pos (by rw [decide_eq_true_iff]; exact h)]
      unfold noNul at ih ⊢
      rw [List.all_cons, ih, Bool.and_true]
      exact decide_eq_true h

theorem cstr_beforeNul (k : Bytes) : cstr (beforeNul k) = cstr k := by
  rw [cstr_of_noNul (noNul_beforeNul k), cstr_eq]

/-- **C96.** Reading by key, for every key: only the bytes before the first NUL count. -/
theorem C96_reads {α : Type} (g : GC) (k : Bytes) (ks : List Bytes) (get : GC → Out α) :
    g.exists k = (field g (beforeNul k)).isSome ∧
    existsAny ks g = ks.any (fun k => (field g (beforeNul k)).isSome) ∧
    call_key_c k g = orThrow (field g (beforeNul k)) .ok ∧
    get_map_key get k g = orThrow (field g (beforeNul k)) get ∧
    get_map_path get ks g = orThrow (along ks g) get := by
  have e : ∀ g k, GC.exists k g = (field g (beforeNul k)).isSome := by
    intro g k; cases g <;> simp [GC.exists, field, cstr_eq, mfind_eq_field]
  have c : ∀ g k, call_key_c k g = orThrow (field g (beforeNul k)) .ok := by
    intro g k
    cases g with
    | map m =>
      simp only [call_key_c, cstr_eq, mfind_eq_field]
      cases field (map m) (beforeNul k) <;> rfl
    | _ => rfl
  refine ⟨e g k, ?_, c g k, ?_, ?_⟩
  · cases g with
    | map m => simp only [existsAny, cstr_eq, mfind_eq_field]
    | _ => simp [existsAny, field]
  · cases g with
    | map m =>
      simp only [get_map_key, e, cstr_eq, mfind_eq_field]
      cases field (map m) (beforeNul k) <;> rfl
    | _ => rfl
  · induction ks generalizing g with
    | nil => rfl
    | cons k ks ih =>
      rw [get_map_path, along, e, c]
      cases field g (beforeNul k) with
      | none => rfl
      | some x =>
        rw [if_pos (by simp)]
        exact ih x

/-- **C96.** `get_if_exists` for every key. -/
theorem C96_get_if_exists (g : GC) (k : Bytes) :
    get_if_exists_bool k g = ifExists get_bool_c (field g (beforeNul k)) ∧
    get_if_exists_int k g = ifExists get_as_int (field g (beforeNul k)) ∧
    get_if_exists_uint k g = ifExists get_as_uint (field g (beforeNul k)) ∧
    get_if_exists_long k g = ifExists get_as_long (field g (beforeNul k)) ∧
    get_if_exists_ulong k g = ifExists get_as_ulong (field g (beforeNul k)) ∧
    get_if_exists_real k g = ifExists get_value_double (field g (beforeNul k)) ∧
    get_if_exists_complex k g = ifExists get_complex_number (field g (beforeNul k)) ∧
    get_if_exists_string k g = ifExists get_string_c (field g (beforeNul k)) := by
  have := C20_agrees g (beforeNul k) (noNul_beforeNul k)
  have e : lookupField (beforeNul k) g = lookupField k g := by
    cases g <;> simp [lookupField, cstr_beforeNul]
  simpa only [get_if_exists_bool, get_if_exists_int, get_if_exists_uint, get_if_exists_long,
    get_if_exists_ulong, get_if_exists_real, get_if_exists_complex, get_if_exists_string, e] using this

/-- `get_map_bool(key)` asks with the key up to the NUL and reads with the whole key. -/
theorem C96_get_map_bool (g : GC) (k : Bytes) :
    get_map_bool k g =
      if (field g (beforeNul k)).isSome then orThrow (field g k) get_bool_c else .throw := by
  cases g with
  | map m =>
    simp only [get_map_bool, (C96_reads (map m) k [] get_bool_c).1, mfind_eq_field]
    cases field (map m) k <;> rfl
  | _ => rfl

theorem stored_mset (g : GC) (hs : KeysSorted g.oldMap) (k : Bytes) (y : GC) :
    Stored g k y (map (mset k y g.oldMap)) := by
  refine ⟨_, rfl, sorted_mset k y _ hs, fun l => ?_⟩
  by_cases h : l = k
  · rw [if_pos h, h, ← mfind_eq_field, mfind_mset_same]
  · rw [if_neg h, ← mfind_eq_field, mfind_mset_other h, field_oldMap]

/-- **C96.** Writing by key with `gc[k]`, for every key and every call `f` through the reference: the outcome of `f` on what is
stored under the bytes before the first NUL (an empty container if there is nothing), and what `f` leaves is
stored there. -/
theorem C96_writes {α : Type} (g : GC) (hs : KeysSorted g.oldMap) (k : Bytes) (f : GC → Res α) :
    match f ((field g (beforeNul k)).getD notype) with
    | .ok y a => ∃ g', withKey k f g = .ok g' a ∧ Stored g (beforeNul k) y g'
    | .throw y => ∃ g', withKey k f g = .throw g' ∧ Stored g (beforeNul k) y g'
    | .ub => withKey k f g = .ub
    | .diverge => withKey k f g = .diverge := by
  have e : withKey k f g = (f ((field g (beforeNul k)).getD notype)).mapState
      fun y => map (mset (beforeNul k) y g.oldMap) := by
    simp only [withKey, cstr_eq, field_oldMap]
  rw [e]
  cases f ((field g (beforeNul k)).getD notype) with
  | ok y a => exact ⟨_, rfl, stored_mset g hs _ y⟩
  | throw y => exact ⟨_, rfl, stored_mset g hs _ y⟩
  | ub => rfl
  | diverge => rfl

/-- **C96.** The same for `gc(k)`, which needs the key to be there. -/
theorem C96_checked {α : Type} (g : GC) (hs : KeysSorted g.oldMap) (k : Bytes) (f : GC → Res α) :
    match (field g (beforeNul k)).map f with
    | none => withKeyChecked k f g = .throw g
    | some (.ok y a) => ∃ g', withKeyChecked k f g = .ok g' a ∧ Stored g (beforeNul k) y g'
    | some (.throw y) => ∃ g', withKeyChecked k f g = .throw g' ∧ Stored g (beforeNul k) y g'
    | some .ub => withKeyChecked k f g = .ub
    | some .diverge => withKeyChecked k f g = .diverge := by
  cases g with
  | map m =>
    have st := stored_mset (map m) hs
    rw [withKeyChecked, cstr_eq, mfind_eq_field]
    cases field (map m) (beforeNul k) with
    | none => rfl
    | some x =>
      simp only [Option.map_some]
      cases f x with
      | ok y a => exact ⟨_, rfl, st _ y⟩
      | throw y => exact ⟨_, rfl, st _ y⟩
      | ub => rfl
      | diverge => rfl
  | _ => rfl

/-- **C96.** `gc[k]` on a const container, for every key: reads what is there, inserts an empty container if there is nothing,
and is refused on anything but a map. -/
theorem C96_const (g : GC) (hs : KeysSorted g.oldMap) (k : Bytes) :
    (∀ x, field g (beforeNul k) = some x → key_c k g = .ok g x) ∧
    (field g (beforeNul k) = none → g.ty = .MAP →
      ∃ g', key_c k g = .ok g' notype ∧ Stored g (beforeNul k) notype g') ∧
    (g.ty ≠ .MAP → key_c k g = .throw g) := by
  refine ⟨?_, ?_, ?_⟩
  · intro x hx
    cases g with
    | map m =>
      have := C43_const_key_partial m (beforeNul k) x (noNul_beforeNul k) hs hx
      simpa only [key_c, cstr_beforeNul] using this
    | _ => simp [field] at hx
  · intro hx ht
    cases g with
    | map m =>
      refine ⟨_, ?_, stored_mset (map m) hs _ notype⟩
      simp only [key_c, cstr_eq, mfind_eq_field, hx, oldMap, Option.getD_none]
    | _ => simp [GC.ty] at ht
  · intro ht
    cases g <;> first | rfl | exact absurd rfl ht

example : key_c [98, 0, 97] (map [([97], int 1)]) = .ok (map [([97], int 1), ([98], notype)]) notype ∧
    KeysSorted (map [([97], int 1)]).oldMap := by
  refine ⟨by decide +kernel, ?_⟩
  simp [KeysSorted, oldMap]

theorem firstKey_find (m : Entries) (ks : List Bytes) :
    firstKey m ks = ks.find? fun k => (field (map m) k).isSome := by
  induction ks with
  | nil => rfl
  | cons s r ih =>
    rw [firstKey, mfind_eq_field, List.find?_cons]
    cases (field (map m) s).isSome <;> simp [ih]

/-- **C96.** Erasing and the calls with alternative keys use the whole keys, NUL or not. -/
theorem C96_whole {α : Type} (m : Entries) (hs : KeysSorted m) (k : Bytes) (ks : List Bytes) (get : GC → Out α) :
    (∃ m', erase k (map m) = .ok (map m') () ∧ KeysSorted m' ∧
      ∀ l, field (map m') l = if l = k then none else field (map m) l) ∧
    must_exists ks (map m) = orThrow (ks.find? fun k => (field (map m) k).isSome) .ok ∧
    call_keys_c ks (map m) = orThrow (ks.findSome? fun k => field (map m) k) .ok ∧
    get_map_keys get ks (map m) = orThrow (ks.findSome? fun k => field (map m) k) get := by
  have f1 := firstKey_find m ks
  have f2 : ∀ {β : Type} (get : GC → Out β), (match firstKey m ks with
      | some s => (match mfind s m with | some x => get x | none => .throw)
      | none => .throw) = orThrow (ks.findSome? fun k => field (map m) k) get := by
    intro β get
    clear f1
    induction ks with
    | nil => rfl
    | cons s r ih =>
      rw [firstKey, List.findSome?_cons, mfind_eq_field]
      cases h : field (map m) s with
      | none => simpa using ih
      | some x => simp [mfind_eq_field, h, orThrow]
  refine ⟨⟨_, rfl, sorted_merase k m hs, fun l => ?_⟩, ?_, ?_, ?_⟩
  · by_cases h : l = k
    · rw [if_pos h, h, ← mfind_eq_field, mfind_merase_same k m hs]
    · rw [if_neg h, ← mfind_eq_field, mfind_merase_other h, mfind_eq_field]
  · rw [must_exists, f1]; cases ks.find? _ <;> rfl
  · rw [call_keys_c, ← f2]
    cases firstKey m ks with
    | none => rfl
    | some s => simp only []; cases mfind s m <;> rfl
  · rw [get_map_keys, must_exists, ← f2]
    cases firstKey m ks <;> rfl

/-- **C96.** Update through `gc({keys})`: of the first of the keys that is there. -/
theorem C96_checked_keys {α : Type} (m : Entries) (hs : KeysSorted m) (ks : List Bytes) (f : GC → Res α) :
    match ks.find? fun k => (field (map m) k).isSome with
    | none => withKeysChecked ks f (map m) = .throw (map m)
    | some k =>
      match f ((field (map m) k).getD notype) with
      | .ok y a => ∃ g', withKeysChecked ks f (map m) = .ok g' a ∧ Stored (map m) k y g'
      | .throw y => ∃ g', withKeysChecked ks f (map m) = .throw g' ∧ Stored (map m) k y g'
      | .ub => withKeysChecked ks f (map m) = .ub
      | .diverge => withKeysChecked ks f (map m) = .diverge := by
  rw [← firstKey_find m ks, withKeysChecked]
  cases firstKey m ks with
  | none => rfl
  | some k =>
    simp only [mfind_eq_field]
    have st := stored_mset (map m) hs k
    cases f ((field (map m) k).getD notype) with
    | ok y a => exact ⟨_, rfl, st y⟩
    | throw y => exact ⟨_, rfl, st y⟩
    | ub => rfl
    | diverge => rfl

/-- **C96.** On anything but a map all of these are refused and nothing changes. -/
theorem C96_no_map {α : Type} (g : GC) (h : g.ty ≠ .MAP) (k : Bytes) (ks : List Bytes) (get : GC → Out α)
    (f : GC → Res α) :
    erase k g = .throw g ∧ must_exists ks g = .throw ∧ call_keys_c ks g = .throw ∧ get_map_keys get ks g = .throw ∧
    withKeysChecked ks f g = .throw g := by
  cases g <;> first | exact ⟨rfl, rfl, rfl, rfl, rfl⟩ | exact absurd rfl h

end GC
end GCV
