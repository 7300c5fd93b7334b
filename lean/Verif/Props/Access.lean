import Verif.Props.Map
import Verif.Props.Core

/-! # C19, C28 (checked access through references), C45 (scalar references), C46, C47 -/

namespace GCV
namespace GC

/-! ## C19, C28: `gc(k)` and `gc(i)` on a mutable container -/

/-- `gc(k)` refers to what is stored under `k`; a missing key, or a container of another type, makes it
throw and nothing changes. -/
theorem C19_checked_key {α : Type} (g : GC) (k : Bytes) (f : GC → Res α) (hk : noNul k = true) :
    (∀ x y a, field g k = some x → f x = .ok y a →
      ∃ g', withKeyChecked k f g = .ok g' a ∧ field g' k = some y ∧ ∀ l, l ≠ k → field g' l = field g l) ∧
    (∀ x y, field g k = some x → f x = .throw y →
      ∃ g', withKeyChecked k f g = .throw g' ∧ field g' k = some y ∧ ∀ l, l ≠ k → field g' l = field g l) ∧
    (field g k = none → withKeyChecked k f g = .throw g) := by
  cases g with
  | map m =>
    refine ⟨fun x y a h hf => ?_, fun x y h hf => ?_, fun h => ?_⟩
    · rw [← mfind_eq_field] at h
      refine ⟨map (mset k y m), by simp [withKeyChecked, cstr_of_noNul hk, h, hf, Res.mapState], ?_, fun l hl => ?_⟩
      · rw [← mfind_eq_field, mfind_mset_same]
      · rw [← mfind_eq_field, ← mfind_eq_field, mfind_mset_other hl]
    · rw [← mfind_eq_field] at h
      refine ⟨map (mset k y m), by simp [withKeyChecked, cstr_of_noNul hk, h, hf, Res.mapState], ?_, fun l hl => ?_⟩
      · rw [← mfind_eq_field, mfind_mset_same]
      · rw [← mfind_eq_field, ← mfind_eq_field, mfind_mset_other hl]
    · rw [← mfind_eq_field] at h
      simp [withKeyChecked, cstr_of_noNul hk, h]
  | _ => simp [field, withKeyChecked]

example : field (map [(str "a", int 1)]) (str "a") = some (int 1) ∧ field (map [(str "a", int 1)]) (str "b") = none ∧
    noNul (str "a") = true := by decide

/-- `gc(i)` refers to element i of a vector; an index out of range, or a container of another type, makes it
throw and nothing changes. -/
theorem C28_checked_index {α : Type} (g : GC) (i : Nat) (f : GC → Res α) :
    (∀ v x y a, g = vector v → v[i]? = some x → f x = .ok y a → withIdxChecked i f g = .ok (vector (v.set i y)) a) ∧
    (∀ v x y, g = vector v → v[i]? = some x → f x = .throw y → withIdxChecked i f g = .throw (vector (v.set i y))) ∧
    ((∀ v, g = vector v → v.length ≤ i) → withIdxChecked i f g = .throw g) := by
  refine ⟨?_, ?_, ?_⟩
  · rintro v x y a rfl h hf
    simp [withIdxChecked, h, hf, Res.mapState]
  · rintro v x y rfl h hf
    simp [withIdxChecked, h, hf, Res.mapState]
  · intro h
    cases g with
    | vector v =>
      have : v[i]? = none := List.getElem?_eq_none (h v rfl)
      simp [withIdxChecked, this]
    | _ => rfl

example : [int 1, int 2][1]? = some (int 2) := rfl

/-! ## C45: references to scalars -/

/-- The six scalar getters on a mutable container, by the type asked for; `none` for other types.  `jb`, `ji`,
`jl`, `jr` are the bytes found in an empty container. -/
def readRef (jb : Bool) (ji : I32) (jl : I64) (jr : F64) (t : Ty) (g : GC) : Option (Res Val) :=
  let lift {α : Type} (c : α → Val) : Res α → Res Val
    | .ok s a => .ok s (c a) | .throw s => .throw s | .ub => .ub | .diverge => .diverge
  match t with
  | .BOOL => some (lift .bool (get_bool jb g))
  | .INTEGER => some (lift .int (get_int ji g))
  | .LONG => some (lift .long (get_long jl g))
  | .REAL => some (lift .real (get_real jr g))
  | .COMPLEX => some (lift .complex (get_complex g))
  | .STRING => some (lift .string (get_string g))
  | _ => none

/-- C45: asking a mutable container for a reference to a scalar: the stored value when it has that type,
without any change; a container of that type when it was empty (0 for complex, the empty string for
string); otherwise throw without any change. -/
theorem C45_scalar_reference (jb : Bool) (ji : I32) (jl : I64) (jr : F64) (t : Ty) (g : GC) (r : Res Val)
    (hr : readRef jb ji jl jr t g = some r) :
    (∀ v, Holds g v → v.ty = t → r = .ok g v) ∧
    (g.ty = .NOTYPE → ∃ g' v, r = .ok g' v ∧ Holds g' v ∧ v.ty = t ∧ (t = .COMPLEX → v = .complex ⟨⟨0⟩, ⟨0⟩⟩) ∧
      (t = .STRING → v = .string [])) ∧
    (g.ty ≠ .NOTYPE → g.ty ≠ t → r = .throw g) := by
  cases t <;> simp only [readRef] at hr <;> try contradiction
  all_goals
    cases hr
    cases g
  all_goals
    refine ⟨fun v hv ht => ?_, fun h => ?_, fun h1 h2 => ?_⟩
  all_goals first
    | contradiction
    | (cases hv; first | rfl | contradiction)
    | rfl
    | exact ⟨_, _, rfl, by constructor, rfl, fun h => by first | rfl | contradiction, fun h => by first | rfl | contradiction⟩

example : readRef false 0 0 .zero .INTEGER (int 5) = some (.ok (int 5) (.int 5)) ∧
    readRef false 0 0 .zero .INTEGER (real .zero) = some (.throw (real .zero)) := ⟨rfl, rfl⟩

/-! ## C46: free_pointer -/

/-- C46: free_pointer empties a container that holds a pointer or nothing; anything else is refused and kept. -/
theorem C46_free_pointer (g : GC) :
    ((g.ty = .POINTER ∨ g.ty = .NOTYPE) → free_pointer g = .ok empty ()) ∧
    (g.ty ≠ .POINTER → g.ty ≠ .NOTYPE → free_pointer g = .throw g) := by
  cases g <;> refine ⟨fun h => ?_, fun h1 h2 => ?_⟩ <;> 
    first
    | rfl
    | exact absurd rfl h1
    | exact absurd rfl h2
    | exact (by simp [ty] at h)

example : (pointer 5).ty = .POINTER ∧ (int 5).ty ≠ .POINTER ∧ (int 5).ty ≠ .NOTYPE := by decide

/-! ## C47: get_keys as a text -/

theorem flatten_sep : ∀ (ks : List Bytes), ks ≠ [] →
    (ks.map fun k => k ++ str ", ").flatten.dropLast.dropLast = (str ", ").intercalate ks
  | [], h => absurd rfl h
  | [k], _ => by
    have : str ", " = [44, 32] := by decide
    simp [this, List.intercalate]
  | k :: l :: r, _ => by
    have h1 : str ", " = [44, 32] := by decide
    have h2 : ((l :: r).map fun k => k ++ str ", ").flatten.length ≥ 2 := by simp [h1]; omega
    have h3 : ∀ (a b : Bytes), 2 ≤ b.length → (a ++ b).dropLast.dropLast = a ++ b.dropLast.dropLast := by
      intro a b hb
      have : b ≠ [] := by intro e; simp [e] at hb
      have h4 : b.dropLast ≠ [] := by
        intro e; have := congrArg List.length e; simp at this; omega
      rw [List.dropLast_append_of_ne_nil this, List.dropLast_append_of_ne_nil h4]
    rw [List.map_cons, List.flatten_cons, h3 _ _ h2, flatten_sep (l :: r) (by simp)]
    simp [List.intercalate]

/-- C47: get_keys() is the keys in increasing order, separated by a comma and a blank. -/
theorem C47_keys_text (g : GC) : get_keys_string g = (str ", ").intercalate (keysOf g) ∧ get_keys g = keysOf g := by
  constructor
  · cases g with
    | map m =>
      cases m with
      | nil => rfl
      | cons e m =>
        have := flatten_sep ((e :: m).map Prod.fst) (by simp)
        rw [List.map_map] at this
        simp only [get_keys_string, keysOf]
        rw [if_neg (by simp)]
        exact this
    | _ => rfl
  · cases g <;> rfl

example : get_keys_string (map [(str "a", int 1), (str "b", int 2)]) = str "a, b" := by decide

/-! ## `ck(tp)` -/

/-- hh `ck(tp)`: 0 when the type is that one, 1 when NOTYPE was asked for and something is stored, 2 otherwise. -/
theorem C09_ck (t : Ty) (g : GC) :
    (ck t g = 0 ↔ g.ty = t) ∧ (ck t g = 1 ↔ t = .NOTYPE ∧ g.ty ≠ .NOTYPE) ∧
    (ck t g = 2 ↔ g.ty ≠ t ∧ t ≠ .NOTYPE) := by
  unfold ck
  split
  · rename_i h; subst h; simp
  · rename_i h
    split
    · rename_i h2; subst h2; simp [Ne.symm h]
    · rename_i h2; simp [Ne.symm h, h2]

example : ck .INTEGER (int 3) = 0 ∧ ck .NOTYPE (int 3) = 1 ∧ ck .REAL (int 3) = 2 := by decide

/-! ## C21: `get_map_bool(k)` -/

/-- The stored bool; a value of another type, a missing key or a container that is no map make it throw. -/
theorem C21_get_map_bool (g : GC) (k : Bytes) (hk : noNul k = true) :
    (∀ b, field g k = some (bool b) → get_map_bool k g = .ok b) ∧
    ((∀ b, field g k ≠ some (bool b)) → get_map_bool k g = .throw) := by
  cases g with
  | map m =>
    constructor
    · intro b h
      rw [← mfind_eq_field] at h
      simp [get_map_bool, GC.exists, cstr_of_noNul hk, h, get_bool_c]
    · intro h
      simp only [← mfind_eq_field] at h
      simp only [get_map_bool, GC.exists, cstr_of_noNul hk]
      cases hx : mfind k m with
      | none => simp
      | some x =>
        rw [hx] at h
        cases x with
        | bool b => exact absurd rfl (h b)
        | _ => simp [get_bool_c]
  | _ => simp [field, get_map_bool, GC.exists]

example : get_map_bool (str "a") (map [(str "a", bool true), (str "b", int 1)]) = .ok true ∧
    get_map_bool (str "b") (map [(str "a", bool true), (str "b", int 1)]) = .throw := by decide

end GC
end GCV
