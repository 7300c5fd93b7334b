import Verif.Props.Map
import Verif.Props.Convert

/-!
# C20: get_if_exists
-/

namespace GCV
namespace GC

open F64

theorem lookupField_eq (g : GC) (k : Bytes) (hk : noNul k = true) : lookupField k g = field g k := by
  cases g <;> simp [lookupField, field, cstr_of_noNul hk, mfind_eq_field]

/-- The contract, for a getter that throws when the content is not convertible:
true with the value, or false (`none`, the output variable is not written). -/
def ifExists {α : Type} (get : GC → Out α) : Option GC → Out (Option α)
  | none => .ok none
  | some x =>
    match get x with
    | .ok v => .ok (some v)
    | .throw => .ok none
    | .ub => .ub
    | .diverge => .diverge

/-- `get_if_exists(field,value)` for each type of `value` returns true with the converted number,
string or bool exactly when the field is there and the corresponding getter (`get_as_int`, …)
accepts it, and false otherwise. -/
theorem C20_agrees (g : GC) (k : Bytes) (hk : noNul k = true) :
    get_if_exists_bool k g = ifExists get_bool_c (field g k) ∧
    get_if_exists_int k g = ifExists get_as_int (field g k) ∧
    get_if_exists_uint k g = ifExists get_as_uint (field g k) ∧
    get_if_exists_long k g = ifExists get_as_long (field g k) ∧
    get_if_exists_ulong k g = ifExists get_as_ulong (field g k) ∧
    get_if_exists_real k g = ifExists get_value_double (field g k) ∧
    get_if_exists_complex k g = ifExists get_complex_number (field g k) ∧
    get_if_exists_string k g = ifExists get_string_c (field g k) := by
  have hu : ∀ r : F64, r.isUnsigned = true → r.geZero = true := by
    intro r h; unfold isUnsigned at h; simp only [Bool.and_eq_true] at h; exact h.2
  have hb : ∀ {α : Type} (o : Out α), o.bind (fun x => .ok (some x)) =
      match o with | .ok v => .ok (some v) | .throw => .throw | .ub => .ub | .diverge => .diverge := by
    intro α o; cases o <;> rfl
  have hs : ∀ (w : Nat) (r : F64), r.toSigned w ≠ .throw := by
    intro w r; unfold toSigned; split <;> simp
  have hun : ∀ (w : Nat) (r : F64), r.toUnsigned w ≠ .throw := by
    intro w r; unfold toUnsigned; split <;> simp
  simp only [get_if_exists_bool, get_if_exists_int, get_if_exists_uint, get_if_exists_long,
    get_if_exists_ulong, get_if_exists_real, get_if_exists_complex, get_if_exists_string,
    lookupField_eq g k hk]
  cases field g k with
  | none => simp [ifExists]
  | some x =>
    cases x with
    | int i =>
      by_cases h : i.toInt < 0
      · have h' : ¬ 0 ≤ i.toInt := by omega
        simp [ifExists, get_bool_c, get_as_int, get_as_uint, get_as_long, get_as_ulong,
          get_value_double, get_complex_number, get_string_c, h, h']
      · have h' : 0 ≤ i.toInt := by omega
        simp [ifExists, get_bool_c, get_as_int, get_as_uint, get_as_long, get_as_ulong,
          get_value_double, get_complex_number, get_string_c, h, h']
    | long i =>
      by_cases h : i.toInt < 0
      · have h' : ¬ 0 ≤ i.toInt := by omega
        simp [ifExists, get_bool_c, get_as_int, get_as_uint, get_as_long, get_as_ulong,
          get_value_double, get_complex_number, get_string_c, h, h']
      · have h' : 0 ≤ i.toInt := by omega
        simp [ifExists, get_bool_c, get_as_int, get_as_uint, get_as_long, get_as_ulong,
          get_value_double, get_complex_number, get_string_c, h, h']
    | real r =>
      refine ⟨rfl, ?_, ?_, ?_, ?_, rfl, rfl, rfl⟩
      · simp only [ifExists, get_as_int]
        by_cases h : r.isInteger = true
        · have := hs 32 r
          simp only [h, if_true]; cases hc : toSigned 32 r <;> simp_all
        · simp [h]
      · simp only [ifExists, get_as_uint]
        by_cases h : r.isUnsigned = true
        · have := hun 32 r
          simp only [h, hu r h, if_true, and_self]; cases hc : toUnsigned 32 r <;> simp_all
        · simp [h]
      · simp only [ifExists, get_as_long]
        by_cases h : r.isInteger = true
        · have := hs 64 r
          simp only [h, if_true]; cases hc : toSigned 64 r <;> simp_all
        · simp [h]
      · simp only [ifExists, get_as_ulong]
        by_cases h : r.isUnsigned = true
        · have := hun 64 r
          simp only [h, hu r h, if_true, and_self]; cases hc : toUnsigned 64 r <;> simp_all
        · simp [h]
    | complex c =>
      refine ⟨rfl, ?_, ?_, ?_, ?_, ?_, rfl, rfl⟩
      · simp only [ifExists, get_as_int]
        by_cases h : c.re.isInteger = true ∧ c.im.isZero0 = true
        · have := hs 32 c.re
          simp only [h.1, h.2, if_true, and_self]; cases hc : toSigned 32 c.re <;> simp_all
        · have h' : ¬ (c.im.isZero0 = true ∧ c.re.isInteger = true) := fun e => h ⟨e.2, e.1⟩
          simp only [if_neg h, if_neg h']
      · simp only [ifExists, get_as_uint]
        by_cases h : c.re.isUnsigned = true ∧ c.im.isZero0 = true
        · have := hun 32 c.re
          simp only [h.1, h.2, if_true, and_self]; cases hc : toUnsigned 32 c.re <;> simp_all
        · have h' : ¬ (c.im.isZero0 = true ∧ c.re.isUnsigned = true) := fun e => h ⟨e.2, e.1⟩
          simp only [if_neg h, if_neg h']
      · simp only [ifExists, get_as_long]
        by_cases h : c.re.isInteger = true ∧ c.im.isZero0 = true
        · have := hs 64 c.re
          simp only [h.1, h.2, if_true, and_self]; cases hc : toSigned 64 c.re <;> simp_all
        · have h' : ¬ (c.im.isZero0 = true ∧ c.re.isInteger = true) := fun e => h ⟨e.2, e.1⟩
          simp only [if_neg h, if_neg h']
      · simp only [ifExists, get_as_ulong]
        by_cases h : c.re.isUnsigned = true ∧ c.im.isZero0 = true
        · have := hun 64 c.re
          simp only [h.1, h.2, if_true, and_self]; cases hc : toUnsigned 64 c.re <;> simp_all
        · have h' : ¬ (c.im.isZero0 = true ∧ c.re.isUnsigned = true) := fun e => h ⟨e.2, e.1⟩
          simp only [if_neg h, if_neg h']
      · simp only [ifExists, get_value_double]
        by_cases h : c.im.isZero0 = true <;> simp [h]
    | _ => 
      simp [ifExists, get_bool_c, get_as_int, get_as_uint, get_as_long, get_as_ulong,
          get_value_double, get_complex_number, get_string_c]

/-- In terms of the stored number: for `int_type`, a stored integer is delivered, anything else
(no such field, not a number, not an integer) gives false.  As in C10, integers out of range and
subnormal reals are excluded. -/
theorem C20_int_partial (g : GC) (k : Bytes) (hk : noNul k = true)
    (hs : ∀ x, field g k = some x → NoSubnormal x ∧ IntegerIn (-2 ^ 31) (2 ^ 31) x) :
    (∀ n : Int, (field g k).bind numValue = some (n * unit) →
      ∃ i : I32, get_if_exists_int k g = .ok (some i) ∧ i.toInt = n) ∧
    ((¬ ∃ n : Int, (field g k).bind numValue = some (n * unit)) → get_if_exists_int k g = .ok none) := by
  rw [(C20_agrees g k hk).2.1]
  cases hf : field g k with
  | none => simp [ifExists]
  | some x =>
    obtain ⟨h1, h2⟩ := hs x hf
    obtain ⟨_, h3, h4⟩ := C10_as_int_partial x h1 h2
    simp only [Option.bind_some]
    constructor
    · intro n hn
      obtain ⟨i, h5, h6⟩ := h3 n hn
      exact ⟨i, by simp [ifExists, h5], h6⟩
    · intro hn; simp [ifExists, h4 hn]

/-- It never throws, whatever the container and the field (NUL or not). -/
theorem C20_never_throws (g : GC) (k : Bytes) :
    get_if_exists_bool k g ≠ .throw ∧ get_if_exists_int k g ≠ .throw ∧
    get_if_exists_uint k g ≠ .throw ∧ get_if_exists_long k g ≠ .throw ∧
    get_if_exists_ulong k g ≠ .throw ∧ get_if_exists_real k g ≠ .throw ∧
    get_if_exists_complex k g ≠ .throw ∧ get_if_exists_string k g ≠ .throw := by
  have hs : ∀ (w : Nat) (r : F64), (r.toSigned w).bind (fun x => .ok (some x)) ≠ .throw := by
    intro w r; unfold toSigned; split <;> simp [Out.bind]
  have hun : ∀ (w : Nat) (r : F64), (r.toUnsigned w).bind (fun x => .ok (some x)) ≠ .throw := by
    intro w r; unfold toUnsigned; split <;> simp [Out.bind]
  simp only [get_if_exists_bool, get_if_exists_int, get_if_exists_uint, get_if_exists_long,
    get_if_exists_ulong, get_if_exists_real, get_if_exists_complex, get_if_exists_string]
  refine ⟨?_, ?_, ?_, ?_, ?_, ?_, ?_, ?_⟩ <;>
    (split <;> first | (intro h; cases h; done) | (split <;> first | exact hs _ _ | exact hun _ _ | (intro h; cases h)))

/-- With a list of fields (`int` … `string` versions): the first field that is there and
convertible is used; if there is none the result is false. -/
theorem C20_list {α : Type} (one : Bytes → GC → Out (Option α)) (g : GC) (ks : List Bytes) :
    (∀ pre k post v, ks = pre ++ k :: post → (∀ p ∈ pre, one p g = .ok none) →
      one k g = .ok (some v) → get_if_exists_list one g ks = .ok (some v)) ∧
    ((∀ k ∈ ks, one k g = .ok none) → get_if_exists_list one g ks = .ok none) := by
  constructor
  · intro pre
    induction pre generalizing ks with
    | nil =>
      rintro k post v rfl _ h
      simp [get_if_exists_list, h, Out.bind]
    | cons p ps ih =>
      rintro k post v rfl h1 h2
      have := ih _ k post v rfl (fun q hq => h1 q (by simp [hq])) h2
      simp [get_if_exists_list, h1 p (by simp), Out.bind, this]
  · induction ks with
    | nil => intro _; rfl
    | cons k r ih =>
      intro h
      simp [get_if_exists_list, h k (by simp), Out.bind, ih (fun q hq => h q (by simp [hq]))]

/-- The version for `bool` with a list of fields: whatever the content, it never delivers a value.
A field holding a bool is skipped, and any other content makes it read an inactive union
member. -/
theorem C20_bool_list_negation (m : Entries) (ks : List Bytes) :
    (∀ b, get_if_exists_bool_list ks (map m) ≠ .ok (some b)) ∧
    (get_if_exists_bool_list ks (map m) = .ub ↔
      ∃ k ∈ ks, ∃ x, field (map m) k = some x ∧ ∀ b, x ≠ bool b) := by
  rw [get_if_exists_bool_list]
  induction ks with
  | nil => simp [get_if_exists_bool_list.go]
  | cons k r ih =>
    rw [get_if_exists_bool_list.go, mfind_eq_field]
    cases h : field (map m) k with
    | none => simpa [h] using ih
    | some x => cases x <;> first | (simpa [h] using ih) | (simp [h])

/-- Its partial contract: with only bools and absent fields it returns false. -/
theorem C20_bool_list_partial (m : Entries) (ks : List Bytes)
    (h : ∀ k ∈ ks, field (map m) k = none ∨ ∃ b, field (map m) k = some (bool b)) :
    get_if_exists_bool_list ks (map m) = .ok none := by
  rw [get_if_exists_bool_list]
  induction ks with
  | nil => rfl
  | cons k r ih =>
    have ih' := ih (fun q hq => h q (by simp [hq]))
    rw [get_if_exists_bool_list.go, mfind_eq_field]
    rcases h k (by simp) with e | ⟨b, e⟩ <;> simp [e, ih']

example : get_if_exists_int (str "n") (map [(str "n", real (ofInt 4))]) = .ok (some 4) ∧
    get_if_exists_int (str "s") (map [(str "s", string (str "4"))]) = .ok none ∧
    get_if_exists_list get_if_exists_int (map [(str "n", real (ofInt 4)), (str "s", string [])])
      [str "q", str "s", str "n"] = .ok (some 4) ∧
    get_if_exists_bool_list [str "b"] (map [(str "b", bool true)]) = .ok none := by
  decide +kernel

end GC
end GCV
