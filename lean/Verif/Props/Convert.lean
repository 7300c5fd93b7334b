import Verif.Model.Convert
import Verif.Spec.Number
import Verif.Lemmas.Convert

/-!
# C10, C11: numeric conversions
-/

namespace GCV

open F64

namespace GC

theorem exactU_of {w : Nat} {o : Out (BitVec w)} {v : Option Int}
    (h : (∃ n : Nat, v = some ((n : Int) * unit)) → ∃ r : BitVec w, o = .ok r ∧ v = some ((r.toNat : Int) * unit))
    (h' : (¬ ∃ n : Nat, v = some ((n : Int) * unit)) → o = .throw) :
    (∀ r : BitVec w, o = .ok r → v = some ((r.toNat : Int) * unit)) ∧
    (∀ n : Nat, v = some ((n : Int) * unit) → ∃ r : BitVec w, o = .ok r ∧ r.toNat = n) ∧
    ((¬ ∃ n : Nat, v = some ((n : Int) * unit)) → o = .throw) := by
  refine ⟨fun r hr => ?_, fun n hn => ?_, h'⟩
  · by_cases hc : ∃ n : Nat, v = some ((n : Int) * unit)
    · obtain ⟨r', h1, h2⟩ := h hc
      rw [h1] at hr; simp at hr; rw [← hr]; exact h2
    · rw [h' hc] at hr; simp at hr
  · obtain ⟨r, h1, h2⟩ := h ⟨n, hn⟩
    refine ⟨r, h1, ?_⟩
    rw [hn] at h2
    have := mul_unit_inj (a := n) (b := r.toNat) (by simpa using h2)
    omega

/-! ## C10 Integer conversions are exact or throw

For each target type: (1) an integer is returned only if it is the stored number, (2) a stored
integer is returned, (3) everything else throws.  `NoSubnormal` and `IntegerIn` exclude the
cases in which the full statement fails: a stored subnormal number is taken for 0, and a stored
integer outside of the target range is wrapped (from long) or undefined (from double), see
`C10_negation`. -/

theorem C10_as_int_partial (g : GC) (hs : NoSubnormal g) (hr : IntegerIn (-2 ^ 31) (2 ^ 31) g) :
    (∀ i, get_as_int g = .ok i → numValue g = some (i.toInt * unit)) ∧
    (∀ n : Int, numValue g = some (n * unit) → ∃ i : I32, get_as_int g = .ok i ∧ i.toInt = n) ∧
    ((¬ ∃ n : Int, numValue g = some (n * unit)) → get_as_int g = .throw) := by
  apply exact_of (val := fun i : I32 => i.toInt)
  · rintro ⟨n, hn⟩
    obtain ⟨hlo, hhi⟩ := hr n hn
    cases g with
    | bool b => exact ⟨_, rfl, by rw [numValue_bool]; cases b <;> rfl⟩
    | int i => exact ⟨i, rfl, rfl⟩
    | long l =>
      have e : l.toInt = n := mul_unit_inj (by simpa [numValue] using hn)
      exact ⟨l.toI32, rfl, by rw [numValue, toI32_exact (by omega) (by omega)]⟩
    | real r =>
      rw [real_value] at hn
      obtain ⟨r', h1, h2⟩ := toSigned_spec (w := 32) (by omega) hn hlo hhi
      refine ⟨r', ?_, by rw [real_value, hn, h2]⟩
      rw [get_as_int, if_pos ((isInteger_spec hs).2 ⟨n, hn⟩), h1]
    | complex c =>
      rw [complex_value] at hn
      split at hn
      · rename_i him
        obtain ⟨r', h1, h2⟩ := toSigned_spec (w := 32) (by omega) hn hlo hhi
        refine ⟨r', ?_, by rw [complex_value, if_pos him, hn, h2]⟩
        rw [get_as_int, if_pos ⟨isZero0_of_isZero him, (isInteger_spec hs.1).2 ⟨n, hn⟩⟩, h1]
      · simp at hn
    | _ => simp [numValue] at hn
  · intro hn
    cases g with
    | bool b => exact absurd ⟨_, numValue_bool b⟩ hn
    | int i => exact absurd ⟨_, rfl⟩ hn
    | long l => exact absurd ⟨_, rfl⟩ hn
    | real r =>
      rw [get_as_int, if_neg]
      intro h; exact hn ((isInteger_spec hs).1 h)
    | complex c =>
      rw [get_as_int, if_neg]
      rintro ⟨h1, h2⟩
      apply hn
      obtain ⟨n, h3⟩ := (isInteger_spec hs.1).1 h2
      exact ⟨n, by rw [complex_value, if_pos (hs.2 h1), h3]⟩
    | _ => rfl

theorem C10_as_long_partial (g : GC) (hs : NoSubnormal g) (hr : IntegerIn (-2 ^ 63) (2 ^ 63) g) :
    (∀ i, get_as_long g = .ok i → numValue g = some (i.toInt * unit)) ∧
    (∀ n : Int, numValue g = some (n * unit) → ∃ i : I64, get_as_long g = .ok i ∧ i.toInt = n) ∧
    ((¬ ∃ n : Int, numValue g = some (n * unit)) → get_as_long g = .throw) := by
  apply exact_of (val := fun i : I64 => i.toInt)
  · rintro ⟨n, hn⟩
    obtain ⟨hlo, hhi⟩ := hr n hn
    cases g with
    | bool b => exact ⟨_, rfl, by rw [numValue_bool]; cases b <;> rfl⟩
    | int i => exact ⟨i.toI64, rfl, by rw [numValue, toI64_exact]⟩
    | long l =>
      exact ⟨l, rfl, rfl⟩
    | real r =>
      rw [real_value] at hn
      obtain ⟨r', h1, h2⟩ := toSigned_spec (w := 64) (by omega) hn hlo hhi
      refine ⟨r', ?_, by rw [real_value, hn, h2]⟩
      rw [get_as_long, if_pos ((isInteger_spec hs).2 ⟨n, hn⟩), h1]
    | complex c =>
      rw [complex_value] at hn
      split at hn
      · rename_i him
        obtain ⟨r', h1, h2⟩ := toSigned_spec (w := 64) (by omega) hn hlo hhi
        refine ⟨r', ?_, by rw [complex_value, if_pos him, hn, h2]⟩
        rw [get_as_long, if_pos ⟨isZero0_of_isZero him, (isInteger_spec hs.1).2 ⟨n, hn⟩⟩, h1]
      · simp at hn
    | _ => simp [numValue] at hn
  · intro hn
    cases g with
    | bool b => exact absurd ⟨_, numValue_bool b⟩ hn
    | int i => exact absurd ⟨_, rfl⟩ hn
    | long l => exact absurd ⟨_, rfl⟩ hn
    | real r =>
      rw [get_as_long, if_neg]
      intro h; exact hn ((isInteger_spec hs).1 h)
    | complex c =>
      rw [get_as_long, if_neg]
      rintro ⟨h1, h2⟩
      apply hn
      obtain ⟨n, h3⟩ := (isInteger_spec hs.1).1 h2
      exact ⟨n, by rw [complex_value, if_pos (hs.2 h1), h3]⟩
    | _ => rfl

theorem C10_as_uint_partial (g : GC) (hs : NoSubnormal g)
    (hr : ∀ n : Int, numValue g = some (n * unit) → n < 2 ^ 32) :
    (∀ i : BitVec 32, get_as_uint g = .ok i → numValue g = some ((i.toNat : Int) * unit)) ∧
    (∀ n : Nat, numValue g = some ((n : Int) * unit) → ∃ i : BitVec 32, get_as_uint g = .ok i ∧ i.toNat = n) ∧
    ((¬ ∃ n : Nat, numValue g = some ((n : Int) * unit)) → get_as_uint g = .throw) := by
  apply exactU_of
  · rintro ⟨n, hn⟩
    have hhi := hr n hn
    cases g with
    | bool b => exact ⟨_, rfl, by rw [numValue_bool]; cases b <;> rfl⟩
    | int i =>
      have e : i.toInt = n := mul_unit_inj (by simpa [numValue] using hn)
      exact ⟨i, by rw [get_as_uint, if_pos (by omega)], by rw [numValue, toNat_of_nonneg (by omega)]⟩
    | long l =>
      have e : l.toInt = n := mul_unit_inj (by simpa [numValue] using hn)
      exact ⟨l.setWidth 32, by rw [get_as_uint, if_pos (by omega)], by
        rw [numValue, setWidth_exact (by omega) (by omega)]⟩
    | real r =>
      rw [real_value] at hn
      obtain ⟨r', h1, h2⟩ := toUnsigned_spec (w := 32) hn (by omega) hhi
      refine ⟨r', ?_, by rw [real_value, hn, h2]⟩
      have hu := (isUnsigned_spec hs).2 ⟨n, hn, by omega⟩
      rw [get_as_uint, if_pos ⟨(geZero_spec hn).2 (by omega), hu⟩, h1]
    | complex c =>
      rw [complex_value] at hn
      split at hn
      · rename_i him
        obtain ⟨r', h1, h2⟩ := toUnsigned_spec (w := 32) hn (by omega) hhi
        refine ⟨r', ?_, by rw [complex_value, if_pos him, hn, h2]⟩
        have hu := (isUnsigned_spec hs.1).2 ⟨n, hn, by omega⟩
        rw [get_as_uint, if_pos ⟨isZero0_of_isZero him, hu⟩, h1]
      · simp at hn
    | _ => simp [numValue] at hn
  · intro hn
    cases g with
    | bool b => exact absurd ⟨if b then 1 else 0, by rw [numValue_bool]; cases b <;> rfl⟩ hn
    | int i =>
      rw [get_as_uint, if_neg]
      intro h; exact hn ⟨i.toNat, by rw [numValue, toNat_of_nonneg h]⟩
    | long l =>
      rw [get_as_uint, if_neg]
      intro h; exact hn ⟨l.toNat, by rw [numValue, toNat_of_nonneg h]⟩
    | real r =>
      rw [get_as_uint, if_neg]
      rintro ⟨_, h⟩
      obtain ⟨n, h1, h2⟩ := (isUnsigned_spec hs).1 h
      exact hn ⟨n.toNat, by rw [real_value, h1, Int.toNat_of_nonneg h2]⟩
    | complex c =>
      rw [get_as_uint, if_neg]
      rintro ⟨h1, h2⟩
      apply hn
      obtain ⟨n, h3, h4⟩ := (isUnsigned_spec hs.1).1 h2
      exact ⟨n.toNat, by rw [complex_value, if_pos (hs.2 h1), h3, Int.toNat_of_nonneg h4]⟩
    | _ => rfl

theorem C10_as_ulong_partial (g : GC) (hs : NoSubnormal g)
    (hr : ∀ n : Int, numValue g = some (n * unit) → n < 2 ^ 64) :
    (∀ i : BitVec 64, get_as_ulong g = .ok i → numValue g = some ((i.toNat : Int) * unit)) ∧
    (∀ n : Nat, numValue g = some ((n : Int) * unit) → ∃ i : BitVec 64, get_as_ulong g = .ok i ∧ i.toNat = n) ∧
    ((¬ ∃ n : Nat, numValue g = some ((n : Int) * unit)) → get_as_ulong g = .throw) := by
  apply exactU_of
  · rintro ⟨n, hn⟩
    have hhi := hr n hn
    cases g with
    | bool b => exact ⟨_, rfl, by rw [numValue_bool]; cases b <;> rfl⟩
    | int i =>
      have e : i.toInt = n := mul_unit_inj (by simpa [numValue] using hn)
      exact ⟨i.toI64, by rw [get_as_ulong, if_pos (by omega)], by
        rw [numValue, toNat_of_nonneg (by rw [toI64_exact]; omega), toI64_exact]⟩
    | long l =>
      have e : l.toInt = n := mul_unit_inj (by simpa [numValue] using hn)
      exact ⟨l, by rw [get_as_ulong, if_pos (by omega)], by rw [numValue, toNat_of_nonneg (by omega)]⟩
    | real r =>
      rw [real_value] at hn
      obtain ⟨r', h1, h2⟩ := toUnsigned_spec (w := 64) hn (by omega) hhi
      refine ⟨r', ?_, by rw [real_value, hn, h2]⟩
      have hu := (isUnsigned_spec hs).2 ⟨n, hn, by omega⟩
      rw [get_as_ulong, if_pos ⟨(geZero_spec hn).2 (by omega), hu⟩, h1]
    | complex c =>
      rw [complex_value] at hn
      split at hn
      · rename_i him
        obtain ⟨r', h1, h2⟩ := toUnsigned_spec (w := 64) hn (by omega) hhi
        refine ⟨r', ?_, by rw [complex_value, if_pos him, hn, h2]⟩
        have hu := (isUnsigned_spec hs.1).2 ⟨n, hn, by omega⟩
        rw [get_as_ulong, if_pos ⟨isZero0_of_isZero him, hu⟩, h1]
      · simp at hn
    | _ => simp [numValue] at hn
  · intro hn
    cases g with
    | bool b => exact absurd ⟨if b then 1 else 0, by rw [numValue_bool]; cases b <;> rfl⟩ hn
    | int i =>
      rw [get_as_ulong, if_neg]
      intro h; exact hn ⟨i.toNat, by rw [numValue, toNat_of_nonneg h]⟩
    | long l =>
      rw [get_as_ulong, if_neg]
      intro h; exact hn ⟨l.toNat, by rw [numValue, toNat_of_nonneg h]⟩
    | real r =>
      rw [get_as_ulong, if_neg]
      rintro ⟨_, h⟩
      obtain ⟨n, h1, h2⟩ := (isUnsigned_spec hs).1 h
      exact hn ⟨n.toNat, by rw [real_value, h1, Int.toNat_of_nonneg h2]⟩
    | complex c =>
      rw [get_as_ulong, if_neg]
      rintro ⟨h1, h2⟩
      apply hn
      obtain ⟨n, h3, h4⟩ := (isUnsigned_spec hs.1).1 h2
      exact ⟨n.toNat, by rw [complex_value, if_pos (hs.2 h1), h3, Int.toNat_of_nonneg h4]⟩
    | _ => rfl

/-- Hypotheses are met by ordinary content, on both sides. -/
example : NoSubnormal (real (ofInt 7)) ∧ get_as_int (real (ofInt 7)) = .ok 7 ∧
    get_as_uint (real (ofInt (-7))) = .throw ∧
    get_as_long (complex ⟨ofInt (-3), .zero⟩) = .ok (-3) ∧
    get_as_int (real ⟨0x3FF8000000000000#64⟩) = .throw ∧ get_as_int (real ⟨0x7FF0000000000000#64⟩) = .throw := by
  decide +kernel

example : IntegerIn (-2 ^ 31) (2 ^ 31) (long 5) := by
  intro n h
  have : (5 : Int) = n := mul_unit_inj (by simpa [numValue] using h)
  omega

/-- The full statement is false.  A long 2^32 is returned as the int 0; the smallest positive
double is returned as 0; the real 2^31 has no defined result as an int. -/
theorem C10_negation :
    (get_as_int (long (2 ^ 32)) = .ok 0 ∧
      numValue (long (2 ^ 32)) ≠ some ((0 : I32).toInt * unit)) ∧
    (get_as_uint (long (2 ^ 32 + 7)) = .ok 7 ∧
      numValue (long (2 ^ 32 + 7)) ≠ some (((7 : BitVec 32).toNat : Int) * unit)) ∧
    (get_as_int (real ⟨1⟩) = .ok 0 ∧ numValue (real ⟨1⟩) ≠ some ((0 : I32).toInt * unit)) ∧
    get_as_int (real (ofInt (2 ^ 31))) = .ub ∧ get_as_ulong (real (ofInt (2 ^ 64))) = .ub := by
  decide +kernel

/-! ## C11 Number reads preserve the value -/

/-- Exactly, for every stored bool, int, real (finite) and every long up to 2^53. -/
theorem C11_number_exact (g : GC) (q : Int) (h : isRealNumber g = true) (hq : numValue g = some q)
    (hl : ∀ l, g = long l → l.toInt.natAbs ≤ 2 ^ 53) :
    (∃ x, get_number g = .ok x ∧ x.value = some q) ∧
    (∃ x, get_value_double g = .ok x ∧ x.value = some q) ∧
    (∃ z, get_complex_number g = .ok z ∧ z.re.value = some q ∧ z.im.value = some 0) := by
  have key : ∀ n : Int, n.natAbs ≤ 2 ^ 53 → (ofInt n).value = some (n * unit) := by
    intro n hn
    obtain ⟨h1, h2⟩ := ofInt_exact hn
    simp [value, h1, h2]
  have hz : F64.zero.value = some 0 := by decide
  cases g with
  | bool b =>
    rw [numValue_bool] at hq
    have hb : (F64.ofBool b).value = some q := by
      rw [← hq]; cases b
      · have := key 0 (by decide); exact this
      · exact key 1 (by decide)
    exact ⟨⟨_, rfl, hb⟩, ⟨_, rfl, hb⟩, _, rfl, hb, hz⟩
  | int i =>
    have hb : (F64.ofI32 i).value = some q := by
      rw [← hq]; apply key
      have h1 := i.toInt_lt; have h2 := i.le_toInt
      omega
    exact ⟨⟨_, rfl, hb⟩, ⟨_, rfl, hb⟩, _, rfl, hb, hz⟩
  | long l =>
    have hb : (F64.ofI64 l).value = some q := by
      rw [← hq]; exact key _ (hl l rfl)
    exact ⟨⟨_, rfl, hb⟩, ⟨_, rfl, hb⟩, _, rfl, hb, hz⟩
  | real r => exact ⟨⟨_, rfl, hq⟩, ⟨_, rfl, hq⟩, _, rfl, hq, hz⟩
  | _ => simp [isRealNumber] at h

/-- Reals come back bit for bit (NaN payloads and infinities included), and complex numbers are
returned unchanged by `get_complex_number`. -/
theorem C11_number_same (r : F64) (c : Cplx) :
    get_number (real r) = .ok r ∧ get_value_double (real r) = .ok r ∧
    get_complex_number (complex c) = .ok c := ⟨rfl, rfl, rfl⟩

/-- Every other long comes back with a relative error of at most 2^-53. -/
theorem C11_long_near (l : I64) :
    ∃ x, get_number (long l) = .ok x ∧ x.isFinite = true ∧
      2 ^ 53 * (x.scaled - l.toInt * unit).natAbs ≤ l.toInt.natAbs * unit := by
  have h1 := l.toInt_lt; have h2 := l.le_toInt
  obtain ⟨h3, h4⟩ := ofInt_near (n := l.toInt) (by omega)
  exact ⟨_, rfl, h3, h4⟩

/-- Nothing else is a number: the call throws. -/
theorem C11_not_number (g : GC) : (isRealNumber g = false → get_number g = .throw) ∧
    (isNumber g = false → get_complex_number g = .throw ∧ get_value_double g = .throw) := by
  constructor
  · cases g <;> simp [isRealNumber, get_number]
  · cases g <;> simp [isNumber, get_complex_number, get_value_double]

/-- Reading position `i` is reading the element at position `i`. -/
theorem C11_number_at (g x : GC) (i : Nat) (h : elem g i = some x) :
    get_number_at i g = get_number x ∧ get_complex_number_at i g = get_complex_number x := by
  cases g <;>
    simp only [elem, Option.map_eq_some_iff, reduceCtorEq] at h <;>
    first
    | (obtain ⟨a, h1, rfl⟩ := h
       simp [get_number_at, get_complex_number_at, getL, h1, Out.bind, get_number, get_complex_number])
    | simp [get_number_at, get_complex_number_at, getL, h, Out.bind]

example : get_number (long 5) = .ok (ofInt 5) ∧ isRealNumber (long 5) = true ∧
    numValue (long 5) = some (5 * unit) ∧
    elem (vecInt [4, 5]) 1 = some (int 5) ∧ get_number_at 1 (vecInt [4, 5]) = .ok (ofInt 5) := by
  decide +kernel

end GC
end GCV
