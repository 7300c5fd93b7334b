import Verif.Lemmas.DeSerialize
import Verif.Lemmas.Dec

/-!
# C01-C03, C05: binary serialization

`serialize n buf g` is `g.serialize( n, buf )`: the memory afterwards and the returned count.
`de_serialize fuel dim mem b` is `b.de_serialize( dim, mem )`: the new content of `b` and the
returned count; `fuel` bounds the depth of the recursion, and every `fuel` above the nesting
depth of the data gives the same result.  A C++ buffer has less than 2^31 bytes here, as its
length is passed as an `int32_t`.
-/

namespace GCV
namespace GC

/-! ## Auxiliary facts -/

theorem serialize_eq {g : GC} (hg : Writable g) {n : Nat} {buf : Bytes} (hn : n ≤ buf.length)
    (h31 : n < 2 ^ 31) :
    serialize n buf g = if wireSize g ≤ n then
      .ok (enc g ++ buf.drop (wireSize g), (wireSize g : Int)) else .throw := by
  unfold serialize
  rw [ser_eq.1 g hg _ ⟨by simp, by simp; omega, by simp; omega⟩]
  unfold Wr.tryPut
  rw [length_enc.1]
  by_cases h : wireSize g ≤ n
  · rw [if_pos (by simp; omega), if_pos h, Out.bind_ok]
    simp [Wr.write, length_enc.1]; omega
  · rw [if_neg (by simp; omega), if_neg h]; rfl

/-! ## C01 Binary serialization round trip -/

/-- If `g` (well formed, no pointer, no complex matrix, no NUL inside strings and keys) is
serialized successfully into the first `n` bytes of `buf`, reporting `k` bytes, then
de-serializing these `k` bytes followed by an arbitrary `tail` into any container gives back
exactly `g` and reports `k` bytes.
Missing from the full statement: trees with pointers, complex matrices or NUL bytes; there it is
false (`C01_round_trip_negation`). -/
theorem C01_round_trip_partial (g prev : GC) (n : Nat) (buf out tail : Bytes) (k dim : Int)
    (fuel : Nat) (hw : WF g) (hs : Storable g) (hg : Writable g)
    (hn : n ≤ buf.length) (h31 : n < 2 ^ 31)
    (hser : serialize n buf g = .ok (out, k)) (hfuel : depth g < fuel) (hdim : k ≤ dim) :
    0 ≤ k ∧ k ≤ n ∧
    de_serialize fuel dim (out.take k.toNat ++ tail) prev = .ok (g, k) := by
  rw [serialize_eq hg hn h31] at hser
  by_cases h : wireSize g ≤ n
  · rw [if_pos h] at hser
    injection hser with hser
    injection hser with h1 h2
    subst h1 h2
    refine ⟨by omega, by omega, ?_⟩
    have hl := length_enc.1 g
    have ht : (enc g ++ buf.drop (wireSize g)).take ((wireSize g : Int)).toNat = enc g := by
      rw [Int.toNat_natCast, ← hl, List.take_left]
    rw [ht, de_serialize]
    have := reads_all g hs hw (enc g ++ tail) fuel 0 dim hfuel ⟨tail, by simp⟩ (by omega)
      (by omega)
    rw [hl] at this
    exact this
  · rw [if_neg h] at hser; simp at hser

/-- The same when the very memory `serialize` wrote to is read. -/
theorem C01_round_trip_same_memory_partial (g prev : GC) (n : Nat) (buf out : Bytes) (k dim : Int)
    (fuel : Nat) (hw : WF g) (hs : Storable g) (hg : Writable g)
    (hn : n ≤ buf.length) (h31 : n < 2 ^ 31)
    (hser : serialize n buf g = .ok (out, k)) (hfuel : depth g < fuel) (hdim : k ≤ dim) :
    de_serialize fuel dim out prev = .ok (g, k) := by
  have := (C01_round_trip_partial g prev n buf out (out.drop k.toNat) k dim fuel hw hs hg hn h31
    hser hfuel hdim).2.2
  rwa [List.take_append_drop] at this

/-- A pointer reads back as an empty container (4 of 12 bytes consumed), the string `"a\0b"`
reads back as `"a"`, and a vector with a pointer in it comes back with other elements. -/
theorem C01_round_trip_negation :
    (∃ out, serialize 12 (List.replicate 12 0) (pointer 7) = .ok (out, 12) ∧
      ∀ prev fuel, de_serialize (fuel + 1) 12 out prev = .ok (notype, 4)) ∧
    (∃ out, serialize 12 (List.replicate 12 0) (string [97, 0, 98]) = .ok (out, 12) ∧
      ∀ prev fuel, de_serialize (fuel + 1) 12 out prev = .ok (string [97], 12)) ∧
    (∃ out, serialize 28 (List.replicate 28 0) (vector [pointer 3, int 5]) = .ok (out, 28) ∧
      ∀ prev fuel, de_serialize (fuel + 2) 28 out prev = .ok (vector [notype, int 0], 20)) := by
  refine ⟨⟨enc (pointer 7), by decide +kernel, fun _ _ => by rfl⟩,
    ⟨enc (string [97, 0, 98]), by decide +kernel, fun _ _ => by rfl⟩,
    ⟨enc (vector [pointer 3, int 5]), by decide +kernel, fun _ _ => by rfl⟩⟩

example : WF sample ∧ Storable sample ∧ Writable sample ∧ depth sample < 5 ∧
    ∃ out k, serialize 200 (List.replicate 200 0) sample = .ok (out, k) := by
  refine ⟨by decide +kernel, by decide +kernel, by decide +kernel, by decide +kernel, ?_⟩
  rw [show (200 : Int) = ((200 : Nat) : Int) from rfl,
    serialize_eq (by decide +kernel) (by rw [List.length_replicate]; exact Nat.le_refl _) (by decide),
    if_pos (by decide +kernel)]
  exact ⟨_, _, rfl⟩

/-! ## C02 mem_size is exact -/

/-- `mem_size()` is the size `s` of the binary form; into a buffer of `n` bytes `serialize`
succeeds exactly if `s ≤ n`, it then writes `s` bytes at the front of the buffer, leaves the rest
alone and reports `s`; otherwise it throws.
Missing from the full statement: complex matrices (`C02_mem_size_negation`) and containers of
2 GiB or more, whose size does not fit the result type of `mem_size()`
(`C02_mem_size_overflow`). -/
theorem C02_mem_size_exact_partial (g : GC) (hg : Writable g) (hsize : wireSize g < 2 ^ 31) :
    ∃ s : Nat, mem_size g = .ok s ∧ ∀ (n : Nat) (buf : Bytes), n ≤ buf.length → n < 2 ^ 31 →
      (s ≤ n → ∃ bytes, bytes.length = s ∧
        serialize n buf g = .ok (bytes ++ buf.drop s, (s : Int))) ∧
      (n < s → serialize n buf g = .throw) := by
  refine ⟨wireSize g, mem_size_eq.1 g hsize, fun n buf hn h31 => ?_⟩
  rw [serialize_eq hg hn h31]
  refine ⟨fun h => ⟨enc g, length_enc.1 g, by rw [if_pos h]⟩, fun h => by rw [if_neg (by omega)]⟩

/-- `mem_size()` is the specified size also for complex matrices. -/
theorem C02_mem_size_value (g : GC) (hsize : wireSize g < 2 ^ 31) :
    mem_size g = .ok (wireSize g : Nat) := mem_size_eq.1 g hsize

/-- A complex matrix cannot be serialized into the announced 28 bytes: undefined behaviour. -/
theorem C02_mem_size_negation : ∃ g, WF g ∧ mem_size g = .ok 28 ∧
    serialize 28 (List.replicate 28 0) g = .ub :=
  ⟨matComplex ⟨1, 1, [.zero]⟩, by decide +kernel, by decide +kernel, by decide +kernel⟩

/-- For a string of 2^31 bytes `mem_size()` is negative. -/
theorem C02_mem_size_overflow : ∃ g, WF g ∧ ∃ s, mem_size g = .ok s ∧ s < 0 := by
  refine ⟨string (List.replicate (2 ^ 31) 1), trivial, _, rfl, ?_⟩
  rw [List.length_replicate]; decide

example : Writable sample ∧ wireSize sample < 2 ^ 31 := by decide +kernel

/-! ## C03 serialize never writes past the buffer -/

/-- With a buffer of `n` bytes `serialize` either returns a count `k ≤ n`, having changed only
the first `k` bytes, or throws; it is never undefined, and in the model any store outside of the
`n` bytes is.
Missing from the full statement: complex matrices (`C02_mem_size_negation`) and strings of
2^31-1 bytes or more. -/
theorem C03_no_overrun_partial (g : GC) (hg : Writable g) (buf : Bytes)
    (h31 : buf.length < 2 ^ 31) :
    (∃ out, ∃ k : Nat, serialize buf.length buf g = .ok (out, (k : Int)) ∧ k ≤ buf.length ∧
      out.length = buf.length ∧ out.drop k = buf.drop k) ∨
    serialize buf.length buf g = .throw := by
  rw [serialize_eq hg (Nat.le_refl _) h31]
  by_cases h : wireSize g ≤ buf.length
  · left
    rw [if_pos h]
    refine ⟨_, _, rfl, h, ?_, ?_⟩
    · simp [length_enc.1]; omega
    · rw [← length_enc.1 g, List.drop_left]
  · right; rw [if_neg h]

/-- A part of a larger memory given to `serialize` as buffer: the bytes behind stay as they
are. -/
theorem C03_rest_untouched_partial (g : GC) (hg : Writable g) (n : Nat) (buf out : Bytes)
    (k : Int) (hn : n ≤ buf.length) (h31 : n < 2 ^ 31)
    (h : serialize n buf g = .ok (out, k)) : out.drop n = buf.drop n := by
  rw [serialize_eq hg hn h31] at h
  by_cases hc : wireSize g ≤ n
  · rw [if_pos hc] at h
    injection h with h
    injection h with h1 h2
    subst h1
    have : n = (enc g).length + (n - wireSize g) := by rw [length_enc.1]; omega
    rw [this, ← List.drop_drop, List.drop_left, List.drop_drop, length_enc.1]
  · rw [if_neg hc] at h; simp at h

example : Writable sample ∧ (List.replicate 100 (7 : Byte)).length < 2 ^ 31 := by decide +kernel

/-! ## C05 de_serialize on arbitrary bytes -/

/-- Whatever follows a serialized container, and whatever count above its size is announced,
de-serializing stays inside the bytes.
Missing from the full statement: every other byte sequence; for these it is false
(`C05_truncated_negation`, `C05_diverge_negation`). -/
theorem C05_extension_safe_partial (g prev : GC) (tail : Bytes) (fuel : Nat) (dim : Int)
    (hw : WF g) (hs : Storable g) (hg : Writable g) (hsize : wireSize g < 2 ^ 31)
    (hfuel : depth g < fuel) (hdim : wireSize g ≤ dim) :
    ∃ bytes, serialize (wireSize g) (List.replicate (wireSize g) 0) g =
        .ok (bytes, (wireSize g : Int)) ∧
      de_serialize fuel dim (bytes ++ tail) prev = .ok (g, (wireSize g : Int)) := by
  have h := serialize_eq hg (n := wireSize g) (buf := List.replicate (wireSize g) 0) (by simp) hsize
  rw [if_pos (Nat.le_refl _)] at h
  refine ⟨_, h, ?_⟩
  have := (C01_round_trip_partial g prev _ _ _ tail _ dim fuel hw hs hg (by simp) hsize h hfuel
    hdim).2.2
  rw [Int.toNat_natCast, ← length_enc.1, List.take_left] at this
  rw [List.drop_of_length_le (by simp), List.append_nil]
  rw [length_enc.1] at this
  exact this

/-- Fewer than four bytes: always a read outside of the buffer. -/
theorem C05_truncated_negation (buf : Bytes) (h : buf.length < 4) (dim : Int) (fuel : Nat)
    (prev : GC) : de_serialize (fuel + 1) dim buf prev = .ub := by
  match buf, h with
  | [], _ => rfl
  | [a], _ => rfl
  | [a, b], _ => rfl
  | [a, b, c], _ => rfl

/-- Announced vector of 5 integers with only one present: read outside of the 12 bytes. -/
theorem C05_short_vector_negation (fuel : Nat) (prev : GC) :
    de_serialize (fuel + 1) 12 [10, 0, 0, 0, 5, 0, 0, 0, 1, 0, 0, 0] prev = .ub := rfl

/-- 17 bytes: a VECTOR of 2 elements whose first element is a STRING of "length" -16. -/
def evil : Bytes := [19, 0, 0, 0, 2, 0, 0, 0, 7, 0, 0, 0, 0xF0, 0xFF, 0xFF, 0xFF, 0]

/-- On these 17 bytes `de_serialize` calls itself for ever, whatever the recursion bound. -/
theorem C05_diverge_negation (prev : GC) (fuel : Nat) :
    de_serialize fuel 17 evil prev = .diverge := by
  unfold de_serialize
  induction fuel with
  | zero => rfl
  | succ fuel ih =>
    cases fuel with
    | zero => rfl
    | succ fuel =>
      have h0 : de_ser evil (fuel + 1) 9 8 = .ok (string [], -8) := rfl
      have step : ∀ F, de_ser evil (F + 1) 17 0 =
          (Rd.each (fun r =>
            (de_ser evil F (17 - r.nbyte) r.pos).bind fun (x, sz) =>
              (addI32 r.nbyte sz).bind fun nb => .ok (x, ⟨r.pos + sz, nb⟩)) 2 ⟨8, 8⟩).bind
          fun (v, r) => if r.nbyte ≤ 17 then .ok (vector v, r.nbyte) else .throw := fun _ => rfl
      have h1 : addI32 8 (-8) = .ok 0 := by decide +kernel
      rw [step]
      simp only [Rd.each]
      rw [show (17 : Int) - 8 = 9 from rfl, h0, Out.bind_ok]
      simp only []
      rw [h1, Out.bind_ok, Out.bind_ok]
      simp only []
      rw [show (17 : Int) - 0 = 17 from rfl, show (8 : Int) + (-8) = 0 from rfl, ih]
      rfl

example : WF sample ∧ Storable sample ∧ Writable sample ∧ wireSize sample < 2 ^ 31 ∧
    depth sample < 5 := by decide +kernel

end GC
end GCV
