import Verif.Lemmas.WireRead

/-!
# C113: exactly what de_serialize does with arbitrary bytes
-/

namespace GCV
namespace GC
open WireRead

theorem rel_zero (o : Out (GC × Int)) : rel 0 o = o := by
  cases o with
  | ok a => simp [rel]
  | _ => rfl

/-- `de_serialize( dim, buffer )` on any bytes, with any limit and any previous content: the outcomes of calls that end are the
outcomes of reading the record at offset 0.  (`fuel` bounds the nesting; `diverge` is what a call gives that would nest deeper.) -/
theorem C113_result (dim : Int) (buf : Bytes) (prev : GC) (o : Out (GC × Int)) (h : o ≠ .diverge) :
    (∃ fuel, de_serialize fuel dim buf prev = o) ↔ Record buf dim 0 o := by
  constructor
  · rintro ⟨fuel, hf⟩
    rw [de_serialize] at hf
    have := record_complete buf dim fuel 0
    rw [show dim - 0 = dim by omega, hf] at this
    rcases this with h1 | ⟨o', ho, h1⟩
    · exact absurd h1 h
    · rw [rel_zero] at h1
      exact h1 ▸ ho
  · intro hr
    obtain ⟨N, hN⟩ := record_sound hr
    refine ⟨N, ?_⟩
    have := hN N (Nat.le_refl N)
    rwa [show dim - 0 = dim by omega, rel_zero] at this

/-- The outcome does not depend on the bound once it is large enough. -/
theorem C113_enough (dim : Int) (buf : Bytes) (prev : GC) (o : Out (GC × Int)) (h : Record buf dim 0 o) :
    ∃ N, ∀ fuel, N ≤ fuel → de_serialize fuel dim buf prev = o := by
  obtain ⟨N, hN⟩ := record_sound h
  refine ⟨N, fun fuel hf => ?_⟩
  have := hN fuel hf
  rwa [show dim - 0 = dim by omega, rel_zero] at this

/-- Bytes have at most one outcome. -/
theorem C113_unique (dim : Int) (buf : Bytes) (o o' : Out (GC × Int)) (h : Record buf dim 0 o) (h' : Record buf dim 0 o') :
    o = o' := by
  obtain ⟨N, hN⟩ := C113_enough dim buf notype o h
  obtain ⟨M, hM⟩ := C113_enough dim buf notype o' h'
  rw [← hN (max N M) (by omega), hM (max N M) (by omega)]

/-- The call never ends exactly when the bytes have no outcome. -/
theorem C113_forever (dim : Int) (buf : Bytes) (prev : GC) :
    (∀ fuel, de_serialize fuel dim buf prev = .diverge) ↔ ∀ o, ¬ Record buf dim 0 o := by
  constructor
  · intro h o hr
    obtain ⟨fuel, hf⟩ := (C113_result dim buf prev o (record_no hr)).2 hr
    exact record_no hr (hf ▸ h fuel)
  · intro h fuel
    by_cases hd : de_serialize fuel dim buf prev = .diverge
    · exact hd
    · exact absurd ((C113_result dim buf prev _ hd).1 ⟨fuel, rfl⟩) (h _)

/-- `de_serialize( vector<uint8_t> )`: the limit is the number of bytes as an `int32_t`. -/
theorem C113_vector (buf : Bytes) (prev : GC) (o : Out (GC × Int)) (h : o ≠ .diverge) :
    (∃ fuel, de_serialize_vec fuel buf prev = o) ↔ Record buf (signed (buf.length % 2 ^ 32)) 0 o := by
  have hl : toI32 buf.length = signed (buf.length % 2 ^ 32) := by
    rw [← toI32_signed (Nat.mod_lt _ (by decide)), toI32, toI32]
    congr 1
    apply BitVec.eq_of_toNat_eq
    simp
  rw [← C113_result _ buf prev o h, ← hl]
  rfl

/-- A map with the key `a` given twice, the second time with a vector: the second counts.  37 bytes are read, the last one is not. -/
example : Record [20, 0, 0, 0, 2, 0, 0, 0, 2, 0, 0, 0, 97, 0, 2, 0, 0, 0, 1, 2, 0, 0, 0, 97, 0, 19, 0, 0, 0, 1, 0, 0, 0, 0, 0, 0, 0, 9]
    38 0 (.ok (map [([97], vector [notype])], 37)) :=
  (C113_result 38 _ notype _ (by simp)).1 ⟨3, by decide +kernel⟩

/-- The same bytes with a smaller limit are an error, and a piece of them is an access outside. -/
example : Record [20, 0, 0, 0, 2, 0, 0, 0, 2, 0, 0, 0, 97, 0, 2, 0, 0, 0, 1, 2, 0, 0, 0, 97, 0, 19, 0, 0, 0, 1, 0, 0, 0, 0, 0, 0, 0, 9]
    36 0 .throw ∧ Record [20, 0, 0, 0, 2, 0, 0, 0, 2, 0, 0, 0, 97, 0, 2, 0] 16 0 .ub :=
  ⟨(C113_result _ _ notype _ (by simp)).1 ⟨3, by decide +kernel⟩, (C113_result _ _ notype _ (by simp)).1 ⟨3, by decide +kernel⟩⟩

/-- A key with a length of -12: the record of its value is the map itself.  The call never ends. -/
example : ∀ o, ¬ Record [20, 0, 0, 0, 1, 0, 0, 0, 244, 255, 255, 255, 0] 100 0 o := by
  refine (C113_forever 100 _ notype).1 ?_
  have key : ∀ (fuel : Nat) (dim : Int), de_ser [20, 0, 0, 0, 1, 0, 0, 0, 244, 255, 255, 255, 0] fuel dim 0 = .diverge := by
    intro fuel
    induction fuel with
    | zero => intro dim; rfl
    | succ n ih =>
      intro dim
      have h := map_eq (buf := [20, 0, 0, 0, 1, 0, 0, 0, 244, 255, 255, 255, 0]) (fuel := n) (lim := dim) (s := 0) (n := 1)
        (o := .diverge) (by decide +kernel) (by decide +kernel)
        (by
          rw [show (signed 1).toNat = 1 from rfl, Rd.each, mapStep, getStr_text,
            show lenText [20, 0, 0, 0, 1, 0, 0, 0, 244, 255, 255, 255, 0] 0 (0 + 8) = .ok ([], 0) by decide +kernel, toR, Out.bind_ok]
          simp only [ih]; rfl)
      rw [show dim - 0 = dim by omega] at h
      exact h
  exact fun fuel => key fuel 100

end GC
end GCV
