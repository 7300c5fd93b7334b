import Verif.Props.Core
import Verif.Props.Convert
import Verif.Props.Matrix
import Verif.Props.Compare

/-!
# C58, C59, C60: exactly what setters and integer reads do
-/

namespace GCV
namespace GC

open F64

/-! ## C58 Exactly what a setter leaves -/

theorem writeV_empty (v : Val) (g : GC) (he : v.isEmptyVec = true) (ht : g.ty = v.ty) :
    writeV v g = .ok g := by
  cases v <;> simp only [Val.isEmptyVec, reduceCtorEq, List.isEmpty_iff] at he <;>
    (subst he; cases g <;> simp only [ty, Val.ty, reduceCtorEq] at ht; rfl)

/-- Every setter returns.  An empty vector set over a vector of the same kind changes nothing; in all
other cases the container holds the value afterwards. -/
theorem C58_set (v : Val) (g : GC) (hv : v.settable) :
    ∃ g', writeV v g = .ok g' ∧
      if v.isEmptyVec = true ∧ g.ty = v.ty then g' = g else Holds g' v := by
  by_cases h : v.isEmptyVec = true ∧ g.ty = v.ty
  · exact ⟨g, writeV_empty v g h.1 h.2, by rw [if_pos h]⟩
  · obtain ⟨g', h1, h2, -, -⟩ := C08_set_get_partial v g hv (by
      by_cases he : v.isEmptyVec = true
      · exact .inr fun ht => h ⟨he, ht⟩
      · exact .inl (by simpa using he))
    exact ⟨g', h1, by rw [if_neg h]; exact h2⟩

/-- So a value is read back after `set_X(v)` if and only if `v` has elements, or is no vector, or
the container did not hold elements of that kind. -/
theorem C58_read_back_iff (v : Val) (g : GC) (hv : v.settable) :
    (∃ g', writeV v g = .ok g' ∧ readC v.ty g' = .ok v) ↔
      (v.isEmptyVec = false ∨ g.ty ≠ v.ty ∨ Holds g v) := by
  obtain ⟨g', h1, h2⟩ := C58_set v g hv
  constructor
  · rintro ⟨g'', h3, h4⟩
    rw [h1] at h3; injection h3 with h3; subst h3
    by_cases h : v.isEmptyVec = true ∧ g.ty = v.ty
    · rw [if_pos h] at h2; subst h2
      exact .inr (.inr (((C09_typed_access v.ty g').1 v).1 h4).1)
    · by_cases he : v.isEmptyVec = true
      · exact .inr (.inl fun ht => h ⟨he, ht⟩)
      · exact .inl (by simpa using he)
  · intro h
    refine ⟨g', h1, ((C09_typed_access v.ty g').1 v).2 ⟨?_, rfl⟩⟩
    by_cases hc : v.isEmptyVec = true ∧ g.ty = v.ty
    · rw [if_pos hc] at h2; subst h2
      rcases h with h | h | h
      · simp [hc.1] at h
      · exact absurd hc.2 h
      · exact h
    · rwa [if_neg hc] at h2

/-- Unsigned numbers: what is stored is the signed number with the same low bits. -/
theorem C58_assign_unsigned (g : GC) :
    (∀ u : BitVec 32, ∃ i : I32, assign_uint u g = int i ∧ i.toInt = (u.toNat : Int).bmod (2 ^ 32)) ∧
    (∀ u : BitVec 64, ∃ i : I64, assign_ulong u g = long i ∧ i.toInt = (u.toNat : Int).bmod (2 ^ 64)) :=
  ⟨fun u => ⟨u, rfl, BitVec.toInt_eq_toNat_bmod u⟩, fun u => ⟨u, rfl, BitVec.toInt_eq_toNat_bmod u⟩⟩

example : (Val.vecInt []).settable ∧ (Val.vecInt []).isEmptyVec = true ∧
    (vecInt [1, 2]).ty = (Val.vecInt []).ty ∧
    writeV (.vecInt []) (vecInt [1, 2]) = .ok (vecInt [1, 2]) ∧
    writeV (.vecInt [3]) (vecInt [1, 2]) = .ok (vecInt [3]) ∧
    writeV (.vecInt []) (string (str "s")) = .ok (vecInt []) := by decide +kernel

/-! ## C59 Exactly what the integer reads return -/

theorem value_mag {x : F64} {q : Int} (h : x.value = some q) :
    x.isFinite = true ∧ x.scaled = q ∧ q.natAbs = x.mag := by
  unfold value at h
  split at h
  · rename_i hf
    injection h with h
    exact ⟨hf, h, by rw [← h, natAbs_scaled]⟩
  · simp at h

theorem tiny_eq (x : F64) : x.tiny = x.isZero0 := by
  rw [Bool.eq_iff_iff, isZero0_iff]
  unfold tiny
  cases h : x.value with
  | none =>
    simp only [Bool.false_eq_true, false_iff]
    intro hm
    have := isFinite_of_isZero0 ((isZero0_iff x).2 hm)
    simp [value, this] at h
  | some q =>
    have := value_mag h
    simp only [decide_eq_true_eq]
    omega

theorem dvd_natAbs {q : Int} {m : Nat} (h : q.natAbs = m) : (unit : Int) ∣ q ↔ unit ∣ m := by
  rw [← h, Int.natCast_dvd]

theorem trunc_dvd {x : F64} {q : Int} (h : x.value = some q) (hd : (unit : Int) ∣ q) :
    x.trunc = q / unit := by
  obtain ⟨n, hn⟩ := hd
  have hu := unit_ne
  rw [hn, Int.mul_ediv_cancel_left _ hu]
  exact trunc_of_scaled (by rw [(value_mag h).2.1, hn, Int.mul_comm])

theorem signed_read (w : Nat) (hw : 0 < w) (x : F64) :
    ((if x.isInteger then x.toSigned w else .throw).bind fun i => .ok i.toInt) = realAsSigned w x := by
  unfold realAsSigned
  cases h : x.value with
  | none =>
    have : x.isInteger = false := by
      rw [Bool.eq_false_iff]; intro hi
      rw [isInteger_iff] at hi
      simp [value, hi.1] at h
    simp [this, Out.bind]
  | some q =>
    obtain ⟨hf, hs, hm⟩ := value_mag h
    simp only
    by_cases h1 : q.natAbs < 2 ^ 52
    · rw [if_pos ((isInteger_iff x).2 ⟨hf, .inl (by omega)⟩), if_pos h1]
      have := trunc_of_small (x := x) (by omega)
      have hp : (0 : Int) < 2 ^ (w - 1) := Int.pow_pos (by omega)
      rw [toSigned, this, if_pos ⟨hf, by omega, hp⟩]
      simp [Out.bind]
    · rw [if_neg h1]
      by_cases h2 : (unit : Int) ∣ q
      · rw [if_pos ((isInteger_iff x).2 ⟨hf, .inr ((dvd_natAbs hm).1 h2)⟩), if_pos h2, toSigned, trunc_dvd h h2]
        by_cases h3 : -(2 ^ (w - 1)) ≤ q / (unit : Int) ∧ q / (unit : Int) < 2 ^ (w - 1)
        · rw [if_pos ⟨hf, h3.1, h3.2⟩, if_pos h3, Out.bind,
            BitVec.toInt_ofInt_eq_self hw (by exact_mod_cast h3.1) (by exact_mod_cast h3.2)]
        · rw [if_neg (fun h => h3 h.2), if_neg h3]; rfl
      · rw [if_neg h2, if_neg]
        · rfl
        · rw [isInteger_iff]
          rintro ⟨-, h3 | h3⟩
          · omega
          · exact h2 ((dvd_natAbs hm).2 h3)

theorem geZero_iff {x : F64} {q : Int} (h : x.value = some q) : x.geZero = true ↔ 0 ≤ q := by
  obtain ⟨hf, hs, hm⟩ := value_mag h
  have hn : x.isNaN = false := by
    unfold isFinite at hf; unfold isNaN
    simp only [bne_iff_ne, ne_eq] at hf
    simp [hf]
  unfold geZero
  rw [hn]
  unfold scaled at hs
  cases hsg : x.sign
  · rw [hsg] at hs; simp at hs; simp; omega
  · rw [hsg] at hs; simp at hs
    simp only [hf, Bool.not_false, Bool.not_true, Bool.true_and, Bool.false_or, beq_iff_eq]
    omega

theorem unsigned_read (w : Nat) (x : F64) :
    ((if x.isUnsigned then x.toUnsigned w else .throw).bind fun i => .ok (i.toNat : Int)) =
      realAsUnsigned w x := by
  unfold realAsUnsigned
  cases h : x.value with
  | none =>
    have : x.isUnsigned = false := by
      rw [Bool.eq_false_iff]; intro hi
      rw [isUnsigned, Bool.and_eq_true, isInteger_iff] at hi
      simp [value, hi.1.1] at h
    simp [this, Out.bind]
  | some q =>
    obtain ⟨hf, hs, hm⟩ := value_mag h
    have hu : (0 : Int) < unit := by have := unit_pos; omega
    simp only
    by_cases h0 : q < 0
    · rw [if_pos h0, if_neg]
      · rfl
      · rw [isUnsigned, Bool.and_eq_true, geZero_iff h]; omega
    · rw [if_neg h0]
      have hg := (geZero_iff h).2 (by omega)
      by_cases h1 : q.natAbs < 2 ^ 52
      · rw [isUnsigned, (isInteger_iff x).2 ⟨hf, .inl (by omega)⟩, hg, if_pos h1]
        have := trunc_of_small (x := x) (by omega)
        have hp : (0 : Int) < 2 ^ w := Int.pow_pos (by omega)
        simp only [Bool.and_self, if_true]
        rw [toUnsigned, this, if_pos ⟨hf, by omega, hp⟩]
        simp [Out.bind]
      · rw [if_neg h1]
        by_cases h2 : (unit : Int) ∣ q
        · rw [isUnsigned, (isInteger_iff x).2 ⟨hf, .inr ((dvd_natAbs hm).1 h2)⟩, hg, if_pos h2]
          simp only [Bool.and_self, if_true]
          rw [toUnsigned, trunc_dvd h h2]
          have hq : 0 ≤ q / (unit : Int) := Int.ediv_nonneg (by omega) (by omega)
          by_cases h3 : q / (unit : Int) < 2 ^ w
          · rw [if_pos ⟨hf, hq, h3⟩, if_pos h3, Out.bind, BitVec.toNat_ofInt]
            congr 1
            rw [Int.toNat_of_nonneg (Int.emod_nonneg _ (by positivity))]
            push_cast
            exact Int.emod_eq_of_lt hq h3
          · rw [if_neg (fun h => h3 h.2.2), if_neg h3]; rfl
        · rw [if_neg h2, if_neg]
          · rfl
          · rw [isUnsigned, Bool.and_eq_true, isInteger_iff]
            rintro ⟨⟨-, h3 | h3⟩, -⟩
            · omega
            · exact h2 ((dvd_natAbs hm).2 h3)

theorem bmod_self {w : Nat} (i : BitVec w) : i.toInt.bmod (2 ^ w) = i.toInt := by
  rw [BitVec.toInt_eq_toNat_bmod, Int.bmod_bmod]

/-- `get_as_int` and `get_as_long` on every content. -/
theorem C59_signed (g : GC) :
    ((get_as_int g).bind fun i => .ok i.toInt) = asSigned 32 g ∧
    ((get_as_long g).bind fun i => .ok i.toInt) = asSigned 64 g := by
  have hz : ∀ (c : Cplx) (w : Nat), 0 < w →
      ((if c.im.isZero0 ∧ c.re.isInteger then c.re.toSigned w else .throw).bind fun i => .ok i.toInt) =
      if c.im.tiny then realAsSigned w c.re else .throw := by
    intro c w hw
    rw [tiny_eq]
    by_cases h : c.im.isZero0 = true
    · rw [if_pos h, ← signed_read w hw]; simp [h]
    · rw [if_neg h, if_neg (fun hc => h hc.1)]; rfl
  constructor
  · cases g with
    | bool b => cases b <;> rfl
    | int i => rw [get_as_int, Out.bind, asSigned, bmod_self]
    | long l =>
      rw [get_as_int, Out.bind, asSigned, I64.toI32, BitVec.toInt_setWidth,
        BitVec.toInt_eq_toNat_bmod l, Int.bmod_bmod_of_dvd ⟨2 ^ 32, by decide +kernel⟩]
    | real r => exact signed_read 32 (by omega) r
    | complex c => exact hz c 32 (by omega)
    | _ => rfl
  · cases g with
    | bool b => cases b <;> rfl
    | int i =>
      simp only [get_as_long, Out.bind, asSigned, toI64_exact]
      congr 1
      have h1 := i.toInt_lt; have h2 := i.le_toInt
      rw [Int.bmod_eq_of_le (by omega) (by omega)]
    | long l => rw [get_as_long, Out.bind, asSigned, bmod_self]
    | real r => exact signed_read 64 (by omega) r
    | complex c => exact hz c 64 (by omega)
    | _ => rfl

/-- `get_as_uint` and `get_as_ulong` on every content. -/
theorem C59_unsigned (g : GC) :
    ((get_as_uint g).bind fun i => .ok (i.toNat : Int)) = asUnsigned 32 g ∧
    ((get_as_ulong g).bind fun i => .ok (i.toNat : Int)) = asUnsigned 64 g := by
  have hz : ∀ (c : Cplx) (w : Nat),
      ((if c.im.isZero0 ∧ c.re.isUnsigned then c.re.toUnsigned w else .throw).bind
        fun i => .ok (i.toNat : Int)) =
      if c.im.tiny then realAsUnsigned w c.re else .throw := by
    intro c w
    rw [tiny_eq]
    by_cases h : c.im.isZero0 = true
    · rw [if_pos h, ← unsigned_read w]; simp [h]
    · rw [if_neg h, if_neg (fun hc => h hc.1)]; rfl
  have hr : ∀ (x : F64) (w : Nat),
      ((if x.geZero ∧ x.isUnsigned then x.toUnsigned w else .throw).bind
        fun i => .ok (i.toNat : Int)) = realAsUnsigned w x := by
    intro x w
    rw [← unsigned_read w]
    by_cases h : x.isUnsigned = true
    · have hg : x.geZero = true := by rw [isUnsigned, Bool.and_eq_true] at h; exact h.2
      simp [h, hg]
    · rw [if_neg h, if_neg (fun hc => h hc.2)]
  constructor
  · cases g with
    | bool b => cases b <;> rfl
    | int i =>
      simp only [get_as_uint, asUnsigned]
      have h1 := i.toInt_lt
      by_cases h : i.toInt < 0
      · rw [if_neg (by omega), if_pos h]; rfl
      · have := toNat_of_nonneg (x := i) (by omega)
        rw [if_pos (by omega), if_neg h, Out.bind, this]; congr 1; omega
    | long l =>
      simp only [get_as_uint, asUnsigned]
      by_cases h : l.toInt < 0
      · rw [if_neg (by omega), if_pos h]; rfl
      · have := toNat_of_nonneg (x := l) (by omega)
        rw [if_pos (by omega), if_neg h, Out.bind, BitVec.toNat_setWidth]; congr 1; omega
    | real r => exact hr r 32
    | complex c => exact hz c 32
    | _ => rfl
  · cases g with
    | bool b => cases b <;> rfl
    | int i =>
      simp only [get_as_ulong, asUnsigned]
      have h1 := i.toInt_lt
      by_cases h : i.toInt < 0
      · rw [if_neg (by omega), if_pos h]; rfl
      · have := toNat_of_nonneg (x := i.toI64) (by rw [toI64_exact]; omega)
        rw [toI64_exact] at this
        rw [if_pos (by omega), if_neg h, Out.bind, this]; congr 1; omega
    | long l =>
      simp only [get_as_ulong, asUnsigned]
      have h1 := l.toInt_lt
      by_cases h : l.toInt < 0
      · rw [if_neg (by omega), if_pos h]; rfl
      · have := toNat_of_nonneg (x := l) (by omega)
        rw [if_pos (by omega), if_neg h, Out.bind, this]; congr 1; omega
    | real r => exact hr r 64
    | complex c => exact hz c 64
    | _ => rfl

/-- The integer returned is the number stored exactly when the content is a number other than a
non-zero tiny one (also as imaginary part), and fits. -/
example : asSigned 32 (long (2 ^ 32 + 5)) = .ok 5 ∧ asUnsigned 32 (long (-1)) = .throw ∧
    asSigned 32 (real ⟨1⟩) = .ok 0 ∧ asSigned 32 (real (ofInt (2 ^ 31))) = .ub ∧
    asSigned 32 (real (ofInt (-7))) = .ok (-7) ∧ asUnsigned 64 (real (ofInt (-7))) = .throw ∧
    asSigned 64 (complex ⟨ofInt 3, ⟨1⟩⟩) = .ok 3 ∧ asSigned 64 (complex ⟨ofInt 3, ofInt 1⟩) = .throw := by
  decide +kernel

/-! ## C60 Exactly which cell m(i,j) reaches -/

/-- The position `p` that `m(i,j)` computes (in 32 bits) is cell `(p mod nr, p div nr)`: this is the
cell read and written, whatever `i` and `j`; the access throws if and only if `p` is not below
`nr * nc`. -/
theorem C60_cell {α : Type} (m : Mat α) (h : m.wf = true) (hc : m.nr * m.nc < 2 ^ 32)
    (i j : Nat) (x : α) (p : Nat) (hp : p = (i + j * m.nr) % 2 ^ 32) :
    (p < m.nr * m.nc → ∃ y, m.cell (p % m.nr) (p / m.nr) = some y ∧ m.get i j = .ok y ∧
      m.set i j x = m.set (p % m.nr) (p / m.nr) x ∧ ∃ m', m.set i j x = .ok m') ∧
    (m.nr * m.nc ≤ p → m.get i j = .throw ∧ m.set i j x = .throw) := by
  have hl := Mat.wf_length h hc
  have hidx : m.index i j = p := by rw [Mat.index, u32, hp]
  constructor
  · intro hlt
    have hr : 0 < m.nr := by
      rcases Nat.eq_zero_or_pos m.nr with h0 | h0
      · rw [h0] at hlt; simp at hlt
      · exact h0
    have h1 : p % m.nr < m.nr := Nat.mod_lt _ hr
    have h2 : p / m.nr < m.nc := by
      rw [Nat.div_lt_iff_lt_mul hr, Nat.mul_comm]; exact hlt
    have h3 : p / m.nr * m.nr + p % m.nr = p := by
      rw [Nat.mul_comm]; exact Nat.div_add_mod _ _
    have hidx' : m.index (p % m.nr) (p / m.nr) = p := by rw [Mat.index_eq hc h1 h2, h3]
    refine ⟨m.data[p]'(by omega), ?_, ?_, ?_, ?_⟩
    · rw [Mat.cell, if_pos ⟨h1, h2⟩, h3, List.getElem?_eq_getElem (by omega)]
    · rw [Mat.get_of_data hidx, List.getElem?_eq_getElem (by omega)]
    · rw [Mat.set, Mat.set, hidx, hidx']
    · rw [Mat.set, hidx, if_pos (by omega)]; exact ⟨_, rfl⟩
  · intro hge
    constructor
    · rw [Mat.get_of_data hidx, List.getElem?_eq_none (by omega)]
    · rw [Mat.set, hidx, if_neg (by omega)]

/-- In range it is cell `(i,j)` itself; so the cell reached is another one, or the call throws,
exactly when `i` is not below the number of rows or `j` not below that of columns. -/
theorem C60_in_range (nr nc i j : Nat) (hc : nr * nc < 2 ^ 32) (hi : i < nr) (hj : j < nc) :
    (i + j * nr) % 2 ^ 32 % nr = i ∧ (i + j * nr) % 2 ^ 32 / nr = j := by
  have := Mat.index_lt hi hj
  rw [Nat.mod_eq_of_lt (a := i + j * nr) (by omega)]
  constructor
  · rw [Nat.add_mul_mod_self_right, Nat.mod_eq_of_lt hi]
  · rw [Nat.add_mul_div_right _ _ (by omega), Nat.div_eq_of_lt hi, Nat.zero_add]

/-- Out of range the cell reached is never `(i,j)`. -/
theorem C60_out_of_range (nr nc i j p : Nat) (hr : 0 < nr) (hp : p < nr * nc)
    (h : ¬ (i < nr ∧ j < nc)) : ¬ (p % nr = i ∧ p / nr = j) := by
  rintro ⟨rfl, rfl⟩
  exact h ⟨Nat.mod_lt _ hr, by rw [Nat.div_lt_iff_lt_mul hr, Nat.mul_comm]; exact hp⟩

/-- Row 2 of a matrix of 2 rows and 3 columns, in column 0: it is cell (0,1). -/
example : Mat.m23.wf = true ∧ Mat.m23.nr * Mat.m23.nc < 2 ^ 32 ∧ (2 + 0 * Mat.m23.nr) % 2 ^ 32 = 2 ∧
    2 % Mat.m23.nr = 0 ∧ 2 / Mat.m23.nr = 1 ∧ Mat.m23.get 2 0 = .ok 11 ∧ Mat.m23.get 2 2 = .throw := by
  decide

end GC
end GCV
