import Verif.Spec.Lua
import Verif.Spec.Elems
import Verif.Lemmas.Convert
import Verif.Props.At

/-! # Reading numbers and arrays of numbers from Lua -/

namespace GCV
namespace F64

set_option exponentiation.threshold 2000 in
/-- The conversion to `double` of an integer that is a double is exact. -/
theorem ofInt_of_value {x : F64} {n : Int} (h : x.value = some (n * unit)) (hb : n.natAbs < 2 ^ 64) :
    (ofInt n).value = some (n * unit) := by
  unfold value at h ⊢
  split at h
  case isFalse => simp at h
  rename_i hf
  simp only [Option.some.injEq] at h
  by_cases hs : n.natAbs ≤ 2 ^ 53
  · obtain ⟨h1, h2⟩ := ofInt_exact hs
    rw [if_pos h1, h2]
  · have hm : x.mag = n.natAbs * unit := by rw [← natAbs_scaled, h, Int.natAbs_mul]; simp
    have he : x.expo ≠ 0 := by
      intro he
      have := mag_lt_of_expo_zero he
      have := unit_pos
      have : n.natAbs ≤ n.natAbs * unit := Nat.le_mul_of_pos_right _ unit_pos
      omega
    have hm' : x.mag = (2 ^ 52 + x.frac) * 2 ^ (x.expo - 1) := by unfold mag; rw [if_neg he]
    have hfr := frac_lt x
    generalize hM : 2 ^ 52 + x.frac = M at hm'
    rw [hm, unit_eq] at hm'
    have hd : 1074 < x.expo - 1 := by
      by_contra hle
      have : n.natAbs ≤ M := by
        have h3 : 2 ^ 1074 = 2 ^ (x.expo - 1) * 2 ^ (1074 - (x.expo - 1)) := by
          rw [← Nat.pow_add]; congr 1; omega
        rw [h3, ← mul_assoc, mul_right_comm] at hm'
        have h4 := Nat.eq_of_mul_eq_mul_right (Nat.two_pow_pos _) hm'
        calc n.natAbs ≤ n.natAbs * 2 ^ (1074 - (x.expo - 1)) := Nat.le_mul_of_pos_right _ (Nat.two_pow_pos _)
          _ = M := h4
      omega
    obtain ⟨d, hd'⟩ : ∃ d, x.expo - 1 = 1074 + d := ⟨x.expo - 1 - 1074, by omega⟩
    have ha : n.natAbs = M * 2 ^ d := by
      rw [hd', Nat.pow_add, mul_comm (2 ^ 1074), ← mul_assoc] at hm'
      exact Nat.eq_of_mul_eq_mul_right (Nat.two_pow_pos _) hm'
    have hn0 : n.natAbs ≠ 0 := by omega
    have hL : n.natAbs.log2 = 52 + d := by
      rw [Nat.log2_eq_iff hn0, ha]
      constructor
      · rw [Nat.pow_add]; exact Nat.mul_le_mul_right _ (by omega)
      · rw [show 52 + d + 1 = 53 + d by omega, Nat.pow_add]
        exact Nat.mul_lt_mul_of_pos_right (by omega) (Nat.two_pow_pos _)
    have hd0 : ¬ n.natAbs.log2 ≤ 52 := by
      rw [hL]
      intro h0
      have : d = 0 := by omega
      subst this
      simp at ha; omega
    have hsig : sig n.natAbs = M := by
      unfold sig
      simp only [if_neg hd0]
      rw [hL, show 52 + d - 52 = d by omega, ha, Nat.mul_mod_left, Nat.mul_div_cancel _ (Nat.two_pow_pos _)]
      have := Nat.two_pow_pos d
      rw [if_neg]
      omega
    obtain ⟨p1, p2, p3⟩ := ofInt_parts (n := n) (by omega)
      (by have := log2_le_of_le (a := n.natAbs) (k := 63) (by simpa using hb); omega)
    rw [if_pos p1]
    have hmag : (ofInt n).mag = n.natAbs * unit := by
      rw [p3, hsig, hL, ha, unit_eq, mul_assoc, ← Nat.pow_add]
      congr 2; omega
    unfold scaled
    rw [p2, hmag, Int.natCast_mul]
    by_cases hneg : n < 0
    · simp only [hneg, decide_true, if_true]
      congr 1
      rw [← neg_mul]; congr 1; omega
    · simp only [hneg, decide_false]
      rw [if_neg (by simp)]
      congr 2; omega

theorem floorI_mul {x : F64} {n : Int} (h : x.scaled = n * unit) : x.floorI = n := by
  unfold floorI; rw [h]; exact Int.mul_fdiv_cancel _ unit_ne

theorem floorI_range {x : F64} (h : InLong x.scaled) : -(2 ^ 63 : Int) ≤ x.floorI ∧ x.floorI < 2 ^ 63 := by
  have hu : (0 : Int) < unit := by have := unit_pos; omega
  unfold floorI
  rw [Int.fdiv_eq_ediv_of_nonneg _ (by omega)]
  constructor
  · exact (Int.le_ediv_iff_mul_le hu).mpr h.1
  · exact (Int.ediv_lt_iff_lt_mul hu).mpr h.2

/-- `isInteger64` and the conversion to `long`, for numbers in range. -/
theorem isInteger64_spec {x : F64} {q : Int} (h : x.value = some q) (hr : InLong q) :
    (∃ n : Int, q = n * unit ∧ x.isInteger64 = .ok true ∧ x.toSigned 64 = .ok (BitVec.ofInt 64 n) ∧
      (BitVec.ofInt 64 n).toInt = n) ∨
    ((¬ ∃ n : Int, q = n * unit) ∧ x.isInteger64 = .ok false) := by
  have hf : x.isFinite = true ∧ x.scaled = q := by
    unfold value at h; split at h <;> simp at h; exact ⟨‹_›, h⟩
  have hb := floorI_range (x := x) (by rw [hf.2]; exact hr)
  unfold isInteger64
  rw [if_pos ⟨hf.1, hb⟩]
  by_cases hi : x.scaled = x.floorI * unit
  · left
    refine ⟨x.floorI, by rw [← hf.2]; exact hi, by simp [← hi], ?_, ?_⟩
    · have ht := trunc_of_scaled hi
      unfold toSigned
      rw [ht, if_pos ⟨hf.1, by simpa using hb⟩]
    · rw [BitVec.toInt_ofInt, Int.bmod_eq_of_le (by omega) (by omega)]
  · right
    refine ⟨?_, by simp [hi]⟩
    rintro ⟨n, hn⟩
    rw [← hf.2] at hn
    rw [floorI_mul hn] at hi
    exact hi hn

theorem isInteger64_out {x : F64} (h : ∀ q, x.value = some q → ¬ InLong q) : x.isInteger64 = .ub := by
  unfold isInteger64
  rw [if_neg]
  rintro ⟨hf, h1, h2⟩
  refine h x.scaled (by unfold value; rw [if_pos hf]) ?_
  have hu : (0 : Int) < unit := by have := unit_pos; omega
  unfold floorI at h1 h2
  rw [Int.fdiv_eq_ediv_of_nonneg _ (by omega)] at h1 h2
  exact ⟨(Int.le_ediv_iff_mul_le hu).mp h1, (Int.ediv_lt_iff_lt_mul hu).mp h2⟩

end F64
end GCV

namespace GCV
namespace GC
open F64

/-- The number stored as element `j`. -/
def numberAt (g : GC) (j : Nat) : Option Int := (elem g j).bind numValue

/-- What an array of numbers looks like while it is read: `n` bounds its length. -/
inductive Reading (n : Nat) : GC → Prop
  | empty : Reading n notype
  | long (w : List I64) : w.length ≤ n → (∀ l ∈ w, IsDouble l) → Reading n (vecLong w)
  | real (w : List F64) : w.length ≤ n → Reading n (vecReal w)

theorem isDouble_zero : IsDouble 0 := ⟨.zero, by
  have h : F64.zero.value = some 0 := by decide
  rw [h]; simp⟩

theorem value_ofI64 {l : I64} (h : IsDouble l) : (F64.ofI64 l).value = some (l.toInt * unit) := by
  obtain ⟨x, hx⟩ := h
  have h1 := l.toInt_lt
  have h2 := l.le_toInt
  exact ofInt_of_value hx (by omega)

theorem grown_old {α : Type} {d : α} {v : List α} {i j : Nat} {x : α} (h : v[j]? = some x) :
    grownAt d v i j = some x := by
  unfold grownAt
  obtain ⟨hl, _⟩ := List.getElem?_eq_some_iff.1 h
  rw [if_pos hl, h]

theorem grown_mem {α : Type} {d : α} {v : List α} {i j : Nat} {x : α} (h : grownAt d v i j = some x) :
    x = d ∨ x ∈ v := by
  unfold grownAt at h
  split at h
  · exact .inr (List.mem_of_getElem? h)
  · split at h <;> simp at h
    exact .inl h.symm

/-- One number stored into an array being read. -/
theorem pushLuaNumber_spec {n i : Nat} {g : GC} {x : F64} {q : Int} (hn : n < 2 ^ 32) (hi : i < n)
    (hg : Reading n g) (hx : x.value = some q) (hr : InLong q) :
    ∃ g', pushLuaNumber i x g = .ok g' () ∧ Reading n g' ∧ numberAt g' i = some q ∧
      (∀ j p, j ≠ i → numberAt g j = some p → numberAt g' j = some p) ∧
      (elems g').length = max (elems g).length (i + 1) ∧
      (g'.ty = .VEC_LONG ↔ g.ty ≠ .VEC_REAL ∧ ∃ m : Int, q = m * unit) := by
  have hin : i + 1 < 2 ^ 32 := by omega
  -- storing the double itself
  have store : ∀ w : List F64, w.length ≤ n →
      ∃ g' y, refAt .zero vecReal w i (fun _ => x) = .ok g' y ∧ Reading n g' ∧
      numberAt g' i = some q ∧ (∀ j p, j ≠ i → numberAt (vecReal w) j = some p → numberAt g' j = some p) ∧
      (elems g').length = max w.length (i + 1) ∧ g'.ty = .VEC_REAL := by
    intro w hw
    obtain ⟨w', y, h1, _, h3, h4, h5⟩ := refAt_spec F64.zero vecReal w i (fun _ => x) hin
    refine ⟨_, y, h1, .real _ (by omega), ?_, ?_, by simp [elems, h4], rfl⟩
    · simp only [numberAt, elem, h3, Option.map_some, Option.bind_some, numValue]; exact hx
    · intro j p hj hp
      simp only [numberAt, elem] at hp ⊢
      rw [h5 j hj]
      cases hwj : w[j]? with
      | none => rw [hwj] at hp; simp at hp
      | some z => rw [hwj] at hp; rw [grown_old hwj]; exact hp
  -- storing a long
  have storeL : ∀ (w : List I64) (l : I64), w.length ≤ n → (∀ l ∈ w, IsDouble l) → IsDouble l →
      q = l.toInt * unit →
      ∃ g' y, refAt 0 vecLong w i (fun _ => l) = .ok g' y ∧ Reading n g' ∧
      numberAt g' i = some q ∧ (∀ j p, j ≠ i → numberAt (vecLong w) j = some p → numberAt g' j = some p) ∧
      (elems g').length = max w.length (i + 1) ∧ g'.ty = .VEC_LONG := by
    intro w l hw hd hl hq
    obtain ⟨w', y, h1, _, h3, h4, h5⟩ := refAt_spec 0 vecLong w i (fun _ => l) hin
    refine ⟨_, y, h1, .long _ (by omega) ?_, ?_, ?_, by simp [elems, h4], rfl⟩
    · intro z hz
      obtain ⟨j, hj⟩ := List.getElem?_of_mem hz
      by_cases hji : j = i
      · subst hji; rw [h3] at hj; simp at hj; rw [← hj]; exact hl
      · rw [h5 j hji] at hj
        rcases grown_mem hj with rfl | hm
        · exact isDouble_zero
        · exact hd z hm
    · simp [numberAt, elem, h3, numValue, hq]
    · intro j p hj hp
      simp only [numberAt, elem] at hp ⊢
      rw [h5 j hj]
      cases hwj : w[j]? with
      | none => rw [hwj] at hp; simp at hp
      | some z => rw [hwj] at hp; rw [grown_old hwj]; exact hp
  have nil : ∀ {w : GC}, w = notype → ∀ j p, numberAt w j = some p → False := by
    rintro w rfl j p h; simp [numberAt, elem] at h
  cases hg with
  | empty =>
    rcases isInteger64_spec hx hr with ⟨m, hm, h1, h2, h3⟩ | ⟨hno, h1⟩
    · obtain ⟨g', y, e, r, v, o, len, t⟩ := storeL [] (BitVec.ofInt 64 m) (by simp) (by simp)
        ⟨x, by rw [h3, ← hm]; exact hx⟩ (by rw [h3]; exact hm)
      refine ⟨g', by simp only [pushLuaNumber, h1, h2, get_long_at, e]; rfl, r, v,
        fun j p _ hp => (nil rfl j p hp).elim, by simpa [elems] using len, ?_⟩
      rw [t]; simp [GC.ty]; exact ⟨m, hm⟩
    · obtain ⟨g', y, e, r, v, o, len, t⟩ := store [] (by simp)
      refine ⟨g', by simp only [pushLuaNumber, h1, get_real_at, e]; rfl, r, v,
        fun j p _ hp => (nil rfl j p hp).elim, by simpa [elems] using len, ?_⟩
      rw [t]; simp [GC.ty]; simpa using hno
  | long w hw hd =>
    rcases isInteger64_spec hx hr with ⟨m, hm, h1, h2, h3⟩ | ⟨hno, h1⟩
    · obtain ⟨g', y, e, r, v, o, len, t⟩ := storeL w (BitVec.ofInt 64 m) hw hd
        ⟨x, by rw [h3, ← hm]; exact hx⟩ (by rw [h3]; exact hm)
      refine ⟨g', by simp only [pushLuaNumber, h1, h2, get_long_at, e]; rfl, r, v, o,
        by simpa [elems] using len, ?_⟩
      rw [t]; simp [GC.ty]; exact ⟨m, hm⟩
    · obtain ⟨g', y, e, r, v, o, len, t⟩ := store (w.map F64.ofI64) (by simpa using hw)
      refine ⟨g', ?_, r, v, ?_, by simpa [elems] using len, ?_⟩
      · simp only [pushLuaNumber, h1, get_real_at, promote_to_vec_real]
        rw [become_refill _ _ _ (by omega)]
        simp only [Res.bind, get_real_at.after, e]
      · intro j p hj hp
        apply o j p hj
        simp only [numberAt, elem, List.getElem?_map] at hp ⊢
        cases hwj : w[j]? with
        | none => rw [hwj] at hp; simp at hp
        | some z =>
          rw [hwj] at hp
          simp only [Option.map_some, Option.bind_some, numValue] at hp ⊢
          have := value_ofI64 (hd z (List.mem_of_getElem? hwj))
          rw [show (if (F64.ofI64 z).isFinite = true then some (F64.ofI64 z).scaled else none) =
            (F64.ofI64 z).value from rfl, this]; exact hp
      · rw [t]; simp [GC.ty]; simpa using hno
  | real w hw =>
    obtain ⟨g', y, e, r, v, o, len, t⟩ := store w hw
    refine ⟨g', by simp only [pushLuaNumber, get_real_at, e]; rfl, r, v, o, by simpa [elems] using len, ?_⟩
    rw [t]; simp [GC.ty]

theorem luaExact_double {v : LuaV} (h : LuaExact v) :
    ∃ x q, x.value = some q ∧ InLong q ∧ luaNumber v = some q ∧
      (∀ i g, pushVecElement i v g = pushLuaNumber i x g) ∧ lua_to_GC v = setLuaNumber x := by
  rcases h with ⟨x, q, rfl, hx, hr⟩ | ⟨i, rfl, hd⟩
  · exact ⟨x, q, hx, hr, hx, fun _ _ => rfl, rfl⟩
  · have h1 := i.toInt_lt
    have h2 := i.le_toInt
    refine ⟨F64.ofI64 i, _, value_ofI64 hd, ?_, rfl, fun _ _ => rfl, rfl⟩
    have hu : (0 : Int) < unit := by have := unit_pos; omega
    exact ⟨Int.mul_le_mul_of_nonneg_right (by omega) (by omega), Int.mul_lt_mul_of_pos_right (by omega) hu⟩

theorem luaIdx_succ {i : Nat} (h : i < 2 ^ 32) : luaIdx (i + 1) = i := by
  unfold luaIdx; omega

/-- Reading the entries of an array, in any order. -/
theorem read_entries {n : Nat} (hn : n < 2 ^ 32) : ∀ (es : List (Nat × LuaV)) (g : GC), Reading n g →
    (es.map Prod.fst).Nodup → (∀ e ∈ es, e.1 < n ∧ LuaExact e.2) →
    ∃ g', lua_table_to_GC (es.map fun e => (LKey.int (e.1 + 1), e.2)) g = .ok g' () ∧ Reading n g' ∧
      (∀ e ∈ es, numberAt g' e.1 = luaNumber e.2) ∧
      (∀ j p, j ∉ es.map Prod.fst → numberAt g j = some p → numberAt g' j = some p) ∧
      (∀ e ∈ es, e.1 < (elems g').length) ∧ (elems g).length ≤ (elems g').length ∧
      ((g'.ty = .VEC_LONG ∨ es = []) ↔
        ((es = [] ∨ g.ty ≠ .VEC_REAL) ∧ ∀ e ∈ es, ∃ m : Int, luaNumber e.2 = some (m * unit)))
  | [], g, hg, _, _ => ⟨g, rfl, hg, by simp, fun _ _ _ h => h, by simp, Nat.le_refl _, by simp⟩
  | (i, v) :: r, g, hg, hnd, he => by
    simp only [List.map_cons, List.nodup_cons] at hnd
    obtain ⟨hi, hv⟩ := he (i, v) (by simp)
    obtain ⟨x, q, hx, hr, hq, hpush, _⟩ := luaExact_double hv
    obtain ⟨g1, e1, r1, v1, o1, len1, t1⟩ := pushLuaNumber_spec hn hi hg hx hr
    obtain ⟨g', e2, r2, v2, o2, l2, m2, t2⟩ := read_entries hn r g1 r1 hnd.2
      (fun e hm => he e (.tail _ hm))
    dsimp only at hi len1 v1 o1
    have hlen : i < (elems g1).length := by
      rw [len1]; exact Nat.lt_of_lt_of_le (Nat.lt_succ_self i) (Nat.le_max_right _ _)
    have hmono : (elems g).length ≤ (elems g1).length := by rw [len1]; exact Nat.le_max_left _ _
    clear len1
    refine ⟨g', ?_, r2, ?_, ?_, ?_, Nat.le_trans hmono m2, ?_⟩
    · rw [List.map_cons, lua_table_to_GC]
      dsimp only at hi ⊢
      rw [luaIdx_succ (by omega), hpush, e1]
      exact e2
    · intro e hm
      rcases List.mem_cons.1 hm with rfl | hm
      · dsimp only
        rw [o2 i q hnd.1 v1, hq]
      · exact v2 e hm
    · intro j p hj hp
      simp only [List.map_cons, List.mem_cons, not_or] at hj
      exact o2 j p hj.2 (o1 j p hj.1 hp)
    · intro e hm
      rcases List.mem_cons.1 hm with rfl | hm
      · exact Nat.lt_of_lt_of_le hlen m2
      · exact l2 e hm
    · cases r with
      | nil =>
        simp only [List.map_nil, lua_table_to_GC, Res.ok.injEq, and_true] at e2
        subst e2
        rw [show ((i, v) :: ([] : List (Nat × LuaV)) = []) = False by simp, or_false, false_or, t1]
        simp [hq]
      | cons b s =>
        simp only [reduceCtorEq, or_false, false_or] at t2 ⊢
        rw [t2]
        constructor
        · rintro ⟨h1, h2⟩
          have : g1.ty = .VEC_LONG := by
            cases r1 with
            | empty => simp [elems] at hlen
            | long => rfl
            | real => exact absurd rfl h1
          rw [t1] at this
          refine ⟨this.1, ?_⟩
          intro e hm
          rcases List.mem_cons.1 hm with rfl | hm
          · obtain ⟨m, hm⟩ := this.2
            exact ⟨m, by rw [← hm]; exact hq⟩
          · exact h2 e hm
        · rintro ⟨h1, h2⟩
          obtain ⟨m, hm⟩ := h2 (i, v) (by simp)
          have : g1.ty = .VEC_LONG := by
            rw [t1]; refine ⟨h1, m, ?_⟩
            rw [hq] at hm; simpa using hm
          refine ⟨by rw [this]; simp, fun e he => h2 e (.tail _ he)⟩

end GC
end GCV
