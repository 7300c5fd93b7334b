import Verif.Lemmas.LuaRead
import Verif.Lemmas.Lua

/-! # C48: values computed by Lua reach the container -/

namespace GCV
namespace GC
open F64

/-- **C48**: a Lua number is stored with its value, as a LONG exactly when it is an integer.  Partial:
floats must be in the range of a long, integers must be doubles (up to 2^53 all are). -/
theorem C48_number_partial (v : LuaV) (h : LuaExact v) :
    ∃ g q, lua_to_GC v = .ok g () ∧ luaNumber v = some q ∧ numValue g = some q ∧
      (g.ty = .LONG ∨ g.ty = .REAL) ∧ (g.ty = .LONG ↔ ∃ n : Int, q = n * unit) := by
  obtain ⟨x, q, hx, hr, hq, _, hs⟩ := luaExact_double h
  rcases isInteger64_spec hx hr with ⟨n, hn, h1, h2, h3⟩ | ⟨hno, h1⟩
  · refine ⟨long (BitVec.ofInt 64 n), q, ?_, hq, ?_, .inl rfl, by simp [GC.ty]; exact ⟨n, hn⟩⟩
    · rw [hs, setLuaNumber, h1]; simp only [h2]
    · rw [numValue, h3, hn]
  · refine ⟨real x, q, ?_, hq, hx, .inr rfl, by simp [GC.ty]; simpa using hno⟩
    rw [hs, setLuaNumber, h1]

/-- Integers up to 2^53 in magnitude are doubles. -/
theorem isDouble_small {i : I64} (h : i.toInt.natAbs ≤ 2 ^ 53) : IsDouble i := by
  obtain ⟨h1, h2⟩ := ofInt_exact h
  exact ⟨ofInt i.toInt, by unfold value; rw [if_pos h1, h2]⟩

set_option exponentiation.threshold 3000 in
example : LuaExact (.int 12) ∧ LuaExact (.num ⟨0x3FF8000000000000#64⟩) := by
  refine ⟨.inr ⟨12, rfl, isDouble_small (by decide)⟩, .inl ⟨_, _, rfl, rfl, ?_⟩⟩
  have h : (⟨0x3FF8000000000000#64⟩ : F64).scaled = 2 ^ 51 * 3 * 2 ^ 1022 := by decide +kernel
  unfold InLong
  rw [h, unit_eq]
  norm_num

/-- **C48** fails for floats outside the range of a long, infinities and NaN: undefined behaviour. -/
theorem C48_range_negation (x : F64) (h : ∀ q, x.value = some q → ¬ InLong q) :
    lua_to_GC (.num x) = .ub := by
  rw [lua_to_GC, setLuaNumber, isInteger64_out h]

set_option exponentiation.threshold 3000 in
/-- Infinity and 2^1022 are such floats. -/
example : (∀ q, (⟨0x7FF0000000000000#64⟩ : F64).value = some q → ¬ InLong q) ∧
    (∀ q, (⟨0x7FD0000000000000#64⟩ : F64).value = some q → ¬ InLong q) := by
  constructor
  · intro q h; cases h
  · intro q h
    have h' : (⟨0x7FD0000000000000#64⟩ : F64).scaled = 2 ^ 52 * 2 ^ 2044 := by decide +kernel
    simp only [value] at h
    rw [if_pos (by decide), h'] at h
    simp only [Option.some.injEq] at h
    unfold InLong
    rw [← h, unit_eq]
    norm_num

set_option exponentiation.threshold 3000 in
/-- **C48** fails for large Lua integers: the largest one is undefined behaviour, 2^53+1 is stored as
2^53. -/
theorem C48_integer_negation :
    lua_to_GC (.int 0x7FFFFFFFFFFFFFFF#64) = .ub ∧
    lua_to_GC (.int 0x20000000000001#64) = .ok (long 0x20000000000000#64) () := by
  constructor
  · rw [lua_to_GC, setLuaNumber, isInteger64_out]
    intro q h
    have h1 : (F64.ofI64 0x7FFFFFFFFFFFFFFF#64) = ⟨0x43E0000000000000#64⟩ := by decide +kernel
    have h' : (⟨0x43E0000000000000#64⟩ : F64).scaled = 2 ^ 63 * 2 ^ 1074 := by decide +kernel
    rw [h1] at h
    simp only [value] at h
    rw [if_pos (by decide), h'] at h
    simp only [Option.some.injEq] at h
    unfold InLong
    rw [← h, unit_eq]
    norm_num
  · have h1 : (F64.ofI64 0x20000000000001#64) = F64.ofI64 0x20000000000000#64 := by decide +kernel
    obtain ⟨g, q, e, hq, hg, ht, hl⟩ := C48_number_partial (.int 0x20000000000000#64)
      (.inr ⟨_, rfl, isDouble_small (by decide)⟩)
    rw [lua_to_GC, h1]
    rw [lua_to_GC] at e
    rw [e]
    simp only [luaNumber, Option.some.injEq] at hq
    have ht' : g.ty = .LONG := hl.2 ⟨_, hq.symm⟩
    cases g <;> simp [GC.ty] at ht'
    rw [numValue, ← hq] at hg
    simp only [Option.some.injEq] at hg
    have := mul_unit_inj hg
    rw [BitVec.toInt_inj.1 this]

/-- Booleans and strings without NUL arrive unchanged. -/
theorem C48_scalar (b : Bool) (s : Bytes) (h : noNul s = true) :
    lua_to_GC (.bool b) = .ok (bool b) () ∧ lua_to_GC (.str s) = .ok (string s) () := by
  refine ⟨rfl, ?_⟩
  rw [lua_to_GC, cstr_of_noNul h]

example : noNul (str "hello") = true := by decide

/-- **C48**, arrays of numbers, in whatever order Lua delivers their entries: the container has the same
numbers in the same positions; it is a VEC_LONG when all are integers and a VEC_REAL otherwise. -/
theorem C48_array (vs : List LuaV) (h0 : vs ≠ []) (hl : vs.length < 2 ^ 32) (hv : ∀ v ∈ vs, LuaExact v)
    (t : List (LKey × LuaV)) (ht : t.Perm (arrayEntries vs)) :
    ∃ g, lua_to_GC (.table t) = .ok g () ∧ (elems g).length = vs.length ∧
      (∀ (i : Nat) v, vs[i]? = some v → ∃ e, (elems g)[i]? = some e ∧ numValue e = luaNumber v) ∧
      (g.ty = .VEC_LONG ∨ g.ty = .VEC_REAL) ∧
      (g.ty = .VEC_LONG ↔ ∀ v ∈ vs, ∃ n : Int, luaNumber v = some (n * unit)) := by
  let G : LKey × LuaV → Nat × LuaV := fun e => (match e.1 with | .int n => (n - 1).toNat | _ => 0, e.2)
  let F : Nat × LuaV → LKey × LuaV := fun e => (LKey.int (e.1 + 1), e.2)
  let ps : List (Nat × LuaV) := vs.zipIdx.map fun p => (p.2, p.1)
  have hF : arrayEntries vs = ps.map F := by simp [arrayEntries, ps, F, Function.comp_def]
  have hGF : ∀ e, G (F e) = e := by
    rintro ⟨i, v⟩; simp only [G, F, Prod.mk.injEq, and_true]; omega
  have hp : (t.map G).Perm ps := by
    have := ht.map G
    rw [hF, List.map_map] at this
    rwa [show ps.map (G ∘ F) = ps by
      rw [show G ∘ F = id from funext hGF]; simp] at this
  have ht' : (t.map G).map F = t := by
    rw [List.map_map]
    conv => rhs; rw [← List.map_id t]
    apply List.map_congr_left
    intro e he
    have := ht.mem_iff.1 he
    rw [hF] at this
    obtain ⟨p, _, rfl⟩ := List.mem_map.1 this
    simp only [Function.comp_apply, hGF]; rfl
  have hfst : ps.map Prod.fst = List.range vs.length := by
    simp only [ps, List.map_map, Function.comp_def]
    rw [List.range_eq_range']; exact List.zipIdx_map_snd 0 vs
  have hmem : ∀ e ∈ t.map G, ∃ v, vs[e.1]? = some v ∧ e.2 = v := by
    intro e he
    have := hp.mem_iff.1 he
    obtain ⟨p, hpm, rfl⟩ := List.mem_map.1 this
    obtain ⟨v, i⟩ := p
    rw [List.mem_zipIdx_iff_getElem?] at hpm
    exact ⟨v, hpm, rfl⟩
  have hnd : ((t.map G).map Prod.fst).Nodup := by
    rw [(hp.map Prod.fst).nodup_iff, hfst]; exact List.nodup_range
  obtain ⟨g, e, hr, hval, _, hlen, _, hty⟩ := read_entries hl (t.map G) notype .empty hnd (by
    intro e he
    obtain ⟨v, h1, h2⟩ := hmem e he
    refine ⟨(List.getElem?_eq_some_iff.1 h1).1, ?_⟩
    rw [h2]; exact hv v (List.mem_of_getElem? h1))
  have hne : t.map G ≠ [] := by
    intro h
    rw [h] at hp
    have : vs.length = 0 := by have := hp.length_eq; simpa [ps] using this.symm
    exact h0 (List.length_eq_zero_iff.1 this)
  have hin : ∀ (i : Nat) v, vs[i]? = some v → (i, v) ∈ t.map G := by
    intro i v hi
    rw [hp.mem_iff]
    simp only [ps, List.mem_map]
    exact ⟨(v, i), by rw [List.mem_zipIdx_iff_getElem?]; exact hi, rfl⟩
  have hle : (elems g).length ≤ vs.length := by
    cases hr with
    | empty => simp [elems]
    | long w hw _ => simpa [elems] using hw
    | real w hw => simpa [elems] using hw
  have hge : vs.length ≤ (elems g).length := by
    have hpos : 0 < vs.length := List.length_pos_iff.2 h0
    have := hlen _ (hin (vs.length - 1) _ (List.getElem?_eq_getElem (by omega)))
    dsimp only at this
    omega
  have hel : ∀ i, elem g i = (elems g)[i]? := by
    intro i
    cases hr <;> simp [elem, elems]
  refine ⟨g, ?_, by omega, ?_, ?_, ?_⟩
  · rw [lua_to_GC, ← ht']; exact e
  · intro i v hi
    have h1 := hval _ (hin i v hi)
    have h2 : i < (elems g).length := by have := (List.getElem?_eq_some_iff.1 hi).1; omega
    refine ⟨_, List.getElem?_eq_getElem h2, ?_⟩
    simp only [numberAt, hel, List.getElem?_eq_getElem h2, Option.bind_some] at h1
    exact h1
  · cases hr with
    | empty =>
      have : 0 < vs.length := List.length_pos_iff.2 h0
      simp only [elems, List.length_nil] at hge; omega
    | long => exact .inl rfl
    | real => exact .inr rfl
  · simp only [hne, or_false, false_or] at hty
    rw [hty]
    constructor
    · rintro ⟨_, h2⟩ v hv
      obtain ⟨i, hi⟩ := List.getElem?_of_mem hv
      exact h2 _ (hin i v hi)
    · intro h2
      refine ⟨by simp [GC.ty], ?_⟩
      intro e he
      obtain ⟨v, h3, h4⟩ := hmem e he
      rw [h4]; exact h2 v (List.mem_of_getElem? h3)

/-- Entries out of order, integers and a fraction mixed. -/
example : [(LKey.int 2, LuaV.num ⟨0x3FF8000000000000#64⟩), (LKey.int 1, LuaV.int 7)].Perm
    (arrayEntries [.int 7, .num ⟨0x3FF8000000000000#64⟩]) := List.Perm.swap _ _ _

/-- **C48** fails for a table with an entry at index 0, or at an index that is no integer: undefined
behaviour. -/
theorem C48_index_negation (v : F64) (r : List (LKey × LuaV)) (y : F64) :
    lua_to_GC (.table ((.int 0, .num v) :: r)) = .ub ∧
    lua_to_GC (.table ((.flt y, .num v) :: r)) = .ub := by
  have hi : luaIdx 0 = 2 ^ 32 - 1 := by decide
  have hc : ∀ {α : Type} (d : α), checkResize d (2 ^ 32 - 1) [] = [] := by
    intro α d
    unfold checkResize
    rw [if_pos (by simp), show u32 (2 ^ 32 - 1 + 1) = 0 by decide]
    rfl
  have h : pushVecElement (luaIdx 0) (.num v) notype = .ub := by
    rw [pushVecElement, hi]
    unfold pushLuaNumber
    dsimp only
    cases v.isInteger64 with
    | ok b =>
      cases b
      · simp only [get_real_at, refAt, hc]; rfl
      · dsimp only
        cases v.toSigned 64 with
        | ok l => simp only [get_long_at, refAt, hc]; rfl
        | _ => rfl
    | _ => rfl
  constructor
  · rw [lua_to_GC, lua_table_to_GC, h]; rfl
  · rw [lua_to_GC, lua_table_to_GC, h]; rfl

/-- **C48** fails for mixed tables: a boolean after a number throws; what precedes a sub-table is lost,
and so is what precedes a named entry. -/
theorem C48_mixed_negation :
    (∃ s, lua_to_GC (.table (arrayEntries [.int 1, .bool true])) = .throw s) ∧
    lua_to_GC (.table (arrayEntries [.int 1, .table (arrayEntries [.int 2])])) =
      .ok (vector [notype, vecLong [2]]) () ∧
    lua_to_GC (.table (arrayEntries [.int 1] ++ [(.str (str "a"), .int 2)])) =
      .ok (map [(str "a", long 2)]) () := by
  have key : ∀ i : I64, i.toInt.natAbs ≤ 2 ^ 53 → (F64.ofI64 i).isInteger64 = .ok true ∧
      (F64.ofI64 i).toSigned 64 = .ok i := by
    intro i hi
    have hd := isDouble_small hi
    have hr : InLong (i.toInt * unit) := by
      have h1 := i.toInt_lt
      have h2 := i.le_toInt
      have hu : (0 : Int) < unit := by have := unit_pos; omega
      exact ⟨Int.mul_le_mul_of_nonneg_right (by omega) (by omega), Int.mul_lt_mul_of_pos_right (by omega) hu⟩
    rcases isInteger64_spec (value_ofI64 hd) hr with ⟨n, hn, h1, h2, h3⟩ | ⟨hno, _⟩
    · refine ⟨h1, ?_⟩
      rw [h2, ← mul_unit_inj hn]; simp
    · exact absurd ⟨_, rfl⟩ hno
  obtain ⟨k1, k2⟩ := key 1 (by decide)
  obtain ⟨k3, k4⟩ := key 2 (by decide)
  have first : pushVecElement (luaIdx 1) (.int 1) notype = .ok (vecLong [1]) () := by
    rw [pushVecElement]; unfold pushLuaNumber; dsimp only; rw [k1]; dsimp only; rw [k2]; rfl
  have hi1 : luaIdx 1 = 0 := by decide
  have hi2 : luaIdx 2 = 1 := by decide
  refine ⟨⟨vector [long 1, bool false], ?_⟩, ?_, ?_⟩
  · show lua_table_to_GC [(.int 1, .int 1), (.int 2, .bool true)] notype = _
    rw [lua_table_to_GC, first]
    rfl
  · show lua_table_to_GC [(.int 1, .int 1), (.int 2, .table [(.int 1, .int 2)])] notype = _
    rw [lua_table_to_GC, first]
    have : lua_table_to_GC [(.int 1, .int 2)] notype = .ok (vecLong [2]) () := by
      rw [lua_table_to_GC, pushVecElement]; unfold pushLuaNumber; dsimp only; rw [k3]; dsimp only
      rw [k4]; rfl
    have hw : ∀ f : GC → Res Unit, withIdx 1 f (vecLong [1]) =
        (f notype).mapState fun y => vector ([notype, notype].set 1 y) := fun f => rfl
    rw [Res.bind, lua_table_to_GC, pushVecElement, hi2, hw, this]
    rfl
  · show lua_table_to_GC [(.int 1, .int 1), (.str (str "a"), .int 2)] notype = _
    rw [lua_table_to_GC, first]
    simp only [Res.bind, lua_table_to_GC, pushHashElement, pushHashNumber, withKey]
    rw [k3]
    dsimp only
    rw [setLuaNumber, k3]; dsimp only; rw [k4]
    rfl

end GC
end GCV
