import Verif.Lemmas.LuaList
import Verif.Props.LuaBack

/-!
# C117, C104: what a Lua list of any mixture of values becomes
-/

namespace GCV
namespace GC
open F64

/-- **C117**, the exception: a list in which a boolean comes after something that is no boolean is not read. -/
theorem C117_late (vs : List LuaV) (hl : vs.length < 2 ^ 32) (hv : ∀ v ∈ vs, ListItem v) (h : LateBool vs) :
    ∃ g, lua_to_GC (.table (arrayEntries vs)) = .throw g := (read_list vs hl hv).1 h

/-- **C117**, what is left behind by the exception, when the first such boolean is the last value: the values before it,
as containers, and `false`, whatever the boolean was. -/
theorem C117_left (vs : List LuaV) (b : Bool) (hl : vs.length + 1 < 2 ^ 32) (hv : ∀ v ∈ vs, ListItem v) (h : ¬ LateBool vs)
    (hn : ∃ v ∈ vs, v.isBool = false) : ∃ g, lua_to_GC (.table (arrayEntries vs)) = .ok g () ∧
      lua_to_GC (.table (arrayEntries (vs ++ [.bool b]))) = .throw (vector (elems g ++ [bool false])) := by
  obtain ⟨g, hg, hL⟩ := (read_list vs (by omega) hv).2 h
  refine ⟨g, hg, ?_⟩
  rw [lua_to_GC, table_snoc vs _ (by omega), hg]
  exact list_step_late hL hl hn

/-- **C117**: every other list is read.  It has as many elements as the list; the element at each position is the value
there, as `ListElem` tells it; the container is a VECTOR exactly if there are tables, or strings and other values. -/
theorem C117_list (vs : List LuaV) (h0 : vs ≠ []) (hl : vs.length < 2 ^ 32) (hv : ∀ v ∈ vs, ListItem v) (h : ¬ LateBool vs) :
    ∃ g, lua_to_GC (.table (arrayEntries vs)) = .ok g () ∧ (elems g).length = vs.length ∧
      (∀ (i : Nat) v e, vs[i]? = some v → (elems g)[i]? = some e → ListElem vs i v e) ∧
      (g.ty = .VECTOR ↔ (∃ v ∈ vs, v.isTable = true) ∨ Mixes vs) := by
  obtain ⟨g, hg, hL⟩ := (read_list vs hl hv).2 h
  refine ⟨g, hg, listed_len hL, ?_⟩
  rcases listed_kind hL with ⟨rfl, rfl⟩ | ⟨-, hn, h1, h2⟩ | ⟨ss, hs, rfl, rfl⟩ | ⟨xs, rfl, hk, hx, hall⟩
  · exact absurd rfl h0
  · constructor
    · intro i v e hv he
      refine ⟨fun hlost => (lost_none (fun v hv => (numLike_str (hn v hv)).2) i hlost).elim, fun _ => ?_⟩
      exact kept_numeric hL hn (takeWhile_all _ hn) i v e hv he
    · refine ⟨fun h => (h1 h).elim, ?_⟩
      rintro (⟨v, hv, ht⟩ | ⟨⟨v, hv, ht⟩, -⟩)
      · rw [(numLike_str (hn v hv)).2] at ht; cases ht
      · rw [(numLike_str (hn v hv)).1] at ht; cases ht
  · constructor
    · intro i v e hv he
      refine ⟨fun hlost => (lost_none ?_ i hlost).elim, fun _ => ?_⟩
      · intro v hv; obtain ⟨_, -, rfl⟩ := List.mem_map.1 hv; rfl
      · simp only [elems, List.getElem?_map, Option.map_eq_some_iff] at hv he
        obtain ⟨b, hb, rfl⟩ := hv
        obtain ⟨b', hb', rfl⟩ := he
        rw [hb] at hb'; cases hb'
        rfl
    · refine ⟨fun h => by simp [GC.ty] at h, ?_⟩
      rintro (⟨v, hv, ht⟩ | ⟨-, ⟨v, hv, ht⟩⟩) <;> obtain ⟨_, -, rfl⟩ := List.mem_map.1 hv <;> cases ht
  · exact ⟨hall, fun _ => hk, fun _ => rfl⟩

/-- **C117**, lists that begin with a table and have no booleans: every value arrives, each in its own container; tables as
they are read on their own, integers as LONG and other numbers as REAL. -/
theorem C117_table_first (t : List (LKey × LuaV)) (vs : List LuaV) (hl : vs.length + 1 < 2 ^ 32)
    (hv : ∀ v ∈ .table t :: vs, ListItem v) (hb : ∀ v ∈ vs, v.isBool = false) :
    ∃ xs, lua_to_GC (.table (arrayEntries (.table t :: vs))) = .ok (vector xs) () ∧ xs.length = vs.length + 1 ∧
      ∀ (i : Nat) v e, (.table t :: vs)[i]? = some v → xs[i]? = some e →
        (v.isNumber = false → lua_to_GC v = .ok e ()) ∧
        (v.isNumber = true → ∃ q, luaNumber v = some q ∧ NumberAs q (Fraction v) e) := by
  have hb' : ∀ v ∈ .table t :: vs, v.isBool = false := by
    intro v hv
    rcases List.mem_cons.1 hv with rfl | hv
    · rfl
    · exact hb v hv
  have hnl : ¬ LateBool (.table t :: vs) := by
    rintro ⟨i, j, u, v, -, -, hv, -, h⟩
    rw [hb' v (List.mem_of_getElem? hv)] at h; cases h
  obtain ⟨g, hg, hlen, hall, hty⟩ := C117_list (.table t :: vs) (by simp) (by simpa using hl) hv hnl
  have : g.ty = .VECTOR := hty.2 (.inl ⟨.table t, by simp, rfl⟩)
  have hvec : ∃ xs, g = vector xs := by cases g <;> first | exact ⟨_, rfl⟩ | simp [GC.ty] at this
  obtain ⟨xs, rfl⟩ := hvec
  refine ⟨xs, hg, by simpa [elems] using hlen, ?_⟩
  intro i v e hi he
  have hlost : ¬ Lost (.table t :: vs) i := by rintro ⟨-, h, -⟩; simp [beforeTables, LuaV.isTable] at h
  have hk := (hall i v e hi he).2 hlost
  have hm := List.mem_of_getElem? hi
  have hrun : numbersFirst (.table t :: vs) = [] := by simp [numbersFirst, LuaV.isBool, LuaV.isNumber]
  constructor
  · intro hn
    rcases hv v hm with h | h | ⟨s, rfl, hs⟩ | ⟨h, x, hx⟩
    · rw [hb' v hm] at h; cases h
    · obtain ⟨_, q, _, _, hq, _⟩ := luaExact_double h
      rw [(countsAs_number hq).1] at hn; cases hn
    · rw [show e = string s from hk, lua_to_GC, cstr_of_noNul hs]
    · cases v with
      | table t' => exact hk
      | _ => simp [LuaV.isTable] at h
  · intro hn
    have main : ∃ q, luaNumber v = some q ∧ NumberAs q (Fraction v ∨ i < (numbersFirst (.table t :: vs)).length ∧
        ∃ u ∈ numbersFirst (.table t :: vs), Fraction u) e := by
      cases v with
      | int k => exact hk
      | num k => exact hk
      | _ => simp [LuaV.isNumber] at hn
    simpa only [hrun, List.length_nil, Nat.not_lt_zero, false_and, or_false] using main

theorem listItem_of_ok {v : LuaV} (h : LuaOk v) : ListItem v := by
  obtain ⟨x, hx, -⟩ := C48_value_partial v h
  cases h with
  | bool => exact .inl rfl
  | number h => exact .inr (.inl h)
  | str h => exact .inr (.inr (.inl ⟨_, rfl, h⟩))
  | _ => exact .inr (.inr (.inr ⟨rfl, x, hx⟩))

theorem isBool_form {x : GC} (h : LuaBack x) : (form x).isBool = true ↔ x.ty = .BOOL := by
  have hs := sent h
  constructor
  · intro hb
    by_cases ht : TableLike x
    · obtain ⟨t, ht⟩ := hs.table ht
      rw [ht] at hb; cases hb
    · cases h with
      | bool => rfl
      | number hn =>
        obtain ⟨y, q, h1, -⟩ := number_form hn
        rw [form_eq (h1 [])] at hb; cases hb
      | string => cases hb
      | _ => exact absurd trivial ht
  · intro hb
    cases x <;> simp [GC.ty] at hb
    rfl

/-- **C104**, lists in which a boolean comes after something else: the list reaches Lua, with every value in its place, but
when Lua delivers its entries in order it is not read back. -/
theorem C104_late_bool_negation (v : List GC) (hl : v.length < 2 ^ 31) (hb : ∀ x ∈ v, LuaBack x) (i j : Nat) (x y : GC)
    (hij : i < j) (hx : v[i]? = some x) (hy : v[j]? = some y) (h1 : x.ty ≠ .BOOL) (h2 : y.ty = .BOOL) :
    ∃ t u, GC_to_lua (.vector v) [] = .ok [.table t] ∧ t.Perm (arrayEntries u) ∧ u.length = v.length ∧
      (∀ (k : Nat) z, v[k]? = some z → ∃ w, u[k]? = some w ∧ GC_to_lua z [] = .ok [w]) ∧
      ∃ g, lua_to_GC (.table (arrayEntries u)) = .throw g := by
  have hs : ∀ x ∈ v, Sent x := fun x hx => sent (hb x hx)
  refine ⟨_, v.map form, ?_, List.reverse_perm _, by simp, ?_, ?_⟩
  · rw [GC_to_lua, pushElems_list v 0 [] [] hs (by omega) (by intro e he; simp at he), List.append_nil]; rfl
  · intro k z hz
    exact ⟨form z, by rw [List.getElem?_map, hz]; rfl, (hs z (List.mem_of_getElem? hz)).push []⟩
  · refine C117_late _ (by simp; omega) ?_ ?_
    · intro w hw
      obtain ⟨z, hz, rfl⟩ := List.mem_map.1 hw
      exact listItem_of_ok (hs z hz).ok
    · refine ⟨i, j, form x, form y, hij, by rw [List.getElem?_map, hx]; rfl, by rw [List.getElem?_map, hy]; rfl, ?_, ?_⟩
      · have := mt (isBool_form (hb x (List.mem_of_getElem? hx))).1 h1
        simpa using this
      · exact (isBool_form (hb y (List.mem_of_getElem? hy))).2 h2

/-- **C104**, lists of numbers, or of strings, with a list or a map behind them: the list reaches Lua, but when Lua delivers
its entries in order the numbers and the strings do not come back. -/
theorem C104_table_negation (v : List GC) (y : GC) (h0 : v ≠ []) (hl : v.length + 1 < 2 ^ 31)
    (hv : (∀ x ∈ v, NumberBack x) ∨ ∀ x ∈ v, ∃ s, x = .string s ∧ noNul s = true) (hy : LuaBack y) (ht : TableLike y) :
    ∃ t u, GC_to_lua (.vector (v ++ [y])) [] = .ok [.table t] ∧ t.Perm (arrayEntries u) ∧ u.length = v.length + 1 ∧
      (∀ (k : Nat) z, (v ++ [y])[k]? = some z → ∃ w, u[k]? = some w ∧ GC_to_lua z [] = .ok [w]) ∧
      ∃ g, lua_to_GC (.table (arrayEntries u)) = .ok (.vector (List.replicate v.length .notype ++ [g])) () := by
  have hb : ∀ x ∈ v, LuaBack x := by
    intro x hx
    rcases hv with hv | hv
    · exact .number (hv x hx)
    · obtain ⟨s, rfl, hs⟩ := hv x hx
      exact .string hs
  have hs : ∀ x ∈ v ++ [y], Sent x := by
    intro x hx
    rcases List.mem_append.1 hx with hx | hx
    · exact sent (hb x hx)
    · rw [List.mem_singleton.1 hx]; exact sent hy
  obtain ⟨ty, hty⟩ := (sent hy).table ht
  obtain ⟨g, hg, -⟩ := C48_value_partial _ (sent hy).ok
  have hitem : ∀ w ∈ v.map form, ListItem w := by
    intro w hw
    obtain ⟨z, hz, rfl⟩ := List.mem_map.1 hw
    exact listItem_of_ok (hs z (by simp [hz])).ok
  have hkind : (∀ w ∈ v.map form, w.isNumber = true) ∨ ∀ w ∈ v.map form, w.isStr = true := by
    rcases hv with hv | hv
    · left
      intro w hw
      obtain ⟨z, hz, rfl⟩ := List.mem_map.1 hw
      obtain ⟨x, q, h1, -⟩ := number_form (hv z hz)
      rw [form_eq (h1 [])]; rfl
    · right
      intro w hw
      obtain ⟨z, hz, rfl⟩ := List.mem_map.1 hw
      obtain ⟨s, rfl, -⟩ := hv z hz
      rfl
  have hnl : ¬ LateBool (v.map form) := by
    rintro ⟨i, j, a, b, -, -, hb, -, h⟩
    have hm := List.mem_of_getElem? hb
    rcases hkind with hk | hk
    · have := hk b hm; cases b <;> simp_all [LuaV.isBool, LuaV.isNumber]
    · have := hk b hm; cases b <;> simp_all [LuaV.isBool, LuaV.isStr]
  obtain ⟨c, hc, hL⟩ := (read_list (v.map form) (by simp; omega) hitem).2 hnl
  have hne : v.map form ≠ [] := by simpa using h0
  have hcty : c.ty ≠ .VECTOR := by
    rcases listed_kind hL with ⟨h, -⟩ | ⟨-, -, h, -⟩ | ⟨ss, -, -, rfl⟩ | ⟨xs, -, hk, -⟩
    · exact absurd h hne
    · exact h
    · simp [GC.ty]
    · exfalso
      rcases hk with ⟨w, hw, h⟩ | ⟨⟨w, hw, h⟩, ⟨w', hw', h'⟩⟩
      · rcases hkind with hk | hk
        · have := hk w hw; cases w <;> simp_all [LuaV.isTable, LuaV.isNumber]
        · have := hk w hw; cases w <;> simp_all [LuaV.isTable, LuaV.isStr]
      · rcases hkind with hk | hk
        · have := hk w hw; cases w <;> simp_all [LuaV.isStr, LuaV.isNumber]
        · rw [hk w' hw'] at h'; cases h'
  refine ⟨_, (v ++ [y]).map form, ?_, List.reverse_perm _, by simp, ?_, g, ?_⟩
  · rw [GC_to_lua, pushElems_list (v ++ [y]) 0 [] [] hs (by simpa using hl) (by intro e he; simp at he), List.append_nil]; rfl
  · intro k z hz
    exact ⟨form z, by rw [List.getElem?_map, hz]; rfl, (hs z (List.mem_of_getElem? hz)).push []⟩
  · rw [hty] at hg
    rw [List.map_append, List.map_singleton, hty, lua_to_GC, table_snoc _ _ (by simp; omega), hc]
    simp only [Res.bind]
    have := (table_end hg).2 (v.map form).length c (by simp; omega) hcty
    rw [List.length_map] at this
    rw [List.length_map]
    exact this

example : LuaBack (.long 3) ∧ LuaBack (.bool true) ∧ LuaBack (.vecInt [1, 2]) ∧ TableLike (.vecInt [1, 2]) :=
  ⟨.number (isDouble_small (by decide)), .bool, .ints (by simp) (by simp), trivial⟩

/-! Lists of each sort meet the hypotheses. -/

theorem listItem_small {i : I64} (h : i.toInt.natAbs ≤ 2 ^ 53) : ListItem (.int i) :=
  .inr (.inl (.inr ⟨i, rfl, isDouble_small h⟩))

/-- `{true, 7, "a"}` : the boolean becomes 1. -/
example : (∀ v ∈ [LuaV.bool true, .int 7, .str (str "a")], ListItem v) ∧ ¬ LateBool [LuaV.bool true, .int 7, .str (str "a")] ∧
    Mixes [LuaV.bool true, .int 7, .str (str "a")] ∧
    lua_to_GC (.table (arrayEntries [.bool true, .int 7, .str (str "a")])) = .ok (vector [long 1, long 7, string (str "a")]) () := by
  refine ⟨?_, ?_, ⟨⟨.str (str "a"), by simp, rfl⟩, ⟨.int 7, by simp, rfl⟩⟩, ?_⟩
  · intro v hv
    simp only [List.mem_cons, List.not_mem_nil, or_false] at hv
    rcases hv with rfl | rfl | rfl
    · exact .inl rfl
    · exact listItem_small (by decide)
    · exact .inr (.inr (.inl ⟨_, rfl, by decide⟩))
  · rintro ⟨i, j, u, v, hij, hu, hv, h1, h2⟩
    rcases j with _ | _ | _ | j
    · omega
    · simp at hv; subst hv; cases h2
    · simp at hv; subst hv; cases h2
    · simp at hv
  · decide +kernel

/-- `{"a", {5}}` : the string is lost; `{"a", 1, {5}}` : nothing is lost. -/
example : Lost [.str (str "a"), .table (arrayEntries [.int 5])] 0 ∧
    lua_to_GC (.table (arrayEntries [.str (str "a"), .table (arrayEntries [.int 5])])) = .ok (vector [notype, vecLong [5]]) () ∧
    lua_to_GC (.table (arrayEntries [.str (str "a"), .int 1, .table (arrayEntries [.int 5])])) =
      .ok (vector [string (str "a"), long 1, vecLong [5]]) () := by
  refine ⟨⟨⟨_, by simp; exact .inr rfl, rfl⟩, by decide, ?_⟩, ?_, ?_⟩
  · rintro ⟨-, ⟨v, hv, h⟩⟩
    simp [beforeTables, LuaV.isTable] at hv
    subst hv; cases h
  · decide +kernel
  · decide +kernel

/-- `{2, true}` is not read. -/
example : LateBool [.int 2, .bool true] ∧
    lua_to_GC (.table (arrayEntries [.int 2, .bool true])) = .throw (vector [long 2, bool false]) := by
  refine ⟨⟨0, 1, .int 2, .bool true, by decide, rfl, rfl, rfl, rfl⟩, ?_⟩
  decide +kernel

end GC
end GCV
