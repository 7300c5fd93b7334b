import Verif.Lemmas.LuaMixed
import Verif.Props.LuaRead

/-! # C48: nested tables computed by Lua reach the container -/

namespace GCV
namespace GC
open F64

/-- **C48** for whole values: a value made of booleans, numbers, strings, arrays of one kind, arrays of numbers and strings
and tables with string keys, nested at will, arrives in the container with all its data, whatever the order in which Lua delivers the entries of its
tables.  Partial: values as in `LuaOk`; see the negations for the others. -/
theorem C48_value_partial (v : LuaV) (h : LuaOk v) : ∃ g, lua_to_GC v = .ok g () ∧ LuaSays v g := by
  induction h with
  | bool => exact ⟨_, rfl, .bool⟩
  | number h =>
    obtain ⟨g, q, h1, h2, h3, h4, h5⟩ := C48_number_partial _ h
    exact ⟨g, h1, .number h2 h3 h4 h5⟩
  | @str s h => exact ⟨_, (C48_scalar true s h).2, .str⟩
  | numbers ht h0 hl hv =>
    obtain ⟨g, h1, h2, h3, h4, h5⟩ := C48_array _ h0 hl hv _ ht
    refine ⟨g, h1, .numbers ht h0 h2 (fun i v hi => ?_) h4 h5⟩
    obtain ⟨e, h6, h7⟩ := h3 i v hi
    obtain ⟨-, q, -, -, hq, -⟩ := luaExact_double (hv v (List.mem_of_getElem? hi))
    exact ⟨e, q, h6, by rw [h7, hq], hq⟩
  | @bools t bs ht hl =>
    by_cases h0 : bs = []
    · subst h0
      have : t = [] := List.Perm.eq_nil ht
      subst this
      exact ⟨_, rfl, .empty⟩
    · obtain ⟨w, h1, h2, h3⟩ := store_array (d := false) (up := vecBool) (R := fun v a => v = .bool a) ht (by simpa using hl)
        (fun v hv i hi w _ => by
          obtain ⟨b, -, rfl⟩ := List.mem_map.1 hv
          exact stores_bool (by simp at hi; omega) b w)
      have hw : w = bs := by
        refine List.ext_getElem? fun i => ?_
        by_cases hi : i < bs.length
        · obtain ⟨a, ha, hb⟩ := h3 i (.bool bs[i]) (by simp [hi])
          cases hb
          rw [ha]; simp [hi]
        · rw [List.getElem?_eq_none (by simpa [h2] using hi), List.getElem?_eq_none (by omega)]
      subst hw
      refine ⟨_, ?_, .bools ht h0⟩
      rw [lua_to_GC, table_start ht (by simpa using h0), h1]
      intro i v hv
      obtain ⟨b, -, rfl⟩ := List.mem_map.1 hv
      exact (push_empty i).1 b
  | @strs t ss ht hl hn =>
    by_cases h0 : ss = []
    · subst h0
      have : t = [] := List.Perm.eq_nil ht
      subst this
      exact ⟨_, rfl, .empty⟩
    · obtain ⟨w, h1, h2, h3⟩ := store_array (d := []) (up := vecString) (R := fun v a => v = .str a) ht (by simpa using hl)
        (fun v hv i hi w _ => by
          obtain ⟨b, hb, rfl⟩ := List.mem_map.1 hv
          exact stores_str (by simp at hi; omega) (hn b hb) w)
      have hw : w = ss := by
        refine List.ext_getElem? fun i => ?_
        by_cases hi : i < ss.length
        · obtain ⟨a, ha, hb⟩ := h3 i (.str ss[i]) (by simp [hi])
          cases hb
          rw [ha]; simp [hi]
        · rw [List.getElem?_eq_none (by simpa [h2] using hi), List.getElem?_eq_none (by omega)]
      subst hw
      refine ⟨_, ?_, .strs ht h0⟩
      rw [lua_to_GC, table_start ht (by simpa using h0), h1]
      intro i v hv
      obtain ⟨b, -, rfl⟩ := List.mem_map.1 hv
      exact (push_empty i).2.1 b
  | mixed ht hl hv hn hs =>
    obtain ⟨xs, h1, h2, h3⟩ := mix_array ht hl hv hn hs
    obtain ⟨v, hm, hx⟩ := hn
    obtain ⟨_, q, -, -, hq, -⟩ := luaExact_double hx
    exact ⟨_, h1, .mixed ht ⟨v, hm, q, hq⟩ hs h2 h3⟩
  | @tables t vs ht hl hv _ ih =>
    by_cases h0 : vs = []
    · subst h0
      have : t = [] := List.Perm.eq_nil ht
      subst this
      exact ⟨_, rfl, .empty⟩
    · obtain ⟨w, h1, h2, h3⟩ := store_array (d := notype) (up := vector) (R := LuaSays) ht hl
        (fun v hm i hi w hw => by
          obtain ⟨t', rfl⟩ := hv v hm
          obtain ⟨g, e, hs⟩ := ih _ hm
          exact stores_table (by omega) e hs w hw)
      refine ⟨_, ?_, .tables ht h0 h2 fun i v x hi hx => ?_⟩
      · rw [lua_to_GC, table_start ht h0, h1]
        intro i v hm
        obtain ⟨t', rfl⟩ := hv v hm
        exact (push_empty i).2.2 t'
      · obtain ⟨a, ha, hr⟩ := h3 i v hi
        rw [hx] at ha
        cases ha
        exact hr
  | @hash t hnd hk hok ih =>
    by_cases h0 : t = []
    · subst h0
      exact ⟨_, rfl, .empty⟩
    · obtain ⟨m, h1, h2, h3, h4⟩ := store_named LuaSays t notype hnd
        (fun e he => by obtain ⟨s, h1, h2⟩ := hk e he; exact ⟨s, h1, h2, rfl⟩) hok ih (by simp [oldMap, KeysSorted]) h0
      refine ⟨_, by rw [lua_to_GC, h1], .hash h0 (fun e he => (hk e he).imp fun _ h => h.1) h2 ?_ ?_⟩
      · intro k
        constructor
        · rintro ⟨v, hv⟩
          obtain ⟨x, hx, -⟩ := h3 k v hv
          exact ⟨x, mem_of_mfind hx⟩
        · rintro ⟨x, hx⟩
          refine Classical.byContradiction fun hc => ?_
          have := h4 k fun v hv => hc ⟨v, hv⟩
          rw [mfind_of_mem h2 hx] at this
          cases this
      · intro k v x hv hx
        obtain ⟨y, hy, hr⟩ := h3 k v hv
        rw [mfind_of_mem h2 hx] at hy
        cases hy
        exact hr

/-- `{ on = true, names = {"a","b"}, sub = {{x=1},{}}, flags = {true,false} }`, delivered in some order. -/
example : LuaOk (.table [(.str (str "names"), .table [(.int 2, .str (str "b")), (.int 1, .str (str "a"))]),
    (.str (str "on"), .bool true), (.str (str "sub"), .table [(.int 1, .table [(.str (str "x"), .int 1)]), (.int 2, .table [])]),
    (.str (str "flags"), .table [(.int 1, .bool true), (.int 2, .bool false)])]) := by
  refine .hash (by decide) ?_ ?_
  · simp only [List.forall_mem_cons]
    exact ⟨⟨_, rfl, by decide⟩, ⟨_, rfl, by decide⟩, ⟨_, rfl, by decide⟩, ⟨_, rfl, by decide⟩, by simp⟩
  · simp only [List.forall_mem_cons]
    refine ⟨.strs (ss := [str "a", str "b"]) (.swap _ _ _) (by decide) (by decide), .bool,
      .tables (vs := [.table [(.str (str "x"), .int 1)], .table []]) (.refl _) (by decide) ?_ ?_,
      .bools (bs := [true, false]) (.refl _) (by decide), by simp⟩
    · simp
    · simp only [List.forall_mem_cons]
      refine ⟨.hash (by decide) ?_ ?_, .bools (bs := []) (.refl _) (by decide), by simp⟩
      · simp only [List.forall_mem_cons]
        exact ⟨⟨_, rfl, by decide⟩, by simp⟩
      · simp only [List.forall_mem_cons]
        exact ⟨.number (.inr ⟨1, rfl, isDouble_small (by decide)⟩), by simp⟩

/-- `{1, "a", 2}`, delivered in some order. -/
example : LuaOk (.table [(.int 2, .str (str "a")), (.int 1, .int 1), (.int 3, .int 2)]) := by
  have h1 : LuaExact (.int 1) := .inr ⟨1, rfl, isDouble_small (by decide)⟩
  have h2 : LuaExact (.int 2) := .inr ⟨2, rfl, isDouble_small (by decide)⟩
  refine .mixed (vs := [.int 1, .str (str "a"), .int 2]) (.swap _ _ _) (by decide) ?_ ⟨_, by simp, h1⟩ ⟨str "a", by simp⟩
  simp only [List.forall_mem_cons]
  exact ⟨.inl h1, .inr ⟨_, rfl, by decide⟩, .inl h2, by simp⟩

/-- **C48** fails for strings and keys with a NUL inside: on their own, in an array and under a key they are cut there. -/
theorem C48_nul_negation (a b k l : Bytes) (ha : noNul a = true) (hk : noNul k = true) :
    lua_to_GC (.str (a ++ 0 :: b)) = .ok (string a) () ∧
    lua_to_GC (.table [(.int 1, .str (a ++ 0 :: b))]) = .ok (vecString [a]) () ∧
    lua_to_GC (.table [(.str k, .str (a ++ 0 :: b))]) = .ok (map [(k, string a)]) () ∧
    lua_to_GC (.table [(.str (k ++ 0 :: l), .bool true)]) = .ok (map [(k, bool true)]) () := by
  have cut : ∀ x y : Bytes, noNul x = true → cstr (x ++ 0 :: y) = x := by
    intro x y hx
    induction x with
    | nil => rfl
    | cons c x ih =>
      simp only [noNul, List.all_cons, Bool.and_eq_true] at hx ih
      rw [List.cons_append, cstr, List.takeWhile_cons, if_pos hx.1]
      exact congrArg _ (ih hx.2)
  have hh : ∀ (k' : Bytes) (f : GC → Res Unit) (x : GC), noNul k' = true → f notype = .ok x () →
      withKey k' f notype = .ok (map [(k', x)]) () := by
    intro k' f x h1 h2
    rw [withKey]
    simp only [cstr_of_noNul h1, oldMap, mfind, Option.getD_none, h2]
    rfl
  refine ⟨by rw [lua_to_GC, cut a b ha], ?_, ?_, ?_⟩
  · rw [lua_to_GC, lua_table_to_GC, pushVecElement, cut a b ha]; rfl
  · rw [lua_to_GC, lua_table_to_GC, pushHashElement, cut a b ha, cstr_of_noNul hk, hh k _ _ hk rfl]; rfl
  · rw [lua_to_GC, lua_table_to_GC, pushHashElement, cut k l hk, hh k _ _ hk rfl]; rfl

example : noNul (str "key") = true := by decide

end GC
end GCV
