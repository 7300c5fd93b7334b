import Verif.Lemmas.LuaTable

/-! # Reading arrays of numbers and strings from Lua -/

namespace GCV
namespace GC
open F64

/-- What an array of numbers and strings looks like while it is read: `n` bounds its length. -/
inductive Mixing (n : Nat) : GC → Prop
  | num {g : GC} : Reading n g → Mixing n g
  | strs (w : List Bytes) : w.length ≤ n → Mixing n (vecString w)
  | list (w : List GC) : w.length ≤ n → Mixing n (vector w)

/-- Element `j` is the value. -/
def ItemAt (v : LuaV) (g : GC) (j : Nat) : Prop := ∃ x, elem g j = some x ∧ MixedItem v x

theorem promote_mixing {n : Nat} {g : GC} (hn : n < 2 ^ 32) (hg : Mixing n g) (h0 : g ≠ notype) :
    promote_to_vector g = .ok (vector (elems g)) () ∧ ∀ j, elem g j = (elems g)[j]? := by
  cases hg with
  | num h =>
    cases h with
    | empty => exact absurd rfl h0
    | long w hw _ =>
      refine ⟨?_, fun j => by simp [elem, elems]⟩
      rw [promote_to_vector, become_refill _ _ _ (by omega)]; rfl
    | real w hw =>
      refine ⟨?_, fun j => by simp [elem, elems]⟩
      rw [promote_to_vector, become_refill _ _ _ (by omega)]; rfl
  | strs w hw =>
    refine ⟨?_, fun j => by simp [elem, elems]⟩
    rw [promote_to_vector, become_refill _ _ _ (by omega)]; rfl
  | list w hw => exact ⟨rfl, fun j => rfl⟩

theorem len_mixing {n : Nat} {g : GC} (hg : Mixing n g) : (elems g).length ≤ n := by
  cases hg with
  | num h => cases h <;> simp [elems] <;> assumption
  | strs w hw => simpa [elems] using hw
  | list w hw => simpa [elems] using hw

/-- Storing an item in the vector of containers. -/
theorem store_vector {α : Type} (mk : α → GC) (z y : α) {n i : Nat} {g : GC} (hn : n < 2 ^ 32) (hi : i < n) (hg : Mixing n g)
    (h0 : g ≠ notype) : ∃ w, refAtVector mk z i (fun _ => y) g = .ok (vector w) z ∧ Mixing n (vector w) ∧
      elem (vector w) i = some (mk y) ∧ (∀ v j, j ≠ i → ItemAt v g j → ItemAt v (vector w) j) ∧
      w.length = max (elems g).length (i + 1) := by
  obtain ⟨h1, h2⟩ := promote_mixing hn hg h0
  obtain ⟨h3, h4⟩ := checkResize_spec notype i (elems g) (by omega)
  have hl := len_mixing hg
  refine ⟨(checkResize notype i (elems g)).set i (mk y), ?_, .list _ (by simp [h3]; omega), ?_, ?_, by simp [h3]⟩
  · rw [refAtVector, h1]
    simp only [Res.bind]
    rw [List.getElem?_eq_getElem (by omega)]
  · exact List.getElem?_set_self (by omega)
  · rintro v j hj ⟨x, hx, hm⟩
    refine ⟨x, ?_, hm⟩
    show (List.set _ _ _)[j]? = _
    rw [List.getElem?_set_ne (Ne.symm hj), h4]
    exact grown_old (by rw [← h2]; exact hx)

theorem reading_item {n : Nat} {g : GC} (hg : Reading n g) {j : Nat} {q : Int} (h : numberAt g j = some q) {v : LuaV}
    (hv : luaNumber v = some q) : ItemAt v g j := by
  unfold numberAt at h
  cases he : elem g j with
  | none => rw [he] at h; cases h
  | some x =>
    rw [he] at h
    refine ⟨x, he, .inr ⟨q, hv, h, ?_⟩⟩
    cases hg with
    | empty => simp [elem] at he
    | long w _ _ =>
      simp only [elem, Option.map_eq_some_iff] at he
      obtain ⟨_, -, rfl⟩ := he
      exact .inl rfl
    | real w _ =>
      simp only [elem, Option.map_eq_some_iff] at he
      obtain ⟨_, -, rfl⟩ := he
      exact .inr rfl

theorem item_reading {n : Nat} {g : GC} (hg : Reading n g) {j : Nat} {v : LuaV} (h : ItemAt v g j) :
    ∃ q, luaNumber v = some q ∧ numberAt g j = some q := by
  obtain ⟨x, hx, ⟨s, rfl, rfl⟩ | ⟨q, h1, h2, -⟩⟩ := h
  · cases hg <;> simp [elem] at hx
  · exact ⟨q, h1, by rw [numberAt, hx]; exact h2⟩

/-- The container holds strings, or numbers. -/
def HasStr (g : GC) : Prop := g.ty = .VEC_STRING ∨ g.ty = .VECTOR
def HasNum (g : GC) : Prop := g.ty = .VEC_LONG ∨ g.ty = .VEC_REAL ∨ g.ty = .VECTOR

/-- One step. -/
structure Mixed (n i : Nat) (v : LuaV) (g g' : GC) : Prop where
  mixing : Mixing n g'
  item : ItemAt v g' i
  others : ∀ u j, j ≠ i → ItemAt u g j → ItemAt u g' j
  len : (elems g').length = max (elems g).length (i + 1)
  str : HasStr g → HasStr g'
  num : HasNum g → HasNum g'

theorem mix_number {n i : Nat} {g : GC} {v : LuaV} (hn : n < 2 ^ 32) (hi : i < n) (hg : Mixing n g) (hv : LuaExact v) :
    ∃ g', pushVecElement i v g = .ok g' () ∧ Mixed n i v g g' ∧ HasNum g' := by
  obtain ⟨x, q, hx, hr, hq, hp, -⟩ := luaExact_double hv
  rw [hp]
  have vec : g ≠ notype → (g.ty = .VEC_STRING ∨ g.ty = .VECTOR) →
      ∃ g', pushLuaNumber i x g = .ok g' () ∧ Mixed n i v g g' ∧ HasNum g' := by
    intro h0 hty
    have ends : ∀ {α : Type} (mk : α → GC) (z y : α), numValue (mk y) = some q → ((mk y).ty = .LONG ∨ (mk y).ty = .REAL) →
        ∃ g', refAtVector mk z i (fun _ => y) g = .ok g' z ∧ Mixed n i v g g' ∧ HasNum g' := by
      intro α mk z y h1 h2
      obtain ⟨w, e, m, a, o, l⟩ := store_vector mk z y hn hi hg h0
      exact ⟨_, e, ⟨m, ⟨_, a, .inr ⟨q, hq, h1, h2⟩⟩, o, l, fun _ => .inr rfl, fun _ => .inr (.inr rfl)⟩, .inr (.inr rfl)⟩
    have hpush : pushLuaNumber i x g = match x.isInteger64 with
        | .ok true => match x.toSigned 64 with
          | .ok l => (refAtVector long 0 i (fun _ => l) g).bind fun g' _ => .ok g' ()
          | _ => .ub
        | .ok false => (refAtVector real .zero i (fun _ => x) g).bind fun g' _ => .ok g' ()
        | _ => .ub := by
      cases g <;> first | rfl | simp [GC.ty] at hty
    rw [hpush]
    rcases isInteger64_spec hx hr with ⟨m, hm, h1, h2, h3⟩ | ⟨hno, h1⟩
    · obtain ⟨g', e, r⟩ := ends long 0 (BitVec.ofInt 64 m) (by simp only [numValue, h3, ← hm]) (.inl rfl)
      exact ⟨g', by rw [h1]; simp only [h2, e]; rfl, r⟩
    · obtain ⟨g', e, r⟩ := ends real .zero x hx (.inr rfl)
      exact ⟨g', by rw [h1]; simp only [e]; rfl, r⟩
  cases hg with
  | num h =>
    obtain ⟨g', e, r, a, o, l, -⟩ := pushLuaNumber_spec hn hi h hx hr
    have hN : HasNum g' := by
      cases r with
      | empty => simp [numberAt, elem] at a
      | long => exact .inl rfl
      | real => exact .inr (.inl rfl)
    refine ⟨g', e, ⟨.num r, reading_item r a hq, ?_, l, ?_, fun _ => hN⟩, hN⟩
    · intro u j hj hu
      obtain ⟨p, h1, h2⟩ := item_reading h hu
      exact reading_item r (o j p hj h2) h1
    · intro h'
      cases h <;> simp [HasStr, GC.ty] at h'
  | strs w hw => exact vec (by simp) (.inl rfl)
  | list w hw => exact vec (by simp) (.inr rfl)

theorem mix_string {n i : Nat} {g : GC} {s : Bytes} (hn : n < 2 ^ 32) (hi : i < n) (hg : Mixing n g) (hs : noNul s = true) :
    ∃ g', pushVecElement i (.str s) g = .ok g' () ∧ Mixed n i (.str s) g g' ∧ HasStr g' := by
  rw [pushVecElement, cstr_of_noNul hs]
  have packed : ∀ w : List Bytes, w.length ≤ n → elems g = w.map string → (∀ j, elem g j = w[j]?.map string) →
      get_string_at i (fun _ => s) g = refAt [] vecString w i (fun _ => s) → (HasNum g → False) →
      ∃ g', ((get_string_at i (fun _ => s) g).bind fun g' _ => .ok g' ()) = .ok g' () ∧ Mixed n i (.str s) g g' ∧ HasStr g' := by
    intro w hw h1 h2 h3 h4
    obtain ⟨w', y, e1, -, e3, e4, e5⟩ := refAt_spec [] vecString w i (fun _ => s) (by omega)
    refine ⟨vecString w', by rw [h3, e1]; rfl, ⟨.strs _ (by omega), ⟨_, by rw [elem, e3]; rfl, .inl ⟨s, rfl, rfl⟩⟩, ?_, ?_,
      fun _ => .inl rfl, fun h => (h4 h).elim⟩, .inl rfl⟩
    · rintro u j hj ⟨x, hx, hm⟩
      refine ⟨x, ?_, hm⟩
      rw [h2] at hx
      cases hj' : w[j]? with
      | none => rw [hj'] at hx; cases hx
      | some c =>
        rw [hj'] at hx
        rw [elem, e5 j hj, grown_old hj']
        exact hx
    · rw [h1]; simp [elems, e4]
  have vec : g ≠ notype → get_string_at i (fun _ => s) g = refAtVector string [] i (fun _ => s) g →
      ∃ g', ((get_string_at i (fun _ => s) g).bind fun g' _ => .ok g' ()) = .ok g' () ∧ Mixed n i (.str s) g g' ∧ HasStr g' := by
    intro h0 h1
    obtain ⟨w, e, m, a, o, l⟩ := store_vector string [] s hn hi hg h0
    exact ⟨_, by rw [h1, e]; rfl, ⟨m, ⟨_, a, .inl ⟨s, rfl, rfl⟩⟩, o, l, fun _ => .inr rfl, fun _ => .inr (.inr rfl)⟩, .inr rfl⟩
  cases hg with
  | num h =>
    cases h with
    | empty => exact packed [] (by simp) rfl (fun _ => by simp [elem]) rfl (by simp [HasNum, GC.ty])
    | long => exact vec (by simp) rfl
    | real => exact vec (by simp) rfl
  | strs w hw => exact packed w hw rfl (fun _ => rfl) rfl (by simp [HasNum, GC.ty])
  | list w hw => exact vec (by simp) rfl

/-- The entries, in any order. -/
theorem mix_entries {n : Nat} (hn : n < 2 ^ 32) : ∀ (es : List (Nat × LuaV)) (g : GC), Mixing n g → (es.map Prod.fst).Nodup →
    (∀ e ∈ es, e.1 < n ∧ (LuaExact e.2 ∨ ∃ s, e.2 = .str s ∧ noNul s = true)) →
    ∃ g', lua_table_to_GC (es.map fun e => (LKey.int (e.1 + 1), e.2)) g = .ok g' () ∧ Mixing n g' ∧
      (∀ e ∈ es, ItemAt e.2 g' e.1) ∧ (∀ u j, j ∉ es.map Prod.fst → ItemAt u g j → ItemAt u g' j) ∧
      (∀ e ∈ es, e.1 < (elems g').length) ∧ (elems g).length ≤ (elems g').length ∧
      (HasStr g ∨ (∃ e ∈ es, ∃ s, e.2 = .str s) → HasStr g') ∧ (HasNum g ∨ (∃ e ∈ es, LuaExact e.2) → HasNum g')
  | [], g, hg, _, _ => ⟨g, rfl, hg, by simp, fun _ _ _ h => h, by simp, Nat.le_refl _, by simp, by simp⟩
  | (i, v) :: r, g, hg, hnd, he => by
    simp only [List.map_cons, List.nodup_cons] at hnd
    obtain ⟨hi, hv⟩ := he (i, v) (by simp)
    have step : ∃ g1, pushVecElement i v g = .ok g1 () ∧ Mixed n i v g g1 ∧ (LuaExact v → HasNum g1) ∧
        ((∃ s, v = .str s) → HasStr g1) := by
      rcases hv with hv | ⟨s, hv, hs⟩
      · obtain ⟨g1, e1, m, t⟩ := mix_number hn hi hg hv
        refine ⟨g1, e1, m, fun _ => t, ?_⟩
        rintro ⟨s, hs⟩
        obtain ⟨_, _, _, _, hq, _⟩ := luaExact_double hv
        dsimp only at hs hq
        rw [hs] at hq; cases hq
      · dsimp only at hv
        subst hv
        obtain ⟨g1, e1, m, t⟩ := mix_string hn hi hg hs
        refine ⟨g1, e1, m, fun h => ?_, fun _ => t⟩
        obtain ⟨_, _, _, _, hq, _⟩ := luaExact_double h
        cases hq
    obtain ⟨g1, e1, m, tn, ts⟩ := step
    obtain ⟨g', e2, r2, v2, o2, l2, m2, s2, n2⟩ := mix_entries hn r g1 m.mixing hnd.2 (fun e hm => he e (.tail _ hm))
    have hl := m.len
    dsimp only at hi hl
    refine ⟨g', ?_, r2, ?_, ?_, ?_, by omega, ?_, ?_⟩
    · rw [List.map_cons, lua_table_to_GC]
      dsimp only
      rw [luaIdx_succ (by omega), e1]
      exact e2
    · intro e hm
      rcases List.mem_cons.1 hm with rfl | hm
      · exact o2 _ _ hnd.1 m.item
      · exact v2 e hm
    · intro u j hj hu
      simp only [List.map_cons, List.mem_cons, not_or] at hj
      exact o2 u j hj.2 (m.others u j hj.1 hu)
    · intro e hm
      rcases List.mem_cons.1 hm with rfl | hm
      · dsimp only; omega
      · exact l2 e hm
    · rintro (h | ⟨e, hm, hs⟩)
      · exact s2 (.inl (m.str h))
      · rcases List.mem_cons.1 hm with rfl | hm
        · exact s2 (.inl (ts hs))
        · exact s2 (.inr ⟨e, hm, hs⟩)
    · rintro (h | ⟨e, hm, hs⟩)
      · exact n2 (.inl (m.num h))
      · rcases List.mem_cons.1 hm with rfl | hm
        · exact n2 (.inl (tn hs))
        · exact n2 (.inr ⟨e, hm, hs⟩)

/-- An array of numbers and strings, with both kinds in it. -/
theorem mix_array {t : List (LKey × LuaV)} {vs : List LuaV} (ht : t.Perm (arrayEntries vs)) (hl : vs.length < 2 ^ 32)
    (hv : ∀ v ∈ vs, LuaExact v ∨ ∃ s, v = .str s ∧ noNul s = true) (hn : ∃ v ∈ vs, LuaExact v) (hs : ∃ s, .str s ∈ vs) :
    ∃ xs, lua_table_to_GC t notype = .ok (vector xs) () ∧ xs.length = vs.length ∧
      ∀ (i : Nat) v x, vs[i]? = some v → xs[i]? = some x → MixedItem v x := by
  obtain ⟨es, rfl, h1, h2, h3⟩ := perm_entries ht
  have hlt : ∀ e ∈ es, e.1 < vs.length := fun e he => (List.getElem?_eq_some_iff.1 (h2 e he)).1
  obtain ⟨g, e, m, a, -, b, -, S, N⟩ := mix_entries hl es notype (.num .empty) h1
    (fun e he => ⟨hlt e he, hv e.2 (List.mem_of_getElem? (h2 e he))⟩)
  have hS : HasStr g := by
    obtain ⟨s, hs⟩ := hs
    obtain ⟨i, hi⟩ := List.getElem?_of_mem hs
    exact S (.inr ⟨_, h3 i _ hi, s, rfl⟩)
  have hN : HasNum g := by
    obtain ⟨v, hm, hx⟩ := hn
    obtain ⟨i, hi⟩ := List.getElem?_of_mem hm
    exact N (.inr ⟨_, h3 i _ hi, hx⟩)
  have hlen := len_mixing m
  have hg : ∃ xs, g = vector xs := by
    cases g <;> simp [HasStr, HasNum, GC.ty] at hS hN
    exact ⟨_, rfl⟩
  obtain ⟨xs, rfl⟩ := hg
  simp only [elems] at hlen b
  refine ⟨xs, e, Nat.le_antisymm hlen ?_, ?_⟩
  · cases hvs : vs.length with
    | zero => exact Nat.zero_le _
    | succ k => exact b _ (h3 k vs[k] (List.getElem?_eq_getElem (by omega)))
  · intro i v x hi hx
    obtain ⟨y, hy, hm⟩ := a _ (h3 i v hi)
    rw [show elem (vector xs) i = xs[i]? from rfl, hx] at hy
    cases hy
    exact hm

end GC
end GCV
