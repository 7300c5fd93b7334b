import Verif.Lemmas.LuaRead
import Verif.Lemmas.Map

/-! # Reading tables from Lua -/

namespace GCV
namespace GC
open F64

/-- The entries of an array with their positions counted from zero. -/
theorem perm_entries {t : List (LKey × LuaV)} {vs : List LuaV} (ht : t.Perm (arrayEntries vs)) :
    ∃ es : List (Nat × LuaV), t = es.map (fun e => (LKey.int (e.1 + 1), e.2)) ∧ (es.map Prod.fst).Nodup ∧
      (∀ e ∈ es, vs[e.1]? = some e.2) ∧ ∀ (i : Nat) v, vs[i]? = some v → (i, v) ∈ es := by
  let G : LKey × LuaV → Nat × LuaV := fun e => (match e.1 with | .int n => (n - 1).toNat | _ => 0, e.2)
  let F : Nat × LuaV → LKey × LuaV := fun e => (LKey.int (e.1 + 1), e.2)
  let ps : List (Nat × LuaV) := vs.zipIdx.map fun p => (p.2, p.1)
  have hF : arrayEntries vs = ps.map F := by simp [arrayEntries, ps, F, Function.comp_def]
  have hGF : ∀ e, G (F e) = e := by
    rintro ⟨i, v⟩; simp only [G, F, Prod.mk.injEq, and_true]; omega
  have hp : (t.map G).Perm ps := by
    have := ht.map G
    rw [hF, List.map_map] at this
    rwa [show ps.map (G ∘ F) = ps by
      rw [show G ∘ F = id from funext hGF]; simp] at this
  have ht' : (t.map G).map F = t := by
    rw [List.map_map]
    conv => rhs; rw [← List.map_id t]
    apply List.map_congr_left
    intro e he
    have := ht.mem_iff.1 he
    rw [hF] at this
    obtain ⟨p, _, rfl⟩ := List.mem_map.1 this
    simp only [Function.comp_apply, hGF]; rfl
  have hfst : ps.map Prod.fst = List.range vs.length := by
    simp only [ps, List.map_map, Function.comp_def]
    rw [List.range_eq_range']; exact List.zipIdx_map_snd 0 vs
  refine ⟨t.map G, ht'.symm, ?_, ?_, ?_⟩
  · rw [(hp.map Prod.fst).nodup_iff, hfst]; exact List.nodup_range
  · intro e he
    have := hp.mem_iff.1 he
    obtain ⟨⟨v, i⟩, hpm, rfl⟩ := List.mem_map.1 this
    rw [List.mem_zipIdx_iff_getElem?] at hpm
    exact hpm
  · intro i v hi
    rw [hp.mem_iff]
    simp only [ps, List.mem_map]
    exact ⟨(v, i), by rw [List.mem_zipIdx_iff_getElem?]; exact hi, rfl⟩

/-- One entry stored into a vector that is being filled. -/
def Stores {α : Type} (d : α) (up : List α → GC) (R : LuaV → α → Prop) (i : Nat) (v : LuaV) (w : List α) : Prop :=
  ∃ w' a, pushVecElement i v (up w) = .ok (up w') () ∧ R v a ∧ w'[i]? = some a ∧ w'.length = max w.length (i + 1) ∧
    ∀ j, j ≠ i → w'[j]? = grownAt d w i j

/-- Entries stored one after the other, in any order. -/
theorem store_entries {α : Type} {d : α} {up : List α → GC} {R : LuaV → α → Prop} {n : Nat} (hn : n < 2 ^ 32) :
    ∀ (es : List (Nat × LuaV)) (w : List α), w.length ≤ n → (es.map Prod.fst).Nodup → (∀ e ∈ es, e.1 < n) →
      (∀ e ∈ es, ∀ x, w[e.1]? = some x → x = d) →
      (∀ e ∈ es, ∀ w : List α, (∀ x, w[e.1]? = some x → x = d) → Stores d up R e.1 e.2 w) →
      ∃ w', lua_table_to_GC (es.map fun e => (LKey.int (e.1 + 1), e.2)) (up w) = .ok (up w') () ∧
        w.length ≤ w'.length ∧ w'.length ≤ n ∧ (∀ e ∈ es, ∃ a, w'[e.1]? = some a ∧ R e.2 a) ∧
        ∀ j x, j ∉ es.map Prod.fst → w[j]? = some x → w'[j]? = some x
  | [], w, hw, _, _, _, _ => ⟨w, rfl, Nat.le_refl _, hw, by simp, fun _ _ _ h => h⟩
  | (i, v) :: r, w, hw, hnd, hlt, hd, hs => by
    simp only [List.map_cons, List.nodup_cons] at hnd
    obtain ⟨w1, a, e1, ra, g1, l1, o1⟩ := hs (i, v) (.head _) w (hd (i, v) (.head _))
    have hi : i < n := hlt (i, v) (.head _)
    dsimp only at g1 l1 o1 e1 ra
    obtain ⟨w2, e2, l2, l2', v2, o2⟩ := store_entries hn r w1 (by omega) hnd.2 (fun e he => hlt e (.tail _ he))
      (fun e he x hx => by
        have hne : e.1 ≠ i := fun h => hnd.1 (h ▸ List.mem_map_of_mem he)
        rw [o1 _ hne] at hx
        unfold grownAt at hx
        split at hx
        · exact hd e (.tail _ he) x hx
        · split at hx <;> simp at hx
          exact hx.symm)
      (fun e he => hs e (.tail _ he))
    refine ⟨w2, ?_, by omega, l2', ?_, ?_⟩
    · rw [List.map_cons, lua_table_to_GC]
      dsimp only
      rw [luaIdx_succ (by omega), e1]
      exact e2
    · intro e he
      rcases List.mem_cons.1 he with rfl | he
      · exact ⟨a, o2 _ _ hnd.1 g1, ra⟩
      · exact v2 e he
    · intro j x hj hx
      simp only [List.map_cons, List.mem_cons, not_or] at hj
      refine o2 j x hj.2 ?_
      rw [o1 j hj.1]
      exact grown_old hx

/-- A whole array. -/
theorem store_array {α : Type} {d : α} {up : List α → GC} {R : LuaV → α → Prop} {t : List (LKey × LuaV)} {vs : List LuaV}
    (ht : t.Perm (arrayEntries vs)) (hl : vs.length < 2 ^ 32)
    (hs : ∀ v ∈ vs, ∀ i, i < vs.length → ∀ w : List α, (∀ x, w[i]? = some x → x = d) → Stores d up R i v w) :
    ∃ w, lua_table_to_GC t (up []) = .ok (up w) () ∧ w.length = vs.length ∧
      ∀ (i : Nat) v, vs[i]? = some v → ∃ a, w[i]? = some a ∧ R v a := by
  obtain ⟨es, rfl, h1, h2, h3⟩ := perm_entries ht
  have hlt : ∀ e ∈ es, e.1 < vs.length := fun e he => (List.getElem?_eq_some_iff.1 (h2 e he)).1
  obtain ⟨w, e, -, l, v, -⟩ := store_entries hl es [] (Nat.zero_le _) h1 hlt (by simp)
    (fun e he w hw => hs e.2 (List.mem_of_getElem? (h2 e he)) e.1 (hlt e he) w hw)
  have hv : ∀ (i : Nat) v, vs[i]? = some v → ∃ a, w[i]? = some a ∧ R v a := fun i x hx => v (i, x) (h3 i x hx)
  refine ⟨w, e, Nat.le_antisymm l ?_, hv⟩
  cases hvs : vs.length with
  | zero => exact Nat.zero_le _
  | succ m =>
    obtain ⟨a, ha, -⟩ := hv m vs[m] (List.getElem?_eq_getElem (by omega))
    exact (List.getElem?_eq_some_iff.1 ha).1

theorem stores_bool {i : Nat} (h : i + 1 < 2 ^ 32) (b : Bool) (w : List Bool) :
    Stores false vecBool (fun v a => v = .bool a) i (.bool b) w := by
  obtain ⟨w', y, h1, h2, h3, h4, h5⟩ := refAt_spec false vecBool w i id h
  refine ⟨w'.set i b, b, ?_, rfl, ?_, by simp [h4], fun j hj => ?_⟩
  · rw [pushVecElement, pushLuaBool, get_bool_at, h1]
    simp only [Res.bind]
    rw [if_pos (by omega)]
  · exact List.getElem?_set_self (by omega)
  · rw [List.getElem?_set_ne (Ne.symm hj)]; exact h5 j hj

theorem stores_str {i : Nat} (h : i + 1 < 2 ^ 32) {s : Bytes} (hs : noNul s = true) (w : List Bytes) :
    Stores [] vecString (fun v a => v = .str a) i (.str s) w := by
  obtain ⟨w', y, h1, h2, h3, h4, h5⟩ := refAt_spec [] vecString w i (fun _ => cstr s) h
  refine ⟨w', s, ?_, rfl, ?_, h4, h5⟩
  · rw [pushVecElement, get_string_at, h1]; rfl
  · rw [h3, cstr_of_noNul hs]

theorem stores_table {i : Nat} (h : i + 1 < 2 ^ 32) {t : List (LKey × LuaV)} {g : GC}
    {R : LuaV → GC → Prop} (hr : lua_table_to_GC t notype = .ok g ()) (hR : R (.table t) g) (w : List GC)
    (hw : ∀ x, w[i]? = some x → x = notype) : Stores notype vector R i (.table t) w := by
  obtain ⟨h1, h2⟩ := checkResize_spec notype i w h
  have hlt : i < (checkResize notype i w).length := by omega
  have hg : (checkResize notype i w)[i]? = some notype := by
    rw [h2]
    unfold grownAt
    split
    · rename_i hl
      rw [List.getElem?_eq_getElem hl, hw _ (List.getElem?_eq_getElem hl)]
    · rw [if_pos (by omega)]
  refine ⟨(checkResize notype i w).set i g, g, ?_, hR, List.getElem?_set_self hlt, by simp [h1], fun j hj => ?_⟩
  · rw [pushVecElement, withIdx]
    simp only [oldVector, hg, hr]
    rfl
  · rw [List.getElem?_set_ne (Ne.symm hj), h2]

/-- The first entry may find an empty container. -/
theorem push_empty (i : Nat) : (∀ b, pushVecElement i (.bool b) notype = pushVecElement i (.bool b) (vecBool [])) ∧
    (∀ s, pushVecElement i (.str s) notype = pushVecElement i (.str s) (vecString [])) ∧
    ∀ t, pushVecElement i (.table t) notype = pushVecElement i (.table t) (vector []) :=
  ⟨fun _ => by rw [pushVecElement, pushVecElement]; rfl, fun _ => by rw [pushVecElement, pushVecElement]; rfl,
    fun _ => by rw [pushVecElement, pushVecElement]; rfl⟩

theorem table_start {t : List (LKey × LuaV)} {vs : List LuaV} {g : GC} (ht : t.Perm (arrayEntries vs)) (hv : vs ≠ [])
    (h : ∀ i, ∀ v ∈ vs, pushVecElement i v notype = pushVecElement i v g) :
    lua_table_to_GC t notype = lua_table_to_GC t g := by
  obtain ⟨es, rfl, -, h2, h3⟩ := perm_entries ht
  cases es with
  | nil =>
    cases vs with
    | nil => exact absurd rfl hv
    | cons x vs => exact absurd (h3 0 x rfl) (by simp)
  | cons e es =>
    rw [List.map_cons, lua_table_to_GC, lua_table_to_GC, h _ _ (List.mem_of_getElem? (h2 e (.head _)))]

/-- A named entry is stored as the value would be on its own. -/
theorem push_named {k : Bytes} {v : LuaV} {x : GC} {g : GC} (hk : noNul k = true) (hv : LuaOk v)
    (hx : lua_to_GC v = .ok x ()) (hm : mfind k g.oldMap = none) :
    pushHashElement k v g = .ok (map (mset k x g.oldMap)) () := by
  have key : ∀ f : GC → Res Unit, f notype = .ok x () → withKey k f g = .ok (map (mset k x g.oldMap)) () := by
    intro f hf
    rw [withKey]
    simp only [cstr_of_noNul hk, hm, Option.getD_none, hf]
    rfl
  have num : ∀ y : F64, setLuaNumber y = .ok x () → pushHashNumber k y g = .ok (map (mset k x g.oldMap)) () := by
    intro y hy
    have hi : ∃ b, y.isInteger64 = .ok b := by
      unfold setLuaNumber at hy
      split at hy <;> first | exact ⟨_, ‹_›⟩ | cases hy
    obtain ⟨b, hb⟩ := hi
    rw [pushHashNumber, hb]
    exact key _ hy
  cases v with
  | nil => cases hv with | number h => rcases h with ⟨_, _, h, -⟩ | ⟨_, h, -⟩ <;> cases h
  | other => cases hv with | number h => rcases h with ⟨_, _, h, -⟩ | ⟨_, h, -⟩ <;> cases h
  | bool b => rw [pushHashElement]; exact key _ hx
  | int i => rw [pushHashElement]; exact num _ hx
  | num y => rw [pushHashElement]; exact num _ hx
  | str s => rw [pushHashElement]; exact key _ hx
  | table t => rw [pushHashElement]; exact key _ hx

/-- Named entries stored one after the other, in any order. -/
theorem store_named (R : LuaV → GC → Prop) : ∀ (t : List (LKey × LuaV)) (g : GC), (t.map Prod.fst).Nodup →
    (∀ e ∈ t, ∃ s, e.1 = .str s ∧ noNul s = true ∧ mfind s g.oldMap = none) → (∀ e ∈ t, LuaOk e.2) →
    (∀ e ∈ t, ∃ x, lua_to_GC e.2 = .ok x () ∧ R e.2 x) → KeysSorted g.oldMap → t ≠ [] →
    ∃ m, lua_table_to_GC t g = .ok (map m) () ∧ KeysSorted m ∧
      (∀ s v, (LKey.str s, v) ∈ t → ∃ x, mfind s m = some x ∧ R v x) ∧
      (∀ s, (∀ v, (LKey.str s, v) ∉ t) → mfind s m = mfind s g.oldMap)
  | (k, v) :: t, g, hnd, hk, hok, hx, hs, _ => by
    simp only [List.map_cons, List.nodup_cons] at hnd
    obtain ⟨s, rfl, hn, hf⟩ := hk (k, v) (.head _)
    obtain ⟨x, e1, hR⟩ := hx (_, v) (.head _)
    have hp := push_named hn (hok (_, v) (.head _)) e1 hf
    by_cases ht : t = []
    · subst ht
      refine ⟨_, by rw [lua_table_to_GC, cstr_of_noNul hn, hp]; rfl, sorted_mset _ _ _ hs, ?_, ?_⟩
      · intro s' v' h'
        cases List.mem_singleton.1 h'
        exact ⟨x, mfind_mset_same _ _ _, hR⟩
      · intro s' h'
        have : s' ≠ s := by rintro rfl; exact h' v (.head _)
        exact mfind_mset_other this _ _
    · obtain ⟨m, e2, hsm, h1, h2⟩ := store_named R t (map (mset s x g.oldMap)) hnd.2
        (fun e he => by
          obtain ⟨s', h1, h2, h3⟩ := hk e (.tail _ he)
          refine ⟨s', h1, h2, ?_⟩
          have hne : s' ≠ s := by
            rintro rfl
            exact hnd.1 (h1 ▸ List.mem_map_of_mem he)
          rw [oldMap, mfind_mset_other hne]
          exact h3)
        (fun e he => hok e (.tail _ he)) (fun e he => hx e (.tail _ he)) (sorted_mset _ _ _ hs) ht
      refine ⟨m, by rw [lua_table_to_GC, cstr_of_noNul hn, hp]; exact e2, hsm, ?_, ?_⟩
      · intro s' v' h'
        rcases List.mem_cons.1 h' with h' | h'
        · cases h'
          refine ⟨x, ?_, hR⟩
          rw [h2 s fun v' hv' => hnd.1 (List.mem_map_of_mem (f := Prod.fst) hv')]
          exact mfind_mset_same _ _ _
        · exact h1 _ _ h'
      · intro s' h'
        have : s' ≠ s := by rintro rfl; exact h' v (.head _)
        rw [h2 s' fun v' hv' => h' v' (.tail _ hv')]
        exact mfind_mset_other this _ _

end GC
end GCV
