import Verif.Spec.LuaRoom
import Verif.Lemmas.Lua

/-!
# C102: room on the Lua stack
-/

namespace GCV

theorem lpush_eq (v : LuaV) (st : LuaStack) : lpush v st = if st.length + 1 ≤ luaSlots then .ok (v :: st) else .ub := rfl

theorem pushItems_one : ∀ (xs : List LuaV) (i : Nat) (t : List (LKey × LuaV)) (st : LuaStack),
    ∃ t', pushItems i xs (.table t :: st) = .ok (.table t' :: st)
  | [], _, t, st => ⟨t, rfl⟩
  | x :: r, i, t, st => by
    rw [pushItems]
    exact pushItems_one r (i + 1) _ st

theorem pushItemsIn_eq : ∀ (xs : List LuaV) (i : Nat) (t : List (LKey × LuaV)) (st : LuaStack),
    pushItemsIn i xs (.table t :: st) =
      if xs = [] ∨ st.length + 2 ≤ luaSlots then pushItems i xs (.table t :: st) else .ub
  | [], _, t, st => by rw [if_pos (.inl rfl)]; rfl
  | x :: r, i, t, st => by
    rw [pushItemsIn, lpush_eq]
    simp only [List.length_cons, reduceCtorEq, false_or]
    by_cases h : st.length + 2 ≤ luaSlots
    · rw [if_pos (by omega), if_pos h]
      show (rawseti (luaIndex i) (x :: .table t :: st)).bind _ = (rawseti (luaIndex i) (x :: .table t :: st)).bind _
      simp only [rawseti, Out.bind]
      rw [pushItemsIn_eq r (i + 1) _ st, if_pos (.inr h)]
    · rw [if_neg (by omega), if_neg h]; rfl

theorem pushItemTableIn_eq (xs : List LuaV) (st : LuaStack) :
    pushItemTableIn xs st = if st.length + (if xs = [] then 1 else 2) ≤ luaSlots then pushItemTable xs st else .ub := by
  rw [pushItemTableIn, lpush_eq]
  by_cases h : st.length + 1 ≤ luaSlots
  · rw [if_pos h]
    show pushItemsIn 0 xs _ = _
    rw [pushItemsIn_eq]
    by_cases hx : xs = []
    · rw [if_pos (.inl hx), if_pos hx, if_pos h]; rfl
    · rw [if_neg hx]
      by_cases h2 : st.length + 2 ≤ luaSlots
      · rw [if_pos (.inr h2), if_pos h2]; rfl
      · rw [if_neg (by simp [hx, h2]), if_neg h2]
  · rw [if_neg h, if_neg]
    · rfl
    · split <;> omega

theorem push_room :
    (∀ g : GC, g.every (fun x => !isVecBool x) = true → ∀ st,
      (∃ v, GC_to_lua g st = .ok (v :: st)) ∧
      pushGC g st = if st.length + luaNeed g ≤ luaSlots then GC_to_lua g st else .ub) ∧
    (∀ v : List GC, GC.everyL (fun x => !isVecBool x) v = true → ∀ i t st, 
      (∃ t', pushElems i v (.table t :: st) = .ok (.table t' :: st)) ∧
      (st.length + 1 ≤ luaSlots → pushGCElems i v (.table t :: st) =
        if st.length + 1 + luaNeedL v ≤ luaSlots then pushElems i v (.table t :: st) else .ub)) ∧
    (∀ m : Entries, GC.everyM (fun x => !isVecBool x) m = true → ∀ t st,
      (∃ t', pushEntries m (.table t :: st) = .ok (.table t' :: st)) ∧
      (st.length + 1 ≤ luaSlots → pushGCEntries m (.table t :: st) =
        if st.length + 1 + luaNeedM m ≤ luaSlots then pushEntries m (.table t :: st) else .ub)) := by
  have one : ∀ xs st, ∃ v, pushItemTable xs st = .ok (v :: st) := by
    intro xs st
    obtain ⟨t, e⟩ := pushItems_one xs 0 [] st
    exact ⟨_, e⟩
  have arr : ∀ {α : Type} (f : α → LuaV) (v : List α) (st : LuaStack), pushItemTableIn (v.map f) st =
      if st.length + (if v = [] then 1 else 2) ≤ luaSlots then pushItemTable (v.map f) st else .ub := by
    intro α f v st
    rw [pushItemTableIn_eq]; simp only [List.map_eq_nil_iff]
  refine GC.induct ?_ ?_ ?_ ?_ ?_ ?_ ?_
  · intro g hv hm hb st
    cases g with
    | vector v => exact absurd rfl (hv v)
    | map m => exact absurd rfl (hm m)
    | vecBool v => simp [GC.every, isVecBool] at hb
    | vecInt v => exact ⟨one _ _, arr _ _ _⟩
    | vecLong v => exact ⟨one _ _, arr _ _ _⟩
    | vecReal v => exact ⟨one _ _, arr _ _ _⟩
    | vecString v => exact ⟨one _ _, arr _ _ _⟩
    | _ => exact ⟨⟨_, rfl⟩, rfl⟩
  · intro v ih hb st
    simp only [GC.every, Bool.and_eq_true] at hb
    refine ⟨?_, ?_⟩
    · obtain ⟨t', h⟩ := (ih hb.2 0 [] st).1
      exact ⟨_, h⟩
    · rw [pushGC, GC_to_lua, luaNeed, lpush_eq]
      by_cases h : st.length + 1 ≤ luaSlots
      · rw [if_pos h]
        show pushGCElems 0 v _ = _
        rw [(ih hb.2 0 [] st).2 h, Nat.add_assoc]
      · rw [if_neg h, if_neg (by omega)]; rfl
  · intro m ih hb st
    simp only [GC.every, Bool.and_eq_true] at hb
    refine ⟨?_, ?_⟩
    · obtain ⟨t', h⟩ := (ih hb.2 [] st).1
      exact ⟨_, h⟩
    · rw [pushGC, GC_to_lua, luaNeed, lpush_eq]
      by_cases h : st.length + 1 ≤ luaSlots
      · rw [if_pos h]
        show pushGCEntries m _ = _
        rw [(ih hb.2 [] st).2 h, Nat.add_assoc]
      · rw [if_neg h, if_neg (by omega)]; rfl
  · intro _ i t st
    exact ⟨⟨_, rfl⟩, fun h => by rw [luaNeedL, Nat.add_zero, if_pos h]; rfl⟩
  · intro x r hx hr hb i t st
    simp only [GC.everyL, Bool.and_eq_true] at hb
    obtain ⟨⟨v, h1⟩, h2⟩ := hx hb.1 (.table t :: st)
    have h3 := hr hb.2 (i + 1) (LuaV.set (.int (luaIndex i)) v t) st
    refine ⟨?_, fun h => ?_⟩
    · rw [pushElems, h1]; exact h3.1
    · rw [pushGCElems, h2, pushElems, luaNeedL, h1]
      simp only [List.length_cons]
      by_cases hn : st.length + 1 + luaNeed x ≤ luaSlots
      · rw [if_pos hn]
        show pushGCElems (i + 1) r _ = _
        rw [h3.2 h]
        by_cases hn' : st.length + 1 + luaNeedL r ≤ luaSlots
        · rw [if_pos hn', if_pos (by omega)]; rfl
        · rw [if_neg hn', if_neg (by omega)]
      · rw [if_neg hn, if_neg (by omega)]; rfl
  · intro _ t st
    exact ⟨⟨_, rfl⟩, fun h => by rw [luaNeedM, Nat.add_zero, if_pos h]; rfl⟩
  · intro k x r hx hr hb t st
    simp only [GC.everyM, Bool.and_eq_true] at hb
    obtain ⟨⟨v, h1⟩, h2⟩ := hx hb.1 (.str (cstr k) :: .table t :: st)
    have h3 := hr hb.2 (LuaV.set (.str (cstr k)) v t) st
    refine ⟨?_, fun h => ?_⟩
    · rw [pushEntries, h1]; exact h3.1
    · rw [pushGCEntries, pushEntries, luaNeedM, h1, lpush_eq]
      simp only [List.length_cons]
      by_cases hk : st.length + 1 + 1 ≤ luaSlots
      · rw [if_pos hk]
        simp only [Out.bind, h2, List.length_cons]
        by_cases hn : st.length + 1 + 1 + luaNeed x ≤ luaSlots
        · rw [if_pos hn, h1]
          show pushGCEntries r _ = _
          rw [h3.2 h]
          by_cases hn' : st.length + 1 + luaNeedM r ≤ luaSlots
          · rw [if_pos hn', if_pos (by omega)]; rfl
          · rw [if_neg hn', if_neg (by omega)]
        · rw [if_neg hn, if_neg (by omega)]
      · rw [if_neg hk, if_neg (by omega)]; rfl

/-! ## Reading -/

namespace GC

theorem mapState_ok {α : Type} {r : Res α} {f : GC → GC} {g : GC} {a : α} (h : r.mapState f = .ok g a) :
    ∃ x, r = .ok x a := by
  cases r <;> simp [Res.mapState] at h
  exact ⟨_, by rw [h.2]⟩

theorem withIdx_ub {i : Nat} {f f' : GC → Res Unit} {g g' : GC} {a : Unit} (h : withIdx i f g = .ok g' a)
    (hf : ∀ x y, f x = .ok y () → f' x = .ub) : withIdx i f' g = .ub := by
  unfold withIdx at h ⊢
  simp only at h ⊢
  cases hx : (checkResize notype i g.oldVector)[i]? with
  | none => rfl
  | some x =>
    simp only [hx] at h ⊢
    obtain ⟨y, hy⟩ := mapState_ok h
    rw [hf x y hy]; rfl

theorem withKey_ub {k : Bytes} {f f' : GC → Res Unit} {g g' : GC} {a : Unit} (h : withKey k f g = .ok g' a)
    (hf : ∀ x y, f x = .ok y () → f' x = .ub) : withKey k f' g = .ub := by
  unfold withKey at h ⊢
  simp only at h ⊢
  obtain ⟨y, hy⟩ := mapState_ok h
  rw [hf _ y hy]; rfl

/-- The reading of a value under a number or a string. -/
def readElem (h : Nat) : LKey → LuaV → GC → Res Unit
  | .int n, v, g => readVecElement h (luaIdx n) v g
  | .flt _, v, g => readVecElement h (luaIdx 0) v g
  | .str s, v, g => readHashElement h (cstr s) v g
  | .other, _, g => .ok g ()

def takeElem : LKey → LuaV → GC → Res Unit
  | .int n, v, g => pushVecElement (luaIdx n) v g
  | .flt _, v, g => pushVecElement (luaIdx 0) v g
  | .str s, v, g => pushHashElement (cstr s) v g
  | .other, _, g => .ok g ()

def keyNeed : LKey → LuaV → Nat
  | .other, _ => 0
  | _, v => valueNeed v

theorem readTable_cons (h : Nat) (k : LKey) (v : LuaV) (r : List (LKey × LuaV)) (g : GC) :
    readTable h ((k, v) :: r) g = guardL (h + 2) ((readElem (h + 2) k v g).bind fun g' _ => readTable h r g') := by
  cases k <;> rfl

theorem takeTable_cons (k : LKey) (v : LuaV) (r : List (LKey × LuaV)) (g : GC) :
    lua_table_to_GC ((k, v) :: r) g = (takeElem k v g).bind fun g' _ => lua_table_to_GC r g' := by
  cases k <;> rfl

theorem entriesNeed_cons (k : LKey) (v : LuaV) (r : List (LKey × LuaV)) :
    entriesNeed ((k, v) :: r) = max (2 + keyNeed k v) (entriesNeed r) := by
  cases k <;> rfl

theorem res_bind_ok {α β : Type} {r : Res α} {f : GC → α → Res β} {g : GC} {b : β} (h : r.bind f = .ok g b) :
    ∃ x a, r = .ok x a ∧ f x a = .ok g b := by
  cases r <;> simp [Res.bind] at h
  exact ⟨_, _, rfl, h⟩

theorem readTop_of {t : List (LKey × LuaV)}
    (ih : ∀ (h : Nat) (g : GC),
      (h + entriesNeed t ≤ luaSlots → readTable h t g = lua_table_to_GC t g) ∧
      (luaSlots < h + entriesNeed t → h + 1 ≤ luaSlots → ∀ g', lua_table_to_GC t g = .ok g' () → readTable h t g = .ub))
    (h : Nat) (g : GC) :
    (h + valueNeed (.table t) ≤ luaSlots → readTableTop h t g = lua_table_to_GC t g) ∧
    (luaSlots < h + valueNeed (.table t) → ∀ g', lua_table_to_GC t g = .ok g' () → readTableTop h t g = .ub) := by
  unfold readTableTop guardL
  rw [valueNeed]
  refine ⟨fun h1 => ?_, fun h1 g' hg => ?_⟩
  · rw [if_pos (by omega), (ih h g).1 (by omega)]
  · by_cases h2 : h + 1 ≤ luaSlots
    · rw [if_pos h2, (ih h g).2 (by omega) h2 g' hg]
    · rw [if_neg h2]

theorem withIdx_congr {i : Nat} {f f' : GC → Res Unit} (h : ∀ x, f x = f' x) (g : GC) : withIdx i f g = withIdx i f' g := by
  rw [funext h]

theorem withKey_congr {k : Bytes} {f f' : GC → Res Unit} (h : ∀ x, f x = f' x) (g : GC) : withKey k f g = withKey k f' g := by
  rw [funext h]

theorem scalar_elem {v : LuaV} (hv : ∀ t, v ≠ .table t) (h : Nat) (k : LKey) (g : GC) :
    readElem h k v g = takeElem k v g ∧ keyNeed k v = 0 := by
  cases k <;> cases v <;> first | exact ⟨rfl, rfl⟩ | exact absurd rfl (hv _)

mutual

theorem room_elem : ∀ (v : LuaV) (h : Nat) (k : LKey) (g : GC),
    (h + keyNeed k v ≤ luaSlots → readElem h k v g = takeElem k v g) ∧
    (luaSlots < h + keyNeed k v → h ≤ luaSlots → ∀ g', takeElem k v g = .ok g' () → readElem h k v g = .ub)
  | .table t, h, k, g => by
    have ih := readTop_of (room_table t) h
    cases k with
    | other => exact ⟨fun _ => rfl, fun h1 h2 => absurd h1 (by simp only [keyNeed]; omega)⟩
    | int n =>
      exact ⟨fun h1 => withIdx_congr (fun x => (ih x).1 h1) g,
        fun h1 _ g' hg => withIdx_ub (f := lua_table_to_GC t) hg fun x y hx => (ih x).2 h1 y hx⟩
    | flt n =>
      exact ⟨fun h1 => withIdx_congr (fun x => (ih x).1 h1) g,
        fun h1 _ g' hg => withIdx_ub (f := lua_table_to_GC t) hg fun x y hx => (ih x).2 h1 y hx⟩
    | str s =>
      exact ⟨fun h1 => withKey_congr (fun x => (ih x).1 h1) g,
        fun h1 _ g' hg => withKey_ub (f := lua_table_to_GC t) hg fun x y hx => (ih x).2 h1 y hx⟩
  | .nil, h, k, g => by
    obtain ⟨e, e2⟩ := scalar_elem (v := .nil) (by simp) h k g
    exact ⟨fun _ => e, fun h1 h2 => absurd h1 (by omega)⟩
  | .bool _, h, k, g => by
    obtain ⟨e, e2⟩ := scalar_elem (v := .bool _) (by simp) h k g
    exact ⟨fun _ => e, fun h1 h2 => absurd h1 (by omega)⟩
  | .int _, h, k, g => by
    obtain ⟨e, e2⟩ := scalar_elem (v := .int _) (by simp) h k g
    exact ⟨fun _ => e, fun h1 h2 => absurd h1 (by omega)⟩
  | .num _, h, k, g => by
    obtain ⟨e, e2⟩ := scalar_elem (v := .num _) (by simp) h k g
    exact ⟨fun _ => e, fun h1 h2 => absurd h1 (by omega)⟩
  | .str _, h, k, g => by
    obtain ⟨e, e2⟩ := scalar_elem (v := .str _) (by simp) h k g
    exact ⟨fun _ => e, fun h1 h2 => absurd h1 (by omega)⟩
  | .other, h, k, g => by
    obtain ⟨e, e2⟩ := scalar_elem (v := .other) (by simp) h k g
    exact ⟨fun _ => e, fun h1 h2 => absurd h1 (by omega)⟩
termination_by structural v => v

theorem room_table : ∀ (t : List (LKey × LuaV)) (h : Nat) (g : GC),
    (h + entriesNeed t ≤ luaSlots → readTable h t g = lua_table_to_GC t g) ∧
    (luaSlots < h + entriesNeed t → h + 1 ≤ luaSlots → ∀ g', lua_table_to_GC t g = .ok g' () → readTable h t g = .ub)
  | [], h, g => ⟨fun _ => rfl, fun h1 h2 => absurd h1 (by simp only [entriesNeed]; omega)⟩
  | (k, v) :: r, h, g => by
    have i1 := room_elem v (h + 2) k g
    rw [readTable_cons, takeTable_cons, entriesNeed_cons]
    unfold guardL
    refine ⟨fun h1 => ?_, fun h1 h2 g' hg => ?_⟩
    · rw [if_pos (by omega), i1.1 (by omega)]
      congr 1
      funext x _
      exact (room_table r h x).1 (by omega)
    · obtain ⟨x, a, hx, hr⟩ := res_bind_ok hg
      by_cases h3 : h + 2 ≤ luaSlots
      · rw [if_pos h3]
        by_cases h4 : luaSlots < h + 2 + keyNeed k v
        · rw [i1.2 h4 h3 x hx]; rfl
        · rw [i1.1 (by omega), hx]
          exact (room_table r h x).2 (by omega) h2 g' hr
      · rw [if_neg h3]
termination_by structural t => t

end

end GC

namespace GC

/-- **C102**: writing a container takes exactly `luaNeed g` places. -/
theorem C102_write (g : GC) (hb : g.every fun x => !isVecBool x) (st : LuaStack) :
    pushGC g st = if st.length + luaNeed g ≤ luaSlots then GC_to_lua g st else .ub := (push_room.1 g hb st).2

/-- **C102**: reading a table takes exactly `valueNeed` places above it: with less the call is undefined, unless it throws
before. -/
theorem C102_read (t : List (LKey × LuaV)) (h : Nat) (g : GC) :
    (h + valueNeed (.table t) ≤ luaSlots → readTableTop h t g = lua_table_to_GC t g) ∧
    (luaSlots < h + valueNeed (.table t) → ∀ g', lua_table_to_GC t g = .ok g' () → readTableTop h t g = .ub) :=
  readTop_of (room_table t) h g

end GC
end GCV
