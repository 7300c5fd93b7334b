import Verif.Props.LuaBack
import Verif.Lemmas.Copy

/-!
# C102, C103, C104: the room on the stack, sessions with the Lua interpreter, and containers that go to Lua and come back
-/

namespace GCV

theorem get_set_same {k : LKey} {v : LuaV} {t : List (LKey × LuaV)} : LuaV.get k (LuaV.set k v t) = v := by
  have hf : ∀ t : List (LKey × LuaV), LuaV.get k (t.filter fun e => e.1 ≠ k) = .nil := by
    intro t
    induction t with
    | nil => rfl
    | cons e r ih =>
      by_cases h : e.1 = k
      · rw [List.filter_cons_of_neg (by simpa using h)]; exact ih
      · rw [List.filter_cons_of_pos (by simpa using h), LuaV.get, if_neg (fun h' => h h'.symm)]; exact ih
  unfold LuaV.set
  cases v <;> first | exact hf t | simp [LuaV.get]

theorem get_set_other {k k' : LKey} {v : LuaV} {t : List (LKey × LuaV)} (h : k' ≠ k) :
    LuaV.get k' (LuaV.set k v t) = LuaV.get k' t := by
  have hf : ∀ t : List (LKey × LuaV), LuaV.get k' (t.filter fun e => e.1 ≠ k) = LuaV.get k' t := by
    intro t
    induction t with
    | nil => rfl
    | cons e r ih =>
      by_cases h1 : e.1 = k
      · rw [List.filter_cons_of_neg (by simpa using h1), LuaV.get, if_neg (fun h' => h (h'.trans h1))]; exact ih
      · rw [List.filter_cons_of_pos (by simpa using h1), LuaV.get, LuaV.get, ih]
  unfold LuaV.set
  cases v <;> first | exact hf t | (simp only; rw [LuaV.get, if_neg h]; exact hf t)

namespace GC
open F64

/-! ## Room -/

theorem needL_le {n : Nat} : ∀ {v : List GC}, luaNeedL v ≤ n ↔ ∀ x ∈ v, luaNeed x ≤ n
  | [] => by simp [luaNeedL]
  | x :: r => by rw [luaNeedL, Nat.max_le, needL_le]; simp

theorem needM_le {n : Nat} : ∀ {m : Entries}, luaNeedM m ≤ n ↔ ∀ e ∈ m, 1 + luaNeed e.2 ≤ n
  | [] => by simp [luaNeedM]
  | (k, x) :: r => by rw [luaNeedM, Nat.max_le, needM_le]; simp

theorem tablesL_le {n : Nat} : ∀ {v : List GC}, luaTablesL v ≤ n ↔ ∀ x ∈ v, luaTables x ≤ n
  | [] => by simp [luaTablesL]
  | x :: r => by rw [luaTablesL, Nat.max_le, tablesL_le]; simp

theorem tablesM_le {n : Nat} : ∀ {m : Entries}, luaTablesM m ≤ n ↔ ∀ e ∈ m, luaTables e.2 ≤ n
  | [] => by simp [luaTablesM]
  | (k, x) :: r => by rw [luaTablesM, Nat.max_le, tablesM_le]; simp

theorem entriesNeed_le {n : Nat} : ∀ {t : List (LKey × LuaV)}, (∀ e ∈ t, e.1 ≠ .other) →
    (entriesNeed t ≤ n ↔ ∀ e ∈ t, 2 + valueNeed e.2 ≤ n)
  | [], _ => by simp [entriesNeed]
  | (k, x) :: r, h => by
    have ih := entriesNeed_le (n := n) (t := r) fun e he => h e (by simp [he])
    have h1 := h (k, x) (by simp)
    cases k <;> first | exact absurd rfl h1 | (rw [entriesNeed, Nat.max_le, ih]; simp)

theorem valueNeed_table {t : List (LKey × LuaV)} {n : Nat} (h0 : t ≠ []) (h : ∀ e ∈ t, e.1 ≠ .other) :
    valueNeed (.table t) ≤ n ↔ ∀ e ∈ t, 2 + valueNeed e.2 ≤ n := by
  rw [valueNeed, Nat.max_le, entriesNeed_le h]
  obtain ⟨e, he⟩ := List.exists_mem_of_ne_nil _ h0
  exact ⟨fun h => h.2, fun h => ⟨by have := h e he; omega, h⟩⟩

theorem valueNeed_array {vs : List LuaV} {n : Nat} (h0 : vs ≠ []) :
    valueNeed (.table (arrayEntries vs).reverse) ≤ n ↔ ∀ v ∈ vs, 2 + valueNeed v ≤ n := by
  rw [valueNeed_table (by simpa [arrayEntries] using h0)
    (fun e he => by obtain ⟨i, hi⟩ := entries_ints (List.mem_reverse.1 he); rw [hi]; simp)]
  constructor
  · intro h v hv
    obtain ⟨i, hi, rfl⟩ := List.getElem_of_mem hv
    refine h (LKey.int (i + 1), vs[i]) (List.mem_reverse.2 ?_)
    unfold arrayEntries
    exact List.mem_map.2 ⟨(vs[i], i), by rw [List.mem_zipIdx_iff_getElem?]; simp [hi], rfl⟩
  · intro h e he
    obtain ⟨p, hp, rfl⟩ := List.mem_map.1 (List.mem_reverse.1 he)
    rw [List.mem_zipIdx_iff_getElem?] at hp
    exact h _ (List.mem_of_getElem? hp)

theorem eq_of_le_iff {a b : Nat} (h : ∀ n, a ≤ n ↔ b ≤ n) : a = b :=
  Nat.le_antisymm ((h b).2 (Nat.le_refl _)) ((h a).1 (Nat.le_refl _))

theorem form_packed {α : Type} {g : GC} (v : List α) (txt : α → LuaV) (hn : ∀ x ∈ v, txt x ≠ .nil) (hl : v.length < 2 ^ 31)
    (hp : GC_to_lua g [] = pushItemTable (v.map txt) []) : form g = .table (arrayEntries (v.map txt)).reverse :=
  form_eq (by rw [hp, pushItemTable_list _ _ (by simpa using hn) (by simpa using hl)])

theorem form_vector {v : List GC} (hl : v.length < 2 ^ 31) (hs : ∀ x ∈ v, Sent x) :
    form (.vector v) = .table (arrayEntries (v.map form)).reverse :=
  form_eq (by rw [GC_to_lua, pushElems_list v 0 [] [] hs (by omega) (by intro e he; simp at he), List.append_nil]; rfl)

theorem form_map {m : Entries} (hk : KeysSorted m) (hz : ∀ e ∈ m, noNul e.1 = true) (hs : ∀ e ∈ m, Sent e.2) :
    form (.map m) = .table (m.map fun e => (LKey.str e.1, form e.2)).reverse :=
  form_eq (by rw [GC_to_lua, pushEntries_list m [] [] hk hz hs (by intro e _ p hp; simp at hp), List.append_nil])

/-- Places taken by a container that comes back. -/
structure Room (g : GC) : Prop where
  packed : g.every (fun x => !isVecBool x) = true
  write : luaNeed g ≤ 1 + 2 * luaTables g
  read : valueNeed (form g) = 2 * luaTables g

theorem room_scalar {g : GC} {v : LuaV} (h : form g = v) (hv : ∀ t, v ≠ .table t) (h1 : luaNeed g = 1) (h2 : luaTables g = 0)
    (h3 : g.every (fun x => !isVecBool x) = true) : Room g := by
  refine ⟨h3, by omega, ?_⟩
  rw [h, h2]
  cases v <;> first | exact absurd rfl (hv _) | rfl

theorem room_packed {α : Type} {g : GC} (v : List α) (txt : α → LuaV) (h0 : v ≠ []) (hn : ∀ x, txt x ≠ .nil)
    (ht : ∀ x t, txt x ≠ .table t) (hl : v.length < 2 ^ 31) (hp : GC_to_lua g [] = pushItemTable (v.map txt) [])
    (h1 : luaNeed g ≤ 2) (h2 : luaTables g = 1) (h3 : g.every (fun x => !isVecBool x) = true) : Room g := by
  refine ⟨h3, by omega, ?_⟩
  rw [form_packed v txt (fun x _ => hn x) hl hp, h2]
  refine eq_of_le_iff fun n => ?_
  have z : ∀ x, valueNeed (txt x) = 0 := by
    intro x
    cases h : txt x <;> first | exact absurd h (ht x _) | rfl
  rw [valueNeed_array (by simpa using h0)]
  obtain ⟨a, ha⟩ := List.exists_mem_of_ne_nil _ h0
  constructor
  · intro h
    have := h (txt a) (List.mem_map.2 ⟨a, ha, rfl⟩)
    omega
  · intro h w hw
    obtain ⟨x, -, rfl⟩ := List.mem_map.1 hw
    rw [z]; omega

theorem room_vector {v : List GC} (h0 : v ≠ []) (hl : v.length < 2 ^ 31) (hs : ∀ x ∈ v, Sent x) (hr : ∀ x ∈ v, Room x) :
    Room (.vector v) := by
  refine ⟨?_, ?_, ?_⟩
  · rw [GC.every, Bool.and_eq_true, everyL_iff]
    exact ⟨rfl, fun x hx => (hr x hx).packed⟩
  · rw [luaNeed, luaTables]
    have : luaNeedL v ≤ 1 + 2 * luaTablesL v := needL_le.2 fun x hx => by
      have := tablesL_le.1 (Nat.le_refl (luaTablesL v)) x hx
      have := (hr x hx).write
      omega
    omega
  · rw [form_vector hl hs, luaTables]
    refine eq_of_le_iff fun n => ?_
    rw [valueNeed_array (by simpa using h0)]
    obtain ⟨a, ha⟩ := List.exists_mem_of_ne_nil _ h0
    constructor
    · intro h
      have h1 := h (form a) (List.mem_map.2 ⟨a, ha, rfl⟩)
      have : luaTablesL v ≤ (n - 2) / 2 := tablesL_le.2 fun x hx => by
        have h2 := h (form x) (List.mem_map.2 ⟨x, hx, rfl⟩)
        rw [(hr x hx).read] at h2
        omega
      omega
    · intro h w hw
      obtain ⟨x, hx, rfl⟩ := List.mem_map.1 hw
      rw [(hr x hx).read]
      have := tablesL_le.1 (Nat.le_refl (luaTablesL v)) x hx
      omega

theorem room_map {m : Entries} (h0 : m ≠ []) (hk : KeysSorted m) (hz : ∀ e ∈ m, noNul e.1 = true) (hs : ∀ e ∈ m, Sent e.2)
    (hr : ∀ e ∈ m, Room e.2) : Room (.map m) := by
  refine ⟨?_, ?_, ?_⟩
  · rw [GC.every, Bool.and_eq_true, everyM_iff]
    exact ⟨rfl, fun e he => (hr e he).packed⟩
  · rw [luaNeed, luaTables]
    have : luaNeedM m ≤ 2 + 2 * luaTablesM m := needM_le.2 fun e he => by
      have := tablesM_le.1 (Nat.le_refl (luaTablesM m)) e he
      have := (hr e he).write
      omega
    omega
  · rw [form_map hk hz hs, luaTables]
    refine eq_of_le_iff fun n => ?_
    rw [valueNeed_table (by simpa using h0) (fun e he => by
      obtain ⟨p, -, rfl⟩ := List.mem_map.1 (List.mem_reverse.1 he); simp)]
    obtain ⟨a, ha⟩ := List.exists_mem_of_ne_nil _ h0
    constructor
    · intro h
      have h1 := h _ (List.mem_reverse.2 (List.mem_map.2 ⟨a, ha, rfl⟩))
      have : luaTablesM m ≤ (n - 2) / 2 := tablesM_le.2 fun x hx => by
        have h2 := h _ (List.mem_reverse.2 (List.mem_map.2 ⟨x, hx, rfl⟩))
        simp only [(hr x hx).read] at h2
        omega
      omega
    · intro h w hw
      obtain ⟨x, hx, rfl⟩ := List.mem_map.1 (List.mem_reverse.1 hw)
      simp only [(hr x hx).read]
      have := tablesM_le.1 (Nat.le_refl (luaTablesM m)) x hx
      omega

theorem room_number {g : GC} (h : NumberBack g) : Room g := by
  obtain ⟨x, q, h1, -⟩ := number_form h
  refine room_scalar (form_eq (h1 [])) (by simp) ?_ ?_ ?_ <;>
    cases g <;> first | rfl | exact absurd h (by simp [NumberBack])

theorem room {g : GC} (h : LuaBack g) : Room g := by
  induction h with
  | bool => exact room_scalar (v := .bool _) rfl (by simp) rfl rfl rfl
  | number h => exact room_number h
  | string h => exact room_scalar (v := .str _) rfl (by simp) rfl rfl rfl
  | @ints v h0 hl =>
    exact room_packed v (fun i => .num (ofI32 i)) h0 (by simp) (by simp) hl rfl (by simp [luaNeed, h0]) rfl rfl
  | @longs v h0 hl _ =>
    exact room_packed v (fun i => .num (ofI64 i)) h0 (by simp) (by simp) hl rfl (by simp [luaNeed, h0]) rfl rfl
  | @reals v h0 hl _ => exact room_packed v .num h0 (by simp) (by simp) hl rfl (by simp [luaNeed, h0]) rfl rfl
  | @strings v h0 hl _ =>
    exact room_packed v (fun s => .str (cstr s)) h0 (by simp) (by simp) hl rfl (by simp [luaNeed, h0]) rfl rfl
  | @bools v h0 hl hd =>
    refine room_vector h0 hl (fun x hx => by obtain ⟨b, rfl⟩ := hd x hx; exact sent_bool b) fun x hx => ?_
    obtain ⟨b, rfl⟩ := hd x hx
    exact room_scalar (v := .bool _) rfl (by simp) rfl rfl rfl
  | @numbers v h0 hl hd => exact room_vector h0 hl (fun x hx => sent_number (hd x hx)) fun x hx => room_number (hd x hx)
  | @texts v h0 hl hd =>
    refine room_vector h0 hl (fun x hx => by obtain ⟨b, rfl, hb⟩ := hd x hx; exact sent_string hb) fun x hx => ?_
    obtain ⟨b, rfl, hb⟩ := hd x hx
    exact room_scalar (v := .str _) rfl (by simp) rfl rfl rfl
  | @mixed v h0 hl hd =>
    have hc : ∀ x ∈ v, Sent x ∧ Room x := fun x hx => by
      rcases hd x hx with h | ⟨s, rfl, h⟩
      · exact ⟨sent_number h, room_number h⟩
      · exact ⟨sent_string h, room_scalar (v := .str _) rfl (by simp) rfl rfl rfl⟩
    exact room_vector h0 hl (fun x hx => (hc x hx).1) fun x hx => (hc x hx).2
  | lists h0 hl _ h ih => exact room_vector h0 hl (fun x hx => sent (h x hx)) ih
  | map h0 hk hz h ih => exact room_map h0 hk hz (fun e he => sent (h e he)) ih

/-! ## There and back -/

/-- **C104**: a container sent to a variable of the interpreter and read back, while the stack of the interpreter has room for
it: the data come back, the other variables keep their values, and sending leaves the stack as it was.  With less room one of
the two calls is undefined.

Missing: the containers that are not `LuaBack` (see the negations). -/
theorem C104_round_trip_partial (g : GC) (h : LuaBack g) (name : Bytes) (m : LuaM) :
    (m.stack.length + 1 + 2 * luaTables g ≤ luaSlots →
      ∃ m', LuaM.GC_to_global name m g = .ok m' g ∧ m'.stack = m.stack ∧
        (∀ k, k ≠ cstr name → LuaV.get (.str k) m'.globals = LuaV.get (.str k) m.globals) ∧
        ∀ w g0, ∃ m'' g', LuaM.global_to_GC w name m' g0 = .ok m'' g' ∧ SameTree (view g) (view g') ∧
          m''.globals = m'.globals) ∧
    (luaSlots < m.stack.length + 1 + 2 * luaTables g →
      LuaM.GC_to_global name m g = .ub ∨
      ∃ m', LuaM.GC_to_global name m g = .ok m' g ∧ ∀ w g0, LuaM.global_to_GC w name m' g0 = .ub) := by
  have hs := sent h
  have hr := room h
  have hw := C102_write g hr.packed m.stack
  obtain ⟨g', hg', says'⟩ := C48_value_partial _ hs.ok
  have hout : ∀ gl, LuaV.get (.str (cstr name)) gl = form g → ∀ w g0,
      (m.stack.length + 1 + 2 * luaTables g ≤ luaSlots → ∃ m'',
        LuaM.global_to_GC w name ⟨gl, m.stack⟩ g0 = .ok m'' g' ∧ m''.globals = gl) ∧
      (luaSlots < m.stack.length + 1 + 2 * luaTables g → LuaM.global_to_GC w name ⟨gl, m.stack⟩ g0 = .ub) := by
    intro gl hgl w g0
    by_cases hroom : m.stack.length < luaSlots
    · have hp : lpush (form g) m.stack = .ok (form g :: m.stack) := if_pos hroom
      have hv := hr.read
      have e : LuaM.global_to_GC w name ⟨gl, m.stack⟩ g0 = LuaM.toContainer w true (form g) ⟨gl, form g :: m.stack⟩ := by
        unfold LuaM.global_to_GC
        simp only [hgl, hp]
        have := hs.there
        split
        · next h => exact absurd h this
        · rfl
      rw [e]
      have := hs.there
      have no := hs.ok
      cases hf : form g with
      | nil => exact absurd hf this
      | other => rw [hf] at no; cases no; rename_i h; rcases h with ⟨x, q, h, -⟩ | ⟨i, h, -⟩ <;> cases h
      | table t =>
        rw [hf] at hv hg'
        have hc := C102_read t (m.stack.length + 1) .notype
        simp only [LuaM.toContainer, List.length_cons]
        constructor
        · intro hl
          rw [hc.1 (by rw [hv]; exact hl), show lua_table_to_GC t .notype = .ok g' () from hg']
          exact ⟨_, rfl, rfl⟩
        · intro hl
          rw [hc.2 (by rw [hv]; exact hl) g' hg']
      | _ =>
        rw [hf] at hv hg'
        simp only [valueNeed] at hv
        simp only [LuaM.toContainer, hg']
        exact ⟨fun _ => ⟨_, rfl, rfl⟩, fun hl => by omega⟩
    · refine ⟨fun hl => by omega, fun _ => ?_⟩
      have hp : lpush (form g) m.stack = .ub := if_neg hroom
      unfold LuaM.global_to_GC
      simp only [hgl, hp]
  constructor
  · intro hl
    rw [if_pos (by have := hr.write; omega), hs.push] at hw
    have hset : LuaM.GC_to_global name m g = .ok ⟨LuaV.set (.str (cstr name)) (form g) m.globals, m.stack⟩ g := by
      unfold LuaM.GC_to_global; rw [hw]
    refine ⟨_, hset, rfl, fun k hk => get_set_other (by simpa using hk), fun w g0 => ?_⟩
    obtain ⟨m'', h1, h2⟩ := (hout _ get_set_same w g0).1 hl
    exact ⟨m'', g', h1, hs.tells g' says', h2⟩
  · intro hl
    by_cases hn : m.stack.length + luaNeed g ≤ luaSlots
    · rw [if_pos hn, hs.push] at hw
      have hset : LuaM.GC_to_global name m g = .ok ⟨LuaV.set (.str (cstr name)) (form g) m.globals, m.stack⟩ g := by
        unfold LuaM.GC_to_global; rw [hw]
      exact .inr ⟨_, hset, fun w g0 => (hout _ get_set_same w g0).2 hl⟩
    · rw [if_neg hn] at hw
      left
      unfold LuaM.GC_to_global; rw [hw]

/-! ## What does not come back -/

/-- **C104**, refuted: a vector of booleans arrives as nil, so that the variable is gone, and its table stays on the stack. -/
theorem C104_vec_bool_negation (v : List Bool) (hv : v ≠ []) (hl : v.length < 2 ^ 31) (name : Bytes) (m : LuaM)
    (hr : m.stack.length + 3 ≤ luaSlots) : ∃ m', LuaM.GC_to_global name m (.vecBool v) = .ok m' (.vecBool v) ∧
      m'.stack.length = m.stack.length + 1 ∧ LuaV.get (.str (cstr name)) m'.globals = .nil ∧
      ∀ w g0, ∃ m'', LuaM.global_to_GC w name m' g0 = .throw m'' g0 := by
  have hp : pushGC (.vecBool v) m.stack = .ok (.nil :: .table (arrayEntries (v.map .bool)).reverse :: m.stack) := by
    rw [pushGC, pushItemTableIn_eq, if_pos (by simp [hv]; omega),
      pushItemTable_list _ _ (fun x hx => by obtain ⟨b, -, rfl⟩ := List.mem_map.1 hx; simp) (by simpa using hl), Out.bind, lpush, if_pos (by simp; omega)]
  refine ⟨⟨LuaV.set (.str (cstr name)) .nil m.globals, .table (arrayEntries (v.map .bool)).reverse :: m.stack⟩,
    by unfold LuaM.GC_to_global; rw [hp], by simp, get_set_same (v := .nil), fun w g0 => ?_⟩
  have hq : ∀ st : LuaStack, st.length < luaSlots → lpush .nil st = .ok (.nil :: st) := fun st h => if_pos h
  unfold LuaM.global_to_GC
  simp only [get_set_same]
  rw [hq _ (by simp; omega)]
  exact ⟨_, rfl⟩

/-- **C104**, refuted: empty lists and maps come back as the empty container, complex numbers and matrices as nothing. -/
theorem C104_empty_negation (name : Bytes) (m : LuaM) (hr : m.stack.length + 2 ≤ luaSlots) (w : LuaWorld) (g0 : GC) :
    (∀ g, g = .vecInt [] ∨ g = .vector [] ∨ g = .map [] →
      ∃ m' m'', LuaM.GC_to_global name m g = .ok m' g ∧ LuaM.global_to_GC w name m' g0 = .ok m'' .notype) ∧
    ∀ z x, ∃ m' m'', LuaM.GC_to_global name m (.complex z) = .ok m' (.complex z) ∧
      LuaM.GC_to_global name m (.matReal x) = .ok m' (.matReal x) ∧ LuaM.global_to_GC w name m' g0 = .throw m'' g0 := by
  have hq : ∀ (v : LuaV) (st : LuaStack), st.length < luaSlots → lpush v st = .ok (v :: st) := fun v st h => if_pos h
  have h1 : lpush (.table []) m.stack = .ok (.table [] :: m.stack) := hq _ _ (by omega)
  have h2 : lpush .nil m.stack = .ok (.nil :: m.stack) := hq _ _ (by omega)
  constructor
  · rintro g hg
    refine ⟨⟨LuaV.set (.str (cstr name)) (.table []) m.globals, m.stack⟩, ⟨LuaV.set (.str (cstr name)) (.table []) m.globals, []⟩, ?_, ?_⟩
    · have : pushGC g m.stack = .ok (.table [] :: m.stack) := by
        rcases hg with rfl | rfl | rfl
        · rw [pushGC, pushItemTableIn, h1]; rfl
        · rw [pushGC, h1]; rfl
        · rw [pushGC, h1]; rfl
      unfold LuaM.GC_to_global; rw [this]
    · unfold LuaM.global_to_GC
      simp only [get_set_same, h1, LuaM.toContainer, readTableTop, guardL, readTable, List.length_cons]
      rw [if_pos (by omega)]
  · intro z x
    refine ⟨⟨LuaV.set (.str (cstr name)) .nil m.globals, m.stack⟩, ⟨LuaV.set (.str (cstr name)) .nil m.globals, .nil :: m.stack⟩, ?_, ?_, ?_⟩
    · unfold LuaM.GC_to_global; rw [pushGC, h2]; all_goals simp
    · unfold LuaM.GC_to_global; rw [pushGC, h2]; all_goals simp
    · unfold LuaM.global_to_GC
      simp only [get_set_same, h2]

/-! ## The same call many times -/

theorem read_scalar {w : LuaWorld} {name : Bytes} {m : LuaM} {v : LuaV} (hv : LuaV.get (.str (cstr name)) m.globals = v)
    (hok : LuaOk v) (ht : ∀ t, v ≠ .table t) : ∃ g', LuaSays v g' ∧ ∀ g0 st,
      LuaM.global_to_GC w name ⟨m.globals, st⟩ g0 = if st.length < luaSlots then .ok ⟨m.globals, v :: st⟩ g' else .ub := by
  obtain ⟨g', h1, h2⟩ := C48_value_partial _ hok
  refine ⟨g', h2, fun g0 st => ?_⟩
  unfold LuaM.global_to_GC
  simp only [hv, lpush]
  by_cases h : st.length < luaSlots
  · rw [if_pos h, if_pos h]
    cases v with
    | nil => cases hok; rename_i h; rcases h with ⟨x, q, h, -⟩ | ⟨i, h, -⟩ <;> cases h
    | other => cases hok; rename_i h; rcases h with ⟨x, q, h, -⟩ | ⟨i, h, -⟩ <;> cases h
    | table t => exact absurd rfl (ht t)
    | _ => simp only [LuaM.toContainer, h1]
  · rw [if_neg h, if_neg h]

/-- **C103**: a variable that holds a table can be read any number of times, with the same result. -/
theorem C103_table (w : LuaWorld) (name : Bytes) (m : LuaM) (t : List (LKey × LuaV))
    (hv : LuaV.get (.str (cstr name)) m.globals = .table t) (hok : LuaOk (.table t))
    (hr : m.stack.length + 1 + valueNeed (.table t) ≤ luaSlots) : ∃ g', LuaSays (.table t) g' ∧ ∀ n g0,
      LuaM.times (LuaM.global_to_GC w name) (n + 1) m g0 = some (⟨m.globals, []⟩, g') := by
  obtain ⟨g', h1, h2⟩ := C48_value_partial _ hok
  refine ⟨g', h2, ?_⟩
  have one : ∀ (st : LuaStack) g0, st.length + 1 + valueNeed (.table t) ≤ luaSlots →
      LuaM.global_to_GC w name ⟨m.globals, st⟩ g0 = .ok ⟨m.globals, []⟩ g' := by
    intro st g0 hs
    unfold LuaM.global_to_GC
    have : lpush (.table t) st = .ok (.table t :: st) := if_pos (by omega)
    simp only [hv, this, LuaM.toContainer, List.length_cons]
    rw [(C102_read t (st.length + 1) .notype).1 hs, show lua_table_to_GC t .notype = .ok g' () from h1]
  intro n
  have all : ∀ n (st : LuaStack) g0, st.length + 1 + valueNeed (.table t) ≤ luaSlots →
      LuaM.times (LuaM.global_to_GC w name) (n + 1) ⟨m.globals, st⟩ g0 = some (⟨m.globals, []⟩, g') := by
    intro n
    induction n with
    | zero => intro st g0 hs; simp [LuaM.times, one st g0 hs]
    | succ n ih =>
      intro st g0 hs
      rw [LuaM.times, one st g0 hs]
      exact ih [] g' (by simp; omega)
  exact fun g0 => all n m.stack g0 hr

/-- **C103**, refuted: every read of a number, boolean or string leaves it on the stack of the interpreter, and with the
stack full the next read is undefined. -/
theorem C103_scalar_negation (w : LuaWorld) (name : Bytes) (m : LuaM) (v : LuaV)
    (hv : LuaV.get (.str (cstr name)) m.globals = v) (hok : LuaOk v) (ht : ∀ t, v ≠ .table t) : ∃ g', LuaSays v g' ∧ ∀ n g0,
      LuaM.times (LuaM.global_to_GC w name) (n + 1) m g0 =
        if m.stack.length + (n + 1) ≤ luaSlots then some (⟨m.globals, List.replicate (n + 1) v ++ m.stack⟩, g') else none := by
  obtain ⟨g', h1, h2⟩ := read_scalar (w := w) hv hok ht
  refine ⟨g', h1, ?_⟩
  have all : ∀ n (st : LuaStack) g0, LuaM.times (LuaM.global_to_GC w name) (n + 1) ⟨m.globals, st⟩ g0 =
      if st.length + (n + 1) ≤ luaSlots then some (⟨m.globals, List.replicate (n + 1) v ++ st⟩, g') else none := by
    intro n
    induction n with
    | zero =>
      intro st g0
      rw [LuaM.times, h2]
      by_cases h : st.length < luaSlots
      · rw [if_pos h, if_pos (by omega)]; rfl
      · rw [if_neg h, if_neg (by omega)]
    | succ n ih =>
      intro st g0
      rw [LuaM.times, h2]
      by_cases h : st.length < luaSlots
      · simp only [if_pos h]
        rw [ih]
        simp only [List.length_cons]
        have e : List.replicate (n + 1) v ++ v :: st = List.replicate (n + 1 + 1) v ++ st := by
          rw [List.replicate_succ' (n := n + 1)]; simp
        rw [e]
        by_cases h' : st.length + 1 + (n + 1) ≤ luaSlots
        · rw [if_pos h', if_pos (by omega)]
        · rw [if_neg h', if_neg (by omega)]
      · rw [if_neg h, if_neg (by omega)]
  exact fun n g0 => all n m.stack g0

/-- **C103**, refuted: asking for a variable that does not exist throws, leaves a value on the stack, and after that
many times is undefined. -/
theorem C103_missing_negation (w : LuaWorld) (name : Bytes) (m : LuaM) (hv : LuaV.get (.str (cstr name)) m.globals = .nil)
    (n : Nat) (g : GC) : LuaM.times (LuaM.global_to_GC w name) n m g =
      if n = 0 ∨ m.stack.length + n ≤ luaSlots then some (⟨m.globals, List.replicate n .nil ++ m.stack⟩, g) else none := by
  have one : ∀ st : LuaStack, LuaM.global_to_GC w name ⟨m.globals, st⟩ g =
      if st.length < luaSlots then .throw ⟨m.globals, .nil :: st⟩ g else .ub := by
    intro st
    unfold LuaM.global_to_GC
    simp only [hv, lpush]
    by_cases h : st.length < luaSlots
    · rw [if_pos h, if_pos h]
    · rw [if_neg h, if_neg h]
  have all : ∀ n (st : LuaStack), LuaM.times (LuaM.global_to_GC w name) n ⟨m.globals, st⟩ g =
      if n = 0 ∨ st.length + n ≤ luaSlots then some (⟨m.globals, List.replicate n .nil ++ st⟩, g) else none := by
    intro n
    induction n with
    | zero => intro st; simp [LuaM.times]
    | succ n ih =>
      intro st
      rw [LuaM.times, one]
      by_cases h : st.length < luaSlots
      · simp only [if_pos h]
        rw [ih]
        simp only [List.length_cons]
        have e : List.replicate n LuaV.nil ++ LuaV.nil :: st = List.replicate (n + 1) .nil ++ st := by
          rw [List.replicate_succ']; simp
        rw [e]
        by_cases h' : n = 0 ∨ st.length + 1 + n ≤ luaSlots
        · rw [if_pos h', if_pos (by omega)]
        · rw [if_neg h', if_neg (by omega)]
      · simp only [if_neg h]
        rw [if_neg (by omega)]
  exact all n m.stack

/-- **C103**: a program that runs without error leaves the stack as it was, so it can be run any number of times. -/
theorem C103_execute (w : LuaWorld) (cmd : Bytes) (m : LuaM) (g : GC) (hr : m.stack.length + 1 ≤ luaSlots)
    (hw : ∀ gl, (w.run (cstr cmd) gl).2 = none) (n : Nat) : ∃ m', LuaM.times (LuaM.execute w cmd) n m g = some (m', g) ∧
      m'.stack = m.stack := by
  induction n generalizing m with
  | zero => exact ⟨m, rfl, rfl⟩
  | succ n ih =>
    have e : LuaM.execute w cmd m g = .ok { m with globals := (w.run (cstr cmd) m.globals).1 } g := by
      unfold LuaM.execute
      have : lpush .other m.stack = .ok (.other :: m.stack) := if_pos (by omega)
      rw [this]
      have := hw m.globals
      cases h : w.run (cstr cmd) m.globals with
      | mk gl e => rw [h] at this; simp only at this; subst this; rfl
    rw [LuaM.times, e]
    obtain ⟨m', h1, h2⟩ := ih { m with globals := (w.run (cstr cmd) m.globals).1 } hr
    exact ⟨m', h1, h2⟩

/-- **C103**, refuted: every failure of a program leaves a value on the stack; with the stack full the next run is
undefined. -/
theorem C103_execute_negation (w : LuaWorld) (cmd : Bytes) (m : LuaM) (g : GC)
    (hw : ∀ gl, (w.run (cstr cmd) gl).2 ≠ none) (n : Nat) :
    (m.stack.length + n ≤ luaSlots → ∃ m', LuaM.times (LuaM.execute w cmd) n m g = some (m', g) ∧
      m'.stack.length = m.stack.length + n) ∧
    (m.stack.length ≤ luaSlots → luaSlots < m.stack.length + n → LuaM.times (LuaM.execute w cmd) n m g = none) := by
  induction n generalizing m with
  | zero => exact ⟨fun _ => ⟨m, rfl, rfl⟩, fun h1 h2 => by omega⟩
  | succ n ih =>
    by_cases h : m.stack.length < luaSlots
    · have e : ∃ m', LuaM.execute w cmd m g = .throw m' g ∧ m'.stack.length = m.stack.length + 1 := by
        unfold LuaM.execute
        have : lpush .other m.stack = .ok (.other :: m.stack) := if_pos h
        rw [this]
        have := hw m.globals
        cases h : w.run (cstr cmd) m.globals with
        | mk gl e =>
          cases e with
          | none => rw [h] at this; exact absurd rfl this
          | some e => exact ⟨_, rfl, rfl⟩
      obtain ⟨m', h1, h2⟩ := e
      rw [LuaM.times, h1]
      obtain ⟨i1, i2⟩ := ih m'
      refine ⟨fun hl => ?_, fun hl hl' => i2 (by omega) (by omega)⟩
      obtain ⟨m'', h3, h4⟩ := i1 (by omega)
      exact ⟨m'', h3, by omega⟩
    · refine ⟨fun hl => by omega, fun _ _ => ?_⟩
      have : lpush .other m.stack = .ub := if_neg h
      rw [LuaM.times]
      unfold LuaM.execute
      rw [this]

/-! ## Calls -/

/-- **C105**: a call gives the function the data of `args`, and `res` is what the function returns; an error of the function
is an exception that leaves `res` alone.  On the stack stays the result, if it is no table, or the error.  The function is
the one named by the string up to its first NUL (`cut` is the string "function": the name, alone or with a NUL and more
behind it). -/
theorem C105_call_partial (f cut : Bytes) (args : GC) (hz : noNul f = true) (hcut : cut = f ∨ ∃ more, cut = f ++ 0 :: more)
    (h : LuaBack args) (m : LuaM)
    (hr : m.stack.length + 2 + 2 * luaTables args ≤ luaSlots) :
    ∃ a, LuaOk a ∧ (∀ g', LuaSays a g' → SameTree (view args) (view g')) ∧ ∀ (w : LuaWorld) (io : Entries) (g0 : GC),
      mfind (str "function") io = some (.string cut) → mfind (str "args") io = some args →
      (∀ gl e, w.app f a m.globals = (gl, .inl e) →
        LuaM.call w (.map io) m g0 = .throw ⟨gl, e :: m.stack⟩ g0) ∧
      (∀ gl r, w.app f a m.globals = (gl, .inr r) → LuaOk r → m.stack.length + 1 + valueNeed r ≤ luaSlots →
        ∃ g' st, LuaSays r g' ∧ LuaM.call w (.map io) m g0 = .ok ⟨gl, st⟩ g' ∧
          ((∃ t, r = .table t) → st = []) ∧ ((∀ t, r ≠ .table t) → st = r :: m.stack)) := by
  have hs := sent h
  have hm := room h
  refine ⟨form args, hs.ok, hs.tells, fun w io g0 hf ha => ?_⟩
  have hc : cstr cut = f := by
    rcases hcut with rfl | ⟨more, rfl⟩
    · exact cstr_of_noNul hz
    · have : ∀ x : Bytes, noNul x = true → cstr (x ++ 0 :: more) = x := by
        intro x hx
        induction x with
        | nil => rfl
        | cons a x ih =>
          simp only [noNul, List.all_cons, Bool.and_eq_true] at hx
          exact (List.takeWhile_cons_of_pos (by simpa using hx.1)).trans (congrArg (a :: ·) (ih hx.2))
      exact this f hz
  have hp : (lpush (LuaV.get (.str f) m.globals) m.stack).bind (pushGC args) =
      .ok (form args :: LuaV.get (.str f) m.globals :: m.stack) := by
    rw [lpush, if_pos (by omega), Out.bind, C102_write args hm.packed, if_pos (by
      have := hm.write; simp only [List.length_cons]; omega), hs.push]
  have e : ∀ x, w.app f (form args) m.globals = x → LuaM.call w (.map io) m g0 =
      match x with
      | (gl, .inl e) => .throw { globals := gl, stack := e :: m.stack } g0
      | (gl, .inr r) => LuaM.toContainer w false r { globals := gl, stack := r :: m.stack } := by
    rintro x rfl
    unfold LuaM.call
    have h1 : call_key_c (str "function") (.map io) = .ok (.string cut) := by
      rw [call_key_c, show cstr (str "function") = str "function" from by decide +kernel, hf]
    have h2 : call_key_c (str "args") (.map io) = .ok args := by
      rw [call_key_c, show cstr (str "args") = str "args" from by decide +kernel, ha]
    simp only [h1, h2, hc, hp, List.length_cons, if_true]
    rcases w.app f (form args) m.globals with ⟨gl, e | r⟩ <;> rfl
  constructor
  · intro gl er he
    rw [e _ he]
  · intro gl r he hok hroom
    rw [e _ he]
    obtain ⟨g', h1, h2⟩ := C48_value_partial _ hok
    cases r with
    | nil => cases hok; rename_i h; rcases h with ⟨x, q, h, -⟩ | ⟨i, h, -⟩ <;> cases h
    | other => cases hok; rename_i h; rcases h with ⟨x, q, h, -⟩ | ⟨i, h, -⟩ <;> cases h
    | table t =>
      refine ⟨g', [], h2, ?_, fun _ => rfl, fun h => absurd rfl (h t)⟩
      simp only [LuaM.toContainer, List.length_cons]
      rw [(C102_read t (m.stack.length + 1) .notype).1 hroom, show lua_table_to_GC t .notype = .ok g' () from h1]
    | bool b =>
      exact ⟨g', .bool b :: m.stack, h2, by simp only [LuaM.toContainer, h1], (by rintro ⟨t, h⟩; cases h), fun _ => rfl⟩
    | int b =>
      exact ⟨g', .int b :: m.stack, h2, by simp only [LuaM.toContainer, h1], (by rintro ⟨t, h⟩; cases h), fun _ => rfl⟩
    | num b =>
      exact ⟨g', .num b :: m.stack, h2, by simp only [LuaM.toContainer, h1], (by rintro ⟨t, h⟩; cases h), fun _ => rfl⟩
    | str b =>
      exact ⟨g', .str b :: m.stack, h2, by simp only [LuaM.toContainer, h1], (by rintro ⟨t, h⟩; cases h), fun _ => rfl⟩

/-- **C105**: without a "function" that is a string and an "args" the call throws and nothing changes. -/
theorem C105_checked (w : LuaWorld) (io : GC) (m : LuaM) (g0 : GC)
    (h : ∀ e, io = .map e → (∀ f, mfind (str "function") e ≠ some (.string f)) ∨ mfind (str "args") e = none) :
    LuaM.call w io m g0 = .throw m g0 := by
  have hk : ∀ (s : Bytes), cstr s = s → ∀ e, call_key_c s (.map e) = match mfind s e with | some x => .ok x | none => .throw := by
    intro s hs e; rw [call_key_c, hs]; cases mfind s e <;> rfl
  unfold LuaM.call
  cases io with
  | map e =>
    rw [hk _ (by decide +kernel), hk _ (by decide +kernel)]
    rcases h e rfl with h | h
    · cases hf : mfind (str "function") e with
      | none => rfl
      | some x => cases x <;> first | rfl | exact absurd hf (h _)
    · rw [h]
      cases hf : mfind (str "function") e with
      | none => rfl
      | some x => cases x <;> rfl
  | _ => rfl

/-- **C105**, refuted: with a vector of booleans as argument the call fails, whatever the function does. -/
theorem C105_vec_bool_negation (w : LuaWorld) (f : Bytes) (v : List Bool) (hv : v ≠ []) (hl : v.length < 2 ^ 31) (m : LuaM)
    (hr : m.stack.length + 3 ≤ luaSlots) (io : Entries) (g0 : GC) (hf : mfind (str "function") io = some (.string f))
    (ha : mfind (str "args") io = some (.vecBool v)) : ∃ m', LuaM.call w (.map io) m g0 = .throw m' g0 := by
  have hp : (lpush (LuaV.get (.str (cstr f)) m.globals) m.stack).bind (pushGC (.vecBool v)) =
      .ok (.nil :: .table (arrayEntries (v.map .bool)).reverse :: LuaV.get (.str (cstr f)) m.globals :: m.stack) := by
    rw [lpush, if_pos (by omega), Out.bind, pushGC, pushItemTableIn_eq, if_pos (by simp [hv]; omega),
      pushItemTable_list _ _ (fun x hx => by obtain ⟨b, -, rfl⟩ := List.mem_map.1 hx; simp) (by simpa using hl), Out.bind,
      lpush, if_pos (by simp; omega)]
  have h1 : call_key_c (str "function") (.map io) = .ok (.string f) := by
    rw [call_key_c, show cstr (str "function") = str "function" from by decide +kernel, hf]
  have h2 : call_key_c (str "args") (.map io) = .ok (.vecBool v) := by
    rw [call_key_c, show cstr (str "args") = str "args" from by decide +kernel, ha]
  unfold LuaM.call
  simp only [h1, h2, hp, List.length_cons]
  rw [if_neg (by omega)]
  exact ⟨_, rfl⟩

/-! ## How deep -/

theorem nested_back : ∀ n, LuaBack (nestedMaps n)
  | 0 => by
    refine .map (by simp) (by simp [KeysSorted]) (fun e he => ?_) (fun e he => ?_) <;>
      (rw [List.mem_singleton] at he; subst he)
    · decide +kernel
    · exact .bool
  | n + 1 => by
    refine .map (by simp) (by simp [KeysSorted]) (fun e he => ?_) (fun e he => ?_) <;>
      (rw [List.mem_singleton] at he; subst he)
    · exact (by decide +kernel : noNul (str "k") = true)
    · exact nested_back n

theorem nested_need : ∀ n, luaNeed (nestedMaps n) = 2 * n + 3 ∧ luaTables (nestedMaps n) = n + 1
  | 0 => by simp [nestedMaps, luaNeed, luaNeedM, luaTables, luaTablesM]
  | n + 1 => by
    obtain ⟨h1, h2⟩ := nested_need n
    simp [nestedMaps, luaNeed, luaNeedM, luaTables, luaTablesM, h1, h2]; omega

/-- **C102**: nine maps in one another can be sent to a fresh interpreter and read back, ten cannot: the stack
is too small. -/
theorem C102_depth (n : Nat) (name : Bytes) :
    (n + 1 ≤ 9 → ∃ m', LuaM.GC_to_global name ⟨[], []⟩ (nestedMaps n) = .ok m' (nestedMaps n) ∧
      ∀ w g0, ∃ m'' g', LuaM.global_to_GC w name m' g0 = .ok m'' g' ∧ SameTree (view (nestedMaps n)) (view g')) ∧
    (10 ≤ n + 1 → LuaM.GC_to_global name ⟨[], []⟩ (nestedMaps n) = .ub) := by
  obtain ⟨h1, h2⟩ := nested_need n
  constructor
  · intro h
    obtain ⟨m', a, -, -, b⟩ := (C104_round_trip_partial _ (nested_back n) name ⟨[], []⟩).1 (by
      rw [h2]; simp [luaSlots]; omega)
    refine ⟨m', a, fun w g0 => ?_⟩
    obtain ⟨m'', g', c, d, -⟩ := b w g0
    exact ⟨m'', g', c, d⟩
  · intro h
    unfold LuaM.GC_to_global
    rw [C102_write _ (room (nested_back n)).packed, if_neg (by rw [h1]; simp [luaSlots]; omega)]

/-! ## Concrete cases -/

/-- A record with a list of numbers and a list of lists. -/
def luaSample : GC := .map [(str "a", .vecInt [1#32, 2#32]), (str "b", .vector [.vecString [str "x"], .vecInt [3#32]])]

theorem sample_back : LuaBack luaSample := by
  refine .map (by simp) (by simp [KeysSorted]; decide +kernel) ?_ ?_
  · intro e he
    simp only [List.mem_cons, List.not_mem_nil, or_false] at he
    rcases he with rfl | rfl <;> decide +kernel
  · intro e he
    simp only [List.mem_cons, List.not_mem_nil, or_false] at he
    rcases he with rfl | rfl
    · exact .ints (by simp) (by simp)
    · refine .lists (by simp) (by simp) ?_ ?_
      · intro x hx
        simp only [List.mem_cons, List.not_mem_nil, or_false] at hx
        rcases hx with rfl | rfl <;> trivial
      · intro x hx
        simp only [List.mem_cons, List.not_mem_nil, or_false] at hx
        rcases hx with rfl | rfl
        · refine .strings (by simp) (by simp) fun s hs => ?_
          rw [List.mem_singleton] at hs; subst hs; decide +kernel
        · exact .ints (by simp) (by simp)

/-- C104, C105: the hypotheses are met by the record on a fresh interpreter, which takes 7 of the 20 places. -/
example : LuaBack luaSample ∧ luaTables luaSample = 3 ∧ ([] : LuaStack).length + 2 + 2 * luaTables luaSample ≤ luaSlots :=
  ⟨sample_back, by decide +kernel, by decide +kernel⟩

/-- C102: the record takes 5 places when it is written, and 6 above its own when it is read. -/
example : luaNeed luaSample = 5 ∧ luaSample.every (fun x => !isVecBool x) = true ∧ valueNeed (form luaSample) = 6 := by
  refine ⟨by decide +kernel, by decide +kernel, ?_⟩
  rw [(room sample_back).read]; decide +kernel

/-- C103: in a fresh interpreter with `x = true` the variable can be read twenty times. -/
example : LuaV.get (.str (str "x")) [(.str (str "x"), .bool true)] = .bool true ∧ LuaOk (.bool true) ∧
    (∀ t, LuaV.bool true ≠ .table t) ∧ ([] : LuaStack).length + 20 ≤ luaSlots ∧ ¬ ([] : LuaStack).length + 21 ≤ luaSlots :=
  ⟨get_set_same (k := .str (str "x")) (v := .bool true) (t := []), .bool, by simp, by decide +kernel, by decide +kernel⟩

/-- C103: a table, a program that ends without error and one that does not. -/
example : LuaOk (.table [(.str (str "k"), .bool true)]) ∧
    (∀ gl : List (LKey × LuaV), ((⟨fun _ gl => (gl, none), fun _ v gl => (gl, .inr v), fun _ => [], fun _ gl => (gl, none), fun _ => []⟩ : LuaWorld).run [] gl).2 = none) ∧
    ∀ gl : List (LKey × LuaV),
      ((⟨fun _ gl => (gl, some .nil), fun _ v gl => (gl, .inr v), fun _ => [], fun _ gl => (gl, none), fun _ => []⟩ : LuaWorld).run [] gl).2 ≠ none := by
  refine ⟨.hash (by simp) ?_ ?_, fun _ => rfl, fun _ => by simp⟩ <;>
    (intro e he; rw [List.mem_singleton] at he; subst he)
  · exact ⟨_, rfl, by decide +kernel⟩
  · exact .bool

end GC
end GCV
