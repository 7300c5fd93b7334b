import Verif.Props.LuaRoom
import Verif.Props.LuaTable
import Verif.Props.Lua
import Verif.Spec.View
import Verif.Lemmas.Promote
import Mathlib.Tactic.Linarith

/-!
# C103, C104: sessions with the Lua interpreter
-/

namespace GCV
open GC (arrayEntries)

/-! ## Tables as they are built -/

theorem set_fresh {k : LKey} {v : LuaV} {t : List (LKey × LuaV)} (hv : v ≠ .nil) (h : ∀ e ∈ t, e.1 ≠ k) :
    LuaV.set k v t = (k, v) :: t := by
  have : (t.filter fun e => e.1 ≠ k) = t := List.filter_eq_self.2 fun e he => by simpa using h e he
  unfold LuaV.set
  cases v <;> first | exact absurd rfl hv | (simp only [this])

theorem luaIndex_small {i : Nat} (h : i + 1 < 2 ^ 31) : luaIndex i = (i : Int) + 1 := by
  unfold luaIndex
  rw [BitVec.toInt_eq_toNat_of_lt (by simp; omega)]
  simp; omega

/-- The entries of an array from index `i + 1` on. -/
def entriesFrom (i : Nat) (vs : List LuaV) : List (LKey × LuaV) := (vs.zipIdx i).map fun p => (LKey.int (p.2 + 1), p.1)

theorem entriesFrom_zero (vs : List LuaV) : entriesFrom 0 vs = arrayEntries vs := rfl

theorem entriesFrom_cons (i : Nat) (v : LuaV) (vs : List LuaV) :
    entriesFrom i (v :: vs) = (LKey.int (i + 1), v) :: entriesFrom (i + 1) vs := by
  simp [entriesFrom, List.zipIdx_cons]

/-- The keys are below. -/
def Below (i : Nat) (t : List (LKey × LuaV)) : Prop := ∀ e ∈ t, ∃ n : Nat, e.1 = .int n ∧ n ≤ i

theorem Below.fresh {i : Nat} {t : List (LKey × LuaV)} (h : Below i t) : ∀ e ∈ t, e.1 ≠ .int ((i : Int) + 1) := by
  intro e he h1
  obtain ⟨n, h2, h3⟩ := h e he
  rw [h2] at h1
  injection h1 with h1
  omega

theorem Below.next {i : Nat} {t : List (LKey × LuaV)} (h : Below i t) (v : LuaV) : Below (i + 1) ((.int ((i : Int) + 1), v) :: t) := by
  intro e he
  rcases List.mem_cons.1 he with rfl | he
  · exact ⟨i + 1, by simp, Nat.le_refl _⟩
  · obtain ⟨n, h2, h3⟩ := h e he
    exact ⟨n, h2, by omega⟩

theorem pushItems_list : ∀ (xs : List LuaV) (i : Nat) (t : List (LKey × LuaV)) (st : LuaStack), (∀ x ∈ xs, x ≠ .nil) →
    i + xs.length < 2 ^ 31 → Below i t → pushItems i xs (.table t :: st) = .ok (.table ((entriesFrom i xs).reverse ++ t) :: st)
  | [], _, _, _, _, _, _ => rfl
  | x :: r, i, t, st, hn, hl, hb => by
    simp only [List.length_cons] at hl
    rw [pushItems, rawseti, Out.bind, luaIndex_small (by omega), set_fresh (hn x (by simp)) hb.fresh,
      pushItems_list r (i + 1) _ st (fun y hy => hn y (by simp [hy])) (by omega) (hb.next x), entriesFrom_cons]
    simp

theorem pushItemTable_list (xs : List LuaV) (st : LuaStack) (hn : ∀ x ∈ xs, x ≠ .nil) (hl : xs.length < 2 ^ 31) :
    pushItemTable xs st = .ok (.table (arrayEntries xs).reverse :: st) := by
  rw [pushItemTable, pushItems_list xs 0 [] st hn (by omega) (by intro e he; simp at he), List.append_nil]; rfl

theorem entries_unique {vs ws : List LuaV} (h : (arrayEntries vs).Perm (arrayEntries ws)) : vs = ws := by
  have hl : vs.length = ws.length := by simpa [arrayEntries] using h.length_eq
  refine List.ext_getElem hl fun i h1 h2 => ?_
  have hm : (LKey.int (i + 1), vs[i]) ∈ arrayEntries vs := by
    unfold arrayEntries
    exact List.mem_map.2 ⟨(vs[i], i), by rw [List.mem_zipIdx_iff_getElem?]; simp [h1], rfl⟩
  have hm' := h.mem_iff.1 hm
  unfold arrayEntries at hm'
  obtain ⟨⟨w, j⟩, hj, he⟩ := List.mem_map.1 hm'
  simp only [Prod.mk.injEq, LKey.int.injEq] at he
  have : j = i := by omega
  subst this
  rw [List.mem_zipIdx_iff_getElem?] at hj
  simp only at hj
  rw [List.getElem?_eq_getElem h2] at hj
  injection hj with hj
  rw [hj, he.2]

theorem entries_ints {vs : List LuaV} {e : LKey × LuaV} (h : e ∈ arrayEntries vs) : ∃ n, e.1 = .int n := by
  obtain ⟨p, -, rfl⟩ := List.mem_map.1 h
  exact ⟨_, rfl⟩

theorem entries_nil {vs : List LuaV} (h : arrayEntries vs = []) : vs = [] := by
  simpa [arrayEntries] using h

namespace GC
open F64

/-! ## What a container says -/

theorem says_scalar {v : LuaV} (hv : ∀ t, v ≠ .table t) {g' : GC} (h : LuaSays v g') :
    (∃ b, v = .bool b ∧ g' = .bool b) ∨ (∃ q, luaNumber v = some q ∧ numValue g' = some q ∧ (g'.ty = .LONG ∨ g'.ty = .REAL)) ∨
      ∃ s, v = .str s ∧ g' = .string s := by
  cases h <;> first | exact absurd rfl (hv _) | skip
  · exact .inl ⟨_, rfl, rfl⟩
  · rename_i h1 h2 h3 _
    exact .inr (.inl ⟨_, h1, h2, h3⟩)
  · exact .inr (.inr ⟨_, rfl, rfl⟩)

/-- What the array says. -/
theorem says_array {t : List (LKey × LuaV)} {vs : List LuaV} (ht : t.Perm (arrayEntries vs)) (h0 : vs ≠ []) {g' : GC}
    (h : LuaSays (.table t) g') :
    ((elems g').length = vs.length ∧ (∀ (i : Nat) v, vs[i]? = some v → ∃ e q, (elems g')[i]? = some e ∧ numValue e = some q ∧ luaNumber v = some q) ∧
      (g'.ty = .VEC_LONG ∨ g'.ty = .VEC_REAL)) ∨
    (∃ bs, vs = bs.map .bool ∧ g' = .vecBool bs) ∨ (∃ ss, vs = ss.map .str ∧ g' = .vecString ss) ∨
    ∃ xs : List GC, g' = .vector xs ∧ xs.length = vs.length ∧
      ∀ (i : Nat) v x, vs[i]? = some v → xs[i]? = some x → LuaSays v x ∨ MixedItem v x := by
  cases h with
  | number h1 => simp [luaNumber] at h1
  | numbers hp _ h1 h2 h3 _ =>
    obtain rfl := entries_unique (ht.symm.trans hp)
    exact .inl ⟨h1, h2, h3⟩
  | bools hp _ => exact .inr (.inl ⟨_, entries_unique (ht.symm.trans hp), rfl⟩)
  | strs hp _ => exact .inr (.inr (.inl ⟨_, entries_unique (ht.symm.trans hp), rfl⟩))
  | tables hp _ h1 h2 =>
    obtain rfl := entries_unique (ht.symm.trans hp)
    exact .inr (.inr (.inr ⟨_, rfl, h1, fun i v x hi hx => .inl (h2 i v x hi hx)⟩))
  | mixed hp _ _ h1 h2 =>
    obtain rfl := entries_unique (ht.symm.trans hp)
    exact .inr (.inr (.inr ⟨_, rfl, h1, fun i v x hi hx => .inr (h2 i v x hi hx)⟩))
  | hash hn hk _ _ _ =>
    obtain ⟨e, he⟩ := List.exists_mem_of_ne_nil _ hn
    obtain ⟨s, hs⟩ := hk e he
    obtain ⟨n, hn⟩ := entries_ints (ht.mem_iff.1 he)
    rw [hs] at hn; cases hn
  | empty => exact absurd (entries_nil (List.nil_perm.1 ht)) h0

/-! ## What is sent -/

/-- The Lua value of a container. -/
def form (g : GC) : LuaV :=
  match GC_to_lua g [] with
  | .ok (v :: _) => v
  | _ => .nil

/-- The container is sent as one value, and what that value says is the data of the container. -/
structure Sent (g : GC) : Prop where
  push : ∀ st, GC_to_lua g st = .ok (form g :: st)
  ok : LuaOk (form g)
  there : form g ≠ .nil
  table : TableLike g → ∃ t, form g = .table t
  tells : ∀ g', LuaSays (form g) g' → SameTree (view g) (view g')
  number : ∀ q e, luaNumber (form g) = some q → numValue e = some q → SameTree (view g) (.leaf e)

theorem form_eq {g : GC} {v : LuaV} (h : GC_to_lua g [] = .ok [v]) : form g = v := by
  unfold form; rw [h]

theorem viewL_map : ∀ v : List GC, viewL v = v.map view
  | [] => rfl
  | x :: r => by rw [viewL, viewL_map r]; rfl

theorem viewM_map : ∀ m : Entries, viewM m = m.map fun e => (e.1, view e.2)
  | [] => rfl
  | (k, x) :: r => by rw [viewM, viewM_map r]; rfl

theorem array_same {t : List (LKey × LuaV)} {src : List GC} {vs : List LuaV} (hl : src.length = vs.length)
    (h1 : ∀ (i : Nat) x v, src[i]? = some x → vs[i]? = some v → ∀ g', LuaSays v g' → SameTree (view x) (view g'))
    (h2 : ∀ (i : Nat) x v, src[i]? = some x → vs[i]? = some v → ∀ q e, luaNumber v = some q → numValue e = some q →
      SameTree (view x) (.leaf e))
    (ht : t.Perm (arrayEntries vs)) (h0 : vs ≠ []) {g' : GC} (h : LuaSays (.table t) g') :
    SameTree (.list (src.map view)) (view g') := by
  have at' : ∀ (i : Nat) (tr : Tree), (src.map view)[i]? = some tr → ∃ x v, src[i]? = some x ∧ vs[i]? = some v ∧ tr = view x := by
    intro i tr hi
    rw [List.getElem?_map] at hi
    cases hx : src[i]? with
    | none => rw [hx] at hi; cases hi
    | some x =>
      rw [hx] at hi
      have : i < vs.length := by
        rw [← hl]; exact (List.getElem?_eq_some_iff.1 hx).1
      exact ⟨x, vs[i], rfl, by simp [this], by injection hi with hi; exact hi.symm⟩
  rcases says_array ht h0 h with ⟨e1, e2, e3⟩ | ⟨bs, rfl, rfl⟩ | ⟨ss, rfl, rfl⟩ | ⟨xs, rfl, e1, e2⟩
  · have hv : view g' = .list ((elems g').map .leaf) := by
      cases g' <;> simp [GC.ty] at e3 <;> simp [view, leaves1, elems]
    rw [hv]
    refine .list (by simp [e1, hl]) fun i a b ha hb => ?_
    obtain ⟨x, v, hx, hv, rfl⟩ := at' i a ha
    obtain ⟨e, q, he, hq, hv'⟩ := e2 i v hv
    rw [List.getElem?_map, he] at hb
    injection hb with hb
    subst hb
    exact h2 i x v hx hv q e hv' hq
  · rw [view, leaves1]
    refine .list (by simpa using hl) fun i a b ha hb => ?_
    obtain ⟨x, v, hx, hv, rfl⟩ := at' i a ha
    rw [List.getElem?_map] at hv hb
    cases hbi : bs[i]? with
    | none => rw [hbi] at hv; cases hv
    | some c =>
      rw [hbi] at hv hb
      injection hv with hv; injection hb with hb
      subst hv; subst hb
      exact h1 i x _ hx (by rw [List.getElem?_map, hbi]; rfl) (.bool c) .bool
  · rw [view, leaves1]
    refine .list (by simpa using hl) fun i a b ha hb => ?_
    obtain ⟨x, v, hx, hv, rfl⟩ := at' i a ha
    rw [List.getElem?_map] at hv hb
    cases hbi : ss[i]? with
    | none => rw [hbi] at hv; cases hv
    | some c =>
      rw [hbi] at hv hb
      injection hv with hv; injection hb with hb
      subst hv; subst hb
      exact h1 i x _ hx (by rw [List.getElem?_map, hbi]; rfl) (.string c) .str
  · rw [view, viewL_map]
    refine .list (by simp [hl, e1]) fun i a b ha hb => ?_
    obtain ⟨x, v, hx, hv, rfl⟩ := at' i a ha
    rw [List.getElem?_map] at hb
    cases hxi : xs[i]? with
    | none => rw [hxi] at hb; cases hb
    | some y =>
      rw [hxi] at hb
      injection hb with hb
      subst hb
      rcases e2 i v y hv hxi with h3 | ⟨s, rfl, rfl⟩ | ⟨q, h3, h4, h5⟩
      · exact h1 i x v hx hv y h3
      · exact h1 i x _ hx hv _ .str
      · have : view y = .leaf y := by cases y <;> simp [GC.ty] at h5 <;> rfl
        rw [this]
        exact h2 i x v hx hv q y h3 h4

theorem inLong_int {n : Int} (h1 : -2 ^ 63 ≤ n) (h2 : n < 2 ^ 63) : InLong (n * unit) := by
  have hu : (0 : Int) < unit := by decide +kernel
  exact ⟨Int.mul_le_mul_of_nonneg_right h1 (Int.le_of_lt hu), Int.mul_lt_mul_of_pos_right h2 hu⟩

/-- Numbers. -/
theorem number_form {g : GC} (h : NumberBack g) : ∃ x q, (∀ st, GC_to_lua g st = .ok (.num x :: st)) ∧ x.value = some q ∧
    InLong q ∧ numValue g = some q ∧ view g = .leaf g := by
  cases g with
  | int i =>
    refine ⟨_, _, fun _ => rfl, value_ofI32 i, ?_, rfl, rfl⟩
    have := i.toInt_lt; have := i.le_toInt
    exact inLong_int (by omega) (by omega)
  | long l =>
    refine ⟨_, _, fun _ => rfl, value_ofI64 h, ?_, rfl, rfl⟩
    have := l.toInt_lt; have := l.le_toInt
    exact inLong_int (by omega) (by omega)
  | real x =>
    obtain ⟨q, h1, h2⟩ := h
    exact ⟨x, q, fun _ => rfl, h1, h2, h1, rfl⟩
  | _ => exact absurd h (by simp [NumberBack])

theorem sent_number {g : GC} (h : NumberBack g) : Sent g := by
  obtain ⟨x, q, h1, h2, h3, h4, h5⟩ := number_form h
  have hf : form g = .num x := form_eq (h1 [])
  refine ⟨by rw [hf]; exact h1, by rw [hf]; exact .number (.inl ⟨x, q, rfl, h2, h3⟩), by rw [hf]; simp, ?_, ?_, ?_⟩
  · intro ht; cases g <;> simp_all [TableLike, NumberBack]
  · intro g' hs
    rw [hf] at hs
    rcases says_scalar (by simp) hs with ⟨b, e, -⟩ | ⟨q', e1, e2, e3⟩ | ⟨s, e, -⟩
    · cases e
    · rw [luaNumber, h2] at e1
      injection e1 with e1
      subst e1
      have : view g' = .leaf g' := by cases g' <;> simp [GC.ty] at e3 <;> rfl
      rw [h5, this]
      exact .leaf (.inr (.inl ⟨q, h4, e2⟩))
    · cases e
  · intro q' e e1 e2
    rw [hf, luaNumber, h2] at e1
    injection e1 with e1
    subst e1
    rw [h5]
    exact .leaf (.inr (.inl ⟨q, h4, e2⟩))

theorem sent_bool (b : Bool) : Sent (.bool b) := by
  refine ⟨fun _ => rfl, .bool, by simp [form, GC_to_lua], fun h => absurd h (by simp [TableLike]), ?_, ?_⟩
  · intro g' hs
    rcases says_scalar (by simp [form, GC_to_lua]) hs with ⟨c, e, rfl⟩ | ⟨q', e1, -⟩ | ⟨s, e, -⟩
    · simp only [form, GC_to_lua, LuaV.bool.injEq] at e
      subst e
      exact .leaf (.inl rfl)
    · simp [form, GC_to_lua, luaNumber] at e1
    · simp [form, GC_to_lua] at e
  · intro q e e1; simp [form, GC_to_lua, luaNumber] at e1

theorem sent_string {s : Bytes} (h : noNul s = true) : Sent (.string s) := by
  have hf : form (.string s) = .str s := form_eq (by rw [GC_to_lua, cstr_of_noNul h])
  refine ⟨fun st => by rw [hf, GC_to_lua, cstr_of_noNul h], by rw [hf]; exact .str h, by rw [hf]; simp,
    fun h => absurd h (by simp [TableLike]), ?_, ?_⟩
  · intro g' hs
    rw [hf] at hs
    rcases says_scalar (by simp) hs with ⟨c, e, -⟩ | ⟨q', e1, -⟩ | ⟨s', e, rfl⟩
    · cases e
    · simp [luaNumber] at e1
    · cases e
      exact .leaf (.inl rfl)
  · intro q e e1; rw [hf] at e1; simp [luaNumber] at e1

/-- A packed vector. -/
theorem sent_packed {α : Type} {g : GC} (v : List α) (txt : α → LuaV) (con : α → GC) (h0 : v ≠ []) (hl : v.length < 2 ^ 31)
    (hp : ∀ st, GC_to_lua g st = pushItemTable (v.map txt) st) (hv : view g = leaves1 con v)
    (hs : ∀ x ∈ v, Sent (con x) ∧ form (con x) = txt x) (hc : ∀ x, view (con x) = .leaf (con x))
    (hok : LuaOk (.table (arrayEntries (v.map txt)).reverse)) : Sent g := by
  have hn : ∀ x ∈ v.map txt, x ≠ .nil := by
    intro x hx
    obtain ⟨a, ha, rfl⟩ := List.mem_map.1 hx
    rw [← (hs a ha).2]; exact (hs a ha).1.there
  have hg : ∀ st, GC_to_lua g st = .ok (.table (arrayEntries (v.map txt)).reverse :: st) := by
    intro st; rw [hp, pushItemTable_list _ _ hn (by simpa using hl)]
  have hf := form_eq (hg [])
  refine ⟨by rw [hf]; exact hg, by rw [hf]; exact hok, by rw [hf]; simp, fun _ => ⟨_, hf⟩, ?_, ?_⟩
  · intro g' h
    rw [hf] at h
    have e : leaves1 con v = .list ((v.map con).map view) := by
      rw [leaves1, List.map_map]
      congr 1
      exact List.map_congr_left fun x _ => (hc x).symm
    have pt : ∀ (i : Nat) x w, (v.map con)[i]? = some x → (v.map txt)[i]? = some w → Sent x ∧ form x = w := by
      intro i x w hx hw
      rw [List.getElem?_map] at hx hw
      cases ha : v[i]? with
      | none => rw [ha] at hx; cases hx
      | some a =>
        rw [ha] at hx hw
        injection hx with hx; injection hw with hw
        subst hx; subst hw
        exact hs a (List.mem_of_getElem? ha)
    rw [hv, e]
    refine array_same (by simp) ?_ ?_ (List.reverse_perm _) (by simpa using h0) h
    · intro i x w hx hw g' hg'
      obtain ⟨p1, p2⟩ := pt i x w hx hw
      exact p1.tells g' (by rw [p2]; exact hg')
    · intro i x w hx hw q e' h1 h2
      obtain ⟨p1, p2⟩ := pt i x w hx hw
      exact p1.number q e' (by rw [p2]; exact h1) h2
  · intro q e e1; rw [hf] at e1; simp [luaNumber] at e1

theorem pushElems_list : ∀ (v : List GC) (i : Nat) (t : List (LKey × LuaV)) (st : LuaStack), (∀ x ∈ v, Sent x) →
    i + v.length < 2 ^ 31 → Below i t →
    pushElems i v (.table t :: st) = .ok (.table ((entriesFrom i (v.map form)).reverse ++ t) :: st)
  | [], _, _, _, _, _, _ => rfl
  | x :: r, i, t, st, hn, hl, hb => by
    simp only [List.length_cons] at hl
    have hx := hn x (by simp)
    rw [pushElems, hx.push]
    simp only [Out.bind, rawseti]
    rw [luaIndex_small (by omega), set_fresh hx.there hb.fresh,
      pushElems_list r (i + 1) _ st (fun y hy => hn y (by simp [hy])) (by omega) (hb.next _), List.map_cons, entriesFrom_cons]
    simp

theorem sent_vector {v : List GC} (h0 : v ≠ []) (hl : v.length < 2 ^ 31) (hs : ∀ x ∈ v, Sent x)
    (hok : LuaOk (.table (arrayEntries (v.map form)).reverse)) : Sent (.vector v) := by
  have hg : ∀ st, GC_to_lua (.vector v) st = .ok (.table (arrayEntries (v.map form)).reverse :: st) := by
    intro st
    rw [GC_to_lua, pushElems_list v 0 [] st hs (by omega) (by intro e he; simp at he), List.append_nil]; rfl
  have hf := form_eq (hg [])
  have pt : ∀ (i : Nat) x w, v[i]? = some x → (v.map form)[i]? = some w → Sent x ∧ form x = w := by
    intro i x w hx hw
    rw [List.getElem?_map, hx] at hw
    injection hw with hw
    exact ⟨hs x (List.mem_of_getElem? hx), hw⟩
  refine ⟨by rw [hf]; exact hg, by rw [hf]; exact hok, by rw [hf]; simp, fun _ => ⟨_, hf⟩, ?_, ?_⟩
  · intro g' h
    rw [hf] at h
    rw [view, viewL_map]
    refine array_same (by simp) ?_ ?_ (List.reverse_perm _) (by simpa using h0) h
    · intro i x w hx hw g' hg'
      obtain ⟨p1, p2⟩ := pt i x w hx hw
      exact p1.tells g' (by rw [p2]; exact hg')
    · intro i x w hx hw q e' h1 h2
      obtain ⟨p1, p2⟩ := pt i x w hx hw
      exact p1.number q e' (by rw [p2]; exact h1) h2
  · intro q e e1; rw [hf] at e1; simp [luaNumber] at e1

theorem pushEntries_list : ∀ (m : Entries) (t : List (LKey × LuaV)) (st : LuaStack), KeysSorted m →
    (∀ e ∈ m, noNul e.1 = true) → (∀ e ∈ m, Sent e.2) → (∀ e ∈ m, ∀ p ∈ t, p.1 ≠ .str e.1) →
    pushEntries m (.table t :: st) = .ok (.table ((m.map fun e => (LKey.str e.1, form e.2)).reverse ++ t) :: st)
  | [], _, _, _, _, _, _ => rfl
  | (k, x) :: r, t, st, hk, hz, hs, hf => by
    have hx := hs (k, x) (by simp)
    have hc : cstr k = k := cstr_of_noNul (hz (k, x) (by simp))
    rw [pushEntries, hc, hx.push]
    simp only [Out.bind, settable]
    rw [set_fresh hx.there (hf (k, x) (by simp)),
      pushEntries_list r _ st (List.pairwise_cons.1 hk).2 (fun e he => hz e (by simp [he])) (fun e he => hs e (by simp [he]))]
    · simp
    · intro e he p hp
      rcases List.mem_cons.1 hp with rfl | hp
      · intro h
        simp only [LKey.str.injEq] at h
        have := (List.pairwise_cons.1 hk).1 e he
        rw [← h] at this
        exact strLT_irrefl _ this
      · exact hf e (by simp [he]) p hp

/-- What a table with names says. -/
theorem says_hash {t : List (LKey × LuaV)} (h0 : t ≠ []) (hs : ∀ p ∈ t, ∃ s, p.1 = .str s) {g' : GC}
    (h : LuaSays (.table t) g') : ∃ e : Entries, g' = .map e ∧ KeysSorted e ∧
      (∀ k, (∃ v, (LKey.str k, v) ∈ t) ↔ ∃ x, (k, x) ∈ e) ∧ ∀ k v x, (LKey.str k, v) ∈ t → (k, x) ∈ e → LuaSays v x := by
  obtain ⟨p, hp⟩ := List.exists_mem_of_ne_nil _ h0
  obtain ⟨s, hs⟩ := hs p hp
  have no : ∀ vs, t.Perm (arrayEntries vs) → False := by
    intro vs hv
    obtain ⟨n, hn⟩ := entries_ints (hv.mem_iff.1 hp)
    rw [hs] at hn; cases hn
  cases h with
  | number h1 => simp [luaNumber] at h1
  | numbers hp => exact (no _ hp).elim
  | bools hp => exact (no _ hp).elim
  | strs hp => exact (no _ hp).elim
  | mixed hp => exact (no _ hp).elim
  | tables hp => exact (no _ hp).elim
  | hash _ _ h1 h2 h3 => exact ⟨_, rfl, h1, h2, h3⟩
  | empty => exact absurd rfl h0

theorem keys_same {m e : Entries} (hm : KeysSorted m) (he : KeysSorted e)
    (h : ∀ k, (∃ x, (k, x) ∈ m) ↔ ∃ x, (k, x) ∈ e) : m.map Prod.fst = e.map Prod.fst := by
  have hs : ∀ {m : Entries}, KeysSorted m → KeysSorted (m.map fun p => (p.1, GC.notype)) := by
    intro m hm
    exact List.pairwise_map.2 hm
  have val : ∀ {m : Entries} {k : Bytes} {v : GC}, mfind k (m.map fun p => (p.1, GC.notype)) = some v →
      v = .notype ∧ ∃ x, (k, x) ∈ m := by
    intro m k v h
    obtain ⟨p, hp, h1⟩ := List.mem_map.1 (mem_of_mfind h)
    simp only [Prod.mk.injEq] at h1
    obtain ⟨rfl, rfl⟩ := h1
    exact ⟨rfl, p.2, hp⟩
  have back : ∀ {m : Entries} {k : Bytes}, KeysSorted m → (∃ x, (k, x) ∈ m) →
      mfind k (m.map fun p => (p.1, GC.notype)) = some .notype := by
    intro m k hm ⟨x, hx⟩
    exact mfind_of_mem (hs hm) (List.mem_map.2 ⟨(k, x), hx, rfl⟩)
  have := sorted_ext (hs hm) (hs he) (by
    intro k
    cases h1 : mfind k (m.map fun p => (p.1, GC.notype)) with
    | some v =>
      obtain ⟨rfl, h2⟩ := val h1
      exact (back he ((h k).1 h2)).symm
    | none =>
      cases h2 : mfind k (e.map fun p => (p.1, GC.notype)) with
      | none => rfl
      | some v => rw [back hm ((h k).2 (val h2).2)] at h1; cases h1)
  have := congrArg (List.map Prod.fst) this
  simpa [List.map_map, Function.comp_def] using this

theorem sent_map {m : Entries} (h0 : m ≠ []) (hk : KeysSorted m) (hz : ∀ e ∈ m, noNul e.1 = true) (hs : ∀ e ∈ m, Sent e.2) :
    Sent (.map m) := by
  have hg : ∀ st, GC_to_lua (.map m) st = .ok (.table (m.map fun e => (LKey.str e.1, form e.2)).reverse :: st) := by
    intro st
    rw [GC_to_lua, pushEntries_list m [] st hk hz hs (by intro e _ p hp; simp at hp), List.append_nil]
  have hf := form_eq (hg [])
  have mem : ∀ k v, (LKey.str k, v) ∈ (m.map fun e => (LKey.str e.1, form e.2)).reverse ↔ ∃ x, (k, x) ∈ m ∧ v = form x := by
    intro k v
    simp only [List.mem_reverse, List.mem_map, Prod.mk.injEq, LKey.str.injEq, Prod.exists]
    constructor
    · rintro ⟨a, b, h1, rfl, rfl⟩; exact ⟨b, h1, rfl⟩
    · rintro ⟨x, h1, rfl⟩; exact ⟨k, x, h1, rfl, rfl⟩
  have str : ∀ p ∈ (m.map fun e => (LKey.str e.1, form e.2)).reverse, ∃ e ∈ m, p = (LKey.str e.1, form e.2) := by
    intro p hp
    simp only [List.mem_reverse, List.mem_map] at hp
    obtain ⟨e, h1, h2⟩ := hp
    exact ⟨e, h1, h2.symm⟩
  refine ⟨by rw [hf]; exact hg, ?_, by rw [hf]; simp, fun _ => ⟨_, hf⟩, ?_, ?_⟩
  · rw [hf]
    refine .hash ?_ ?_ ?_
    · rw [List.map_reverse, (List.reverse_perm _).nodup_iff, List.map_map, List.nodup_iff_pairwise_ne, List.pairwise_map]
      exact hk.imp fun {a b} h1 h2 => by
        simp only [Function.comp_def, LKey.str.injEq] at h2
        rw [h2] at h1
        exact strLT_irrefl _ h1
    · intro p hp
      obtain ⟨e, h1, rfl⟩ := str p hp
      exact ⟨_, rfl, hz e h1⟩
    · intro p hp
      obtain ⟨e, h1, rfl⟩ := str p hp
      exact (hs e h1).ok
  · intro g' h
    rw [hf] at h
    obtain ⟨e, rfl, h1, h2, h3⟩ := says_hash (by simpa using h0)
      (fun p hp => by obtain ⟨e, -, rfl⟩ := str p hp; exact ⟨_, rfl⟩) h
    have key := keys_same hk h1 fun k => by
      rw [← h2 k]
      constructor
      · rintro ⟨x, hx⟩; exact ⟨_, (mem k _).2 ⟨x, hx, rfl⟩⟩
      · rintro ⟨v, hv⟩
        obtain ⟨x, hx, -⟩ := (mem k v).1 hv
        exact ⟨x, hx⟩
    rw [view, view, viewM_map, viewM_map]
    refine .dict (by simpa [List.map_map, Function.comp_def] using key) fun i k t k' t' ht ht' => ?_
    rw [List.getElem?_map] at ht ht'
    cases hm : m[i]? with
    | none => rw [hm] at ht; cases ht
    | some p =>
      cases he : e[i]? with
      | none => rw [he] at ht'; cases ht'
      | some p' =>
        have hkk : p.1 = p'.1 := by
          have h4 : (m.map Prod.fst)[i]? = (e.map Prod.fst)[i]? := by rw [key]
          rw [List.getElem?_map, List.getElem?_map, hm, he] at h4
          simpa using h4
        rw [hm] at ht; rw [he] at ht'
        simp only [Option.map_some, Option.some.injEq, Prod.mk.injEq] at ht ht'
        rw [← ht.2, ← ht'.2]
        have hpm := List.mem_of_getElem? hm
        have hpe := List.mem_of_getElem? he
        exact (hs p hpm).tells _ (h3 p.1 _ p'.2 ((mem _ _).2 ⟨p.2, hpm, rfl⟩) (by rw [hkk]; exact hpe))
  · intro q e e1; rw [hf] at e1; simp [luaNumber] at e1

theorem exact_form {g : GC} (h : NumberBack g) : LuaExact (form g) := by
  obtain ⟨x, q, h1, h2, h3, -⟩ := number_form h
  rw [form_eq (h1 [])]
  exact .inl ⟨x, q, rfl, h2, h3⟩

theorem strs_of_texts {v : List GC} (hl : v.length < 2 ^ 31) (hd : ∀ x ∈ v, ∃ s, x = .string s ∧ noNul s = true) :
    LuaOk (.table (arrayEntries (v.map form)).reverse) := by
  have : ∃ ss : List Bytes, v.map form = ss.map .str ∧ ss.length = v.length ∧ ∀ s ∈ ss, noNul s = true := by
    clear hl
    induction v with
    | nil => exact ⟨[], rfl, rfl, by simp⟩
    | cons x r ih =>
      obtain ⟨b, rfl, hb⟩ := hd x (by simp)
      obtain ⟨bs, h1, h2, h3⟩ := ih fun y hy => hd y (by simp [hy])
      have hf : form (.string b) = .str b := form_eq (by rw [GC_to_lua, cstr_of_noNul hb])
      exact ⟨b :: bs, by rw [List.map_cons, h1, hf]; rfl, by simp [h2], by simpa [hb] using h3⟩
  obtain ⟨bs, h1, h2, h3⟩ := this
  rw [h1]
  exact .strs (List.reverse_perm _) (by omega) h3

theorem sent {g : GC} (h : LuaBack g) : Sent g := by
  induction h with
  | bool => exact sent_bool _
  | number h => exact sent_number h
  | string h => exact sent_string h
  | @ints v h0 hl =>
    refine sent_packed v (fun i => .num (ofI32 i)) int h0 hl (fun _ => rfl) rfl (fun x _ => ⟨sent_number trivial, rfl⟩)
      (fun _ => rfl) ?_
    refine .numbers (List.reverse_perm _) (by simpa using h0) (by simp; omega) fun w hw => ?_
    obtain ⟨i, -, rfl⟩ := List.mem_map.1 hw
    exact exact_form (g := int i) trivial
  | @longs v h0 hl hd =>
    refine sent_packed v (fun i => .num (ofI64 i)) long h0 hl (fun _ => rfl) rfl
      (fun x hx => ⟨sent_number (hd x hx), rfl⟩) (fun _ => rfl) ?_
    refine .numbers (List.reverse_perm _) (by simpa using h0) (by simp; omega) fun w hw => ?_
    obtain ⟨i, hi, rfl⟩ := List.mem_map.1 hw
    exact exact_form (g := long i) (hd i hi)
  | @reals v h0 hl hd =>
    refine sent_packed v .num real h0 hl (fun _ => rfl) rfl
      (fun x hx => ⟨sent_number (hd x hx), rfl⟩) (fun _ => rfl) ?_
    refine .numbers (List.reverse_perm _) (by simpa using h0) (by simp; omega) fun w hw => ?_
    obtain ⟨i, hi, rfl⟩ := List.mem_map.1 hw
    exact exact_form (g := real i) (hd i hi)
  | @strings v h0 hl hd =>
    have e : (v.map fun s => LuaV.str (cstr s)) = v.map .str :=
      List.map_congr_left fun s hs => by rw [cstr_of_noNul (hd s hs)]
    refine sent_packed v .str string h0 hl (fun st => ?_) rfl
      (fun x hx => ⟨sent_string (hd x hx), ?_⟩) (fun _ => rfl) ?_
    · rw [GC_to_lua, e]
    · exact form_eq (by rw [GC_to_lua, cstr_of_noNul (hd x hx)])
    · exact .strs (List.reverse_perm _) (by omega) hd
  | @bools v h0 hl hd =>
    refine sent_vector h0 hl (fun x hx => by obtain ⟨b, rfl⟩ := hd x hx; exact sent_bool b) ?_
    have : ∃ bs : List Bool, v.map form = bs.map .bool ∧ bs.length = v.length := by
      clear h0 hl
      induction v with
      | nil => exact ⟨[], rfl, rfl⟩
      | cons x r ih =>
        obtain ⟨b, rfl⟩ := hd x (by simp)
        obtain ⟨bs, h1, h2⟩ := ih fun y hy => hd y (by simp [hy])
        exact ⟨b :: bs, by rw [List.map_cons, h1]; rfl, by simp [h2]⟩
    obtain ⟨bs, h1, h2⟩ := this
    rw [h1]
    exact .bools (List.reverse_perm _) (by omega)
  | @numbers v h0 hl hd =>
    refine sent_vector h0 hl (fun x hx => sent_number (hd x hx)) ?_
    refine .numbers (List.reverse_perm _) (by simpa using h0) (by simp; omega) fun w hw => ?_
    obtain ⟨i, hi, rfl⟩ := List.mem_map.1 hw
    exact exact_form (hd i hi)
  | @texts v h0 hl hd =>
    refine sent_vector h0 hl (fun x hx => by obtain ⟨b, rfl, hb⟩ := hd x hx; exact sent_string hb) ?_
    exact strs_of_texts hl hd
  | @mixed v h0 hl hd =>
    have hs : ∀ x ∈ v, Sent x := fun x hx => by
      rcases hd x hx with h | ⟨s, rfl, h⟩
      · exact sent_number h
      · exact sent_string h
    refine sent_vector h0 hl hs ?_
    have hf : ∀ s, noNul s = true → form (.string s) = .str s := fun s hs => form_eq (by rw [GC_to_lua, cstr_of_noNul hs])
    by_cases hN : ∃ x ∈ v, NumberBack x
    · by_cases hS : ∃ s, .string s ∈ v
      · obtain ⟨x, hx, hx'⟩ := hN
        obtain ⟨s, hs'⟩ := hS
        refine .mixed (List.reverse_perm _) (by simp; omega) ?_ ⟨_, List.mem_map_of_mem hx, exact_form hx'⟩ ⟨s, ?_⟩
        · intro w hw
          obtain ⟨y, hy, rfl⟩ := List.mem_map.1 hw
          rcases hd y hy with h | ⟨u, rfl, h⟩
          · exact .inl (exact_form h)
          · exact .inr ⟨u, hf u h, h⟩
        · refine List.mem_map.2 ⟨_, hs', hf s ?_⟩
          rcases hd _ hs' with h | ⟨u, e, h⟩
          · exact h.elim
          · cases e; exact h
      · refine .numbers (List.reverse_perm _) (by simpa using h0) (by simp; omega) fun w hw => ?_
        obtain ⟨i, hi, rfl⟩ := List.mem_map.1 hw
        rcases hd i hi with h | ⟨u, rfl, h⟩
        · exact exact_form h
        · exact absurd ⟨u, hi⟩ hS
    · exact (strs_of_texts hl fun x hx => (hd x hx).resolve_left fun h => hN ⟨x, hx, h⟩)
  | @lists v h0 hl ht _ ih =>
    refine sent_vector h0 hl ih ?_
    refine .tables (List.reverse_perm _) (by simp; omega) ?_ ?_
    · intro w hw
      obtain ⟨i, hi, rfl⟩ := List.mem_map.1 hw
      exact (ih i hi).table (ht i hi)
    · intro w hw
      obtain ⟨i, hi, rfl⟩ := List.mem_map.1 hw
      exact (ih i hi).ok
  | map h0 hk hz _ ih => exact sent_map h0 hk hz ih

end GC
end GCV
