import Verif.Lemmas.Lua
import Verif.Lemmas.Dec

/-! # C37: pushing a container to Lua -/

namespace GCV
namespace GC

/-- **C37**: pushing a container adds exactly one value to the Lua stack, which represents it.
Partial: for containers without VEC_BOOL anywhere, with strings and keys free of NUL and vectors of less
than 2^31 elements. -/
theorem C37_push_partial (g : GC) (hw : g.WF) (hr : g.every luaReady)
    (hb : g.every fun x => !isVecBool x) (st : LuaStack) :
    ∃ v, GC_to_lua g st = .ok (v :: st) ∧ Shows g v :=
  push_all.1 g hr hb hw st

example : (GC.map [(str "a", int 3), (str "b", vector [string (str "x"), vecReal [.one]])]).WF ∧
    (GC.map [(str "a", int 3), (str "b", vector [string (str "x"), vecReal [.one]])]).every luaReady ∧
    (GC.map [(str "a", int 3), (str "b", vector [string (str "x"), vecReal [.one]])]).every
      fun x => !isVecBool x := by decide +kernel

mutual
/-- Number of VEC_BOOLs in a tree. -/
def boolVectors : GC → Nat
  | vecBool _ => 1
  | vector v => boolVectorsL v
  | map m => boolVectorsM m
  | _ => 0
termination_by structural g => g
def boolVectorsL : List GC → Nat
  | [] => 0
  | x :: r => boolVectors x + boolVectorsL r
termination_by structural l => l
def boolVectorsM : Entries → Nat
  | [] => 0
  | (_, x) :: r => boolVectors x + boolVectorsM r
termination_by structural l => l
end

theorem rawseti_length {n : Int} {st st' : LuaStack} (h : rawseti n st = .ok st') :
    st.length = st'.length + 1 := by
  unfold rawseti at h
  split at h <;> simp at h
  subst h; simp

theorem settable_length {st st' : LuaStack} (h : settable st = .ok st') :
    st.length = st'.length + 2 := by
  unfold settable at h
  split at h <;> simp at h <;> subst h <;> simp

theorem bind_ok {α β : Type} {o : Out α} {f : α → Out β} {b : β} (h : o.bind f = .ok b) :
    ∃ a, o = .ok a ∧ f a = .ok b := by
  cases o <;> simp [Out.bind] at h
  exact ⟨_, rfl, h⟩

theorem pushItems_length : ∀ (xs : List LuaV) (i : Nat) (st st' : LuaStack),
    pushItems i xs st = .ok st' → st'.length = st.length
  | [], _, st, st', h => by simp [pushItems] at h; rw [h]
  | x :: r, i, st, st', h => by
    obtain ⟨s1, h1, h2⟩ := bind_ok h
    have := pushItems_length r _ _ _ h2
    have := rawseti_length h1
    simp at this; omega

theorem pushItemTable_length {xs : List LuaV} {st st' : LuaStack} (h : pushItemTable xs st = .ok st') :
    st'.length = st.length + 1 := by
  have := pushItems_length _ _ _ _ h
  simpa using this

/-- **C37**, how many values a push leaves on the stack, for every container: one, and one more for
every VEC_BOOL in the tree. -/
theorem C37_count : ∀ (g : GC) (st st' : LuaStack), GC_to_lua g st = .ok st' →
    st'.length = st.length + 1 + boolVectors g := by
  have H : (∀ g : GC, ∀ st st' : LuaStack, GC_to_lua g st = .ok st' →
        st'.length = st.length + 1 + boolVectors g) ∧
      (∀ v : List GC, ∀ i st st', pushElems i v st = .ok st' →
        st'.length = st.length + boolVectorsL v) ∧
      (∀ m : Entries, ∀ st st', pushEntries m st = .ok st' →
        st'.length = st.length + boolVectorsM m) := by
    apply GC.induct
    · intro g hv hm st st' h
      cases g <;> simp only [GC_to_lua, Out.ok.injEq] at h <;>
        first
        | (subst h; rfl)
        | exact absurd rfl (hv _)
        | exact absurd rfl (hm _)
        | exact pushItemTable_length h
        | skip
      obtain ⟨s1, h1, h2⟩ := bind_ok h
      have := pushItemTable_length h1
      simp only [Out.ok.injEq] at h2
      subst h2
      simp [boolVectors]; omega
    · intro v ih st st' h
      have := ih _ _ _ h
      rw [boolVectors]; simp at this; omega
    · intro m ih st st' h
      have := ih _ _ h
      rw [boolVectors]; simp at this; omega
    · intro i st st' h
      simp only [pushElems, Out.ok.injEq] at h
      rw [h]; rfl
    · intro x xs ihx ih i st st' h
      rw [pushElems] at h
      obtain ⟨s1, h1, h2⟩ := bind_ok h
      obtain ⟨s2, h3, h4⟩ := bind_ok h2
      have := ihx _ _ h1
      have := rawseti_length h3
      have := ih _ _ _ h4
      rw [boolVectorsL]; omega
    · intro st st' h
      simp only [pushEntries, Out.ok.injEq] at h
      rw [h]; rfl
    · intro k x xs ihx ih st st' h
      rw [pushEntries] at h
      obtain ⟨s1, h1, h2⟩ := bind_ok h
      obtain ⟨s2, h3, h4⟩ := bind_ok h2
      have := ihx _ _ h1
      have := settable_length h3
      have := ih _ _ h4
      simp at *
      rw [boolVectorsM]; omega
  exact H.1

/-- **C37** fails for VEC_BOOL: two values are pushed, a nil above the table. -/
theorem C37_vec_bool_negation (v : List Bool) (h : v.length < 2 ^ 31) (st : LuaStack) :
    ∃ t, GC_to_lua (vecBool v) st = .ok (.nil :: .table t :: st) := by
  obtain ⟨t, e, _⟩ := pushItemTable_ok (v.map .bool) st (by simpa using h)
  exact ⟨t, by rw [GC_to_lua, e]; rfl⟩

/-- **C37** fails for a VEC_BOOL in a map: a map whose first entry is a VEC_BOOL cannot be pushed, Lua
raises an error. -/
theorem C37_vec_bool_in_map_negation (k : Bytes) (v : List Bool) (r : Entries) (h : v.length < 2 ^ 31)
    (st : LuaStack) : GC_to_lua (map ((k, vecBool v) :: r)) st = .throw := by
  obtain ⟨t, e⟩ := C37_vec_bool_negation v h (.str (cstr k) :: .table [] :: st)
  rw [GC_to_lua, pushEntries, e]; rfl

/-- **C37** fails for a VEC_BOOL in a vector: the elements after it end up in its table, the vector
is pushed empty below. -/
theorem C37_vec_bool_in_vector_negation :
    ∃ t, GC_to_lua (vector [vecBool [true], int 5]) [] = .ok [.table t, .table []] ∧
      LuaV.get (.int 2) t = .num (F64.ofI32 5) ∧ LuaV.get (.int 1) t = .nil :=
  ⟨_, rfl, rfl, rfl⟩

/-- Complex numbers, matrices and pointers are dropped: they are pushed as nil. -/
theorem C37_dropped_negation (st : LuaStack) :
    (∀ c, GC_to_lua (complex c) st = .ok (.nil :: st)) ∧
    (∀ v, GC_to_lua (vecComplex v) st = .ok (.nil :: st)) ∧
    (∀ p, GC_to_lua (pointer p) st = .ok (.nil :: st)) ∧
    (∀ v, GC_to_lua (vecPointer v) st = .ok (.nil :: st)) ∧
    (∀ m, GC_to_lua (matInt m) st = .ok (.nil :: st)) ∧
    (∀ m, GC_to_lua (matLong m) st = .ok (.nil :: st)) ∧
    (∀ m, GC_to_lua (matReal m) st = .ok (.nil :: st)) ∧
    (∀ m, GC_to_lua (matComplex m) st = .ok (.nil :: st)) :=
  ⟨fun _ => rfl, fun _ => rfl, fun _ => rfl, fun _ => rfl, fun _ => rfl, fun _ => rfl, fun _ => rfl,
    fun _ => rfl⟩

end GC
end GCV
