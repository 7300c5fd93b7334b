import Verif.Spec.LuaHistory
import Verif.Props.LuaGlobal

/-!
# C107: sessions of any length with the Lua interpreter, and files
-/

namespace GCV
namespace GC

theorem step_store {w : LuaWorld} {g : GC} (h : LuaBack g) {v : LuaV} (hv : GC_to_lua g [] = .ok [v]) (name : Bytes)
    (gl : List (LKey × LuaV)) (st : LuaStack) (hr : st.length + luaNeed g ≤ luaSlots) (g0 : GC) :
    LuaCall.step w (.store name g) ⟨gl, st⟩ g0 = .ok ⟨LuaV.set (.str (cstr name)) v gl, st⟩ g0 := by
  have hp := C102_write g (room h).packed st
  rw [if_pos hr, (sent h).push, form_eq hv] at hp
  unfold LuaCall.step LuaM.GC_to_global
  simp only [hp]

theorem step_table {w : LuaWorld} {name : Bytes} {gl : List (LKey × LuaV)} {t : List (LKey × LuaV)}
    (hv : LuaV.get (.str (cstr name)) gl = .table t) (hok : LuaOk (.table t)) (hr : 1 + valueNeed (.table t) ≤ luaSlots) (g0 : GC) :
    ∃ g', LuaSays (.table t) g' ∧ LuaCall.step w (.read name) ⟨gl, []⟩ g0 = .ok ⟨gl, []⟩ g' := by
  obtain ⟨g', h1, h2⟩ := C48_value_partial _ hok
  refine ⟨g', h2, ?_⟩
  have hl : lpush (.table t) [] = .ok [.table t] := if_pos (by decide +kernel)
  unfold LuaCall.step LuaM.global_to_GC
  simp only [hv, hl, LuaM.toContainer, List.length_cons, List.length_nil]
  rw [(C102_read t (0 + 1) .notype).1 (by omega), show lua_table_to_GC t .notype = .ok g' () from h1]

theorem step_run {w : LuaWorld} {cmd : Bytes} {gl gl' : List (LKey × LuaV)} {e : Option LuaV}
    (h : w.run (cstr cmd) gl = (gl', e)) (st : LuaStack) (g0 : GC) : LuaCall.step w (.run cmd) ⟨gl, st⟩ g0 =
      if st.length < luaSlots then (match e with | none => .ok ⟨gl', st⟩ g0 | some e => .throw ⟨gl', e :: st⟩ g0) else .ub := by
  unfold LuaCall.step LuaM.execute
  by_cases hl : st.length < luaSlots
  · have hp : lpush .other st = .ok (.other :: st) := if_pos hl
    simp only [hp, h, if_pos hl]
    cases e <;> rfl
  · have hp : lpush .other st = .ub := if_neg hl
    simp only [hp, if_neg hl]

/-- **C107**: an orderly session of any length, in an interpreter with an empty stack, runs to the end: no call throws,
nothing stays on the stack, and the variables are what the programs and the stored containers make of them. -/
theorem C107_orderly (w : LuaWorld) (cs : List LuaCall) (gl gl' : List (LKey × LuaV)) (h : Orderly w gl cs gl') (g0 : GC) :
    ∃ g', LuaCall.session w cs ⟨gl, []⟩ g0 = some (⟨gl', []⟩, g', 0) := by
  induction h generalizing g0 with
  | done => exact ⟨g0, rfl⟩
  | run h _ ih =>
    rw [LuaCall.session, step_run h]
    exact ih g0
  | @file gl gl' gl'' name cs h _ ih =>
    have : LuaCall.step w (.file name) ⟨gl, []⟩ g0 = .ok ⟨gl', []⟩ g0 := by
      show LuaM.do_file w name ⟨gl, []⟩ g0 = _
      unfold LuaM.do_file
      rw [if_pos (show ([] : LuaStack).length + 2 ≤ luaSlots by decide +kernel)]; simp only [h]
    rw [LuaCall.session, this]
    exact ih g0
  | read hv hok hr _ ih =>
    obtain ⟨g', -, h⟩ := step_table (w := w) hv hok hr g0
    rw [LuaCall.session, h]
    exact ih g'
  | store h hn hv _ ih =>
    rw [LuaCall.session, step_store h hv _ _ _ (by simpa using hn)]
    exact ih g0

/-- **C107**: where the last call of an orderly session reads a table, the container holds it. -/
theorem C107_reads (w : LuaWorld) (cs : List LuaCall) (gl gl' : List (LKey × LuaV)) (h : Orderly w gl cs gl') (g0 : GC)
    (name : Bytes) (t : List (LKey × LuaV)) (hv : LuaV.get (.str (cstr name)) gl' = .table t) (hok : LuaOk (.table t))
    (hr : 1 + valueNeed (.table t) ≤ luaSlots) :
    ∃ g', LuaSays (.table t) g' ∧ LuaCall.session w (cs ++ [.read name]) ⟨gl, []⟩ g0 = some (⟨gl', []⟩, g', 0) := by
  obtain ⟨g1, h1⟩ := C107_orderly w cs gl gl' h g0
  have app : ∀ (cs ds : List LuaCall) (m : LuaM) (g : GC), LuaCall.session w (cs ++ ds) m g =
      (LuaCall.session w cs m g).bind fun x => (LuaCall.session w ds x.1 x.2.1).map fun y => (y.1, y.2.1, y.2.2 + x.2.2) := by
    intro cs
    induction cs with
    | nil => intro ds m g; simp [LuaCall.session]
    | cons c r ih =>
      intro ds m g
      rw [List.cons_append, LuaCall.session, LuaCall.session]
      cases c.step w m g with
      | ok m' g' => simp only [ih]
      | throw m' g' =>
        simp only [ih]
        cases LuaCall.session w r m' g' with
        | none => rfl
        | some x =>
          simp only [Option.bind_some, Option.map_some]
          cases LuaCall.session w ds x.1 x.2.1 <;> simp [Nat.add_assoc]
      | stop => rfl
      | ub => rfl
  obtain ⟨g', h2, h3⟩ := step_table (w := w) hv hok hr g1
  refine ⟨g', h2, ?_⟩
  rw [app, h1]
  simp only [Option.bind_some, LuaCall.session, h3, Option.map_some]

theorem step_litter {w : LuaWorld} {name : Bytes} {gl : List (LKey × LuaV)} (h : NoTable (LuaV.get (.str (cstr name)) gl))
    (st : LuaStack) (g0 : GC) :
    (st.length < luaSlots → ∃ g' v, LuaCall.step w (.read name) ⟨gl, st⟩ g0 = .ok ⟨gl, v :: st⟩ g' ∨
      LuaCall.step w (.read name) ⟨gl, st⟩ g0 = .throw ⟨gl, v :: st⟩ g') ∧
    (luaSlots ≤ st.length → LuaCall.step w (.read name) ⟨gl, st⟩ g0 = .ub) := by
  constructor
  · intro hl
    rcases h with h | h | ⟨h, ht⟩
    · refine ⟨g0, .nil, .inr ?_⟩
      have hp : lpush .nil st = .ok (.nil :: st) := if_pos hl
      unfold LuaCall.step LuaM.global_to_GC
      simp only [h, hp]
    · refine ⟨.notype, .other, .inr ?_⟩
      have hp : lpush .other st = .ok (.other :: st) := if_pos hl
      unfold LuaCall.step LuaM.global_to_GC
      simp only [h, hp, LuaM.toContainer, if_true]
    · obtain ⟨g', -, e⟩ := read_scalar (w := w) (m := ⟨gl, st⟩) rfl h ht
      exact ⟨g', _, .inl (by rw [LuaCall.step, e, if_pos hl])⟩
  · intro hl
    have hp : ∀ v, lpush v st = .ub := fun v => if_neg (by omega)
    unfold LuaCall.step LuaM.global_to_GC
    simp only [hp]

/-- **C107**: every failed program and every read of a variable that is no table leaves one value in the interpreter,
whatever the order: after such a session of `n` calls there are `n` values, and the twenty-first call is undefined. -/
theorem C107_littering (w : LuaWorld) (cs : List LuaCall) (gl gl' : List (LKey × LuaV)) (h : Littering w gl cs gl')
    (st : LuaStack) (hst : st.length ≤ luaSlots) (g0 : GC) :
    (st.length + cs.length ≤ luaSlots → ∃ pre g' n, LuaCall.session w cs ⟨gl, st⟩ g0 = some (⟨gl', pre ++ st⟩, g', n) ∧
      pre.length = cs.length) ∧
    (luaSlots < st.length + cs.length → LuaCall.session w cs ⟨gl, st⟩ g0 = none) := by
  induction h generalizing st g0 with
  | done => exact ⟨fun _ => ⟨[], g0, 0, rfl, rfl⟩, fun h => by simp at h; omega⟩
  | @run gl gl' gl'' cmd cs e h _ ih =>
    rw [LuaCall.session, step_run h]
    by_cases hl : st.length < luaSlots
    · simp only [if_pos hl, List.length_cons]
      obtain ⟨i1, i2⟩ := ih (e :: st) (by rw [List.length_cons]; omega) g0
      simp only [List.length_cons] at i1 i2
      constructor
      · intro h'
        obtain ⟨pre, g', n, h1, h2⟩ := i1 (by omega)
        exact ⟨pre ++ [e], g', n + 1, by rw [h1]; simp, by simp [h2]⟩
      · intro h'
        rw [i2 (by omega)]; rfl
    · simp only [if_neg hl, List.length_cons]
      exact ⟨fun h' => by omega, fun _ => trivial⟩
  | @read gl gl'' name cs h _ ih =>
    rw [LuaCall.session]
    obtain ⟨s1, s2⟩ := step_litter (w := w) h st g0
    by_cases hl : st.length < luaSlots
    · obtain ⟨g1, v, hs⟩ := s1 hl
      obtain ⟨i1, i2⟩ := ih (v :: st) (by rw [List.length_cons]; omega) g1
      simp only [List.length_cons] at i1 i2 ⊢
      constructor
      · intro h'
        obtain ⟨pre, g', n, h1, h2⟩ := i1 (by omega)
        rcases hs with hs | hs
        · exact ⟨pre ++ [v], g', n, by rw [hs]; simp only [h1]; simp, by simp [h2]⟩
        · exact ⟨pre ++ [v], g', n + 1, by rw [hs]; simp only [h1]; simp, by simp [h2]⟩
      · intro h'
        rcases hs with hs | hs
        · rw [hs]; exact i2 (by omega)
        · rw [hs]; simp only [i2 (by omega)]; rfl
    · simp only [s2 (by omega), List.length_cons]
      exact ⟨fun h' => by omega, fun _ => trivial⟩

/-- **C107**, files: do_file with two places free runs the program.  Without an error the stack is as before; an error
that is a string, or a number, is an exception and stays on the stack as its text; one that is nil is not reported (and
stays); any other has no text and the message is undefined.  The container is not touched. -/
theorem C107_do_file (w : LuaWorld) (name : Bytes) (m : LuaM) (g : GC) (hr : m.stack.length + 2 ≤ luaSlots) :
    (∀ gl, w.load (cstr name) m.globals = (gl, none) → LuaM.do_file w name m g = .ok ⟨gl, m.stack⟩ g) ∧
    (∀ gl s, w.load (cstr name) m.globals = (gl, some (.str s)) → LuaM.do_file w name m g = .throw ⟨gl, .str s :: m.stack⟩ g) ∧
    (∀ gl v q, w.load (cstr name) m.globals = (gl, some v) → luaNumber v = some q →
      LuaM.do_file w name m g = .throw ⟨gl, .str (w.text v) :: m.stack⟩ g) ∧
    (∀ gl, w.load (cstr name) m.globals = (gl, some .nil) → LuaM.do_file w name m g = .ok ⟨gl, .nil :: m.stack⟩ g) ∧
    (∀ gl v, w.load (cstr name) m.globals = (gl, some v) → v = .other ∨ (∃ b, v = .bool b) ∨ (∃ t, v = .table t) →
      LuaM.do_file w name m g = .ub) := by
  unfold LuaM.do_file
  rw [if_pos hr]
  refine ⟨fun gl h => by rw [h], fun gl s h => by rw [h], fun gl v q h hq => ?_, fun gl h => by rw [h], fun gl v h hv => ?_⟩
  · cases v <;> first | (simp [luaNumber] at hq; done) | rw [h]
  · rcases hv with rfl | ⟨b, rfl⟩ | ⟨t, rfl⟩ <;> rw [h]

/-- **C107**, programs: execute with a place free runs the program; any error is an exception and stays on the stack. -/
theorem C107_execute (w : LuaWorld) (cmd : Bytes) (m : LuaM) (g : GC) (hr : m.stack.length + 1 ≤ luaSlots) :
    (∀ gl, w.run (cstr cmd) m.globals = (gl, none) → LuaM.execute w cmd m g = .ok ⟨gl, m.stack⟩ g) ∧
    (∀ gl e, w.run (cstr cmd) m.globals = (gl, some e) → LuaM.execute w cmd m g = .throw ⟨gl, e :: m.stack⟩ g) := by
  have := fun {gl' e} h => step_run (w := w) (cmd := cmd) (gl := m.globals) (gl' := gl') (e := e) h m.stack g
  simp only [LuaCall.step, if_pos (show m.stack.length < luaSlots from hr)] at this
  exact ⟨fun gl h => this h, fun gl e h => this h⟩

/-- **C107**, without the places both are undefined. -/
theorem C107_no_room (w : LuaWorld) (s : Bytes) (m : LuaM) (g : GC) :
    (luaSlots < m.stack.length + 1 → LuaM.execute w s m g = .ub) ∧
    (luaSlots < m.stack.length + 2 → LuaM.do_file w s m g = .ub) := by
  constructor
  · intro h
    have hp : lpush .other m.stack = .ub := if_neg (by omega)
    unfold LuaM.execute; rw [hp]
  · intro h
    unfold LuaM.do_file; rw [if_neg (by omega)]

/-- **C107**, functions without a result: a function that returns nothing, or something that is no data (a function, a
coroutine), makes the result empty, and what it returned stays on the stack.  Reading a variable that holds such a value
throws instead. -/
theorem C107_nothing (f : Bytes) (args : GC) (hz : noNul f = true) (h : LuaBack args) (m : LuaM)
    (hr : m.stack.length + 2 + 2 * luaTables args ≤ luaSlots) (w : LuaWorld) (io : Entries) (g0 : GC)
    (hf : mfind (str "function") io = some (.string f)) (ha : mfind (str "args") io = some args)
    (gl : List (LKey × LuaV)) (r : LuaV) (hno : r = .nil ∨ r = .other)
    (hw : ∀ a, w.app f a m.globals = (gl, .inr r)) (name : Bytes) (hv : LuaV.get (.str (cstr name)) m.globals = .other) :
    LuaM.call w (.map io) m g0 = .ok ⟨gl, r :: m.stack⟩ .notype ∧
    LuaM.global_to_GC w name m g0 = .throw ⟨m.globals, .other :: m.stack⟩ .notype := by
  have hs := sent h
  have hm := room h
  have hc : cstr f = f := cstr_of_noNul hz
  have hp : (lpush (LuaV.get (.str f) m.globals) m.stack).bind (pushGC args) =
      .ok (form args :: LuaV.get (.str f) m.globals :: m.stack) := by
    rw [lpush, if_pos (by omega), Out.bind, C102_write args hm.packed, if_pos (by
      have := hm.write; simp only [List.length_cons]; omega), hs.push]
  have h1 : call_key_c (str "function") (.map io) = .ok (.string f) := by
    rw [call_key_c, show cstr (str "function") = str "function" from by decide +kernel, hf]
  have h2 : call_key_c (str "args") (.map io) = .ok args := by
    rw [call_key_c, show cstr (str "args") = str "args" from by decide +kernel, ha]
  constructor
  · unfold LuaM.call
    simp only [h1, h2, hc, hp, List.length_cons, if_true, hw]
    rcases hno with rfl | rfl <;> rfl
  · have hp : lpush .other m.stack = .ok (.other :: m.stack) := if_pos (by omega)
    unfold LuaM.global_to_GC
    simp only [hv, hp, LuaM.toContainer, if_true]

/-! ## The hypotheses are met -/

/-- A world in which every program sets `x` to a table, and programs with an empty text fail. -/
def setter : LuaWorld where
  run cmd gl := if cmd = [] then (gl, some (.str (str "no"))) else (LuaV.set (.str (str "x")) (.table [(.str (str "k"), .bool true)]) gl, none)
  app _ v gl := (gl, .inr v)
  junk _ := []
  load _ gl := (gl, none)
  text _ := str "1"

theorem small_ok : LuaOk (.table [(.str (str "k"), .bool true)]) := by
  refine .hash (by simp) ?_ ?_ <;> (intro e he; rw [List.mem_singleton] at he; subst he)
  · exact ⟨_, rfl, by decide +kernel⟩
  · exact .bool

/-- C107: run a program, store the record in `y`, read `x`, and so on, as often as one likes. -/
example (n : Nat) : ∀ gl, ∃ gl', Orderly setter gl
    ((List.replicate n [LuaCall.run (str "p"), .store (str "y") luaSample, .read (str "x"), .file (str "f")]).flatten) gl' := by
  induction n with
  | zero => exact fun gl => ⟨gl, .done⟩
  | succ n ih =>
    intro gl
    obtain ⟨gl', h⟩ := ih (LuaV.set (.str (cstr (str "y"))) (form luaSample)
      (LuaV.set (.str (str "x")) (.table [(.str (str "k"), .bool true)]) gl))
    refine ⟨gl', ?_⟩
    rw [List.replicate_succ, List.flatten_cons]
    refine .run (gl' := LuaV.set (.str (str "x")) (.table [(.str (str "k"), .bool true)]) gl) ?_
      (.store sample_back (by decide +kernel) ((sent sample_back).push []) (.read ?_ small_ok ?_ (.file rfl h)))
    · exact if_neg (t := (gl, some (.str (str "no")))) (show ¬ cstr (str "p") = [] by decide +kernel)
    · rw [get_set_other (by decide +kernel)]; exact get_set_same
    · show 1 + max 1 (max (2 + 0) 0) ≤ luaSlots
      decide +kernel

/-- C107: twenty-one failures. -/
example (n : Nat) : Littering setter [] (List.replicate n (LuaCall.run [])) [] := by
  induction n with
  | zero => exact .done
  | succ n ih => exact .run rfl ih

end GC
end GCV
