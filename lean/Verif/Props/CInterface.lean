import Verif.Lemmas.CInterface

/-! # C33 (the cursor of the C interface) and C34 (its containers are isolated) -/

namespace GCV
namespace CApi
open GC

/-! ## C33 -/

/-- C33: after any calls but `GC_fill_for_test` every cursor points to existing elements, one inside the other. -/
theorem C33_cursor_partial (l : Lib) (h : ReachableNoFill l) : ∀ e ∈ l.heap, Chain e.data e.head :=
  fun e he => ((reachable_placed h).2 e he).2

example : ∃ l, ReachableNoFill l ∧ l.top = some (int 5) ∧ ∃ e ∈ l.heap, e.head.length = 3 :=
  ⟨_, ⟨[.new (str "a"), .setMap, .pushMapPosition (str "x"), .setVector 3, .pushVectorPosition 1, .setInt 5],
    by intro c hc; simp at hc; rcases hc with rfl | rfl | rfl | rfl | rfl | rfl <;> rfl, rfl⟩, by decide +kernel,
    by decide +kernel⟩

theorem set_same {α : Type} {v : List α} {a : Nat} {e : α} (h : v[a]? = some e) : v.set a e = v := by
  apply List.ext_getElem?
  intro i
  by_cases hi : a = i
  · subst hi
    rw [List.getElem?_set_self (List.getElem?_eq_some_iff.1 h).1, h]
  · rw [List.getElem?_set_ne hi]

theorem onActive_eq {α : Type} {d : α} {f : Explorer → Step Explorer α} {l : Lib} {a : Nat} {e : Explorer}
    (ha : l.active = some a) (he : l.heap[a]? = some e) : l.onActive d f = match f e with
      | .ok e' x => .ok { l with heap := l.heap.set a e' } x
      | .throw e' => .throw { l with heap := l.heap.set a e' }
      | .ub => .ub
      | .diverge => .diverge := by
  unfold Lib.onActive
  rw [ha]; dsimp only; rw [he]; dsimp only
  cases f e <;> simp

/-- With nothing selected or a selected explorer with existing positions. -/
theorem active_cases {l : Lib} (h : ReachableNoFill l) :
    l.active = none ∨ ∃ a e, l.active = some a ∧ l.heap[a]? = some e ∧ Placed e ∧ Sound e ∧ a < l.heap.length := by
  obtain ⟨h1, h2⟩ := reachable_placed h
  cases ha : l.active with
  | none => exact .inl rfl
  | some a =>
    have hlt := h1.2.2.2 a ha
    refine .inr ⟨a, l.heap[a], rfl, List.getElem?_eq_getElem hlt, ?_⟩
    have := h2 _ (List.getElem_mem hlt)
    exact ⟨this.2, this.1, hlt⟩

/-- Navigation: the call returns the code, and has done nothing unless it is 0. -/
theorem nav_ok {l : Lib} (h : ReachableNoFill l) {f : Explorer → Step Explorer Value}
    (hf : ∀ e, Placed e → Sound e → ∃ e' n, f e = .ok e' (.code n) ∧ (n = 0 ∨ n = 1 ∨ n = 2 ∨ n = 4) ∧ (n ≠ 0 → e' = e)) :
    ∃ l' n, l.onActive (.code BAD_HEAD) f = .ok l' (.code n) ∧ (n = 0 ∨ n = 1 ∨ n = 2 ∨ n = 4) ∧ (n ≠ 0 → l' = l) := by
  rcases active_cases h with ha | ⟨a, e, ha, he, hp, hs, _⟩
  · exact ⟨l, 4, by unfold Lib.onActive; rw [ha]; rfl, by simp, fun _ => rfl⟩
  · obtain ⟨e', n, h1, h2, h3⟩ := hf e hp hs
    refine ⟨{ l with heap := l.heap.set a e' }, n, ?_, h2, fun hn => ?_⟩
    · rw [onActive_eq ha he, h1]
    · rw [h3 hn, set_same he]

theorem push_ok {e : Explorer} {t : Ty} {f : GC → Res Unit} {s : Sel} (h : Placed e)
    (hf : ∀ g, t = g.ty → ∃ g', f g = .ok g' ()) : ∃ e' n, (match e.check t with
      | .ok e ok => if ok = OK then
          match e.onTop f with
          | .ok e' _ => Step.ok (e'.descend s) ok
          | .throw e' => .throw e'
          | .ub => .ub
          | .diverge => .diverge
        else .ok e ok
      | r => r) = .ok e' n ∧ (n = 0 ∨ n = 1 ∨ n = 2 ∨ n = 4) ∧ (n ≠ 0 → e' = e) := by
  rcases placed_head h with hh | ⟨p, r, hh⟩
  · rw [check_empty hh]; exact ⟨e, 4, rfl, by simp, fun _ => rfl⟩
  · obtain ⟨g, hg, ho⟩ := onTop_eq f h hh
    rw [check_eq hh hg]
    dsimp only
    by_cases ht : t = g.ty
    · obtain ⟨g', hg'⟩ := hf g ht
      rw [if_pos ht, if_pos rfl, ho, hg']
      exact ⟨_, _, rfl, .inl rfl, fun hn => absurd rfl hn⟩
    · rw [if_neg ht, if_neg (by decide)]; exact ⟨e, 1, rfl, by simp, fun _ => rfl⟩

theorem withIdx_ok {i : Nat} {g : GC} (hi : i < 2 ^ 32 - 1) : ∃ g', withIdx i (fun x => .ok x ()) g = .ok g' () := by
  unfold withIdx
  dsimp only
  have hlt : i < (checkResize notype i g.oldVector).length := by
    unfold checkResize
    split
    · have : u32 (i + 1) = i + 1 := by unfold u32; omega
      rw [this]
      simp only [resizeL, List.length_append, List.length_take, List.length_replicate]
      omega
    · omega
  rw [List.getElem?_eq_getElem hlt]
  exact ⟨_, rfl⟩

/-- The calls that move the cursor or only look. -/
inductive Navigation : Call → Prop
  | pop : Navigation .popHead
  | reset : Navigation .resetHead
  | key (k : Bytes) : Navigation (.pushMapPosition k)
  | index (pos : I32) : pos.toNat ≠ 2 ^ 32 - 1 → Navigation (.pushVectorPosition pos)
  | init : Navigation .initMapKey
  | dump : Navigation .dump
  | types : Navigation .printContentTypes

theorem readTop_guarded {e : Explorer} (h : Placed e) :
    ∃ e' n, guarded (e.readTop fun _ => .ok ()) = .ok e' n ∧ (n = 0 ∨ n = 1 ∨ n = 2 ∨ n = 4) ∧ (n ≠ 0 → e' = e) := by
  unfold Explorer.readTop
  rcases placed_head h with hh | ⟨p, r, hh⟩
  · rw [hh]; exact ⟨e, 2, rfl, by simp, fun _ => rfl⟩
  · have ht : (getAt p e.data).isSome = true := chain_top (by unfold Placed at h; rwa [hh] at h)
    obtain ⟨g, hg⟩ := Option.isSome_iff_exists.1 ht
    rw [hh]
    dsimp only
    rw [hg]
    exact ⟨e, 0, rfl, .inl rfl, fun hn => absurd rfl hn⟩

/-- C33: each of these calls returns a documented code, and changes nothing when it is not 0. -/
theorem C33_navigation_partial (l : Lib) (h : ReachableNoFill l) (c : Call) (hc : Navigation c) :
    ∃ l' n, c.run l = .ok l' (.code n) ∧ (n = 0 ∨ n = 1 ∨ n = 2 ∨ n = 4) ∧ (n ≠ 0 → l' = l) := by
  have code : ∀ {r : Step Explorer Int} {e : Explorer}, (∃ e' n, r = .ok e' n ∧ (n = 0 ∨ n = 1 ∨ n = 2 ∨ n = 4) ∧
      (n ≠ 0 → e' = e)) → ∃ e' n, r.map Value.code = .ok e' (.code n) ∧ (n = 0 ∨ n = 1 ∨ n = 2 ∨ n = 4) ∧ (n ≠ 0 → e' = e) := by
    rintro r e ⟨e', n, h1, h2⟩
    exact ⟨e', n, by rw [h1]; rfl, h2⟩
  have hid : c.id? = none := by cases hc <;> rfl
  rw [run_act hid]
  cases hc with
  | pop =>
    refine nav_ok h fun e _ _ => ⟨_, _, rfl, ?_⟩
    unfold Explorer.pop; split
    · exact ⟨.inr (.inr (.inl rfl)), fun _ => rfl⟩
    · exact ⟨.inl rfl, fun hn => absurd rfl hn⟩
  | reset =>
    refine nav_ok h fun e _ _ => ⟨_, _, rfl, ?_⟩
    unfold Explorer.reset; split
    · exact ⟨.inr (.inr (.inl rfl)), fun _ => rfl⟩
    · exact ⟨.inl rfl, fun hn => absurd rfl hn⟩
  | key k => exact nav_ok h fun e hp _ => code (push_ok hp fun g _ => ⟨_, rfl⟩)
  | index pos hpos =>
    refine nav_ok h fun e hp _ => code (push_ok hp fun g _ => withIdx_ok ?_)
    have := pos.isLt; omega
  | init =>
    refine nav_ok h fun e hp hs => code ?_
    unfold Explorer.init_map_key
    rcases placed_head hp with hh | ⟨p, r, hh⟩
    · rw [check_empty hh]; exact ⟨e, 4, rfl, by simp, fun _ => rfl⟩
    · obtain ⟨g, hg, _⟩ := onTop_eq (fun g => Res.ok g ()) hp hh
      rw [check_eq hh hg]
      dsimp only
      by_cases ht : Ty.MAP = g.ty
      · rw [if_pos ht, if_pos rfl, hh]
        cases g with
        | map m => dsimp only; rw [hg]; exact ⟨_, _, rfl, .inl rfl, fun hn => absurd rfl hn⟩
        | _ => cases ht
      · rw [if_neg ht, if_neg (by decide)]; exact ⟨e, 1, rfl, by simp, fun _ => rfl⟩
  | dump => exact nav_ok h fun e hp _ => code (readTop_guarded hp)
  | types => exact nav_ok h fun e hp _ => code (readTop_guarded hp)

/-- The selected explorer of a library with something under the cursor. -/
theorem top_cases {l : Lib} (h : ReachableNoFill l) {g : GC} (ht : l.top = some g) :
    ∃ a e p r, l.active = some a ∧ l.heap[a]? = some e ∧ Placed e ∧ Sound e ∧ a < l.heap.length ∧
      e.head = some p :: r ∧ getAt p e.data = some g := by
  unfold Lib.top Lib.current at ht
  rcases active_cases h with ha | ⟨a, e, ha, he, hp, hs, hl⟩
  · rw [ha] at ht; cases ht
  · rw [ha] at ht
    simp only [Option.bind_some, he] at ht
    rcases placed_head hp with hh | ⟨p, r, hh⟩
    · rw [hh] at ht; cases ht
    · rw [hh] at ht
      exact ⟨a, e, p, r, ha, he, hp, hs, hl, hh, ht⟩

theorem current_set {l : Lib} {a : Nat} (e : Explorer) (ha : l.active = some a) (hl : a < l.heap.length) :
    ({ l with heap := l.heap.set a e } : Lib).current = some e := by
  unfold Lib.current
  rw [ha]
  exact List.getElem?_set_self hl

/-- What the call does to the tree and to the cursor. -/
def Writes (l l' : Lib) (s : GC) : Prop :=
  ∃ e e' p, l.current = some e ∧ l'.current = some e' ∧ e.head.head? = some (some p) ∧ e'.head = e.head ∧
    e'.data = modAt p (fun _ => s) e.data

theorem onTop_run {α : Type} {l : Lib} (h : ReachableNoFill l) {g : GC} (ht : l.top = some g) (f : GC → Res α)
    {F : Explorer → Step Explorer Value} {d : Value} :
    (∀ s a v, f g = .ok s a → (∀ e e', e.onTop f = .ok e' a → F e = .ok e' v) →
      ∃ l', l.onActive d F = .ok l' v ∧ l'.top = some s ∧ Writes l l' s) ∧
    (∀ s v, f g = .throw s → (∀ e e', e.onTop f = .throw e' → F e = .ok e' v) →
      ∃ l', l.onActive d F = .ok l' v ∧ l'.top = some s ∧ Writes l l' s) ∧
    (∀ s, f g = .throw s → (∀ e e', e.onTop f = .throw e' → F e = .throw e') →
      ∃ l', l.onActive d F = .throw l' ∧ l'.top = some s ∧ Writes l l' s) := by
  obtain ⟨a, e, p, r, ha, he, hp, hs, hl, hh, hg⟩ := top_cases h ht
  obtain ⟨g', hg', ho⟩ := onTop_eq f hp hh
  rw [hg] at hg'
  cases hg'
  have key : ∀ s, ({ l with heap := l.heap.set a (e.become (modAt p (fun _ => s) e.data)) } : Lib).top = some s ∧
      Writes l { l with heap := l.heap.set a (e.become (modAt p (fun _ => s) e.data)) } s := by
    intro s
    have hc := current_set (e.become (modAt p (fun _ => s) e.data)) ha hl
    have hb := (placed_become hp hh s).1
    constructor
    · unfold Lib.top
      rw [hc]
      simp only [Option.bind_some]
      rw [hb, hh]
      exact getAt_modAt (fun _ => s) p hg
    · refine ⟨e, _, p, ?_, hc, by rw [hh]; rfl, hb, rfl⟩
      unfold Lib.current
      rw [ha]; exact he
  refine ⟨fun s x v hf hF => ?_, fun s v hf hF => ?_, fun s hf hF => ?_⟩
  · rw [hf] at ho
    exact ⟨_, by rw [onActive_eq ha he, hF e _ ho], key s⟩
  · rw [hf] at ho
    exact ⟨_, by rw [onActive_eq ha he, hF e _ ho], key s⟩
  · rw [hf] at ho
    exact ⟨_, by rw [onActive_eq ha he, hF e _ ho], key s⟩

theorem act_guarded {c : Call} {op : Op} (hc : c.guardedOp = some op) :
    c.id? = none ∧ c.act = (.code BAD_HEAD, fun e => (guarded (e.onTop (step op))).map .code) := by
  cases c <;> simp only [Call.guardedOp] at hc <;> first | (cases hc; done) | skip
  all_goals (cases hc; exact ⟨rfl, rfl⟩)

/-- C33: the setters and pushes do to the container under the cursor what the C++ call does, leave the rest of
the tree and the cursor alone, and return 0, or 2 when the C++ call throws. -/
theorem C33_write (l : Lib) (h : ReachableNoFill l) (g : GC) (ht : l.top = some g) (c : Call) (op : Op)
    (hc : c.guardedOp = some op) :
    (∀ s, step op g = .ok s () → ∃ l', c.run l = .ok l' (.code 0) ∧ l'.top = some s ∧ Writes l l' s) ∧
    (∀ s, step op g = .throw s → ∃ l', c.run l = .ok l' (.code 2) ∧ l'.top = some s ∧ Writes l l' s) := by
  obtain ⟨h1, h2⟩ := act_guarded hc
  rw [run_act h1, h2]
  obtain ⟨o1, o2, _⟩ := onTop_run h ht (step op) (d := .code BAD_HEAD)
    (F := fun e => (guarded (e.onTop (step op))).map .code)
  exact ⟨fun s hs => o1 s () _ hs fun e e' he => by rw [he]; rfl, fun s hs => o2 s _ hs fun e e' he => by rw [he]; rfl⟩

example : Call.guardedOp (.pushInt 4) = some (.pushInt 4) ∧ step (.pushInt 4) (vecInt [1]) = .ok (vecInt [1, 4]) () ∧
    step (.pushInt 4) (map []) = .throw (map []) := ⟨rfl, by decide +kernel, by decide +kernel⟩

theorem act_query {c : Call} {d : Value} {f : GC → Res Value} (hc : c.query = some (d, f)) :
    c.id? = none ∧ c.act = (d, Explorer.onTop f) := by
  cases c <;> simp only [Call.query] at hc <;> first | (cases hc; done) | skip
  all_goals (cases hc; exact ⟨rfl, rfl⟩)

/-- C33: a getter gives what the C++ query of the container under the cursor gives; when that throws, the exception
leaves the C function. -/
theorem C33_read (l : Lib) (h : ReachableNoFill l) (g : GC) (ht : l.top = some g) (c : Call) (d : Value)
    (f : GC → Res Value) (hc : c.query = some (d, f)) :
    (∀ s v, f g = .ok s v → ∃ l', c.run l = .ok l' v ∧ l'.top = some s ∧ Writes l l' s) ∧
    (∀ s, f g = .throw s → ∃ l', c.run l = .throw l' ∧ l'.top = some s ∧ Writes l l' s) := by
  obtain ⟨h1, h2⟩ := act_query hc
  rw [run_act h1, h2]
  obtain ⟨o1, _, o3⟩ := onTop_run h ht f (d := d) (F := Explorer.onTop f)
  exact ⟨fun s v hs => o1 s v v hs fun e e' he => he, fun s hs => o3 s hs fun e e' he => he⟩

/-- The container an array setter is asked to make, and the number of elements given. -/
def Call.array : Call → Option (Nat × GC)
  | .setVecBool a => some (a.length, vecBool (a.map (· != 0)))
  | .setVecInt a => some (a.length, vecInt a)
  | .setVecReal a => some (a.length, vecReal a)
  | .setVecComplex a => some (a.length, vecComplex a)
  | .setVecString a => some (a.length, vecString (a.map cstr))
  | _ => none

theorem over_alloc {α : Type} (d : α) (a v : List α) (h : a ≠ []) : over a (allocL d a.length v) = a := by
  have hp : 0 < a.length := List.length_pos_iff.2 h
  unfold over allocL resizeL
  rw [if_pos hp, List.drop_of_length_le (by simp; omega), List.append_nil]

theorem act_fill {c : Call} {f : GC → Res Unit} (hc : c.fill = some f) :
    c.id? = none ∧ c.act = (.code BAD_HEAD, fun e => (bare (e.onTop f)).map .code) := by
  cases c <;> simp only [Call.fill] at hc <;> first | (cases hc; done) | skip
  all_goals (cases hc; exact ⟨rfl, rfl⟩)

/-- C33: `GC_set_vector_of_*` with at least one element makes the container under the cursor the vector of these
elements, whatever it held. -/
theorem C33_array (l : Lib) (h : ReachableNoFill l) (g : GC) (ht : l.top = some g) (c : Call) (n : Nat) (x : GC)
    (hc : c.array = some (n, x)) (hn : n ≠ 0) :
    ∃ l', c.run l = .ok l' (.code 0) ∧ l'.top = some x ∧ Writes l l' x := by
  have key : ∃ f, c.fill = some f ∧ f g = .ok x () := by
    cases c <;> simp only [Call.array] at hc <;> first | (cases hc; done) | skip
    all_goals
      cases hc
      refine ⟨_, rfl, ?_⟩
      have ha := List.length_pos_iff.1 (Nat.pos_of_ne_zero hn)
    · rename_i a
      have := over_alloc false (a.map (· != 0)) (oldVecBool g) (mt List.map_eq_nil_iff.1 ha)
      simp only [set_vector_of_bool, set_vec_bool_n, allocate_vec_bool, this]
    · simp only [set_vector_of_int, set_vec_int_n, allocate_vec_int, over_alloc _ _ _ ha]
    · simp only [set_vector_of_real, set_vec_real_n, allocate_vec_real, over_alloc _ _ _ ha]
    · simp only [set_vector_of_complex, set_vec_complex_n, allocate_vec_complex, over_alloc _ _ _ ha]
    · rename_i a
      have := over_alloc [] (a.map cstr) (oldVecString g) (mt List.map_eq_nil_iff.1 ha)
      simp only [set_vector_of_string, set_vec_string_n, allocate_vec_string, this]
  obtain ⟨f, hf, hx⟩ := key
  obtain ⟨h1, h2⟩ := act_fill hf
  rw [run_act h1, h2]
  obtain ⟨o1, _, _⟩ := onTop_run h ht f (d := .code BAD_HEAD) (F := fun e => (bare (e.onTop f)).map .code)
  exact o1 x () _ hx fun e e' he => by rw [he]; rfl

example : Call.array (.setVecReal [.one, .zero]) = some (2, vecReal [.one, .zero]) := rfl

/-- C33 fails for an empty array: a vector of the same type keeps its old elements. -/
theorem C33_empty_array_negation (l : Lib) (h : ReachableNoFill l) (v : List F64) (ht : l.top = some (vecReal v)) :
    ∃ l', (Call.setVecReal []).run l = .ok l' (.code 0) ∧ l'.top = some (vecReal v) := by
  obtain ⟨h1, h2⟩ := act_fill (c := .setVecReal []) rfl
  rw [run_act h1, h2]
  obtain ⟨o1, _, _⟩ := onTop_run h ht (set_vector_of_real []) (d := .code BAD_HEAD)
    (F := fun e => (bare (e.onTop (set_vector_of_real []))).map .code)
  obtain ⟨l', a, b, _⟩ := o1 (vecReal v) () (.code 0) rfl fun e e' he => by rw [he]; rfl
  exact ⟨l', a, b⟩

example : ∃ l, ReachableNoFill l ∧ l.top = some (vecReal [.one]) :=
  ⟨_, ⟨[.new (str "a"), .setVecReal [.one]], by intro c hc; simp at hc; rcases hc with rfl | rfl <;> rfl, rfl⟩,
    by decide +kernel⟩

/-- C33: going to an element: what is under the cursor then, and that `GC_pop_head` comes back. -/
theorem push_run {l : Lib} (h : ReachableNoFill l) {g : GC} (ht : l.top = some g) {t : Ty} {f : GC → Res Unit} {s : Sel}
    {g' x : GC} (hty : t = g.ty) (hf : f g = .ok g' ()) (hx : getAt [s] g' = some x) :
    ∃ l' l'', (l.onActive (.code BAD_HEAD) fun e => (match e.check t with
      | .ok e ok => if ok = OK then
          match e.onTop f with
          | .ok e' _ => Step.ok (e'.descend s) ok
          | .throw e' => .throw e'
          | .ub => .ub
          | .diverge => .diverge
        else .ok e ok
      | r => r).map Value.code) = .ok l' (.code 0) ∧ l'.top = some x ∧
      Call.popHead.run l' = .ok l'' (.code 0) ∧ l''.top = some g' ∧ Writes l l'' g' := by
  obtain ⟨a, e, p, r, ha, he, hp, hs, hl, hh, hg⟩ := top_cases h ht
  obtain ⟨g1, hg1, ho⟩ := onTop_eq f hp hh
  rw [hg] at hg1
  cases hg1
  rw [hf] at ho
  dsimp only at ho
  have hb := (placed_become hp hh g').1
  have hd : (e.become (modAt p (fun _ => g') e.data)).descend s =
      { e.become (modAt p (fun _ => g') e.data) with head := some (p ++ [s]) :: some p :: r } := by
    unfold Explorer.descend
    rw [hb, hh]
  let E := e.become (modAt p (fun _ => g') e.data)
  let E1 : Explorer := { E with head := some (p ++ [s]) :: some p :: r }
  let E2 : Explorer := { E1 with head := some p :: r }
  have hE : E.data = modAt p (fun _ => g') e.data := rfl
  refine ⟨{ l with heap := l.heap.set a E1 }, { l with heap := (l.heap.set a E1).set a E2 }, ?_, ?_, ?_, ?_, ?_⟩
  · rw [onActive_eq ha he, check_eq hh hg]
    dsimp only
    rw [if_pos hty, if_pos rfl, ho]
    dsimp only
    rw [hd]
    rfl
  · unfold Lib.top
    rw [current_set E1 ha hl]
    show getAt (p ++ [s]) (modAt p (fun _ => g') e.data) = some x
    rw [getAt_append, getAt_modAt _ p hg]
    exact hx
  · rw [run_act rfl]
    rw [onActive_eq (l := { l with heap := l.heap.set a E1 }) (e := E1) ha (List.getElem?_set_self hl)]
    rfl
  · unfold Lib.top
    have := current_set (l := { l with heap := l.heap.set a E1 }) E2 ha (by simpa using hl)
    rw [this]
    exact getAt_modAt (fun _ => g') p hg
  · refine ⟨e, E2, p, ?_, current_set (l := { l with heap := l.heap.set a E1 }) E2 ha (by simpa using hl),
      by rw [hh]; rfl, by rw [hh], rfl⟩
    unfold Lib.current
    rw [ha]; exact he

/-- C33: `GC_push_map_position` on a map goes to the element under the key, a new empty one if there is none, and
`GC_pop_head` comes back to the map. -/
theorem C33_push_map (l : Lib) (h : ReachableNoFill l) (m : Entries) (ht : l.top = some (map m)) (k : Bytes)
    (hk : (0 : Byte) ∉ k) :
    ∃ l' l'', Call.run (.pushMapPosition k) l = .ok l' (.code 0) ∧ l'.top = some ((mfind k m).getD notype) ∧
      Call.popHead.run l' = .ok l'' (.code 0) ∧ l''.top = some (map (mset k ((mfind k m).getD notype) m)) ∧
      Writes l l'' (map (mset k ((mfind k m).getD notype) m)) := by
  rw [run_act rfl]
  have hn : cstr k = k := cstr_of_noNul (by
    simp only [noNul, List.all_eq_true, decide_eq_true_eq]; intro x hx h0; exact hk (h0 ▸ hx))
  refine push_run h ht (t := .MAP) (f := withKey k fun x => .ok x ()) (s := .key (cstr k)) rfl ?_ ?_
  · simp only [withKey, oldMap, hn, Res.mapState]
  · rw [hn]; simp [getAt, mfind_mset_same]

/-- C33: `GC_push_vector_position` on a vector goes to the element, after the vector has been filled up with empty
ones if it is shorter, and `GC_pop_head` comes back to the vector. -/
theorem C33_push_vector (l : Lib) (h : ReachableNoFill l) (v : List GC) (ht : l.top = some (vector v)) (pos : I32)
    (hp : pos.toNat ≠ 2 ^ 32 - 1) :
    ∃ l' l'', Call.run (.pushVectorPosition pos) l = .ok l' (.code 0) ∧ l'.top = some (v.getD pos.toNat notype) ∧
      Call.popHead.run l' = .ok l'' (.code 0) ∧
      l''.top = some (vector (v ++ List.replicate (pos.toNat + 1 - v.length) notype)) ∧
      Writes l l'' (vector (v ++ List.replicate (pos.toNat + 1 - v.length) notype)) := by
  rw [run_act rfl]
  have hlt := pos.isLt
  have hw : checkResize notype pos.toNat v = v ++ List.replicate (pos.toNat + 1 - v.length) notype := by
    unfold checkResize
    split
    · have : u32 (pos.toNat + 1) = pos.toNat + 1 := by unfold u32; omega
      rw [this, resizeL, List.take_of_length_le (by omega)]
    · have : pos.toNat + 1 - v.length = 0 := by omega
      rw [this]; simp
  have hget : (v ++ List.replicate (pos.toNat + 1 - v.length) notype)[pos.toNat]? = some (v.getD pos.toNat notype) := by
    by_cases hi : pos.toNat < v.length
    · rw [List.getElem?_append_left hi, List.getD_eq_getElem?_getD, List.getElem?_eq_getElem hi]; rfl
    · have hv : v[pos.toNat]? = none := List.getElem?_eq_none (by omega)
      rw [List.getElem?_append_right (by omega), List.getD_eq_getElem?_getD, hv]
      rw [List.getElem?_replicate, if_pos (by omega)]; rfl
  refine push_run h ht (t := .VECTOR) (f := withIdx pos.toNat fun x => .ok x ()) (s := .idx pos.toNat) rfl ?_ ?_
  · unfold withIdx
    dsimp only [oldVector]
    rw [hw, hget]
    simp only [Res.mapState]
    rw [set_same hget]
  · simp only [getAt]
    rw [hget]; rfl

/-- `GC_push_vector_position(-1)`: the vector is emptied and then read: undefined. -/
theorem C33_minus_one_negation (l : Lib) (h : ReachableNoFill l) (v : List GC) (ht : l.top = some (vector v))
    (hv : v.length < 2 ^ 32) : Call.run (.pushVectorPosition (-1)) l = .ub := by
  obtain ⟨a, e, p, r, ha, he, hp, hs, hl, hh, hg⟩ := top_cases h ht
  rw [run_act rfl, onActive_eq ha he]
  obtain ⟨g1, hg1, ho⟩ := onTop_eq (withIdx (-1 : I32).toNat fun x => .ok x ()) hp hh
  rw [hg] at hg1
  cases hg1
  have hn : (-1 : I32).toNat = 2 ^ 32 - 1 := by decide
  have hw : withIdx (-1 : I32).toNat (fun x => .ok x ()) (vector v) = .ub := by
    unfold withIdx
    dsimp only [oldVector]
    rw [hn]
    have : checkResize notype (2 ^ 32 - 1) v = [] := by
      unfold checkResize
      rw [if_pos (by omega)]
      have h0 : u32 (2 ^ 32 - 1 + 1) = 0 := by decide
      rw [h0]; simp [resizeL]
    rw [this]; rfl
  rw [hw] at ho
  simp only [Call.act, Explorer.push_vector_position, check_eq hh hg, ty, if_true, ho]
  rfl

theorem onActive_empty {α : Type} {d : α} {f : Explorer → Step Explorer α} {l : Lib} {a : Nat}
    (hf : ∀ e, e.head = [] → (f e).All fun e' => e'.head = []) (h : ∃ e, l.heap[a]? = some e ∧ e.head = []) :
    (l.onActive d f).All fun l' => ∃ e, l'.heap[a]? = some e ∧ e.head = [] := by
  obtain ⟨e, he, hh⟩ := h
  unfold Lib.onActive
  cases hac : l.active with
  | none => exact all_ok ⟨e, he, hh⟩
  | some b =>
    dsimp only
    cases hb : l.heap[b]? with
    | none => exact all_ub
    | some e1 =>
      have hset : ∀ e2 : Explorer, (a = b → e2.head = []) → ∃ e, (l.heap.set b e2)[a]? = some e ∧ e.head = [] := by
        intro e2 h2
        by_cases hab : a = b
        · subst hab
          exact ⟨e2, List.getElem?_set_self (List.getElem?_eq_some_iff.1 he).1, h2 rfl⟩
        · exact ⟨e, by rw [List.getElem?_set_ne (Ne.symm hab)]; exact he, hh⟩
      have h1 : a = b → e1.head = [] := by rintro rfl; rw [he] at hb; cases hb; exact hh
      dsimp only
      cases hr : f e1 with
      | ok e2 x => exact all_ok (hset e2 fun hab => hf e1 (h1 hab) e2 (by rw [hr]; rfl))
      | throw e2 => exact all_throw (hset e2 fun hab => hf e1 (h1 hab) e2 (by rw [hr]; rfl))
      | ub => exact all_ub
      | diverge => exact all_diverge

theorem onRoot_empty : ∀ (ops : List Op) (e : Explorer), e.head = [] → (Explorer.onRoot ops e).All fun e' => e'.head = []
  | [], e, he => all_ok he
  | op :: ops, e, he => by
    have hb : ∀ s, (e.become s).head = [] := fun s => by simp [Explorer.become, he]
    unfold Explorer.onRoot
    cases step op e.data with
    | ok s u => exact onRoot_empty ops _ (hb s)
    | throw s => exact all_throw (hb s)
    | ub => exact all_ub
    | diverge => exact all_diverge

/-- Once the stack of a container is empty (one `GC_pop_head` too many) it stays empty, whatever is called;
`GC_reset_head` does not bring it back. -/
theorem C33_stuck_negation (cs : List Call) (l l' : Lib) (a : Nat)
    (h : ∃ e, l.heap[a]? = some e ∧ e.head = []) (hr : runs cs l = some l') :
    ∃ e, l'.heap[a]? = some e ∧ e.head = [] := by
  have hsel : ∀ (id : Bytes) {l : Lib}, (∃ e, l.heap[a]? = some e ∧ e.head = []) →
      ∃ e, (l.select id).heap[a]? = some e ∧ e.head = [] := by
    rintro id l ⟨e, he, hh⟩
    rcases select_heap (l := l) id with h1 | h1 <;> rw [h1]
    · exact ⟨e, he, hh⟩
    · exact ⟨e, by rw [List.getElem?_append_left (List.getElem?_eq_some_iff.1 he).1]; exact he, hh⟩
  refine runs_all (P := fun l => ∃ e, l.heap[a]? = some e ∧ e.head = []) (Q := fun _ => True) ?_ cs (fun _ _ => trivial) h hr
  intro c l _ h
  cases hi : c.id? with
  | none => rw [run_act hi]; exact onActive_empty (fun e he => act_empty he) h
  | some id =>
    cases c <;> simp only [Call.id?, Option.some.injEq] at hi <;> first | (cases hi; done) | skip
    · exact all_ok (hsel _ h)
    · exact all_ok (hsel _ h)
    · exact all_ok (hsel _ h)
    · exact all_ok h
    · exact all_map (all_bare (onActive_empty (fun e he => onRoot_empty _ e he) (hsel _ h)))

example : ∃ l, runs [.new (str "a"), .popHead] .init = some l ∧ ∃ e, l.heap[0]? = some e ∧ e.head = [] :=
  ⟨_, rfl, _, rfl, rfl⟩

/-- On an empty stack the queries throw a C++ exception through the C function. -/
theorem C33_exception_negation (l : Lib) (e : Explorer) (he : l.current = some e) (hh : e.head = []) (c : Call) (d : Value)
    (f : GC → Res Value) (hc : c.query = some (d, f)) : ∃ l', c.run l = .throw l' := by
  obtain ⟨h1, h2⟩ := act_query hc
  rw [run_act h1, h2]
  unfold Lib.current at he
  cases ha : l.active with
  | none => rw [ha] at he; cases he
  | some a =>
    rw [ha] at he
    refine ⟨{ l with heap := l.heap.set a e }, ?_⟩
    rw [onActive_eq ha he]
    have : Explorer.onTop f e = .throw e := by unfold Explorer.onTop; rw [hh]
    dsimp only
    rw [this]

example : Call.query .getType ≠ none ∧ ∃ l, runs [.new (str "a"), .popHead] .init = some l ∧
    ∃ e, l.current = some e ∧ e.head = [] := ⟨by simp [Call.query], _, rfl, _, rfl, rfl⟩

/-! ### Walking over the keys -/

/-- The texts that `n` calls of `GC_get_next_key` return. -/
def nextKeys : Nat → Lib → Option (List Value)
  | 0, _ => some []
  | n + 1, l =>
    match Call.getNextKey.run l with
    | .ok l' v => (nextKeys n l').map (v :: ·)
    | _ => none

/-- The key behind the keys `pre ++ [k]`. -/
theorem nextKey_sorted {pre post : Entries} {k : Bytes} {x : GC} (h : KeysSorted (pre ++ (k, x) :: post)) :
    nextKey (some k) (pre ++ (k, x) :: post) = (post.head?).map Prod.fst := by
  unfold KeysSorted at h
  rw [List.pairwise_append] at h
  obtain ⟨_, h2, h3⟩ := h
  rw [List.pairwise_cons] at h2
  have e1 : pre.find? (fun e => blt k e.1) = none := by
    rw [List.find?_eq_none]
    intro e he hb
    rw [blt_iff] at hb
    exact strLT_irrefl _ (strLT_trans hb (h3 e he (k, x) (.head _)))
  have e2 : blt k k = false := by
    cases hb : blt k k with
    | false => rfl
    | true => exact absurd ((blt_iff k k).1 hb) (strLT_irrefl k)
  show ((pre ++ (k, x) :: post).find? fun e => blt k e.1).map Prod.fst = _
  rw [List.find?_append, e1, Option.none_or, List.find?_cons, e2]
  cases post with
  | nil => rfl
  | cons e r =>
    have : blt k e.1 = true := (blt_iff _ _).2 (h2.1 e (.head _))
    simp [this]

theorem nextKeys_eq : ∀ (n : Nat) {l : Lib} {a : Nat} {e : Explorer} {p : List Sel} {pre post : Entries},
    l.active = some a → l.heap[a]? = some e → e.iter = .at p ((post.head?).map Prod.fst) →
    getAt p e.data = some (map (pre ++ post)) → KeysSorted (pre ++ post) →
    nextKeys n l = some ((post.map (fun e => Value.text (some (cstr e.1))) ++
      List.replicate n (Value.text (some []))).take n)
  | 0, _, _, _, _, _, _, _, _, _, _, _ => by simp [nextKeys]
  | n + 1, l, a, e, p, pre, [], ha, he, hi, hg, hs => by
    have hr : Call.getNextKey.run l = .ok l (.text (some [])) := by
      rw [run_act rfl, onActive_eq ha he]
      simp only [Call.act, Explorer.next_map_key, hi, hg, List.head?_nil, Option.map_none, Step.map]
      rw [set_same he]; rfl
    rw [nextKeys, hr]
    dsimp only
    rw [nextKeys_eq n (post := []) ha he hi hg hs]
    simp [List.replicate_succ]
  | n + 1, l, a, e, p, pre, (k, x) :: post, ha, he, hi, hg, hs => by
    have hl := (List.getElem?_eq_some_iff.1 he).1
    let e' : Explorer := { e with iter := .at p ((post.head?).map Prod.fst) }
    have hr : Call.getNextKey.run l = .ok { l with heap := l.heap.set a e' } (.text (some (cstr k))) := by
      rw [run_act rfl, onActive_eq ha he]
      simp only [Call.act, Explorer.next_map_key, hi, hg, List.head?_cons, Option.map_some, Step.map]
      rw [nextKey_sorted hs]
    rw [nextKeys, hr]
    dsimp only
    rw [nextKeys_eq n (pre := pre ++ [(k, x)]) (post := post) (l := { l with heap := l.heap.set a e' }) (e := e') ha
      (List.getElem?_set_self hl) rfl (by simpa using hg) (by simpa using hs)]
    simp only [Option.map_some, List.map_cons, List.cons_append, List.take_succ_cons]
    rw [List.replicate_succ']
    congr 2
    rw [← List.append_assoc]
    exact (List.take_append_of_le_length (by simp)).symm

/-- C33: after `GC_init_map_key` on a map, calls of `GC_get_next_key` give its keys, each once and in their order, and
then empty texts. -/
theorem C33_keys (l : Lib) (h : ReachableNoFill l) (m : Entries) (ht : l.top = some (map m)) :
    ∃ l', Call.initMapKey.run l = .ok l' (.code 0) ∧
      ∀ n, nextKeys n l' = some ((m.map (fun e => Value.text (some (cstr e.1))) ++
        List.replicate n (Value.text (some []))).take n) := by
  obtain ⟨a, e, p, r, ha, he, hp, hs, hl, hh, hg⟩ := top_cases h ht
  let e' : Explorer := { e with iter := .at p ((m.head?).map Prod.fst) }
  refine ⟨{ l with heap := l.heap.set a e' }, ?_, fun n => ?_⟩
  · rw [run_act rfl, onActive_eq ha he]
    have : nextKey none m = (m.head?).map Prod.fst := by cases m <;> rfl
    simp only [Call.act, Explorer.init_map_key, check_eq hh hg, ty, if_true, hh, hg, this]
    show Step.ok { l with heap := l.heap.set a _ } _ = Step.ok { l with heap := l.heap.set a e' } _
    rw [show e' = ⟨e.data, some p :: r, .at p ((m.head?).map Prod.fst)⟩ by rw [← hh]]
    rfl
  · exact nextKeys_eq n (l := { l with heap := l.heap.set a e' }) (e := e') (pre := []) (post := m) ha
      (List.getElem?_set_self hl) rfl hg (WF_getAt p hs.1 hg).1

example : ∃ l, ReachableNoFill l ∧ l.top = some (map [(str "k", notype), (str "z", notype)]) :=
  ⟨_, ⟨[.new (str "a"), .setMap, .pushMapPosition (str "z"), .popHead, .pushMapPosition (str "k"), .popHead],
    by intro c hc; simp at hc; rcases hc with rfl | rfl | rfl | rfl | rfl | rfl <;> rfl, rfl⟩, by decide +kernel⟩

/-- `GC_get_next_key` before any `GC_init_map_key`, and after the map is gone: undefined. -/
theorem C33_next_key_negation :
    (∃ l, runs [.new (str "a")] .init = some l ∧ Call.getNextKey.run l = .ub) ∧
    (∃ l, runs [.new (str "a"), .setMap, .pushMapPosition (str "k"), .popHead, .initMapKey, .setInt 1] .init = some l ∧
      Call.getNextKey.run l = .ub) ∧
    (∃ l, runs [.new (str "a"), .setVector 1, .pushVectorPosition 0, .setMap, .initMapKey, .popHead,
      .pushVectorPosition 1] .init = some l ∧ Call.getNextKey.run l = .ub) :=
  ⟨⟨_, rfl, rfl⟩, ⟨_, rfl, rfl⟩, ⟨_, rfl, rfl⟩⟩

/-- A lost position in a map stays lost. -/
theorem act_gone {c : Call} {e : Explorer} (hc : c ≠ .initMapKey) (h : e.iter = .gone) :
    (c.act.2 e).All fun e' => e'.iter = .gone := by
  have ho : ∀ {α : Type} (f : GC → Res α), (e.onTop f).All fun e' => e'.iter = .gone := by
    intro α f
    unfold Explorer.onTop
    split
    · exact all_throw h
    · exact all_ub
    · split
      · exact all_ub
      · split
        · exact all_ok (by simp only [Explorer.become, h])
        · exact all_throw (by simp only [Explorer.become, h])
        · exact all_ub
        · exact all_diverge
  have hpush : ∀ {t : Ty} {f : GC → Res Unit} {s : Sel}, Step.All (fun e' : Explorer => e'.iter = .gone) (match e.check t with
      | .ok e ok => if ok = OK then
          match e.onTop f with
          | .ok e' _ => Step.ok (e'.descend s) ok
          | .throw e' => .throw e'
          | .ub => .ub
          | .diverge => .diverge
        else .ok e ok
      | r => r) := by
    intro t f s
    rcases check_state (t := t) (e := e) with ⟨n, hn⟩ | hn
    · rw [hn]
      dsimp only
      split
      · have := ho f
        cases hr : e.onTop f with
        | ok e' u =>
          refine all_ok ?_
          have := this e' (by rw [hr]; rfl)
          unfold Explorer.descend
          split <;> exact this
        | throw e' => exact all_throw (this e' (by rw [hr]; rfl))
        | ub => exact all_ub
        | diverge => exact all_diverge
      · exact all_ok h
    · rw [hn]; exact all_ub
  have default : (c.act = match c.guardedOp, c.query, c.fill with
    | some op, _, _ => (.code BAD_HEAD, fun e => (guarded (e.onTop (step op))).map .code)
    | none, some (d, f), _ => (d, Explorer.onTop f)
    | none, none, some f => (.code BAD_HEAD, fun e => (bare (e.onTop f)).map .code)
    | none, none, none => (.code 0, fun _ => .ub)) → (c.act.2 e).All fun e' => e'.iter = .gone := by
    intro hc
    rw [hc]
    cases c.guardedOp with
    | some op => exact all_map (all_guarded (ho _))
    | none =>
      cases c.query with
      | some q => exact ho _
      | none =>
        cases c.fill with
        | some f => exact all_map (all_bare (ho _))
        | none => exact all_ub
  cases c with
  | popHead => refine all_ok ?_; unfold Explorer.pop; split <;> exact h
  | resetHead => refine all_ok ?_; unfold Explorer.reset; split <;> exact h
  | printContentTypes => exact all_map (all_guarded (readTop_all h))
  | dump => exact all_map (all_guarded (readTop_all h))
  | pushVectorPosition pos => exact all_map hpush
  | pushMapPosition pos => exact all_map hpush
  | initMapKey => exact absurd rfl hc
  | getNextKey =>
    refine all_map ?_
    unfold Explorer.next_map_key
    rw [h]
    exact all_ub
  | _ => exact default rfl

/-- C33: once the container that `GC_init_map_key` was called on is not a map any more, `GC_get_next_key` is undefined,
whatever is done to the container after that, also when it becomes a map again; until the next `GC_init_map_key`. -/
theorem C33_keys_lost (l : Lib) (h : ReachableNoFill l) (m : Entries) (ht : l.top = some (map m)) (l1 : Lib)
    (h1 : Call.initMapKey.run l = .ok l1 (.code 0)) (c : Call) (hc : c.guardedOp.isSome ∨ c.fill.isSome) (l2 : Lib)
    (h2 : runs [c] l1 = some l2) (g : GC) (htop : l2.top = some g) (hg : g.ty ≠ .MAP) (cs : List Call)
    (hcs : ∀ c ∈ cs, c.id? = none ∧ c ≠ .initMapKey) (l3 : Lib) (h3 : runs cs l2 = some l3) :
    Call.getNextKey.run l3 = .ub := by
  obtain ⟨a, e, p, r, ha, he, hp, hs, hl, hh, hge⟩ := top_cases h ht
  -- the call of `GC_init_map_key`
  let e1 : Explorer := { e with iter := .at p ((m.head?).map Prod.fst) }
  have hl1 : l1 = { l with heap := l.heap.set a e1 } := by
    rw [run_act rfl, onActive_eq ha he] at h1
    have : nextKey none m = (m.head?).map Prod.fst := by cases m <;> rfl
    simp only [Call.act, Explorer.init_map_key, check_eq hh hge, ty, if_true, hh, hge, this, Step.map, Step.ok.injEq] at h1
    rw [← h1.1, show e1 = ⟨e.data, some p :: r, .at p ((m.head?).map Prod.fst)⟩ by rw [← hh]]
  have ha1 : l1.active = some a := by rw [hl1]; exact ha
  have he1 : l1.heap[a]? = some e1 := by rw [hl1]; exact List.getElem?_set_self hl
  have hl1' : a < l1.heap.length := (List.getElem?_eq_some_iff.1 he1).1
  have hp1 : Placed e1 := hp
  have hs1 : Sound e1 := ⟨hs.1, fun q k hq => by
    injection hq with hq _
    subst hq
    show isMapAt p e.data = true
    unfold isMapAt
    rw [hge]⟩
  -- the call that makes it something else
  have hid : c.id? = none := by
    cases c <;> first | rfl | (simp [Call.guardedOp, Call.fill] at hc; done)
  have hon : ∀ {α : Type} (f : GC → Res α), (e1.onTop f).All fun e' => e'.iter = e1.iter ∨ e'.iter = .gone := by
    intro α f
    unfold Explorer.onTop
    have hb : ∀ new, (e1.become new).iter = e1.iter ∨ (e1.become new).iter = .gone := by
      intro new
      simp only [Explorer.become, e1]
      split
      · exact .inl rfl
      · exact .inr rfl
    split
    · exact all_throw (.inl rfl)
    · exact all_ub
    · split
      · exact all_ub
      · split
        · exact all_ok (hb _)
        · exact all_throw (hb _)
        · exact all_ub
        · exact all_diverge
  have hact : (c.act.2 e1).All fun e' => (e'.iter = e1.iter ∨ e'.iter = .gone) ∧ e'.head = e1.head ∧ Sound e' := by
    have hand : ∀ {α : Type} (f : GC → Res α), (e1.onTop f).All fun e' => (e'.iter = e1.iter ∨ e'.iter = .gone) ∧ e'.head = e1.head :=
      fun f e' h' => ⟨hon f e' h', (onTop_placed hp1 e' h').1⟩
    intro e' h'
    refine ⟨?_, ?_, act_sound hs1 e' h'⟩
    all_goals
      cases c <;> first
        | (simp [Call.guardedOp, Call.fill] at hc; done)
        | exact (all_map (all_guarded (hand _)) e' h').1
        | exact (all_map (all_guarded (hand _)) e' h').2
        | exact (all_map (all_bare (hand _)) e' h').1
        | exact (all_map (all_bare (hand _)) e' h').2
  obtain ⟨e2, hl2, hi2, hh2, hs2⟩ : ∃ e2, l2 = { l1 with heap := l1.heap.set a e2 } ∧
      (e2.iter = e1.iter ∨ e2.iter = .gone) ∧ e2.head = e1.head ∧ Sound e2 := by
    rw [runs, run_act hid, onActive_eq ha1 he1] at h2
    cases hr : c.act.2 e1 with
    | ok e2 v =>
      rw [hr] at h2
      simp only [runs, Option.some.injEq] at h2
      exact ⟨e2, h2.symm, hact e2 (by rw [hr]; rfl)⟩
    | throw e2 =>
      rw [hr] at h2
      simp only [runs, Option.some.injEq] at h2
      exact ⟨e2, h2.symm, hact e2 (by rw [hr]; rfl)⟩
    | ub => rw [hr] at h2; simp at h2
    | diverge => rw [hr] at h2; simp at h2
  have ha2 : l2.active = some a := by rw [hl2]; exact ha1
  have he2 : l2.heap[a]? = some e2 := by rw [hl2]; exact List.getElem?_set_self hl1'
  have hgone : e2.iter = .gone := by
    rcases hi2 with hi | hi
    · have hm := hs2.2 p _ (show e2.iter = .at p _ from hi)
      unfold Lib.top Lib.current at htop
      rw [ha2] at htop
      simp only [Option.bind_some, he2, hh2] at htop
      have htop : (e.head.head?.bind fun q => q.bind fun p => getAt p e2.data) = some g := htop
      rw [hh] at htop
      simp only [List.head?_cons, Option.bind_some] at htop
      unfold isMapAt at hm
      rw [htop] at hm
      cases g <;> first | (simp at hm; done) | exact absurd rfl hg
    · exact hi
  -- what follows
  have hrest : ∀ (cs : List Call) (l2 : Lib) (e2 : Explorer), (∀ c ∈ cs, c.id? = none ∧ c ≠ .initMapKey) →
      l2.active = some a → l2.heap[a]? = some e2 → e2.iter = .gone → runs cs l2 = some l3 →
      Call.getNextKey.run l3 = .ub := by
    intro cs
    induction cs with
    | nil =>
      intro l2 e2 _ ha2 he2 hg2 h3
      simp only [runs, Option.some.injEq] at h3
      subst h3
      rw [run_act rfl, onActive_eq ha2 he2]
      simp only [Call.act, Explorer.next_map_key, hg2, Step.map]
    | cons c cs ih =>
      intro l2 e2 hcs ha2 he2 hg2 h3
      have hc := hcs c (.head _)
      have hl2 := (List.getElem?_eq_some_iff.1 he2).1
      have hall := act_gone hc.2 hg2
      rw [runs, run_act hc.1, onActive_eq ha2 he2] at h3
      cases hr : c.act.2 e2 with
      | ok e' v =>
        rw [hr] at h3
        exact ih { l2 with heap := l2.heap.set a e' } e' (fun c h => hcs c (.tail _ h)) ha2 (List.getElem?_set_self hl2) (hall e' (by rw [hr]; rfl)) h3
      | throw e' =>
        rw [hr] at h3
        exact ih { l2 with heap := l2.heap.set a e' } e' (fun c h => hcs c (.tail _ h)) ha2 (List.getElem?_set_self hl2) (hall e' (by rw [hr]; rfl)) h3
      | ub => rw [hr] at h3; simp at h3
      | diverge => rw [hr] at h3; simp at h3
  exact hrest cs l2 e2 hcs ha2 he2 hgone h3

/-- `GC_init_map_key`, `GC_set_int`, and the map again with its key -/
example : ∃ l3, runs [.new (str "a"), .setMap, .pushMapPosition (str "k"), .popHead, .initMapKey, .setInt 1, .setMap,
    .pushMapPosition (str "k"), .popHead] .init = some l3 ∧ Call.getNextKey.run l3 = .ub := by
  refine ⟨_, rfl, ?_⟩
  exact C33_keys_lost _ ⟨[.new (str "a"), .setMap, .pushMapPosition (str "k"), .popHead],
    by intro c hc; simp at hc; rcases hc with rfl | rfl | rfl | rfl <;> rfl, rfl⟩ [(str "k", notype)] rfl _ rfl (.setInt 1)
    (.inl rfl) _ rfl (int 1) rfl (by decide) [.setMap, .pushMapPosition (str "k"), .popHead]
    (by intro c hc; simp at hc; rcases hc with rfl | rfl | rfl <;> exact ⟨rfl, by simp⟩) _ rfl

/-- `GC_fill_for_test` on a container whose cursor is inside it: the cursor dangles, the next call is undefined. -/
theorem C33_fill_negation :
    ∃ l, runs [.new (str "a"), .setMap, .pushMapPosition (str "k"), .fillForTest (fun _ => .zero) (str "a")] .init =
      some l ∧ (Call.setInt 1).run l = .ub := by
  have h : (match runs [.new (str "a"), .setMap, .pushMapPosition (str "k"), .fillForTest (fun _ => .zero) (str "a")] .init
      with
    | none => false
    | some l =>
      match (Call.setInt 1).run l with
      | .ub => true
      | _ => false) = true := by decide +kernel
  split at h
  · cases h
  · rename_i l hl
    refine ⟨l, hl, ?_⟩
    split at h
    · assumption
    · cases h

/-! ## C34 -/

/-- Different names have different explorers. -/
theorem find_inj {l : Lib} (hn : Named l) {id id' : Bytes} {a : Nat} (h : l.find id = some a) (h' : l.find id' = some a) :
    id = id' := by
  have h1 := find_mem h
  have h2 := find_mem h'
  have : ∀ (ns : List (Bytes × Nat)), (ns.map Prod.snd).Nodup → (id, a) ∈ ns → (id', a) ∈ ns → id = id' := by
    intro ns
    induction ns with
    | nil => intro _ h; cases h
    | cons x r ih =>
      intro hn ha hb
      simp only [List.map_cons, List.nodup_cons] at hn
      rcases List.mem_cons.1 ha with rfl | ha'
      · rcases List.mem_cons.1 hb with hb | hb
        · cases hb; rfl
        · exact absurd (List.mem_map.2 ⟨_, hb, rfl⟩) hn.1
      · rcases List.mem_cons.1 hb with rfl | hb'
        · exact absurd (List.mem_map_of_mem (f := Prod.snd) ha') hn.1
        · exact ih hn.2 ha' hb'
  exact this l.names hn.2.1 h1 h2

theorem find_congr {l l' : Lib} (h : l'.names = l.names) (id : Bytes) : l'.find id = l.find id := by
  unfold Lib.find; rw [h]

theorem find_select_other {l : Lib} {id id' : Bytes} (hne : id ≠ id') : (l.select id').find id = l.find id := by
  unfold Lib.select
  cases l.find id' with
  | some a => rfl
  | none =>
    unfold Lib.find
    simp only [List.find?_append]
    cases l.names.find? (fun e => e.1 == id) with
    | some e => rfl
    | none =>
      have : (id' == id) = false := by simpa using Ne.symm hne
      simp [this]

theorem find_select_self {l : Lib} (id : Bytes) : (l.select id).find id = (l.select id).active ∧ ((l.select id).find id).isSome := by
  unfold Lib.select
  cases hf : l.find id with
  | some a => exact ⟨hf, by show (l.find id).isSome = true; rw [hf]; rfl⟩
  | none =>
    have : l.names.find? (fun e => e.1 == id) = none := by
      unfold Lib.find at hf
      cases hx : l.names.find? (fun e => e.1 == id) with
      | none => rfl
      | some e => rw [hx] at hf; cases hf
    unfold Lib.find
    simp [List.find?_append, this]

theorem find_delete_other {l : Lib} {id id' : Bytes} (hne : id ≠ id') : (l.delete id').find id = l.find id := by
  unfold Lib.find Lib.delete
  dsimp only
  induction l.names with
  | nil => rfl
  | cons x r ih =>
    by_cases h1 : x.1 = id'
    · have e1 : (x.1 != id') = false := by simp [h1]
      have e2 : (x.1 == id) = false := by simp [h1, Ne.symm hne]
      rw [List.filter_cons, e1, List.find?_cons, e2]
      exact ih
    · have e1 : (x.1 != id') = true := by simp [h1]
      rw [List.filter_cons, e1, if_pos rfl, List.find?_cons, List.find?_cons]
      cases x.1 == id with
      | true => rfl
      | false => exact ih

/-- The state of the name `id` as long as it is not selected. -/
def Aside (id : Bytes) (a : Nat) (e : Explorer) (l : Lib) : Prop :=
  Named l ∧ l.find id = some a ∧ l.active ≠ some a ∧ l.heap[a]? = some e

theorem run_aside {id : Bytes} {a : Nat} {e : Explorer} {c : Call} {l : Lib} (hc : c.id? ≠ some id) (h : Aside id a e l) :
    (c.run l).All (Aside id a e) := by
  obtain ⟨hn, hf, hac, he⟩ := h
  have hact : ∀ {α : Type} {d : α} {f : Explorer → Step Explorer α} {l : Lib}, Aside id a e l → (l.onActive d f).All (Aside id a e) := by
    rintro α d f l ⟨hn, hf, hac, he⟩ l' hl
    obtain ⟨h1, h2, h3, h4⟩ := onActive_frame l' hl
    exact ⟨named_of_frame hn h1 h2 h3, by rw [find_congr h1]; exact hf, by rw [h2]; exact hac, by rw [h4 a hac]; exact he⟩
  have hsel : ∀ {id' : Bytes}, id ≠ id' → Aside id a e (l.select id') := by
    intro id' hne
    have hfo := find_select_other (l := l) hne
    refine ⟨select_named _ hn, by rw [hfo]; exact hf, fun ha => ?_, ?_⟩
    · have := (find_select_self (l := l) id').1
      rw [ha] at this
      exact hne (find_inj (select_named id' hn) (by rw [hfo]; exact hf) this)
    · rcases select_heap (l := l) id' with h1 | h1 <;> rw [h1]
      · exact he
      · rw [List.getElem?_append_left (List.getElem?_eq_some_iff.1 he).1]; exact he
  cases hi : c.id? with
  | none => rw [run_act hi]; exact hact ⟨hn, hf, hac, he⟩
  | some id' =>
    rw [hi] at hc
    have hne : id ≠ id' := fun h => hc (by rw [h])
    cases c <;> simp only [Call.id?, Option.some.injEq] at hi <;> first | (cases hi; done) | skip
    all_goals subst hi
    · exact all_ok (hsel hne)
    · exact all_ok (hsel hne)
    · exact all_ok (hsel hne)
    · exact all_ok ⟨delete_named _ hn, by rw [find_delete_other hne]; exact hf, hac, he⟩
    · exact all_map (all_bare (hact (hsel hne)))

theorem reachable_step {c : Call} {l l' : Lib} (h : Reachable l) (hs : (c.run l).state? = some l') : Reachable l' := by
  obtain ⟨cs, hr⟩ := h
  refine ⟨cs ++ [c], ?_⟩
  have : ∀ (cs : List Call) (l0 : Lib), runs cs l0 = some l → runs (cs ++ [c]) l0 = some l' := by
    intro cs
    induction cs with
    | nil =>
      intro l0 h0
      cases h0
      simp only [List.nil_append, runs]
      cases hc : c.run l <;> rw [hc] at hs <;> cases hs <;> rfl
    | cons d cs ih =>
      intro l0 h0
      simp only [List.cons_append, runs] at h0 ⊢
      cases hd : d.run l0 with
      | ok l1 v => rw [hd] at h0; exact ih l1 h0
      | throw l1 => rw [hd] at h0; exact ih l1 h0
      | ub => rw [hd] at h0; cases h0
      | diverge => rw [hd] at h0; cases h0
  exact this cs _ hr

/-- C34: as long as calls neither take the name nor run while it is selected, its container, cursor and key iterator
stay as they are, and selecting the name finds them again. -/
theorem C34_isolated (l l' : Lib) (h : Reachable l) (id : Bytes) (e : Explorer) (he : l.named id = some e)
    (ha : l.active ≠ l.find id) (cs : List Call) (hc : ∀ c ∈ cs, c.id? ≠ some id) (hr : runs cs l = some l') :
    l'.named id = some e ∧ (l'.select id).current = some e := by
  obtain ⟨hn, _⟩ := reachable_sound h
  cases hf : l.find id with
  | none => rw [Lib.named, hf] at he; cases he
  | some a =>
    rw [Lib.named, hf] at he
    have hs : Aside id a e l := ⟨hn, hf, by rw [← hf]; exact ha, he⟩
    obtain ⟨_, h2, _, h4⟩ := runs_all (P := Aside id a e) (Q := fun c => c.id? ≠ some id)
      (fun c l hq hl => run_aside hq hl) cs hc hs hr
    refine ⟨by rw [Lib.named, h2]; exact h4, ?_⟩
    unfold Lib.select
    rw [h2]
    exact h4

example : ∃ l, Reachable l ∧ (∃ e, l.named (str "a") = some e ∧ e.data = int 3) ∧ l.active ≠ l.find (str "a") :=
  ⟨_, ⟨[.new (str "a"), .setInt 3, .new (str "b")], rfl⟩, ⟨_, rfl, rfl⟩, by decide +kernel⟩

/-- C34: `GC_new` and `GC_select` make an empty container for a new name, find the one of an old name, and leave all
containers alone. -/
theorem C34_select (l : Lib) (id : Bytes) :
    (l.find id = none → (l.select id).current = some Explorer.new) ∧
    (∀ e, l.named id = some e → (l.select id).current = some e ∧ (l.select id).named id = some e) ∧
    (∀ id' e, l.named id' = some e → (l.select id).named id' = some e) := by
  have third : ∀ id' e, l.named id' = some e → (l.select id).named id' = some e := by
    intro id' e he
    unfold Lib.named at he ⊢
    cases hf : l.find id' with
    | none => rw [hf] at he; cases he
    | some a =>
      rw [hf] at he
      have hh : (l.select id).heap[a]? = some e := by
        rcases select_heap (l := l) id with h1 | h1 <;> rw [h1]
        · exact he
        · rw [List.getElem?_append_left (List.getElem?_eq_some_iff.1 he).1]; exact he
      have hff : (l.select id).find id' = some a := by
        by_cases hid : id' = id
        · subst hid
          unfold Lib.select; rw [hf]; exact hf
        · rw [find_select_other hid, hf]
      rw [hff]; exact hh
  refine ⟨fun hf => ?_, fun e he => ⟨?_, third id e he⟩, third⟩
  · unfold Lib.select Lib.current
    rw [hf]; simp
  · have := third id e he
    unfold Lib.named at this
    unfold Lib.current
    rw [← (find_select_self (l := l) id).1]; exact this

/-- C34: after `GC_delete` the name is gone, the other names keep their containers, and `GC_new` of the name starts with
an empty one. -/
theorem C34_delete (l : Lib) (id : Bytes) :
    (l.delete id).find id = none ∧ (∀ id', id' ≠ id → (l.delete id).named id' = l.named id') ∧
    ((l.delete id).select id).current = some Explorer.new := by
  have h1 : (l.delete id).find id = none := by
    unfold Lib.find Lib.delete
    dsimp only
    rw [List.find?_eq_none.2]
    · rfl
    · intro e he
      have := (List.mem_filter.1 he).2
      simpa using this
  refine ⟨h1, fun id' hne => ?_, ?_⟩
  · unfold Lib.named
    rw [find_delete_other hne]; rfl
  · exact (C34_select (l.delete id) id).1 h1

/-- C34: nothing reaches a deleted container that is not selected. -/
theorem C34_unreachable (cs : List Call) (l l' : Lib) (h : Reachable l) (a : Nat) (e : Explorer) (he : l.heap[a]? = some e)
    (h1 : ∀ id, l.find id ≠ some a) (h2 : l.active ≠ some a) (hr : runs cs l = some l') : l'.heap[a]? = some e := by
  let P : Lib → Prop := fun l => Named l ∧ l.heap[a]? = some e ∧ (∀ id, l.find id ≠ some a) ∧ l.active ≠ some a
  have hact : ∀ {α : Type} {d : α} {f : Explorer → Step Explorer α} {l : Lib}, P l → (l.onActive d f).All P := by
    rintro α d f l ⟨hn, he, h1, h2⟩ l' hl
    obtain ⟨g1, g2, g3, g4⟩ := onActive_frame l' hl
    exact ⟨named_of_frame hn g1 g2 g3, by rw [g4 a h2]; exact he, fun id => by rw [find_congr g1]; exact h1 id,
      by rw [g2]; exact h2⟩
  have hsel : ∀ (id : Bytes) {l : Lib}, P l → P (l.select id) := by
    rintro id l ⟨hn, he, h1, h2⟩
    have hlt := (List.getElem?_eq_some_iff.1 he).1
    have hself : (l.select id).find id ≠ some a := by
      unfold Lib.select
      cases hf : l.find id with
      | some b => exact h1 id
      | none =>
        have := (find_select_self (l := l) id).1
        unfold Lib.select at this
        rw [hf] at this
        dsimp only at this ⊢
        rw [this]
        intro h; injection h with h; omega
    refine ⟨select_named _ hn, ?_, fun id' => ?_, ?_⟩
    · rcases select_heap (l := l) id with g | g <;> rw [g]
      · exact he
      · rw [List.getElem?_append_left hlt]; exact he
    · by_cases hid : id' = id
      · rw [hid]; exact hself
      · rw [find_select_other hid]; exact h1 id'
    · rw [← (find_select_self (l := l) id).1]; exact hself
  refine (runs_all (P := P) (Q := fun _ => True) ?_ cs (fun _ _ => trivial) ⟨(reachable_sound h).1, he, h1, h2⟩ hr).2.1
  intro c l _ h
  cases hi : c.id? with
  | none => rw [run_act hi]; exact hact h
  | some id' =>
    cases c <;> simp only [Call.id?, Option.some.injEq] at hi <;> first | (cases hi; done) | skip
    · exact all_ok (hsel _ h)
    · exact all_ok (hsel _ h)
    · exact all_ok (hsel _ h)
    · rename_i id
      refine all_ok ⟨delete_named _ h.1, h.2.1, fun id' => ?_, h.2.2.2⟩
      by_cases hid : id' = id
      · rw [hid, (C34_delete l id).1]; simp
      · rw [find_delete_other hid]; exact h.2.2.1 id'
    · exact all_map (all_bare (hact (hsel _ h)))

/-- Deleting the selected container: the calls go on working on it. -/
theorem C34_deleted_negation (l : Lib) (h : ReachableNoFill l) (id : Bytes) (g : GC) (ht : l.top = some g)
    (x : I32) :
    (l.delete id).current = l.current ∧
    ∃ l', (Call.setInt x).run (l.delete id) = .ok l' (.code 0) ∧ l'.top = some (int x) := by
  refine ⟨rfl, ?_⟩
  have hr : ReachableNoFill (l.delete id) := by
    obtain ⟨cs, hf, hr⟩ := h
    refine ⟨cs ++ [.delete id], fun c hc => ?_, ?_⟩
    · rcases List.mem_append.1 hc with hc | hc
      · exact hf c hc
      · simp only [List.mem_singleton] at hc; rw [hc]; rfl
    · have : ∀ (cs : List Call) (l0 : Lib), runs cs l0 = some l → runs (cs ++ [.delete id]) l0 = some (l.delete id) := by
        intro cs
        induction cs with
        | nil => intro l0 h0; cases h0; rfl
        | cons d cs ih =>
          intro l0 h0
          simp only [List.cons_append, runs] at h0 ⊢
          cases hd : d.run l0 with
          | ok l1 v => rw [hd] at h0; exact ih l1 h0
          | throw l1 => rw [hd] at h0; exact ih l1 h0
          | ub => rw [hd] at h0; cases h0
          | diverge => rw [hd] at h0; cases h0
      exact this cs _ hr
  obtain ⟨l', h1, h2, _⟩ := (C33_write (l.delete id) hr g ht (.setInt x) (.setInt x) rfl).1 (int x) rfl
  exact ⟨l', h1, h2⟩

example : ∃ l, ReachableNoFill l ∧ l.find (str "a") = some 0 ∧ l.top = some (int 3) :=
  ⟨_, ⟨[.new (str "a"), .setInt 3], by intro c hc; simp at hc; rcases hc with rfl | rfl <;> rfl, rfl⟩, by decide +kernel,
    by decide +kernel⟩

end CApi
end GCV
