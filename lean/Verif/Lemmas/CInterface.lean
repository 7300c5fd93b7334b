import Verif.Spec.Cursor
import Verif.Lemmas.JsonTree
import Verif.Props.History

/-! # Lemmas about the C interface -/

namespace GCV
namespace CApi
open GC

theorem mfind_some_mset {k : Bytes} {x y : GC} : ∀ {m : Entries}, mfind k m = some x →
    mfind k (mset k y m) = some y := fun _ => mfind_mset_same k y _

theorem survives_modAt (f : GC → GC) : ∀ (q t : List Sel) {g : GC}, (getAt (q ++ t) g).isSome = true →
    survives q g (modAt (q ++ t) f g) = true
  | [], _, _, _ => rfl
  | .key k :: q, t, g, h => by
    cases g with
    | map m =>
      simp only [List.cons_append, getAt] at h
      cases hm : mfind k m with
      | none => rw [hm] at h; cases h
      | some x =>
        rw [hm] at h
        simp only [List.cons_append, modAt, hm, survives, mfind_mset_same]
        exact survives_modAt f q t h
    | _ => simp [getAt] at h
  | .idx i :: q, t, g, h => by
    cases g with
    | vector v =>
      simp only [List.cons_append, getAt] at h
      cases hm : v[i]? with
      | none => rw [hm] at h; cases h
      | some x =>
        rw [hm] at h
        have hi : i < v.length := (List.getElem?_eq_some_iff.1 hm).1
        simp only [List.cons_append, modAt, hm, survives, List.length_set, Nat.le_refl, decide_true, Bool.true_and]
        rw [List.getElem?_set_self hi]
        exact survives_modAt f q t h
    | _ => simp [getAt] at h

/-- All positions are above the top one. -/
theorem chain_prefix {g : GC} {p : List Sel} {r : List (Option (List Sel))} (h : Chain g (some p :: r)) :
    ∀ q ∈ (some p :: r), ∃ q' t, q = some q' ∧ p = q' ++ t := by
  generalize hl : (some p :: r) = l at h
  induction h generalizing p r with
  | empty => cases hl
  | root => intro q hq; simp only [List.mem_singleton] at hq; cases hl; exact ⟨[], [], hq, rfl⟩
  | @down p' r' s h1 h2 ih =>
    cases hl
    intro q hq
    rcases List.mem_cons.1 hq with rfl | hq
    · exact ⟨_, [], rfl, by simp⟩
    · obtain ⟨q', t, h3, h4⟩ := ih rfl q hq
      exact ⟨q', t ++ [s], h3, by rw [h4]; simp⟩

theorem chain_top {g : GC} {p : List Sel} {r : List (Option (List Sel))} (h : Chain g (some p :: r)) :
    (getAt p g).isSome = true := by
  cases h with
  | root => rfl
  | down _ h => exact h

theorem chain_pop {g : GC} {q : Option (List Sel)} {r : List (Option (List Sel))} (h : Chain g (q :: r)) : Chain g r := by
  cases h with
  | root => exact .empty
  | down h _ => exact h

theorem chain_none {g : GC} {r : List (Option (List Sel))} (h : Chain g (none :: r)) : False := by cases h

/-- A chain of another tree that has the positions. -/
theorem chain_transfer {g g' : GC} {l : List (Option (List Sel))} (h : Chain g l)
    (hg : ∀ q, some q ∈ l → (getAt q g').isSome = true) : Chain g' l := by
  induction h with
  | empty => exact .empty
  | root => exact .root
  | down h1 h2 ih => exact .down (ih fun q hq => hg q (.tail _ hq)) (hg _ (.head _))

theorem head_become {e : Explorer} {new : GC} (h : ∀ q ∈ e.head, ∃ q', q = some q' ∧ survives q' e.data new = true) :
    (e.become new).head = e.head := by
  show e.head.map _ = e.head
  have : ∀ q ∈ e.head, (q.bind fun p => if survives p e.data new then some p else none) = id q := by
    intro q hq
    obtain ⟨q', rfl, h2⟩ := h q hq
    simp [h2]
  rw [List.map_congr_left this, List.map_id]

theorem WF_getAt : ∀ (p : List Sel) {g x : GC}, WF g → getAt p g = some x → WF x
  | [], g, x, h, hx => by cases hx; exact h
  | .key k :: p, g, x, h, hx => by
    cases g with
    | map m =>
      simp only [getAt] at hx
      cases hm : mfind k m with
      | none => rw [hm] at hx; cases hx
      | some y => rw [hm] at hx; exact WF_getAt p (WFM_find h.2 hm) hx
    | _ => simp [getAt] at hx
  | .idx i :: p, g, x, h, hx => by
    cases g with
    | vector v =>
      simp only [getAt] at hx
      cases hm : v[i]? with
      | none => rw [hm] at hx; cases hx
      | some y => rw [hm] at hx; exact WF_getAt p (WFL_get h hm) hx
    | _ => simp [getAt] at hx

theorem WF_modAt (f : GC → GC) : ∀ (p : List Sel) {g : GC}, WF g → (∀ x, getAt p g = some x → WF (f x)) → WF (modAt p f g)
  | [], g, h, hf => hf g rfl
  | .key k :: p, g, h, hf => by
    cases g with
    | map m =>
      simp only [modAt]
      cases hm : mfind k m with
      | none => exact h
      | some y =>
        exact WF_map_set h (WF_modAt f p (WFM_find h.2 hm) fun x hx => hf x (by simp [getAt, hm, hx]))
    | _ => exact h
  | .idx i :: p, g, h, hf => by
    cases g with
    | vector v =>
      simp only [modAt]
      cases hm : v[i]? with
      | none => exact h
      | some y =>
        exact WFL_set h (WF_modAt f p (WFL_get h hm) fun x hx => hf x (by simp [getAt, hm, hx]))
    | _ => exact h

/-- What is left after a call, if anything. -/
def Step.state? {σ α : Type} : Step σ α → Option σ
  | .ok s _ => some s
  | .throw s => some s
  | _ => none

/-- Every state left satisfies `P`. -/
def Step.All {σ α : Type} (P : σ → Prop) (r : Step σ α) : Prop := ∀ s, r.state? = some s → P s

theorem all_ok {σ α : Type} {P : σ → Prop} {s : σ} {a : α} (h : P s) : Step.All P (.ok s a) := by
  intro t ht; cases ht; exact h

theorem all_throw {σ α : Type} {P : σ → Prop} {s : σ} (h : P s) : Step.All P (.throw s : Step σ α) := by
  intro t ht; cases ht; exact h

theorem all_ub {σ α : Type} {P : σ → Prop} : Step.All P (.ub : Step σ α) := by intro t ht; cases ht

theorem all_diverge {σ α : Type} {P : σ → Prop} : Step.All P (.diverge : Step σ α) := by intro t ht; cases ht

theorem all_map {σ α β : Type} {P : σ → Prop} {f : α → β} {r : Step σ α} (h : r.All P) : (r.map f).All P := by
  cases r <;> exact fun t ht => h t ht

theorem all_guarded {σ α : Type} {P : σ → Prop} {r : Step σ α} (h : r.All P) : (guarded r).All P := by
  cases r <;> exact fun t ht => h t ht

theorem all_bare {σ α : Type} {P : σ → Prop} {r : Step σ α} (h : r.All P) : (bare r).All P := by
  cases r <;> exact fun t ht => h t ht

/-- The container is well formed and the iterator is not at a map that is not there. -/
def Sound (e : Explorer) : Prop := WF e.data ∧ ∀ p k, e.iter = .at p k → isMapAt p e.data = true

/-- The positions exist. -/
def Placed (e : Explorer) : Prop := Chain e.data e.head

theorem sound_become {e : Explorer} {new : GC} (h : WF new) : Sound (e.become new) := by
  refine ⟨h, fun p k hp => ?_⟩
  simp only [Explorer.become] at hp ⊢
  cases hi : e.iter with
  | null => rw [hi] at hp; cases hp
  | gone => rw [hi] at hp; cases hp
  | «at» q j =>
    rw [hi] at hp
    dsimp only at hp
    split at hp
    · rename_i hc
      injection hp with h1 h2
      subst h1
      simp only [Bool.and_eq_true] at hc
      exact hc.2
    · cases hp

theorem placed_become {e : Explorer} {p : List Sel} {r : List (Option (List Sel))} (h : Placed e)
    (hh : e.head = some p :: r) (s : GC) :
    (e.become (modAt p (fun _ => s) e.data)).head = e.head ∧ Placed (e.become (modAt p (fun _ => s) e.data)) := by
  unfold Placed at h
  rw [hh] at h
  have ht := chain_top h
  have h1 : (e.become (modAt p (fun _ => s) e.data)).head = e.head := by
    refine head_become ?_
    rw [hh]
    intro q hq
    obtain ⟨q', t, rfl, hp⟩ := chain_prefix h q hq
    refine ⟨q', rfl, ?_⟩
    rw [hp]
    exact survives_modAt _ q' t (by rw [← hp]; exact ht)
  refine ⟨h1, ?_⟩
  unfold Placed
  rw [h1, hh]
  refine chain_transfer h fun q hq => ?_
  obtain ⟨q', t, hq', hp⟩ := chain_prefix h (some q) hq
  cases hq'
  obtain ⟨x, hx⟩ := Option.isSome_iff_exists.1 ht
  have := getAt_modAt (fun _ => s) p hx
  show (getAt q (modAt p (fun _ => s) e.data)).isSome = true
  have h2 : getAt (q ++ t) (modAt p (fun _ => s) e.data) = some s := by
    rw [hp] at this ⊢; exact this
  rw [getAt_append] at h2
  cases hg : getAt q (modAt p (fun _ => s) e.data) with
  | none => rw [hg] at h2; cases h2
  | some y => rfl

theorem onTop_sound {α : Type} {f : GC → Res α} {e : Explorer} (h : Sound e) (hf : ∀ g, WF g → Good (f g)) :
    (e.onTop f).All Sound := by
  unfold Explorer.onTop
  cases hh : e.head with
  | nil => exact all_throw h
  | cons q r =>
    cases q with
    | none => exact all_ub
    | some p =>
      dsimp only
      cases hg : getAt p e.data with
      | none => exact all_ub
      | some g =>
        dsimp only
        have hw := hf g (WF_getAt p h.1 hg)
        cases hr : f g with
        | ok s a => exact all_ok (sound_become (WF_modAt _ p h.1 fun _ _ => hw s (by rw [hr]; rfl)))
        | throw s => exact all_throw (sound_become (WF_modAt _ p h.1 fun _ _ => hw s (by rw [hr]; rfl)))
        | ub => exact all_ub
        | diverge => exact all_diverge

/-- With existing positions a call on the container on top leaves the cursor alone. -/
theorem onTop_placed {α : Type} {f : GC → Res α} {e : Explorer} (h : Placed e) :
    (e.onTop f).All fun e' => e'.head = e.head ∧ Placed e' := by
  unfold Explorer.onTop
  cases hh : e.head with
  | nil => exact all_throw ⟨hh, h⟩
  | cons q r =>
    cases q with
    | none => exact all_ub
    | some p =>
      dsimp only
      cases hg : getAt p e.data with
      | none => exact all_ub
      | some g =>
        dsimp only
        have hb := placed_become h hh
        rw [hh] at hb
        cases hr : f g with
        | ok s a => exact all_ok (hb s)
        | throw s => exact all_throw (hb s)
        | ub => exact all_ub
        | diverge => exact all_diverge

/-- A call on the container on top, with existing positions. -/
theorem onTop_eq {α : Type} (f : GC → Res α) {e : Explorer} (h : Placed e) {p : List Sel} {r : List (Option (List Sel))}
    (hh : e.head = some p :: r) : ∃ g, getAt p e.data = some g ∧
      e.onTop f = match f g with
        | .ok s a => .ok (e.become (modAt p (fun _ => s) e.data)) a
        | .throw s => .throw (e.become (modAt p (fun _ => s) e.data))
        | .ub => .ub
        | .diverge => .diverge := by
  have ht : (getAt p e.data).isSome = true := chain_top (by unfold Placed at h; rwa [hh] at h)
  obtain ⟨g, hg⟩ := Option.isSome_iff_exists.1 ht
  exact ⟨g, hg, by unfold Explorer.onTop; rw [hh]; dsimp only; rw [hg]; dsimp only; cases f g <;> rfl⟩

/-- The stack of an explorer with existing positions. -/
theorem placed_head {e : Explorer} (h : Placed e) : e.head = [] ∨ ∃ p r, e.head = some p :: r := by
  cases hh : e.head with
  | nil => exact .inl rfl
  | cons q r =>
    cases q with
    | none => unfold Placed at h; rw [hh] at h; exact (chain_none h).elim
    | some p => exact .inr ⟨p, r, rfl⟩

theorem check_eq {t : Ty} {e : Explorer} {p : List Sel} {r : List (Option (List Sel))} {g : GC}
    (hh : e.head = some p :: r) (hg : getAt p e.data = some g) :
    e.check t = .ok e (if t = g.ty then OK else BAD_TYPE) := by
  unfold Explorer.check; rw [hh]; dsimp only; rw [hg]

theorem check_empty {t : Ty} {e : Explorer} (hh : e.head = []) : e.check t = .ok e BAD_HEAD := by
  unfold Explorer.check; rw [hh]

theorem check_state {t : Ty} {e : Explorer} : (∃ n, e.check t = .ok e n) ∨ e.check t = .ub := by
  unfold Explorer.check
  split
  · exact .inl ⟨_, rfl⟩
  · exact .inr rfl
  · split
    · exact .inr rfl
    · exact .inl ⟨_, rfl⟩

theorem sound_head {e : Explorer} {h' : List (Option (List Sel))} (h : Sound e) : Sound { e with head := h' } := h

theorem sound_descend {e : Explorer} {s : Sel} (h : Sound e) : Sound (e.descend s) := by
  unfold Explorer.descend; split
  · exact h
  · exact h

theorem push_sound {e : Explorer} {t : Ty} {f : GC → Res Unit} {s : Sel} (h : Sound e) (hf : ∀ g, WF g → Good (f g)) :
    Step.All Sound (match e.check t with
      | .ok e ok => if ok = OK then
          match e.onTop f with
          | .ok e' _ => Step.ok (e'.descend s) ok
          | .throw e' => .throw e'
          | .ub => .ub
          | .diverge => .diverge
        else .ok e ok
      | r => r) := by
  rcases check_state (t := t) (e := e) with ⟨n, hc⟩ | hc
  · rw [hc]
    dsimp only
    split
    · have := onTop_sound (f := f) h hf
      cases ho : e.onTop f with
      | ok e' u => exact all_ok (sound_descend (this e' (by rw [ho]; rfl)))
      | throw e' => exact all_throw (this e' (by rw [ho]; rfl))
      | ub => exact all_ub
      | diverge => exact all_diverge
    · exact all_ok h
  · rw [hc]; exact all_ub

theorem good_query {c : Call} {d : Value} {f : GC → Res Value} (h : c.query = some (d, f)) : ∀ g, WF g → Good (f g) := by
  have hconst : ∀ g (o : Out Value), WF g → Good (Call.query.const g o) := by
    intro g o hg
    cases o <;> first | exact good_ok hg | exact good_throw hg | exact good_ub | exact good_diverge
  intro g hg
  cases c <;> simp only [Call.query] at h <;> cases h
  all_goals first
    | exact good_ok hg
    | exact hconst _ _ hg
    | exact good_bind (good_get_bool_at hg) fun _ _ h => good_ok h
    | exact good_bind (good_get_int_at hg) fun _ _ h => good_ok h
    | exact good_bind (good_get_string_at hg) fun _ _ h => good_ok h
    | exact good_bind (good_get_real_at2 hg) fun _ _ h => good_ok h
    | exact good_bind (good_get_complex_at2 hg) fun _ _ h => good_ok h
    | (refine good_bind ?_ fun _ _ h => good_ok h
       cases g <;> first | exact good_throw hg | exact good_ok trivial)

theorem good_fill {c : Call} {f : GC → Res Unit} (h : c.fill = some f) : ∀ g, WF g → Good (f g) := by
  intro g hg
  cases c <;> simp only [Call.fill] at h <;> cases h
  all_goals exact good_ok trivial

theorem good_guarded {c : Call} {op : Op} (h : c.guardedOp = some op) : ∀ g, WF g → Good (step op g) := by
  intro g hg
  refine good_step op g ?_ ?_ hg
  · cases c <;> simp only [Call.guardedOp] at h <;> cases h <;> trivial
  · cases c <;> simp only [Call.guardedOp] at h <;> cases h <;> simp [Op.sources]

/-- What the calls without a name do to the selected explorer. -/
def Call.act : Call → Value × (Explorer → Step Explorer Value)
  | .popHead => (.code BAD_HEAD, fun e => .ok e.pop.1 (.code e.pop.2))
  | .resetHead => (.code BAD_HEAD, fun e => .ok e.reset.1 (.code e.reset.2))
  | .printContentTypes => (.code BAD_HEAD, fun e => (guarded (e.readTop fun _ => .ok ())).map .code)
  | .dump => (.code BAD_HEAD, fun e => (guarded (e.readTop fun _ => .ok ())).map .code)
  | .pushVectorPosition pos => (.code BAD_HEAD, fun e => (e.push_vector_position pos).map .code)
  | .pushMapPosition pos => (.code BAD_HEAD, fun e => (e.push_map_position pos).map .code)
  | .initMapKey => (.code BAD_HEAD, fun e => e.init_map_key.map .code)
  | .getNextKey => (.text none, fun e => e.next_map_key.map fun k => .text (some (cstr k)))
  | c =>
    match c.guardedOp, c.query, c.fill with
    | some op, _, _ => (.code BAD_HEAD, fun e => (guarded (e.onTop (step op))).map .code)
    | none, some (d, f), _ => (d, Explorer.onTop f)
    | none, none, some f => (.code BAD_HEAD, fun e => (bare (e.onTop f)).map .code)
    | none, none, none => (.code 0, fun _ => .ub)

theorem onActive_map {α β : Type} (g : α → β) (d : α) (f : Explorer → Step Explorer α) (l : Lib) :
    (l.onActive d f).map g = l.onActive (g d) fun e => (f e).map g := by
  unfold Lib.onActive
  cases l.active with
  | none => rfl
  | some a =>
    dsimp only
    cases l.heap[a]? with
    | none => rfl
    | some e => dsimp only; cases f e <;> rfl

theorem run_act {c : Call} (h : c.id? = none) (l : Lib) : c.run l = l.onActive c.act.1 c.act.2 := by
  cases c <;> simp only [Call.id?] at h <;> first
    | (cases h; done)
    | exact onActive_map _ _ _ l
    | rfl

theorem readTop_all {α : Type} {f : GC → Out α} {e : Explorer} {P : Explorer → Prop} (h : P e) : (e.readTop f).All P := by
  unfold Explorer.readTop
  split
  · exact all_throw h
  · exact all_ub
  · split
    · exact all_ub
    · split
      · exact all_ok h
      · exact all_throw h
      · exact all_ub
      · exact all_diverge

theorem act_sound {c : Call} {e : Explorer} (h : Sound e) : (c.act.2 e).All Sound := by
  have default : (c.act = match c.guardedOp, c.query, c.fill with
    | some op, _, _ => (.code BAD_HEAD, fun e => (guarded (e.onTop (step op))).map .code)
    | none, some (d, f), _ => (d, Explorer.onTop f)
    | none, none, some f => (.code BAD_HEAD, fun e => (bare (e.onTop f)).map .code)
    | none, none, none => (.code 0, fun _ => .ub)) → (c.act.2 e).All Sound := by
    intro hc
    rw [hc]
    cases h1 : c.guardedOp with
    | some op => exact all_map (all_guarded (onTop_sound h (good_guarded h1)))
    | none =>
      cases h2 : c.query with
      | some q =>
        obtain ⟨d, f⟩ := q
        exact onTop_sound h (good_query h2)
      | none =>
        cases h3 : c.fill with
        | some f => exact all_map (all_bare (onTop_sound h (good_fill h3)))
        | none => exact all_ub
  cases c with
  | popHead =>
    refine all_ok ?_
    unfold Explorer.pop; split <;> exact h
  | resetHead =>
    refine all_ok ?_
    unfold Explorer.reset; split <;> exact h
  | printContentTypes => exact all_map (all_guarded (readTop_all h))
  | dump => exact all_map (all_guarded (readTop_all h))
  | pushVectorPosition pos =>
    exact all_map (push_sound h fun g hg => good_withIdx (fun x hx => good_ok hx) hg)
  | pushMapPosition pos =>
    exact all_map (push_sound h fun g hg => good_withKey (fun x hx => good_ok hx) hg)
  | initMapKey =>
    refine all_map ?_
    unfold Explorer.init_map_key
    rcases check_state (t := .MAP) (e := e) with ⟨n, hc⟩ | hc
    · rw [hc]
      dsimp only
      split
      · split
        · rename_i p r hh
          split
          · rename_i m hm
            refine all_ok ⟨h.1, fun q k hq => ?_⟩
            injection hq with h1 h2
            subst h1
            simp [isMapAt, hm]
          · exact all_ub
        · exact all_ub
      · exact all_ok h
    · rw [hc]; exact all_ub
  | getNextKey =>
    refine all_map ?_
    unfold Explorer.next_map_key
    split
    · exact all_ub
    · exact all_ub
    · rename_i p k hi
      split
      · rename_i m hm
        split
        · exact all_ok h
        · refine all_ok ⟨h.1, fun q k hq => ?_⟩
          injection hq with h1 h2
          subst h1
          simp [isMapAt, hm]
      · exact all_ub
  | _ => exact default rfl

/-- `GC_push_vector_position` and `GC_push_map_position` on a container of the right type: `f` makes the element. -/
theorem push_placed {e : Explorer} {t : Ty} {f : GC → Res Unit} {s : Sel} (h : Placed e)
    (hf : ∀ g g' u, t = g.ty → f g = .ok g' u → (getAt [s] g').isSome = true) :
    Step.All Placed (match e.check t with
      | .ok e ok => if ok = OK then
          match e.onTop f with
          | .ok e' _ => Step.ok (e'.descend s) ok
          | .throw e' => .throw e'
          | .ub => .ub
          | .diverge => .diverge
        else .ok e ok
      | r => r) := by
  rcases placed_head h with hh | ⟨p, r, hh⟩
  · rw [check_empty hh]; exact all_ok h
  · obtain ⟨g, hg, ho⟩ := onTop_eq f h hh
    rw [check_eq hh hg]
    dsimp only
    by_cases ht : t = g.ty
    · rw [if_pos ht, if_pos rfl]
      have hp := onTop_placed (f := f) h
      rw [ho] at hp ⊢
      cases hfg : f g with
      | ok g' u =>
        rw [hfg] at hp
        dsimp only at hp ⊢
        obtain ⟨h1, h2⟩ := hp _ rfl
        refine all_ok ?_
        rw [hh] at h1
        unfold Explorer.descend
        rw [h1]
        dsimp only
        unfold Placed at h2 ⊢
        rw [h1] at h2
        refine .down h2 ?_
        show (getAt (p ++ [s]) (modAt p (fun _ => g') e.data)).isSome = true
        rw [getAt_append, getAt_modAt _ p hg]
        exact hf g g' u ht hfg
      | throw g' =>
        rw [hfg] at hp
        exact all_throw (hp _ rfl).2
      | ub => exact all_ub
      | diverge => exact all_diverge
    · rw [if_neg ht, if_neg (by decide)]; exact all_ok h

theorem withIdx_made {i : Nat} {g g' : GC} {u : Unit} (h : withIdx i (fun x => .ok x ()) g = .ok g' u) :
    (getAt [.idx i] g').isSome = true := by
  unfold withIdx at h
  dsimp only at h
  cases hx : (checkResize notype i g.oldVector)[i]? with
  | none => rw [hx] at h; cases h
  | some x =>
    rw [hx] at h
    simp only [Res.mapState, Res.ok.injEq] at h
    rw [← h.1]
    have hi := (List.getElem?_eq_some_iff.1 hx).1
    simp only [getAt]
    rw [List.getElem?_set_self hi]; rfl

theorem withKey_made {k : Bytes} {g g' : GC} {u : Unit} (h : withKey k (fun x => .ok x ()) g = .ok g' u) :
    (getAt [.key (cstr k)] g').isSome = true := by
  unfold withKey at h
  simp only [Res.mapState, Res.ok.injEq] at h
  rw [← h.1]
  simp [getAt, mfind_mset_same]

theorem chain_drop {g : GC} : ∀ (n : Nat) {l : List (Option (List Sel))}, Chain g l → Chain g (l.drop n)
  | 0, _, h => h
  | _ + 1, [], h => h
  | n + 1, _ :: _, h => chain_drop n (chain_pop h)

theorem placed_iter {e : Explorer} {i : Iter} (h : Placed e) : Placed { e with iter := i } := h

theorem iter_all {P : Explorer → Prop} {e : Explorer} (h : P e) (hi : ∀ i, P { e with iter := i }) :
    (e.init_map_key.map Value.code).All P ∧ (e.next_map_key.map fun k => Value.text (some (cstr k))).All P := by
  constructor
  · refine all_map ?_
    unfold Explorer.init_map_key
    rcases check_state (t := .MAP) (e := e) with ⟨n, hc⟩ | hc
    · rw [hc]
      dsimp only
      split
      · split
        · split
          · exact all_ok (hi _)
          · exact all_ub
        · exact all_ub
      · exact all_ok h
    · rw [hc]; exact all_ub
  · refine all_map ?_
    unfold Explorer.next_map_key
    split
    · exact all_ub
    · exact all_ub
    · split
      · split
        · exact all_ok h
        · exact all_ok (hi _)
      · exact all_ub

theorem act_placed {c : Call} {e : Explorer} (h : Placed e) : (c.act.2 e).All Placed := by
  have default : (c.act = match c.guardedOp, c.query, c.fill with
    | some op, _, _ => (.code BAD_HEAD, fun e => (guarded (e.onTop (step op))).map .code)
    | none, some (d, f), _ => (d, Explorer.onTop f)
    | none, none, some f => (.code BAD_HEAD, fun e => (bare (e.onTop f)).map .code)
    | none, none, none => (.code 0, fun _ => .ub)) → (c.act.2 e).All Placed := by
    intro hc
    have ho : ∀ {α : Type} (f : GC → Res α), (e.onTop f).All Placed := fun f s hs => (onTop_placed (f := f) h s hs).2
    rw [hc]
    cases c.guardedOp with
    | some op => exact all_map (all_guarded (ho _))
    | none =>
      cases c.query with
      | some q => exact ho _
      | none =>
        cases c.fill with
        | some f => exact all_map (all_bare (ho _))
        | none => exact all_ub
  cases c with
  | popHead =>
    refine all_ok ?_
    unfold Explorer.pop
    split
    · exact h
    · rename_i q r hh
      unfold Placed at h ⊢
      rw [hh] at h
      exact chain_pop h
  | resetHead =>
    refine all_ok ?_
    unfold Explorer.reset
    split
    · exact h
    · exact chain_drop _ h
  | printContentTypes => exact all_map (all_guarded (readTop_all h))
  | dump => exact all_map (all_guarded (readTop_all h))
  | pushVectorPosition pos => exact all_map (push_placed h fun g g' u _ hg => withIdx_made hg)
  | pushMapPosition pos => exact all_map (push_placed h fun g g' u _ hg => withKey_made hg)
  | initMapKey => exact (iter_all h fun i => h).1
  | getNextKey => exact (iter_all h fun i => h).2
  | _ => exact default rfl

/-- An empty stack stays empty. -/
theorem act_empty {c : Call} {e : Explorer} (h : e.head = []) : (c.act.2 e).All fun e' => e'.head = [] := by
  have ho : ∀ {α : Type} (f : GC → Res α), (e.onTop f).All fun e' => e'.head = [] := by
    intro α f
    unfold Explorer.onTop
    rw [h]
    exact all_throw h
  have default : (c.act = match c.guardedOp, c.query, c.fill with
    | some op, _, _ => (.code BAD_HEAD, fun e => (guarded (e.onTop (step op))).map .code)
    | none, some (d, f), _ => (d, Explorer.onTop f)
    | none, none, some f => (.code BAD_HEAD, fun e => (bare (e.onTop f)).map .code)
    | none, none, none => (.code 0, fun _ => .ub)) → (c.act.2 e).All fun e' => e'.head = [] := by
    intro hc
    rw [hc]
    cases c.guardedOp with
    | some op => exact all_map (all_guarded (ho _))
    | none =>
      cases c.query with
      | some q => exact ho _
      | none =>
        cases c.fill with
        | some f => exact all_map (all_bare (ho _))
        | none => exact all_ub
  cases c with
  | popHead => refine all_ok ?_; unfold Explorer.pop; rw [h]; exact h
  | resetHead => refine all_ok ?_; unfold Explorer.reset; rw [if_pos h]; exact h
  | printContentTypes => exact all_map (all_guarded (readTop_all h))
  | dump => exact all_map (all_guarded (readTop_all h))
  | pushVectorPosition pos =>
    refine all_map ?_
    unfold Explorer.push_vector_position
    rw [check_empty h]
    exact all_ok h
  | pushMapPosition pos =>
    refine all_map ?_
    unfold Explorer.push_map_position
    rw [check_empty h]
    exact all_ok h
  | initMapKey => exact (iter_all (P := fun e => e.head = []) h fun i => h).1
  | getNextKey => exact (iter_all (P := fun e => e.head = []) h fun i => h).2
  | _ => exact default rfl

/-! ## The library -/

/-- Names and addresses: every name has its own explorer. -/
def Named (l : Lib) : Prop :=
  (l.names.map Prod.fst).Nodup ∧ (l.names.map Prod.snd).Nodup ∧ (∀ e ∈ l.names, e.2 < l.heap.length) ∧
    ∀ a, l.active = some a → a < l.heap.length

theorem onActive_frame {α : Type} {d : α} {f : Explorer → Step Explorer α} {l : Lib} :
    (l.onActive d f).All fun l' => l'.names = l.names ∧ l'.active = l.active ∧ l'.heap.length = l.heap.length ∧
      ∀ b, l.active ≠ some b → l'.heap[b]? = l.heap[b]? := by
  unfold Lib.onActive
  cases ha : l.active with
  | none => exact all_ok ⟨rfl, ha, rfl, fun _ _ => rfl⟩
  | some a =>
    dsimp only
    cases l.heap[a]? with
    | none => exact all_ub
    | some e =>
      have hset : ∀ e' : Explorer, (l.heap.set a e').length = l.heap.length ∧
          ∀ b, some a ≠ some b → (l.heap.set a e')[b]? = l.heap[b]? := fun e' =>
        ⟨List.length_set, fun b hb => List.getElem?_set_ne (fun h => hb (by rw [h]))⟩
      dsimp only
      cases f e with
      | ok e' x => exact all_ok ⟨rfl, rfl, hset e'⟩
      | throw e' => exact all_throw ⟨rfl, rfl, hset e'⟩
      | ub => exact all_ub
      | diverge => exact all_diverge

theorem onActive_all {α : Type} {d : α} {f : Explorer → Step Explorer α} {l : Lib} {P : Explorer → Prop}
    (h : ∀ e ∈ l.heap, P e) (hf : ∀ e, P e → (f e).All P) : (l.onActive d f).All fun l' => ∀ e ∈ l'.heap, P e := by
  unfold Lib.onActive
  cases ha : l.active with
  | none => exact all_ok h
  | some a =>
    dsimp only
    cases he : l.heap[a]? with
    | none => exact all_ub
    | some e =>
      have hp := hf e (h e (List.mem_of_getElem? he))
      have hset : ∀ e' : Explorer, P e' → ∀ x ∈ l.heap.set a e', P x := fun e' h' x hx => by
        rcases List.mem_or_eq_of_mem_set hx with h1 | rfl
        · exact h x h1
        · exact h'
      dsimp only
      cases hr : f e with
      | ok e' x => exact all_ok (hset e' (hp e' (by rw [hr]; rfl)))
      | throw e' => exact all_throw (hset e' (hp e' (by rw [hr]; rfl)))
      | ub => exact all_ub
      | diverge => exact all_diverge

theorem find_mem {l : Lib} {id : Bytes} {a : Nat} (h : l.find id = some a) : (id, a) ∈ l.names := by
  unfold Lib.find at h
  cases hf : l.names.find? (fun e => e.1 == id) with
  | none => rw [hf] at h; cases h
  | some e =>
    rw [hf] at h
    cases h
    have h1 := List.mem_of_find?_eq_some hf
    have h2 := List.find?_some hf
    have : e.1 = id := by simpa using h2
    rw [← this]
    exact h1

theorem find_none {l : Lib} {id : Bytes} (h : l.find id = none) : id ∉ l.names.map Prod.fst := by
  unfold Lib.find at h
  have hn : l.names.find? (fun e => e.1 == id) = none := by
    cases hf : l.names.find? (fun e => e.1 == id) with
    | none => rfl
    | some e => rw [hf] at h; cases h
  rw [List.find?_eq_none] at hn
  intro hm
  obtain ⟨e, he, rfl⟩ := List.mem_map.1 hm
  exact hn e he (by simp)

theorem select_named {l : Lib} (id : Bytes) (h : Named l) : Named (l.select id) := by
  unfold Lib.select
  obtain ⟨h1, h2, h3, h4⟩ := h
  cases hf : l.find id with
  | some a =>
    refine ⟨h1, h2, h3, fun b hb => ?_⟩
    cases hb
    exact h3 _ (find_mem hf)
  | none =>
    have hn := find_none hf
    refine ⟨?_, ?_, ?_, ?_⟩
    · simp only [List.map_append, List.map_cons, List.map_nil]
      exact List.nodup_append.2 ⟨h1, by simp, fun a ha b hb => by
        simp only [List.mem_singleton] at hb; rintro rfl; rw [hb] at ha; exact hn ha⟩
    · simp only [List.map_append, List.map_cons, List.map_nil]
      refine List.nodup_append.2 ⟨h2, by simp, fun a ha b hb => ?_⟩
      simp only [List.mem_singleton] at hb
      obtain ⟨e, he, rfl⟩ := List.mem_map.1 ha
      rintro h
      have := h3 e he
      omega
    · intro e he
      simp only [List.length_append, List.length_cons, List.length_nil]
      rcases List.mem_append.1 he with he | he
      · have := h3 e he; omega
      · simp only [List.mem_singleton] at he; rw [he]; omega
    · intro b hb
      cases hb
      simp

theorem select_heap {l : Lib} (id : Bytes) : (l.select id).heap = l.heap ∨ (l.select id).heap = l.heap ++ [.new] := by
  unfold Lib.select
  cases l.find id with
  | some a => exact .inl rfl
  | none => exact .inr rfl

theorem select_all {l : Lib} {P : Explorer → Prop} (id : Bytes) (hn : P .new) (h : ∀ e ∈ l.heap, P e) :
    ∀ e ∈ (l.select id).heap, P e := by
  rcases select_heap (l := l) id with h1 | h1 <;> rw [h1]
  · exact h
  · intro e he
    rcases List.mem_append.1 he with he | he
    · exact h e he
    · simp only [List.mem_singleton] at he; rw [he]; exact hn

theorem delete_named {l : Lib} (id : Bytes) (h : Named l) : Named (l.delete id) := by
  obtain ⟨h1, h2, h3, h4⟩ := h
  have hs : (l.names.filter fun e => e.1 != id).Sublist l.names := List.filter_sublist
  exact ⟨(hs.map _).nodup h1, (hs.map _).nodup h2, fun e he => h3 e (hs.subset he), h4⟩

theorem fillOps_ok (fl : String → F64) : ∀ op ∈ fillOps fl, op.argsOk matOk ∧ op.sources = [] := by
  intro op hop
  simp only [fillOps, List.mem_cons, List.not_mem_nil, or_false] at hop
  rcases hop with rfl | hop
  · exact ⟨trivial, rfl⟩
  repeat (first
    | (rcases hop with rfl | hop; exact ⟨trivial, rfl⟩)
    | (subst hop; exact ⟨trivial, rfl⟩))

theorem onRoot_sound : ∀ (ops : List Op) {e : Explorer}, (∀ op ∈ ops, op.argsOk matOk ∧ op.sources = []) → Sound e →
    (Explorer.onRoot ops e).All Sound
  | [], e, _, h => all_ok h
  | op :: ops, e, ho, h => by
    have hg := good_step op e.data (ho op (.head _)).1 (by rw [(ho op (.head _)).2]; simp) h.1
    unfold Explorer.onRoot
    cases hs : step op e.data with
    | ok s u => exact onRoot_sound ops (fun o h => ho o (.tail _ h)) (sound_become (hg s (by rw [hs]; rfl)))
    | throw s => exact all_throw (sound_become (hg s (by rw [hs]; rfl)))
    | ub => exact all_ub
    | diverge => exact all_diverge

theorem sound_new : Sound .new := ⟨trivial, fun _ _ h => by cases h⟩
theorem placed_new : Placed .new := .root

theorem run_sound {c : Call} {l : Lib} (h : ∀ e ∈ l.heap, Sound e) : (c.run l).All fun l' => ∀ e ∈ l'.heap, Sound e := by
  cases hi : c.id? with
  | none => rw [run_act hi]; exact onActive_all h fun e he => act_sound he
  | some id =>
    cases c <;> simp only [Call.id?, Option.some.injEq] at hi <;> first | (cases hi; done) | skip
    · exact all_ok (select_all _ sound_new h)
    · exact all_ok (select_all _ sound_new h)
    · exact all_ok (select_all _ sound_new h)
    · exact all_ok h
    · exact all_map (all_bare (onActive_all (select_all _ sound_new h) fun e he => onRoot_sound _ (fillOps_ok _) he))

theorem run_placed {c : Call} {l : Lib} (hc : c.isFill = false) (h : ∀ e ∈ l.heap, Placed e) :
    (c.run l).All fun l' => ∀ e ∈ l'.heap, Placed e := by
  cases hi : c.id? with
  | none => rw [run_act hi]; exact onActive_all h fun e he => act_placed he
  | some id =>
    cases c <;> simp only [Call.id?, Option.some.injEq] at hi <;> first | (cases hi; done) | skip
    · exact all_ok (select_all _ placed_new h)
    · exact all_ok (select_all _ placed_new h)
    · exact all_ok (select_all _ placed_new h)
    · exact all_ok h
    · cases hc

theorem named_of_frame {l l' : Lib} (h : Named l) (h1 : l'.names = l.names) (h2 : l'.active = l.active)
    (h3 : l'.heap.length = l.heap.length) : Named l' := by
  unfold Named at *
  rw [h1, h2, h3]
  exact h

theorem run_named {c : Call} {l : Lib} (h : Named l) : (c.run l).All Named := by
  cases hi : c.id? with
  | none =>
    rw [run_act hi]
    intro l' hl
    obtain ⟨h1, h2, h3, _⟩ := onActive_frame l' hl
    exact named_of_frame h h1 h2 h3
  | some id =>
    cases c <;> simp only [Call.id?, Option.some.injEq] at hi <;> first | (cases hi; done) | skip
    · exact all_ok (select_named _ h)
    · exact all_ok (select_named _ h)
    · exact all_ok (select_named _ h)
    · exact all_ok (delete_named _ h)
    · refine all_map (all_bare ?_)
      intro l' hl
      obtain ⟨h1, h2, h3, _⟩ := onActive_frame l' hl
      exact named_of_frame (select_named _ h) h1 h2 h3

theorem runs_all {P : Lib → Prop} {Q : Call → Prop} (hs : ∀ c l, Q c → P l → (c.run l).All P) :
    ∀ (cs : List Call) {l l' : Lib}, (∀ c ∈ cs, Q c) → P l → runs cs l = some l' → P l'
  | [], l, l', _, h, hr => by cases hr; exact h
  | c :: cs, l, l', hq, h, hr => by
    have hc := hs c l (hq c (.head _)) h
    unfold runs at hr
    cases hrun : c.run l with
    | ok l1 v => rw [hrun] at hr; exact runs_all hs cs (fun d hd => hq d (.tail _ hd)) (hc l1 (by rw [hrun]; rfl)) hr
    | throw l1 => rw [hrun] at hr; exact runs_all hs cs (fun d hd => hq d (.tail _ hd)) (hc l1 (by rw [hrun]; rfl)) hr
    | ub => rw [hrun] at hr; cases hr
    | diverge => rw [hrun] at hr; cases hr

theorem reachable_sound {l : Lib} (h : Reachable l) : Named l ∧ ∀ e ∈ l.heap, Sound e := by
  obtain ⟨cs, hr⟩ := h
  refine runs_all (P := fun l => Named l ∧ ∀ e ∈ l.heap, Sound e) (Q := fun _ => True)
    (fun c l _ hl s hs => ⟨run_named hl.1 s hs, run_sound hl.2 s hs⟩) cs (fun _ _ => trivial) ?_ hr
  exact ⟨⟨by simp [Lib.init], by simp [Lib.init], by simp [Lib.init], by simp [Lib.init]⟩, by simp [Lib.init]⟩

theorem reachable_placed {l : Lib} (h : ReachableNoFill l) : Named l ∧ ∀ e ∈ l.heap, Sound e ∧ Placed e := by
  obtain ⟨cs, hf, hr⟩ := h
  have h1 := reachable_sound ⟨cs, hr⟩
  have h2 := runs_all (P := fun l => ∀ e ∈ l.heap, Placed e) (Q := fun c => c.isFill = false)
    (fun c l hq hl => run_placed hq hl) cs hf (by simp [Lib.init]) hr
  exact ⟨h1.1, fun e he => ⟨h1.2 e he, h2 e he⟩⟩

end CApi
end GCV
