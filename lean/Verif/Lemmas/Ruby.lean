import Verif.Spec.Ruby
import Verif.Props.CInterface
import Verif.Lemmas.Promote

/-! # Lemmas about the Ruby interface: loading -/

namespace GCV
namespace Ruby
open GC CApi

/-- The state `l` is `l0` but for the explorer `a`, which is selected, holds `d` and has its cursor at `p`. -/
def At (l0 : Lib) (a : Nat) (d : GC) (p : List Sel) (r : List (Option (List Sel))) (l : Lib) : Prop :=
  l0.active = some a ∧ a < l0.heap.length ∧ Chain d (some p :: r) ∧
    ∃ it, l = { l0 with heap := l0.heap.set a ⟨d, some p :: r, it⟩ }

theorem At.fields {l0 l : Lib} {a : Nat} {d : GC} {p : List Sel} {r : List (Option (List Sel))} (h : At l0 a d p r l) :
    ∃ it, l.active = some a ∧ l.heap[a]? = some ⟨d, some p :: r, it⟩ ∧ Placed ⟨d, some p :: r, it⟩ := by
  obtain ⟨h1, h2, h3, it, rfl⟩ := h
  exact ⟨it, h1, List.getElem?_set_self h2, h3⟩

theorem At.set {l0 l : Lib} {a : Nat} {d : GC} {p : List Sel} {r : List (Option (List Sel))} (h : At l0 a d p r l)
    (e : Explorer) {p' : List Sel} {r' : List (Option (List Sel))} (hh : e.head = some p' :: r') (hc : Placed e) :
    At l0 a e.data p' r' { l with heap := l.heap.set a e } := by
  obtain ⟨h1, h2, h3, it, rfl⟩ := h
  refine ⟨h1, h2, ?_, e.iter, ?_⟩
  · unfold Placed at hc; rwa [hh] at hc
  · show (⟨_, _, _⟩ : Lib) = ⟨_, _, _⟩
    rw [List.set_set, ← hh]

theorem At.change {l0 l : Lib} {a : Nat} {d : GC} {p : List Sel} {r : List (Option (List Sel))} {g : GC}
    (h : At l0 a d p r l) {α : Type} (f : GC → Res α) (hg : getAt p d = some g) {F : Explorer → Step Explorer Value} {dv : Value} :
    (∀ s x v, f g = .ok s x → (∀ e e', e.onTop f = .ok e' x → F e = .ok e' v) →
      ∃ l', l.onActive dv F = .ok l' v ∧ At l0 a (modAt p (fun _ => s) d) p r l') ∧
    (∀ s v, f g = .throw s → (∀ e e', e.onTop f = .throw e' → F e = .ok e' v) →
      ∃ l', l.onActive dv F = .ok l' v ∧ At l0 a (modAt p (fun _ => s) d) p r l') := by
  obtain ⟨it, ha, he, hp⟩ := h.fields
  obtain ⟨g', hg', ho⟩ := onTop_eq f hp (p := p) (r := r) rfl
  rw [hg] at hg'
  cases hg'
  have key : ∀ s, At l0 a (modAt p (fun _ => s) d) p r
      { l with heap := l.heap.set a (Explorer.become ⟨d, some p :: r, it⟩ (modAt p (fun _ => s) d)) } := by
    intro s
    obtain ⟨b1, b2⟩ := placed_become hp (p := p) (r := r) rfl s
    exact h.set _ b1 b2
  refine ⟨fun s x v hf hF => ?_, fun s v hf hF => ?_⟩
  · rw [hf] at ho
    exact ⟨_, by rw [onActive_eq ha he, hF _ _ ho], key s⟩
  · rw [hf] at ho
    exact ⟨_, by rw [onActive_eq ha he, hF _ _ ho], key s⟩

/-- A setter or push. -/
theorem call_guarded {l0 l : Lib} {a : Nat} {d : GC} {p : List Sel} {r : List (Option (List Sel))} {g : GC}
    (h : At l0 a d p r l) (hg : getAt p d = some g) {c : Call} {op : Op} (hc : c.guardedOp = some op) :
    (∀ s, step op g = .ok s () → ∃ l', call c l = .ok l' (.code 0) ∧ At l0 a (modAt p (fun _ => s) d) p r l') ∧
    (∀ s, step op g = .throw s → ∃ l', call c l = .ok l' (.code 2) ∧ At l0 a (modAt p (fun _ => s) d) p r l') := by
  obtain ⟨h1, h2⟩ := act_guarded hc
  unfold call
  rw [run_act h1, h2]
  obtain ⟨o1, o2⟩ := h.change (step op) hg (dv := .code BAD_HEAD) (F := fun e => (guarded (e.onTop (step op))).map .code)
  refine ⟨fun s hs => ?_, fun s hs => ?_⟩
  · obtain ⟨l', e1, e2⟩ := o1 s () (.code 0) hs fun e e' he => by rw [he]; rfl
    exact ⟨l', by rw [e1], e2⟩
  · obtain ⟨l', e1, e2⟩ := o2 s (.code 2) hs fun e e' he => by rw [he]; rfl
    exact ⟨l', by rw [e1], e2⟩

theorem check_guarded {l0 l : Lib} {a : Nat} {d : GC} {p : List Sel} {r : List (Option (List Sel))} {g : GC}
    (h : At l0 a d p r l) (hg : getAt p d = some g) {c : Call} {op : Op} (hc : c.guardedOp = some op) :
    (∀ s, step op g = .ok s () → ∃ l', check c l = .ok l' () ∧ At l0 a (modAt p (fun _ => s) d) p r l') ∧
    (∀ s, step op g = .throw s → ∃ l', check c l = .raise l' ∧ At l0 a (modAt p (fun _ => s) d) p r l') := by
  obtain ⟨o1, o2⟩ := call_guarded h hg hc
  refine ⟨fun s hs => ?_, fun s hs => ?_⟩
  · obtain ⟨l', e1, e2⟩ := o1 s hs
    exact ⟨l', by simp [check, e1, RbOut.bind], e2⟩
  · obtain ⟨l', e1, e2⟩ := o2 s hs
    exact ⟨l', by simp [check, e1, RbOut.bind], e2⟩

/-- A query. -/
theorem call_query {l0 l : Lib} {a : Nat} {d : GC} {p : List Sel} {r : List (Option (List Sel))} {g : GC}
    (h : At l0 a d p r l) (hg : getAt p d = some g) {c : Call} {dv : Value} {f : GC → Res Value} (hc : c.query = some (dv, f))
    {s : GC} {v : Value} (hf : f g = .ok s v) : ∃ l', call c l = .ok l' v ∧ At l0 a (modAt p (fun _ => s) d) p r l' := by
  obtain ⟨h1, h2⟩ := act_query hc
  unfold call
  rw [run_act h1, h2]
  obtain ⟨o1, _⟩ := h.change f hg (dv := dv) (F := Explorer.onTop f)
  obtain ⟨l', e1, e2⟩ := o1 s v v hf fun e e' he => he
  exact ⟨l', by rw [e1], e2⟩

theorem mset_same {k : Bytes} {x : GC} {m : Entries} (hs : KeysSorted m) (h : mfind k m = some x) : mset k x m = m := by
  refine sorted_ext (sorted_mset k x m hs) hs fun k' => ?_
  by_cases hk : k' = k
  · subst hk; rw [mfind_mset_same, h]
  · rw [mfind_mset_other hk]

theorem modAt_same {p : List Sel} : ∀ {d g : GC}, WF d → getAt p d = some g → modAt p (fun _ => g) d = d := by
  induction p with
  | nil => intro d g _ h; cases h; rfl
  | cons s p ih =>
    intro d g hw h
    cases s with
    | key k =>
      cases d <;> simp only [getAt] at h <;> try cases h
      rename_i m
      cases hm : mfind k m with
      | none => rw [hm] at h; cases h
      | some x =>
        rw [hm] at h
        simp only [modAt, hm]
        rw [ih (WF_getAt [.key k] hw (by simp [getAt, hm])) h, mset_same hw.1 hm]
    | idx i =>
      cases d <;> simp only [getAt] at h <;> try cases h
      rename_i v
      cases hm : v[i]? with
      | none => rw [hm] at h; cases h
      | some x =>
        rw [hm] at h
        simp only [modAt, hm]
        rw [ih (WF_getAt [.idx i] hw (by simp [getAt, hm])) h, set_same hm]

theorem getAt_const {p : List Sel} {d g : GC} (s : GC) (h : getAt p d = some g) :
    getAt p (modAt p (fun _ => s) d) = some s := getAt_modAt (fun _ => s) p h

theorem modAt_const {p : List Sel} {d g : GC} (s t : GC) (h : getAt p d = some g) :
    modAt p (fun _ => s) (modAt p (fun _ => t) d) = modAt p (fun _ => s) d :=
  modAt_modAt _ _ p d (by rw [h]; rfl)

/-- Going to an element. -/
theorem push_at {l0 l : Lib} {a : Nat} {d : GC} {p : List Sel} {r : List (Option (List Sel))} {g : GC}
    (h : At l0 a d p r l) (hg : getAt p d = some g) {t : Ty} {f : GC → Res Unit} {s : Sel} {g' x : GC} (hty : t = g.ty)
    (hf : f g = .ok g' ()) (hx : getAt [s] g' = some x) :
    ∃ l', (l.onActive (.code BAD_HEAD) fun e => (match e.check t with
      | .ok e ok => if ok = OK then
          match e.onTop f with
          | .ok e' _ => Step.ok (e'.descend s) ok
          | .throw e' => .throw e'
          | .ub => .ub
          | .diverge => .diverge
        else .ok e ok
      | r => r).map Value.code) = .ok l' (.code 0) ∧
      At l0 a (modAt p (fun _ => g') d) (p ++ [s]) (some p :: r) l' := by
  obtain ⟨it, ha, he, hp⟩ := h.fields
  obtain ⟨g1, hg1, ho⟩ := onTop_eq f hp (p := p) (r := r) rfl
  rw [hg] at hg1
  cases hg1
  rw [hf] at ho
  dsimp only at ho
  obtain ⟨hb, hpl⟩ := placed_become hp (p := p) (r := r) rfl g'
  have hd : (Explorer.become ⟨d, some p :: r, it⟩ (modAt p (fun _ => g') d)).descend s =
      { Explorer.become ⟨d, some p :: r, it⟩ (modAt p (fun _ => g') d) with head := some (p ++ [s]) :: some p :: r } := by
    unfold Explorer.descend
    rw [hb]
  refine ⟨{ l with heap := l.heap.set a ⟨modAt p (fun _ => g') d, some (p ++ [s]) :: some p :: r,
    (Explorer.become ⟨d, some p :: r, it⟩ (modAt p (fun _ => g') d)).iter⟩ }, ?_,
    h.set ⟨modAt p (fun _ => g') d, some (p ++ [s]) :: some p :: r,
    (Explorer.become ⟨d, some p :: r, it⟩ (modAt p (fun _ => g') d)).iter⟩ rfl ?_⟩
  · rw [onActive_eq ha he, check_eq rfl hg]
    dsimp only
    rw [if_pos hty, if_pos rfl, ho]
    dsimp only
    rw [hd]
    rfl
  · unfold Placed at hpl ⊢
    rw [hb] at hpl
    refine .down hpl ?_
    show (getAt (p ++ [s]) (modAt p (fun _ => g') d)).isSome = true
    rw [getAt_append, getAt_const _ hg]
    simp [hx]

theorem check_idx {l0 l : Lib} {a : Nat} {d : GC} {p : List Sel} {r : List (Option (List Sel))} {v : List GC}
    (h : At l0 a d p r l) (hg : getAt p d = some (vector v)) {i : Nat} (hi : i < v.length) (hb : i < 2 ^ 31) :
    ∃ l', check (.pushVectorPosition (BitVec.ofNat 32 i)) l = .ok l' () ∧
      At l0 a (modAt p (fun _ => vector v) d) (p ++ [.idx i]) (some p :: r) l' := by
  have hn : (BitVec.ofNat 32 i).toNat = i := by rw [BitVec.toNat_ofNat]; exact Nat.mod_eq_of_lt (by omega)
  have hf : withIdx i (fun x => .ok x ()) (vector v) = .ok (vector v) () := by
    unfold withIdx
    have : checkResize notype i v = v := by unfold checkResize; rw [if_neg (by omega)]
    dsimp only [oldVector]
    rw [this, List.getElem?_eq_getElem hi]
    simp only [Res.mapState]
    rw [set_same (List.getElem?_eq_getElem hi)]
  obtain ⟨l', e1, e2⟩ := push_at h hg (t := .VECTOR) (s := .idx i) (x := v[i]) rfl hf (by simp [getAt, hi])
  refine ⟨l', ?_, e2⟩
  have hr : Call.run (.pushVectorPosition (BitVec.ofNat 32 i)) l = .ok l' (.code 0) := by
    rw [run_act rfl]
    unfold Call.act Explorer.push_vector_position
    simp only [hn]
    exact e1
  simp [check, call, hr, RbOut.bind]

theorem check_key {l0 l : Lib} {a : Nat} {d : GC} {p : List Sel} {r : List (Option (List Sel))} {m : Entries}
    (h : At l0 a d p r l) (hg : getAt p d = some (map m)) {k : Bytes} (hk : (0 : Byte) ∉ k) :
    ∃ l', check (.pushMapPosition k) l = .ok l' () ∧
      At l0 a (modAt p (fun _ => map (mset k ((mfind k m).getD notype) m)) d) (p ++ [.key k]) (some p :: r) l' := by
  have hn : cstr k = k := cstr_of_noNul (by
    simp only [noNul, List.all_eq_true, decide_eq_true_eq]; intro x hx h0; exact hk (h0 ▸ hx))
  have hf : withKey k (fun x => .ok x ()) (map m) = .ok (map (mset k ((mfind k m).getD notype) m)) () := by
    simp only [withKey, oldMap, hn, Res.mapState]
  obtain ⟨l', e1, e2⟩ := push_at h hg (t := .MAP) (s := .key k) (x := (mfind k m).getD notype) rfl hf
    (by simp [getAt, mfind_mset_same])
  refine ⟨l', ?_, e2⟩
  have hr : Call.run (.pushMapPosition k) l = .ok l' (.code 0) := by
    rw [run_act rfl]
    unfold Call.act Explorer.push_map_position
    simp only [hn]
    exact e1
  simp [check, call, hr, RbOut.bind]

theorem check_pop {l0 l : Lib} {a : Nat} {d : GC} {p q : List Sel} {r : List (Option (List Sel))}
    (h : At l0 a d q (some p :: r) l) : ∃ l', check .popHead l = .ok l' () ∧ At l0 a d p r l' := by
  obtain ⟨it, ha, he, hp⟩ := h.fields
  refine ⟨{ l with heap := l.heap.set a ⟨d, some p :: r, it⟩ }, ?_, h.set ⟨d, some p :: r, it⟩ rfl (chain_pop (show Chain d (some q :: some p :: r) from hp))⟩
  have hr : Call.popHead.run l = .ok { l with heap := l.heap.set a ⟨d, some p :: r, it⟩ } (.code 0) := by
    rw [run_act rfl, onActive_eq ha he]
    rfl
  simp [check, call, hr, RbOut.bind]

/-! ## Arrays of scalars -/

/-- What pushing a scalar does. -/
def pushIt : Rb → GC → Res Unit
  | .tru => push_bool true
  | .fals => push_bool false
  | .int n => push_int (BitVec.ofInt 32 n)
  | .float r => push_real r
  | .str s => push_string s
  | .sym s => push_string s
  | _ => fun g => .ok g ()

theorem cstr_fits {s : Bytes} (h : (0 : Byte) ∉ s) : cstr s = s :=
  cstr_of_noNul (by simp only [noNul, List.all_eq_true, decide_eq_true_eq]; intro x hx h0; exact h (h0 ▸ hx))

theorem pushArg_fits {x : Rb} (hs : x.isScalar = true) (hf : x.fits = true) :
    ∃ c op, pushArg x = .call c ∧ c.guardedOp = some op ∧ step op = pushIt x := by
  cases x <;> simp only [Rb.isScalar, Bool.false_eq_true] at hs
  · exact ⟨_, _, rfl, rfl, rfl⟩
  · exact ⟨_, _, rfl, rfl, rfl⟩
  · rename_i n
    simp only [Rb.fits, decide_eq_true_eq] at hf
    exact ⟨.pushInt (BitVec.ofInt 32 n), _, by rw [pushArg, ffiInt, if_pos hf]; rfl, rfl, rfl⟩
  · exact ⟨_, _, rfl, rfl, rfl⟩
  · rename_i s
    simp only [Rb.fits, decide_eq_true_eq] at hf
    refine ⟨.pushString s, _, by rw [pushArg, ffiString, if_neg hf]; rfl, rfl, ?_⟩
    rw [cstr_fits hf]; rfl
  · rename_i s
    simp only [Rb.fits, decide_eq_true_eq] at hf
    refine ⟨.pushString s, _, by rw [pushArg, ffiString, if_neg hf]; rfl, rfl, ?_⟩
    rw [cstr_fits hf]; rfl

theorem pushArg_refused {x : Rb} (hs : x.isScalar = true) (hf : x.fits = false) : pushArg x = .refused := by
  cases x <;> simp only [Rb.isScalar, Bool.false_eq_true] at hs <;>
    simp only [Rb.fits, decide_eq_false_iff_not, Decidable.not_not, reduceCtorEq] at hf
  · rw [pushArg, ffiInt, if_neg hf]; rfl
  · rw [pushArg, ffiString, if_pos hf]; rfl
  · rw [pushArg, ffiString, if_pos hf]; rfl

theorem pushArg_none {x : Rb} (hs : x.isScalar = false) : pushArg x = .none := by
  cases x <;> simp only [Rb.isScalar, reduceCtorEq] at hs <;> rfl

/-- Vectors with room for `n` more elements. -/
def Room (n : Nat) : GC → Prop
  | vecBool v => v.length + n < 2 ^ 32
  | vecInt v => v.length + n < 2 ^ 32
  | vecReal v => v.length + n < 2 ^ 32
  | vecString v => v.length + n < 2 ^ 32
  | vector v => v.length + n < 2 ^ 32
  | _ => False

theorem pushIt_room {x : Rb} (hs : x.isScalar = true) {n : Nat} {g : GC} (hg : Room (n + 1) g) :
    (∃ s, pushIt x g = .ok s () ∧ Room n s) ∨ ∃ s, pushIt x g = .throw s := by
  cases x <;> simp only [Rb.isScalar, Bool.false_eq_true] at hs <;>
    cases g <;> simp only [Room] at hg <;> (try exact hg.elim) <;> (rename_i v) <;> (have hv : v.length < 2 ^ 32 := by omega) <;>
    first
      | exact .inr ⟨_, rfl⟩
      | (refine .inl ⟨_, rfl, ?_⟩; simp only [Room, List.length_append, List.length_singleton]; omega)
      | (simp only [pushIt, push_int, push_real, push_string, promote_to_vec_int, promote_to_vec_real, promote_to_vector,
           refill_ok _ _ hv, Out.bind, GC.become, Res.bind]
         first
           | exact .inr ⟨_, rfl⟩
           | (refine .inl ⟨_, rfl, ?_⟩; simp only [Room, List.length_append, List.length_singleton, List.length_map]; omega))

/-- The pushes of an array. -/
def pushList : List Rb → GC → Option GC
  | [], g => some g
  | x :: xs, g =>
    if x.fits then
      match pushIt x g with
      | .ok s _ => pushList xs s
      | _ => none
    else none

theorem pushAll_spec {l0 : Lib} {a : Nat} {d g0 : GC} {p : List Sel} {r : List (Option (List Sel))}
    (hd : getAt p d = some g0) (rest : Lib → RbOut Unit) (ys : List Rb) : ∀ (xs : List Rb) {g : GC} {l : Lib},
    At l0 a (modAt p (fun _ => g) d) p r l → xs.all Rb.isScalar = true → Room xs.length g →
      (∀ s, pushList xs g = some s → Room 0 s ∧ ∃ l', pushAll rest (xs ++ ys) l = pushAll rest ys l' ∧
        At l0 a (modAt p (fun _ => s) d) p r l') ∧
      (pushList xs g = none → ∃ l' s, pushAll rest (xs ++ ys) l = .raise l' ∧ At l0 a (modAt p (fun _ => s) d) p r l')
  | [], g, l, h, _, hr => by
    refine ⟨fun s hs => ?_, fun h => by cases h⟩
    cases hs
    exact ⟨hr, l, rfl, h⟩
  | x :: xs, g, l, h, hs, hr => by
    simp only [List.all_cons, Bool.and_eq_true] at hs
    cases hf : x.fits with
    | false =>
      refine ⟨fun s h' => by simp [pushList, hf] at h', fun _ => ⟨l, g, ?_, h⟩⟩
      simp [pushAll, pushArg_refused hs.1 hf]
    | true =>
      obtain ⟨c, op, e1, e2, e3⟩ := pushArg_fits hs.1 hf
      have hc := check_guarded h (getAt_const g hd) e2
      simp only [e3, modAt_const _ _ hd] at hc
      simp only [pushList, hf, if_true, List.cons_append, pushAll, e1]
      rcases pushIt_room hs.1 (n := xs.length) hr with ⟨s, h1, h2⟩ | ⟨s, h1⟩
      · obtain ⟨l1, c1, c2⟩ := hc.1 s h1
        rw [h1, c1]
        exact pushAll_spec hd rest ys xs c2 hs.2 h2
      · obtain ⟨l1, c1, c2⟩ := hc.2 s h1
        rw [h1, c1]
        exact ⟨fun s h => (by cases h), fun _ => ⟨l1, s, rfl, c2⟩⟩

theorem pushList_append : ∀ (xs ys : List Rb) (g : GC), pushList (xs ++ ys) g = (pushList xs g).bind (pushList ys)
  | [], _, _ => rfl
  | x :: xs, ys, g => by
    simp only [List.cons_append, pushList]
    split
    · cases pushIt x g with
      | ok s u => exact pushList_append xs ys s
      | _ => rfl
    · rfl

theorem pushList_refused : ∀ {xs : List Rb} (g : GC), xs.all Rb.fits = false → pushList xs g = none
  | x :: xs, g, h => by
    simp only [pushList]
    cases hx : x.fits with
    | false => simp
    | true =>
      simp only [List.all_cons, hx, Bool.true_and] at h
      simp only [if_true]
      cases pushIt x g with
      | ok s u => exact pushList_refused s h
      | _ => rfl

theorem pushList_vector : ∀ (xs : List Rb) (v : List GC), xs.all Rb.isScalar = true → xs.all Rb.fits = true →
    pushList xs (vector v) = some (vector (v ++ xs.map Rb.single))
  | [], v, _, _ => by simp [pushList]
  | x :: xs, v, hs, hf => by
    simp only [List.all_cons, Bool.and_eq_true] at hs hf
    have h1 : pushIt x (vector v) = .ok (vector (v ++ [x.single])) () := by
      cases x <;> simp only [Rb.isScalar, Bool.false_eq_true] at hs <;> simp at hs <;> rfl
    simp only [pushList, hf.1, if_true, h1]
    rw [pushList_vector xs _ hs.2 hf.2]
    simp

theorem pushList_texts : ∀ (xs : List Rb) (v : List Bytes), xs.all Rb.isScalar = true → xs.all Rb.fits = true →
    pushList xs (vecString v) = if xs.all Rb.isText then some (vecString (v ++ xs.map Rb.asText)) else none
  | [], v, _, _ => by simp [pushList]
  | x :: xs, v, hs, hf => by
    simp only [List.all_cons, Bool.and_eq_true] at hs hf
    simp only [pushList, hf.1, if_true]
    cases hx : x.isText with
    | true =>
      have h1 : pushIt x (vecString v) = .ok (vecString (v ++ [x.asText])) () := by
        cases x <;> simp only [Rb.isText, Bool.false_eq_true, reduceCtorEq] at hx <;> rfl
      rw [h1]
      dsimp only
      rw [pushList_texts xs _ hs.2 hf.2]
      simp [hx]
    | false =>
      have h1 : pushIt x (vecString v) = .throw (vecString v) := by
        cases x <;> simp only [Rb.isText, Rb.isScalar, Bool.false_eq_true, reduceCtorEq] at hx hs <;> first | rfl | simp at hs
      rw [h1]
      simp [hx]

/-- Numbers that are not wider than `w`. -/
def Within (w : Width) (ys : List Rb) : Prop := ∀ y ∈ ys, y.isScalar = true ∧ y.isText = false ∧ w.max y.width = w

/-- A number that is not wider than `w`, in `w`. -/
theorem ofI32_ofInt {n : Int} (h : -2 ^ 31 ≤ n ∧ n < 2 ^ 31) : F64.ofI32 (BitVec.ofInt 32 n) = F64.ofInt n := by
  unfold F64.ofI32
  congr 1
  rw [BitVec.toInt_ofInt]
  simp only [Int.bmod]
  omega

theorem asReal_bool (b : Bool) : F64.ofBool b = F64.ofInt (if b then 1 else 0) := by
  cases b
  · rfl
  · decide +kernel

theorem max_max (a b c : Width) : (a.max b).max c = a.max (b.max c) := by cases a <;> cases b <;> cases c <;> rfl
theorem max_self (a : Width) : a.max a = a := by cases a <;> rfl
theorem max_comm (a b : Width) : a.max b = b.max a := by cases a <;> cases b <;> rfl

theorem Within.wider {w : Width} {ys : List Rb} (h : Within w ys) (v : Width) : Within (w.max v) ys := fun y hy => by
  obtain ⟨h1, h2, h3⟩ := h y hy
  refine ⟨h1, h2, ?_⟩
  rw [max_comm w v, max_max, h3]

theorem Within.push {w : Width} {ys : List Rb} (h : Within w ys) {x : Rb} (hx : x.isScalar = true) (ht : x.isText = false) :
    Within (w.max x.width) (ys ++ [x]) := fun y hy => by
  rcases List.mem_append.1 hy with hy | hy
  · exact h.wider _ y hy
  · rw [List.mem_singleton] at hy
    subst hy
    exact ⟨hx, ht, by rw [max_max, max_self]⟩

theorem bool_int {y : Rb} (h : y.isScalar = true ∧ y.isText = false ∧ Width.bool.max y.width = .bool) :
    I32.ofBool y.asBool = y.asInt := by
  cases y <;> simp [Rb.isScalar, Rb.isText, Rb.width, Width.max] at h <;> rfl

theorem bool_real {y : Rb} (h : y.isScalar = true ∧ y.isText = false ∧ Width.bool.max y.width = .bool) :
    F64.ofBool y.asBool = y.asReal := by
  cases y <;> simp [Rb.isScalar, Rb.isText, Rb.width, Width.max] at h <;> rw [asReal_bool] <;> rfl

theorem int_real {y : Rb} (hf : y.fits = true) (h : y.isScalar = true ∧ y.isText = false ∧ Width.int.max y.width = .int) :
    F64.ofI32 y.asInt = y.asReal := by
  cases y <;> simp [Rb.isScalar, Rb.isText, Rb.width, Width.max] at h
  · show F64.ofInt (1 : I32).toInt = F64.ofInt 1
    rfl
  · rfl
  · simp only [Rb.fits, decide_eq_true_eq] at hf
    exact ofI32_ofInt hf

theorem pushIt_packed {w : Width} {ys : List Rb} {x : Rb} (hw : Within w ys) (hf : ys.all Rb.fits = true)
    (hl : ys.length < 2 ^ 32) (hx : x.isScalar = true) (hxf : x.fits = true) (ht : x.isText = false) :
    pushIt x (packed w ys) = .ok (packed (w.max x.width) (ys ++ [x])) () := by
  have hlm : ∀ {α : Type} (f : Rb → α), (ys.map f).length < 2 ^ 32 := fun f => by simpa using hl
  have hfy : ∀ y ∈ ys, y.fits = true := by simpa using hf
  cases x <;> simp only [Rb.isScalar, Rb.isText, Bool.false_eq_true, reduceCtorEq] at hx ht
  · cases w <;> simp [pushIt, push_bool, packed, Rb.width, Width.max, Rb.asBool, Rb.asInt, Rb.asReal, I32.ofBool]
    exact asReal_bool true
  · cases w <;> simp [pushIt, push_bool, packed, Rb.width, Width.max, Rb.asBool, Rb.asInt, Rb.asReal, I32.ofBool]
    exact asReal_bool false
  · cases w
    · simp only [pushIt, push_int, packed, promote_to_vec_int, refill_ok _ _ (hlm _), Out.bind, GC.become, Res.bind, List.map_map]
      have : ys.map (I32.ofBool ∘ Rb.asBool) = ys.map Rb.asInt := List.map_congr_left fun y hy => bool_int (hw y hy)
      rw [this]; simp [Width.max, Rb.width, packed, Rb.asInt]
    · simp [pushIt, push_int, packed, Rb.width, Width.max, Rb.asInt]
    · simp only [Rb.fits, decide_eq_true_eq] at hxf
      simp only [pushIt, push_int, packed, Rb.width, Width.max, List.map_append, List.map_cons, List.map_nil, Rb.asReal]
      rw [ofI32_ofInt hxf]
  · cases w
    · simp only [pushIt, push_real, packed, promote_to_vec_real, refill_ok _ _ (hlm _), Out.bind, GC.become, Res.bind, List.map_map]
      have : ys.map (F64.ofBool ∘ Rb.asBool) = ys.map Rb.asReal := List.map_congr_left fun y hy => bool_real (hw y hy)
      rw [this]; simp [Width.max, Rb.width, packed, Rb.asReal]
    · simp only [pushIt, push_real, packed, promote_to_vec_real, refill_ok _ _ (hlm _), Out.bind, GC.become, Res.bind, List.map_map]
      have : ys.map (F64.ofI32 ∘ Rb.asInt) = ys.map Rb.asReal :=
        List.map_congr_left fun y hy => int_real (hfy y hy) (hw y hy)
      rw [this]; simp [Width.max, Rb.width, packed, Rb.asReal]
    · simp [pushIt, push_real, packed, Rb.width, Width.max, Rb.asReal]

theorem pushIt_text {w : Width} {ys : List Rb} {x : Rb} (hl : ys.length < 2 ^ 32) (ht : x.isText = true) :
    pushIt x (packed w ys) = .ok (vector (ys.map (Rb.as w) ++ [x.single])) () := by
  have hlm : ∀ {α : Type} (f : Rb → α), (ys.map f).length < 2 ^ 32 := fun f => by simpa using hl
  cases x <;> simp only [Rb.isText, Bool.false_eq_true] at ht <;> cases w <;>
    simp only [pushIt, push_string, packed, promote_to_vector, refill_ok _ _ (hlm _), Out.bind, GC.become, Res.bind,
      List.map_map, Rb.single] <;> rfl

theorem pushList_numbers : ∀ (xs : List Rb) (w : Width) (ys : List Rb), Within w ys → ys.all Rb.fits = true →
    ys.length + xs.length < 2 ^ 32 → xs.all Rb.isScalar = true → xs.all Rb.fits = true → xs.all (fun x => !x.isText) = true →
    pushList xs (packed w ys) = some (packed (w.max (widest xs)) (ys ++ xs))
  | [], w, ys, _, _, _, _, _, _ => by
    have : w.max .bool = w := by cases w <;> rfl
    simp [pushList, widest, this]
  | x :: xs, w, ys, hw, hy, hl, hs, hf, ht => by
    simp only [List.all_cons, Bool.and_eq_true, Bool.not_eq_true', List.length_cons] at hs hf ht hl
    simp only [pushList, hf.1, if_true]
    rw [pushIt_packed hw hy (by omega) hs.1 hf.1 ht.1]
    dsimp only
    rw [pushList_numbers xs _ _ (hw.push hs.1 ht.1) (by simp [hy, hf.1]) (by simp; omega) hs.2 hf.2 (by simpa using ht.2)]
    simp [widest, max_max]

/-- The empty vector that is made for an array. -/
def start (x : Rb) : GC := if x.isText then vecString [] else packed x.width []

theorem afterNumbers_text : ∀ {l : List Rb} {b : Rb} {B : List Rb}, afterNumbers l = b :: B → b.isText = true
  | x :: l, b, B, h => by
    cases hx : x.isText with
    | true =>
      simp only [afterNumbers, List.dropWhile_cons, hx, Bool.not_true, Bool.false_eq_true, if_false, List.cons.injEq] at h
      rw [← h.1, hx]
    | false =>
      simp only [afterNumbers, List.dropWhile_cons, hx, Bool.not_false, if_true] at h
      exact afterNumbers_text h

theorem pushList_scalars {x : Rb} {xs : List Rb} (hs : (x :: xs).all Rb.isScalar = true) (hf : (x :: xs).all Rb.fits = true)
    (hl : (x :: xs).length < 2 ^ 32) : pushList (x :: xs) (start x) = scalars (x :: xs) := by
  unfold start scalars
  rw [if_neg (List.cons_ne_nil _ _)]
  cases hx : x.isText with
  | true =>
    rw [if_pos rfl, pushList_texts _ _ hs hf]
    have h1 : numbers (x :: xs) = [] := by simp [numbers, hx]
    rw [if_pos h1]
    rfl
  | false =>
    rw [if_neg Bool.false_ne_true]
    have h0 : ((x :: xs).all Rb.isText) = false := by simp [hx]
    have h1 : numbers (x :: xs) ≠ [] := by simp [numbers, hx]
    rw [if_neg (by simp [h0]), if_neg h1]
    have hsplit : numbers (x :: xs) ++ afterNumbers (x :: xs) = x :: xs := List.takeWhile_append_dropWhile
    have hn : (numbers (x :: xs)).all (fun x => !x.isText) = true := List.all_takeWhile
    have hww : x.width.max (widest (numbers (x :: xs))) = widest (numbers (x :: xs)) := by
      simp only [numbers, List.takeWhile_cons, hx, Bool.not_false, if_true, widest]
      rw [← max_max, max_self]
    have hb : ∀ {b : Rb} {B : List Rb}, afterNumbers (x :: xs) = b :: B → b.isText = true := afterNumbers_text
    generalize numbers (x :: xs) = A at *
    generalize afterNumbers (x :: xs) = B at *
    have hA := pushList_numbers A x.width [] (fun _ h => by cases h) rfl
    rw [← hsplit] at hs hf hl ⊢
    simp only [List.all_append, Bool.and_eq_true, List.length_append] at hs hf hl
    rw [pushList_append, hA (by simp; omega) hs.1 hf.1 hn, hww]
    simp only [List.nil_append, Option.bind_some]
    cases B with
    | nil => simp [pushList]
    | cons b B =>
      rw [if_neg (List.cons_ne_nil _ _)]
      simp only [List.all_cons, Bool.and_eq_true, List.length_cons] at hs hf hl
      simp only [pushList, hf.2.1, if_true]
      rw [pushIt_text (by omega) (hb rfl)]
      dsimp only
      rw [pushList_vector _ _ hs.2.2 hf.2.2]
      simp

/-! ## Loading -/

theorem Base.plain {v : Rb} {g : GC} (h : Base v g) : Ruby.plain g = true := by
  rcases h with rfl | h
  · rfl
  · exact h.1

theorem emptyCall_scalar {x : Rb} (hs : x.isScalar = true) :
    ∃ c op, emptyCall x = some c ∧ c.guardedOp = some op ∧ ∀ g, plain g = true → step op g = .ok (start x) () := by
  cases x <;> simp only [Rb.isScalar, Bool.false_eq_true] at hs <;>
    refine ⟨_, _, rfl, rfl, fun g hg => ?_⟩ <;> cases g <;> simp only [plain, Bool.false_eq_true] at hg <;> rfl

theorem emptyCall_other {x : Rb} (hs : x.isScalar = false) : emptyCall x = none := by
  cases x <;> simp only [Rb.isScalar, reduceCtorEq] at hs <;> rfl

theorem room_start (x : Rb) {n : Nat} (h : n < 2 ^ 32) : Room n (start x) := by
  unfold start
  split
  · simpa [Room] using h
  · cases x.width <;> simpa [Room, packed] using h

theorem plain_oldVector {g : GC} (h : plain g = true) : g.oldVector = [] := by
  cases g <;> simp only [plain, Bool.false_eq_true] at h <;> rfl

theorem scalars_elems {l : List Rb} {s : GC} (h : scalars l = some s) :
    s.oldVector.length ≤ l.length ∧ ∀ e ∈ s.oldVector, plain e = true := by
  unfold scalars at h
  split at h
  · cases h; simp [oldVector]
  · split at h
    · cases h; simp [oldVector]
    · split at h
      · cases h
      · split at h
        · cases h
          cases widest l <;> simp [oldVector, packed]
        · cases h
          have hsplit : numbers l ++ afterNumbers l = l := List.takeWhile_append_dropWhile
          constructor
          · simp only [oldVector, List.length_append, List.length_map]
            rw [← List.length_append, hsplit]
          · intro e he
            simp only [oldVector, List.mem_append, List.mem_map] at he
            rcases he with ⟨x, _, rfl⟩ | ⟨x, _, rfl⟩
            · cases widest (numbers l) <;> rfl
            · cases x <;> rfl

theorem scalars_none {l : List Rb} : scalars l = none ↔ (l.head?.any Rb.isText = true ∧ l.any (fun x => !x.isText) = true) := by
  unfold scalars
  cases l with
  | nil => simp
  | cons x xs =>
    rw [if_neg (List.cons_ne_nil _ _)]
    cases hx : x.isText with
    | false =>
      have h1 : numbers (x :: xs) ≠ [] := by simp [numbers, hx]
      rw [if_neg (by simp [hx]), if_neg h1]
      simp only [List.head?_cons, Option.any_some, hx, Bool.false_eq_true, false_and, iff_false]
      split <;> simp
    | true =>
      have h1 : numbers (x :: xs) = [] := by simp [numbers, hx]
      rw [if_pos h1]
      simp only [List.head?_cons, Option.any_some, hx, true_and]
      split
      · rename_i h
        simp only [reduceCtorEq, false_iff, Bool.not_eq_true]
        rw [List.any_eq_false]
        rw [List.all_eq_true] at h
        intro y hy
        simp [h y hy]
      · rename_i h
        simp only [true_iff]
        rw [List.all_eq_true] at h
        rw [List.any_eq_true]
        apply Classical.byContradiction
        intro hc
        exact h fun y hy => by
          cases hyt : y.isText with
          | true => rfl
          | false => exact absurd ⟨y, hy, by simp [hyt]⟩ hc

theorem images_none {l : List Rb} {x : Rb} (hx : x ∈ l) (h : image x = none) : images l = none := by
  induction l with
  | nil => cases hx
  | cons y l ih =>
    simp only [images]
    rcases List.mem_cons.1 hx with rfl | hx
    · rw [h]; rfl
    · rw [ih hx]; cases image y <;> rfl

theorem image_scalar {x : Rb} (hs : x.isScalar = true) : image x = if x.fits then some x.single else none := by
  cases x <;> simp only [Rb.isScalar, Bool.false_eq_true] at hs <;> simp [image]

theorem nest {p q : List Sel} {d g0 V : GC} (f : GC → GC) (h : getAt p d = some g0) :
    modAt (p ++ q) f (modAt p (fun _ => V) d) = modAt p (fun _ => modAt q f V) d := by
  rw [modAt_append, modAt_modAt _ _ p d (by rw [h]; rfl)]

theorem ffiInt_nat {n : Nat} (h : n < 2 ^ 31) : ffiInt n = some (BitVec.ofNat 32 n) := by
  unfold ffiInt
  rw [if_pos (by omega)]
  rfl

theorem toNat_small {n : Nat} (h : n < 2 ^ 31) : (BitVec.ofNat 32 n).toNat = n := by
  rw [BitVec.toNat_ofNat]; exact Nat.mod_eq_of_lt (by omega)

/-- `GC_set_vector` and the loop. -/
theorem fromVector_spec {l0 l : Lib} {a n : Nat} {d g g0 : GC} {p : List Sel} {r : List (Option (List Sel))}
    (hd : getAt p d = some g0) (h : At l0 a (modAt p (fun _ => g) d) p r l) (hn : n < 2 ^ 31) (loop : Lib → RbOut Unit) :
    ∃ l', fromVector n loop l = loop l' ∧ At l0 a (modAt p (fun _ => vector (allocL notype n g.oldVector)) d) p r l' := by
  have hc := (call_guarded h (getAt_const g hd) (c := .setVector (BitVec.ofNat 32 n)) (op := .setVector (BitVec.ofNat 32 n))
    rfl).1 (set_vector (BitVec.ofNat 32 n).toNat g) (by rw [step])
  rw [modAt_const _ _ hd] at hc
  obtain ⟨l', e1, e2⟩ := hc
  have hk := ffiInt_nat hn
  have hv : fromVector n loop l = loop l' := by
    unfold fromVector
    rw [hk, withArg, e1]
    rfl
  refine ⟨l', hv, ?_⟩
  rw [toNat_small hn] at e2
  exact e2

/-- The elements of the vector that is made. -/
theorem alloc_bases {l A B : List Rb} {g : GC} (hl : l = A ++ B) (hA : A.all Rb.isScalar = true) (hne : l ≠ [])
    (hlen : g.oldVector.length ≤ A.length) (hp : ∀ e ∈ g.oldVector, plain e = true) :
    (allocL notype l.length g.oldVector).length = l.length ∧
    ∀ (j : Nat) x b, l[j]? = some x → (allocL notype l.length g.oldVector)[j]? = some b → Base x b := by
  have hpos := List.length_pos_iff.2 hne
  refine ⟨length_allocL _ _ _ hpos, fun j x b hx hb => ?_⟩
  have hal : A.length ≤ l.length := by rw [hl]; simp
  unfold allocL resizeL at hb
  rw [if_pos hpos, List.take_of_length_le (by omega)] at hb
  by_cases hj : j < g.oldVector.length
  · rw [List.getElem?_append_left hj] at hb
    refine .inr ⟨hp b (List.mem_of_getElem? hb), ?_⟩
    rw [hl, List.getElem?_append_left (by omega)] at hx
    have := List.all_eq_true.1 hA x (List.mem_of_getElem? hx)
    cases x <;> simp only [Rb.isScalar, Bool.false_eq_true] at this <;> rfl
  · rw [List.getElem?_append_right (by omega), List.getElem?_replicate] at hb
    split at hb
    · cases hb; exact .inl rfl
    · cases hb

theorem leading_split {l : List Rb} (h : l.all Rb.isScalar = false) :
    ∃ y ys, l = leading l ++ y :: ys ∧ y.isScalar = false ∧ (leading l).all Rb.isScalar = true := by
  induction l with
  | nil => cases h
  | cons x xs ih =>
    cases hx : x.isScalar with
    | false => exact ⟨x, xs, by simp [leading, hx], hx, by simp [leading, hx]⟩
    | true =>
      simp only [List.all_cons, hx, Bool.true_and] at h
      obtain ⟨y, ys, e1, e2, e3⟩ := ih h
      refine ⟨y, ys, ?_, e2, ?_⟩
      · simp only [leading, List.takeWhile_cons, hx, if_true, List.cons_append, List.cons.injEq, true_and]
        exact e1
      · simp only [leading, List.takeWhile_cons, hx, if_true, List.all_cons, Bool.true_and]
        exact e3

theorem setArg_fits {v : Rb} (hs : v.isScalar = true) (hf : v.fits = true) :
    ∃ c op, setArg v = .call c ∧ c.guardedOp = some op ∧ ∀ g, step op g = .ok v.single () := by
  cases v <;> simp only [Rb.isScalar, Bool.false_eq_true] at hs
  · exact ⟨_, _, rfl, rfl, fun _ => rfl⟩
  · exact ⟨_, _, rfl, rfl, fun _ => rfl⟩
  · rename_i n
    simp only [Rb.fits, decide_eq_true_eq] at hf
    exact ⟨.setInt (BitVec.ofInt 32 n), _, by rw [setArg, ffiInt, if_pos hf]; rfl, rfl, fun _ => rfl⟩
  · exact ⟨_, _, rfl, rfl, fun _ => rfl⟩
  · rename_i s
    simp only [Rb.fits, decide_eq_true_eq] at hf
    refine ⟨.setString s, _, by rw [setArg, ffiString, if_neg hf]; rfl, rfl, fun g => ?_⟩
    rw [cstr_fits hf]; cases g <;> rfl
  · rename_i s
    simp only [Rb.fits, decide_eq_true_eq] at hf
    refine ⟨.setString s, _, by rw [setArg, ffiString, if_neg hf]; rfl, rfl, fun g => ?_⟩
    rw [cstr_fits hf]; cases g <;> rfl

theorem setArg_refused {x : Rb} (hs : x.isScalar = true) (hf : x.fits = false) : setArg x = .refused := by
  cases x <;> simp only [Rb.isScalar, Bool.false_eq_true] at hs <;>
    simp only [Rb.fits, decide_eq_false_iff_not, Decidable.not_not, reduceCtorEq] at hf
  · rw [setArg, ffiInt, if_neg hf]; rfl
  · rw [setArg, ffiString, if_pos hf]; rfl
  · rw [setArg, ffiString, if_pos hf]; rfl

theorem fromHash_scalar {v : Rb} (hs : v.isScalar = true) (l : Lib) : fromHash v l = match setArg v with
    | .call c => check c l
    | .refused => .raise l
    | .none => .ok l () := by
  cases v <;> simp only [Rb.isScalar, Bool.false_eq_true] at hs <;> rfl

/-- How a load ends. -/
def Loaded (l0 : Lib) (a : Nat) (d : GC) (p : List Sel) (r : List (Option (List Sel))) (o : Option GC) (x : RbOut Unit) : Prop :=
  match o with
  | some s => ∃ l', x = .ok l' () ∧ At l0 a (modAt p (fun _ => s) d) p r l'
  | none => ∃ l' s q, x = .raise l' ∧ At l0 a (modAt p (fun _ => s) d) (p ++ q) (below p r q) l'

theorem mset_getD {k : Bytes} {x : GC} {m : Entries} : mset k x (mset k notype m) = mset k x m := mset_mset k x notype m

theorem foldl_mset_mfind {k : Bytes} {m : Entries} {x : GC} {k' : Bytes} (h : k' ≠ k) (hm : mfind k' m = none) :
    mfind k' (mset k x m) = none := by rw [mfind_mset_other h]; exact hm

mutual
theorem fromHash_spec : ∀ (v : Rb) {l0 l : Lib} {a : Nat} {d g g0 : GC} {p : List Sel} {r : List (Option (List Sel))},
    v.Proper → Base v g → getAt p d = some g0 → At l0 a (modAt p (fun _ => g) d) p r l →
    Loaded l0 a d p r (image v) (fromHash v l)
  | .nil, l0, l, a, d, g, g0, p, r, _, hb, hd, h => by
    rcases hb with rfl | hb
    · exact ⟨l, rfl, h⟩
    · cases hb.2
  | .other, l0, l, a, d, g, g0, p, r, _, hb, hd, h => by
    rcases hb with rfl | hb
    · exact ⟨l, rfl, h⟩
    · cases hb.2
  | .tru, l0, l, a, d, g, g0, p, r, _, hb, hd, h => fromScalar rfl hd h
  | .fals, l0, l, a, d, g, g0, p, r, _, hb, hd, h => fromScalar rfl hd h
  | .int n, l0, l, a, d, g, g0, p, r, _, hb, hd, h => fromScalar rfl hd h
  | .float x, l0, l, a, d, g, g0, p, r, _, hb, hd, h => fromScalar rfl hd h
  | .str s, l0, l, a, d, g, g0, p, r, _, hb, hd, h => fromScalar rfl hd h
  | .sym s, l0, l, a, d, g, g0, p, r, _, hb, hd, h => fromScalar rfl hd h
  | .hash m, l0, l, a, d, g, g0, p, r, hp, hb, hd, h => by
    have hc := (call_guarded h (getAt_const g hd) (c := .setMap) (op := .setMap) rfl).1 (map []) (by
      have := hb.plain
      cases g <;> simp only [plain, Bool.false_eq_true] at this <;> rfl)
    rw [modAt_const _ _ hd] at hc
    obtain ⟨l', e1, e2⟩ := hc
    rw [fromHash, e1]
    show Loaded l0 a d p r (image (.hash m)) (fromEntries m l')
    rw [image]
    simp only [Rb.Proper] at hp
    exact fromEntries_spec m [] hp.1 hp.2 (fun _ _ => rfl) hd e2
  | .arr [], l0, l, a, d, g, g0, p, r, _, hb, hd, h => by
    have hc := (check_guarded h (getAt_const g hd) (c := .setEmptyVecBool) (op := .sizeVecBool 0) rfl).1 (vecBool []) (by
      have := hb.plain
      cases g <;> simp only [plain, Bool.false_eq_true] at this <;> rfl)
    rw [modAt_const _ _ hd] at hc
    obtain ⟨l', e1, e2⟩ := hc
    rw [fromHash]
    exact ⟨l', e1, e2⟩
  | .arr (x :: xs), l0, l, a, d, g, g0, p, r, hp, hb, hd, h => by
    simp only [Rb.Proper] at hp
    have hlen : xs.length + 1 < 2 ^ 31 := by simpa using hp.1
    have elems : ∀ {g l A B}, x :: xs = A ++ B → A.all Rb.isScalar = true → g.oldVector.length ≤ A.length →
        (∀ e ∈ g.oldVector, plain e = true) → At l0 a (modAt p (fun _ => g) d) p r l →
        Loaded l0 a d p r ((images (x :: xs)).map vector) (fromVector (xs.length + 1) (fromElems (x :: xs) 0) l) := by
      intro g l A B hl hA ho hpl h
      obtain ⟨l', e1, e2⟩ := fromVector_spec hd h hlen (fromElems (x :: xs) 0)
      obtain ⟨b1, b2⟩ := alloc_bases hl hA (List.cons_ne_nil _ _) ho hpl
      rw [e1]
      exact fromElems_spec (x :: xs) [] _ hp.2 b1 (by simpa using hlen) b2 hd e2
    rw [fromHash]
    cases hx : x.isScalar with
    | false =>
      rw [emptyCall_other hx]
      dsimp only
      rw [image]
      have h1 : leading (x :: xs) = [] := by simp [leading, hx]
      rw [if_neg (by simp [hx]), h1, if_neg (by simp)]
      exact elems (A := []) (B := x :: xs) rfl rfl (by rw [plain_oldVector hb.plain]; simp)
        (by rw [plain_oldVector hb.plain]; simp) h
    | true =>
      obtain ⟨c, op, c1, c2, c3⟩ := emptyCall_scalar hx
      have hc := (check_guarded h (getAt_const g hd) c2).1 (start x) (c3 g hb.plain)
      rw [modAt_const _ _ hd] at hc
      obtain ⟨l1, e1, e2⟩ := hc
      rw [c1]
      dsimp only
      rw [e1]
      show Loaded l0 a d p r (image (.arr (x :: xs))) (pushAll _ (x :: xs) l1)
      cases hall : (x :: xs).all Rb.isScalar with
      | true =>
        obtain ⟨p1, p2⟩ := pushAll_spec hd (fromVector (xs.length + 1) (fromElems (x :: xs) 0)) [] (x :: xs) e2 hall
          (room_start x (by simp only [List.length_cons]; omega))
        rw [List.append_nil] at p1 p2
        rw [image, if_pos hall]
        cases hfit : (x :: xs).all Rb.fits with
        | false =>
          rw [if_neg (by simp)]
          obtain ⟨l', s, q1, q2⟩ := p2 (pushList_refused _ hfit)
          exact ⟨l', s, [], q1, by rw [List.append_nil]; exact q2⟩
        | true =>
          rw [if_pos rfl]
          have hps := pushList_scalars hall hfit (by simp only [List.length_cons]; omega)
          cases hsc : scalars (x :: xs) with
          | none =>
            obtain ⟨l', s, q1, q2⟩ := p2 (by rw [hps, hsc])
            exact ⟨l', s, [], q1, by rw [List.append_nil]; exact q2⟩
          | some s =>
            obtain ⟨_, l', q1, q2⟩ := p1 s (by rw [hps, hsc])
            exact ⟨l', q1, q2⟩
      | false =>
        obtain ⟨y, ys, s1, s2, s3⟩ := leading_split hall
        have hlead : ∃ A, leading (x :: xs) = x :: A := ⟨_, by rw [leading, List.takeWhile_cons, if_pos hx]⟩
        obtain ⟨A, hA⟩ := hlead
        rw [hA] at s1 s3
        have hAl : (x :: A).length < 2 ^ 31 := by
          have := congrArg List.length s1
          simp only [List.length_cons, List.length_append] at this ⊢
          omega
        obtain ⟨p1, p2⟩ := pushAll_spec hd (fromVector (xs.length + 1) (fromElems (x :: xs) 0)) (y :: ys) (x :: A) e2 s3
          (room_start x (by omega))
        rw [← s1] at p1 p2
        rw [image, if_neg (by simp [hall]), hA]
        cases hfit : (x :: A).all Rb.fits with
        | false =>
          obtain ⟨l', s, q1, q2⟩ := p2 (pushList_refused _ hfit)
          have hno : images (x :: xs) = none := by
            rw [List.all_eq_false] at hfit
            obtain ⟨z, hz1, hz2⟩ := hfit
            refine images_none (x := z) (by rw [s1]; exact List.mem_append_left _ hz1) ?_
            rw [image_scalar (List.all_eq_true.1 s3 z hz1), if_neg hz2]
          rw [hno]
          have : (if ((x :: A).head?.any Rb.isText && (x :: A).any fun x => !x.isText) = true then none
            else Option.map vector none) = (none : Option GC) := by split <;> rfl
          rw [this]
          exact ⟨l', s, [], q1, by rw [List.append_nil]; exact q2⟩
        | true =>
          have hps := pushList_scalars s3 hfit (by omega)
          cases hsc : scalars (x :: A) with
          | none =>
            obtain ⟨l', s, q1, q2⟩ := p2 (by rw [hps, hsc])
            rw [if_pos (by simpa using scalars_none.1 hsc)]
            exact ⟨l', s, [], q1, by rw [List.append_nil]; exact q2⟩
          | some s =>
            obtain ⟨_, l', q1, q2⟩ := p1 s (by rw [hps, hsc])
            have hno : ¬(((x :: A).head?.any Rb.isText && (x :: A).any fun x => !x.isText) = true) := by
              intro hh
              rw [Bool.and_eq_true] at hh
              rw [scalars_none.2 hh] at hsc
              cases hsc
            rw [if_neg hno, q1]
            simp only [pushAll, pushArg_none s2]
            obtain ⟨b1, b2⟩ := scalars_elems hsc
            exact elems s1 s3 b1 b2 q2
theorem fromScalar {v : Rb} {l0 l : Lib} {a : Nat} {d g g0 : GC} {p : List Sel} {r : List (Option (List Sel))}
    (hs : v.isScalar = true) (hd : getAt p d = some g0) (h : At l0 a (modAt p (fun _ => g) d) p r l) :
    Loaded l0 a d p r (image v) (fromHash v l) := by
  rw [image_scalar hs, fromHash_scalar hs]
  cases hf : v.fits with
  | true =>
    obtain ⟨c, op, e1, e2, e3⟩ := setArg_fits hs hf
    have hc := (check_guarded h (getAt_const g hd) e2).1 _ (e3 g)
    rw [modAt_const _ _ hd] at hc
    rw [e1, if_pos rfl]
    exact hc
  | false =>
    rw [setArg_refused hs hf, if_neg (by simp)]
    exact ⟨l, g, [], rfl, by rw [List.append_nil]; exact h⟩
theorem fromElems_spec : ∀ (xs : List Rb) (done bs : List GC) {l0 l : Lib} {a : Nat} {d g0 : GC} {p : List Sel}
    {r : List (Option (List Sel))}, ProperList xs → bs.length = xs.length → done.length + xs.length < 2 ^ 31 →
    (∀ (j : Nat) x b, xs[j]? = some x → bs[j]? = some b → Base x b) → getAt p d = some g0 →
    At l0 a (modAt p (fun _ => vector (done ++ bs)) d) p r l →
    Loaded l0 a d p r ((images xs).map fun gs => vector (done ++ gs)) (fromElems xs done.length l)
  | [], done, bs, l0, l, a, d, g0, p, r, _, hl, _, _, hd, h => by
    rw [List.length_eq_zero_iff.1 hl] at h
    exact ⟨l, by rw [fromElems], h⟩
  | x :: xs, done, [], l0, l, a, d, g0, p, r, _, hl, _, _, hd, h => by cases hl
  | x :: xs, done, b :: bs, l0, l, a, d, g0, p, r, hp, hl, hn, hb, hd, h => by
    simp only [ProperList] at hp
    simp only [List.length_cons] at hn hl
    obtain ⟨l1, e1, e2⟩ := check_idx h (getAt_const _ hd) (i := done.length) (by simp) (by omega)
    rw [modAt_const _ _ hd] at e2
    have hV : modAt [.idx done.length] (fun _ => b) (vector (done ++ b :: bs)) = vector (done ++ b :: bs) := by
      simp [modAt]
    have hd1 : getAt (p ++ [.idx done.length]) (modAt p (fun _ => vector (done ++ b :: bs)) d) = some b := by
      rw [getAt_append, getAt_const _ hd]; simp [getAt]
    have ih := fromHash_spec x (l := l1) (g := b) hp.1 (hb 0 x b rfl rfl) hd1 (by rw [nest _ hd, hV]; exact e2)
    rw [fromElems, e1]
    show Loaded l0 a d p r _ ((fromHash x l1).bind _)
    simp only [images]
    cases hi : image x with
    | none =>
      rw [hi] at ih
      obtain ⟨l', s, q, i1, i2⟩ := ih
      rw [nest _ hd] at i2
      rw [i1]
      exact ⟨l', _, .idx done.length :: q, rfl, by simpa [below] using i2⟩
    | some s =>
      rw [hi] at ih
      obtain ⟨l2, i1, i2⟩ := ih
      rw [nest _ hd] at i2
      have hV2 : modAt [.idx done.length] (fun _ => s) (vector (done ++ b :: bs)) = vector ((done ++ [s]) ++ bs) := by
        simp [modAt]
      rw [hV2] at i2
      obtain ⟨l3, j1, j2⟩ := check_pop i2
      rw [i1]
      show Loaded l0 a d p r _ ((check .popHead l2).bind _)
      rw [j1]
      have := fromElems_spec xs (done ++ [s]) bs hp.2 (by omega) (by simp; omega)
        (fun j x b hx hb' => hb (j + 1) x b hx hb') hd j2
      simp only [List.length_append, List.length_singleton] at this
      show Loaded l0 a d p r _ (fromElems xs (done.length + 1) l3)
      cases hg : images xs with
      | none => rw [hg] at this; exact this
      | some gs => rw [hg] at this; simpa using this
theorem fromEntries_spec : ∀ (es : List (Bytes × Rb)) (m : Entries) {l0 l : Lib} {a : Nat} {d g0 : GC} {p : List Sel}
    {r : List (Option (List Sel))}, (es.map Prod.fst).Nodup → ProperEntries es → (∀ e ∈ es, mfind e.1 m = none) →
    getAt p d = some g0 → At l0 a (modAt p (fun _ => map m) d) p r l →
    Loaded l0 a d p r ((imageEntries es).map fun gs => map (gs.foldl (fun acc e => mset e.1 e.2 acc) m)) (fromEntries es l)
  | [], m, l0, l, a, d, g0, p, r, _, _, _, hd, h => ⟨l, by rw [fromEntries], h⟩
  | (k, v) :: es, m, l0, l, a, d, g0, p, r, hk, hp, hm, hd, h => by
    simp only [ProperEntries] at hp
    simp only [List.map_cons, List.nodup_cons] at hk
    rw [fromEntries, imageEntries]
    by_cases hz : (0 : Byte) ∈ k
    · rw [if_pos hz, ffiString, if_pos hz]
      exact ⟨l, _, [], rfl, by rw [List.append_nil]; exact h⟩
    · rw [if_neg hz, ffiString, if_neg hz]
      dsimp only
      obtain ⟨l1, e1, e2⟩ := check_key h (getAt_const _ hd) hz
      rw [modAt_const _ _ hd, hm (k, v) (.head _)] at e2
      simp only [Option.getD_none] at e2
      have hV : modAt [.key k] (fun _ => notype) (map (mset k notype m)) = map (mset k notype m) := by
        simp [modAt, mfind_mset_same, mset_mset]
      have hd1 : getAt (p ++ [.key k]) (modAt p (fun _ => map (mset k notype m)) d) = some notype := by
        rw [getAt_append, getAt_const _ hd]; simp [getAt, mfind_mset_same]
      have ih := fromHash_spec v (l := l1) (g := notype) hp.1 (.inl rfl) hd1 (by rw [nest _ hd, hV]; exact e2)
      rw [e1]
      show Loaded l0 a d p r _ ((fromHash v l1).bind _)
      cases hi : image v with
      | none =>
        rw [hi] at ih
        obtain ⟨l', s, q, i1, i2⟩ := ih
        rw [nest _ hd] at i2
        rw [i1]
        exact ⟨l', _, .key k :: q, rfl, by simpa [below] using i2⟩
      | some s =>
        rw [hi] at ih
        obtain ⟨l2, i1, i2⟩ := ih
        rw [nest _ hd] at i2
        have hV2 : modAt [.key k] (fun _ => s) (map (mset k notype m)) = map (mset k s m) := by
          simp [modAt, mfind_mset_same, mset_mset]
        rw [hV2] at i2
        obtain ⟨l3, j1, j2⟩ := check_pop i2
        rw [i1]
        show Loaded l0 a d p r _ ((check .popHead l2).bind _)
        rw [j1]
        have := fromEntries_spec es (mset k s m) hk.2 hp.2 (fun e he => by
          rw [mfind_mset_other]
          · exact hm e (.tail _ he)
          · intro hek
            exact hk.1 (List.mem_map.2 ⟨e, he, hek⟩)) hd j2
        show Loaded l0 a d p r _ (fromEntries es l3)
        cases hg : imageEntries es with
        | none => rw [hg] at this; exact this
        | some gs => rw [hg] at this; exact this
end

end Ruby
end GCV
