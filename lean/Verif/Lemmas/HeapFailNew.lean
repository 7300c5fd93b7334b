import Verif.Lemmas.HeapFailStep
import Verif.Lemmas.HeapCalls

/-! # Which allocation fails -/

namespace GCV
namespace Heap
open GC

variable {α β : Type} {m m' m1 m2 M : Mem} {g x y : GC} {c c' : Cell} {F F' G H : Addr → Prop} {d l : Loc}
  {a b D : Addr} {bad : Addr → Bool} {ip : Nat → Nat → Bool}

/-! ## No allocation fails -/

theorem newBoxO_false (n : Nat) (t : Ty) (B : Block) (l : Loc) (m : Mem) : newBoxO (fun _ => false) n t B l m =
    ((clearAt n l m).bind fun m _ => ((m.alloc B).write l (.box t m.next)).bind fun m' _ => .ok m' m.next).sure := by
  unfold newBoxO
  cases clearAt n l m with
  | ok m1 u =>
    simp only [Run.sure, ORun.bind, Run.bind, Bool.false_eq_true, if_false]
    cases (m1.alloc B).write l (.box t m1.next) <;> rfl
  | throw m1 => rfl
  | ub => rfl
  | fuel => rfl

theorem allocBoxO_false (n : Nat) (t : Ty) (B : Block) (l : Loc) (m : Mem) : allocBoxO (fun _ => false) n t B l m =
    (allocBox n t B l m).sure := by
  unfold allocBoxO allocBox
  cases m.read l with
  | none => rfl
  | some c =>
    cases c with
    | imm g => exact newBoxO_false ..
    | box t' a =>
      simp only
      split
      · rfl
      · exact newBoxO_false ..

theorem vecLoopO_sure {f' : Loc → Loc → Mem → ORun Unit} {f : Loc → Loc → Mem → Run Unit}
    (h : ∀ d s m, f' d s m = (f d s m).sure) : ∀ (k i : Nat) (m : Mem), vecLoopO f' b a i k m = (vecLoop f b a i k m).sure
  | 0, _, m => by
    rw [vecLoopO, vecLoop]
    cases m.blk a with
    | none => rfl
    | some B => cases B <;> rfl
  | k + 1, i, m => by
    rw [vecLoopO, vecLoop]
    cases m.blk a with
    | none => rfl
    | some B =>
      cases B with
      | vec cs =>
        simp only
        split
        · rw [h, sure_bind]
          congr 1
          funext m _
          exact vecLoopO_sure h k (i + 1) m
        · rfl
      | _ => rfl

theorem growLoopO_sure {f' : Loc → Loc → Mem → ORun Unit} {f : Loc → Loc → Mem → Run Unit} {fr : Cell → Mem → Run Unit}
    (h : ∀ d s m, f' d s m = (f d s m).sure) : ∀ (k i : Nat) (m : Mem),
    growLoopO fr f' b a i k m = (vecLoop f b a i k m).sure
  | 0, _, m => by
    rw [growLoopO, vecLoop]
    cases m.blk a with
    | none => rfl
    | some B => cases B <;> rfl
  | k + 1, i, m => by
    rw [growLoopO, vecLoop]
    cases m.blk a with
    | none => rfl
    | some B =>
      cases B with
      | vec cs =>
        simp only
        split
        · rw [h]
          cases f ⟨b, .idx i⟩ ⟨a, .idx i⟩ m with
          | ok m1 u => exact growLoopO_sure h k (i + 1) m1
          | throw m1 => rfl
          | ub => rfl
          | fuel => rfl
        · rfl
      | _ => rfl

theorem resizeO_false {f' : Loc → Loc → Mem → ORun Unit} {f : Loc → Loc → Mem → Run Unit} {fr : Cell → Mem → Run Unit}
    (h : ∀ d s m, f' d s m = (f d s m).sure) (sz : Nat) (m : Mem) :
    resizeO (fun _ => false) ip fr f' a sz m = (resizeF ip fr f a sz m).sure := by
  unfold resizeO resizeF
  cases m.blk a with
  | none => rfl
  | some B =>
    cases B with
    | vec cs =>
      simp only
      split
      · rw [sure_bind]; rfl
      split
      · rfl
      · simp only [Bool.false_eq_true, if_false]
        rw [growLoopO_sure h, sure_bind]
        congr 1
        funext m1 _
        rw [sure_bind]
        congr 1
        funext m2 _
        cases m2.blk m.next with
        | none => rfl
        | some B => cases B <;> rfl
    | _ => rfl

theorem mapLoopO_sure {f' : Loc → Loc → Mem → ORun Unit} {f : Loc → Loc → Mem → Run Unit}
    (h : ∀ d s m, f' d s m = (f d s m).sure) : ∀ (k i : Nat) (m : Mem), mapLoopO f' b a i k m = (mapLoop f b a i k m).sure
  | 0, _, m => by
    rw [mapLoopO, mapLoop]
    cases m.blk a with
    | none => rfl
    | some B => cases B <;> rfl
  | k + 1, i, m => by
    rw [mapLoopO, mapLoop]
    cases m.blk a with
    | none => rfl
    | some B =>
      cases B with
      | map es =>
        simp only
        cases es[i]? with
        | none => rfl
        | some p =>
          simp only
          rw [sure_bind]
          congr 1
          funext m _
          rw [h, sure_bind]
          congr 1
          funext m _
          exact mapLoopO_sure h k (i + 1) m
      | _ => rfl

theorem fromO_false (ip : Nat → Nat → Bool) : ∀ (n : Nat) (d s : Loc) (m : Mem),
    fromO (fun _ => false) ip n d s m = (fromF ip n d s m).sure
  | 0, _, _, _ => rfl
  | n + 1, d, s, m => by
    rw [fromO, fromF]
    cases m.read s with
    | none => rfl
    | some c =>
      cases c with
      | imm g => rfl
      | box t a =>
        have plain : ∀ t, ((allocBoxO (fun _ => false) n t (.leaf notype) d m).bind fun m b => (fillLeaf a b m).sure) =
            ((allocBox n t (.leaf notype) d m).bind fun m b => fillLeaf a b m).sure := by
          intro t
          rw [allocBoxO_false, sure_bind]
        cases t with
        | COMPLEX =>
          simp only
          rw [newBoxO_false]
          cases clearAt n d m with
          | ok m1 u =>
            simp only [Run.bind]
            cases (m1.alloc (.leaf notype)).write d (.box .COMPLEX m1.next) with
            | ok m2 u =>
              simp only [Run.sure, ORun.bind, Run.bind]
              cases m2.blk a with
              | none => rfl
              | some B => cases B <;> rfl
            | throw m2 => rfl
            | ub => rfl
            | fuel => rfl
          | throw m1 => rfl
          | ub => rfl
          | fuel => rfl
        | VECTOR =>
          simp only
          rw [allocBoxO_false, sure_bind]
          congr 1
          funext m1 b
          cases m1.read s with
          | none => rfl
          | some c =>
            cases c with
            | imm g => rfl
            | box t a =>
              cases t <;> try rfl
              simp only
              cases m1.blk a with
              | none => rfl
              | some B =>
                cases B <;> try rfl
                simp only
                rw [sure_bind]
                have : ∀ n' : Nat, (if 0 < n' then resizeO (fun _ => false) ip (freeF n) (fromO (fun _ => false) ip n) b n' m1
                    else ORun.ok m1 ()) = (if 0 < n' then resizeF ip (freeF n) (fromF ip n) b n' m1 else .ok m1 ()).sure := by
                  intro n'
                  split
                  · exact resizeO_false (fromO_false ip n) _ _
                  · rfl
                rw [this]
                congr 1
                funext m2 _
                exact vecLoopO_sure (fromO_false ip n) _ _ _
        | MAP =>
          simp only
          rw [allocBoxO_false, sure_bind]
          congr 1
          funext m1 b
          cases m1.read s with
          | none => rfl
          | some c =>
            cases c with
            | imm g => rfl
            | box t a =>
              cases t <;> try rfl
              simp only
              cases m1.blk a with
              | none => rfl
              | some B =>
                cases B <;> try rfl
                exact mapLoopO_sure (fromO_false ip n) _ _ _
        | _ => exact plain _

theorem atO_false {s : St} {x : Place} {f' : Loc → Mem → ORun Unit} {f : Loc → Mem → Run Unit}
    (h : ∀ d m, f' d m = (f d m).sure) : s.atO x f' = (s.at x f).sure := by
  unfold St.atO St.at
  cases s.loc x with
  | none => rfl
  | some l => simp only; rw [h, sure_bind]; rfl

theorem stepO_false (ip : Nat → Nat → Bool) (n : Nat) (s : St) (op : POp) :
    s.stepO (fun _ => false) ip n op = (s.step ip n op).sure := by
  cases op with
  | construct x => rfl
  | destroy x => rfl
  | clear x => rfl
  | erase x k => rfl
  | copyConstruct x y =>
    simp only [St.stepO, St.step]
    cases s.env x with
    | some a => rfl
    | none =>
      cases s.loc y with
      | none => rfl
      | some l =>
        simp only [fromO_false]
        cases fromF ip n ⟨s.mem.next, .var⟩ l (s.mem.alloc (.var (.imm notype))) <;> rfl
  | set x v =>
    refine atO_false fun d m => ?_
    cases v <;> first
      | rfl
      | (simp only [setO, setF]
         rw [newBoxO_false]
         cases clearAt n d m with
         | ok m1 u => simp only [Run.bind]; cases (m1.alloc (.leaf (.complex _))).write d (.box .COMPLEX m1.next) <;> rfl
         | throw m1 => rfl
         | ub => rfl
         | fuel => rfl)
      | (simp only [setO, setF]
         rw [allocBoxO_false, sure_bind]
         congr 1
         funext m1 b
         cases m1.blk b with
         | none => rfl
         | some B =>
           cases B with
           | leaf old => simp only; generalize from_gc _ old = r; cases r <;> rfl
           | _ => rfl)
  | setVector x k =>
    refine atO_false fun d m => ?_
    rw [setVectorO, setVectorF, allocBoxO_false, sure_bind]
    congr 1
    funext m1 b
    split
    · exact resizeO_false (fromO_false ip n) _ _
    · rfl
  | setMap x =>
    refine atO_false fun d m => ?_
    rw [setMapO, setMapF, allocBoxO_false, sure_bind]; rfl
  | idx x i =>
    refine atO_false fun d m => ?_
    rw [idxO, idxF, allocBoxO_false, sure_bind]
    congr 1
    funext m1 b
    cases m1.blk b with
    | none => rfl
    | some B =>
      cases B with
      | vec cs =>
        simp only
        split
        · exact resizeO_false (fromO_false ip n) _ _
        · rfl
      | _ => rfl
  | key x k =>
    refine atO_false fun d m => ?_
    rw [keyO, keyF, allocBoxO_false, sure_bind]
  | assign x y =>
    simp only [St.stepO, St.step]
    cases s.loc y with
    | none => rfl
    | some l => exact atO_false fun d m => fromO_false ip n d l m

/-! ## The payload of a new tag -/

/-- The call fails at the first `new`. -/
def OpNew (bad : Addr → Bool) (f' : Loc → Mem → ORun Unit) (g : GC) : Prop :=
  ∀ m d c F, Wf m → m.read d = some c → Rep m g c F → ¬ F d.addr → bad m.next = true →
    ∃ m' M g0 t, f' d m = .oom m' ∧ Upd m M d (.box t m.next) F (fun b => b = m.next) ∧
      Rep M g0 (.box t m.next) (fun b => b = m.next) ∧ Torn m.next m' M (some m.next) ∧ ∀ b, m.blk b = none → m'.blk b = none

theorem ty_ne {t : Ty} (hg : Rep m g c F) (ht : g.ty ≠ t) : ∀ a, c ≠ .box t a := by
  rintro a rfl
  exact ht (rep_ty hg).symm

theorem opNew_box {n : Nat} {t : Ty} {B gB : Block} {g0 : GC} (hn : sizeOf g ≤ n) {k : Mem → Addr → ORun Unit}
    (hgB : ∀ (M : Mem) a, M.blk a = some gB → Rep M g0 (.box t a) (fun b => b = a)) :
    OpNew bad (fun d m => (newBoxO bad n t B d m).bind k) g := by
  intro m d c F hw hr hg hd hbad
  have := newBoxO_spec (bad := bad) (B := B) hw hr hg hn hd hgB
  rw [if_pos hbad] at this
  obtain ⟨m', M, h1, h2, h3, h4⟩ := this
  exact ⟨m', M, g0, t, by simp only [h1, ORun.bind], h2, h3, h4⟩

theorem opNew_alloc {n : Nat} {t : Ty} {B gB : Block} {g0 : GC} (hn : sizeOf g ≤ n) (ht : g.ty ≠ t)
    {k : Mem → Addr → ORun Unit} (hgB : ∀ (M : Mem) a, M.blk a = some gB → Rep M g0 (.box t a) (fun b => b = a)) :
    OpNew bad (fun d m => (allocBoxO bad n t B d m).bind k) g := by
  intro m d c F hw hr hg hd hbad
  have := opNew_box (bad := bad) (B := B) (k := k) hn hgB m d c F hw hr hg hd hbad
  simp only [(allocBoxO_new (bad := bad) (n := n) (t := t) (B := B) hr (ty_ne hg ht)).1]
  exact this

theorem Holds.opNew {s : St} {E : Vals} {x : Place} {f' : Loc → Mem → ORun Unit}
    (h : Holds s E) (hx : E.get x = some g) (hf : OpNew bad f' g) (hbad : bad s.mem.next = true) :
    ∃ m', s.atO x f' = .oom m' ∧ Broken ⟨m', s.env⟩ x.var ∧
      (∀ z gz, z ≠ x.var → E z = some gz → HoldsVar ⟨m', s.env⟩ z gz) ∧ ∀ b, s.mem.blk b = none → m'.blk b = none := by
  obtain ⟨g0, ax, cx, Fx, l, c1, G1, hEx, hpx, hex, hrx, hRx, hnx, hresx, hlx, hrd, hRd, hsub, hnd, hin, hput⟩ := h.place hx
  obtain ⟨m', M, g1, t, h1, h2, h3, h4, h5⟩ := hf _ _ _ _ h.1 hrd hRd hnd hbad
  obtain ⟨k1, _, k3⟩ := h.torn hx hlx hrd hRd h2 (hput M g1 _ _ h2 h3) h4
  exact ⟨m', by simp only [St.atO, hlx, h1, ORun.bind], k3 (by simp), k1, h5⟩

/-! ## A vector that cannot grow -/

/-- `allocBoxO` when it does not fail. -/
theorem allocBoxO_ok {n : Nat} {t : Ty} {B : Block} (hw : Wf m) (hr : m.read d = some c)
    (hg : Rep m g c F) (hn : sizeOf g ≤ n) (hFd : ¬ F d.addr) (hok : g.ty = t ∨ bad m.next = false)
    (ht : g.ty = t → ∃ a, c = .box t a) :
    allocBoxO bad n t B d m = (allocBox n t B d m).sure := by
  by_cases h : ∃ a, c = .box t a
  · obtain ⟨a, rfl⟩ := h
    simp [allocBoxO, allocBox, hr, Run.sure]
  · obtain ⟨h1, h2⟩ := allocBoxO_new (bad := bad) (n := n) (t := t) (B := B) hr fun a e => h ⟨a, e⟩
    have hb : bad m.next = false := hok.resolve_left fun e => h (ht e)
    rw [h1, h2]
    obtain ⟨m1, he1, hu1, hn1, hr1⟩ := clearAt_spec hw hr hg hn hFd
    simp only [newBoxO, he1, Run.sure, ORun.bind, Run.bind, hn1, hb, Bool.false_eq_true, if_false]
    rw [← hn1]
    cases (m1.alloc B).write d (.box t m1.next) <;> rfl

theorem rep_hasbox {t : Ty} (hg : Rep m g c F) (h : immediate g = false) : g.ty = t → ∃ a, c = .box t a := by
  rintro rfl
  cases g with
  | vector v => obtain ⟨a, rfl, _⟩ := rep_vector_box hg; exact ⟨a, rfl⟩
  | map v => obtain ⟨a, rfl, _⟩ := rep_map_box hg; exact ⟨a, rfl⟩
  | _ =>
    first
      | (simp [immediate] at h; done)
      | (obtain ⟨a, rfl, _⟩ := (rep_box (by simp) (by simp) rfl).1 hg; exact ⟨a, rfl⟩)

theorem boxed_vector (hg : Rep m g c F) : g.ty = .VECTOR → ∃ a, c = .box .VECTOR a := fun h =>
  rep_hasbox hg (by cases g <;> simp_all [GC.ty, immediate]) h

theorem boxed_map (hg : Rep m g c F) : g.ty = .MAP → ∃ a, c = .box .MAP a := fun h =>
  rep_hasbox hg (by cases g <;> simp_all [GC.ty, immediate]) h

theorem opKeep_setVector {n k : Nat} (hn : sizeOf g + 1 < n) (hw' : WF g) (hf : Fits g) :
    ∀ m d c F, Wf m → m.read d = some c → Rep m g c F → ¬ F d.addr → (g.ty = .VECTOR ∨ bad m.next = false) →
      Either (setVectorO bad ip n d k m) (setVectorF ip n d k m) (fun m' =>
        ∃ M c' F', Upd m M d c' F F' ∧ Rep M (vector g.oldVector) c' F' ∧ Torn m.next m' M none) := by
  intro m d c F hw hr hg hd hok
  obtain ⟨m1, b, F1, he1, hu1, hr1⟩ := allocVector_spec hw hr hg (n := n) (by omega) hd
  have hw1 := hu1.wf hw (hg.lt hw)
  rw [setVectorO, setVectorF, allocBoxO_ok hw hr hg (by omega) hd hok (boxed_vector hg), he1]
  simp only [Run.sure, ORun.bind, Run.bind]
  split
  · rcases resizeO_spec (bad := bad) (ip := ip) (sz := k) hw1 hr1
      (by have := sizeOf_oldVector_le g; omega : sizeOf g.oldVector ≤ n) (old_ok hn hw' hf) with h | ⟨m', h, M, k1, k2, k3⟩
    · exact Or.inl h
    · exact Or.inr ⟨m', h, M, _, F1, hu1.trans (k1.upd hw1 (hu1.read hr) (upd_not hw hu1 hr hd)) (read_lt hw hr) hd (hg.lt hw),
        k2, k3.mono hu1.mono⟩
  · exact Or.inl rfl

theorem opKeep_idx {n i : Nat} (hn : sizeOf g + 1 < n) (hw' : WF g) (hf : Fits g) :
    ∀ m d c F, Wf m → m.read d = some c → Rep m g c F → ¬ F d.addr → (g.ty = .VECTOR ∨ bad m.next = false) →
      Either (idxO bad ip n d i m) (idxF ip n d i m) (fun m' =>
        ∃ M c' F', Upd m M d c' F F' ∧ Rep M (vector g.oldVector) c' F' ∧ Torn m.next m' M none) := by
  intro m d c F hw hr hg hd hok
  obtain ⟨m1, b, F1, he1, hu1, hr1⟩ := allocVector_spec hw hr hg (n := n) (by omega) hd
  have hw1 := hu1.wf hw (hg.lt hw)
  rw [idxO, idxF, allocBoxO_ok hw hr hg (by omega) hd hok (boxed_vector hg), he1]
  simp only [Run.sure, ORun.bind, Run.bind]
  obtain ⟨b', cs, G, hc, hb, hG, _, _⟩ := id hr1
  injection hc with _ hc
  subst hc
  simp only [hb]
  split
  · rcases resizeO_spec (bad := bad) (ip := ip) (sz := u32 (i + 1)) hw1 hr1
      (by have := sizeOf_oldVector_le g; omega : sizeOf g.oldVector ≤ n) (old_ok hn hw' hf) with h | ⟨m', h, M, k1, k2, k3⟩
    · exact Or.inl h
    · exact Or.inr ⟨m', h, M, _, F1, hu1.trans (k1.upd hw1 (hu1.read hr) (upd_not hw hu1 hr hd)) (read_lt hw hr) hd (hg.lt hw),
        k2, k3.mono hu1.mono⟩
  · exact Or.inl rfl

theorem Holds.keep {s : St} {E : Vals} {x : Place} {g1 : GC} {f' : Loc → Mem → ORun Unit} {f : Loc → Mem → Run Unit}
    (h : Holds s E) (hx : E.get x = some g)
    (hf : ∀ d c F, s.mem.read d = some c → Rep s.mem g c F → ¬ F d.addr → Either (f' d s.mem) (f d s.mem) (fun m' =>
      ∃ M c' F', Upd s.mem M d c' F F' ∧ Rep M g1 c' F' ∧ Torn s.mem.next m' M none)) :
    Either (s.atO x f') (s.at x f) (fun m' => ∀ z gz, E.put x g1 z = some gz → HoldsVar ⟨m', s.env⟩ z gz) := by
  obtain ⟨g0, ax, cx, Fx, l, c1, G1, hEx, hpx, hex, hrx, hRx, hnx, hresx, hlx, hrd, hRd, hsub, hnd, hin, hput⟩ := h.place hx
  simp only [St.atO, St.at, hlx]
  refine (hf l c1 G1 hrd hRd hnd).bind ?_ fun m1 _ _ => Or.inl rfl
  rintro m' ⟨M, c', F', h1, h2, h3⟩
  exact (h.torn hx hlx hrd hRd h1 (hput M g1 _ _ h1 h2) h3).2.1 rfl

/-! ## `set`, `setMap`, `key`, `assign` -/

theorem setO_plain {n : Nat} {gs : GC} (hp : plainBox gs = true) (d : Loc) (m : Mem) :
    setO bad n d gs m = (allocBoxO bad n gs.ty (.leaf notype) d m).bind fun m b =>
      match m.blk b with
      | some (.leaf old) =>
        match from_gc gs old with
        | .ok g' => .ok (m.upd b (some (.leaf g'))) ()
        | _ => .ub
      | _ => .ub := by
  cases gs <;> first
    | (simp [plainBox] at hp; done)
    | rfl

theorem opNew_set {n : Nat} {gs g : GC} (hn : sizeOf g ≤ n) (h1 : ∀ v, gs ≠ vector v) (h2 : ∀ e, gs ≠ map e)
    (h3 : immediate gs = false) (ht : g.ty ≠ gs.ty ∨ gs.ty = .COMPLEX) : OpNew bad (fun l => setO bad n l gs) g := by
  by_cases hp : plainBox gs = true
  · have ht' : g.ty ≠ gs.ty := by
      rcases ht with h | h
      · exact h
      · cases gs <;> simp_all [GC.ty, plainBox]
    intro m d c F hw hr hg hd hbad
    simp only [setO_plain hp d m]
    exact opNew_alloc (B := .leaf notype) hn ht' (ghost_leaf h1 h2 h3) m d c F hw hr hg hd hbad
  · cases gs with
    | complex z => exact opNew_box (B := .leaf (complex z)) hn (ghost_leaf (gs := complex z) (by simp) (by simp) rfl)
    | vector v => exact absurd rfl (h1 v)
    | map v => exact absurd rfl (h2 v)
    | _ =>
      first
        | (simp [plainBox] at hp; done)
        | (simp [immediate] at h3; done)

theorem setO_ok {n : Nat} {gs g : GC} (hn : sizeOf g ≤ n) (hw : Wf m) (hr : m.read d = some c)
    (hg : Rep m g c F) (hd : ¬ F d.addr)
    (ht : immediate gs = true ∨ (g.ty = gs.ty ∧ gs.ty ≠ .COMPLEX) ∨ bad m.next = false) :
    setO bad n d gs m = (setF n d gs m).sure := by
  by_cases hp : plainBox gs = true
  · rw [setO_plain hp, setF_plain hp]
    have hi : immediate gs = false := by cases gs <;> simp_all [plainBox, immediate]
    rw [allocBoxO_ok hw hr hg hn hd]
    · rw [sure_bind]
      congr
      funext m1 b
      cases m1.blk b with
      | none => rfl
      | some B =>
        cases B with
        | leaf old => simp only; cases from_gc gs old <;> rfl
        | _ => rfl
    · rcases ht with h | h | h
      · rw [hi] at h; simp at h
      · exact Or.inl h.1
      · exact Or.inr h
    · intro e
      refine rep_hasbox hg ?_ e
      cases g <;> cases gs <;> simp_all [plainBox, immediate, GC.ty]
  · cases gs with
    | complex z =>
      have hb : bad m.next = false := by
        rcases ht with h | h | h
        · simp [immediate] at h
        · exact absurd rfl h.2
        · exact h
      have := newBoxO_spec (bad := bad) (B := .leaf (complex z)) hw hr hg hn hd
        (ghost_leaf (gs := complex z) (by simp) (by simp) rfl)
      rw [if_neg (by simp [hb])] at this
      simp only [setO]
      rw [show complex z = complex z from rfl]
      simp only [GC.ty] at this
      rw [this, setF]
      cases clearAt n d m with
      | ok m1 u =>
        simp only [Run.bind]
        cases (m1.alloc (.leaf (complex z))).write d (.box .COMPLEX m1.next) <;> rfl
      | throw m1 => rfl
      | ub => rfl
      | fuel => rfl
    | vector v => rfl
    | map v => rfl
    | _ =>
      first
        | (simp [plainBox] at hp; done)
        | rfl

theorem setMapO_ok {n : Nat} (hn : sizeOf g ≤ n) (hw : Wf m) (hr : m.read d = some c)
    (hg : Rep m g c F) (hd : ¬ F d.addr) (ht : g.ty = .MAP ∨ bad m.next = false) :
    setMapO bad n d m = (setMapF n d m).sure := by
  rw [setMapO, setMapF, allocBoxO_ok hw hr hg hn hd ht (boxed_map hg), sure_bind]
  rfl

theorem keyO_ok {n : Nat} (hn : sizeOf g ≤ n) (hw : Wf m) (hr : m.read d = some c)
    (hg : Rep m g c F) (hd : ¬ F d.addr) (ht : g.ty = .MAP ∨ bad m.next = false) (k : Bytes) :
    keyO bad n d k m = (keyF n d k m).sure := by
  rw [keyO, keyF, allocBoxO_ok hw hr hg hn hd ht (boxed_map hg), sure_bind]

theorem fromO_new {n : Nat} {gs gd : GC} (hn : sizeOf gd ≤ n) (P : Pair m d s gs gd cs cd Fs Fd) (h3 : immediate gs = false)
    (ht : gd.ty ≠ gs.ty ∨ gs.ty = .COMPLEX) (hbad : bad m.next = true) :
    ∃ m' M g0 t, fromO bad ip (n + 1) d s m = .oom m' ∧ Upd m M d (.box t m.next) Fd (fun b => b = m.next) ∧
      Rep M g0 (.box t m.next) (fun b => b = m.next) ∧ Torn m.next m' M (some m.next) ∧
      ∀ b, m.blk b = none → m'.blk b = none := by
  by_cases hp : plainBox gs = true
  · have ht' : gd.ty ≠ gs.ty := by
      rcases ht with h | h
      · exact h
      · cases gs <;> simp_all [GC.ty, plainBox]
    obtain ⟨a, rfl, ha, hFs⟩ := (rep_plain hp).1 P.srcRep
    have h1 : ∀ v, gs ≠ vector v := by rintro v rfl; simp [plainBox] at hp
    have h2 : ∀ v, gs ≠ map v := by rintro v rfl; simp [plainBox] at hp
    have : fromO bad ip (n + 1) d s m = (allocBoxO bad n gs.ty (.leaf notype) d m).bind fun m b => (fillLeaf a b m).sure := by
      have hr := P.src
      cases gs <;> first
        | (simp [plainBox] at hp; done)
        | (simp only [GC.ty] at hr; simp only [fromO, hr, GC.ty]; done)
    rw [this]
    exact opNew_alloc (B := .leaf notype) (k := fun m b => (fillLeaf a b m).sure) hn ht' (ghost_leaf h1 h2 h3)
      m d cd Fd P.wf P.dst P.dstRep P.fdd hbad
  · have hsrc := P.src
    cases gs with
    | complex z =>
      obtain ⟨a, rfl, ha, hFs⟩ := (rep_box (by simp) (by simp) rfl).1 P.srcRep
      simp only [GC.ty] at hsrc
      simp only [fromO, hsrc]
      exact opNew_box (B := .leaf notype) hn (ghost_leaf (gs := complex z) (by simp) (by simp) rfl)
        m d cd Fd P.wf P.dst P.dstRep P.fdd hbad
    | vector v =>
      obtain ⟨a, rfl, _⟩ := rep_vector_box P.srcRep
      simp only [fromO, hsrc]
      exact opNew_alloc (t := .VECTOR) (B := .vec []) hn (ht.resolve_right (by simp [GC.ty])) ghost_vector
        m d cd Fd P.wf P.dst P.dstRep P.fdd hbad
    | map v =>
      obtain ⟨a, rfl, _⟩ := rep_map_box P.srcRep
      simp only [fromO, hsrc]
      exact opNew_alloc (t := .MAP) (B := .map []) hn (ht.resolve_right (by simp [GC.ty])) ghost_map
        m d cd Fd P.wf P.dst P.dstRep P.fdd hbad
    | _ =>
      first
        | (simp [plainBox] at hp; done)
        | (simp [immediate] at h3; done)

theorem fromO_ok {n : Nat} {gs gd : GC} (hn : sizeOf gd ≤ n) (P : Pair m d s gs gd cs cd Fs Fd)
    (h1 : gs.ty ≠ .VECTOR) (h2 : gs.ty ≠ .MAP)
    (ht : immediate gs = true ∨ (gd.ty = gs.ty ∧ gs.ty ≠ .COMPLEX) ∨ bad m.next = false) :
    fromO bad ip (n + 1) d s m = (fromF ip (n + 1) d s m).sure := by
  have hsrc := P.src
  by_cases hi : immediate gs = true
  · obtain ⟨rfl, hFs⟩ := (rep_imm hi).1 P.srcRep
    simp only [fromO, fromF, P.src]
  by_cases hp : plainBox gs = true
  · obtain ⟨a, rfl, ha, hFs⟩ := (rep_plain hp).1 P.srcRep
    have : fromO bad ip (n + 1) d s m = (allocBoxO bad n gs.ty (.leaf notype) d m).bind fun m b => (fillLeaf a b m).sure := by
      have hr := P.src
      cases gs <;> first
        | (simp [plainBox] at hp; done)
        | (simp only [GC.ty] at hr; simp only [fromO, hr, GC.ty]; done)
    rw [this, fromF_plain hp P.src, allocBoxO_ok P.wf P.dst P.dstRep hn P.fdd, sure_bind]
    · rcases ht with h | h | h
      · exact absurd h hi
      · exact Or.inl h.1
      · exact Or.inr h
    · intro e
      refine rep_hasbox P.dstRep ?_ e
      clear hsrc P this ht h1 h2
      cases gd <;> cases gs <;> simp_all [plainBox, immediate, GC.ty]
  · cases gs with
    | complex z =>
      have hb : bad m.next = false := by
        rcases ht with h | h | h
        · simp [immediate] at h
        · exact absurd rfl h.2
        · exact h
      obtain ⟨a, rfl, ha, hFs⟩ := (rep_box (by simp) (by simp) rfl).1 P.srcRep
      have := newBoxO_spec (bad := bad) (B := .leaf notype) P.wf P.dst P.dstRep hn P.fdd
        (ghost_leaf (gs := complex z) (by simp) (by simp) rfl)
      rw [if_neg (by simp [hb])] at this
      simp only [GC.ty] at this hsrc
      simp only [fromO, fromF, hsrc, this]
      cases clearAt n d m with
      | ok m1 u =>
        simp only [Run.bind]
        cases (m1.alloc (.leaf notype)).write d (.box .COMPLEX m1.next) with
        | ok m2 u =>
          simp only [Run.sure, ORun.bind, Run.bind]
          cases m2.blk a with
          | none => rfl
          | some B => cases B <;> rfl
        | throw m2 => rfl
        | ub => rfl
        | fuel => rfl
      | throw m1 => rfl
      | ub => rfl
      | fuel => rfl
    | vector v => exact absurd rfl h1
    | map v => exact absurd rfl h2
    | _ =>
      first
        | (simp [plainBox] at hp; done)
        | (simp [immediate] at hi; done)

theorem Holds.atO_ok {s : St} {E : Vals} {x : Place} {f' : Loc → Mem → ORun Unit} {f : Loc → Mem → Run Unit}
    (h : Holds s E)
    (hf : ∀ g d c F, E.get x = some g → s.mem.read d = some c → Rep s.mem g c F → ¬ F d.addr →
      f' d s.mem = (f d s.mem).sure) : s.atO x f' = (s.at x f).sure := by
  cases hx : E.get x with
  | none => simp only [St.atO, St.at, h.loc_none hx]; rfl
  | some g =>
    obtain ⟨g0, ax, cx, Fx, l, c1, G1, hEx, hpx, hex, hrx, hRx, hnx, hresx, hlx, hrd, hRd, hsub, hnd, hin, hput⟩ := h.place hx
    simp only [St.atO, St.at, hlx, hf g l c1 G1 hx hrd hRd hnd]
    cases f l s.mem <;> rfl

/-! ## A vector of simple elements that cannot grow -/

/-- A copy that fails changes nothing but its destination. -/
def CleanFail (f' : Loc → Loc → Mem → ORun Unit) (x : GC) : Prop :=
  ∀ m d s cs cd Fs Fd m', Pair m d s x notype cs cd Fs Fd → f' d s m = .oom m' → ∀ b, b ≠ d.addr → m'.blk b = m.blk b

theorem newBoxO_clean {n : Nat} {t : Ty} {B : Block} (hr : m.read d = some (.imm notype))
    {k : Mem → Addr → Run Unit} (h : ((newBoxO bad n t B d m).bind fun m b => (k m b).sure) = .oom m') :
    ∀ b, b ≠ d.addr → m'.blk b = m.blk b := by
  obtain ⟨B0, hB0, hget⟩ := read_some hr
  have hc : clearAt n d m = .ok (m.upd d.addr (some (B0.put d.slot (.imm notype)))) () := by
    have : freeF n (.imm notype) m = .ok m () := by cases n <;> rfl
    simp only [clearAt, hr, this, Run.bind, Mem.write, hB0, hget]
  let m1 := m.upd d.addr (some (B0.put d.slot (.imm notype)))
  have hw : ∀ (m2 : Mem) (c : Cell), m2.blk d.addr = m1.blk d.addr →
      ∃ B', m2.write d c = .ok (m2.upd d.addr (some B')) () := fun m2 c h => by
    refine ⟨(B0.put d.slot (.imm notype)).put d.slot c, ?_⟩
    rw [Mem.write, h, show m1.blk d.addr = some (B0.put d.slot (.imm notype)) from by rw [blk_upd, if_pos rfl]]
    simp only [get_put (.imm notype) hget]
  by_cases hbad : bad m1.next = true
  · obtain ⟨B', hB'⟩ := hw m1.skip (.box t m1.next) rfl
    have : newBoxO bad n t B d m = .oom (m1.skip.upd d.addr (some B')) := by
      rw [newBoxO, hc]
      show (if bad m1.next then (m1.skip.write d (.box t m1.next)).sure.bind fun m _ => .oom m else _) = _
      rw [if_pos hbad, hB']
      rfl
    rw [this] at h
    have e : m1.skip.upd d.addr (some B') = m' := by injection h
    subst e
    intro b hb
    rw [blk_upd, if_neg hb]
    show (m.upd d.addr _).blk b = _
    rw [blk_upd, if_neg hb]
  · have : ∃ r : Run Addr, newBoxO bad n t B d m = r.sure := by
      refine ⟨((m1.alloc B).write d (.box t m1.next)).bind fun m' _ => .ok m' m1.next, ?_⟩
      rw [newBoxO, hc]
      show (if bad m1.next then _ else ((m1.alloc B).write d (.box t m1.next)).sure.bind fun m' _ => .ok m' m1.next) = _
      rw [if_neg hbad]
      cases (m1.alloc B).write d (.box t m1.next) <;> rfl
    obtain ⟨r, hr⟩ := this
    rw [hr, ← sure_bind] at h
    generalize r.bind k = r' at h
    cases r' <;> simp [Run.sure] at h

theorem cleanFail_fromO {n : Nat} {x : GC} (h1 : x.ty ≠ .VECTOR) (h2 : x.ty ≠ .MAP) : CleanFail (fromO bad ip n) x := by
  intro m d s cs cd Fs Fd m' P h
  cases n with
  | zero => simp [fromO] at h
  | succ n =>
  obtain ⟨rfl, _⟩ := (rep_imm rfl).1 P.dstRep
  have hsrc := P.src
  by_cases hi : immediate x = true
  · obtain ⟨rfl, hFs⟩ := (rep_imm hi).1 P.srcRep
    simp only [fromO, hsrc] at h
    generalize ((clearAt n d m).bind fun m _ => m.write d (.imm x)) = r at h
    cases r <;> simp [Run.sure] at h
  by_cases hp : plainBox x = true
  · obtain ⟨a, rfl, ha, hFs⟩ := (rep_plain hp).1 P.srcRep
    have : fromO bad ip (n + 1) d s m = (allocBoxO bad n x.ty (.leaf notype) d m).bind fun m b => (fillLeaf a b m).sure := by
      have hr := P.src
      cases x <;> first
        | (simp [plainBox] at hp; done)
        | (simp only [GC.ty] at hr; simp only [fromO, hr, GC.ty]; done)
    rw [this, (allocBoxO_new (bad := bad) (n := n) (t := x.ty) (B := .leaf notype) P.dst (by simp)).1] at h
    exact newBoxO_clean P.dst h
  · cases x with
    | complex z =>
      obtain ⟨a, rfl, ha, hFs⟩ := (rep_box (by simp) (by simp) rfl).1 P.srcRep
      simp only [GC.ty] at hsrc
      simp only [fromO, hsrc] at h
      refine newBoxO_clean (k := fun m b => match m.blk a with
        | some (.leaf g) => .ok (m.upd b (some (.leaf g))) ()
        | _ => .ub) P.dst ((congrArg _ ?_).trans h)
      funext m b
      cases m.blk a with
      | none => rfl
      | some B => cases B <;> rfl
    | vector v => exact absurd rfl h1
    | map v => exact absurd rfl h2
    | _ =>
      first
        | (simp [plainBox] at hp; done)
        | (simp [immediate] at hi; done)

theorem repL_empty : ∀ {k : Nat} {cs : List Cell} {F : Addr → Prop}, RepL m (List.replicate k notype) cs F → ∀ x, ¬ F x
  | 0, _, _, h => h.2
  | k + 1, _, _, ⟨_, _, _, _, _, hc, hL, _, hF⟩ => fun x hx => by
    rcases (hF x).1 hx with h | h
    · exact ((rep_imm rfl).1 hc).2 x h
    · exact repL_empty hL x h

theorem growLoopO_clean {f' : Loc → Loc → Mem → ORun Unit} {f : Loc → Loc → Mem → Run Unit} {v : List GC} {n : Nat}
    (hn : sizeOf v ≤ n) : ∀ (k i j : Nat) (m m' : Mem)
    (Fs Fb : Addr → Prop), Wf m → i + k = v.length → k ≤ j → Rep m (vector v) (.box .VECTOR a) Fs →
    Rep m (vector (v.take i ++ List.replicate j notype)) (.box .VECTOR b) Fb → (∀ x, Fs x → ¬ Fb x) →
    (∀ x ∈ v, from_gc x notype = .ok x ∧ FromOk f x notype ∧ FailOk f' f x notype ∧ CleanFail f' x) →
    growLoopO (freeF n) f' b a i k m = .oom m' →
    ∀ x, (¬ Fb x → m'.blk x = m.blk x) ∧ (Fb x → m'.blk x = none)
  | 0, i, j, m, m', Fs, Fb, hw, hik, hkj, hv, hb, hdis, hf, h => by
    obtain ⟨a', cs, _, hc, ha, _⟩ := hv
    injection hc with _ hc
    subst hc
    rw [growLoopO, ha] at h
    simp at h
  | k + 1, i, 0, m, m', Fs, Fb, hw, hik, hkj, hv, hb, hdis, hf, h => by omega
  | k + 1, i, j + 1, m, m', Fs, Fb, hw, hik, hkj, hv, hb, hdis, hf, h => by
    have hvi : v[i]? = some v[i] := List.getElem?_eq_getElem (by omega)
    have htl : (v.take i).length = i := by rw [List.length_take]; omega
    have hwy : (v.take i ++ List.replicate (j + 1) notype)[i]? = some notype := by
      rw [List.getElem?_append_right (by omega), htl]
      simp
    obtain ⟨hxy, hok, hfail, hclean⟩ := hf v[i] (List.getElem_mem _)
    obtain ⟨cx, Gx, hrx, hxr, hGx, _, _⟩ := hv.elem hw hvi
    obtain ⟨cy, Gy, hry, hyr, hGy, hGyb, hput⟩ := hb.elem hw hwy
    have hFsa : Fs a := rep_vec_addr hv
    have hFbb : Fb b := rep_vec_addr hb
    have hbt := hb.lt hw
    have hab : a ≠ b := fun e => hdis a hFsa (e ▸ hFbb)
    have hyn : ∀ x, ¬ Gy x := ((rep_imm rfl).1 hyr).2
    have P : Pair m ⟨b, .idx i⟩ ⟨a, .idx i⟩ v[i] notype cx cy Gx Gy :=
      ⟨hw, hrx, hxr, hry, hyr, fun x h1 h2 => hdis x (hGx x h1) (hGy x h2),
        fun h => hdis b (hGx b h) hFbb, hGyb, fun h => hdis a hFsa (hGy a h),
        fun e => hab (by simpa using congrArg Loc.addr e)⟩
    have hfail := hfail m ⟨b, .idx i⟩ ⟨a, .idx i⟩ cx cy Gx Gy P
    have hclean := hclean m ⟨b, .idx i⟩ ⟨a, .idx i⟩ cx cy Gx Gy
    obtain ⟨m1, c1, G1, he1, hu1, hr1⟩ := hok m ⟨b, .idx i⟩ ⟨a, .idx i⟩ cx cy Gx Gy _ P hxy
    have hb1 := hput m1 _ c1 G1 hu1 hr1
    have hset := set_take_replicate v notype i j (by omega)
    rw [hset] at hb1
    have hU1 : Chg m m1 Fb (fun x => (Fb x ∧ ¬ Gy x) ∨ G1 x) := hu1.chg hFbb hGy
    have hw1 : Wf m1 := hU1.wf hw hbt
    have hL : ∃ cs, m.blk a = some (.vec cs) ∧ i < cs.length := by
      obtain ⟨a', cs, G, hc, ha, hL, _⟩ := hv
      injection hc with _ hc
      subst hc
      exact ⟨cs, ha, by rw [hL.length]; omega⟩
    obtain ⟨cs, ha, hi⟩ := hL
    rw [growLoopO, ha] at h
    simp only [if_pos hi] at h
    rcases hfail with h0 | ⟨m0, h0, M, c', F', g', D, hu', hr', ht⟩
    · rw [he1] at h0
      rw [h0] at h
      simp only [Run.sure, ORun.bind] at h
      have ih := growLoopO_clean hn k (i + 1) j m1 m' Fs _ hw1 (by omega) (by omega) (hU1.other hw hv hdis) hb1
        (hU1.disj hw hv hdis) hf h
      intro x
      refine ⟨fun hx => ?_, fun hx => (ih x).2 (Or.inl ⟨hx, hyn x⟩)⟩
      by_cases hG : G1 x
      · rw [(ih x).2 (Or.inr hG)]
        rcases hU1.sub x (Or.inr hG) with e | e
        · exact absurd e hx
        · exact (hw x e.1).symm
      · have hx1 : ¬ ((Fb x ∧ ¬ Gy x) ∨ G1 x) := by
          rintro (e | e)
          · exact hx e.1
          · exact hG e
        rw [(ih x).1 hx1]
        by_cases hlt : x < m.next
        · exact hU1.same x hx hlt
        · rw [hU1.fresh x (by omega) hx1, hw x (by omega)]
    · have hold : ∀ x, x ≠ b → m0.blk x = m.blk x := hclean m0 P h0
      obtain ⟨b', bs, G, hc, hbb, hbL, hnb, hFb⟩ := id hb
      injection hc with _ hc
      subst hc
      have hbb' : m0.blk b = some (.vec (bs.set i c')) := by
        rw [ht.old (hbt b hFbb)]
        have := hu'.own
        simp only [hbb] at this
        exact this
      obtain ⟨G1', G2', hs1, hs2, _, hG12⟩ := hbL.split i
      rw [List.take_append_of_le_length (by omega), List.take_take, Nat.min_self] at hs1
      have hG1lt : ∀ x, G1' x → Fb x := fun x hx => (hFb x).2 (Or.inr ((hG12 x).2 (Or.inl hx)))
      have hs1' : RepL m0 (v.take i) (bs.take i) G1' := Rep.frame.2.1 _ _ _ hs1 fun x hx =>
        hold x (fun e => hnb ((hG12 b).2 (Or.inl (e ▸ hx))))
      obtain ⟨m2, he2, hf2⟩ := freeF_spec.2.1 (v.take i) n m0 _ G1' (Nat.le_trans (sizeOf_take v i) hn) hs1'
      have hG2 : ∀ x, ¬ G2' x := by
        rw [List.drop_append, htl, Nat.sub_self, List.drop_zero, List.drop_eq_nil_of_le (by omega), List.nil_append] at hs2
        exact repL_empty hs2
      rw [h0] at h
      simp only [hbb', List.take_set_of_le (Nat.le_refl i), he2, Run.sure, ORun.bind, ORun.oom.injEq] at h
      subst h
      intro x
      by_cases hxb : x = b
      · subst hxb
        exact ⟨fun hx => absurd hFbb hx, fun _ => by rw [blk_upd, if_pos rfl]⟩
      · rw [blk_upd, if_neg hxb]
        refine ⟨fun hx => by rw [hf2.same x (fun e => hx (hG1lt x e)), hold x hxb], fun hx => hf2.gone x ?_⟩
        rcases (hFb x).1 hx with e | e
        · exact absurd e hxb
        · exact ((hG12 x).1 e).resolve_right (hG2 x)

theorem resizeO_clean {n sz : Nat} {f' : Loc → Loc → Mem → ORun Unit} {f : Loc → Loc → Mem → Run Unit} {w : List GC}
    (hw : Wf m) (h : Rep m (vector w) (.box .VECTOR a) F) (hn : sizeOf w ≤ n)
    (hf : ∀ x ∈ w, from_gc x notype = .ok x ∧ FromOk f x notype ∧ FailOk f' f x notype ∧ CleanFail f' x)
    (ho : resizeO bad ip (freeF n) f' a sz m = .oom m') : ∀ x, m'.blk x = m.blk x := by
  have hlt := h.lt hw
  obtain ⟨a', cs, G, hc, ha, hG, hna, hF⟩ := id h
  injection hc with _ hc
  subst hc
  have hlen := hG.length
  rw [resizeO, ha] at ho
  simp only at ho
  split at ho
  · generalize forL (freeF n) (cs.drop sz) m = r at ho
    cases r <;> simp [Run.sure, ORun.bind] at ho
  split at ho
  · simp at ho
  split at ho
  · have e : m.skip = m' := by injection ho
    subst e
    exact fun _ => rfl
  · let m1 := m.alloc (.vec (List.replicate sz (.imm notype)))
    have hm1 : ∀ b, b ≠ m.next → m1.blk b = m.blk b := fun b hb => by
      show (m.alloc _).blk b = _
      rw [blk_alloc, if_neg hb]
    have hw1 : Wf m1 := by
      intro b hb
      have hb : m.next + 1 ≤ b := hb
      rw [hm1 b (by omega)]; exact hw b (by omega)
    have hv1 : Rep m1 (vector w) (.box .VECTOR a) F :=
      Rep.frame.1 _ _ _ h fun b hb => hm1 b (by have := hlt b hb; omega)
    have hb1 : Rep m1 (vector (List.replicate sz notype)) (.box .VECTOR m.next) (fun b => b = m.next) :=
      ⟨m.next, _, fun _ => False, rfl, by show (m.alloc _).blk _ = _; rw [blk_alloc, if_pos rfl], repL_replicate sz,
        fun h => h, fun b => by simp⟩
    cases hg : growLoopO (freeF n) f' m.next a 0 cs.length m1 with
    | oom m2 =>
      have ho : (growLoopO (freeF n) f' m.next a 0 cs.length m1).bind _ = .oom m' := ho
      rw [hg] at ho
      have e : m2 = m' := by injection ho
      subst e
      have := growLoopO_clean hn cs.length 0 sz m1 m2 F _ hw1 (by omega) (by omega) hv1 (by simpa using hb1)
        (fun b hb (e : b = m.next) => by have := hlt b hb; omega) hf hg
      intro x
      by_cases hx : x = m.next
      · rw [(this x).2 hx, hx, hw _ (Nat.le_refl _)]
      · rw [(this x).1 hx, hm1 x hx]
    | ok m2 u =>
      have ho : (growLoopO (freeF n) f' m.next a 0 cs.length m1).bind _ = .oom m' := ho
      rw [hg] at ho
      simp only [ORun.bind] at ho
      generalize forL (freeF n) cs m2 = r at ho
      cases r with
      | ok m3 u =>
        simp only [Run.sure] at ho
        split at ho <;> simp at ho
      | _ => simp [Run.sure] at ho
    | throw m2 => 
      have ho : (growLoopO (freeF n) f' m.next a 0 cs.length m1).bind _ = .oom m' := ho
      rw [hg] at ho
      simp [ORun.bind] at ho
    | ub => 
      have ho : (growLoopO (freeF n) f' m.next a 0 cs.length m1).bind _ = .oom m' := ho
      rw [hg] at ho
      simp [ORun.bind] at ho
    | fuel => 
      have ho : (growLoopO (freeF n) f' m.next a 0 cs.length m1).bind _ = .oom m' := ho
      rw [hg] at ho
      simp [ORun.bind] at ho

end Heap
end GCV
