import Verif.Spec.HeapCalls
import Verif.Lemmas.HeapCollapse
import Verif.Props.Heap
import Verif.Props.History

/-!
# Who owns which allocation, for all the calls (C114)

Programs as for C40, and in them every call of the interface on a container in memory: the setters, `allocate_*`,
`push_*`, `set_*_at`, the promotions, the references into vectors and matrices, `collapse`, `merge`
(`Verif/Model/HeapCalls.lean`).  A call that ends with an exception does not end the program.
-/

namespace GCV
namespace Heap
open GC

variable {m m' : Mem} {g g' : GC} {c c' : Cell} {F F' : Addr → Prop} {d l : Loc}

/-- A call at a place. -/
theorem Holds.call {s : St} {E : Vals} {x : Place} {f : Loc → Mem → Run Unit} {r : GC → Res Unit} (h : Holds s E)
    (hf : ∀ g, E.get x = some g → ∃ g', (r g).state? = some g' ∧
      ∀ m d c F, Wf m → m.read d = some c → Rep m g c F → ¬ F d.addr → Ends m d F (f d m) (r g)) :
    ∃ s', after s (s.at x f) = some s' ∧ Holds s' (E.at x fun g => (r g).state?) := by
  unfold Vals.at
  cases hx : E.get x with
  | none =>
    refine ⟨s, ?_, h⟩
    simp [St.at, h.loc_none hx, after]
  | some g =>
    obtain ⟨g', hg', hrun⟩ := hf g hx
    obtain ⟨_, _, _, _, ld, cd, Gd, _, _, _, _, _, _, _, hl, hrd, hRd, _, hnd, _, hput⟩ := h.place hx
    have hE := hrun s.mem ld cd Gd h.1 hrd hRd hnd
    simp only [hg', St.at, hl]
    cases hr : r g with
    | ok g1 u =>
      rw [hr] at hE hg'
      simp only [Res.state?, Option.some.injEq] at hg'
      subst hg'
      obtain ⟨m', c', F', he, hu, hR⟩ := hE
      exact ⟨⟨m', s.env⟩, by simp only [he, Run.bind, after], hput m' g1 c' F' hu hR⟩
    | throw g1 =>
      rw [hr] at hE hg'
      simp only [Res.state?, Option.some.injEq] at hg'
      subst hg'
      obtain ⟨m', c', F', he, hu, hR⟩ := hE
      exact ⟨⟨m', s.env⟩, by simp only [he, Run.bind, after], hput m' g1 c' F' hu hR⟩
    | ub => rw [hr] at hg'; simp [Res.state?] at hg'
    | diverge => rw [hr] at hg'; simp [Res.state?] at hg'

/-! ## `merge` -/

theorem merge_eq {gs gd : GC} : merge gs gd =
    if gs = notype then .ok gd () else
    if gs.ty = .MAP ∧ (gd.ty = .NOTYPE ∨ gd.ty = .MAP) then
      match from_gc gs gd with
      | .ok g' => .ok g' ()
      | .throw => .throw (set_map gd)
      | .ub => .ub
      | .diverge => .diverge
    else .throw gd := by
  cases gs <;> try (simp [merge, GC.ty]; done)
  case map e =>
    have hne : ¬ map e = notype := by simp
    rw [if_neg hne]
    by_cases h : gd = notype
    · subst h
      have h1 : set_map notype = map [] := rfl
      simp only [merge, if_true, h1, oldMap, GC.ty, true_or, and_self, from_gc]
      cases from_gcM e [] <;> rfl
    · cases gd <;> first
        | (simp [merge, GC.ty] at h ⊢; done)
        | (simp only [merge, hne, if_false, GC.ty, and_false, or_false, reduceCtorEq, false_or, and_true, if_true, or_self, h]; done)
        | (rename_i w
           simp only [merge, h, if_false, GC.ty, or_true, and_self, if_true, from_gc, oldMap, set_map]
           cases from_gcM e w <;> rfl)

/-- `merge` in memory, between places that have no memory in common. -/
theorem mergeF_spec {ip : Nat → Nat → Bool} {n : Nat} {gs gd : GC} {cs cd : Cell} {Fs Fd : Addr → Prop} {d s : Loc}
    (hn : sizeOf gs + sizeOf gd < n) (hws : WF gs) (hfs : Fits gs) (hwd : WF gd) (hfd : Fits gd)
    (P : Pair m d s gs gd cs cd Fs Fd) : Ends m d Fd (mergeF ip n d s m) (merge gs gd) := by
  have hts := rep_ty P.srcRep
  have htd := rep_ty P.dstRep
  rw [merge_eq]
  by_cases h0 : gs = notype
  · subst h0
    rw [if_pos rfl]
    obtain ⟨rfl, -⟩ := (rep_imm rfl).1 P.srcRep
    exact ⟨m, cd, Fd, by simp only [mergeF, P.src], Upd.refl P.wf P.dst, P.dstRep⟩
  rw [if_neg h0]
  by_cases hm : gs.ty = .MAP
  · obtain ⟨e, rfl⟩ : ∃ e, gs = map e := by cases gs <;> simp [GC.ty] at hm; exact ⟨_, rfl⟩
    obtain ⟨hnul, hfv⟩ := Fits_map hfs
    obtain ⟨a, rfl, hFa⟩ := rep_map_box P.srcRep
    by_cases hd : gd.ty = .NOTYPE ∨ gd.ty = .MAP
    · rw [if_pos ⟨hm, hd⟩]
      cases hr : from_gc (map e) gd with
      | ok g' =>
        rw [from_gc] at hr
        obtain ⟨r, hr', hg⟩ := out_bind_ok hr
        injection hg with hg
        subst hg
        -- the destination becomes a MAP
        obtain ⟨m1, b, F1, he1, hu1, hr1⟩ : ∃ m1 b F1,
            (if cd.ty = .NOTYPE then setMapF n d m else .ok m ()) = .ok m1 () ∧
            Upd m m1 d (.box .MAP b) Fd F1 ∧ Rep m1 (map gd.oldMap) (.box .MAP b) F1 := by
          rcases hd with hd | hd
          · obtain ⟨m1, c1, F1, he1, hu1, hr1⟩ := opOk_setMap (n := n) (g := gd) (by omega) m d cd Fd P.wf P.dst P.dstRep P.fdd
            obtain ⟨b, rfl, _⟩ := rep_map_box hr1
            exact ⟨m1, b, F1, by rw [if_pos (by rw [htd, hd]), he1], hu1, hr1⟩
          · obtain ⟨w, rfl⟩ : ∃ w, gd = map w := by cases gd <;> simp [GC.ty] at hd; exact ⟨_, rfl⟩
            obtain ⟨b, rfl, _⟩ := rep_map_box P.dstRep
            exact ⟨m, b, Fd, by rw [if_neg (by simp [Cell.ty])], Upd.refl P.wf P.dst, P.dstRep⟩
        have hw1 := hu1.wf P.wf (P.dstRep.lt P.wf)
        have hd1 := hu1.read P.dst
        have hv1 := hu1.other P.wf P.srcRep P.fsd P.disj
        have hdis1 := hu1.disj P.wf P.srcRep P.disj
        have hF1d : ¬ F1 d.addr := fun h => by
          rcases hu1.sub _ h with h | h
          · exact P.fdd h
          · have := read_lt P.wf P.dst; omega
        obtain ⟨a', aes, G, hc, ha, hL, _⟩ := id hv1
        injection hc with _ hc
        subst hc
        have hlen : aes.length = e.length := by simpa using congrArg List.length hL.keys
        obtain ⟨m3, F3, he3, hC3, hr3⟩ := mapLoop_spec (f := fromF ip n)
          (fun p hp => cstr_of_noNul (hnul p hp)) e.length 0 m1 gd.oldMap r Fs F1 hw1 (by omega) hv1 hr1 hdis1
          (by simpa using hr')
          (fun p hp => by
            rw [List.drop_zero] at hp
            have h1 : sizeOf p.2 < sizeOf e := by
              have := List.sizeOf_lt_of_mem hp
              obtain ⟨k, x⟩ := p
              rw [Prod.mk.sizeOf_spec] at this
              show sizeOf x < _
              omega
            simp only [GC.map.sizeOf_spec] at hn
            have hfp := everyM_iff.1 hfv p hp
            cases hk : mfind p.1 gd.oldMap with
            | none =>
              have := sizeOf_pos gd
              exact fromF_spec ip n p.2 notype (by rw [GC.notype.sizeOf_spec]; omega) hfp trivial rfl
            | some y =>
              have h2 := sizeOf_oldMap hk
              have hwy : WF y := by have := WF_valueAt hwd p.1; rw [hk] at this; exact this
              have hfy : Fits y := by
                cases gd <;> simp only [oldMap, mfind] at hk <;> try (exact absurd hk (by simp))
                exact everyM_iff.1 (Fits_map hfd).2 _ (mem_of_mfind hk)
              exact fromF_spec ip n p.2 y (by omega) hfp hwy hfy)
        refine ⟨m3, .box .MAP b, F3, ?_, ?_, hr3⟩
        · rw [← hlen] at he3
          simp only [mergeF, P.src, P.dst]
          rw [he1]
          simp only [Run.bind, hd1, ha]
          exact he3
        · exact hu1.trans (hC3.upd hw1 hd1 hF1d) (read_lt P.wf P.dst) P.fdd (P.dstRep.lt P.wf)
      | throw =>
        obtain ⟨r, hr'⟩ := from_gc_ok (map e) hfs hws gd
        rw [hr] at hr'; simp at hr'
      | ub => trivial
      | diverge => trivial
    · rw [if_neg fun h => hd h.2]
      refine ⟨m, cd, Fd, ?_, Upd.refl P.wf P.dst, P.dstRep⟩
      have hne : cd.ty ≠ .NOTYPE := by rw [htd]; exact fun h => hd (Or.inl h)
      simp only [mergeF, P.src, P.dst, if_neg hne, Run.bind]
      cases cd with
      | imm g => rfl
      | box t b =>
        cases t <;> first
          | rfl
          | exact absurd (Or.inr (by rw [← htd]; rfl)) hd
  · rw [if_neg fun h => hm h.1]
    refine ⟨m, cd, Fd, ?_, Upd.refl P.wf P.dst, P.dstRep⟩
    simp only [mergeF, P.src]
    cases cs with
    | imm g =>
      have : g = gs := by
        by_cases hl : leafy gs = true
        · have := rep_leafAt hl P.srcRep
          simpa [leafAt] using this
        · cases gs <;> simp only [leafy, not_true_eq_false] at hl
          · obtain ⟨b, hc, _⟩ := rep_vector_box P.srcRep
            simp at hc
          · exact absurd rfl hm
      subst this
      cases g <;> first | rfl | exact absurd rfl h0
    | box t b =>
      cases t <;> first
        | rfl
        | exact absurd (by rw [← hts]; rfl) hm

theorem merge_state {gs gd : GC} (hws : WF gs) (hfs : Fits gs) (hwd : WF gd) (hfd : Fits gd) :
    ∃ g', (merge gs gd).state? = some g' ∧ WF g' ∧ Fits g' := by
  rw [merge_eq]
  split
  · exact ⟨gd, rfl, hwd, hfd⟩
  · split
    · obtain ⟨r, hr⟩ := from_gc_ok gs hfs hws gd
      rw [hr]
      exact ⟨r, rfl, WF_from_gc _ _ hws hwd _ hr, Fits_from_gc _ _ hfs hfd _ hr⟩
    · exact ⟨gd, rfl, hwd, hfd⟩

theorem Good.xstep {E : Vals} {op : XOp} (h : Good E) (hop : op.Ok E) : Good (E.xstep op) := by
  cases op with
  | old op => exact h.step hop
  | call x op =>
    obtain ⟨hin, ha, hg⟩ := hop
    have hsrc : ∀ s ∈ op.sources, WF s := by
      cases op <;> first
        | (simp [inMemory] at hin; done)
        | (intro s hs; simp [Op.sources] at hs; done)
    simp only [Vals.xstep, Vals.at]
    cases hx : E.get x with
    | none => exact h
    | some g =>
      obtain ⟨g', h1, h2⟩ := hg g hx
      simp only [h1]
      exact h.put ⟨good_step op g ha hsrc (h.get hx).1 g' h1, h2⟩
  | merge x y =>
    simp only [Vals.xstep]
    cases hy : E.get y with
    | none => exact h
    | some src =>
      refine Good.at h fun g g' hw hf hg => ?_
      obtain ⟨g1, h1, h2⟩ := merge_state (h.get hy).1 (h.get hy).2 hw hf
      rw [h1] at hg
      injection hg with hg
      subst hg; exact h2

/-- One step of a program in memory is one step of the program on values. -/
theorem Holds.xstep (ip : Nat → Nat → Bool) {E : Vals} {op : XOp} (hE : Good E) (hop : op.Ok E) :
    ∃ N, ∀ n, N ≤ n → ∀ s, Holds s E → ∃ s', after s (s.xstep ip n op) = some s' ∧ Holds s' (E.xstep op) := by
  cases op with
  | old op => exact Holds.step ip hE hop
  | call x op =>
    obtain ⟨hin, ha, hg⟩ := hop
    cases hx : E.get x with
    | none =>
      refine ⟨0, fun n _ s h => ⟨s, ?_, ?_⟩⟩
      · simp [St.xstep, St.at, h.loc_none hx, after]
      · simp only [Vals.xstep, Vals.at, hx]; exact h
    | some g =>
      obtain ⟨hw, hf⟩ := hE.get hx
      obtain ⟨N, hN⟩ := callOk (ip := ip) hin hw hf
      refine ⟨N, fun n hn s h => h.call (r := GC.step op) fun g1 h1 => ?_⟩
      rw [hx] at h1
      injection h1 with h1
      subst h1
      obtain ⟨g', h2, _⟩ := hg g hx
      exact ⟨g', h2, hN n hn⟩
  | merge x y =>
    cases hy : E.get y with
    | none =>
      refine ⟨0, fun n _ s h => ⟨s, ?_, by simp only [Vals.xstep, hy]; exact h⟩⟩
      simp [St.xstep, h.loc_none hy, after]
    | some gs =>
      cases hx : E.get x with
      | none =>
        refine ⟨0, fun n _ s h => ⟨s, ?_, by simp only [Vals.xstep, hy, Vals.at, hx]; exact h⟩⟩
        obtain ⟨_, _, _, _, ls, cs, Gs, _, _, _, _, _, _, _, hl, -⟩ := h.place hy
        simp [St.xstep, hl, St.at, h.loc_none hx, after]
      | some gd =>
        refine ⟨sizeOf gs + sizeOf gd + 1, fun n hn s h => ?_⟩
        obtain ⟨hws, hfs⟩ := hE.get hy
        obtain ⟨hwd, hfd⟩ := hE.get hx
        obtain ⟨ls, ld, cs, cd, Gs, Gd, hly, hlx, P, hput⟩ := h.pair hx hy hop
        have hEnds := mergeF_spec (ip := ip) (n := n) (by omega) hws hfs hwd hfd P
        obtain ⟨g', hg', _⟩ := merge_state hws hfs hwd hfd
        simp only [Vals.xstep, hy, Vals.at, hx, hg', St.xstep, hly, St.at, hlx]
        cases hr : merge gs gd with
        | ok g1 u =>
          rw [hr] at hEnds hg'
          simp only [Res.state?, Option.some.injEq] at hg'
          subst hg'
          obtain ⟨m', c', F', he, hu, hR⟩ := hEnds
          exact ⟨⟨m', s.env⟩, by simp only [he, Run.bind, after], hput m' g1 c' F' hu hR⟩
        | throw g1 =>
          rw [hr] at hEnds hg'
          simp only [Res.state?, Option.some.injEq] at hg'
          subst hg'
          obtain ⟨m', c', F', he, hu, hR⟩ := hEnds
          exact ⟨⟨m', s.env⟩, by simp only [he, Run.bind, after], hput m' g1 c' F' hu hR⟩
        | ub => rw [hr] at hg'; simp [Res.state?] at hg'
        | diverge => rw [hr] at hg'; simp [Res.state?] at hg'

theorem xrun_cons (ip : Nat → Nat → Bool) {n : Nat} {op : XOp} {s s' : St} (ops : List XOp)
    (h : after s (s.xstep ip n op) = some s') : St.xrun ip n (op :: ops) s = St.xrun ip n ops s' := by
  rw [St.xrun]
  cases hs : s.xstep ip n op <;> rw [hs] at h <;> simp only [after, Option.some.injEq, reduceCtorEq] at h
  · subst h; rfl
  · subst h; rfl

theorem xrun_holds (ip : Nat → Nat → Bool) : ∀ (ops : List XOp) (E : Vals), Good E → OkRun E ops →
    ∃ N, ∀ n, N ≤ n → ∀ s, Holds s E → ∃ s', Holds s' (ops.foldl Vals.xstep E) ∧
      ∀ rest, St.xrun ip n (ops ++ rest) s = St.xrun ip n rest s'
  | [], E, _, _ => ⟨0, fun n _ s h => ⟨s, h, fun _ => rfl⟩⟩
  | op :: ops, E, hE, hops => by
    obtain ⟨N1, h1⟩ := Holds.xstep ip hE hops.1
    obtain ⟨N2, h2⟩ := xrun_holds ip ops _ (hE.xstep hops.1) hops.2
    refine ⟨max N1 N2, fun n hn s h => ?_⟩
    obtain ⟨s1, hs1, hh1⟩ := h1 n (by omega) s h
    obtain ⟨s2, hh2, hr2⟩ := h2 n (by omega) s1 hh1
    exact ⟨s2, hh2, fun rest => by rw [List.cons_append, xrun_cons ip _ hs1, hr2]⟩

/-- C114.  Every program made of these calls, with exceptions or without, uses no payload that has been released and
releases none twice, and memory afterwards holds the values the program has on trees, each variable in blocks of its own,
and nothing else. -/
theorem C114_history (ip : Nat → Nat → Bool) (ops : List XOp) (hops : OkRun (fun _ => none) ops) :
    ∃ N, ∀ n, N ≤ n → ∃ m env, St.xrun ip n ops St.init = .ok m env ∧
      Holds ⟨m, env⟩ (ops.foldl Vals.xstep fun _ => none) := by
  obtain ⟨N, h⟩ := xrun_holds ip ops _ good_init hops
  refine ⟨N, fun n hn => ?_⟩
  obtain ⟨s', hs', hr⟩ := h n hn _ holds_init
  have := hr []
  rw [List.append_nil, St.xrun] at this
  exact ⟨s'.mem, s'.env, this, hs'⟩

/-- C114.  When the lifetimes of all the variables have ended, everything that was allocated has been released. -/
theorem C114_no_leak (ip : Nat → Nat → Bool) (ops : List XOp) (hops : OkRun (fun _ => none) ops)
    (hend : ∀ x, ops.foldl Vals.xstep (fun _ => none) x = none) :
    ∃ N, ∀ n, N ≤ n → ∃ m env, St.xrun ip n ops St.init = .ok m env ∧ ∀ b, m.blk b = none := by
  obtain ⟨N, h⟩ := C114_history ip ops hops
  refine ⟨N, fun n hn => ?_⟩
  obtain ⟨m, env, hr, hw, A, hA, _, hall⟩ := h n hn
  refine ⟨m, env, hr, fun b => Classical.byContradiction fun hb => ?_⟩
  obtain ⟨x, hx⟩ := hall b hb
  have := hA x
  rw [hend x] at this
  exact this.2 b hx

/-! ## A program the theorems are about -/

private abbrev ka : Bytes := [97]
private abbrev g0 : Place := ⟨0, []⟩
private abbrev ga : Place := ⟨0, [.key ka]⟩
private abbrev h0 : Place := ⟨1, []⟩

/-- `GC g; g["a"].push_int(1); g["a"].push_string("x"); g["a"].erase("a") (throws);
GC h; h.promote_to_vec_int(); h.push_int(2); h.push_long(3); h.promote_to_vector(); h.collapse(); h.merge(g) (throws);
h.clear(); h.merge(g);` and the end of both. -/
private def prog : List XOp :=
  [.old (.construct 0), .old (.key g0 ka), .call ga (.pushInt 1#32), .call ga (.pushString [120]),
   .call ga (.erase ka),
   .old (.construct 1), .call h0 .promoteVecInt, .call h0 (.pushInt 2#32), .call h0 (.pushLong 3#64),
   .call h0 .promoteVector, .call h0 .collapse, .merge h0 g0, .call h0 .clear, .merge h0 g0]

private theorem call_ok {E : Vals} {x : Place} {op : Op} {g : GC} (h1 : inMemory op = true)
    (h2 : op.argsOk (fun m => m.wf = true)) (h3 : E.get x = some g)
    (h4 : ((GC.step op g).state?).map (every fitsNode) = some true) : (XOp.call x op).Ok E := by
  refine ⟨h1, h2, fun g1 hg => ?_⟩
  rw [h3] at hg
  injection hg with hg
  subst hg
  cases h : (GC.step op g).state? with
  | none => rw [h] at h4; simp at h4
  | some g' =>
    rw [h] at h4
    simp only [Option.map_some, Option.some.injEq] at h4
    exact ⟨g', rfl, h4⟩

private theorem prog_ok : OkRun (fun _ => none) prog := by
  refine ⟨trivial, trivial, call_ok rfl trivial rfl rfl, call_ok rfl trivial rfl rfl, call_ok rfl trivial rfl rfl,
    trivial, call_ok rfl trivial rfl rfl, call_ok rfl trivial rfl rfl, call_ok rfl trivial rfl rfl,
    call_ok rfl trivial rfl rfl, call_ok rfl trivial rfl rfl, ?_, call_ok rfl trivial rfl rfl, ?_, trivial⟩
  · intro e; exact absurd e (by decide)
  · intro e; exact absurd e (by decide)

/-- The values on the way: `h` is packed again by `collapse`, and at the end it has what `g` has. -/
example : (prog.take 11).foldl Vals.xstep (fun _ => none) 1 = some (vecLong [0#64, 2#64, 3#64]) ∧
    prog.foldl Vals.xstep (fun _ => none) 1 = some (map [(ka, vector [int 0#32, int 1#32, string [120]])]) := by
  constructor <;> rfl

example : ∃ N, ∀ n, N ≤ n → ∃ m env, St.xrun (fun _ _ => false) n prog St.init = .ok m env ∧
    Holds ⟨m, env⟩ (prog.foldl Vals.xstep fun _ => none) := C114_history _ prog prog_ok

end Heap
end GCV
