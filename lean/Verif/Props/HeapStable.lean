import Verif.Lemmas.HeapStable

/-!
# References that stay good (C120)

`GenericContainer & r = g["a"][2];` and then other calls, on `g`, on parts of it, on other variables.
-/

namespace GCV
namespace Heap
open GC

variable {l : Loc} {a : Addr}

theorem Holds.kept_erase {P : Prop} {s s' : St} {E : Vals} {x p : Place} {k : Bytes} {n : Nat} (h : Holds s E)
    (hn : sizeOf ((E.get x).getD notype) ≤ n) (hl : s.loc p = some l)
    (hsp : ¬ AtOrAbove ⟨x.var, x.path ++ [.key k]⟩ p) (hs : after s (s.at x fun l => eraseF n l k) = some s') :
    Kept P s s' p l := by
  cases hx : E.get x with
  | none => exact h.kept_absent hl hx hs
  | some g =>
    obtain ⟨g0, a0, c0, F0, ld, cd, Gd, hE0, hp0, he0, _, _, _, hres, hlx, hrd, hRd, _, hnd, _⟩ := h.place hx
    by_cases hm : ∃ e, g = map e
    · obtain ⟨e, rfl⟩ := hm
      obtain ⟨a, es, G, rfl, ha, hG, hks, hna, hF⟩ := id hRd
      cases hk : mfind k e with
      | none =>
        simp only [St.at, hlx, eraseF, hrd, ha, hG.none hk, Run.bind, after, Option.some.injEq] at hs
        subst hs
        exact Kept.refl hl
      | some y =>
        obtain ⟨c1, G1, H1, hc1, hy1, hr1, hd1, hF1⟩ := repM_erase hG hk
        have hsz : sizeOf y ≤ n := by
          have := sizeOf_oldMap (g := map e) hk
          rw [hx] at hn
          simp only [Option.getD_some] at hn
          omega
        obtain ⟨m1, he1, hf1⟩ := freeF_spec.1 y n s.mem c1 G1 hsz hy1
        simp only [St.at, hlx, eraseF, hrd, ha, hc1, he1, Run.bind, after, Option.some.injEq] at hs
        subst hs
        -- the entry that goes
        have hrk : s.mem.read ⟨a, .key k⟩ = some c1 := by simp [Mem.read, ha, Block.get, hc1]
        have hgk : E.get ⟨x.var, x.path ++ [.key k]⟩ = some y := by
          simp only [Vals.get, hE0, Option.bind_some, GC.getAt_append, hp0, getAt, hk]
        have hlk : s.loc ⟨x.var, x.path ++ [.key k]⟩ = some ⟨a, .key k⟩ := by
          simp only [St.loc, he0, Option.bind_some, resolve_append, hres, resolve, hrd, hrk]
        have key : ∀ q lq c, q <+: p.path → s.loc ⟨p.var, q⟩ = some lq → s.mem.read lq = some c →
            (m1.upd a (some (.map (krem k es)))).read lq = some c := by
          intro q lq c hq hlq hr
          obtain ⟨gq, hgq⟩ := h.get_of_loc hlq
          have hat : ¬ AtOrAbove ⟨x.var, x.path ++ [.key k]⟩ ⟨p.var, q⟩ := fun e => hsp ⟨e.1, e.2.trans hq⟩
          obtain ⟨hne, hng⟩ := h.away hgk hgq hat hlk hlq hrk hy1
          unfold Mem.read at hr ⊢
          rw [blk_upd]
          by_cases hqa : lq.addr = a
          · rw [if_pos hqa]
            rw [hqa, ha] at hr
            cases hsl : lq.slot with
            | key k' =>
              rw [hsl] at hr
              have hkk : k' ≠ k := by
                rintro rfl
                apply hne
                cases lq
                simp_all
              simp only [Option.bind_some, Block.get] at hr ⊢
              rw [kfind_krem hkk, hr]
            | _ => rw [hsl] at hr; simp [Block.get] at hr
          · rw [if_neg hqa, hf1.same _ hng]
            exact hr
        exact h.kept hl rfl fun q lq c hq hlq hr => ⟨fun _ => key q lq c hq hlq hr, _, key q lq c hq hlq hr⟩
    · have := eraseF_throw (n := n) (k := k) hrd hRd (fun e he => hm ⟨e, he⟩)
      simp only [St.at, hlx, this, Run.bind, after, Option.some.injEq] at hs
      subst hs
      exact Kept.refl hl

theorem Holds.kept_destroy {P : Prop} {s s' : St} {E : Vals} {x : Nat} {p : Place} {n : Nat} (h : Holds s E)
    (hn : sizeOf ((E x).getD notype) ≤ n) (hl : s.loc p = some l) (hsp : x ≠ p.var)
    {ip : Nat → Nat → Bool} (hs : after s (s.step ip n (.destroy x)) = some s') : Kept P s s' p l := by
  cases hx : E x with
  | none =>
    simp only [St.step, h.env_none hx, after, Option.some.injEq] at hs
    subst hs
    exact Kept.refl hl
  | some g =>
    have hgx : E.get ⟨x, []⟩ = some g := by simp [Vals.get, hx, getAt]
    obtain ⟨a, c, F, he, hr, hg, hna⟩ := h.var hx
    have hlx : s.loc ⟨x, []⟩ = some ⟨a, .var⟩ := by simp [St.loc, he, resolve]
    rw [hx] at hn
    obtain ⟨m1, he1, hu1, _, _⟩ := clearAt_spec h.1 hr hg hn hna
    simp only [St.step, he, he1, Run.bind, after, Option.some.injEq] at hs
    subst hs
    have hpx : ¬ p.var = x := fun e => hsp e.symm
    have key : ∀ q lq c, q <+: p.path → s.loc ⟨p.var, q⟩ = some lq → s.mem.read lq = some c →
        (m1.upd a none).read lq = some c := by
      intro q lq c0 hq hlq hrq
      obtain ⟨gq, hgq⟩ := h.get_of_loc hlq
      obtain ⟨hne, hng⟩ := h.away hgx hgq (fun e => hsp e.1) hlx hlq hr hg
      have h1 := hu1.read_ne h.1 hrq hne hng
      have hqa : lq.addr ≠ a := by
        intro e
        obtain ⟨B, hB, hgB⟩ := read_some hrq
        rw [e] at hB
        obtain ⟨B', hB', hgB'⟩ := read_some hr
        simp only at hB'
        rw [hB] at hB'
        injection hB' with hB'
        subst hB'
        apply hne
        cases lq with
        | mk la ls =>
          simp only at e
          subst e
          cases B <;> cases ls <;> simp [Block.get] at hgB hgB' ⊢
      unfold Mem.read at h1 ⊢
      rw [blk_upd, if_neg hqa]
      exact h1
    exact h.kept hl (by simp [hpx]) fun q lq c hq hlq hr => ⟨fun _ => key q lq c hq hlq hr, _, key q lq c hq hlq hr⟩

theorem alloc_reads {m : Mem} {B : Block} (hw : Wf m) {lq : Loc} {c : Cell} (h : m.read lq = some c) :
    (m.alloc B).read lq = some c := by
  have := read_lt hw h
  unfold Mem.read
  rw [blk_alloc, if_neg (by omega)]
  exact h

/-- One step. -/
theorem Holds.kept_step (ip : Nat → Nat → Bool) {E : Vals} {op : XOp} (hE : Good E) (hop : op.Ok E) {R : Place → Prop}
    {p : Place} (hR : ∀ x, Above x p → R x) (hsp : op.Spares E R p) :
    ∃ N, ∀ n, N ≤ n → ∀ s s' l, Holds s E → s.loc p = some l → after s (s.xstep ip n op) = some s' →
      Kept (R p) s s' p l := by
  have far : ∀ {x}, ¬ R x → ¬ Above x p := fun h e => h (hR _ e)
  have ne : ∀ {x}, ¬ R x → R p → x ≠ p := fun h hp e => h (e ▸ hp)
  cases op with
  | old op =>
    cases op with
    | construct x =>
      refine ⟨0, fun n _ s s' l h hl hs => ?_⟩
      simp only [St.xstep, St.step] at hs
      cases hx : s.env x with
      | some a =>
        simp only [hx, after, Option.some.injEq] at hs
        subst hs
        exact Kept.refl hl
      | none =>
        simp only [hx, after, Option.some.injEq] at hs
        subst hs
        have hpx : p.var ≠ x := by
          rintro rfl
          simp [St.loc, hx] at hl
        exact h.kept_all hl (by simp [hpx]) fun lq c hr => alloc_reads h.1 hr
    | copyConstruct x y =>
      cases hx : E x with
      | some g =>
        refine ⟨0, fun n _ s s' l h hl hs => ?_⟩
        obtain ⟨a, c, F, he, _⟩ := h.var hx
        simp only [St.xstep, St.step, he, after, Option.some.injEq] at hs
        subst hs
        exact Kept.refl hl
      | none =>
        cases hy : E.get y with
        | none =>
          refine ⟨0, fun n _ s s' l h hl hs => ?_⟩
          simp only [St.xstep, St.step, h.env_none hx, h.loc_none hy, after, Option.some.injEq] at hs
          subst hs
          exact Kept.refl hl
        | some g =>
          refine ⟨sizeOf g + 2, fun n hn s s' l h hl hs => ?_⟩
          obtain ⟨hw, hf⟩ := hE.get hy
          obtain ⟨gy, ay, cy, Fy, ls, cs, Gs, hEy, hpy, hey, hry, hRy, hny, hresy, hly, -⟩ := h.place hy
          have hvx : y.var ≠ x := by rintro rfl; rw [hx] at hEy; simp at hEy
          have hnew := h.new hx
          obtain ⟨ls', ld, cs', cd', Gs', Gd', h1, h2, P, _⟩ := hnew.pair (x := ⟨x, []⟩) (y := y) (gd := notype) (gs := g)
            (by simp [Vals.get, getAt]) (by simp only [Vals.get, if_neg hvx]; exact hy) (fun e => absurd e.symm hvx)
          obtain ⟨m', c', F', h3, hu, _⟩ :=
            fromF_spec ip n g notype (by rw [GC.notype.sizeOf_spec]; omega) hf trivial rfl _ _ _ _ _ _ _ _ P (copy_ok hw hf)
          have e1 : ls' = ls := by
            simp only [St.loc, if_neg hvx, hey, Option.bind_some] at h1
            rw [resolve_alloc h.1 _ hresy] at h1
            injection h1 with h1
            exact h1.symm
          have e2 : ld = ⟨s.mem.next, .var⟩ := by
            simp [St.loc, resolve] at h2
            exact h2.symm
          subst e1; subst e2
          simp only [St.xstep, St.step, h.env_none hx, hly, h3, Run.bind, after, Option.some.injEq] at hs
          subst hs
          have hpx : p.var ≠ x := by
            rintro rfl
            simp [St.loc, h.env_none hx] at hl
          refine h.kept_all hl (by simp [hpx]) fun lq c hr => ?_
          have hlt := read_lt h.1 hr
          refine hu.read_ne P.wf (alloc_reads h.1 hr) ?_ ?_
          · rintro rfl
            simp only at hlt
            omega
          · have := (rep_imm (g := notype) rfl).1 P.dstRep
            exact this.2 _
    | destroy x =>
      exact ⟨sizeOf ((E x).getD notype), fun n hn s s' l h hl hs => h.kept_destroy (ip := ip) hn hl hsp hs⟩
    | clear x =>
      refine ⟨sizeOf ((E.get x).getD notype), fun n hn s s' l h hl hs =>
        h.kept_op hl (fun g hg => ⟨_, opOk_clear ?_⟩) (far hsp) (ne hsp) hs⟩
      rw [hg] at hn; exact hn
    | set x v =>
      refine ⟨sizeOf ((E.get x).getD notype), fun n hn s s' l h hl hs =>
        h.kept_op hl (fun g hg => ?_) (far hsp) (ne hsp) hs⟩
      obtain ⟨r, hr⟩ := from_gc_ok v hop.2.2.2 hop.2.2.1 g
      exact ⟨r, opOk_set (by rw [hg] at hn; exact hn) hop.1 hop.2.1 hr⟩
    | setVector x k =>
      refine ⟨sizeOf ((E.get x).getD notype) + 2, fun n hn s s' l h hl hs =>
        h.kept_op hl (fun g hg => ⟨set_vector k g, ?_⟩) (far hsp) (ne hsp) hs⟩
      rw [hg] at hn
      obtain ⟨h1, h2⟩ := hE.get hg
      exact opOk_setVector (by simp only [Option.getD_some] at hn; omega) h1 h2
    | setMap x =>
      by_cases hx : R x
      · obtain ⟨e, he⟩ := hsp hx
        refine ⟨0, fun n _ s s' l h hl hs => ?_⟩
        obtain ⟨_, _, _, _, ld, cd, Gd, _, _, _, _, _, _, _, hlx, hrd, hRd, _⟩ := h.place he
        obtain ⟨a, rfl, _⟩ := rep_map_box hRd
        simp only [St.xstep, St.step, St.at, hlx, setMapF, allocBox_keep hrd, Run.bind, after, Option.some.injEq] at hs
        subst hs
        exact Kept.refl hl
      · refine ⟨sizeOf ((E.get x).getD notype), fun n hn s s' l h hl hs =>
          h.kept_op hl (fun g hg => ⟨_, opOk_setMap ?_⟩) (far hx) (ne hx) hs⟩
        rw [hg] at hn; exact hn
    | idx x i =>
      by_cases hx : R x
      · obtain ⟨v, he, hi⟩ := hsp hx
        refine ⟨0, fun n _ s s' l h hl hs => ?_⟩
        obtain ⟨_, _, _, _, ld, cd, Gd, _, _, _, _, _, _, _, hlx, hrd, hRd, _⟩ := h.place he
        obtain ⟨a, cs, G, rfl, ha, hG, _⟩ := hRd
        have hlen : ¬ cs.length ≤ i := by rw [hG.length]; omega
        simp only [St.xstep, St.step, St.at, hlx, idxF, allocBox_keep hrd, Run.bind, ha, if_neg hlen, after,
          Option.some.injEq] at hs
        subst hs
        exact Kept.refl hl
      · refine ⟨sizeOf ((E.get x).getD notype) + 2, fun n hn s s' l h hl hs =>
          h.kept_op hl (fun g hg => ⟨vector (checkResize notype i g.oldVector), ?_⟩) (far hx) (ne hx) hs⟩
        rw [hg] at hn
        obtain ⟨h1, h2⟩ := hE.get hg
        exact opOk_idx (by simp only [Option.getD_some] at hn; omega) h1 h2
    | key x k =>
      by_cases hx : R x
      · obtain ⟨e, he⟩ := hsp hx
        refine ⟨sizeOf ((E.get x).getD notype), fun n hn s s' l h hl hs => ?_⟩
        obtain ⟨_, _, _, _, ld, cd, Gd, _, _, _, _, _, _, _, hlx, hrd, hRd, _, hnd, _⟩ := h.place he
        obtain ⟨m', _, _, hk, _⟩ := opOk_key (n := n) (k := k) (by rw [he] at hn; exact hn) s.mem ld cd Gd h.1 hrd hRd hnd
        obtain ⟨a, rfl, _⟩ := rep_map_box hRd
        simp only [St.xstep, St.step, St.at, hlx, hk, Run.bind, after, Option.some.injEq] at hs
        subst hs
        exact h.kept_all hl rfl (keyF_reads hrd hk)
      · refine ⟨sizeOf ((E.get x).getD notype), fun n hn s s' l h hl hs =>
          h.kept_op hl (fun g hg => ⟨_, opOk_key ?_⟩) (far hx) (ne hx) hs⟩
        rw [hg] at hn; exact hn
    | erase x k =>
      exact ⟨sizeOf ((E.get x).getD notype), fun n hn s s' l h hl hs => h.kept_erase hn hl hsp hs⟩
    | assign x y =>
      cases hy : E.get y with
      | none =>
        refine ⟨0, fun n _ s s' l h hl hs => ?_⟩
        simp only [St.xstep, St.step, h.loc_none hy, after, Option.some.injEq] at hs
        subst hs
        exact Kept.refl hl
      | some gs =>
        cases hx : E.get x with
        | none =>
          refine ⟨0, fun n _ s s' l h hl hs => ?_⟩
          obtain ⟨_, _, _, _, ls, cs, Gs, _, _, _, _, _, _, _, hly, -⟩ := h.place hy
          simp only [St.xstep, St.step, hly] at hs
          exact h.kept_absent hl hx hs
        | some gd =>
          refine ⟨sizeOf gs + sizeOf gd + 1, fun n hn s s' l h hl hs => ?_⟩
          obtain ⟨hws, hfs⟩ := hE.get hy
          obtain ⟨hwd, hfd⟩ := hE.get hx
          obtain ⟨r, hr⟩ := from_gc_ok gs hfs hws gd
          obtain ⟨ls, ld, cs, cd, Gs, Gd, hly, hlx, P, _⟩ := h.pair hx hy hop
          obtain ⟨m', c', F', h3, hu, _⟩ := fromF_spec ip n gs gd (by omega) hfs hwd hfd _ _ _ _ _ _ _ _ P hr
          simp only [St.xstep, St.step, hly, St.at, hlx, h3, Run.bind, after, Option.some.injEq] at hs
          subst hs
          exact h.kept_upd hl hx hlx P.dst P.dstRep hu (far hsp) (ne hsp)
  | call x op =>
    obtain ⟨hin, ha, hg⟩ := hop
    cases hx : E.get x with
    | none => exact ⟨0, fun n _ s s' l h hl hs => h.kept_absent hl hx hs⟩
    | some g =>
      obtain ⟨hw, hf⟩ := hE.get hx
      obtain ⟨N, hN⟩ := callOk (ip := ip) hin hw hf
      refine ⟨N, fun n hn s s' l h hl hs => h.kept_ends (r := GC.step op) hl (fun g1 h1 => ?_) (far hsp) (ne hsp) hs⟩
      rw [hx] at h1
      injection h1 with h1
      subst h1
      obtain ⟨g', h2, _⟩ := hg g hx
      exact ⟨⟨g', h2⟩, fun m d c F h3 h4 h5 h6 _ _ => hN n hn m d c F h3 h4 h5 h6⟩
  | merge x y =>
    cases hy : E.get y with
    | none =>
      refine ⟨0, fun n _ s s' l h hl hs => ?_⟩
      simp only [St.xstep, h.loc_none hy, after, Option.some.injEq] at hs
      subst hs
      exact Kept.refl hl
    | some gs =>
      cases hx : E.get x with
      | none =>
        refine ⟨0, fun n _ s s' l h hl hs => ?_⟩
        obtain ⟨_, _, _, _, ls, cs, Gs, _, _, _, _, _, _, _, hly, -⟩ := h.place hy
        simp only [St.xstep, hly] at hs
        exact h.kept_absent hl hx hs
      | some gd =>
        refine ⟨sizeOf gs + sizeOf gd + 1, fun n hn s s' l h hl hs => ?_⟩
        obtain ⟨hws, hfs⟩ := hE.get hy
        obtain ⟨hwd, hfd⟩ := hE.get hx
        obtain ⟨ls, ld, cs, cd, Gs, Gd, hly, hlx, P, _⟩ := h.pair hx hy hop
        simp only [St.xstep, hly] at hs
        refine h.kept_ends (r := merge gs) hl (fun g1 h1 => ?_) (far hsp) (ne hsp) hs
        rw [hx] at h1
        injection h1 with h1
        subst h1
        obtain ⟨g', hg', _⟩ := merge_state hws hfs hwd hfd
        refine ⟨⟨g', hg'⟩, fun m d c F _ h4 h5 _ h7 h8 => ?_⟩
        subst h8
        rw [hlx] at h7; injection h7 with h7; subst h7
        have hPd := P.dst
        rw [h4] at hPd; injection hPd with hPd; subst hPd
        have hFF := Rep.unique.1 _ _ _ _ h5 P.dstRep
        have : F = Gd := funext fun b => propext (hFF b)
        subst this
        exact mergeF_spec (ip := ip) (n := n) (by omega) hws hfs hwd hfd P

theorem xrun_kept (ip : Nat → Nat → Bool) {R : Place → Prop} {p : Place} (hR : ∀ x, Above x p → R x) :
    ∀ (ops : List XOp) (E : Vals), Good E → OkRun E ops → SparesRun R p E ops →
    ∃ N, ∀ n, N ≤ n → ∀ s l, Holds s E → s.loc p = some l → ∃ s', Holds s' (ops.foldl Vals.xstep E) ∧
      St.xrun ip n ops s = .ok s'.mem s'.env ∧ Kept (R p) s s' p l
  | [], E, _, _, _ => ⟨0, fun n _ s l h hl => ⟨s, h, rfl, Kept.refl hl⟩⟩
  | op :: ops, E, hE, hops, hsp => by
    obtain ⟨N1, h1⟩ := Holds.xstep ip hE hops.1
    obtain ⟨N2, h2⟩ := Holds.kept_step ip hE hops.1 hR hsp.1
    obtain ⟨N3, h3⟩ := xrun_kept ip hR ops _ (hE.xstep hops.1) hops.2 hsp.2
    refine ⟨max N1 (max N2 N3), fun n hn s l h hl => ?_⟩
    obtain ⟨s1, hs1, hh1⟩ := h1 n (by omega) s h
    obtain ⟨k1, k2⟩ := h2 n (by omega) s s1 l h hl hs1
    obtain ⟨s2, hh2, hr2, k3, k4⟩ := h3 n (by omega) s1 l hh1 k1
    exact ⟨s2, hh2, by rw [xrun_cons ip _ hs1, hr2], k3, fun hp => by rw [k4 hp, k2 hp]⟩

theorem OkRun.append : ∀ {ops ops' : List XOp} {E : Vals}, OkRun E (ops ++ ops') →
    OkRun E ops ∧ OkRun (ops.foldl Vals.xstep E) ops'
  | [], _, _, h => ⟨trivial, h⟩
  | _ :: _, _, _, h => ⟨⟨h.1, (OkRun.append h.2).1⟩, (OkRun.append h.2).2⟩

theorem good_xrun : ∀ (ops : List XOp) (E : Vals), Good E → OkRun E ops → Good (ops.foldl Vals.xstep E)
  | [], _, h, _ => h
  | _ :: ops, _, h, ho => good_xrun ops _ (h.xstep ho.1) ho.2

/-- A program up to the point where it takes a reference to `p`, and the rest of it. -/
theorem two_parts (ip : Nat → Nat → Bool) {R : Place → Prop} {p : Place} (hR : ∀ x, Above x p → R x)
    (before rest : List XOp) (hops : OkRun (fun _ => none) (before ++ rest)) {g : GC}
    (hp : (before.foldl Vals.xstep fun _ => none).get p = some g)
    (hsp : SparesRun R p (before.foldl Vals.xstep fun _ => none) rest) :
    ∃ N, ∀ n, N ≤ n → ∃ m env m' env' l, St.xrun ip n before St.init = .ok m env ∧
      St.xrun ip n (before ++ rest) St.init = .ok m' env' ∧ St.loc ⟨m, env⟩ p = some l ∧
      Holds ⟨m', env'⟩ ((before ++ rest).foldl Vals.xstep fun _ => none) ∧ Kept (R p) ⟨m, env⟩ ⟨m', env'⟩ p l := by
  obtain ⟨h1, h2⟩ := OkRun.append hops
  obtain ⟨N1, k1⟩ := xrun_holds ip before _ good_init h1
  obtain ⟨N2, k2⟩ := xrun_kept ip hR rest _ (good_xrun before _ good_init h1) h2 hsp
  refine ⟨max N1 N2, fun n hn => ?_⟩
  obtain ⟨s, hs, hr⟩ := k1 n (by omega) _ holds_init
  obtain ⟨_, _, _, _, l, _, _, _, _, _, _, _, _, _, hl, _⟩ := hs.place hp
  obtain ⟨s', hs', hr', hk⟩ := k2 n (by omega) s l hs hl
  have h0 := hr []
  rw [List.append_nil, St.xrun] at h0
  refine ⟨s.mem, s.env, s'.mem, s'.env, l, h0, by rw [hr, hr'], hl, ?_, hk⟩
  rw [List.foldl_append]
  exact hs'

/-- C120.  A reference to a container, taken at some point of a program, is a reference to the container at the same place
afterwards, with the value it has then, provided that the calls in between are not made on containers it is inside of.
Adding, looking up and removing other entries of a MAP it is inside of, and looking at elements of a VECTOR it is inside
of, do no harm either. -/
theorem C120_reference (ip : Nat → Nat → Bool) (before rest : List XOp) (hops : OkRun (fun _ => none) (before ++ rest))
    (p : Place) (g : GC) (hp : (before.foldl Vals.xstep fun _ => none).get p = some g)
    (hsp : SparesRun (Above · p) p (before.foldl Vals.xstep fun _ => none) rest) :
    ∃ N, ∀ n, N ≤ n → ∃ m env m' env' r, St.xrun ip n before St.init = .ok m env ∧
      St.xrun ip n (before ++ rest) St.init = .ok m' env' ∧
      St.loc ⟨m, env⟩ p = some r ∧ St.loc ⟨m', env'⟩ p = some r ∧
      ∃ g' c F, ((before ++ rest).foldl Vals.xstep fun _ => none).get p = some g' ∧ m'.read r = some c ∧ Rep m' g' c F := by
  obtain ⟨N, h⟩ := two_parts ip (R := (Above · p)) (fun _ h => h) before rest hops hp hsp
  refine ⟨N, fun n hn => ?_⟩
  obtain ⟨m, env, m', env', l, h1, h2, h3, h4, h5, _⟩ := h n hn
  obtain ⟨g', hg'⟩ := h4.get_of_loc h5
  obtain ⟨_, _, _, _, l2, c, F, _, _, _, _, _, _, _, hl2, hr, hR, _⟩ := h4.place hg'
  rw [h5] at hl2; injection hl2 with hl2; subst hl2
  exact ⟨m, env, m', env', l, h1, h2, h3, h5, g', c, F, hg', hr, hR⟩

/-- C120.  When the calls in between are not made on the container itself either, it has the same type and the same
payload, at the same address: references to the payload are good as well. -/
theorem C120_payload (ip : Nat → Nat → Bool) (before rest : List XOp) (hops : OkRun (fun _ => none) (before ++ rest))
    (p : Place) (g : GC) (hp : (before.foldl Vals.xstep fun _ => none).get p = some g)
    (hsp : SparesRun (AtOrAbove · p) p (before.foldl Vals.xstep fun _ => none) rest) :
    ∃ N, ∀ n, N ≤ n → ∃ m env m' env' r, St.xrun ip n before St.init = .ok m env ∧
      St.xrun ip n (before ++ rest) St.init = .ok m' env' ∧
      St.loc ⟨m, env⟩ p = some r ∧ St.loc ⟨m', env'⟩ p = some r ∧
      ∃ c, m.read r = some c ∧ m'.read r = some c ∧ ∀ t a, c = .box t a → m.blk a ≠ none ∧ m'.blk a ≠ none := by
  obtain ⟨N, h⟩ := two_parts ip (R := (AtOrAbove · p)) (fun _ h => h.1) before rest hops hp hsp
  obtain ⟨N', h'⟩ := xrun_holds ip before _ good_init (OkRun.append hops).1
  refine ⟨max N N', fun n hn => ?_⟩
  obtain ⟨m, env, m', env', l, h1, h2, h3, h4, h5, h6⟩ := h n (by omega)
  obtain ⟨s, hs, hr⟩ := h' n (by omega) _ holds_init
  have h0 := hr []
  rw [List.append_nil, St.xrun, h1] at h0
  injection h0 with e1 e2
  subst e1; subst e2
  have h6 := h6 ⟨rfl, List.prefix_refl _⟩
  have live : ∀ {m : Mem} {g : GC} {c : Cell} {F : Addr → Prop}, Rep m g c F → ∀ t a, c = .box t a → m.blk a ≠ none := by
    intro m g c F hR t a hc
    subst hc
    have : F a := by
      by_cases hv : ∃ v, g = vector v
      · obtain ⟨v, rfl⟩ := hv
        obtain ⟨b, hc, hF⟩ := rep_vector_box hR
        injection hc with _ hc
        subst hc; exact hF
      · by_cases hm : ∃ e, g = map e
        · obtain ⟨e, rfl⟩ := hm
          obtain ⟨b, hc, hF⟩ := rep_map_box hR
          injection hc with _ hc
          subst hc; exact hF
        · rw [rep_leaf (fun v e => hv ⟨v, e⟩) (fun v e => hm ⟨v, e⟩)] at hR
          split at hR
          · simp at hR
          · obtain ⟨a', hc, _, hF⟩ := hR
            injection hc with _ hc
            exact (hF a).2 hc
    exact Rep.live.1 g _ F hR a this
  obtain ⟨_, _, _, _, l2, c, F, _, _, _, _, _, _, _, hl2, hrc, hR, _⟩ := hs.place hp
  rw [h3] at hl2; injection hl2 with hl2; subst hl2
  obtain ⟨g', hg'⟩ := h4.get_of_loc h5
  obtain ⟨_, _, _, _, l3, c3, F3, _, _, _, _, _, _, _, hl3, hrc3, hR3, _⟩ := h4.place hg'
  rw [h5] at hl3; injection hl3 with hl3; subst hl3
  have hcc : c3 = c := by
    have : m'.read l = s.mem.read l := h6
    rw [hrc, hrc3] at this
    injection this
  subst hcc
  exact ⟨s.mem, s.env, m', env', l, h1, h2, h3, h5, c3, hrc, hrc3, fun t a hc => ⟨live hR t a hc, live hR3 t a hc⟩⟩

/-- What is inside a container that exists is in its blocks, wherever the container is. -/
theorem Holds.inside {s : St} {E : Vals} {x p : Place} {gd gp : GC} {ld lp : Loc} {cd : Cell} {Gd : Addr → Prop} (h : Holds s E)
    (hx : E.get x = some gd) (hp : E.get p = some gp) (hab : Above x p) (hlx : s.loc x = some ld) (hlp : s.loc p = some lp)
    (hrd : s.mem.read ld = some cd) (hRd : Rep s.mem gd cd Gd) : Gd lp.addr := by
  obtain ⟨⟨hv, r, hr⟩, hne⟩ := hab
  have hr0 : r ≠ [] := by
    rintro rfl
    rw [List.append_nil] at hr
    apply hne
    cases x; cases p
    simp_all
  obtain ⟨g0, a, c, F, ld', cd', Gd', hE, hpx, he, _, _, _, hres, hl, hrd', hRd', _, hnd, _⟩ := h.place hx
  rw [hlx] at hl; injection hl with hl; subst hl
  rw [hrd] at hrd'; injection hrd' with hrd'; subst hrd'
  have hgr : getAt r gd = some gp := by
    unfold Vals.get at hp
    rw [← hv, hE] at hp
    simp only [Option.bind_some] at hp
    rw [← hr, GC.getAt_append, hpx] at hp
    exact hp
  have hresp : resolve s.mem r ld = some lp := by
    unfold St.loc at hlp
    rw [← hv, he] at hlp
    simp only [Option.bind_some] at hlp
    rw [← hr, resolve_append, hres] at hlp
    exact hlp
  exact (Rep.unique.1 _ _ _ _ hRd hRd' _).2 (Rep.at_inside r h.1 hrd hRd' hnd hgr hr0 hresp)

/-- C120.  Afterwards there is nothing where the reference points when a container it is inside of is cleared, the variable
goes, or the entry is removed. -/
theorem C120_gone (ip : Nat → Nat → Bool) (before : List XOp) (hops : OkRun (fun _ => none) before)
    (p : Place) (g : GC) (hp : (before.foldl Vals.xstep fun _ => none).get p = some g) (op : XOp) (hop : op.Ends p) :
    ∃ N, ∀ n, N ≤ n → ∃ m env m' env' r, St.xrun ip n before St.init = .ok m env ∧
      St.xrun ip n (before ++ [op]) St.init = .ok m' env' ∧ St.loc ⟨m, env⟩ p = some r ∧ m'.read r = none := by
  obtain ⟨N, h⟩ := xrun_holds ip before _ good_init hops
  have gone : ∀ {m : Mem} {r : Loc}, m.blk r.addr = none → m.read r = none := fun h => by simp [Mem.read, h]
  generalize hEE : (before.foldl Vals.xstep fun _ => none) = E at *
  cases op with
  | old op =>
    cases op with
    | clear x =>
      refine ⟨max N (sizeOf ((E.get x).getD notype)), fun n hn => ?_⟩
      obtain ⟨s, hs, hr⟩ := h n (by omega) _ holds_init
      have h0 := hr []
      rw [List.append_nil, St.xrun] at h0
      obtain ⟨_, _, _, _, l, _, _, _, _, _, _, _, _, _, hl, _⟩ := hs.place hp
      obtain ⟨gx, hgx⟩ : ∃ gx, E.get x = some gx := by
        obtain ⟨⟨hv, q, hq⟩, _⟩ := hop
        unfold Vals.get at hp ⊢
        rw [hv]
        cases hE : E p.var with
        | none => rw [hE] at hp; simp at hp
        | some g0 =>
          rw [hE] at hp
          simp only [Option.bind_some] at hp ⊢
          rw [← hq, GC.getAt_append] at hp
          cases hx : getAt x.path g0 with
          | none => rw [hx] at hp; simp at hp
          | some gx => exact ⟨gx, rfl⟩
      obtain ⟨_, _, _, _, ld, cd, Gd, _, _, _, _, _, _, _, hlx, hrd, hRd, _, hnd, _⟩ := hs.place hgx
      obtain ⟨m', hc, hu, _, _⟩ := clearAt_spec hs.1 hrd hRd (n := n) (by rw [hgx] at hn; simp only [Option.getD_some] at hn; omega) hnd
      have hin := hs.inside hgx hp hop hlx hl hrd hRd
      refine ⟨s.mem, s.env, m', s.env, l, h0, ?_, hl, gone (hu.gone _ hin id)⟩
      rw [hr, St.xrun]
      simp only [St.xstep, St.step, St.at, hlx, hc, Run.bind, St.xrun]
    | destroy x =>
      have hx : x = p.var := hop
      subst hx
      refine ⟨max N (sizeOf ((E p.var).getD notype)), fun n hn => ?_⟩
      obtain ⟨s, hs, hr⟩ := h n (by omega) _ holds_init
      have h0 := hr []
      rw [List.append_nil, St.xrun] at h0
      obtain ⟨g0, a, c, F, l, _, _, hE, hpx, he, hra, hRa, hna, _, hl, _, _, _, _, hin, _⟩ := hs.place hp
      obtain ⟨m', hc, hu, _, _⟩ := clearAt_spec hs.1 hra hRa (n := n) (by rw [hE] at hn; simp only [Option.getD_some] at hn; omega) hna
      refine ⟨s.mem, s.env, m'.upd a none, fun y => if y = p.var then none else s.env y, l, h0, ?_, hl, gone ?_⟩
      · rw [hr, St.xrun]
        simp only [St.xstep, St.step, he, hc, Run.bind, St.xrun]
      · rw [blk_upd]
        split
        · rfl
        · rename_i hne
          rcases hin with rfl | hin
          · exact absurd rfl hne
          · exact hu.gone _ hin id
    | erase x k =>
      refine ⟨max N (sizeOf ((E.get x).getD notype)), fun n hn => ?_⟩
      obtain ⟨s, hs, hr⟩ := h n (by omega) _ holds_init
      have h0 := hr []
      rw [List.append_nil, St.xrun] at h0
      obtain ⟨_, _, _, _, l, _, _, _, _, _, _, _, _, _, hl, _⟩ := hs.place hp
      obtain ⟨e, y, hgx, hk⟩ : ∃ e y, E.get x = some (map e) ∧ mfind k e = some y := by
        obtain ⟨hv, q, hq⟩ := hop
        unfold Vals.get at hp ⊢
        simp only at hv hq
        rw [hv]
        cases hE : E p.var with
        | none => rw [hE] at hp; simp at hp
        | some g0 =>
          rw [hE] at hp
          simp only [Option.bind_some] at hp ⊢
          rw [← hq, GC.getAt_append, GC.getAt_append] at hp
          cases hx : getAt x.path g0 with
          | none => rw [hx] at hp; simp at hp
          | some gx =>
            rw [hx] at hp
            simp only [Option.bind_some] at hp
            cases gx <;> simp only [getAt, Option.bind_none, reduceCtorEq] at hp
            rename_i e
            cases hk : mfind k e with
            | none => rw [hk] at hp; simp at hp
            | some y => exact ⟨e, y, rfl, hk⟩
      obtain ⟨_, _, _, _, ld, cd, Gd, hE0, hp0, he0, _, _, _, hres, hlx, hrd, hRd, _, hnd, _⟩ := hs.place hgx
      obtain ⟨a, es, G, rfl, ha, hG, hks, hna, hF⟩ := id hRd
      obtain ⟨c1, G1, H1, hc1, hy1, hr1, hd1, hF1⟩ := repM_erase hG hk
      have hsz : sizeOf y ≤ n := by
        have := sizeOf_oldMap (g := map e) hk
        rw [hgx] at hn
        simp only [Option.getD_some] at hn
        omega
      obtain ⟨m1, he1, hf1⟩ := freeF_spec.1 y n s.mem c1 G1 hsz hy1
      have hrk : s.mem.read ⟨a, .key k⟩ = some c1 := by simp [Mem.read, ha, Block.get, hc1]
      have hgk : E.get ⟨x.var, x.path ++ [.key k]⟩ = some y := by
        simp only [Vals.get, hE0, Option.bind_some, GC.getAt_append, hp0, getAt, hk]
      have hlk : s.loc ⟨x.var, x.path ++ [.key k]⟩ = some ⟨a, .key k⟩ := by
        simp only [St.loc, he0, Option.bind_some, resolve_append, hres, resolve, hrd, hrk]
      refine ⟨s.mem, s.env, m1.upd a (some (.map (krem k es))), s.env, l, h0, ?_, hl, ?_⟩
      · rw [hr, St.xrun]
        simp only [St.xstep, St.step, St.at, hlx, eraseF, hrd, ha, hc1, he1, Run.bind, St.xrun]
      · by_cases hpe : (⟨x.var, x.path ++ [.key k]⟩ : Place) = p
        · -- the entry itself
          have : l = ⟨a, .key k⟩ := by
            rw [← hpe, hlk] at hl
            injection hl with hl
            exact hl.symm
          subst this
          have hno : mfind k (merase k e) = none := mfind_merase_same k e hks
          simp only [Mem.read, blk_upd, if_true, Option.bind_some, Block.get]
          exact hr1.none hno
        · have hin := hs.inside hgk hp ⟨hop, hpe⟩ hlk hl hrk hy1
          apply gone
          rw [blk_upd, if_neg]
          · exact hf1.gone _ hin
          · intro e'
            rw [e'] at hin
            exact hna ((hF1 a).2 (Or.inl hin))
    | _ => exact hop.elim
  | call x op => exact hop.elim
  | merge x y => exact hop.elim

/-! ## A program the theorems are about -/

private abbrev ka : Bytes := [97]
private abbrev kb : Bytes := [98]
private abbrev g0 : Place := ⟨0, []⟩
private abbrev ga : Place := ⟨0, [.key ka]⟩
private abbrev gb : Place := ⟨0, [.key kb]⟩

/-- `GC g; g["a"] = "x"; GC & r = g["a"];` -/
private def start : List XOp := [.old (.construct 0), .old (.key g0 ka), .old (.set ga (string [120]))]

/-- `g["b"]; g["b"].push_int(1); GC h(g); r[2]; r[2] = true; g.erase("b");` and the end of `h`. -/
private def more : List XOp :=
  [.old (.key g0 kb), .call gb (.pushInt 1#32), .old (.copyConstruct 1 g0), .old (.idx ga 2),
   .old (.set ⟨0, [.key ka, .idx 2]⟩ (bool true)), .old (.erase g0 kb), .old (.destroy 1)]

private theorem more_ok : OkRun (fun _ => none) (start ++ more) := by
  refine ⟨trivial, trivial, ⟨by simp, by simp, trivial, rfl⟩, trivial, ⟨rfl, trivial, fun g hg => ?_⟩, trivial,
    (by show 2 + 1 < 2 ^ 32; omega), ⟨by simp, by simp, trivial, rfl⟩, trivial, trivial, trivial⟩
  have h : some g = some notype := hg.symm.trans rfl
  injection h with this
  subst this
  exact ⟨_, rfl, rfl⟩

private theorem more_spares : SparesRun (Above · ga) ga (start.foldl Vals.xstep fun _ => none) more := by
  refine ⟨fun _ => ⟨_, rfl⟩, ?_, trivial, ?_, ?_, ?_, ?_, trivial⟩
  · rintro ⟨⟨_, h⟩, _⟩; revert h; decide
  · rintro ⟨_, h⟩; exact absurd rfl h
  · rintro ⟨⟨_, h⟩, _⟩; revert h; decide
  · rintro ⟨_, h⟩; revert h; decide
  · show (1 : Nat) ≠ 0; decide

/-- `r` is `g["a"]` all the time; at the end it is a VECTOR whose last element is `true`. -/
example : ∃ N, ∀ n, N ≤ n → ∃ m env m' env' r, St.xrun (fun _ _ => false) n start St.init = .ok m env ∧
    St.xrun (fun _ _ => false) n (start ++ more) St.init = .ok m' env' ∧
    St.loc ⟨m, env⟩ ga = some r ∧ St.loc ⟨m', env'⟩ ga = some r ∧
    ∃ g' c F, ((start ++ more).foldl Vals.xstep fun _ => none).get ga = some g' ∧ m'.read r = some c ∧ Rep m' g' c F :=
  C120_reference _ start more more_ok ga (string [120]) rfl more_spares

example : ((start ++ more).foldl Vals.xstep fun _ => none).get ga = some (vector [notype, notype, bool true]) := rfl

/-- `g.erase("a");`: `r` points to nothing. -/
example : ∃ N, ∀ n, N ≤ n → ∃ m env m' env' r, St.xrun (fun _ _ => false) n start St.init = .ok m env ∧
    St.xrun (fun _ _ => false) n (start ++ [.old (.erase g0 ka)]) St.init = .ok m' env' ∧
    St.loc ⟨m, env⟩ ga = some r ∧ m'.read r = none :=
  C120_gone _ start (OkRun.append more_ok).1 ga (string [120]) rfl _ ⟨rfl, List.prefix_refl _⟩

/-- `std::string & t = g["a"].get_string(); g["b"]; GC h(g);` -/
example : ∃ N, ∀ n, N ≤ n → ∃ m env m' env' r, St.xrun (fun _ _ => true) n start St.init = .ok m env ∧
    St.xrun (fun _ _ => true) n (start ++ more.take 3) St.init = .ok m' env' ∧
    St.loc ⟨m, env⟩ ga = some r ∧ St.loc ⟨m', env'⟩ ga = some r ∧
    ∃ c, m.read r = some c ∧ m'.read r = some c ∧ ∀ t a, c = .box t a → m.blk a ≠ none ∧ m'.blk a ≠ none :=
  C120_payload _ start (more.take 3) (by
      have h : start ++ more = (start ++ more.take 3) ++ more.drop 3 := rfl
      exact (OkRun.append (h ▸ more_ok)).1) ga (string [120]) rfl
    ⟨fun _ => ⟨_, rfl⟩, (by rintro ⟨_, h⟩; revert h; decide), trivial, trivial⟩

end Heap
end GCV
