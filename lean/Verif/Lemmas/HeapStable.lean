import Verif.Spec.HeapStable
import Verif.Props.HeapCalls

/-! # Where containers are, before and after a step -/

namespace GCV
namespace Heap
open GC

variable {m m' m1 m2 : Mem} {g x y : GC} {c c' : Cell} {F F' G H : Addr → Prop} {d l : Loc} {a b : Addr}

/-- What is inside a container is in its blocks. -/
theorem Rep.at_inside : ∀ (p : List Sel) {l l' : Loc} {g y : GC} {c : Cell} {F : Addr → Prop}, Wf m → m.read l = some c →
    Rep m g c F → ¬ F l.addr → getAt p g = some y → p ≠ [] → resolve m p l = some l' → F l'.addr
  | [], _, _, _, _, _, _, _, _, _, _, _, h, _ => absurd rfl h
  | .idx i :: p, l, l', g, y, c, F, hw, hr, hg, hl, hy, _, hres => by
    cases g with
    | vector v =>
      simp only [getAt] at hy
      cases hx : v[i]? with
      | none => rw [hx] at hy; simp at hy
      | some x =>
        rw [hx] at hy
        simp only [Option.bind_some] at hy
        obtain ⟨a, rfl, hFa⟩ := rep_vector_box hg
        obtain ⟨c1, G1, hr1, hx1, hsub1, hna1, _⟩ := hg.elem hw hx
        obtain ⟨l2, _, _, hres2, _, _, _, _, hin2, _⟩ := Rep.at p hw hr1 hx1 hna1 hy
        rw [resolve, hr] at hres
        simp only [hr1] at hres
        rw [hres] at hres2
        injection hres2 with hres2
        rcases hin2 with h | h
        · rw [hres2, h]; exact hFa
        · rw [hres2]; exact hsub1 _ h
    | _ => simp [getAt] at hy
  | .key k :: p, l, l', g, y, c, F, hw, hr, hg, hl, hy, _, hres => by
    cases g with
    | map v =>
      simp only [getAt] at hy
      cases hx : mfind k v with
      | none => rw [hx] at hy; simp at hy
      | some x =>
        rw [hx] at hy
        simp only [Option.bind_some] at hy
        obtain ⟨a, rfl, hFa⟩ := rep_map_box hg
        obtain ⟨c1, G1, hr1, hx1, hsub1, hna1, _⟩ := hg.entry hw hx
        obtain ⟨l2, _, _, hres2, _, _, _, _, hin2, _⟩ := Rep.at p hw hr1 hx1 hna1 hy
        rw [resolve, hr] at hres
        simp only [hr1] at hres
        rw [hres] at hres2
        injection hres2 with hres2
        rcases hin2 with h | h
        · rw [hres2, h]; exact hFa
        · rw [hres2]; exact hsub1 _ h
    | _ => simp [getAt] at hy

/-- A container that is not at or inside `x` is not among what belongs to `x`. -/
theorem Holds.away {s : St} {E : Vals} {x q : Place} {gd gq : GC} {ld lq : Loc} {cd : Cell} {Gd : Addr → Prop} (h : Holds s E)
    (hx : E.get x = some gd) (hq : E.get q = some gq) (hn : ¬ AtOrAbove x q) (hlx : s.loc x = some ld)
    (hlq : s.loc q = some lq) (hrd : s.mem.read ld = some cd) (hRd : Rep s.mem gd cd Gd) : lq ≠ ld ∧ ¬ Gd lq.addr := by
  by_cases hap : Apart x q
  · obtain ⟨ls, ld', cs, cd', Gs, Gd', h1, h2, P, _⟩ := h.pair hx hq hap
    rw [hlq] at h1; injection h1 with h1; subst h1
    rw [hlx] at h2; injection h2 with h2; subst h2
    have := P.dst
    rw [hrd] at this; injection this with this; subst this
    exact ⟨P.ne, fun hb => P.fds ((Rep.unique.1 _ _ _ _ hRd P.dstRep _).1 hb)⟩
  · -- `q` is above `x`
    simp only [Apart, Classical.not_imp, not_and, Classical.not_not] at hap
    obtain ⟨hv, hpre⟩ := hap
    have hnx : ¬ x.path <+: q.path := fun e => hn ⟨hv, e⟩
    obtain ⟨r, hr⟩ := hpre hnx
    have hr0 : r ≠ [] := by
      rintro rfl
      rw [List.append_nil] at hr
      exact hnx (hr ▸ List.prefix_refl _)
    obtain ⟨g0, a, c, F, lq', cq, Gq, hE, hpq, he, hra, hRa, hna, hres, hl, hrq, hRq, hsub, hnl, hin, _⟩ := h.place hq
    rw [hlq] at hl; injection hl with hl; subst hl
    have hgr : getAt r gq = some gd := by
      unfold Vals.get at hx
      rw [hv, hE] at hx
      simp only [Option.bind_some] at hx
      rw [← hr, GC.getAt_append, hpq] at hx
      exact hx
    have hresd : resolve s.mem r lq = some ld := by
      unfold St.loc at hlx
      rw [hv, he] at hlx
      simp only [Option.bind_some] at hlx
      rw [← hr, resolve_append, hres] at hlx
      exact hlx
    obtain ⟨ld', cd', Gd', hres', hrd', hRd', hsub', _⟩ := Rep.at r h.1 hrq hRq hnl hgr
    rw [hresd] at hres'; injection hres' with hres'; subst hres'
    rw [hrd] at hrd'; injection hrd' with hrd'; subst hrd'
    refine ⟨?_, fun hb => hnl (hsub' _ ((Rep.unique.1 _ _ _ _ hRd hRd' _).1 hb))⟩
    rintro rfl
    exact hnl (Rep.at_inside r h.1 hrq hRq hnl hgr hr0 hresd)

/-- A path leads to the same place when what it passes is unchanged and what it ends in is still there. -/
theorem resolve_keep : ∀ (p : List Sel) {l l' : Loc},
    (∀ q r lq c, p = q ++ r → resolve m q l = some lq → m.read lq = some c →
      (r ≠ [] → m'.read lq = some c) ∧ ∃ c', m'.read lq = some c') →
    resolve m p l = some l' → resolve m' p l = some l'
  | [], _, _, _, h => h
  | .idx i :: p, l, l', hk, h => by
    rw [resolve] at h ⊢
    cases hr : m.read l with
    | none => rw [hr] at h; simp at h
    | some c =>
      rw [(hk [] _ l c rfl rfl hr).1 (by simp)]
      rw [hr] at h
      cases c with
      | imm g => simp at h
      | box t a =>
        cases t <;> first | (simp at h; done) | skip
        simp only at h ⊢
        cases hr1 : m.read ⟨a, .idx i⟩ with
        | none => rw [hr1] at h; simp at h
        | some c1 =>
          have hstep : resolve m [.idx i] l = some ⟨a, .idx i⟩ := by simp [resolve, hr, hr1]
          obtain ⟨c', hc'⟩ := (hk [.idx i] p _ c1 rfl hstep hr1).2
          rw [hc']
          rw [hr1] at h
          refine resolve_keep p (fun q r lq c e hq => hk (.idx i :: q) r lq c (by rw [e]; rfl) ?_) h
          rw [resolve, hr]; simp only [hr1]; exact hq
  | .key k :: p, l, l', hk, h => by
    rw [resolve] at h ⊢
    cases hr : m.read l with
    | none => rw [hr] at h; simp at h
    | some c =>
      rw [(hk [] _ l c rfl rfl hr).1 (by simp)]
      rw [hr] at h
      cases c with
      | imm g => simp at h
      | box t a =>
        cases t <;> first | (simp at h; done) | skip
        simp only at h ⊢
        cases hr1 : m.read ⟨a, .key k⟩ with
        | none => rw [hr1] at h; simp at h
        | some c1 =>
          have hstep : resolve m [.key k] l = some ⟨a, .key k⟩ := by simp [resolve, hr, hr1]
          obtain ⟨c', hc'⟩ := (hk [.key k] p _ c1 rfl hstep hr1).2
          rw [hc']
          rw [hr1] at h
          refine resolve_keep p (fun q r lq c e hq => hk (.key k :: q) r lq c (by rw [e]; rfl) ?_) h
          rw [resolve, hr]; simp only [hr1]; exact hq

/-- The container of `p` is where it was and, if `P`, has the payload it had. -/
def Kept (P : Prop) (s s' : St) (p : Place) (l : Loc) : Prop :=
  s'.loc p = some l ∧ (P → s'.mem.read l = s.mem.read l)

theorem Kept.refl {P : Prop} {s : St} {p : Place} (h : s.loc p = some l) : Kept P s s p l := ⟨h, fun _ => rfl⟩

theorem Holds.get_of_loc {s : St} {E : Vals} {p : Place} (h : Holds s E) (hl : s.loc p = some l) : ∃ g, E.get p = some g := by
  cases hg : E.get p with
  | none => rw [h.loc_none hg] at hl; simp at hl
  | some g => exact ⟨g, rfl⟩

theorem Holds.kept {P : Prop} {s s' : St} {E : Vals} {p : Place} (h : Holds s E) (hl : s.loc p = some l)
    (he : s'.env p.var = s.env p.var)
    (hk : ∀ q lq c, q <+: p.path → s.loc ⟨p.var, q⟩ = some lq → s.mem.read lq = some c →
      (q ≠ p.path ∨ P → s'.mem.read lq = some c) ∧ ∃ c', s'.mem.read lq = some c') : Kept P s s' p l := by
  have hl' := hl
  unfold St.loc at hl
  cases ha : s.env p.var with
  | none => rw [ha] at hl; simp at hl
  | some a =>
    rw [ha] at hl
    simp only [Option.bind_some] at hl
    refine ⟨?_, fun hP => ?_⟩
    · unfold St.loc
      rw [he, ha]
      simp only [Option.bind_some]
      refine resolve_keep p.path (fun q r lq c e hq hr => ?_) hl
      have h1 : s.loc ⟨p.var, q⟩ = some lq := by simp only [St.loc, ha, Option.bind_some]; exact hq
      refine ⟨fun hr0 => (hk q lq c ⟨r, e.symm⟩ h1 hr).1 (Or.inl ?_), (hk q lq c ⟨r, e.symm⟩ h1 hr).2⟩
      intro e'
      rw [e'] at e
      exact hr0 (List.append_cancel_left (by rw [List.append_nil]; exact e.symm))
    · obtain ⟨g, hg⟩ := h.get_of_loc hl'
      obtain ⟨_, _, _, _, l2, c, _, _, _, _, _, _, _, _, hl2, hr, _⟩ := h.place hg
      rw [hl'] at hl2; injection hl2 with hl2; subst hl2
      rw [hr]
      exact (hk p.path l c (List.prefix_refl _) hl' hr).1 (Or.inr hP)

/-- Nothing is lost: every container is where it was. -/
theorem Holds.kept_all {P : Prop} {s s' : St} {E : Vals} {p : Place} (h : Holds s E) (hl : s.loc p = some l)
    (he : s'.env p.var = s.env p.var)
    (hk : ∀ lq c, s.mem.read lq = some c → s'.mem.read lq = some c) : Kept P s s' p l :=
  h.kept hl he fun _ _ _ _ _ hr => ⟨fun _ => hk _ _ hr, _, hk _ _ hr⟩

/-- A call on a container changes it and what is inside. -/
theorem Holds.kept_upd {P : Prop} {s : St} {E : Vals} {x p : Place} {gd : GC} {ld : Loc} {cd c'' : Cell} {Gd Gd' : Addr → Prop}
    (h : Holds s E) (hl : s.loc p = some l) (hx : E.get x = some gd) (hlx : s.loc x = some ld)
    (hrd : s.mem.read ld = some cd) (hRd : Rep s.mem gd cd Gd) (hu : Upd s.mem m' ld c'' Gd Gd')
    (hn : ¬ Above x p) (hP : P → x ≠ p) : Kept P s ⟨m', s.env⟩ p l := by
  refine h.kept hl rfl fun q lq c hq hlq hr => ?_
  obtain ⟨gq, hgq⟩ := h.get_of_loc hlq
  by_cases hat : AtOrAbove x ⟨p.var, q⟩
  · -- then `x`, `q` and `p` are the same
    have hxp : x = p := Classical.byContradiction fun e => hn ⟨⟨hat.1, hat.2.trans hq⟩, e⟩
    subst hxp
    have hqe : q = x.path := List.IsPrefix.eq_of_length_le hq hat.2.length_le
    refine ⟨fun hc => ?_, ?_⟩
    · rcases hc with hc | hc
      · exact absurd hqe hc
      · exact absurd rfl (hP hc)
    · subst hqe
      rw [hlx] at hlq; injection hlq with hlq; subst hlq
      exact ⟨_, hu.read hrd⟩
  · obtain ⟨h1, h2⟩ := h.away hx hgq hat hlx hlq hrd hRd
    have := hu.read_ne h.1 hr h1 h2
    exact ⟨fun _ => this, _, this⟩

/-- A call at a place that does not exist. -/
theorem Holds.kept_absent {P : Prop} {s s' : St} {E : Vals} {x p : Place} {f : Loc → Mem → Run Unit} (h : Holds s E)
    (hl : s.loc p = some l) (hx : E.get x = none) (hs : after s (s.at x f) = some s') : Kept P s s' p l := by
  simp only [St.at, h.loc_none hx, after, Option.some.injEq] at hs
  subst hs
  exact Kept.refl hl

/-- A call on another container. -/
theorem Holds.kept_ends {P : Prop} {s s' : St} {E : Vals} {x p : Place} {f : Loc → Mem → Run Unit} {r : GC → Res Unit}
    (h : Holds s E) (hl : s.loc p = some l)
    (hf : ∀ g, E.get x = some g → (∃ g', (r g).state? = some g') ∧
      ∀ m d c F, Wf m → m.read d = some c → Rep m g c F → ¬ F d.addr → s.loc x = some d → m = s.mem → Ends m d F (f d m) (r g))
    (hn : ¬ Above x p) (hP : P → x ≠ p) (hs : after s (s.at x f) = some s') : Kept P s s' p l := by
  cases hx : E.get x with
  | none => exact h.kept_absent hl hx hs
  | some g =>
    obtain ⟨⟨g', hg'⟩, hrun⟩ := hf g hx
    obtain ⟨_, _, _, _, ld, cd, Gd, _, _, _, _, _, _, _, hlx, hrd, hRd, _, hnd, _⟩ := h.place hx
    have hE := hrun s.mem ld cd Gd h.1 hrd hRd hnd hlx rfl
    simp only [St.at, hlx] at hs
    cases hr : r g with
    | ok g1 u =>
      rw [hr] at hE
      obtain ⟨m', c', F', he, hu, hR⟩ := hE
      simp only [he, Run.bind, after, Option.some.injEq] at hs
      subst hs
      exact h.kept_upd hl hx hlx hrd hRd hu hn hP
    | throw g1 =>
      rw [hr] at hE
      obtain ⟨m', c', F', he, hu, hR⟩ := hE
      simp only [he, Run.bind, after, Option.some.injEq] at hs
      subst hs
      exact h.kept_upd hl hx hlx hrd hRd hu hn hP
    | ub => rw [hr] at hg'; simp [Res.state?] at hg'
    | diverge => rw [hr] at hg'; simp [Res.state?] at hg'

theorem Holds.kept_op {P : Prop} {s s' : St} {E : Vals} {x p : Place} {f : Loc → Mem → Run Unit} (h : Holds s E)
    (hl : s.loc p = some l) (hf : ∀ g, E.get x = some g → ∃ g', OpOk f g g')
    (hn : ¬ Above x p) (hP : P → x ≠ p) (hs : after s (s.at x f) = some s') : Kept P s s' p l := by
  cases hx : E.get x with
  | none => exact h.kept_absent hl hx hs
  | some g =>
    obtain ⟨g', hg⟩ := hf g hx
    obtain ⟨_, _, _, _, ld, cd, Gd, _, _, _, _, _, _, _, hlx, hrd, hRd, _, hnd, _⟩ := h.place hx
    obtain ⟨m', c', F', he, hu, hR⟩ := hg s.mem ld cd Gd h.1 hrd hRd hnd
    simp only [St.at, hlx, he, Run.bind, after, Option.some.injEq] at hs
    subst hs
    exact h.kept_upd hl hx hlx hrd hRd hu hn hP

theorem kfind_kins {k k' : Bytes} {c0 : Cell} : ∀ {es : List (Bytes × Cell)}, kfind k' es = none → kfind k es = some c →
    kfind k (kins k' c0 es) = some c
  | [], _, h => by simp [kfind] at h
  | (k1, c1) :: r, hn, h => by
    have hk : ¬ k = k' := by rintro rfl; rw [h] at hn; simp at hn
    unfold kins
    split
    · simp only [kfind, hk, if_false]
      exact h
    · simp only [kfind] at h hn ⊢
      split at h
      · rename_i he; simp [he] at h ⊢; exact h
      · rename_i he
        rw [if_neg he]
        split at hn
        · simp at hn
        · exact kfind_kins hn h

theorem kfind_krem {k k' : Bytes} (hk : k ≠ k') : ∀ {es : List (Bytes × Cell)}, kfind k (krem k' es) = kfind k es
  | [] => rfl
  | (k1, c1) :: r => by
    unfold krem
    split
    · rename_i he
      subst he
      simp [kfind, hk]
    · simp only [kfind, kfind_krem hk]

/-- `x[k]` on a MAP leaves everything where it is. -/
theorem keyF_reads {n : Nat} {k : Bytes} (hr : m.read d = some (.box .MAP a)) (hs : keyF n d k m = .ok m' ()) :
    ∀ lq c, m.read lq = some c → m'.read lq = some c := by
  intro lq c hq
  simp only [keyF, allocBox_keep hr, Run.bind, keyAt] at hs
  split at hs
  · rename_i es hb
    split at hs
    · injection hs with hs; subst hs; exact hq
    · rename_i hk
      injection hs with hs
      subst hs
      unfold Mem.read at hq ⊢
      rw [blk_upd]
      by_cases ha : lq.addr = a
      · rw [if_pos ha]
        rw [ha, hb] at hq
        cases hsl : lq.slot <;> rw [hsl] at hq <;> simp only [Option.bind_some, Block.get, reduceCtorEq] at hq ⊢
        exact kfind_kins hk hq
      · rw [if_neg ha]; exact hq
  · simp at hs

end Heap
end GCV
