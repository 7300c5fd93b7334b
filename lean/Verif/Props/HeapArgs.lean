import Verif.Spec.HeapArgs
import Verif.Lemmas.HeapArgs
import Verif.Lemmas.HeapAlias

/-!
# Setters and `push_*` whose argument is a reference into a container (C123)

`x.set_string( y.get_string() )`, `x.set_vec_int( x["a"].get_vec_int() )`, `x.push_string( x[3].get_vec_string()[2] )`, ...,
after any program.
-/

namespace GCV
namespace Heap
open GC

variable {m m' m1 : Mem} {g g' gd val : GC} {c c' : Cell} {F F' : Addr → Prop} {d l : Loc} {r : Ref} {a b : Addr}

theorem Picks.picked {part : Option Nat} (h : Picks part g val) : picked part g = some val := by
  cases h with
  | whole => rfl
  | string h => simp [Heap.picked, h]
  | complex h => simp [Heap.picked, h]
  | cell h => simp [Heap.picked, h]

theorem boxed_of (hi : immediate g = false) (hv : g.ty ≠ .VECTOR) (hm : g.ty ≠ .MAP) : boxed g = true := by
  cases g <;> simp_all [immediate, boxed, plainBox, GC.ty]

theorem getAt_boxed (hb : boxed g = true) : ∀ {p : List Sel}, getAt p g = some g' → p = []
  | [], _ => rfl
  | .idx _ :: _, h => by cases g <;> simp_all [boxed, plainBox, getAt]
  | .key _ :: _, h => by cases g <;> simp_all [boxed, plainBox, getAt]

/-- The argument is in the blocks of the container it is inside of. -/
theorem Holds.argIn {s : St} {E : Vals} {x : Place} {p : List Sel} {gx gy : GC} (h : Holds s E)
    (hx : E.get x = some gx) (hy : E.get ⟨x.var, x.path ++ p⟩ = some gy) (hb : boxed gy = true) :
    ∃ lx cx Gx ly a, s.loc x = some lx ∧ s.mem.read lx = some cx ∧ Rep s.mem gx cx Gx ∧ ¬ Gx lx.addr ∧
      s.loc ⟨x.var, x.path ++ p⟩ = some ly ∧ s.mem.read ly = some (.box gy.ty a) ∧ s.mem.blk a = some (.leaf gy) ∧ Gx a ∧
      getAt p gx = some gy := by
  obtain ⟨g0, a0, _, _, lx, cx, Gx, hE0, hpx, he, _, _, _, hres, hlx, hrx, hRx, _, hnx, _⟩ := h.place hx
  have hgp : getAt p gx = some gy := by
    unfold Vals.get at hy
    rw [show E x.var = some g0 from hE0] at hy
    simp only [Option.bind_some] at hy
    rw [GC.getAt_append, hpx] at hy
    exact hy
  obtain ⟨ly, cy, Gy, hry, hrdy, hRy, hsub, _⟩ := Rep.at p h.1 hrx hRx hnx hgp
  obtain ⟨a, rfl, ha, hG⟩ := (rep_boxed hb).1 hRy
  refine ⟨lx, cx, Gx, ly, a, hlx, hrx, hRx, hnx, ?_, hrdy, ha, hsub _ ((hG a).2 rfl), hgp⟩
  simp only [St.loc, he, Option.bind_some, resolve_append, hres]
  exact hry

/-- Two places, of which the second is not at or inside the first and holds something without containers. -/
theorem apart_of {E : Vals} {x y : Place} {gx gy : GC} (hx : E.get x = some gx) (hy : E.get y = some gy) (hb : boxed gy = true)
    (hne : ¬ (x.var = y.var ∧ x.path <+: y.path)) : Apart x y := by
  intro hv
  refine ⟨fun h => hne ⟨hv, h⟩, fun ⟨p, hp⟩ => hne ⟨hv, ?_⟩⟩
  unfold Vals.get at hx hy
  rw [hv] at hx
  cases hE : E y.var with
  | none => rw [hE] at hx; simp at hx
  | some g0 =>
    rw [hE] at hx hy
    simp only [Option.bind_some] at hx hy
    rw [← hp, GC.getAt_append, hy] at hx
    have := getAt_boxed hb hx
    subst this
    rw [← hp, List.append_nil]
    exact List.prefix_refl _

/-- The state after a program. -/
theorem ran (ip : Nat → Nat → Bool) (ops : List XOp) (hops : OkRun (fun _ => none) ops) :
    ∃ N, ∀ n, N ≤ n → ∃ s : St, St.xrun ip n ops St.init = .ok s.mem s.env ∧ Holds s (ops.foldl Vals.xstep fun _ => none) := by
  obtain ⟨N, h⟩ := xrun_holds ip ops _ good_init hops
  refine ⟨N, fun n hn => ?_⟩
  obtain ⟨s, hs, hr⟩ := h n hn _ holds_init
  have h0 := hr []
  rw [List.append_nil, St.xrun] at h0
  exact ⟨s, h0, hs⟩

/-! ## Setters -/

/-- C123.  `x.set_T( y.get_T() )` where `y` is inside `x`, or with an element of the vector `x` holds, or
`x.set_complex( x.get_complex() )`: the payload of `x` is released, with the argument, before the argument is read.  `val` is
the argument; an empty string has no characters to read. -/
theorem C123_set_from_inside (ip : Nat → Nat → Bool) (ops : List XOp) (hops : OkRun (fun _ => none) ops)
    (x : Place) (p : List Sel) (gx gy val : GC) (part : Option Nat)
    (hx : (ops.foldl Vals.xstep fun _ => none).get x = some gx)
    (hy : (ops.foldl Vals.xstep fun _ => none).get ⟨x.var, x.path ++ p⟩ = some gy)
    (hi : immediate gy = false) (h1 : gy.ty ≠ .VECTOR) (h2 : gy.ty ≠ .MAP)
    (hpick : Picks part gy val) (hne : val ≠ string []) (hin : p ≠ [] ∨ part ≠ none ∨ gy.ty = .COMPLEX) :
    ∃ N, ∀ n, N ≤ n → ∃ m env, St.xrun ip n ops St.init = .ok m env ∧
      St.setFrom n ⟨m, env⟩ x ⟨x.var, x.path ++ p⟩ part = .ub := by
  have hval := hpick.picked
  obtain ⟨N, h⟩ := ran ip ops hops
  have hb := boxed_of hi h1 h2
  refine ⟨max N (sizeOf gx), fun n hn => ?_⟩
  obtain ⟨s, h0, hs⟩ := h n (by omega)
  refine ⟨s.mem, s.env, h0, ?_⟩
  obtain ⟨lx, cx, Gx, ly, a, hlx, hrx, hRx, hnx, hly, hry, ha, hGa, hgp⟩ := hs.argIn hx hy hb
  obtain ⟨ly', a', hly', hry', _, _, _, harg⟩ := hs.arg hy hb hval
  rw [hly] at hly'; injection hly' with hly'; subst hly'
  rw [hry] at hry'; injection hry' with hry'; injection hry' with _ hry'; subst hry'
  have hlost : setArgF n lx (.ref val.ty ⟨a, part⟩) s.mem = .ub := by
    refine setArgF_lost hs.1 hrx hRx (by omega) hnx hGa ?_
    by_cases hc : val.ty = .COMPLEX
    · exact Or.inl hc
    refine Or.inr fun b e => ?_
    have ht := rep_ty hRx
    rw [e] at ht
    simp only [Cell.ty] at ht
    by_cases hp : p = []
    · subst hp
      simp only [getAt, Option.some.injEq] at hgp
      subst hgp
      rcases part with _ | i
      · simp only [picked, Option.some.injEq] at hval
        subst hval
        rcases hin with h | h | h
        · exact h rfl
        · exact h rfl
        · exact hc h
      · cases gx <;> simp only [picked, reduceCtorEq, Option.map_eq_some_iff] at hval <;>
          (obtain ⟨_, _, rfl⟩ := hval; simp [GC.ty] at ht)
    · have hbv := picked_boxed hb hval
      have : gx.ty = .VECTOR ∨ gx.ty = .MAP := by
        cases p with
        | nil => exact absurd rfl hp
        | cons q p => cases gx <;> cases q <;> simp_all [getAt, GC.ty]
      rw [← ht] at this
      cases val <;> simp [GC.ty, boxed, plainBox] at this hbv
  simp only [St.setFrom, harg hne, St.at, hlx, hlost, Run.bind]

/-- C123.  `x.set_T( x.get_T() )`, other than with a complex number, changes nothing. -/
theorem C123_set_own (ip : Nat → Nat → Bool) (ops : List XOp) (hops : OkRun (fun _ => none) ops) (x : Place) (gx : GC)
    (hx : (ops.foldl Vals.xstep fun _ => none).get x = some gx)
    (hi : immediate gx = false) (h1 : gx.ty ≠ .VECTOR) (h2 : gx.ty ≠ .MAP) (h3 : gx.ty ≠ .COMPLEX) :
    ∃ N, ∀ n, N ≤ n → ∃ m env, St.xrun ip n ops St.init = .ok m env ∧ St.setFrom n ⟨m, env⟩ x x none = .ok m env := by
  obtain ⟨N, h⟩ := ran ip ops hops
  have hb := boxed_of hi h1 h2
  have hp : plainBox gx = true := by cases gx <;> simp_all [boxed, GC.ty]
  obtain ⟨hw, hf⟩ := (good_xrun ops _ good_init hops).get hx
  refine ⟨N, fun n hn => ?_⟩
  obtain ⟨s, h0, hs⟩ := h n (by omega)
  refine ⟨s.mem, s.env, h0, ?_⟩
  obtain ⟨lx, a, hlx, hrx, hRx, hread, hnil, harg⟩ := hs.arg hx hb (part := none) (val := gx) rfl
  obtain ⟨a', e, ha, _⟩ := (rep_boxed hb).1 hRx
  injection e with _ e
  subst e
  have hself := from_self hp hw hf
  have hfill : fillRef ⟨a, none⟩ a s.mem = .ok s.mem () := by
    simp only [fillRef, hread, ha, hself, upd_self ha]
  by_cases he : gx = string []
  · subst he
    have e : setArgF n lx (.val (string [])) s.mem = .ok s.mem () := by
      have hk := allocBox_keep (n := n) (B := .leaf notype) hrx
      simp only [GC.ty] at hk
      simp only [setArgF, setF, GC.ty, hk, Run.bind, ha, hself, upd_self ha]
    simp only [St.setFrom, hnil rfl, St.at, hlx, e, Run.bind]
  · have e : setArgF n lx (.ref gx.ty ⟨a, none⟩) s.mem = .ok s.mem () := by
      have hk := allocBox_keep (n := n) (B := .leaf notype) hrx
      cases gx <;> first
        | (simp [plainBox] at hp; done)
        | (simp only [GC.ty] at hk; simp only [setArgF, GC.ty, hread, hk, Run.bind, hfill])
    simp only [St.setFrom, harg he, St.at, hlx, e, Run.bind]

/-- C123.  `x.set_T( y.get_T() )` where `y` is not `x` and not inside it, or the argument is an empty string: the same as with
a copy of the argument. -/
theorem C123_set_from_elsewhere (ip : Nat → Nat → Bool) (ops : List XOp) (hops : OkRun (fun _ => none) ops)
    (x y : Place) (gy val : GC) (part : Option Nat)
    (hy : (ops.foldl Vals.xstep fun _ => none).get y = some gy)
    (hi : immediate gy = false) (h1 : gy.ty ≠ .VECTOR) (h2 : gy.ty ≠ .MAP)
    (hpick : Picks part gy val) (hne : ¬ (x.var = y.var ∧ x.path <+: y.path) ∨ val = string []) :
    ∃ N, ∀ n, N ≤ n → ∃ m env, St.xrun ip n ops St.init = .ok m env ∧
      St.setFrom n ⟨m, env⟩ x y part = St.xstep ip n ⟨m, env⟩ (.old (.set x val)) := by
  have hval := hpick.picked
  obtain ⟨N, h⟩ := ran ip ops hops
  have hb := boxed_of hi h1 h2
  generalize (ops.foldl Vals.xstep fun _ => none) = E at *
  refine ⟨max N (sizeOf ((E.get x).getD notype)), fun n hn => ?_⟩
  obtain ⟨s, h0, hs⟩ := h n (by omega)
  refine ⟨s.mem, s.env, h0, ?_⟩
  obtain ⟨ly, a, hly, hry, hRy, hread, hnil, harg⟩ := hs.arg hy hb hval
  by_cases he : val = string []
  · subst he
    simp only [St.setFrom, hnil rfl, St.xstep, St.step]
    rfl
  have hout := hne.resolve_right he
  simp only [St.setFrom, harg he, St.xstep, St.step, St.at]
  cases hgx : E.get x with
  | none => rw [hs.loc_none hgx]
  | some gx =>
    obtain ⟨ls, ld, cs, cd, Gs, Gd, hls, hld, P, _⟩ := hs.pair hgx hy (apart_of hgx hy hb hout)
    rw [hly] at hls; injection hls with hls; subst hls
    have e := P.src
    rw [hry] at e; injection e with e; subst e
    obtain ⟨a', e, _, hG⟩ := (rep_boxed hb).1 P.srcRep
    injection e with _ e
    subst e
    rw [hgx] at hn
    simp only [Option.getD_some] at hn
    have := setArgF_apart (r := ⟨a, part⟩) hs.1 P.dst P.dstRep (n := n) (by omega) P.fdd hread (picked_boxed hb hval)
      (P.disj _ ((hG a).2 rfl)) (fun e => P.fsd ((hG _).2 e.symm))
    simp only [hld, this]

/-! ## `push_complex`, `push_string` -/

/-- After the `resize` the argument can still be read: the new element is set as with the value. -/
theorem backArgF_eq {ip : Nat → Nat → Bool} {n : Nat} {w : List GC} {cs : List Cell} (hr : m.read d = some (.box .VECTOR a))
    (hb : m.blk a = some (.vec cs)) (hlen : cs.length = w.length)
    (he : resizeF ip (freeF n) (fromF ip n) a (w.length + 1) m = .ok m1 ()) (hw1 : Wf m1)
    (hR1 : Rep m1 (vector (w ++ [notype])) (.box .VECTOR a) F') (hv : r.read m1 = some val) (hbv : boxed val = true)
    (hne : r.addr ≠ a) (hn : 1 ≤ n) : backArgF ip (.ref val.ty r) n d m = backF ip val n d m := by
  obtain ⟨c, G, hrc, hRc, _, hGa, _⟩ := hR1.elem hw1 (i := w.length) (y := notype) (by simp)
  obtain ⟨rfl, hG⟩ := (rep_imm (g := notype) rfl).1 hRc
  have := setArgF_apart (n := n) hw1 hrc hRc (by simpa using hn) hGa hv hbv (fun h => (hG _ h)) hne
  simp only [backArgF, backF, hr, hb, hlen, he, Run.bind, this]

theorem resize_succ (w : List GC) : resizeL notype (w.length + 1) w = w ++ [notype] := by
  simp [resizeL, List.take_of_length_le (Nat.le_succ _)]

theorem backArgF_apart {ip : Nat → Nat → Bool} {n : Nat} {w : List GC} (hw : Wf m) (hr : m.read d = some c)
    (hg : Rep m (vector w) c F) (hw' : WF (vector w)) (hf : Fits (vector w)) (hn : sizeOf w + 3 ≤ n)
    (hv : r.read m = some val) (hbv : boxed val = true) (hF : ¬ F r.addr) :
    backArgF ip (.ref val.ty r) n d m = backF ip val n d m := by
  obtain ⟨a, rfl, hFa⟩ := rep_vector_box hg
  obtain ⟨a', cs, G, hc, hb, hG, _, _⟩ := id hg
  injection hc with _ hc
  subst hc
  obtain ⟨m1, F1, he1, hC1, hR1⟩ := resizeF_spec (inPlace := ip) (sz := w.length + 1) (n := n) (f := fromF ip n) hw hg
    (by omega) (fun x hx => copy_ok (wf_oldVector hw' hx) (fits_oldVector hf hx))
    (fun x hx => fromF_spec ip n x notype
      (by have := sizeOf_mem hx; simp; omega) (fits_oldVector hf hx) trivial rfl)
  rw [resize_succ] at hR1
  refine backArgF_eq hr hb hG.length he1 (hC1.wf hw (hg.lt hw)) hR1 ?_ hbv (fun e => hF (e ▸ hFa)) (by omega)
  rw [Ref.read_same (hC1.same _ hF (hw.lt (Ref.read_live hv))), hv]

theorem pushed_apart (ip : Nat → Nat → Bool) {gx : GC} {op : Op} (hw' : WF gx) (hf : Fits gx) (hop : PushOf val op)
    {g' : GC} (hst : (step op gx).state? = some g') :
    ∃ N, ∀ n, N ≤ n → ∀ (m : Mem) (d : Loc) (c : Cell) (F : Addr → Prop) (r : Ref), Wf m → m.read d = some c → Rep m gx c F →
      ¬ F d.addr → r.read m = some val → ¬ F r.addr → r.addr ≠ d.addr →
      pushArgF ip (.ref val.ty r) n d m = callF ip op n d m := by
  rcases hop with ⟨s, rfl, rfl⟩ | ⟨z, rfl, rfl⟩
  · obtain ⟨N, hN⟩ := CallOk.promVec (ip := ip) hw' hf
    have hst : (push_string s gx).state? = some g' := hst
    by_cases ht : gx.ty = .VEC_STRING
    · refine ⟨0, fun n _ m d c F r hw hr hg hd hv hF hne => ?_⟩
      show pushStringF ip (.ref .STRING r) n d m = _
      simp only [pushStringF, callF, tagF, hr, rep_ty hg, ht, appendArgF, hv]
    cases hp : promote_to_vector gx with
    | ok g1 u =>
      obtain ⟨w, rfl⟩ := promote_vector hp
      obtain ⟨hw1, hf1⟩ := promote_good hw' hf hp
      refine ⟨max N (sizeOf w + 3), fun n hn m d c F r hw hr hg hd hv hF hne => ?_⟩
      have h1 := hN n (by omega) m d c F hw hr hg hd
      rw [hp] at h1
      obtain ⟨m1, c1, F1, he1, hu1, hR1⟩ := h1
      have hw2 := hu1.wf hw (hg.lt hw)
      have hlt := hw.lt (Ref.read_live hv)
      have := backArgF_apart (ip := ip) (n := n) (val := string s) hw2 (hu1.read hr) hR1 hw1 hf1 (by omega)
        (by rw [Ref.read_same (hu1.same _ hne hF hlt), hv]) rfl
        (fun h => (hu1.sub _ h).elim hF fun h => by omega)
      simp only [GC.ty] at this
      have e1 : pushStringF ip (.ref .STRING r) n d m = seqF (promVecF ip) (backArgF ip (.ref .STRING r)) n d m := by
        simp only [pushStringF, tagF, hr, rep_ty hg]
      have e2 : callF ip (.pushString s) n d m = seqF (promVecF ip) (backF ip (string s)) n d m := by
        simp only [callF, tagF, hr, rep_ty hg]
      show pushStringF ip (.ref .STRING r) n d m = _
      simp only [e1, e2, seqF, he1, Run.bind, this]
    | throw g1 =>
      refine ⟨N, fun n hn m d c F r hw hr hg hd hv hF hne => ?_⟩
      have h1 := hN n (by omega) m d c F hw hr hg hd
      rw [hp] at h1
      obtain ⟨m1, c1, F1, he1, _⟩ := h1
      have e1 : pushStringF ip (.ref .STRING r) n d m = seqF (promVecF ip) (backArgF ip (.ref .STRING r)) n d m := by
        simp only [pushStringF, tagF, hr, rep_ty hg]
      have e2 : callF ip (.pushString s) n d m = seqF (promVecF ip) (backF ip (string s)) n d m := by
        simp only [callF, tagF, hr, rep_ty hg]
      show pushStringF ip (.ref .STRING r) n d m = _
      simp only [e1, e2, seqF, he1, Run.bind]
    | ub =>
      exfalso
      cases gx <;> simp_all [push_string, Res.bind, Res.state?, GC.ty]
    | diverge =>
      exfalso
      cases gx <;> simp_all [push_string, Res.bind, Res.state?, GC.ty]
  · have hst : (push_complex z gx).state? = some g' := hst
    by_cases ht : gx.ty = .VEC_COMPLEX
    · refine ⟨0, fun n _ m d c F r hw hr hg hd hv hF hne => ?_⟩
      show pushComplexF ip (.ref .COMPLEX r) n d m = _
      simp only [pushComplexF, callF, tagF, hr, rep_ty hg, ht, appendArgF, hv]
    by_cases ht2 : gx.ty = .VECTOR
    · obtain ⟨w, rfl⟩ : ∃ w, gx = vector w := by cases gx <;> simp_all [GC.ty]
      refine ⟨sizeOf w + 3, fun n hn m d c F r hw hr hg hd hv hF hne => ?_⟩
      have := backArgF_apart (ip := ip) (n := n) (val := complex z) hw hr hg hw' hf (by omega) hv rfl hF
      simp only [GC.ty] at this
      show pushComplexF ip (.ref .COMPLEX r) n d m = _
      simp only [GC.ty, pushComplexF, callF, tagF, hr, rep_ty hg, this]
    obtain ⟨N, hN⟩ := CallOk.prom (howOk_vecComplex hf)
    rw [howVal_vecComplex] at hN
    have e1 : ∀ {n m d c F} (r : Ref), m.read d = some c → Rep m gx c F → pushComplexF ip (.ref .COMPLEX r) n d m =
        seqF (promF howVecComplex) (appendArgF (.ref .COMPLEX r)) n d m := by
      intro n m d c F r hr hg
      simp only [pushComplexF, tagF, hr, rep_ty hg]
    have e2 : ∀ {n m d c F}, m.read d = some c → Rep m gx c F → callF ip (.pushComplex z) n d m =
        seqF (promF howVecComplex) (editF (push_complex z)) n d m := by
      intro n m d c F hr hg
      simp only [callF, tagF, hr, rep_ty hg]
    refine ⟨N, fun n hn m d c F r hw hr hg hd hv hF hne => ?_⟩
    have h1 := hN n (by omega) m d c F hw hr hg hd
    show pushComplexF ip (.ref .COMPLEX r) n d m = _
    simp only [e1 r hr hg, e2 hr hg, seqF]
    cases hp : promote_to_vec_complex gx with
    | ok g1 u =>
      rw [hp] at h1
      obtain ⟨m1, c1, F1, he1, hu1, hR1⟩ := h1
      have hlt := hw.lt (Ref.read_live hv)
      have : r.read m1 = some (complex z) := by rw [Ref.read_same (hu1.same _ hne hF hlt), hv]
      simp only [he1, Run.bind, appendArgF, this]
    | throw g1 =>
      rw [hp] at h1
      obtain ⟨m1, c1, F1, he1, _⟩ := h1
      simp only [he1, Run.bind]
    | ub =>
      exfalso
      cases gx <;> simp_all [push_complex, Res.bind, Res.state?, GC.ty]
    | diverge =>
      exfalso
      cases gx <;> simp_all [push_complex, Res.bind, Res.state?, GC.ty]

theorem backArgF_val {ip : Nat → Nat → Bool} : backArgF ip (.val g) = backF ip g := rfl

/-- C123.  `x.push_string( y.get_string() )`, `x.push_complex( ... )` where `y` is not `x` and not inside it, or the argument is
an empty string: the same as with a copy of the argument. -/
theorem C123_push_from_elsewhere (ip : Nat → Nat → Bool) (ops : List XOp) (hops : OkRun (fun _ => none) ops)
    (x y : Place) (gy val : GC) (part : Option Nat) (op : Op)
    (hy : (ops.foldl Vals.xstep fun _ => none).get y = some gy)
    (hpick : Picks part gy val) (hop : PushOf val op)
    (hok : (XOp.call x op).Ok (ops.foldl Vals.xstep fun _ => none))
    (hne : ¬ (x.var = y.var ∧ x.path <+: y.path) ∨ val = string []) :
    ∃ N, ∀ n, N ≤ n → ∃ m env, St.xrun ip n ops St.init = .ok m env ∧
      St.pushFrom ip n ⟨m, env⟩ x y part = St.xstep ip n ⟨m, env⟩ (.call x op) := by
  have hval := hpick.picked
  obtain ⟨N, h⟩ := ran ip ops hops
  have hb : boxed gy = true := by
    cases part with
    | none =>
      simp only [picked, Option.some.injEq] at hval
      subst hval
      rcases hop with ⟨s, rfl, _⟩ | ⟨z, rfl, _⟩ <;> rfl
    | some i => cases gy <;> simp_all [picked, boxed, plainBox]
  have hgood := good_xrun ops _ good_init hops
  generalize (ops.foldl Vals.xstep fun _ => none) = E at *
  by_cases he : val = string []
  · subst he
    refine ⟨N, fun n hn => ?_⟩
    obtain ⟨s, h0, hs⟩ := h n (by omega)
    refine ⟨s.mem, s.env, h0, ?_⟩
    obtain ⟨ly, a, hly, hry, hRy, hread, hnil, harg⟩ := hs.arg hy hb hval
    obtain rfl : op = .pushString [] := by
      rcases hop with ⟨s, e, rfl⟩ | ⟨z, e, _⟩ <;> cases e
      rfl
    simp only [St.pushFrom, hnil rfl, St.xstep]
    rfl
  have hout := hne.resolve_right he
  cases hgx : E.get x with
  | none =>
    refine ⟨N, fun n hn => ?_⟩
    obtain ⟨s, h0, hs⟩ := h n (by omega)
    refine ⟨s.mem, s.env, h0, ?_⟩
    obtain ⟨ly, a, hly, hry, hRy, hread, hnil, harg⟩ := hs.arg hy hb hval
    simp only [St.pushFrom, harg he, St.xstep, St.at, hs.loc_none hgx]
  | some gx =>
    obtain ⟨g', hst, _⟩ := hok.2.2 gx hgx
    obtain ⟨N', hN'⟩ := pushed_apart ip (hgood.get hgx).1 (hgood.get hgx).2 hop hst
    refine ⟨max N N', fun n hn => ?_⟩
    obtain ⟨s, h0, hs⟩ := h n (by omega)
    refine ⟨s.mem, s.env, h0, ?_⟩
    obtain ⟨ly, a, hly, hry, hRy, hread, hnil, harg⟩ := hs.arg hy hb hval
    obtain ⟨ls, ld, cs, cd, Gs, Gd, hls, hld, P, _⟩ := hs.pair hgx hy (apart_of hgx hy hb hout)
    rw [hly] at hls; injection hls with hls; subst hls
    have e := P.src
    rw [hry] at e; injection e with e; subst e
    obtain ⟨a', e, _, hG⟩ := (rep_boxed hb).1 P.srcRep
    injection e with _ e
    subst e
    have := hN' n (by omega) s.mem ld cd Gd ⟨a, part⟩ hs.1 P.dst P.dstRep P.fdd hread
      (P.disj _ ((hG a).2 rfl)) (fun e => P.fsd ((hG _).2 e.symm))
    simp only [St.pushFrom, harg he, St.xstep, St.at, hld, this]

/-- C123.  A string of the VEC_STRING `x`, a number of the VEC_COMPLEX `x`, may be pushed to `x` itself, also when the vector has
to move. -/
theorem C123_push_own_element (ip : Nat → Nat → Bool) (ops : List XOp) (hops : OkRun (fun _ => none) ops)
    (x : Place) (gx val : GC) (i : Nat) (op : Op) (hx : (ops.foldl Vals.xstep fun _ => none).get x = some gx)
    (hpick : Picks (some i) gx val) (hop : PushOf val op) :
    ∃ N, ∀ n, N ≤ n → ∃ m env, St.xrun ip n ops St.init = .ok m env ∧
      St.pushFrom ip n ⟨m, env⟩ x x (some i) = St.xstep ip n ⟨m, env⟩ (.call x op) := by
  have hval := hpick.picked
  obtain ⟨N, h⟩ := ran ip ops hops
  have hb : boxed gx = true := by cases gx <;> simp_all [picked, boxed, plainBox]
  refine ⟨N, fun n hn => ?_⟩
  obtain ⟨s, h0, hs⟩ := h n (by omega)
  refine ⟨s.mem, s.env, h0, ?_⟩
  obtain ⟨lx, a, hlx, hrx, hRx, hread, hnil, harg⟩ := hs.arg hx hb hval
  by_cases he : val = string []
  · subst he
    obtain rfl : op = .pushString [] := by
      rcases hop with ⟨s, e, rfl⟩ | ⟨z, e, _⟩ <;> cases e
      rfl
    simp only [St.pushFrom, hnil rfl, St.xstep]
    rfl
  · simp only [St.pushFrom, harg he, St.xstep, St.at, hlx]
    rcases hop with ⟨s, rfl, rfl⟩ | ⟨z, rfl, rfl⟩
    · cases gx <;> simp only [picked, reduceCtorEq, Option.map_eq_some_iff, GC.string.injEq] at hval <;>
        first
          | (obtain ⟨_, _, h⟩ := hval; cases h; done)
          | (simp only [GC.ty, pushArgF, pushStringF, callF, tagF, hrx, Cell.ty, appendArgF, hread]; done)
    · cases gx <;> simp only [picked, reduceCtorEq, Option.map_eq_some_iff, GC.complex.injEq] at hval <;>
        first
          | (obtain ⟨_, _, h⟩ := hval; cases h; done)
          | (simp only [GC.ty, pushArgF, pushComplexF, callF, tagF, hrx, Cell.ty, appendArgF, hread]; done)
          | simp only [GC.ty, pushArgF, pushComplexF, callF, tagF, hrx, Cell.ty, seqF, promF, howVecComplex, Run.bind]

/-- C123.  `x.push_complex( x.get_complex() )`: `x` becomes a vector, its old payload, which the argument refers to, is released,
and then the argument is read. -/
theorem C123_push_own_number (ip : Nat → Nat → Bool) (ops : List XOp) (hops : OkRun (fun _ => none) ops)
    (x : Place) (z : Cplx) (hx : (ops.foldl Vals.xstep fun _ => none).get x = some (complex z)) :
    ∃ N, ∀ n, N ≤ n → ∃ m env, St.xrun ip n ops St.init = .ok m env ∧
      St.pushFrom ip n ⟨m, env⟩ x x none = .ub := by
  obtain ⟨N, h⟩ := ran ip ops hops
  obtain ⟨hw, hf⟩ := (good_xrun ops _ good_init hops).get hx
  refine ⟨max N (sizeOf (complex z)), fun n hn => ?_⟩
  obtain ⟨s, h0, hs⟩ := h n (by omega)
  refine ⟨s.mem, s.env, h0, ?_⟩
  obtain ⟨lx, cx, Gx, ly, a, hlx, hrx, hRx, hnx, hly, hry, ha, hGa, hgp⟩ := hs.argIn (p := []) hx (by simpa using hx) rfl
  simp only [List.append_nil] at hly
  rw [hlx] at hly; injection hly with hly; subst hly
  obtain ⟨_, a', hlx', hrx', _, hread, _, harg⟩ := hs.arg hx rfl (part := none) (val := complex z) rfl
  rw [hlx] at hlx'; injection hlx' with hlx'; subst hlx'
  rw [hry] at hrx'; injection hrx' with hrx'; injection hrx' with _ hrx'; subst hrx'
  rw [hrx] at hry; injection hry with hry; subst hry
  obtain ⟨m1, b, he1, hu1, hb1, hn1⟩ := allocBox_fresh (n := n) (t := .VEC_COMPLEX) (B := .leaf notype) hs.1 hrx hRx
    (by omega) hnx (fun _ e => by cases e)
  have hlt : a < s.mem.next := hs.1.lt (by rw [ha]; simp)
  have hprom : promF howVecComplex n lx s.mem = .ok (m1.upd b (some (.leaf (vecComplex [z])))) () := by
    have hfrom : from_gc (vecComplex [z]) notype = .ok (vecComplex [z]) := rfl
    simp only [promF, hrx, Cell.ty, GC.ty, howVecComplex, leafAt, ha, promote_to_vec_complex, setF, he1, Run.bind, hb1, hfrom]
  have hgone : (Ref.mk a none).read (m1.upd b (some (.leaf (vecComplex [z])))) = none := by
    apply Ref.read_gone
    rw [blk_upd, if_neg (by show a ≠ b; omega)]
    exact hu1.gone _ hGa (fun e => by have e : a = b := e; omega)
  simp only [St.pushFrom, harg (by simp), St.at, hlx, GC.ty, pushArgF, pushComplexF, tagF, hrx, Cell.ty, seqF, hprom, Run.bind,
    appendArgF, hgone]

/-- C123.  A string or a complex number that is inside the VECTOR `x`, pushed to `x`: if the vector grows where it is, as
with a copy of the argument; if it moves, the argument is released with the old elements, and read afterwards. -/
theorem C123_push_from_inside (ip : Nat → Nat → Bool) (ops : List XOp) (hops : OkRun (fun _ => none) ops)
    (x : Place) (p : List Sel) (v : List GC) (gy val : GC) (part : Option Nat) (op : Op)
    (hx : (ops.foldl Vals.xstep fun _ => none).get x = some (vector v))
    (hy : (ops.foldl Vals.xstep fun _ => none).get ⟨x.var, x.path ++ p⟩ = some gy)
    (hpick : Picks part gy val) (hne : val ≠ string []) (hop : PushOf val op) :
    ∃ N, ∀ n, N ≤ n → ∃ m env, St.xrun ip n ops St.init = .ok m env ∧
      St.pushFrom ip n ⟨m, env⟩ x ⟨x.var, x.path ++ p⟩ part =
        if ip v.length (v.length + 1) then St.xstep ip n ⟨m, env⟩ (.call x op) else .ub := by
  have hval := hpick.picked
  obtain ⟨N, h⟩ := ran ip ops hops
  have hb : boxed gy = true := by
    cases part with
    | none =>
      simp only [picked, Option.some.injEq] at hval
      subst hval
      rcases hop with ⟨s, rfl, _⟩ | ⟨z, rfl, _⟩ <;> rfl
    | some i => cases gy <;> simp_all [picked, boxed, plainBox]
  obtain ⟨hw', hf⟩ := (good_xrun ops _ good_init hops).get hx
  have hbv := picked_boxed hb hval
  refine ⟨max N (sizeOf v + 3), fun n hn => ?_⟩
  obtain ⟨s, h0, hs⟩ := h n (by omega)
  refine ⟨s.mem, s.env, h0, ?_⟩
  obtain ⟨lx, cx, Gx, ly, a, hlx, hrx, hRx, hnx, hly, hry, ha, hGa, hgp⟩ := hs.argIn hx hy hb
  obtain ⟨ly', a', hly', hry', _, hread, _, harg⟩ := hs.arg hy hb hval
  rw [hly] at hly'; injection hly' with hly'; subst hly'
  rw [hry] at hry'; injection hry' with hry'; injection hry' with _ hry'; subst hry'
  obtain ⟨b, rfl, hFb⟩ := rep_vector_box hRx
  obtain ⟨b', cs, G, hc, hbb, hL, _, _⟩ := id hRx
  injection hc with _ hc
  subst hc
  have hlen := hL.length
  have hab : a ≠ b := by rintro rfl; rw [ha] at hbb; cases hbb
  have hcopy : ∀ x ∈ v, from_gc x notype = .ok x := fun x hx => copy_ok (wf_oldVector hw' hx) (fits_oldVector hf hx)
  have hfrom : ∀ x ∈ v, FromOk (fromF ip n) x notype := fun x hx => fromF_spec ip n x notype
    (by have := sizeOf_mem hx; rw [GC.notype.sizeOf_spec]; omega) (fits_oldVector hf hx) trivial rfl
  have hback : backArgF ip (.ref val.ty ⟨a, part⟩) n lx s.mem =
      if ip v.length (v.length + 1) then backF ip val n lx s.mem else .ub := by
    cases hip : ip v.length (v.length + 1) with
    | true =>
      obtain ⟨m1, F1, he1, hC1, hR1⟩ := resizeF_spec (inPlace := ip) (sz := v.length + 1) (n := n) (f := fromF ip n) hs.1 hRx
        (by omega) hcopy hfrom
      rw [resize_succ] at hR1
      rw [if_pos rfl]
      refine backArgF_eq hrx hbb hlen he1 (hC1.wf hs.1 (hRx.lt hs.1)) hR1 ?_ hbv hab (by omega)
      have he2 := he1
      simp only [resizeF, hbb, hlen, if_neg (show ¬ v.length + 1 ≤ v.length by omega), hip, if_true, Run.ok.injEq, and_true] at he2
      rw [← hread]
      apply Ref.read_same
      rw [← he2, blk_upd, if_neg (by exact hab)]
    | false =>
      obtain ⟨m1, F1, he1, hC1, hR1, hgone⟩ := resizeF_moved (ip := ip) (sz := v.length + 1) (n := n) hs.1 hRx
        (by omega) hip (by omega) hcopy hfrom
      rw [resize_succ] at hR1
      have hw1 := hC1.wf hs.1 (hRx.lt hs.1)
      obtain ⟨c, G1, hrc, hRc, _, hGb, _⟩ := hR1.elem hw1 (i := v.length) (y := notype) (by simp)
      have := setArgF_gone (n := n) (r := ⟨a, part⟩) (t := val.ty) hw1 hrc hRc (by rw [GC.notype.sizeOf_spec]; omega) hGb
        (hgone a hGa hab) (by have := hC1.mono; have := hRx.lt hs.1 a hGa; show a < _; omega)
      rw [if_neg (by simp)]
      simp only [backArgF, hrx, hbb, hlen, he1, Run.bind, this]
  simp only [St.pushFrom, harg hne, St.xstep, St.at, hlx]
  rcases hop with ⟨s', rfl, rfl⟩ | ⟨z, rfl, rfl⟩
  · simp only [GC.ty] at hback
    simp only [GC.ty, pushArgF, pushStringF, callF, tagF, hrx, Cell.ty, seqF, promVecF, Run.bind, hback]
    cases ip v.length (v.length + 1) <;> rfl
  · simp only [GC.ty] at hback
    simp only [GC.ty, pushArgF, pushComplexF, callF, tagF, hrx, Cell.ty, Run.bind, hback]
    cases ip v.length (v.length + 1) <;> rfl

/-- C123.  Something that is inside the MAP `x`, pushed to `x`: the call throws and nothing has changed, as with a copy. -/
theorem C123_push_to_map (ip : Nat → Nat → Bool) (ops : List XOp) (hops : OkRun (fun _ => none) ops)
    (x : Place) (p : List Sel) (e : Entries) (gy val : GC) (part : Option Nat) (op : Op)
    (hx : (ops.foldl Vals.xstep fun _ => none).get x = some (map e))
    (hy : (ops.foldl Vals.xstep fun _ => none).get ⟨x.var, x.path ++ p⟩ = some gy)
    (hpick : Picks part gy val) (hop : PushOf val op) :
    ∃ N, ∀ n, N ≤ n → ∃ m env, St.xrun ip n ops St.init = .ok m env ∧
      St.pushFrom ip n ⟨m, env⟩ x ⟨x.var, x.path ++ p⟩ part = .throw m ∧
      St.xstep ip n ⟨m, env⟩ (.call x op) = .throw m := by
  have hval := hpick.picked
  obtain ⟨N, h⟩ := ran ip ops hops
  have hb : boxed gy = true := by
    cases part with
    | none =>
      simp only [picked, Option.some.injEq] at hval
      subst hval
      rcases hop with ⟨s, rfl, _⟩ | ⟨z, rfl, _⟩ <;> rfl
    | some i => cases gy <;> simp_all [picked, boxed, plainBox]
  refine ⟨N, fun n hn => ?_⟩
  obtain ⟨s, h0, hs⟩ := h n (by omega)
  refine ⟨s.mem, s.env, h0, ?_⟩
  obtain ⟨lx, cx, Gx, ly, a, hlx, hrx, hRx, hnx, hly, hry, ha, hGa, hgp⟩ := hs.argIn hx hy hb
  obtain ⟨_, _, _, _, _, _, hnil, harg⟩ := hs.arg hy hb hval
  obtain ⟨b, rfl, _⟩ := rep_map_box hRx
  by_cases he : val = string []
  · subst he
    rcases hop with ⟨s', e, rfl⟩ | ⟨z, e, rfl⟩ <;> cases e
    constructor
    · simp only [St.pushFrom, hnil rfl, St.at, hlx, pushArgF, pushStringF, tagF, hrx, Cell.ty, seqF, promVecF, Run.bind]
    · simp only [St.xstep, St.at, hlx, callF, tagF, hrx, Cell.ty, seqF, promVecF, Run.bind]
  · rcases hop with ⟨s', rfl, rfl⟩ | ⟨z, rfl, rfl⟩
    · constructor
      · simp only [St.pushFrom, harg he, GC.ty, St.at, hlx, pushArgF, pushStringF, tagF, hrx, Cell.ty, seqF, promVecF, Run.bind]
      · simp only [St.xstep, St.at, hlx, callF, tagF, hrx, Cell.ty, seqF, promVecF, Run.bind]
    · constructor
      · simp only [St.pushFrom, harg he, GC.ty, St.at, hlx, pushArgF, pushComplexF, tagF, hrx, Cell.ty, seqF, promF, howVecComplex,
          Run.bind]
      · simp only [St.xstep, St.at, hlx, callF, tagF, hrx, Cell.ty, seqF, promF, howVecComplex, Run.bind]

/-! ## Calls the theorems are about -/

private abbrev ka : Bytes := [97]
private abbrev g0 : Place := ⟨0, []⟩
private abbrev h0 : Place := ⟨1, []⟩
private abbrev k0 : Place := ⟨2, []⟩

/-- `GC g; g[1]; g[0] = "ab"; g[1].set_vec_string({"c","d"}); GC h; h.set_complex(z); GC k; k["a"] = "y";` -/
private def prog (z : Cplx) : List XOp :=
  [.old (.construct 0), .old (.idx g0 1), .old (.set ⟨0, [.idx 0]⟩ (string [97, 98])),
   .old (.set ⟨0, [.idx 1]⟩ (vecString [[99], [100]])), .old (.construct 1), .old (.set h0 (complex z)),
   .old (.construct 2), .old (.key k0 ka), .old (.set ⟨2, [.key ka]⟩ (string [121]))]

private theorem prog_ok (z : Cplx) : OkRun (fun _ => none) (prog z) :=
  ⟨trivial, (by show 1 + 1 < 2 ^ 32; omega), ⟨by simp, by simp, trivial, rfl⟩, ⟨by simp, by simp, trivial, rfl⟩, trivial,
    ⟨by simp, by simp, trivial, rfl⟩, trivial, trivial, ⟨by simp, by simp, trivial, rfl⟩, trivial⟩

/-- `g.set_string( g[0].get_string() )` -/
example (ip : Nat → Nat → Bool) (z : Cplx) : ∃ N, ∀ n, N ≤ n → ∃ m env, St.xrun ip n (prog z) St.init = .ok m env ∧
    St.setFrom n ⟨m, env⟩ g0 ⟨0, [.idx 0]⟩ none = .ub :=
  C123_set_from_inside ip _ (prog_ok z) g0 [.idx 0] _ (string [97, 98]) _ none rfl rfl rfl (by decide) (by decide) (.whole _) (by decide)
    (by simp)

/-- `g[1].set_string( g[1].get_vec_string()[1] )` -/
example (ip : Nat → Nat → Bool) (z : Cplx) : ∃ N, ∀ n, N ≤ n → ∃ m env, St.xrun ip n (prog z) St.init = .ok m env ∧
    St.setFrom n ⟨m, env⟩ ⟨0, [.idx 1]⟩ ⟨0, [.idx 1]⟩ (some 1) = .ub :=
  C123_set_from_inside ip _ (prog_ok z) ⟨0, [.idx 1]⟩ [] _ (vecString [[99], [100]]) (string [100]) (some 1) rfl rfl rfl
    (by decide) (by decide) (.string (v := [[99], [100]]) (i := 1) (by decide)) (by decide) (by simp)

/-- `h.set_complex( h.get_complex() )` -/
example (ip : Nat → Nat → Bool) (z : Cplx) : ∃ N, ∀ n, N ≤ n → ∃ m env, St.xrun ip n (prog z) St.init = .ok m env ∧
    St.setFrom n ⟨m, env⟩ h0 h0 none = .ub :=
  C123_set_from_inside ip _ (prog_ok z) h0 [] _ (complex z) _ none rfl rfl rfl (by simp [GC.ty]) (by simp [GC.ty]) (.whole _)
    (by simp) (Or.inr (Or.inr rfl))

/-- `g[1].set_vec_string( g[1].get_vec_string() )` -/
example (ip : Nat → Nat → Bool) (z : Cplx) : ∃ N, ∀ n, N ≤ n → ∃ m env, St.xrun ip n (prog z) St.init = .ok m env ∧
    St.setFrom n ⟨m, env⟩ ⟨0, [.idx 1]⟩ ⟨0, [.idx 1]⟩ none = .ok m env :=
  C123_set_own ip _ (prog_ok z) ⟨0, [.idx 1]⟩ (vecString [[99], [100]]) rfl rfl (by decide) (by decide) (by decide)

/-- `g[0].set_string( g[1].get_vec_string()[1] )` -/
example (ip : Nat → Nat → Bool) (z : Cplx) : ∃ N, ∀ n, N ≤ n → ∃ m env, St.xrun ip n (prog z) St.init = .ok m env ∧
    St.setFrom n ⟨m, env⟩ ⟨0, [.idx 0]⟩ ⟨0, [.idx 1]⟩ (some 1) =
      St.xstep ip n ⟨m, env⟩ (.old (.set ⟨0, [.idx 0]⟩ (string [100]))) :=
  C123_set_from_elsewhere ip _ (prog_ok z) _ _ (vecString [[99], [100]]) _ _ rfl rfl (by decide) (by decide)
    (.string (v := [[99], [100]]) (i := 1) (by decide)) (Or.inl (by rintro ⟨_, h⟩; revert h; decide))

/-- `g.push_complex( h.get_complex() )` -/
example (ip : Nat → Nat → Bool) (z : Cplx) : ∃ N, ∀ n, N ≤ n → ∃ m env, St.xrun ip n (prog z) St.init = .ok m env ∧
    St.pushFrom ip n ⟨m, env⟩ g0 h0 none = St.xstep ip n ⟨m, env⟩ (.call g0 (.pushComplex z)) := by
  refine C123_push_from_elsewhere ip _ (prog_ok z) g0 h0 (complex z) _ none _ rfl (.whole _) (Or.inr ⟨z, rfl, rfl⟩)
    ⟨rfl, trivial, fun g hg => ?_⟩ (Or.inl (by rintro ⟨h, _⟩; revert h; decide))
  have h : some g = some (vector [string [97, 98], vecString [[99], [100]]]) := hg.symm.trans rfl
  injection h with this
  subst this
  exact ⟨_, rfl, rfl⟩

/-- `g[1].push_string( g[1].get_vec_string()[0] )` -/
example (ip : Nat → Nat → Bool) (z : Cplx) : ∃ N, ∀ n, N ≤ n → ∃ m env, St.xrun ip n (prog z) St.init = .ok m env ∧
    St.pushFrom ip n ⟨m, env⟩ ⟨0, [.idx 1]⟩ ⟨0, [.idx 1]⟩ (some 0) =
      St.xstep ip n ⟨m, env⟩ (.call ⟨0, [.idx 1]⟩ (.pushString [99])) :=
  C123_push_own_element ip _ (prog_ok z) _ (vecString [[99], [100]]) (string [99]) 0 _ rfl
    (.string (v := [[99], [100]]) (i := 0) (by decide)) (Or.inl ⟨_, rfl, rfl⟩)

/-- `h.push_complex( h.get_complex() )` -/
example (ip : Nat → Nat → Bool) (z : Cplx) : ∃ N, ∀ n, N ≤ n → ∃ m env, St.xrun ip n (prog z) St.init = .ok m env ∧
    St.pushFrom ip n ⟨m, env⟩ h0 h0 none = .ub :=
  C123_push_own_number ip _ (prog_ok z) h0 z rfl

/-- `g.push_string( g[0].get_string() )`, the vector moving: as it does for most sizes. -/
example (z : Cplx) : ∃ N, ∀ n, N ≤ n → ∃ m env, St.xrun (fun _ _ => false) n (prog z) St.init = .ok m env ∧
    St.pushFrom (fun _ _ => false) n ⟨m, env⟩ g0 ⟨0, [.idx 0]⟩ none = .ub :=
  C123_push_from_inside (fun _ _ => false) _ (prog_ok z) g0 [.idx 0] [string [97, 98], vecString [[99], [100]]] _ _ none _ rfl rfl
    (.whole _) (by decide) (Or.inl ⟨[97, 98], rfl, rfl⟩)

/-- `k.push_string( k["a"].get_string() )` -/
example (ip : Nat → Nat → Bool) (z : Cplx) : ∃ N, ∀ n, N ≤ n → ∃ m env, St.xrun ip n (prog z) St.init = .ok m env ∧
    St.pushFrom ip n ⟨m, env⟩ k0 ⟨2, [.key ka]⟩ none = .throw m ∧
    St.xstep ip n ⟨m, env⟩ (.call k0 (.pushString [121])) = .throw m :=
  C123_push_to_map ip _ (prog_ok z) k0 [.key ka] _ (string [121]) _ none _ rfl rfl (.whole _) (Or.inl ⟨_, rfl, rfl⟩)

end Heap
end GCV
