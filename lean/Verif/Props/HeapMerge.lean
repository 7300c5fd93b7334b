import Verif.Props.HeapOverlap
import Verif.Props.HeapArgs

/-!
# `merge` between a container and a part of it (C124)

`g.merge( g["defaults"] );`, `g["a"].merge( g );`, `g.merge( g );`, after any program.
-/

namespace GCV
namespace Heap
open GC

variable {m m' m1 : Mem} {g g' gd : GC} {c c' : Cell} {F F' : Addr → Prop} {d l s : Loc} {a b : Addr}

/-- A map merged into a map is what the map assigned to it is. -/
theorem mergeF_map (ip : Nat → Nat → Bool) {n : Nat} (hd : m.read d = some (.box .MAP b)) (hs : m.read s = some (.box .MAP a)) :
    mergeF ip n d s m = fromF ip (n + 1) d s m := by
  simp only [mergeF, fromF, hs, hd, Cell.ty, reduceCtorEq, if_false, Run.bind, allocBox_keep hd]
  cases m.blk a with
  | none => rfl
  | some B => cases B <;> rfl

theorem mergeF_notype (ip : Nat → Nat → Bool) {n : Nat} (hn : 1 ≤ n) (hw : Wf m) (hd : m.read d = some (.imm notype))
    (hs : m.read s = some (.box .MAP a)) (hne : s ≠ d) : mergeF ip n d s m = fromF ip (n + 1) d s m := by
  have hR : Rep m notype (.imm notype) (fun _ => False) := (rep_imm rfl).2 ⟨rfl, fun _ h => h⟩
  obtain ⟨m1, b, he, hu, _, _⟩ := allocBox_fresh (n := n) (t := .MAP) (B := .map []) hw hd hR
    (by rw [GC.notype.sizeOf_spec]; omega) (fun h => h) (by simp)
  have hs1 := hu.read_ne hw hs hne (fun h => h)
  have hd1 := hu.read hd
  simp only [mergeF, fromF, hs, hd, Cell.ty, GC.ty, if_true, setMapF, he, Run.bind, hs1, hd1]
  cases m1.blk a with
  | none => rfl
  | some B => cases B <;> rfl

/-- C124.  `y.merge( x )` where `x` is a map and `y`, inside `x`, holds nothing or a map: the copy goes on for ever. -/
theorem C124_into_part (ip : Nat → Nat → Bool) (ops : List XOp) (hops : OkRun (fun _ => none) ops) (x : Place) (p : List Sel)
    (hp : p ≠ []) (e : Entries) (gy : GC) (hx : (ops.foldl Vals.xstep fun _ => none).get x = some (map e))
    (hy : (ops.foldl Vals.xstep fun _ => none).get ⟨x.var, x.path ++ p⟩ = some gy) (ht : gy = notype ∨ ∃ w, gy = map w) :
    ∃ N, ∀ n, N ≤ n → ∃ m env, St.xrun ip n ops St.init = .ok m env ∧
      St.xstep ip n ⟨m, env⟩ (.merge ⟨x.var, x.path ++ p⟩ x) = .fuel := by
  obtain ⟨N, h⟩ := ran ip ops hops
  refine ⟨max N 1, fun n hn => ?_⟩
  obtain ⟨s, hr, hs⟩ := h n (by omega)
  refine ⟨s.mem, s.env, hr, ?_⟩
  obtain ⟨lx, cx, Gx, ly, cy, Gy, hlx, hly, hRx, hRy, hgp, hres, _⟩ := hs.overlap (good_xrun ops _ good_init hops) hx hy
  obtain ⟨a, rfl, _⟩ := rep_map_box hRx.rep
  have hf := fromF_into ip (n + 1) s.mem lx _ _ _ p gy ly hRx hp hgp hres
  have hne : lx ≠ ly := by
    rintro rfl
    have := fromF_self ip (sizeOf (map e) + 1) (map e) s.mem lx _ Gx (by omega) hRx.ok hRx.fit hRx.wf hRx.rd hRx.rep hRx.out
    rw [fromF_into ip _ s.mem lx _ _ _ p gy lx hRx hp hgp hres] at this
    split at this <;> simp at this
  have hm : mergeF ip n ly lx s.mem = .fuel := by
    rw [← hf]
    rcases ht with rfl | ⟨w, rfl⟩
    · obtain ⟨rfl, _⟩ := (rep_imm rfl).1 hRy.rep
      exact mergeF_notype ip (by omega) hRx.wf hRy.rd hRx.rd hne
    · obtain ⟨b, rfl, _⟩ := rep_map_box hRy.rep
      exact mergeF_map ip hRy.rd hRx.rd
  simp only [St.xstep, hlx, hly, St.at, hm, Run.bind]

/-- C124.  `x.merge( x )`, of a map: nothing changes when there is no complex number anywhere inside `x`; else what was
released is read. -/
theorem C124_self (ip : Nat → Nat → Bool) (ops : List XOp) (hops : OkRun (fun _ => none) ops) (x : Place) (e : Entries)
    (hx : (ops.foldl Vals.xstep fun _ => none).get x = some (map e)) :
    ∃ N, ∀ n, N ≤ n → ∃ m env, St.xrun ip n ops St.init = .ok m env ∧
      St.xstep ip n ⟨m, env⟩ (.merge x x) = if every (fun z => z.ty != .COMPLEX) (map e) then .ok m env else .ub := by
  obtain ⟨N, h⟩ := ran ip ops hops
  refine ⟨max N (sizeOf (map e)), fun n hn => ?_⟩
  obtain ⟨s, hr, hs⟩ := h n (by omega)
  refine ⟨s.mem, s.env, hr, ?_⟩
  obtain ⟨lx, cx, Gx, ly, cy, Gy, hlx, _, hRx, _⟩ := hs.overlap (good_xrun ops _ good_init hops) hx (p := []) (by simpa using hx)
  obtain ⟨a, rfl, _⟩ := rep_map_box hRx.rep
  have hm := fromF_self ip (n + 1) (map e) s.mem lx _ Gx (by omega) hRx.ok hRx.fit hRx.wf hRx.rd hRx.rep hRx.out
  rw [← mergeF_map ip hRx.rd hRx.rd] at hm
  simp only [St.xstep, hlx, St.at, hm]
  by_cases hc : every (fun z => z.ty != .COMPLEX) (map e) = true
  · rw [if_pos hc, if_pos hc]; rfl
  · rw [if_neg hc, if_neg hc]; rfl

/-- C124.  `x.merge( y )` where `x` is a map and `y`, inside `x`, holds nothing or an empty map: nothing changes. -/
theorem C124_from_empty (ip : Nat → Nat → Bool) (ops : List XOp) (hops : OkRun (fun _ => none) ops) (x : Place) (p : List Sel)
    (e : Entries) (gy : GC) (hx : (ops.foldl Vals.xstep fun _ => none).get x = some (map e))
    (hy : (ops.foldl Vals.xstep fun _ => none).get ⟨x.var, x.path ++ p⟩ = some gy) (ht : gy = notype ∨ gy = map []) :
    ∃ N, ∀ n, N ≤ n → ∃ m env, St.xrun ip n ops St.init = .ok m env ∧
      St.xstep ip n ⟨m, env⟩ (.merge x ⟨x.var, x.path ++ p⟩) = .ok m env := by
  obtain ⟨N, h⟩ := ran ip ops hops
  refine ⟨N, fun n hn => ?_⟩
  obtain ⟨s, hr, hs⟩ := h n (by omega)
  refine ⟨s.mem, s.env, hr, ?_⟩
  obtain ⟨lx, cx, Gx, ly, cy, Gy, hlx, hly, hRx, hRy, _⟩ := hs.overlap (good_xrun ops _ good_init hops) hx hy
  obtain ⟨a, rfl, _⟩ := rep_map_box hRx.rep
  rcases ht with rfl | rfl
  · obtain ⟨rfl, _⟩ := (rep_imm rfl).1 hRy.rep
    simp only [St.xstep, hlx, hly, St.at, mergeF, hRy.rd, Run.bind]
  · obtain ⟨b, cs, _, rfl, hb, hL, _⟩ := id hRy.rep
    obtain ⟨rfl, -⟩ := hL
    simp only [St.xstep, hlx, hly, St.at, mergeF, hRy.rd, hRx.rd, hb, Cell.ty, reduceCtorEq, if_false, Run.bind, mapLoop,
      List.length_nil]

/-- C124.  `x.merge( y )` where `x` is a map and `y`, inside its entry `k`, is a map without an entry `k`, or with an
empty one, of the type that the entry `k` of `x` has (`Idle`): everything goes as if `y` were copied first.  The entries of `y` are assigned to those of `x`, the other entries of `x` stay, and so does the one
that `y` is in. -/
theorem C124_from_map (ip : Nat → Nat → Bool) (ops : List XOp) (hops : OkRun (fun _ => none) ops) (x : Place) (k : Bytes)
    (p : List Sel) (e w : Entries) (hx : (ops.foldl Vals.xstep fun _ => none).get x = some (map e))
    (hy : (ops.foldl Vals.xstep fun _ => none).get ⟨x.var, x.path ++ .key k :: p⟩ = some (map w))
    (hk : ∀ z, mfind k w = some z → ∃ z', mfind k e = some z' ∧ Idle z z') :
    ∃ r, mfind k r = mfind k e ∧
      (∀ k', mfind k' r = match mfind k' w with
        | some z => result (from_gc z ((mfind k' e).getD notype))
        | none => mfind k' e) ∧
      ∃ N, ∀ n, N ≤ n → ∃ m env m', St.xrun ip n ops St.init = .ok m env ∧
        St.xstep ip n ⟨m, env⟩ (.merge x ⟨x.var, x.path ++ .key k :: p⟩) = .ok m' env ∧
        Holds ⟨m', env⟩ ((ops.foldl Vals.xstep fun _ => none).put x (map r)) := by
  have hgood := good_xrun ops _ good_init hops
  have hwy := hgood.get hy
  have hwx := hgood.get hx
  obtain ⟨g', hg⟩ := from_gc_ok (map w) hwy.2 hwy.1 (map e)
  have hg0 := hg
  rw [from_gc] at hg0
  obtain ⟨r, hr, hg0⟩ := out_bind_ok hg0
  injection hg0 with hg0
  subst hg0
  have hfind := from_gcM_mfind w hwy.1.1 (fun q hq => cstr_of_noNul ((Fits_map hwy.2).1 q hq)) hr
  refine ⟨r, ?_, hfind, ?_⟩
  · have := hfind k
    simp only [oldMap] at this
    cases hz : mfind k w with
    | none => rw [hz] at this; exact this
    | some z =>
      obtain ⟨z', hz', hi⟩ := hk z hz
      rw [hz, hz', Option.getD_some] at this
      rw [hz']
      simpa only [from_gc_idle hi, result] using this
  obtain ⟨N, h⟩ := ran ip ops hops
  refine ⟨max N (sizeOf w + sizeOf e + 1), fun n hn => ?_⟩
  obtain ⟨s, hrun, hs⟩ := h n (by omega)
  obtain ⟨lx, cx, Gx, ly, cy, Gy, hlx, hly, hRx, hRy, hgp, hres, hput⟩ := hs.overlap hgood hx hy
  obtain ⟨b, rfl, _⟩ := rep_map_box hRx.rep
  obtain ⟨a, rfl, _⟩ := rep_map_box hRy.rep
  obtain ⟨m', c', F', h1, h2, h3⟩ := fromF_unwrap ip hRx hRy hgp hres hk (show sizeOf w + sizeOf e < n by omega) hg
  refine ⟨s.mem, s.env, m', hrun, ?_, hput m' _ _ _ h2 h3⟩
  rw [← mergeF_map ip hRx.rd hRy.rd] at h1
  simp only [St.xstep, hlx, hly, St.at, h1, Run.bind]

/-- C124.  `x.merge( y )` where `x` is a map and `y`, a map inside `x`, is lost on the way (`Lost`, in `Spec/HeapOverlap`, says
when): what was released is read. -/
theorem C124_from_lost (ip : Nat → Nat → Bool) (ops : List XOp) (hops : OkRun (fun _ => none) ops) (x : Place) (p : List Sel)
    (e w : Entries) (hx : (ops.foldl Vals.xstep fun _ => none).get x = some (map e))
    (hy : (ops.foldl Vals.xstep fun _ => none).get ⟨x.var, x.path ++ p⟩ = some (map w)) (hl : Lost ip (map e) p) :
    ∃ N, ∀ n, N ≤ n → ∃ m env, St.xrun ip n ops St.init = .ok m env ∧
      St.xstep ip n ⟨m, env⟩ (.merge x ⟨x.var, x.path ++ p⟩) = .ub := by
  obtain ⟨N, h⟩ := ran ip ops hops
  refine ⟨max N (2 * sizeOf (map e)), fun n hn => ?_⟩
  obtain ⟨s, hr, hs⟩ := h n (by omega)
  refine ⟨s.mem, s.env, hr, ?_⟩
  obtain ⟨lx, cx, Gx, ly, cy, Gy, hlx, hly, hRx, hRy, hgp, hres, _⟩ := hs.overlap (good_xrun ops _ good_init hops) hx hy
  obtain ⟨b, rfl, _⟩ := rep_map_box hRx.rep
  obtain ⟨a, rfl, _⟩ := rep_map_box hRy.rep
  have hm := fromF_lost ip hl (show 2 * sizeOf (map e) < n + 1 by omega) hRx hRy hgp hres
  rw [← mergeF_map ip hRx.rd hRy.rd] at hm
  simp only [St.xstep, hlx, hly, St.at, hm, Run.bind]

/-- C124.  `x.merge( y )`, for any two places: an exception, and not a byte changed, when `y` holds something that is not a map,
and when `x` holds something that is not a map and `y` is one. -/
theorem C124_refused (ip : Nat → Nat → Bool) (ops : List XOp) (hops : OkRun (fun _ => none) ops) (x y : Place) (gx gy : GC)
    (hx : (ops.foldl Vals.xstep fun _ => none).get x = some gx) (hy : (ops.foldl Vals.xstep fun _ => none).get y = some gy)
    (ht : (gy.ty ≠ .NOTYPE ∧ gy.ty ≠ .MAP) ∨ (gy.ty = .MAP ∧ gx.ty ≠ .NOTYPE ∧ gx.ty ≠ .MAP)) :
    ∃ N, ∀ n, N ≤ n → ∃ m env, St.xrun ip n ops St.init = .ok m env ∧ St.xstep ip n ⟨m, env⟩ (.merge x y) = .throw m := by
  obtain ⟨N, h⟩ := ran ip ops hops
  refine ⟨N, fun n hn => ?_⟩
  obtain ⟨s, hr, hs⟩ := h n hn
  refine ⟨s.mem, s.env, hr, ?_⟩
  obtain ⟨_, _, _, _, lx, cx, _, _, _, _, _, _, _, _, hlx, hrx, hRx, _⟩ := hs.place hx
  obtain ⟨_, _, _, _, ly, cy, _, _, _, _, _, _, _, _, hly, hry, hRy, _⟩ := hs.place hy
  have htx := rep_ty hRx
  have hty := rep_ty hRy
  have hm : mergeF ip n lx ly s.mem = .throw s.mem := by
    rcases ht with ⟨h1, h2⟩ | ⟨h1, h2, h3⟩
    · rw [← hty] at h1 h2
      cases cy with
      | imm g => cases g <;> first | exact absurd rfl h1 | simp only [mergeF, hry]
      | box t a => cases t <;> first | exact absurd rfl h2 | simp only [mergeF, hry]
    · rw [← hty] at h1
      rw [← htx] at h2 h3
      cases cy with
      | imm g =>
        obtain ⟨rfl, hi⟩ : g = gy ∧ immediate g = true := by
          by_cases hi : immediate gy = true
          · obtain ⟨h, _⟩ := (rep_imm hi).1 hRy
            injection h with h
            exact ⟨h, h ▸ hi⟩
          · exfalso
            cases gy <;> first | exact hi rfl | (simp [Rep, immediate] at hRy; done) | (simp [Cell.ty, GC.ty] at hty h1; done)
        cases g <;> first | (simp [immediate] at hi; done) | (simp [Cell.ty, GC.ty] at h1; done)
      | box t a =>
        have h1 : t = .MAP := h1
        subst h1
        simp only [mergeF, hry, hrx, if_neg h2, Run.bind]
        cases cx with
        | imm g => rfl
        | box t b => cases t <;> first | exact absurd rfl h3 | rfl
  simp only [St.xstep, hlx, hly, St.at, hm, Run.bind]

/-- C124.  `x.merge( y )`, for any two places, one container or two, when `y` holds nothing: nothing changes. -/
theorem C124_nothing (ip : Nat → Nat → Bool) (ops : List XOp) (hops : OkRun (fun _ => none) ops) (x y : Place) (gx : GC)
    (hx : (ops.foldl Vals.xstep fun _ => none).get x = some gx) (hy : (ops.foldl Vals.xstep fun _ => none).get y = some notype) :
    ∃ N, ∀ n, N ≤ n → ∃ m env, St.xrun ip n ops St.init = .ok m env ∧ St.xstep ip n ⟨m, env⟩ (.merge x y) = .ok m env := by
  obtain ⟨N, h⟩ := ran ip ops hops
  refine ⟨N, fun n hn => ?_⟩
  obtain ⟨s, hr, hs⟩ := h n hn
  refine ⟨s.mem, s.env, hr, ?_⟩
  obtain ⟨_, _, _, _, lx, cx, _, _, _, _, _, _, _, _, hlx, _⟩ := hs.place hx
  obtain ⟨_, _, _, _, ly, cy, _, _, _, _, _, _, _, _, hly, hry, hRy, _⟩ := hs.place hy
  obtain ⟨rfl, _⟩ := (rep_imm rfl).1 hRy
  simp only [St.xstep, hlx, hly, St.at, mergeF, hry, Run.bind]

/-! ## Programs the theorems are about -/

private abbrev ka : Bytes := [97]
private abbrev kb : Bytes := [98]
private abbrev kc : Bytes := [99]
private abbrev g0 : Place := ⟨0, []⟩

/-- `GC g; g["a"]["b"] = 5; g["b"] = 7; g["c"]["c"].set_map();`, and a complex number in `h["a"]`. -/
private def prog (z : Cplx) : List XOp :=
  [.old (.construct 0), .old (.key g0 ka), .old (.key ⟨0, [.key ka]⟩ kb), .old (.set ⟨0, [.key ka, .key kb]⟩ (int 5)),
   .old (.key g0 kb), .old (.set ⟨0, [.key kb]⟩ (int 7)), .old (.key g0 kc), .old (.key ⟨0, [.key kc]⟩ kc),
   .old (.setMap ⟨0, [.key kc, .key kc]⟩), .old (.construct 1), .old (.key ⟨1, []⟩ ka), .old (.set ⟨1, [.key ka]⟩ (complex z))]

private theorem prog_ok (z : Cplx) : OkRun (fun _ => none) (prog z) :=
  ⟨trivial, trivial, trivial, ⟨by simp, by simp, trivial, rfl⟩, trivial, ⟨by simp, by simp, trivial, rfl⟩, trivial, trivial,
    trivial, trivial, trivial, ⟨by simp, by simp, trivial, rfl⟩, trivial⟩

example (z : Cplx) : ((prog z).foldl Vals.xstep fun _ => none) 0 =
    some (map [(ka, map [(kb, int 5)]), (kb, int 7), (kc, map [(kc, map [])])]) := rfl

/-- `g["a"].merge( g );` -/
example (ip : Nat → Nat → Bool) (z : Cplx) : ∃ N, ∀ n, N ≤ n → ∃ m env, St.xrun ip n (prog z) St.init = .ok m env ∧
    St.xstep ip n ⟨m, env⟩ (.merge ⟨0, [.key ka]⟩ g0) = .fuel :=
  C124_into_part ip _ (prog_ok z) g0 [.key ka] (by simp) _ _ rfl rfl (Or.inr ⟨_, rfl⟩)

/-- `g.merge( g );` -/
example (ip : Nat → Nat → Bool) (z : Cplx) : ∃ N, ∀ n, N ≤ n → ∃ m env, St.xrun ip n (prog z) St.init = .ok m env ∧
    St.xstep ip n ⟨m, env⟩ (.merge g0 g0) = .ok m env :=
  C124_self ip _ (prog_ok z) g0 [(ka, map [(kb, int 5)]), (kb, int 7), (kc, map [(kc, map [])])] rfl

/-- `h.merge( h );` -/
example (ip : Nat → Nat → Bool) (z : Cplx) : ∃ N, ∀ n, N ≤ n → ∃ m env, St.xrun ip n (prog z) St.init = .ok m env ∧
    St.xstep ip n ⟨m, env⟩ (.merge ⟨1, []⟩ ⟨1, []⟩) = .ub :=
  C124_self ip _ (prog_ok z) ⟨1, []⟩ [(ka, complex z)] rfl

/-- `g.merge( g["c"]["c"] );`, an empty map. -/
example (ip : Nat → Nat → Bool) (z : Cplx) : ∃ N, ∀ n, N ≤ n → ∃ m env, St.xrun ip n (prog z) St.init = .ok m env ∧
    St.xstep ip n ⟨m, env⟩ (.merge g0 ⟨0, [.key kc, .key kc]⟩) = .ok m env :=
  C124_from_empty ip _ (prog_ok z) g0 [.key kc, .key kc] _ (map []) rfl rfl (Or.inr rfl)

/-- `g.merge( g["a"] );` replaces `g["b"]`. -/
example (ip : Nat → Nat → Bool) (z : Cplx) : ∃ r, mfind ka r = some (map [(kb, int 5)]) ∧ mfind kb r = some (int 5) ∧
    mfind kc r = some (map [(kc, map [])]) ∧
    ∃ N, ∀ n, N ≤ n → ∃ m env m', St.xrun ip n (prog z) St.init = .ok m env ∧
      St.xstep ip n ⟨m, env⟩ (.merge g0 ⟨0, [.key ka]⟩) = .ok m' env ∧
      Holds ⟨m', env⟩ (((prog z).foldl Vals.xstep fun _ => none).put g0 (map r)) := by
  obtain ⟨r, h1, h2, h3⟩ := C124_from_map ip (prog z) (prog_ok z) g0 ka []
    [(ka, map [(kb, int 5)]), (kb, int 7), (kc, map [(kc, map [])])] [(kb, int 5)] rfl rfl
    (fun z h => by simp [mfind] at h)
  exact ⟨r, h1, h2 kb, h2 kc, h3⟩

/-- `g.merge( g["c"] );`, where `g["c"]["c"]` is an empty map: nothing is there to be changed -/
example (ip : Nat → Nat → Bool) (z : Cplx) : ∃ r, mfind kc r = some (map [(kc, map [])]) ∧ mfind kb r = some (int 7) ∧
    ∃ N, ∀ n, N ≤ n → ∃ m env m', St.xrun ip n (prog z) St.init = .ok m env ∧
      St.xstep ip n ⟨m, env⟩ (.merge g0 ⟨0, [.key kc]⟩) = .ok m' env ∧
      Holds ⟨m', env⟩ (((prog z).foldl Vals.xstep fun _ => none).put g0 (map r)) := by
  obtain ⟨r, h1, h2, h3⟩ := C124_from_map ip (prog z) (prog_ok z) g0 kc []
    [(ka, map [(kb, int 5)]), (kb, int 7), (kc, map [(kc, map [])])] [(kc, map [])] rfl rfl
    (fun z h => ⟨_, rfl, by
      simp only [mfind, if_true, Option.some.injEq] at h
      subst h
      exact ⟨.inr rfl, rfl⟩⟩)
  exact ⟨r, h1, h2 kb, h3⟩

/-- `GC g; g["a"]["a"] = 5;` -/
private def lprog : List XOp :=
  [.old (.construct 0), .old (.key g0 ka), .old (.key ⟨0, [.key ka]⟩ ka), .old (.set ⟨0, [.key ka, .key ka]⟩ (int 5))]

/-- `g.merge( g["a"] );` -/
example (ip : Nat → Nat → Bool) : ∃ N, ∀ n, N ≤ n → ∃ m env, St.xrun ip n lprog St.init = .ok m env ∧
    St.xstep ip n ⟨m, env⟩ (.merge g0 ⟨0, [.key ka]⟩) = .ub :=
  C124_from_lost ip lprog ⟨trivial, trivial, trivial, ⟨by simp, by simp, trivial, rfl⟩, trivial⟩ g0 [.key ka]
    [(ka, map [(ka, int 5)])] [(ka, int 5)] rfl rfl (.replacedEntry (w := [(ka, int 5)]) (y := int 5) rfl rfl rfl)

/-- `g["b"].merge( g );`, where `g["b"]` is a number; `g.merge( g["b"] );` -/
example (ip : Nat → Nat → Bool) (z : Cplx) : ∃ N, ∀ n, N ≤ n → ∃ m env, St.xrun ip n (prog z) St.init = .ok m env ∧
    St.xstep ip n ⟨m, env⟩ (.merge ⟨0, [.key kb]⟩ g0) = .throw m :=
  C124_refused ip _ (prog_ok z) _ _ (int 7) (map [(ka, map [(kb, int 5)]), (kb, int 7), (kc, map [(kc, map [])])]) rfl rfl
    (Or.inr (by simp [GC.ty]))

example (ip : Nat → Nat → Bool) (z : Cplx) : ∃ N, ∀ n, N ≤ n → ∃ m env, St.xrun ip n (prog z) St.init = .ok m env ∧
    St.xstep ip n ⟨m, env⟩ (.merge g0 ⟨0, [.key kb]⟩) = .throw m :=
  C124_refused ip _ (prog_ok z) _ _ (map [(ka, map [(kb, int 5)]), (kb, int 7), (kc, map [(kc, map [])])]) (int 7) rfl rfl
    (Or.inl (by simp [GC.ty]))

/-- `GC g; g.merge( g );` -/
example (ip : Nat → Nat → Bool) : ∃ N, ∀ n, N ≤ n → ∃ m env, St.xrun ip n [.old (.construct 0)] St.init = .ok m env ∧
    St.xstep ip n ⟨m, env⟩ (.merge g0 g0) = .ok m env :=
  C124_nothing ip [.old (.construct 0)] ⟨trivial, trivial⟩ g0 g0 notype rfl rfl

end Heap
end GCV
