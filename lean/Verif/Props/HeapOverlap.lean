import Verif.Lemmas.HeapSink

/-!
# Assignments between a container and a part of it (C122)

`g["a"] = g;` and `g = g["a"];`: what happens, for every program before it, every container `x` and every part `y` of it.

* The container assigned to the part: the copy never ends.
* The part assigned to the container: good when the part holds nothing, a number, a boolean or a pointer; a read of what
  was released when it holds something else of another type than the container; nothing at all when both are vectors, or
  both maps, and the part is empty; a read of what was released when both are vectors and the container is cut before the
  element that the part is in, or when one of the assignments to be made replaces what the part is in (`Lost`), or when
  both are vectors and the container has to move to other storage to become as long as the part; what a copy of the part
  would give when both are maps and the part has no entry with the key that leads to it, or an empty one (`Idle`), and when
  both are vectors, the container stays where it is, and the part has an empty vector or map at the index that leads to it.
-/

namespace GCV
namespace Heap
open GC

variable {m : Mem} {g x y : GC} {c : Cell} {F G : Addr → Prop} {d s : Loc} {a b : Addr}

/-- C122.  `y = x` where `y` is inside `x`, whatever the two hold: the copy goes on for ever. -/
theorem C122_into_part (ip : Nat → Nat → Bool) (ops : List POp) (hops : ∀ op ∈ ops, op.Ok) (x : Place) (p : List Sel)
    (hp : p ≠ []) (gy : GC) (hy : (valuesAfter ops).get ⟨x.var, x.path ++ p⟩ = some gy) :
    ∃ N, ∀ n, N ≤ n → St.run ip n (ops ++ [.assign ⟨x.var, x.path ++ p⟩ x]) St.init = .fuel :=
  C40_assign_into_itself_negation ip ops hops x p hp gy hy

/-- C122.  `x = y` where `y` is inside `x` and holds nothing, a boolean, a number or a pointer: `x` gets the value, and
everything that was inside `x` is released. -/
theorem C122_from_scalar (ip : Nat → Nat → Bool) (ops : List POp) (hops : ∀ op ∈ ops, op.Ok) (x : Place) (p : List Sel)
    (gx gy : GC) (hx : (valuesAfter ops).get x = some gx)
    (hy : (valuesAfter ops).get ⟨x.var, x.path ++ p⟩ = some gy) (hi : immediate gy = true) :
    ∃ N, ∀ n, N ≤ n → ∃ m env, St.run ip n (ops ++ [.assign x ⟨x.var, x.path ++ p⟩]) St.init = .ok m env ∧
      Holds ⟨m, env⟩ ((valuesAfter ops).put x gy) := by
  obtain ⟨N, h⟩ := run_holds ip ops _ good_init hops
  refine ⟨max N (sizeOf gx + 1), fun n hn => ?_⟩
  obtain ⟨s', hs', hr⟩ := h n (by omega) _ holds_init
  obtain ⟨lx, cx, Gx, ly, cy, Gy, hlx, hly, hRx, hRy, hgp, hres, hput⟩ := hs'.overlap (good_run ops _ good_init hops) hx hy
  obtain ⟨k, rfl⟩ : ∃ k, n = k + 1 := ⟨n - 1, by omega⟩
  obtain ⟨rfl, _⟩ := (rep_imm hi).1 hRy.rep
  obtain ⟨m1, he1, hu1, hn1, hr1⟩ := clearAt_spec hRx.wf hRx.rd hRx.rep (n := k) (by omega) hRx.out
  have hw1 := hu1.wf hRx.wf (hRx.rep.lt hRx.wf)
  obtain ⟨m2, he2, hu2, _, _⟩ := write_spec (c' := .imm gy) (F := fun _ => False) hw1 hr1
  have hu := hu1.trans hu2 (read_lt hRx.wf hRx.rd) hRx.out (hRx.rep.lt hRx.wf)
  refine ⟨m2, s'.env, ?_, hput m2 gy _ _ hu ((rep_imm hi).2 ⟨rfl, fun _ h => h⟩)⟩
  rw [hr, St.run]
  simp only [St.step, hlx, hly, St.at, fromF, hRy.rd, he1, he2, Run.bind, St.run]

/-- C122.  `x = y` where `y` is inside `x`, of another type than `x`, and not one of those: `y` is released, then read. -/
theorem C122_from_other (ip : Nat → Nat → Bool) (ops : List POp) (hops : ∀ op ∈ ops, op.Ok)
    (x : Place) (p : List Sel) (hp : p ≠ []) (gx gy : GC) (hx : (valuesAfter ops).get x = some gx)
    (hy : (valuesAfter ops).get ⟨x.var, x.path ++ p⟩ = some gy) (hi : immediate gy = false) (ht : gx.ty ≠ gy.ty) :
    ∃ N, ∀ n, N ≤ n → St.run ip n (ops ++ [.assign x ⟨x.var, x.path ++ p⟩]) St.init = .ub :=
  C40_assign_from_inside_negation ip ops hops x p hp gx gy hx hy hi ht

/-- C122.  `x = y` where `x` and `y` inside it are both vectors, or both maps, and `y` is empty: nothing changes, `x` does
not become empty. -/
theorem C122_from_empty (ip : Nat → Nat → Bool) (ops : List POp) (hops : ∀ op ∈ ops, op.Ok) (x : Place) (p : List Sel)
    (gx gy : GC) (hx : (valuesAfter ops).get x = some gx)
    (hy : (valuesAfter ops).get ⟨x.var, x.path ++ p⟩ = some gy) (ht : gx.ty = gy.ty) (he : gy = vector [] ∨ gy = map []) :
    ∃ N, ∀ n, N ≤ n → ∃ m env, St.run ip n ops St.init = .ok m env ∧
      St.run ip n (ops ++ [.assign x ⟨x.var, x.path ++ p⟩]) St.init = .ok m env ∧ Holds ⟨m, env⟩ (valuesAfter ops) := by
  obtain ⟨N, h⟩ := run_holds ip ops _ good_init hops
  refine ⟨max N 1, fun n hn => ?_⟩
  obtain ⟨s', hs', hr⟩ := h n (by omega) _ holds_init
  obtain ⟨lx, cx, Gx, ly, cy, Gy, hlx, hly, hRx, hRy, hgp, hres, _⟩ := hs'.overlap (good_run ops _ good_init hops) hx hy
  obtain ⟨k, rfl⟩ : ∃ k, n = k + 1 := ⟨n - 1, by omega⟩
  have h0 := hr []
  rw [List.append_nil, St.run] at h0
  refine ⟨s'.mem, s'.env, h0, ?_, hs'⟩
  rw [hr, St.run]
  rcases he with rfl | rfl
  · obtain ⟨v, rfl⟩ : ∃ v, gx = vector v := by cases gx <;> first | exact ⟨_, rfl⟩ | exact absurd ht (by simp [GC.ty])
    obtain ⟨a, rfl, _⟩ := rep_vector_box hRx.rep
    obtain ⟨b, cs, _, rfl, hb, hL, _⟩ := id hRy.rep
    obtain ⟨rfl, -⟩ := hL
    have hlen0 : ¬ 0 < u32 0 := by decide
    simp only [St.step, hlx, hly, St.at, fromF, hRy.rd, allocBox_keep hRx.rd, hb, Run.bind, List.length_nil,
      if_neg hlen0, vecLoop, St.run]
  · obtain ⟨v, rfl⟩ : ∃ v, gx = map v := by cases gx <;> first | exact ⟨_, rfl⟩ | exact absurd ht (by simp [GC.ty])
    obtain ⟨a, rfl, _⟩ := rep_map_box hRx.rep
    obtain ⟨b, cs, _, rfl, hb, hL, _⟩ := id hRy.rep
    obtain ⟨rfl, -⟩ := hL
    simp only [St.step, hlx, hly, St.at, fromF, hRy.rd, allocBox_keep hRx.rd, hb, Run.bind, mapLoop, List.length_nil, St.run]

/-- C122.  `x = y` where `x` is a vector and `y`, a vector with elements, is inside an element that `x` does not have any
more once it has as many elements as `y`: `y` is released, then read. -/
theorem C122_from_cut (ip : Nat → Nat → Bool) (ops : List POp) (hops : ∀ op ∈ ops, op.Ok) (x : Place) (i : Nat)
    (p : List Sel) (v w : List GC) (hx : (valuesAfter ops).get x = some (vector v))
    (hy : (valuesAfter ops).get ⟨x.var, x.path ++ .idx i :: p⟩ = some (vector w)) (h0 : w ≠ []) (hi : w.length ≤ i) :
    ∃ N, ∀ n, N ≤ n → St.run ip n (ops ++ [.assign x ⟨x.var, x.path ++ .idx i :: p⟩]) St.init = .ub := by
  obtain ⟨N, h⟩ := run_holds ip ops _ good_init hops
  refine ⟨max N (sizeOf v + 1), fun n hn => ?_⟩
  obtain ⟨s', hs', hr⟩ := h n (by omega) _ holds_init
  obtain ⟨lx, cx, Gx, ly, cy, Gy, hlx, hly, hRx, hRy, hgp, hres, _⟩ := hs'.overlap (good_run ops _ good_init hops) hx hy
  obtain ⟨k, rfl⟩ : ∃ k, n = k + 1 := ⟨n - 1, by omega⟩
  obtain ⟨b, rfl, _⟩ := rep_vector_box hRx.rep
  rw [hr, St.run]
  simp only [St.step, hlx, hly, St.at, fromF_dropped ip (show sizeOf v ≤ k by omega) hRx hRy hgp hres h0 hi, Run.bind]

/-- C122.  `x = y` where `y` is inside `x` and is lost on the way (`Lost`, in `Spec/HeapOverlap`, says when): what was
released is read. -/
theorem C122_from_lost (ip : Nat → Nat → Bool) (ops : List POp) (hops : ∀ op ∈ ops, op.Ok) (x : Place) (p : List Sel)
    (gx gy : GC) (hx : (valuesAfter ops).get x = some gx) (hy : (valuesAfter ops).get ⟨x.var, x.path ++ p⟩ = some gy)
    (hl : Lost ip gx p) :
    ∃ N, ∀ n, N ≤ n → St.run ip n (ops ++ [.assign x ⟨x.var, x.path ++ p⟩]) St.init = .ub := by
  obtain ⟨N, h⟩ := run_holds ip ops _ good_init hops
  refine ⟨max N (2 * sizeOf gx + 1), fun n hn => ?_⟩
  obtain ⟨s', hs', hr⟩ := h n (by omega) _ holds_init
  obtain ⟨lx, cx, Gx, ly, cy, Gy, hlx, hly, hRx, hRy, hgp, hres, _⟩ := hs'.overlap (good_run ops _ good_init hops) hx hy
  rw [hr, St.run]
  simp only [St.step, hlx, hly, St.at, fromF_lost ip hl (show 2 * sizeOf gx < n by omega) hRx hRy hgp hres, Run.bind]

theorem from_gcM_mfind : ∀ (w : Entries) {e r : Entries}, KeysSorted w → (∀ p ∈ w, cstr p.1 = p.1) →
    from_gcM w e = .ok r → ∀ k, mfind k r = match mfind k w with
      | some x => result (from_gc x ((mfind k e).getD notype))
      | none => mfind k e
  | [], e, r, _, _, h, k => by
    simp only [from_gcM, Out.ok.injEq] at h
    rw [h]; rfl
  | (k', x) :: w, e, r, hs, hn, h, k => by
    have hk' : cstr k' = k' := hn (k', x) (by simp)
    rw [KeysSorted, List.pairwise_cons] at hs
    rw [from_gcM, hk'] at h
    obtain ⟨y, hy, h⟩ := out_bind_ok h
    have ih := from_gcM_mfind w hs.2 (fun p hp => hn p (by simp [hp])) h k
    by_cases hk : k = k'
    · have hw : mfind k w = none := by
        cases hf : mfind k w with
        | none => rfl
        | some z => exact absurd (hk ▸ hs.1 _ (mem_of_mfind hf)) (strLT_irrefl _)
      rw [hw] at ih
      rw [ih, hk, mfind_mset_same]
      simp only [mfind, if_true, hy, result]
    · rw [mfind_mset_other hk] at ih
      simp only [mfind, hk, if_false]
      exact ih

/-- C122.  `x = y` where `x` is a map and `y`, inside its entry `k`, is a map without an entry `k`, or with an empty
one, of the type that the entry `k` of `x` has (`Idle`): everything goes as if `y` were copied first.  The entries of `y` are assigned to those of `x`, the other entries of `x` stay, and so does the one that
`y` is in. -/
theorem C122_from_map (ip : Nat → Nat → Bool) (ops : List POp) (hops : ∀ op ∈ ops, op.Ok) (x : Place) (k : Bytes)
    (p : List Sel) (e w : Entries) (hx : (valuesAfter ops).get x = some (map e))
    (hy : (valuesAfter ops).get ⟨x.var, x.path ++ .key k :: p⟩ = some (map w))
    (hk : ∀ z, mfind k w = some z → ∃ z', mfind k e = some z' ∧ Idle z z') :
    ∃ r, mfind k r = mfind k e ∧
      (∀ k', mfind k' r = match mfind k' w with
        | some z => result (from_gc z ((mfind k' e).getD notype))
        | none => mfind k' e) ∧
      ∃ N, ∀ n, N ≤ n → ∃ m env,
        St.run ip n (ops ++ [.assign x ⟨x.var, x.path ++ .key k :: p⟩]) St.init = .ok m env ∧
        Holds ⟨m, env⟩ ((valuesAfter ops).put x (map r)) := by
  have hgood := good_run ops _ good_init hops
  have hwy := hgood.get hy
  have hwx := hgood.get hx
  obtain ⟨g', hg⟩ := from_gc_ok (map w) hwy.2 hwy.1 (map e)
  have hg0 := hg
  rw [from_gc] at hg0
  obtain ⟨r, hr, hg0⟩ := out_bind_ok hg0
  injection hg0 with hg0
  subst hg0
  have hfind := from_gcM_mfind w hwy.1.1 (fun q hq => cstr_of_noNul ((Fits_map hwy.2).1 q hq)) hr
  refine ⟨r, ?_, hfind, ?_⟩
  · have := hfind k
    simp only [oldMap] at this
    cases hz : mfind k w with
    | none => rw [hz] at this; exact this
    | some z =>
      obtain ⟨z', hz', hi⟩ := hk z hz
      rw [hz, hz', Option.getD_some] at this
      rw [hz']
      simpa only [from_gc_idle hi, result] using this
  obtain ⟨N, h⟩ := run_holds ip ops _ good_init hops
  refine ⟨max N (sizeOf w + sizeOf e + 2), fun n hn => ?_⟩
  obtain ⟨s', hs', hrun⟩ := h n (by omega) _ holds_init
  obtain ⟨lx, cx, Gx, ly, cy, Gy, hlx, hly, hRx, hRy, hgp, hres, hput⟩ := hs'.overlap hgood hx hy
  obtain ⟨j, rfl⟩ : ∃ j, n = j + 1 := ⟨n - 1, by omega⟩
  obtain ⟨b, rfl, _⟩ := rep_map_box hRx.rep
  obtain ⟨m', c', F', h1, h2, h3⟩ := fromF_unwrap ip hRx hRy hgp hres hk (show sizeOf w + sizeOf e < j by omega) hg
  refine ⟨m', s'.env, ?_, hput m' _ _ _ h2 h3⟩
  rw [hrun, St.run]
  simp only [St.step, hlx, hly, St.at, h1, Run.bind, St.run]

theorem from_gcL_get : ∀ (w v : List GC) {r : List GC}, from_gcL w v = .ok r → r.length = v.length ∧
    ∀ (j : Nat) z, w[j]? = some z → r[j]? = result (from_gc z ((v[j]?).getD notype))
  | [], v, r, h => by
    simp only [from_gcL, Out.ok.injEq] at h
    subst h
    exact ⟨rfl, by simp⟩
  | x :: w, [], r, h => by simp [from_gcL] at h
  | x :: w, y :: v, r, h => by
    rw [from_gcL] at h
    obtain ⟨y', hy, h⟩ := out_bind_ok h
    obtain ⟨r', hr, h⟩ := out_bind_ok h
    simp only [Out.ok.injEq] at h
    subst h
    obtain ⟨h1, h2⟩ := from_gcL_get w v hr
    refine ⟨by simp [h1], fun j z hj => ?_⟩
    cases j with
    | zero =>
      simp only [List.getElem?_cons_zero, Option.some.injEq] at hj ⊢
      subst hj
      simp only [Option.getD_some, hy, result]
    | succ j =>
      simp only [List.getElem?_cons_succ] at hj ⊢
      exact h2 j z hj

/-- C122.  `x = y` where `x` and `y`, inside its element `i`, are vectors, `x` stays where it is when it gets the length of
`y` (`ip` says when a growing vector stays), and the element `i` of `y` is an empty vector or map, of the type that the element
`i` of `x` has (`Idle`): everything goes as if `y` were copied first.  `x` gets the length of `y`, the elements of `y` are
assigned to those of `x`, and the one that `y` is in stays. -/
theorem C122_from_vector (ip : Nat → Nat → Bool) (ops : List POp) (hops : ∀ op ∈ ops, op.Ok) (x : Place) (i : Nat)
    (p : List Sel) (v w : List GC) (xi z : GC) (hx : (valuesAfter ops).get x = some (vector v))
    (hy : (valuesAfter ops).get ⟨x.var, x.path ++ .idx i :: p⟩ = some (vector w)) (hxi : v[i]? = some xi)
    (hz : w[i]? = some z) (hi : Idle z xi) (hip : w.length ≤ v.length ∨ ip v.length w.length = true) :
    ∃ r : List GC, r.length = w.length ∧ r[i]? = some xi ∧
      (∀ (j : Nat) z, w[j]? = some z → r[j]? = result (from_gc z ((v[j]?).getD notype))) ∧
      ∃ N, ∀ n, N ≤ n → ∃ m env,
        St.run ip n (ops ++ [.assign x ⟨x.var, x.path ++ .idx i :: p⟩]) St.init = .ok m env ∧
        Holds ⟨m, env⟩ ((valuesAfter ops).put x (vector r)) := by
  have hgood := good_run ops _ good_init hops
  have hwy := hgood.get hy
  have hiw : i < w.length := (List.getElem?_eq_some_iff.1 hz).1
  obtain ⟨g', hg⟩ := from_gc_ok (vector w) hwy.2 hwy.1 (vector v)
  have hg0 := hg
  rw [from_gc] at hg0
  obtain ⟨r, hr, hg0⟩ := out_bind_ok hg0
  injection hg0 with hg0
  subst hg0
  have h32 := (Fits_vector hwy.2).1
  simp only [oldVector, allocL, u32_of_lt h32, if_pos (show 0 < w.length by omega)] at hr
  obtain ⟨hl, hj⟩ := from_gcL_get _ _ hr
  have hold : ∀ j, j < w.length → ((resizeL notype w.length v)[j]?).getD notype = (v[j]?).getD notype := by
    intro j hj
    rw [resizeL]
    by_cases h : j < v.length
    · rw [List.getElem?_append_left (by rw [List.length_take]; omega), List.getElem?_take_of_lt hj]
    · rw [List.getElem?_append_right (by rw [List.length_take]; omega), List.getElem?_eq_none (l := v) (by omega)]
      cases hh : (List.replicate (w.length - v.length) notype)[j - (v.take w.length).length]? with
      | none => rfl
      | some u => exact (List.mem_replicate.1 (List.mem_of_getElem? hh)).2
  have hj' : ∀ (j : Nat) z, w[j]? = some z → r[j]? = result (from_gc z ((v[j]?).getD notype)) := fun j z h => by
    rw [hj j z h, hold j (List.getElem?_eq_some_iff.1 h).1]
  refine ⟨r, ?_, ?_, hj', ?_⟩
  · rw [hl, resizeL]; simp; omega
  · rw [hj' i z hz, hxi, Option.getD_some, from_gc_idle hi]; rfl
  obtain ⟨N, h⟩ := run_holds ip ops _ good_init hops
  refine ⟨max N (sizeOf v + sizeOf w + 2), fun n hn => ?_⟩
  obtain ⟨s', hs', hrun⟩ := h n (by omega) _ holds_init
  obtain ⟨lx, cx, Gx, ly, cy, Gy, hlx, hly, hRx, hRy, hgp, hres, hput⟩ := hs'.overlap hgood hx hy
  obtain ⟨j, rfl⟩ : ∃ j, n = j + 1 := ⟨n - 1, by omega⟩
  obtain ⟨b, rfl, _⟩ := rep_vector_box hRx.rep
  obtain ⟨m', c', F', h1, h2, h3⟩ := (fromF_around ip (show sizeOf v + sizeOf w < j by omega) hRx hRy hgp hres hxi hiw).2
    hip hz hi hg
  refine ⟨m', s'.env, ?_, hput m' _ _ _ h2 h3⟩
  rw [hrun, St.run]
  simp only [St.step, hlx, hly, St.at, h1, Run.bind, St.run]

/-- C122.  `x = y` where `x` and `y`, inside one of its elements, are vectors, and `x` moves to other storage to become as long
as `y`: `y` is released with the old storage, then read. -/
theorem C122_from_moved (ip : Nat → Nat → Bool) (ops : List POp) (hops : ∀ op ∈ ops, op.Ok) (x : Place) (i : Nat)
    (p : List Sel) (v w : List GC) (hx : (valuesAfter ops).get x = some (vector v))
    (hy : (valuesAfter ops).get ⟨x.var, x.path ++ .idx i :: p⟩ = some (vector w)) (hl : v.length < w.length)
    (hip : ip v.length w.length = false) :
    ∃ N, ∀ n, N ≤ n → St.run ip n (ops ++ [.assign x ⟨x.var, x.path ++ .idx i :: p⟩]) St.init = .ub := by
  obtain ⟨N, h⟩ := run_holds ip ops _ good_init hops
  refine ⟨max N (sizeOf v + sizeOf w + 2), fun n hn => ?_⟩
  obtain ⟨s', hs', hr⟩ := h n (by omega) _ holds_init
  obtain ⟨lx, cx, Gx, ly, cy, Gy, hlx, hly, hRx, hRy, hgp, hres, _⟩ := hs'.overlap (good_run ops _ good_init hops) hx hy
  obtain ⟨j, rfl⟩ : ∃ j, n = j + 1 := ⟨n - 1, by omega⟩
  obtain ⟨b, rfl, _⟩ := rep_vector_box hRx.rep
  have hgp' := hgp
  simp only [getAt] at hgp'
  obtain ⟨xi, hxi, _⟩ := Option.bind_eq_some_iff.1 hgp'
  have hiv := (List.getElem?_eq_some_iff.1 hxi).1
  rw [hr, St.run]
  simp only [St.step, hlx, hly, St.at, (fromF_around ip (show sizeOf v + sizeOf w < j by omega) hRx hRy hgp hres hxi
    (by omega)).1 hl hip, Run.bind]

/-- C122.  `x = x[i]` where `x` is a vector that does not grow, the element `i` is a vector, and so on inwards down to an empty
vector: every level takes the elements of the one inside it, the outer levels after the inner ones from `i` on. -/
theorem C122_from_nested (ip : Nat → Nat → Bool) (ops : List POp) (hops : ∀ op ∈ ops, op.Ok) (x : Place) (i : Nat)
    (v r : List GC) (hx : (valuesAfter ops).get x = some (vector v)) (hs : Sinks i v r) :
    ∃ N, ∀ n, N ≤ n → ∃ m env,
      St.run ip n (ops ++ [.assign x ⟨x.var, x.path ++ [.idx i]⟩]) St.init = .ok m env ∧
      Holds ⟨m, env⟩ ((valuesAfter ops).put x (vector r)) := by
  have hgood := good_run ops _ good_init hops
  obtain ⟨xi, hxi⟩ : ∃ xi, v[i]? = some xi := by cases hs <;> exact ⟨_, ‹_›⟩
  have hy : (valuesAfter ops).get ⟨x.var, x.path ++ [.idx i]⟩ = some xi := by
    simp only [Vals.get] at hx ⊢
    obtain ⟨g, hg, hx⟩ := Option.bind_eq_some_iff.1 hx
    rw [hg, Option.bind_some, getAt_append, hx]
    simp only [Option.bind_some, getAt, hxi]
  obtain ⟨N1, hf⟩ := fromF_sinks ip hs
  obtain ⟨N, h⟩ := run_holds ip ops _ good_init hops
  refine ⟨max N N1, fun n hn => ?_⟩
  obtain ⟨s', hs', hrun⟩ := h n (by omega) _ holds_init
  obtain ⟨lx, cx, Gx, ly, cy, Gy, hlx, hly, hRx, hRy, hgp, hres, hput⟩ := hs'.overlap hgood hx hy
  obtain ⟨b, rfl, _⟩ := rep_vector_box hRx.rep
  obtain ⟨m', F', h1, h2, h3⟩ := hf n (by omega) hRx
  refine ⟨m', s'.env, ?_, hput m' _ _ _ h2 h3⟩
  rw [hrun, St.run]
  obtain ⟨ci, Gi, hri, _⟩ := hRx.rep.elem hRx.wf hxi
  simp only [resolve, hRx.rd, hri, Option.some.injEq] at hres
  subst hres
  simp only [St.step, hlx, hly, St.at, h1, Run.bind, St.run]

/-! ## Programs the theorems are about -/

private abbrev ka : Bytes := [97]
private abbrev x0 : Place := ⟨0, []⟩

/-- `GC g; g["a"][2] = 5; g["b"] = "x";` -/
private def prog : List POp :=
  [.construct 0, .key x0 ka, .idx ⟨0, [.key ka]⟩ 2, .set ⟨0, [.key ka, .idx 2]⟩ (int 5), .key x0 [98],
   .set ⟨0, [.key [98]]⟩ (string [120])]

private theorem prog_ok : ∀ op ∈ prog, op.Ok := by
  simp only [prog, List.forall_mem_cons, POp.Ok, List.not_mem_nil, false_implies, implies_true, and_true, true_and]
  exact ⟨by decide, ⟨by simp, by simp, trivial, rfl⟩, ⟨by simp, by simp, trivial, rfl⟩⟩

example : valuesAfter prog 0 = some (map [(ka, vector [notype, notype, int 5]), ([98], string [120])]) := rfl

/-- `g["a"][2] = g;` -/
example : ∃ N, ∀ n, N ≤ n →
    St.run (fun _ _ => true) n (prog ++ [.assign ⟨0, [] ++ [.key ka, .idx 2]⟩ x0]) St.init = .fuel :=
  C122_into_part _ _ prog_ok x0 _ (by simp) _ rfl

/-- `g = g["a"][2];` -/
example : ∃ N, ∀ n, N ≤ n → ∃ m env,
    St.run (fun _ _ => true) n (prog ++ [.assign x0 ⟨0, [] ++ [.key ka, .idx 2]⟩]) St.init = .ok m env ∧
      Holds ⟨m, env⟩ ((valuesAfter prog).put x0 (int 5)) :=
  C122_from_scalar _ _ prog_ok x0 _ _ _ rfl rfl rfl

example : (valuesAfter prog).put x0 (int 5) 0 = some (int 5) := rfl

/-- `g = g["a"];` -/
example : ∃ N, ∀ n, N ≤ n → St.run (fun _ _ => true) n (prog ++ [.assign x0 ⟨0, [] ++ [.key ka]⟩]) St.init = .ub :=
  C122_from_other _ _ prog_ok x0 _ (by simp) _ _ rfl rfl rfl (by decide)

/-- `GC g; g[2].set_vector(1);` -/
private def vprog : List POp := [.construct 0, .idx x0 2, .setVector ⟨0, [.idx 2]⟩ 1, .setVector ⟨0, [.idx 1]⟩ 0]

private theorem vprog_ok : ∀ op ∈ vprog, op.Ok := by
  simp only [vprog, List.forall_mem_cons, POp.Ok, List.not_mem_nil, false_implies, implies_true, and_true, true_and]
  decide

example : valuesAfter vprog 0 = some (vector [notype, vector [], vector [notype]]) := rfl

/-- `g = g[2];`, where `g[2]` has one element -/
example : ∃ N, ∀ n, N ≤ n → St.run (fun _ _ => true) n (vprog ++ [.assign x0 ⟨0, [] ++ [.idx 2]⟩]) St.init = .ub :=
  C122_from_cut _ _ vprog_ok x0 2 [] _ _ rfl rfl (List.cons_ne_nil notype []) (by decide)

/-- `g = g[1];`, where `g[1]` is an empty vector -/
example : ∃ N, ∀ n, N ≤ n → ∃ m env, St.run (fun _ _ => true) n vprog St.init = .ok m env ∧
    St.run (fun _ _ => true) n (vprog ++ [.assign x0 ⟨0, [] ++ [.idx 1]⟩]) St.init = .ok m env ∧
    Holds ⟨m, env⟩ (valuesAfter vprog) :=
  C122_from_empty _ _ vprog_ok x0 _ _ _ rfl rfl rfl (.inl rfl)

/-- `GC g; g[0][0][0] = 5;` -/
private def lprog : List POp :=
  [.construct 0, .idx x0 0, .idx ⟨0, [.idx 0]⟩ 0, .idx ⟨0, [.idx 0, .idx 0]⟩ 0, .set ⟨0, [.idx 0, .idx 0, .idx 0]⟩ (int 5)]

private theorem lprog_ok : ∀ op ∈ lprog, op.Ok := by
  simp only [lprog, List.forall_mem_cons, POp.Ok, List.not_mem_nil, false_implies, implies_true, and_true, true_and]
  exact ⟨by decide, by decide, by decide, ⟨by simp, by simp, trivial, rfl⟩⟩

example : valuesAfter lprog 0 = some (vector [vector [vector [int 5]]]) := rfl

/-- `g = g[0];` makes the assignment `g[0] = g[0][0];`, which makes the assignment `g[0][0] = g[0][0][0];`. -/
example : ∃ N, ∀ n, N ≤ n → St.run (fun _ _ => true) n (lprog ++ [.assign x0 ⟨0, [] ++ [.idx 0]⟩]) St.init = .ub :=
  C122_from_lost _ _ lprog_ok x0 _ (vector [vector [vector [int 5]]]) _ rfl rfl
    (.elem (w := [vector [int 5]]) rfl (by decide) rfl (.replaced (w := [int 5]) (y := int 5) rfl rfl rfl))

/-- `GC g; g[0][0][1] = 5;` -/
private def nprog : List POp :=
  [.construct 0, .idx x0 0, .idx ⟨0, [.idx 0]⟩ 0, .idx ⟨0, [.idx 0, .idx 0]⟩ 1, .set ⟨0, [.idx 0, .idx 0, .idx 1]⟩ (int 5)]

private theorem nprog_ok : ∀ op ∈ nprog, op.Ok := by
  simp only [nprog, List.forall_mem_cons, POp.Ok, List.not_mem_nil, false_implies, implies_true, and_true, true_and]
  exact ⟨by decide, by decide, by decide, ⟨by simp, by simp, trivial, rfl⟩⟩

/-- `g = g[0];` makes the assignment `g[0] = g[0][0];`, where `g[0]` has one element and `g[0][0]` has two. -/
example : ∃ N, ∀ n, N ≤ n → St.run (fun _ _ => false) n (nprog ++ [.assign x0 ⟨0, [] ++ [.idx 0]⟩]) St.init = .ub :=
  C122_from_lost _ _ nprog_ok x0 _ (vector [vector [vector [notype, int 5]]]) _ rfl rfl
    (.elem (w := [vector [notype, int 5]]) rfl (by decide) rfl (.moved (w := [notype, int 5]) rfl (by decide) rfl))

/-- `GC g; g["a"]["a"] = 5;` -/
private def kprog : List POp :=
  [.construct 0, .key x0 ka, .key ⟨0, [.key ka]⟩ ka, .set ⟨0, [.key ka, .key ka]⟩ (int 5)]

private theorem kprog_ok : ∀ op ∈ kprog, op.Ok := by
  simp only [kprog, List.forall_mem_cons, POp.Ok, List.not_mem_nil, false_implies, implies_true, and_true, true_and]
  exact ⟨by simp, by simp, trivial, rfl⟩

/-- `g = g["a"];` -/
example : ∃ N, ∀ n, N ≤ n → St.run (fun _ _ => true) n (kprog ++ [.assign x0 ⟨0, [] ++ [.key ka]⟩]) St.init = .ub :=
  C122_from_lost _ _ kprog_ok x0 _ (map [(ka, map [(ka, int 5)])]) _ rfl rfl
    (.replacedEntry (w := [(ka, int 5)]) (y := int 5) rfl rfl rfl)

/-- `GC g; g["a"]["b"] = 5; g["c"] = 7;` -/
private def mprog : List POp :=
  [.construct 0, .key x0 ka, .key ⟨0, [.key ka]⟩ [98], .set ⟨0, [.key ka, .key [98]]⟩ (int 5), .key x0 [99],
   .set ⟨0, [.key [99]]⟩ (int 7)]

private theorem mprog_ok : ∀ op ∈ mprog, op.Ok := by
  simp only [mprog, List.forall_mem_cons, POp.Ok, List.not_mem_nil, false_implies, implies_true, and_true, true_and]
  exact ⟨⟨by simp, by simp, trivial, rfl⟩, ⟨by simp, by simp, trivial, rfl⟩⟩

/-- `g = g["a"];` adds the entries of `g["a"]` to `g`. -/
example : ∃ r, mfind ka r = some (map [([98], int 5)]) ∧ mfind [98] r = some (int 5) ∧ mfind [99] r = some (int 7) ∧
    ∃ N, ∀ n, N ≤ n → ∃ m env,
      St.run (fun _ _ => true) n (mprog ++ [.assign x0 ⟨0, [] ++ .key ka :: []⟩]) St.init = .ok m env ∧
      Holds ⟨m, env⟩ ((valuesAfter mprog).put x0 (map r)) := by
  obtain ⟨r, h1, h2, h3⟩ := C122_from_map (fun _ _ => true) mprog mprog_ok x0 ka []
    [(ka, map [([98], int 5)]), ([99], int 7)] [([98], int 5)] rfl rfl (fun z h => by simp [mfind] at h)
  exact ⟨r, h1, h2 [98], h2 [99], h3⟩

/-- `GC g; g["a"]["a"].set_map(); g["a"]["b"] = 5;` -/
private def eprog : List POp :=
  [.construct 0, .key x0 ka, .key ⟨0, [.key ka]⟩ ka, .setMap ⟨0, [.key ka, .key ka]⟩, .key ⟨0, [.key ka]⟩ [98],
   .set ⟨0, [.key ka, .key [98]]⟩ (int 5)]

private theorem eprog_ok : ∀ op ∈ eprog, op.Ok := by
  simp only [eprog, List.forall_mem_cons, POp.Ok, List.not_mem_nil, false_implies, implies_true, and_true, true_and]
  exact ⟨by simp, by simp, trivial, rfl⟩

/-- `g = g["a"];`, where `g["a"]["a"]` is an empty map -/
example : ∃ r, mfind ka r = some (map [(ka, map []), ([98], int 5)]) ∧ mfind [98] r = some (int 5) ∧
    ∃ N, ∀ n, N ≤ n → ∃ m env,
      St.run (fun _ _ => true) n (eprog ++ [.assign x0 ⟨0, [] ++ .key ka :: []⟩]) St.init = .ok m env ∧
      Holds ⟨m, env⟩ ((valuesAfter eprog).put x0 (map r)) := by
  obtain ⟨r, h1, h2, h3⟩ := C122_from_map (fun _ _ => true) eprog eprog_ok x0 ka []
    [(ka, map [(ka, map []), ([98], int 5)])] [(ka, map []), ([98], int 5)] rfl rfl
    (fun z h => ⟨_, rfl, by
      simp only [mfind, if_true, Option.some.injEq] at h
      subst h
      exact ⟨.inr rfl, rfl⟩⟩)
  exact ⟨r, h1, h2 [98], h3⟩

/-- `GC g; g[0][1] = 5; g[0][0].set_vector(); g[k].set_vector();` -/
private def iprog (k : Nat) : List POp :=
  [.construct 0, .idx x0 0, .idx ⟨0, [.idx 0]⟩ 1, .set ⟨0, [.idx 0, .idx 1]⟩ (int 5), .setVector ⟨0, [.idx 0, .idx 0]⟩ 0,
   .idx x0 k, .setVector ⟨0, [.idx k]⟩ 0]

private theorem iprog_ok : ∀ op ∈ iprog 2, op.Ok := by
  simp only [iprog, List.forall_mem_cons, POp.Ok, List.not_mem_nil, false_implies, implies_true, and_true, true_and]
  exact ⟨by decide, by decide, ⟨by simp, by simp, trivial, rfl⟩, by decide, by decide⟩

example : valuesAfter (iprog 2) 0 = some (vector [vector [vector [], int 5], notype, vector []]) := rfl

/-- `g = g[0];`, where `g[0][0]` is an empty vector: `g` has two elements, the first stays, the second is 5 -/
example : ∃ r : List GC, r.length = 2 ∧ r[0]? = some (vector [vector [], int 5]) ∧ r[1]? = some (int 5) ∧
    ∃ N, ∀ n, N ≤ n → ∃ m env,
      St.run (fun _ _ => false) n (iprog 2 ++ [.assign x0 ⟨0, [] ++ .idx 0 :: []⟩]) St.init = .ok m env ∧
      Holds ⟨m, env⟩ ((valuesAfter (iprog 2)).put x0 (vector r)) := by
  obtain ⟨r, h1, h2, h3, h4⟩ := C122_from_vector (fun _ _ => false) (iprog 2) iprog_ok x0 0 []
    [vector [vector [], int 5], notype, vector []] [vector [], int 5] _ (vector []) rfl rfl rfl rfl ⟨.inl rfl, rfl⟩ (.inl (by decide))
  exact ⟨r, h1, h2, h3 1 (int 5) rfl, h4⟩

/-- `GC g; g[0][1] = 5;` -/
private def gprog : List POp :=
  [.construct 0, .idx x0 0, .idx ⟨0, [.idx 0]⟩ 1, .set ⟨0, [.idx 0, .idx 1]⟩ (int 5)]

private theorem gprog_ok : ∀ op ∈ gprog, op.Ok := by
  simp only [gprog, List.forall_mem_cons, POp.Ok, List.not_mem_nil, false_implies, implies_true, and_true, true_and]
  exact ⟨by decide, by decide, ⟨by simp, by simp, trivial, rfl⟩⟩

/-- `g = g[0];`, where `g` has one element and `g[0]` has two -/
example : ∃ N, ∀ n, N ≤ n → St.run (fun _ _ => false) n (gprog ++ [.assign x0 ⟨0, [] ++ .idx 0 :: []⟩]) St.init = .ub :=
  C122_from_moved _ _ gprog_ok x0 0 [] [vector [notype, int 5]] [notype, int 5] rfl rfl (by decide) rfl

/-- `GC g; g[0][0][1] = 5; g[0][0][0].set_vector(); g[0][1] = 6; g[1] = 9;` -/
private def sprog : List POp :=
  [.construct 0, .idx x0 0, .idx ⟨0, [.idx 0]⟩ 0, .idx ⟨0, [.idx 0, .idx 0]⟩ 1, .set ⟨0, [.idx 0, .idx 0, .idx 1]⟩ (int 5),
   .setVector ⟨0, [.idx 0, .idx 0, .idx 0]⟩ 0, .idx ⟨0, [.idx 0]⟩ 1, .set ⟨0, [.idx 0, .idx 1]⟩ (int 6), .idx x0 1,
   .set ⟨0, [.idx 1]⟩ (int 9)]

private theorem sprog_ok : ∀ op ∈ sprog, op.Ok := by
  simp only [sprog, List.forall_mem_cons, POp.Ok, List.not_mem_nil, false_implies, implies_true, and_true, true_and]
  exact ⟨by decide, by decide, by decide, ⟨by simp, by simp, trivial, rfl⟩, by decide, by decide,
    ⟨by simp, by simp, trivial, rfl⟩, by decide, ⟨by simp, by simp, trivial, rfl⟩⟩

example : valuesAfter sprog 0 = some (vector [vector [vector [vector [], int 5], int 6], int 9]) := rfl

/-- `g = g[0];` makes the assignment `g[0] = g[0][0];` first: `g[0][1]` is 5 when it is assigned to `g[1]`, no more 6. -/
example : ∃ N, ∀ n, N ≤ n → ∃ m env,
    St.run (fun _ _ => false) n (sprog ++ [.assign x0 ⟨0, [] ++ [.idx 0]⟩]) St.init = .ok m env ∧
      Holds ⟨m, env⟩ ((valuesAfter sprog).put x0 (vector [vector [vector [vector [], int 5], int 5], int 5])) := by
  refine C122_from_nested _ _ sprog_ok x0 0 _ _ rfl
    (.step (w := [vector [vector [], int 5], int 6]) (w' := [vector [vector [], int 5], int 5]) rfl (by decide) (by decide)
      (.step (w := [vector [], int 5]) (w' := [vector [], int 5]) rfl (by decide) (by decide) (.stop rfl) rfl ?_ rfl ?_ ?_)
      rfl ?_ rfl ?_ ?_)
  · omega
  · intro t h1 h2
    obtain rfl : t = 1 := by simp at h2; omega
    rfl
  · intro t h1 h2 h3
    simp at h2 h3; omega
  · omega
  · intro t h1 h2
    obtain rfl : t = 1 := by simp at h2; omega
    rfl
  · intro t h1 h2 h3
    simp at h2 h3; omega

end Heap
end GCV
