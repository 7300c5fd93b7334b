import Verif.Lemmas.HeapDiverge

/-!
# Who owns which allocation (C40)

Programs: variables, calls on them and on what is inside them, assignments, copies, ends of lifetimes
(`Verif/Model/HeapOps.lean`), run on a memory in which an access to a released payload is `ub` and addresses are never
used twice.  `ip` says, arbitrarily, when a `std::vector` grows without moving its elements; `n` bounds the recursion:
the results hold for every `n` that is large enough, and that does not end at all is `fuel` for every `n`.
-/

namespace GCV
namespace Heap
open GC

/-- The values of the variables after a program. -/
def valuesAfter (ops : List POp) : Vals := ops.foldl Vals.step fun _ => none

theorem holds_init : Holds St.init (fun _ => none) :=
  ⟨fun _ _ => rfl, fun _ _ => False, fun _ => ⟨rfl, fun _ h => h⟩, fun _ _ _ _ h => h.elim, fun _ h => absurd rfl h⟩

theorem good_init : Good (fun _ => none) := fun _ _ h => by simp at h

theorem good_run : ∀ (ops : List POp) (E : Vals), Good E → (∀ op ∈ ops, op.Ok) → Good (ops.foldl Vals.step E)
  | [], _, h, _ => h
  | op :: ops, E, h, hops => good_run ops _ (h.step (hops op (by simp))) fun o ho => hops o (by simp [ho])

theorem run_cons (ip : Nat → Nat → Bool) {n : Nat} {op : POp} {s s' : St} (ops : List POp)
    (h : after s (s.step ip n op) = some s') : St.run ip n (op :: ops) s = St.run ip n ops s' := by
  rw [St.run]
  cases hs : s.step ip n op <;> rw [hs] at h <;> simp only [after, Option.some.injEq, reduceCtorEq] at h
  · subst h; rfl
  · subst h; rfl

theorem run_holds (ip : Nat → Nat → Bool) : ∀ (ops : List POp) (E : Vals), Good E → (∀ op ∈ ops, op.Ok) →
    ∃ N, ∀ n, N ≤ n → ∀ s, Holds s E → ∃ s', Holds s' (ops.foldl Vals.step E) ∧
      ∀ rest, St.run ip n (ops ++ rest) s = St.run ip n rest s'
  | [], E, _, _ => ⟨0, fun n _ s h => ⟨s, h, fun _ => rfl⟩⟩
  | op :: ops, E, hE, hops => by
    obtain ⟨N1, h1⟩ := Holds.step ip hE (hops op (by simp))
    obtain ⟨N2, h2⟩ := run_holds ip ops _ (hE.step (hops op (by simp))) fun o ho => hops o (by simp [ho])
    refine ⟨max N1 N2, fun n hn s h => ?_⟩
    obtain ⟨s1, hs1, hh1⟩ := h1 n (by omega) s h
    obtain ⟨s2, hh2, hr2⟩ := h2 n (by omega) s1 hh1
    exact ⟨s2, hh2, fun rest => by rw [List.cons_append, run_cons ip _ hs1, hr2]⟩

/-- C40.  Every program, whatever it does with its variables and with what is inside them, runs without using a payload
that has been released and without releasing one twice (it does not end in `ub`), and afterwards memory holds the values
that the program has on trees, each variable in blocks that belong to it alone, and nothing else.
Assignments are between places of which neither is inside the other; the others are below. -/
theorem C40_history_partial (ip : Nat → Nat → Bool) (ops : List POp) (hops : ∀ op ∈ ops, op.Ok) :
    ∃ N, ∀ n, N ≤ n → ∃ m env, St.run ip n ops St.init = .ok m env ∧ Holds ⟨m, env⟩ (valuesAfter ops) := by
  obtain ⟨N, h⟩ := run_holds ip ops _ good_init hops
  refine ⟨N, fun n hn => ?_⟩
  obtain ⟨s', hs', hr⟩ := h n hn _ holds_init
  have := hr []
  rw [List.append_nil, St.run] at this
  exact ⟨s'.mem, s'.env, this, hs'⟩

/-- C40.  When the lifetimes of all the variables have ended, everything that was allocated has been released. -/
theorem C40_no_leak_partial (ip : Nat → Nat → Bool) (ops : List POp) (hops : ∀ op ∈ ops, op.Ok)
    (hend : ∀ x, valuesAfter ops x = none) :
    ∃ N, ∀ n, N ≤ n → ∃ m env, St.run ip n ops St.init = .ok m env ∧ ∀ b, m.blk b = none := by
  obtain ⟨N, h⟩ := C40_history_partial ip ops hops
  refine ⟨N, fun n hn => ?_⟩
  obtain ⟨m, env, hr, hw, A, hA, _, hall⟩ := h n hn
  refine ⟨m, env, hr, fun b => Classical.byContradiction fun hb => ?_⟩
  obtain ⟨x, hx⟩ := hall b hb
  have := hA x
  rw [hend x] at this
  exact this.2 b hx

/-- C40.  `x = x`, where `x` holds a tree without a COMPLEX, leaves memory as it is. -/
theorem C40_self_assign_partial (ip : Nat → Nat → Bool) (ops : List POp) (hops : ∀ op ∈ ops, op.Ok) (x : Place) (g : GC)
    (hx : (valuesAfter ops).get x = some g) (hc : every (fun y => y.ty != .COMPLEX) g = true) :
    ∃ N, ∀ n, N ≤ n → ∃ m env, St.run ip n ops St.init = .ok m env ∧
      St.run ip n (ops ++ [.assign x x]) St.init = .ok m env := by
  obtain ⟨N, h⟩ := run_holds ip ops _ good_init hops
  obtain ⟨hw, hf⟩ := (good_run ops _ good_init hops).get hx
  refine ⟨max N (sizeOf g + 1), fun n hn => ?_⟩
  obtain ⟨s', hs', hr⟩ := h n (by omega) _ holds_init
  obtain ⟨_, _, _, _, l, c1, G, _, _, _, _, _, _, _, hl, hr1, hR1, _, hnl, _⟩ := hs'.place hx
  have hself := fromF_self ip n g s'.mem l c1 G (by omega) hw hf hs'.1 hr1 hR1 hnl
  rw [if_pos hc] at hself
  have h0 := hr []
  rw [List.append_nil, St.run] at h0
  refine ⟨s'.mem, s'.env, h0, ?_⟩
  rw [hr, St.run]
  simp only [St.step, hl, St.at, hself, Run.bind, St.run]

/-- C40.  `x = x` reads a payload that has been released as soon as there is a COMPLEX anywhere in `x`. -/
theorem C40_self_assign_negation (ip : Nat → Nat → Bool) (ops : List POp) (hops : ∀ op ∈ ops, op.Ok) (x : Place) (g : GC)
    (hx : (valuesAfter ops).get x = some g) (hc : every (fun y => y.ty != .COMPLEX) g = false) :
    ∃ N, ∀ n, N ≤ n → St.run ip n (ops ++ [.assign x x]) St.init = .ub := by
  obtain ⟨N, h⟩ := run_holds ip ops _ good_init hops
  obtain ⟨hw, hf⟩ := (good_run ops _ good_init hops).get hx
  refine ⟨max N (sizeOf g + 1), fun n hn => ?_⟩
  obtain ⟨s', hs', hr⟩ := h n (by omega) _ holds_init
  obtain ⟨_, _, _, _, l, c1, G, _, _, _, _, _, _, _, hl, hr1, hR1, _, hnl, _⟩ := hs'.place hx
  have hself := fromF_self ip n g s'.mem l c1 G (by omega) hw hf hs'.1 hr1 hR1 hnl
  rw [if_neg (by rw [noComplex, hc]; simp)] at hself
  rw [hr, St.run]
  simp only [St.step, hl, St.at, hself, Run.bind]

/-- C40.  `x = y` with `y` inside `x`, of another type than `x` and not a number, a boolean or a pointer: the source is
released, then read. -/
theorem C40_assign_from_inside_negation (ip : Nat → Nat → Bool) (ops : List POp) (hops : ∀ op ∈ ops, op.Ok)
    (x : Place) (p : List Sel) (hp : p ≠ []) (gx gy : GC) (hx : (valuesAfter ops).get x = some gx)
    (hy : (valuesAfter ops).get ⟨x.var, x.path ++ p⟩ = some gy) (hi : immediate gy = false) (ht : gx.ty ≠ gy.ty) :
    ∃ N, ∀ n, N ≤ n → St.run ip n (ops ++ [.assign x ⟨x.var, x.path ++ p⟩]) St.init = .ub := by
  obtain ⟨N, h⟩ := run_holds ip ops _ good_init hops
  refine ⟨max N (sizeOf gx + 1), fun n hn => ?_⟩
  obtain ⟨s', hs', hr⟩ := h n (by omega) _ holds_init
  obtain ⟨g0, a, c, F, l, c1, G, hE, hpx, he, hra, hRa, hna, hres, hl, hr1, hR1, hsub, hnl, hin, _⟩ := hs'.place hx
  have hgp : getAt p gx = some gy := by
    unfold Vals.get at hy
    rw [show (valuesAfter ops) x.var = some g0 from hE] at hy
    simp only [Option.bind_some] at hy
    rw [GC.getAt_append, hpx] at hy
    exact hy
  obtain ⟨l', c', G', hres', hr', hR', hsub', hnl', hin', _⟩ := Rep.at p hs'.1 hr1 hR1 hnl hgp
  have hinG : G l'.addr := by
    rcases hin' with rfl | h
    · cases p with
      | nil => exact absurd rfl hp
      | cons e p =>
        -- the first step of the path leads into the payload
        cases e with
        | idx i =>
          cases gx with
          | vector v =>
            obtain ⟨b, rfl, hGb⟩ := rep_vector_box hR1
            simp only [getAt] at hgp
            cases hv : v[i]? with
            | none => rw [hv] at hgp; simp at hgp
            | some xi =>
              rw [hv] at hgp
              obtain ⟨ci, Gi, hri, hxi, hsubi, hnai, _⟩ := hR1.elem hs'.1 hv
              obtain ⟨l2, _, _, hres2, _, _, _, _, hin2, _⟩ := Rep.at p hs'.1 hri hxi hnai hgp
              rw [resolve, hr1] at hres'
              simp only [hri] at hres'
              rw [hres'] at hres2
              injection hres2 with hres2
              rcases hin2 with h | h
              · rw [hres2, h]; exact hGb
              · rw [hres2]; exact hsubi _ h
          | _ => simp [getAt] at hgp
        | key k =>
          cases gx with
          | map v =>
            obtain ⟨b, rfl, hGb⟩ := rep_map_box hR1
            simp only [getAt] at hgp
            cases hv : mfind k v with
            | none => rw [hv] at hgp; simp at hgp
            | some xi =>
              rw [hv] at hgp
              obtain ⟨ci, Gi, hri, hxi, hsubi, hnai, _⟩ := hR1.entry hs'.1 hv
              obtain ⟨l2, _, _, hres2, _, _, _, _, hin2, _⟩ := Rep.at p hs'.1 hri hxi hnai hgp
              rw [resolve, hr1] at hres'
              simp only [hri] at hres'
              rw [hres'] at hres2
              injection hres2 with hres2
              rcases hin2 with h | h
              · rw [hres2, h]; exact hGb
              · rw [hres2]; exact hsubi _ h
          | _ => simp [getAt] at hgp
    · exact h
  have hloc : s'.loc ⟨x.var, x.path ++ p⟩ = some l' := by
    obtain ⟨_, a2, _, _, l2, _, _, _, _, he2, _, _, _, hres2, hl2, _⟩ := hs'.place hy
    rw [hl2, ← hres2]
    simp only at he2
    rw [he] at he2
    injection he2 with he2
    subst he2
    rw [resolve_append, hres]
    exact hres'
  have hub := fromF_inside ip (n := n) (by omega) hs'.1 hr1 hR1 hnl hr' hR' hsub' hinG hi ht
  rw [hr, St.run]
  simp only [St.step, hloc, St.at, hl, hub, Run.bind]

/-- The two places of an assignment between a container and a part of it. -/
theorem Holds.overlap {s : St} {E : Vals} {x : Place} {p : List Sel} {gx gy : GC} (h : Holds s E) (hE : Good E)
    (hx : E.get x = some gx) (hy : E.get ⟨x.var, x.path ++ p⟩ = some gy) :
    ∃ lx cx Gx ly cy Gy, s.loc x = some lx ∧ s.loc ⟨x.var, x.path ++ p⟩ = some ly ∧ Root s.mem lx gx cx Gx ∧
      Root s.mem ly gy cy Gy ∧ getAt p gx = some gy ∧ resolve s.mem p lx = some ly ∧
      ∀ m' g' c'' G', Upd s.mem m' lx c'' Gx G' → Rep m' g' c'' G' → Holds ⟨m', s.env⟩ (E.put x g') := by
  obtain ⟨g0, a, c, F, l, c1, G, hE0, hpx, he, hra, hRa, hna, hres, hl, hr1, hR1, hsub, hnl, hin, hput⟩ := h.place hx
  have hgp : getAt p gx = some gy := by
    unfold Vals.get at hy
    rw [show E x.var = some g0 from hE0] at hy
    simp only [Option.bind_some] at hy
    rw [GC.getAt_append, hpx] at hy
    exact hy
  have hR : Root s.mem l gx c1 G := ⟨h.1, hr1, hR1, hnl, (hE.get hx).1, (hE.get hx).2⟩
  obtain ⟨ly, cy, Gy, hry, hRy⟩ := hR.sub hgp
  refine ⟨l, c1, G, ly, cy, Gy, hl, ?_, hR, hRy, hgp, hry, hput⟩
  simp only [St.loc, he, Option.bind_some, resolve_append, hres]
  exact hry

/-- C40.  `y = x`, where `y` is inside `x`, never ends, whatever the two hold: `y` becomes a vector or a map like `x`, with a
part of its own in the place where `y` is in `x`, which is assigned from the part of `x` that `y` is in, and so on. -/
theorem C40_assign_into_itself_negation (ip : Nat → Nat → Bool) (ops : List POp) (hops : ∀ op ∈ ops, op.Ok) (x : Place) (p : List Sel)
    (hp : p ≠ []) (gy : GC) (hy : (valuesAfter ops).get ⟨x.var, x.path ++ p⟩ = some gy) :
    ∃ N, ∀ n, N ≤ n → St.run ip n (ops ++ [.assign ⟨x.var, x.path ++ p⟩ x]) St.init = .fuel := by
  obtain ⟨gx, hx⟩ : ∃ gx, (valuesAfter ops).get x = some gx := by
    unfold Vals.get at hy ⊢
    cases h0 : (valuesAfter ops) x.var with
    | none => rw [h0] at hy; simp at hy
    | some g0 =>
      rw [h0] at hy
      simp only [Option.bind_some] at hy ⊢
      rw [GC.getAt_append] at hy
      cases h1 : getAt x.path g0 with
      | none => rw [h1] at hy; simp at hy
      | some gx => exact ⟨gx, rfl⟩
  obtain ⟨N, h⟩ := run_holds ip ops _ good_init hops
  refine ⟨N, fun n hn => ?_⟩
  obtain ⟨s', hs', hr⟩ := h n hn _ holds_init
  obtain ⟨lx, cx, Gx, ly, cy, Gy, hlx, hly, hRx, _, hgp, hres, _⟩ := hs'.overlap (good_run ops _ good_init hops) hx hy
  rw [hr, St.run]
  simp only [St.step, hlx, hly, St.at, fromF_into ip n s'.mem lx gx cx Gx p gy ly hRx hp hgp hres, Run.bind]

/-! ## Programs the theorems are about -/

private theorem at_none {E : Vals} {x : Place} {f : GC → Option GC} {z : Nat} (h : E z = none) : E.at x f z = none := by
  unfold Vals.at
  cases E.get x with
  | none => exact h
  | some g =>
    cases hg : f g with
    | none => simp only [hg]; exact h
    | some g' =>
      simp only [hg, Vals.put]
      split
      · rw [h]; rfl
      · exact h

private theorem vals_none {z : Nat} : ∀ (ops : List POp) (E : Vals), E z = none →
    (∀ op ∈ ops, op ≠ .construct z ∧ ∀ y, op ≠ .copyConstruct z y) → ops.foldl Vals.step E z = none
  | [], _, h, _ => h
  | op :: ops, E, h, ho => by
    refine vals_none ops _ ?_ fun o h' => ho o (by simp [h'])
    obtain ⟨h1, h2⟩ := ho op (by simp)
    cases op with
    | construct x =>
      simp only [Vals.step]
      have hz : z ≠ x := fun e => h1 (by rw [e])
      cases E x with
      | some _ => exact h
      | none => simp only [if_neg hz]; exact h
    | copyConstruct x y =>
      simp only [Vals.step]
      have hz : z ≠ x := fun e => h2 y (by rw [e])
      cases E x with
      | some _ => exact h
      | none =>
        cases E.get y with
        | none => exact h
        | some g => simp only [if_neg hz]; exact h
    | destroy x =>
      simp only [Vals.step]
      split
      · rfl
      · exact h
    | assign x y =>
      simp only [Vals.step]
      cases E.get y with
      | none => exact h
      | some g => exact at_none h
    | _ => simp only [Vals.step]; exact at_none h

private abbrev ka : Bytes := [97]
private abbrev x0 : Place := ⟨0, []⟩
private abbrev x0a : Place := ⟨0, [.key ka]⟩

/-- `GC g; g["a"] = "x"; GC h(g); h = g["a"]; g["a"][2] = complex; g = h;` and the end of both. -/
private def prog : List POp :=
  [.construct 0, .key x0 ka, .set x0a (string [120]), .copyConstruct 1 x0, .assign ⟨1, []⟩ x0a, .idx x0a 2,
   .set ⟨0, [.key ka, .idx 2]⟩ (complex ⟨.zero, .zero⟩), .assign x0 ⟨1, []⟩]

private theorem prog_ok : ∀ op ∈ prog, op.Ok := by
  simp only [prog, List.forall_mem_cons, POp.Ok, Apart, List.not_mem_nil, false_implies, implies_true, and_true, true_and]
  exact ⟨⟨by simp, by simp, trivial, rfl⟩, by decide, by decide, ⟨by simp, by simp, trivial, rfl⟩, by decide⟩

example : valuesAfter prog 0 = some (string [120]) ∧ valuesAfter prog 1 = some (string [120]) := by
  constructor <;> rfl

example : ∃ N, ∀ n, N ≤ n → ∃ m env, St.run (fun _ _ => false) n prog St.init = .ok m env ∧
    Holds ⟨m, env⟩ (valuesAfter prog) := C40_history_partial _ prog prog_ok

example : ∃ N, ∀ n, N ≤ n → ∃ m env,
    St.run (fun _ _ => false) n (prog ++ [.destroy 0, .destroy 1]) St.init = .ok m env ∧ ∀ b, m.blk b = none :=
  C40_no_leak_partial _ _ (by
    intro op h
    rcases List.mem_append.1 h with h | h
    · exact prog_ok op h
    · simp only [List.mem_cons, List.not_mem_nil, or_false] at h
      rcases h with rfl | rfl <;> trivial)
    (fun x => by
      by_cases h0 : x = 0
      · subst h0; rfl
      · by_cases h1 : x = 1
        · subst h1; rfl
        · refine vals_none _ _ rfl ?_
          intro op hop
          simp only [prog, List.cons_append, List.nil_append, List.mem_cons, List.not_mem_nil, or_false] at hop
          rcases hop with rfl | rfl | rfl | rfl | rfl | rfl | rfl | rfl | rfl | rfl <;>
            simp only [ne_eq, POp.construct.injEq, POp.copyConstruct.injEq, reduceCtorEq, not_false_eq_true, implies_true, and_true, true_and, not_and, false_and] <;>
            first | exact h0 ∘ Eq.symm | (intro _ e; exact absurd e.symm h1))

/-- A COMPLEX inside: `g = g` reads released memory. -/
example : ∃ N, ∀ n, N ≤ n → St.run (fun _ _ => true) n (prog.take 7 ++ [.assign x0 x0]) St.init = .ub :=
  C40_self_assign_negation _ _ (fun op h => prog_ok op (List.mem_of_mem_take h)) x0 _ rfl rfl

/-- No COMPLEX inside: nothing happens. -/
example : ∃ N, ∀ n, N ≤ n → ∃ m env, St.run (fun _ _ => true) n (prog.take 6) St.init = .ok m env ∧
    St.run (fun _ _ => true) n (prog.take 6 ++ [.assign x0 x0]) St.init = .ok m env :=
  C40_self_assign_partial _ _ (fun op h => prog_ok op (List.mem_of_mem_take h)) x0 _ rfl rfl

/-- `g["a"] = "x"; g = g["a"];` -/
example : ∃ N, ∀ n, N ≤ n → St.run (fun _ _ => true) n (prog.take 3 ++ [.assign x0 ⟨0, [] ++ [.key ka]⟩]) St.init = .ub :=
  C40_assign_from_inside_negation _ _ (fun op h => prog_ok op (List.mem_of_mem_take h)) x0 [.key ka] (by simp) _ _
    rfl rfl rfl (by decide)

example : ∃ N, ∀ n, N ≤ n → St.run (fun _ _ => true) n
    ([.construct 0, .setVector x0 1] ++ [.assign ⟨0, [] ++ [.idx 0]⟩ x0]) St.init = .fuel :=
  C40_assign_into_itself_negation _ _ (by
    intro op h
    simp only [List.mem_cons, List.not_mem_nil, or_false] at h
    rcases h with rfl | rfl
    · trivial
    · show 1 < 2 ^ 32; omega) x0 [.idx 0] (by simp) notype rfl

end Heap
end GCV
