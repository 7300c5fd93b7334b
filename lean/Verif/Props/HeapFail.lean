import Verif.Lemmas.HeapFailNew
import Verif.Lemmas.Ruby
import Verif.Props.Heap

/-!
# Running out of memory (C115, C116)

A program has run; its next step runs in a memory in which any allocations may fail (`bad`, arbitrary:
`Verif/Model/HeapFail.lean`).  What is left when `std::bad_alloc` comes out of it.
-/

namespace GCV
namespace Heap
open GC

theorem reached (ip : Nat → Nat → Bool) (ops : List POp) (hops : ∀ op ∈ ops, op.Ok) :
    ∃ N, ∀ n, N ≤ n → ∃ s : St, St.run ip n ops St.init = .ok s.mem s.env ∧ Holds s (valuesAfter ops) := by
  obtain ⟨N, h⟩ := C40_history_partial ip ops hops
  refine ⟨N, fun n hn => ?_⟩
  obtain ⟨m, env, hr, hh⟩ := h n hn
  exact ⟨⟨m, env⟩, hr, hh⟩

theorem atO_oom {s : St} {x : Place} {f : Loc → Mem → ORun Unit} (hl : s.loc x = some l) (h : s.atO x f = .oom m') :
    f l s.mem = .oom m' := by
  simp only [St.atO, hl] at h
  generalize f l s.mem = r at h
  cases r <;> simp [ORun.bind] at h
  rw [h]

theorem Vals.put_get {E : Vals} (hE : Good E) (hx : E.get x = some g) : E.put x g = E := by
  funext z
  unfold Vals.put
  split
  · next h =>
    subst h
    unfold Vals.get at hx
    cases hz : E x.var with
    | none => rfl
    | some d =>
      rw [hz] at hx
      simp only [Option.bind_some] at hx
      rw [Option.map_some, Ruby.modAt_same (hE _ _ hz).1 hx]
  · rfl

/-- C115.  As long as no allocation fails, the step is the one of the programs of C40. -/
theorem C115_same_partial (ip : Nat → Nat → Bool) (n : Nat) (s : St) (op : POp) :
    s.stepO (fun _ => false) ip n op = (s.step ip n op).sure := stepO_false ip n s op

/-- C115.  Whatever fails, and wherever: the variables that the step does not write to hold what they held. -/
theorem C115_others_partial (ip : Nat → Nat → Bool) (ops : List POp) (hops : ∀ op ∈ ops, op.Ok) (op : POp) (hop : op.Ok) :
    ∃ N, ∀ n, N ≤ n → ∃ m env, St.run ip n ops St.init = .ok m env ∧
      ∀ bad m', (⟨m, env⟩ : St).stepO bad ip n op = .oom m' →
        ∀ z g, (∀ x, op.target = some x → z ≠ x.var) → valuesAfter ops z = some g → HoldsVar ⟨m', env⟩ z g := by
  obtain ⟨N1, h1⟩ := reached ip ops hops
  obtain ⟨N2, h2⟩ := stepO_left ip (good_run ops _ good_init hops) hop
  refine ⟨max N1 N2, fun n hn => ?_⟩
  obtain ⟨s, hr, hs⟩ := h1 n (by omega)
  refine ⟨s.mem, s.env, hr, fun bad m' hm z g hz hg => ?_⟩
  rcases h2 n (by omega) bad s hs with h | ⟨m1, h, hl⟩
  · have hm : s.stepO bad ip n op = .oom m' := hm
    rw [hm] at h
    cases hst : s.step ip n op <;> rw [hst] at h <;> simp [Run.sure] at h
  · have hm : s.stepO bad ip n op = .oom m' := hm
    rw [hm] at h
    have e : m' = m1 := by injection h
    subst e
    exact hl.1 z g hz hg

/-- What `HoldsVar` is good for: such a variable can be destroyed, whatever else there is in memory, and it is only its own
blocks that this releases. -/
theorem C116_destroy (s : St) (y : Nat) (g : GC) (h : HoldsVar s y g) :
    ∃ N, ∀ n, N ≤ n → ∀ ip, ∃ m a c F, s.env y = some a ∧ s.mem.blk a = some (.var c) ∧ Rep s.mem g c F ∧
      s.step ip n (.destroy y) = .ok m (fun z => if z = y then none else s.env z) ∧
      ∀ b, (b = a ∨ F b → m.blk b = none) ∧ (¬ (b = a ∨ F b) → m.blk b = s.mem.blk b) := by
  obtain ⟨a, c, F, he, hb, hR, hn⟩ := h
  refine ⟨sizeOf g, fun n hge ip => ?_⟩
  obtain ⟨m1, h1, h2⟩ := freeF_spec.1 g n s.mem c F hge hR
  have hb1 : m1.blk a = some (.var c) := by rw [h2.same a hn, hb]
  refine ⟨(m1.upd a (some (.var (.imm notype)))).upd a none, a, c, F, he, hb, hR, ?_, fun b => ?_⟩
  · simp only [St.step, he, clearAt, Mem.read, hb, Option.bind_some, Block.get, h1, Run.bind, Mem.write, hb1, Block.put]
  · rw [blk_upd, blk_upd]
    by_cases hba : b = a
    · simp [hba]
    · simp only [hba, if_false, false_or]
      exact ⟨h2.gone b, h2.same b⟩

/-- C116.  The step ends as it does with enough memory, or it ends with `std::bad_alloc`, and then the variables it does
not write to are as before, and the one it writes to either cannot be destroyed any more or has, at the place written to,
some value, and is in order. -/
theorem C116_outcome (ip : Nat → Nat → Bool) (ops : List POp) (hops : ∀ op ∈ ops, op.Ok) (op : POp) (hop : op.Ok) :
    ∃ N, ∀ n, N ≤ n → ∃ m env, St.run ip n ops St.init = .ok m env ∧ ∀ bad,
      (⟨m, env⟩ : St).stepO bad ip n op = ((⟨m, env⟩ : St).step ip n op).sure ∨
      ∃ m', (⟨m, env⟩ : St).stepO bad ip n op = .oom m' ∧
        (∀ z g, (∀ x, op.target = some x → z ≠ x.var) → valuesAfter ops z = some g → HoldsVar ⟨m', env⟩ z g) ∧
        ∀ x, op.target = some x → Broken ⟨m', env⟩ x.var ∨
          ∃ g', ∀ z g, (valuesAfter ops).put x g' z = some g → HoldsVar ⟨m', env⟩ z g := by
  obtain ⟨N1, h1⟩ := reached ip ops hops
  obtain ⟨N2, h2⟩ := stepO_left ip (good_run ops _ good_init hops) hop
  refine ⟨max N1 N2, fun n hn => ?_⟩
  obtain ⟨s, hr, hs⟩ := h1 n (by omega)
  exact ⟨s.mem, s.env, hr, fun bad => h2 n (by omega) bad s hs⟩

/-- C116.  A step that gives a container a payload of another type than it has (COMPLEX: also of the same type), when that
payload is what cannot be allocated: `std::bad_alloc`, and the variable cannot be destroyed any more.  Nothing is allocated
that was not before. -/
theorem C116_new (ip : Nat → Nat → Bool) (ops : List POp) (hops : ∀ op ∈ ops, op.Ok) (op : POp) (hop : op.Ok)
    (x : Place) (hx : op.target = some x) (g : GC) (hg : (valuesAfter ops).get x = some g)
    (t : Ty) (ht : op.tag (valuesAfter ops) = some t) (hne : g.ty ≠ t ∨ t = .COMPLEX) :
    ∃ N, ∀ n, N ≤ n → ∃ m env, St.run ip n ops St.init = .ok m env ∧ ∀ bad : Addr → Bool, bad m.next = true →
      ∃ m', (⟨m, env⟩ : St).stepO bad ip n op = .oom m' ∧ Broken ⟨m', env⟩ x.var ∧
        (∀ z gz, z ≠ x.var → valuesAfter ops z = some gz → HoldsVar ⟨m', env⟩ z gz) ∧
        ∀ b, m.blk b = none → m'.blk b = none := by
  obtain ⟨N1, h1⟩ := reached ip ops hops
  refine ⟨max N1 (sizeOf g + 2), fun n hn => ?_⟩
  obtain ⟨s, hr, hs⟩ := h1 n (by omega)
  refine ⟨s.mem, s.env, hr, fun bad hbad => ?_⟩
  cases op with
  | construct y => simp [POp.tag] at ht
  | destroy y => simp [POp.tag] at ht
  | clear y => simp [POp.tag] at ht
  | erase y k => simp [POp.tag] at ht
  | copyConstruct y z => simp [POp.tag] at ht
  | set y v =>
    simp only [POp.target, Option.some.injEq] at hx; subst hx
    simp only [POp.tag] at ht
    split at ht
    · simp at ht
    · next hi =>
      simp only [Option.some.injEq] at ht; subst ht
      exact hs.opNew hg (opNew_set (by omega) hop.1 hop.2.1 (by simpa using hi) hne) hbad
  | setVector y k =>
    simp only [POp.target, Option.some.injEq] at hx; subst hx
    simp only [POp.tag, Option.some.injEq] at ht; subst ht
    exact hs.opNew hg (opNew_alloc (B := .vec []) (by omega) (hne.resolve_right (by simp)) ghost_vector) hbad
  | idx y k =>
    simp only [POp.target, Option.some.injEq] at hx; subst hx
    simp only [POp.tag, Option.some.injEq] at ht; subst ht
    exact hs.opNew hg (opNew_alloc (B := .vec []) (by omega) (hne.resolve_right (by simp)) ghost_vector) hbad
  | setMap y =>
    simp only [POp.target, Option.some.injEq] at hx; subst hx
    simp only [POp.tag, Option.some.injEq] at ht; subst ht
    exact hs.opNew hg (opNew_alloc (B := .map []) (by omega) (hne.resolve_right (by simp)) ghost_map) hbad
  | key y k =>
    simp only [POp.target, Option.some.injEq] at hx; subst hx
    simp only [POp.tag, Option.some.injEq] at ht; subst ht
    exact hs.opNew hg (opNew_alloc (B := .map []) (by omega) (hne.resolve_right (by simp)) ghost_map) hbad
  | assign y z =>
    simp only [POp.target, Option.some.injEq] at hx; subst hx
    simp only [POp.tag] at ht
    cases hz : (valuesAfter ops).get z with
    | none => rw [hz] at ht; simp at ht
    | some gs =>
      rw [hz] at ht
      simp only [Option.bind_some] at ht
      split at ht
      · simp at ht
      next hi =>
      simp only [Option.some.injEq] at ht; subst ht
      obtain ⟨k, rfl⟩ : ∃ k, n = k + 1 := ⟨n - 1, by omega⟩
      obtain ⟨ls, ld, cs, cd, Gs, Gd, hly, hlx, P, hput⟩ := hs.pair hg hz hop
      obtain ⟨m', M, g0, t, e1, e2, e3, e4, e5⟩ := fromO_new (ip := ip) (n := k) (by omega) P (by simpa using hi) hne hbad
      obtain ⟨k1, _, k3⟩ := hs.torn hg hlx P.dst P.dstRep e2 (hput M g0 _ _ e2 e3) e4
      exact ⟨m', by simp only [St.stepO, hly, St.atO, hlx, e1, ORun.bind], k3 (by simp), k1, e5⟩

/-- C116.  A step that allocates at most one payload, and needs none or gets it: it ends as with enough memory. -/
theorem C116_kept (ip : Nat → Nat → Bool) (ops : List POp) (hops : ∀ op ∈ ops, op.Ok) (op : POp) (hop : op.Ok)
    (h1 : op.single (valuesAfter ops)) :
    ∃ N, ∀ n, N ≤ n → ∃ m env, St.run ip n ops St.init = .ok m env ∧ ∀ bad : Addr → Bool,
      (bad m.next = false ∨ ∀ x g t, op.target = some x → (valuesAfter ops).get x = some g →
        op.tag (valuesAfter ops) = some t → g.ty = t ∧ t ≠ .COMPLEX) →
      (⟨m, env⟩ : St).stepO bad ip n op = ((⟨m, env⟩ : St).step ip n op).sure := by
  obtain ⟨N1, h0⟩ := reached ip ops hops
  refine ⟨max N1 (sizeOf ((op.target.bind (valuesAfter ops).get).getD notype) + 1), fun n hn => ?_⟩
  obtain ⟨s, hr, hs⟩ := h0 n (by omega)
  refine ⟨s.mem, s.env, hr, fun bad hbad => ?_⟩
  show s.stepO bad ip n op = (s.step ip n op).sure
  cases op with
  | construct y => rfl
  | destroy y => rfl
  | clear y => rfl
  | erase y k => rfl
  | copyConstruct y z => exact h1.elim
  | setVector y k => exact h1.elim
  | idx y k => exact h1.elim
  | set y v =>
    refine hs.atO_ok fun g d c F hg hrd hR hd => ?_
    simp only [POp.target, Option.bind_some, hg, Option.getD_some] at hn
    refine setO_ok (by omega) hs.1 hrd hR hd ?_
    rcases hbad with h | h
    · exact Or.inr (Or.inr h)
    · by_cases hi : immediate v = true
      · exact Or.inl hi
      · exact Or.inr (Or.inl (h y g v.ty rfl hg (by simp [POp.tag, hi])))
  | setMap y =>
    refine hs.atO_ok fun g d c F hg hrd hR hd => ?_
    simp only [POp.target, Option.bind_some, hg, Option.getD_some] at hn
    refine setMapO_ok (by omega) hs.1 hrd hR hd ?_
    rcases hbad with h | h
    · exact Or.inr h
    · exact Or.inl (h y g .MAP rfl hg rfl).1
  | key y k =>
    refine hs.atO_ok fun g d c F hg hrd hR hd => ?_
    simp only [POp.target, Option.bind_some, hg, Option.getD_some] at hn
    refine keyO_ok (by omega) hs.1 hrd hR hd ?_ k
    rcases hbad with h | h
    · exact Or.inr h
    · exact Or.inl (h y g .MAP rfl hg rfl).1
  | assign y z =>
    cases hz : (valuesAfter ops).get z with
    | none => simp only [St.stepO, St.step, hs.loc_none hz]; rfl
    | some gs =>
      obtain ⟨_, _, _, _, l, _, _, _, _, _, _, _, _, _, hl, -⟩ := hs.place hz
      cases hy : (valuesAfter ops).get y with
      | none => simp only [St.stepO, St.step, hl, St.at, St.atO, hs.loc_none hy]; rfl
      | some gd =>
        obtain ⟨ls, ld, cs, cd, Gs, Gd, hly, hlx, P, hput⟩ := hs.pair hy hz hop
        simp only [POp.target, Option.bind_some, hy, Option.getD_some] at hn
        obtain ⟨k, rfl⟩ : ∃ k, n = k + 1 := ⟨n - 1, by omega⟩
        have : fromO bad ip (k + 1) ld ls s.mem = (fromF ip (k + 1) ld ls s.mem).sure := by
          refine fromO_ok (by omega) P (h1 gs hz).1 (h1 gs hz).2 ?_
          rcases hbad with h | h
          · exact Or.inr (Or.inr h)
          · by_cases hi : immediate gs = true
            · exact Or.inl hi
            · exact Or.inr (Or.inl (h y gd gs.ty rfl hy (by simp [POp.tag, hi, hz])))
        simp only [St.stepO, St.step, hly, St.at, St.atO, hlx, this]
        cases fromF ip (k + 1) ld ls s.mem <;> rfl

/-- C116.  A VECTOR that has to grow and cannot: every variable holds what it held. -/
theorem C116_grow (ip : Nat → Nat → Bool) (ops : List POp) (hops : ∀ op ∈ ops, op.Ok) (op : POp) (hop : op.Ok) (x : Place)
    (hx : (∃ i, op = .idx x i) ∨ ∃ k, op = .setVector x k) (v : List GC) (hg : (valuesAfter ops).get x = some (vector v)) :
    ∃ N, ∀ n, N ≤ n → ∃ m env, St.run ip n ops St.init = .ok m env ∧ ∀ bad,
      (⟨m, env⟩ : St).stepO bad ip n op = ((⟨m, env⟩ : St).step ip n op).sure ∨
      ∃ m', (⟨m, env⟩ : St).stepO bad ip n op = .oom m' ∧
        ∀ z g, valuesAfter ops z = some g → HoldsVar ⟨m', env⟩ z g := by
  obtain ⟨N1, h0⟩ := reached ip ops hops
  have hE := good_run ops _ good_init hops
  obtain ⟨hw, hf⟩ := hE.get hg
  refine ⟨max N1 (sizeOf (vector v) + 2), fun n hn => ?_⟩
  obtain ⟨s, hr, hs⟩ := h0 n (by omega)
  refine ⟨s.mem, s.env, hr, fun bad => ?_⟩
  have hput := Vals.put_get hE hg
  rcases hx with ⟨i, rfl⟩ | ⟨k, rfl⟩
  · have := hs.keep (g1 := vector v) hg (f' := fun l => idxO bad ip n l i) (f := fun l => idxF ip n l i)
      fun d c F h1 h2 h3 => opKeep_idx (by omega) hw hf s.mem d c F hs.1 h1 h2 h3 (Or.inl rfl)
    rwa [show (valuesAfter ops).put x (vector v) = valuesAfter ops from hput] at this
  · have := hs.keep (g1 := vector v) hg (f' := fun l => setVectorO bad ip n l k) (f := fun l => setVectorF ip n l k)
      fun d c F h1 h2 h3 => opKeep_setVector (by omega) hw hf s.mem d c F hs.1 h1 h2 h3 (Or.inl rfl)
    rwa [show (valuesAfter ops).put x (vector v) = valuesAfter ops from hput] at this

/-- C116.  A container of another type that becomes a VECTOR, when the new payload is allocated and the storage of its
elements is not: it holds the empty VECTOR, and the other variables what they held. -/
theorem C116_grow_new (ip : Nat → Nat → Bool) (ops : List POp) (hops : ∀ op ∈ ops, op.Ok) (op : POp) (hop : op.Ok) (x : Place)
    (hx : (∃ i, op = .idx x i) ∨ ∃ k, op = .setVector x k) (g0 : GC) (hg : (valuesAfter ops).get x = some g0)
    (hv : g0.ty ≠ .VECTOR) :
    ∃ N, ∀ n, N ≤ n → ∃ m env, St.run ip n ops St.init = .ok m env ∧ ∀ bad : Addr → Bool, bad m.next = false →
      (⟨m, env⟩ : St).stepO bad ip n op = ((⟨m, env⟩ : St).step ip n op).sure ∨
      ∃ m', (⟨m, env⟩ : St).stepO bad ip n op = .oom m' ∧
        ∀ z g, (valuesAfter ops).put x (vector []) z = some g → HoldsVar ⟨m', env⟩ z g := by
  obtain ⟨N1, h0⟩ := reached ip ops hops
  have hE := good_run ops _ good_init hops
  obtain ⟨hw, hf⟩ := hE.get hg
  have hold : g0.oldVector = [] := by cases g0 <;> simp_all [oldVector, GC.ty]
  refine ⟨max N1 (sizeOf g0 + 2), fun n hn => ?_⟩
  obtain ⟨s, hr, hs⟩ := h0 n (by omega)
  refine ⟨s.mem, s.env, hr, fun bad hbad => ?_⟩
  rcases hx with ⟨i, rfl⟩ | ⟨k, rfl⟩
  · refine hs.keep (g1 := vector []) hg (f' := fun l => idxO bad ip n l i) (f := fun l => idxF ip n l i)
      fun d c F h1 h2 h3 => ?_
    have := opKeep_idx (ip := ip) (n := n) (i := i) (by omega) hw hf s.mem d c F hs.1 h1 h2 h3 (Or.inr hbad)
    rwa [hold] at this
  · refine hs.keep (g1 := vector []) hg (f' := fun l => setVectorO bad ip n l k) (f := fun l => setVectorF ip n l k)
      fun d c F h1 h2 h3 => ?_
    have := opKeep_setVector (ip := ip) (n := n) (k := k) (by omega) hw hf s.mem d c F hs.1 h1 h2 h3 (Or.inr hbad)
    rwa [hold] at this

/-- C116.  When it is the storage of the longer vector that is not there, and the vector cannot grow where it is, `x[i]`
ends in `std::bad_alloc`, and memory is as it was. -/
theorem C116_grow_fails (ip : Nat → Nat → Bool) (ops : List POp) (hops : ∀ op ∈ ops, op.Ok) (x : Place) (i : Nat)
    (hi : i + 1 < 2 ^ 32) (v : List GC) (hg : (valuesAfter ops).get x = some (vector v)) (hlen : v.length ≤ i)
    (hip : ip v.length (i + 1) = false) :
    ∃ N, ∀ n, N ≤ n → ∃ m env, St.run ip n ops St.init = .ok m env ∧ ∀ bad : Addr → Bool, bad m.next = true →
      ∃ m', (⟨m, env⟩ : St).stepO bad ip n (.idx x i) = .oom m' ∧ m'.blk = m.blk := by
  obtain ⟨N1, h0⟩ := reached ip ops hops
  refine ⟨N1, fun n hn => ?_⟩
  obtain ⟨s, hr, hs⟩ := h0 n (by omega)
  refine ⟨s.mem, s.env, hr, fun bad hbad => ?_⟩
  obtain ⟨_, _, _, _, l, c1, G, _, _, _, _, _, _, _, hl, hr1, hR1, -⟩ := hs.place hg
  obtain ⟨a, cs, G', rfl, ha, hL, -⟩ := hR1
  have hcs : cs.length = v.length := hL.length
  refine ⟨s.mem.skip, ?_, rfl⟩
  show s.stepO bad ip n (.idx x i) = _
  simp only [St.stepO, St.atO, hl, idxO, allocBoxO, hr1, if_true, ORun.bind, ha, hcs, hlen, resizeO, u32_of_lt hi,
    show ¬ (i + 1 ≤ v.length) by omega, if_false, hip, hbad, Bool.false_eq_true]

/-- C116.  A VECTOR that need not move does not run out of memory: when it gets shorter, and when it grows where it is. -/
theorem C116_nogrow (ip : Nat → Nat → Bool) (ops : List POp) (hops : ∀ op ∈ ops, op.Ok) (x : Place) (k : Nat) (v : List GC)
    (hg : (valuesAfter ops).get x = some (vector v)) (hk : k ≤ v.length ∨ ip v.length k = true) :
    ∃ N, ∀ n, N ≤ n → ∃ m env, St.run ip n ops St.init = .ok m env ∧ ∀ bad,
      (⟨m, env⟩ : St).stepO bad ip n (.setVector x k) = ((⟨m, env⟩ : St).step ip n (.setVector x k)).sure ∧
      (0 < k → k < 2 ^ 32 →
        (⟨m, env⟩ : St).stepO bad ip n (.idx x (k - 1)) = ((⟨m, env⟩ : St).step ip n (.idx x (k - 1))).sure) := by
  obtain ⟨N1, h0⟩ := reached ip ops hops
  refine ⟨N1, fun n hn => ?_⟩
  obtain ⟨s, hr, hs⟩ := h0 n (by omega)
  refine ⟨s.mem, s.env, hr, fun bad => ?_⟩
  obtain ⟨_, _, _, _, l, c1, G, _, _, _, _, _, _, _, hl, hr1, hR1, -⟩ := hs.place hg
  obtain ⟨a, cs, G', rfl, ha, hL, -⟩ := id hR1
  have hcs : cs.length = v.length := hL.length
  have key : resizeO bad ip (freeF n) (fromO bad ip n) a k s.mem = (resizeF ip (freeF n) (fromF ip n) a k s.mem).sure := by
    rw [resizeO, resizeF, ha]
    simp only [hcs]
    split
    · rw [sure_bind]; rfl
    · next h => rw [if_pos (hk.resolve_left h), if_pos (hk.resolve_left h)]; rfl
  have hat : ∀ (f' : Loc → Mem → ORun Unit) (f : Loc → Mem → Run Unit), f' l s.mem = (f l s.mem).sure →
      s.atO x f' = (s.at x f).sure := fun f' f h => by
    simp only [St.atO, St.at, hl, h]
    cases f l s.mem <;> rfl
  constructor
  · refine hat _ _ ?_
    simp only [setVectorO, setVectorF, allocBoxO, allocBox, hr1, if_true, ORun.bind, Run.bind]
    by_cases hz : 0 < k
    · simp only [if_pos hz, key]
    · simp only [if_neg hz]; rfl
  · intro h0 h1
    refine hat _ _ ?_
    have e : u32 (k - 1 + 1) = k := by rw [Nat.sub_add_cancel h0, u32_of_lt h1]
    simp only [idxO, idxF, allocBoxO, allocBox, hr1, if_true, ORun.bind, Run.bind, ha, e]
    by_cases hz : cs.length ≤ k - 1
    · simp only [if_pos hz, key]
    · simp only [if_neg hz]; rfl

/-- C116.  A VECTOR without VECTOR or MAP inside that has to grow and cannot: memory is as it was, nothing is lost. -/
theorem C116_grow_clean (ip : Nat → Nat → Bool) (ops : List POp) (hops : ∀ op ∈ ops, op.Ok) (op : POp) (hop : op.Ok) (x : Place)
    (hx : (∃ i, op = .idx x i) ∨ ∃ k, op = .setVector x k) (v : List GC) (hg : (valuesAfter ops).get x = some (vector v))
    (hv : ∀ y ∈ v, y.ty ≠ .VECTOR ∧ y.ty ≠ .MAP) :
    ∃ N, ∀ n, N ≤ n → ∃ m env, St.run ip n ops St.init = .ok m env ∧ ∀ bad m',
      (⟨m, env⟩ : St).stepO bad ip n op = .oom m' → m'.blk = m.blk := by
  obtain ⟨N1, h0⟩ := reached ip ops hops
  have hE := good_run ops _ good_init hops
  obtain ⟨hw, hf⟩ := hE.get hg
  refine ⟨max N1 (sizeOf (vector v) + 2), fun n hn => ?_⟩
  obtain ⟨s, hr, hs⟩ := h0 n (by omega)
  refine ⟨s.mem, s.env, hr, fun bad m' hm => ?_⟩
  have hm : s.stepO bad ip n op = .oom m' := hm
  obtain ⟨_, _, _, _, l, c1, G, _, _, _, _, _, _, _, hl, hr1, hR1, -⟩ := hs.place hg
  obtain ⟨a, cs, G', rfl, ha, hL, -⟩ := id hR1
  have hsz : sizeOf v ≤ n := by
    have : sizeOf v < sizeOf (vector v) := by simp only [GC.vector.sizeOf_spec]; omega
    omega
  have hall : ∀ y ∈ v, from_gc y notype = .ok y ∧ FromOk (fromF ip n) y notype ∧
      FailOk (fromO bad ip n) (fromF ip n) y notype ∧ CleanFail (fromO bad ip n) y := fun y hy => by
    obtain ⟨k1, k2, k3⟩ := old_ok (bad := bad) (ip := ip) (g := vector v) (n := n) (by omega) hw hf y hy
    exact ⟨k1, k2, k3, cleanFail_fromO (hv y hy).1 (hv y hy).2⟩
  have key : ∀ sz m2, resizeO bad ip (freeF n) (fromO bad ip n) a sz s.mem = .oom m2 → m2.blk = s.mem.blk := fun sz m2 h =>
    funext (resizeO_clean hs.1 hR1 hsz hall h)
  rcases hx with ⟨i, rfl⟩ | ⟨k, rfl⟩
  · have h := atO_oom hl hm
    simp only [idxO, allocBoxO, hr1, if_true, ORun.bind, ha] at h
    split at h
    · exact key _ _ h
    · simp at h
  · have h := atO_oom hl hm
    simp only [setVectorO, allocBoxO, hr1, if_true, ORun.bind] at h
    split at h
    · exact key _ _ h
    · simp at h

/-- C116.  A copy constructor that fails: there is no new container, and every variable holds what it held. -/
theorem C116_copy (ip : Nat → Nat → Bool) (ops : List POp) (hops : ∀ op ∈ ops, op.Ok) (x : Nat) (y : Place) :
    ∃ N, ∀ n, N ≤ n → ∃ m env, St.run ip n ops St.init = .ok m env ∧ ∀ bad,
      (⟨m, env⟩ : St).stepO bad ip n (.copyConstruct x y) = ((⟨m, env⟩ : St).step ip n (.copyConstruct x y)).sure ∨
      ∃ m', (⟨m, env⟩ : St).stepO bad ip n (.copyConstruct x y) = .oom m' ∧ m'.blk m.next = none ∧
        ∀ z g, valuesAfter ops z = some g → HoldsVar ⟨m', env⟩ z g := by
  obtain ⟨N, h⟩ := C116_outcome ip ops hops (.copyConstruct x y) trivial
  refine ⟨N, fun n hn => ?_⟩
  obtain ⟨m, env, hr, hb⟩ := h n hn
  refine ⟨m, env, hr, fun bad => ?_⟩
  rcases hb bad with h | ⟨m', h, h1, -⟩
  · exact Or.inl h
  · refine Or.inr ⟨m', h, ?_, fun z g hz => h1 z g (fun x hx => by simp [POp.target] at hx) hz⟩
    simp only [St.stepO] at h
    split at h
    · split at h
      · have e := ORun.oom.inj h
        subst e
        rw [blk_upd, if_pos rfl]
      · next hne =>
        exfalso
        generalize fromO bad ip n _ _ _ = r at h hne
        cases r with
        | oom m2 => exact hne m2 rfl
        | _ => simp [ORun.bind] at h
    · simp at h

/-- C115.  It is refuted by `x.set_string(s)`, where `x` is anything but a string, as soon as memory is short: the
destructor of `x` then releases something that was never allocated. -/
theorem C115_tag_negation (ip : Nat → Nat → Bool) (ops : List POp) (hops : ∀ op ∈ ops, op.Ok) (x : Place) (g : GC)
    (hg : (valuesAfter ops).get x = some g) (hne : g.ty ≠ .STRING) (s : Bytes) (hs : POp.Ok (.set x (string s))) :
    ∃ N, ∀ n, N ≤ n → ∃ m env, St.run ip n ops St.init = .ok m env ∧ ∀ bad : Addr → Bool, bad m.next = true →
      ∃ m', (⟨m, env⟩ : St).stepO bad ip n (.set x (string s)) = .oom m' ∧
        ∃ N, ∀ n, N ≤ n → (⟨m', env⟩ : St).step ip n (.destroy x.var) = .ub := by
  obtain ⟨N, h⟩ := C116_new ip ops hops (.set x (string s)) hs x rfl g hg .STRING rfl (Or.inl hne)
  refine ⟨N, fun n hn => ?_⟩
  obtain ⟨m, env, hr, hb⟩ := h n hn
  refine ⟨m, env, hr, fun bad hbad => ?_⟩
  obtain ⟨m', h1, ⟨N', h2⟩, -⟩ := hb bad hbad
  exact ⟨m', h1, N', fun n hn => (h2 n hn ip).1⟩

/-- C115.  A copy of a VECTOR, where the payload of the copy is allocated and the storage of its elements is not: the
payload stays allocated, and it is reached from no variable. -/
theorem C115_copy_leak_negation (ip : Nat → Nat → Bool) (ops : List POp) (hops : ∀ op ∈ ops, op.Ok) (x : Nat) (y : Place)
    (hx : valuesAfter ops x = none) (v : List GC) (hy : (valuesAfter ops).get y = some (vector v)) (hv : v ≠ [])
    (hip : ip 0 v.length = false) :
    ∃ N, ∀ n, N ≤ n → ∃ m env, St.run ip n ops St.init = .ok m env ∧ ∀ bad : Addr → Bool,
      bad (m.next + 1) = false → bad (m.next + 2) = true →
      ∃ m' b, (⟨m, env⟩ : St).stepO bad ip n (.copyConstruct x y) = .oom m' ∧ m'.blk b ≠ none ∧
        ∀ z g, valuesAfter ops z = some g →
          ∃ a c F, env z = some a ∧ m'.blk a = some (.var c) ∧ Rep m' g c F ∧ b ≠ a ∧ ¬ F b := by
  obtain ⟨N1, h0⟩ := reached ip ops hops
  have hE := good_run ops _ good_init hops
  obtain ⟨hw, hf⟩ := hE.get hy
  refine ⟨N1 + 1, fun n hn => ?_⟩
  obtain ⟨s, hr, hs⟩ := h0 n (by omega)
  obtain ⟨k, rfl⟩ : ∃ k, n = k + 1 := ⟨n - 1, by omega⟩
  refine ⟨s.mem, s.env, hr, fun bad hb1 hb2 => ?_⟩
  obtain ⟨_, _, _, _, l, c1, G, _, _, _, _, _, _, _, hl, hr1, hR1, -⟩ := hs.place hy
  obtain ⟨a, cs, G', rfl, ha, hL, -⟩ := hR1
  have hcs : cs.length = v.length := hL.length
  have hpos : 0 < v.length := List.length_pos_iff.2 hv
  have hwf := hs.1
  have halt : a < s.mem.next := hwf.lt (by rw [ha]; simp)
  have hllt : l.addr < s.mem.next := read_lt hwf hr1
  let m1 := s.mem.alloc (.var (.imm notype))
  let m2 : Mem := ((m1.upd s.mem.next (some (.var (.imm notype)))).alloc (.vec [])).upd s.mem.next
    (some (.var (.box .VECTOR (s.mem.next + 1))))
  have hm1 : m1.blk s.mem.next = some (.var (.imm notype)) := by rw [blk_alloc, if_pos rfl]
  have hn1 : m1.next = s.mem.next + 1 := rfl
  have hrd1 : m1.read l = some (.box .VECTOR a) := by
    obtain ⟨B, hB, hg⟩ := read_some hr1
    simp only [Mem.read, m1, blk_alloc, if_neg (show l.addr ≠ s.mem.next by omega), hB, Option.bind_some, hg]
  have hnew : allocBoxO bad k .VECTOR (.vec []) ⟨s.mem.next, .var⟩ m1 = .ok m2 (s.mem.next + 1) := by
    have hfree : ∀ k, freeF k (.imm notype) m1 = .ok m1 () := fun k => by cases k <;> rfl
    have hrv : m1.read ⟨s.mem.next, .var⟩ = some (.imm notype) := by
      simp only [Mem.read, hm1, Option.bind_some, Block.get]
    simp only [allocBoxO, hrv, newBoxO, clearAt, hfree, Run.bind, Mem.write, hm1, Block.get, Block.put, Run.sure, ORun.bind]
    have e : (m1.upd s.mem.next (some (.var (.imm notype)))).next = s.mem.next + 1 := rfl
    rw [e, hb1]
    simp only [Bool.false_eq_true, if_false]
    have : ((m1.upd s.mem.next (some (.var (.imm notype)))).alloc (.vec [])).blk s.mem.next = some (.var (.imm notype)) := by
      rw [blk_alloc, e, if_neg (by omega), blk_upd, if_pos rfl]
    simp only [this, Block.get, Run.sure, ORun.bind, Block.put]
    rfl
  have hb' : m2.blk (s.mem.next + 1) = some (.vec []) := by
    rw [blk_upd, if_neg (by omega), blk_alloc]
    simp only [Mem.upd, hn1, if_true]
  have hold : ∀ b, b < s.mem.next → m2.blk b = s.mem.blk b := fun b hb => by
    rw [blk_upd, if_neg (by omega), blk_alloc, if_neg (by simp only [Mem.upd, hn1]; omega), blk_upd, if_neg (by omega),
      blk_alloc, if_neg (by omega)]
  have hrd2 : m2.read l = some (.box .VECTOR a) := by
    obtain ⟨B, hB, hg⟩ := read_some hr1
    simp only [Mem.read, hold _ hllt, hB, Option.bind_some, hg]
  have hn2 : m2.next = s.mem.next + 2 := rfl
  have hstep : s.stepO bad ip (k + 1) (.copyConstruct x y) = .oom (m2.skip.upd s.mem.next none) := by
    have : fromO bad ip (k + 1) ⟨s.mem.next, .var⟩ l m1 = .oom m2.skip := by
      simp only [fromO, hrd1, hnew, ORun.bind, hrd2, hold a halt, ha, hcs, u32_of_lt (Fits_vector hf).1, hpos, if_true, resizeO,
        hb', List.length_nil, show ¬ (v.length ≤ 0) by omega, if_false, hip, Bool.false_eq_true, hn2, hb2]
    simp only [St.stepO, hs.env_none hx, hl, this, m1]
  refine ⟨_, s.mem.next + 1, hstep, ?_, fun z g hz => ?_⟩
  · rw [blk_upd, if_neg (by omega)]
    show m2.blk _ ≠ none
    rw [hb']; simp
  · obtain ⟨_, A, hA, _, _⟩ := hs
    have hAz := hA z
    rw [hz] at hAz
    obtain ⟨a', c, F, he, hb, hR, hn, _⟩ := hAz
    have hold' : ∀ b, b < s.mem.next → (m2.skip.upd s.mem.next none).blk b = s.mem.blk b := fun b hb => by
      rw [blk_upd, if_neg (by omega)]; exact hold b hb
    have ha' : a' < s.mem.next := hwf.lt (by rw [hb]; simp)
    refine ⟨a', c, F, he, by rw [hold' _ ha', hb], Rep.frame.1 g c F hR fun b hb => hold' b (hR.lt hwf b hb), by omega,
      fun h => ?_⟩
    have := hR.lt hwf _ h
    omega

/-! ## Programs that meet the hypotheses -/

/-- `g.set_vector(1); g[0] = "x"; h.set_bool(true);` -/
def vprog : List POp :=
  [.construct 0, .setVector ⟨0, []⟩ 1, .set ⟨0, [.idx 0]⟩ (string [120]), .construct 1, .set ⟨1, []⟩ (bool true)]

theorem vprog_ok : ∀ op ∈ vprog, op.Ok := by
  intro op h
  simp only [vprog, List.mem_cons, List.not_mem_nil, or_false] at h
  rcases h with rfl | rfl | rfl | rfl | rfl
  · trivial
  · show 1 < 2 ^ 32; omega
  · exact ⟨by simp, by simp, by simp [WF], rfl⟩
  · trivial
  · exact ⟨by simp, by simp, by simp [WF], rfl⟩

example : valuesAfter vprog 0 = some (vector [string [120]]) ∧ valuesAfter vprog 1 = some (bool true) := by
  constructor <;> rfl

/-- `h.set_string("x")` without memory. -/
example := C115_tag_negation (fun _ _ => false) vprog vprog_ok ⟨1, []⟩ (bool true) rfl (by decide) [120]
  ⟨by simp, by simp, by simp [WF], rfl⟩

/-- `GenericContainer k( g );` without memory for the elements. -/
example := C115_copy_leak_negation (fun _ _ => false) vprog vprog_ok 2 ⟨0, []⟩ rfl [string [120]] rfl (by simp) rfl

/-- `h = g;` without memory: `h` is BOOL, `g` VECTOR. -/
example := C116_new (fun _ _ => false) vprog vprog_ok (.assign ⟨1, []⟩ ⟨0, []⟩) (fun h => absurd h (by decide)) ⟨1, []⟩ rfl
  (bool true) rfl .VECTOR rfl (Or.inl (by decide))

/-- `g[0] = "y"` needs no new payload. -/
example (y : Bytes) (hy : POp.Ok (.set ⟨0, [.idx 0]⟩ (string y))) :
    ∃ N, ∀ n, N ≤ n → ∃ m env, St.run (fun _ _ => false) n vprog St.init = .ok m env ∧ ∀ bad : Addr → Bool,
      (⟨m, env⟩ : St).stepO bad (fun _ _ => false) n (.set ⟨0, [.idx 0]⟩ (string y)) =
        ((⟨m, env⟩ : St).step (fun _ _ => false) n (.set ⟨0, [.idx 0]⟩ (string y))).sure := by
  obtain ⟨N, h⟩ := C116_kept (fun _ _ => false) vprog vprog_ok (.set ⟨0, [.idx 0]⟩ (string y)) hy trivial
  refine ⟨N, fun n hn => ?_⟩
  obtain ⟨m, env, hr, hb⟩ := h n hn
  refine ⟨m, env, hr, fun bad => hb bad (Or.inr fun x g t hx hg ht => ?_)⟩
  simp only [POp.target, Option.some.injEq] at hx; subst hx
  simp only [POp.tag, immediate, Bool.false_eq_true, if_false, Option.some.injEq] at ht; subst ht
  have : (valuesAfter vprog).get ⟨0, [.idx 0]⟩ = some (string [120]) := rfl
  rw [this] at hg
  simp only [Option.some.injEq] at hg; subst hg
  exact ⟨rfl, by simp [GC.ty]⟩

/-- `g[5]` -/
example := C116_grow (fun _ _ => false) vprog vprog_ok (.idx ⟨0, []⟩ 5) (show 5 + 1 < 2 ^ 32 by omega) ⟨0, []⟩
  (Or.inl ⟨5, rfl⟩) [string [120]] rfl

example := C116_grow_clean (fun _ _ => false) vprog vprog_ok (.idx ⟨0, []⟩ 5) (show 5 + 1 < 2 ^ 32 by omega) ⟨0, []⟩
  (Or.inl ⟨5, rfl⟩) [string [120]] rfl (by simp [GC.ty])

/-- `g.set_vector(1)`, `g[0]` -/
example := C116_nogrow (fun _ _ => false) vprog vprog_ok ⟨0, []⟩ 1 [string [120]] rfl (Or.inl (by decide))

example := C116_grow_fails (fun _ _ => false) vprog vprog_ok ⟨0, []⟩ 5 (by omega) [string [120]] rfl (by decide) rfl

/-- `h[5]` -/
example := C116_grow_new (fun _ _ => false) vprog vprog_ok (.idx ⟨1, []⟩ 5) (show 5 + 1 < 2 ^ 32 by omega) ⟨1, []⟩
  (Or.inl ⟨5, rfl⟩) (bool true) rfl (by decide)

end Heap
end GCV
