import Verif.Lemmas.HeapFail
import Verif.Spec.HeapFail

/-! # Steps of a program that run out of memory -/

namespace GCV
namespace Heap
open GC

variable {m m' m1 m2 M : Mem} {g x y : GC} {c c' : Cell} {F F' G H : Addr → Prop} {d l : Loc}
  {a b D : Addr} {bad : Addr → Bool} {ip : Nat → Nat → Bool}

/-! ## A payload that is missing -/

/-- Freeing a container with a payload that is not allocated. -/
theorem free_missing :
    (∀ g : GC, ∀ n (m M : Mem) c F D, sizeOf g ≤ n → Rep M g c F → F D → m.blk D = none →
      (∀ b, F b → b ≠ D → m.blk b = M.blk b) → freeF n c m = .ub) ∧
    (∀ v : List GC, ∀ n (m M : Mem) cs F D, sizeOf v ≤ n → RepL M v cs F → F D → m.blk D = none →
      (∀ b, F b → b ≠ D → m.blk b = M.blk b) → forL (freeF n) cs m = .ub) ∧
    (∀ v : Entries, ∀ n (m M : Mem) es F D, sizeOf v ≤ n → RepM M v es F → F D → m.blk D = none →
      (∀ b, F b → b ≠ D → m.blk b = M.blk b) → forL (freeF n) (es.map (·.2)) m = .ub) := by
  refine GC.induct ?_ ?_ ?_ ?_ ?_ ?_ ?_
  · intro g h1 h2 n m M c F D hn h hD hm hs
    rw [rep_leaf h1 h2] at h
    split at h
    · exact absurd hD (h.2 D)
    · obtain ⟨a, rfl, ha, hF⟩ := h
      have e := (hF D).1 hD
      subst e
      obtain ⟨k, rfl⟩ : ∃ k, n = k + 1 := ⟨n - 1, by have := sizeOf_pos g; omega⟩
      simp only [freeF, hm]
  · intro v ih n m M c F D hn h hD hm hs
    obtain ⟨a, cs, G, rfl, ha, hG, hna, hF⟩ := h
    rw [GC.vector.sizeOf_spec] at hn
    obtain ⟨k, rfl⟩ : ∃ k, n = k + 1 := ⟨n - 1, by omega⟩
    rcases (hF D).1 hD with e | hGD
    · subst e
      simp only [freeF, hm]
    · have hne : a ≠ D := fun e => hna (e ▸ hGD)
      have := ih k m M cs G D (by omega) hG hGD hm fun b hb => hs b ((hF b).2 (Or.inr hb))
      simp only [freeF, hs a ((hF a).2 (Or.inl rfl)) hne, ha, this, Run.bind]
  · intro v ih n m M c F D hn h hD hm hs
    obtain ⟨a, cs, G, rfl, ha, hG, _, hna, hF⟩ := h
    rw [GC.map.sizeOf_spec] at hn
    obtain ⟨k, rfl⟩ : ∃ k, n = k + 1 := ⟨n - 1, by omega⟩
    rcases (hF D).1 hD with e | hGD
    · subst e
      simp only [freeF, hm]
    · have hne : a ≠ D := fun e => hna (e ▸ hGD)
      have := ih k m M cs G D (by omega) hG hGD hm fun b hb => hs b ((hF b).2 (Or.inr hb))
      simp only [freeF, hs a ((hF a).2 (Or.inl rfl)) hne, ha, this, Run.bind]
  · intro n m M cs F D _ h hD
    exact absurd hD (h.2 D)
  · intro x xs ihx ihs n m M cs F D hn h hD hm hs
    obtain ⟨c, cs', G, H, rfl, hx, hxs, hd, hF⟩ := h
    rw [List.cons.sizeOf_spec] at hn
    by_cases hG : G D
    · have := ihx n m M c G D (by omega) hx hG hm fun b hb => hs b ((hF b).2 (Or.inl hb))
      simp only [forL, this, Run.bind]
    · have hH : H D := ((hF D).1 hD).resolve_left hG
      obtain ⟨m1, he, hf⟩ := freeF_spec.1 x n m c G (by omega) (Rep.frame.1 x c G hx fun b hb =>
        hs b ((hF b).2 (Or.inl hb)) fun e => hG (e ▸ hb))
      have := ihs n m1 M cs' H D (by omega) hxs hH (by rw [hf.same D hG, hm]) fun b hb hne => by
        rw [hf.same b fun hg => hd b hg hb]; exact hs b ((hF b).2 (Or.inr hb)) hne
      simp only [forL, he, Run.bind, this]
  · intro n m M cs F D _ h hD
    exact absurd hD (h.2 D)
  · intro k x xs ihx ihs n m M cs F D hn h hD hm hs
    obtain ⟨c, cs', G, H, rfl, hx, hxs, hd, hF⟩ := h
    rw [List.cons.sizeOf_spec, Prod.mk.sizeOf_spec] at hn
    by_cases hG : G D
    · have := ihx n m M c G D (by omega) hx hG hm fun b hb => hs b ((hF b).2 (Or.inl hb))
      simp only [List.map_cons, forL, this, Run.bind]
    · have hH : H D := ((hF D).1 hD).resolve_left hG
      obtain ⟨m1, he, hf⟩ := freeF_spec.1 x n m c G (by omega) (Rep.frame.1 x c G hx fun b hb =>
        hs b ((hF b).2 (Or.inl hb)) fun e => hG (e ▸ hb))
      have := ihs n m1 M cs' H D (by omega) hxs hH (by rw [hf.same D hG, hm]) fun b hb hne => by
        rw [hf.same b fun hg => hd b hg hb]; exact hs b ((hF b).2 (Or.inr hb)) hne
      simp only [List.map_cons, forL, he, Run.bind, this]

/-! ## The calls -/

/-- The call goes as with enough memory, or memory runs out. -/
def OpFail (f' : Loc → Mem → ORun Unit) (f : Loc → Mem → Run Unit) (g : GC) : Prop :=
  ∀ m d c F, Wf m → m.read d = some c → Rep m g c F → ¬ F d.addr → Either (f' d m) (f d m) (fun m' => Fails m m' d F)

theorem opFail_set {n : Nat} {gs gd : GC} (hn : sizeOf gd ≤ n) (h1 : ∀ v, gs ≠ vector v) (h2 : ∀ e, gs ≠ map e) :
    OpFail (fun l => setO bad n l gs) (fun l => setF n l gs) gd := by
  intro m d c F hw hr hg hd
  show Either (setO bad n d gs m) (setF n d gs m) _
  by_cases hi : immediate gs = true
  · refine Or.inl ?_
    cases gs <;> first
      | (simp [immediate] at hi; done)
      | rfl
  have h3 : immediate gs = false := by simpa using hi
  by_cases hp : plainBox gs = true
  · have e : setO bad n d gs m = (allocBoxO bad n gs.ty (.leaf notype) d m).bind fun m b =>
        match m.blk b with
        | some (.leaf old) =>
          match from_gc gs old with
          | .ok g' => .ok (m.upd b (some (.leaf g'))) ()
          | _ => .ub
        | _ => .ub := by
      cases gs <;> first
        | (simp [plainBox] at hp; done)
        | rfl
    rw [e, setF_plain hp]
    refine (allocBoxO_either hw hr hg hn hd (ghost_leaf h1 h2 h3)).bind (fun _ h => h) fun m1 b _ => Or.inl ?_
    cases m1.blk b with
    | none => rfl
    | some B =>
      cases B with
      | leaf old =>
        simp only
        cases from_gc gs old <;> rfl
      | _ => rfl
  · cases gs with
    | complex z =>
      have e : setF n d (complex z) m = ((clearAt n d m).bind fun m _ =>
          ((m.alloc (.leaf (complex z))).write d (.box .COMPLEX m.next)).bind fun m' _ => .ok m' m.next).bind
            fun m _ => .ok m () := by
        simp only [setF]
        cases clearAt n d m with
        | ok m1 u =>
          simp only [Run.bind]
          cases (m1.alloc (.leaf (complex z))).write d (.box .COMPLEX m1.next) <;> rfl
        | throw m1 => rfl
        | ub => rfl
        | fuel => rfl
      rw [e]
      exact (newBoxO_either hw hr hg hn hd (ghost_leaf (gs := complex z) h1 h2 h3)).bind (fun _ h => h)
        fun m1 b _ => Or.inl rfl
    | vector v => exact absurd rfl (h1 v)
    | map v => exact absurd rfl (h2 v)
    | _ => simp [immediate, plainBox] at hi hp

theorem opFail_setMap {n : Nat} (hn : sizeOf g ≤ n) : OpFail (setMapO bad n) (setMapF n) g := by
  intro m d c F hw hr hg hd
  exact (allocBoxO_either hw hr hg hn hd ghost_map).bind (fun _ h => h) fun m1 b _ => Or.inl rfl

theorem opFail_key {n : Nat} {k : Bytes} (hn : sizeOf g ≤ n) : OpFail (fun l => keyO bad n l k) (fun l => keyF n l k) g := by
  intro m d c F hw hr hg hd
  exact (allocBoxO_either hw hr hg hn hd ghost_map).bind (fun _ h => h) fun m1 b _ => Or.inl rfl

theorem old_ok {n : Nat} (hn : sizeOf g + 1 < n) (hw' : WF g) (hf : Fits g) : ∀ x ∈ g.oldVector,
    from_gc x notype = .ok x ∧ FromOk (fromF ip n) x notype ∧ FailOk (fromO bad ip n) (fromF ip n) x notype := by
  intro x hx
  have hsz : sizeOf x + sizeOf notype < n := by have := sizeOf_oldVector hx; rw [GC.notype.sizeOf_spec]; omega
  exact ⟨copy_ok (wf_oldVector hw' hx) (fits_oldVector hf hx), fromF_spec ip n x notype hsz (fits_oldVector hf hx) trivial rfl,
    fromO_spec bad ip n x notype hsz (wf_oldVector hw' hx) (fits_oldVector hf hx) trivial rfl⟩

theorem opFail_setVector {n k : Nat} (hn : sizeOf g + 1 < n) (hw' : WF g) (hf : Fits g) :
    OpFail (fun l => setVectorO bad ip n l k) (fun l => setVectorF ip n l k) g := by
  intro m d c F hw hr hg hd
  obtain ⟨m1, b, F1, he1, hu1, hr1⟩ := allocVector_spec hw hr hg (n := n) (by omega) hd
  have hw1 := hu1.wf hw (hg.lt hw)
  refine (allocBoxO_either hw hr hg (by omega) hd ghost_vector).bind (fun _ h => h) fun m1' b' h1 => ?_
  rw [he1] at h1
  have e1 : m1 = m1' := by injection h1
  have e2 : b = b' := by injection h1
  subst e1 e2
  split
  · rcases resizeO_spec (bad := bad) (ip := ip) (sz := k) hw1 hr1
      (by have := sizeOf_oldVector_le g; omega : sizeOf g.oldVector ≤ n) (old_ok hn hw' hf) with h | ⟨m', h, hF⟩
    · exact Or.inl h
    · exact Or.inr ⟨m', h, (hF.failsIn.fails hw1 (hu1.read hr) (upd_not hw hu1 hr hd)).after hu1 (read_lt hw hr) hd (hg.lt hw)⟩
  · exact Or.inl rfl

theorem opFail_idx {n i : Nat} (hn : sizeOf g + 1 < n) (hw' : WF g) (hf : Fits g) :
    OpFail (fun l => idxO bad ip n l i) (fun l => idxF ip n l i) g := by
  intro m d c F hw hr hg hd
  obtain ⟨m1, b, F1, he1, hu1, hr1⟩ := allocVector_spec hw hr hg (n := n) (by omega) hd
  have hw1 := hu1.wf hw (hg.lt hw)
  refine (allocBoxO_either hw hr hg (by omega) hd ghost_vector).bind (fun _ h => h) fun m1' b' h1 => ?_
  rw [he1] at h1
  have e1 : m1 = m1' := by injection h1
  have e2 : b = b' := by injection h1
  subst e1 e2
  obtain ⟨b', cs, G, hc, hb, hG, _, _⟩ := id hr1
  injection hc with _ hc
  subst hc
  simp only [hb]
  split
  · rcases resizeO_spec (bad := bad) (ip := ip) (sz := u32 (i + 1)) hw1 hr1
      (by have := sizeOf_oldVector_le g; omega : sizeOf g.oldVector ≤ n) (old_ok hn hw' hf) with h | ⟨m', h, hF⟩
    · exact Or.inl h
    · exact Or.inr ⟨m', h, (hF.failsIn.fails hw1 (hu1.read hr) (upd_not hw hu1 hr hd)).after hu1 (read_lt hw hr) hd (hg.lt hw)⟩
  · exact Or.inl rfl

/-! ## The variables of a program -/

/-- A change of the container at the place `x` leaves the other variables alone. -/
theorem Holds.spared {s : St} {E : Vals} {x : Place} {z : Nat} {gz : GC} (h : Holds s E) (hx : E.get x = some g)
    (hl : s.loc x = some l) (hr : s.mem.read l = some c) (hg : Rep s.mem g c G) (hu : Upd s.mem M l c' G F')
    (hz : z ≠ x.var) (hEz : E z = some gz) :
    ∃ a c F, s.env z = some a ∧ s.mem.blk a = some (.var c) ∧ Rep s.mem gz c F ∧ ¬ F a ∧
      ∀ b, (b = a ∨ F b) → b < s.mem.next ∧ M.blk b = s.mem.blk b := by
  obtain ⟨g0, ax, cx, Fx, l', c1, G1, hEx, hpx, hex, hrx, hRx, hnx, hresx, hlx, hrd, hRd, hsub, hnd, hin, _⟩ := h.place hx
  rw [hl] at hlx; injection hlx with hlx; subst hlx
  rw [hr] at hrd; injection hrd with hrd; subst hrd
  have hGG := Rep.unique.1 _ _ _ _ hg hRd
  obtain ⟨a, cz, F, he, hrz, hRz, hnz⟩ := h.var hEz
  have hdis := h.disj hz hEz hEx he hex hrz hrx hRz hRx
  obtain ⟨B, hB, hget⟩ := read_some hrz
  have hB' : s.mem.blk a = some (.var cz) := by
    have hB : s.mem.blk a = some B := hB
    cases B <;> simp [Block.get] at hget
    rw [hB, hget]
  refine ⟨a, cz, F, he, hB', hRz, hnz, fun b hb => ?_⟩
  have hlt : b < s.mem.next := by
    rcases hb with rfl | hb
    · exact h.1.lt (by rw [hB']; simp)
    · exact hRz.lt h.1 b hb
  refine ⟨hlt, hu.same b ?_ ?_ hlt⟩
  · rintro rfl
    refine hdis _ hb ?_
    rcases hin with e | e
    · left; rw [e]
    · exact Or.inr e
  · intro hGb
    exact hdis b hb (Or.inr (hsub b ((hGG b).1 hGb)))

theorem HoldsVar.of_blocks {env : Nat → Option Addr} {z : Nat} (he : env z = some a) (hb : M.blk a = some (.var c))
    (hg : Rep M g c F) (hn : ¬ F a) (hs : ∀ b, (b = a ∨ F b) → m.blk b = M.blk b) : HoldsVar ⟨m, env⟩ z g :=
  ⟨a, c, F, he, by rw [← hb]; exact hs a (Or.inl rfl), Rep.frame.1 g c F hg fun b hb => hs b (Or.inr hb), hn⟩

/-- What a failed call leaves. -/
theorem Holds.torn {s : St} {E : Vals} {x : Place} {g' : GC} {D : Option Addr} (h : Holds s E) (hx : E.get x = some g)
    (hl : s.loc x = some l) (hr : s.mem.read l = some c) (hg : Rep s.mem g c G) (hu : Upd s.mem M l c' G F')
    (hM : Holds ⟨M, s.env⟩ (E.put x g')) (ht : Torn s.mem.next m' M D) :
    (∀ z gz, z ≠ x.var → E z = some gz → HoldsVar ⟨m', s.env⟩ z gz) ∧
    (D = none → ∀ z gz, E.put x g' z = some gz → HoldsVar ⟨m', s.env⟩ z gz) ∧
    (D ≠ none → Broken ⟨m', s.env⟩ x.var) := by
  refine ⟨?_, ?_, ?_⟩
  · intro z gz hz hEz
    obtain ⟨a, cz, F, he, hb, hR, hn, hs⟩ := h.spared hx hl hr hg hu hz hEz
    refine HoldsVar.of_blocks he hb hR hn fun b hb => ?_
    rw [ht.old (hs b hb).1, (hs b hb).2]
  · rintro rfl z gz hz
    obtain ⟨_, A, hA, _, _⟩ := hM
    have := hA z
    rw [hz] at this
    obtain ⟨a, c, F, he, hb, hR, hn, _⟩ := this
    refine HoldsVar.of_blocks he hb hR hn fun b hb' => ht.keep b ?_ (by simp)
    rcases hb' with rfl | hb'
    · show M.blk b ≠ none
      have hb : M.blk b = some (.var c) := hb
      rw [hb]; simp
    · exact Rep.live.1 _ _ _ hR b hb'
  · intro hD
    cases D with
    | none => exact absurd rfl hD
    | some D =>
      obtain ⟨hLD, hmD, hMD⟩ := ht.miss D rfl
      obtain ⟨hwM, A, hA, hdis, hall⟩ := hM
      obtain ⟨z, hz⟩ := hall D hMD
      have hAz := hA z
      by_cases hzx : z = x.var
      · subst hzx
        cases hE : E.put x g' x.var with
        | none => rw [hE] at hAz; exact absurd hz (hAz.2 D)
        | some gx =>
          rw [hE] at hAz
          obtain ⟨a, c0, F0, he, hb, hR, hn, hAF⟩ := hAz
          have he : s.env x.var = some a := he
          have hb : M.blk a = some (.var c0) := hb
          obtain ⟨g0, ax, cx, Fx, _, _, _, hEx, _, hex, hrx, _⟩ := h.place hx
          rw [he] at hex; injection hex with hex
          have halt : a < s.mem.next := by rw [hex]; exact read_lt h.1 hrx
          have hFD : F0 D := ((hAF D).1 hz).resolve_left fun e => by omega
          have hma : m'.blk a = some (.var c0) := by
            rw [ht.keep a (by rw [hb]; simp) (fun e => by injection e with e; omega), hb]
          refine ⟨sizeOf gx, fun n hn' ip => ?_⟩
          have hfree := free_missing.1 gx n m' M c0 F0 D hn' hR hFD hmD fun b hb hne =>
            ht.keep b (Rep.live.1 _ _ _ hR b hb) (fun e => hne (by injection e with e; exact e.symm))
          have hread : m'.read ⟨a, .var⟩ = some c0 := by simp [Mem.read, hma, Block.get]
          have hclear : clearAt n ⟨a, .var⟩ m' = .ub := by simp only [clearAt, hread, hfree, Run.bind]
          constructor
          · simp only [St.step, he, hclear, Run.bind]
          · simp only [St.step, St.at, St.loc, he, Option.bind_some, resolve, hclear, Run.bind]
      · cases hE : E z with
        | none =>
          have : E.put x g' z = none := by simp [Vals.put, hzx, hE]
          rw [this] at hAz
          exact absurd hz (hAz.2 D)
        | some gz =>
          have : E.put x g' z = some gz := by simp [Vals.put, hzx, hE]
          rw [this] at hAz
          obtain ⟨a, c0, F0, he, hb, hR, hn, hAF⟩ := hAz
          have he : s.env z = some a := he
          have hb : M.blk a = some (.var c0) := hb
          obtain ⟨a', cz, F, he', hb', hR', hn', hs⟩ := h.spared hx hl hr hg hu hzx hE
          rw [he] at he'; injection he' with he'; subst he'
          have hcc : cz = c0 := by
            have := (hs a (Or.inl rfl)).2
            rw [hb, hb'] at this
            simpa using this.symm
          subst hcc
          have hRM : Rep M gz cz F := Rep.frame.1 _ _ _ hR' fun b hb => (hs b (Or.inr hb)).2
          have hFF := Rep.unique.1 _ _ _ _ hR hRM
          exfalso
          have : D < s.mem.next := by
            rcases (hAF D).1 hz with e | e
            · exact (hs D (Or.inl e)).1
            · exact (hs D (Or.inr ((hFF D).1 e))).1
          omega

/-- What a step that ran out of memory leaves: the variables other than the one it was to change are as before; that one
is in order, with some value at the place that was to change, or it cannot be destroyed any more. -/
def Left (s : St) (E : Vals) (op : POp) (m' : Mem) : Prop :=
  (∀ z gz, (∀ x, op.target = some x → z ≠ x.var) → E z = some gz → HoldsVar ⟨m', s.env⟩ z gz) ∧
  ∀ x, op.target = some x → Broken ⟨m', s.env⟩ x.var ∨
    ∃ g', ∀ z gz, E.put x g' z = some gz → HoldsVar ⟨m', s.env⟩ z gz

theorem Holds.fails {s : St} {E : Vals} {x : Place} {op : POp} (h : Holds s E) (hop : op.target = some x)
    (hx : E.get x = some g) (hl : s.loc x = some l) (hr : s.mem.read l = some c) (hg : Rep s.mem g c G)
    (hput : ∀ m' g' c'' G', Upd s.mem m' l c'' G G' → Rep m' g' c'' G' → Holds ⟨m', s.env⟩ (E.put x g'))
    (hf : Fails s.mem m' l G) : Left s E op m' := by
  obtain ⟨M, c', F', g', D, hu, hr', ht⟩ := hf
  obtain ⟨h1, h2, h3⟩ := h.torn hx hl hr hg hu (hput M g' c' F' hu hr') ht
  refine ⟨fun z gz hz hE => h1 z gz (hz x hop) hE, fun x' hx' => ?_⟩
  rw [hop] at hx'
  injection hx' with hx'
  subst hx'
  cases D with
  | none => exact Or.inr ⟨g', h2 rfl⟩
  | some D => exact Or.inl (h3 (by simp))

theorem Holds.opFail {s : St} {E : Vals} {x : Place} {op : POp} {f' : Loc → Mem → ORun Unit} {f : Loc → Mem → Run Unit}
    (h : Holds s E) (hop : op.target = some x) (hf : ∀ g, E.get x = some g → OpFail f' f g) :
    Either (s.atO x f') (s.at x f) (Left s E op) := by
  unfold St.atO St.at
  cases hx : E.get x with
  | none =>
    rw [h.loc_none hx]
    exact Or.inl rfl
  | some g =>
    obtain ⟨g0, ax, cx, Fx, l, c1, G1, hEx, hpx, hex, hrx, hRx, hnx, hresx, hlx, hrd, hRd, hsub, hnd, hin, hput⟩ := h.place hx
    rw [hlx]
    exact (hf g hx _ _ _ _ h.1 hrd hRd hnd).bind (fun m' hF => h.fails hop hx hlx hrd hRd hput hF) fun m1 _ _ => Or.inl rfl

/-- A step with a `new` that may fail. -/
theorem stepO_left (ip : Nat → Nat → Bool) {E : Vals} {op : POp} (hE : Good E) (hop : op.Ok) :
    ∃ N, ∀ n, N ≤ n → ∀ bad s, Holds s E → Either (s.stepO bad ip n op) (s.step ip n op) (Left s E op) := by
  cases op with
  | construct x => exact ⟨0, fun n _ bad s h => Or.inl rfl⟩
  | destroy x => exact ⟨0, fun n _ bad s h => Or.inl rfl⟩
  | clear x => exact ⟨0, fun n _ bad s h => Or.inl rfl⟩
  | erase x k => exact ⟨0, fun n _ bad s h => Or.inl rfl⟩
  | set x v =>
    refine ⟨sizeOf ((E.get x).getD notype), fun n hn bad s h => h.opFail rfl fun g hg => opFail_set ?_ hop.1 hop.2.1⟩
    rw [hg] at hn; exact hn
  | setVector x k =>
    refine ⟨sizeOf ((E.get x).getD notype) + 2, fun n hn bad s h => h.opFail rfl fun g hg => ?_⟩
    rw [hg] at hn
    obtain ⟨h1, h2⟩ := hE.get hg
    exact opFail_setVector (by simp only [Option.getD_some] at hn; omega) h1 h2
  | setMap x =>
    refine ⟨sizeOf ((E.get x).getD notype), fun n hn bad s h => h.opFail rfl fun g hg => opFail_setMap ?_⟩
    rw [hg] at hn; exact hn
  | idx x i =>
    refine ⟨sizeOf ((E.get x).getD notype) + 2, fun n hn bad s h => h.opFail rfl fun g hg => ?_⟩
    rw [hg] at hn
    obtain ⟨h1, h2⟩ := hE.get hg
    exact opFail_idx (by simp only [Option.getD_some] at hn; omega) h1 h2
  | key x k =>
    refine ⟨sizeOf ((E.get x).getD notype), fun n hn bad s h => h.opFail rfl fun g hg => opFail_key ?_⟩
    rw [hg] at hn; exact hn
  | assign x y =>
    cases hy : E.get y with
    | none =>
      refine ⟨0, fun n _ bad s h => Or.inl ?_⟩
      simp only [St.stepO, St.step, h.loc_none hy]; rfl
    | some gs =>
      cases hx : E.get x with
      | none =>
        refine ⟨0, fun n _ bad s h => Or.inl ?_⟩
        obtain ⟨_, _, _, _, ls, cs, Gs, _, _, _, _, _, _, _, hl, -⟩ := h.place hy
        simp only [St.stepO, St.step, hl, St.at, St.atO, h.loc_none hx]; rfl
      | some gd =>
        refine ⟨sizeOf gs + sizeOf gd + 1, fun n hn bad s h => ?_⟩
        obtain ⟨hws, hfs⟩ := hE.get hy
        obtain ⟨hwd, hfd⟩ := hE.get hx
        obtain ⟨ls, ld, cs, cd, Gs, Gd, hly, hlx, P, hput⟩ := h.pair hx hy hop
        simp only [St.stepO, St.step, hly, St.at, St.atO, hlx]
        exact (fromO_spec bad ip n gs gd (by omega) hws hfs hwd hfd _ _ _ _ _ _ _ P).bind
          (fun m' hF => h.fails (op := .assign x y) rfl hx hlx P.dst P.dstRep hput hF) fun m1 _ _ => Or.inl rfl
  | copyConstruct x y =>
    cases hx : E x with
    | some g =>
      refine ⟨0, fun n _ bad s h => Or.inl ?_⟩
      obtain ⟨a, c, F, he, _⟩ := h.var hx
      simp only [St.stepO, St.step, he]; rfl
    | none =>
      cases hy : E.get y with
      | none =>
        refine ⟨0, fun n _ bad s h => Or.inl ?_⟩
        simp only [St.stepO, St.step, h.loc_none hy, h.env_none hx]; rfl
      | some g =>
        refine ⟨sizeOf g + 2, fun n hn bad s h => ?_⟩
        obtain ⟨hw, hf⟩ := hE.get hy
        obtain ⟨gy, ay, cy, Fy, ls, cs, Gs, hEy, hpy, hey, hry, hRy, hny, hresy, hly, -⟩ := h.place hy
        have hvx : y.var ≠ x := by rintro rfl; rw [hx] at hEy; simp at hEy
        have hnew := h.new hx
        obtain ⟨ls', ld, cs', cd, Gs', Gd, h1, h2, P, hput⟩ := hnew.pair (x := ⟨x, []⟩) (y := y) (gd := notype) (gs := g)
          (by simp [Vals.get, getAt]) (by simp only [Vals.get, if_neg hvx]; exact hy) (fun e => absurd e.symm hvx)
        have e1 : ls' = ls := by
          simp only [St.loc, if_neg hvx, hey, Option.bind_some] at h1
          rw [resolve_alloc h.1 _ hresy] at h1
          injection h1 with h1
          exact h1.symm
        have e2 : ld = ⟨s.mem.next, .var⟩ := by
          simp [St.loc, resolve] at h2
          exact h2.symm
        subst e1; subst e2
        simp only [St.stepO, St.step, h.env_none hx, hly]
        have hG0 : ∀ b, ¬ Gd b := ((rep_imm rfl).1 P.dstRep).2
        rcases fromO_spec bad ip n g notype (by rw [GC.notype.sizeOf_spec]; omega) hw hf trivial rfl _ _ _ _ _ _ _ P with
          e | ⟨m', e, M, c', F', g', D, hu, hr', ht⟩
        · refine Or.inl ?_
          rw [e]
          obtain ⟨m', c', F', e', _, _⟩ := fromF_spec ip n g notype (by rw [GC.notype.sizeOf_spec]; omega) hf trivial rfl
            _ _ _ _ _ _ _ _ P (copy_ok hw hf)
          rw [e']; rfl
        · refine Or.inr ⟨m'.upd s.mem.next none, by rw [e], fun z gz _ hEz => ?_, fun x' hx' => by simp [POp.target] at hx'⟩
          obtain ⟨hw0, A, hA, _, _⟩ := h
          have := hA z
          rw [hEz] at this
          obtain ⟨a, c, F, he, hb, hR, hn, _⟩ := this
          refine HoldsVar.of_blocks he hb hR hn fun b hb' => ?_
          have hlt : b < s.mem.next := by
            rcases hb' with rfl | hb'
            · exact hw0.lt (by rw [hb]; simp)
            · exact hR.lt hw0 b hb'
          rw [blk_upd, if_neg (by omega), ht.old (show b < s.mem.next + 1 by omega),
            hu.same b (show b ≠ s.mem.next by omega) (hG0 b) (show b < s.mem.next + 1 by omega), blk_alloc, if_neg (by omega)]

end Heap
end GCV
