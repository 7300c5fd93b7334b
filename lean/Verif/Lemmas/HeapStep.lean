import Verif.Lemmas.HeapOps
import Verif.Lemmas.HeapFits

/-! # Calls in memory -/

namespace GCV
namespace Heap
open GC

variable {m m' m1 m2 : Mem} {g x y : GC} {c c' : Cell} {F F' G H : Addr → Prop} {d s l : Loc} {a b : Addr}

/-- The call `f`, made on a container that holds `g`, leaves `g'` in it and touches nothing else. -/
def OpOk (f : Loc → Mem → Run Unit) (g g' : GC) : Prop :=
  ∀ m d c F, Wf m → m.read d = some c → Rep m g c F → ¬ F d.addr →
    ∃ m' c' F', f d m = .ok m' () ∧ Upd m m' d c' F F' ∧ Rep m' g' c' F'

theorem opOk_clear {n : Nat} (hn : sizeOf g ≤ n) : OpOk (clearAt n) g notype := by
  intro m d c F hw hr hg hd
  obtain ⟨m', he, hu, _, _⟩ := clearAt_spec hw hr hg hn hd
  exact ⟨m', _, _, he, hu, rep_notype⟩

theorem upd_not (hw : Wf m) (hu : Upd m m' d c' F F') (hr : m.read d = some c) (hd : ¬ F d.addr) : ¬ F' d.addr := by
  intro h
  rcases hu.sub _ h with h | h
  · exact hd h
  · have := read_lt hw hr; omega

theorem opOk_setVector {ip : Nat → Nat → Bool} {n k : Nat} (hn : sizeOf g + 1 < n) (hw' : WF g) (hf : Fits g) :
    OpOk (fun l => setVectorF ip n l k) g (set_vector k g) := by
  intro m d c F hw hr hg hd
  obtain ⟨m1, b, F1, he1, hu1, hr1⟩ := allocVector_spec hw hr hg (n := n) (by omega) hd
  have hw1 := hu1.wf hw (hg.lt hw)
  have hset : set_vector k g = vector (allocL notype k g.oldVector) := rfl
  rw [hset]
  by_cases h0 : 0 < k
  · obtain ⟨m2, F2, he2, hC2, hr2⟩ := resizeF_spec (inPlace := ip) (sz := k) (n := n) (f := fromF ip n) hw1 hr1
      (by have := sizeOf_oldVector_le g; omega)
      (fun x hx => copy_ok (wf_oldVector hw' hx) (fits_oldVector hf hx))
      (fun x hx => fromF_spec ip n x notype (by have := sizeOf_oldVector hx; rw [GC.notype.sizeOf_spec]; omega)
        (fits_oldVector hf hx) trivial rfl)
    refine ⟨m2, .box .VECTOR b, F2, ?_, ?_, by rw [allocL, if_pos h0]; exact hr2⟩
    · simp only [setVectorF, he1, Run.bind, if_pos h0, he2]
    · exact hu1.trans (hC2.upd hw1 (hu1.read hr) (upd_not hw hu1 hr hd)) (read_lt hw hr) hd (hg.lt hw)
  · exact ⟨m1, .box .VECTOR b, F1, by simp only [setVectorF, he1, Run.bind, if_neg h0], hu1,
      by rw [allocL, if_neg h0]; exact hr1⟩

theorem opOk_idx {ip : Nat → Nat → Bool} {n i : Nat} (hn : sizeOf g + 1 < n) (hw' : WF g) (hf : Fits g) :
    OpOk (fun l => idxF ip n l i) g (vector (checkResize notype i g.oldVector)) := by
  intro m d c F hw hr hg hd
  obtain ⟨m1, b, F1, he1, hu1, hr1⟩ := allocVector_spec hw hr hg (n := n) (by omega) hd
  have hw1 := hu1.wf hw (hg.lt hw)
  obtain ⟨b', cs, G, hc, hb, hG, _, _⟩ := id hr1
  injection hc with _ hc
  subst hc
  have hlen := hG.length
  unfold checkResize
  by_cases h0 : g.oldVector.length ≤ i
  · obtain ⟨m2, F2, he2, hC2, hr2⟩ := resizeF_spec (inPlace := ip) (sz := u32 (i + 1)) (n := n) (f := fromF ip n) hw1 hr1
      (by have := sizeOf_oldVector_le g; omega)
      (fun x hx => copy_ok (wf_oldVector hw' hx) (fits_oldVector hf hx))
      (fun x hx => fromF_spec ip n x notype (by have := sizeOf_oldVector hx; rw [GC.notype.sizeOf_spec]; omega)
        (fits_oldVector hf hx) trivial rfl)
    refine ⟨m2, .box .VECTOR b, F2, ?_, ?_, by rw [if_pos h0]; exact hr2⟩
    · simp only [idxF, he1, Run.bind, hb, hlen, if_pos h0, he2]
    · exact hu1.trans (hC2.upd hw1 (hu1.read hr) (upd_not hw hu1 hr hd)) (read_lt hw hr) hd (hg.lt hw)
  · exact ⟨m1, .box .VECTOR b, F1, by simp only [idxF, he1, Run.bind, hb, hlen, if_neg h0], hu1,
      by rw [if_neg h0]; exact hr1⟩

theorem opOk_setMap {n : Nat} (hn : sizeOf g ≤ n) : OpOk (setMapF n) g (set_map g) := by
  intro m d c F hw hr hg hd
  obtain ⟨m1, b, F1, he1, hu1, hr1⟩ := allocMap_spec hw hr hg (n := n) (by omega) hd
  exact ⟨m1, .box .MAP b, F1, by simp only [setMapF, he1, Run.bind], hu1, hr1⟩

theorem opOk_key {n : Nat} {k : Bytes} (hn : sizeOf g ≤ n) :
    OpOk (fun l => keyF n l k) g (map (mset (cstr k) ((mfind (cstr k) g.oldMap).getD notype) g.oldMap)) := by
  intro m d c F hw hr hg hd
  obtain ⟨m1, b, F1, he1, hu1, hr1⟩ := allocMap_spec hw hr hg (n := n) (by omega) hd
  have hw1 := hu1.wf hw (hg.lt hw)
  obtain ⟨m2, he2, hC2, _, hr2⟩ := keyAt_spec (k := cstr k) hw1 hr1
  exact ⟨m2, .box .MAP b, F1, by simp only [keyF, he1, Run.bind, he2],
    hu1.trans (hC2.upd hw1 (hu1.read hr) (upd_not hw hu1 hr hd)) (read_lt hw hr) hd (hg.lt hw), hr2⟩

theorem repM_erase {k : Bytes} : ∀ {e : Entries} {es : List (Bytes × Cell)} {F : Addr → Prop}, RepM m e es F →
    mfind k e = some y → ∃ c G H, kfind k es = some c ∧ Rep m y c G ∧ RepM m (merase k e) (krem k es) H ∧
      (∀ b, G b → ¬ H b) ∧ ∀ b, F b ↔ (G b ∨ H b)
  | [], _, _, _, h => by simp [mfind] at h
  | (k', x) :: xs, _, F, h, hk => by
    obtain ⟨c, cs', G, H, rfl, hx, hs, hd, hF⟩ := h
    by_cases hne : k = k'
    · simp only [mfind, hne, if_true, Option.some.injEq] at hk
      subst hk
      exact ⟨c, G, H, by simp [kfind, hne], hx, by simpa [merase, krem, hne] using hs, hd, hF⟩
    · simp only [mfind, hne, if_false] at hk
      obtain ⟨c1, G1, H1, hc1, hy1, hr1, hd1, hF1⟩ := repM_erase hs hk
      refine ⟨c1, G1, fun b => G b ∨ H1 b, by simp [kfind, hne, hc1], hy1, ?_, ?_, ?_⟩
      · simp only [merase, krem, hne, if_false]
        exact ⟨c, _, G, H1, rfl, hx, hr1, fun b hb hb' => hd b hb ((hF1 b).2 (Or.inr hb')), fun b => Iff.rfl⟩
      · intro b hb hb'
        have := hd b; have := hd1 b; have := hF1 b
        tauto
      · intro b
        have := hF b; have := hF1 b
        tauto

theorem merase_absent {k : Bytes} : ∀ {e : Entries}, mfind k e = none → merase k e = e
  | [], _ => rfl
  | (k', x) :: xs, h => by
    have hne : ¬ k = k' := by rintro rfl; simp [mfind] at h
    simp only [mfind, hne, if_false] at h
    simp [merase, hne, merase_absent h]

theorem opOk_erase {n : Nat} {k : Bytes} {e : Entries} (hn : sizeOf (map e) ≤ n) :
    OpOk (fun l => eraseF n l k) (map e) (map (merase k e)) := by
  intro m d c F hw hr hg hd
  have hlt := hg.lt hw
  obtain ⟨a, es, G, rfl, ha, hG, hks, hna, hF⟩ := id hg
  cases hk : mfind k e with
  | none =>
    refine ⟨m, .box .MAP a, F, ?_, Upd.refl hw hr, by rw [merase_absent hk]; exact hg⟩
    simp only [eraseF, hr, ha, hG.none hk]
  | some y =>
    obtain ⟨c1, G1, H1, hc1, hy1, hr1, hd1, hF1⟩ := repM_erase hG hk
    have hsz : sizeOf y ≤ n := by
      have := sizeOf_oldMap (g := map e) hk; omega
    obtain ⟨m1, he1, hf1⟩ := freeF_spec.1 y n m c1 G1 hsz hy1
    have hna1 : ¬ G1 a := fun h => hna ((hF1 a).2 (Or.inl h))
    have hbm : ∀ b, b ≠ a → ¬ G1 b → (m1.upd a (some (.map (krem k es)))).blk b = m.blk b := fun b h1 h2 => by
      rw [blk_upd, if_neg h1, hf1.same b h2]
    have hFa : F a := (hF a).2 (Or.inl rfl)
    have hC : Chg m (m1.upd a (some (.map (krem k es)))) F (fun b => b = a ∨ H1 b) := by
      refine ⟨?_, ?_, ?_, ?_, ?_⟩
      · intro b hb _
        have := hF b; have := hF1 b
        exact hbm b (fun e => hb (e ▸ hFa)) (by tauto)
      · intro b hb
        have := hF b; have := hF1 b
        tauto
      · intro b hb hb'
        have h1 := hF b; have h2 := hF1 b
        have hne : ¬ b = a := fun e => hb' (Or.inl e)
        rw [blk_upd, if_neg hne]
        exact hf1.gone b (by tauto)
      · intro b hb hb'
        have hne : ¬ b = a := fun e => hb' (Or.inl e)
        rw [blk_upd, if_neg hne]
        by_cases hg1 : G1 b
        · exact hf1.gone b hg1
        · rw [hf1.same b hg1]; exact hw b hb
      · show m.next ≤ m1.next
        rw [hf1.next]; exact Nat.le_refl _
    refine ⟨_, .box .MAP a, _, ?_, hC.upd hw hr hd, ?_⟩
    · simp only [eraseF, hr, ha, hc1, he1, Run.bind]
    · refine ⟨a, krem k es, H1, rfl, by rw [blk_upd, if_pos rfl], ?_, sorted_merase k e hks,
        fun h => hna ((hF1 a).2 (Or.inr h)), fun b => Iff.rfl⟩
      exact Rep.frame.2.2 _ _ _ hr1 fun b hb => hbm b (fun e => hna (e ▸ (hF1 b).2 (Or.inr hb)))
        fun h => hd1 b h hb

theorem eraseF_throw {n : Nat} {k : Bytes} (hr : m.read d = some c) (hg : Rep m g c F) (h : ∀ e, g ≠ map e) :
    eraseF n d k m = .throw m := by
  unfold eraseF
  rw [hr]
  by_cases hc : ∃ a, c = .box .MAP a
  · obtain ⟨a, rfl⟩ := hc
    obtain ⟨v, rfl⟩ := rep_box_ne_map hg
    exact absurd rfl (h v)
  · cases c with
    | imm g => rfl
    | box t a => cases t <;> first | rfl | exact absurd ⟨a, rfl⟩ hc

theorem setF_plain {n : Nat} (h : plainBox g = true) :
    setF n d g m = (allocBox n g.ty (.leaf notype) d m).bind fun m b =>
      match m.blk b with
      | some (.leaf old) =>
        match from_gc g old with
        | .ok g' => .ok (m.upd b (some (.leaf g'))) ()
        | _ => .ub
      | _ => .ub := by
  cases g <;> first
    | (simp [plainBox] at h; done)
    | rfl

theorem opOk_set {n : Nat} {gs gd g' : GC} (hn : sizeOf gd ≤ n) (h1 : ∀ v, gs ≠ vector v) (h2 : ∀ e, gs ≠ map e)
    (hg : from_gc gs gd = .ok g') : OpOk (fun l => setF n l gs) gd g' := by
  intro m d cd Fd hw hr hgd hd
  by_cases hi : immediate gs = true
  · have hg' : g' = gs := by
      cases gs <;> simp_all [immediate, from_gc, clear, set_bool, set_int, set_long, set_real, set_pointer]
    subst hg'
    obtain ⟨m1, he1, hu1, hn1, hr1⟩ := clearAt_spec hw hr hgd hn hd
    have hw1 := hu1.wf hw (hgd.lt hw)
    obtain ⟨m2, he2, hu2, _, _⟩ := write_spec (c' := .imm g') (F := fun _ => False) hw1 hr1
    refine ⟨m2, .imm g', fun _ => False, ?_, hu1.trans hu2 (read_lt hw hr) hd (hgd.lt hw),
      (rep_imm hi).2 ⟨rfl, fun _ h => h⟩⟩
    show setF n d g' m = _
    cases g' <;> first
      | (simp [immediate] at hi; done)
      | (simp only [setF, he1, Run.bind, he2])
  by_cases hp : plainBox gs = true
  · obtain ⟨hp', ht'⟩ := from_plain_ty hp hg
    have key : ∃ m1 b old F1, allocBox n gs.ty (.leaf notype) d m = .ok m1 b ∧ Upd m m1 d (.box gs.ty b) Fd F1 ∧
        (∀ x, F1 x ↔ x = b) ∧ m1.blk b = some (.leaf old) ∧ from_gc gs old = .ok g' := by
      by_cases ht : gd.ty = gs.ty
      · have hpd : plainBox gd = true := by
          cases gs <;> cases gd <;> simp_all [plainBox, GC.ty]
        obtain ⟨b, hcd, hb, hFd⟩ := (rep_plain hpd).1 hgd
        rw [ht] at hcd
        subst hcd
        exact ⟨m, b, gd, Fd, allocBox_keep hr, Upd.refl hw hr, hFd, hb, hg⟩
      · obtain ⟨m1, b, he, hu, hb⟩ := allocBox_new (t := gs.ty) (B := .leaf notype) hw hr hgd hn hd (by
          rintro a rfl
          cases gd with
          | vector v =>
            obtain ⟨_, _, _, hc, _⟩ := hgd
            injection hc with hc _
            cases gs <;> simp_all [plainBox, GC.ty]
          | map v =>
            obtain ⟨_, _, _, hc, _⟩ := hgd
            injection hc with hc _
            cases gs <;> simp_all [plainBox, GC.ty]
          | _ =>
            rw [rep_leaf (by intro v h; cases h) (by intro v h; cases h)] at hgd
            simp only [immediate, if_true, if_false, Bool.false_eq_true] at hgd
            first
              | exact absurd hgd.1 (by simp)
              | (obtain ⟨_, hc, _⟩ := hgd; injection hc with hc _; exact ht hc.symm))
        exact ⟨m1, b, notype, _, he, hu, fun _ => Iff.rfl, hb, by rw [← from_plain_other hp ht]; exact hg⟩
    obtain ⟨m1, b, old, F1, he, hu, hF1, hb, hg1⟩ := key
    have hw1 := hu.wf hw (hgd.lt hw)
    have hF1d := upd_not hw hu hr hd
    refine ⟨m1.upd b (some (.leaf g')), .box g'.ty b, F1, ?_, ?_, ?_⟩
    · show setF n d gs m = _
      rw [setF_plain hp, he]
      simp only [Run.bind, hb, hg1]
    · rw [ht']
      have hlt : b < m1.next := hw1.lt (by rw [hb]; simp)
      have hc : Chg m1 (m1.upd b (some (.leaf g'))) F1 F1 := by
        refine ⟨?_, fun x hx => Or.inl hx, fun x h1 h2 => absurd h1 h2, ?_, Nat.le_refl _⟩
        · intro x hx _; rw [blk_upd, if_neg (fun e => hx ((hF1 x).2 e))]
        · intro x hx _; rw [blk_upd, if_neg (by omega)]; exact hw1 x hx
      exact hu.trans (hc.upd hw1 (hu.read hr) hF1d) (read_lt hw hr) hd (hgd.lt hw)
    · rw [rep_plain hp']
      exact ⟨b, rfl, by rw [blk_upd, if_pos rfl], hF1⟩
  cases gs with
  | complex z =>
    simp only [from_gc, set_complex, Out.ok.injEq] at hg
    subst hg
    obtain ⟨m1, he1, hu1, hn1, hr1⟩ := clearAt_spec hw hr hgd hn hd
    have hw1 := hu1.wf hw (hgd.lt hw)
    obtain ⟨m2, he2, hu2, hb2⟩ := new_spec (t := .COMPLEX) (B := .leaf (complex z)) hw1 hr1
    refine ⟨m2, _, _, by simp only [setF, he1, Run.bind, he2], hu1.trans hu2 (read_lt hw hr) hd (hgd.lt hw), ?_⟩
    rw [rep_box (by simp) (by simp) rfl]
    exact ⟨m1.next, rfl, hb2, fun _ => Iff.rfl⟩
  | vector v => exact absurd rfl (h1 v)
  | map v => exact absurd rfl (h2 v)
  | _ => simp [immediate, plainBox] at hi hp

/-! ## Variables -/

theorem Holds.var {s : St} {E : Vals} (h : Holds s E) {x : Nat} (hx : E x = some g) :
    ∃ a c F, s.env x = some a ∧ s.mem.read ⟨a, .var⟩ = some c ∧ Rep s.mem g c F ∧ ¬ F a := by
  obtain ⟨_, A, hA, _, _⟩ := h
  have := hA x
  rw [hx] at this
  obtain ⟨a, c, F, he, hb, hr, hn, _⟩ := this
  exact ⟨a, c, F, he, by simp [Mem.read, hb, Block.get], hr, hn⟩

theorem Holds.env_none {s : St} {E : Vals} (h : Holds s E) {x : Nat} (hx : E x = none) : s.env x = none := by
  obtain ⟨_, A, hA, _, _⟩ := h
  have := hA x
  rw [hx] at this
  exact this.1

theorem Holds.upd {s : St} {E : Vals} (h : Holds s E) {x : Nat} (hx : E x = some g) (he : s.env x = some a)
    (hr : s.mem.read ⟨a, .var⟩ = some c) (hg : Rep s.mem g c F) (hu : Upd s.mem m' ⟨a, .var⟩ c' F F')
    {g' : GC} (hg' : Rep m' g' c' F') : Holds ⟨m', s.env⟩ (fun y => if y = x then some g' else E y) := by
  obtain ⟨hw, A, hA, hdis, hall⟩ := h
  have hx' := hA x
  rw [hx] at hx'
  obtain ⟨a0, c0, F0, he0, hb0, hr0, hn0, hA0⟩ := hx'
  rw [he] at he0
  injection he0 with he0
  subst he0
  have hcc : c0 = c := by
    simp [Mem.read, hb0, Block.get] at hr; exact hr
  subst hcc
  have hFF := Rep.unique.1 _ _ _ _ hg hr0
  have hlt := hg.lt hw
  have halt : a < s.mem.next := read_lt hw hr
  have hFa : ¬ F a := fun e => hn0 ((hFF a).1 e)
  have hF'a : ¬ F' a := fun e => by
    rcases hu.sub _ e with h | h
    · exact hFa h
    · omega
  have hAx : ∀ b, A x b ↔ (b = a ∨ F b) := fun b => by rw [hA0, hFF]
  have hlive : ∀ y b, A y b → b < s.mem.next := by
    intro y b hb
    have := hA y
    cases hy : E y with
    | none => rw [hy] at this; exact absurd hb (this.2 b)
    | some gy =>
      rw [hy] at this
      obtain ⟨ay, cy, Fy, _, hby, hry, _, hAy⟩ := this
      rcases (hAy b).1 hb with rfl | hb
      · exact hw.lt (by rw [hby]; simp)
      · exact hry.lt hw b hb
  have hsame : ∀ y b, y ≠ x → A y b → m'.blk b = s.mem.blk b := by
    intro y b hy hb
    have := hdis y x b hy hb
    rw [hAx] at this
    exact hu.same b (fun e => this (Or.inl e)) (fun e => this (Or.inr e)) (hlive y b hb)
  refine ⟨hu.wf hw hlt, fun y b => if y = x then b = a ∨ F' b else A y b, ?_, ?_, ?_⟩
  · intro y
    by_cases hy : y = x
    · subst hy
      simp only [if_true]
      refine ⟨a, c', F', he, ?_, hg', hF'a, fun _ => Iff.rfl⟩
      have := hu.own
      rw [hb0] at this
      exact this
    · simp only [if_neg hy]
      have := hA y
      cases hE : E y with
      | none => rw [hE] at this; exact this
      | some gy =>
        rw [hE] at this
        obtain ⟨ay, cy, Fy, hey, hby, hry, hny, hAy⟩ := this
        exact ⟨ay, cy, Fy, hey, by rw [hsame y ay hy ((hAy _).2 (Or.inl rfl)), hby],
          Rep.frame.1 _ _ _ hry fun b hb => hsame y b hy ((hAy _).2 (Or.inr hb)), hny, hAy⟩
  · have key : ∀ z b, z ≠ x → A z b → ¬ (b = a ∨ F' b) := by
      intro z b hz hb hb'
      have h1 := hdis z x b hz hb
      rw [hAx] at h1
      rcases hb' with rfl | hb'
      · exact h1 (Or.inl rfl)
      · rcases hu.sub _ hb' with h | h
        · exact h1 (Or.inr h)
        · have := hlive z b hb; omega
    intro y z b hyz hb hb'
    by_cases hy : y = x
    · have hz : z ≠ x := fun e => hyz (by rw [hy, e])
      simp only [if_pos hy, if_neg hz] at hb hb'
      exact key z b hz hb' hb
    · simp only [if_neg hy] at hb
      by_cases hz : z = x
      · simp only [if_pos hz] at hb'
        exact key y b hy hb hb'
      · simp only [if_neg hz] at hb'
        exact hdis y z b hyz hb hb'
  · intro b hb
    by_cases hF' : F' b
    · exact ⟨x, by simp [hF']⟩
    by_cases hba : b = a
    · exact ⟨x, by simp [hba]⟩
    have hnF : ¬ F b := fun h => hb (hu.gone b h hF')
    have hlt : b < s.mem.next := Nat.lt_of_not_le fun h => hb (hu.fresh b h hF')
    have h0 : s.mem.blk b ≠ .none := by rw [← hu.same b hba hnF hlt]; exact hb
    obtain ⟨y, hy⟩ := hall b h0
    have hyx : y ≠ x := by
      rintro rfl
      rcases (hAx b).1 hy with h | h
      · exact hba h
      · exact hnF h
    exact ⟨y, by simp [hyx, hy]⟩

/-- A call at a place. -/
theorem Holds.op {s : St} {E : Vals} {x : Place} {f : Loc → Mem → Run Unit} {g' : GC} (h : Holds s E)
    (hx : E.get x = some g) (hf : OpOk f g g') :
    ∃ m', s.at x f = .ok m' s.env ∧ Holds ⟨m', s.env⟩ (E.put x g') := by
  unfold Vals.get at hx
  cases h0 : E x.var with
  | none => rw [h0] at hx; simp at hx
  | some g0 =>
    rw [h0] at hx
    simp only [Option.bind_some] at hx
    obtain ⟨a, c, F, he, hr, hg, hn⟩ := h.var h0
    obtain ⟨l, c1, G, hl, hr1, hy1, hsub, hnl, _, hput⟩ := Rep.at x.path h.1 hr hg hn hx
    obtain ⟨m', c2, G', hf', hu, hg'⟩ := hf _ _ _ _ h.1 hr1 hy1 hnl
    obtain ⟨c3, F3, hu3, hg3⟩ := hput m' g' c2 G' hu hg'
    refine ⟨m', ?_, ?_⟩
    · simp only [St.at, St.loc, he, Option.bind_some, hl, hf', Run.bind]
    · have := h.upd h0 he hr hg hu3 hg3
      have hE : (fun y => if y = x.var then some (modAt x.path (fun _ => g') g0) else E y) = E.put x g' := by
        funext y
        unfold Vals.put
        by_cases hy : y = x.var
        · subst hy; simp [h0]
        · simp [hy]
      rw [← hE]
      exact this

theorem Holds.loc_none {s : St} {E : Vals} {x : Place} (h : Holds s E) (hx : E.get x = none) : s.loc x = none := by
  unfold Vals.get at hx
  unfold St.loc
  cases h0 : E x.var with
  | none => rw [h.env_none h0]; rfl
  | some g0 =>
    rw [h0] at hx
    simp only [Option.bind_some] at hx
    obtain ⟨a, c, F, he, hr, hg, hn⟩ := h.var h0
    rw [he]
    exact Rep.at_none x.path h.1 hr hg hn hx

end Heap
end GCV
