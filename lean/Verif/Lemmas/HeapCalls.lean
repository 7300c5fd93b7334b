import Verif.Model.HeapCalls
import Verif.Lemmas.HeapProg
import Verif.Lemmas.HeapAlias
import Verif.Lemmas.Promote

/-! # The other calls in memory -/

namespace GCV
namespace Heap
open GC

variable {m m' m1 m2 : Mem} {g g' x y : GC} {c c' : Cell} {F F' G H : Addr → Prop} {d s l : Loc} {a b : Addr}

/-- A call that ends in `run` has done to the container at `d` what the call on values does. -/
def Ends (m : Mem) (d : Loc) (F : Addr → Prop) (run : Run Unit) : Res Unit → Prop
  | .ok g' _ => ∃ m' c' F', run = .ok m' () ∧ Upd m m' d c' F F' ∧ Rep m' g' c' F'
  | .throw g' => ∃ m' c' F', run = .throw m' ∧ Upd m m' d c' F F' ∧ Rep m' g' c' F'
  | _ => True

/-- The call `f`, made on a container that holds `g`, does what `r` says and touches nothing else. -/
def CallOk (f : Nat → Loc → Mem → Run Unit) (g : GC) (r : Res Unit) : Prop :=
  ∃ N, ∀ n, N ≤ n → ∀ m d c F, Wf m → m.read d = some c → Rep m g c F → ¬ F d.addr → Ends m d F (f n d m) r

theorem CallOk.ub {f : Nat → Loc → Mem → Run Unit} : CallOk f g .ub := ⟨0, fun _ _ _ _ _ _ _ _ _ _ => trivial⟩
theorem CallOk.diverge {f : Nat → Loc → Mem → Run Unit} : CallOk f g .diverge := ⟨0, fun _ _ _ _ _ _ _ _ _ _ => trivial⟩

theorem CallOk.throw : CallOk throwF g (.throw g) :=
  ⟨0, fun _ _ m _ c F hw hr hg _ => ⟨m, c, F, rfl, Upd.refl hw hr, hg⟩⟩

theorem CallOk.of {f : Nat → Loc → Mem → Run Unit} (N : Nat) (h : ∀ n, N ≤ n → OpOk (f n) g g') : CallOk f g (.ok g' ()) :=
  ⟨N, fun n hn m d c F hw hr hg hd => h n hn m d c F hw hr hg hd⟩

theorem CallOk.seq {f h : Nat → Loc → Mem → Run Unit} {r : Res Unit} {k : GC → Res Unit} (hf : CallOk f g r)
    (hh : ∀ g' u, r = .ok g' u → CallOk h g' (k g')) : CallOk (seqF f h) g (r.bind fun g' _ => k g') := by
  obtain ⟨N, hf⟩ := hf
  cases r with
  | ok g' u =>
    obtain ⟨N', hh⟩ := hh g' u rfl
    refine ⟨max N N', fun n hn m d c F hw hr hg hd => ?_⟩
    obtain ⟨m1, c1, F1, he, hu, hr1⟩ := hf n (by omega) m d c F hw hr hg hd
    have hw1 := hu.wf hw (hg.lt hw)
    have := hh n (by omega) m1 d c1 F1 hw1 (hu.read hr) hr1 (upd_not hw hu hr hd)
    simp only [seqF, he, Run.bind, Res.bind]
    cases hk : k g' with
    | ok g2 u2 =>
      rw [hk] at this
      obtain ⟨m2, c2, F2, he2, hu2, hr2⟩ := this
      exact ⟨m2, c2, F2, he2, hu.trans hu2 (read_lt hw hr) hd (hg.lt hw), hr2⟩
    | throw g2 =>
      rw [hk] at this
      obtain ⟨m2, c2, F2, he2, hu2, hr2⟩ := this
      exact ⟨m2, c2, F2, he2, hu.trans hu2 (read_lt hw hr) hd (hg.lt hw), hr2⟩
    | ub => trivial
    | diverge => trivial
  | throw g' =>
    refine ⟨N, fun n hn m d c F hw hr hg hd => ?_⟩
    obtain ⟨m1, c1, F1, he, hu, hr1⟩ := hf n (by omega) m d c F hw hr hg hd
    exact ⟨m1, c1, F1, by simp only [seqF, he, Run.bind], hu, hr1⟩
  | ub => exact .ub
  | diverge => exact .diverge

theorem rep_ty (h : Rep m g c F) : c.ty = g.ty := by
  cases g with
  | vector v => obtain ⟨a, _, _, rfl, _⟩ := h; rfl
  | map v => obtain ⟨a, _, _, rfl, _⟩ := h; rfl
  | _ =>
    rw [rep_leaf (by intro v h; cases h) (by intro v h; cases h)] at h
    simp only [immediate, if_true, if_false, Bool.false_eq_true] at h
    first
      | (rw [h.1]; rfl)
      | (obtain ⟨_, hc, _⟩ := h; rw [hc]; rfl)

theorem CallOk.tag {k : Ty → Nat → Loc → Mem → Run Unit} {r : Res Unit} (h : CallOk (k g.ty) g r) :
    CallOk (tagF k) g r := by
  obtain ⟨N, h⟩ := h
  refine ⟨N, fun n hn m d c F hw hr hg hd => ?_⟩
  simp only [tagF, hr, rep_ty hg]
  exact h n hn m d c F hw hr hg hd

/-- A payload without containers. -/
def boxed : GC → Bool
  | .complex _ => true
  | g => plainBox g

/-- Not a VECTOR and not a MAP. -/
def leafy : GC → Bool
  | .vector _ | .map _ => false
  | _ => true

theorem rep_boxed (h : boxed g = true) :
    Rep m g c F ↔ ∃ a, c = .box g.ty a ∧ m.blk a = some (.leaf g) ∧ ∀ b, F b ↔ b = a := by
  apply rep_box
  · rintro v rfl; simp [boxed, plainBox] at h
  · rintro v rfl; simp [boxed, plainBox] at h
  · cases g <;> simp_all [boxed, plainBox, immediate]

theorem upd_leaf (hw : Wf m) (hr : m.read d = some (.box g.ty a)) (hb : m.blk a = some (.leaf g)) (hF : ∀ b, F b ↔ b = a)
    (hd : ¬ F d.addr) (h' : boxed g' = true) (ht : g'.ty = g.ty) :
    Upd m (m.upd a (some (.leaf g'))) d (.box g'.ty a) F F ∧ Rep (m.upd a (some (.leaf g'))) g' (.box g'.ty a) F := by
  have hlt : a < m.next := hw.lt (by rw [hb]; simp)
  have hc : Chg m (m.upd a (some (.leaf g'))) F F := by
    refine ⟨?_, fun x hx => Or.inl hx, fun x h1 h2 => absurd h1 h2, ?_, Nat.le_refl _⟩
    · intro x hx _; rw [blk_upd, if_neg (fun e => hx ((hF x).2 e))]
    · intro x hx _; rw [blk_upd, if_neg (by omega)]; exact hw x hx
  refine ⟨ht ▸ hc.upd hw hr hd, ?_⟩
  rw [rep_boxed h']
  exact ⟨a, rfl, by rw [blk_upd, if_pos rfl], hF⟩

theorem CallOk.edit {f : GC → Res Unit} (h : boxed g = true) (h1 : ∀ g', f g = .ok g' () → boxed g' = true ∧ g'.ty = g.ty)
    (h2 : ∀ g', f g = .throw g' → g' = g) : CallOk (editF f) g (f g) := by
  refine ⟨0, fun n _ m d c F hw hr hg hd => ?_⟩
  obtain ⟨a, rfl, hb, hF⟩ := (rep_boxed h).1 hg
  cases hf : f g with
  | ok g' u =>
    obtain ⟨hb', ht⟩ := h1 g' hf
    obtain ⟨hu, hr'⟩ := upd_leaf (F := F) hw hr hb hF hd hb' ht
    exact ⟨_, _, _, by simp only [editF, hr, hb, hf], hu, hr'⟩
  | throw g' =>
    have := h2 g' hf
    subst this
    exact ⟨m, _, F, by simp only [editF, hr, hb, hf], Upd.refl hw hr, hg⟩
  | ub => trivial
  | diverge => trivial

/-- What a promotion does on values. -/
def howVal (how : Ty → How) (g : GC) : Res Unit :=
  match how g.ty with
  | .no => .throw g
  | .keep => .ok g ()
  | .set f => f g
  | .aside _ f => f g

/-- The promotion does something that makes sense in memory. -/
def HowOk (how : Ty → How) (g : GC) : Prop :=
  match how g.ty with
  | .set f => leafy g = true ∧ (∀ s, f g ≠ .throw s) ∧
      ∀ g', f g = .ok g' () → leafy g' = true ∧ from_gc g' g = .ok g'
  | .aside t f => boxed g = true ∧ (∀ s, f g ≠ .throw s) ∧ ∀ g', f g = .ok g' () → boxed g' = true ∧ g'.ty = t
  | _ => True

theorem rep_leafAt (h : leafy g = true) (hg : Rep m g c F) : leafAt m c = some g := by
  rw [rep_leaf (by rintro v rfl; simp [leafy] at h) (by rintro v rfl; simp [leafy] at h)] at hg
  split at hg
  · rw [hg.1]; rfl
  · obtain ⟨a, rfl, hb, _⟩ := hg
    simp [leafAt, hb]

theorem write_imm (hw : Wf m) (hr : m.read d = some c) :
    ∃ m', m.write d (.imm notype) = .ok m' () ∧ Upd m m' d (.imm notype) (fun _ => False) (fun _ => False) ∧
      m'.read d = some (.imm notype) ∧ Wf m' ∧ m'.next = m.next ∧ ∀ b, b ≠ d.addr → m'.blk b = m.blk b := by
  obtain ⟨m', he, hu, hn, hs⟩ := write_spec (c' := .imm notype) (F := fun _ => False) hw hr
  exact ⟨m', he, hu, hu.read hr, hu.wf hw (fun _ h => h.elim), hn, hs⟩

/-- An old payload that was kept aside is deleted after the container has got a new one. -/
theorem Upd.aside (h : Upd m m' d c' (fun _ => False) F') (hw : Wf m) (ha : m.blk a ≠ none) (hda : a ≠ d.addr)
    (hF : ∀ b, F b ↔ b = a) : Upd m (m'.upd a none) d c' F F' := by
  have hlt : a < m.next := hw.lt ha
  refine ⟨?_, ?_, ?_, ?_, ?_, h.mono⟩
  · rw [blk_upd, if_neg (fun e => hda e.symm)]; exact h.own
  · intro b hb hFb hl
    rw [blk_upd, if_neg (fun e => hFb ((hF b).2 e))]
    exact h.same b hb (fun e => e) hl
  · intro b hb
    rcases h.sub b hb with h | h
    · exact h.elim
    · exact Or.inr h
  · intro b hb _
    rw [blk_upd, if_pos ((hF b).1 hb)]
  · intro b hb hF'
    rw [blk_upd, if_neg (by omega)]
    exact h.fresh b hb hF'

theorem rep_del (hg : Rep m g c F) (ha : ¬ F a) : Rep (m.upd a none) g c F :=
  Rep.frame.1 g c F hg fun b hb => by rw [blk_upd, if_neg (fun e : b = a => ha (e ▸ hb))]

theorem CallOk.prom {how : Ty → How} (h : HowOk how g) : CallOk (promF how) g (howVal how g) := by
  refine ⟨sizeOf g + 1, fun n hn m d c F hw hr hg hd => ?_⟩
  have ht := rep_ty hg
  unfold howVal
  unfold HowOk at h
  simp only [promF, hr, ht]
  cases hh : how g.ty with
  | no => exact ⟨m, c, F, rfl, Upd.refl hw hr, hg⟩
  | keep => exact ⟨m, c, F, rfl, Upd.refl hw hr, hg⟩
  | set f =>
    rw [hh] at h
    obtain ⟨h1, h2, h3⟩ := h
    simp only [rep_leafAt h1 hg]
    cases hf : f g with
    | ok g' u =>
      obtain ⟨h4, h5⟩ := h3 g' hf
      simp only
      exact opOk_set (n := n) (by omega) (by rintro v rfl; simp [leafy] at h4) (by rintro v rfl; simp [leafy] at h4) h5
        m d c F hw hr hg hd
    | throw s => exact absurd hf (h2 s)
    | ub => trivial
    | diverge => trivial
  | aside t f =>
    rw [hh] at h
    obtain ⟨h1, h2, h3⟩ := h
    obtain ⟨a, rfl, hb, hF⟩ := (rep_boxed h1).1 hg
    have hda : a ≠ d.addr := fun e => hd ((hF _).2 e.symm)
    dsimp only
    cases hf : f g with
    | ok g' u =>
      obtain ⟨h4, h5⟩ := h3 g' hf
      obtain ⟨m1, he1, hu1, hr1, hw1, hn1, hs1⟩ := write_imm hw hr
      obtain ⟨m2, b, he2, hu2, hb2⟩ := allocBox_new (n := n) (t := t) (B := .leaf notype) (g := notype) hw1 hr1 rep_notype
        (by rw [GC.notype.sizeOf_spec]; omega) (fun h => h) (by intro a h; cases h)
      have ha2 : m2.blk a = some (.leaf g) := by
        rw [hu2.same a hda (fun h => h) (by rw [hn1]; exact hw.lt (by rw [hb]; simp)), hs1 a hda, hb]
      have hu12 := hu1.trans hu2 (read_lt hw hr) (fun h => h) (fun _ h => h.elim)
      have hw2 := hu12.wf hw (fun _ h => h.elim)
      have hdb : ¬ d.addr = b := by
        intro e
        rcases hu12.sub b rfl with h | h
        · exact h
        · have := read_lt hw hr; omega
      have hab : ¬ a = b := by
        intro e
        rcases hu12.sub b rfl with h | h
        · exact h
        · have : a < m.next := hw.lt (by rw [hb]; simp)
          omega
      have hc : Chg m2 (m2.upd b (some (.leaf g'))) (fun x => x = b) (fun x => x = b) := by
        have hlt : b < m2.next := hw2.lt (by rw [hb2]; simp)
        refine ⟨?_, fun x hx => Or.inl hx, fun x h1 h2 => absurd h1 h2, ?_, Nat.le_refl _⟩
        · intro x hx _; rw [blk_upd, if_neg hx]
        · intro x hx _; rw [blk_upd, if_neg (by omega)]; exact hw2 x hx
      have hu3 := hu12.trans (hc.upd hw2 (hu12.read hr) hdb) (read_lt hw hr) (fun h => h) (fun _ h => h.elim)
      refine ⟨(m2.upd b (some (.leaf g'))).upd a none, .box t b, fun x => x = b, ?_, hu3.aside hw (by rw [hb]; simp) hda hF, ?_⟩
      · simp only [he1, Run.bind, he2, ha2, hf]
      · refine rep_del (F := fun x => x = b) ?_ hab
        rw [rep_boxed h4]
        exact ⟨b, by rw [h5], by rw [blk_upd, if_pos rfl], fun _ => Iff.rfl⟩
    | throw s => exact absurd hf (h2 s)
    | ub => trivial
    | diverge => trivial

/-! ## The elements of a VECTOR -/

theorem from_scalar {x y : GC} (h : match x with
    | .notype | .pointer _ | .bool _ | .int _ | .long _ | .real _ | .complex _ | .string _ => True
    | _ => False) : from_gc x y = .ok x := by
  cases x <;> first
    | exact h.elim
    | rfl
    | (cases y <;> rfl)

theorem setElem_ok {w : List GC} {i : Nat} (hi : i < w.length) (h1 : leafy x = true) (hx : ∀ y, from_gc x y = .ok x) :
    CallOk (elemSetF i x) (vector w) (.ok (vector (w.set i x)) ()) := by
  refine ⟨sizeOf w, fun n hn m d c F hw hr hg hd => ?_⟩
  obtain ⟨a, rfl, hFa⟩ := rep_vector_box hg
  obtain ⟨ci, G, hri, hy, hsub, hna, hput⟩ := hg.elem hw (List.getElem?_eq_getElem hi)
  obtain ⟨m', c', G', he, hu, hr'⟩ := opOk_set (n := n) (gs := x) (gd := w[i]) (g' := x)
    (by have := sizeOf_mem (List.getElem_mem hi); omega)
    (by rintro v rfl; simp [leafy] at h1) (by rintro v rfl; simp [leafy] at h1) (hx _) m ⟨a, .idx i⟩ ci G hw hri hy hna
  refine ⟨m', .box .VECTOR a, _, by simp only [elemSetF, hr]; exact he, ?_, hput m' x c' G' hu hr'⟩
  exact hu.lift hw hr hFa hd hsub fun b => Iff.rfl

theorem CallOk.back {ip : Nat → Nat → Bool} {w : List GC} (hw' : WF (vector w)) (hf : Fits (vector w))
    (h1 : leafy x = true) (hx : ∀ y, from_gc x y = .ok x) :
    CallOk (backF ip x) (vector w) (.ok (vector (w ++ [x])) ()) := by
  obtain ⟨N, hN⟩ := setElem_ok (w := w ++ [notype]) (i := w.length) (by simp) h1 hx
  refine ⟨max N (sizeOf w + 3), fun n hn m d c F hw hr hg hd => ?_⟩
  obtain ⟨a, rfl, hFa⟩ := rep_vector_box hg
  obtain ⟨a', cs, G, hc, hb, hG, _, _⟩ := id hg
  injection hc with _ hc
  subst hc
  have hlen := hG.length
  obtain ⟨m2, F2, he2, hC2, hr2⟩ := resizeF_spec (inPlace := ip) (sz := w.length + 1) (n := n) (f := fromF ip n) hw hg
      (by omega)
      (fun x hx => copy_ok (wf_oldVector hw' hx) (fits_oldVector hf hx))
      (fun x hx => fromF_spec ip n x notype (by have := sizeOf_mem hx; rw [GC.notype.sizeOf_spec]; omega)
        (fits_oldVector hf hx) trivial rfl)
  have hres : resizeL notype (w.length + 1) w = w ++ [notype] := by
    simp [resizeL, List.take_of_length_le (Nat.le_succ _)]
  rw [hres] at hr2
  have hu2 := hC2.upd hw hr hd
  have hw2 := hu2.wf hw (hg.lt hw)
  have := hN n (by omega) m2 d _ F2 hw2 (hu2.read hr) hr2 (upd_not hw hu2 hr hd)
  obtain ⟨m3, c3, F3, he3, hu3, hr3⟩ := this
  refine ⟨m3, c3, F3, ?_, hu2.trans hu3 (read_lt hw hr) hd (hg.lt hw), ?_⟩
  · simp only [backF, hr, hb, hlen, he2, Run.bind]
    simp only [elemSetF, hu2.read hr] at he3
    exact he3
  · have : (w ++ [notype]).set w.length x = w ++ [x] := by
      simp [List.set_append]
    rw [this] at hr3
    exact hr3

theorem CallOk.elem {ip : Nat → Nat → Bool} {w : List GC} {i : Nat} (hw' : WF (vector w)) (hf : Fits (vector w))
    (h1 : leafy x = true) (hx : ∀ y, from_gc x y = .ok x) :
    CallOk (elemF ip i x) (vector w) (match (checkResize notype i w)[i]? with
      | some _ => .ok (vector ((checkResize notype i w).set i x)) ()
      | none => .ub) := by
  cases hi : (checkResize notype i w)[i]? with
  | none => exact .ub
  | some y =>
    have hidx : CallOk (fun n d => idxF ip n d i) (vector w) (.ok (vector (checkResize notype i w)) ()) :=
      .of (sizeOf (vector w) + 2) fun n hn => opOk_idx (by omega) hw' hf
    exact CallOk.seq (k := fun g' => match g' with
      | .vector v => .ok (vector (v.set i x)) ()
      | _ => .ub) hidx fun g' _ hg' => by
        injection hg' with hg' _
        subst hg'
        exact setElem_ok (List.getElem?_eq_some_iff.1 hi).1 h1 hx

theorem unpackLoop_spec {n : Nat} {xs : List GC} (hxs : unpacked g = xs)
    (hx : ∀ x ∈ xs, leafy x = true ∧ ∀ y, from_gc x y = .ok x) : ∀ (k i : Nat) (m : Mem) (F : Addr → Prop), 1 ≤ n →
    i + k = xs.length → Wf m →
    Rep m (vector (xs.take i ++ List.replicate k notype)) (.box .VECTOR b) F → ¬ F a → m.blk a = some (.leaf g) →
    ∃ m' F', unpackLoop n a b i k m = .ok m' () ∧ Chg m m' F F' ∧ Rep m' (vector xs) (.box .VECTOR b) F' ∧
      m'.blk a = some (.leaf g) ∧ ¬ F' a
  | 0, i, m, F, _, hi, hw, hr, hna, ha => by
    refine ⟨m, F, rfl, Chg.refl hw, ?_, ha, hna⟩
    simpa [List.take_of_length_le (show xs.length ≤ i by omega)] using hr
  | k + 1, i, m, F, hn, hi, hw, hr, hna, ha => by
    have hil : i < xs.length := by omega
    obtain ⟨h1, h2⟩ := hx _ (List.getElem_mem hil)
    have hFb : F b := by
      obtain ⟨b', hc, hFb⟩ := rep_vector_box hr
      injection hc with _ hc
      subst hc; exact hFb
    have hlen : (xs.take i).length = i := by simp; omega
    obtain ⟨ci, G, hri, hy, hsub, hnb, hput⟩ := hr.elem (i := i) (y := notype) hw (by
      rw [List.getElem?_append_right (by omega), hlen]; simp [List.replicate_succ])
    obtain ⟨m1, c1, G1, he1, hu1, hr1⟩ := opOk_set (n := n) (gs := xs[i]) (gd := notype) (g' := xs[i])
      (by rw [GC.notype.sizeOf_spec]; exact hn)
      (by intro v e; rw [e] at h1; simp [leafy] at h1) (by intro v e; rw [e] at h1; simp [leafy] at h1) (h2 _)
      m ⟨b, .idx i⟩ ci G hw hri hy hnb
    have hr1' := hput m1 _ c1 G1 hu1 hr1
    have hab : a ≠ b := fun e => hna (e ▸ hFb)
    have hnG : ¬ G a := fun h => hna (hsub a h)
    have halt : a < m.next := hw.lt (by rw [ha]; simp)
    have hset : (xs.take i ++ List.replicate (k + 1) notype).set i xs[i] =
        xs.take (i + 1) ++ List.replicate k notype := by
      rw [List.set_append, if_neg (by omega), hlen, List.take_succ_eq_append_getElem hil, List.append_assoc]
      simp [List.replicate_succ]
    rw [hset] at hr1'
    have hna1 : ¬ ((F a ∧ ¬ G a) ∨ G1 a) := by
      rintro (h | h)
      · exact hna h.1
      · rcases hu1.sub a h with h | h
        · exact hnG h
        · omega
    have hw1 := hu1.wf hw (hy.lt hw)
    have ha1 : m1.blk a = some (.leaf g) := by rw [hu1.same a hab hnG halt, ha]
    obtain ⟨m2, F2, he2, hC2, hr2, ha2, hna2⟩ := unpackLoop_spec hxs hx k (i + 1) m1 _ hn (by omega) hw1 hr1' hna1 ha1
    have hC1 := hu1.chg (F := F) hFb hsub
    refine ⟨m2, F2, ?_, hC1.trans hC2 (hr.lt hw), hr2, ha2, hna2⟩
    rw [unpackLoop, ha]
    simp only [hxs, List.getElem?_eq_getElem hil, he1, Run.bind, he2]

/-- The packed vectors. -/
def packedVec : GC → Bool
  | .vecPointer _ | .vecBool _ | .vecInt _ | .vecLong _ | .vecReal _ | .vecComplex _ | .vecString _ => true
  | _ => false

theorem unpacked_ok (h : x ∈ unpacked g) : leafy x = true ∧ (∀ y, from_gc x y = .ok x) ∧ WF x ∧ Fits x := by
  cases g <;> simp only [unpacked, List.mem_map, List.not_mem_nil] at h <;>
    (obtain ⟨a, _, rfl⟩ := h; exact ⟨rfl, fun y => from_scalar trivial, trivial, rfl⟩)

theorem promote_packed (h : packedVec g = true) (hf : Fits g) :
    promote_to_vector g = .ok (vector (unpacked g)) () ∧ (unpacked g).length < 2 ^ 32 := by
  cases g <;> first
    | (simp [packedVec] at h; done)
    | (rename_i v
       have hl : v.length < 2 ^ 32 := by simpa [Fits, every, fitsNode] using hf
       refine ⟨?_, by simpa [unpacked] using hl⟩
       simp only [promote_to_vector, unpacked]
       rw [refill_ok _ _ hl]
       rfl)

theorem CallOk.promVec {ip : Nat → Nat → Bool} (hwg : WF g) (hf : Fits g) :
    CallOk (promVecF ip) g (promote_to_vector g) := by
  by_cases hp : packedVec g = true
  · obtain ⟨hv, hl⟩ := promote_packed hp hf
    rw [hv]
    refine ⟨sizeOf g + 4, fun n hn m d c F hw hr hg hd => ?_⟩
    have hbx : boxed g = true := by cases g <;> simp_all [packedVec, boxed, plainBox]
    obtain ⟨a, rfl, hb, hF⟩ := (rep_boxed hbx).1 hg
    have hda : a ≠ d.addr := fun e => hd ((hF _).2 e.symm)
    have halt : a < m.next := hw.lt (by rw [hb]; simp)
    obtain ⟨m1, he1, hu1, hr1, hw1, hn1, hs1⟩ := write_imm hw hr
    obtain ⟨m2, c2, F2, he2, hu2, hr2⟩ := opOk_setVector (ip := ip) (n := n) (k := u32 (unpacked g).length) (g := notype)
      (by rw [GC.notype.sizeOf_spec]; omega) trivial rfl m1 d _ (fun _ => False) hw1 hr1 rep_notype (fun h => h)
    have hu12 := hu1.trans hu2 (read_lt hw hr) (fun h => h) (fun _ h => h.elim)
    have hw2 := hu12.wf hw (fun _ h => h.elim)
    have ha2 : m2.blk a = some (.leaf g) := by
      rw [hu12.same a hda (fun h => h) halt, hb]
    have hF2a : ¬ F2 a := by
      intro h
      rcases hu12.sub a h with h | h
      · exact h
      · omega
    have hset : set_vector (u32 (unpacked g).length) notype =
        vector ((unpacked g).take 0 ++ List.replicate (unpacked g).length notype) := by
      have hu : u32 (unpacked g).length = (unpacked g).length := Nat.mod_eq_of_lt hl
      rw [hu]
      simp only [set_vector, allocate_vector, oldVector, allocL]
      split
      · simp [resizeL]
      · have : (unpacked g).length = 0 := by omega
        rw [this]; simp
    rw [hset] at hr2
    obtain ⟨b, rfl, _⟩ := rep_vector_box hr2
    obtain ⟨m3, F3, he3, hC3, hr3, ha3, hna3⟩ := unpackLoop_spec (n := n) rfl (fun x hx => ⟨(unpacked_ok hx).1, (unpacked_ok hx).2.1⟩)
      (unpacked g).length 0 m2 F2 (by omega) (by omega) hw2 hr2 hF2a ha2
    have hd2 : ¬ F2 d.addr := by
      intro h
      rcases hu12.sub _ h with h | h
      · exact h
      · have := read_lt hw hr; omega
    have hu3 := hu12.trans (hC3.upd hw2 (hu12.read hr) hd2) (read_lt hw hr) (fun h => h) (fun _ h => h.elim)
    refine ⟨m3.upd a none, .box .VECTOR b, F3, ?_, hu3.aside hw (by rw [hb]; simp) hda hF, rep_del hr3 hna3⟩
    have hrd := hu12.read hr
    cases g <;> first
      | (simp [packedVec] at hp; done)
      | (simp only [GC.ty] at hr
         simp only [promVecF, hr, hb, he1, Run.bind, he2, hrd, he3, ha3])
  · cases g with
    | notype =>
      refine ⟨4, fun n hn m d c F hw hr hg hd => ?_⟩
      obtain ⟨rfl, hF⟩ := (rep_imm rfl).1 hg
      obtain ⟨m2, c2, F2, he2, hu2, hr2⟩ := opOk_setVector (ip := ip) (n := n) (k := 1) (g := notype)
        (by rw [GC.notype.sizeOf_spec]; omega) trivial rfl m d _ F hw hr hg hd
      have hset : set_vector 1 notype = vector [notype] := rfl
      rw [hset] at hr2
      have hw2 := hu2.wf hw (hg.lt hw)
      have hd2 := upd_not hw hu2 hr hd
      obtain ⟨b, rfl, hFb⟩ := rep_vector_box hr2
      obtain ⟨ci, G, hri, hy, hsub, hnb, hput⟩ := hr2.elem (i := 0) (y := notype) hw2 rfl
      obtain ⟨m3, he3, hu3, _, _⟩ := clearAt_spec (n := n) hw2 hri hy (by rw [GC.notype.sizeOf_spec]; omega) hnb
      have hr3 := hput m3 notype _ _ hu3 rep_notype
      refine ⟨m3, .box .VECTOR b, _, ?_, ?_, hr3⟩
      · simp only [promVecF, hr, he2, Run.bind, hu2.read hr, he3]
      · exact hu2.trans (hu3.lift hw2 (hu2.read hr) hFb hd2 hsub fun b => Iff.rfl) (read_lt hw hr) hd (hg.lt hw)
    | vector v =>
      refine ⟨0, fun n _ m d c F hw hr hg hd => ⟨m, c, F, ?_, Upd.refl hw hr, hg⟩⟩
      obtain ⟨a, rfl, _⟩ := rep_vector_box hg
      simp only [promVecF, hr]
    | map v =>
      refine ⟨0, fun n _ m d c F hw hr hg hd => ⟨m, c, F, ?_, Upd.refl hw hr, hg⟩⟩
      obtain ⟨a, rfl, _⟩ := rep_map_box hg
      simp only [promVecF, hr]
    | matInt v =>
      refine ⟨0, fun n _ m d c F hw hr hg hd => ⟨m, c, F, ?_, Upd.refl hw hr, hg⟩⟩
      obtain ⟨a, rfl, _⟩ := (rep_boxed rfl).1 hg
      simp only [GC.ty] at hr
      simp only [promVecF, hr]
    | matLong v =>
      refine ⟨0, fun n _ m d c F hw hr hg hd => ⟨m, c, F, ?_, Upd.refl hw hr, hg⟩⟩
      obtain ⟨a, rfl, _⟩ := (rep_boxed rfl).1 hg
      simp only [GC.ty] at hr
      simp only [promVecF, hr]
    | matReal v =>
      refine ⟨0, fun n _ m d c F hw hr hg hd => ⟨m, c, F, ?_, Upd.refl hw hr, hg⟩⟩
      obtain ⟨a, rfl, _⟩ := (rep_boxed rfl).1 hg
      simp only [GC.ty] at hr
      simp only [promVecF, hr]
    | matComplex v =>
      refine ⟨0, fun n _ m d c F hw hr hg hd => ⟨m, c, F, ?_, Upd.refl hw hr, hg⟩⟩
      obtain ⟨a, rfl, _⟩ := (rep_boxed rfl).1 hg
      simp only [GC.ty] at hr
      simp only [promVecF, hr]
    | _ => first | exact .ub | exact absurd rfl hp

end Heap
end GCV
