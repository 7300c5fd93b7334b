import Verif.Lemmas.HeapUnwrap
import Verif.Spec.HeapOverlap

/-! # A container assigned from a part of it, where the assignment reaches the part on its way -/

namespace GCV
namespace Heap
open GC

variable {m m' m1 m2 : Mem} {g x y : GC} {c c' : Cell} {F F' G H : Addr → Prop} {d s l : Loc} {a b : Addr}

/-- A place assigned from inside itself, a value kept in the container itself or one of another type: everything that was
inside is released, before the source is read if the source is not kept in the container itself. -/
theorem fromF_over (ip : Nat → Nat → Bool) {n : Nat} {gs gd : GC} {cs cd : Cell} {Fs Fd : Addr → Prop}
    (hn : sizeOf gd < n) (hw : Wf m) (hd : m.read d = some cd) (hgd : Rep m gd cd Fd) (hdd : ¬ Fd d.addr)
    (hs : m.read s = some cs) (hgs : Rep m gs cs Fs) (hsub : ∀ b, Fs b → Fd b) (hin : Fd s.addr)
    (h : immediate gs = true ∨ gd.ty ≠ gs.ty) :
    fromF ip n d s m = .ub ∨ ∃ m', fromF ip n d s m = .ok m' () ∧ ∀ z, Fd z → m'.blk z = none := by
  by_cases hi : immediate gs = true
  · right
    obtain ⟨n, rfl⟩ : ∃ k, n = k + 1 := ⟨n - 1, by omega⟩
    obtain ⟨rfl, _⟩ := (rep_imm hi).1 hgs
    obtain ⟨m1, he1, hu1, hn1, hr1⟩ := clearAt_spec (n := n) hw hd hgd (by omega) hdd
    have hw1 := hu1.wf hw (hgd.lt hw)
    obtain ⟨m2, he2, _, _, hs2⟩ := write_spec (c' := .imm gs) (F := fun _ => False) hw1 hr1
    refine ⟨m2, by simp only [fromF, hs, he1, Run.bind, he2], fun z hz => ?_⟩
    rw [hs2 z fun e => hdd (e ▸ hz)]
    exact hu1.gone z hz fun h => h
  · left
    exact fromF_inside ip hn hw hd hgd hdd hs hgs hsub hin (by simpa using hi) (h.resolve_left hi)

/-- The loop over the elements of a vector that is in the element `i` of the destination. -/
theorem vecLoop_replaced (ip : Nat → Nat → Bool) {n i : Nat} {w : List GC} {xi : GC} {ci : Cell} {m0 : Mem}
    {Fs Gi : Addr → Prop} (hsub : ∀ z, Fs z → Gi z) (hiw : i < w.length)
    (hv0 : Rep m0 (vector w) (.box .VECTOR a) Fs) (hR0 : Rep m0 xi ci Gi)
    (hkill : ∀ m, Wf m → m.read ⟨b, .idx i⟩ = some ci → (∀ z, Gi z → m.blk z = m0.blk z) → ¬ Gi b →
      fromF ip n ⟨b, .idx i⟩ ⟨a, .idx i⟩ m = .ub ∨
      ∃ m', fromF ip n ⟨b, .idx i⟩ ⟨a, .idx i⟩ m = .ok m' () ∧ ∀ z, Gi z → m'.blk z = none) :
    ∀ (t j k : Nat) (m : Mem) (v : List GC) (Fb : Addr → Prop), Wf m → j + t = i → t < k →
    Rep m (vector v) (.box .VECTOR b) Fb → v[i]? = some xi →
    m.read ⟨b, .idx i⟩ = some ci → (∀ z, Gi z → m.blk z = m0.blk z) →
    (∀ j' x y, j ≤ j' → w[j']? = some x → v[j']? = some y → FromOk (fromF ip n) x y ∧ ∃ r, from_gc x y = .ok r) →
    vecLoop (fromF ip n) b a j k m = .ub
  | t, j, 0, _, _, _, _, _, h, _, _, _, _, _ => by omega
  | t, j, k + 1, m, v, Fb, hw, hji, htk, hb, hx, hri, hsame, hf => by
    have hv : Rep m (vector w) (.box .VECTOR a) Fs := Rep.frame.1 _ _ _ hv0 fun z hz => hsame z (hsub z hz)
    have hRi : Rep m xi ci Gi := Rep.frame.1 _ _ _ hR0 hsame
    have hiv : i < v.length := (List.getElem?_eq_some_iff.1 hx).1
    have hFsa : Fs a := by
      obtain ⟨a', hc, h⟩ := rep_vector_box hv
      injection hc with _ hc
      subst hc; exact h
    have hFbb : Fb b := by
      obtain ⟨a', hc, h⟩ := rep_vector_box hb
      injection hc with _ hc
      subst hc; exact h
    have hGib : ¬ Gi b := by
      obtain ⟨c0, G0, hr0, hR0, _, hn0, _⟩ := hb.elem hw hx
      rw [hri] at hr0
      injection hr0 with hr0
      subst hr0
      exact fun h => hn0 ((Rep.unique.1 _ _ _ _ hRi hR0 b).1 h)
    obtain ⟨cs, ha, hlen⟩ : ∃ cs, m.blk a = some (.vec cs) ∧ cs.length = w.length := by
      obtain ⟨a', cs, _, hc, ha, hL, _⟩ := id hv
      injection hc with _ hc
      subst hc
      exact ⟨cs, ha, hL.length⟩
    rw [vecLoop, ha]
    simp only [if_pos (show j < cs.length by omega)]
    cases t with
    | zero =>
      obtain rfl : j = i := by omega
      rcases hkill m hw hri hsame hGib with h | ⟨m', h, hg⟩
      · rw [h]; rfl
      · rw [h]
        simp only [Run.bind]
        cases k <;> rw [vecLoop, hg a (hsub a hFsa)]
    | succ t =>
      have hwj : w[j]? = some w[j] := List.getElem?_eq_getElem (by omega)
      have hvj : v[j]? = some v[j] := List.getElem?_eq_getElem (by omega)
      obtain ⟨hok, r, hr⟩ := hf j _ _ (Nat.le_refl _) hwj hvj
      obtain ⟨cx, Gx, hrx, hxr, hGx, _, _⟩ := hv.elem hw hwj
      obtain ⟨cy, Gy, hry, hyr, hGy, hGyb, hput⟩ := hb.elem hw hvj
      have hdis : ∀ z, Gi z → ¬ Gy z := by
        obtain ⟨b', es, G, hc, hbb, hL, _⟩ := id hb
        injection hc with _ hc
        subst hc
        refine hL.two (show i ≠ j by omega) hx hvj ?_ ?_ hRi hyr
        · simpa only [Mem.read, hbb, Option.bind_some, Block.get] using hri
        · simpa only [Mem.read, hbb, Option.bind_some, Block.get] using hry
      have hab : a ≠ b := fun e => hGib (e ▸ hsub a hFsa)
      obtain ⟨m1, c1, G1, he1, hu1, hr1⟩ := hok m ⟨b, .idx j⟩ ⟨a, .idx j⟩ cx cy Gx Gy r
        ⟨hw, hrx, hxr, hry, hyr, fun z h1 h2 => hdis z (hsub z (hGx z h1)) h2,
          fun h => hGib (hsub b (hGx b h)), hGyb, fun h => hdis a (hsub a hFsa) h,
          fun e => hab (by simpa using congrArg Loc.addr e)⟩ hr
      have hU1 : Chg m m1 Fb (fun x => (Fb x ∧ ¬ Gy x) ∨ G1 x) := hu1.chg hFbb hGy
      rw [he1]
      simp only [Run.bind]
      refine vecLoop_replaced ip hsub hiw hv0 hR0 hkill t (j + 1) k m1 (v.set j r) _ (hU1.wf hw (hb.lt hw)) (by omega)
        (by omega) (hput m1 r c1 G1 hu1 hr1)
        (by rw [List.getElem?_set_ne (by omega)]; exact hx)
        (hu1.read_ne hw hri (fun e => by have := congrArg Loc.slot e; simp at this; omega) hGyb)
        (fun z hz => by
          rw [hu1.same z (fun e => hGib (show Gi b from (show z = b from e) ▸ hz)) (hdis z hz) (hRi.lt hw z hz)]; exact hsame z hz)
        (fun j' x y hj hx hy => hf j' x y (by omega) hx (by rwa [List.getElem?_set_ne (by omega)] at hy))

/-- What `resize` to a length beyond `i` does to a vector that the source is in the element `i` of: either the element is
where it was, or everything in it was released. -/
theorem resizeF_around {ip : Nat → Nat → Bool} {n sz i : Nat} {v : List GC} {xi : GC} {ci : Cell} {Gi : Addr → Prop}
    (hw : Wf m) (hb : Rep m (vector v) (.box .VECTOR b) F) (hx : v[i]? = some xi) (hri : m.read ⟨b, .idx i⟩ = some ci)
    (hRi : Rep m xi ci Gi) (hi : i < sz) (hn : sizeOf v ≤ n)
    (hcopy : ∀ x ∈ v, from_gc x notype = .ok x) (hf : ∀ x ∈ v, FromOk (fromF ip n) x notype) :
    ∃ m', resizeF ip (freeF n) (fromF ip n) b sz m = .ok m' () ∧
      ((v.length < sz ∧ ip v.length sz = false) ∧ (∀ z, Gi z → m'.blk z = none) ∨
       (sz ≤ v.length ∨ ip v.length sz = true) ∧
       (Wf m' ∧ (∃ F', Chg m m' F F' ∧ Rep m' (vector (resizeL notype sz v)) (.box .VECTOR b) F') ∧ m'.read ⟨b, .idx i⟩ = some ci ∧
        ∀ z, Gi z → m'.blk z = m.blk z)) := by
  obtain ⟨m', F', he, hC, hR⟩ := resizeF_spec (inPlace := ip) (sz := sz) hw hb hn hcopy hf
  have hw' : Wf m' := hC.wf hw (hb.lt hw)
  refine ⟨m', he, ?_⟩
  have hlt := hb.lt hw
  obtain ⟨b', cs, G, hc, hbb, hL, hnb, hF⟩ := id hb
  injection hc with _ hc
  subst hc
  have hlen := hL.length
  have hiv := (List.getElem?_eq_some_iff.1 hx).1
  have hci : cs[i]? = some ci := by simpa only [Mem.read, hbb, Option.bind_some, Block.get] using hri
  obtain ⟨c0, G0, hc0, hx0, hsub0, _⟩ := hL.focus hx
  rw [hci] at hc0
  injection hc0 with hc0
  subst hc0
  have hGi : ∀ z, Gi z → G z := fun z hz => hsub0 z ((Rep.unique.1 _ _ _ _ hRi hx0 z).1 hz)
  by_cases h1 : sz ≤ cs.length
  · right
    refine ⟨.inl (by omega), ?_⟩
    obtain ⟨G1, G2, hr1, hr2, hd12, hG12⟩ := hL.split sz
    have hsz : sizeOf (v.drop sz) ≤ n := by
      have : ∀ (l : List GC) k, sizeOf (l.drop k) ≤ sizeOf l := by
        intro l
        induction l with
        | nil => intro k; simp
        | cons x xs ih =>
          intro k
          cases k with
          | zero => simp
          | succ k =>
            have := ih k
            rw [List.drop_succ_cons, List.cons.sizeOf_spec]; omega
      exact Nat.le_trans (this v sz) hn
    obtain ⟨m1, he1, hf1⟩ := freeF_spec.2.1 _ n m _ G2 hsz hr2
    have he' := he
    simp only [resizeF, hbb, if_pos h1, he1, Run.bind, Run.ok.injEq, and_true] at he'
    subst he'
    obtain ⟨c3, G3, hc3, hx3, hsub3, _⟩ := hr1.focus (show (v.take sz)[i]? = some xi by
      rw [List.getElem?_take_of_lt hi]; exact hx)
    rw [List.getElem?_take_of_lt hi, hci] at hc3
    injection hc3 with hc3
    subst hc3
    refine ⟨hw', ⟨F', hC, hR⟩, ?_, fun z hz => ?_⟩
    · simp only [Mem.read, blk_upd, if_true, Option.bind_some, Block.get]
      rw [List.getElem?_take_of_lt hi]; exact hci
    · have hz1 : G1 z := hsub3 z ((Rep.unique.1 _ _ _ _ hRi hx3 z).1 hz)
      rw [blk_upd, if_neg (fun e : z = b => hnb (e ▸ hGi z hz)), hf1.same z (hd12 z hz1)]
  · by_cases h2 : ip cs.length sz = true
    · right
      refine ⟨.inr (by rw [← hlen]; exact h2), ?_⟩
      have he' := he
      simp only [resizeF, hbb, if_neg h1, h2, if_true, Run.ok.injEq, and_true] at he'
      subst he'
      refine ⟨hw', ⟨F', hC, hR⟩, ?_, fun z hz => ?_⟩
      · simp only [Mem.read, blk_upd, if_true, Option.bind_some, Block.get]
        rw [List.getElem?_append_left (by omega)]; exact hci
      · rw [blk_upd, if_neg (fun e : z = b => hnb (e ▸ hGi z hz))]
    · left
      refine ⟨⟨by omega, by rw [← hlen]; simpa using h2⟩, ?_⟩
      intro z hz
      have hFz : F z := (hF z).2 (Or.inr (hGi z hz))
      let m1 := m.alloc (.vec (List.replicate sz (.imm notype)))
      have hm1 : ∀ b, b ≠ m.next → m1.blk b = m.blk b := fun b hb => by
        show (m.alloc _).blk b = _
        rw [blk_alloc, if_neg hb]
      have hw1 : Wf m1 := by
        intro b hb
        have hb : m.next + 1 ≤ b := hb
        rw [hm1 b (by omega)]; exact hw b (by omega)
      have hv1 : Rep m1 (vector v) (.box .VECTOR b) F :=
        Rep.frame.1 _ _ _ hb fun b hb => hm1 b (by have := hlt b hb; omega)
      have hb1 : Rep m1 (vector (List.replicate sz notype)) (.box .VECTOR m.next) (fun b => b = m.next) :=
        ⟨m.next, _, fun _ => False, rfl, by show (m.alloc _).blk _ = _; rw [blk_alloc, if_pos rfl], repL_replicate sz,
          fun h => h, fun b => by tauto⟩
      obtain ⟨m2, F2, he2, hC2, hr2⟩ := vecLoop_spec (f := fromF ip n) cs.length 0 m1 (List.replicate sz notype)
        (v ++ List.replicate (sz - v.length) notype) F _ hw1 (by omega) hv1 hb1
        (fun b hb (e : b = m.next) => by have := hlt b hb; omega)
        (by simpa using from_gcL_replicate v sz hcopy (by omega))
        (fun j x y _ hx hy => by
          have hy' : y = notype := by
            have := List.mem_of_getElem? hy
            exact (List.mem_replicate.1 this).2
          rw [hy']; exact hf x (List.mem_of_getElem? hx))
      have hm2 : ∀ b, b < m.next → m2.blk b = m.blk b := fun b hb => by
        rw [hC2.same b (fun e : b = m.next => by omega) (show b < m.next + 1 by omega), hm1 b (by omega)]
      have hG2 : RepL m2 v cs G := Rep.frame.2.1 _ _ _ hL fun b hb => hm2 b (hlt b ((hF b).2 (Or.inr hb)))
      obtain ⟨m3, he3, hf3⟩ := freeF_spec.2.1 v n m2 cs G hn hG2
      have he' := he
      simp only [resizeF, hbb, if_neg h1, h2, if_false, Bool.false_eq_true] at he'
      rw [show m.alloc (.vec (List.replicate sz (.imm notype))) = m1 from rfl, he2] at he'
      simp only [Run.bind, he3] at he'
      have hzl := hlt z hFz
      split at he'
      · simp only [Run.ok.injEq, and_true] at he'
        subst he'
        rw [blk_upd, if_neg (by omega), blk_upd, if_neg (fun e : z = b => hnb (e ▸ hGi z hz)), hf3.gone z (hGi z hz)]
      · simp at he'

theorem read_frame {z : Loc} (h : m'.blk z.addr = m.blk z.addr) : m'.read z = m.read z := by
  unfold Mem.read; rw [h]

/-- A path leads to the same place when the blocks that the tree is in are unchanged. -/
theorem Rep.path_frame {q : List Sel} (hw : Wf m) (hr : m.read l = some c) (hr' : m'.read l = some c) (hg : Rep m g c G)
    (hl : ¬ G l.addr) (hsame : ∀ z, G z → m'.blk z = m.blk z) (hy : getAt q g = some y) (hres : resolve m q l = some s) :
    resolve m' q l = some s ∧ m'.read s = m.read s := by
  have hall : ∀ q1 q2 lq, q = q1 ++ q2 → resolve m q1 l = some lq → m'.read lq = m.read lq := by
    intro q1 q2 lq hq hlq
    rw [hq, getAt_append] at hy
    obtain ⟨y1, hy1, _⟩ := Option.bind_eq_some_iff.1 hy
    obtain ⟨l', _, _, hres', _, _, _, _, hin, _⟩ := Rep.at q1 hw hr hg hl hy1
    rw [hlq] at hres'
    injection hres' with hres'
    subst hres'
    rcases hin with rfl | h
    · rw [hr, hr']
    · exact read_frame (hsame _ h)
  refine ⟨resolve_keep q (fun q1 q2 lq c1 hq hlq hc1 => ?_) hres, hall q [] s (by simp) hres⟩
  have := hall q1 q2 lq hq hlq
  exact ⟨fun _ => by rw [this, hc1], c1, by rw [this, hc1]⟩

theorem sizeOf_getAt : ∀ (p : List Sel) {g y : GC}, getAt p g = some y → sizeOf y ≤ sizeOf g
  | [], g, y, h => by
    simp only [getAt, Option.some.injEq] at h
    rw [h]
  | .idx i :: p, g, y, h => by
    cases g <;> first | (simp [getAt] at h; done) | skip
    simp only [getAt] at h
    obtain ⟨x, hx, h⟩ := Option.bind_eq_some_iff.1 h
    have := sizeOf_getAt p h
    have := sizeOf_mem (List.mem_of_getElem? hx)
    rw [GC.vector.sizeOf_spec]; omega
  | .key i :: p, g, y, h => by
    cases g <;> first | (simp [getAt] at h; done) | skip
    simp only [getAt] at h
    obtain ⟨x, hx, h⟩ := Option.bind_eq_some_iff.1 h
    have := sizeOf_getAt p h
    have := List.sizeOf_lt_of_mem (mem_of_mfind hx)
    rw [Prod.mk.sizeOf_spec] at this
    rw [GC.map.sizeOf_spec]; omega

/-- `x = y` where `x` and `y`, in the element `i` of `x`, are vectors, and the element `i` of `y` is kept in the container
itself or its assignment to the element `i` of `x` reads what it released. -/
theorem fromF_hit (ip : Nat → Nat → Bool) {n i : Nat} {q : List Sel} {v w : List GC} {xi yi : GC}
    (hn : sizeOf v + sizeOf w < n) (hd : Root m d (vector v) (.box .VECTOR b) F) (hs : Root m s (vector w) c G)
    (hy : getAt (.idx i :: q) (vector v) = some (vector w)) (hres : resolve m (.idx i :: q) d = some s)
    (hxi : v[i]? = some xi) (hyi : w[i]? = some yi) (hty : immediate yi = true ∨ ∀ (m' : Mem) (d' s' : Loc) (c1 c2 : Cell) (F1 F2 : Addr → Prop), Root m' d' xi c1 F1 →
      Root m' s' yi c2 F2 → resolve m' (q ++ [.idx i]) d' = some s' → fromF ip n d' s' m' = .ub) :
    fromF ip (n + 1) d s m = .ub := by
  obtain ⟨a, cs', G', rfl, ha, hL', _, hG'⟩ := id hs.rep
  have hlen' := hL'.length
  have hiw : i < w.length := (List.getElem?_eq_some_iff.1 hyi).1
  obtain ⟨h32, hfw⟩ := Fits_vector hs.fit
  obtain ⟨_, hfv⟩ := Fits_vector hd.fit
  have hwv : ∀ x ∈ v, WF x := WFL_iff.1 hd.ok
  have hww : ∀ x ∈ w, WF x := WFL_iff.1 hs.ok
  have hfv : ∀ x ∈ v, Fits x := everyL_iff.1 hfv
  have hfw : ∀ x ∈ w, Fits x := everyL_iff.1 hfw
  simp only [getAt, hxi, Option.bind_some] at hy
  obtain ⟨ci, Gi, hri, hRi, _, hnb, _⟩ := hd.rep.elem hd.wf hxi
  rw [resolve, hd.rd] at hres
  simp only [hri] at hres
  obtain ⟨s', c2, G3, hres', hr3, hR3, hsub3, _⟩ := Rep.at q hd.wf hri hRi hnb hy
  rw [hres] at hres'
  injection hres' with hres'
  subst hres'
  rw [hs.rd] at hr3
  injection hr3 with hr3
  subst hr3
  have hsub : ∀ z, G z → Gi z := fun z hz => hsub3 z ((Rep.unique.1 _ _ _ _ hs.rep hR3 z).1 hz)
  have hGa : G a := by
    obtain ⟨a', hc, h⟩ := rep_vector_box hs.rep
    injection hc with _ hc
    subst hc; exact h
  have hpos : ∀ l : List GC, 0 < sizeOf l := fun l => by cases l <;> simp
  have hnt : sizeOf notype = 1 := rfl
  obtain ⟨m2, he2, h2⟩ := resizeF_around (ip := ip) (n := n) (sz := w.length) hd.wf hd.rep hxi hri hRi hiw (by omega)
    (fun x hx => copy_ok (hwv x hx) (hfv x hx))
    (fun x hx => fromF_spec ip n x notype (by have := sizeOf_mem hx; have := hpos w; omega) (hfv x hx) trivial rfl)
  have hkill : ∀ m', Wf m' → m'.read ⟨b, .idx i⟩ = some ci → (∀ z, Gi z → m'.blk z = m.blk z) → ¬ Gi b →
      fromF ip n ⟨b, .idx i⟩ ⟨a, .idx i⟩ m' = .ub ∨
      ∃ m'', fromF ip n ⟨b, .idx i⟩ ⟨a, .idx i⟩ m' = .ok m'' () ∧ ∀ z, Gi z → m''.blk z = none := by
    intro m' hw' hr' hsame _
    have hv' : Rep m' (vector w) (.box .VECTOR a) G := Rep.frame.1 _ _ _ hs.rep fun z hz => hsame z (hsub z hz)
    have hR' : Rep m' xi ci Gi := Rep.frame.1 _ _ _ hRi hsame
    obtain ⟨cy, Gy, hry, hyr, hGy, hGya, _⟩ := hv'.elem hw' hyi
    have hxm := List.mem_of_getElem? hxi
    have hym := List.mem_of_getElem? hyi
    rcases hty with hty | hty
    · exact fromF_over ip (by have := sizeOf_mem hxm; omega) hw' hr' hR' hnb hry hyr (fun z hz => hsub z (hGy z hz))
        (hsub a hGa) (.inl hty)
    · left
      obtain ⟨h1, h2⟩ := Rep.path_frame hd.wf hri hr' hRi hnb hsame hy hres
      refine hty m' _ _ ci cy Gi Gy ⟨hw', hr', hR', hnb, hwv _ hxm, hfv _ hxm⟩ ⟨hw', hry, hyr, hGya, hww _ hym, hfw _ hym⟩ ?_
      rw [resolve_append, h1, Option.bind_some, resolve, h2, hs.rd]
      simp only [hry, resolve]
  unfold fromF
  simp only [hs.rd, allocBox_keep hd.rd, Run.bind, ha]
  rw [hlen', u32_of_lt h32, if_pos (by omega), he2]
  simp only
  rcases h2 with ⟨_, h2⟩ | ⟨_, hw2, ⟨F2, _, hR2⟩, hr2, hsame⟩
  · obtain ⟨k, hk⟩ : ∃ k, w.length = k + 1 := ⟨w.length - 1, by omega⟩
    rw [hk, vecLoop, h2 a (hsub a hGa)]
  · have hiv := (List.getElem?_eq_some_iff.1 hxi).1
    refine vecLoop_replaced ip hsub hiw hs.rep hRi hkill i 0 w.length m2
      (resizeL notype w.length v) F2 hw2 (by omega) hiw hR2 ?_ hr2 hsame ?_
    · rw [resizeL, List.getElem?_append_left (by rw [List.length_take]; omega), List.getElem?_take_of_lt hiw]; exact hxi
    · intro j x y _ hx hy
      have hx := List.mem_of_getElem? hx
      have hy : y ∈ v ∨ y = notype := by
        have := List.mem_of_getElem? hy
        rw [resizeL, List.mem_append] at this
        rcases this with h | h
        · exact .inl (List.mem_of_mem_take h)
        · exact .inr (List.mem_replicate.1 h).2
      have hwfy : WF y ∧ Fits y ∧ sizeOf y < sizeOf v + 1 := by
        rcases hy with h | rfl
        · exact ⟨hwv y h, hfv y h, by have := sizeOf_mem h; omega⟩
        · exact ⟨trivial, rfl, by have := hpos v; omega⟩
      have := sizeOf_mem hx
      exact ⟨fromF_spec ip n x y (by omega) (hfw x hx) hwfy.1 hwfy.2.1, from_gc_ok x (hfw x hx) (hww x hx) y⟩

/-- The loop over the entries of a map that is in the entry `κ` of the destination. -/
theorem mapLoop_replaced (ip : Nat → Nat → Bool) {n i : Nat} {w : Entries} {κ : Bytes} {xκ yκ : GC} {cκ : Cell} {m0 : Mem}
    {Fs Gκ : Addr → Prop} (hnul : ∀ p ∈ w, cstr p.1 = p.1) (hsub : ∀ z, Fs z → Gκ z) (hyi : w[i]? = some (κ, yκ))
    (hv00 : Rep m0 (map w) (.box .MAP a) Fs) (hR0 : Rep m0 xκ cκ Gκ)
    (hkill : ∀ m, Wf m → m.read ⟨b, .key κ⟩ = some cκ → (∀ z, Gκ z → m.blk z = m0.blk z) → ¬ Gκ b →
      fromF ip n ⟨b, .key κ⟩ ⟨a, .key κ⟩ m = .ub ∨
      ∃ m', fromF ip n ⟨b, .key κ⟩ ⟨a, .key κ⟩ m = .ok m' () ∧ ∀ z, Gκ z → m'.blk z = none) :
    ∀ (t j k : Nat) (m : Mem) (e : Entries) (Fb : Addr → Prop), Wf m → j + t = i → t < k →
    Rep m (map e) (.box .MAP b) Fb → mfind κ e = some xκ →
    m.read ⟨b, .key κ⟩ = some cκ → (∀ z, Gκ z → m.blk z = m0.blk z) →
    (∀ p ∈ w.drop j, FromOk (fromF ip n) p.2 ((mfind p.1 e).getD notype) ∧
      ∃ r, from_gc p.2 ((mfind p.1 e).getD notype) = .ok r) →
    mapLoop (fromF ip n) b a j k m = .ub
  | t, j, 0, _, _, _, _, _, h, _, _, _, _, _ => by omega
  | t, j, n' + 1, m, e, Fb, hw, hji, htk, hb, hκ, hrκ, hsame0, hf => by
    have hv : Rep m (map w) (.box .MAP a) Fs := Rep.frame.1 _ _ _ hv00 fun z hz => hsame0 z (hsub z hz)
    have hRκ : Rep m xκ cκ Gκ := Rep.frame.1 _ _ _ hR0 hsame0
    have hiw : i < w.length := (List.getElem?_eq_some_iff.1 hyi).1
    have hvj : w[j]? = some w[j] := List.getElem?_eq_getElem (by omega)
    have hdr := drop_of_getElem? hvj
    have hmem : w[j] ∈ w := List.getElem_mem _
    generalize hp : w[j] = p at hvj hdr hmem
    obtain ⟨k, x⟩ := p
    have hck : cstr k = k := hnul _ hmem
    rw [hdr] at hf
    have hks : KeysSorted w := by obtain ⟨_, _, _, _, _, _, h, _⟩ := hv; exact h
    have hkx : mfind k w = some x := mfind_of_mem hks hmem
    have hFsa : Fs a := by
      obtain ⟨a', hc, h⟩ := rep_map_box hv
      injection hc with _ hc
      subst hc; exact h
    have hFbb : Fb b := by
      obtain ⟨a', hc, h⟩ := rep_map_box hb
      injection hc with _ hc
      subst hc; exact h
    have hGκb : ¬ Gκ b := by
      obtain ⟨c0, G0, hr0, hR0, _, hn0, _⟩ := hb.entry hw hκ
      rw [hrκ] at hr0
      injection hr0 with hr0
      subst hr0
      exact fun h => hn0 ((Rep.unique.1 _ _ _ _ hRκ hR0 b).1 h)
    obtain ⟨es, c0, ha, hes⟩ : ∃ es c, m.blk a = some (.map es) ∧ es[j]? = some (k, c) := by
      obtain ⟨a', es, _, hc, ha, hL, _⟩ := id hv
      injection hc with _ hc
      subst hc
      have := congrArg (·[j]?) hL.keys
      simp only [List.getElem?_map, hvj, Option.map_some] at this
      cases h : es[j]? with
      | none => rw [h] at this; simp at this
      | some q => rw [h] at this; simp at this; exact ⟨es, q.2, ha, by rw [h, ← this]⟩
    rw [mapLoop, ha]
    simp only [hes, hck]
    obtain ⟨m0', he0, hC0, hn0, hb0⟩ := keyAt_spec (k := k) hw hb
    have hw0 : Wf m0' := hC0.wf hw (hb.lt hw)
    obtain ⟨hrκ0, hsame⟩ := keyAt_keeps he0 hrκ
    have hRκ0 : Rep m0' xκ cκ Gκ := Rep.frame.1 _ _ _ hRκ fun z hz => hsame z fun e => hGκb (e ▸ hz)
    have hv0 : Rep m0' (map w) (.box .MAP a) Fs :=
      Rep.frame.1 _ _ _ hv fun z hz => hsame z fun e => hGκb (e ▸ hsub z hz)
    rw [he0]
    simp only [Run.bind]
    obtain ⟨cx, Gx, hrx, hxr, hGx, _, _⟩ := hv0.entry hw0 hkx
    cases t with
    | zero =>
      obtain rfl : j = i := by omega
      rw [hvj] at hyi
      injection hyi with hyi
      injection hyi with hk hx'
      subst hk; subst hx'
      rcases hkill m0' hw0 hrκ0 (fun z hz => by rw [hsame z fun e => hGκb (e ▸ hz)]; exact hsame0 z hz) hGκb with h | ⟨m', h, hg⟩
      · rw [h]
      · rw [h]
        simp only
        cases n' <;> rw [mapLoop, hg a (hsub a hFsa)]
    | succ t =>
      have hkκ : k ≠ κ := by
        intro e
        have h1 : w[i]? = some w[i] := List.getElem?_eq_getElem hiw
        have h2 := List.pairwise_iff_getElem.1 hks j i (by omega) hiw (by omega)
        rw [hp] at h2
        rw [h1] at hyi
        injection hyi with hyi
        rw [hyi, e] at h2
        exact strLT_irrefl _ h2
      have hκ0 : mfind κ (mset k ((mfind k e).getD notype) e) = some xκ := by rw [mfind_mset_other hkκ.symm]; exact hκ
      obtain ⟨cy, Gy, hry, hyr, hGy, hGyb, hput⟩ := hb0.entry hw0 (mfind_mset_same k _ e)
      have hdis : ∀ z, Gκ z → ¬ Gy z := by
        obtain ⟨b', es, G, hc, hbb, hL, _⟩ := id hb0
        injection hc with _ hc
        subst hc
        refine hL.two hkκ.symm hκ0 (mfind_mset_same k _ e) ?_ ?_ hRκ0 hyr
        · simpa only [Mem.read, hbb, Option.bind_some, Block.get] using hrκ0
        · simpa only [Mem.read, hbb, Option.bind_some, Block.get] using hry
      have hab : a ≠ b := fun e => hGκb (e ▸ hsub a hFsa)
      obtain ⟨hok, r, hr⟩ := hf (k, x) List.mem_cons_self
      obtain ⟨m1, c1, G1, he1, hu1, hr1⟩ := hok m0' ⟨b, .key k⟩ ⟨a, .key k⟩ cx cy Gx Gy r
        ⟨hw0, hrx, hxr, hry, hyr, fun z h1 h2 => hdis z (hsub z (hGx z h1)) h2,
          fun h => hGκb (hsub b (hGx b h)), hGyb, fun h => hdis a (hsub a hFsa) h,
          fun e => hab (by simpa using congrArg Loc.addr e)⟩ hr
      have hb1 := hput m1 r c1 G1 hu1 hr1
      rw [mset_mset] at hb1
      have hU1 : Chg m0' m1 Fb (fun x => (Fb x ∧ ¬ Gy x) ∨ G1 x) := hu1.chg hFbb hGy
      rw [he1]
      simp only
      have hks' : ∀ p ∈ w.drop (j + 1), p.1 ≠ k := by
        intro p hp' hpk
        have h2 : KeysSorted ((k, x) :: w.drop (j + 1)) := by
          rw [← hdr]; exact List.Pairwise.sublist (List.drop_sublist _ _) hks
        rw [KeysSorted, List.pairwise_cons] at h2
        have := h2.1 p hp'
        rw [hpk] at this
        exact strLT_irrefl _ this
      exact mapLoop_replaced ip hnul hsub hyi hv00 hR0 hkill t (j + 1) n' m1 (mset k r e) _ (hU1.wf hw0 (hb0.lt hw0)) (by omega)
        (by omega) hb1
        (by rw [mfind_mset_other hkκ.symm]; exact hκ)
        (hu1.read_ne hw0 hrκ0 (fun e => hkκ.symm (by simpa using congrArg Loc.slot e)) hGyb)
        (fun z hz => by
          rw [hu1.same z (fun e => hGκb (show Gκ b from (show z = b from e) ▸ hz)) (hdis z hz) (hRκ0.lt hw0 z hz), hsame z fun e => hGκb (e ▸ hz)]
          exact hsame0 z hz)
        (fun p hp' => by
          rw [mfind_mset_other (hks' p hp')]
          exact hf p (List.mem_cons_of_mem _ hp'))

/-- `x = y` where `x` and `y`, in the entry `κ` of `x`, are maps, and `y` has an entry `κ` that is kept in the container
itself or whose assignment to the entry `κ` of `x` reads what it released. -/
theorem fromF_hit_map (ip : Nat → Nat → Bool) {n : Nat} {e w : Entries} {κ : Bytes} {q : List Sel} {xκ yκ : GC}
    (hd : Root m d (map e) (.box .MAP b) F) (hs : Root m s (map w) c G)
    (hy : getAt (.key κ :: q) (map e) = some (map w)) (hres : resolve m (.key κ :: q) d = some s)
    (hn : sizeOf w + sizeOf e < n) (hκ : mfind κ e = some xκ) (hyκ : mfind κ w = some yκ)
    (hty : immediate yκ = true ∨ ∀ (m' : Mem) (d' s' : Loc) (c1 c2 : Cell) (F1 F2 : Addr → Prop), Root m' d' xκ c1 F1 →
      Root m' s' yκ c2 F2 → resolve m' (q ++ [.key κ]) d' = some s' → fromF ip n d' s' m' = .ub) : fromF ip (n + 1) d s m = .ub := by
  obtain ⟨a, hc, hGa⟩ := rep_map_box hs.rep
  subst hc
  obtain ⟨hnul, hfw⟩ := Fits_map_iff.1 hs.fit
  obtain ⟨_, hfe⟩ := Fits_map_iff.1 hd.fit
  simp only [getAt, hκ, Option.bind_some] at hy
  obtain ⟨cκ, Gκ, hrκ, hRκ, _, hnκ, _⟩ := hd.rep.entry hd.wf hκ
  rw [resolve, hd.rd] at hres
  simp only [hrκ] at hres
  obtain ⟨s', c2, G3, hres', hr3, hR3, hsub3, _⟩ := Rep.at q hd.wf hrκ hRκ hnκ hy
  rw [hres] at hres'
  injection hres' with hres'
  subst hres'
  rw [hs.rd] at hr3
  injection hr3 with hr3
  subst hr3
  have hsub : ∀ z, G z → Gκ z := fun z hz => hsub3 z ((Rep.unique.1 _ _ _ _ hs.rep hR3 z).1 hz)
  obtain ⟨i, hi⟩ := List.mem_iff_getElem?.1 (mem_of_mfind hyκ)
  have hiw : i < w.length := (List.getElem?_eq_some_iff.1 hi).1
  obtain ⟨a', es, G0, hc, ha, hL, _⟩ := id hs.rep
  injection hc with _ hc
  subst hc
  have hlen : es.length = w.length := by simpa using congrArg List.length hL.keys
  have hszx : sizeOf xκ < sizeOf e := by
    have := List.sizeOf_lt_of_mem (mem_of_mfind hκ)
    rw [Prod.mk.sizeOf_spec] at this
    omega
  have hkill : ∀ m', Wf m' → m'.read ⟨b, .key κ⟩ = some cκ → (∀ z, Gκ z → m'.blk z = m.blk z) → ¬ Gκ b →
      fromF ip n ⟨b, .key κ⟩ ⟨a, .key κ⟩ m' = .ub ∨
      ∃ m'', fromF ip n ⟨b, .key κ⟩ ⟨a, .key κ⟩ m' = .ok m'' () ∧ ∀ z, Gκ z → m''.blk z = none := by
    intro m' hw' hr' hsame _
    have hv' : Rep m' (map w) (.box .MAP a) G := Rep.frame.1 _ _ _ hs.rep fun z hz => hsame z (hsub z hz)
    have hR' : Rep m' xκ cκ Gκ := Rep.frame.1 _ _ _ hRκ hsame
    obtain ⟨cy, Gy, hry, hyr, hGy, hGya, _⟩ := hv'.entry hw' hyκ
    rcases hty with hty | hty
    · exact fromF_over ip (by omega) hw' hr' hR' hnκ hry hyr (fun z hz => hsub z (hGy z hz)) (hsub a hGa) (.inl hty)
    · left
      obtain ⟨h1, h2⟩ := Rep.path_frame hd.wf hrκ hr' hRκ hnκ hsame hy hres
      refine hty m' _ _ cκ cy Gκ Gy ⟨hw', hr', hR', hnκ, WFM_find hd.ok.2 hκ, hfe _ (mem_of_mfind hκ)⟩
        ⟨hw', hry, hyr, hGya, WFM_find hs.ok.2 hyκ, hfw _ (mem_of_mfind hyκ)⟩ ?_
      rw [resolve_append, h1, Option.bind_some, resolve, h2, hs.rd]
      simp only [hry, resolve]
  unfold fromF
  simp only [hs.rd, allocBox_keep hd.rd, Run.bind, ha, hlen]
  refine mapLoop_replaced ip (fun p hp => cstr_of_noNul (hnul p hp)) hsub hi hs.rep hRκ hkill i 0 w.length m e F hd.wf
    (by omega) hiw hd.rep hκ hrκ (fun _ _ => rfl) ?_
  · intro p hp
    rw [List.drop_zero] at hp
    have h1 : sizeOf p.2 < sizeOf w := by
      have := List.sizeOf_lt_of_mem hp
      obtain ⟨k, x⟩ := p
      rw [Prod.mk.sizeOf_spec] at this
      show sizeOf x < _
      omega
    refine ⟨?_, from_gc_ok p.2 (hfw p hp) (WFM_iff.1 hs.ok.2 p hp) _⟩
    cases hk : mfind p.1 e with
    | none =>
      have : 0 < sizeOf e := by cases e <;> simp
      exact fromF_spec ip n p.2 notype (by rw [GC.notype.sizeOf_spec]; omega) (hfw p hp) trivial rfl
    | some y =>
      have h2 : sizeOf y < sizeOf e := by
        have := List.sizeOf_lt_of_mem (mem_of_mfind hk)
        rw [Prod.mk.sizeOf_spec] at this
        omega
      exact fromF_spec ip n p.2 y (by omega) (hfw p hp) (WFM_find hd.ok.2 hk) (hfe _ (mem_of_mfind hk))

theorem fromF_dropped (ip : Nat → Nat → Bool) {n i : Nat} {q : List Sel} {v w : List GC} (hn : sizeOf v ≤ n)
    (hd : Root m d (vector v) (.box .VECTOR b) F) (hs : Root m s (vector w) c G)
    (hy : getAt (.idx i :: q) (vector v) = some (vector w)) (hres : resolve m (.idx i :: q) d = some s)
    (h0 : w ≠ []) (hwi : w.length ≤ i) : fromF ip (n + 1) d s m = .ub := by
  obtain ⟨a, cs', G', rfl, ha, hL', _, hG'⟩ := id hs.rep
  obtain ⟨b', cs, G0, hc, hb, hL, hnb, hF⟩ := id hd.rep
  injection hc with _ hc
  subst hc
  have hlen' := hL'.length
  have hlen := hL.length
  have hpos : 0 < w.length := List.length_pos_iff.2 h0
  have h32 := (Fits_vector hs.fit).1
  simp only [getAt] at hy
  cases hxi : v[i]? with
  | none => rw [hxi] at hy; simp at hy
  | some xi =>
  rw [hxi] at hy
  simp only [Option.bind_some] at hy
  have hiv := (List.getElem?_eq_some_iff.1 hxi).1
  -- the elements that go
  obtain ⟨G1, G2, hr1, hr2, hd12, hG12⟩ := hL.split w.length
  have hdrop : (v.drop w.length)[i - w.length]? = some xi := by
    rw [List.getElem?_drop, show w.length + (i - w.length) = i by omega]; exact hxi
  obtain ⟨ci, Gi, hci, hxr, hsub, _⟩ := hr2.focus hdrop
  rw [List.getElem?_drop, show w.length + (i - w.length) = i by omega] at hci
  have hri : m.read ⟨b, .idx i⟩ = some ci := by simp [Mem.read, hb, Block.get, hci]
  have hnG2 : ¬ G2 b := fun e => hnb ((hG12 b).2 (Or.inr e))
  rw [resolve, hd.rd] at hres
  simp only [hri] at hres
  obtain ⟨s', c2, G3, hres', hr3, hR3, hsub3, _⟩ := Rep.at q hd.wf hri hxr (fun e => hnG2 (hsub b e)) hy
  rw [hres] at hres'
  injection hres' with hres'
  subst hres'
  rw [hs.rd] at hr3
  injection hr3 with hr3
  subst hr3
  obtain ⟨a', hca, hG3a⟩ := rep_vector_box hR3
  injection hca with _ hca
  subst hca
  have hG2a : G2 a := hsub a (hsub3 a hG3a)
  have hsz : sizeOf (v.drop w.length) ≤ n := by
    have : ∀ (l : List GC) k, sizeOf (l.drop k) ≤ sizeOf l := by
      intro l
      induction l with
      | nil => intro k; simp
      | cons x xs ih =>
        intro k
        cases k with
        | zero => simp
        | succ k =>
          have := ih k
          rw [List.drop_succ_cons, List.cons.sizeOf_spec]; omega
    exact Nat.le_trans (this v w.length) hn
  obtain ⟨m1, he1, hf1⟩ := freeF_spec.2.1 _ n m _ G2 hsz hr2
  have hab : ¬ a = b := fun e => hnG2 (e ▸ hG2a)
  unfold fromF
  simp only [hs.rd, allocBox_keep hd.rd, Run.bind, ha]
  rw [hlen', u32_of_lt h32, if_pos hpos]
  simp only [resizeF, hb]
  rw [if_pos (by omega), he1]
  simp only [Run.bind]
  obtain ⟨k, hk⟩ : ∃ k, w.length = k + 1 := ⟨w.length - 1, by omega⟩
  rw [hk, vecLoop, blk_upd, if_neg hab, hf1.gone a hG2a]

end Heap
end GCV
