import Verif.Lemmas.HeapIdle
import Verif.Lemmas.HeapFits
import Verif.Lemmas.History

/-! # A vector assigned from its own element, again and again inwards -/

namespace GCV
namespace Heap
open GC

variable {m m' m1 m2 : Mem} {g x y : GC} {c c' : Cell} {F F' G H : Addr → Prop} {d s l : Loc} {a b : Addr}

/-- Turns of the loop over a vector in the element `i` of the destination that do not come to `i`. -/
theorem vecLoop_pass {f : Loc → Loc → Mem → Run Unit} {i : Nat} {w : List GC} {xi : GC} {ci : Cell}
    {Fs Gi : Addr → Prop} (hsub : ∀ z, Fs z → Gi z) :
    ∀ (k j : Nat) (m : Mem) (v : List GC) (Fb : Addr → Prop), Wf m →
    Rep m (vector w) (.box .VECTOR a) Fs → Rep m (vector v) (.box .VECTOR b) Fb → v[i]? = some xi →
    m.read ⟨b, .idx i⟩ = some ci → Rep m xi ci Gi → (i < j ∨ j + k ≤ i) → w.length ≤ v.length →
    (∀ j' x y, j ≤ j' → w[j']? = some x → v[j']? = some y → FromOk f x y ∧ ∃ r, from_gc x y = .ok r) →
    ∃ m' v' F', (∀ k2, vecLoop f b a j (k + k2) m = vecLoop f b a (j + k) k2 m') ∧ Chg m m' Fb F' ∧
      Rep m' (vector v') (.box .VECTOR b) F' ∧ v'.length = v.length ∧ m'.read ⟨b, .idx i⟩ = some ci ∧
      (∀ z, Gi z → m'.blk z = m.blk z) ∧
      ∀ t, v'[t]? = if j ≤ t ∧ t < j + k ∧ t < w.length then assigned w v t else v[t]?
  | 0, j, m, v, Fb, hw, hv, hb, hx, hri, hRi, hij, hlen, hf => by
    refine ⟨m, v, Fb, fun k2 => by rw [Nat.zero_add, Nat.add_zero], Chg.refl hw, hb, rfl, hri, fun _ _ => rfl, fun t => ?_⟩
    rw [if_neg (by omega)]
  | k + 1, j, m, v, Fb, hw, hv, hb, hx, hri, hRi, hij, hlen, hf => by
    obtain ⟨cs, ha, hcs⟩ : ∃ cs, m.blk a = some (.vec cs) ∧ cs.length = w.length := by
      obtain ⟨a', cs, _, hc, ha, hL, _⟩ := id hv
      injection hc with _ hc
      subst hc
      exact ⟨cs, ha, hL.length⟩
    by_cases hj : j < w.length
    · have hwj : w[j]? = some w[j] := List.getElem?_eq_getElem hj
      have hvj : v[j]? = some v[j] := List.getElem?_eq_getElem (by omega)
      have hFsa : Fs a := by
        obtain ⟨a', hc, h⟩ := rep_vector_box hv
        injection hc with _ hc
        subst hc; exact h
      have hFbb : Fb b := by
        obtain ⟨a', hc, h⟩ := rep_vector_box hb
        injection hc with _ hc
        subst hc; exact h
      have hGib : ¬ Gi b := by
        obtain ⟨c0, G0, hr0, hR0, _, hn0, _⟩ := hb.elem hw hx
        rw [hri] at hr0
        injection hr0 with hr0
        subst hr0
        exact fun h => hn0 ((Rep.unique.1 _ _ _ _ hRi hR0 b).1 h)
      have hji : j ≠ i := by omega
      obtain ⟨hok, r, hr⟩ := hf j _ _ (Nat.le_refl _) hwj hvj
      obtain ⟨cx, Gx, hrx, hxr, hGx, _, _⟩ := hv.elem hw hwj
      obtain ⟨cy, Gy, hry, hyr, hGy, hGyb, hput⟩ := hb.elem hw hvj
      have hdis : ∀ z, Gi z → ¬ Gy z := by
        obtain ⟨b', es, G, hc, hbb, hL, _⟩ := id hb
        injection hc with _ hc
        subst hc
        refine hL.two (Ne.symm hji) hx hvj ?_ ?_ hRi hyr
        · simpa only [Mem.read, hbb, Option.bind_some, Block.get] using hri
        · simpa only [Mem.read, hbb, Option.bind_some, Block.get] using hry
      have hab : a ≠ b := fun e => hGib (e ▸ hsub a hFsa)
      obtain ⟨m1, c1, G1, he1, hu1, hr1⟩ := hok m ⟨b, .idx j⟩ ⟨a, .idx j⟩ cx cy Gx Gy r
        ⟨hw, hrx, hxr, hry, hyr, fun z h1 h2 => hdis z (hsub z (hGx z h1)) h2,
          fun h => hGib (hsub b (hGx b h)), hGyb, fun h => hdis a (hsub a hFsa) h,
          fun e => hab (by simpa using congrArg Loc.addr e)⟩ hr
      have hU1 : Chg m m1 Fb (fun x => (Fb x ∧ ¬ Gy x) ∨ G1 x) := hu1.chg hFbb hGy
      obtain ⟨m2, v2, F2, he2, hU2, hr2, hl2, hri2, hs2, ht2⟩ := vecLoop_pass hsub k (j + 1) m1 (v.set j r) _
        (hU1.wf hw (hb.lt hw))
        (hu1.other hw hv (fun h => hGib (hsub b h)) fun z hz => hdis z (hsub z hz))
        (hput m1 r c1 G1 hu1 hr1)
        (by rw [List.getElem?_set_ne hji]; exact hx)
        (hu1.read_ne hw hri (fun e => hji (by have := congrArg Loc.slot e; simp at this; omega)) hGyb)
        (hu1.other hw hRi hGib hdis) (by omega) (by rw [List.length_set]; exact hlen)
        (fun j' x y hj hx hy => hf j' x y (by omega) hx (by rwa [List.getElem?_set_ne (by omega)] at hy))
      refine ⟨m2, v2, F2, fun k2 => ?_, hU1.trans hU2 (hb.lt hw), hr2, by rw [hl2, List.length_set], hri2, fun z hz => ?_,
        fun t => ?_⟩
      · rw [show k + 1 + k2 = (k + k2) + 1 by omega, vecLoop, ha]
        simp only [if_pos (show j < cs.length by omega), he1, Run.bind, he2]
        rw [show j + 1 + k = j + (k + 1) by omega]
      · rw [hs2 z hz, hu1.same z (fun e => hGib (show Gi b from (show z = b from e) ▸ hz)) (hdis z hz) (hRi.lt hw z hz)]
      · rw [ht2 t]
        by_cases htj : t = j
        · subst htj
          rw [if_neg (by omega), if_pos ⟨by omega, by omega, hj⟩, List.getElem?_set_self (by omega)]
          simp only [assigned, hwj, hvj, Option.bind_some, hr, result]
        · simp only [assigned, List.getElem?_set_ne (Ne.symm htj)]
          by_cases h : j ≤ t ∧ t < j + (k + 1) ∧ t < w.length
          · rw [if_pos h, if_pos (by omega)]
          · rw [if_neg h, if_neg (by omega)]
    · refine ⟨m, v, Fb, fun k2 => ?_, Chg.refl hw, hb, rfl, hri, fun _ _ => rfl, fun t => ?_⟩
      · rw [show k + 1 + k2 = (k + k2) + 1 by omega, vecLoop, ha]
        simp only [if_neg (show ¬ j < cs.length by omega)]
        cases k2 with
        | zero => rw [vecLoop, ha]
        | succ k2 => rw [vecLoop, ha]; simp only [if_neg (show ¬ j + (k + 1) < cs.length by omega)]
      · rw [if_neg (by omega)]

theorem assigned_good {w v : List GC} {t : Nat} (hw : ∀ x ∈ w, WF x ∧ Fits x) (hv : ∀ x ∈ v, WF x ∧ Fits x)
    (h : assigned w v t = some x) : WF x ∧ Fits x := by
  unfold assigned at h
  obtain ⟨p, hp, h⟩ := Option.bind_eq_some_iff.1 h
  obtain ⟨q, hq, h⟩ := Option.bind_eq_some_iff.1 h
  have hp := hw p (List.mem_of_getElem? hp)
  have hq := hv q (List.mem_of_getElem? hq)
  cases hr : from_gc p q with
  | ok z =>
    rw [hr] at h
    simp only [result, Option.some.injEq] at h
    subst h
    exact ⟨WF_from_gc _ _ hp.1 hq.1 _ hr, Fits_from_gc _ _ hp.2 hq.2 _ hr⟩
  | throw => rw [hr] at h; simp [result] at h
  | ub => rw [hr] at h; simp [result] at h
  | diverge => rw [hr] at h; simp [result] at h

theorem good_vector {v : List GC} (hl : v.length < 2 ^ 32) (h : ∀ x ∈ v, WF x ∧ Fits x) : WF (vector v) ∧ Fits (vector v) := by
  refine ⟨WFL_iff.2 fun x hx => (h x hx).1, ?_⟩
  have : everyL fitsNode v = true := everyL_iff.2 fun x hx => (h x hx).2
  have hl : v.length < 4294967296 := hl
  simp [Fits, every, fitsNode, this, hl]

theorem good_elems {v : List GC} (h : WF (vector v) ∧ Fits (vector v)) : v.length < 2 ^ 32 ∧ ∀ x ∈ v, WF x ∧ Fits x :=
  ⟨(Fits_vector h.2).1, fun x hx => ⟨WFL_iff.1 h.1 x hx, everyL_iff.1 (Fits_vector h.2).2 x hx⟩⟩

/-- The length does not grow, and the elements stay well formed. -/
theorem Sinks.good {i : Nat} {v r : List GC} (h : Sinks i v r) : r.length ≤ v.length ∧ i < r.length ∧
    (v.length < 2 ^ 32 ∧ (∀ x ∈ v, WF x ∧ Fits x) → ∀ x ∈ r, WF x ∧ Fits x) := by
  induction h with
  | stop h => exact ⟨Nat.le_refl _, (List.getElem?_eq_some_iff.1 h).1, fun h => h.2⟩
  | @step v w w' r hv hi hl hs hr h1 h2 h3 h4 ih =>
    refine ⟨by omega, by omega, fun hg x hx => ?_⟩
    have hgw := good_elems (hg.2 _ (List.mem_of_getElem? hv))
    have hgw' := ih.2.2 hgw
    obtain ⟨t, ht⟩ := List.mem_iff_getElem?.1 hx
    have htl := (List.getElem?_eq_some_iff.1 ht).1
    by_cases hti : t < i
    · rw [h1 t hti] at ht
      exact assigned_good hgw.2 hg.2 ht
    · by_cases hti2 : t = i
      · subst hti2
        rw [h2] at ht
        injection ht with ht
        subst ht
        exact good_vector (by omega) hgw'
      · by_cases ht3 : t < w'.length
        · rw [h3 t (by omega) ht3] at ht
          exact assigned_good hgw' hg.2 ht
        · rw [h4 t (by omega) (by omega) (by omega)] at ht
          exact hg.2 _ (List.mem_of_getElem? ht)

/-- The assignment `x = x[i]`. -/
theorem fromF_sinks (ip : Nat → Nat → Bool) {i : Nat} {v r : List GC} (h : Sinks i v r) :
    ∃ N, ∀ n, N ≤ n → ∀ {m : Mem} {d : Loc} {b : Addr} {F : Addr → Prop}, Root m d (vector v) (.box .VECTOR b) F →
      ∃ m' F', fromF ip n d ⟨b, .idx i⟩ m = .ok m' () ∧ Upd m m' d (.box .VECTOR b) F F' ∧
        Rep m' (vector r) (.box .VECTOR b) F' := by
  induction h with
  | @stop v h =>
    refine ⟨1, fun n hn m d b F hd => ?_⟩
    obtain ⟨k, rfl⟩ : ∃ k, n = k + 1 := ⟨n - 1, by omega⟩
    obtain ⟨ci, Gi, hri, hRi, _⟩ := hd.rep.elem hd.wf h
    exact ⟨m, F, fromF_idle (x := vector v) (y := vector []) ip k ⟨.inl rfl, rfl⟩ hri hRi hd.rd hd.rep, Upd.refl hd.wf hd.rd, hd.rep⟩
  | @step v w w' r hxi hiw hlen hs hrl h1 h2 h3 h4 ih =>
    obtain ⟨N, ih⟩ := ih
    refine ⟨max N (sizeOf v + sizeOf w + sizeOf w' + 1) + 1, fun n hn m d b F hd => ?_⟩
    obtain ⟨n, rfl⟩ : ∃ k, n = k + 1 := ⟨n - 1, by omega⟩
    have hgv := good_elems ⟨hd.ok, hd.fit⟩
    have hgx := hgv.2 _ (List.mem_of_getElem? hxi)
    have hgw := good_elems hgx
    obtain ⟨hl', hi', hgw'⟩ := hs.good
    have hgw' := hgw' hgw
    have hpos : ∀ l : List GC, 0 < sizeOf l := fun l => by cases l <;> simp
    have hnt : sizeOf notype = 1 := rfl
    obtain ⟨ci, Gi, hri, hRi, _, hnb, _⟩ := hd.rep.elem hd.wf hxi
    obtain ⟨a, rfl, hGa⟩ := rep_vector_box hRi
    obtain ⟨cs, ha, hcs⟩ : ∃ cs, m.blk a = some (.vec cs) ∧ cs.length = w.length := by
      obtain ⟨a', cs, _, hc, ha, hL, _⟩ := id hRi
      injection hc with _ hc
      subst hc
      exact ⟨cs, ha, hL.length⟩
    obtain ⟨m2, he2, hq⟩ := resizeF_around (ip := ip) (n := n) (sz := w.length) hd.wf hd.rep hxi hri hRi hiw (by omega)
      (fun x hx => copy_ok (hgv.2 x hx).1 (hgv.2 x hx).2)
      (fun x hx => fromF_spec ip n x notype (by have := sizeOf_mem hx; have := hpos w; omega) (hgv.2 x hx).2 trivial rfl)
    rcases hq with ⟨⟨h, _⟩, _⟩ | ⟨_, hw2, ⟨F2, hC2, hR2⟩, hr2, hsame⟩
    · omega
    have hv2 : resizeL notype w.length v = v.take w.length := by
      rw [resizeL, Nat.sub_eq_zero_of_le hlen]; simp
    rw [hv2] at hR2
    have hget : ∀ t, t < w.length → (v.take w.length)[t]? = v[t]? := fun t ht => List.getElem?_take_of_lt ht
    have hRi2 : Rep m2 (vector w) (.box .VECTOR a) Gi := Rep.frame.1 _ _ _ hRi hsame
    -- the turns before `i`
    obtain ⟨m3, v3, F3, he3, hC3, hR3, hl3, hr3, hs3, ht3⟩ := vecLoop_pass (f := fromF ip n) (fun z hz => hz) i 0 m2
      (v.take w.length) F2 hw2 hRi2 hR2 (by rw [hget i hiw]; exact hxi) hr2 hRi2 (.inr (by omega))
      (by rw [List.length_take]; omega)
      (fun j' x y _ hx hy => by
        have hx := List.mem_of_getElem? hx
        have hy := List.mem_of_mem_take (List.mem_of_getElem? hy)
        have := sizeOf_mem hx
        have := sizeOf_mem hy
        exact ⟨fromF_spec ip n x y (by omega) (hgw.2 x hx).2 (hgv.2 y hy).1 (hgv.2 y hy).2,
          from_gc_ok x (hgw.2 x hx).2 (hgw.2 x hx).1 y⟩)
    have hw3 := hC3.wf hw2 (hR2.lt hw2)
    have hRi3 : Rep m3 (vector w) (.box .VECTOR a) Gi := Rep.frame.1 _ _ _ hRi2 hs3
    have hlt : (v.take w.length).length = w.length := by rw [List.length_take]; omega
    have hv3 : v3[i]? = some (vector w) := by rw [ht3 i, if_neg (by omega), hget i hiw]; exact hxi
    -- the turn `i`
    obtain ⟨m4, Gi4, he4, hu4, hRi4⟩ := ih n (by omega) ⟨hw3, hr3, hRi3, hnb, hgx.1, hgx.2⟩
    obtain ⟨c0, G0, hr0, hR0, hG0, hn0, hput⟩ := hR3.elem hw3 hv3
    rw [hr3] at hr0
    injection hr0 with hr0
    subst hr0
    have hGG : ∀ z, Gi z ↔ G0 z := Rep.unique.1 _ _ _ _ hRi3 hR0
    obtain rfl : Gi = G0 := funext fun z => propext (hGG z)
    have hFb3 : F3 b := by
      obtain ⟨a', hc, h⟩ := rep_vector_box hR3
      injection hc with _ hc
      subst hc; exact h
    have hR4 := hput m4 _ _ _ hu4 hRi4
    have hC4 : Chg m3 m4 F3 _ := hu4.chg hFb3 hG0
    have hw4 := hC4.wf hw3 (hR3.lt hw3)
    have hr4 := hu4.read hr3
    have hi3 : i < v3.length := (List.getElem?_eq_some_iff.1 hv3).1
    -- the turns after `i`
    have hv4 : ∀ t, i < t → t < w.length → (v3.set i (vector w'))[t]? = v[t]? := fun t ht htw => by
      rw [List.getElem?_set_ne (by omega), ht3 t, if_neg (by omega), hget t htw]
    obtain ⟨m5, v5, F5, he5, hC5, hR5, hl5, hr5, hs5, ht5⟩ := vecLoop_pass (f := fromF ip n) (fun z hz => hz)
      (w.length - (i + 1)) (i + 1) m4 (v3.set i (vector w')) _ hw4 hRi4 hR4 (List.getElem?_set_self hi3) hr4 hRi4
      (.inl (by omega)) (by rw [List.length_set, hl3, hlt]; exact hl')
      (fun j' x y hj hx hy => by
        have hjl := (List.getElem?_eq_some_iff.1 hx).1
        rw [hv4 j' (by omega) (by omega)] at hy
        have hx := List.mem_of_getElem? hx
        have hy := List.mem_of_getElem? hy
        have := sizeOf_mem hx
        have := sizeOf_mem hy
        exact ⟨fromF_spec ip n x y (by omega) (hgw' x hx).2 (hgv.2 y hy).1 (hgv.2 y hy).2,
          from_gc_ok x (hgw' x hx).2 (hgw' x hx).1 y⟩)
    have hRi5 : Rep m5 (vector w') (.box .VECTOR a) Gi4 := Rep.frame.1 _ _ _ hRi4 hs5
    have hv5 : v5 = r := by
      refine List.ext_getElem? fun t => ?_
      by_cases htw : t < w.length
      · rw [ht5 t]
        by_cases hti : t < i
        · rw [if_neg (by omega), List.getElem?_set_ne (by omega), ht3 t, if_pos ⟨by omega, by omega, htw⟩, h1 t hti]
          simp only [assigned, hget t htw]
        · by_cases hti2 : t = i
          · subst hti2
            rw [if_neg (by omega), List.getElem?_set_self hi3, h2]
          · by_cases htw' : t < w'.length
            · rw [if_pos ⟨by omega, by omega, htw'⟩, h3 t (by omega) htw']
              simp only [assigned, hv4 t (by omega) htw]
            · rw [if_neg (by omega), hv4 t (by omega) htw, h4 t (by omega) (by omega) htw]
      · rw [List.getElem?_eq_none (by rw [hl5, List.length_set, hl3, hlt]; omega), List.getElem?_eq_none (by omega)]
    subst hv5
    refine ⟨m5, F5, ?_, ?_, hR5⟩
    · unfold fromF
      simp only [hri, allocBox_keep hd.rd, Run.bind, ha]
      rw [hcs, u32_of_lt hgw.1, if_pos (by omega), he2]
      simp only
      have e1 := he3 (w.length - i)
      rw [show i + (w.length - i) = w.length by omega, Nat.zero_add] at e1
      rw [e1, show w.length - i = (w.length - (i + 1)) + 1 by omega, vecLoop]
      obtain ⟨cs3, ha3, hcs3⟩ : ∃ cs, m3.blk a = some (.vec cs) ∧ cs.length = w.length := by
        obtain ⟨a', cs, _, hc, ha, hL, _⟩ := id hRi3
        injection hc with _ hc
        subst hc
        exact ⟨cs, ha, hL.length⟩
      simp only [ha3, if_pos (show i < cs3.length by omega), he4, Run.bind]
      rw [← Nat.add_zero (w.length - (i + 1)), he5 0, vecLoop]
      obtain ⟨a', cs5, _, hc, ha5, _⟩ := id hRi5
      injection hc with _ hc
      subst hc
      rw [ha5]
    · have hlm := hd.rep.lt hd.wf
      exact (hC2.trans (hC3.trans (hC4.trans hC5 (hR3.lt hw3)) (hR2.lt hw2)) hlm).upd hd.wf hd.rd hd.out

end Heap
end GCV
