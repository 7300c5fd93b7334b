import Verif.Lemmas.HeapFuel
import Verif.Lemmas.HeapAlias

/-! # A container assigned to a place inside it -/

namespace GCV
namespace Heap
open GC

variable {m m' m1 m2 : Mem} {g x y y' : GC} {c c' cd : Cell} {F F' G G' H : Addr → Prop} {d s l : Loc} {a b : Addr}

/-- The place `s` holds the tree `g`, in the blocks `F`. -/
structure Root (m : Mem) (s : Loc) (g : GC) (c : Cell) (F : Addr → Prop) : Prop where
  wf : Wf m
  rd : m.read s = some c
  rep : Rep m g c F
  out : ¬ F s.addr
  ok : WF g
  fit : Fits g

/-- A change at the end of a path: the path still leads there, and the rest of the tree stays. -/
theorem Rep.at_path : ∀ (p : List Sel) {l l' : Loc} {g y y' : GC} {c c' c'' : Cell} {F G G' : Addr → Prop}, Wf m →
    m.read l = some c → Rep m g c F → ¬ F l.addr → getAt p g = some y → resolve m p l = some l' →
    m.read l' = some c' → Rep m y c' G → Upd m m' l' c'' G G' → Rep m' y' c'' G' →
    resolve m' p l = some l' ∧ (p ≠ [] → m'.read l = some c) ∧
      ∃ c1 F1, Upd m m' l c1 F F1 ∧ Rep m' (modAt p (fun _ => y') g) c1 F1
  | [], l, l', g, y, y', c, c', c'', F, G, G', hw, hr, hg, hl, hy, hres, hr', hy', hu, hyy => by
    simp only [getAt, Option.some.injEq] at hy
    subst hy
    injection hres with hres
    subst hres
    rw [hr] at hr'
    injection hr' with hr'
    subst hr'
    have : F = G := funext fun z => propext (Rep.unique.1 _ _ _ _ hg hy' z)
    subst this
    exact ⟨rfl, fun h => absurd rfl h, c'', G', hu, hyy⟩
  | .idx i :: p, l, l', g, y, y', c, c', c'', F, G, G', hw, hr, hg, hl, hy, hres, hr', hy', hu, hyy => by
    cases g with
    | vector v =>
      simp only [getAt] at hy
      cases hx : v[i]? with
      | none => rw [hx] at hy; simp at hy
      | some x =>
        rw [hx] at hy
        simp only [Option.bind_some] at hy
        obtain ⟨a, rfl, hFa⟩ := rep_vector_box hg
        obtain ⟨c1, G1, hr1, hx1, hsub1, hna1, hput1⟩ := hg.elem hw hx
        rw [resolve, hr] at hres
        simp only [hr1] at hres
        obtain ⟨h1, _, c2, F2, hu2, hr2⟩ := Rep.at_path p hw hr1 hx1 hna1 hy hres hr' hy' hu hyy
        have hul := hu2.lift hw hr hFa hl hsub1 fun _ => Iff.rfl
        have hrl := hul.read hr
        refine ⟨?_, fun _ => hrl, .box .VECTOR a, _, hul, ?_⟩
        · rw [resolve, hrl]
          simp only [hu2.read hr1]
          exact h1
        · simp only [modAt, hx]
          exact hput1 m' _ c2 F2 hu2 hr2
    | _ => simp [getAt] at hy
  | .key k :: p, l, l', g, y, y', c, c', c'', F, G, G', hw, hr, hg, hl, hy, hres, hr', hy', hu, hyy => by
    cases g with
    | map v =>
      simp only [getAt] at hy
      cases hx : mfind k v with
      | none => rw [hx] at hy; simp at hy
      | some x =>
        rw [hx] at hy
        simp only [Option.bind_some] at hy
        obtain ⟨a, rfl, hFa⟩ := rep_map_box hg
        obtain ⟨c1, G1, hr1, hx1, hsub1, hna1, hput1⟩ := hg.entry hw hx
        rw [resolve, hr] at hres
        simp only [hr1] at hres
        obtain ⟨h1, _, c2, F2, hu2, hr2⟩ := Rep.at_path p hw hr1 hx1 hna1 hy hres hr' hy' hu hyy
        have hul := hu2.lift hw hr hFa hl hsub1 fun _ => Iff.rfl
        have hrl := hul.read hr
        refine ⟨?_, fun _ => hrl, .box .MAP a, _, hul, ?_⟩
        · rw [resolve, hrl]
          simp only [hu2.read hr1]
          exact h1
        · simp only [modAt, hx]
          exact hput1 m' _ c2 F2 hu2 hr2
    | _ => simp [getAt] at hy

theorem Root.sub {q : List Sel} (h : Root m s g c F) (hy : getAt q g = some y) :
    ∃ d cd G, resolve m q s = some d ∧ Root m d y cd G := by
  obtain ⟨d, cd, G, hres, hr, hR, _, hn, _⟩ := Rep.at q h.wf h.rd h.rep h.out hy
  exact ⟨d, cd, G, hres, h.wf, hr, hR, hn, CApi.WF_getAt q h.ok hy, Fits_getAt q h.fit hy⟩

/-- The place that was changed holds the new tree. -/
theorem Root.upd (h : Root m d y cd G) (hu : Upd m m' d c' G G') (hR : Rep m' y' c' G') (hok : WF y') (hfit : Fits y') :
    Root m' d y' c' G' := by
  refine ⟨hu.wf h.wf (h.rep.lt h.wf), hu.read h.rd, hR, fun hg => ?_, hok, hfit⟩
  rcases hu.sub _ hg with h1 | h1
  · exact h.out h1
  · have := read_lt h.wf h.rd; omega

theorem Root.change {q : List Sel} (h : Root m s g c F) (hq : q ≠ []) (hy : getAt q g = some y)
    (hres : resolve m q s = some d) (hd : Root m d y cd G) (hu : Upd m m' d c' G G') (hR : Rep m' y' c' G') (hok : WF y')
    (hfit : Fits y') :
    resolve m' q s = some d ∧ (∃ F1, Root m' s (modAt q (fun _ => y') g) c F1) ∧
      getAt q (modAt q (fun _ => y') g) = some y' ∧ Root m' d y' c' G' := by
  obtain ⟨h1, h2, c1, F1, hu1, hR1⟩ := Rep.at_path q h.wf h.rd h.rep h.out hy hres hd.rd hd.rep hu hR
  have h3 := hu1.read h.rd
  rw [h2 hq] at h3
  injection h3 with h3
  subst h3
  exact ⟨h1, ⟨F1, h.upd hu1 hR1 (CApi.WF_modAt _ q h.ok fun _ _ => hok) (Fits_modAt _ q h.fit fun _ _ => hfit)⟩,
    getAt_modAt _ q hy, hd.upd hu hR hok hfit⟩

/-- Two places of one tree, neither inside the other. -/
theorem Root.pair {p q : List Sel} {lp lq : Loc} {cp cq : Cell} {Gp Gq : Addr → Prop} (h : Root m s g c F)
    (hx : getAt p g = some x) (hy : getAt q g = some y) (hpq : ¬ p <+: q) (hqp : ¬ q <+: p)
    (hrp : resolve m p s = some lp) (hrq : resolve m q s = some lq) (hp : Root m lp x cp Gp) (hq : Root m lq y cq Gq) :
    Pair m lq lp x y cp cq Gp Gq := by
  obtain ⟨h1, h2, h3, h4⟩ := Rep.apart p q h.wf h.rd h.rep h.out hx hy hpq hqp hrp hrq hp.rd hq.rd hp.rep hq.rep
  exact ⟨h.wf, hp.rd, hp.rep, hq.rd, hq.rep, h1, h2, hq.out, h3, h4⟩

/-- A copy between such places, with any amount of fuel. -/
theorem Root.copy (ip : Nat → Nat → Bool) (n : Nat) {lp lq : Loc} {cp cq : Cell} {Gp Gq : Addr → Prop}
    (hp : Root m lp x cp Gp) (hq : Root m lq y cq Gq) (P : Pair m lq lp x y cp cq Gp Gq) :
    fromF ip n lq lp m = .fuel ∨ ∃ r m' c' F', fromF ip n lq lp m = .ok m' () ∧ Upd m m' lq c' Gq F' ∧ Rep m' r c' F' ∧
      WF r ∧ Fits r := by
  obtain ⟨r, hr⟩ := from_gc_ok x hp.fit hp.ok y
  obtain ⟨m', c', F', h1, h2, h3⟩ := fromF_spec ip (n + (sizeOf x + sizeOf y + 1)) x y (by omega) hp.fit hq.ok hq.fit
    m lq lp cp cq Gp Gq r P hr
  rcases fromF_mono ip (show n ≤ n + (sizeOf x + sizeOf y + 1) by omega) lq lp m with h | h
  · exact .inl h
  · exact .inr ⟨r, m', c', F', by rw [h, h1], h2, h3, WF_from_gc x y hp.ok hq.ok r hr, Fits_from_gc x y hp.fit hq.fit r hr⟩

/-- The loop over the elements, when the destination is inside the element `i`. -/
theorem vecLoop_inside (ip : Nat → Nat → Bool) (n i : Nat) (q : List Sel)
    (ih : ∀ m s g c F q y d, Root m s g c F → q ≠ [] → getAt q g = some y → resolve m q s = some d → fromF ip n d s m = .fuel) :
    ∀ (t j k : Nat) (m : Mem) (g : GC) (F G : Addr → Prop) (w : List GC), j + t = i → t < k →
      Root m s g (.box .VECTOR a) F → getAt (.idx i :: q) g = some (vector w) → i < w.length →
      resolve m (.idx i :: q) s = some d → Root m d (vector w) (.box .VECTOR b) G →
      vecLoop (fromF ip n) b a j k m = .fuel
  | t, j, 0, m, g, F, G, w, hjt, htk, h, hw, hiw, hres, hd => by omega
  | t, j, k + 1, m, g, F, G, w, hjt, htk, h, hw, hiw, hres, hd => by
    cases g with
    | vector v =>
      have hw' := hw
      simp only [getAt] at hw'
      cases hvi : v[i]? with
      | none => rw [hvi] at hw'; simp at hw'
      | some xi =>
      rw [hvi] at hw'
      simp only [Option.bind_some] at hw'
      have hiv := (List.getElem?_eq_some_iff.1 hvi).1
      obtain ⟨a', cs, G0, hc, ha, hL, _, _⟩ := id h.rep
      injection hc with _ hc
      subst hc
      have hlen := hL.length
      rw [vecLoop, ha]
      simp only
      rw [if_pos (by omega)]
      -- the two elements
      have hjv : v[j]? = some v[j] := List.getElem?_eq_getElem (by omega)
      have hjw : w[j]? = some w[j] := List.getElem?_eq_getElem (by omega)
      have g1 : getAt [.idx j] (vector v) = some v[j] := by simp [getAt, hjv]
      have g2 : getAt [.idx j] (vector w) = some w[j] := by simp [getAt, hjw]
      obtain ⟨lp, cp, Gp, hrp, hp⟩ := h.sub g1
      obtain ⟨lq, cq, Gq, hrq, hq⟩ := hd.sub g2
      obtain ⟨_, _, hra, _⟩ := h.rep.elem h.wf hjv
      obtain ⟨_, _, hrb, _⟩ := hd.rep.elem hd.wf hjw
      have elp : (⟨a, .idx j⟩ : Loc) = lp := by
        rw [resolve, h.rd] at hrp
        simp only [hra, resolve, Option.some.injEq] at hrp
        exact hrp
      have elq : (⟨b, .idx j⟩ : Loc) = lq := by
        rw [resolve, hd.rd] at hrq
        simp only [hrb, resolve, Option.some.injEq] at hrq
        exact hrq
      have gq : getAt ((.idx i :: q) ++ [.idx j]) (vector v) = some w[j] := by
        rw [GC.getAt_append, hw]; exact g2
      have rq : resolve m ((.idx i :: q) ++ [.idx j]) s = some lq := by
        rw [resolve_append, hres]; exact hrq
      rw [elp, elq]
      cases t with
      | zero =>
        have hji : j = i := by omega
        subst hji
        have hx : v[j] = xi := by rw [hjv] at hvi; exact Option.some.inj hvi
        rw [hx] at hp
        have : fromF ip n lq lp m = .fuel := by
          refine ih m lp xi cp Gp (q ++ [.idx j]) w[j] lq hp (by simp) ?_ ?_
          · rw [GC.getAt_append, hw']; exact g2
          · rw [List.cons_append, resolve, h.rd] at rq
            simp only [hra] at rq
            rw [elp] at rq
            exact rq
        rw [this]; rfl
      | succ t =>
        have hne : j ≠ i := by omega
        have P := h.pair g1 gq (by simp [hne]) (by simp [hne.symm]) hrp rq hp hq
        rcases hp.copy ip n hq P with h1 | ⟨r, m', c', F', h1, h2, h3, h4, h5⟩
        · rw [h1]; rfl
        · rw [h1]
          simp only [Run.bind]
          obtain ⟨_, ⟨G1, hd1⟩, _, _⟩ := hd.change (by simp) g2 hrq hq h2 h3 h4 h5
          obtain ⟨_, _, c1, F1, hu1, hR1⟩ := Rep.at_path _ hd.wf hd.rd hd.rep hd.out g2 hrq hq.rd hq.rep h2 h3
          have e1 := hu1.read hd.rd
          rw [hd1.rd] at e1
          injection e1 with e1
          subst e1
          have em : modAt [.idx j] (fun _ => r) (vector w) = vector (w.set j r) := by simp [modAt, hjw]
          rw [em] at hR1 hd1
          obtain ⟨k1, ⟨F2, k2⟩, k3, k4⟩ := h.change (by simp) hw hres hd hu1 hR1 hd1.ok hd1.fit
          exact vecLoop_inside ip n i q ih t (j + 1) k m' _ F2 F1 (w.set j r) (by omega) (by omega) k2 k3
            (by simpa using hiw) k1 k4
    | _ => simp [getAt] at hw

theorem mset_fst {k : Bytes} {y y' : GC} : ∀ {e : Entries}, KeysSorted e → mfind k e = some y →
    (mset k y' e).map Prod.fst = e.map Prod.fst := by
  intro e hs h
  rw [mset_mput k y' hs h]
  clear hs h
  induction e with
  | nil => rfl
  | cons p r ih =>
    obtain ⟨k', z⟩ := p
    by_cases hk : k = k'
    · simp [mput, hk]
    · simp [mput, hk, ih]

/-- The loop over the entries, when the destination is inside the entry at `i`. -/
theorem mapLoop_inside (ip : Nat → Nat → Bool) (n i : Nat) (ki : Bytes) (q : List Sel)
    (ih : ∀ m s g c F q y d, Root m s g c F → q ≠ [] → getAt q g = some y → resolve m q s = some d → fromF ip n d s m = .fuel) :
    ∀ (t j k : Nat) (m : Mem) (e : Entries) (F G : Addr → Prop) (w : Entries), j + t = i → t < k →
      Root m s (map e) (.box .MAP a) F → (e.map Prod.fst)[i]? = some ki → getAt (.key ki :: q) (map e) = some (map w) →
      resolve m (.key ki :: q) s = some d → Root m d (map w) (.box .MAP b) G →
      mapLoop (fromF ip n) b a j k m = .fuel
  | t, j, 0, m, e, F, G, w, hjt, htk, h, hki, hw, hres, hd => by omega
  | t, j, k + 1, m, e, F, G, w, hjt, htk, h, hki, hw, hres, hd => by
    have hie : i < e.length := by
      have := (List.getElem?_eq_some_iff.1 hki).1
      simpa using this
    obtain ⟨a', es, G0, hc, ha, hL, hks, _, _⟩ := id h.rep
    injection hc with _ hc
    subst hc
    have hkeys := hL.keys
    have hlen : es.length = e.length := by simpa using congrArg List.length hkeys
    have hse : es[j]? = some es[j] := List.getElem?_eq_getElem (by omega)
    have hje : e[j]? = some e[j] := List.getElem?_eq_getElem (by omega)
    have hke : es[j].1 = e[j].1 := by
      have := congrArg (·[j]?) hkeys
      simp only [List.getElem?_map, hje, hse, Option.map_some, Option.some.injEq] at this
      exact this
    have hmem : e[j] ∈ e := List.getElem_mem (by omega)
    have hcs : cstr e[j].1 = e[j].1 := cstr_of_noNul ((Fits_map h.fit).1 _ hmem)
    rw [mapLoop, ha]
    simp only [hse]
    rw [hke, hcs]
    have hfj : mfind e[j].1 e = some e[j].2 := mfind_of_mem h.ok.1 hmem
    -- the entry of the destination
    obtain ⟨m1, he1, hC1, _, hR1⟩ := keyAt_spec (k := e[j].1) hd.wf hd.rep
    rw [he1]
    simp only [Run.bind]
    have hu1 := hC1.upd hd.wf hd.rd hd.out
    have hok1 : WF (map (mset e[j].1 ((mfind e[j].1 w).getD notype) w)) :=
      ⟨sorted_mset _ _ _ hd.ok.1, WFM_iff.2 fun p hp => by
        rcases mem_mset hp with rfl | hp
        · exact WF_valueAt (a := map w) hd.ok e[j].1
        · exact WFM_iff.1 hd.ok.2 p hp⟩
    have hfit1 : Fits (map (mset e[j].1 ((mfind e[j].1 w).getD notype) w)) := by
      rw [Fits_map_iff]
      have hfw := Fits_map_iff.1 hd.fit
      constructor
      · intro p hp
        rcases mem_mset hp with rfl | hp
        · exact (Fits_map h.fit).1 e[j] hmem
        · exact hfw.1 p hp
      · intro p hp
        rcases mem_mset hp with rfl | hp
        · cases hk : mfind e[j].1 w with
          | none => rfl
          | some z => exact hfw.2 _ (mem_of_mfind hk)
        · exact hfw.2 p hp
    obtain ⟨r1, ⟨F1, hs1⟩, hw1, hd1⟩ := h.change (by simp) hw hres hd hu1 hR1 hok1 hfit1
    have hmi : ∃ xi, mfind ki e = some xi := by
      simp only [getAt] at hw
      cases hx : mfind ki e with
      | none => rw [hx] at hw; simp at hw
      | some xi => exact ⟨xi, rfl⟩
    obtain ⟨xi, hxi⟩ := hmi
    have step : ∀ f, ∃ xi', modAt (.key ki :: q) f (map e) = map (mset ki xi' e) := fun f => by
      refine ⟨modAt q f xi, ?_⟩
      simp only [modAt, hxi]
    obtain ⟨xi1, hstep1⟩ := step fun _ => map (mset e[j].1 ((mfind e[j].1 w).getD notype) w)
    rw [hstep1] at hs1 hw1
    have hkeys1 : (mset ki xi1 e).map Prod.fst = e.map Prod.fst := mset_fst h.ok.1 hxi
    generalize hE : mset ki xi1 e = e1 at hs1 hw1 hkeys1
    generalize hW : mset e[j].1 ((mfind e[j].1 w).getD notype) w = w1 at hR1 hd1 hw1
    generalize hK : e[j].1 = kj at *
    have hwj : ∃ yj, mfind kj w1 = some yj := ⟨_, by rw [← hW]; exact mfind_mset_same _ _ _⟩
    obtain ⟨yj, hwj⟩ := hwj
    have hej : ∃ xj, mfind kj e1 = some xj := by
      by_cases hk : kj = ki
      · exact ⟨xi1, by rw [← hE, hk]; exact mfind_mset_same _ _ _⟩
      · exact ⟨_, by rw [← hE, mfind_mset_other hk]; exact hfj⟩
    obtain ⟨xj, hej⟩ := hej
    have g1 : getAt [.key kj] (map e1) = some xj := by simp [getAt, hej]
    have g2 : getAt [.key kj] (map w1) = some yj := by simp [getAt, hwj]
    obtain ⟨lp, cp, Gp, hrp, hp⟩ := hs1.sub g1
    obtain ⟨lq, cq, Gq, hrq, hq⟩ := hd1.sub g2
    obtain ⟨_, _, hra, _⟩ := hs1.rep.entry hs1.wf hej
    obtain ⟨_, _, hrb, _⟩ := hd1.rep.entry hd1.wf hwj
    have elp : (⟨a, .key kj⟩ : Loc) = lp := by
      rw [resolve, hs1.rd] at hrp
      simp only [hra, resolve, Option.some.injEq] at hrp
      exact hrp
    have elq : (⟨b, .key kj⟩ : Loc) = lq := by
      rw [resolve, hd1.rd] at hrq
      simp only [hrb, resolve, Option.some.injEq] at hrq
      exact hrq
    have gq : getAt ((.key ki :: q) ++ [.key kj]) (map e1) = some yj := by
      rw [GC.getAt_append, hw1]; exact g2
    have rq : resolve m1 ((.key ki :: q) ++ [.key kj]) s = some lq := by
      rw [resolve_append, r1]; exact hrq
    rw [elp, elq]
    cases t with
    | zero =>
      have hji : j = i := by omega
      have hkk : kj = ki := by
        subst hji
        rw [List.getElem?_map, hje, Option.map_some, hK] at hki
        exact Option.some.inj hki
      subst hkk
      have : fromF ip n lq lp m1 = .fuel := by
        refine ih m1 lp xj cp Gp (q ++ [.key kj]) yj lq hp (by simp) ?_ ?_
        · rw [List.cons_append] at gq
          simp only [getAt, hej, Option.bind_some] at gq
          exact gq
        · rw [List.cons_append, resolve, hs1.rd] at rq
          simp only [hra] at rq
          rw [elp] at rq
          exact rq
      rw [this]
    | succ t =>
      have hne : kj ≠ ki := by
        intro hkk
        have hlt : (⟨j, by omega⟩ : Fin e.length) < ⟨i, hie⟩ := by show j < i; omega
        have hsort := h.ok.1
        unfold KeysSorted at hsort
        have := List.pairwise_iff_getElem.1 hsort j i (by omega) hie (by omega)
        rw [List.getElem?_map, List.getElem?_eq_getElem hie, Option.map_some] at hki
        have hki := Option.some.inj hki
        rw [hki, hK, hkk] at this
        exact strLT_irrefl _ this
      have P := hs1.pair g1 gq (by simp [hne]) (by simp [hne.symm]) hrp rq hp hq
      rcases hp.copy ip n hq P with h1 | ⟨r, m', c', F', h1, h2, h3, h4, h5⟩
      · rw [h1]
      · rw [h1]
        simp only
        obtain ⟨_, ⟨G1, hd2⟩, _, _⟩ := hd1.change (by simp) g2 hrq hq h2 h3 h4 h5
        obtain ⟨_, _, c1, F2, hu2, hR2⟩ := Rep.at_path _ hd1.wf hd1.rd hd1.rep hd1.out g2 hrq hq.rd hq.rep h2 h3
        have e1' := hu2.read hd1.rd
        rw [hd2.rd] at e1'
        injection e1' with e1'
        subst e1'
        have em : modAt [.key kj] (fun _ => r) (map w1) = map (mset kj r w1) := by simp [modAt, hwj]
        rw [em] at hR2 hd2
        obtain ⟨k1, ⟨F3, k2⟩, k3, k4⟩ := hs1.change (by simp) hw1 r1 hd1 hu2 hR2 hd2.ok hd2.fit
        have hmi1 : ∃ z, mfind ki e1 = some z := ⟨xi1, by rw [← hE]; exact mfind_mset_same _ _ _⟩
        obtain ⟨z, hz⟩ := hmi1
        have hst : modAt (.key ki :: q) (fun _ => map (mset kj r w1)) (map e1) =
            map (mset ki (modAt q (fun _ => map (mset kj r w1)) z) e1) := by simp only [modAt, hz]
        rw [hst] at k2 k3
        exact mapLoop_inside ip n i ki q ih t (j + 1) k m' _ F3 F2 (mset kj r w1) (by omega) (by omega) k2
          (by rw [mset_fst hs1.ok.1 hz, hkeys1]; exact hki) k3 k1 k4

/-- A container assigned to a place inside it: the copy never comes to an end. -/
theorem fromF_into (ip : Nat → Nat → Bool) : ∀ (n : Nat) (m : Mem) (s : Loc) (g : GC) (c : Cell) (F : Addr → Prop)
    (q : List Sel) (y : GC) (d : Loc), Root m s g c F → q ≠ [] → getAt q g = some y → resolve m q s = some d →
    fromF ip n d s m = .fuel
  | 0, _, _, _, _, _, _, _, _, _, _, _, _ => rfl
  | n + 1, m, s, g, c, F, [], y, d, _, hq, _, _ => absurd rfl hq
  | n + 1, m, s, g, c, F, .idx i :: q, y, d, h, hq, hy, hres => by
    have ih := fromF_into ip n
    cases g with
    | vector v =>
      obtain ⟨a, rfl, _⟩ := rep_vector_box h.rep
      obtain ⟨d', cd, G, hres', hd⟩ := h.sub hy
      rw [hres] at hres'
      injection hres' with hres'
      subst hres'
      unfold fromF
      simp only [h.rd]
      -- d becomes a vector
      obtain ⟨m1, b, F1, he1, hu1, hR1⟩ := allocVector_spec hd.wf hd.rd hd.rep (n := n + sizeOf y) (by omega) hd.out
      rcases allocBox_mono (show n ≤ n + sizeOf y by omega) .VECTOR (.vec []) d m with e | e
      · rw [e]; rfl
      rw [e, he1]
      simp only [Run.bind]
      have hok1 : WF (vector y.oldVector) := WFL_iff.2 fun x hx => wf_oldVector hd.ok hx
      have hfit1 : Fits (vector y.oldVector) := by
        cases y <;> first | exact hd.fit | rfl
      obtain ⟨r1, ⟨F2, h1⟩, hy1, hd1⟩ := h.change (by simp) hy hres hd hu1 hR1 hok1 hfit1
      have hvi : ∃ xi, v[i]? = some xi := by
        simp only [getAt] at hy
        cases hx : v[i]? with
        | none => rw [hx] at hy; simp at hy
        | some xi => exact ⟨xi, rfl⟩
      obtain ⟨xi, hxi⟩ := hvi
      have hiv := (List.getElem?_eq_some_iff.1 hxi).1
      obtain ⟨v1, hv1, hlv1⟩ : ∃ v1, modAt (.idx i :: q) (fun _ => vector y.oldVector) (vector v) = vector v1 ∧
          v1.length = v.length := by
        refine ⟨_, by simp only [modAt, hxi]; rfl, by simp⟩
      rw [hv1] at h1 hy1
      obtain ⟨a', cs, G0, hc, ha, hL, _, _⟩ := id h1.rep
      injection hc with _ hc
      subst hc
      have hlen := hL.length
      have h32 := (Fits_vector h1.fit).1
      simp only [h1.rd, ha]
      rw [hlen, u32_of_lt h32, if_pos (by omega)]
      -- and is resized
      obtain ⟨m2, F3, he2, hC2, hR2⟩ := resizeF_spec (inPlace := ip) (sz := v1.length)
        (n := n + (sizeOf y + sizeOf y + 2)) (f := fromF ip (n + (sizeOf y + sizeOf y + 2))) hd1.wf hd1.rep
        (by have := sizeOf_oldVector_le y; omega)
        (fun x hx => copy_ok (wf_oldVector hd.ok hx) (fits_oldVector hd.fit hx))
        (fun x hx => by
          have := sizeOf_oldVector hx
          refine fromF_spec ip _ x notype ?_ (fits_oldVector hd.fit hx) trivial rfl
          rw [GC.notype.sizeOf_spec]
          omega)
      rcases resizeF_mono (ip := ip) (fromF_mono ip (show n ≤ n + (sizeOf y + sizeOf y + 2) by omega))
        (freeF_mono (show n ≤ n + (sizeOf y + sizeOf y + 2) by omega)) b v1.length m1 with e | e
      · rw [e]
      rw [e, he2]
      simp only
      have hlw : (resizeL notype v1.length y.oldVector).length = v1.length := by
        unfold resizeL; simp; omega
      have hmemw : ∀ x ∈ resizeL notype v1.length y.oldVector, x = notype ∨ x ∈ y.oldVector := fun x hx => by
        unfold resizeL at hx
        rcases List.mem_append.1 hx with hx | hx
        · exact .inr (List.mem_of_mem_take hx)
        · exact .inl (List.eq_of_mem_replicate hx)
      have hok2 : WF (vector (resizeL notype v1.length y.oldVector)) := WFL_iff.2 fun x hx => by
        rcases hmemw x hx with rfl | hx
        · trivial
        · exact wf_oldVector hd.ok hx
      have hfit2 : Fits (vector (resizeL notype v1.length y.oldVector)) := by
        rw [Fits_vector_iff]
        refine ⟨by rw [hlw]; exact h32, fun x hx => ?_⟩
        rcases hmemw x hx with rfl | hx
        · rfl
        · exact fits_oldVector hd.fit hx
      obtain ⟨r2, ⟨F4, h2⟩, hy2, hd2⟩ := h1.change (by simp) hy1 r1 hd1 (hC2.upd hd1.wf hd1.rd hd1.out) hR2 hok2 hfit2
      exact vecLoop_inside ip n i q ih i 0 v1.length m2 _ F4 F3 _ (by omega) (by omega) h2 hy2 (by omega) r2 hd2
    | _ => simp [getAt] at hy
  | n + 1, m, s, g, c, F, .key k :: q, y, d, h, hq, hy, hres => by
    have ih := fromF_into ip n
    cases g with
    | map v =>
      obtain ⟨a, rfl, _⟩ := rep_map_box h.rep
      obtain ⟨d', cd, G, hres', hd⟩ := h.sub hy
      rw [hres] at hres'
      injection hres' with hres'
      subst hres'
      unfold fromF
      simp only [h.rd]
      obtain ⟨m1, b, F1, he1, hu1, hR1⟩ := allocMap_spec hd.wf hd.rd hd.rep (n := n + sizeOf y) (by omega) hd.out
      rcases allocBox_mono (show n ≤ n + sizeOf y by omega) .MAP (.map []) d m with e | e
      · rw [e]; rfl
      rw [e, he1]
      simp only [Run.bind]
      have hfit1 : Fits (map y.oldMap) := by
        cases y <;> first | exact hd.fit | rfl
      obtain ⟨r1, ⟨F2, h1⟩, hy1, hd1⟩ := h.change (by simp) hy hres hd hu1 hR1 (WF_oldMap hd.ok) hfit1
      have hvi : ∃ xi, mfind k v = some xi := by
        simp only [getAt] at hy
        cases hx : mfind k v with
        | none => rw [hx] at hy; simp at hy
        | some xi => exact ⟨xi, rfl⟩
      obtain ⟨xi, hxi⟩ := hvi
      obtain ⟨v1, hv1, hk1⟩ : ∃ v1, modAt (.key k :: q) (fun _ => map y.oldMap) (map v) = map v1 ∧
          v1.map Prod.fst = v.map Prod.fst := by
        refine ⟨_, by simp only [modAt, hxi]; rfl, mset_fst h.ok.1 hxi⟩
      rw [hv1] at h1 hy1
      obtain ⟨a', es, G0, hc, ha, hL, _, _⟩ := id h1.rep
      injection hc with _ hc
      subst hc
      have hlen : es.length = v1.length := by simpa using congrArg List.length hL.keys
      simp only [h1.rd, ha]
      have hkm : k ∈ v1.map Prod.fst := by
        rw [hk1]
        exact List.mem_map.2 ⟨_, mem_of_mfind hxi, rfl⟩
      obtain ⟨i, hi⟩ := List.mem_iff_getElem?.1 hkm
      have hilt := (List.getElem?_eq_some_iff.1 hi).1
      rw [List.length_map] at hilt
      exact mapLoop_inside ip n i k q ih i 0 es.length m1 v1 F2 F1 y.oldMap (by omega) (by omega) h1 hi hy1 r1 hd1
    | _ => simp [getAt] at hy

end Heap
end GCV
