import Verif.Lemmas.HeapCopy
import Verif.Lemmas.CInterface

/-! # Steps of programs in memory -/

namespace GCV
namespace Heap
open GC

variable {m m' m1 m2 : Mem} {g x y : GC} {c c' : Cell} {F F' G H : Addr → Prop} {d s l : Loc} {a b : Addr}

/-! ## Places -/

theorem Rep.unique : (∀ g : GC, ∀ c F F', Rep m g c F → Rep m g c F' → ∀ b, F b ↔ F' b) ∧
    (∀ v : List GC, ∀ cs F F', RepL m v cs F → RepL m v cs F' → ∀ b, F b ↔ F' b) ∧
    (∀ e : Entries, ∀ es F F', RepM m e es F → RepM m e es F' → ∀ b, F b ↔ F' b) := by
  apply GC.induct
  · intro g h1 h2 c F F' h h' b
    rw [rep_leaf h1 h2] at h h'
    by_cases hi : immediate g = true
    · rw [if_pos hi] at h h'
      exact ⟨fun e => absurd e (h.2 b), fun e => absurd e (h'.2 b)⟩
    · rw [if_neg hi] at h h'
      obtain ⟨a, hc, _, hF⟩ := h
      obtain ⟨a', hc', _, hF'⟩ := h'
      rw [hc] at hc'
      injection hc' with _ hc'
      rw [hF, hF', hc']
  · intro v ih c F F' h h' b
    obtain ⟨a, cs, G, hc, ha, hG, _, hF⟩ := h
    obtain ⟨a', cs', G', hc', ha', hG', _, hF'⟩ := h'
    rw [hc] at hc'
    injection hc' with _ hc'
    subst hc'
    rw [ha] at ha'
    injection ha' with ha'
    injection ha' with ha'
    subst ha'
    rw [hF, hF', ih cs G G' hG hG' b]
  · intro v ih c F F' h h' b
    obtain ⟨a, cs, G, hc, ha, hG, _, _, hF⟩ := h
    obtain ⟨a', cs', G', hc', ha', hG', _, _, hF'⟩ := h'
    rw [hc] at hc'
    injection hc' with _ hc'
    subst hc'
    rw [ha] at ha'
    injection ha' with ha'
    injection ha' with ha'
    subst ha'
    rw [hF, hF', ih cs G G' hG hG' b]
  · intro cs F F' h h' b
    exact ⟨fun e => absurd e (h.2 b), fun e => absurd e (h'.2 b)⟩
  · intro x xs ihx ihs cs F F' h h' b
    obtain ⟨c, cs1, G, H, rfl, hx, hs, _, hF⟩ := h
    obtain ⟨c', cs1', G', H', hc, hx', hs', _, hF'⟩ := h'
    injection hc with h1 h2
    subst h1; subst h2
    rw [hF, hF', ihx _ _ _ hx hx' b, ihs _ _ _ hs hs' b]
  · intro cs F F' h h' b
    exact ⟨fun e => absurd e (h.2 b), fun e => absurd e (h'.2 b)⟩
  · intro k x xs ihx ihs cs F F' h h' b
    obtain ⟨c, cs1, G, H, rfl, hx, hs, _, hF⟩ := h
    obtain ⟨c', cs1', G', H', hc, hx', hs', _, hF'⟩ := h'
    injection hc with h1 h2
    injection h1 with _ h1
    subst h1; subst h2
    rw [hF, hF', ihx _ _ _ hx hx' b, ihs _ _ _ hs hs' b]

theorem rep_vector_box {v : List GC} (h : Rep m (vector v) c F) : ∃ a, c = .box .VECTOR a ∧ F a := by
  obtain ⟨a, cs, G, hc, _, _, _, hF⟩ := h
  exact ⟨a, hc, (hF a).2 (Or.inl rfl)⟩

theorem rep_map_box {v : Entries} (h : Rep m (map v) c F) : ∃ a, c = .box .MAP a ∧ F a := by
  obtain ⟨a, cs, G, hc, _, _, _, _, hF⟩ := h
  exact ⟨a, hc, (hF a).2 (Or.inl rfl)⟩

/-- A path in the tree leads to a place in memory that holds the subtree; a change there is a change of the whole. -/
theorem Rep.at : ∀ (p : List Sel) {l : Loc} {g y : GC} {c : Cell} {F : Addr → Prop}, Wf m → m.read l = some c →
    Rep m g c F → ¬ F l.addr → getAt p g = some y →
    ∃ l' c' G, resolve m p l = some l' ∧ m.read l' = some c' ∧ Rep m y c' G ∧ (∀ b, G b → F b) ∧ ¬ G l'.addr ∧
      (l' = l ∨ F l'.addr) ∧
      ∀ m' y' c'' G', Upd m m' l' c'' G G' → Rep m' y' c'' G' →
        ∃ c1 F1, Upd m m' l c1 F F1 ∧ Rep m' (modAt p (fun _ => y') g) c1 F1
  | [], l, g, y, c, F, hw, hr, hg, hl, hy => by
    simp only [getAt, Option.some.injEq] at hy
    subst hy
    exact ⟨l, c, F, rfl, hr, hg, fun _ h => h, hl, Or.inl rfl, fun m' y' c'' G' hu hy' => ⟨c'', G', hu, hy'⟩⟩
  | .idx i :: p, l, g, y, c, F, hw, hr, hg, hl, hy => by
    cases g with
    | vector v =>
      simp only [getAt] at hy
      cases hx : v[i]? with
      | none => rw [hx] at hy; simp at hy
      | some x =>
        rw [hx] at hy
        simp only [Option.bind_some] at hy
        obtain ⟨a, rfl, hFa⟩ := rep_vector_box hg
        obtain ⟨c1, G1, hr1, hx1, hsub1, hna1, hput1⟩ := hg.elem hw hx
        obtain ⟨l', c', G, hres, hr', hy', hsub, hnl, hin, hput⟩ := Rep.at p hw hr1 hx1 hna1 hy
        refine ⟨l', c', G, ?_, hr', hy', fun b hb => hsub1 b (hsub b hb), hnl, ?_, ?_⟩
        · rw [resolve, hr]; simp only [hr1]; exact hres
        · right
          rcases hin with rfl | h
          · exact hFa
          · exact hsub1 _ h
        · intro m' y' c'' G' hu hyy
          obtain ⟨c2, F2, hu2, hr2⟩ := hput m' y' c'' G' hu hyy
          refine ⟨.box .VECTOR a, _, hu2.lift hw hr hFa hl hsub1 fun _ => Iff.rfl, ?_⟩
          simp only [modAt, hx]
          exact hput1 m' _ c2 F2 hu2 hr2
    | _ => simp [getAt] at hy
  | .key k :: p, l, g, y, c, F, hw, hr, hg, hl, hy => by
    cases g with
    | map v =>
      simp only [getAt] at hy
      cases hx : mfind k v with
      | none => rw [hx] at hy; simp at hy
      | some x =>
        rw [hx] at hy
        simp only [Option.bind_some] at hy
        obtain ⟨a, rfl, hFa⟩ := rep_map_box hg
        obtain ⟨c1, G1, hr1, hx1, hsub1, hna1, hput1⟩ := hg.entry hw hx
        obtain ⟨l', c', G, hres, hr', hy', hsub, hnl, hin, hput⟩ := Rep.at p hw hr1 hx1 hna1 hy
        refine ⟨l', c', G, ?_, hr', hy', fun b hb => hsub1 b (hsub b hb), hnl, ?_, ?_⟩
        · rw [resolve, hr]; simp only [hr1]; exact hres
        · right
          rcases hin with rfl | h
          · exact hFa
          · exact hsub1 _ h
        · intro m' y' c'' G' hu hyy
          obtain ⟨c2, F2, hu2, hr2⟩ := hput m' y' c'' G' hu hyy
          refine ⟨.box .MAP a, _, hu2.lift hw hr hFa hl hsub1 fun _ => Iff.rfl, ?_⟩
          simp only [modAt, hx]
          exact hput1 m' _ c2 F2 hu2 hr2
    | _ => simp [getAt] at hy

theorem RepL.none {v : List GC} {cs : List Cell} {i : Nat} (h : RepL m v cs F) (hi : v[i]? = none) : cs[i]? = none := by
  rw [List.getElem?_eq_none_iff] at hi ⊢
  rw [h.length]; exact hi

theorem RepM.none {k : Bytes} : ∀ {e : Entries} {es : List (Bytes × Cell)} {F : Addr → Prop}, RepM m e es F →
    mfind k e = none → kfind k es = none
  | [], _, _, h, _ => by rw [h.1]; rfl
  | (k', _) :: _, _, _, h, hk => by
    obtain ⟨c, cs', G, H, rfl, _, hs, _, _⟩ := h
    have hne : k ≠ k' := by rintro rfl; simp [mfind] at hk
    simp only [mfind, hne, if_false] at hk
    simp [kfind, hne, RepM.none hs hk]

/-- A path that leads nowhere in the tree leads nowhere in memory. -/
theorem Rep.at_none : ∀ (p : List Sel) {l : Loc} {g : GC} {c : Cell} {F : Addr → Prop}, Wf m → m.read l = some c →
    Rep m g c F → ¬ F l.addr → getAt p g = none → resolve m p l = none
  | [], l, g, c, F, hw, hr, hg, hl, hy => by simp [getAt] at hy
  | .idx i :: p, l, g, c, F, hw, hr, hg, hl, hy => by
    by_cases hc : ∃ a, c = .box .VECTOR a
    · obtain ⟨a, rfl⟩ := hc
      obtain ⟨v, rfl⟩ := rep_box_ne_vector hg
      rw [resolve, hr]
      simp only [getAt] at hy
      cases hx : v[i]? with
      | none =>
        obtain ⟨a', cs, G, hc, ha, hG, hn, hF⟩ := hg
        injection hc with _ hc
        subst hc
        have : m.read ⟨a, .idx i⟩ = .none := by
          show (m.blk a).bind _ = _
          rw [ha]; exact hG.none hx
        simp only [this]
      | some x =>
        rw [hx] at hy
        simp only [Option.bind_some] at hy
        obtain ⟨c1, G1, hr1, hx1, hsub1, hna1, hput1⟩ := hg.elem hw hx
        simp only [hr1]
        exact Rep.at_none p hw hr1 hx1 hna1 hy
    · rw [resolve, hr]
      cases c with
      | imm g => rfl
      | box t a => cases t <;> first | rfl | exact absurd ⟨a, rfl⟩ hc
  | .key k :: p, l, g, c, F, hw, hr, hg, hl, hy => by
    by_cases hc : ∃ a, c = .box .MAP a
    · obtain ⟨a, rfl⟩ := hc
      obtain ⟨v, rfl⟩ := rep_box_ne_map hg
      rw [resolve, hr]
      simp only [getAt] at hy
      cases hx : mfind k v with
      | none =>
        obtain ⟨a', cs, G, hc, ha, hG, hk, hn, hF⟩ := hg
        injection hc with _ hc
        subst hc
        have : m.read ⟨a, .key k⟩ = .none := by
          show (m.blk a).bind _ = _
          rw [ha]; exact hG.none hx
        simp only [this]
      | some x =>
        rw [hx] at hy
        simp only [Option.bind_some] at hy
        obtain ⟨c1, G1, hr1, hx1, hsub1, hna1, hput1⟩ := hg.entry hw hx
        simp only [hr1]
        exact Rep.at_none p hw hr1 hx1 hna1 hy
    · rw [resolve, hr]
      cases c with
      | imm g => rfl
      | box t a => cases t <;> first | rfl | exact absurd ⟨a, rfl⟩ hc

theorem RepL.two : ∀ {v : List GC} {cs : List Cell} {F : Addr → Prop} {i j : Nat} {x y : GC} {ci cj : Cell}
    {Gi Gj : Addr → Prop}, RepL m v cs F → i ≠ j → v[i]? = some x → v[j]? = some y → cs[i]? = some ci → cs[j]? = some cj →
    Rep m x ci Gi → Rep m y cj Gj → ∀ b, Gi b → ¬ Gj b
  | [], _, _, _, _, _, _, _, _, _, _, _, _, h, _, _, _, _, _ => by simp at h
  | z :: zs, _, F, i, j, x, y, ci, cj, Gi, Gj, hr, hij, hi, hj, hci, hcj, hx, hy => by
    obtain ⟨c, cs', G, H, rfl, hz, hs, hd, hF⟩ := hr
    cases i with
    | zero =>
      cases j with
      | zero => exact absurd rfl hij
      | succ j =>
        simp only [List.getElem?_cons_zero, List.getElem?_cons_succ, Option.some.injEq] at hi hj hci hcj
        subst hi; subst hci
        obtain ⟨c1, G1, hc1, hy1, hsub, _⟩ := hs.focus hj
        rw [hcj] at hc1
        injection hc1 with hc1
        subst hc1
        intro b hb hb'
        exact hd b ((Rep.unique.1 _ _ _ _ hx hz b).1 hb) (hsub b ((Rep.unique.1 _ _ _ _ hy hy1 b).1 hb'))
    | succ i =>
      cases j with
      | zero =>
        simp only [List.getElem?_cons_zero, List.getElem?_cons_succ, Option.some.injEq] at hi hj hci hcj
        subst hj; subst hcj
        obtain ⟨c1, G1, hc1, hy1, hsub, _⟩ := hs.focus hi
        rw [hci] at hc1
        injection hc1 with hc1
        subst hc1
        intro b hb hb'
        exact hd b ((Rep.unique.1 _ _ _ _ hy hz b).1 hb') (hsub b ((Rep.unique.1 _ _ _ _ hx hy1 b).1 hb))
      | succ j =>
        simp only [List.getElem?_cons_succ] at hi hj hci hcj
        exact RepL.two hs (fun e => hij (by rw [e])) hi hj hci hcj hx hy

theorem RepM.two : ∀ {v : Entries} {cs : List (Bytes × Cell)} {F : Addr → Prop} {i j : Bytes} {x y : GC} {ci cj : Cell}
    {Gi Gj : Addr → Prop}, RepM m v cs F → i ≠ j → mfind i v = some x → mfind j v = some y → kfind i cs = some ci →
    kfind j cs = some cj → Rep m x ci Gi → Rep m y cj Gj → ∀ b, Gi b → ¬ Gj b
  | [], _, _, _, _, _, _, _, _, _, _, _, _, h, _, _, _, _, _ => by simp [mfind] at h
  | (k, z) :: zs, _, F, i, j, x, y, ci, cj, Gi, Gj, hr, hij, hi, hj, hci, hcj, hx, hy => by
    obtain ⟨c, cs', G, H, rfl, hz, hs, hd, hF⟩ := hr
    by_cases h1 : i = k
    · have h2 : ¬ j = k := fun e => hij (by rw [h1, e])
      simp only [mfind, kfind, h1, if_true, h2, if_false, Option.some.injEq] at hi hj hci hcj
      subst hi; subst hci
      obtain ⟨c1, G1, hc1, hy1, hsub, _⟩ := hs.focus hj
      rw [hcj] at hc1
      injection hc1 with hc1
      subst hc1
      intro b hb hb'
      exact hd b ((Rep.unique.1 _ _ _ _ hx hz b).1 hb) (hsub b ((Rep.unique.1 _ _ _ _ hy hy1 b).1 hb'))
    · by_cases h2 : j = k
      · simp only [mfind, kfind, h1, if_true, h2, if_false, Option.some.injEq] at hi hj hci hcj
        subst hj; subst hcj
        obtain ⟨c1, G1, hc1, hy1, hsub, _⟩ := hs.focus hi
        rw [hci] at hc1
        injection hc1 with hc1
        subst hc1
        intro b hb hb'
        exact hd b ((Rep.unique.1 _ _ _ _ hy hz b).1 hb') (hsub b ((Rep.unique.1 _ _ _ _ hx hy1 b).1 hb))
      · simp only [mfind, kfind, h1, h2, if_false] at hi hj hci hcj
        exact RepM.two hs hij hi hj hci hcj hx hy

/-- Two paths of which neither is a prefix of the other lead to places that have no memory in common. -/
theorem Rep.apart : ∀ (p q : List Sel) {l lp lq : Loc} {g x y : GC} {c cp cq : Cell} {F Gp Gq : Addr → Prop}, Wf m →
    m.read l = some c → Rep m g c F → ¬ F l.addr → getAt p g = some x → getAt q g = some y → ¬ p <+: q → ¬ q <+: p →
    resolve m p l = some lp → resolve m q l = some lq → m.read lp = some cp → m.read lq = some cq →
    Rep m x cp Gp → Rep m y cq Gq →
    (∀ b, Gp b → ¬ Gq b) ∧ ¬ Gp lq.addr ∧ ¬ Gq lp.addr ∧ lp ≠ lq
  | [], q, _, _, _, _, _, _, _, _, _, _, _, _, _, _, _, _, _, _, h, _, _, _, _, _, _, _ => absurd (List.nil_prefix) h
  | p, [], _, _, _, _, _, _, _, _, _, _, _, _, _, _, _, _, _, _, _, h, _, _, _, _, _, _ => absurd (List.nil_prefix) h
  | .idx i :: p, .idx j :: q, l, lp, lq, g, x, y, c, cp, cq, F, Gp, Gq, hw, hr, hg, hl, hx, hy, hpq, hqp, hrp, hrq, hcp, hcq, hxp, hyq => by
    cases g with
    | vector v =>
      obtain ⟨a, rfl, hFa⟩ := rep_vector_box hg
      simp only [getAt] at hx hy
      cases hvi : v[i]? with
      | none => rw [hvi] at hx; simp at hx
      | some xi =>
      cases hvj : v[j]? with
      | none => rw [hvj] at hy; simp at hy
      | some yj =>
      rw [hvi] at hx
      rw [hvj] at hy
      simp only [Option.bind_some] at hx hy
      obtain ⟨ci, Gi, hri, hxi, hsubi, hnai, _⟩ := hg.elem hw hvi
      obtain ⟨cj, Gj, hrj, hyj, hsubj, hnaj, _⟩ := hg.elem hw hvj
      rw [resolve, hr] at hrp hrq
      simp only [hri] at hrp
      simp only [hrj] at hrq
      by_cases hij : i = j
      · subst hij
        rw [hvi] at hvj
        injection hvj with hvj
        subst hvj
        exact Rep.apart p q hw hri hxi hnai hx hy
          (fun h => hpq ((List.prefix_cons_inj _).2 h)) (fun h => hqp ((List.prefix_cons_inj _).2 h))
          hrp hrq hcp hcq hxp hyq
      · obtain ⟨a', cs, G, hc, ha, hG, hn, hF⟩ := hg
        injection hc with _ hc
        subst hc
        have hri' : cs[i]? = some ci := by have : (m.blk a).bind _ = _ := hri; rw [ha] at this; exact this
        have hrj' : cs[j]? = some cj := by have : (m.blk a).bind _ = _ := hrj; rw [ha] at this; exact this
        have hdis := hG.two hij hvi hvj hri' hrj' hxi hyj
        obtain ⟨lp', cp', Gp', hrp', hcp', hxp', hsubp, hnlp, hinp, _⟩ := Rep.at p hw hri hxi hnai hx
        obtain ⟨lq', cq', Gq', hrq', hcq', hyq', hsubq, hnlq, hinq, _⟩ := Rep.at q hw hrj hyj hnaj hy
        rw [hrp] at hrp'
        injection hrp' with hrp'
        subst hrp'
        rw [hrq] at hrq'
        injection hrq' with hrq'
        subst hrq'
        rw [hcp] at hcp'
        injection hcp' with hcp'
        subst hcp'
        rw [hcq] at hcq'
        injection hcq' with hcq'
        subst hcq'
        have up := Rep.unique.1 _ _ _ _ hxp hxp'
        have uq := Rep.unique.1 _ _ _ _ hyq hyq'
        refine ⟨fun b hb hb' => hdis b (hsubp b ((up b).1 hb)) (hsubq b ((uq b).1 hb')), ?_, ?_, ?_⟩
        · intro hb
          have hb := hsubp _ ((up _).1 hb)
          rcases hinq with rfl | h
          · exact hnai hb
          · exact hdis _ hb h
        · intro hb
          have hb := hsubq _ ((uq _).1 hb)
          rcases hinp with rfl | h
          · exact hnaj hb
          · exact hdis _ h hb
        · rintro rfl
          rcases hinp with rfl | h1
          · rcases hinq with h | h
            · injection h with _ h
              injection h with h
              exact hij h
            · exact hnaj h
          · rcases hinq with rfl | h
            · exact hnai h1
            · exact hdis _ h1 h
    | _ => simp [getAt] at hx
  | .key i :: p, .key j :: q, l, lp, lq, g, x, y, c, cp, cq, F, Gp, Gq, hw, hr, hg, hl, hx, hy, hpq, hqp, hrp, hrq, hcp, hcq, hxp, hyq => by
    cases g with
    | map v =>
      obtain ⟨a, rfl, hFa⟩ := rep_map_box hg
      simp only [getAt] at hx hy
      cases hvi : mfind i v with
      | none => rw [hvi] at hx; simp at hx
      | some xi =>
      cases hvj : mfind j v with
      | none => rw [hvj] at hy; simp at hy
      | some yj =>
      rw [hvi] at hx
      rw [hvj] at hy
      simp only [Option.bind_some] at hx hy
      obtain ⟨ci, Gi, hri, hxi, hsubi, hnai, _⟩ := hg.entry hw hvi
      obtain ⟨cj, Gj, hrj, hyj, hsubj, hnaj, _⟩ := hg.entry hw hvj
      rw [resolve, hr] at hrp hrq
      simp only [hri] at hrp
      simp only [hrj] at hrq
      by_cases hij : i = j
      · subst hij
        rw [hvi] at hvj
        injection hvj with hvj
        subst hvj
        exact Rep.apart p q hw hri hxi hnai hx hy
          (fun h => hpq ((List.prefix_cons_inj _).2 h)) (fun h => hqp ((List.prefix_cons_inj _).2 h))
          hrp hrq hcp hcq hxp hyq
      · obtain ⟨a', cs, G, hc, ha, hG, hks, hn, hF⟩ := hg
        injection hc with _ hc
        subst hc
        have hri' : kfind i cs = some ci := by have : (m.blk a).bind _ = _ := hri; rw [ha] at this; exact this
        have hrj' : kfind j cs = some cj := by have : (m.blk a).bind _ = _ := hrj; rw [ha] at this; exact this
        have hdis := hG.two hij hvi hvj hri' hrj' hxi hyj
        obtain ⟨lp', cp', Gp', hrp', hcp', hxp', hsubp, hnlp, hinp, _⟩ := Rep.at p hw hri hxi hnai hx
        obtain ⟨lq', cq', Gq', hrq', hcq', hyq', hsubq, hnlq, hinq, _⟩ := Rep.at q hw hrj hyj hnaj hy
        rw [hrp] at hrp'
        injection hrp' with hrp'
        subst hrp'
        rw [hrq] at hrq'
        injection hrq' with hrq'
        subst hrq'
        rw [hcp] at hcp'
        injection hcp' with hcp'
        subst hcp'
        rw [hcq] at hcq'
        injection hcq' with hcq'
        subst hcq'
        have up := Rep.unique.1 _ _ _ _ hxp hxp'
        have uq := Rep.unique.1 _ _ _ _ hyq hyq'
        refine ⟨fun b hb hb' => hdis b (hsubp b ((up b).1 hb)) (hsubq b ((uq b).1 hb')), ?_, ?_, ?_⟩
        · intro hb
          have hb := hsubp _ ((up _).1 hb)
          rcases hinq with rfl | h
          · exact hnai hb
          · exact hdis _ hb h
        · intro hb
          have hb := hsubq _ ((uq _).1 hb)
          rcases hinp with rfl | h
          · exact hnaj hb
          · exact hdis _ h hb
        · rintro rfl
          rcases hinp with rfl | h1
          · rcases hinq with h | h
            · injection h with _ h
              injection h with h
              exact hij h
            · exact hnaj h
          · rcases hinq with rfl | h
            · exact hnai h1
            · exact hdis _ h1 h
    | _ => simp [getAt] at hx
  | .idx i :: p, .key j :: q, l, lp, lq, g, x, y, c, cp, cq, F, Gp, Gq, hw, hr, hg, hl, hx, hy, hpq, hqp, hrp, hrq, hcp, hcq, hxp, hyq => by
    cases g <;> simp [getAt] at hx hy
  | .key i :: p, .idx j :: q, l, lp, lq, g, x, y, c, cp, cq, F, Gp, Gq, hw, hr, hg, hl, hx, hy, hpq, hqp, hrp, hrq, hcp, hcq, hxp, hyq => by
    cases g <;> simp [getAt] at hx hy

end Heap
end GCV
