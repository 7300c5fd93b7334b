import Verif.Lemmas.HeapDiverge
import Verif.Lemmas.HeapStable
import Verif.Spec.HeapOverlap

/-! # A map assigned to a map that it is inside of -/

namespace GCV
namespace Heap
open GC

variable {m m' m1 m2 : Mem} {g x y : GC} {c c' : Cell} {F F' G H : Addr → Prop} {d s l : Loc} {a b : Addr}

theorem keyAt_keeps {k κ : Bytes} (h : keyAt b k m = .ok m' ()) (hr : m.read ⟨b, .key κ⟩ = some c) :
    m'.read ⟨b, .key κ⟩ = some c ∧ ∀ z, z ≠ b → m'.blk z = m.blk z := by
  unfold keyAt at h
  cases hb : m.blk b with
  | none => rw [hb] at h; simp at h
  | some B =>
    rw [hb] at h
    cases B with
    | map es =>
      simp only at h
      have hk : kfind κ es = some c := by
        have := hr
        simp only [Mem.read, hb, Option.bind_some, Block.get] at this
        exact this
      cases hf : kfind k es with
      | some _ =>
        rw [hf] at h
        simp only [Run.ok.injEq, and_true] at h
        subst h
        exact ⟨hr, fun _ _ => rfl⟩
      | none =>
        rw [hf] at h
        simp only [Run.ok.injEq, and_true] at h
        subst h
        refine ⟨?_, fun z hz => by rw [blk_upd, if_neg hz]⟩
        simp only [Mem.read, blk_upd, if_true, Option.bind_some, Block.get]
        exact kfind_kins hf hk
    | _ => simp at h

theorem fromF_idle (ip : Nat → Nat → Bool) (n : Nat) (hi : Idle y x) (hs : m.read s = some c) (hy : Rep m y c G)
    (hd : m.read d = some c') (hx : Rep m x c' F) : fromF ip (n + 1) d s m = .ok m () := by
  obtain ⟨rfl | rfl, ht⟩ := hi
  · obtain ⟨v, rfl⟩ : ∃ v, x = vector v := by cases x <;> first | exact ⟨_, rfl⟩ | exact absurd ht (by simp [GC.ty])
    obtain ⟨a, rfl, _⟩ := rep_vector_box hx
    obtain ⟨b, cs, _, rfl, hb, hL, _⟩ := id hy
    obtain ⟨rfl, -⟩ := hL
    have hlen0 : ¬ 0 < u32 0 := by decide
    simp only [fromF, hs, allocBox_keep hd, hb, Run.bind, List.length_nil, if_neg hlen0, vecLoop]
  · obtain ⟨v, rfl⟩ : ∃ v, x = map v := by cases x <;> first | exact ⟨_, rfl⟩ | exact absurd ht (by simp [GC.ty])
    obtain ⟨a, rfl, _⟩ := rep_map_box hx
    obtain ⟨b, cs, _, rfl, hb, hL, _⟩ := id hy
    obtain ⟨rfl, -⟩ := hL
    simp only [fromF, hs, allocBox_keep hd, hb, Run.bind, mapLoop, List.length_nil]

theorem mset_known {k : Bytes} {e : Entries} (hs : KeysSorted e) (h : mfind k e = some x) : mset k x e = e := by
  refine sorted_ext (sorted_mset k x e hs) hs fun k' => ?_
  by_cases hk : k' = k
  · subst hk; rw [mfind_mset_same, h]
  · rw [mfind_mset_other hk]

theorem from_gc_idle (hi : Idle y x) : from_gc y x = .ok x := by
  obtain ⟨rfl | rfl, ht⟩ := hi
  · obtain ⟨v, rfl⟩ : ∃ v, x = vector v := by cases x <;> first | exact ⟨_, rfl⟩ | exact absurd ht (by simp [GC.ty])
    rfl
  · obtain ⟨v, rfl⟩ : ∃ v, x = map v := by cases x <;> first | exact ⟨_, rfl⟩ | exact absurd ht (by simp [GC.ty])
    rfl

/-- The loop over the entries of a map that is in the entry `κ` of the destination, and has no entry `κ` or one whose
assignment changes nothing. -/
theorem mapLoop_unwrap {f : Loc → Loc → Mem → Run Unit} {w : Entries} {κ : Bytes} {xκ : GC} {cκ : Cell}
    {Fs Gκ : Addr → Prop} (hnul : ∀ p ∈ w, cstr p.1 = p.1) (hno : ∀ p ∈ w, p.1 = κ → Idle p.2 xκ)
    (hidle : ∀ {m d s y x c c' F G}, Idle y x → m.read s = some c → Rep m y c G → m.read d = some c' → Rep m x c' F →
      f d s m = .ok m ()) (hsub : ∀ z, Fs z → Gκ z) :
    ∀ (n i : Nat) (m : Mem) (e r : Entries) (Fb : Addr → Prop), Wf m → i + n = w.length →
    Rep m (map w) (.box .MAP a) Fs → Rep m (map e) (.box .MAP b) Fb → mfind κ e = some xκ →
    m.read ⟨b, .key κ⟩ = some cκ → Rep m xκ cκ Gκ →
    from_gcM (w.drop i) e = .ok r →
    (∀ p ∈ w.drop i, FromOk f p.2 ((mfind p.1 e).getD notype)) →
    ∃ m' F', mapLoop f b a i n m = .ok m' () ∧ Chg m m' Fb F' ∧ Rep m' (map r) (.box .MAP b) F'
  | 0, i, m, e, r, Fb, hw, hik, hv, hb, hκ, hrκ, hRκ, hl, hf => by
    rw [List.drop_eq_nil_of_le (by omega)] at hl
    simp only [from_gcM, Out.ok.injEq] at hl
    subst hl
    obtain ⟨a', cs, _, hc, ha, _⟩ := hv
    injection hc with _ hc
    subst hc
    exact ⟨m, Fb, by rw [mapLoop, ha], Chg.refl hw, hb⟩
  | n + 1, i, m, e, r, Fb, hw, hik, hv, hb, hκ, hrκ, hRκ, hl, hf => by
    have hvi : w[i]? = some w[i] := List.getElem?_eq_getElem (by omega)
    have hdr := drop_of_getElem? hvi
    have hmem : w[i] ∈ w := List.getElem_mem _
    generalize hp : w[i] = p at hvi hdr hmem
    obtain ⟨k, x⟩ := p
    have hck : cstr k = k := hnul _ hmem
    rw [hdr] at hl hf
    have hks : KeysSorted w := by obtain ⟨_, _, _, _, _, _, h, _⟩ := hv; exact h
    have hkx : mfind k w = some x := mfind_of_mem hks hmem
    have hFsa : Fs a := by obtain ⟨a', cs, G, hc, _, _, _, _, hF⟩ := hv; injection hc with _ hc; subst hc; exact (hF a).2 (Or.inl rfl)
    have hFbb : Fb b := by obtain ⟨a', cs, G, hc, _, _, _, _, hF⟩ := hb; injection hc with _ hc; subst hc; exact (hF b).2 (Or.inl rfl)
    have hGκb : ¬ Gκ b := by
      obtain ⟨c0, G0, hr0, hR0, _, hn0, _⟩ := hb.entry hw hκ
      rw [hrκ] at hr0
      injection hr0 with hr0
      subst hr0
      exact fun h => hn0 ((Rep.unique.1 _ _ _ _ hRκ hR0 b).1 h)
    have hes : ∃ es c, m.blk a = some (.map es) ∧ es[i]? = some (k, c) := by
      obtain ⟨a', es, G, hc, ha, hL, _⟩ := id hv
      injection hc with _ hc
      subst hc
      have := congrArg (·[i]?) hL.keys
      simp only [List.getElem?_map, hvi, Option.map_some] at this
      cases h : es[i]? with
      | none => rw [h] at this; simp at this
      | some q => rw [h] at this; simp at this; exact ⟨es, q.2, ha, by rw [h, ← this]⟩
    obtain ⟨es, ces, ha, hes⟩ := hes
    have hks' : ∀ p ∈ w.drop (i + 1), p.1 ≠ k := by
      intro p hp' hpk
      have h2 : KeysSorted ((k, x) :: w.drop (i + 1)) := by
        rw [← hdr]; exact List.Pairwise.sublist (List.drop_sublist _ _) hks
      rw [KeysSorted, List.pairwise_cons] at h2
      have := h2.1 p hp'
      rw [hpk] at this
      exact strLT_irrefl _ this
    rw [from_gcM, hck] at hl
    by_cases hkκ : k = κ
    · subst hkκ
      have hid : Idle x xκ := hno _ hmem rfl
      have hke : KeysSorted e := by obtain ⟨_, _, _, _, _, _, h, _⟩ := hb; exact h
      rw [hκ, Option.getD_some, from_gc_idle hid, Out.bind, mset_known hke hκ] at hl
      obtain ⟨cx, Gx, hrx, hxr, _⟩ := hv.entry hw hkx
      obtain ⟨m2, F2, he2, hU2, hr2⟩ := mapLoop_unwrap hnul hno hidle hsub n (i + 1) m e r _ hw (by omega) hv hb hκ hrκ hRκ hl
        (fun p hp' => hf p (List.mem_cons_of_mem _ hp'))
      have hk0 : keyAt b k m = .ok m () := by
        obtain ⟨b', es', G, hc, hbb, _⟩ := id hb
        injection hc with _ hc
        subst hc
        have h1 : kfind k es' = some cκ := by simpa only [Mem.read, hbb, Option.bind_some, Block.get] using hrκ
        simp only [keyAt, hbb, h1]
      refine ⟨m2, F2, ?_, hU2, hr2⟩
      rw [mapLoop, ha]
      simp only [hes, hck, hk0, Run.bind, hidle hid hrx hxr hrκ hRκ, he2]
    cases hxy : from_gc x ((mfind k e).getD notype) with
    | ok y' =>
      rw [hxy] at hl
      simp only [Out.bind] at hl
      obtain ⟨m0, he0, hC0, hn0, hb0⟩ := keyAt_spec (k := k) hw hb
      have hw0 : Wf m0 := hC0.wf hw (hb.lt hw)
      obtain ⟨hrκ0, hsame⟩ := keyAt_keeps he0 hrκ
      have hRκ0 : Rep m0 xκ cκ Gκ := Rep.frame.1 _ _ _ hRκ fun z hz => hsame z fun e => hGκb (e ▸ hz)
      have hv0 : Rep m0 (map w) (.box .MAP a) Fs :=
        Rep.frame.1 _ _ _ hv fun z hz => hsame z fun e => hGκb (e ▸ hsub z hz)
      have hκ0 : mfind κ (mset k ((mfind k e).getD notype) e) = some xκ := by rw [mfind_mset_other (Ne.symm hkκ)]; exact hκ
      obtain ⟨cx, Gx, hrx, hxr, hGx, _, _⟩ := hv0.entry hw0 hkx
      obtain ⟨cy, Gy, hry, hyr, hGy, hGyb, hput⟩ := hb0.entry hw0 (mfind_mset_same k _ e)
      -- the entry `κ` and the entry `k` of the destination
      have hdis : ∀ z, Gκ z → ¬ Gy z := by
        obtain ⟨b', es, G, hc, hbb, hL, _⟩ := id hb0
        injection hc with _ hc
        subst hc
        refine hL.two (Ne.symm hkκ) hκ0 (mfind_mset_same k _ e) ?_ ?_ hRκ0 hyr
        · simpa only [Mem.read, hbb, Option.bind_some, Block.get] using hrκ0
        · simpa only [Mem.read, hbb, Option.bind_some, Block.get] using hry
      have hab : a ≠ b := fun e => hGκb (e ▸ hsub a hFsa)
      obtain ⟨m1, c1, G1, he1, hu1, hr1⟩ := hf (k, x) List.mem_cons_self m0 ⟨b, .key k⟩ ⟨a, .key k⟩ cx cy Gx Gy y'
        ⟨hw0, hrx, hxr, hry, hyr, fun z h1 h2 => hdis z (hsub z (hGx z h1)) h2,
          fun h => hGκb (hsub b (hGx b h)), hGyb, fun h => hdis a (hsub a hFsa) h,
          fun e => hab (by simpa using congrArg Loc.addr e)⟩ hxy
      have hb1 := hput m1 y' c1 G1 hu1 hr1
      rw [mset_mset] at hb1
      have hU1 : Chg m0 m1 Fb (fun x => (Fb x ∧ ¬ Gy x) ∨ G1 x) := hu1.chg hFbb hGy
      have hw1 : Wf m1 := hU1.wf hw0 (hb0.lt hw0)
      have hrκ1 : m1.read ⟨b, .key κ⟩ = some cκ :=
        hu1.read_ne hw0 hrκ0 (fun e => (Ne.symm hkκ) (by simpa using congrArg Loc.slot e)) hGyb
      have hRκ1 : Rep m1 xκ cκ Gκ := hu1.other hw0 hRκ0 hGκb hdis
      have hv1 : Rep m1 (map w) (.box .MAP a) Fs :=
        hu1.other hw0 hv0 (fun h => hGκb (hsub b h)) fun z hz => hdis z (hsub z hz)
      obtain ⟨m2, F2, he2, hU2, hr2⟩ := mapLoop_unwrap hnul hno hidle hsub n (i + 1) m1 (mset k y' e) r _ hw1 (by omega)
        hv1 hb1 (by rw [mfind_mset_other (Ne.symm hkκ)]; exact hκ) hrκ1 hRκ1 hl
        (fun p hp' => by
          rw [mfind_mset_other (hks' p hp')]
          exact hf p (List.mem_cons_of_mem _ hp'))
      refine ⟨m2, F2, ?_, hC0.trans (hU1.trans hU2 (hb0.lt hw0)) (hb.lt hw), hr2⟩
      rw [mapLoop, ha]
      simp only [hes, hck, he0, Run.bind, he1, he2]
    | throw => rw [hxy] at hl; simp [Out.bind] at hl
    | ub => rw [hxy] at hl; simp [Out.bind] at hl
    | diverge => rw [hxy] at hl; simp [Out.bind] at hl

/-- The assignment. -/
theorem fromF_unwrap (ip : Nat → Nat → Bool) {n : Nat} {e w : Entries} {κ : Bytes} {q : List Sel} {g' : GC}
    (hd : Root m d (map e) (.box .MAP b) F) (hs : Root m s (map w) c G)
    (hy : getAt (.key κ :: q) (map e) = some (map w)) (hres : resolve m (.key κ :: q) d = some s)
    (hno : ∀ z, mfind κ w = some z → ∃ x, mfind κ e = some x ∧ Idle z x) (hn : sizeOf w + sizeOf e < n) (hg : from_gc (map w) (map e) = .ok g') :
    ∃ m' c' F', fromF ip (n + 1) d s m = .ok m' () ∧ Upd m m' d c' F F' ∧ Rep m' g' c' F' := by
  obtain ⟨a, hc, _⟩ := rep_map_box hs.rep
  subst hc
  obtain ⟨hnul, hfw⟩ := Fits_map_iff.1 hs.fit
  obtain ⟨_, hfe⟩ := Fits_map_iff.1 hd.fit
  simp only [getAt] at hy
  cases hκ : mfind κ e with
  | none => rw [hκ] at hy; simp at hy
  | some xκ =>
  rw [hκ] at hy
  simp only [Option.bind_some] at hy
  obtain ⟨cκ, Gκ, hrκ, hRκ, _, hnκ, _⟩ := hd.rep.entry hd.wf hκ
  rw [resolve, hd.rd] at hres
  simp only [hrκ] at hres
  obtain ⟨s', c2, G3, hres', hr3, hR3, hsub3, _⟩ := Rep.at q hd.wf hrκ hRκ hnκ hy
  rw [hres] at hres'
  injection hres' with hres'
  subst hres'
  rw [hs.rd] at hr3
  injection hr3 with hr3
  subst hr3
  have hsub : ∀ z, G z → Gκ z := fun z hz => hsub3 z ((Rep.unique.1 _ _ _ _ hs.rep hR3 z).1 hz)
  rw [from_gc] at hg
  obtain ⟨r, hr, hg⟩ := out_bind_ok hg
  injection hg with hg
  subst hg
  simp only [oldMap] at hr
  obtain ⟨m3, F3, he3, hC3, hr3⟩ := mapLoop_unwrap (f := fromF ip n) (fun p hp => cstr_of_noNul (hnul p hp))
    (fun p hp hpk => by
      obtain ⟨x', hx', hid⟩ := hno p.2 (by rw [← hpk]; exact mfind_of_mem hs.ok.1 (by exact hp))
      rw [hκ] at hx'
      injection hx' with hx'
      rw [hx']; exact hid)
    (fun hid h1 h2 h3 h4 => by
      obtain ⟨k, rfl⟩ : ∃ k, n = k + 1 := ⟨n - 1, by omega⟩
      exact fromF_idle ip k hid h1 h2 h3 h4) hsub
    w.length 0 m e r F hd.wf (by omega) hs.rep hd.rep hκ hrκ hRκ (by simpa using hr)
    (fun p hp => by
      rw [List.drop_zero] at hp
      have h1 : sizeOf p.2 < sizeOf w := by
        have := List.sizeOf_lt_of_mem hp
        obtain ⟨k, x⟩ := p
        rw [Prod.mk.sizeOf_spec] at this
        show sizeOf x < _
        omega
      cases hk : mfind p.1 e with
      | none =>
        have : 0 < sizeOf e := by cases e <;> simp
        exact fromF_spec ip n p.2 notype (by rw [GC.notype.sizeOf_spec]; omega) (hfw p hp) trivial rfl
      | some y =>
        have h2 : sizeOf y < sizeOf e := by
          have := List.sizeOf_lt_of_mem (mem_of_mfind hk)
          rw [Prod.mk.sizeOf_spec] at this
          omega
        exact fromF_spec ip n p.2 y (by omega) (hfw p hp) (WFM_find hd.ok.2 hk) (hfe _ (mem_of_mfind hk)))
  obtain ⟨a', es, G0, hc, ha, hL, _⟩ := id hs.rep
  injection hc with _ hc
  subst hc
  have hlen : es.length = w.length := by simpa using congrArg List.length hL.keys
  refine ⟨m3, .box .MAP b, F3, ?_, hC3.upd hd.wf hd.rd hd.out, hr3⟩
  unfold fromF
  simp only [hs.rd, allocBox_keep hd.rd, Run.bind, ha, hlen, he3]

end Heap
end GCV
