import Verif.Lemmas.HeapReplace

/-! # A vector assigned from a vector inside it, where the assignment passes the part by -/

namespace GCV
namespace Heap
open GC

variable {m m' m1 m2 : Mem} {g x y : GC} {c c' : Cell} {F F' G H : Addr → Prop} {d s l : Loc} {a b : Addr}

/-- The loop over the elements of a vector that is in the element `i` of the destination, and whose element `i` changes
nothing when it is assigned. -/
theorem vecLoop_around {f : Loc → Loc → Mem → Run Unit} {i : Nat} {w : List GC} {xi zi : GC} {ci : Cell}
    {Fs Gi : Addr → Prop} (hzi : w[i]? = some zi) (hid : Idle zi xi)
    (hidle : ∀ {m d s y x c c' F G}, Idle y x → m.read s = some c → Rep m y c G → m.read d = some c' → Rep m x c' F →
      f d s m = .ok m ()) (hsub : ∀ z, Fs z → Gi z) :
    ∀ (k j : Nat) (m : Mem) (v r : List GC) (Fb : Addr → Prop), Wf m → j + k = w.length →
    Rep m (vector w) (.box .VECTOR a) Fs → Rep m (vector v) (.box .VECTOR b) Fb → v[i]? = some xi →
    m.read ⟨b, .idx i⟩ = some ci → Rep m xi ci Gi → from_gcL (w.drop j) (v.drop j) = .ok r →
    (∀ j' x y, j ≤ j' → w[j']? = some x → v[j']? = some y → FromOk f x y) →
    ∃ m' F', vecLoop f b a j k m = .ok m' () ∧ Chg m m' Fb F' ∧ Rep m' (vector (v.take j ++ r)) (.box .VECTOR b) F'
  | 0, j, m, v, r, Fb, hw, hjk, hv, hb, hx, hri, hRi, hl, hf => by
    rw [List.drop_eq_nil_of_le (by omega)] at hl
    simp only [from_gcL, Out.ok.injEq] at hl
    subst hl
    rw [List.take_append_drop]
    obtain ⟨a', cs, _, hc, ha, _⟩ := hv
    injection hc with _ hc
    subst hc
    exact ⟨m, Fb, by rw [vecLoop, ha], Chg.refl hw, hb⟩
  | k + 1, j, m, v, r, Fb, hw, hjk, hv, hb, hx, hri, hRi, hl, hf => by
    have hwj : w[j]? = some w[j] := List.getElem?_eq_getElem (by omega)
    rw [drop_of_getElem? hwj] at hl
    have hFsa : Fs a := by
      obtain ⟨a', hc, h⟩ := rep_vector_box hv
      injection hc with _ hc
      subst hc; exact h
    have hFbb : Fb b := by
      obtain ⟨a', hc, h⟩ := rep_vector_box hb
      injection hc with _ hc
      subst hc; exact h
    have hGib : ¬ Gi b := by
      obtain ⟨c0, G0, hr0, hR0, _, hn0, _⟩ := hb.elem hw hx
      rw [hri] at hr0
      injection hr0 with hr0
      subst hr0
      exact fun h => hn0 ((Rep.unique.1 _ _ _ _ hRi hR0 b).1 h)
    obtain ⟨cs, ha, hlen⟩ : ∃ cs, m.blk a = some (.vec cs) ∧ cs.length = w.length := by
      obtain ⟨a', cs, _, hc, ha, hL, _⟩ := id hv
      injection hc with _ hc
      subst hc
      exact ⟨cs, ha, hL.length⟩
    cases hvd : v.drop j with
    | nil => rw [hvd] at hl; simp [from_gcL] at hl
    | cons y ys =>
      rw [hvd] at hl
      obtain ⟨hvj, hwd⟩ := drop_cons hvd
      have hjv : j < v.length := (List.getElem?_eq_some_iff.1 hvj).1
      rw [from_gcL] at hl
      obtain ⟨y', hxy, hl⟩ := out_bind_ok hl
      obtain ⟨ys', hrest, hl⟩ := out_bind_ok hl
      simp only [Out.ok.injEq] at hl
      obtain ⟨cx, Gx, hrx, hxr, hGx, _, _⟩ := hv.elem hw hwj
      by_cases hji : j = i
      · subst hji
        rw [hwj] at hzi
        injection hzi with hzi
        rw [hvj] at hx
        injection hx with hx
        subst hx
        rw [hzi, from_gc_idle hid, Out.ok.injEq] at hxy
        subst hxy
        obtain ⟨m2, F2, he2, hU2, hr2⟩ := vecLoop_around (by rw [hwj, hzi]) hid hidle hsub k (j + 1) m v ys' Fb hw (by omega) hv hb
          hvj hri hRi (by rw [hwd]; exact hrest) (fun j' x y hj => hf j' x y (by omega))
        rw [hzi] at hxr
        refine ⟨m2, F2, ?_, hU2, ?_⟩
        · rw [vecLoop, ha]
          simp only [if_pos (show j < cs.length by omega), hidle hid hrx hxr hri hRi, Run.bind, he2]
        · have : v.take j ++ r = v.take (j + 1) ++ ys' := by
            rw [← hl, List.take_succ, hvj]; simp
          rw [this]; exact hr2
      · obtain ⟨cy, Gy, hry, hyr, hGy, hGyb, hput⟩ := hb.elem hw hvj
        have hdis : ∀ z, Gi z → ¬ Gy z := by
          obtain ⟨b', es, G, hc, hbb, hL, _⟩ := id hb
          injection hc with _ hc
          subst hc
          refine hL.two (Ne.symm hji) hx hvj ?_ ?_ hRi hyr
          · simpa only [Mem.read, hbb, Option.bind_some, Block.get] using hri
          · simpa only [Mem.read, hbb, Option.bind_some, Block.get] using hry
        have hab : a ≠ b := fun e => hGib (e ▸ hsub a hFsa)
        obtain ⟨m1, c1, G1, he1, hu1, hr1⟩ := hf j _ _ (Nat.le_refl _) hwj hvj m ⟨b, .idx j⟩ ⟨a, .idx j⟩ cx cy Gx Gy y'
          ⟨hw, hrx, hxr, hry, hyr, fun z h1 h2 => hdis z (hsub z (hGx z h1)) h2,
            fun h => hGib (hsub b (hGx b h)), hGyb, fun h => hdis a (hsub a hFsa) h,
            fun e => hab (by simpa using congrArg Loc.addr e)⟩ hxy
        have hU1 : Chg m m1 Fb (fun x => (Fb x ∧ ¬ Gy x) ∨ G1 x) := hu1.chg hFbb hGy
        obtain ⟨m2, F2, he2, hU2, hr2⟩ := vecLoop_around hzi hid hidle hsub k (j + 1) m1 (v.set j y') ys' _
          (hU1.wf hw (hb.lt hw)) (by omega)
          (hu1.other hw hv (fun h => hGib (hsub b h)) fun z hz => hdis z (hsub z hz))
          (hput m1 y' c1 G1 hu1 hr1)
          (by rw [List.getElem?_set_ne hji]; exact hx)
          (hu1.read_ne hw hri (fun e => hji (by have := congrArg Loc.slot e; simp at this; omega)) hGyb)
          (hu1.other hw hRi hGib hdis)
          (by rw [List.drop_set_of_lt (by omega), hwd]; exact hrest)
          (fun j' x y hj hx hy => hf j' x y (by omega) hx (by rwa [List.getElem?_set_ne (by omega)] at hy))
        refine ⟨m2, F2, ?_, hU1.trans hU2 (hb.lt hw), ?_⟩
        · rw [vecLoop, ha]
          simp only [if_pos (show j < cs.length by omega), he1, Run.bind, he2]
        · have : v.take j ++ r = (v.set j y').take (j + 1) ++ ys' := by
            rw [← hl, List.take_succ, List.take_set_of_le (Nat.le_refl _), List.getElem?_set_self hjv]
            simp
          rw [this]; exact hr2

theorem resizeL_mem {sz : Nat} {v : List GC} (h : y ∈ resizeL notype sz v) : y ∈ v ∨ y = notype := by
  rw [resizeL, List.mem_append] at h
  rcases h with h | h
  · exact .inl (List.mem_of_mem_take h)
  · exact .inr (List.mem_replicate.1 h).2

/-- `x = y` where `x` and `y`, in the element `i` of `x`, are vectors, and `y` has an element `i`.  If `x` has to move to
other storage, `y` is lost; otherwise, if the assignment of the element `i` changes nothing, all goes as if `y` were copied
first. -/
theorem fromF_around (ip : Nat → Nat → Bool) {n i : Nat} {q : List Sel} {v w : List GC} {xi : GC}
    (hn : sizeOf v + sizeOf w < n) (hd : Root m d (vector v) (.box .VECTOR b) F) (hs : Root m s (vector w) c G)
    (hy : getAt (.idx i :: q) (vector v) = some (vector w)) (hres : resolve m (.idx i :: q) d = some s)
    (hxi : v[i]? = some xi) (hiw : i < w.length) :
    (v.length < w.length → ip v.length w.length = false → fromF ip (n + 1) d s m = .ub) ∧
    ∀ {g' zi}, w.length ≤ v.length ∨ ip v.length w.length = true → w[i]? = some zi → Idle zi xi →
      from_gc (vector w) (vector v) = .ok g' →
      ∃ m' c' F', fromF ip (n + 1) d s m = .ok m' () ∧ Upd m m' d c' F F' ∧ Rep m' g' c' F' := by
  obtain ⟨a, cs', G', rfl, ha, hL', _, hG'⟩ := id hs.rep
  have hlen' := hL'.length
  obtain ⟨h32, hfw⟩ := Fits_vector hs.fit
  obtain ⟨_, hfv⟩ := Fits_vector hd.fit
  have hwv : ∀ x ∈ v, WF x := WFL_iff.1 hd.ok
  have hfv : ∀ x ∈ v, Fits x := everyL_iff.1 hfv
  have hfw : ∀ x ∈ w, Fits x := everyL_iff.1 hfw
  simp only [getAt, hxi, Option.bind_some] at hy
  obtain ⟨ci, Gi, hri, hRi, _, hnb, _⟩ := hd.rep.elem hd.wf hxi
  rw [resolve, hd.rd] at hres
  simp only [hri] at hres
  obtain ⟨s', c2, G3, hres', hr3, hR3, hsub3, _⟩ := Rep.at q hd.wf hri hRi hnb hy
  rw [hres] at hres'
  injection hres' with hres'
  subst hres'
  rw [hs.rd] at hr3
  injection hr3 with hr3
  subst hr3
  have hsub : ∀ z, G z → Gi z := fun z hz => hsub3 z ((Rep.unique.1 _ _ _ _ hs.rep hR3 z).1 hz)
  have hGa : G a := by
    obtain ⟨a', hc, h⟩ := rep_vector_box hs.rep
    injection hc with _ hc
    subst hc; exact h
  have hpos : ∀ l : List GC, 0 < sizeOf l := fun l => by cases l <;> simp
  have hnt : sizeOf notype = 1 := rfl
  obtain ⟨m2, he2, h2⟩ := resizeF_around (ip := ip) (n := n) (sz := w.length) hd.wf hd.rep hxi hri hRi hiw (by omega)
    (fun x hx => copy_ok (hwv x hx) (hfv x hx))
    (fun x hx => fromF_spec ip n x notype (by have := sizeOf_mem hx; have := hpos w; omega) (hfv x hx) trivial rfl)
  unfold fromF
  simp only [hs.rd, allocBox_keep hd.rd, Run.bind, ha]
  rw [hlen', u32_of_lt h32, if_pos (by omega), he2]
  simp only
  refine ⟨fun hlt hip => ?_, fun {g' zi} hor hzi hid hg => ?_⟩
  · rcases h2 with ⟨_, h2⟩ | ⟨h, _⟩
    · obtain ⟨k, hk⟩ : ∃ k, w.length = k + 1 := ⟨w.length - 1, by omega⟩
      rw [hk, vecLoop, h2 a (hsub a hGa)]
    · rcases h with h | h
      · omega
      · rw [hip] at h; simp at h
  · rcases h2 with ⟨⟨h1, h2⟩, _⟩ | ⟨_, hw2, ⟨F2, hC2, hR2⟩, hr2, hsame⟩
    · rcases hor with h | h
      · omega
      · rw [h2] at h; simp at h
    · rw [from_gc] at hg
      obtain ⟨r, hr, hg⟩ := out_bind_ok hg
      injection hg with hg
      subst hg
      have hr' : from_gcL w (resizeL notype w.length v) = .ok r := by
        rw [← hr, u32_of_lt h32]
        simp only [oldVector, allocL]
        rw [if_pos (by omega)]
      obtain ⟨m3, F3, he3, hC3, hr3⟩ := vecLoop_around (f := fromF ip n) hzi hid
        (fun hid h1 h2 h3 h4 => by
          obtain ⟨k, rfl⟩ : ∃ k, n = k + 1 := ⟨n - 1, by omega⟩
          exact fromF_idle ip k hid h1 h2 h3 h4) hsub
        w.length 0 m2 (resizeL notype w.length v) r F2 hw2 (by omega)
        (Rep.frame.1 _ _ _ hs.rep fun z hz => hsame z (hsub z hz)) hR2
        (by
          have hiv := (List.getElem?_eq_some_iff.1 hxi).1
          rw [resizeL, List.getElem?_append_left (by rw [List.length_take]; omega), List.getElem?_take_of_lt hiw]; exact hxi)
        hr2 (Rep.frame.1 _ _ _ hRi hsame) (by simpa using hr')
        (fun j x y _ hx hy => by
          have hx := List.mem_of_getElem? hx
          have hwfy : WF y ∧ Fits y ∧ sizeOf y < sizeOf v + 1 := by
            rcases resizeL_mem (List.mem_of_getElem? hy) with h | rfl
            · exact ⟨hwv y h, hfv y h, by have := sizeOf_mem h; omega⟩
            · exact ⟨trivial, rfl, by have := hpos v; omega⟩
          exact fromF_spec ip n x y (by have := sizeOf_mem hx; omega) (hfw x hx) hwfy.1 hwfy.2.1)
      rw [List.take_zero, List.nil_append] at hr3
      exact ⟨m3, .box .VECTOR b, F3, he3, (hC2.trans hC3 (hd.rep.lt hd.wf)).upd hd.wf hd.rd hd.out, hr3⟩

/-- `x = y` where `y` is inside `x` and is lost on the way. -/
theorem fromF_lost (ip : Nat → Nat → Bool) {p : List Sel} (h : Lost ip g p) : ∀ {n : Nat} {m : Mem} {d s : Loc} {c c' : Cell}
    {F G : Addr → Prop} {y : GC}, 2 * sizeOf g < n → Root m d g c F → Root m s y c' G → getAt p g = some y →
    resolve m p d = some s → fromF ip n d s m = .ub := by
  induction h with
  | @other g z p hp hz hi ht =>
    intro n m d s c c' F G y hn hd hs hy hres
    rw [hz] at hy
    injection hy with hy
    subst hy
    have hin : F s.addr := Rep.at_inside p hd.wf hd.rd hd.rep hd.out hz hp hres
    obtain ⟨l', c1, G1, hres', hr1, hR1, hsub, _⟩ := Rep.at p hd.wf hd.rd hd.rep hd.out hz
    rw [hres] at hres'
    injection hres' with hres'
    subst hres'
    rw [hs.rd] at hr1
    injection hr1 with hr1
    subst hr1
    exact fromF_inside ip (by omega) hd.wf hd.rd hd.rep hd.out hs.rd hs.rep
      (fun z hz => hsub z ((Rep.unique.1 _ _ _ _ hs.rep hR1 z).1 hz)) hin hi ht
  | @cut v w i q hw h0 hi =>
    intro n m d s c c' F G y hn hd hs hy hres
    rw [hw] at hy
    injection hy with hy
    subst hy
    obtain ⟨b, rfl, _⟩ := rep_vector_box hd.rep
    rw [GC.vector.sizeOf_spec] at hn
    obtain ⟨n, rfl⟩ : ∃ k, n = k + 1 := ⟨n - 1, by omega⟩
    exact fromF_dropped ip (by omega) hd hs hw hres h0 hi
  | @moved v w i q hw hl hip =>
    intro n m d s c c' F G y hn hd hs hy hres
    rw [hw] at hy
    injection hy with hy
    subst hy
    obtain ⟨b, rfl, _⟩ := rep_vector_box hd.rep
    have hsz := sizeOf_getAt _ hw
    rw [GC.vector.sizeOf_spec] at hn hsz
    rw [GC.vector.sizeOf_spec] at hsz
    obtain ⟨n, rfl⟩ : ∃ k, n = k + 1 := ⟨n - 1, by omega⟩
    have hw' := hw
    simp only [getAt] at hw'
    obtain ⟨x, hx, _⟩ := Option.bind_eq_some_iff.1 hw'
    have hiv := (List.getElem?_eq_some_iff.1 hx).1
    exact (fromF_around ip (by omega) hd hs hw hres hx (by omega)).1 hl hip
  | @replaced v w i q z hw hz hi =>
    intro n m d s c c' F G y hn hd hs hy hres
    rw [hw] at hy
    injection hy with hy
    subst hy
    obtain ⟨b, rfl, _⟩ := rep_vector_box hd.rep
    have hsz := sizeOf_getAt _ hw
    rw [GC.vector.sizeOf_spec] at hn hsz
    rw [GC.vector.sizeOf_spec] at hsz
    obtain ⟨n, rfl⟩ : ∃ k, n = k + 1 := ⟨n - 1, by omega⟩
    have hw' := hw
    simp only [getAt] at hw'
    obtain ⟨x, hx, _⟩ := Option.bind_eq_some_iff.1 hw'
    exact fromF_hit ip (by omega) hd hs hw hres hx hz (.inl hi)
  | @elem v w i q x hw hi hx _ ih =>
    intro n m d s c c' F G y hn hd hs hy hres
    rw [hw] at hy
    injection hy with hy
    subst hy
    obtain ⟨b, rfl, _⟩ := rep_vector_box hd.rep
    have hsz := sizeOf_getAt _ hw
    rw [GC.vector.sizeOf_spec] at hn hsz
    rw [GC.vector.sizeOf_spec] at hsz
    obtain ⟨n, rfl⟩ : ∃ k, n = k + 1 := ⟨n - 1, by omega⟩
    have hwi : w[i]? = some w[i] := List.getElem?_eq_getElem hi
    refine fromF_hit ip (by omega) hd hs hw hres hx hwi (.inr fun m' d' s' c1 c2 F1 F2 hd' hs' hr' => ?_)
    refine ih (by have := sizeOf_mem (List.mem_of_getElem? hx); omega) hd' hs' ?_ hr'
    simp only [getAt, hx, Option.bind_some] at hw
    rw [getAt_append, hw]
    simp only [Option.bind_some, getAt, hwi]
  | @replacedEntry e w k q z hw hz hi =>
    intro n m d s c c' F G y hn hd hs hy hres
    rw [hw] at hy
    injection hy with hy
    subst hy
    obtain ⟨b, rfl, _⟩ := rep_map_box hd.rep
    have hsz := sizeOf_getAt _ hw
    rw [GC.map.sizeOf_spec] at hn hsz
    rw [GC.map.sizeOf_spec] at hsz
    obtain ⟨n, rfl⟩ : ∃ k, n = k + 1 := ⟨n - 1, by omega⟩
    have hw' := hw
    simp only [getAt] at hw'
    obtain ⟨x, hx, _⟩ := Option.bind_eq_some_iff.1 hw'
    exact fromF_hit_map ip hd hs hw hres (by omega) hx hz (.inl hi)
  | @entry e w k q x z hw hz hx _ ih =>
    intro n m d s c c' F G y hn hd hs hy hres
    rw [hw] at hy
    injection hy with hy
    subst hy
    obtain ⟨b, rfl, _⟩ := rep_map_box hd.rep
    have hsz := sizeOf_getAt _ hw
    rw [GC.map.sizeOf_spec] at hn hsz
    rw [GC.map.sizeOf_spec] at hsz
    obtain ⟨n, rfl⟩ : ∃ k, n = k + 1 := ⟨n - 1, by omega⟩
    refine fromF_hit_map ip hd hs hw hres (by omega) hx hz (.inr fun m' d' s' c1 c2 F1 F2 hd' hs' hr' => ?_)
    refine ih ?_ hd' hs' ?_ hr'
    · have := List.sizeOf_lt_of_mem (mem_of_mfind hx)
      rw [Prod.mk.sizeOf_spec] at this
      omega
    simp only [getAt, hx, Option.bind_some] at hw
    rw [getAt_append, hw]
    simp only [Option.bind_some, getAt, hz]

end Heap
end GCV
