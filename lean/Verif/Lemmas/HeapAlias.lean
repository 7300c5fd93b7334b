import Verif.Lemmas.HeapProg

/-! # Assignments between places of which one is inside the other -/

namespace GCV
namespace Heap
open GC

variable {m m' m1 m2 : Mem} {g x y : GC} {c c' : Cell} {F F' G H : Addr → Prop} {d s l : Loc} {a b : Addr}

theorem resolve_append : ∀ (p q : List Sel) (l : Loc), resolve m (p ++ q) l = (resolve m p l).bind (resolve m q)
  | [], q, l => rfl
  | .idx i :: p, q, l => by
    rw [List.cons_append, resolve, resolve]
    split
    · split
      · exact resolve_append p q _
      · rfl
    · rfl
  | .key k :: p, q, l => by
    rw [List.cons_append, resolve, resolve]
    split
    · split
      · exact resolve_append p q _
      · rfl
    · rfl

theorem upd_self {B : Block} (h : m.blk a = some B) : m.upd a (some B) = m := by
  cases m with
  | mk blk next =>
    show Mem.mk _ _ = _
    congr 1
    funext z
    by_cases hz : z = a
    · rw [if_pos hz, hz]; exact h.symm
    · rw [if_neg hz]

theorem upd_upd {B B' : Option Block} : (m.upd a B).upd a B' = m.upd a B' := by
  show Mem.mk _ _ = Mem.mk _ _
  congr 1
  funext z
  show (if z = a then _ else (if z = a then _ else _)) = _
  by_cases hz : z = a
  · rw [if_pos hz, if_pos hz]
  · rw [if_neg hz, if_neg hz, if_neg hz]

theorem clear_write_self {n : Nat} (hr : m.read d = some (.imm g)) :
    ((clearAt n d m).bind fun m _ => m.write d (.imm g)) = .ok m () := by
  obtain ⟨B, hB, hg⟩ := read_some hr
  have h1 : clearAt n d m = .ok (m.upd d.addr (some (B.put d.slot (.imm notype)))) () := by
    unfold clearAt
    rw [hr]
    have : freeF n (.imm g) m = .ok m () := by cases n <;> rfl
    simp only [this, Run.bind, Mem.write, hB, hg]
  rw [h1]
  simp only [Run.bind, Mem.write, blk_upd, if_true, get_put (.imm notype) hg, put_put, put_self hg, upd_upd, upd_self hB]

theorem from_self (hp : plainBox g = true) (hw : WF g) (hf : Fits g) : from_gc g g = .ok g := by
  rw [from_gc_iff g hf hw g hw]
  cases g <;> first
    | (simp [plainBox] at hp; done)
    | (simp [Clean, isEmptyVec, sameKindNonEmpty]; done)

/-- No COMPLEX anywhere in the tree. -/
abbrev noComplex (g : GC) : Bool := every (fun x => x.ty != .COMPLEX) g

theorem self_vecLoop {f : Loc → Loc → Mem → Run Unit} {v : List GC} (hw : Wf m)
    (h : Rep m (vector v) (.box .VECTOR a) F) (hb : m.blk a = some (.vec cs)) (hlen : cs.length = v.length)
    (hf : ∀ (i : Nat) x, v[i]? = some x → f ⟨a, .idx i⟩ ⟨a, .idx i⟩ m = if noComplex x then .ok m () else .ub) :
    ∀ k i, i + k = v.length → vecLoop f a a i k m =
      if everyL (fun x => x.ty != .COMPLEX) (v.drop i) then .ok m () else .ub
  | 0, i, hi => by
    have : v.drop i = [] := List.drop_eq_nil_of_le (by omega)
    rw [this, everyL, if_pos rfl, vecLoop, hb]
  | k + 1, i, hi => by
    have hlt : i < v.length := by omega
    have hx : v[i]? = some v[i] := List.getElem?_eq_getElem hlt
    rw [vecLoop, hb]
    simp only [hlen, if_pos hlt, hf i _ hx]
    rw [drop_of_getElem? hx, everyL]
    by_cases hc : noComplex v[i] = true
    · rw [if_pos hc]
      simp only [Run.bind]
      have h1 : every (fun x => x.ty != .COMPLEX) v[i] = true := hc
      rw [self_vecLoop hw h hb hlen hf k (i + 1) (by omega), h1, Bool.true_and]
    · rw [if_neg hc]
      have h1 : every (fun x => x.ty != .COMPLEX) v[i] = false := by simpa using hc
      rw [h1, Bool.false_and]
      simp [Run.bind]

theorem self_mapLoop {f : Loc → Loc → Mem → Run Unit} {e : Entries} {es : List (Bytes × Cell)} (hw : Wf m)
    (hb : m.blk a = some (.map es)) (hR : RepM m e es G) (hnul : ∀ p ∈ e, cstr p.1 = p.1)
    (hf : ∀ p ∈ e, f ⟨a, .key p.1⟩ ⟨a, .key p.1⟩ m = if noComplex p.2 then .ok m () else .ub)
    (hs : KeysSorted e) :
    ∀ k i, i + k = e.length → mapLoop f a a i k m =
      if everyM (fun x => x.ty != .COMPLEX) (e.drop i) then .ok m () else .ub
  | 0, i, hi => by
    have : e.drop i = [] := List.drop_eq_nil_of_le (by omega)
    rw [this, everyM, if_pos rfl, mapLoop, hb]
  | k + 1, i, hi => by
    have hlt : i < e.length := by omega
    have hx : e[i]? = some e[i] := List.getElem?_eq_getElem hlt
    have hmem : e[i] ∈ e := List.getElem_mem hlt
    have hkeys := hR.keys
    have hlen : es.length = e.length := by simpa using congrArg List.length hkeys
    have hxe : es[i]? = some es[i] := List.getElem?_eq_getElem (by omega)
    have hke : es[i].1 = e[i].1 := by
      have := congrArg (·[i]?) hkeys
      simp only [List.getElem?_map, hx, hxe, Option.map_some, Option.some.injEq] at this
      exact this
    have hkf : (kfind e[i].1 es).isSome := by
      apply repM_kfind hR
      have := mfind_of_mem hs (show (e[i].1, e[i].2) ∈ e from hmem)
      rw [this]; rfl
    rw [mapLoop, hb]
    simp only [hxe]
    have hk1 : keyAt a (cstr es[i].1) m = .ok m () := by
      rw [hke, hnul _ hmem]
      unfold keyAt
      rw [hb]
      cases hkk : kfind e[i].1 es with
      | none => rw [hkk] at hkf; simp at hkf
      | some c => simp only [hkk]
    have hk2 : cstr es[i].1 = e[i].1 := by rw [hke, hnul _ hmem]
    rw [hk1]
    simp only [Run.bind]
    rw [hk2, hke, hf _ hmem, drop_of_getElem? hx]
    have hcons : everyM (fun x => x.ty != .COMPLEX) (e[i] :: e.drop (i + 1)) =
        (every (fun x => x.ty != .COMPLEX) e[i].2 && everyM (fun x => x.ty != .COMPLEX) (e.drop (i + 1))) := by
      obtain ⟨k', x'⟩ := e[i]
      rw [everyM]
    rw [hcons]
    by_cases hc : noComplex e[i].2 = true
    · rw [if_pos hc]
      have h1 : every (fun x => x.ty != .COMPLEX) e[i].2 = true := hc
      rw [h1, Bool.true_and]
      exact self_mapLoop hw hb hR hnul hf hs k (i + 1) (by omega)
    · rw [if_neg hc]
      have h1 : every (fun x => x.ty != .COMPLEX) e[i].2 = false := by simpa using hc
      rw [h1, Bool.false_and]
      simp

/-- `x = x`: nothing happens, unless there is a COMPLEX in it. -/
theorem fromF_self (ip : Nat → Nat → Bool) : ∀ (n : Nat) (g : GC) (m : Mem) (d : Loc) (c : Cell) (F : Addr → Prop),
    sizeOf g < n → WF g → Fits g → Wf m → m.read d = some c → Rep m g c F → ¬ F d.addr →
    fromF ip n d d m = if noComplex g then .ok m () else .ub
  | 0, _, _, _, _, _, h, _, _, _, _, _, _ => by omega
  | n + 1, g, m, d, c, F, hn, hwg, hfg, hw, hr, hg, hd => by
    by_cases hi : immediate g = true
    · have hc : noComplex g = true := by cases g <;> first | rfl | (simp [immediate] at hi; done)
      rw [if_pos hc]
      obtain ⟨rfl, _⟩ := (rep_imm hi).1 hg
      simp only [fromF, hr]
      exact clear_write_self hr
    by_cases hp : plainBox g = true
    · have hc : noComplex g = true := by cases g <;> first | rfl | (simp [plainBox] at hp; done)
      rw [if_pos hc]
      obtain ⟨a, rfl, ha, hF⟩ := (rep_plain hp).1 hg
      rw [fromF_plain hp hr, allocBox_keep hr]
      simp only [Run.bind, fillLeaf, ha, from_self hp hwg hfg, upd_self ha]
    cases g with
    | complex z =>
      have hc : ¬ noComplex (complex z) = true := by simp [noComplex, every, GC.ty]
      rw [if_neg hc]
      obtain ⟨a, rfl, ha, hF⟩ := (rep_box (by simp) (by simp) rfl).1 hg
      have hFa : F a := (hF a).2 rfl
      obtain ⟨m1, he1, hu1, hn1, hr1⟩ := clearAt_spec (n := n) hw hr hg (by omega) hd
      have hw1 := hu1.wf hw (hg.lt hw)
      obtain ⟨m2, he2, hu2, hb2⟩ := new_spec (t := .COMPLEX) (B := .leaf notype) hw1 hr1
      have hlt := hg.lt hw a hFa
      have h2 : m2.blk a = none := by
        rw [hu2.same a (fun e => hd (e ▸ hFa)) (fun h => h) (by omega)]
        exact hu1.gone a hFa fun h => h
      simp only [GC.ty] at hr
      simp only [fromF, hr, he1, Run.bind, he2, h2]
    | vector v =>
      obtain ⟨a, cs, G, rfl, hb, hG, hna, hF⟩ := id hg
      obtain ⟨h32, hfv⟩ := Fits_vector hfg
      have hlen := hG.length
      have hsz : sizeOf v < sizeOf (vector v) := by simp only [GC.vector.sizeOf_spec]; omega
      have hloop := self_vecLoop (f := fromF ip n) hw hg hb hlen (fun i x hx => by
        obtain ⟨c1, G1, hr1, hx1, hsub1, hna1, _⟩ := hg.elem hw hx
        have hx := List.mem_of_getElem? hx
        have h1 := sizeOf_mem hx
        exact fromF_self ip n x m _ c1 G1 (by omega) (WFL_iff.1 hwg x hx) (everyL_iff.1 hfv x hx) hw hr1 hx1 hna1)
        v.length 0 (by omega)
      have hres : (if 0 < u32 cs.length then resizeF ip (freeF n) (fromF ip n) a (u32 cs.length) m else .ok m ())
          = .ok m () := by
        split
        · rw [hlen, u32_of_lt h32, ← hlen]
          unfold resizeF
          rw [hb]
          simp only [Nat.le_refl, if_true, List.drop_length, forL, Run.bind, List.take_length, upd_self hb]
        · rfl
      simp only [fromF, hr, allocBox_keep hr, Run.bind, hb]
      rw [hres]
      simp only
      rw [hlen, hloop, List.drop_zero]
      rfl
    | map e =>
      obtain ⟨a, es, G, rfl, hb, hG, hks, hna, hF⟩ := id hg
      obtain ⟨hnul, hfv⟩ := Fits_map hfg
      have hlen : es.length = e.length := by simpa using congrArg List.length hG.keys
      have hsz : sizeOf e < sizeOf (map e) := by simp only [GC.map.sizeOf_spec]; omega
      have hloop := self_mapLoop (f := fromF ip n) hw hb hG (fun p hp => cstr_of_noNul (hnul p hp)) (fun p hp => by
        have hx := mfind_of_mem hks (show (p.1, p.2) ∈ e from hp)
        obtain ⟨c1, G1, hr1, hx1, hsub1, hna1, _⟩ := hg.entry hw hx
        have h1 : sizeOf p.2 < sizeOf e := by
          have := List.sizeOf_lt_of_mem hp
          obtain ⟨k, x⟩ := p
          rw [Prod.mk.sizeOf_spec] at this
          show sizeOf x < _
          omega
        exact fromF_self ip n p.2 m _ c1 G1 (by omega) (WFM_iff.1 hwg.2 p hp) (everyM_iff.1 hfv p hp) hw hr1 hx1 hna1)
        hks e.length 0 (by omega)
      simp only [fromF, hr, allocBox_keep hr, Run.bind, hb]
      rw [hlen, hloop, List.drop_zero]
      rfl
    | _ => simp [immediate, plainBox] at hi hp

theorem allocBox_gone {n : Nat} {t : Ty} {B : Block} (hw : Wf m) (hr : m.read d = some c) (hg : Rep m g c F)
    (hn : sizeOf g ≤ n) (hFd : ¬ F d.addr) (ht : ∀ a, c ≠ .box t a) :
    ∃ m' a, allocBox n t B d m = .ok m' a ∧ ∀ b, F b → m'.blk b = none := by
  obtain ⟨m1, he1, hu1, hn1, hr1⟩ := clearAt_spec hw hr hg hn hFd
  have hw1 := hu1.wf hw (hg.lt hw)
  obtain ⟨m2, he2, hu2, hb2⟩ := new_spec (t := t) (B := B) hw1 hr1
  refine ⟨m2, m1.next, ?_, ?_⟩
  · cases c with
    | imm g => simp only [allocBox, hr, he1, Run.bind, he2]
    | box t' a =>
      have : t' ≠ t := fun e => ht a (e ▸ rfl)
      simp only [allocBox, hr, if_neg this, he1, Run.bind, he2]
  · intro b hb
    have := hg.lt hw b hb
    rw [hu2.same b (fun e => hFd (e ▸ hb)) (fun h => h) (by omega)]
    exact hu1.gone b hb fun h => h

/-- A container assigned from inside itself, where the tag differs: the first thing that happens is that the source is
released. -/
theorem fromF_inside (ip : Nat → Nat → Bool) {n : Nat} {gs gd : GC} {cs cd : Cell} {Fs Fd : Addr → Prop}
    (hn : sizeOf gd < n) (hw : Wf m) (hd : m.read d = some cd) (hgd : Rep m gd cd Fd) (hdd : ¬ Fd d.addr)
    (hs : m.read s = some cs) (hgs : Rep m gs cs Fs) (hsub : ∀ b, Fs b → Fd b) (hin : Fd s.addr)
    (hi : immediate gs = false) (ht : gd.ty ≠ gs.ty) : fromF ip n d s m = .ub := by
  obtain ⟨n, rfl⟩ : ∃ k, n = k + 1 := ⟨n - 1, by omega⟩
  have hlt := hgd.lt hw
  have hne : ∀ a, cd ≠ .box gs.ty a := by
    rintro a rfl
    cases gd with
    | vector v =>
      obtain ⟨_, _, _, hc, _⟩ := hgd
      injection hc with hc _
      exact ht hc.symm
    | map v =>
      obtain ⟨_, _, _, hc, _⟩ := hgd
      injection hc with hc _
      exact ht hc.symm
    | _ =>
      rw [rep_leaf (by intro v h; cases h) (by intro v h; cases h)] at hgd
      simp only [immediate, if_true, if_false, Bool.false_eq_true] at hgd
      first
        | exact absurd hgd.1 (by simp)
        | (obtain ⟨_, hc, _⟩ := hgd; injection hc with hc _; exact ht hc.symm)
  by_cases hp : plainBox gs = true
  · obtain ⟨a, rfl, ha, hF⟩ := (rep_plain hp).1 hgs
    obtain ⟨m1, a1, he, hgone⟩ := allocBox_gone (n := n) (t := gs.ty) (B := .leaf notype) hw hd hgd (by omega) hdd hne
    rw [fromF_plain hp hs, he]
    simp only [Run.bind, fillLeaf, hgone a (hsub a ((hF a).2 rfl))]
  cases gs with
  | complex z =>
    obtain ⟨a, rfl, ha, hF⟩ := (rep_box (by simp) (by simp) rfl).1 hgs
    obtain ⟨m1, he1, hu1, hn1, hr1⟩ := clearAt_spec (n := n) hw hd hgd (by omega) hdd
    have hw1 := hu1.wf hw hlt
    obtain ⟨m2, he2, hu2, hb2⟩ := new_spec (t := .COMPLEX) (B := .leaf notype) hw1 hr1
    have hFa := hsub a ((hF a).2 rfl)
    have := hlt a hFa
    have h2 : m2.blk a = none := by
      rw [hu2.same a (fun e => hdd (e ▸ hFa)) (fun h => h) (by omega)]
      exact hu1.gone a hFa fun h => h
    simp only [GC.ty] at hs
    simp only [fromF, hs, he1, Run.bind, he2, h2]
  | vector v =>
    obtain ⟨a, _, _, rfl, _⟩ := hgs
    obtain ⟨m1, a1, he, hgone⟩ := allocBox_gone (n := n) (t := .VECTOR) (B := .vec []) hw hd hgd (by omega) hdd hne
    have hr : m1.read s = none := by simp [Mem.read, hgone _ hin]
    simp only [fromF, hs, he, Run.bind, hr]
  | map v =>
    obtain ⟨a, _, _, rfl, _⟩ := hgs
    obtain ⟨m1, a1, he, hgone⟩ := allocBox_gone (n := n) (t := .MAP) (B := .map []) hw hd hgd (by omega) hdd hne
    have hr : m1.read s = none := by simp [Mem.read, hgone _ hin]
    simp only [fromF, hs, he, Run.bind, hr]
  | _ => simp [immediate, plainBox] at hi hp

end Heap
end GCV
