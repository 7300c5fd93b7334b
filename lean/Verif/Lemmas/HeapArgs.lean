import Verif.Model.HeapArgs
import Verif.Lemmas.HeapReplace
import Verif.Props.HeapStable

/-! # Calls whose argument is a reference into a container -/

namespace GCV
namespace Heap
open GC

variable {m m' m1 : Mem} {g g' gd val : GC} {c c' : Cell} {F F' : Addr → Prop} {d l : Loc} {r : Ref} {a b : Addr}

theorem Ref.read_same (h : m'.blk r.addr = m.blk r.addr) : r.read m' = r.read m := by simp only [Ref.read, h]

theorem Ref.read_gone (h : m.blk r.addr = none) : r.read m = none := by simp only [Ref.read, h]

theorem Ref.read_live (h : r.read m = some val) : m.blk r.addr ≠ none := by
  intro e; rw [Ref.read_gone e] at h; simp at h

theorem picked_boxed {part : Option Nat} {y : GC} (hy : boxed y = true) (h : picked part y = some val) : boxed val = true := by
  cases part with
  | none => simp only [picked, Option.some.injEq] at h; rwa [← h]
  | some i =>
    cases y <;> simp only [picked, reduceCtorEq, Option.map_eq_some_iff] at h <;>
      (obtain ⟨_, _, rfl⟩ := h; rfl)

/-- A new payload is at an address that was not used before. -/
theorem allocBox_fresh {n : Nat} {t : Ty} {B : Block} (hw : Wf m) (hr : m.read d = some c) (hg : Rep m g c F)
    (hn : sizeOf g ≤ n) (hFd : ¬ F d.addr) (ht : ∀ a, c ≠ .box t a) :
    ∃ m' a, allocBox n t B d m = .ok m' a ∧ Upd m m' d (.box t a) F (fun b => b = a) ∧ m'.blk a = some B ∧ m.next ≤ a := by
  obtain ⟨m1, he1, hu1, hn1, hr1⟩ := clearAt_spec hw hr hg hn hFd
  have hw1 := hu1.wf hw (hg.lt hw)
  obtain ⟨m2, he2, hu2, hb2⟩ := new_spec (t := t) (B := B) hw1 hr1
  refine ⟨m2, m1.next, ?_, hu1.trans hu2 (read_lt hw hr) hFd (hg.lt hw), hb2, by omega⟩
  cases c with
  | imm g => simp only [allocBox, hr, he1, Run.bind, he2]
  | box t' a =>
    have : t' ≠ t := fun e => ht a (e ▸ rfl)
    simp only [allocBox, hr, if_neg this, he1, Run.bind, he2]

/-- The argument is released by the call. -/
theorem setArgF_lost {n : Nat} (hw : Wf m) (hr : m.read d = some c) (hg : Rep m g c F) (hn : sizeOf g ≤ n) (hd : ¬ F d.addr)
    (hF : F r.addr) {t : Ty} (ht : t = .COMPLEX ∨ ∀ a, c ≠ .box t a) : setArgF n d (.ref t r) m = .ub := by
  have hlt : r.addr < m.next := hg.lt hw _ hF
  by_cases htc : t = .COMPLEX
  · subst htc
    obtain ⟨m1, he1, hu1, hn1, hr1⟩ := clearAt_spec hw hr hg hn hd
    have hw1 := hu1.wf hw (hg.lt hw)
    obtain ⟨m2, he2, hu2, _⟩ := new_spec (t := .COMPLEX) (B := .leaf notype) hw1 hr1
    have hgone : m2.blk r.addr = none := by
      rw [hu2.same _ (by rintro e; exact hd (e ▸ hF)) (fun h => h) (by omega)]
      exact hu1.gone _ hF (fun h => h)
    simp only [setArgF, he1, Run.bind, he2, fillRef, Ref.read_gone hgone]
  · have ht' : ∀ a, c ≠ .box t a := ht.resolve_left htc
    obtain ⟨m1, b, he, hu, hb, hbn⟩ := allocBox_fresh (t := t) (B := .leaf notype) hw hr hg hn hd ht'
    have hgone : m1.blk r.addr = none := hu.gone _ hF (by omega)
    cases t <;> first
      | exact absurd rfl htc
      | (simp only [setArgF, he, Run.bind, fillRef, Ref.read_gone hgone]; try (cases r.read m <;> rfl))

/-- The argument was released before the call. -/
theorem setArgF_gone {n : Nat} (hw : Wf m) (hr : m.read d = some c) (hg : Rep m g c F) (hn : sizeOf g ≤ n) (hd : ¬ F d.addr)
    (hb : m.blk r.addr = none) (hlt : r.addr < m.next) {t : Ty} : setArgF n d (.ref t r) m = .ub := by
  have hne : r.addr ≠ d.addr := by
    intro e
    obtain ⟨B, hB, _⟩ := read_some hr
    rw [← e, hb] at hB
    simp at hB
  have hnF : ¬ F r.addr := fun h => Rep.live.1 g c F hg _ h hb
  by_cases htc : t = .COMPLEX
  · subst htc
    obtain ⟨m1, he1, hu1, hn1, hr1⟩ := clearAt_spec hw hr hg hn hd
    have hw1 := hu1.wf hw (hg.lt hw)
    obtain ⟨m2, he2, hu2, _⟩ := new_spec (t := .COMPLEX) (B := .leaf notype) hw1 hr1
    have hgone : m2.blk r.addr = none := by
      rw [hu2.same _ hne (fun h => h) (by omega), hu1.same _ hne hnF hlt, hb]
    simp only [setArgF, he1, Run.bind, he2, fillRef, Ref.read_gone hgone]
  · by_cases hts : t = .STRING
    · subst hts
      by_cases hc : ∃ a, c = .box .STRING a
      · obtain ⟨a, rfl⟩ := hc
        simp only [setArgF, allocBox_keep hr, Run.bind, fillRef, Ref.read_gone hb]
      · obtain ⟨m1, b, he, hu, _, _⟩ := allocBox_fresh (t := .STRING) (B := .leaf notype) hw hr hg hn hd
          (fun a e => hc ⟨a, e⟩)
        have hgone : m1.blk r.addr = none := by rw [hu.same _ hne hnF hlt, hb]
        simp only [setArgF, he, Run.bind, fillRef, Ref.read_gone hgone]
    · cases t <;> first
        | exact absurd rfl htc
        | exact absurd rfl hts
        | simp only [setArgF, Ref.read_gone hb]

/-- The argument is somewhere else: the call is the call with the value. -/
theorem setArgF_apart {n : Nat} (hw : Wf m) (hr : m.read d = some c) (hg : Rep m g c F) (hn : sizeOf g ≤ n) (hd : ¬ F d.addr)
    (hv : r.read m = some val) (hb : boxed val = true) (hF : ¬ F r.addr) (hne : r.addr ≠ d.addr) :
    setArgF n d (.ref val.ty r) m = setF n d val m := by
  have hlt : r.addr < m.next := hw.lt (Ref.read_live hv)
  by_cases hp : plainBox val = true
  · have key : ∀ m1 b, allocBox n val.ty (.leaf notype) d m = .ok m1 b → r.read m1 = some val := by
      intro m1 b he
      by_cases hc : ∃ a, c = .box val.ty a
      · obtain ⟨a, rfl⟩ := hc
        rw [allocBox_keep hr] at he
        injection he with he _
        rw [← he, hv]
      · obtain ⟨m2, b2, he2, hu, _, _⟩ := allocBox_fresh (t := val.ty) (B := .leaf notype) hw hr hg hn hd
          (fun a e => hc ⟨a, e⟩)
        rw [he2] at he
        injection he with he _
        rw [← he, Ref.read_same (hu.same _ hne hF hlt), hv]
    have h1 : setArgF n d (.ref val.ty r) m = (allocBox n val.ty (.leaf notype) d m).bind fun m b => fillRef r b m := by
      cases val <;> first
        | (simp [plainBox] at hp; done)
        | rfl
        | (simp only [GC.ty, setArgF, hv])
    have h2 : setF n d val m = (allocBox n val.ty (.leaf notype) d m).bind fun m b =>
        match m.blk b with
        | some (.leaf old) =>
          match from_gc val old with
          | .ok g' => .ok (m.upd b (some (.leaf g'))) ()
          | _ => .ub
        | _ => .ub := by
      cases val <;> first
        | (simp [plainBox] at hp; done)
        | rfl
    rw [h1, h2]
    cases he : allocBox n val.ty (.leaf notype) d m with
    | ok m1 b =>
      simp only [Run.bind, fillRef, key m1 b he]
      cases m1.blk b with
      | none => rfl
      | some B => cases B <;> rfl
    | _ => rfl
  · obtain ⟨z, rfl⟩ : ∃ z, val = complex z := by cases val <;> simp_all [boxed, plainBox]
    obtain ⟨m1, he1, hu1, hn1, hr1⟩ := clearAt_spec hw hr hg hn hd
    have hw1 := hu1.wf hw (hg.lt hw)
    have hv1 : r.read m1 = some (complex z) := by rw [Ref.read_same (hu1.same _ hne hF hlt), hv]
    obtain ⟨B0, hB, hg0⟩ := read_some hr1
    have hdl := read_lt hw1 hr1
    have hB' : ∀ X, (m1.alloc X).blk d.addr = some B0 := fun X => by rw [blk_alloc, if_neg (by omega), hB]
    have hw' : ∀ X, (m1.alloc X).write d (.box .COMPLEX m1.next) =
        .ok ((m1.alloc X).upd d.addr (some (B0.put d.slot (.box .COMPLEX m1.next)))) () := fun X => by
      simp [Mem.write, hB', hg0]
    have hv2 : r.read ((m1.alloc (.leaf notype)).upd d.addr (some (B0.put d.slot (.box .COMPLEX m1.next)))) =
        some (complex z) := by
      rw [← hv1]
      apply Ref.read_same
      rw [blk_upd, if_neg hne, blk_alloc, if_neg (by omega)]
    have hn2 : ((m1.alloc (.leaf notype)).upd d.addr (some (B0.put d.slot (.box .COMPLEX m1.next)))).blk m1.next =
        some (.leaf notype) := by
      rw [blk_upd, if_neg (by omega), blk_alloc, if_pos rfl]
    have hfrom : from_gc (complex z) notype = .ok (complex z) := rfl
    simp only [setArgF, setF, GC.ty, he1, Run.bind, hw', fillRef, hv2, hn2, hfrom, Run.ok.injEq, and_true]
    simp only [Mem.upd, Mem.alloc, Mem.mk.injEq, and_true]
    funext x
    by_cases h1 : x = m1.next
    · have : x ≠ d.addr := by omega
      simp [h1, this]
      omega
    · simp [h1]

/-- A `std::vector` that grows and does not stay where it is: everything that was in its elements is released. -/
theorem resizeF_moved {ip : Nat → Nat → Bool} {n sz : Nat} {v : List GC} (hw : Wf m)
    (hb : Rep m (vector v) (.box .VECTOR b) F) (h1 : v.length < sz) (h2 : ip v.length sz = false) (hn : sizeOf v ≤ n)
    (hcopy : ∀ x ∈ v, from_gc x notype = .ok x) (hf : ∀ x ∈ v, FromOk (fromF ip n) x notype) :
    ∃ m' F', resizeF ip (freeF n) (fromF ip n) b sz m = .ok m' () ∧ Chg m m' F F' ∧
      Rep m' (vector (resizeL notype sz v)) (.box .VECTOR b) F' ∧ ∀ z, F z → z ≠ b → m'.blk z = none := by
  obtain ⟨m', F', he, hC, hR⟩ := resizeF_spec (inPlace := ip) (sz := sz) hw hb hn hcopy hf
  refine ⟨m', F', he, hC, hR, ?_⟩
  have hlt := hb.lt hw
  obtain ⟨b', cs, G, hc, hbb, hL, hnb, hF⟩ := id hb
  injection hc with _ hc
  subst hc
  have hlen := hL.length
  intro z hFz hzb
  have hGz : G z := ((hF z).1 hFz).resolve_left hzb
  let m1 := m.alloc (.vec (List.replicate sz (.imm notype)))
  have hm1 : ∀ b, b ≠ m.next → m1.blk b = m.blk b := fun b hb => by
    show (m.alloc _).blk b = _
    rw [blk_alloc, if_neg hb]
  have hw1 : Wf m1 := by
    intro b hb
    have hb : m.next + 1 ≤ b := hb
    rw [hm1 b (by omega)]; exact hw b (by omega)
  have hv1 : Rep m1 (vector v) (.box .VECTOR b) F :=
    Rep.frame.1 _ _ _ hb fun b hb => hm1 b (by have := hlt b hb; omega)
  have hb1 : Rep m1 (vector (List.replicate sz notype)) (.box .VECTOR m.next) (fun b => b = m.next) :=
    ⟨m.next, _, fun _ => False, rfl, by show (m.alloc _).blk _ = _; rw [blk_alloc, if_pos rfl], repL_replicate sz,
      fun h => h, fun b => by tauto⟩
  obtain ⟨m2, F2, he2, hC2, hr2⟩ := vecLoop_spec (f := fromF ip n) cs.length 0 m1 (List.replicate sz notype)
    (v ++ List.replicate (sz - v.length) notype) F _ hw1 (by omega) hv1 hb1
    (fun b hb (e : b = m.next) => by have := hlt b hb; omega)
    (by simpa using from_gcL_replicate v sz hcopy (by omega))
    (fun j x y _ hx hy => by
      have hy' : y = notype := by
        have := List.mem_of_getElem? hy
        exact (List.mem_replicate.1 this).2
      rw [hy']; exact hf x (List.mem_of_getElem? hx))
  have hm2 : ∀ b, b < m.next → m2.blk b = m.blk b := fun b hb => by
    rw [hC2.same b (fun e : b = m.next => by omega) (show b < m.next + 1 by omega), hm1 b (by omega)]
  have hG2 : RepL m2 v cs G := Rep.frame.2.1 _ _ _ hL fun b hb => hm2 b (hlt b ((hF b).2 (Or.inr hb)))
  obtain ⟨m3, he3, hf3⟩ := freeF_spec.2.1 v n m2 cs G hn hG2
  have he' := he
  simp only [resizeF, hbb, hlen, if_neg (show ¬ sz ≤ v.length by omega), h2, if_false, Bool.false_eq_true] at he'
  rw [show m.alloc (.vec (List.replicate sz (.imm notype))) = m1 from rfl, ← hlen, he2] at he'
  simp only [Run.bind, he3] at he'
  have hzl := hlt z hFz
  split at he'
  · simp only [Run.ok.injEq, and_true] at he'
    subst he'
    rw [blk_upd, if_neg (by omega), blk_upd, if_neg hzb, hf3.gone z hGz]
  · simp at he'

/-- The argument at a place that holds something with a payload of its own. -/
theorem Holds.arg {s : St} {E : Vals} {y : Place} {gy : GC} {part : Option Nat} (h : Holds s E) (hy : E.get y = some gy)
    (hb : boxed gy = true) (hv : picked part gy = some val) :
    ∃ ly a, s.loc y = some ly ∧ s.mem.read ly = some (.box gy.ty a) ∧ Rep s.mem gy (.box gy.ty a) (fun b => b = a) ∧
      (Ref.mk a part).read s.mem = some val ∧
      (val = string [] → s.arg y part = some (.val (string []))) ∧
      (val ≠ string [] → s.arg y part = some (.ref val.ty ⟨a, part⟩)) := by
  obtain ⟨_, _, _, _, ly, cy, Gy, _, _, _, _, _, _, _, hly, hry, hRy, _⟩ := h.place hy
  obtain ⟨a, rfl, ha, hG⟩ := (rep_boxed hb).1 hRy
  have hr : (Ref.mk a part).read s.mem = some val := by simp only [Ref.read, ha, hv]
  refine ⟨ly, a, hly, hry, (rep_boxed hb).2 ⟨a, rfl, ha, fun _ => Iff.rfl⟩, hr, ?_, ?_⟩
  · rintro rfl
    simp only [St.arg, hly, hry, hr]
  · intro hne
    simp only [St.arg, hly, hry, hr]

end Heap
end GCV
