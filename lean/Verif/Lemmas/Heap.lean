import Verif.Spec.Heap
import Verif.Lemmas.Map
import Mathlib.Tactic.Tauto

/-! # Lemmas about memory -/

namespace GCV
namespace Heap
open GC

variable {m m' m1 m2 : Mem} {g x y : GC} {c c' : Cell} {F F' G H : Addr → Prop} {d s l : Loc} {a b : Addr}

theorem Run.bind_ok {α β : Type} (m : Mem) (a : α) (f : Mem → α → Run β) : (Run.ok m a).bind f = f m a := rfl

/-! ## Slots -/

theorem kfind_kput (k : Bytes) (c : Cell) : ∀ es : List (Bytes × Cell), (kfind k es).isSome →
    kfind k (kput k c es) = some c
  | [], h => by simp [kfind] at h
  | (k', c') :: r, h => by
    by_cases hk : k = k'
    · simp [kput, kfind, hk]
    · simp only [kfind, hk, if_false] at h
      simp [kput, kfind, hk, kfind_kput k c r h]

theorem kput_kput (k : Bytes) (c c' : Cell) : ∀ es : List (Bytes × Cell),
    kput k c' (kput k c es) = kput k c' es
  | [] => rfl
  | (k', x) :: r => by
    by_cases hk : k = k'
    · simp [kput, hk]
    · simp [kput, hk, kput_kput k c c' r]

theorem kput_self (k : Bytes) (c : Cell) : ∀ es : List (Bytes × Cell), kfind k es = some c → kput k c es = es
  | [], h => by simp [kfind] at h
  | (k', x) :: r, h => by
    by_cases hk : k = k'
    · simp [kfind, hk] at h; simp [kput, hk, h]
    · simp only [kfind, hk, if_false] at h
      simp [kput, hk, kput_self k c r h]

theorem kfind_kput_ne (k k' : Bytes) (c : Cell) (hne : k' ≠ k) : ∀ es : List (Bytes × Cell),
    kfind k' (kput k c es) = kfind k' es
  | [] => rfl
  | (k1, x) :: r => by
    by_cases hk : k = k1
    · subst hk; simp [kput, kfind, hne]
    · by_cases hk' : k' = k1
      · simp [kput, kfind, hk, hk']
      · simp [kput, kfind, hk, hk', kfind_kput_ne k k' c hne r]

theorem put_put (B : Block) (s : Slot) (c c' : Cell) : (B.put s c).put s c' = B.put s c' := by
  cases B <;> cases s <;> simp [Block.put, kput_kput]

theorem put_self {B : Block} {s : Slot} {c : Cell} (h : B.get s = some c) : B.put s c = B := by
  cases B <;> cases s <;> simp [Block.get, Block.put] at h ⊢
  · rename_i cs i
    obtain ⟨hi, he⟩ := List.getElem?_eq_some_iff.1 h
    rw [← he]; exact List.set_getElem_self hi
  · exact kput_self _ _ _ h
  · exact h.symm

theorem get_put {B : Block} {s : Slot} {c : Cell} (c' : Cell) (h : B.get s = some c) :
    (B.put s c').get s = some c' := by
  cases B <;> cases s <;> simp [Block.get, Block.put] at h ⊢
  · rename_i cs i
    obtain ⟨hi, he⟩ := List.getElem?_eq_some_iff.1 h
    simp [hi]
  · exact kfind_kput _ _ _ (by rw [h]; rfl)

theorem get_put_ne {B : Block} {s s' : Slot} (c : Cell) (h : s' ≠ s) : (B.put s c).get s' = B.get s' := by
  cases B <;> cases s <;> cases s' <;> simp [Block.get, Block.put] at h ⊢
  · rw [List.getElem?_set_ne (fun e => h e.symm)]
  · exact kfind_kput_ne _ _ _ h _

/-! ## What memory holds -/

/-- The entry of a key replaced, in a tree. -/
def mput (k : Bytes) (y : GC) : Entries → Entries
  | [] => []
  | (k', y') :: r => if k = k' then (k', y) :: r else (k', y') :: mput k y r


theorem rep_leaf (h1 : ∀ v, g ≠ vector v) (h2 : ∀ e, g ≠ map e) :
    Rep m g c F ↔ if immediate g then c = .imm g ∧ ∀ b, ¬ F b
      else ∃ a, c = .box g.ty a ∧ m.blk a = some (.leaf g) ∧ ∀ b, F b ↔ b = a := by
  cases g <;> first | exact absurd rfl (h1 _) | exact absurd rfl (h2 _) | exact Iff.rfl

theorem rep_imm (h : immediate g = true) : Rep m g c F ↔ (c = .imm g ∧ ∀ b, ¬ F b) := by
  rw [rep_leaf (by rintro v rfl; simp [immediate] at h) (by rintro v rfl; simp [immediate] at h), if_pos h]

theorem rep_notype : Rep m notype (.imm notype) (fun _ => False) :=
  (rep_imm rfl).2 ⟨rfl, fun _ h => h⟩

theorem Rep.live : (∀ g : GC, ∀ c F, Rep m g c F → ∀ b, F b → m.blk b ≠ none) ∧
    (∀ v : List GC, ∀ cs F, RepL m v cs F → ∀ b, F b → m.blk b ≠ none) ∧
    (∀ e : Entries, ∀ es F, RepM m e es F → ∀ b, F b → m.blk b ≠ none) := by
  apply GC.induct
  · intro g h1 h2 c F h b hb
    rw [rep_leaf h1 h2] at h
    by_cases hi : immediate g = true
    · rw [if_pos hi] at h; exact absurd hb (h.2 b)
    · rw [if_neg hi] at h
      obtain ⟨a, _, ha, hF⟩ := h
      rw [(hF b).1 hb, ha]; simp
  · intro v ih c F h b hb
    obtain ⟨a, cs, G, _, ha, hG, _, hF⟩ := h
    rcases (hF b).1 hb with rfl | hb
    · rw [ha]; simp
    · exact ih cs G hG b hb
  · intro v ih c F h b hb
    obtain ⟨a, cs, G, _, ha, hG, _, _, hF⟩ := h
    rcases (hF b).1 hb with rfl | hb
    · rw [ha]; simp
    · exact ih cs G hG b hb
  · intro cs F h b hb; exact absurd hb (h.2 b)
  · intro x xs ihx ihs cs F h b hb
    obtain ⟨c, cs', G, H, _, hx, hs, _, hF⟩ := h
    rcases (hF b).1 hb with hb | hb
    · exact ihx _ _ hx b hb
    · exact ihs _ _ hs b hb
  · intro cs F h b hb; exact absurd hb (h.2 b)
  · intro k x xs ihx ihs cs F h b hb
    obtain ⟨c, cs', G, H, _, hx, hs, _, hF⟩ := h
    rcases (hF b).1 hb with hb | hb
    · exact ihx _ _ hx b hb
    · exact ihs _ _ hs b hb

theorem Rep.frame : (∀ g : GC, ∀ c F, Rep m g c F → (∀ b, F b → m'.blk b = m.blk b) → Rep m' g c F) ∧
    (∀ v : List GC, ∀ cs F, RepL m v cs F → (∀ b, F b → m'.blk b = m.blk b) → RepL m' v cs F) ∧
    (∀ e : Entries, ∀ es F, RepM m e es F → (∀ b, F b → m'.blk b = m.blk b) → RepM m' e es F) := by
  apply GC.induct
  · intro g h1 h2 c F h hm
    rw [rep_leaf h1 h2] at h ⊢
    by_cases hi : immediate g = true
    · rw [if_pos hi] at h ⊢; exact h
    · rw [if_neg hi] at h ⊢
      obtain ⟨a, hc, ha, hF⟩ := h
      exact ⟨a, hc, by rw [hm a ((hF a).2 rfl), ha], hF⟩
  · intro v ih c F h hm
    obtain ⟨a, cs, G, hc, ha, hG, hn, hF⟩ := h
    exact ⟨a, cs, G, hc, by rw [hm a ((hF a).2 (Or.inl rfl)), ha],
      ih cs G hG fun b hb => hm b ((hF b).2 (Or.inr hb)), hn, hF⟩
  · intro v ih c F h hm
    obtain ⟨a, cs, G, hc, ha, hG, hk, hn, hF⟩ := h
    exact ⟨a, cs, G, hc, by rw [hm a ((hF a).2 (Or.inl rfl)), ha],
      ih cs G hG fun b hb => hm b ((hF b).2 (Or.inr hb)), hk, hn, hF⟩
  · intro cs F h _; exact h
  · intro x xs ihx ihs cs F h hm
    obtain ⟨c, cs', G, H, hc, hx, hs, hd, hF⟩ := h
    exact ⟨c, cs', G, H, hc, ihx _ _ hx fun b hb => hm b ((hF b).2 (Or.inl hb)),
      ihs _ _ hs fun b hb => hm b ((hF b).2 (Or.inr hb)), hd, hF⟩
  · intro cs F h _; exact h
  · intro k x xs ihx ihs cs F h hm
    obtain ⟨c, cs', G, H, hc, hx, hs, hd, hF⟩ := h
    exact ⟨c, cs', G, H, hc, ihx _ _ hx fun b hb => hm b ((hF b).2 (Or.inl hb)),
      ihs _ _ hs fun b hb => hm b ((hF b).2 (Or.inr hb)), hd, hF⟩

theorem Rep.congr (h : Rep m g c F) (hF : ∀ b, F b ↔ F' b) : Rep m g c F' := by
  have : F = F' := funext fun b => propext (hF b)
  exact this ▸ h

theorem RepL.congr {v : List GC} {cs : List Cell} (h : RepL m v cs F) (hF : ∀ b, F b ↔ F' b) : RepL m v cs F' := by
  have : F = F' := funext fun b => propext (hF b)
  exact this ▸ h

theorem RepM.congr {v : Entries} {cs : List (Bytes × Cell)} (h : RepM m v cs F) (hF : ∀ b, F b ↔ F' b) :
    RepM m v cs F' := by
  have : F = F' := funext fun b => propext (hF b)
  exact this ▸ h

theorem RepL.length : ∀ {v : List GC} {cs : List Cell} {F : Addr → Prop}, RepL m v cs F → cs.length = v.length
  | [], _, _, h => by rw [h.1]; rfl
  | _ :: xs, _, _, h => by
    obtain ⟨c, cs', G, H, rfl, _, hs, _, _⟩ := h
    simp [RepL.length hs]

theorem RepM.keys : ∀ {e : Entries} {es : List (Bytes × Cell)} {F : Addr → Prop}, RepM m e es F →
    es.map Prod.fst = e.map Prod.fst
  | [], _, _, h => by rw [h.1]; rfl
  | (k, _) :: xs, _, _, h => by
    obtain ⟨c, cs', G, H, rfl, _, hs, _, _⟩ := h
    simp [RepM.keys hs]

/-! ## Releasing -/

/-- The blocks in `F` are released and nothing else changes. -/
structure Freed (m m' : Mem) (F : Addr → Prop) : Prop where
  next : m'.next = m.next
  gone : ∀ b, F b → m'.blk b = none
  same : ∀ b, ¬ F b → m'.blk b = m.blk b

theorem Freed.upd (h : Freed m m' G) (hF : ∀ b, F b ↔ (b = a ∨ G b)) : Freed m (m'.upd a none) F := by
  refine ⟨h.next, fun b hb => ?_, fun b hb => ?_⟩
  · show (if b = a then none else m'.blk b) = none
    by_cases hba : b = a
    · rw [if_pos hba]
    · rw [if_neg hba]; exact h.gone b (((hF b).1 hb).resolve_left hba)
  · have h1 : ¬ b = a := fun e => hb ((hF b).2 (Or.inl e))
    have h2 : ¬ G b := fun e => hb ((hF b).2 (Or.inr e))
    show (if b = a then none else m'.blk b) = m.blk b
    rw [if_neg h1]; exact h.same b h2

theorem Freed.trans (h1 : Freed m m1 G) (h2 : Freed m1 m2 H) (hF : ∀ b, F b ↔ (G b ∨ H b)) : Freed m m2 F := by
  refine ⟨h2.next.trans h1.next, fun b hb => ?_, fun b hb => ?_⟩
  · by_cases hh : H b
    · exact h2.gone b hh
    · rw [h2.same b hh]; exact h1.gone b (((hF b).1 hb).resolve_right hh)
  · rw [h2.same b fun e => hb ((hF b).2 (Or.inr e)), h1.same b fun e => hb ((hF b).2 (Or.inl e))]

theorem freeF_spec : (∀ g : GC, ∀ n m c F, sizeOf g ≤ n → Rep m g c F → ∃ m', freeF n c m = .ok m' () ∧ Freed m m' F) ∧
    (∀ v : List GC, ∀ n m cs F, sizeOf v ≤ n → RepL m v cs F →
      ∃ m', forL (freeF n) cs m = .ok m' () ∧ Freed m m' F) ∧
    (∀ e : Entries, ∀ n m es F, sizeOf e ≤ n → RepM m e es F →
      ∃ m', forL (freeF n) (es.map Prod.snd) m = .ok m' () ∧ Freed m m' F) := by
  apply GC.induct
  · intro g h1 h2 n m c F hn h
    rw [rep_leaf h1 h2] at h
    by_cases hi : immediate g = true
    · rw [if_pos hi] at h
      exact ⟨m, by rw [h.1]; cases n <;> rfl, rfl, fun b hb => absurd hb (h.2 b), fun b _ => rfl⟩
    · rw [if_neg hi] at h
      obtain ⟨a, hc, ha, hF⟩ := h
      have hpos : 0 < sizeOf g := by cases g <;> simp only [GC.vector.sizeOf_spec, GC.notype.sizeOf_spec, GC.pointer.sizeOf_spec, GC.bool.sizeOf_spec, GC.int.sizeOf_spec, GC.long.sizeOf_spec, GC.real.sizeOf_spec, GC.complex.sizeOf_spec, GC.string.sizeOf_spec, GC.vecPointer.sizeOf_spec, GC.vecBool.sizeOf_spec, GC.vecInt.sizeOf_spec, GC.vecLong.sizeOf_spec, GC.vecReal.sizeOf_spec, GC.vecComplex.sizeOf_spec, GC.vecString.sizeOf_spec, GC.matInt.sizeOf_spec, GC.matLong.sizeOf_spec, GC.matReal.sizeOf_spec, GC.matComplex.sizeOf_spec, GC.map.sizeOf_spec] <;> omega
      obtain ⟨k, rfl⟩ : ∃ k, n = k + 1 := ⟨n - 1, by omega⟩
      refine ⟨m.upd a none, by rw [hc]; simp only [freeF, ha], ?_⟩
      exact Freed.upd (G := fun _ => False) ⟨rfl, fun b hb => hb.elim, fun _ _ => rfl⟩ (by simpa using hF)
  · intro v ih n m c F hn h
    obtain ⟨a, cs, G, rfl, ha, hG, _, hF⟩ := h
    rw [GC.vector.sizeOf_spec] at hn
    obtain ⟨k, rfl⟩ : ∃ k, n = k + 1 := ⟨n - 1, by omega⟩
    obtain ⟨m', he, hf⟩ := ih k m cs G (by omega) hG
    exact ⟨m'.upd a none, by simp only [freeF, ha, he, Run.bind], hf.upd hF⟩
  · intro v ih n m c F hn h
    obtain ⟨a, cs, G, rfl, ha, hG, _, _, hF⟩ := h
    rw [GC.map.sizeOf_spec] at hn
    obtain ⟨k, rfl⟩ : ∃ k, n = k + 1 := ⟨n - 1, by omega⟩
    obtain ⟨m', he, hf⟩ := ih k m cs G (by omega) hG
    exact ⟨m'.upd a none, by simp only [freeF, ha, he, Run.bind], hf.upd hF⟩
  · intro n m cs F _ h
    exact ⟨m, by rw [h.1]; rfl, rfl, fun b hb => absurd hb (h.2 b), fun _ _ => rfl⟩
  · intro x xs ihx ihs n m cs F hn h
    obtain ⟨c, cs', G, H, rfl, hx, hs, hd, hF⟩ := h
    rw [List.cons.sizeOf_spec] at hn
    obtain ⟨m1, he1, hf1⟩ := ihx n m c G (by omega) hx
    have hs1 : RepL m1 xs cs' H := Rep.frame.2.1 xs cs' H hs fun b hb => hf1.same b fun hg => hd b hg hb
    obtain ⟨m2, he2, hf2⟩ := ihs n m1 cs' H (by omega) hs1
    exact ⟨m2, by simp only [forL, he1, Run.bind, he2], hf1.trans hf2 hF⟩
  · intro n m cs F _ h
    exact ⟨m, by rw [h.1]; rfl, rfl, fun b hb => absurd hb (h.2 b), fun _ _ => rfl⟩
  · intro k x xs ihx ihs n m cs F hn h
    obtain ⟨c, cs', G, H, rfl, hx, hs, hd, hF⟩ := h
    rw [List.cons.sizeOf_spec, Prod.mk.sizeOf_spec] at hn
    obtain ⟨m1, he1, hf1⟩ := ihx n m c G (by omega) hx
    have hs1 : RepM m1 xs cs' H := Rep.frame.2.2 xs cs' H hs fun b hb => hf1.same b fun hg => hd b hg hb
    obtain ⟨m2, he2, hf2⟩ := ihs n m1 cs' H (by omega) hs1
    exact ⟨m2, by simp only [List.map_cons, forL, he1, Run.bind, he2], hf1.trans hf2 hF⟩

/-! ## Changing one container -/

/-- From `m` to `m'` the container at `d` becomes `c'`; its payloads, which were the blocks in `F`, are now the blocks
in `F'`, some of them new; the others of `F` are released, and nothing else changes. -/
structure Upd (m m' : Mem) (d : Loc) (c' : Cell) (F F' : Addr → Prop) : Prop where
  own : m'.blk d.addr = (m.blk d.addr).map (·.put d.slot c')
  same : ∀ b, b ≠ d.addr → ¬ F b → b < m.next → m'.blk b = m.blk b
  sub : ∀ b, F' b → F b ∨ (m.next ≤ b ∧ b < m'.next)
  gone : ∀ b, F b → ¬ F' b → m'.blk b = none
  fresh : ∀ b, m.next ≤ b → ¬ F' b → m'.blk b = none
  mono : m.next ≤ m'.next

theorem Wf.lt (h : Wf m) (hb : m.blk b ≠ none) : b < m.next :=
  Nat.lt_of_not_le fun hle => hb (h b hle)

theorem Rep.lt (hw : Wf m) (h : Rep m g c F) : ∀ b, F b → b < m.next :=
  fun b hb => hw.lt (Rep.live.1 g c F h b hb)

theorem read_lt (hw : Wf m) (h : m.read d = some c) : d.addr < m.next := by
  apply hw.lt
  intro e
  simp [Mem.read, e] at h

theorem read_some (h : m.read d = some c) : ∃ B, m.blk d.addr = some B ∧ B.get d.slot = some c := by
  unfold Mem.read at h
  cases hb : m.blk d.addr with
  | none => rw [hb] at h; simp at h
  | some B => rw [hb] at h; exact ⟨B, rfl, h⟩

theorem Upd.refl (hw : Wf m) (h : m.read d = some c) : Upd m m d c F F := by
  obtain ⟨B, hB, hg⟩ := read_some h
  refine ⟨by rw [hB, Option.map_some, put_self hg], fun _ _ _ _ => rfl, fun b hb => Or.inl hb,
    fun b h1 h2 => absurd h1 h2, fun b h1 _ => hw b h1, Nat.le_refl _⟩

theorem Upd.read (h : Upd m m' d c' F F') (hr : m.read d = some c) : m'.read d = some c' := by
  obtain ⟨B, hB, hg⟩ := read_some hr
  unfold Mem.read
  rw [h.own, hB]
  exact get_put c' hg

theorem Upd.read_ne (hw : Wf m) (h : Upd m m' d c' F F') (hr : m.read s = some c) (hs : s ≠ d) (hF : ¬ F s.addr) :
    m'.read s = some c := by
  obtain ⟨B, hB, hg⟩ := read_some hr
  by_cases ha : s.addr = d.addr
  · have hsl : s.slot ≠ d.slot := by
      intro e; apply hs; cases s; cases d; simp_all
    unfold Mem.read
    rw [ha, h.own, ← ha, hB]
    show (B.put d.slot c').get s.slot = some c
    rw [get_put_ne _ hsl, hg]
  · unfold Mem.read
    rw [h.same _ ha hF (read_lt hw hr), hB]; exact hg

theorem Upd.wf (hw : Wf m) (h : Upd m m' d c' F F') (hF : ∀ b, F b → b < m.next) : Wf m' := by
  intro b hb
  have := h.mono
  apply h.fresh b (by omega)
  intro hb'
  rcases h.sub b hb' with h1 | h1
  · have := hF b h1; omega
  · omega

theorem Upd.trans (h1 : Upd m m1 d c F G) (h2 : Upd m1 m2 d c' G H) (hd : d.addr < m.next) (hFd : ¬ F d.addr)
    (hF : ∀ b, F b → b < m.next) : Upd m m2 d c' F H := by
  have hGd : ¬ G d.addr := fun hg => (h1.sub _ hg).elim hFd fun h => by omega
  have m1' := h1.mono
  have m2' := h2.mono
  refine ⟨?_, ?_, ?_, ?_, ?_, by omega⟩
  · rw [h2.own, h1.own]
    cases m.blk d.addr with
    | none => rfl
    | some B => simp [put_put]
  · intro b hb hFb hlt
    have hGb : ¬ G b := fun hg => (h1.sub _ hg).elim hFb fun h => by omega
    rw [h2.same b hb hGb (by omega), h1.same b hb hFb hlt]
  · intro b hb
    rcases h2.sub b hb with hg | hg
    · rcases h1.sub b hg with hf | hf
      · exact Or.inl hf
      · exact Or.inr ⟨hf.1, by omega⟩
    · exact Or.inr ⟨by omega, hg.2⟩
  · intro b hb hH
    have hbd : b ≠ d.addr := fun e => hFd (e ▸ hb)
    by_cases hg : G b
    · exact h2.gone b hg hH
    · rw [h2.same b hbd hg (by have := hF b hb; omega)]
      exact h1.gone b hb hg
  · intro b hb hH
    have hbd : b ≠ d.addr := fun e => by omega
    by_cases hb1 : m1.next ≤ b
    · exact h2.fresh b hb1 hH
    · by_cases hg : G b
      · exact h2.gone b hg hH
      · rw [h2.same b hbd hg (by omega)]
        exact h1.fresh b hb hg

/-- From `m` to `m'` the blocks in `F` become the blocks in `F'`, some of them new; the others of `F` are released, and
nothing else changes. -/
structure Chg (m m' : Mem) (F F' : Addr → Prop) : Prop where
  same : ∀ b, ¬ F b → b < m.next → m'.blk b = m.blk b
  sub : ∀ b, F' b → F b ∨ (m.next ≤ b ∧ b < m'.next)
  gone : ∀ b, F b → ¬ F' b → m'.blk b = none
  fresh : ∀ b, m.next ≤ b → ¬ F' b → m'.blk b = none
  mono : m.next ≤ m'.next

theorem Chg.refl (hw : Wf m) : Chg m m F F :=
  ⟨fun _ _ _ => rfl, fun _ hb => Or.inl hb, fun _ h1 h2 => absurd h1 h2, fun b h1 _ => hw b h1, Nat.le_refl _⟩

theorem Chg.wf (hw : Wf m) (h : Chg m m' F F') (hF : ∀ b, F b → b < m.next) : Wf m' := by
  intro b hb
  have := h.mono
  apply h.fresh b (by omega)
  intro hb'
  rcases h.sub b hb' with h1 | h1
  · have := hF b h1; omega
  · omega

theorem Chg.trans (h1 : Chg m m1 F G) (h2 : Chg m1 m2 G H) (hF : ∀ b, F b → b < m.next) : Chg m m2 F H := by
  have m1' := h1.mono
  have m2' := h2.mono
  refine ⟨?_, ?_, ?_, ?_, by omega⟩
  · intro b hFb hlt
    have hGb : ¬ G b := fun hg => (h1.sub _ hg).elim hFb fun h => by omega
    rw [h2.same b hGb (by omega), h1.same b hFb hlt]
  · intro b hb
    rcases h2.sub b hb with hg | hg
    · rcases h1.sub b hg with hf | hf
      · exact Or.inl hf
      · exact Or.inr ⟨hf.1, by omega⟩
    · exact Or.inr ⟨by omega, hg.2⟩
  · intro b hb hH
    by_cases hg : G b
    · exact h2.gone b hg hH
    · rw [h2.same b hg (by have := hF b hb; omega)]
      exact h1.gone b hb hg
  · intro b hb hH
    by_cases hb1 : m1.next ≤ b
    · exact h2.fresh b hb1 hH
    · by_cases hg : G b
      · exact h2.gone b hg hH
      · rw [h2.same b hg (by omega)]
        exact h1.fresh b hb hg

/-- A change inside the payloads of the container at `d` is a change of the container at `d`. -/
theorem Chg.upd (hw : Wf m) (h : Chg m m' F F') (hr : m.read d = some c) (hFd : ¬ F d.addr) : Upd m m' d c F F' := by
  obtain ⟨B, hB, hg⟩ := read_some hr
  refine ⟨?_, fun b _ hb hlt => h.same b hb hlt, h.sub, h.gone, h.fresh, h.mono⟩
  rw [h.same _ hFd (read_lt hw hr), hB, Option.map_some, put_self hg]

/-- A change to a container in one of the blocks in `F` is a change inside `F`. -/
theorem Upd.chg {e : Loc} (h : Upd m m' e c' G H) (he : F e.addr) (hG : ∀ b, G b → F b) :
    Chg m m' F (fun b => (F b ∧ ¬ G b) ∨ H b) := by
  refine ⟨?_, ?_, ?_, ?_, h.mono⟩
  · intro b hFb hlt
    exact h.same b (fun e' => hFb (e' ▸ he)) (fun hg => hFb (hG b hg)) hlt
  · intro b hb
    rcases hb with hb | hb
    · exact Or.inl hb.1
    · exact (h.sub b hb).imp_left (hG b)
  · intro b hb hb'
    have h1 : G b := Classical.byContradiction fun hg => hb' (Or.inl ⟨hb, hg⟩)
    exact h.gone b h1 fun hh => hb' (Or.inr hh)
  · intro b hb hb'
    exact h.fresh b hb fun hh => hb' (Or.inr hh)

/-- A change to a container inside the payloads of the container at `d` is a change of the container at `d`. -/
theorem Upd.lift (hw : Wf m) {e : Loc} (h : Upd m m' e c' G H) (hr : m.read d = some c) (he : F e.addr)
    (hFd : ¬ F d.addr) (hG : ∀ b, G b → F b) (hF' : ∀ b, F' b ↔ ((F b ∧ ¬ G b) ∨ H b)) : Upd m m' d c F F' := by
  have hne : d.addr ≠ e.addr := fun e' => hFd (e' ▸ he)
  have hGd : ¬ G d.addr := fun hg => hFd (hG _ hg)
  obtain ⟨B, hB, hg⟩ := read_some hr
  refine ⟨?_, ?_, ?_, ?_, ?_, h.mono⟩
  · rw [h.same _ hne hGd (read_lt hw hr), hB, Option.map_some, put_self hg]
  · intro b hb hFb hlt
    exact h.same b (fun e' => hFb (e' ▸ he)) (fun hg => hFb (hG b hg)) hlt
  · intro b hb
    rcases (hF' b).1 hb with hb | hb
    · exact Or.inl hb.1
    · exact (h.sub b hb).imp_left (hG b)
  · intro b hb hb'
    have h1 : G b := Classical.byContradiction fun hg => hb' ((hF' b).2 (Or.inl ⟨hb, hg⟩))
    exact h.gone b h1 fun hh => hb' ((hF' b).2 (Or.inr hh))
  · intro b hb hb'
    exact h.fresh b hb fun hh => hb' ((hF' b).2 (Or.inr hh))

theorem blk_upd (m : Mem) (a : Addr) (B : Option Block) (b : Addr) :
    (m.upd a B).blk b = if b = a then B else m.blk b := rfl

theorem blk_alloc (m : Mem) (B : Block) (b : Addr) :
    (m.alloc B).blk b = if b = m.next then some B else m.blk b := rfl

theorem write_spec (hw : Wf m) (hr : m.read d = some c) :
    ∃ m', m.write d c' = .ok m' () ∧ Upd m m' d c' F F ∧ m'.next = m.next ∧
      ∀ b, b ≠ d.addr → m'.blk b = m.blk b := by
  obtain ⟨B, hB, hg⟩ := read_some hr
  have hlt := read_lt hw hr
  refine ⟨m.upd d.addr (some (B.put d.slot c')), by simp [Mem.write, hB, hg], ⟨?_, ?_, ?_, ?_, ?_, ?_⟩, rfl, ?_⟩
  · rw [blk_upd, if_pos rfl, hB]; rfl
  · intro b hb _ _; rw [blk_upd, if_neg hb]
  · intro b hb; exact Or.inl hb
  · intro b h1 h2; exact absurd h1 h2
  · intro b hb _; rw [blk_upd, if_neg (by omega)]; exact hw b hb
  · exact Nat.le_refl _
  · intro b hb; rw [blk_upd, if_neg hb]

theorem clearAt_spec {n : Nat} (hw : Wf m) (hr : m.read d = some c) (hg : Rep m g c F) (hn : sizeOf g ≤ n)
    (hFd : ¬ F d.addr) :
    ∃ m', clearAt n d m = .ok m' () ∧ Upd m m' d (.imm notype) F (fun _ => False) ∧ m'.next = m.next ∧
      m'.read d = some (.imm notype) := by
  obtain ⟨m1, he, hf⟩ := freeF_spec.1 g n m c F hn hg
  have hw1 : Wf m1 := by
    intro b hb
    rw [hf.next] at hb
    by_cases h : F b
    · exact hf.gone b h
    · rw [hf.same b h]; exact hw b hb
  have hr1 : m1.read d = some c := by unfold Mem.read; rw [hf.same _ hFd]; exact hr
  obtain ⟨m2, he2, hu, hn2, hs2⟩ := write_spec (c' := .imm notype) (F := fun _ => False) hw1 hr1
  refine ⟨m2, by simp only [clearAt, hr, he, Run.bind, he2], ⟨?_, ?_, ?_, ?_, ?_, ?_⟩, by rw [hn2, hf.next], hu.read hr1⟩
  · rw [hu.own, hf.same _ hFd]
  · intro b hb hF _; rw [hs2 b hb, hf.same b hF]
  · intro b hb; exact hb.elim
  · intro b hb _; rw [hs2 b (fun e => hFd (e ▸ hb)), hf.gone b hb]
  · intro b hb _
    have := read_lt hw hr
    rw [hs2 b (by omega)]; exact hw1 b (by rw [hf.next]; exact hb)
  · rw [hn2, hf.next]; exact Nat.le_refl _

theorem new_spec {t : Ty} {B : Block} (hw : Wf m) (hr : m.read d = some c) :
    ∃ m', (m.alloc B).write d (.box t m.next) = .ok m' () ∧
      Upd m m' d (.box t m.next) (fun _ => False) (fun b => b = m.next) ∧ m'.blk m.next = some B := by
  obtain ⟨B0, hB, hg⟩ := read_some hr
  have hlt := read_lt hw hr
  have hB' : (m.alloc B).blk d.addr = some B0 := by rw [blk_alloc, if_neg (by omega), hB]
  refine ⟨(m.alloc B).upd d.addr (some (B0.put d.slot (.box t m.next))), by simp [Mem.write, hB', hg],
    ⟨?_, ?_, ?_, ?_, ?_, ?_⟩, ?_⟩
  · rw [blk_upd, if_pos rfl, hB]; rfl
  · intro b hb _ hlt'; rw [blk_upd, if_neg hb, blk_alloc, if_neg (by omega)]
  · intro b hb; exact Or.inr ⟨by omega, by show b < m.next + 1; omega⟩
  · intro b h1 _; exact h1.elim
  · intro b hb hb'; rw [blk_upd, if_neg (by omega), blk_alloc, if_neg hb']; exact hw b hb
  · show m.next ≤ m.next + 1; omega
  · rw [blk_upd, if_neg (by omega), blk_alloc, if_pos rfl]

theorem allocBox_new {n : Nat} {t : Ty} {B : Block} (hw : Wf m) (hr : m.read d = some c) (hg : Rep m g c F)
    (hn : sizeOf g ≤ n) (hFd : ¬ F d.addr) (ht : ∀ a, c ≠ .box t a) :
    ∃ m' a, allocBox n t B d m = .ok m' a ∧ Upd m m' d (.box t a) F (fun b => b = a) ∧ m'.blk a = some B := by
  obtain ⟨m1, he1, hu1, hn1, hr1⟩ := clearAt_spec hw hr hg hn hFd
  have hw1 := hu1.wf hw (hg.lt hw)
  obtain ⟨m2, he2, hu2, hb2⟩ := new_spec (t := t) (B := B) hw1 hr1
  refine ⟨m2, m1.next, ?_, hu1.trans hu2 (read_lt hw hr) hFd (hg.lt hw), hb2⟩
  cases c with
  | imm g => simp only [allocBox, hr, he1, Run.bind, he2]
  | box t' a =>
    have : t' ≠ t := fun e => ht a (e ▸ rfl)
    simp only [allocBox, hr, if_neg this, he1, Run.bind, he2]

theorem allocBox_keep {n : Nat} {t : Ty} {B : Block} (hr : m.read d = some (.box t a)) :
    allocBox n t B d m = .ok m a := by
  simp [allocBox, hr]

theorem rep_box_ne_vector (hg : Rep m g (.box .VECTOR a) F) : ∃ v, g = vector v := by
  cases g <;> first
    | exact ⟨_, rfl⟩
    | (exfalso; simp [Rep, immediate, GC.ty] at hg)

theorem rep_box_ne_map (hg : Rep m g (.box .MAP a) F) : ∃ v, g = map v := by
  cases g <;> first
    | exact ⟨_, rfl⟩
    | (exfalso; simp [Rep, immediate, GC.ty] at hg)

theorem allocVector_spec {n : Nat} (hw : Wf m) (hr : m.read d = some c) (hg : Rep m g c F)
    (hn : sizeOf g ≤ n) (hFd : ¬ F d.addr) :
    ∃ m' a F', allocBox n .VECTOR (.vec []) d m = .ok m' a ∧ Upd m m' d (.box .VECTOR a) F F' ∧
      Rep m' (vector g.oldVector) (.box .VECTOR a) F' := by
  by_cases h : ∃ a, c = .box .VECTOR a
  · obtain ⟨a, rfl⟩ := h
    obtain ⟨v, rfl⟩ := rep_box_ne_vector hg
    exact ⟨m, a, F, allocBox_keep hr, Upd.refl hw hr, hg⟩
  · obtain ⟨m', a, he, hu, hb⟩ := allocBox_new (t := .VECTOR) (B := .vec []) hw hr hg hn hFd fun a e => h ⟨a, e⟩
    refine ⟨m', a, _, he, hu, ?_⟩
    have : g.oldVector = [] := by
      cases g <;> first | rfl | (obtain ⟨a, cs, G, hc, _⟩ := hg; exact absurd ⟨a, hc⟩ h)
    rw [this]
    exact ⟨a, [], fun _ => False, rfl, hb, ⟨rfl, fun _ h => h⟩, fun h => h, by simp⟩

theorem allocMap_spec {n : Nat} (hw : Wf m) (hr : m.read d = some c) (hg : Rep m g c F)
    (hn : sizeOf g ≤ n) (hFd : ¬ F d.addr) :
    ∃ m' a F', allocBox n .MAP (.map []) d m = .ok m' a ∧ Upd m m' d (.box .MAP a) F F' ∧
      Rep m' (map g.oldMap) (.box .MAP a) F' := by
  by_cases h : ∃ a, c = .box .MAP a
  · obtain ⟨a, rfl⟩ := h
    obtain ⟨v, rfl⟩ := rep_box_ne_map hg
    exact ⟨m, a, F, allocBox_keep hr, Upd.refl hw hr, hg⟩
  · obtain ⟨m', a, he, hu, hb⟩ := allocBox_new (t := .MAP) (B := .map []) hw hr hg hn hFd fun a e => h ⟨a, e⟩
    refine ⟨m', a, _, he, hu, ?_⟩
    have : g.oldMap = [] := by
      cases g <;> first | rfl | (obtain ⟨a, cs, G, hc, _⟩ := hg; exact absurd ⟨a, hc⟩ h)
    rw [this]
    exact ⟨a, [], fun _ => False, rfl, hb, ⟨rfl, fun _ h => h⟩, List.Pairwise.nil, fun h => h, by simp⟩

/-! ## One element, one entry -/

theorem RepL.focus : ∀ {v : List GC} {cs : List Cell} {F : Addr → Prop} {i : Nat} {y : GC}, RepL m v cs F →
    v[i]? = some y → ∃ c G, cs[i]? = some c ∧ Rep m y c G ∧ (∀ b, G b → F b) ∧
      ∀ (m' : Mem) y' c' G', (∀ b, F b → ¬ G b → m'.blk b = m.blk b) → Rep m' y' c' G' →
        (∀ b, G' b → F b → G b) → RepL m' (v.set i y') (cs.set i c') (fun b => (F b ∧ ¬ G b) ∨ G' b)
  | [], _, _, _, _, _, h => by simp at h
  | x :: xs, _, F, i, y, hr, h => by
    obtain ⟨c, cs', G, H, rfl, hx, hs, hd, hF⟩ := hr
    cases i with
    | zero =>
      simp only [List.getElem?_cons_zero, Option.some.injEq] at h
      subst h
      refine ⟨c, G, rfl, hx, fun b hb => (hF b).2 (Or.inl hb), fun m' y' c' G' hm hy hsub => ?_⟩
      refine ⟨c', cs', G', H, rfl, hy, ?_, ?_, ?_⟩
      · exact Rep.frame.2.1 xs cs' H hs fun b hb => hm b ((hF b).2 (Or.inr hb)) fun hg => hd b hg hb
      · intro b hb hh
        exact hd b (hsub b hb ((hF b).2 (Or.inr hh))) hh
      · intro b
        have := hF b; have := hd b
        tauto
    | succ i =>
      simp only [List.getElem?_cons_succ] at h
      obtain ⟨ci, Gi, hci, hyi, hsub, hput⟩ := RepL.focus hs h
      refine ⟨ci, Gi, hci, hyi, fun b hb => (hF b).2 (Or.inr (hsub b hb)), fun m' y' c' G' hm hy hnew => ?_⟩
      refine ⟨c, cs'.set i c', G, fun b => (H b ∧ ¬ Gi b) ∨ G' b, rfl, ?_, ?_, ?_, ?_⟩
      · exact Rep.frame.1 x c G hx fun b hb => hm b ((hF b).2 (Or.inl hb)) fun hg => hd b hb (hsub b hg)
      · exact hput m' y' c' G' (fun b hb hg => hm b ((hF b).2 (Or.inr hb)) hg) hy
          fun b hb hh => hnew b hb ((hF b).2 (Or.inr hh))
      · intro b hb hh
        rcases hh with hh | hh
        · exact hd b hb hh.1
        · exact hd b hb (hsub b (hnew b hh ((hF b).2 (Or.inl hb))))
      · intro b
        have h1 := hF b; have h2 := hd b; have h3 := hsub b
        tauto

theorem RepM.focus : ∀ {v : Entries} {cs : List (Bytes × Cell)} {F : Addr → Prop} {k : Bytes} {y : GC}, RepM m v cs F →
    mfind k v = some y → ∃ c G, kfind k cs = some c ∧ Rep m y c G ∧ (∀ b, G b → F b) ∧
      ∀ (m' : Mem) y' c' G', (∀ b, F b → ¬ G b → m'.blk b = m.blk b) → Rep m' y' c' G' →
        (∀ b, G' b → F b → G b) → RepM m' (mput k y' v) (kput k c' cs) (fun b => (F b ∧ ¬ G b) ∨ G' b)
  | [], _, _, _, _, _, h => by simp [mfind] at h
  | (k', x) :: xs, _, F, k, y, hr, h => by
    obtain ⟨c, cs', G, H, rfl, hx, hs, hd, hF⟩ := hr
    by_cases hk : k = k'
    · simp only [mfind, hk, if_true, Option.some.injEq] at h
      subst h
      subst hk
      refine ⟨c, G, by simp [kfind], hx, fun b hb => (hF b).2 (Or.inl hb), fun m' y' c' G' hm hy hsub => ?_⟩
      simp only [mput, kput, if_true]
      refine ⟨c', cs', G', H, rfl, hy, ?_, ?_, ?_⟩
      · exact Rep.frame.2.2 xs cs' H hs fun b hb => hm b ((hF b).2 (Or.inr hb)) fun hg => hd b hg hb
      · intro b hb hh
        exact hd b (hsub b hb ((hF b).2 (Or.inr hh))) hh
      · intro b
        have := hF b; have := hd b
        tauto
    · simp only [mfind, hk, if_false] at h
      obtain ⟨ci, Gi, hci, hyi, hsub, hput⟩ := RepM.focus hs h
      refine ⟨ci, Gi, by simp [kfind, hk, hci], hyi, fun b hb => (hF b).2 (Or.inr (hsub b hb)), fun m' y' c' G' hm hy hnew => ?_⟩
      simp only [mput, kput, if_neg hk]
      refine ⟨c, kput k c' cs', G, fun b => (H b ∧ ¬ Gi b) ∨ G' b, rfl, ?_, ?_, ?_, ?_⟩
      · exact Rep.frame.1 x c G hx fun b hb => hm b ((hF b).2 (Or.inl hb)) fun hg => hd b hb (hsub b hg)
      · exact hput m' y' c' G' (fun b hb hg => hm b ((hF b).2 (Or.inr hb)) hg) hy
          fun b hb hh => hnew b hb ((hF b).2 (Or.inr hh))
      · intro b hb hh
        rcases hh with hh | hh
        · exact hd b hb hh.1
        · exact hd b hb (hsub b (hnew b hh ((hF b).2 (Or.inl hb))))
      · intro b
        have h1 := hF b; have h2 := hd b; have h3 := hsub b
        tauto

end Heap
end GCV
