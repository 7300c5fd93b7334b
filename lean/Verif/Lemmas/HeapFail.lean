import Verif.Model.HeapFail
import Verif.Lemmas.HeapProg

/-! # What memory looks like when it ran out -/

namespace GCV
namespace Heap
open GC

variable {α β : Type} {m m' m1 m2 M : Mem} {g x y : GC} {c c' : Cell} {F F' G H : Addr → Prop} {d s l : Loc}
  {a b : Addr} {bad : Addr → Bool} {ip : Nat → Nat → Bool}

/-- `m` is the memory `M` without the payload at `D`; blocks of `m` that are not in `M` have addresses from `L` on. -/
structure Torn (L : Nat) (m M : Mem) (D : Option Addr) : Prop where
  next : M.next = m.next
  miss : ∀ b, D = some b → L ≤ b ∧ m.blk b = none ∧ M.blk b ≠ none
  keep : ∀ b, M.blk b ≠ none → D ≠ some b → m.blk b = M.blk b
  leak : ∀ b, b < L → M.blk b = none → m.blk b = none

theorem Torn.mono {L L' : Nat} {D : Option Addr} (h : Torn L' m M D) (hl : L ≤ L') : Torn L m M D :=
  ⟨h.next, fun b hb => ⟨Nat.le_trans hl (h.miss b hb).1, (h.miss b hb).2⟩, h.keep,
    fun b hb => h.leak b (Nat.lt_of_lt_of_le hb hl)⟩

/-- Old blocks are as in `M`. -/
theorem Torn.old {L : Nat} {D : Option Addr} (h : Torn L m M D) (hb : b < L) : m.blk b = M.blk b := by
  by_cases hn : M.blk b = none
  · rw [hn, h.leak b hb hn]
  · exact h.keep b hn fun e => by have := (h.miss b e).1; omega

/-- A call that ran out of memory on the container at `d`, whose payloads were `F`. -/
def Fails (m m' : Mem) (d : Loc) (F : Addr → Prop) : Prop :=
  ∃ M c' F' g' D, Upd m M d c' F F' ∧ Rep M g' c' F' ∧ Torn m.next m' M D

/-- A call that ran out of memory inside the payloads of the container `c`. -/
def FailsIn (m m' : Mem) (c : Cell) (F : Addr → Prop) : Prop :=
  ∃ M F' g' D, Chg m M F F' ∧ Rep M g' c F' ∧ Torn m.next m' M D

theorem FailsIn.fails (h : FailsIn m m' c F) (hw : Wf m) (hr : m.read d = some c) (hd : ¬ F d.addr) : Fails m m' d F := by
  obtain ⟨M, F', g', D, hc, hr', ht⟩ := h
  exact ⟨M, c, F', g', D, hc.upd hw hr hd, hr', ht⟩

theorem Fails.after (h : Fails m1 m' d G) (hu : Upd m m1 d c F G) (hd : d.addr < m.next) (hFd : ¬ F d.addr)
    (hF : ∀ b, F b → b < m.next) : Fails m m' d F := by
  obtain ⟨M, c', F', g', D, hu', hr', ht⟩ := h
  exact ⟨M, c', F', g', D, hu.trans hu' hd hFd hF, hr', ht.mono hu.mono⟩

theorem FailsIn.after (h : FailsIn m1 m' c G) (hu : Chg m m1 F G) (hF : ∀ b, F b → b < m.next) : FailsIn m m' c F := by
  obtain ⟨M, F', g', D, hu', hr', ht⟩ := h
  exact ⟨M, F', g', D, hu.trans hu' hF, hr', ht.mono hu.mono⟩

/-- Either memory ran out and `P` holds then, or the call went as it goes when memory does not run out. -/
def Either (r : ORun α) (r0 : Run α) (P : Mem → Prop) : Prop := r = r0.sure ∨ ∃ m, r = .oom m ∧ P m

theorem sure_bind (r : Run α) (f : Mem → α → Run β) : (r.bind f).sure = r.sure.bind fun m a => (f m a).sure := by
  cases r <;> rfl

theorem Either.bind {r : ORun α} {r0 : Run α} {P Q : Mem → Prop} {f : Mem → α → ORun β} {f0 : Mem → α → Run β}
    (h : Either r r0 P) (hPQ : ∀ m, P m → Q m) (hf : ∀ m a, r0 = .ok m a → Either (f m a) (f0 m a) Q) :
    Either (r.bind f) (r0.bind f0) Q := by
  rcases h with rfl | ⟨m, rfl, hm⟩
  · cases r0 with
    | ok m a => exact hf m a rfl
    | throw m => exact Or.inl rfl
    | ub => exact Or.inl rfl
    | fuel => exact Or.inl rfl
  · exact Or.inr ⟨m, rfl, hPQ m hm⟩

/-! ## The payload of a new tag -/

theorem newBoxO_spec {n : Nat} {t : Ty} {B gB : Block} {g0 : GC} (hw : Wf m) (hr : m.read d = some c) (hg : Rep m g c F)
    (hn : sizeOf g ≤ n) (hFd : ¬ F d.addr)
    (hgB : ∀ (M : Mem) a, M.blk a = some gB → Rep M g0 (.box t a) (fun b => b = a)) :
    if bad m.next then ∃ m' M, newBoxO bad n t B d m = .oom m' ∧ Upd m M d (.box t m.next) F (fun b => b = m.next) ∧
      Rep M g0 (.box t m.next) (fun b => b = m.next) ∧ Torn m.next m' M (some m.next) ∧ ∀ b, m.blk b = none → m'.blk b = none
    else newBoxO bad n t B d m = ((clearAt n d m).bind fun m _ => ((m.alloc B).write d (.box t m.next)).bind fun m' _ =>
      .ok m' m.next).sure := by
  obtain ⟨m1, he1, hu1, hn1, hr1⟩ := clearAt_spec hw hr hg hn hFd
  have hw1 := hu1.wf hw (hg.lt hw)
  obtain ⟨M, he2, hu2, hb2⟩ := new_spec (t := t) (B := gB) hw1 hr1
  obtain ⟨B0, hB0, hget⟩ := read_some hr1
  have hlt := read_lt hw1 hr1
  split
  · next hbad =>
    have hM : M = (m1.alloc gB).upd d.addr (some (B0.put d.slot (.box t m1.next))) := by
      have : (m1.alloc gB).blk d.addr = some B0 := by rw [blk_alloc, if_neg (by omega), hB0]
      simp [Mem.write, this, hget] at he2
      exact he2.symm
    refine ⟨m1.skip.upd d.addr (some (B0.put d.slot (.box t m1.next))), M, ?_, ?_, ?_, ?_, ?_⟩
    · have : m1.skip.write d (.box t m1.next) = .ok (m1.skip.upd d.addr (some (B0.put d.slot (.box t m1.next)))) () := by
        have : m1.skip.blk d.addr = some B0 := hB0
        simp [Mem.write, this, hget]
      simp only [newBoxO, he1, Run.sure, ORun.bind, hn1, hbad, if_true]
      rw [← hn1, this]
    · rw [← hn1]
      exact hu1.trans hu2 (read_lt hw hr) hFd (hg.lt hw)
    · rw [← hn1]
      exact hgB M m1.next hb2
    · rw [← hn1]
      have hsame : ∀ b, b ≠ m1.next → (m1.skip.upd d.addr (some (B0.put d.slot (.box t m1.next)))).blk b = M.blk b := by
        intro b hb
        rw [hM, blk_upd, blk_upd, blk_alloc, if_neg hb]
        rfl
      refine ⟨by rw [hM]; rfl, ?_, ?_, ?_⟩
      · intro b hb
        injection hb with hb
        subst hb
        refine ⟨Nat.le_refl _, ?_, by rw [hb2]; simp⟩
        rw [blk_upd, if_neg (by omega)]
        exact hw1 _ (Nat.le_refl _)
      · intro b _ hb
        exact hsame b fun e => hb (by rw [e])
      · intro b hb hbM
        rw [hsame b (by omega), hbM]
    · intro b hb
      have hbd : b ≠ d.addr := by
        rintro rfl
        obtain ⟨B, hB, _⟩ := read_some hr
        rw [hB] at hb; simp at hb
      rw [blk_upd, if_neg hbd]
      show m1.blk b = none
      by_cases hlt : b < m.next
      · rw [hu1.same b hbd (fun h => Rep.live.1 g c F hg b h hb) hlt, hb]
      · exact hu1.fresh b (by omega) (fun h => h)
  · next hbad =>
    simp only [newBoxO, he1, Run.sure, ORun.bind, Run.bind, hn1, hbad]
    rw [← hn1]
    cases (m1.alloc B).write d (.box t m1.next) <;> rfl

/-- `newBoxO`, when it does not matter which. -/
theorem newBoxO_either {n : Nat} {t : Ty} {B gB : Block} {g0 : GC} (hw : Wf m) (hr : m.read d = some c)
    (hg : Rep m g c F) (hn : sizeOf g ≤ n) (hFd : ¬ F d.addr)
    (hgB : ∀ (M : Mem) a, M.blk a = some gB → Rep M g0 (.box t a) (fun b => b = a)) :
    Either (newBoxO bad n t B d m) ((clearAt n d m).bind fun m _ => ((m.alloc B).write d (.box t m.next)).bind fun m' _ =>
      .ok m' m.next) (fun m' => Fails m m' d F) := by
  have := newBoxO_spec (bad := bad) (B := B) hw hr hg hn hFd hgB
  split at this
  · obtain ⟨m', M, h1, h2, h3, h4⟩ := this
    exact Or.inr ⟨m', h1, M, _, _, g0, _, h2, h3, h4.1⟩
  · exact Or.inl this

theorem allocBoxO_new {n : Nat} {t : Ty} {B : Block} (hr : m.read d = some c) (ht : ∀ a, c ≠ .box t a) :
    allocBoxO bad n t B d m = newBoxO bad n t B d m ∧ allocBox n t B d m = ((clearAt n d m).bind fun m _ =>
      ((m.alloc B).write d (.box t m.next)).bind fun m' _ => .ok m' m.next) := by
  cases c with
  | imm g => simp only [allocBoxO, allocBox, hr, and_self]
  | box t' a =>
    have : t' ≠ t := fun e => ht a (e ▸ rfl)
    simp only [allocBoxO, allocBox, hr, if_neg this, and_self]

theorem allocBoxO_either {n : Nat} {t : Ty} {B gB : Block} {g0 : GC} (hw : Wf m) (hr : m.read d = some c)
    (hg : Rep m g c F) (hn : sizeOf g ≤ n) (hFd : ¬ F d.addr)
    (hgB : ∀ (M : Mem) a, M.blk a = some gB → Rep M g0 (.box t a) (fun b => b = a)) :
    Either (allocBoxO bad n t B d m) (allocBox n t B d m) (fun m' => Fails m m' d F) := by
  by_cases h : ∃ a, c = .box t a
  · obtain ⟨a, rfl⟩ := h
    refine Or.inl ?_
    simp [allocBoxO, allocBox, hr, Run.sure]
  · obtain ⟨h1, h2⟩ := allocBoxO_new (bad := bad) (n := n) (t := t) (B := B) hr fun a e => h ⟨a, e⟩
    rw [h1, h2]
    exact newBoxO_either hw hr hg hn hFd hgB

theorem ghost_vector (M : Mem) (a : Addr) (h : M.blk a = some (.vec [])) :
    Rep M (vector []) (.box .VECTOR a) (fun b => b = a) :=
  ⟨a, [], fun _ => False, rfl, h, ⟨rfl, fun _ h => h⟩, fun h => h, by simp⟩

theorem ghost_map (M : Mem) (a : Addr) (h : M.blk a = some (.map [])) :
    Rep M (map []) (.box .MAP a) (fun b => b = a) :=
  ⟨a, [], fun _ => False, rfl, h, ⟨rfl, fun _ h => h⟩, List.Pairwise.nil, fun h => h, by simp⟩

theorem ghost_leaf {gs : GC} (h1 : ∀ v, gs ≠ vector v) (h2 : ∀ e, gs ≠ map e) (h3 : immediate gs = false)
    (M : Mem) (a : Addr) (h : M.blk a = some (.leaf gs)) : Rep M gs (.box gs.ty a) (fun b => b = a) :=
  (rep_box h1 h2 h3).2 ⟨a, rfl, h, fun _ => Iff.rfl⟩

/-! ## Copying -/

/-- Copying `gs` over `gd` goes as with enough memory, or memory runs out. -/
def FailOk (f' : Loc → Loc → Mem → ORun Unit) (f : Loc → Loc → Mem → Run Unit) (gs gd : GC) : Prop :=
  ∀ m d s cs cd Fs Fd, Pair m d s gs gd cs cd Fs Fd → Either (f' d s m) (f d s m) (fun m' => Fails m m' d Fd)

theorem rep_vec_addr {w : List GC} (h : Rep m (vector w) (.box .VECTOR a) F) : F a := by
  obtain ⟨a', cs, G, hc, _, _, _, hF⟩ := h; injection hc with _ hc; subst hc; exact (hF a).2 (Or.inl rfl)

theorem rep_map_addr {w : Entries} (h : Rep m (map w) (.box .MAP a) F) : F a := by
  obtain ⟨a', cs, G, hc, _, _, _, _, hF⟩ := h; injection hc with _ hc; subst hc; exact (hF a).2 (Or.inl rfl)

theorem vecLoopO_spec {f' : Loc → Loc → Mem → ORun Unit} {f : Loc → Loc → Mem → Run Unit} {v : List GC} :
    ∀ (k i : Nat) (m : Mem) (w r : List GC)
    (Fs Fb : Addr → Prop), Wf m → i + k = v.length → Rep m (vector v) (.box .VECTOR a) Fs →
    Rep m (vector w) (.box .VECTOR b) Fb → (∀ x, Fs x → ¬ Fb x) →
    from_gcL (v.drop i) (w.drop i) = .ok r →
    (∀ j x y, i ≤ j → v[j]? = some x → w[j]? = some y → FromOk f x y ∧ FailOk f' f x y) →
    Either (vecLoopO f' b a i k m) (vecLoop f b a i k m) (fun m' => FailsIn m m' (.box .VECTOR b) Fb)
  | 0, i, m, w, r, Fs, Fb, hw, hik, hv, hb, hdis, hl, hf => by
    obtain ⟨a', cs, _, hc, ha, _⟩ := hv
    injection hc with _ hc
    subst hc
    exact Or.inl (by rw [vecLoopO, vecLoop, ha]; rfl)
  | k + 1, i, m, w, r, Fs, Fb, hw, hik, hv, hb, hdis, hl, hf => by
    have hvi : v[i]? = some v[i] := List.getElem?_eq_getElem (by omega)
    rw [drop_of_getElem? hvi] at hl
    cases hwi : w.drop i with
    | nil => rw [hwi] at hl; simp [from_gcL] at hl
    | cons y ys =>
      rw [hwi] at hl
      obtain ⟨hwy, hwd⟩ := drop_cons hwi
      rw [from_gcL] at hl
      obtain ⟨y', hxy, hl⟩ := out_bind_ok hl
      obtain ⟨ys', hrest, hl⟩ := out_bind_ok hl
      obtain ⟨cx, Gx, hrx, hxr, hGx, _, _⟩ := hv.elem hw hvi
      obtain ⟨cy, Gy, hry, hyr, hGy, hGyb, hput⟩ := hb.elem hw hwy
      have hFsa : Fs a := rep_vec_addr hv
      have hFbb : Fb b := rep_vec_addr hb
      have hab : a ≠ b := fun e => hdis a hFsa (e ▸ hFbb)
      have P : Pair m ⟨b, .idx i⟩ ⟨a, .idx i⟩ v[i] y cx cy Gx Gy :=
        ⟨hw, hrx, hxr, hry, hyr, fun x h1 h2 => hdis x (hGx x h1) (hGy x h2),
          fun h => hdis b (hGx b h) hFbb, hGyb, fun h => hdis a hFsa (hGy a h),
          fun e => hab (by simpa using congrArg Loc.addr e)⟩
      obtain ⟨hok, hfail⟩ := hf i v[i] y (Nat.le_refl _) hvi hwy
      have hfail := hfail m ⟨b, .idx i⟩ ⟨a, .idx i⟩ cx cy Gx Gy P
      obtain ⟨m1, c1, G1, he1, hu1, hr1⟩ := hok m ⟨b, .idx i⟩ ⟨a, .idx i⟩ cx cy Gx Gy y' P hxy
      have hb1 := hput m1 y' c1 G1 hu1 hr1
      have hU1 : Chg m m1 Fb (fun x => (Fb x ∧ ¬ Gy x) ∨ G1 x) := hu1.chg hFbb hGy
      have hw1 : Wf m1 := hU1.wf hw (hb.lt hw)
      have hL : ∃ cs, m.blk a = some (.vec cs) ∧ i < cs.length := by
        obtain ⟨a', cs, G, hc, ha, hL, _⟩ := hv
        injection hc with _ hc
        subst hc
        exact ⟨cs, ha, by rw [hL.length]; omega⟩
      obtain ⟨cs, ha, hi⟩ := hL
      rw [vecLoopO, vecLoop, ha]
      simp only [if_pos hi]
      refine hfail.bind ?_ ?_
      · rintro m' ⟨M, c', F', g', D, hu', hr', ht⟩
        exact ⟨M, _, _, D, hu'.chg hFbb hGy, hput M g' c' F' hu' hr', ht⟩
      · intro m2 u h2
        rw [he1] at h2
        injection h2 with h2 _
        subst h2
        rcases vecLoopO_spec k (i + 1) m1 (w.set i y') ys' Fs _ hw1 (by omega)
          (hU1.other hw hv hdis) hb1 (hU1.disj hw hv hdis)
          (by rw [List.drop_set_of_lt (by omega), hwd]; exact hrest)
          (fun j x y hj hx hy => hf j x y (by omega) hx (by rwa [List.getElem?_set_ne (by omega)] at hy)) with h | ⟨m', h, hF⟩
        · exact Or.inl h
        · exact Or.inr ⟨m', h, hF.after hU1 (hb.lt hw)⟩

theorem sizeOf_take : ∀ (l : List GC) k, sizeOf (l.take k) ≤ sizeOf l
  | [], k => by simp
  | x :: xs, 0 => by simp; omega
  | x :: xs, k + 1 => by
    have := sizeOf_take xs k
    rw [List.take_succ_cons, List.cons.sizeOf_spec, List.cons.sizeOf_spec]; omega

theorem RepL.cons {xs : List GC} {cs : List Cell} (h : RepL m (x :: xs) cs F) : ∃ c cs' G, cs = c :: cs' ∧ Rep m x c G ∧
    ∀ b, G b → F b := by
  obtain ⟨c, cs', G, H, h1, h2, _, _, h5⟩ := h
  exact ⟨c, cs', G, h1, h2, fun b hb => (h5 b).2 (Or.inl hb)⟩

theorem set_take_replicate {α : Type} (v : List α) (z : α) (i j : Nat) (h : i < v.length) :
    (v.take i ++ List.replicate (j + 1) z).set i v[i] = v.take (i + 1) ++ List.replicate j z := by
  have htl : (v.take i).length = i := by rw [List.length_take]; omega
  rw [List.set_append_right _ _ (by omega), htl, Nat.sub_self, List.replicate_succ, List.set_cons_zero,
    List.take_add_one, List.getElem?_eq_getElem h]
  simp only [Option.toList_some, List.append_assoc, List.singleton_append]

/-- The elements of a vector that grows: when a copy fails, those made so far are destroyed. -/
theorem growLoopO_spec {f' : Loc → Loc → Mem → ORun Unit} {f : Loc → Loc → Mem → Run Unit} {v : List GC} {n : Nat}
    (hn : sizeOf v ≤ n) : ∀ (k i j : Nat) (m : Mem)
    (Fs Fb : Addr → Prop), Wf m → i + k = v.length → k ≤ j → Rep m (vector v) (.box .VECTOR a) Fs →
    Rep m (vector (v.take i ++ List.replicate j notype)) (.box .VECTOR b) Fb → (∀ x, Fs x → ¬ Fb x) →
    (∀ x ∈ v, from_gc x notype = .ok x ∧ FromOk f x notype ∧ FailOk f' f x notype) →
    Either (growLoopO (freeF n) f' b a i k m) (vecLoop f b a i k m)
      (fun m' => (∀ x, ¬ Fb x → x < m.next → m'.blk x = m.blk x) ∧ m.next ≤ m'.next)
  | 0, i, j, m, Fs, Fb, hw, hik, hkj, hv, hb, hdis, hf => by
    obtain ⟨a', cs, _, hc, ha, _⟩ := hv
    injection hc with _ hc
    subst hc
    exact Or.inl (by rw [growLoopO, vecLoop, ha]; rfl)
  | k + 1, i, 0, m, Fs, Fb, hw, hik, hkj, hv, hb, hdis, hf => by omega
  | k + 1, i, j + 1, m, Fs, Fb, hw, hik, hkj, hv, hb, hdis, hf => by
    have hvi : v[i]? = some v[i] := List.getElem?_eq_getElem (by omega)
    have htl : (v.take i).length = i := by rw [List.length_take]; omega
    have hwy : (v.take i ++ List.replicate (j + 1) notype)[i]? = some notype := by
      rw [List.getElem?_append_right (by omega), htl]
      simp
    obtain ⟨hxy, hok, hfail⟩ := hf v[i] (List.getElem_mem _)
    obtain ⟨cx, Gx, hrx, hxr, hGx, _, _⟩ := hv.elem hw hvi
    obtain ⟨cy, Gy, hry, hyr, hGy, hGyb, hput⟩ := hb.elem hw hwy
    have hFsa : Fs a := rep_vec_addr hv
    have hFbb : Fb b := rep_vec_addr hb
    have hbt := hb.lt hw
    have hab : a ≠ b := fun e => hdis a hFsa (e ▸ hFbb)
    have hyn : ∀ x, ¬ Gy x := ((rep_imm rfl).1 hyr).2
    have P : Pair m ⟨b, .idx i⟩ ⟨a, .idx i⟩ v[i] notype cx cy Gx Gy :=
      ⟨hw, hrx, hxr, hry, hyr, fun x h1 h2 => hdis x (hGx x h1) (hGy x h2),
        fun h => hdis b (hGx b h) hFbb, hGyb, fun h => hdis a hFsa (hGy a h),
        fun e => hab (by simpa using congrArg Loc.addr e)⟩
    have hfail := hfail m ⟨b, .idx i⟩ ⟨a, .idx i⟩ cx cy Gx Gy P
    obtain ⟨m1, c1, G1, he1, hu1, hr1⟩ := hok m ⟨b, .idx i⟩ ⟨a, .idx i⟩ cx cy Gx Gy _ P hxy
    have hb1 := hput m1 _ c1 G1 hu1 hr1
    have hset := set_take_replicate v notype i j (by omega)
    rw [hset] at hb1
    have hU1 : Chg m m1 Fb (fun x => (Fb x ∧ ¬ Gy x) ∨ G1 x) := hu1.chg hFbb hGy
    have hw1 : Wf m1 := hU1.wf hw hbt
    have hL : ∃ cs, m.blk a = some (.vec cs) ∧ i < cs.length := by
      obtain ⟨a', cs, G, hc, ha, hL, _⟩ := hv
      injection hc with _ hc
      subst hc
      exact ⟨cs, ha, by rw [hL.length]; omega⟩
    obtain ⟨cs, ha, hi⟩ := hL
    rw [growLoopO, vecLoop, ha]
    simp only [if_pos hi]
    rcases hfail with h | ⟨m', h, M, c', F', g', D, hu', hr', ht⟩
    · rw [he1] at h
      rw [h, he1]
      simp only [Run.sure, ORun.bind, Run.bind]
      rcases growLoopO_spec hn k (i + 1) j m1 Fs _ hw1 (by omega) (by omega) (hU1.other hw hv hdis) hb1
        (hU1.disj hw hv hdis) hf with h | ⟨m', h, h1, h2⟩
      · exact Or.inl h
      · refine Or.inr ⟨m', h, ?_, Nat.le_trans hU1.mono h2⟩
        intro x hx hlt
        have hx1 : ¬ ((Fb x ∧ ¬ Gy x) ∨ G1 x) := fun e => by
          rcases hU1.sub x e with e | e
          · exact hx e
          · omega
        rw [h1 x hx1 (Nat.lt_of_lt_of_le hlt hU1.mono), hU1.same x hx hlt]
    · -- the copy of the element failed
      have hold : ∀ x, x ≠ b → x < m.next → m'.blk x = m.blk x := by
        intro x hx hlt
        rw [ht.old hlt, hu'.same x hx (hyn x) hlt]
      obtain ⟨b', bs, G, hc, hbb, hbL, hnb, hFb⟩ := id hb
      injection hc with _ hc
      subst hc
      have hbb' : m'.blk b = some (.vec (bs.set i c')) := by
        rw [ht.old (hbt b hFbb)]
        have := hu'.own
        simp only [hbb] at this
        exact this
      obtain ⟨G1', G2', hs1, _, _, hG12⟩ := hbL.split i
      rw [List.take_append_of_le_length (by omega), List.take_take, Nat.min_self] at hs1
      have hG1lt : ∀ x, G1' x → Fb x := fun x hx => (hFb x).2 (Or.inr ((hG12 x).2 (Or.inl hx)))
      have hs1' : RepL m' (v.take i) (bs.take i) G1' := Rep.frame.2.1 _ _ _ hs1 fun x hx =>
        hold x (fun e => hnb ((hG12 b).2 (Or.inl (e ▸ hx)))) (hbt x (hG1lt x hx))
      obtain ⟨m2, he2, hf2⟩ := freeF_spec.2.1 (v.take i) n m' _ G1' (Nat.le_trans (sizeOf_take v i) hn) hs1'
      refine Or.inr ⟨m2.upd b none, ?_, ?_, ?_⟩
      · rw [h]
        simp only [hbb', List.take_set_of_le (Nat.le_refl i), he2, Run.sure, ORun.bind]
      · intro x hx hlt
        have hxb : x ≠ b := fun e => hx (e ▸ hFbb)
        rw [blk_upd, if_neg hxb, hf2.same x (fun e => hx (hG1lt x e)), hold x hxb hlt]
      · show m.next ≤ m2.next
        rw [hf2.next, ← ht.next]
        exact hu'.mono

/-- A vector that cannot grow is as before. -/
def GrowFails (m m' : Mem) (c : Cell) (F : Addr → Prop) (w : List GC) : Prop :=
  ∃ M, Chg m M F F ∧ Rep M (vector w) c F ∧ Torn m.next m' M none

theorem GrowFails.failsIn {w : List GC} (h : GrowFails m m' c F w) : FailsIn m m' c F := by
  obtain ⟨M, h1, h2, h3⟩ := h
  exact ⟨M, F, _, none, h1, h2, h3⟩

theorem resizeO_spec {n sz : Nat} {f' : Loc → Loc → Mem → ORun Unit} {f : Loc → Loc → Mem → Run Unit} {w : List GC}
    (hw : Wf m) (h : Rep m (vector w) (.box .VECTOR a) F) (hn : sizeOf w ≤ n)
    (hf : ∀ x ∈ w, from_gc x notype = .ok x ∧ FromOk f x notype ∧ FailOk f' f x notype) :
    Either (resizeO bad ip (freeF n) f' a sz m) (resizeF ip (freeF n) f a sz m)
      (fun m' => GrowFails m m' (.box .VECTOR a) F w) := by
  have hlt := h.lt hw
  obtain ⟨a', cs, G, hc, ha, hG, hna, hF⟩ := id h
  injection hc with _ hc
  subst hc
  have hlen := hG.length
  rw [resizeO, resizeF, ha]
  simp only
  split
  · refine Or.inl ?_
    rw [sure_bind]; rfl
  split
  · exact Or.inl rfl
  have hkeep : ∀ m', m.next ≤ m'.next → (∀ x, x < m.next → m'.blk x = m.blk x) →
      GrowFails m m' (.box .VECTOR a) F w := by
    intro m' hle hsame
    refine ⟨⟨m.blk, m'.next⟩, ⟨fun _ _ _ => rfl, fun b hb => Or.inl hb, fun b h1 h2 => absurd h1 h2,
      fun b hb _ => hw b hb, hle⟩, Rep.frame.1 _ _ _ h fun _ _ => rfl, ⟨rfl, fun b hb => by simp at hb, ?_, ?_⟩⟩
    · intro b hb _
      exact hsame b (hw.lt hb)
    · intro b hb hn
      rw [hsame b hb]; exact hn
  split
  · refine Or.inr ⟨m.skip, rfl, hkeep _ (Nat.le_succ _) fun _ _ => rfl⟩
  · let m1 := m.alloc (.vec (List.replicate sz (.imm notype)))
    have hm1 : ∀ b, b ≠ m.next → m1.blk b = m.blk b := fun b hb => by
      show (m.alloc _).blk b = _
      rw [blk_alloc, if_neg hb]
    have hw1 : Wf m1 := by
      intro b hb
      have hb : m.next + 1 ≤ b := hb
      rw [hm1 b (by omega)]; exact hw b (by omega)
    have hv1 : Rep m1 (vector w) (.box .VECTOR a) F :=
      Rep.frame.1 _ _ _ h fun b hb => hm1 b (by have := hlt b hb; omega)
    have hb1 : Rep m1 (vector (List.replicate sz notype)) (.box .VECTOR m.next) (fun b => b = m.next) :=
      ⟨m.next, _, fun _ => False, rfl, by show (m.alloc _).blk _ = _; rw [blk_alloc, if_pos rfl], repL_replicate sz,
        fun h => h, fun b => by tauto⟩
    refine (growLoopO_spec hn cs.length 0 sz m1 F _ hw1 (by omega) (by omega) hv1 (by simpa using hb1)
      (fun b hb (e : b = m.next) => by have := hlt b hb; omega) hf).bind ?_ ?_
    · rintro m' ⟨h1, h2⟩
      refine hkeep m' (Nat.le_trans (Nat.le_succ _) h2) fun x hx => ?_
      rw [h1 x (fun e : x = m.next => by omega) (show x < m.next + 1 by omega), hm1 x (by omega)]
    · intro m2 _ _
      refine Or.inl ?_
      rw [sure_bind]
      congr 1
      funext m3 _
      cases m3.blk m.next with
      | none => rfl
      | some B => cases B <;> rfl

theorem mapLoopO_spec {f' : Loc → Loc → Mem → ORun Unit} {f : Loc → Loc → Mem → Run Unit} {e : Entries}
    (hnul : ∀ p ∈ e, cstr p.1 = p.1) : ∀ (k i : Nat) (m : Mem) (w r : Entries)
    (Fs Fb : Addr → Prop), Wf m → i + k = e.length → Rep m (map e) (.box .MAP a) Fs →
    Rep m (map w) (.box .MAP b) Fb → (∀ x, Fs x → ¬ Fb x) →
    from_gcM (e.drop i) w = .ok r →
    (∀ p ∈ e.drop i, FromOk f p.2 ((mfind p.1 w).getD notype) ∧ FailOk f' f p.2 ((mfind p.1 w).getD notype)) →
    Either (mapLoopO f' b a i k m) (mapLoop f b a i k m) (fun m' => FailsIn m m' (.box .MAP b) Fb)
  | 0, i, m, w, r, Fs, Fb, hw, hik, hv, hb, hdis, hl, hf => by
    obtain ⟨a', cs, _, hc, ha, _⟩ := hv
    injection hc with _ hc
    subst hc
    exact Or.inl (by rw [mapLoopO, mapLoop, ha]; rfl)
  | n + 1, i, m, w, r, Fs, Fb, hw, hik, hv, hb, hdis, hl, hf => by
    have hvi : e[i]? = some e[i] := List.getElem?_eq_getElem (by omega)
    have hdr := drop_of_getElem? hvi
    have hmem : e[i] ∈ e := List.getElem_mem _
    generalize hp : e[i] = p at hvi hdr hmem
    obtain ⟨k, x⟩ := p
    have hck : cstr k = k := hnul _ hmem
    rw [hdr] at hl hf
    have hks : KeysSorted e := by obtain ⟨_, _, _, _, _, _, h, _⟩ := hv; exact h
    have hkx : mfind k e = some x := mfind_of_mem hks hmem
    rw [from_gcM, hck] at hl
    obtain ⟨y', hxy, hl⟩ := out_bind_ok hl
    obtain ⟨m0, he0, hC0, hn0, hb0⟩ := keyAt_spec (k := k) hw hb
    have hw0 : Wf m0 := hC0.wf hw (hb.lt hw)
    have hv0 := hC0.other hw hv hdis
    obtain ⟨cx, Gx, hrx, hxr, hGx, _, _⟩ := hv0.entry hw0 hkx
    obtain ⟨cy, Gy, hry, hyr, hGy, hGyb, hput⟩ := hb0.entry hw0 (mfind_mset_same k _ w)
    have hFsa : Fs a := rep_map_addr hv
    have hFbb : Fb b := rep_map_addr hb
    have hab : a ≠ b := fun e => hdis a hFsa (e ▸ hFbb)
    have P : Pair m0 ⟨b, .key k⟩ ⟨a, .key k⟩ x ((mfind k w).getD notype) cx cy Gx Gy :=
      ⟨hw0, hrx, hxr, hry, hyr, fun x h1 h2 => hdis x (hGx x h1) (hGy x h2),
        fun h => hdis b (hGx b h) hFbb, hGyb, fun h => hdis a hFsa (hGy a h),
        fun e => hab (by simpa using congrArg Loc.addr e)⟩
    obtain ⟨hok, hfail⟩ := hf (k, x) List.mem_cons_self
    have hfail := hfail m0 ⟨b, .key k⟩ ⟨a, .key k⟩ cx cy Gx Gy P
    obtain ⟨m1, c1, G1, he1, hu1, hr1⟩ := hok m0 ⟨b, .key k⟩ ⟨a, .key k⟩ cx cy Gx Gy y' P hxy
    have hb1 := hput m1 y' c1 G1 hu1 hr1
    rw [mset_mset] at hb1
    have hU1 : Chg m0 m1 Fb (fun x => (Fb x ∧ ¬ Gy x) ∨ G1 x) := hu1.chg hFbb hGy
    have hw1 : Wf m1 := hU1.wf hw0 (hb0.lt hw0)
    have hks' : ∀ p ∈ e.drop (i + 1), p.1 ≠ k := by
      intro p hp' hpk
      have h2 : KeysSorted ((k, x) :: e.drop (i + 1)) := by
        rw [← hdr]; exact List.Pairwise.sublist (List.drop_sublist _ _) hks
      rw [KeysSorted, List.pairwise_cons] at h2
      have := h2.1 p hp'
      rw [hpk] at this
      exact strLT_irrefl _ this
    have hes : ∃ es c, m.blk a = some (.map es) ∧ es[i]? = some (k, c) := by
      obtain ⟨a', es, G, hc, ha, hL, _⟩ := hv
      injection hc with _ hc
      subst hc
      have := congrArg (·[i]?) hL.keys
      simp only [List.getElem?_map, hvi, Option.map_some] at this
      cases h : es[i]? with
      | none => rw [h] at this; simp at this
      | some q => rw [h] at this; simp at this; exact ⟨es, q.2, ha, by rw [← this]; exact h⟩
    obtain ⟨es, c, ha, hes⟩ := hes
    rw [mapLoopO, mapLoop, ha]
    simp only [hes, hck, he0, Run.sure, ORun.bind, Run.bind]
    have key : Either ((f' ⟨b, .key k⟩ ⟨a, .key k⟩ m0).bind fun m _ => mapLoopO f' b a (i + 1) n m)
        ((f ⟨b, .key k⟩ ⟨a, .key k⟩ m0).bind fun m _ => mapLoop f b a (i + 1) n m)
        (fun m' => FailsIn m0 m' (.box .MAP b) Fb) := by
      refine hfail.bind ?_ ?_
      · rintro m' ⟨M, c', F', g', D, hu', hr', ht⟩
        exact ⟨M, _, _, D, hu'.chg hFbb hGy, hput M g' c' F' hu' hr', ht⟩
      · intro m2 u h2
        rw [he1] at h2
        injection h2 with h2 _
        subst h2
        rcases mapLoopO_spec hnul n (i + 1) m1 (mset k y' w) r Fs _ hw1 (by omega)
          (hU1.other hw0 hv0 hdis) hb1 (hU1.disj hw0 hv0 hdis) hl
          (fun p hp' => by
            rw [mfind_mset_other (hks' p hp')]
            exact hf p (List.mem_cons_of_mem _ hp')) with h | ⟨m', h, hF⟩
        · exact Or.inl h
        · exact Or.inr ⟨m', h, hF.after hU1 (hb0.lt hw0)⟩
    rcases key with h | ⟨m', h, hF⟩
    · exact Or.inl h
    · exact Or.inr ⟨m', h, hF.after hC0 (hb.lt hw)⟩

/-! ## `from_gc` -/

theorem failOk_plain {n : Nat} {gs gd : GC} (hn : sizeOf gd ≤ n) (hp : plainBox gs = true) :
    FailOk (fromO bad ip (n + 1)) (fromF ip (n + 1)) gs gd := by
  intro m d s cs cd Fs Fd P
  obtain ⟨a, rfl, ha, hFs⟩ := (rep_plain hp).1 P.srcRep
  have h1 : ∀ v, gs ≠ vector v := by rintro v rfl; simp [plainBox] at hp
  have h2 : ∀ v, gs ≠ map v := by rintro v rfl; simp [plainBox] at hp
  have h3 : immediate gs = false := by cases gs <;> simp_all [plainBox, immediate]
  have : fromO bad ip (n + 1) d s m = (allocBoxO bad n gs.ty (.leaf notype) d m).bind fun m b => (fillLeaf a b m).sure := by
    have hr := P.src
    cases gs <;> first
      | (simp [plainBox] at hp; done)
      | (simp only [GC.ty] at hr; simp only [fromO, hr, GC.ty]; done)
  rw [this, fromF_plain hp P.src]
  refine (allocBoxO_either P.wf P.dst P.dstRep hn P.fdd (ghost_leaf h1 h2 h3)).bind (fun _ h => h) fun m1 b _ => Or.inl rfl

theorem failOk_complex {n : Nat} {z : Cplx} {gd : GC} (hn : sizeOf gd ≤ n) :
    FailOk (fromO bad ip (n + 1)) (fromF ip (n + 1)) (complex z) gd := by
  intro m d s cs cd Fs Fd P
  obtain ⟨a, rfl, ha, hFs⟩ := (rep_box (by simp) (by simp) rfl).1 P.srcRep
  have hsrc := P.src
  simp only [GC.ty] at hsrc
  have h0 : fromF ip (n + 1) d s m = ((clearAt n d m).bind fun m _ =>
      ((m.alloc (.leaf notype)).write d (.box .COMPLEX m.next)).bind fun m' _ => .ok m' m.next).bind fun m b =>
        match m.blk a with
        | some (.leaf g) => .ok (m.upd b (some (.leaf g))) ()
        | _ => .ub := by
    simp only [fromF, hsrc]
    cases clearAt n d m with
    | ok m1 u => 
      simp only [Run.bind]
      cases (m1.alloc (.leaf notype)).write d (.box .COMPLEX m1.next) <;> rfl
    | throw m1 => rfl
    | ub => rfl
    | fuel => rfl
  rw [h0]
  simp only [fromO, hsrc]
  refine (newBoxO_either P.wf P.dst P.dstRep hn P.fdd (ghost_leaf (gs := complex z) (by simp) (by simp) rfl)).bind
    (fun _ h => h) fun m1 b _ => Or.inl ?_
  cases m1.blk a with
  | none => rfl
  | some B => cases B <;> rfl

theorem failOk_imm {n : Nat} {gs gd : GC} (hi : immediate gs = true) :
    FailOk (fromO bad ip (n + 1)) (fromF ip (n + 1)) gs gd := by
  intro m d s cs cd Fs Fd P
  obtain ⟨rfl, hFs⟩ := (rep_imm hi).1 P.srcRep
  refine Or.inl ?_
  simp only [fromO, fromF, P.src]

theorem fromO_spec (bad : Addr → Bool) (ip : Nat → Nat → Bool) : ∀ (n : Nat) (gs gd : GC), sizeOf gs + sizeOf gd < n →
    WF gs → Fits gs → WF gd → Fits gd → FailOk (fromO bad ip n) (fromF ip n) gs gd
  | 0, _, _, h, _, _, _, _ => by omega
  | n + 1, gs, gd, hn, hws, hfs, hwd, hfd => by
    have hpos := sizeOf_pos gs
    have hposd := sizeOf_pos gd
    by_cases hi : immediate gs = true
    · exact failOk_imm hi
    by_cases hp : plainBox gs = true
    · exact failOk_plain (by omega) hp
    cases gs with
    | complex z => exact failOk_complex (by omega)
    | vector v =>
      intro m d s cs cd Fs Fd P
      obtain ⟨g', hg⟩ := from_gc_ok _ hfs hws gd
      obtain ⟨h32, hfv⟩ := Fits_vector hfs
      have hwv := WFL_iff.1 hws
      rw [from_gc, u32_of_lt h32] at hg
      obtain ⟨r, hr, hg⟩ := out_bind_ok hg
      have hsz : sizeOf v < sizeOf (vector v) := by simp only [GC.vector.sizeOf_spec]; omega
      obtain ⟨m1, b, F1, he1, hu1, hr1⟩ := allocVector_spec P.wf P.dst P.dstRep (n := n) (by omega) P.fdd
      have hw1 := hu1.wf P.wf (P.dstRep.lt P.wf)
      have hd1 := hu1.read P.dst
      have hs1 := hu1.read_ne P.wf P.src P.ne P.fds
      have hv1 := hu1.other P.wf P.srcRep P.fsd P.disj
      have hdis1 := hu1.disj P.wf P.srcRep P.disj
      obtain ⟨a, acs, G, rfl, ha, hL, hna, hFs⟩ := id hv1
      have hF1d : ¬ F1 d.addr := upd_not P.wf hu1 P.dst P.fdd
      have hold : ∀ x ∈ gd.oldVector, from_gc x notype = .ok x ∧ FromOk (fromF ip n) x notype ∧
          FailOk (fromO bad ip n) (fromF ip n) x notype := fun x hx => by
        have := sizeOf_oldVector hx
        have hsz : sizeOf x + sizeOf notype < n := by
          rw [GC.notype.sizeOf_spec]
          simp only [GC.vector.sizeOf_spec] at hn
          omega
        exact ⟨copy_ok (wf_oldVector hwd hx) (fits_oldVector hfd hx),
          fromF_spec ip n x notype hsz (fits_oldVector hfd hx) trivial rfl,
          fromO_spec bad ip n x notype hsz (wf_oldVector hwd hx) (fits_oldVector hfd hx) trivial rfl⟩
      have hlen : acs.length = v.length := hL.length
      have hlift : ∀ m', FailsIn m1 m' (.box .VECTOR b) F1 → Fails m m' d Fd := fun m' h =>
        (h.fails hw1 hd1 hF1d).after hu1 (read_lt P.wf P.dst) P.fdd (P.dstRep.lt P.wf)
      have hsrc := P.src
      simp only [fromO, fromF, hsrc]
      refine (allocBoxO_either P.wf P.dst P.dstRep (by omega) P.fdd ghost_vector).bind (fun _ h => h) fun m1' b' h1 => ?_
      rw [he1] at h1
      have e1 : m1 = m1' := by injection h1
      have e2 : b = b' := by injection h1
      subst e1 e2
      simp only [hs1, ha]
      have hres : Either (if 0 < u32 acs.length then
          resizeO bad ip (freeF n) (fromO bad ip n) b (u32 acs.length) m1 else .ok m1 ())
          (if 0 < u32 acs.length then
          resizeF ip (freeF n) (fromF ip n) b (u32 acs.length) m1 else .ok m1 ())
          (fun m' => FailsIn m1 m' (.box .VECTOR b) F1) := by
        split
        · rcases resizeO_spec (bad := bad) (ip := ip) (sz := u32 acs.length) hw1 hr1
            (by have := sizeOf_oldVector_le gd; omega : sizeOf gd.oldVector ≤ n) hold with h | ⟨m', h, hF⟩
          · exact Or.inl h
          · exact Or.inr ⟨m', h, hF.failsIn⟩
        · exact Or.inl rfl
      refine hres.bind hlift fun m2' _ h2 => ?_
      obtain ⟨m2, F2, he2, hC2, hr2⟩ : ∃ m2 F2, (if 0 < u32 acs.length then
          resizeF ip (freeF n) (fromF ip n) b (u32 acs.length) m1 else .ok m1 ()) = .ok m2 () ∧ Chg m1 m2 F1 F2 ∧
          Rep m2 (vector (allocL notype v.length gd.oldVector)) (.box .VECTOR b) F2 := by
        rw [hlen, u32_of_lt h32]
        by_cases h0 : 0 < v.length
        · obtain ⟨m2, F2, h1, h2, h3⟩ := resizeF_spec (inPlace := ip) (sz := v.length) (n := n) hw1 hr1
            (by have := sizeOf_oldVector_le gd; omega) (fun x hx => (hold x hx).1) (fun x hx => (hold x hx).2.1)
          exact ⟨m2, F2, by rw [if_pos h0]; exact h1, h2, by rw [allocL, if_pos h0]; exact h3⟩
        · exact ⟨m1, F1, by rw [if_neg h0], Chg.refl hw1, by rw [allocL, if_neg h0]; exact hr1⟩
      rw [he2] at h2
      have e1 : m2 = m2' := by injection h2
      subst e1
      have hw2 := hC2.wf hw1 (hr1.lt hw1)
      have hv2 := hC2.other hw1 hv1 hdis1
      have hdis2 := hC2.disj hw1 hv1 hdis1
      rw [hlen]
      rcases vecLoopO_spec (f := fromF ip n) (f' := fromO bad ip n) v.length 0 m2 _ r Fs F2 hw2 (by omega) hv2 hr2 hdis2
        (by simpa using hr)
        (fun j x y _ hx hy => by
          have hx := List.mem_of_getElem? hx
          have h1 := sizeOf_mem hx
          have hfx := everyL_iff.1 hfv x hx
          rcases mem_allocL (List.mem_of_getElem? hy) with rfl | hy
          · have hsz : sizeOf x + sizeOf notype < n := by rw [GC.notype.sizeOf_spec]; omega
            exact ⟨fromF_spec ip n x notype hsz hfx trivial rfl,
              fromO_spec bad ip n x notype hsz (hwv x hx) hfx trivial rfl⟩
          · have h2 := sizeOf_oldVector hy
            exact ⟨fromF_spec ip n x y (by omega) hfx (wf_oldVector hwd hy) (fits_oldVector hfd hy),
              fromO_spec bad ip n x y (by omega) (hwv x hx) hfx (wf_oldVector hwd hy) (fits_oldVector hfd hy)⟩) with h | ⟨m', h, hF⟩
      · exact Or.inl h
      · exact Or.inr ⟨m', h, hlift m' (hF.after hC2 (hr1.lt hw1))⟩
    | map e =>
      intro m d s cs cd Fs Fd P
      obtain ⟨g', hg⟩ := from_gc_ok _ hfs hws gd
      obtain ⟨hnul, hfv⟩ := Fits_map hfs
      rw [from_gc] at hg
      obtain ⟨r, hr, hg⟩ := out_bind_ok hg
      have hsz : sizeOf e < sizeOf (map e) := by simp only [GC.map.sizeOf_spec]; omega
      obtain ⟨m1, b, F1, he1, hu1, hr1⟩ := allocMap_spec P.wf P.dst P.dstRep (n := n) (by omega) P.fdd
      have hw1 := hu1.wf P.wf (P.dstRep.lt P.wf)
      have hd1 := hu1.read P.dst
      have hs1 := hu1.read_ne P.wf P.src P.ne P.fds
      have hv1 := hu1.other P.wf P.srcRep P.fsd P.disj
      have hdis1 := hu1.disj P.wf P.srcRep P.disj
      obtain ⟨a, aes, G, rfl, ha, hL, hks, hna, hFs⟩ := id hv1
      have hF1d : ¬ F1 d.addr := upd_not P.wf hu1 P.dst P.fdd
      have hlen : aes.length = e.length := by simpa using congrArg List.length hL.keys
      have hsrc := P.src
      simp only [fromO, fromF, hsrc]
      refine (allocBoxO_either P.wf P.dst P.dstRep (by omega) P.fdd ghost_map).bind (fun _ h => h) fun m1' b' h1 => ?_
      rw [he1] at h1
      have e1 : m1 = m1' := by injection h1
      have e2 : b = b' := by injection h1
      subst e1 e2
      simp only [hs1, ha]
      rw [hlen]
      rcases mapLoopO_spec (f := fromF ip n) (f' := fromO bad ip n)
        (fun p hp => cstr_of_noNul (hnul p hp)) e.length 0 m1 gd.oldMap r Fs F1 hw1 (by omega) hv1 hr1 hdis1
        (by simpa using hr)
        (fun p hp => by
          rw [List.drop_zero] at hp
          have h1 : sizeOf p.2 < sizeOf e := by
            have := List.sizeOf_lt_of_mem hp
            obtain ⟨k, x⟩ := p
            rw [Prod.mk.sizeOf_spec] at this
            show sizeOf x < _
            omega
          have hfp := everyM_iff.1 hfv p hp
          have hwp : WF p.2 := by
            have := WF_valueAt hws p.1
            simp only [oldMap] at this
            rw [mfind_of_mem hks (show (p.1, p.2) ∈ e from hp)] at this
            exact this
          cases hk : mfind p.1 gd.oldMap with
          | none =>
            have hsz : sizeOf p.2 + sizeOf notype < n := by rw [GC.notype.sizeOf_spec]; omega
            exact ⟨fromF_spec ip n p.2 notype hsz hfp trivial rfl, fromO_spec bad ip n p.2 notype hsz hwp hfp trivial rfl⟩
          | some y =>
            have h2 := sizeOf_oldMap hk
            have hwy : WF y := by have := WF_valueAt hwd p.1; rw [hk] at this; exact this
            have hfy : Fits y := by
              cases gd <;> simp only [oldMap, mfind] at hk <;> try (exact absurd hk (by simp))
              exact everyM_iff.1 (Fits_map hfd).2 _ (mem_of_mfind hk)
            exact ⟨fromF_spec ip n p.2 y (by omega) hfp hwy hfy, fromO_spec bad ip n p.2 y (by omega) hwp hfp hwy hfy⟩)
        with h | ⟨m', h, hF⟩
      · exact Or.inl h
      · exact Or.inr ⟨m', h, (hF.fails hw1 hd1 hF1d).after hu1 (read_lt P.wf P.dst) P.fdd (P.dstRep.lt P.wf)⟩
    | _ => simp [immediate, plainBox] at hi hp

end Heap
end GCV
