import Verif.Lemmas.Heap
import Verif.Lemmas.Copy
import Verif.Lemmas.History

/-! # Copying in memory -/

namespace GCV
namespace Heap
open GC

variable {m m' m1 m2 : Mem} {g x y : GC} {c c' : Cell} {F F' G H : Addr → Prop} {d s l : Loc} {a b : Addr}

theorem Rep.elem {w : List GC} {i : Nat} (hw : Wf m) (h : Rep m (vector w) (.box .VECTOR a) F) (hi : w[i]? = some y) :
    ∃ c G, m.read ⟨a, .idx i⟩ = some c ∧ Rep m y c G ∧ (∀ b, G b → F b) ∧ ¬ G a ∧
      ∀ m' y' c' G', Upd m m' ⟨a, .idx i⟩ c' G G' → Rep m' y' c' G' →
        Rep m' (vector (w.set i y')) (.box .VECTOR a) (fun b => (F b ∧ ¬ G b) ∨ G' b) := by
  have hlt := h.lt hw
  obtain ⟨a', cs, G0, hc, ha, hG0, hna, hF⟩ := h
  injection hc with _ hc
  subst hc
  obtain ⟨c, G, hci, hy, hsub, hput⟩ := hG0.focus hi
  have hG0lt : ∀ b, G0 b → b < m.next := fun b hb => hlt b ((hF b).2 (Or.inr hb))
  have halt := hlt a ((hF a).2 (Or.inl rfl))
  refine ⟨c, G, ?_, hy, fun b hb => (hF b).2 (Or.inr (hsub b hb)), fun hg => hna (hsub a hg), ?_⟩
  · show (m.blk a).bind _ = _
    rw [ha]; exact hci
  · intro m' y' c' G' hu hy'
    refine ⟨a, cs.set i c', fun b => (G0 b ∧ ¬ G b) ∨ G' b, rfl, ?_, ?_, ?_, ?_⟩
    · have := hu.own
      simp only [ha] at this
      exact this
    · apply hput m' y' c' G' _ hy'
      · intro b hb hb0
        rcases hu.sub b hb with h | h
        · exact h
        · have := hG0lt b hb0; omega
      · intro b hb hg
        exact hu.same b (fun e => hna (by rw [← show b = a from e]; exact hb)) hg (hG0lt b hb)
    · rintro (h | h)
      · exact hna h.1
      · rcases hu.sub a h with h | h
        · exact hna (hsub a h)
        · omega
    · intro b
      have h1 := hF b
      have h2 : G a → False := fun h => hna (hsub a h)
      constructor
      · rintro (h | h)
        · rcases h1.1 h.1 with e | e
          · exact Or.inl e
          · exact Or.inr (Or.inl ⟨e, h.2⟩)
        · exact Or.inr (Or.inr h)
      · rintro (rfl | h | h)
        · exact Or.inl ⟨h1.2 (Or.inl rfl), h2⟩
        · exact Or.inl ⟨h1.2 (Or.inr h.1), h.2⟩
        · exact Or.inr h

theorem mset_mput (k : Bytes) (y' : GC) : ∀ {e : Entries} {y : GC}, KeysSorted e → mfind k e = some y →
    mset k y' e = mput k y' e
  | [], _, _, h => by simp [mfind] at h
  | (k', x) :: r, y, hs, h => by
    rw [KeysSorted, List.pairwise_cons] at hs
    by_cases hk : k = k'
    · simp [mset, mput, hk]
    · simp only [mfind, hk, if_false] at h
      have hm := mem_of_mfind h
      have hlt := hs.1 _ hm
      have hb : blt k k' = false := by
        cases hb : blt k k' with
        | false => rfl
        | true => exact absurd (strLT_trans hlt ((blt_iff _ _).1 hb)) (strLT_irrefl _)
      simp [mset, mput, hk, hb, mset_mput k y' hs.2 h]

theorem Rep.entry {e : Entries} {k : Bytes} (hw : Wf m) (h : Rep m (map e) (.box .MAP a) F) (hi : mfind k e = some y) :
    ∃ c G, m.read ⟨a, .key k⟩ = some c ∧ Rep m y c G ∧ (∀ b, G b → F b) ∧ ¬ G a ∧
      ∀ m' y' c' G', Upd m m' ⟨a, .key k⟩ c' G G' → Rep m' y' c' G' →
        Rep m' (map (mset k y' e)) (.box .MAP a) (fun b => (F b ∧ ¬ G b) ∨ G' b) := by
  have hlt := h.lt hw
  obtain ⟨a', cs, G0, hc, ha, hG0, hks, hna, hF⟩ := h
  injection hc with _ hc
  subst hc
  obtain ⟨c, G, hci, hy, hsub, hput⟩ := hG0.focus hi
  have hG0lt : ∀ b, G0 b → b < m.next := fun b hb => hlt b ((hF b).2 (Or.inr hb))
  have halt := hlt a ((hF a).2 (Or.inl rfl))
  refine ⟨c, G, ?_, hy, fun b hb => (hF b).2 (Or.inr (hsub b hb)), fun hg => hna (hsub a hg), ?_⟩
  · show (m.blk a).bind _ = _
    rw [ha]; exact hci
  · intro m' y' c' G' hu hy'
    refine ⟨a, kput k c' cs, fun b => (G0 b ∧ ¬ G b) ∨ G' b, rfl, ?_, ?_, sorted_mset k y' e hks, ?_, ?_⟩
    · have := hu.own
      simp only [ha] at this
      exact this
    · rw [mset_mput k y' hks hi]
      apply hput m' y' c' G' _ hy'
      · intro b hb hb0
        rcases hu.sub b hb with h | h
        · exact h
        · have := hG0lt b hb0; omega
      · intro b hb hg
        exact hu.same b (fun e => hna (by rw [← show b = a from e]; exact hb)) hg (hG0lt b hb)
    · rintro (h | h)
      · exact hna h.1
      · rcases hu.sub a h with h | h
        · exact hna (hsub a h)
        · omega
    · intro b
      have h1 := hF b
      have h2 : G a → False := fun h => hna (hsub a h)
      constructor
      · rintro (h | h)
        · rcases h1.1 h.1 with e | e
          · exact Or.inl e
          · exact Or.inr (Or.inl ⟨e, h.2⟩)
        · exact Or.inr (Or.inr h)
      · rintro (rfl | h | h)
        · exact Or.inl ⟨h1.2 (Or.inl rfl), h2⟩
        · exact Or.inl ⟨h1.2 (Or.inr h.1), h.2⟩
        · exact Or.inr h

/-- Two trees at two places in memory: the source at `s` and the destination at `d`, with nothing in common. -/
structure Pair (m : Mem) (d s : Loc) (gs gd : GC) (cs cd : Cell) (Fs Fd : Addr → Prop) : Prop where
  wf : Wf m
  src : m.read s = some cs
  srcRep : Rep m gs cs Fs
  dst : m.read d = some cd
  dstRep : Rep m gd cd Fd
  disj : ∀ b, Fs b → ¬ Fd b
  fsd : ¬ Fs d.addr
  fdd : ¬ Fd d.addr
  fds : ¬ Fd s.addr
  ne : s ≠ d

/-- The call copies `gs` over `gd` in memory as `from_gc` does on trees. -/
def FromOk (f : Loc → Loc → Mem → Run Unit) (gs gd : GC) : Prop :=
  ∀ m d s cs cd Fs Fd g', Pair m d s gs gd cs cd Fs Fd → from_gc gs gd = .ok g' →
    ∃ m' c' F', f d s m = .ok m' () ∧ Upd m m' d c' Fd F' ∧ Rep m' g' c' F'

/-- What lies outside a change is still there. -/
theorem Upd.other (h : Upd m m' d c' F F') (hw : Wf m) (hg : Rep m g c G) (hd : ¬ G d.addr) (hGF : ∀ b, G b → ¬ F b) :
    Rep m' g c G :=
  Rep.frame.1 g c G hg fun b hb => h.same b (fun e => hd (e ▸ hb)) (hGF b hb) (hg.lt hw b hb)

theorem Upd.disj (h : Upd m m' d c' F F') (hw : Wf m) (hg : Rep m g c G) (hGF : ∀ b, G b → ¬ F b) :
    ∀ b, G b → ¬ F' b := by
  intro b hb hb'
  rcases h.sub b hb' with h | h
  · exact hGF b hb h
  · have := hg.lt hw b hb; omega

theorem Chg.other (h : Chg m m' F F') (hw : Wf m) (hg : Rep m g c G) (hGF : ∀ b, G b → ¬ F b) : Rep m' g c G :=
  Rep.frame.1 g c G hg fun b hb => h.same b (hGF b hb) (hg.lt hw b hb)

theorem Chg.disj (h : Chg m m' F F') (hw : Wf m) (hg : Rep m g c G) (hGF : ∀ b, G b → ¬ F b) :
    ∀ b, G b → ¬ F' b := by
  intro b hb hb'
  rcases h.sub b hb' with h | h
  · exact hGF b hb h
  · have := hg.lt hw b hb; omega

theorem drop_cons {α : Type} {l : List α} {i : Nat} {x : α} {xs : List α} (h : l.drop i = x :: xs) :
    l[i]? = some x ∧ l.drop (i + 1) = xs := by
  constructor
  · have := congrArg (·[0]?) h
    simpa using this
  · have := congrArg List.tail h
    simpa [List.tail_drop] using this

theorem drop_of_getElem? {α : Type} {l : List α} {i : Nat} {x : α} (h : l[i]? = some x) :
    l.drop i = x :: l.drop (i + 1) := by
  obtain ⟨hi, he⟩ := List.getElem?_eq_some_iff.1 h
  rw [← he]; exact List.drop_eq_getElem_cons hi

/-- The loop of `from_gc` over the elements of a VECTOR. -/
theorem vecLoop_spec {f : Loc → Loc → Mem → Run Unit} {v : List GC} : ∀ (k i : Nat) (m : Mem) (w r : List GC)
    (Fs Fb : Addr → Prop), Wf m → i + k = v.length → Rep m (vector v) (.box .VECTOR a) Fs →
    Rep m (vector w) (.box .VECTOR b) Fb → (∀ x, Fs x → ¬ Fb x) →
    from_gcL (v.drop i) (w.drop i) = .ok r →
    (∀ j x y, i ≤ j → v[j]? = some x → w[j]? = some y → FromOk f x y) →
    ∃ m' F', vecLoop f b a i k m = .ok m' () ∧ Chg m m' Fb F' ∧
      Rep m' (vector (w.take i ++ r)) (.box .VECTOR b) F'
  | 0, i, m, w, r, Fs, Fb, hw, hik, hv, hb, hdis, hl, hf => by
    rw [List.drop_eq_nil_of_le (by omega)] at hl
    simp only [from_gcL, Out.ok.injEq] at hl
    subst hl
    rw [List.take_append_drop]
    obtain ⟨a', cs, _, hc, ha, _⟩ := hv
    injection hc with _ hc
    subst hc
    exact ⟨m, Fb, by rw [vecLoop, ha], Chg.refl hw, hb⟩
  | k + 1, i, m, w, r, Fs, Fb, hw, hik, hv, hb, hdis, hl, hf => by
    have hvi : v[i]? = some v[i] := List.getElem?_eq_getElem (by omega)
    rw [drop_of_getElem? hvi] at hl
    cases hwi : w.drop i with
    | nil => rw [hwi] at hl; simp [from_gcL] at hl
    | cons y ys =>
      rw [hwi] at hl
      obtain ⟨hwy, hwd⟩ := drop_cons hwi
      rw [from_gcL] at hl
      cases hxy : from_gc v[i] y with
      | ok y' =>
        rw [hxy] at hl
        simp only [Out.bind] at hl
        cases hrest : from_gcL (v.drop (i + 1)) ys with
        | ok ys' =>
          rw [hrest] at hl
          simp only [Out.ok.injEq] at hl
          obtain ⟨cx, Gx, hrx, hxr, hGx, _, _⟩ := hv.elem hw hvi
          obtain ⟨cy, Gy, hry, hyr, hGy, hGyb, hput⟩ := hb.elem hw hwy
          have hFsa : Fs a := by obtain ⟨a', cs, G, hc, _, _, _, hF⟩ := hv; injection hc with _ hc; subst hc; exact (hF a).2 (Or.inl rfl)
          have hFbb : Fb b := by obtain ⟨a', cs, G, hc, _, _, _, hF⟩ := hb; injection hc with _ hc; subst hc; exact (hF b).2 (Or.inl rfl)
          have hab : a ≠ b := fun e => hdis a hFsa (e ▸ hFbb)
          obtain ⟨m1, c1, G1, he1, hu1, hr1⟩ := hf i v[i] y (Nat.le_refl _) hvi hwy m ⟨b, .idx i⟩ ⟨a, .idx i⟩ cx cy Gx Gy y'
            ⟨hw, hrx, hxr, hry, hyr, fun x h1 h2 => hdis x (hGx x h1) (hGy x h2),
              fun h => hdis b (hGx b h) hFbb, hGyb, fun h => hdis a hFsa (hGy a h),
              fun e => hab (by simpa using congrArg Loc.addr e)⟩ hxy
          have hb1 := hput m1 y' c1 G1 hu1 hr1
          have hU1 : Chg m m1 Fb (fun x => (Fb x ∧ ¬ Gy x) ∨ G1 x) := hu1.chg hFbb hGy
          have hw1 : Wf m1 := hU1.wf hw (hb.lt hw)
          obtain ⟨m2, F2, he2, hU2, hr2⟩ := vecLoop_spec k (i + 1) m1 (w.set i y') ys' Fs _ hw1 (by omega)
            (hU1.other hw hv hdis) hb1 (hU1.disj hw hv hdis)
            (by rw [List.drop_set_of_lt (by omega), hwd]; exact hrest)
            (fun j x y hj hx hy => hf j x y (by omega) hx (by rwa [List.getElem?_set_ne (by omega)] at hy))
          refine ⟨m2, F2, ?_, hU1.trans hU2 (hb.lt hw), ?_⟩
          · obtain ⟨a', cs, G, hc, ha, hL, _⟩ := hv
            injection hc with _ hc
            subst hc
            rw [vecLoop, ha]
            simp only [if_pos (show i < cs.length by rw [hL.length]; omega), he1, Run.bind, he2]
          · have hil : i < w.length := by
              obtain ⟨h, _⟩ := List.getElem?_eq_some_iff.1 hwy; exact h
            have : w.take i ++ r = (w.set i y').take (i + 1) ++ ys' := by
              rw [← hl, List.take_succ, List.take_set_of_le (Nat.le_refl _), List.getElem?_set_self hil]
              simp
            rw [this]; exact hr2
        | throw => rw [hrest] at hl; simp at hl
        | ub => rw [hrest] at hl; simp at hl
        | diverge => rw [hrest] at hl; simp at hl
      | throw => rw [hxy] at hl; simp [Out.bind] at hl
      | ub => rw [hxy] at hl; simp [Out.bind] at hl
      | diverge => rw [hxy] at hl; simp [Out.bind] at hl

theorem repM_insert {k : Bytes} : ∀ {e : Entries} {es : List (Bytes × Cell)} {F : Addr → Prop}, RepM m e es F →
    mfind k e = none → kfind k es = none ∧ RepM m (mset k notype e) (kins k (.imm notype) es) F
  | [], _, F, h, _ => by
    obtain ⟨rfl, hF⟩ := h
    refine ⟨rfl, .imm notype, [], fun _ => False, fun _ => False, rfl, rep_notype, ⟨rfl, fun _ h => h⟩, fun _ h => h.elim, ?_⟩
    intro b; have := hF b; tauto
  | (k', x) :: xs, _, F, h, hk => by
    obtain ⟨c, cs', G, H, rfl, hx, hs, hd, hF⟩ := h
    have hne : k ≠ k' := by rintro rfl; simp [mfind] at hk
    simp only [mfind, hne, if_false] at hk
    obtain ⟨h1, h2⟩ := repM_insert hs hk
    refine ⟨by simp [kfind, hne, h1], ?_⟩
    by_cases hb : blt k k' = true
    · simp only [mset, hne, if_false, hb, if_true, kins]
      refine ⟨.imm notype, (k', c) :: cs', fun _ => False, F, rfl, rep_notype, ⟨c, cs', G, H, rfl, hx, hs, hd, hF⟩, fun _ h => h.elim, ?_⟩
      intro b; tauto
    · simp only [mset, hne, if_false, hb, kins]
      exact ⟨c, _, G, H, rfl, hx, h2, hd, hF⟩

theorem repM_kfind {k : Bytes} : ∀ {e : Entries} {es : List (Bytes × Cell)} {F : Addr → Prop}, RepM m e es F →
    (mfind k e).isSome → (kfind k es).isSome
  | [], _, F, h, hk => by simp [mfind] at hk
  | (k', x) :: xs, _, F, h, hk => by
    obtain ⟨c, cs', G, H, rfl, hx, hs, hd, hF⟩ := h
    by_cases hne : k = k'
    · simp [kfind, hne]
    · simp only [mfind, hne, if_false] at hk
      simp only [kfind, hne, if_false]
      exact repM_kfind hs hk

/-- `(*this)[k]` on a MAP. -/
theorem keyAt_spec {w : Entries} {k : Bytes} (hw : Wf m) (h : Rep m (map w) (.box .MAP b) F) :
    ∃ m', keyAt b k m = .ok m' () ∧ Chg m m' F F ∧ m'.next = m.next ∧
      Rep m' (map (mset k ((mfind k w).getD notype) w)) (.box .MAP b) F := by
  have hlt := h.lt hw
  obtain ⟨b', es, G, hc, hb, hG, hks, hnb, hF⟩ := h
  injection hc with _ hc
  subst hc
  cases hk : mfind k w with
  | some y =>
    have h1 := repM_kfind hG (k := k) (by rw [hk]; rfl)
    refine ⟨m, ?_, Chg.refl hw, rfl, ?_⟩
    · rw [keyAt, hb]
      cases hkf : kfind k es with
      | some c => simp [hkf]
      | none => rw [hkf] at h1; simp at h1
    · have : mset k ((some y).getD notype) w = w := by
        rw [Option.getD_some, mset_mput k y hks hk]
        clear hG hks h1
        induction w with
        | nil => rfl
        | cons p r ih =>
          obtain ⟨k', x⟩ := p
          by_cases he : k = k'
          · simp [mfind, he] at hk; simp [mput, he, hk]
          · simp only [mfind, he, if_false] at hk
            simp [mput, he, ih hk]
      rw [this]
      exact ⟨b, es, G, rfl, hb, hG, hks, hnb, hF⟩
  | none =>
    obtain ⟨h1, h2⟩ := repM_insert hG hk
    have hFb : F b := (hF b).2 (Or.inl rfl)
    refine ⟨m.upd b (some (.map (kins k (.imm notype) es))), by rw [keyAt, hb]; simp [h1], ⟨?_, ?_, ?_, ?_, Nat.le_refl _⟩, rfl, ?_⟩
    · intro x hx _; rw [blk_upd, if_neg (fun e => hx (by rw [e]; exact hFb))]
    · intro x hx; exact Or.inl hx
    · intro x hx hx'; exact absurd hx hx'
    · intro x hx _
      have := hlt b hFb
      rw [blk_upd, if_neg (by omega)]; exact hw x hx
    · refine ⟨b, _, G, rfl, by rw [blk_upd, if_pos rfl], ?_, sorted_mset k _ w hks, hnb, hF⟩
      exact Rep.frame.2.2 _ _ _ h2 fun x hx => by
        rw [blk_upd, if_neg (fun e : x = b => hnb (e ▸ hx))]

theorem mset_mset (k : Bytes) (x y : GC) : ∀ e : Entries, mset k y (mset k x e) = mset k y e
  | [] => by simp [mset]
  | (k', z) :: r => by
    by_cases hk : k = k'
    · simp [mset, hk]
    · by_cases hb : blt k k' = true
      · simp [mset, hk, hb]
      · simp [mset, hk, hb, mset_mset k x y r]

/-- The loop of `from_gc` over the entries of a MAP. -/
theorem mapLoop_spec {f : Loc → Loc → Mem → Run Unit} {e : Entries} (hnul : ∀ p ∈ e, cstr p.1 = p.1) :
    ∀ (k i : Nat) (m : Mem) (w r : Entries)
    (Fs Fb : Addr → Prop), Wf m → i + k = e.length → Rep m (map e) (.box .MAP a) Fs →
    Rep m (map w) (.box .MAP b) Fb → (∀ x, Fs x → ¬ Fb x) →
    from_gcM (e.drop i) w = .ok r →
    (∀ p ∈ e.drop i, FromOk f p.2 ((mfind p.1 w).getD notype)) →
    ∃ m' F', mapLoop f b a i k m = .ok m' () ∧ Chg m m' Fb F' ∧ Rep m' (map r) (.box .MAP b) F'
  | 0, i, m, w, r, Fs, Fb, hw, hik, hv, hb, hdis, hl, hf => by
    rw [List.drop_eq_nil_of_le (by omega)] at hl
    simp only [from_gcM, Out.ok.injEq] at hl
    subst hl
    obtain ⟨a', cs, _, hc, ha, _⟩ := hv
    injection hc with _ hc
    subst hc
    exact ⟨m, Fb, by rw [mapLoop, ha], Chg.refl hw, hb⟩
  | n + 1, i, m, w, r, Fs, Fb, hw, hik, hv, hb, hdis, hl, hf => by
    have hvi : e[i]? = some e[i] := List.getElem?_eq_getElem (by omega)
    have hdr := drop_of_getElem? hvi
    have hmem : e[i] ∈ e := List.getElem_mem _
    generalize hp : e[i] = p at hvi hdr hmem
    obtain ⟨k, x⟩ := p
    have hck : cstr k = k := hnul _ hmem
    rw [hdr] at hl hf
    have hks : KeysSorted e := by obtain ⟨_, _, _, _, _, _, h, _⟩ := hv; exact h
    have hkx : mfind k e = some x := mfind_of_mem hks hmem
    rw [from_gcM, hck] at hl
    cases hxy : from_gc x ((mfind k w).getD notype) with
    | ok y' =>
      rw [hxy] at hl
      simp only [Out.bind] at hl
      obtain ⟨m0, he0, hC0, hn0, hb0⟩ := keyAt_spec (k := k) hw hb
      have hw0 : Wf m0 := hC0.wf hw (hb.lt hw)
      have hv0 := hC0.other hw hv hdis
      obtain ⟨cx, Gx, hrx, hxr, hGx, _, _⟩ := hv0.entry hw0 hkx
      obtain ⟨cy, Gy, hry, hyr, hGy, hGyb, hput⟩ := hb0.entry hw0 (mfind_mset_same k _ w)
      have hFsa : Fs a := by obtain ⟨a', cs, G, hc, _, _, _, _, hF⟩ := hv; injection hc with _ hc; subst hc; exact (hF a).2 (Or.inl rfl)
      have hFbb : Fb b := by obtain ⟨a', cs, G, hc, _, _, _, _, hF⟩ := hb; injection hc with _ hc; subst hc; exact (hF b).2 (Or.inl rfl)
      have hab : a ≠ b := fun e => hdis a hFsa (e ▸ hFbb)
      obtain ⟨m1, c1, G1, he1, hu1, hr1⟩ := hf (k, x) List.mem_cons_self m0 ⟨b, .key k⟩ ⟨a, .key k⟩ cx cy Gx Gy y'
        ⟨hw0, hrx, hxr, hry, hyr, fun x h1 h2 => hdis x (hGx x h1) (hGy x h2),
          fun h => hdis b (hGx b h) hFbb, hGyb, fun h => hdis a hFsa (hGy a h),
          fun e => hab (by simpa using congrArg Loc.addr e)⟩ hxy
      have hb1 := hput m1 y' c1 G1 hu1 hr1
      rw [mset_mset] at hb1
      have hU1 : Chg m0 m1 Fb (fun x => (Fb x ∧ ¬ Gy x) ∨ G1 x) := hu1.chg hFbb hGy
      have hw1 : Wf m1 := hU1.wf hw0 (hb0.lt hw0)
      have hks' : ∀ p ∈ e.drop (i + 1), p.1 ≠ k := by
        intro p hp' hpk
        have h2 : KeysSorted ((k, x) :: e.drop (i + 1)) := by
          rw [← hdr]; exact List.Pairwise.sublist (List.drop_sublist _ _) hks
        rw [KeysSorted, List.pairwise_cons] at h2
        have := h2.1 p hp'
        rw [hpk] at this
        exact strLT_irrefl _ this
      obtain ⟨m2, F2, he2, hU2, hr2⟩ := mapLoop_spec hnul n (i + 1) m1 (mset k y' w) r Fs _ hw1 (by omega)
        (hU1.other hw0 hv0 hdis) hb1 (hU1.disj hw0 hv0 hdis) hl
        (fun p hp' => by
          rw [mfind_mset_other (hks' p hp')]
          exact hf p (List.mem_cons_of_mem _ hp'))
      refine ⟨m2, F2, ?_, hC0.trans (hU1.trans hU2 (hb0.lt hw0)) (hb.lt hw), hr2⟩
      obtain ⟨a', es, G, hc, ha, hL, _⟩ := hv
      injection hc with _ hc
      subst hc
      have hes : ∃ c, es[i]? = some (k, c) := by
        have := congrArg (·[i]?) hL.keys
        simp only [List.getElem?_map, hvi, Option.map_some] at this
        cases h : es[i]? with
        | none => rw [h] at this; simp at this
        | some q => rw [h] at this; simp at this; exact ⟨q.2, by rw [← this]⟩
      obtain ⟨c, hes⟩ := hes
      rw [mapLoop, ha]
      simp only [hes, hck, he0, Run.bind, he1, he2]
    | throw => rw [hxy] at hl; simp [Out.bind] at hl
    | ub => rw [hxy] at hl; simp [Out.bind] at hl
    | diverge => rw [hxy] at hl; simp [Out.bind] at hl

/-! ## Changing the size of a vector -/

theorem RepL.split : ∀ {w : List GC} {cs : List Cell} {F : Addr → Prop} (n : Nat), RepL m w cs F →
    ∃ G H, RepL m (w.take n) (cs.take n) G ∧ RepL m (w.drop n) (cs.drop n) H ∧ (∀ b, G b → ¬ H b) ∧
      ∀ b, F b ↔ (G b ∨ H b)
  | w, cs, F, 0, h => ⟨fun _ => False, F, by simpa using ⟨rfl, fun _ h => h⟩, by simpa using h, fun _ h => h.elim,
      fun b => by tauto⟩
  | [], cs, F, n + 1, h => by
    obtain ⟨rfl, hF⟩ := h
    exact ⟨F, fun _ => False, ⟨rfl, hF⟩, ⟨rfl, fun _ h => h⟩, fun _ _ h => h, fun b => by tauto⟩
  | x :: xs, _, F, n + 1, h => by
    obtain ⟨c, cs', G, H, rfl, hx, hs, hd, hF⟩ := h
    obtain ⟨G1, H1, h1, h2, h3, h4⟩ := RepL.split n hs
    refine ⟨fun b => G b ∨ G1 b, H1, ⟨c, cs'.take n, G, G1, rfl, hx, h1, fun b hb hg => hd b hb ((h4 b).2 (Or.inl hg)),
      fun _ => Iff.rfl⟩, h2, ?_, ?_⟩
    · rintro b (hb | hb) hh
      · exact hd b hb ((h4 b).2 (Or.inr hh))
      · exact h3 b hb hh
    · intro b
      have := hF b; have := h4 b
      tauto

theorem repL_replicate : ∀ n : Nat, RepL m (List.replicate n notype) (List.replicate n (.imm notype)) (fun _ => False)
  | 0 => ⟨rfl, fun _ h => h⟩
  | n + 1 => ⟨.imm notype, List.replicate n (.imm notype), fun _ => False, fun _ => False, rfl, rep_notype,
      repL_replicate n, fun _ h => h.elim, fun b => by tauto⟩

theorem RepL.append_replicate (n : Nat) : ∀ {w : List GC} {cs : List Cell} {F : Addr → Prop}, RepL m w cs F →
    RepL m (w ++ List.replicate n notype) (cs ++ List.replicate n (.imm notype)) F
  | [], _, F, h => by
    obtain ⟨rfl, hF⟩ := h
    exact (repL_replicate n).congr fun b => by have := hF b; tauto
  | x :: xs, _, F, h => by
    obtain ⟨c, cs', G, H, rfl, hx, hs, hd, hF⟩ := h
    exact ⟨c, _, G, H, rfl, hx, RepL.append_replicate n hs, hd, hF⟩

theorem from_gcL_replicate : ∀ (w : List GC) (n : Nat), (∀ x ∈ w, from_gc x notype = .ok x) → w.length ≤ n →
    from_gcL w (List.replicate n notype) = .ok (w ++ List.replicate (n - w.length) notype)
  | [], n, _, _ => by simp [from_gcL]
  | x :: xs, 0, _, h => by simp at h
  | x :: xs, n + 1, hx, h => by
    rw [List.replicate_succ, from_gcL, hx x (by simp)]
    simp only [Out.bind]
    rw [from_gcL_replicate xs n (fun y hy => hx y (by simp [hy])) (by simpa using h)]
    simp

theorem resizeF_spec {inPlace : Nat → Nat → Bool} {n sz : Nat} {f : Loc → Loc → Mem → Run Unit} {w : List GC}
    (hw : Wf m) (h : Rep m (vector w) (.box .VECTOR a) F) (hn : sizeOf w ≤ n)
    (hcopy : ∀ x ∈ w, from_gc x notype = .ok x) (hf : ∀ x ∈ w, FromOk f x notype) :
    ∃ m' F', resizeF inPlace (freeF n) f a sz m = .ok m' () ∧ Chg m m' F F' ∧
      Rep m' (vector (resizeL notype sz w)) (.box .VECTOR a) F' := by
  have hlt := h.lt hw
  have h0 := h
  obtain ⟨a', cs, G, hc, ha, hG, hna, hF⟩ := h
  injection hc with _ hc
  subst hc
  have hFa : F a := (hF a).2 (Or.inl rfl)
  have halt := hlt a hFa
  have hlen := hG.length
  by_cases h1 : sz ≤ cs.length
  · obtain ⟨G1, G2, hr1, hr2, hd12, hG12⟩ := hG.split sz
    have hsz : sizeOf (w.drop sz) ≤ n := by
      have : ∀ (l : List GC) k, sizeOf (l.drop k) ≤ sizeOf l := by
        intro l
        induction l with
        | nil => intro k; simp
        | cons x xs ih =>
          intro k
          cases k with
          | zero => simp
          | succ k =>
            have := ih k
            rw [List.drop_succ_cons, List.cons.sizeOf_spec]; omega
      exact Nat.le_trans (this w sz) hn
    obtain ⟨m1, he1, hf1⟩ := freeF_spec.2.1 _ n m _ G2 hsz hr2
    refine ⟨m1.upd a (some (.vec (cs.take sz))), fun b => b = a ∨ G1 b, ?_, ⟨?_, ?_, ?_, ?_, ?_⟩, ?_⟩
    · simp only [resizeF, ha, if_pos h1, he1, Run.bind]
    · intro b hb _
      have h2 : ¬ G2 b := fun hg => hb ((hF b).2 (Or.inr ((hG12 b).2 (Or.inr hg))))
      rw [blk_upd, if_neg (fun e : b = a => hb (e ▸ hFa)), hf1.same b h2]
    · rintro b (rfl | hb)
      · exact Or.inl hFa
      · exact Or.inl ((hF b).2 (Or.inr ((hG12 b).2 (Or.inl hb))))
    · intro b hb hb'
      have h2 : G2 b := by
        rcases (hF b).1 hb with e | e
        · exact absurd (Or.inl e) hb'
        · exact ((hG12 b).1 e).resolve_left fun e => hb' (Or.inr e)
      rw [blk_upd, if_neg (fun e : b = a => hb' (Or.inl e)), hf1.gone b h2]
    · intro b hb hb'
      have h2 : ¬ G2 b := fun e => by
        have := hlt b ((hF b).2 (Or.inr ((hG12 b).2 (Or.inr e)))); omega
      rw [blk_upd, if_neg (fun e : b = a => hb' (Or.inl e)), hf1.same b h2]
      exact hw b hb
    · show m.next ≤ m1.next
      rw [hf1.next]; exact Nat.le_refl _
    · have hres : resizeL notype sz w = w.take sz := by
        rw [resizeL, show sz - w.length = 0 by omega]; simp
      rw [hres]
      refine ⟨a, cs.take sz, G1, rfl, by rw [blk_upd, if_pos rfl], ?_, ?_, fun _ => Iff.rfl⟩
      · refine Rep.frame.2.1 _ _ _ hr1 fun b hb => ?_
        have hbG := (hG12 b).2 (Or.inl hb)
        rw [blk_upd, if_neg (fun e : b = a => hna (e ▸ hbG)), hf1.same b (hd12 b hb)]
      · exact fun e => hna ((hG12 a).2 (Or.inl e))
  · have hres : resizeL notype sz w = w ++ List.replicate (sz - w.length) notype := by
      rw [resizeL, List.take_of_length_le (by omega)]
    by_cases h2 : inPlace cs.length sz = true
    · refine ⟨m.upd a (some (.vec (cs ++ List.replicate (sz - cs.length) (.imm notype)))), F,
        by simp only [resizeF, ha, if_neg h1, h2, if_true], ⟨?_, ?_, ?_, ?_, Nat.le_refl _⟩, ?_⟩
      · intro b hb _
        rw [blk_upd, if_neg (fun e : b = a => hb (e ▸ hFa))]
      · intro b hb; exact Or.inl hb
      · intro b hb hb'; exact absurd hb hb'
      · intro b hb _
        rw [blk_upd, if_neg (by omega)]; exact hw b hb
      · rw [hres]
        refine ⟨a, _, G, rfl, by rw [blk_upd, if_pos rfl], ?_, hna, hF⟩
        rw [← hlen]
        refine Rep.frame.2.1 _ _ _ (hG.append_replicate _) fun b hb => ?_
        rw [blk_upd, if_neg (fun e : b = a => hna (e ▸ hb))]
    · -- copied to new storage
      let m1 := m.alloc (.vec (List.replicate sz (.imm notype)))
      have hm1 : ∀ b, b ≠ m.next → m1.blk b = m.blk b := fun b hb => by
        show (m.alloc _).blk b = _
        rw [blk_alloc, if_neg hb]
      have hw1 : Wf m1 := by
        intro b hb
        have hb : m.next + 1 ≤ b := hb
        rw [hm1 b (by omega)]; exact hw b (by omega)
      have hv1 : Rep m1 (vector w) (.box .VECTOR a) F :=
        Rep.frame.1 _ _ _ h0 fun b hb => hm1 b (by have := hlt b hb; omega)
      have hb1 : Rep m1 (vector (List.replicate sz notype)) (.box .VECTOR m.next) (fun b => b = m.next) :=
        ⟨m.next, _, fun _ => False, rfl, by show (m.alloc _).blk _ = _; rw [blk_alloc, if_pos rfl], repL_replicate sz,
          fun h => h, fun b => by tauto⟩
      obtain ⟨m2, F2, he2, hC2, hr2⟩ := vecLoop_spec (f := f) cs.length 0 m1 (List.replicate sz notype)
        (w ++ List.replicate (sz - w.length) notype) F _ hw1 (by omega) hv1 hb1
        (fun b hb (e : b = m.next) => by have := hlt b hb; omega)
        (by simpa using from_gcL_replicate w sz hcopy (by omega))
        (fun j x y _ hx hy => by
          have hy' : y = notype := by
            have := List.mem_of_getElem? hy
            exact (List.mem_replicate.1 this).2
          rw [hy']; exact hf x (List.mem_of_getElem? hx))
      simp only [List.take_zero, List.nil_append] at hr2
      have hm2 : ∀ b, b < m.next → m2.blk b = m.blk b := fun b hb => by
        rw [hC2.same b (fun e : b = m.next => by omega) (show b < m.next + 1 by omega), hm1 b (by omega)]
      have hG2 : RepL m2 w cs G := Rep.frame.2.1 _ _ _ hG fun b hb => hm2 b (hlt b ((hF b).2 (Or.inr hb)))
      obtain ⟨m3, he3, hf3⟩ := freeF_spec.2.1 w n m2 cs G hn hG2
      obtain ⟨b', cs', H, hc, hb', hH, hnb, hF2⟩ := hr2
      injection hc with _ hc
      subst hc
      have hHge : ∀ b, H b → m.next < b := by
        intro b hb
        rcases hC2.sub b ((hF2 b).2 (Or.inr hb)) with e | e
        · have e : b = m.next := e
          exact absurd hb (e ▸ hnb)
        · have : m.next + 1 ≤ b := e.1
          omega
      have hGlt : ∀ b, G b → b < m.next := fun b hb => hlt b ((hF b).2 (Or.inr hb))
      have hb3 : m3.blk m.next = some (.vec cs') := by
        rw [hf3.same _ (fun e => by have := hGlt _ e; omega), hb']
      have hn3 : m.next < m3.next := by
        rw [hf3.next]
        have := hC2.mono
        have : m.next + 1 ≤ m2.next := this
        omega
      refine ⟨(m3.upd a (some (.vec cs'))).upd m.next none, fun b => b = a ∨ H b, ?_, ⟨?_, ?_, ?_, ?_, ?_⟩, ?_⟩
      · simp only [resizeF, ha, if_neg h1, if_neg h2]
        rw [show m.alloc (.vec (List.replicate sz (.imm notype))) = m1 from rfl, he2]
        simp only [Run.bind, he3, hb3]
      · intro b hb hlt'
        have hbG : ¬ G b := fun e => hb ((hF b).2 (Or.inr e))
        rw [blk_upd, if_neg (by omega), blk_upd, if_neg (fun e : b = a => hb (e ▸ hFa)), hf3.same b hbG, hm2 b hlt']
      · rintro b (rfl | hb)
        · exact Or.inl hFa
        · refine Or.inr ⟨by have := hHge b hb; omega, ?_⟩
          show b < m3.next
          rw [hf3.next]
          rcases hC2.sub b ((hF2 b).2 (Or.inr hb)) with e | e
          · have e : b = m.next := e
            have := hHge b hb; omega
          · exact e.2
      · intro b hb hb'
        rcases (hF b).1 hb with e | e
        · exact absurd (Or.inl e) hb'
        · rw [blk_upd, if_neg (by have := hGlt b e; omega), blk_upd, if_neg (fun e : b = a => hb' (Or.inl e)), hf3.gone b e]
      · intro b hb hb'
        rw [blk_upd]
        by_cases e : b = m.next
        · rw [if_pos e]
        · rw [if_neg e, blk_upd, if_neg (by omega), hf3.same b (fun e => by have := hGlt b e; omega)]
          apply hC2.fresh b (show m.next + 1 ≤ b by omega)
          intro e2
          rcases (hF2 b).1 e2 with e2 | e2
          · exact e e2
          · exact hb' (Or.inr e2)
      · exact Nat.le_of_lt hn3
      · rw [hres]
        refine ⟨a, cs', H, rfl, ?_, ?_, ?_, fun _ => Iff.rfl⟩
        · rw [blk_upd, if_neg (by omega), blk_upd, if_pos rfl]
        · refine Rep.frame.2.1 _ _ _ hH fun b hb => ?_
          have := hHge b hb
          rw [blk_upd, if_neg (by omega), blk_upd, if_neg (by omega), hf3.same b (fun e => by have := hGlt b e; omega)]
        · exact fun e => by have := hHge a e; omega

/-! ## `from_gc` -/

/-- The tags with a payload that holds no containers, COMPLEX apart. -/
def plainBox : GC → Bool
  | .string _ | .vecPointer _ | .vecBool _ | .vecInt _ | .vecLong _ | .vecReal _ | .vecComplex _ | .vecString _
  | .matInt _ | .matLong _ | .matReal _ | .matComplex _ => true
  | _ => false

theorem rep_box (h1 : ∀ v, g ≠ vector v) (h2 : ∀ e, g ≠ map e) (h3 : immediate g = false) :
    Rep m g c F ↔ ∃ a, c = .box g.ty a ∧ m.blk a = some (.leaf g) ∧ ∀ b, F b ↔ b = a := by
  rw [rep_leaf h1 h2, if_neg (by rw [h3]; simp)]

theorem rep_plain (h : plainBox g = true) :
    Rep m g c F ↔ ∃ a, c = .box g.ty a ∧ m.blk a = some (.leaf g) ∧ ∀ b, F b ↔ b = a := by
  apply rep_box
  · rintro v rfl; simp [plainBox] at h
  · rintro v rfl; simp [plainBox] at h
  · cases g <;> simp_all [plainBox, immediate]

theorem fromF_plain {ip : Nat → Nat → Bool} {n : Nat} (h : plainBox g = true) (hr : m.read s = some (.box g.ty a)) :
    fromF ip (n + 1) d s m = (allocBox n g.ty (.leaf notype) d m).bind fun m b => fillLeaf a b m := by
  cases g <;> first
    | (simp [plainBox] at h; done)
    | (simp only [GC.ty] at hr; simp only [fromF, hr, GC.ty]; done)

theorem from_plain_ty {gs gd g' : GC} (h : plainBox gs = true) (hg : from_gc gs gd = .ok g') :
    plainBox g' = true ∧ g'.ty = gs.ty := by
  cases gs <;> first
    | (simp [plainBox] at h; done)
    | (simp only [from_gc, set_string, set_vec_pointer, set_vec_bool, set_vec_int, set_vec_long, set_vec_real,
        set_vec_complex, set_vec_string, set_mat_int, set_mat_long, set_mat_real, set_mat_complex] at hg
       first
        | (injection hg with hg; subst hg; exact ⟨rfl, rfl⟩)
        | (obtain ⟨w, _, hw⟩ := GC.out_bind_ok hg; injection hw with hw; subst hw; exact ⟨rfl, rfl⟩)
        | (cases gd <;> simp only [allocate_string, allocate_mat_int, allocate_mat_long, allocate_mat_real,
            allocate_mat_complex] at hg <;> first
            | (injection hg with hg; subst hg; exact ⟨rfl, rfl⟩)
            | (obtain ⟨w, _, hw⟩ := GC.out_bind_ok hg; injection hw with hw; subst hw; exact ⟨rfl, rfl⟩)))

theorem from_plain_other {gs gd : GC} (h : plainBox gs = true) (ht : gd.ty ≠ gs.ty) :
    from_gc gs gd = from_gc gs notype := by
  cases gs <;> first
    | (simp [plainBox] at h; done)
    | (cases gd <;> first | rfl | exact absurd rfl ht)

theorem fromOk_plain {ip : Nat → Nat → Bool} {n : Nat} {gs gd : GC} (hn : sizeOf gd ≤ n) (hp : plainBox gs = true) :
    FromOk (fromF ip (n + 1)) gs gd := by
  intro m d s cs cd Fs Fd g' P hg
  obtain ⟨a, rfl, ha, hFs⟩ := (rep_plain hp).1 P.srcRep
  obtain ⟨hp', ht'⟩ := from_plain_ty hp hg
  have key : ∃ m1 b old F1, allocBox n gs.ty (.leaf notype) d m = .ok m1 b ∧ Upd m m1 d (.box gs.ty b) Fd F1 ∧
      (∀ x, F1 x ↔ x = b) ∧ m1.blk b = some (.leaf old) ∧ from_gc gs old = .ok g' := by
    by_cases ht : gd.ty = gs.ty
    · have hpd : plainBox gd = true := by
        cases gs <;> cases gd <;> simp_all [plainBox, GC.ty]
      obtain ⟨b, hcd, hb, hFd⟩ := (rep_plain hpd).1 P.dstRep
      rw [ht] at hcd
      subst hcd
      exact ⟨m, b, gd, Fd, allocBox_keep P.dst, Upd.refl P.wf P.dst, hFd, hb, hg⟩
    · obtain ⟨m1, b, he, hu, hb⟩ := allocBox_new (t := gs.ty) (B := .leaf notype) P.wf P.dst P.dstRep hn P.fdd (by
        rintro a rfl
        have hr := P.dstRep
        cases gd with
        | vector v =>
          obtain ⟨_, _, _, hc, _⟩ := hr
          injection hc with hc _
          cases gs <;> simp_all [plainBox, GC.ty]
        | map v =>
          obtain ⟨_, _, _, hc, _⟩ := hr
          injection hc with hc _
          cases gs <;> simp_all [plainBox, GC.ty]
        | _ =>
          rw [rep_leaf (by intro v h; cases h) (by intro v h; cases h)] at hr
          simp only [immediate, if_true, if_false, Bool.false_eq_true] at hr
          first
            | exact absurd hr.1 (by simp)
            | (obtain ⟨_, hc, _⟩ := hr; injection hc with hc _; exact ht hc.symm))
      exact ⟨m1, b, notype, _, he, hu, fun _ => Iff.rfl, hb, by rw [← from_plain_other hp ht]; exact hg⟩
  obtain ⟨m1, b, old, F1, he, hu, hF1, hb, hg1⟩ := key
  have ha1 : m1.blk a = some (.leaf gs) := by
    have hFsa : Fs a := (hFs a).2 rfl
    rw [hu.same a (fun e => P.fsd (e ▸ hFsa)) (P.disj a hFsa) (P.srcRep.lt P.wf a hFsa), ha]
  have hw1 := hu.wf P.wf (P.dstRep.lt P.wf)
  have hF1d : ¬ F1 d.addr := fun h => by
    rcases hu.sub _ h with h | h
    · exact P.fdd h
    · have := read_lt P.wf P.dst; omega
  refine ⟨m1.upd b (some (.leaf g')), .box g'.ty b, F1, ?_, ?_, ?_⟩
  · rw [fromF_plain hp P.src, he]
    simp only [Run.bind, fillLeaf, ha1, hb, hg1]
  · rw [ht']
    have hlt : b < m1.next := hw1.lt (by rw [hb]; simp)
    have hc : Chg m1 (m1.upd b (some (.leaf g'))) F1 F1 := by
      refine ⟨?_, fun x hx => Or.inl hx, fun x h1 h2 => absurd h1 h2, ?_, Nat.le_refl _⟩
      · intro x hx _; rw [blk_upd, if_neg (fun e => hx ((hF1 x).2 e))]
      · intro x hx _; rw [blk_upd, if_neg (by omega)]; exact hw1 x hx
    exact hu.trans (hc.upd hw1 (hu.read P.dst) hF1d) (read_lt P.wf P.dst) P.fdd (P.dstRep.lt P.wf)
  · rw [rep_plain hp']
    exact ⟨b, rfl, by rw [blk_upd, if_pos rfl], hF1⟩

theorem fromOk_complex {ip : Nat → Nat → Bool} {n : Nat} {z : Cplx} {gd : GC} (hn : sizeOf gd ≤ n) :
    FromOk (fromF ip (n + 1)) (complex z) gd := by
  intro m d s cs cd Fs Fd g' P hg
  simp only [from_gc, set_complex, Out.ok.injEq] at hg
  subst hg
  obtain ⟨a, rfl, ha, hFs⟩ := (rep_box (by simp) (by simp) rfl).1 P.srcRep
  have hFsa : Fs a := (hFs a).2 rfl
  obtain ⟨m1, he1, hu1, hn1, hr1⟩ := clearAt_spec P.wf P.dst P.dstRep hn P.fdd
  have hw1 := hu1.wf P.wf (P.dstRep.lt P.wf)
  obtain ⟨m2, he2, hu2, hb2⟩ := new_spec (t := .COMPLEX) (B := .leaf notype) hw1 hr1
  have hu := hu1.trans hu2 (read_lt P.wf P.dst) P.fdd (P.dstRep.lt P.wf)
  have hlta := P.srcRep.lt P.wf a hFsa
  have ha2 : m2.blk a = some (.leaf (complex z)) := by
    rw [hu.same a (fun e => P.fsd (e ▸ hFsa)) (P.disj a hFsa) hlta, ha]
  have hw2 := hu.wf P.wf (P.dstRep.lt P.wf)
  have hdlt := read_lt P.wf P.dst
  have hc : Chg m2 (m2.upd m1.next (some (.leaf (complex z)))) (fun b => b = m1.next) (fun b => b = m1.next) := by
    have hlt : m1.next < m2.next := hw2.lt (by rw [hb2]; simp)
    refine ⟨?_, fun x hx => Or.inl hx, fun x h1 h2 => absurd h1 h2, ?_, Nat.le_refl _⟩
    · intro x hx _; rw [blk_upd, if_neg hx]
    · intro x hx _; rw [blk_upd, if_neg (by omega)]; exact hw2 x hx
  refine ⟨m2.upd m1.next (some (.leaf (complex z))), .box .COMPLEX m1.next, fun b => b = m1.next, ?_, ?_, ?_⟩
  · have hsrc := P.src
    simp only [GC.ty] at hsrc
    simp only [fromF, hsrc, he1, Run.bind, he2, ha2]
  · exact hu.trans (hc.upd hw2 (hu.read P.dst) (by show ¬ d.addr = m1.next; omega)) hdlt P.fdd (P.dstRep.lt P.wf)
  · rw [rep_box (by simp) (by simp) rfl]
    exact ⟨m1.next, rfl, by rw [blk_upd, if_pos rfl], fun _ => Iff.rfl⟩

theorem fromOk_imm {ip : Nat → Nat → Bool} {n : Nat} {gs gd : GC} (hn : sizeOf gd ≤ n) (hi : immediate gs = true) :
    FromOk (fromF ip (n + 1)) gs gd := by
  intro m d s cs cd Fs Fd g' P hg
  have hg' : g' = gs := by
    cases gs <;> simp_all [immediate, from_gc, clear, set_bool, set_int, set_long, set_real, set_pointer]
  subst hg'
  obtain ⟨rfl, hFs⟩ := (rep_imm hi).1 P.srcRep
  obtain ⟨m1, he1, hu1, hn1, hr1⟩ := clearAt_spec P.wf P.dst P.dstRep hn P.fdd
  have hw1 := hu1.wf P.wf (P.dstRep.lt P.wf)
  obtain ⟨m2, he2, hu2, _, _⟩ := write_spec (c' := .imm g') (F := fun _ => False) hw1 hr1
  refine ⟨m2, .imm g', fun _ => False, ?_, hu1.trans hu2 (read_lt P.wf P.dst) P.fdd (P.dstRep.lt P.wf), ?_⟩
  · simp only [fromF, P.src, he1, Run.bind, he2]
  · exact (rep_imm hi).2 ⟨rfl, fun _ h => h⟩

theorem sizeOf_mem {v : List GC} (h : x ∈ v) : sizeOf x < sizeOf v := List.sizeOf_lt_of_mem h

theorem sizeOf_pos (g : GC) : 0 < sizeOf g := by
  cases g <;> simp only [GC.vector.sizeOf_spec, GC.notype.sizeOf_spec, GC.pointer.sizeOf_spec, GC.bool.sizeOf_spec, GC.int.sizeOf_spec, GC.long.sizeOf_spec, GC.real.sizeOf_spec, GC.complex.sizeOf_spec, GC.string.sizeOf_spec, GC.vecPointer.sizeOf_spec, GC.vecBool.sizeOf_spec, GC.vecInt.sizeOf_spec, GC.vecLong.sizeOf_spec, GC.vecReal.sizeOf_spec, GC.vecComplex.sizeOf_spec, GC.vecString.sizeOf_spec, GC.matInt.sizeOf_spec, GC.matLong.sizeOf_spec, GC.matReal.sizeOf_spec, GC.matComplex.sizeOf_spec, GC.map.sizeOf_spec] <;> omega

theorem sizeOf_oldVector (h : x ∈ g.oldVector) : sizeOf x < sizeOf g := by
  cases g <;> simp only [oldVector, List.not_mem_nil] at h
  have := sizeOf_mem h
  simp only [GC.vector.sizeOf_spec]; omega

theorem sizeOf_oldVector_le (g : GC) : sizeOf g.oldVector ≤ sizeOf g := by
  have := sizeOf_pos g
  cases g <;> simp only [oldVector, List.nil.sizeOf_spec, GC.vector.sizeOf_spec] <;> omega

theorem sizeOf_oldMap {k : Bytes} (h : mfind k g.oldMap = some x) : sizeOf x < sizeOf g := by
  cases g <;> simp only [oldMap, mfind] at h <;> try (exact absurd h (by simp))
  have := List.sizeOf_lt_of_mem (mem_of_mfind h)
  rw [Prod.mk.sizeOf_spec] at this
  simp only [GC.map.sizeOf_spec]; omega

theorem fits_oldVector (hf : Fits g) (h : x ∈ g.oldVector) : Fits x := by
  cases g <;> simp only [oldVector, List.not_mem_nil] at h
  exact everyL_iff.1 (Fits_vector hf).2 x h

theorem wf_oldVector (hf : WF g) (h : x ∈ g.oldVector) : WF x := by
  cases g <;> simp only [oldVector, List.not_mem_nil] at h
  exact WFL_iff.1 hf x h

theorem mem_allocL {α : Type} {dflt x : α} {n : Nat} {l : List α} (h : x ∈ allocL dflt n l) : x = dflt ∨ x ∈ l := by
  unfold allocL at h
  split at h
  · unfold resizeL at h
    rcases List.mem_append.1 h with h | h
    · exact Or.inr (List.mem_of_mem_take h)
    · exact Or.inl (List.mem_replicate.1 h).2
  · exact Or.inr h

theorem copy_ok (hw : WF x) (hf : Fits x) : from_gc x notype = .ok x :=
  (from_gc_iff x hf hw notype trivial).2 (Clean_notype x)

/-- `from_gc` in memory is `from_gc` on trees, for trees that have no memory in common. -/
theorem fromF_spec (ip : Nat → Nat → Bool) : ∀ (n : Nat) (gs gd : GC), sizeOf gs + sizeOf gd < n → Fits gs → WF gd →
    Fits gd → FromOk (fromF ip n) gs gd
  | 0, _, _, h, _, _, _ => by omega
  | n + 1, gs, gd, hn, hfs, hwd, hfd => by
    have hpos := sizeOf_pos gs
    have hposd := sizeOf_pos gd
    by_cases hi : immediate gs = true
    · exact fromOk_imm (by omega) hi
    by_cases hp : plainBox gs = true
    · exact fromOk_plain (by omega) hp
    cases gs with
    | complex z => exact fromOk_complex (by omega)
    | vector v =>
      intro m d s cs cd Fs Fd g' P hg
      obtain ⟨h32, hfv⟩ := Fits_vector hfs
      rw [from_gc, u32_of_lt h32] at hg
      obtain ⟨r, hr, hg⟩ := out_bind_ok hg
      injection hg with hg
      subst hg
      have hsz : sizeOf v < sizeOf (vector v) := by simp only [GC.vector.sizeOf_spec]; omega
      obtain ⟨m1, b, F1, he1, hu1, hr1⟩ := allocVector_spec P.wf P.dst P.dstRep (n := n) (by omega) P.fdd
      have hw1 := hu1.wf P.wf (P.dstRep.lt P.wf)
      have hd1 := hu1.read P.dst
      have hs1 := hu1.read_ne P.wf P.src P.ne P.fds
      have hv1 := hu1.other P.wf P.srcRep P.fsd P.disj
      have hdis1 := hu1.disj P.wf P.srcRep P.disj
      obtain ⟨a, acs, G, rfl, ha, hL, hna, hFs⟩ := id hv1
      have hF1d : ¬ F1 d.addr := fun h => by
        rcases hu1.sub _ h with h | h
        · exact P.fdd h
        · have := read_lt P.wf P.dst; omega
      have hold : ∀ x ∈ gd.oldVector, from_gc x notype = .ok x :=
        fun x hx => copy_ok (wf_oldVector hwd hx) (fits_oldVector hfd hx)
      have hfold : ∀ x ∈ gd.oldVector, FromOk (fromF ip n) x notype := fun x hx => by
        have := sizeOf_oldVector hx
        refine fromF_spec ip n x notype ?_ (fits_oldVector hfd hx) trivial rfl
        rw [GC.notype.sizeOf_spec]
        simp only [GC.vector.sizeOf_spec] at hn
        omega
      have hlen : acs.length = v.length := hL.length
      -- set_vector( v.size() )
      obtain ⟨m2, F2, he2, hC2, hr2⟩ : ∃ m2 F2, (if 0 < u32 acs.length then
          resizeF ip (freeF n) (fromF ip n) b (u32 acs.length) m1 else .ok m1 ()) = .ok m2 () ∧ Chg m1 m2 F1 F2 ∧
          Rep m2 (vector (allocL notype v.length gd.oldVector)) (.box .VECTOR b) F2 := by
        rw [hlen, u32_of_lt h32]
        by_cases h0 : 0 < v.length
        · obtain ⟨m2, F2, h1, h2, h3⟩ := resizeF_spec (inPlace := ip) (sz := v.length) (n := n) hw1 hr1
            (by have := sizeOf_oldVector_le gd; omega) hold hfold
          exact ⟨m2, F2, by rw [if_pos h0]; exact h1, h2, by rw [allocL, if_pos h0]; exact h3⟩
        · exact ⟨m1, F1, by rw [if_neg h0], Chg.refl hw1, by rw [allocL, if_neg h0]; exact hr1⟩
      have hw2 := hC2.wf hw1 (hr1.lt hw1)
      have hv2 := hC2.other hw1 hv1 hdis1
      have hdis2 := hC2.disj hw1 hv1 hdis1
      obtain ⟨m3, F3, he3, hC3, hr3⟩ := vecLoop_spec (f := fromF ip n) v.length 0 m2 _ r Fs F2 hw2 (by omega) hv2 hr2 hdis2
        (by simpa using hr)
        (fun j x y _ hx hy => by
          have hx := List.mem_of_getElem? hx
          have h1 := sizeOf_mem hx
          rcases mem_allocL (List.mem_of_getElem? hy) with rfl | hy
          · exact fromF_spec ip n x notype (by rw [GC.notype.sizeOf_spec]; omega) (everyL_iff.1 hfv x hx) trivial rfl
          · have h2 := sizeOf_oldVector hy
            exact fromF_spec ip n x y (by omega) (everyL_iff.1 hfv x hx) (wf_oldVector hwd hy) (fits_oldVector hfd hy))
      refine ⟨m3, .box .VECTOR b, F3, ?_, ?_, by simpa using hr3⟩
      · have hsrc := P.src
        rw [← hlen] at he3
        simp only [fromF, hsrc, he1, Run.bind, hs1, ha]
        rw [he2]
        exact he3
      · exact hu1.trans ((hC2.trans hC3 (hr1.lt hw1)).upd hw1 hd1 hF1d) (read_lt P.wf P.dst) P.fdd (P.dstRep.lt P.wf)
    | map e =>
      intro m d s cs cd Fs Fd g' P hg
      obtain ⟨hnul, hfv⟩ := Fits_map hfs
      rw [from_gc] at hg
      obtain ⟨r, hr, hg⟩ := out_bind_ok hg
      injection hg with hg
      subst hg
      have hsz : sizeOf e < sizeOf (map e) := by simp only [GC.map.sizeOf_spec]; omega
      obtain ⟨m1, b, F1, he1, hu1, hr1⟩ := allocMap_spec P.wf P.dst P.dstRep (n := n) (by omega) P.fdd
      have hw1 := hu1.wf P.wf (P.dstRep.lt P.wf)
      have hd1 := hu1.read P.dst
      have hs1 := hu1.read_ne P.wf P.src P.ne P.fds
      have hv1 := hu1.other P.wf P.srcRep P.fsd P.disj
      have hdis1 := hu1.disj P.wf P.srcRep P.disj
      obtain ⟨a, aes, G, rfl, ha, hL, hks, hna, hFs⟩ := id hv1
      have hF1d : ¬ F1 d.addr := fun h => by
        rcases hu1.sub _ h with h | h
        · exact P.fdd h
        · have := read_lt P.wf P.dst; omega
      have hlen : aes.length = e.length := by simpa using congrArg List.length hL.keys
      obtain ⟨m3, F3, he3, hC3, hr3⟩ := mapLoop_spec (f := fromF ip n)
        (fun p hp => cstr_of_noNul (hnul p hp)) e.length 0 m1 gd.oldMap r Fs F1 hw1 (by omega) hv1 hr1 hdis1
        (by simpa using hr)
        (fun p hp => by
          rw [List.drop_zero] at hp
          have h1 : sizeOf p.2 < sizeOf e := by
            have := List.sizeOf_lt_of_mem hp
            obtain ⟨k, x⟩ := p
            rw [Prod.mk.sizeOf_spec] at this
            show sizeOf x < _
            omega
          have hfp := everyM_iff.1 hfv p hp
          cases hk : mfind p.1 gd.oldMap with
          | none => exact fromF_spec ip n p.2 notype (by rw [GC.notype.sizeOf_spec]; omega) hfp trivial rfl
          | some y =>
            have h2 := sizeOf_oldMap hk
            have hwy : WF y := by have := WF_valueAt hwd p.1; rw [hk] at this; exact this
            have hfy : Fits y := by
              cases gd <;> simp only [oldMap, mfind] at hk <;> try (exact absurd hk (by simp))
              exact everyM_iff.1 (Fits_map hfd).2 _ (mem_of_mfind hk)
            exact fromF_spec ip n p.2 y (by omega) hfp hwy hfy)
      refine ⟨m3, .box .MAP b, F3, ?_, ?_, hr3⟩
      · have hsrc := P.src
        rw [← hlen] at he3
        simp only [fromF, hsrc, he1, Run.bind, hs1, ha]
        exact he3
      · exact hu1.trans (hC3.upd hw1 hd1 hF1d) (read_lt P.wf P.dst) P.fdd (P.dstRep.lt P.wf)
    | _ => simp [immediate, plainBox] at hi hp

end Heap
end GCV
