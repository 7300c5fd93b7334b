import Verif.Lemmas.HeapStep

/-! # Programs in memory -/

namespace GCV
namespace Heap
open GC

variable {m m' m1 m2 : Mem} {g x y : GC} {c c' : Cell} {F F' G H : Addr → Prop} {d s l : Loc} {a b : Addr}

theorem Holds.place {s : St} {E : Vals} {x : Place} (h : Holds s E) (hx : E.get x = some g) :
    ∃ g0 a c F l c1 G, E x.var = some g0 ∧ getAt x.path g0 = some g ∧ s.env x.var = some a ∧
      s.mem.read ⟨a, .var⟩ = some c ∧ Rep s.mem g0 c F ∧ ¬ F a ∧
      resolve s.mem x.path ⟨a, .var⟩ = some l ∧ s.loc x = some l ∧ s.mem.read l = some c1 ∧ Rep s.mem g c1 G ∧
      (∀ b, G b → F b) ∧ ¬ G l.addr ∧ (l = ⟨a, .var⟩ ∨ F l.addr) ∧
      ∀ m' g' c'' G', Upd s.mem m' l c'' G G' → Rep m' g' c'' G' → Holds ⟨m', s.env⟩ (E.put x g') := by
  unfold Vals.get at hx
  cases h0 : E x.var with
  | none => rw [h0] at hx; simp at hx
  | some g0 =>
    rw [h0] at hx
    simp only [Option.bind_some] at hx
    obtain ⟨a, c, F, he, hr, hg, hn⟩ := h.var h0
    obtain ⟨l, c1, G, hl, hr1, hy1, hsub, hnl, hin, hput⟩ := Rep.at x.path h.1 hr hg hn hx
    refine ⟨g0, a, c, F, l, c1, G, rfl, hx, he, hr, hg, hn, hl, by simp [St.loc, he, hl], hr1, hy1, hsub, hnl, hin, ?_⟩
    intro m' g' c'' G' hu hg'
    obtain ⟨c3, F3, hu3, hg3⟩ := hput m' g' c'' G' hu hg'
    have := h.upd h0 he hr hg hu3 hg3
    have hE : (fun y => if y = x.var then some (modAt x.path (fun _ => g') g0) else E y) = E.put x g' := by
      funext y
      unfold Vals.put
      by_cases hy : y = x.var
      · subst hy; simp [h0]
      · simp [hy]
    rw [← hE]
    exact this

/-- Different variables have no memory in common. -/
theorem Holds.disj {s : St} {E : Vals} (h : Holds s E) {x y : Nat} {gx gy : GC} {ax ay : Addr} {cx cy : Cell}
    {Fx Fy : Addr → Prop} (hxy : x ≠ y)
    (hx : E x = some gx) (hy : E y = some gy) (hex : s.env x = some ax) (hey : s.env y = some ay)
    (hrx : s.mem.read ⟨ax, .var⟩ = some cx) (hry : s.mem.read ⟨ay, .var⟩ = some cy)
    (hgx : Rep s.mem gx cx Fx) (hgy : Rep s.mem gy cy Fy) :
    ∀ b, (b = ax ∨ Fx b) → ¬ (b = ay ∨ Fy b) := by
  obtain ⟨hw, A, hA, hdis, hall⟩ := h
  have h1 := hA x
  have h2 := hA y
  rw [hx] at h1
  rw [hy] at h2
  obtain ⟨ax', cx', Fx', hex', hbx, hgx', _, hAx⟩ := h1
  obtain ⟨ay', cy', Fy', hey', hby, hgy', _, hAy⟩ := h2
  rw [hex] at hex'; injection hex' with hex'; subst hex'
  rw [hey] at hey'; injection hey' with hey'; subst hey'
  have e1 : cx' = cx := by simp [Mem.read, hbx, Block.get] at hrx; exact hrx
  have e2 : cy' = cy := by simp [Mem.read, hby, Block.get] at hry; exact hry
  subst e1; subst e2
  have u1 := Rep.unique.1 _ _ _ _ hgx hgx'
  have u2 := Rep.unique.1 _ _ _ _ hgy hgy'
  intro b hb hb'
  rw [u1] at hb
  rw [u2] at hb'
  exact hdis x y b hxy ((hAx b).2 hb) ((hAy b).2 hb')

/-- Places of which neither is inside the other have no memory in common. -/
theorem Holds.pair {s : St} {E : Vals} {x y : Place} {gs gd : GC} (h : Holds s E)
    (hx : E.get x = some gd) (hy : E.get y = some gs) (hap : Apart x y) :
    ∃ ls ld cs cd Gs Gd, s.loc y = some ls ∧ s.loc x = some ld ∧ Pair s.mem ld ls gs gd cs cd Gs Gd ∧
      ∀ m' g' c' G', Upd s.mem m' ld c' Gd G' → Rep m' g' c' G' → Holds ⟨m', s.env⟩ (E.put x g') := by
  obtain ⟨gx, ax, cx, Fx, ld, cd, Gd, hEx, hpx, hex, hrx, hRx, hnx, hresx, hlx, hrd, hRd, hsubd, hnd, hind, hput⟩ :=
    h.place hx
  obtain ⟨gy, ay, cy, Fy, ls, cs, Gs, hEy, hpy, hey, hry, hRy, hny, hresy, hly, hrs, hRs, hsubs, hns, hins, _⟩ :=
    h.place hy
  have P : Pair s.mem ld ls gs gd cs cd Gs Gd := by
    by_cases hv : x.var = y.var
    · obtain ⟨h1, h2⟩ := hap hv
      rw [hv] at hEx hex
      rw [hEx] at hEy; injection hEy with hEy; subst hEy
      rw [hex] at hey; injection hey with hey; subst hey
      rw [hrx] at hry; injection hry with hry; subst hry
      obtain ⟨k1, k2, k3, k4⟩ := Rep.apart x.path y.path h.1 hrx hRx hnx hpx hpy h1 h2 hresx hresy hrd hrs hRd hRs
      exact ⟨h.1, hrs, hRs, hrd, hRd, fun b hb hb' => k1 b hb' hb, k3, hnd, k2, fun e => k4 e.symm⟩
    · have hdis := h.disj hv hEx hEy hex hey hrx hry hRx hRy
      have hAd : ld.addr = ax ∨ Fx ld.addr := hind.imp_left fun e => by rw [e]
      have hAs : ls.addr = ay ∨ Fy ls.addr := hins.imp_left fun e => by rw [e]
      refine ⟨h.1, hrs, hRs, hrd, hRd, ?_, ?_, hnd, ?_, ?_⟩
      · exact fun b hb hb' => hdis b (Or.inr (hsubd b hb')) (Or.inr (hsubs b hb))
      · exact fun hb => hdis _ hAd (Or.inr (hsubs _ hb))
      · exact fun hb => hdis _ (Or.inr (hsubd _ hb)) hAs
      · rintro rfl
        exact hdis _ hAd hAs
  exact ⟨ls, ld, cs, cd, Gs, Gd, hly, hlx, P, hput⟩

/-- An assignment between places of which neither is inside the other. -/
theorem Holds.assign {s : St} {E : Vals} {x y : Place} {gs gd g' : GC} {f : Loc → Loc → Mem → Run Unit} (h : Holds s E)
    (hx : E.get x = some gd) (hy : E.get y = some gs) (hap : Apart x y) (hf : FromOk f gs gd)
    (hg : from_gc gs gd = .ok g') :
    ∃ ls ld m', s.loc y = some ls ∧ s.loc x = some ld ∧ f ld ls s.mem = .ok m' () ∧ Holds ⟨m', s.env⟩ (E.put x g') := by
  obtain ⟨ls, ld, cs, cd, Gs, Gd, hly, hlx, P, hput⟩ := h.pair hx hy hap
  obtain ⟨m', c', F', he, hu, hr'⟩ := hf _ _ _ _ _ _ _ _ P hg
  exact ⟨ls, ld, m', hly, hlx, he, hput m' g' c' F' hu hr'⟩

/-- A new variable. -/
theorem Holds.new {s : St} {E : Vals} {x : Nat} (h : Holds s E) (hx : E x = none) :
    Holds ⟨s.mem.alloc (.var (.imm notype)), fun y => if y = x then some s.mem.next else s.env y⟩
      (fun y => if y = x then some notype else E y) := by
  obtain ⟨hw, A, hA, hdis, hall⟩ := h
  have hlive : ∀ y b, A y b → b < s.mem.next := by
    intro y b hb
    have := hA y
    cases hy : E y with
    | none => rw [hy] at this; exact absurd hb (this.2 b)
    | some gy =>
      rw [hy] at this
      obtain ⟨ay, cy, Fy, _, hby, hry, _, hAy⟩ := this
      rcases (hAy b).1 hb with rfl | hb
      · exact hw.lt (by rw [hby]; simp)
      · exact hry.lt hw b hb
  have hsame : ∀ y b, A y b → (s.mem.alloc (.var (.imm notype))).blk b = s.mem.blk b := by
    intro y b hb
    have := hlive y b hb
    rw [blk_alloc, if_neg (by omega)]
  refine ⟨?_, fun y b => if y = x then b = s.mem.next else A y b, ?_, ?_, ?_⟩
  · intro b hb
    have hb : s.mem.next + 1 ≤ b := hb
    show (s.mem.alloc _).blk b = _
    rw [blk_alloc, if_neg (by omega)]
    exact hw b (by omega)
  · intro y
    by_cases hy : y = x
    · subst hy
      simp only [if_true]
      exact ⟨s.mem.next, .imm notype, fun _ => False, rfl, by rw [blk_alloc, if_pos rfl], rep_notype, fun h => h,
        fun b => by simp⟩
    · simp only [if_neg hy]
      have := hA y
      cases hE : E y with
      | none => rw [hE] at this; exact this
      | some gy =>
        rw [hE] at this
        obtain ⟨ay, cy, Fy, hey, hby, hry, hny, hAy⟩ := this
        exact ⟨ay, cy, Fy, hey, by rw [hsame y ay ((hAy _).2 (Or.inl rfl)), hby],
          Rep.frame.1 _ _ _ hry fun b hb => hsame y b ((hAy _).2 (Or.inr hb)), hny, hAy⟩
  · intro y z b hyz hb hb'
    by_cases hy : y = x
    · have hz : z ≠ x := fun e => hyz (by rw [hy, e])
      simp only [if_pos hy, if_neg hz] at hb hb'
      have := hlive z b hb'
      omega
    · simp only [if_neg hy] at hb
      by_cases hz : z = x
      · simp only [if_pos hz] at hb'
        have := hlive y b hb
        omega
      · simp only [if_neg hz] at hb'
        exact hdis y z b hyz hb hb'
  · intro b hb
    by_cases hbn : b = s.mem.next
    · exact ⟨x, by simp [hbn]⟩
    · rw [blk_alloc, if_neg hbn] at hb
      obtain ⟨y, hy⟩ := hall b hb
      have hyx : y ≠ x := by
        rintro rfl
        have := hA y
        rw [hx] at this
        exact this.2 b hy
      exact ⟨y, by simp [hyx, hy]⟩

/-- The end of the lifetime of a variable that has been cleared. -/
theorem Holds.drop {s : St} {E : Vals} {x : Nat} (h : Holds s E) (hx : E x = some notype) (ha : s.env x = some a) :
    Holds ⟨s.mem.upd a none, fun y => if y = x then none else s.env y⟩ (fun y => if y = x then none else E y) := by
  obtain ⟨hw, A, hA, hdis, hall⟩ := h
  have hx' := hA x
  rw [hx] at hx'
  obtain ⟨a0, c0, F0, he0, hb0, hr0, hn0, hA0⟩ := hx'
  rw [ha] at he0
  injection he0 with he0
  subst he0
  have hAx : ∀ b, A x b ↔ b = a := fun b => by
    rw [hA0]
    have := ((rep_imm rfl).1 hr0).2 b
    tauto
  have hsame : ∀ y b, y ≠ x → A y b → (s.mem.upd a none).blk b = s.mem.blk b := by
    intro y b hy hb
    have := hdis y x b hy hb
    rw [hAx] at this
    rw [blk_upd, if_neg this]
  refine ⟨?_, fun y b => if y = x then False else A y b, ?_, ?_, ?_⟩
  · intro b hb
    show (s.mem.upd a none).blk b = _
    rw [blk_upd]
    split
    · rfl
    · exact hw b hb
  · intro y
    by_cases hy : y = x
    · subst hy; simp
    · simp only [if_neg hy]
      have := hA y
      cases hE : E y with
      | none => rw [hE] at this; exact this
      | some gy =>
        rw [hE] at this
        obtain ⟨ay, cy, Fy, hey, hby, hry, hny, hAy⟩ := this
        exact ⟨ay, cy, Fy, hey, by rw [hsame y ay hy ((hAy _).2 (Or.inl rfl)), hby],
          Rep.frame.1 _ _ _ hry fun b hb => hsame y b hy ((hAy _).2 (Or.inr hb)), hny, hAy⟩
  · intro y z b hyz hb hb'
    by_cases hy : y = x
    · simp [hy] at hb
    · by_cases hz : z = x
      · simp [hz] at hb'
      · simp only [if_neg hy] at hb
        simp only [if_neg hz] at hb'
        exact hdis y z b hyz hb hb'
  · intro b hb
    rw [blk_upd] at hb
    by_cases hba : b = a
    · rw [if_pos hba] at hb; exact absurd rfl hb
    · rw [if_neg hba] at hb
      obtain ⟨y, hy⟩ := hall b hb
      have hyx : y ≠ x := by
        rintro rfl
        exact hba ((hAx b).1 hy)
      exact ⟨y, by simp [hyx, hy]⟩

theorem resolve_alloc {B : Block} (hw : Wf m) : ∀ (p : List Sel) {l l' : Loc}, resolve m p l = some l' →
    resolve (m.alloc B) p l = some l'
  | [], _, _, h => h
  | .idx i :: p, l, l', h => by
    have key : ∀ {l c}, m.read l = some c → (m.alloc B).read l = some c := by
      intro l c hr
      have := read_lt hw hr
      unfold Mem.read
      rw [blk_alloc, if_neg (by omega)]
      exact hr
    rw [resolve] at h ⊢
    cases hr : m.read l with
    | none => rw [hr] at h; simp at h
    | some c =>
      rw [key hr]
      rw [hr] at h
      cases c with
      | imm g => simp at h
      | box t a =>
        cases t <;> first | (simp at h; done) | skip
        simp only at h ⊢
        cases hr1 : m.read ⟨a, .idx i⟩ with
        | none => rw [hr1] at h; simp at h
        | some c1 =>
          rw [key hr1]
          rw [hr1] at h
          exact resolve_alloc hw p h
  | .key k :: p, l, l', h => by
    have key : ∀ {l c}, m.read l = some c → (m.alloc B).read l = some c := by
      intro l c hr
      have := read_lt hw hr
      unfold Mem.read
      rw [blk_alloc, if_neg (by omega)]
      exact hr
    rw [resolve] at h ⊢
    cases hr : m.read l with
    | none => rw [hr] at h; simp at h
    | some c =>
      rw [key hr]
      rw [hr] at h
      cases c with
      | imm g => simp at h
      | box t a =>
        cases t <;> first | (simp at h; done) | skip
        simp only at h ⊢
        cases hr1 : m.read ⟨a, .key k⟩ with
        | none => rw [hr1] at h; simp at h
        | some c1 =>
          rw [key hr1]
          rw [hr1] at h
          exact resolve_alloc hw p h

/-- The values in the variables are such as the functions make. -/
def Good (E : Vals) : Prop := ∀ x g, E x = some g → WF g ∧ Fits g

theorem Good.get {E : Vals} {x : Place} (h : Good E) (hx : E.get x = some g) : WF g ∧ Fits g := by
  unfold Vals.get at hx
  cases h0 : E x.var with
  | none => rw [h0] at hx; simp at hx
  | some g0 =>
    rw [h0] at hx
    obtain ⟨h1, h2⟩ := h _ _ h0
    exact ⟨CApi.WF_getAt _ h1 hx, Fits_getAt _ h2 hx⟩

theorem Good.put {E : Vals} {x : Place} {g' : GC} (h : Good E) (hg : WF g' ∧ Fits g') : Good (E.put x g') := by
  intro y g hy
  unfold Vals.put at hy
  by_cases hyx : y = x.var
  · rw [if_pos hyx] at hy
    cases h0 : E y with
    | none => rw [h0] at hy; simp at hy
    | some g0 =>
      rw [h0] at hy
      simp only [Option.map_some, Option.some.injEq] at hy
      subst hy
      obtain ⟨h1, h2⟩ := h _ _ h0
      exact ⟨CApi.WF_modAt _ _ h1 fun _ _ => hg.1, Fits_modAt _ _ h2 fun _ _ => hg.2⟩
  · rw [if_neg hyx] at hy
    exact h _ _ hy

theorem Good.at {E : Vals} {x : Place} {f : GC → Option GC} (h : Good E)
    (hf : ∀ g g', WF g → Fits g → f g = some g' → WF g' ∧ Fits g') : Good (E.at x f) := by
  unfold Vals.at
  cases hx : E.get x with
  | none => exact h
  | some g =>
    cases hg : f g with
    | none => simp only [hg]; exact h
    | some g' =>
      simp only [hg]
      obtain ⟨h1, h2⟩ := h.get hx
      exact h.put (hf g g' h1 h2 hg)

theorem result_some {o : Out GC} {g : GC} (h : result o = some g) : o = .ok g := by
  cases o <;> simp_all [result]

/-- Steps keep the values such as the functions make. -/
theorem Good.step {E : Vals} {op : POp} (h : Good E) (hop : op.Ok) : Good (E.step op) := by
  cases op with
  | construct x =>
    simp only [Vals.step]
    cases hx : E x with
    | some _ => exact h
    | none =>
      intro y g hy
      by_cases hyx : y = x
      · simp only [hyx, if_true, Option.some.injEq] at hy
        subst hy; exact ⟨trivial, rfl⟩
      · simp only [if_neg hyx] at hy
        exact h _ _ hy
  | copyConstruct x y =>
    simp only [Vals.step]
    split
    · rename_i g h1 h2
      intro z g' hz
      by_cases hzx : z = x
      · simp only [hzx, if_true] at hz
        obtain ⟨hw, hf⟩ := h.get h2
        have : copy g = .ok g := copy_ok hw hf
        rw [this] at hz
        simp only [result, Option.some.injEq] at hz
        subst hz; exact ⟨hw, hf⟩
      · simp only [if_neg hzx] at hz
        exact h _ _ hz
    · exact h
  | destroy x =>
    intro y g hy
    simp only [Vals.step] at hy
    split at hy
    · simp at hy
    · exact h _ _ hy
  | clear x =>
    simp only [Vals.step]
    refine Good.at h fun g g' _ _ hg => ?_
    injection hg with hg; subst hg; exact ⟨trivial, rfl⟩
  | set x v =>
    simp only [Vals.step]
    refine Good.at h fun g g' hw hf hg => ?_
    have := result_some hg
    exact ⟨WF_from_gc _ _ hop.2.2.1 hw _ this, Fits_from_gc _ _ hop.2.2.2 hf _ this⟩
  | setVector x n =>
    simp only [Vals.step]
    refine Good.at h fun g g' hw hf hg => ?_
    injection hg with hg; subst hg
    exact ⟨WFL_allocL (WFL_oldVector hw), Fits_allocL hop (Fits_oldVector hf)⟩
  | setMap x =>
    simp only [Vals.step]
    refine Good.at h fun g g' hw hf hg => ?_
    injection hg with hg; subst hg
    exact ⟨WF_oldMap hw, Fits_oldMap hf⟩
  | idx x i =>
    simp only [Vals.step]
    refine Good.at h fun g g' hw hf hg => ?_
    injection hg with hg; subst hg
    have hi : i + 1 < 2 ^ 32 := hop
    unfold checkResize
    split
    · refine ⟨?_, ?_⟩
      · have : allocL notype (u32 (i + 1)) g.oldVector = resizeL notype (u32 (i + 1)) g.oldVector := by
          rw [allocL, if_pos (by rw [u32_of_lt hi]; omega)]
        rw [← this]
        exact WFL_allocL (WFL_oldVector hw)
      · exact Fits_resizeL (by rw [u32_of_lt hi]; exact hi) (Fits_oldVector hf)
    · exact ⟨WFL_oldVector hw, Fits_oldVector hf⟩
  | key x k =>
    simp only [Vals.step]
    refine Good.at h fun g g' hw hf hg => ?_
    injection hg with hg; subst hg
    exact ⟨WF_map_set (WF_oldMap hw) (WF_valueAt hw _), Fits_mset (Fits_oldMap hf) (noNul_cstr k)
      (Fits_findD (Fits_oldMap hf) _)⟩
  | erase x k =>
    simp only [Vals.step]
    refine Good.at h fun g g' hw hf hg => ?_
    cases g with
    | map e =>
      injection hg with hg; subst hg
      refine ⟨⟨sorted_merase k e hw.1, WFM_iff.2 fun p hp => WFM_iff.1 hw.2 p (mem_merase hp)⟩, ?_⟩
      rw [Fits_map_iff] at hf ⊢
      exact ⟨fun p hp => hf.1 p (mem_merase hp), fun p hp => hf.2 p (mem_merase hp)⟩
    | _ => simp at hg
  | assign x y =>
    simp only [Vals.step]
    cases hy : E.get y with
    | none => exact h
    | some gy =>
      obtain ⟨h1, h2⟩ := h.get hy
      refine Good.at h fun g g' hw hf hg => ?_
      have := result_some hg
      exact ⟨WF_from_gc _ _ h1 hw _ this, Fits_from_gc _ _ h2 hf _ this⟩

/-- What a step leaves. -/
def after (s : St) : Run (Nat → Option Addr) → Option St
  | .ok m e => some ⟨m, e⟩
  | .throw m => some ⟨m, s.env⟩
  | _ => none

theorem Holds.opAt {s : St} {E : Vals} {x : Place} {f : Loc → Mem → Run Unit} {fv : GC → Option GC} (h : Holds s E)
    (hf : ∀ g, E.get x = some g → ∃ g', fv g = some g' ∧ OpOk f g g') :
    ∃ s', after s (s.at x f) = some s' ∧ Holds s' (E.at x fv) := by
  unfold Vals.at
  cases hx : E.get x with
  | none =>
    refine ⟨s, ?_, h⟩
    simp [St.at, h.loc_none hx, after]
  | some g =>
    obtain ⟨g', h1, h2⟩ := hf g hx
    obtain ⟨m', h3, h4⟩ := h.op hx h2
    simp only [h1]
    exact ⟨⟨m', s.env⟩, by rw [h3]; rfl, h4⟩

/-- One step of a program in memory is one step of the program on values. -/
theorem Holds.step (ip : Nat → Nat → Bool) {E : Vals} {op : POp} (hE : Good E) (hop : op.Ok) :
    ∃ N, ∀ n, N ≤ n → ∀ s, Holds s E → ∃ s', after s (s.step ip n op) = some s' ∧ Holds s' (E.step op) := by
  cases op with
  | construct x =>
    refine ⟨0, fun n _ s h => ?_⟩
    simp only [Vals.step, St.step]
    cases hx : E x with
    | some g =>
      obtain ⟨a, c, F, he, _⟩ := h.var hx
      exact ⟨s, by simp [he, after], h⟩
    | none => exact ⟨_, by rw [h.env_none hx]; rfl, h.new hx⟩
  | copyConstruct x y =>
    cases hx : E x with
    | some g =>
      refine ⟨0, fun n _ s h => ?_⟩
      obtain ⟨a, c, F, he, _⟩ := h.var hx
      exact ⟨s, by simp [St.step, he, after], by simp only [Vals.step, hx]; exact h⟩
    | none =>
      cases hy : E.get y with
      | none =>
        refine ⟨0, fun n _ s h => ⟨s, ?_, by simp only [Vals.step, hx, hy]; exact h⟩⟩
        simp [St.step, h.loc_none hy, after]
      | some g =>
        refine ⟨sizeOf g + 2, fun n hn s h => ?_⟩
        obtain ⟨hw, hf⟩ := hE.get hy
        obtain ⟨gy, ay, cy, Fy, ls, cs, Gs, hEy, hpy, hey, hry, hRy, hny, hresy, hly, -⟩ := h.place hy
        have hvx : y.var ≠ x := by rintro rfl; rw [hx] at hEy; simp at hEy
        have hnew := h.new hx
        obtain ⟨ls', ld, m', h1, h2, h3, h4⟩ := hnew.assign (x := ⟨x, []⟩) (y := y) (gd := notype) (gs := g) (g' := g)
          (f := fromF ip n) (by simp [Vals.get, getAt]) (by simp only [Vals.get, if_neg hvx]; exact hy)
          (fun e => absurd e.symm hvx)
          (fromF_spec ip n g notype (by rw [GC.notype.sizeOf_spec]; omega) hf trivial rfl) (copy_ok hw hf)
        have e1 : ls' = ls := by
          simp only [St.loc, if_neg hvx, hey, Option.bind_some] at h1
          rw [resolve_alloc h.1 _ hresy] at h1
          injection h1 with h1
          exact h1.symm
        have e2 : ld = ⟨s.mem.next, .var⟩ := by
          simp [St.loc, resolve] at h2
          exact h2.symm
        subst e1; subst e2
        refine ⟨⟨m', fun y => if y = x then some s.mem.next else s.env y⟩, ?_, ?_⟩
        · simp only [St.step, h.env_none hx, hly, h3, Run.bind, after]
        · have : (E.step (.copyConstruct x y)) = Vals.put (fun y => if y = x then some notype else E y) ⟨x, []⟩ g := by
            have hc : copy g = .ok g := copy_ok hw hf
            funext z
            simp only [Vals.step, hx, hy, Vals.put, hc, result]
            by_cases hz : z = x
            · simp [hz, modAt]
            · simp [hz]
          rw [this]
          exact h4
  | destroy x =>
    cases hx : E x with
    | none =>
      refine ⟨0, fun n _ s h => ⟨s, by simp [St.step, h.env_none hx, after], ?_⟩⟩
      have : E.step (.destroy x) = E := by
        funext y
        simp only [Vals.step]
        by_cases hy : y = x
        · rw [if_pos hy, hy, hx]
        · rw [if_neg hy]
      rw [this]; exact h
    | some g =>
      refine ⟨sizeOf g, fun n hn s h => ?_⟩
      obtain ⟨a, c, F, he, hr, hg, hna⟩ := h.var hx
      obtain ⟨m1, he1, hu1, _, _⟩ := clearAt_spec h.1 hr hg hn hna
      have h1 := h.upd hx he hr hg hu1 rep_notype
      have h2 := Holds.drop (a := a) h1 (x := x) (by simp) he
      refine ⟨⟨m1.upd a none, fun y => if y = x then none else s.env y⟩, by simp only [St.step, he, he1, Run.bind, after], ?_⟩
      have : (fun y => if y = x then none else if y = x then some notype else E y) = E.step (.destroy x) := by
        funext y
        simp only [Vals.step]
        by_cases hy : y = x
        · simp [hy]
        · simp [hy]
      rw [← this]
      exact h2
  | clear x =>
    refine ⟨sizeOf ((E.get x).getD notype), fun n hn s h => h.opAt fun g hg => ⟨_, rfl, opOk_clear ?_⟩⟩
    rw [hg] at hn; exact hn
  | set x v =>
    refine ⟨sizeOf ((E.get x).getD notype), fun n hn s h => h.opAt fun g hg => ?_⟩
    obtain ⟨r, hr⟩ := from_gc_ok v hop.2.2.2 hop.2.2.1 g
    exact ⟨r, by simp only [hr, result], opOk_set (by rw [hg] at hn; exact hn) hop.1 hop.2.1 hr⟩
  | setVector x k =>
    refine ⟨sizeOf ((E.get x).getD notype) + 2, fun n hn s h => h.opAt fun g hg => ⟨_, rfl, ?_⟩⟩
    rw [hg] at hn
    obtain ⟨h1, h2⟩ := hE.get hg
    exact opOk_setVector (by simp only [Option.getD_some] at hn; omega) h1 h2
  | setMap x =>
    refine ⟨sizeOf ((E.get x).getD notype), fun n hn s h => h.opAt fun g hg => ⟨_, rfl, opOk_setMap ?_⟩⟩
    rw [hg] at hn; exact hn
  | idx x i =>
    refine ⟨sizeOf ((E.get x).getD notype) + 2, fun n hn s h => h.opAt fun g hg => ⟨_, rfl, ?_⟩⟩
    rw [hg] at hn
    obtain ⟨h1, h2⟩ := hE.get hg
    exact opOk_idx (by simp only [Option.getD_some] at hn; omega) h1 h2
  | key x k =>
    refine ⟨sizeOf ((E.get x).getD notype), fun n hn s h => h.opAt fun g hg => ⟨_, rfl, opOk_key ?_⟩⟩
    rw [hg] at hn; exact hn
  | erase x k =>
    refine ⟨sizeOf ((E.get x).getD notype), fun n hn s h => ?_⟩
    by_cases hm : ∃ e, E.get x = some (map e)
    · obtain ⟨e, hm⟩ := hm
      refine h.opAt fun g hg => ?_
      rw [hm] at hg; injection hg with hg; subst hg
      exact ⟨_, rfl, opOk_erase (by rw [hm] at hn; exact hn)⟩
    · have hE' : E.step (.erase x k) = E := by
        simp only [Vals.step, Vals.at]
        cases hx : E.get x with
        | none => rfl
        | some g =>
          cases g <;> first | rfl | exact absurd ⟨_, hx⟩ hm
      rw [hE']
      refine ⟨s, ?_, h⟩
      simp only [St.step, St.at]
      cases hx : E.get x with
      | none => simp [h.loc_none hx, after]
      | some g =>
        obtain ⟨_, _, _, _, ls, cs, Gs, _, _, _, _, _, _, _, hl, hr, hR, -⟩ := h.place hx
        rw [hl]
        have := eraseF_throw (n := n) (k := k) hr hR (fun e he => hm ⟨e, by rw [hx, he]⟩)
        simp only [this, Run.bind, after]
  | assign x y =>
    cases hy : E.get y with
    | none =>
      refine ⟨0, fun n _ s h => ⟨s, ?_, by simp only [Vals.step, hy]; exact h⟩⟩
      simp [St.step, h.loc_none hy, after]
    | some gs =>
      cases hx : E.get x with
      | none =>
        refine ⟨0, fun n _ s h => ⟨s, ?_, by simp only [Vals.step, hy, Vals.at, hx]; exact h⟩⟩
        obtain ⟨_, _, _, _, ls, cs, Gs, _, _, _, _, _, _, _, hl, -⟩ := h.place hy
        simp [St.step, hl, St.at, h.loc_none hx, after]
      | some gd =>
        refine ⟨sizeOf gs + sizeOf gd + 1, fun n hn s h => ?_⟩
        obtain ⟨hws, hfs⟩ := hE.get hy
        obtain ⟨hwd, hfd⟩ := hE.get hx
        obtain ⟨r, hr⟩ := from_gc_ok gs hfs hws gd
        obtain ⟨ls, ld, m', h1, h2, h3, h4⟩ := h.assign hx hy hop (fromF_spec ip n gs gd (by omega) hfs hwd hfd) hr
        refine ⟨⟨m', s.env⟩, by simp only [St.step, h1, St.at, h2, h3, Run.bind, after], ?_⟩
        simp only [Vals.step, hy, Vals.at, hx, hr, result]
        exact h4

end Heap
end GCV
