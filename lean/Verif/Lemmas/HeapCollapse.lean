import Verif.Lemmas.HeapCallOk

/-! # `collapse` and `merge` in memory -/

namespace GCV
namespace Heap
open GC

variable {m m' m1 m2 : Mem} {g g' x y r : GC} {c c' : Cell} {F F' G H : Addr → Prop} {d s l : Loc} {a b : Addr}
  {ip : Nat → Nat → Bool}

/-! ## Reading the elements -/

theorem optL_rep {n : Nat} : ∀ {v : List GC} {cs : List Cell} {F : Addr → Prop}, RepL m v cs F →
    (∀ x ∈ v, ∀ c G, Rep m x c G → peek n m c = some x) → optL (peek n m) cs = some v
  | [], cs, F, h, _ => by rw [h.1]; rfl
  | x :: v, cs, F, h, hp => by
    obtain ⟨c, cs', G, H, rfl, hx, hv, _, _⟩ := h
    simp only [optL, hp x (by simp) c G hx, optL_rep hv fun y hy => hp y (by simp [hy])]

theorem optM_rep {n : Nat} : ∀ {e : Entries} {es : List (Bytes × Cell)} {F : Addr → Prop}, RepM m e es F →
    (∀ p ∈ e, ∀ c G, Rep m p.2 c G → peek n m c = some p.2) →
    optL (fun e => (peek n m e.2).map fun x => (e.1, x)) es = some e
  | [], cs, F, h, _ => by rw [h.1]; rfl
  | (k, x) :: v, cs, F, h, hp => by
    obtain ⟨c, cs', G, H, rfl, hx, hv, _, _⟩ := h
    simp only [optL, hp (k, x) (by simp) c G hx, optM_rep hv fun y hy => hp y (by simp [hy]), Option.map_some]

theorem peek_rep : ∀ (n : Nat) (g : GC) (c : Cell) (F : Addr → Prop), sizeOf g ≤ n → Rep m g c F → peek n m c = some g
  | 0, g, c, F, hn, _ => by have := sizeOf_pos g; omega
  | n + 1, g, c, F, hn, h => by
    by_cases hl : leafy g = true
    · have h1 := rep_leafAt hl h
      cases c with
      | imm g' => exact h1
      | box t a =>
        simp only [leafAt] at h1
        simp only [peek]
        cases hb : m.blk a with
        | none => rw [hb] at h1; simp at h1
        | some B =>
          rw [hb] at h1
          cases B <;> simp only [reduceCtorEq, Option.some.injEq] at h1
          subst h1; rfl
    · cases g <;> simp only [leafy, not_true_eq_false] at hl
      case vector v =>
        obtain ⟨a, cs, G, rfl, hb, hv, _, _⟩ := h
        have := optL_rep (n := n) hv fun x hx c G hr => peek_rep n x c G (by
          have := sizeOf_mem hx
          simp only [GC.vector.sizeOf_spec] at hn
          omega) hr
        simp only [peek, hb, this, Option.map_some]
      case map e =>
        obtain ⟨a, es, G, rfl, hb, hv, _, _, _⟩ := h
        have := optM_rep (n := n) hv fun p hp c G hr => peek_rep n p.2 c G (by
          have := List.sizeOf_lt_of_mem hp
          obtain ⟨k, x⟩ := p
          rw [Prod.mk.sizeOf_spec] at this
          simp only [GC.map.sizeOf_spec] at hn
          show sizeOf x ≤ n
          omega) hr
        simp only [peek, hb, this, Option.map_some]

/-! ## The packed data -/

/-- What `pack` can do. -/
def PackOk (v : List GC) (r : Res Unit) : Prop :=
  r = .ok (vector v) () ∨ r = .throw (vector v) ∨ r = .ub ∨ r = .diverge ∨
    ∃ g', r = .ok g' () ∧ leafy g' = true ∧ from_gc g' (vector v) = .ok g'

theorem allocL_nil_length {α : Type} (d : α) (k : Nat) : (allocL d k ([] : List α)).length = k := by
  unfold allocL resizeL
  split
  · simp
  · simp; omega

theorem u32_le (n : Nat) : u32 n ≤ n := Nat.mod_le _ _

theorem copy_nil {α : Type} {d : α} {w w' : List α} (h : copyL w (allocL d (u32 w.length) []) = .ok w') :
    w' = w := by
  unfold copyL at h
  split at h
  · injection h with h
    rw [← h, List.drop_eq_nil_of_le, List.append_nil]
    rw [allocL_nil_length]
    exact u32_le _
  · cases h

theorem copy_make {α : Type} {d : α} {w : Mat α} {w' : List α}
    (h : copyL w.data (Mat.make d w.nr w.nc).data = .ok w') :
    copyL w' (Mat.make d w.nr w.nc).data = .ok w' := by
  unfold copyL at h ⊢
  split at h
  · rename_i hl
    injection h with h
    have hlen : w'.length = (Mat.make d w.nr w.nc).data.length := by rw [← h]; simp; omega
    rw [if_pos (by omega), List.drop_eq_nil_of_le (by omega), List.append_nil]
  · cases h

theorem packOk_assign {α : Type} {v : List GC} {c : Out α} {set : α → GC → Out GC}
    (h : ∀ x g', set x (vector v) = .ok g' → leafy g' = true ∧ from_gc g' (vector v) = .ok g') :
    PackOk v (assignPacked v c set) := by
  unfold assignPacked
  cases hc : c.bind fun x => set x (vector v) with
  | ok g' =>
    obtain ⟨x, _, hx⟩ := out_bind_ok hc
    exact Or.inr (Or.inr (Or.inr (Or.inr ⟨g', rfl, h x g' hx⟩)))
  | throw => exact Or.inr (Or.inl rfl)
  | ub => exact Or.inr (Or.inr (Or.inl rfl))
  | diverge => exact Or.inr (Or.inr (Or.inr (Or.inl rfl)))

theorem packOk_vec {α : Type} {dflt : α} {up : List α → GC} {v : List GC} {c : Out (List α)} {set : List α → GC → Out GC}
    (hs : ∀ x, set x (vector v) = (copyL x (allocL dflt (u32 x.length) [])).bind fun w => .ok (up w))
    (hf : ∀ x, from_gc (up x) (vector v) = set x (vector v)) (hl : ∀ x, leafy (up x) = true) :
    PackOk v (assignPacked v c set) := by
  apply packOk_assign
  intro x g' h
  rw [hs] at h
  obtain ⟨w, hw, h⟩ := out_bind_ok h
  have hg : up w = g' := by injection h
  clear h
  obtain rfl := copy_nil hw
  subst hg
  refine ⟨hl _, ?_⟩
  rw [hf, hs, hw]; rfl

theorem packOk_mat {α : Type} {dflt : α} {up : Mat α → GC} {v : List GC} {c : Out (Mat α)} {set : Mat α → GC → Out GC}
    (hs : ∀ x : Mat α, set x (vector v) =
      (copyL x.data (Mat.make dflt x.nr x.nc).data).bind fun w => .ok (up ⟨x.nr, x.nc, w⟩))
    (hf : ∀ x, from_gc (up x) (vector v) = set x (vector v)) (hl : ∀ x, leafy (up x) = true) :
    PackOk v (assignPacked v c set) := by
  apply packOk_assign
  intro x g' h
  rw [hs] at h
  obtain ⟨w, hw, h⟩ := out_bind_ok h
  injection h with h
  subst h
  refine ⟨hl _, ?_⟩
  rw [hf, hs]
  have := copy_make hw
  simp only [this, Out.bind]

theorem packOk (v : List GC) : PackOk v (pack v) := by
  unfold pack
  dsimp only
  split
  · exact Or.inl rfl
  · split
    · exact packOk_vec (up := vecString) (fun _ => rfl) (fun _ => rfl) (fun _ => rfl)
    · split <;> first
        | exact Or.inl rfl
        | exact packOk_vec (up := vecBool) (fun _ => rfl) (fun _ => rfl) (fun _ => rfl)
        | exact packOk_vec (up := vecInt) (fun _ => rfl) (fun _ => rfl) (fun _ => rfl)
        | exact packOk_vec (up := vecLong) (fun _ => rfl) (fun _ => rfl) (fun _ => rfl)
        | exact packOk_vec (up := vecReal) (fun _ => rfl) (fun _ => rfl) (fun _ => rfl)
        | exact packOk_vec (up := vecComplex) (fun _ => rfl) (fun _ => rfl) (fun _ => rfl)
        | exact packOk_mat (up := matInt) (fun _ => rfl) (fun _ => rfl) (fun _ => rfl)
        | exact packOk_mat (up := matLong) (fun _ => rfl) (fun _ => rfl) (fun _ => rfl)
        | exact packOk_mat (up := matReal) (fun _ => rfl) (fun _ => rfl) (fun _ => rfl)
        | exact packOk_mat (up := matComplex) (fun _ => rfl) (fun _ => rfl) (fun _ => rfl)

/-! ## The loops -/

/-- How a loop over the elements of a VECTOR ends. -/
def EndsL (m : Mem) (a : Addr) (F : Addr → Prop) (run : Run Unit) (pre : List GC) : Loop (List GC) → Prop
  | .ok v => ∃ m' F', run = .ok m' () ∧ Chg m m' F F' ∧ Rep m' (vector (pre ++ v)) (.box .VECTOR a) F'
  | .throw v => ∃ m' F', run = .throw m' ∧ Chg m m' F F' ∧ Rep m' (vector (pre ++ v)) (.box .VECTOR a) F'
  | _ => True

/-- How a loop over the entries of a MAP ends. -/
def EndsM (m : Mem) (a : Addr) (F : Addr → Prop) (run : Run Unit) (pre : Entries) : Loop Entries → Prop
  | .ok v => ∃ m' F', run = .ok m' () ∧ Chg m m' F F' ∧ Rep m' (map (pre ++ v)) (.box .MAP a) F'
  | .throw v => ∃ m' F', run = .throw m' ∧ Chg m m' F F' ∧ Rep m' (map (pre ++ v)) (.box .MAP a) F'
  | _ => True

theorem eachIdx_ok : ∀ (xs : List GC), (∀ x ∈ xs, CallOk collapseF x (collapse x)) →
    ∃ N, ∀ n, N ≤ n → ∀ m a F pre, Wf m → Rep m (vector (pre ++ xs)) (.box .VECTOR a) F →
      EndsL m a F (eachIdx (collapseF n) a pre.length xs.length m) pre (collapseL xs)
  | [], _ => ⟨0, fun n _ m a F pre hw h => ⟨m, F, rfl, Chg.refl hw, h⟩⟩
  | x :: xs, hx => by
    obtain ⟨N1, h1⟩ := hx x (by simp)
    obtain ⟨N2, h2⟩ := eachIdx_ok xs fun y hy => hx y (by simp [hy])
    refine ⟨max N1 N2, fun n hn m a F pre hw h => ?_⟩
    have hFa : F a := by
      obtain ⟨b', hc, hFb⟩ := rep_vector_box h
      injection hc with _ hc
      subst hc; exact hFb
    obtain ⟨ci, G, hri, hy, hsub, hna, hput⟩ := h.elem (i := pre.length) (y := x) hw (by simp)
    have hE := h1 n (by omega) m ⟨a, .idx pre.length⟩ ci G hw hri hy hna
    have hset : ∀ x', (pre ++ x :: xs).set pre.length x' = pre ++ x' :: xs := by intro x'; simp
    simp only [collapseL, List.length_cons, eachIdx]
    cases hc : collapse x with
    | ok x' u =>
      rw [hc] at hE
      obtain ⟨m1, c1, G1, he1, hu1, hr1⟩ := hE
      have hr1' := hput m1 x' c1 G1 hu1 hr1
      have hC1 := hu1.chg (F := F) hFa hsub
      have hw1 := hC1.wf hw (h.lt hw)
      rw [hset] at hr1'
      have hrest := h2 n (by omega) m1 a _ (pre ++ [x']) hw1 (by simpa using hr1')
      simp only [he1, Run.bind]
      simp only [List.length_append, List.length_cons, List.length_nil] at hrest
      cases hl : collapseL xs with
      | ok v =>
        rw [hl] at hrest
        obtain ⟨m2, F2, he2, hC2, hr2⟩ := hrest
        exact ⟨m2, F2, he2, hC1.trans hC2 (h.lt hw), by simpa using hr2⟩
      | throw v =>
        rw [hl] at hrest
        obtain ⟨m2, F2, he2, hC2, hr2⟩ := hrest
        exact ⟨m2, F2, he2, hC1.trans hC2 (h.lt hw), by simpa using hr2⟩
      | ub => trivial
      | diverge => trivial
    | throw x' =>
      rw [hc] at hE
      obtain ⟨m1, c1, G1, he1, hu1, hr1⟩ := hE
      have hr1' := hput m1 x' c1 G1 hu1 hr1
      rw [hset] at hr1'
      exact ⟨m1, _, by simp only [he1, Run.bind], hu1.chg (F := F) hFa hsub, hr1'⟩
    | ub => trivial
    | diverge => trivial

theorem mfind_mid {pre xs : Entries} {k : Bytes} (h : KeysSorted (pre ++ (k, x) :: xs)) :
    mfind k (pre ++ (k, x) :: xs) = some x := mfind_of_mem h (by simp)

theorem mput_mid {k : Bytes} {x' : GC} : ∀ {pre xs : Entries}, (∀ p ∈ pre, p.1 ≠ k) →
    mput k x' (pre ++ (k, x) :: xs) = pre ++ (k, x') :: xs
  | [], xs, _ => by simp [mput]
  | (k', y) :: pre, xs, h => by
    have h1 : k ≠ k' := fun e => h (k', y) (by simp) e.symm
    simp [mput, h1, mput_mid (pre := pre) (xs := xs) fun p hp => h p (by simp [hp])]

theorem eachKey_ok : ∀ (xs : Entries), (∀ p ∈ xs, CallOk collapseF p.2 (collapse p.2)) →
    ∃ N, ∀ n, N ≤ n → ∀ m a F pre, Wf m → Rep m (map (pre ++ xs)) (.box .MAP a) F →
      EndsM m a F (eachKey (collapseF n) a (xs.map Prod.fst) m) pre (collapseM xs)
  | [], _ => ⟨0, fun n _ m a F pre hw h => ⟨m, F, rfl, Chg.refl hw, h⟩⟩
  | (k, x) :: xs, hx => by
    obtain ⟨N1, h1⟩ := hx (k, x) (by simp)
    obtain ⟨N2, h2⟩ := eachKey_ok xs fun y hy => hx y (by simp [hy])
    refine ⟨max N1 N2, fun n hn m a F pre hw h => ?_⟩
    have hFa : F a := by
      obtain ⟨b', hc, hFb⟩ := rep_map_box h
      injection hc with _ hc
      subst hc; exact hFb
    have hks : KeysSorted (pre ++ (k, x) :: xs) := by obtain ⟨_, _, _, _, _, _, h, _⟩ := h; exact h
    have hpre : ∀ p ∈ pre, p.1 ≠ k := by
      intro p hp e
      have := (List.pairwise_append.1 hks).2.2 p hp (k, x) (by simp)
      rw [e] at this
      exact strLT_irrefl _ this
    obtain ⟨ci, G, hri, hy, hsub, hna, hput⟩ := h.entry (k := k) (y := x) hw (mfind_mid hks)
    have hE := h1 n (by omega) m ⟨a, .key k⟩ ci G hw hri hy hna
    have hset : ∀ x', mset k x' (pre ++ (k, x) :: xs) = pre ++ (k, x') :: xs := by
      intro x'
      rw [mset_mput k x' hks (mfind_mid hks), mput_mid hpre]
    simp only [collapseM, List.map_cons, eachKey]
    dsimp only at hE
    cases hc : collapse x with
    | ok x' u =>
      rw [hc] at hE
      obtain ⟨m1, c1, G1, he1, hu1, hr1⟩ := hE
      have hr1' := hput m1 x' c1 G1 hu1 hr1
      have hC1 := hu1.chg (F := F) hFa hsub
      have hw1 := hC1.wf hw (h.lt hw)
      rw [hset] at hr1'
      have hrest := h2 n (by omega) m1 a _ (pre ++ [(k, x')]) hw1 (by simpa using hr1')
      simp only [he1, Run.bind]
      cases hl : collapseM xs with
      | ok v =>
        rw [hl] at hrest
        obtain ⟨m2, F2, he2, hC2, hr2⟩ := hrest
        exact ⟨m2, F2, he2, hC1.trans hC2 (h.lt hw), by simpa using hr2⟩
      | throw v =>
        rw [hl] at hrest
        obtain ⟨m2, F2, he2, hC2, hr2⟩ := hrest
        exact ⟨m2, F2, he2, hC1.trans hC2 (h.lt hw), by simpa using hr2⟩
      | ub => trivial
      | diverge => trivial
    | throw x' =>
      rw [hc] at hE
      obtain ⟨m1, c1, G1, he1, hu1, hr1⟩ := hE
      have hr1' := hput m1 x' c1 G1 hu1 hr1
      rw [hset] at hr1'
      exact ⟨m1, _, by simp only [he1, Run.bind], hu1.chg (F := F) hFa hsub, hr1'⟩
    | ub => trivial
    | diverge => trivial

theorem collapse_vector {v : List GC} (hx : ∀ x ∈ v, CallOk collapseF x (collapse x)) :
    CallOk collapseF (vector v) (collapse (vector v)) := by
  by_cases h0 : v = []
  · subst h0
    refine ⟨1, fun n hn m d c F hw hr hg hd => ?_⟩
    obtain ⟨n, rfl⟩ : ∃ k, n = k + 1 := ⟨n - 1, by omega⟩
    obtain ⟨a, cs, G, rfl, hb, hv, _, _⟩ := id hg
    have hcs : cs = [] := hv.1
    subst hcs
    exact ⟨m, _, F, by simp only [collapseF, hr, hb, List.length_nil, if_true], Upd.refl hw hr, hg⟩
  · obtain ⟨N1, h1⟩ := eachIdx_ok v hx
    simp only [collapse, h0, if_false]
    refine ⟨N1 + (match collapseL v with | .ok v' => sizeOf (vector v') | _ => 0) + 1, fun n hn m d c F hw hr hg hd => ?_⟩
    obtain ⟨n, rfl⟩ : ∃ k, n = k + 1 := ⟨n - 1, by omega⟩
    obtain ⟨a, cs, G, rfl, hb, hv, _, hF⟩ := id hg
    have hFa : F a := (hF a).2 (Or.inl rfl)
    have hlen := hv.length
    have hne : cs.length ≠ 0 := by
      rw [hlen]; simpa using h0
    have hE := h1 n (by omega) m a F [] hw (by simpa using hg)
    simp only [List.length_nil, List.nil_append] at hE
    simp only [collapseF, hr, hb, hne, if_false, hlen]
    cases hl : collapseL v with
    | ok v' =>
      rw [hl] at hE hn
      obtain ⟨m1, F1, he1, hC1, hr1⟩ := hE
      have hn' : N1 + sizeOf (vector v') + 1 ≤ n + 1 := hn
      have hsz : sizeOf (vector v') = 1 + sizeOf v' := by simp only [GC.vector.sizeOf_spec]
      simp only [List.nil_append] at hr1
      have hw1 := hC1.wf hw (hg.lt hw)
      have hu1 := hC1.upd hw hr hd
      have hrd1 := hu1.read hr
      have hd1 := upd_not hw hu1 hr hd
      obtain ⟨a', cs1, G1, hc1, hb1, hv1, _, _⟩ := id hr1
      injection hc1 with _ hc1
      subst hc1
      have hpk := optL_rep (n := n) hv1 fun x hx c G hr => peek_rep n x c G (by
        have := sizeOf_mem hx
        omega) hr
      simp only [he1, Run.bind, hb1, hpk]
      rw [if_neg (by rw [← hlen]; exact hne)]
      rcases packOk v' with hp | hp | hp | hp | ⟨g', hp, hlf, hfr⟩
      · rw [hp]
        exact ⟨m1, _, F1, rfl, hu1, hr1⟩
      · rw [hp]
        exact ⟨m1, _, F1, rfl, hu1, hr1⟩
      · rw [hp]; trivial
      · rw [hp]; trivial
      · rw [hp]
        obtain ⟨m2, c2, F2, he2, hu2, hr2⟩ := opOk_set (n := n) (gs := g') (gd := vector v') (g' := g') (by omega)
          (by rintro v rfl; simp [leafy] at hlf) (by rintro v rfl; simp [leafy] at hlf) hfr m1 d _ F1 hw1 hrd1 hr1 hd1
        refine ⟨m2, c2, F2, ?_, hu1.trans hu2 (read_lt hw hr) hd (hg.lt hw), hr2⟩
        cases g' <;> first
          | exact he2
          | (simp [leafy] at hlf; done)
    | throw v' =>
      rw [hl] at hE
      obtain ⟨m1, F1, he1, hC1, hr1⟩ := hE
      refine ⟨m1, _, F1, ?_, hC1.upd hw hr hd, by simpa using hr1⟩
      rw [if_neg (by rw [← hlen]; exact hne), he1]; rfl
    | ub => trivial
    | diverge => trivial

theorem collapse_map {e : Entries} (hx : ∀ p ∈ e, CallOk collapseF p.2 (collapse p.2)) :
    CallOk collapseF (map e) (collapse (map e)) := by
  obtain ⟨N1, h1⟩ := eachKey_ok e hx
  simp only [collapse]
  refine ⟨N1 + 1, fun n hn m d c F hw hr hg hd => ?_⟩
  obtain ⟨n, rfl⟩ : ∃ k, n = k + 1 := ⟨n - 1, by omega⟩
  obtain ⟨a, es, G, rfl, hb, hv, _, _, hF⟩ := id hg
  have hE := h1 n (by omega) m a F [] hw (by simpa using hg)
  have hkeys : es.map Prod.fst = e.map Prod.fst := hv.keys
  simp only [collapseF, hr, hb, hkeys]
  cases hl : collapseM e with
  | ok v' =>
    rw [hl] at hE
    obtain ⟨m1, F1, he1, hC1, hr1⟩ := hE
    exact ⟨m1, _, F1, he1, hC1.upd hw hr hd, by simpa using hr1⟩
  | throw v' =>
    rw [hl] at hE
    obtain ⟨m1, F1, he1, hC1, hr1⟩ := hE
    exact ⟨m1, _, F1, he1, hC1.upd hw hr hd, by simpa using hr1⟩
  | ub => trivial
  | diverge => trivial

theorem collapse_leaf (h : leafy g = true) : CallOk collapseF g (collapse g) := by
  have hv : collapse g = .ok g () := by cases g <;> first | rfl | (simp [leafy] at h; done)
  rw [hv]
  refine ⟨1, fun n hn m d c F hw hr hg hd => ⟨m, c, F, ?_, Upd.refl hw hr, hg⟩⟩
  obtain ⟨n, rfl⟩ : ∃ k, n = k + 1 := ⟨n - 1, by omega⟩
  have ht := rep_ty hg
  cases c with
  | imm g' => simp only [collapseF, hr]
  | box t a =>
    cases t <;> first
      | (simp only [collapseF, hr]; done)
      | (exfalso; cases g <;> simp [Cell.ty, GC.ty, leafy] at ht h)

theorem callOk_collapse (g : GC) : CallOk collapseF g (collapse g) := by
  by_cases h : leafy g = true
  · exact collapse_leaf h
  · cases g <;> simp only [leafy, not_true_eq_false] at h
    · exact collapse_vector fun x hx => callOk_collapse x
    · exact collapse_map fun p hp => callOk_collapse p.2
termination_by sizeOf g
decreasing_by
  · have := sizeOf_mem hx
    simp only [GC.vector.sizeOf_spec]
    omega
  · have := List.sizeOf_lt_of_mem hp
    obtain ⟨k, x⟩ := p
    rw [Prod.mk.sizeOf_spec] at this
    simp only [GC.map.sizeOf_spec]
    show sizeOf x < _
    omega

theorem callOk {op : Op} (h : inMemory op = true) (hw : WF g) (hf : Fits g) : CallOk (callF ip op) g (step op g) := by
  by_cases hc : op = .collapse
  · subst hc; exact callOk_collapse g
  · exact callOk_most h hc hw hf

end Heap
end GCV
