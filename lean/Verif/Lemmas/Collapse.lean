import Verif.Model.Collapse
import Verif.Spec.View
import Verif.Props.CopyTo

/-! # Lemmas about collapse -/

namespace GCV

/-! ## The relation SameTree -/

theorem SameTree.rfl' : ∀ t : Tree, SameTree t t
  | .leaf g => .leaf (.inl rfl)
  | .list l => by
    refine .list rfl ?_
    intro i t t' h h'
    rw [h] at h'; injection h' with h'; subst h'
    exact SameTree.rfl' t
  | .dict m => by
    refine .dict rfl ?_
    intro i k t k' t' h h'
    rw [h] at h'; injection h' with h'; injection h' with h1 h2; subst h1; subst h2
    exact SameTree.rfl' t
termination_by t => sizeOf t
decreasing_by
  · have := List.sizeOf_lt_of_mem (List.mem_of_getElem? h); simp; omega
  · have := List.sizeOf_lt_of_mem (List.mem_of_getElem? h)
    simp at this ⊢; omega

theorem SameNumber.trans {a b c : GC} (h1 : SameNumber a b) (h2 : SameNumber b c) : SameNumber a c := by
  rcases h1 with rfl | ⟨q, h1, h1'⟩ | ⟨r, rfl, rfl⟩
  · exact h2
  · rcases h2 with rfl | ⟨p, h2, h2'⟩ | ⟨r, rfl, rfl⟩
    · exact .inr (.inl ⟨q, h1, h1'⟩)
    · rw [h1'] at h2; exact .inr (.inl ⟨p, by rw [h1, h2], h2'⟩)
    · refine .inr (.inl ⟨q, h1, ?_⟩)
      rw [show (GC.complex ⟨r, .zero⟩) = GC.complex (.ofReal r) from rfl, GC.complex_ofReal]
      exact h1'
  · rcases h2 with h2 | ⟨p, h2, h2'⟩ | ⟨r', h2, _⟩
    · exact .inr (.inr ⟨r, rfl, h2.symm⟩)
    · refine .inr (.inl ⟨p, ?_, h2'⟩)
      rw [show (GC.complex ⟨r, .zero⟩) = GC.complex (.ofReal r) from rfl, GC.complex_ofReal] at h2
      exact h2
    · simp at h2

theorem SameTree.trans {a b : Tree} (h1 : SameTree a b) : ∀ {c}, SameTree b c → SameTree a c := by
  induction h1 with
  | leaf h => intro c h2; cases h2 with | leaf h' => exact .leaf (h.trans h')
  | @list l l' hl _ ih =>
    intro c h2
    cases h2 with
    | @list _ l'' hl' h' =>
      refine .list (hl.trans hl') ?_
      intro i t t'' ht ht''
      have hi : i < l'.length := by rw [← hl]; exact (List.getElem?_eq_some_iff.1 ht).1
      have hm := List.getElem?_eq_getElem hi
      exact ih i t _ ht hm (h' i _ t'' hm ht'')
  | @dict l l' hl _ ih =>
    intro c h2
    cases h2 with
    | @dict _ l'' hl' h' =>
      refine .dict (hl.trans hl') ?_
      intro i k t k'' t'' ht ht''
      have hi : i < l'.length := by
        have := congrArg List.length hl; simp at this
        rw [← this]; exact (List.getElem?_eq_some_iff.1 ht).1
      have hm : l'[i]? = some (l'[i].1, l'[i].2) := List.getElem?_eq_getElem hi
      have e1 := h' i _ _ k'' t'' hm ht''
      exact ih i k t _ _ ht hm e1

namespace GC

theorem viewL_eq : ∀ v : List GC, viewL v = v.map view
  | [] => rfl
  | x :: r => by rw [viewL, viewL_eq r]; rfl

theorem viewM_eq : ∀ v : Entries, viewM v = v.map fun e => (e.1, view e.2)
  | [] => rfl
  | (k, x) :: r => by rw [viewM, viewM_eq r]; rfl

/-- Scalars (and the empty container). -/
def scalar (t : Ty) : Bool := decide (t.rank ≤ 7)

theorem view_scalar {x : GC} (h : scalar x.ty = true) : view x = .leaf x := by
  cases x <;> first | rfl | (simp [scalar, ty, Ty.rank] at h)

theorem view_shape1 {x : GC} (h : shape x.ty = 1) : view x = .list ((elems x).map .leaf) := by
  cases x <;> first
    | (simp [shape, ty] at h; done)
    | (simp [view, elems, leaves1, Function.comp_def])

/-- A packed vector against the scalars it was packed from. -/
theorem same_packed {α : Type} {v : List GC} {w : List α} {up : α → GC}
    (hs : ∀ x ∈ v, scalar x.ty = true) (h : Pointwise (fun x a => SameNumber x (up a)) v w) :
    SameTree (.list (viewL v)) (leaves1 up w) := by
  refine .list (by simp [viewL_eq, h.1]) ?_
  intro i t t' h1 h2
  simp only [viewL_eq, List.getElem?_map, Option.map_eq_some_iff] at h1 h2
  obtain ⟨x, hx, rfl⟩ := h1
  obtain ⟨a, ha, rfl⟩ := h2
  rw [view_scalar (hs x (List.mem_of_getElem? hx))]
  exact .leaf (h.2 i x a hx ha)

theorem columns_flatten {α : Type} (ws : List (List α)) (n : Nat) (h : ∀ w ∈ ws, w.length = n) :
    (⟨n, ws.length, ws.flatten⟩ : Mat α).columns = ws := by
  apply List.ext_getElem?
  intro j
  unfold Mat.columns
  rw [List.getElem?_map]
  by_cases hj : j < ws.length
  · rw [List.getElem?_eq_getElem (by simpa using hj), List.getElem_range, Option.map_some]
    have := flatten_column ws n j _ h (List.getElem?_eq_getElem hj)
    rw [this, List.getElem?_eq_getElem hj]
  · rw [List.getElem?_eq_none (by simpa using hj), List.getElem?_eq_none (by omega)]; rfl

/-- A matrix against the vectors it was packed from. -/
theorem same_columns {α : Type} {v : List GC} {ws : List (List α)} {n : Nat} {up : α → GC}
    (hs : ∀ x ∈ v, shape x.ty = 1) (hw : ∀ w ∈ ws, w.length = n)
    (h : Pointwise (fun x w => Pointwise (fun y a => SameNumber y (up a)) (elems x) w) v ws) :
    SameTree (.list (viewL v)) (leaves2 up ⟨n, ws.length, ws.flatten⟩) := by
  unfold leaves2
  rw [columns_flatten ws n hw]
  refine .list (by simp [viewL_eq, h.1]) ?_
  intro i t t' h1 h2
  simp only [viewL_eq, List.getElem?_map, Option.map_eq_some_iff] at h1 h2
  obtain ⟨x, hx, rfl⟩ := h1
  obtain ⟨w, hw', rfl⟩ := h2
  rw [view_shape1 (hs x (List.mem_of_getElem? hx))]
  have hp := h.2 i x w hx hw'
  refine .list (by simp [hp.1]) ?_
  intro k t t' h1 h2
  simp only [List.getElem?_map, Option.map_eq_some_iff] at h1 h2
  obtain ⟨y, hy, rfl⟩ := h1
  obtain ⟨a, ha, rfl⟩ := h2
  exact .leaf (hp.2 k y a hy ha)

/-! ## The two loops -/

theorem maxType_spec : ∀ (v : List GC) (t : Ty),
    t.rank ≤ (maxType t v).rank ∧ (∀ x ∈ v, x.ty.rank ≤ (maxType t v).rank) ∧
    (maxType t v = t ∨ ∃ x ∈ v, x.ty = maxType t v)
  | [], t => ⟨Nat.le_refl _, by simp, .inl rfl⟩
  | x :: r, t => by
    obtain ⟨h1, h2, h3⟩ := maxType_spec r (if t.rank < x.ty.rank then x.ty else t)
    have e : maxType t (x :: r) = maxType (if t.rank < x.ty.rank then x.ty else t) r := rfl
    rw [e]
    have h4 : t.rank ≤ (if t.rank < x.ty.rank then x.ty else t).rank ∧
        x.ty.rank ≤ (if t.rank < x.ty.rank then x.ty else t).rank := by split <;> omega
    refine ⟨by omega, ?_, ?_⟩
    · intro y hy
      rcases List.mem_cons.1 hy with rfl | hy
      · omega
      · exact h2 y hy
    · rcases h3 with h3 | ⟨y, hy, h3⟩
      · rw [h3]; split
        · exact .inr ⟨x, by simp, rfl⟩
        · exact .inl rfl
      · exact .inr ⟨y, by simp [hy], h3⟩

theorem ofNat_toInt_nonneg {n : Nat} (h : n < 2 ^ 31) : 0 ≤ (BitVec.ofNat 32 n).toInt := by
  rw [BitVec.toInt_eq_toNat_of_lt (by simp; omega)]; omega

theorem sameCount_false : ∀ (v : List GC) (l : I32), (sameCount l false v).2 = false
  | [], _ => rfl
  | x :: r, l => by
    have e : sameCount l false (x :: r) = sameCount (BitVec.ofNat 32 x.get_num_elements) false r := by
      rw [sameCount]; simp
    rw [e]; exact sameCount_false r _

theorem sameCount_spec : ∀ (v : List GC) (n : Nat), n < 2 ^ 31 →
    (∀ x ∈ v, x.get_num_elements < 2 ^ 31) →
    (sameCount (BitVec.ofNat 32 n) true v).2 = true →
    (∀ x ∈ v, x.get_num_elements = n) ∧ (sameCount (BitVec.ofNat 32 n) true v).1.toNat = n
  | [], n, hn, _, _ => ⟨by simp, by simp [sameCount]; omega⟩
  | x :: r, n, hn, hv, h => by
    have hx := hv x (by simp)
    have e : sameCount (BitVec.ofNat 32 n) true (x :: r) =
        sameCount (BitVec.ofNat 32 x.get_num_elements)
          (BitVec.ofNat 32 n == BitVec.ofNat 32 x.get_num_elements) r := by
      rw [sameCount]; simp only [and_true]; rw [if_pos (ofNat_toInt_nonneg hn)]
    rw [e] at h ⊢
    by_cases hc : (BitVec.ofNat 32 n == BitVec.ofNat 32 x.get_num_elements) = true
    · have heq : n = x.get_num_elements := by
        have := eq_of_beq hc
        have := congrArg BitVec.toNat this
        simp at this; omega
      rw [hc] at h ⊢
      obtain ⟨h1, h2⟩ := sameCount_spec r _ hx (fun y hy => hv y (by simp [hy])) h
      refine ⟨?_, by rw [h2, heq]⟩
      intro y hy
      rcases List.mem_cons.1 hy with rfl | hy
      · exact heq.symm
      · rw [h1 y hy, heq]
    · rw [Bool.not_eq_true] at hc
      rw [hc, sameCount_false] at h; simp at h

/-- When `pack` goes on, all elements have the same count and `last` is that count. -/
theorem sameCount_all {v : List GC} (hne : v ≠ []) (hb : 2 ≤ v.length → ∀ x ∈ v, x.get_num_elements < 2 ^ 31)
    (hlt : ∀ x ∈ v, x.get_num_elements < 2 ^ 32)
    (h : (sameCount (-1) true v).2 = true) :
    ∀ x ∈ v, x.get_num_elements = (sameCount (-1) true v).1.toNat := by
  cases v with
  | nil => exact absurd rfl hne
  | cons x r =>
    have e : sameCount (-1) true (x :: r) = sameCount (BitVec.ofNat 32 x.get_num_elements) true r := by
      rw [sameCount]; simp [BitVec.toInt]
    rw [e] at h ⊢
    cases r with
    | nil =>
      intro y hy; simp at hy; subst hy
      have := hlt y (by simp)
      simp [sameCount]; omega
    | cons z r =>
      have hb := hb (by simp)
      obtain ⟨h1, h2⟩ := sameCount_spec (z :: r) _ (hb x (by simp)) (fun y hy => hb y (by simp [hy])) h
      intro y hy
      rw [h2]
      rcases List.mem_cons.1 hy with rfl | hy
      · rfl
      · exact h1 y hy

theorem convLoop_all {α β : Type} (f : α → Out β) (R : α → β → Prop) : ∀ v : List α,
    (∀ x ∈ v, ∃ a, f x = .ok a ∧ R x a) → ∃ w, convLoop f v = .ok w ∧ Pointwise R v w
  | [], _ => ⟨[], rfl, rfl, by intro i x a h; simp at h⟩
  | x :: r, h => by
    obtain ⟨a, h1, h2⟩ := h x (by simp)
    obtain ⟨w, h3, h4⟩ := convLoop_all f R r (fun y hy => h y (by simp [hy]))
    refine ⟨a :: w, by rw [convLoop, h1, Out.bind, h3]; rfl, by simp [h4.1], ?_⟩
    intro i y b h5 h6
    cases i with
    | zero => simp at h5 h6; rw [← h5, ← h6]; exact h2
    | succ n => exact h4.2 n y b (by simpa using h5) (by simpa using h6)

theorem flatten_length {β : Type} : ∀ (ws : List (List β)) (n : Nat), (∀ w ∈ ws, w.length = n) →
    ws.flatten.length = n * ws.length
  | [], n, _ => by simp
  | w :: ws, n, h => by
    rw [List.flatten_cons, List.length_append, flatten_length ws n (fun u hu => h u (by simp [hu])),
      h w (by simp), List.length_cons, Nat.mul_succ]; omega

/-- The columns of the elements, when every element has `n` numbers. -/
theorem packColumns_ok {α : Type} (d : α) (conv : GC → Out (List α)) (R : GC → α → Prop) (v : List GC) (n : Nat)
    (hv : v.length < 2 ^ 32) (hn : n * v.length < 2 ^ 32)
    (hc : ∀ x ∈ v, ∃ w, conv x = .ok w ∧ Pointwise R (elems x) w)
    (he : ∀ x ∈ v, (elems x).length = n) :
    ∃ ws, packColumns d conv n v = .ok ⟨n, v.length, ws.flatten⟩ ∧ ws.length = v.length ∧
      (∀ w ∈ ws, w.length = n) ∧ Pointwise (fun x w => Pointwise R (elems x) w) v ws := by
  have hex : ∀ (u : List GC), (∀ y ∈ u, y ∈ v) → ∃ ws : List (List α), u.length = ws.length ∧
      ∀ (k : Nat) y w, u[k]? = some y → ws[k]? = some w → conv y = .ok w ∧ Pointwise R (elems y) w := by
    intro u
    induction u with
    | nil => intro _; exact ⟨[], rfl, by intro k y w h; simp at h⟩
    | cons y u ih =>
      intro hsub
      obtain ⟨ws, h1, h2⟩ := ih (fun z hz => hsub z (by simp [hz]))
      obtain ⟨w, h3, h4⟩ := hc y (hsub y (by simp))
      refine ⟨w :: ws, by simp [h1], ?_⟩
      intro k z u h5 h6
      cases k with
      | zero => simp at h5 h6; rw [← h5, ← h6]; exact ⟨h3, h4⟩
      | succ k => exact h2 k z u (by simpa using h5) (by simpa using h6)
  obtain ⟨ws, h1, h2⟩ := hex v (fun _ h => h)
  have hwl : ∀ (k : Nat) y w, v[k]? = some y → ws[k]? = some w → w.length = n := by
    intro k y w h3 h4
    rw [← (h2 k y w h3 h4).2.1]; exact he y (List.mem_of_getElem? h3)
  have hwl' : ∀ w ∈ ws, w.length = n := by
    intro w hw
    obtain ⟨k, hk⟩ := List.mem_iff_getElem?.1 hw
    have hk' := (List.getElem?_eq_some_iff.1 hk).1
    have : v[k]? = some (v[k]'(by omega)) := List.getElem?_eq_getElem (by omega)
    exact hwl k _ w this hk
  refine ⟨ws, ?_, h1.symm, hwl', h1, fun i x w h3 h4 => (h2 i x w h3 h4).2⟩
  unfold packColumns
  rw [u32_of_lt hv, List.take_length]
  have hmk : Mat.make d n v.length = ⟨n, v.length, [] ++ List.replicate (v.length * n) d⟩ := by
    unfold Mat.make; rw [u32_of_lt hn, Nat.mul_comm]; rfl
  rw [hmk, fillCols_ok conv _ _ hn v ws 0 [] _ (by simp) (by simp) (by simp) h1
    (fun k y w h3 h4 => ⟨(h2 k y w h3 h4).1, hwl k y w h3 h4⟩)]
  rfl

end GC
end GCV
