import Verif.Lemmas.History
import Verif.Model.SerializeLeft

/-! # C25: histories of calls -/

namespace GCV
namespace GC

/-! ## collapse -/

theorem wf_fillCol {β : Type} {vj : List β} {j : Nat} : ∀ (n i : Nat) {m m' : Mat β}, m.wf = true →
    fillCol m j vj i n = .ok m' → m'.wf = true
  | 0, i, m, m', hm, h => by injection h with h; exact h ▸ hm
  | n + 1, i, m, m', hm, h => by
    rw [fillCol] at h
    obtain ⟨x, -, h⟩ := out_bind_ok h
    obtain ⟨m1, h1, h⟩ := out_bind_ok h
    exact wf_fillCol n (i + 1) (wf_set hm h1) h

theorem wf_fillCols {β : Type} {conv : GC → Out (List β)} {nr : Nat} : ∀ (v : List GC) {j : Nat}
    {m m' : Mat β}, m.wf = true → fillCols conv nr m j v = .ok m' → m'.wf = true
  | [], j, m, m', hm, h => by injection h with h; exact h ▸ hm
  | x :: r, j, m, m', hm, h => by
    rw [fillCols] at h
    obtain ⟨vj, -, h⟩ := out_bind_ok h
    obtain ⟨m1, h1, h⟩ := out_bind_ok h
    exact wf_fillCols r (wf_fillCol _ _ hm h1) h

theorem good_assignPacked {α : Type} {v : List GC} {c : Out α} {set : α → GC → Out GC} (hv : WFL v)
    (h : ∀ x g, c = .ok x → set x (vector v) = .ok g → WF g) : Good (assignPacked v c set) := by
  unfold assignPacked
  split
  · rename_i g hg
    obtain ⟨x, hx, hs⟩ := out_bind_ok hg
    exact good_ok (h x g hx hs)
  · exact good_throw hv
  · exact good_ub
  · exact good_diverge

theorem good_pack {v : List GC} (hv : WFL v) : Good (pack v) := by
  have hv' : WF (vector v) := hv
  have hl : ∀ x : I32, x.toNat < 2 ^ 32 := fun x => x.isLt
  unfold pack
  simp only
  split
  · exact good_ok hv
  split
  · refine good_assignPacked hv ?_
    intro x g _ h; exact WF_from_gc (vecString x) _ trivial hv' g h
  split
  · refine good_assignPacked hv ?_
    intro x g _ h; exact WF_from_gc (vecBool x) _ trivial hv' g h
  · refine good_assignPacked hv ?_
    intro x g _ h; exact WF_from_gc (vecInt x) _ trivial hv' g h
  · refine good_assignPacked hv ?_
    intro x g _ h; exact WF_from_gc (vecLong x) _ trivial hv' g h
  · refine good_assignPacked hv ?_
    intro x g _ h; exact WF_from_gc (vecReal x) _ trivial hv' g h
  · refine good_assignPacked hv ?_
    intro x g _ h; exact WF_from_gc (vecComplex x) _ trivial hv' g h
  · refine good_assignPacked hv ?_
    intro x g hx h; exact WF_set_mat_int (wf_fillCols _ (wf_make _ (hl _) (u32_lt _)) hx) hv' h
  · refine good_assignPacked hv ?_
    intro x g hx h; exact WF_set_mat_long (wf_fillCols _ (wf_make _ (hl _) (u32_lt _)) hx) hv' h
  · refine good_assignPacked hv ?_
    intro x g hx h; exact WF_set_mat_real (wf_fillCols _ (wf_make _ (hl _) (u32_lt _)) hx) hv' h
  · refine good_assignPacked hv ?_
    intro x g hx h; exact WF_set_mat_complex (wf_fillCols _ (wf_make _ (hl _) (u32_lt _)) hx) hv' h
  · exact good_ok hv

mutual

theorem good_collapse : ∀ g : GC, WF g → Good (collapse g)
  | map m, h => by
    rw [collapse]
    have := good_collapseM m h.2
    have sorted : ∀ m' : Entries, m'.map Prod.fst = m.map Prod.fst → KeysSorted m' := by
      intro m' e
      have h1 : List.Pairwise strLT (m.map Prod.fst) := List.pairwise_map.2 h.1
      rw [← e] at h1
      exact List.pairwise_map.1 h1
    split
    · rename_i m' e
      have := this.1 m' e
      exact good_ok ⟨sorted m' this.2, this.1⟩
    · rename_i m' e
      have := this.2 m' e
      exact good_throw ⟨sorted m' this.2, this.1⟩
    · exact good_ub
    · exact good_diverge
  | vector v, h => by
    rw [collapse]
    have := good_collapseL v h
    split
    · exact good_ok h
    split
    · rename_i v' e; exact good_pack (this.1 v' e)
    · rename_i v' e; exact good_throw (this.2 v' e)
    · exact good_ub
    · exact good_diverge
  | notype, h => good_ok h
  | pointer _, h => good_ok h
  | bool _, h => good_ok h
  | int _, h => good_ok h
  | long _, h => good_ok h
  | real _, h => good_ok h
  | complex _, h => good_ok h
  | string _, h => good_ok h
  | vecPointer _, h => good_ok h
  | vecBool _, h => good_ok h
  | vecInt _, h => good_ok h
  | vecLong _, h => good_ok h
  | vecReal _, h => good_ok h
  | vecComplex _, h => good_ok h
  | vecString _, h => good_ok h
  | matInt _, h => good_ok h
  | matLong _, h => good_ok h
  | matReal _, h => good_ok h
  | matComplex _, h => good_ok h

theorem good_collapseL : ∀ v : List GC, WFL v →
    (∀ w, collapseL v = .ok w → WFL w) ∧ (∀ w, collapseL v = .throw w → WFL w)
  | [], h => ⟨by intro w hw; injection hw with hw; exact hw ▸ h, by intro w hw; simp [collapseL] at hw⟩
  | x :: r, h => by
    have hx := good_collapse x h.1
    have hr := good_collapseL r h.2
    rw [collapseL]
    cases e : collapse x with
    | ok x' u =>
      rw [e] at hx
      cases e' : collapseL r with
      | ok r' => refine ⟨?_, ?_⟩ <;> intro w hw <;> simp at hw; exact hw ▸ ⟨hx _ rfl, hr.1 _ e'⟩
      | throw r' => refine ⟨?_, ?_⟩ <;> intro w hw <;> simp at hw; exact hw ▸ ⟨hx _ rfl, hr.2 _ e'⟩
      | ub => simp
      | diverge => simp
    | throw x' =>
      rw [e] at hx
      refine ⟨?_, ?_⟩ <;> intro w hw <;> simp at hw; exact hw ▸ ⟨hx _ rfl, h.2⟩
    | ub => simp
    | diverge => simp

theorem good_collapseM : ∀ m : Entries, WFM m →
    (∀ w, collapseM m = .ok w → WFM w ∧ w.map Prod.fst = m.map Prod.fst) ∧
    (∀ w, collapseM m = .throw w → WFM w ∧ w.map Prod.fst = m.map Prod.fst)
  | [], h => ⟨by intro w hw; injection hw with hw; exact hw ▸ ⟨h, rfl⟩, by intro w hw; simp [collapseM] at hw⟩
  | (k, x) :: r, h => by
    have hx := good_collapse x h.1
    have hr := good_collapseM r h.2
    rw [collapseM]
    cases e : collapse x with
    | ok x' u =>
      rw [e] at hx
      cases e' : collapseM r with
      | ok r' =>
        refine ⟨?_, ?_⟩ <;> intro w hw <;> simp at hw
        subst hw
        exact ⟨⟨hx _ rfl, (hr.1 _ e').1⟩, by simp [(hr.1 _ e').2]⟩
      | throw r' =>
        refine ⟨?_, ?_⟩ <;> intro w hw <;> simp at hw
        subst hw
        exact ⟨⟨hx _ rfl, (hr.2 _ e').1⟩, by simp [(hr.2 _ e').2]⟩
      | ub => simp
      | diverge => simp
    | throw x' =>
      rw [e] at hx
      refine ⟨?_, ?_⟩ <;> intro w hw <;> simp at hw
      subst hw
      exact ⟨⟨hx _ rfl, h.2⟩, by simp⟩
    | ub => simp
    | diverge => simp

end

/-! ## One call -/

theorem good_merge {a d : GC} (ha : WF a) (hd : WF d) : Good (merge a d) := by
  cases a <;> first
    | exact good_ok hd
    | exact good_throw hd
    | skip
  rename_i m
  rw [merge]
  have h1 : WF (if d = notype then set_map d else d) := by
    split
    · exact WF_oldMap hd
    · exact hd
  split
  · rename_i w hw
    rw [hw] at h1
    split
    · rename_i w' e; exact good_ok (WF_from_gcM m w ha.2 h1 w' e)
    · rw [hw]; exact good_throw h1
    · exact good_ub
    · exact good_diverge
  · exact good_throw h1

theorem bv_lt (n : BitVec 32) : n.toNat < 2 ^ 32 := n.isLt

/-- Closes goals about the promotions. -/
macro "good_cases" h:ident : tactic => `(tactic| (first
    | exact good_ok trivial
    | exact good_throw trivial
    | exact good_ok $h
    | exact good_throw $h
    | exact good_ub
    | exact good_toColumn _ _ _ (fun _ h => h)
    | (refine good_become ?_
       intro s hs
       obtain ⟨w, hw, e⟩ := out_bind_ok hs
       injection e with e; subst e
       first | trivial | exact wf_convMat $h hw)))

theorem good_promote_to_int {g : GC} (h : WF g) : Good (promote_to_int g) := by
  cases g <;> good_cases h
theorem good_promote_to_long {g : GC} (h : WF g) : Good (promote_to_long g) := by
  cases g <;> good_cases h
theorem good_promote_to_real {g : GC} (h : WF g) : Good (promote_to_real g) := by
  cases g <;> good_cases h
theorem good_promote_to_vec_int {g : GC} (h : WF g) : Good (promote_to_vec_int g) := by
  cases g <;> good_cases h
theorem good_promote_to_vec_long {g : GC} (h : WF g) : Good (promote_to_vec_long g) := by
  cases g <;> good_cases h
theorem good_promote_to_vec_real {g : GC} (h : WF g) : Good (promote_to_vec_real g) := by
  cases g <;> good_cases h
theorem good_promote_to_vec_complex {g : GC} (h : WF g) : Good (promote_to_vec_complex g) := by
  cases g <;> good_cases h
theorem good_promote_to_complex {g : GC} (h : WF g) : Good (promote_to_complex g) := by
  cases g <;> first | exact good_promote_to_vec_complex h | good_cases h

theorem good_wrong {α : Type} {v : List α} {g : GC} (h : WF g) : Good (throughWrongMember v g) := by
  cases v
  · exact good_ok h
  · exact good_ub

theorem good_promote_to_mat_int {g : GC} (h : WF g) : Good (promote_to_mat_int g) := by
  cases g <;> first
    | exact good_wrong (wf_make _ (u32_lt _) (by decide))
    | exact good_ok (by decide : Mat.wf _ = true)
    | exact good_ok (rfl : Mat.wf _ = true)
    | good_cases h
theorem good_promote_to_mat_long {g : GC} (h : WF g) : Good (promote_to_mat_long g) := by
  cases g <;> first
    | exact good_ok (by decide : Mat.wf _ = true)
    | exact good_ok (rfl : Mat.wf _ = true)
    | good_cases h
theorem good_promote_to_mat_real {g : GC} (h : WF g) : Good (promote_to_mat_real g) := by
  cases g <;> first
    | exact good_ok (by decide : Mat.wf _ = true)
    | exact good_ok (rfl : Mat.wf _ = true)
    | good_cases h
theorem good_promote_to_mat_complex {g : GC} (h : WF g) : Good (promote_to_mat_complex g) := by
  cases g <;> first
    | exact good_wrong (wf_make _ (u32_lt _) (by decide))
    | exact good_ok (by decide : Mat.wf _ = true)
    | exact good_ok (rfl : Mat.wf _ = true)
    | good_cases h

theorem good_get_bool_at {i : Nat} {g : GC} (h : WF g) : Good (get_bool_at i g) := by
  cases g <;> first
    | exact good_refAt (fun _ => trivial)
    | exact good_refAtVector h (fun _ => trivial)

theorem good_get_string_at {i : Nat} {upd} {g : GC} (h : WF g) : Good (get_string_at i upd g) := by
  cases g <;> first
    | exact good_refAt (fun _ => trivial)
    | exact good_refAtVector h (fun _ => trivial)

theorem good_get_int_at {i : Nat} {upd} {g : GC} (h : WF g) : Good (get_int_at i upd g) := by
  have after : ∀ s u, WF s → Good (get_int_at.after i upd s u) := by
    intro s u hs; cases s <;> first
      | exact good_refAt (fun _ => trivial)
      | exact good_refAtVector hs (fun _ => trivial)
  cases g <;> first
    | exact good_refAt (fun _ => trivial)
    | exact good_bind (good_promote_to_vec_int h) after
    | exact good_refAtVector h (fun _ => trivial)

theorem good_get_long_at {i : Nat} {upd} {g : GC} (h : WF g) : Good (get_long_at i upd g) := by
  have after : ∀ s u, WF s → Good (get_long_at.after i upd s u) := by
    intro s u hs; cases s <;> first
      | exact good_refAt (fun _ => trivial)
      | exact good_refAtVector hs (fun _ => trivial)
  cases g <;> first
    | exact good_refAt (fun _ => trivial)
    | exact good_bind (good_promote_to_vec_long h) after
    | exact good_refAtVector h (fun _ => trivial)

theorem good_get_real_at {i : Nat} {upd} {g : GC} (h : WF g) : Good (get_real_at i upd g) := by
  have after : ∀ s u, WF s → Good (get_real_at.after i upd s u) := by
    intro s u hs; cases s <;> first
      | exact good_refAt (fun _ => trivial)
      | exact good_refAtVector hs (fun _ => trivial)
  cases g <;> first
    | exact good_refAt (fun _ => trivial)
    | exact good_bind (good_promote_to_vec_real h) after
    | exact good_refAtVector h (fun _ => trivial)

theorem good_get_complex_at {i : Nat} {upd} {g : GC} (h : WF g) : Good (get_complex_at i upd g) := by
  have after : ∀ s u, WF s → Good (get_complex_at.after i upd s u) := by
    intro s u hs; cases s <;> first
      | exact good_refAt (fun _ => trivial)
      | exact good_refAtVector hs (fun _ => trivial)
  cases g <;> first
    | exact good_refAt (fun _ => trivial)
    | exact good_bind (good_promote_to_vec_complex h) after
    | exact good_refAtVector h (fun _ => trivial)

theorem good_get_int_at2 {i j : BitVec 32} {upd} {g : GC} (h : WF g) :
    Good (get_int_at2 i.toNat j.toNat upd g) := by
  have after : ∀ s u, WF s → Good (get_int_at2.after i.toNat j.toNat upd s u) := by
    intro s u hs; cases s <;> first
      | exact good_refAt2 hs (fun _ h => h)
      | exact good_throw hs
  cases g <;> first
    | exact good_throw (wf_make _ (bv_lt _) (bv_lt _))
    | exact good_refAt2 h (fun _ h => h)
    | exact good_bind (good_promote_to_mat_int h) after
    | exact good_throw h

theorem good_get_long_at2 {i j : BitVec 32} {upd} {g : GC} (h : WF g) :
    Good (get_long_at2 i.toNat j.toNat upd g) := by
  have after : ∀ s u, WF s → Good (get_long_at2.after i.toNat j.toNat upd s u) := by
    intro s u hs; cases s <;> first
      | exact good_refAt2 hs (fun _ h => h)
      | exact good_throw hs
  cases g <;> first
    | exact good_throw (wf_make _ (bv_lt _) (bv_lt _))
    | exact good_refAt2 h (fun _ h => h)
    | exact good_bind (good_promote_to_mat_long h) after
    | exact good_throw h

theorem good_get_real_at2 {i j : BitVec 32} {upd} {g : GC} (h : WF g) :
    Good (get_real_at2 i.toNat j.toNat upd g) := by
  have after : ∀ s u, WF s → Good (get_real_at2.after i.toNat j.toNat upd s u) := by
    intro s u hs; cases s <;> first
      | exact good_refAt2 hs (fun _ h => h)
      | exact good_throw hs
  cases g <;> first
    | exact after (set_mat_real_n _ _ notype) () (wf_make _ (bv_lt _) (bv_lt _))
    | exact good_refAt2 h (fun _ h => h)
    | exact good_bind (good_promote_to_mat_real h) after
    | exact good_throw h

theorem good_get_complex_at2 {i j : BitVec 32} {upd} {g : GC} (h : WF g) :
    Good (get_complex_at2 i.toNat j.toNat upd g) := by
  have after : ∀ s u, WF s → Good (get_complex_at2.after i.toNat j.toNat upd s u) := by
    intro s u hs; cases s <;> first
      | exact good_refAt2 hs (fun _ h => h)
      | exact good_throw hs
  cases g <;> first
    | exact after (set_mat_complex_n _ _ notype) () (wf_make _ (bv_lt _) (bv_lt _))
    | exact good_refAt2 h (fun _ h => h)
    | exact good_bind (good_promote_to_mat_complex h) after
    | exact good_throw h

theorem good_get_vec_int {upd} {g : GC} (h : WF g) : Good (get_vec_int upd g) := by
  cases g <;> first
    | exact good_ok trivial
    | exact good_throw h
    | (refine good_bind (good_promote_to_vec_int h) ?_
       intro s u hs; cases s <;> first | exact good_ok trivial | exact good_throw hs)

theorem good_get_vec_long {upd} {g : GC} (h : WF g) : Good (get_vec_long upd g) := by
  cases g <;> first
    | exact good_ok trivial
    | exact good_throw h
    | (refine good_bind (good_promote_to_vec_long h) ?_
       intro s u hs; cases s <;> first | exact good_ok trivial | exact good_throw hs)

theorem good_get_vec_real {upd} {g : GC} (h : WF g) : Good (get_vec_real upd g) := by
  cases g <;> first
    | exact good_ok trivial
    | exact good_throw h
    | (refine good_bind (good_promote_to_vec_real h) ?_
       intro s u hs; cases s <;> first | exact good_ok trivial | exact good_throw hs)

theorem good_get_vec_complex {upd} {g : GC} (h : WF g) : Good (get_vec_complex upd g) := by
  cases g <;> first
    | exact good_ok trivial
    | exact good_throw h
    | (refine good_bind (good_promote_to_vec_complex h) ?_
       intro s u hs; cases s <;> first | exact good_ok trivial | exact good_throw hs)

theorem good_get_mat_int {upd} (hu : ∀ m : Mat I32, m.wf = true → (upd m).wf = true) {g : GC} (h : WF g) :
    Good (get_mat_int upd g) := by
  cases g <;> first
    | exact good_ok (hu _ (by decide))
    | exact good_ok (hu _ h)
    | exact good_throw h
    | (refine good_bind (good_promote_to_mat_int h) ?_
       intro s u hs; cases s <;> first | exact good_ok (hu _ hs) | exact good_throw hs)

theorem good_get_mat_long {upd} (hu : ∀ m : Mat I64, m.wf = true → (upd m).wf = true) {g : GC} (h : WF g) :
    Good (get_mat_long upd g) := by
  cases g <;> first
    | exact good_ok (hu _ (by decide))
    | exact good_ok (hu _ h)
    | exact good_throw h
    | (refine good_bind (good_promote_to_mat_long h) ?_
       intro s u hs; cases s <;> first | exact good_ok (hu _ hs) | exact good_throw hs)

theorem good_get_mat_real {upd} (hu : ∀ m : Mat F64, m.wf = true → (upd m).wf = true) {g : GC} (h : WF g) :
    Good (get_mat_real upd g) := by
  cases g <;> first
    | exact good_ok (hu _ (by decide))
    | exact good_ok (hu _ h)
    | exact good_throw h
    | (refine good_bind (good_promote_to_mat_real h) ?_
       intro s u hs; cases s <;> first | exact good_ok (hu _ hs) | exact good_throw hs)

theorem good_get_mat_complex {upd} (hu : ∀ m : Mat Cplx, m.wf = true → (upd m).wf = true) {g : GC} (h : WF g) :
    Good (get_mat_complex upd g) := by
  cases g <;> first
    | exact good_ok (hu _ (by decide))
    | exact good_ok (hu _ h)
    | exact good_throw h
    | (refine good_bind (good_promote_to_mat_complex h) ?_
       intro s u hs; cases s <;> first | exact good_ok (hu _ hs) | exact good_throw hs)

theorem good_push_bool {x} {g : GC} (h : WF g) : Good (push_bool x g) := by
  cases g <;> first | exact good_ok trivial | exact good_ok (WFL_append h trivial) | exact good_throw h

theorem good_push_int {x} {g : GC} (h : WF g) : Good (push_int x g) := by
  rw [push_int.eq_def]
  cases g <;> dsimp only <;> first
    | exact good_ok trivial | exact good_ok (WFL_append h trivial)
    | (refine good_bind (good_promote_to_vec_int h) ?_
       intro s u hs; cases s <;> first | exact good_ok trivial | exact good_ub)

theorem good_push_long {x} {g : GC} (h : WF g) : Good (push_long x g) := by
  rw [push_long.eq_def]
  cases g <;> dsimp only <;> first
    | exact good_ok trivial | exact good_ok (WFL_append h trivial)
    | (refine good_bind (good_promote_to_vec_long h) ?_
       intro s u hs; cases s <;> first | exact good_ok trivial | exact good_ub)

theorem good_push_real {x} {g : GC} (h : WF g) : Good (push_real x g) := by
  rw [push_real.eq_def]
  cases g <;> dsimp only <;> first
    | exact good_ok trivial | exact good_ok (WFL_append h trivial)
    | (refine good_bind (good_promote_to_vec_real h) ?_
       intro s u hs; cases s <;> first | exact good_ok trivial | exact good_ub)

theorem good_push_complex {x} {g : GC} (h : WF g) : Good (push_complex x g) := by
  rw [push_complex.eq_def]
  cases g <;> dsimp only <;> first
    | exact good_ok trivial | exact good_ok (WFL_append h trivial)
    | (refine good_bind (good_promote_to_vec_complex h) ?_
       intro s u hs; cases s <;> first | exact good_ok trivial | exact good_ub)

theorem good_push_string {x} {g : GC} (h : WF g) : Good (push_string x g) := by
  rw [push_string.eq_def]
  cases g <;> dsimp only <;> first
    | exact good_ok trivial
    | (refine good_bind (good_promote_vector h) ?_
       intro s u hs; cases s <;> first | exact good_ok (WFL_append hs trivial) | exact good_ub)

theorem good_withIdx {α : Type} {i : Nat} {f : GC → Res α} {g : GC} (hf : ∀ x, WF x → Good (f x)) (h : WF g) :
    Good (withIdx i f g) := by
  have hw := WFL_checkResize (n := i) (WFL_oldVector h)
  unfold withIdx
  simp only
  split
  · exact good_ub
  · rename_i x hx
    exact good_mapState (hf x (WFL_get hw hx)) (fun s hs => WFL_set hw hs)

theorem good_withIdxChecked {α : Type} {i : Nat} {f : GC → Res α} {g : GC} (hf : ∀ x, WF x → Good (f x))
    (h : WF g) : Good (withIdxChecked i f g) := by
  cases g <;> first
    | exact good_throw h
    | skip
  rename_i v
  rw [withIdxChecked]
  split
  · rename_i x hx
    exact good_mapState (hf x (WFL_get h hx)) (fun s hs => WFL_set h hs)
  · exact good_throw h

theorem good_withKey {α : Type} {k : Bytes} {f : GC → Res α} {g : GC} (hf : ∀ x, WF x → Good (f x))
    (h : WF g) : Good (withKey k f g) :=
  good_mapState (hf _ (WFM_findD (WFM_oldMap h) _)) (fun _ hs => WF_map_set (WF_oldMap h) hs)

theorem good_withKeyChecked {α : Type} {k : Bytes} {f : GC → Res α} {g : GC} (hf : ∀ x, WF x → Good (f x))
    (h : WF g) : Good (withKeyChecked k f g) := by
  cases g <;> first
    | exact good_throw h
    | skip
  rename_i m
  rw [withKeyChecked]
  split
  · rename_i x hx
    exact good_mapState (hf x (WFM_find h.2 hx)) (fun s hs => WF_map_set h hs)
  · exact good_throw h

theorem good_withKeysChecked {α : Type} {ks : List Bytes} {f : GC → Res α} {g : GC}
    (hf : ∀ x, WF x → Good (f x)) (h : WF g) : Good (withKeysChecked ks f g) := by
  cases g <;> first
    | exact good_throw h
    | skip
  rename_i m
  rw [withKeysChecked]
  split
  · exact good_mapState (hf _ (WFM_findD h.2 _)) (fun s hs => WF_map_set h hs)
  · exact good_throw h

theorem good_key_c {k : Bytes} {g : GC} (h : WF g) : Good (key_c k g) := by
  cases g <;> first
    | exact good_throw h
    | exact good_ok (WF_map_set h (WFM_findD h.2 _))

/-- Well-formed matrices. -/
def matOk {α : Type} (m : Mat α) : Prop := m.wf = true

theorem WF_merase {m : Entries} {k : Bytes} (h : WF (map m)) : WF (map (merase k m)) := by
  refine ⟨sorted_merase k m h.1, ?_⟩
  rw [WFM_iff]
  intro e he
  exact WFM_iff.1 h.2 e (mem_merase he)

set_option maxHeartbeats 1000000 in
theorem good_step : ∀ (op : Op) (g : GC), op.argsOk matOk → (∀ s ∈ op.sources, WF s) → WF g → Good (step op g)
  | .idx _ op, g, ha, hs, h => good_withIdx (fun x hx => good_step op x ha hs hx) h
  | .call _ op, g, ha, hs, h => good_withIdxChecked (fun x hx => good_step op x ha hs hx) h
  | .key _ op, g, ha, hs, h => good_withKey (fun x hx => good_step op x ha hs hx) h
  | .callKey _ op, g, ha, hs, h => good_withKeyChecked (fun x hx => good_step op x ha hs hx) h
  | .callKeys _ op, g, ha, hs, h => good_withKeysChecked (fun x hx => good_step op x ha hs hx) h
  | .clear, g, ha, hs, h => good_ok trivial
  | .freePointer, g, ha, hs, h => by cases g <;> first | exact good_ok trivial | exact good_throw h
  | .erase _, g, ha, hs, h => by cases g <;> first | exact good_throw h | exact good_ok (WF_merase h)
  | .setPointer _, g, ha, hs, h => good_ok trivial
  | .setBool _, g, ha, hs, h => good_ok trivial
  | .setInt _, g, ha, hs, h => good_ok trivial
  | .setLong _, g, ha, hs, h => good_ok trivial
  | .setReal _, g, ha, hs, h => good_ok trivial
  | .setComplex _, g, ha, hs, h => good_ok trivial
  | .setString _, g, ha, hs, h => good_ok (by cases g <;> trivial)
  | .setUint _, g, ha, hs, h => good_ok trivial
  | .setUlong _, g, ha, hs, h => good_ok trivial
  | .sizeVecPointer _, g, ha, hs, h => good_ok trivial
  | .setVecPointer _, g, ha, hs, h => good_keep h (fun s hs => WF_from_gc (vecPointer _) g trivial h s hs)
  | .sizeVecBool _, g, ha, hs, h => good_ok trivial
  | .setVecBool _, g, ha, hs, h => good_keep h (fun s hs => WF_from_gc (vecBool _) g trivial h s hs)
  | .sizeVecInt _, g, ha, hs, h => good_ok trivial
  | .setVecInt _, g, ha, hs, h => good_keep h (fun s hs => WF_from_gc (vecInt _) g trivial h s hs)
  | .sizeVecLong _, g, ha, hs, h => good_ok trivial
  | .setVecLong _, g, ha, hs, h => good_keep h (fun s hs => WF_from_gc (vecLong _) g trivial h s hs)
  | .sizeVecReal _, g, ha, hs, h => good_ok trivial
  | .setVecReal _, g, ha, hs, h => good_keep h (fun s hs => WF_from_gc (vecReal _) g trivial h s hs)
  | .sizeVecComplex _, g, ha, hs, h => good_ok trivial
  | .setVecComplex _, g, ha, hs, h => good_keep h (fun s hs => WF_from_gc (vecComplex _) g trivial h s hs)
  | .sizeVecString _, g, ha, hs, h => good_ok trivial
  | .setVecString _, g, ha, hs, h => good_keep h (fun s hs => WF_from_gc (vecString _) g trivial h s hs)
  | .sizeMatInt _ _, g, ha, hs, h => good_ok (by cases g <;> first | exact wf_make _ (bv_lt _) (bv_lt _) | exact wf_resize _ _ (bv_lt _) (bv_lt _))
  | .setMatInt _, g, ha, hs, h => good_keep h (fun s hs => WF_set_mat_int ha h hs)
  | .sizeMatLong _ _, g, ha, hs, h => good_ok (by cases g <;> first | exact wf_make _ (bv_lt _) (bv_lt _) | exact wf_resize _ _ (bv_lt _) (bv_lt _))
  | .setMatLong _, g, ha, hs, h => good_keep h (fun s hs => WF_set_mat_long ha h hs)
  | .sizeMatReal _ _, g, ha, hs, h => good_ok (by cases g <;> first | exact wf_make _ (bv_lt _) (bv_lt _) | exact wf_resize _ _ (bv_lt _) (bv_lt _))
  | .setMatReal _, g, ha, hs, h => good_keep h (fun s hs => WF_set_mat_real ha h hs)
  | .sizeMatComplex _ _, g, ha, hs, h => good_ok (by cases g <;> first | exact wf_make _ (bv_lt _) (bv_lt _) | exact wf_resize _ _ (bv_lt _) (bv_lt _))
  | .setMatComplex _, g, ha, hs, h => good_keep h (fun s hs => WF_set_mat_complex ha h hs)
  | .setVector _, g, ha, hs, h => good_ok (WFL_allocL (WFL_oldVector h))
  | .setMap, g, ha, hs, h => good_ok (WF_oldMap h)
  | .assign _, g, ha, hs, h => good_keep h (fun s e => WF_from_gc _ g (hs _ (by simp [Op.sources])) h s e)
  | .dump _, g, ha, hs, h => good_keep h (fun s e => WF_from_gc _ g (hs _ (by simp [Op.sources])) h s (to_gc_eq _ g ▸ e))
  | .merge _, g, ha, hs, h => good_merge (hs _ (by simp [Op.sources])) h
  | .pushBool _, g, ha, hs, h => good_push_bool h
  | .pushInt _, g, ha, hs, h => good_push_int h
  | .pushLong _, g, ha, hs, h => good_push_long h
  | .pushReal _, g, ha, hs, h => good_push_real h
  | .pushComplex _, g, ha, hs, h => good_push_complex h
  | .pushString _, g, ha, hs, h => good_push_string h
  | .promoteInt, g, ha, hs, h => good_promote_to_int h
  | .promoteLong, g, ha, hs, h => good_promote_to_long h
  | .promoteReal, g, ha, hs, h => good_promote_to_real h
  | .promoteComplex, g, ha, hs, h => good_promote_to_complex h
  | .promoteVecInt, g, ha, hs, h => good_promote_to_vec_int h
  | .promoteVecLong, g, ha, hs, h => good_promote_to_vec_long h
  | .promoteVecReal, g, ha, hs, h => good_promote_to_vec_real h
  | .promoteVecComplex, g, ha, hs, h => good_promote_to_vec_complex h
  | .promoteMatInt, g, ha, hs, h => good_promote_to_mat_int h
  | .promoteMatLong, g, ha, hs, h => good_promote_to_mat_long h
  | .promoteMatReal, g, ha, hs, h => good_promote_to_mat_real h
  | .promoteMatComplex, g, ha, hs, h => good_promote_to_mat_complex h
  | .promoteVector, g, ha, hs, h => good_promote_vector h
  | .boolAt _, g, ha, hs, h => good_drop (good_get_bool_at h)
  | .intAt _ _, g, ha, hs, h => good_drop (good_get_int_at h)
  | .longAt _ _, g, ha, hs, h => good_drop (good_get_long_at h)
  | .realAt _ _, g, ha, hs, h => good_drop (good_get_real_at h)
  | .complexAt _ _, g, ha, hs, h => good_drop (good_get_complex_at h)
  | .stringAt _ _, g, ha, hs, h => good_drop (good_get_string_at h)
  | .intAt2 _ _ _, g, ha, hs, h => good_drop (good_get_int_at2 h)
  | .longAt2 _ _ _, g, ha, hs, h => good_drop (good_get_long_at2 h)
  | .realAt2 _ _ _, g, ha, hs, h => good_drop (good_get_real_at2 h)
  | .complexAt2 _ _ _, g, ha, hs, h => good_drop (good_get_complex_at2 h)
  | .getVecInt _, g, ha, hs, h => good_drop (good_get_vec_int h)
  | .getVecLong _, g, ha, hs, h => good_drop (good_get_vec_long h)
  | .getVecReal _, g, ha, hs, h => good_drop (good_get_vec_real h)
  | .getVecComplex _, g, ha, hs, h => good_drop (good_get_vec_complex h)
  | .getMatInt _, g, ha, hs, h => good_drop (good_get_mat_int ha h)
  | .getMatLong _, g, ha, hs, h => good_drop (good_get_mat_long ha h)
  | .getMatReal _, g, ha, hs, h => good_drop (good_get_mat_real ha h)
  | .getMatComplex _, g, ha, hs, h => good_drop (good_get_mat_complex ha h)
  | .getBool _ _, g, ha, hs, h => by cases g <;> first | exact good_throw h | exact good_ok trivial
  | .getInt _ _, g, ha, hs, h => by cases g <;> first | exact good_throw h | exact good_ok trivial
  | .getLong _ _, g, ha, hs, h => by cases g <;> first | exact good_throw h | exact good_ok trivial
  | .getReal _ _, g, ha, hs, h => by cases g <;> first | exact good_throw h | exact good_ok trivial
  | .getComplex _, g, ha, hs, h => by cases g <;> first | exact good_throw h | exact good_ok trivial
  | .getString _, g, ha, hs, h => by cases g <;> first | exact good_throw h | exact good_ok trivial
  | .collapse, g, ha, hs, h => good_collapse g h
  | .constKey _, g, ha, hs, h => good_drop (good_key_c h)

/-! ## de_serialize -/

theorem leValue_lt : ∀ b : Bytes, leValue b < 256 ^ b.length
  | [] => by simp [leValue]
  | x :: r => by
    have h1 := leValue_lt r
    have h2 : x.toNat < 256 := x.isLt
    rw [leValue, List.length_cons, Nat.pow_succ]
    omega

theorem bytesAt_length {buf : Bytes} : ∀ (n : Nat) {p : Int} {l : Bytes}, Rd.bytesAt buf n p = .ok l → l.length = n
  | 0, p, l, h => by injection h with h; subst h; rfl
  | n + 1, p, l, h => by
    rw [Rd.bytesAt] at h
    obtain ⟨b, -, h⟩ := out_bind_ok h
    obtain ⟨t, ht, h⟩ := out_bind_ok h
    injection h with h; subst h
    simp [bytesAt_length n ht]

theorem rd_get_lt {buf : Bytes} {n x : Nat} {r r' : Rd} (h : r.get buf n = .ok (x, r')) : x < 256 ^ n := by
  obtain ⟨l, hl, h⟩ := out_bind_ok h
  simp only [Out.ok.injEq, Prod.mk.injEq] at h
  rw [← h.1, ← bytesAt_length n hl]
  exact leValue_lt l

theorem each_all {α : Type} {P : α → Prop} {f : Rd → Out (α × Rd)} (hf : ∀ r x r', f r = .ok (x, r') → P x) :
    ∀ (n : Nat) {r r' : Rd} {l : List α}, Rd.each f n r = .ok (l, r') → l.length = n ∧ ∀ x ∈ l, P x
  | 0, r, r', l, h => by
    simp only [Rd.each, Out.ok.injEq, Prod.mk.injEq] at h
    rw [← h.1]; simp
  | n + 1, r, r', l, h => by
    rw [Rd.each] at h
    obtain ⟨⟨x, r1⟩, hx, h⟩ := out_bind_ok h
    obtain ⟨⟨xs, r2⟩, hxs, h⟩ := out_bind_ok h
    simp only [Out.ok.injEq, Prod.mk.injEq] at h
    rw [← h.1]
    have := each_all hf n hxs
    refine ⟨by simp [this.1], ?_⟩
    intro y hy
    rcases List.mem_cons.1 hy with rfl | hy
    · exact hf _ _ _ hx
    · exact this.2 y hy

theorem WF_foldl_mset : ∀ (l : List (Bytes × GC)) {m : Entries}, WF (map m) → (∀ e ∈ l, WF e.2) →
    WF (map (l.foldl (fun m e => mset e.1 e.2 m) m))
  | [], m, h, _ => h
  | e :: r, m, h, hl =>
    WF_foldl_mset r (WF_map_set h (hl e (by simp))) (fun e' he => hl e' (by simp [he]))

theorem wf_read {α : Type} {nr nc : Nat} {v : List α} (h1 : nr < 256 ^ 4) (h2 : nc < 256 ^ 4)
    (h : v.length = u32 (nr * nc)) : Mat.wf ⟨nr, nc, v⟩ = true := by
  simp only [Mat.wf, Bool.and_eq_true]
  exact ⟨⟨decide_eq_true h1, decide_eq_true h2⟩, decide_eq_true h⟩

theorem WF_de_ser {buf : Bytes} : ∀ (fuel : Nat) {dim pos : Int} {g : GC} {n : Int},
    de_ser buf fuel dim pos = .ok (g, n) → WF g
  | 0, dim, pos, g, n, h => by simp [de_ser] at h
  | fuel + 1, dim, pos, g, n, h => by
    rw [de_ser] at h
    obtain ⟨⟨tag, r⟩, -, h⟩ := out_bind_ok h
    have fin : ∀ {x : GC} {r : Rd}, (if r.nbyte ≤ dim then Out.ok (x, r.nbyte) else .throw) = .ok (g, n) → x = g := by
      intro x r h
      split at h
      · simp only [Out.ok.injEq, Prod.mk.injEq] at h; exact h.1
      · simp at h
    have mat : ∀ {α : Type} {f : Rd → Out (α × Rd)} {up : Mat α → GC} {r : Rd},
        (∀ m : Mat α, m.wf = true → WF (up m)) →
        ((r.get buf 4).bind fun (nr, r) => (r.get buf 4).bind fun (nc, r) =>
          (Rd.each f (u32 (nr * nc)) r).bind fun (v, r) =>
            if r.nbyte ≤ dim then Out.ok (up ⟨nr, nc, v⟩, r.nbyte) else .throw) = .ok (g, n) → WF g := by
      intro α f up r hup h
      obtain ⟨⟨nr, r1⟩, h1, h⟩ := out_bind_ok h
      obtain ⟨⟨nc, r2⟩, h2, h⟩ := out_bind_ok h
      obtain ⟨⟨v, r3⟩, h3, h⟩ := out_bind_ok h
      rw [← fin h]
      exact hup _ (wf_read (rd_get_lt h1) (rd_get_lt h2) (each_all (P := fun _ => True) (fun _ _ _ _ => trivial) _ h3).1)
    dsimp only at h
    split at h
    · rw [← fin h]; trivial
    · rw [← fin h]; trivial
    · rw [← fin h]; trivial
    · rw [← fin h]; trivial
    · obtain ⟨⟨b, r1⟩, -, h⟩ := out_bind_ok h
      rw [← fin h]; trivial
    · obtain ⟨⟨b, r1⟩, -, h⟩ := out_bind_ok h
      rw [← fin h]; trivial
    · obtain ⟨⟨b, r1⟩, -, h⟩ := out_bind_ok h
      rw [← fin h]; trivial
    · obtain ⟨⟨b, r1⟩, -, h⟩ := out_bind_ok h
      rw [← fin h]; trivial
    · obtain ⟨⟨b, r1⟩, -, h⟩ := out_bind_ok h
      rw [← fin h]; trivial
    · obtain ⟨⟨b, r1⟩, -, h⟩ := out_bind_ok h
      rw [← fin h]; trivial
    · obtain ⟨⟨b, r1⟩, -, h⟩ := out_bind_ok h
      dsimp only at h
      split at h
      · simp at h
      · obtain ⟨⟨v, r2⟩, -, h⟩ := out_bind_ok h
        rw [← fin h]; trivial
    · obtain ⟨⟨b, r1⟩, -, h⟩ := out_bind_ok h
      obtain ⟨⟨v, r2⟩, -, h⟩ := out_bind_ok h
      rw [← fin h]; trivial
    · obtain ⟨⟨b, r1⟩, -, h⟩ := out_bind_ok h
      obtain ⟨⟨v, r2⟩, -, h⟩ := out_bind_ok h
      rw [← fin h]; trivial
    · obtain ⟨⟨b, r1⟩, -, h⟩ := out_bind_ok h
      obtain ⟨⟨v, r2⟩, -, h⟩ := out_bind_ok h
      rw [← fin h]; trivial
    · obtain ⟨⟨b, r1⟩, -, h⟩ := out_bind_ok h
      obtain ⟨⟨v, r2⟩, -, h⟩ := out_bind_ok h
      rw [← fin h]; trivial
    · exact mat (up := matInt) (fun _ h => h) h
    · exact mat (up := matLong) (fun _ h => h) h
    · exact mat (up := matReal) (fun _ h => h) h
    · obtain ⟨⟨nr, r1⟩, -, h⟩ := out_bind_ok h
      obtain ⟨⟨nc, r2⟩, -, h⟩ := out_bind_ok h
      obtain ⟨⟨v, r3⟩, -, h⟩ := out_bind_ok h
      obtain ⟨⟨n', r4⟩, -, h⟩ := out_bind_ok h
      obtain ⟨⟨v', r5⟩, -, h⟩ := out_bind_ok h
      rw [← fin h]; trivial
    · obtain ⟨⟨b, r1⟩, -, h⟩ := out_bind_ok h
      obtain ⟨⟨v, r2⟩, -, h⟩ := out_bind_ok h
      rw [← fin h]; trivial
    · obtain ⟨⟨b, r1⟩, -, h⟩ := out_bind_ok h
      obtain ⟨⟨v, r2⟩, hv, h⟩ := out_bind_ok h
      rw [← fin h]
      refine WFL_iff.2 (each_all (P := WF) ?_ _ hv).2
      intro r x r' hx
      obtain ⟨⟨y, sz⟩, hy, hx⟩ := out_bind_ok hx
      obtain ⟨nb, -, hx⟩ := out_bind_ok hx
      simp only [Out.ok.injEq, Prod.mk.injEq] at hx
      exact hx.1 ▸ WF_de_ser fuel hy
    · obtain ⟨⟨b, r1⟩, -, h⟩ := out_bind_ok h
      obtain ⟨⟨v, r2⟩, hv, h⟩ := out_bind_ok h
      rw [← fin h]
      refine WF_foldl_mset v ⟨List.Pairwise.nil, trivial⟩ (each_all (P := fun e : Bytes × GC => WF e.2) ?_ _ hv).2
      intro r x r' hx
      obtain ⟨⟨k, r3⟩, -, hx⟩ := out_bind_ok hx
      obtain ⟨⟨y, sz⟩, hy, hx⟩ := out_bind_ok hx
      obtain ⟨nb, -, hx⟩ := out_bind_ok hx
      simp only [Out.ok.injEq, Prod.mk.injEq] at hx
      exact hx.1 ▸ WF_de_ser fuel hy

theorem WF_leftL {de : Int → Int → Out (GC × Int)} {left : Int → Int → GC} {dim : Int}
    (h1 : ∀ d p x n, de d p = .ok (x, n) → WF x) (h2 : ∀ d p, WF (left d p)) :
    ∀ n r, WFL (leftL de left dim n r)
  | 0, r => trivial
  | n + 1, r => by
    rw [leftL]
    split
    · rename_i x sz e
      split
      · exact ⟨h1 _ _ _ _ e, WF_leftL h1 h2 n _⟩
      · exact ⟨h1 _ _ _ _ e, trivial⟩
    · refine ⟨h2 _ _, WFL_iff.2 ?_⟩
      intro x hx; rw [(List.mem_replicate.1 hx).2]; trivial

theorem WF_leftM {buf : Bytes} {de : Int → Int → Out (GC × Int)} {left : Int → Int → GC} {dim : Int}
    (h1 : ∀ d p x n, de d p = .ok (x, n) → WF x) (h2 : ∀ d p, WF (left d p)) :
    ∀ n r m, WF (map m) → WF (map (leftM buf de left dim n r m))
  | 0, r, m, h => h
  | n + 1, r, m, h => by
    rw [leftM]
    split
    · split
      · rename_i e
        split
        · exact WF_leftM h1 h2 n _ _ (WF_map_set h (h1 _ _ _ _ e))
        · exact h
      · exact WF_map_set h (h2 _ _)
    · exact h

theorem WF_de_left {buf : Bytes} : ∀ fuel dim pos, WF (de_left buf fuel dim pos)
  | 0, _, _ => trivial
  | fuel + 1, dim, pos => by
    rw [de_left]
    split
    · split
      · split
        · exact WF_leftL (fun _ _ _ _ h => WF_de_ser fuel h) (WF_de_left fuel) _ _
        · trivial
      · split
        · exact WF_leftM (fun _ _ _ _ h => WF_de_ser fuel h) (WF_de_left fuel) _ _ _ ⟨List.Pairwise.nil, trivial⟩
        · trivial
      · split
        · rename_i h; exact WF_de_ser 1 h
        · trivial
    · trivial

/-! ## C25 -/

/-- The containers a program can produce: an empty one; what a call leaves behind, whether it returns
or throws, the source containers being produced the same way; what a de_serialize of any bytes stores
when it returns and when it throws. -/
inductive Reach : GC → Prop
  | empty : Reach notype
  | call (op : Op) {g g' : GC} : op.argsOk matOk → (∀ s ∈ op.sources, Reach s) → Reach g →
      (step op g).state? = some g' → Reach g'
  | read (fuel : Nat) (dim : Int) (buf : Bytes) {g g' : GC} {n : Int} : Reach g →
      de_serialize fuel dim buf g = .ok (g', n) → Reach g'
  | readThrow (fuel : Nat) (dim : Int) (buf : Bytes) {g : GC} : Reach g →
      de_serialize fuel dim buf g = .throw → Reach (de_left buf fuel dim 0)

/-- C25: whatever was done before, returning or throwing, keys are strictly increasing in every map and
every matrix is full, at every level. -/
theorem C25_wellformed (g : GC) (h : Reach g) : WF g := by
  induction h with
  | empty => trivial
  | call op ha _ _ he ihs ih => exact good_step op _ ha ihs ih _ he
  | read fuel dim buf _ he _ => exact WF_de_ser fuel he
  | readThrow fuel dim buf _ _ _ => exact WF_de_left fuel dim 0

/-- A history with every kind of step: a throwing `get_int_at(2,3)`, keys set out of order, a push into
a new element, a conversion to a matrix; the result is not empty. -/
example : ∃ g, Reach g ∧ g = map [([97], matReal ⟨1, 1, [.zero]⟩), ([98], vecInt [7])] := by
  refine ⟨_, ?_, rfl⟩
  have h0 : Reach (matReal (.make .zero 2 3)) :=
    .call (.intAt2 2 3 id) trivial (by intro s h; cases h) .empty rfl
  have h1 := Reach.call (.key [98] (.intAt 0 fun _ => 7)) trivial (by intro s h; cases h) h0
    (g' := map [([98], vecInt [7])]) (by decide +kernel)
  exact Reach.call (.key [97] .promoteMatReal) trivial (by intro s h; cases h) h1 (by decide +kernel)

/-- Bytes that make de_serialize throw after having stored something. -/
example : de_serialize 3 7 [3, 0, 0, 0, 1, 0, 0, 0] notype = .throw ∧
    de_left [3, 0, 0, 0, 1, 0, 0, 0] 3 7 0 ≠ notype := by decide +kernel

end GC
end GCV
