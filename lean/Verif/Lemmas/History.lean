import Verif.Model.History
import Verif.Lemmas.Copy
import Verif.Lemmas.Map

/-! # Helper lemmas: every call keeps containers well formed -/

namespace GCV
namespace GC

theorem out_bind_ok {α β : Type} {o : Out α} {f : α → Out β} {b : β} (h : o.bind f = .ok b) :
    ∃ a, o = .ok a ∧ f a = .ok b := by
  cases o with
  | ok a => exact ⟨a, rfl, h⟩
  | throw => simp [Out.bind] at h
  | ub => simp [Out.bind] at h
  | diverge => simp [Out.bind] at h

/-- Whatever the call leaves behind is well formed. -/
def Good {α : Type} (r : Res α) : Prop := ∀ s, r.state? = some s → WF s

theorem good_ok {α : Type} {s : GC} {a : α} (h : WF s) : Good (.ok s a) := by
  intro t ht; simp [Res.state?] at ht; exact ht ▸ h

theorem good_throw {α : Type} {s : GC} (h : WF s) : Good (.throw s : Res α) := by
  intro t ht; simp [Res.state?] at ht; exact ht ▸ h

theorem good_ub {α : Type} : Good (.ub : Res α) := by intro t ht; simp [Res.state?] at ht

theorem good_diverge {α : Type} : Good (.diverge : Res α) := by intro t ht; simp [Res.state?] at ht

theorem good_drop {α : Type} {r : Res α} (h : Good r) : Good (drop r) := by
  cases r <;> first | exact good_ok (h _ rfl) | exact good_throw (h _ rfl) | exact good_ub | exact good_diverge

theorem good_bind {α β : Type} {r : Res α} {f : GC → α → Res β} (h : Good r)
    (hf : ∀ s a, WF s → Good (f s a)) : Good (r.bind f) := by
  cases r <;> first | exact hf _ _ (h _ rfl) | exact good_throw (h _ rfl) | exact good_ub | exact good_diverge

theorem good_mapState {α : Type} {r : Res α} {up : GC → GC} (h : Good r) (hu : ∀ s, WF s → WF (up s)) :
    Good (r.mapState up) := by
  cases r <;> first
    | exact good_ok (hu _ (h _ rfl)) | exact good_throw (hu _ (h _ rfl)) | exact good_ub | exact good_diverge

theorem good_keep {g : GC} {o : Out GC} (hg : WF g) (h : ∀ s, o = .ok s → WF s) : Good (keep g o) := by
  cases o <;> first | exact good_ok (h _ rfl) | exact good_throw hg | exact good_ub | exact good_diverge

theorem good_become {o : Out GC} (h : ∀ s, o = .ok s → WF s) : Good (become o) := by
  cases o <;> first | exact good_ok (h _ rfl) | exact good_throw trivial | exact good_ub | exact good_diverge

/-! ## Matrices -/

theorem u32_lt (n : Nat) : u32 n < 2 ^ 32 := Nat.mod_lt _ (by decide)

theorem wf_make {α : Type} (d : α) {nr nc : Nat} (h1 : nr < 2 ^ 32) (h2 : nc < 2 ^ 32) :
    (Mat.make d nr nc).wf = true := by
  simp only [Mat.wf, Mat.make, Bool.and_eq_true, List.length_replicate]
  exact ⟨⟨decide_eq_true h1, decide_eq_true h2⟩, decide_eq_true rfl⟩

theorem wf_resize {α : Type} (d : α) {nr nc : Nat} (m : Mat α) (h1 : nr < 2 ^ 32) (h2 : nc < 2 ^ 32) :
    (Mat.resize d nr nc m).wf = true := by
  simp only [Mat.wf, Mat.resize, Bool.and_eq_true, resizeL, List.length_append,
    List.length_take, List.length_replicate]
  refine ⟨⟨decide_eq_true h1, decide_eq_true h2⟩, decide_eq_true ?_⟩
  show min (u32 (nr * nc)) m.data.length + (u32 (nr * nc) - m.data.length) = u32 (nr * nc)
  omega

theorem wf_dims {α : Type} {m : Mat α} (h : m.wf = true) : m.nr < 2 ^ 32 ∧ m.nc < 2 ^ 32 := by
  simp only [Mat.wf, Bool.and_eq_true, decide_eq_true_eq] at h; exact h.1

theorem wf_data {α : Type} {m : Mat α} {d : List α} (h : m.wf = true) (hl : d.length = m.data.length) :
    Mat.wf { m with data := d } = true := by
  simp only [Mat.wf, Bool.and_eq_true, decide_eq_true_eq] at h ⊢
  exact ⟨h.1, hl.trans h.2⟩

theorem copyL_length {α : Type} {v w r : List α} (h : copyL v w = .ok r) : r.length = w.length := by
  unfold copyL at h
  split at h
  · injection h with h; subst h; simp; omega
  · simp at h

theorem wf_copyL {α : Type} {m : Mat α} {v d : List α} (h : m.wf = true) (hc : copyL v m.data = .ok d) :
    Mat.wf { m with data := d } = true := wf_data h (copyL_length hc)

theorem wf_set {α : Type} {m m' : Mat α} {i j : Nat} {x : α} (h : m.wf = true) (hs : m.set i j x = .ok m') :
    m'.wf = true := by
  unfold Mat.set at hs
  split at hs
  · injection hs with hs; subst hs; exact wf_data h (by simp)
  · simp at hs

theorem wf_convMat {α β : Type} {d : β} {f : α → β} {m : Mat α} {w : Mat β} (h : m.wf = true)
    (hc : convMat d f m = .ok w) : w.wf = true := by
  obtain ⟨x, hx, hw⟩ := out_bind_ok hc
  injection hw with hw; subst hw
  exact wf_copyL (m := Mat.make d m.nr m.nc) (wf_make d (wf_dims h).1 (wf_dims h).2) hx

theorem wf_fillColumn {α : Type} : ∀ (l : List α) {m : Mat α} {i : Nat}, m.wf = true →
    (fillColumn m i l).1.wf = true
  | [], m, i, h => h
  | x :: r, m, i, h => by
    rw [fillColumn]
    split
    · rename_i m' hm
      exact wf_fillColumn r (wf_set h hm)
    · exact h

theorem good_toColumn {α β : Type} (d : β) (f : α → β) {up : Mat β → GC} (v : List α)
    (hup : ∀ m : Mat β, m.wf = true → WF (up m)) : Good (toColumn d f up v) := by
  have h := wf_fillColumn (v.map f) (i := 0) (wf_make d (u32_lt v.length) (show 1 < 2 ^ 32 by decide))
  unfold toColumn
  split <;> rename_i e <;> rw [e] at h
  · exact good_ok (hup _ h)
  · exact good_throw (hup _ h)

theorem good_refAt2 {α : Type} {up : Mat α → GC} {m : Mat α} {i j : Nat} {upd : α → α}
    (h : m.wf = true) (hup : ∀ m : Mat α, m.wf = true → WF (up m)) : Good (refAt2 up m i j upd) := by
  unfold refAt2
  split
  · split
    · rename_i m' hm; exact good_ok (hup _ (wf_set h hm))
    · exact good_throw (hup _ h)
  · exact good_throw (hup _ h)

/-! ## Vectors -/

theorem WFL_resizeL {v : List GC} {n : Nat} (h : WFL v) : WFL (resizeL notype n v) := by
  rw [WFL_iff] at *
  intro x hx
  unfold resizeL at hx
  rcases List.mem_append.1 hx with h1 | h1
  · exact h x (List.mem_of_mem_take h1)
  · rw [(List.mem_replicate.1 h1).2]; trivial

theorem WFL_allocL {v : List GC} {n : Nat} (h : WFL v) : WFL (allocL notype n v) := by
  unfold allocL; split
  · exact WFL_resizeL h
  · exact h

theorem WFL_checkResize {v : List GC} {n : Nat} (h : WFL v) : WFL (checkResize notype n v) := by
  unfold checkResize; split
  · exact WFL_resizeL h
  · exact h

theorem WFL_set {v : List GC} {i : Nat} {x : GC} (h : WFL v) (hx : WF x) : WFL (v.set i x) := by
  rw [WFL_iff] at *
  intro y hy
  rcases List.mem_or_eq_of_mem_set hy with h1 | h1
  · exact h y h1
  · exact h1 ▸ hx

theorem WFL_append {v : List GC} {x : GC} (h : WFL v) (hx : WF x) : WFL (v ++ [x]) := by
  rw [WFL_iff] at *
  intro y hy
  rcases List.mem_append.1 hy with h1 | h1
  · exact h y h1
  · rw [List.mem_singleton.1 h1]; exact hx

theorem WFL_oldVector {g : GC} (h : WF g) : WFL g.oldVector := by
  cases g <;> first | exact h | trivial

theorem WFM_oldMap {g : GC} (h : WF g) : WFM g.oldMap := by
  cases g <;> first | exact h.2 | trivial

theorem WFL_get {v : List GC} {i : Nat} {x : GC} (h : WFL v) (hx : v[i]? = some x) : WF x :=
  WFL_iff.1 h x (List.mem_of_getElem? hx)

theorem WFL_refill {α : Type} {f : α → GC} {v : List α} {w : List GC} (hf : ∀ x, WF (f x))
    (h : refill notype f v = .ok w) : WFL w := by
  rw [WFL_iff]
  unfold refill copyL at h
  split at h
  · injection h with h; subst h
    intro x hx
    rcases List.mem_append.1 hx with h1 | h1
    · obtain ⟨y, -, rfl⟩ := List.mem_map.1 h1; exact hf y
    · have h2 : x ∈ allocL notype (u32 v.length) [] := List.mem_of_mem_drop h1
      exact WFL_iff.1 (WFL_allocL (v := []) trivial) x h2
  · simp at h

theorem good_promote_vector {g : GC} (h : WF g) : Good (promote_to_vector g) := by
  cases g <;> first
    | exact good_ub
    | exact good_throw h
    | exact good_ok h
    | exact good_ok ⟨trivial, trivial⟩
    | (refine good_become ?_
       intro s hs
       obtain ⟨w, hw, e⟩ := out_bind_ok hs
       injection e with e; subst e
       refine WFL_refill ?_ hw
       intro _; trivial)

theorem good_refAtVector {α : Type} {mk : α → GC} {z : α} {i : Nat} {upd : α → α} {g : GC} (h : WF g)
    (hm : ∀ x, WF (mk x)) : Good (refAtVector mk z i upd g) := by
  refine good_bind (good_promote_vector h) ?_
  intro s _ hs
  split
  · simp only
    split
    · exact good_ok (WFL_set (WFL_checkResize hs) (hm _))
    · exact good_ub
  · exact good_throw hs

theorem good_refAt {α : Type} {d : α} {up : List α → GC} {v : List α} {i : Nat} {upd : α → α}
    (h : ∀ v, WF (up v)) : Good (refAt d up v i upd) := by
  unfold refAt
  simp only
  split
  · exact good_ok (h _)
  · exact good_ub

/-! ## Maps -/

theorem WFM_mset {m : Entries} {k : Bytes} {x : GC} (h : WFM m) (hx : WF x) : WFM (mset k x m) := by
  rw [WFM_iff] at *
  intro e he
  rcases mem_mset he with rfl | h1
  · exact hx
  · exact h e h1

theorem WF_map_set {m : Entries} {k : Bytes} {x : GC} (h : WF (map m)) (hx : WF x) : WF (map (mset k x m)) :=
  ⟨sorted_mset k x m h.1, WFM_mset h.2 hx⟩

theorem WF_oldMap {g : GC} (h : WF g) : WF (map g.oldMap) := ⟨sorted_oldMap h, WFM_oldMap h⟩

theorem WFM_find {m : Entries} (h : WFM m) {k : Bytes} {x : GC} (hx : mfind k m = some x) : WF x := by
  induction m with
  | nil => simp [mfind] at hx
  | cons e r ih =>
    obtain ⟨k', v⟩ := e
    rw [mfind] at hx
    split at hx
    · injection hx with hx; subst hx; exact h.1
    · exact ih h.2 hx

theorem WFM_findD {m : Entries} (h : WFM m) (k : Bytes) : WF ((mfind k m).getD notype) := by
  cases hk : mfind k m with
  | none => trivial
  | some x => exact WFM_find h hk

mutual

theorem WF_from_gc : ∀ a d : GC, WF a → WF d → ∀ r, from_gc a d = .ok r → WF r
  | vector v, d, ha, hd, r, h => by
    rw [from_gc] at h
    obtain ⟨w, hw, e⟩ := out_bind_ok h
    injection e with e; subst e
    exact WF_from_gcL v _ ha (WFL_allocL (WFL_oldVector hd)) w hw
  | map m, d, ha, hd, r, h => by
    rw [from_gc] at h
    obtain ⟨w, hw, e⟩ := out_bind_ok h
    injection e with e; subst e
    exact WF_from_gcM m _ ha.2 (WF_oldMap hd) w hw
  | matInt m, d, ha, hd, r, h => by
    have hm := wf_dims (show m.wf = true from ha)
    rw [from_gc] at h
    unfold set_mat_int at h
    split at h
    · rename_i w hw
      obtain ⟨x, hx, e⟩ := out_bind_ok h
      injection e with e; subst e
      refine wf_copyL ?_ hx
      cases d <;> simp [allocate_mat_int] at hw <;> subst hw <;>
        first | exact wf_make _ hm.1 hm.2 | exact wf_resize _ _ hm.1 hm.2
    · rename_i w; injection h with h; subst h
      cases d <;> exact absurd rfl (w _)
  | matLong m, d, ha, hd, r, h => by
    have hm := wf_dims (show m.wf = true from ha)
    rw [from_gc] at h
    unfold set_mat_long at h
    split at h
    · rename_i w hw
      obtain ⟨x, hx, e⟩ := out_bind_ok h
      injection e with e; subst e
      refine wf_copyL ?_ hx
      cases d <;> simp [allocate_mat_long] at hw <;> subst hw <;>
        first | exact wf_make _ hm.1 hm.2 | exact wf_resize _ _ hm.1 hm.2
    · rename_i w; injection h with h; subst h
      cases d <;> exact absurd rfl (w _)
  | matReal m, d, ha, hd, r, h => by
    have hm := wf_dims (show m.wf = true from ha)
    rw [from_gc] at h
    unfold set_mat_real at h
    split at h
    · rename_i w hw
      obtain ⟨x, hx, e⟩ := out_bind_ok h
      injection e with e; subst e
      refine wf_copyL ?_ hx
      cases d <;> simp [allocate_mat_real] at hw <;> subst hw <;>
        first | exact wf_make _ hm.1 hm.2 | exact wf_resize _ _ hm.1 hm.2
    · rename_i w; injection h with h; subst h
      cases d <;> exact absurd rfl (w _)
  | matComplex m, d, ha, hd, r, h => by
    have hm := wf_dims (show m.wf = true from ha)
    rw [from_gc] at h
    unfold set_mat_complex at h
    split at h
    · rename_i w hw
      obtain ⟨x, hx, e⟩ := out_bind_ok h
      injection e with e; subst e
      refine wf_copyL ?_ hx
      cases d <;> simp [allocate_mat_complex] at hw <;> subst hw <;>
        first | exact wf_make _ hm.1 hm.2 | exact wf_resize _ _ hm.1 hm.2
    · rename_i w; injection h with h; subst h
      cases d <;> exact absurd rfl (w _)
  | notype, d, ha, hd, r, h => by injection h with h; subst h; trivial
  | bool _, d, ha, hd, r, h => by injection h with h; subst h; trivial
  | int _, d, ha, hd, r, h => by injection h with h; subst h; trivial
  | long _, d, ha, hd, r, h => by injection h with h; subst h; trivial
  | real _, d, ha, hd, r, h => by injection h with h; subst h; trivial
  | complex _, d, ha, hd, r, h => by injection h with h; subst h; trivial
  | pointer _, d, ha, hd, r, h => by injection h with h; subst h; trivial
  | string _, d, ha, hd, r, h => by injection h with h; subst h; cases d <;> trivial
  | vecBool _, d, ha, hd, r, h => by
    obtain ⟨w, -, e⟩ := out_bind_ok (show Out.bind _ _ = _ from h); injection e with e; subst e; trivial
  | vecInt _, d, ha, hd, r, h => by
    obtain ⟨w, -, e⟩ := out_bind_ok (show Out.bind _ _ = _ from h); injection e with e; subst e; trivial
  | vecLong _, d, ha, hd, r, h => by
    obtain ⟨w, -, e⟩ := out_bind_ok (show Out.bind _ _ = _ from h); injection e with e; subst e; trivial
  | vecReal _, d, ha, hd, r, h => by
    obtain ⟨w, -, e⟩ := out_bind_ok (show Out.bind _ _ = _ from h); injection e with e; subst e; trivial
  | vecComplex _, d, ha, hd, r, h => by
    obtain ⟨w, -, e⟩ := out_bind_ok (show Out.bind _ _ = _ from h); injection e with e; subst e; trivial
  | vecString _, d, ha, hd, r, h => by
    obtain ⟨w, -, e⟩ := out_bind_ok (show Out.bind _ _ = _ from h); injection e with e; subst e; trivial
  | vecPointer _, d, ha, hd, r, h => by
    obtain ⟨w, -, e⟩ := out_bind_ok (show Out.bind _ _ = _ from h); injection e with e; subst e; trivial

theorem WF_from_gcL : ∀ (v w : List GC), WFL v → WFL w → ∀ r, from_gcL v w = .ok r → WFL r
  | [], w, _, hw, r, h => by injection h with h; exact h ▸ hw
  | _ :: _, [], _, _, r, h => by simp [from_gcL] at h
  | x :: xs, y :: ys, hv, hw, r, h => by
    rw [from_gcL] at h
    obtain ⟨a, ha, h⟩ := out_bind_ok h
    obtain ⟨b, hb, h⟩ := out_bind_ok h
    injection h with h; subst h
    exact ⟨WF_from_gc x y hv.1 hw.1 a ha, WF_from_gcL xs ys hv.2 hw.2 b hb⟩

theorem WF_from_gcM : ∀ (m w : Entries), WFM m → WF (map w) → ∀ r, from_gcM m w = .ok r → WF (map r)
  | [], w, _, hw, r, h => by injection h with h; exact h ▸ hw
  | (k, x) :: xs, w, hv, hw, r, h => by
    rw [from_gcM] at h
    obtain ⟨a, ha, h⟩ := out_bind_ok h
    exact WF_from_gcM xs _ hv.2 (WF_map_set hw (WF_from_gc x _ hv.1 (WFM_findD hw.2 _) a ha)) r h

end

theorem WF_set_mat_int {m : Mat I32} {d r : GC} (hm : m.wf = true) (hd : WF d) (h : set_mat_int m d = .ok r) :
    WF r := WF_from_gc (matInt m) d hm hd r h
theorem WF_set_mat_long {m : Mat I64} {d r : GC} (hm : m.wf = true) (hd : WF d) (h : set_mat_long m d = .ok r) :
    WF r := WF_from_gc (matLong m) d hm hd r h
theorem WF_set_mat_real {m : Mat F64} {d r : GC} (hm : m.wf = true) (hd : WF d) (h : set_mat_real m d = .ok r) :
    WF r := WF_from_gc (matReal m) d hm hd r h
theorem WF_set_mat_complex {m : Mat Cplx} {d r : GC} (hm : m.wf = true) (hd : WF d)
    (h : set_mat_complex m d = .ok r) : WF r := WF_from_gc (matComplex m) d hm hd r h

end GC
end GCV
