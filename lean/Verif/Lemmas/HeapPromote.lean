import Verif.Lemmas.HeapCalls

/-! # Promotions and mutable getters in memory -/

namespace GCV
namespace Heap
open GC

variable {m m' m1 m2 : Mem} {g g' x y r : GC} {c c' : Cell} {F F' G H : Addr → Prop} {d s l : Loc} {a b : Addr}

theorem set_ok {f : GC → Res Unit} (hl : leafy g = true) (h : f g = .ok r ()) (hr : leafy r = true)
    (hf : from_gc r g = .ok r) : leafy g = true ∧ (∀ s, f g ≠ .throw s) ∧
      ∀ g', f g = .ok g' () → leafy g' = true ∧ from_gc g' g = .ok g' := by
  refine ⟨hl, fun s hs => (by rw [h] at hs; cases hs), fun g' hg' => ?_⟩
  rw [h] at hg'
  injection hg' with hg' _
  subst hg'
  exact ⟨hr, hf⟩

theorem aside_ok {f : GC → Res Unit} {t : Ty} (hl : boxed g = true) (h : f g = .ok r ()) (hr : boxed r = true)
    (ht : r.ty = t) : boxed g = true ∧ (∀ s, f g ≠ .throw s) ∧ ∀ g', f g = .ok g' () → boxed g' = true ∧ g'.ty = t := by
  refine ⟨hl, fun s hs => (by rw [h] at hs; cases hs), fun g' hg' => ?_⟩
  rw [h] at hg'
  injection hg' with hg' _
  subst hg'
  exact ⟨hr, ht⟩

theorem aside_ub {f : GC → Res Unit} {t : Ty} (hl : boxed g = true) (h : f g = .ub) :
    boxed g = true ∧ (∀ s, f g ≠ .throw s) ∧ ∀ g', f g = .ok g' () → boxed g' = true ∧ g'.ty = t :=
  ⟨hl, fun s hs => (by rw [h] at hs; cases hs), fun g' hg' => by rw [h] at hg'; cases hg'⟩

theorem become_refill' {α β : Type} (d : β) (f : α → β) (up : List β → GC) {v : List α} (h : v.length < 2 ^ 32) :
    become ((refill d f v).bind fun w => .ok (up w)) = .ok (up (v.map f)) () := by
  rw [refill_ok d f h]; rfl

theorem become_convMat' {α β : Type} (d : β) (f : α → β) (up : Mat β → GC) {m : Mat α} (h : m.wf = true) :
    become ((convMat d f m).bind fun w => .ok (up w)) = .ok (up ⟨m.nr, m.nc, m.data.map f⟩) () := by
  rw [convMat_ok d f h]; rfl

theorem howOk_int : HowOk howInt g := by
  cases g <;> first | trivial | exact set_ok rfl rfl rfl rfl

theorem howOk_long : HowOk howLong g := by
  cases g <;> first | trivial | exact set_ok rfl rfl rfl rfl

theorem howOk_real : HowOk howReal g := by
  cases g <;> first | trivial | exact set_ok rfl rfl rfl rfl

theorem howOk_vecInt (hf : Fits g) : HowOk howVecInt g := by
  cases g <;> first
    | trivial
    | exact set_ok rfl rfl rfl rfl
    | (rename_i v
       have hl : v.length < 2 ^ 32 := by simpa [Fits, every, fitsNode] using hf
       exact aside_ok rfl (become_refill' _ _ _ hl) rfl rfl)

theorem howOk_vecLong (hf : Fits g) : HowOk howVecLong g := by
  cases g <;> first
    | trivial
    | exact set_ok rfl rfl rfl rfl
    | (rename_i v
       have hl : v.length < 2 ^ 32 := by simpa [Fits, every, fitsNode] using hf
       exact aside_ok rfl (become_refill' _ _ _ hl) rfl rfl)

theorem howOk_vecReal (hf : Fits g) : HowOk howVecReal g := by
  cases g <;> first
    | trivial
    | exact set_ok rfl rfl rfl rfl
    | (rename_i v
       have hl : v.length < 2 ^ 32 := by simpa [Fits, every, fitsNode] using hf
       exact aside_ok rfl (become_refill' _ _ _ hl) rfl rfl)

theorem howOk_vecComplex (hf : Fits g) : HowOk howVecComplex g := by
  cases g <;> first
    | trivial
    | exact set_ok rfl rfl rfl rfl
    | (rename_i v
       have hl : v.length < 2 ^ 32 := by simpa [Fits, every, fitsNode] using hf
       exact aside_ok rfl (become_refill' _ _ _ hl) rfl rfl)

theorem howOk_complex (hf : Fits g) : HowOk howComplex g := by
  cases g <;> first
    | trivial
    | exact set_ok rfl rfl rfl rfl
    | (rename_i v
       have hl : v.length < 2 ^ 32 := by simpa [Fits, every, fitsNode] using hf
       exact aside_ok rfl (become_refill' _ _ _ hl) rfl rfl)

theorem howOk_matInt : HowOk howMatInt g := by
  cases g <;> first
    | trivial
    | exact set_ok rfl rfl rfl rfl
    | (rename_i v
       cases v with
       | nil => exact aside_ok rfl rfl rfl rfl
       | cons x v => exact aside_ub rfl rfl)

theorem howOk_matLong (hw : WF g) (hf : Fits g) : HowOk howMatLong g := by
  cases g <;> first
    | trivial
    | exact set_ok rfl rfl rfl rfl
    | (rename_i v
       have hl : v.length < 2 ^ 32 := by simpa [Fits, every, fitsNode] using hf
       exact aside_ok rfl (toColumn_ok _ _ _ hl) rfl rfl)
    | exact aside_ok rfl (become_convMat' _ _ _ hw) rfl rfl

theorem howOk_matReal (hw : WF g) (hf : Fits g) : HowOk howMatReal g := by
  cases g <;> first
    | trivial
    | exact set_ok rfl rfl rfl rfl
    | (rename_i v
       have hl : v.length < 2 ^ 32 := by simpa [Fits, every, fitsNode] using hf
       exact aside_ok rfl (toColumn_ok _ _ _ hl) rfl rfl)
    | exact aside_ok rfl (become_convMat' _ _ _ hw) rfl rfl

theorem howOk_matComplex (hw : WF g) : HowOk howMatComplex g := by
  cases g <;> first
    | trivial
    | exact set_ok rfl rfl rfl rfl
    | exact aside_ok rfl (become_convMat' _ _ _ hw) rfl rfl
    | (rename_i v
       cases v with
       | nil => exact aside_ok rfl rfl rfl rfl
       | cons x v => exact aside_ub rfl rfl)

theorem howVal_int : howVal howInt g = promote_to_int g := by cases g <;> rfl
theorem howVal_long : howVal howLong g = promote_to_long g := by cases g <;> rfl
theorem howVal_real : howVal howReal g = promote_to_real g := by cases g <;> rfl
theorem howVal_complex : howVal howComplex g = promote_to_complex g := by cases g <;> rfl
theorem howVal_vecInt : howVal howVecInt g = promote_to_vec_int g := by cases g <;> rfl
theorem howVal_vecLong : howVal howVecLong g = promote_to_vec_long g := by cases g <;> rfl
theorem howVal_vecReal : howVal howVecReal g = promote_to_vec_real g := by cases g <;> rfl
theorem howVal_vecComplex : howVal howVecComplex g = promote_to_vec_complex g := by cases g <;> rfl
theorem howVal_matInt : howVal howMatInt g = promote_to_mat_int g := by cases g <;> rfl
theorem howVal_matLong : howVal howMatLong g = promote_to_mat_long g := by cases g <;> rfl
theorem howVal_matReal : howVal howMatReal g = promote_to_mat_real g := by cases g <;> rfl
theorem howVal_matComplex : howVal howMatComplex g = promote_to_mat_complex g := by cases g <;> rfl

/-! ## The first lines of a mutable getter -/

/-- What the first lines of a mutable getter do on values. -/
def readyVal (empty : GC) (promoted : Ty → Bool) (how : Ty → How) (g : GC) : Res Unit :=
  if g.ty = .NOTYPE then .ok empty () else if promoted g.ty then howVal how g else .ok g ()

theorem CallOk.ready {empty : GC} {promoted : Ty → Bool} {how : Ty → How} (h0 : leafy empty = true)
    (h1 : from_gc empty notype = .ok empty) (h : HowOk how g) :
    CallOk (readyF empty promoted how) g (readyVal empty promoted how g) := by
  have hv : howVal (fun t => if t = .NOTYPE then .set fun _ => .ok empty () else if promoted t then how t else .keep) g =
      readyVal empty promoted how g := by
    unfold howVal readyVal
    by_cases h2 : g.ty = .NOTYPE
    · simp [h2]
    · by_cases h3 : promoted g.ty = true
      · simp [h2, h3, howVal]
      · simp [h2, h3]
  rw [← hv]
  apply CallOk.prom
  unfold HowOk
  by_cases h2 : g.ty = .NOTYPE
  · have hg : g = notype := by cases g <;> simp_all [GC.ty]
    subst hg
    exact set_ok (f := fun _ => .ok empty ()) rfl rfl h0 h1
  · by_cases h3 : promoted g.ty = true
    · simp only [h2, h3, if_true, if_false]; exact h
    · simp only [h2, h3, if_false, Bool.false_eq_true]

theorem CallOk.ck {t : Ty} {f : GC → Res Unit} (h : g.ty = t → CallOk (editF f) g (f g)) :
    CallOk (ckF t f) g (if g.ty = t then f g else .throw g) := by
  apply CallOk.tag
  by_cases ht : g.ty = t
  · simp only [ht, if_true]; exact h ht
  · simp only [ht, if_false]; exact .throw

/-- `(*m_data.v)[i]` overwritten, on values. -/
def elemVal (i : Nat) (x : GC) : GC → Res Unit
  | .vector w =>
    match (checkResize notype i w)[i]? with
    | some _ => .ok (vector ((checkResize notype i w).set i x)) ()
    | none => .ub
  | g => .throw g

/-- The rest of `get_T_at(i)` on values. -/
def atVal (t : Ty) (f : GC → Res Unit) (i : Nat) (x : GC) (g : GC) : Res Unit :=
  if g.ty = t then f g else (promote_to_vector g).bind fun g' _ => elemVal i x g'

theorem promote_vector (h : promote_to_vector g = .ok g' ()) : ∃ v, g' = vector v := by
  cases g <;> simp only [promote_to_vector] at h <;> first
    | (cases h; done)
    | (cases h; exact ⟨_, rfl⟩)
    | (cases hr : refill _ _ _ with
       | ok w => rw [hr] at h; cases h; exact ⟨_, rfl⟩
       | throw => rw [hr] at h; cases h
       | ub => rw [hr] at h; cases h
       | diverge => rw [hr] at h; cases h)

theorem promote_good (hw : WF g) (hf : Fits g) {v : List GC} (h : promote_to_vector g = .ok (vector v) ()) :
    WF (vector v) ∧ Fits (vector v) := by
  by_cases hp : packedVec g = true
  · obtain ⟨hv, hl⟩ := promote_packed hp hf
    rw [hv] at h
    injection h with h _
    injection h with h
    subst h
    refine ⟨?_, Fits_vector_iff.2 ⟨hl, fun x hx => (unpacked_ok hx).2.2.2⟩⟩
    show WFL _
    rw [WFL_iff]
    exact fun x hx => (unpacked_ok hx).2.2.1
  · cases g <;> simp only [promote_to_vector] at h <;> first
      | (cases h; done)
      | (exact absurd rfl hp)
      | (cases h; first | exact ⟨hw, hf⟩ | exact ⟨⟨trivial, trivial⟩, rfl⟩)

theorem CallOk.at' {ip : Nat → Nat → Bool} {t : Ty} {f : GC → Res Unit} {i : Nat} (hw : WF g) (hf : Fits g)
    (h1 : leafy x = true) (hx : ∀ y, from_gc x y = .ok x) (he : g.ty = t → CallOk (editF f) g (f g)) :
    CallOk (tagF fun t' =>
      if t' = t then editF f
      else if t' = .VECTOR then elemF ip i x
      else seqF (promVecF ip) (elemF ip i x)) g (atVal t f i x g) := by
  apply CallOk.tag
  unfold atVal
  by_cases ht : g.ty = t
  · simp only [ht, if_true]; exact he ht
  · simp only [ht, if_false]
    by_cases hv : g.ty = .VECTOR
    · simp only [hv, if_true]
      cases g <;> simp only [GC.ty, reduceCtorEq] at hv
      exact CallOk.elem hw hf h1 hx
    · simp only [hv, if_false]
      refine CallOk.seq (CallOk.promVec hw hf) fun g' _ hg' => ?_
      obtain ⟨v, rfl⟩ := promote_vector hg'
      obtain ⟨hw', hf'⟩ := promote_good hw hf hg'
      exact CallOk.elem hw' hf' h1 hx

theorem drop_bind {α β : Type} {r : Res α} {k : GC → α → Res β} : drop (r.bind k) = r.bind fun g a => drop (k g a) := by
  cases r <;> rfl

theorem drop_refAtVector {α : Type} {mk : α → GC} {z : α} {i : Nat} {upd : α → α} :
    drop (refAtVector mk z i upd g) = (promote_to_vector g).bind fun g' _ => elemVal i (mk (upd z)) g' := by
  unfold refAtVector
  rw [drop_bind]
  congr 1
  funext g' _
  cases g' <;> first
    | rfl
    | (rename_i v
       simp only [elemVal]
       cases (checkResize notype i v)[i]? <;> rfl)

theorem edit_refAt {α : Type} {dflt : α} {up : List α → GC} {v : List α} {i : Nat} {upd : α → α} {f : GC → Res Unit}
    (hf : f (up v) = drop (refAt dflt up v i upd)) (h1 : ∀ w, boxed (up w) = true) (h2 : ∀ w w', (up w).ty = (up w').ty) :
    CallOk (editF f) (up v) (f (up v)) := by
  apply CallOk.edit (h1 v)
  · intro g' h
    rw [hf] at h
    unfold refAt at h
    cases hx : (checkResize dflt i v)[i]? with
    | none => simp [hx, drop] at h
    | some x =>
      simp only [hx, drop] at h
      injection h with h _
      subst h
      exact ⟨h1 _, h2 _ _⟩
  · intro g' h
    rw [hf] at h
    unfold refAt at h
    cases hx : (checkResize dflt i v)[i]? with
    | none => simp [hx, drop] at h
    | some x => simp [hx, drop] at h

theorem edit_refAt2 {α : Type} {up : Mat α → GC} {v : Mat α} {i j : Nat} {upd : α → α} {f : GC → Res Unit}
    (hf : f (up v) = drop (refAt2 up v i j upd)) (h1 : ∀ w, boxed (up w) = true) (h2 : ∀ w w', (up w).ty = (up w').ty) :
    CallOk (editF f) (up v) (f (up v)) := by
  apply CallOk.edit (h1 v)
  · intro g' h
    rw [hf] at h
    unfold refAt2 at h
    cases hx : v.get i j <;> simp only [hx, drop, reduceCtorEq] at h
    rename_i x
    cases hy : v.set i j (upd x) <;> simp only [hy, drop, reduceCtorEq, Res.ok.injEq] at h
    obtain ⟨h, _⟩ := h
    subst h
    exact ⟨h1 _, h2 _ _⟩
  · intro g' h
    rw [hf] at h
    unfold refAt2 at h
    cases hx : v.get i j <;> simp only [hx, drop, reduceCtorEq, Res.throw.injEq] at h
    · rename_i x
      cases hy : v.set i j (upd x) <;> simp only [hy, drop, reduceCtorEq, Res.throw.injEq] at h
      all_goals exact h.symm
    all_goals exact h.symm

end Heap
end GCV
