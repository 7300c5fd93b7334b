import Verif.Props.History
import Verif.Lemmas.Promote

/-! # C26: a call that throws leaves the container as it was -/

namespace GCV
namespace GC


/-- Number of elements of a container of numbers or of a list. -/
def size1 : GC → Nat
  | vecBool v => v.length
  | vecInt v => v.length
  | vecLong v => v.length
  | vecReal v => v.length
  | _ => 0

/-- No vector of numbers or booleans. -/
def notVec : GC → Bool
  | notype | vecBool _ | vecInt _ | vecLong _ | vecReal _ | vecComplex _ => false
  | _ => true

/-- The calls that change nothing when they throw.  Left out: `collapse()`; calls on `c[i]` and
`c[key]`, which make the element first; `get_T_at(i,j)` when it has to make the matrix first or to
convert it; get_mat_long of a VEC_BOOL; vectors too long to become a matrix. -/
def Op.quiet : Op → GC → Prop
  | .collapse, _ => False
  | .idx _ _, _ => False
  | .key _ _, _ => False
  | .call i op, g => ∀ x, idx_c i.toNat g = .ok x → op.quiet x
  | .callKey k op, g => ∀ x, call_key_c k g = .ok x → op.quiet x
  | .callKeys ks op, g => ∀ x, call_keys_c ks g = .ok x → op.quiet x
  | .intAt2 _ _ _, g => notVec g
  | .longAt2 _ _ _, g => notVec g
  | .realAt2 _ _ _, g => notVec g
  | .complexAt2 _ _ _, g => notVec g ∧ g.ty ≠ .MAT_REAL
  | .getMatLong _, g => size1 g < 2 ^ 32 ∧ g.ty ≠ .VEC_BOOL
  | .getMatReal _, g => size1 g < 2 ^ 32
  | .promoteMatLong, g => size1 g < 2 ^ 32
  | .promoteMatReal, g => size1 g < 2 ^ 32
  | _, _ => True

/-- The call changes nothing when it throws. -/
def Quiet {α : Type} (g : GC) (r : Res α) : Prop := ∀ s, r = .throw s → s = g

theorem quiet_ok {α : Type} {g s : GC} {a : α} : Quiet g (.ok s a) := fun _ h => by cases h
theorem quiet_ub {α : Type} {g : GC} : Quiet g (.ub : Res α) := fun _ h => by cases h
theorem quiet_div {α : Type} {g : GC} : Quiet g (.diverge : Res α) := fun _ h => by cases h
theorem quiet_throw {α : Type} {g : GC} : Quiet g (.throw g : Res α) := fun _ h => by cases h; rfl

theorem quiet_drop {α : Type} {g : GC} {r : Res α} (h : Quiet g r) : Quiet g (drop r) := by
  intro s e
  cases r <;> simp only [drop] at e <;> (try cases e)
  exact h _ rfl

theorem quiet_keep {g : GC} {o : Out GC} : Quiet g (keep g o) := by
  intro s e; cases o <;> simp only [keep] at e <;> cases e; rfl

theorem quiet_become {g : GC} {o : Out GC} (h : o ≠ .throw) : Quiet g (become o) := by
  intro s e; cases o <;> simp only [become] at e <;> (try cases e)
  exact absurd rfl h

theorem quiet_bind {α β : Type} {g : GC} {r : Res α} {f : GC → α → Res β} (h : Quiet g r)
    (hf : ∀ s a, r = .ok s a → Quiet g (f s a)) : Quiet g (r.bind f) := by
  intro s e
  cases r with
  | ok s' a => exact hf s' a rfl _ e
  | throw s' => simp only [Res.bind] at e; cases e; exact h _ rfl
  | ub => cases e
  | diverge => cases e

theorem copyL_nothrow {α : Type} (v w : List α) : copyL v w ≠ .throw := by
  unfold copyL; split <;> simp

theorem nothrow_bind {α β : Type} {o : Out α} {f : α → Out β} (h : o ≠ .throw)
    (hf : ∀ a, f a ≠ .throw) : o.bind f ≠ .throw := by
  cases o <;> simp_all [Out.bind]

theorem refill_nothrow {α β : Type} (d : β) (f : α → β) (v : List α) : refill d f v ≠ .throw :=
  copyL_nothrow _ _

theorem convMat_nothrow {α β : Type} (d : β) (f : α → β) (m : Mat α) : convMat d f m ≠ .throw :=
  nothrow_bind (copyL_nothrow _ _) fun _ => by simp

theorem quiet_refill {α β : Type} {g : GC} (d : β) (f : α → β) (v : List α) (up : List β → GC) :
    Quiet g (become ((refill d f v).bind fun w => .ok (up w))) :=
  quiet_become (nothrow_bind (refill_nothrow _ _ _) fun _ => by simp)

theorem quiet_convMat {α β : Type} {g : GC} (d : β) (f : α → β) (m : Mat α) (up : Mat β → GC) :
    Quiet g (become ((convMat d f m).bind fun w => .ok (up w))) :=
  quiet_become (nothrow_bind (convMat_nothrow _ _ _) fun _ => by simp)

theorem quiet_toColumn {α β : Type} {g : GC} (d : β) (f : α → β) (up : Mat β → GC) {v : List α}
    (h : v.length < 2 ^ 32) : Quiet g (toColumn d f up v) := by
  rw [toColumn_ok d f up h]; exact quiet_ok

theorem quiet_wrong {α : Type} {g s : GC} (v : List α) : Quiet g (throughWrongMember v s) := by
  cases v <;> first | exact quiet_ok | exact quiet_ub

theorem quiet_refAt {α : Type} {g : GC} (d : α) (up : List α → GC) (v : List α) (i : Nat)
    (upd : α → α) : Quiet g (refAt d up v i upd) := by
  unfold refAt; dsimp only; split <;> first | exact quiet_ok | exact quiet_ub

theorem quiet_refAt2 {α : Type} (up : Mat α → GC) (m : Mat α) (i j : Nat) (upd : α → α) :
    Quiet (up m) (refAt2 up m i j upd) := by
  unfold refAt2
  split
  · split <;> first | exact quiet_ok | exact quiet_throw
  · exact quiet_throw

theorem quiet_promote_vector (g : GC) : Quiet g (promote_to_vector g) := by
  rw [promote_to_vector.eq_def]
  cases g <;> dsimp only <;>
    first | exact quiet_ok | exact quiet_ub | exact quiet_throw | exact quiet_refill _ _ _ _

theorem promote_vector_ok {g s : GC} {a : Unit} (h : promote_to_vector g = .ok s a) : ∃ v, s = vector v := by
  rw [promote_to_vector.eq_def] at h
  cases g <;> dsimp only at h <;>
    first
    | (cases h; exact ⟨_, rfl⟩)
    | cases h
    | (simp only [become] at h
       split at h <;> first | (rename_i o e; cases h; obtain ⟨w, _, hw⟩ := out_bind_ok e; cases hw; exact ⟨_, rfl⟩) | cases h)

theorem quiet_refAtVector {α : Type} (mk : α → GC) (z : α) (i : Nat) (upd : α → α) (g : GC) :
    Quiet g (refAtVector mk z i upd g) := by
  refine quiet_bind (quiet_promote_vector g) fun s a e => ?_
  obtain ⟨v, rfl⟩ := promote_vector_ok e
  dsimp only
  split <;> first | exact quiet_ok | exact quiet_ub

theorem becomes_refill {α β : Type} {d : β} {f : α → β} {v : List α} {up : List β → GC} {s : GC} {a : Unit}
    (h : become ((refill d f v).bind fun w => .ok (up w)) = .ok s a) : ∃ w, s = up w := by
  simp only [become] at h
  split at h <;> first | (rename_i o e; cases h; obtain ⟨w, _, hw⟩ := out_bind_ok e; cases hw; exact ⟨_, rfl⟩) | cases h

theorem becomes_convMat {α β : Type} {d : β} {f : α → β} {v : Mat α} {up : Mat β → GC} {s : GC} {a : Unit}
    (h : become ((convMat d f v).bind fun w => .ok (up w)) = .ok s a) : ∃ w, s = up w := by
  simp only [become] at h
  split at h <;> first | (rename_i o e; cases h; obtain ⟨w, _, hw⟩ := out_bind_ok e; cases hw; exact ⟨_, rfl⟩) | cases h

theorem becomes_wrong {α : Type} {v : List α} {g s : GC} {a : Unit}
    (h : throughWrongMember v g = .ok s a) : s = g := by
  cases v <;> simp only [throughWrongMember] at h <;> cases h; rfl

macro "quiet_leaf" : tactic => `(tactic| first
  | exact quiet_ok | exact quiet_ub | exact quiet_throw | exact quiet_refill _ _ _ _
  | exact quiet_convMat _ _ _ _ | exact quiet_wrong _ | exact quiet_refAt _ _ _ _ _
  | exact quiet_refAtVector _ _ _ _ _ | exact quiet_refAt2 _ _ _ _ _)

theorem quiet_promote_int (g : GC) : Quiet g (promote_to_int g) := by
  rw [promote_to_int.eq_def]
  cases g <;> dsimp only <;>
    quiet_leaf

theorem quiet_promote_long (g : GC) : Quiet g (promote_to_long g) := by
  rw [promote_to_long.eq_def]
  cases g <;> dsimp only <;>
    quiet_leaf

theorem quiet_promote_real (g : GC) : Quiet g (promote_to_real g) := by
  rw [promote_to_real.eq_def]
  cases g <;> dsimp only <;>
    quiet_leaf

theorem quiet_promote_vec_int (g : GC) : Quiet g (promote_to_vec_int g) := by
  rw [promote_to_vec_int.eq_def]
  cases g <;> dsimp only <;>
    quiet_leaf

theorem quiet_promote_vec_long (g : GC) : Quiet g (promote_to_vec_long g) := by
  rw [promote_to_vec_long.eq_def]
  cases g <;> dsimp only <;>
    quiet_leaf

theorem quiet_promote_vec_real (g : GC) : Quiet g (promote_to_vec_real g) := by
  rw [promote_to_vec_real.eq_def]
  cases g <;> dsimp only <;>
    quiet_leaf

theorem quiet_promote_vec_complex (g : GC) : Quiet g (promote_to_vec_complex g) := by
  rw [promote_to_vec_complex.eq_def]
  cases g <;> dsimp only <;>
    quiet_leaf

theorem quiet_promote_complex (g : GC) : Quiet g (promote_to_complex g) := by
  rw [promote_to_complex.eq_def]
  cases g <;> dsimp only <;>
    first
      | quiet_leaf
      | exact quiet_promote_vec_complex _

theorem quiet_promote_mat_int (g : GC) : Quiet g (promote_to_mat_int g) := by
  rw [promote_to_mat_int.eq_def]
  cases g <;> dsimp only <;>
    quiet_leaf

theorem quiet_promote_mat_complex (g : GC) : Quiet g (promote_to_mat_complex g) := by
  rw [promote_to_mat_complex.eq_def]
  cases g <;> dsimp only <;>
    quiet_leaf

theorem quiet_promote_mat_long (g : GC) (h : size1 g < 2 ^ 32) : Quiet g (promote_to_mat_long g) := by
  rw [promote_to_mat_long.eq_def]
  cases g <;> dsimp only <;>
    first
      | quiet_leaf
      | exact quiet_toColumn _ _ _ h

theorem quiet_promote_mat_real (g : GC) (h : size1 g < 2 ^ 32) : Quiet g (promote_to_mat_real g) := by
  rw [promote_to_mat_real.eq_def]
  cases g <;> dsimp only <;>
    first
      | quiet_leaf
      | exact quiet_toColumn _ _ _ h

theorem promoted_vec_int {g s : GC} {a : Unit} (h : promote_to_vec_int g = .ok s a) : ∃ v, s = vecInt v := by
  rw [promote_to_vec_int.eq_def] at h
  cases g <;> dsimp only at h <;>
    first | exact becomes_refill h | (cases h; exact ⟨_, rfl⟩) | cases h

theorem promoted_vec_long {g s : GC} {a : Unit} (h : promote_to_vec_long g = .ok s a) : ∃ v, s = vecLong v := by
  rw [promote_to_vec_long.eq_def] at h
  cases g <;> dsimp only at h <;>
    first | exact becomes_refill h | (cases h; exact ⟨_, rfl⟩) | cases h

theorem promoted_vec_real {g s : GC} {a : Unit} (h : promote_to_vec_real g = .ok s a) : ∃ v, s = vecReal v := by
  rw [promote_to_vec_real.eq_def] at h
  cases g <;> dsimp only at h <;>
    first | exact becomes_refill h | (cases h; exact ⟨_, rfl⟩) | cases h

theorem promoted_vec_complex {g s : GC} {a : Unit} (h : promote_to_vec_complex g = .ok s a) : ∃ v, s = vecComplex v := by
  rw [promote_to_vec_complex.eq_def] at h
  cases g <;> dsimp only at h <;>
    first | exact becomes_refill h | (cases h; exact ⟨_, rfl⟩) | cases h

theorem promoted_mat_int {g s : GC} {a : Unit} (h : promote_to_mat_int g = .ok s a) :
    ∃ m, s = matInt m := by
  rw [promote_to_mat_int.eq_def] at h
  cases g <;> dsimp only at h <;>
    first
    | exact becomes_convMat h
    | exact ⟨_, becomes_wrong h⟩
    | (cases h; exact ⟨_, rfl⟩)
    | cases h
    | (unfold toColumn at h; split at h <;> first | (cases h; exact ⟨_, rfl⟩) | cases h)

theorem promoted_mat_real {g s : GC} {a : Unit} (h : promote_to_mat_real g = .ok s a) :
    ∃ m, s = matReal m := by
  rw [promote_to_mat_real.eq_def] at h
  cases g <;> dsimp only at h <;>
    first
    | exact becomes_convMat h
    | exact ⟨_, becomes_wrong h⟩
    | (cases h; exact ⟨_, rfl⟩)
    | cases h
    | (unfold toColumn at h; split at h <;> first | (cases h; exact ⟨_, rfl⟩) | cases h)

theorem promoted_mat_complex {g s : GC} {a : Unit} (h : promote_to_mat_complex g = .ok s a) :
    ∃ m, s = matComplex m := by
  rw [promote_to_mat_complex.eq_def] at h
  cases g <;> dsimp only at h <;>
    first
    | exact becomes_convMat h
    | exact ⟨_, becomes_wrong h⟩
    | (cases h; exact ⟨_, rfl⟩)
    | cases h
    | (unfold toColumn at h; split at h <;> first | (cases h; exact ⟨_, rfl⟩) | cases h)

theorem promoted_mat_long {g s : GC} {a : Unit} (hb : ∀ v, g ≠ vecBool v) (h : promote_to_mat_long g = .ok s a) :
    ∃ m, s = matLong m := by
  rw [promote_to_mat_long.eq_def] at h
  cases g <;> dsimp only at h <;>
    first
    | exact absurd rfl (hb _)
    | exact becomes_convMat h
    | exact ⟨_, becomes_wrong h⟩
    | (cases h; exact ⟨_, rfl⟩)
    | cases h
    | (unfold toColumn at h; split at h <;> first | (cases h; exact ⟨_, rfl⟩) | cases h)

theorem quiet_int_at (i : Nat) (upd : I32 → I32) (g : GC) : Quiet g (get_int_at i upd g) := by
  rw [get_int_at.eq_def]
  cases g <;> dsimp only <;>
    first
      | exact quiet_refAt _ _ _ _ _ | exact quiet_refAtVector _ _ _ _ _
      | (refine quiet_bind (quiet_promote_vec_int _) fun s a e => ?_
         obtain ⟨w, rfl⟩ := promoted_vec_int e
         exact quiet_refAt _ _ _ _ _)

theorem quiet_get_vec_int (upd : List I32 → List I32) (g : GC) : Quiet g (get_vec_int upd g) := by
  rw [get_vec_int.eq_def]
  cases g <;> dsimp only <;>
    first
      | exact quiet_ok | exact quiet_throw
      | (refine quiet_bind (quiet_promote_vec_int _) fun s a e => ?_
         obtain ⟨w, rfl⟩ := promoted_vec_int e
         exact quiet_ok)

theorem quiet_get_mat_int (upd : Mat I32 → Mat I32) (g : GC) :
    Quiet g (get_mat_int upd g) := by
  rw [get_mat_int.eq_def]
  cases g <;> dsimp only <;>
    first
      | exact quiet_ok | exact quiet_throw
      | (refine quiet_bind (quiet_promote_mat_int _) fun s a e => ?_
         obtain ⟨w, rfl⟩ := promoted_mat_int e
         exact quiet_ok)

theorem quiet_int_at2 (i j : Nat) (upd : I32 → I32) (g : GC) (h : notVec g) :
    Quiet g (get_int_at2 i j upd g) := by
  rw [get_int_at2.eq_def]
  cases g <;> dsimp only <;>
    first | exact quiet_throw | exact quiet_refAt2 _ _ _ _ _ | exact nomatch h

theorem quiet_long_at (i : Nat) (upd : I64 → I64) (g : GC) : Quiet g (get_long_at i upd g) := by
  rw [get_long_at.eq_def]
  cases g <;> dsimp only <;>
    first
      | exact quiet_refAt _ _ _ _ _ | exact quiet_refAtVector _ _ _ _ _
      | (refine quiet_bind (quiet_promote_vec_long _) fun s a e => ?_
         obtain ⟨w, rfl⟩ := promoted_vec_long e
         exact quiet_refAt _ _ _ _ _)

theorem quiet_get_vec_long (upd : List I64 → List I64) (g : GC) : Quiet g (get_vec_long upd g) := by
  rw [get_vec_long.eq_def]
  cases g <;> dsimp only <;>
    first
      | exact quiet_ok | exact quiet_throw
      | (refine quiet_bind (quiet_promote_vec_long _) fun s a e => ?_
         obtain ⟨w, rfl⟩ := promoted_vec_long e
         exact quiet_ok)

theorem quiet_get_mat_long (upd : Mat I64 → Mat I64) (g : GC) (h : size1 g < 2 ^ 32) (hb : ∀ v, g ≠ vecBool v) :
    Quiet g (get_mat_long upd g) := by
  rw [get_mat_long.eq_def]
  cases g <;> dsimp only <;>
    first
      | exact quiet_ok | exact quiet_throw
      | (refine quiet_bind (quiet_promote_mat_long _ h) fun s a e => ?_
         obtain ⟨w, rfl⟩ := promoted_mat_long hb e
         exact quiet_ok)

theorem quiet_long_at2 (i j : Nat) (upd : I64 → I64) (g : GC) (h : notVec g) :
    Quiet g (get_long_at2 i j upd g) := by
  rw [get_long_at2.eq_def]
  cases g <;> dsimp only <;>
    first | exact quiet_throw | exact quiet_refAt2 _ _ _ _ _ | exact nomatch h

theorem quiet_real_at (i : Nat) (upd : F64 → F64) (g : GC) : Quiet g (get_real_at i upd g) := by
  rw [get_real_at.eq_def]
  cases g <;> dsimp only <;>
    first
      | exact quiet_refAt _ _ _ _ _ | exact quiet_refAtVector _ _ _ _ _
      | (refine quiet_bind (quiet_promote_vec_real _) fun s a e => ?_
         obtain ⟨w, rfl⟩ := promoted_vec_real e
         exact quiet_refAt _ _ _ _ _)

theorem quiet_get_vec_real (upd : List F64 → List F64) (g : GC) : Quiet g (get_vec_real upd g) := by
  rw [get_vec_real.eq_def]
  cases g <;> dsimp only <;>
    first
      | exact quiet_ok | exact quiet_throw
      | (refine quiet_bind (quiet_promote_vec_real _) fun s a e => ?_
         obtain ⟨w, rfl⟩ := promoted_vec_real e
         exact quiet_ok)

theorem quiet_get_mat_real (upd : Mat F64 → Mat F64) (g : GC) (h : size1 g < 2 ^ 32) :
    Quiet g (get_mat_real upd g) := by
  rw [get_mat_real.eq_def]
  cases g <;> dsimp only <;>
    first
      | exact quiet_ok | exact quiet_throw
      | (refine quiet_bind (quiet_promote_mat_real _ h) fun s a e => ?_
         obtain ⟨w, rfl⟩ := promoted_mat_real e
         exact quiet_ok)

theorem quiet_real_at2 (i j : Nat) (upd : F64 → F64) (g : GC) (h : notVec g) :
    Quiet g (get_real_at2 i j upd g) := by
  rw [get_real_at2.eq_def]
  cases g <;> dsimp only <;>
    first | exact quiet_throw | exact quiet_refAt2 _ _ _ _ _ | exact nomatch h

theorem quiet_complex_at (i : Nat) (upd : Cplx → Cplx) (g : GC) : Quiet g (get_complex_at i upd g) := by
  rw [get_complex_at.eq_def]
  cases g <;> dsimp only <;>
    first
      | exact quiet_refAt _ _ _ _ _ | exact quiet_refAtVector _ _ _ _ _
      | (refine quiet_bind (quiet_promote_vec_complex _) fun s a e => ?_
         obtain ⟨w, rfl⟩ := promoted_vec_complex e
         exact quiet_refAt _ _ _ _ _)

theorem quiet_get_vec_complex (upd : List Cplx → List Cplx) (g : GC) : Quiet g (get_vec_complex upd g) := by
  rw [get_vec_complex.eq_def]
  cases g <;> dsimp only <;>
    first
      | exact quiet_ok | exact quiet_throw
      | (refine quiet_bind (quiet_promote_vec_complex _) fun s a e => ?_
         obtain ⟨w, rfl⟩ := promoted_vec_complex e
         exact quiet_ok)

theorem quiet_get_mat_complex (upd : Mat Cplx → Mat Cplx) (g : GC) :
    Quiet g (get_mat_complex upd g) := by
  rw [get_mat_complex.eq_def]
  cases g <;> dsimp only <;>
    first
      | exact quiet_ok | exact quiet_throw
      | (refine quiet_bind (quiet_promote_mat_complex _) fun s a e => ?_
         obtain ⟨w, rfl⟩ := promoted_mat_complex e
         exact quiet_ok)

theorem quiet_complex_at2 (i j : Nat) (upd : Cplx → Cplx) (g : GC) (h : notVec g) (hr : ∀ m, g ≠ matReal m) :
    Quiet g (get_complex_at2 i j upd g) := by
  rw [get_complex_at2.eq_def]
  cases g <;> dsimp only <;>
    first | exact quiet_throw | exact quiet_refAt2 _ _ _ _ _ | exact absurd rfl (hr _) | exact nomatch h

theorem quiet_bool_at (i : Nat) (g : GC) : Quiet g (get_bool_at i g) := by
  rw [get_bool_at.eq_def]
  cases g <;> dsimp only <;>
    quiet_leaf

theorem quiet_string_at (i : Nat) (upd : Bytes → Bytes) (g : GC) : Quiet g (get_string_at i upd g) := by
  rw [get_string_at.eq_def]
  cases g <;> dsimp only <;>
    quiet_leaf

theorem quiet_push_bool (x : Bool) (g : GC) : Quiet g (push_bool x g) := by
  rw [push_bool.eq_def]
  cases g <;> dsimp only <;>
    quiet_leaf

theorem quiet_push_int (x : I32) (g : GC) : Quiet g (push_int x g) := by
  rw [push_int.eq_def]
  cases g <;> dsimp only <;>
    first
      | quiet_leaf
      | (refine quiet_bind (quiet_promote_vec_int _) fun s a e => ?_
         obtain ⟨w, rfl⟩ := promoted_vec_int e
         exact quiet_ok)

theorem quiet_push_long (x : I64) (g : GC) : Quiet g (push_long x g) := by
  rw [push_long.eq_def]
  cases g <;> dsimp only <;>
    first
      | quiet_leaf
      | (refine quiet_bind (quiet_promote_vec_long _) fun s a e => ?_
         obtain ⟨w, rfl⟩ := promoted_vec_long e
         exact quiet_ok)

theorem quiet_push_real (x : F64) (g : GC) : Quiet g (push_real x g) := by
  rw [push_real.eq_def]
  cases g <;> dsimp only <;>
    first
      | quiet_leaf
      | (refine quiet_bind (quiet_promote_vec_real _) fun s a e => ?_
         obtain ⟨w, rfl⟩ := promoted_vec_real e
         exact quiet_ok)

theorem quiet_push_complex (x : Cplx) (g : GC) : Quiet g (push_complex x g) := by
  rw [push_complex.eq_def]
  cases g <;> dsimp only <;>
    first
      | quiet_leaf
      | (refine quiet_bind (quiet_promote_vec_complex _) fun s a e => ?_
         obtain ⟨w, rfl⟩ := promoted_vec_complex e
         exact quiet_ok)

theorem quiet_push_string (x : Bytes) (g : GC) : Quiet g (push_string x g) := by
  rw [push_string.eq_def]
  cases g <;> dsimp only <;>
    first
      | quiet_leaf
      | (refine quiet_bind (quiet_promote_vector _) fun s a e => ?_
         obtain ⟨w, rfl⟩ := promote_vector_ok e
         exact quiet_ok)

theorem quiet_get_bool (j : Bool) (g : GC) : Quiet g (get_bool j g) := by
  rw [get_bool.eq_def]
  cases g <;> dsimp only <;>
    quiet_leaf

theorem quiet_get_int (j : I32) (g : GC) : Quiet g (get_int j g) := by
  rw [get_int.eq_def]
  cases g <;> dsimp only <;>
    quiet_leaf

theorem quiet_get_long (j : I64) (g : GC) : Quiet g (get_long j g) := by
  rw [get_long.eq_def]
  cases g <;> dsimp only <;>
    quiet_leaf

theorem quiet_get_real (j : F64) (g : GC) : Quiet g (get_real j g) := by
  rw [get_real.eq_def]
  cases g <;> dsimp only <;>
    quiet_leaf

theorem quiet_get_complex (g : GC) : Quiet g (get_complex g) := by
  rw [get_complex.eq_def]
  cases g <;> dsimp only <;>
    quiet_leaf

theorem quiet_get_string (g : GC) : Quiet g (get_string g) := by
  rw [get_string.eq_def]
  cases g <;> dsimp only <;>
    quiet_leaf

mutual

theorem from_gc_nothrow : ∀ a d, from_gc a d ≠ .throw
  | vector v, d => by
    rw [from_gc]; exact nothrow_bind (from_gcL_nothrow v _) fun _ => by simp
  | map m, d => by
    rw [from_gc]; exact nothrow_bind (from_gcM_nothrow m _) fun _ => by simp
  | notype, d => by simp [from_gc]
  | bool b, d => by simp [from_gc]
  | int b, d => by simp [from_gc]
  | long b, d => by simp [from_gc]
  | real b, d => by simp [from_gc]
  | complex b, d => by simp [from_gc]
  | string b, d => by simp [from_gc]
  | pointer b, d => by simp [from_gc]
  | vecBool v, d => by rw [from_gc]; exact nothrow_bind (copyL_nothrow _ _) fun _ => by simp
  | vecInt v, d => by rw [from_gc]; exact nothrow_bind (copyL_nothrow _ _) fun _ => by simp
  | vecLong v, d => by rw [from_gc]; exact nothrow_bind (copyL_nothrow _ _) fun _ => by simp
  | vecReal v, d => by rw [from_gc]; exact nothrow_bind (copyL_nothrow _ _) fun _ => by simp
  | vecComplex v, d => by rw [from_gc]; exact nothrow_bind (copyL_nothrow _ _) fun _ => by simp
  | vecString v, d => by rw [from_gc]; exact nothrow_bind (copyL_nothrow _ _) fun _ => by simp
  | vecPointer v, d => by rw [from_gc]; exact nothrow_bind (copyL_nothrow _ _) fun _ => by simp
  | matInt v, d => by
    rw [from_gc]; unfold set_mat_int
    split
    · exact nothrow_bind (copyL_nothrow _ _) fun _ => by simp
    · simp
  | matLong v, d => by
    rw [from_gc]; unfold set_mat_long
    split
    · exact nothrow_bind (copyL_nothrow _ _) fun _ => by simp
    · simp
  | matReal v, d => by
    rw [from_gc]; unfold set_mat_real
    split
    · exact nothrow_bind (copyL_nothrow _ _) fun _ => by simp
    · simp
  | matComplex v, d => by
    rw [from_gc]; unfold set_mat_complex
    split
    · exact nothrow_bind (copyL_nothrow _ _) fun _ => by simp
    · simp
termination_by structural a => a

theorem from_gcL_nothrow : ∀ a d, from_gcL a d ≠ .throw
  | [], d => by simp [from_gcL]
  | _ :: _, [] => by simp [from_gcL]
  | x :: xs, y :: ys => by
    rw [from_gcL]
    exact nothrow_bind (from_gc_nothrow x y) fun _ => nothrow_bind (from_gcL_nothrow xs ys) fun _ => by simp
termination_by structural a => a

theorem from_gcM_nothrow : ∀ a d, from_gcM a d ≠ .throw
  | [], d => by simp [from_gcM]
  | (k, x) :: xs, w => by
    rw [from_gcM]
    exact nothrow_bind (from_gc_nothrow x _) fun _ => from_gcM_nothrow xs _
termination_by structural a => a

end

theorem quiet_merge (a g : GC) : Quiet g (merge a g) := by
  unfold merge
  split
  · exact quiet_ok
  · rename_i m
    by_cases h : g = notype
    · subst h
      simp only [if_true, set_map, allocate_map]
      have := from_gcM_nothrow m []
      split <;> first | exact quiet_ok | exact absurd ‹_› this | exact quiet_ub | exact quiet_div
    · simp only [if_neg h]
      split
      · have := from_gcM_nothrow m
        split <;> first | exact quiet_ok | exact absurd ‹_› (this _) | exact quiet_ub | exact quiet_div
      · exact quiet_throw
  · exact quiet_throw

theorem mset_found {k : Bytes} {x : GC} : ∀ {m : Entries}, KeysSorted m → mfind k m = some x → mset k x m = m
  | [], _, h => by cases h
  | (k', v) :: r, hs, h => by
    rw [mfind] at h
    rw [mset]
    split at h
    · rename_i e; subst e; cases h; simp
    · rename_i hne
      have hr := List.pairwise_cons.1 hs
      rw [if_neg hne]
      have hmem : k ∈ r.map Prod.fst := mfind_isSome.1 (by rw [h]; rfl)
      obtain ⟨e, he, hk⟩ := List.mem_map.1 hmem
      have hlt : strLT k' k := hk ▸ hr.1 e he
      rw [if_neg (by intro hb; exact strLT_irrefl _ (strLT_trans hlt ((blt_iff _ _).1 hb))), mset_found hr.2 h]

theorem firstKey_isSome {m : Entries} {k : Bytes} : ∀ {ks : List Bytes}, firstKey m ks = some k →
    (mfind k m).isSome = true
  | [], h => by cases h
  | s :: r, h => by
    rw [firstKey] at h
    split at h
    · cases h; assumption
    · exact firstKey_isSome h

theorem quiet_mapState {α : Type} {g x : GC} {r : Res α} {f : GC → GC} (h : Quiet x r) (hf : f x = g) :
    Quiet g (r.mapState f) := by
  intro s e
  cases r <;> simp only [Res.mapState] at e <;> cases e
  rw [h _ rfl, hf]

/-- C26: a throwing call leaves the container as it was, for all calls except the ones named at
`Op.quiet`; `C26_negation` shows that these do change it.  Memory exhaustion is not modelled. -/
theorem C26_unchanged_partial (op : Op) : ∀ (g g' : GC), WF g → op.quiet g → step op g = .throw g' → g' = g := by
  suffices h : ∀ g, WF g → op.quiet g → Quiet g (step op g) from fun g g' hw hq => h g hw hq g'
  induction op with
  | clear | setPointer | setBool | setInt | setLong | setReal | setComplex | setString | setUint | setUlong
  | sizeVecPointer | sizeVecBool | sizeVecInt | sizeVecLong | sizeVecReal | sizeVecComplex | sizeVecString
  | sizeMatInt | sizeMatLong | sizeMatReal | sizeMatComplex | setVector | setMap =>
    intro g _ _; exact quiet_ok
  | setVecPointer | setVecBool | setVecInt | setVecLong | setVecReal | setVecComplex | setVecString
  | setMatInt | setMatLong | setMatReal | setMatComplex | assign | dump =>
    intro g _ _; exact quiet_keep
  | freePointer =>
    intro g _ _; unfold step; cases g <;> first | exact quiet_ok | exact quiet_throw
  | erase k =>
    intro g _ _; unfold step; cases g <;> first | exact quiet_ok | exact quiet_throw
  | constKey k =>
    intro g _ _; unfold step
    refine quiet_drop ?_
    cases g <;> first | exact quiet_ok | exact quiet_throw
  | merge s => intro g _ _; exact quiet_merge s g
  | pushBool x => intro g _ _; exact quiet_push_bool x g
  | pushInt x => intro g _ _; exact quiet_push_int x g
  | pushLong x => intro g _ _; exact quiet_push_long x g
  | pushReal x => intro g _ _; exact quiet_push_real x g
  | pushComplex x => intro g _ _; exact quiet_push_complex x g
  | pushString x => intro g _ _; exact quiet_push_string x g
  | promoteInt => intro g _ _; exact quiet_promote_int g
  | promoteLong => intro g _ _; exact quiet_promote_long g
  | promoteReal => intro g _ _; exact quiet_promote_real g
  | promoteComplex => intro g _ _; exact quiet_promote_complex g
  | promoteVecInt => intro g _ _; exact quiet_promote_vec_int g
  | promoteVecLong => intro g _ _; exact quiet_promote_vec_long g
  | promoteVecReal => intro g _ _; exact quiet_promote_vec_real g
  | promoteVecComplex => intro g _ _; exact quiet_promote_vec_complex g
  | promoteMatInt => intro g _ _; exact quiet_promote_mat_int g
  | promoteMatLong => intro g _ h; exact quiet_promote_mat_long g h
  | promoteMatReal => intro g _ h; exact quiet_promote_mat_real g h
  | promoteMatComplex => intro g _ _; exact quiet_promote_mat_complex g
  | promoteVector => intro g _ _; exact quiet_promote_vector g
  | boolAt i => intro g _ _; exact quiet_drop (quiet_bool_at _ g)
  | intAt i u => intro g _ _; exact quiet_drop (quiet_int_at _ u g)
  | longAt i u => intro g _ _; exact quiet_drop (quiet_long_at _ u g)
  | realAt i u => intro g _ _; exact quiet_drop (quiet_real_at _ u g)
  | complexAt i u => intro g _ _; exact quiet_drop (quiet_complex_at _ u g)
  | stringAt i u => intro g _ _; exact quiet_drop (quiet_string_at _ u g)
  | intAt2 i j u => intro g _ h; exact quiet_drop (quiet_int_at2 _ _ u g h)
  | longAt2 i j u => intro g _ h; exact quiet_drop (quiet_long_at2 _ _ u g h)
  | realAt2 i j u => intro g _ h; exact quiet_drop (quiet_real_at2 _ _ u g h)
  | complexAt2 i j u =>
    intro g _ h; exact quiet_drop (quiet_complex_at2 _ _ u g h.1 fun m e => h.2 (by rw [e]; rfl))
  | getVecInt u => intro g _ _; exact quiet_drop (quiet_get_vec_int u g)
  | getVecLong u => intro g _ _; exact quiet_drop (quiet_get_vec_long u g)
  | getVecReal u => intro g _ _; exact quiet_drop (quiet_get_vec_real u g)
  | getVecComplex u => intro g _ _; exact quiet_drop (quiet_get_vec_complex u g)
  | getMatInt u => intro g _ _; exact quiet_drop (quiet_get_mat_int u g)
  | getMatLong u =>
    intro g _ h; exact quiet_drop (quiet_get_mat_long u g h.1 fun m e => h.2 (by rw [e]; rfl))
  | getMatReal u => intro g _ h; exact quiet_drop (quiet_get_mat_real u g h)
  | getMatComplex u => intro g _ _; exact quiet_drop (quiet_get_mat_complex u g)
  | getBool j x => intro g _ _; exact quiet_bind (quiet_get_bool j g) fun _ _ _ => quiet_ok
  | getInt j x => intro g _ _; exact quiet_bind (quiet_get_int j g) fun _ _ _ => quiet_ok
  | getLong j x => intro g _ _; exact quiet_bind (quiet_get_long j g) fun _ _ _ => quiet_ok
  | getReal j x => intro g _ _; exact quiet_bind (quiet_get_real j g) fun _ _ _ => quiet_ok
  | getComplex x => intro g _ _; exact quiet_bind (quiet_get_complex g) fun _ _ _ => quiet_ok
  | getString x => intro g _ _; exact quiet_bind (quiet_get_string g) fun _ _ _ => quiet_ok
  | collapse => intro g _ h; exact h.elim
  | idx i op ih => intro g _ h; exact h.elim
  | key k op ih => intro g _ h; exact h.elim
  | call i op ih =>
    intro g hw h
    unfold step
    cases g with
    | vector v =>
      unfold withIdxChecked
      dsimp only
      split
      · rename_i x hx
        have hv : WFL v := hw
        refine quiet_mapState (ih x (WFL_get hv hx) (h x ?_)) ?_
        · simp [idx_c, hx]
        · obtain ⟨hi, rfl⟩ := List.getElem?_eq_some_iff.1 hx
          rw [List.set_getElem_self]
      · exact quiet_throw
    | _ => exact quiet_throw
  | callKey k op ih =>
    intro g hw h
    unfold step
    cases g with
    | map m =>
      unfold withKeyChecked
      dsimp only
      split
      · rename_i x hx
        refine quiet_mapState (ih x (WFM_find hw.2 hx) (h x ?_)) ?_
        · simp [call_key_c, hx]
        · rw [mset_found hw.1 hx]
      · exact quiet_throw
    | _ => exact quiet_throw
  | callKeys ks op ih =>
    intro g hw h
    unfold step
    cases g with
    | map m =>
      unfold withKeysChecked
      dsimp only
      split
      · rename_i k hk
        have hs := firstKey_isSome hk
        obtain ⟨x, hx⟩ := Option.isSome_iff_exists.1 hs
        rw [hx]
        refine quiet_mapState (ih x (WFM_find hw.2 hx) (h x ?_)) ?_
        · simp [call_keys_c, hk, hx]
        · rw [mset_found hw.1 hx]
      · exact quiet_throw
    | _ => exact quiet_throw

/-- Hypotheses of `C26_unchanged_partial` met by calls that throw: a missing key two levels down, a
string pushed into a number, an element outside a matrix. -/
example : Op.quiet (.callKey [97] (.callKey [98] .clear)) (map [([97], map [])]) ∧
    step (.callKey [97] (.callKey [98] .clear)) (map [([97], map [])]) = .throw (map [([97], map [])]) ∧
    step (.pushString [97]) (matInt ⟨1, 1, [5]⟩) = .throw (matInt ⟨1, 1, [5]⟩) ∧
    Op.quiet (.intAt2 1 0 id) (matInt ⟨1, 1, [5]⟩) ∧
    step (.intAt2 1 0 id) (matInt ⟨1, 1, [5]⟩) = .throw (matInt ⟨1, 1, [5]⟩) := by
  refine ⟨?_, by decide +kernel, by decide +kernel, rfl, by rfl⟩
  intro x hx y hy; trivial

/-- C26 as stated is false.  An empty container becomes a MAT_REAL by `get_int_at(2,3)` (any element
type does); a vector becomes a matrix by a `get_real_at(i,j)` outside of it; a MAT_REAL becomes complex;
get_mat_long makes a MAT_REAL of a VEC_BOOL; a call on `c["a"]` or `c[0]` has replaced the number 5
by then; `collapse()` has packed the first value when it fails at the second. -/
theorem C26_negation :
    step (.intAt2 2 3 id) notype = .throw (matReal (.make .zero 2 3)) ∧
    step (.longAt2 2 3 id) notype = .throw (matReal (.make .zero 2 3)) ∧
    step (.realAt2 2 3 id) notype = .throw (matReal (.make .zero 2 3)) ∧
    step (.complexAt2 2 3 id) notype = .throw (matComplex (.make .zero 2 3)) ∧
    (∀ x, step (.realAt2 5 5 id) (vecReal [x]) = .throw (matReal ⟨1, 1, [x]⟩)) ∧
    (∀ x, step (.complexAt2 5 5 id) (matReal ⟨1, 1, [x]⟩) = .throw (matComplex ⟨1, 1, [.ofReal x]⟩)) ∧
    (∀ u, step (.getMatLong u) (vecBool [true]) = .throw (matReal ⟨1, 1, [F64.ofBool true]⟩)) ∧
    step (.key [97] (.erase [98])) (int 5) = .throw (map [([97], notype)]) ∧
    step (.idx 1 (.erase [98])) (int 5) = .throw (vector [notype, notype]) ∧
    step .collapse (map [([97], vector [int 1]), ([98], vector [pointer 0, int 1])]) =
      .throw (map [([97], vecInt [1]), ([98], vector [pointer 0, int 1])]) := by
  refine ⟨rfl, rfl, ?_, ?_, fun x => rfl, fun x => rfl, fun u => ?_, ?_, ?_, ?_⟩ <;>
    first | decide +kernel | rfl

end GC
end GCV
