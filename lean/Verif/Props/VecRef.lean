import Verif.Spec.MatrixRef
import Verif.Props.Promote
import Verif.Model.At
import Verif.Model.Names
import Verif.Spec.Values

/-!
# C51, C52: references to vectors and matrices

`get_vec_T()` and `get_mat_T()` on a mutable container.  What is done through the reference is the function `upd`; a
call without any write is `upd = id`.
-/

namespace GCV
namespace GC

open F64

def liftVal {α : Type} (c : α → Val) : Res α → Res Val
  | .ok s a => .ok s (c a) | .throw s => .throw s | .ub => .ub | .diverge => .diverge

/-- The four getters of vectors on a mutable container, by the type asked for: the container and what the reference
shows. -/
def vecRef (t : Ty) (g : GC) : Option (Res Val) :=
  match t with
  | .VEC_INTEGER => some (liftVal .vecInt (get_vec_int id g))
  | .VEC_LONG => some (liftVal .vecLong (get_vec_long id g))
  | .VEC_REAL => some (liftVal .vecReal (get_vec_real id g))
  | .VEC_COMPLEX => some (liftVal .vecComplex (get_vec_complex id g))
  | _ => none

/-- The four getters of matrices. -/
def matRef (t : Ty) (g : GC) : Option (Res Val) :=
  match t with
  | .MAT_INTEGER => some (liftVal .matInt (get_mat_int id g))
  | .MAT_LONG => some (liftVal .matLong (get_mat_long id g))
  | .MAT_REAL => some (liftVal .matReal (get_mat_real id g))
  | .MAT_COMPLEX => some (liftVal .matComplex (get_mat_complex id g))
  | _ => none

/-- C51.  Asking a mutable container for a reference to a vector.  An empty container becomes an empty vector.  A vector
of numbers of the same or of a narrower type becomes one of the type asked for with the same numbers (nothing changes
when it has that type already), and the reference shows it.  Everything else is refused and kept. -/
theorem C51_vector_reference (t : Ty) (g : GC) (r : Res Val) (hr : vecRef t g = some r) (hs : sizeOk g = true)
    (hl : holdsReals t = true → LongsExact g) :
    (g.ty = .NOTYPE → ∃ g' v, r = .ok g' v ∧ Holds g' v ∧ v.ty = t ∧ elems g' = []) ∧
    (shape g.ty = 1 → widens g.ty t = true → ∃ g' v, r = .ok g' v ∧ Holds g' v ∧ v.ty = t ∧
      SameElems (elems g) (elems g') ∧ (g.ty = t → g' = g)) ∧
    (g.ty ≠ .NOTYPE → (shape g.ty ≠ 1 ∨ widens g.ty t = false) → r = .throw g) := by
  cases t <;> simp only [vecRef, Option.some.injEq, reduceCtorEq] at hr
  all_goals
    subst hr
    cases g
  all_goals
    refine ⟨fun h => ?_, fun h1 h2 => ?_, fun h1 h2 => ?_⟩
  all_goals
    first
    | contradiction
    | exact absurd rfl h1
    | (simp [shape, widens, width, GC.ty] at h1 h2; done)
    | (simp [shape, widens, width, GC.ty] at h2; done)
    | (simp [shape, GC.ty] at h1; done)
    | rfl
    | exact ⟨_, _, rfl, by constructor, rfl, rfl⟩
    | exact ⟨_, _, rfl, by constructor, rfl, sameElems_refl _, fun _ => rfl⟩
    | (have hs' := of_decide_eq_true hs
       simp only [get_vec_int, get_vec_long, get_vec_real, get_vec_complex, promote_to_vec_int, promote_to_vec_long,
         promote_to_vec_real, promote_to_vec_complex, become_refill _ _ _ hs', Res.bind, get_vec_long.after,
         get_vec_real.after, get_vec_complex.after, liftVal, id]
       refine ⟨_, _, rfl, by constructor, rfl, ?_, fun h => absurd h (by simp [GC.ty])⟩)
  all_goals
    simp only [elems]
    refine sameElems_map _ _ _ _ ?_
    first
    | exact fun x _ => sn_bool_int x | exact fun x _ => sn_bool_long x
    | exact fun x _ => sn_bool_real x | exact fun x _ => sn_bool_complex x
    | exact fun x _ => sn_int_long x | exact fun x _ => sn_int_real x
    | exact fun x _ => sn_int_complex x | exact fun x _ => sn_real_complex x
    | exact fun x hx => sn_long_real (hl rfl x (by simp [elems, hx]))
    | exact fun x hx => sn_long_complex (hl rfl x (by simp [elems, hx]))

example : vecRef .VEC_LONG (vecInt [1, -2]) = some (.ok (vecLong [1, -2]) (.vecLong [1, -2])) ∧
    shape (vecInt [1, -2]).ty = 1 ∧ widens (vecInt [1, -2]).ty .VEC_LONG = true ∧
    vecRef .VEC_INTEGER (vecLong [1]) = some (.throw (vecLong [1])) := ⟨rfl, rfl, rfl, rfl⟩

/-- C51.  What is written through the reference is what the container holds afterwards, and it has the type asked
for. -/
theorem C51_write_through (g : GC) :
    (∀ upd g' v, get_vec_int id g = .ok g' v → get_vec_int upd g = .ok (vecInt (upd v)) v ∧ g' = vecInt v) ∧
    (∀ upd g' v, get_vec_long id g = .ok g' v → get_vec_long upd g = .ok (vecLong (upd v)) v ∧ g' = vecLong v) ∧
    (∀ upd g' v, get_vec_real id g = .ok g' v → get_vec_real upd g = .ok (vecReal (upd v)) v ∧ g' = vecReal v) ∧
    (∀ upd g' v, get_vec_complex id g = .ok g' v →
      get_vec_complex upd g = .ok (vecComplex (upd v)) v ∧ g' = vecComplex v) := by
  refine ⟨fun upd g' v h => ?_, fun upd g' v h => ?_, fun upd g' v h => ?_, fun upd g' v h => ?_⟩ <;> cases g <;>
    simp only [get_vec_int, get_vec_long, get_vec_real, get_vec_complex, Res.ok.injEq, reduceCtorEq] at h ⊢
  all_goals first
    | (obtain ⟨rfl, rfl⟩ := h; exact ⟨⟨rfl, rfl⟩, rfl⟩)
    | (revert h
       generalize promote_to_vec_int _ = p
       cases p <;> simp only [Res.bind, reduceCtorEq, false_implies]
       rename_i s a
       cases s <;> simp only [Res.ok.injEq, reduceCtorEq, false_implies, id]
       rintro ⟨rfl, rfl⟩; exact ⟨⟨rfl, rfl⟩, rfl⟩)
    | (revert h
       generalize promote_to_vec_long _ = p
       cases p <;> simp only [Res.bind, reduceCtorEq, false_implies]
       rename_i s a
       cases s <;> simp only [get_vec_long.after, Res.ok.injEq, reduceCtorEq, false_implies, id]
       rintro ⟨rfl, rfl⟩; exact ⟨⟨rfl, rfl⟩, rfl⟩)
    | (revert h
       generalize promote_to_vec_real _ = p
       cases p <;> simp only [Res.bind, reduceCtorEq, false_implies]
       rename_i s a
       cases s <;> simp only [get_vec_real.after, Res.ok.injEq, reduceCtorEq, false_implies, id]
       rintro ⟨rfl, rfl⟩; exact ⟨⟨rfl, rfl⟩, rfl⟩)
    | (revert h
       generalize promote_to_vec_complex _ = p
       cases p <;> simp only [Res.bind, reduceCtorEq, false_implies]
       rename_i s a
       cases s <;> simp only [get_vec_complex.after, Res.ok.injEq, reduceCtorEq, false_implies, id]
       rintro ⟨rfl, rfl⟩; exact ⟨⟨rfl, rfl⟩, rfl⟩)

example : get_vec_long (fun v => v ++ [7]) (vecInt [1]) = .ok (vecLong [1, 7]) [1] := rfl

/-! ## Matrices -/

/-- C52.  Asking a mutable container for a reference to a matrix.  An empty container becomes a 0 x 0 matrix.  A vector
of n numbers becomes a column of n rows, a narrower matrix one of the type asked for, with the same numbers in the same
positions; everything else is refused and kept.  Partial: apart from the vectors of `badPromotion`. -/
theorem C52_matrix_reference_partial (t : Ty) (g : GC) (r : Res Val) (hr : matRef t g = some r) (hs : sizeOk g = true)
    (hb : badPromotion t g = false) (hl : holdsReals t = true → LongsExact g) :
    (g.ty = .NOTYPE → ∃ g' v, r = .ok g' v ∧ Holds g' v ∧ v.ty = t ∧ v.rows = 0 ∧ v.cols = 0) ∧
    (matAccepts g.ty t = true → ∃ g' v, r = .ok g' v ∧ Holds g' v ∧ v.ty = t ∧
      SameElems (elems g) (elems g') ∧ dimsKept g g' ∧ (g.ty = t → g' = g)) ∧
    (g.ty ≠ .NOTYPE → matAccepts g.ty t = false → r = .throw g) := by
  cases t <;> simp only [matRef, Option.some.injEq, reduceCtorEq] at hr
  all_goals
    subst hr
    cases g
  all_goals
    refine ⟨fun h => ?_, fun h2 => ?_, fun h1 h2 => ?_⟩
  all_goals
    first
    | contradiction
    | exact absurd rfl h1
    | (simp [matAccepts, shape, widens, width, GC.ty] at h2; done)
    | rfl
    | exact ⟨_, _, rfl, by constructor, rfl, rfl, rfl⟩
    | exact ⟨_, _, rfl, by constructor, rfl, sameElems_refl _, rfl, fun _ => rfl⟩
    | (simp only [badPromotion, Bool.not_eq_false', List.isEmpty_iff, reduceCtorEq] at hb; done)
    | (simp only [badPromotion, Bool.not_eq_false', List.isEmpty_iff] at hb
       subst hb
       exact ⟨_, _, rfl, by constructor, rfl, sameElems_refl _, ⟨rfl, rfl⟩, fun h => absurd h (by simp [GC.ty])⟩)
    | (have hs' := of_decide_eq_true hs
       simp only [get_mat_int, get_mat_long, get_mat_real, get_mat_complex, promote_to_mat_int, promote_to_mat_long,
         promote_to_mat_real, promote_to_mat_complex, toColumn_ok _ _ _ hs', Res.bind, get_mat_long.after,
         get_mat_int.after, get_mat_real.after, get_mat_complex.after, liftVal, id]
       refine ⟨_, _, rfl, by constructor, rfl, ?_, ⟨(List.length_map ..).symm, rfl⟩, fun h => absurd h (by simp [GC.ty])⟩)
    | (simp only [get_mat_int, get_mat_long, get_mat_real, get_mat_complex, promote_to_mat_int, promote_to_mat_long,
         promote_to_mat_real, promote_to_mat_complex, become_convMat _ _ _ hs, Res.bind, get_mat_long.after,
         get_mat_int.after, get_mat_real.after, get_mat_complex.after, liftVal, id]
       refine ⟨_, _, rfl, by constructor, rfl, ?_, rfl, fun h => absurd h (by simp [GC.ty])⟩)
  all_goals
    simp only [elems]
    first
    | (rw [List.map_id]; exact sameElems_refl _)
    | refine sameElems_map _ _ _ _ ?_
  all_goals
    first
    | exact fun x _ => sn_bool_int x | exact fun x _ => sn_bool_long x
    | exact fun x _ => sn_bool_real x | exact fun x _ => sn_bool_complex x
    | exact fun x _ => sn_int_long x | exact fun x _ => sn_int_real x
    | exact fun x _ => sn_int_complex x | exact fun x _ => sn_real_complex x
    | exact fun x hx => sn_long_real (hl rfl x (by simp [elems, hx]))
    | exact fun x hx => sn_long_complex (hl rfl x (by simp [elems, hx]))

example : matRef .MAT_REAL (matLong ⟨1, 2, [1, 2]⟩) = some (.ok (matReal ⟨1, 2, [F64.ofI64 1, F64.ofI64 2]⟩)
      (.matReal ⟨1, 2, [F64.ofI64 1, F64.ofI64 2]⟩)) ∧ matAccepts .MAT_LONG .MAT_REAL = true ∧
    badPromotion .MAT_REAL (matLong ⟨1, 2, [1, 2]⟩) = false ∧ sizeOk (matLong ⟨1, 2, [1, 2]⟩) = true :=
  ⟨rfl, rfl, rfl, rfl⟩

/-- C52.  What is written through the reference is what the container holds afterwards. -/
theorem C52_write_through (g : GC) :
    (∀ upd g' m, get_mat_int id g = .ok g' m → get_mat_int upd g = .ok (matInt (upd m)) m ∧ g' = matInt m) ∧
    (∀ upd g' m, get_mat_long id g = .ok g' m → get_mat_long upd g = .ok (matLong (upd m)) m ∧ g' = matLong m) ∧
    (∀ upd g' m, get_mat_real id g = .ok g' m → get_mat_real upd g = .ok (matReal (upd m)) m ∧ g' = matReal m) ∧
    (∀ upd g' m, get_mat_complex id g = .ok g' m →
      get_mat_complex upd g = .ok (matComplex (upd m)) m ∧ g' = matComplex m) := by
  refine ⟨fun upd g' v h => ?_, fun upd g' v h => ?_, fun upd g' v h => ?_, fun upd g' v h => ?_⟩ <;> cases g <;>
    simp only [get_mat_int, get_mat_long, get_mat_real, get_mat_complex, Res.ok.injEq, reduceCtorEq] at h ⊢
  all_goals first
    | (obtain ⟨rfl, rfl⟩ := h; exact ⟨⟨rfl, rfl⟩, rfl⟩)
    | (revert h
       generalize promote_to_mat_int _ = p
       cases p <;> simp only [Res.bind, reduceCtorEq, false_implies]
       rename_i s a
       cases s <;> simp only [get_mat_int.after, Res.ok.injEq, reduceCtorEq, false_implies, id]
       rintro ⟨rfl, rfl⟩; exact ⟨⟨rfl, rfl⟩, rfl⟩)
    | (revert h
       generalize promote_to_mat_long _ = p
       cases p <;> simp only [Res.bind, reduceCtorEq, false_implies]
       rename_i s a
       cases s <;> simp only [get_mat_long.after, Res.ok.injEq, reduceCtorEq, false_implies, id]
       rintro ⟨rfl, rfl⟩; exact ⟨⟨rfl, rfl⟩, rfl⟩)
    | (revert h
       generalize promote_to_mat_real _ = p
       cases p <;> simp only [Res.bind, reduceCtorEq, false_implies]
       rename_i s a
       cases s <;> simp only [get_mat_real.after, Res.ok.injEq, reduceCtorEq, false_implies, id]
       rintro ⟨rfl, rfl⟩; exact ⟨⟨rfl, rfl⟩, rfl⟩)
    | (revert h
       generalize promote_to_mat_complex _ = p
       cases p <;> simp only [Res.bind, reduceCtorEq, false_implies]
       rename_i s a
       cases s <;> simp only [get_mat_complex.after, Res.ok.injEq, reduceCtorEq, false_implies, id]
       rintro ⟨rfl, rfl⟩; exact ⟨⟨rfl, rfl⟩, rfl⟩)

example : get_mat_real (fun m => { m with data := m.data.map fun _ => .zero }) (matInt ⟨1, 1, [3]⟩) =
    .ok (matReal ⟨1, 1, [.zero]⟩) ⟨1, 1, [F64.ofI32 3]⟩ := rfl

/-- The vectors of `badPromotion`: undefined behaviour, or the container is replaced and the call throws. -/
theorem C52_matrix_reference_negation (t : Ty) (g : GC) (r : Res Val) (hr : matRef t g = some r)
    (hs : sizeOk g = true) (hb : badPromotion t g = true) : r = .ub ∨ ∃ g', r = .throw g' ∧ g' ≠ g := by
  cases t <;> simp only [matRef, Option.some.injEq, reduceCtorEq] at hr
  all_goals
    subst hr
    cases g
  all_goals
    first
    | (exact absurd hb (by simp only [badPromotion]; decide))
    | (rename_i v; cases v with
       | nil => exact absurd hb (by simp only [badPromotion]; decide)
       | cons x r => exact .inl rfl)
    | (have hs' := of_decide_eq_true hs
       simp only [get_mat_long, promote_to_mat_long, toColumn_ok _ _ _ hs', Res.bind, get_mat_long.after, liftVal]
       exact .inr ⟨_, rfl, by simp⟩)

example : badPromotion .MAT_INTEGER (vecInt [1]) = true ∧ matRef .MAT_INTEGER (vecInt [1]) = some .ub := ⟨rfl, rfl⟩

end GC
end GCV
