import Verif.Spec.MatrixRef
import Verif.Props.EveryContent
import Verif.Props.VecRef
import Verif.Props.Matrix

/-!
# C98: exactly what references to matrices and to their cells give, for every content
-/

namespace GCV
namespace GC

open F64

theorem refAt2_atCell {α : Type} (up : Mat α → GC) (m : Mat α) (i j : Nat) (upd : α → α) :
    refAt2 up m i j upd = atCell up i j upd m := by
  unfold refAt2 atCell Mat.get Mat.set Mat.index u32
  cases h : m.data[(i + j * m.nr) % 2 ^ 32]? with
  | none =>
    have : m.data.length ≤ (i + j * m.nr) % 2 ^ 32 := List.getElem?_eq_none_iff.1 h
    simp only [h]
  | some x =>
    have : (i + j * m.nr) % 2 ^ 32 < m.data.length := (List.getElem?_eq_some_iff.1 h).1
    simp only [h]
    rw [if_pos this]

theorem matrix_same {α : Type} (up : α → GC) (conv : GC → α) (h : ∀ x, conv (up x) = x) (m : Mat α) :
    (⟨m.nr, m.nc, (m.data.map up).map conv⟩ : Mat α) = m := by
  have : (m.data.map up).map conv = m.data := by
    rw [List.map_map]; conv_rhs => rw [← List.map_id m.data]
    exact List.map_congr_left fun x _ => h x
  rw [this]

theorem promote_through {α β : Type} (t : Ty) (accepts : Ty → Ty → Bool) (up : Mat β → GC) (conv : GC → β)
    (after : GC → Unit → Res α) (use : Mat β → Res α) (g : GC) (ht : promotable t = true) (hs : sizeOk g = true)
    (ha : accepts g.ty t = true) (hc : accepted g.ty t = true) (hup : inType t g = up (matrixOf conv g))
    (hafter : ∀ m, after (up m) () = use m)
    (hother : landing g.ty t ≠ t → after (inType (landing g.ty t) g) () = .throw (inType (landing g.ty t) g)) :
    (promoteTo t g).bind after = throughMatrix t accepts conv use g := by
  rw [C91_promote t g ht hs, throughMatrix, if_pos ha, hc]
  cases wrongMember t g with
  | true => rfl
  | false =>
    simp only [Bool.false_eq_true, if_false, if_true, Res.bind]
    by_cases hl : landing g.ty t = t
    · rw [if_pos hl, hl, hup, hafter]
    · rw [if_neg hl, hother hl]

theorem through_same {α β : Type} (t : Ty) (accepts : Ty → Ty → Bool) (up : β → GC) (conv : GC → β) (use : Mat β → Res α)
    (g : GC) (m : Mat β) (ha : accepts g.ty t = true) (hw : wrongMember t g = false) (hl : landing g.ty t = t)
    (hconv : ∀ x, conv (up x) = x) (hm : matrixOf conv g = ⟨m.nr, m.nc, (m.data.map up).map conv⟩) :
    use m = throughMatrix t accepts conv use g := by
  rw [throughMatrix, if_pos ha, hw, if_neg (by simp), if_pos hl, hm, matrix_same up conv hconv]

/-- **C98.** Asking any container for a reference to a matrix of a type, with any update made through it. -/
theorem C98_reference (g : GC) (hs : sizeOk g = true) :
    (∀ upd, get_mat_int upd g =
      if g.ty = .NOTYPE then .ok (matInt (upd ⟨0, 0, []⟩)) ⟨0, 0, []⟩
      else throughMatrix .MAT_INTEGER matAccepts asInt (fun m => .ok (matInt (upd m)) m) g) ∧
    (∀ upd, get_mat_long upd g =
      if g.ty = .NOTYPE then .ok (matLong (upd ⟨0, 0, []⟩)) ⟨0, 0, []⟩
      else throughMatrix .MAT_LONG matAccepts asLong (fun m => .ok (matLong (upd m)) m) g) ∧
    (∀ upd, get_mat_real upd g =
      if g.ty = .NOTYPE then .ok (matReal (upd ⟨0, 0, []⟩)) ⟨0, 0, []⟩
      else throughMatrix .MAT_REAL matAccepts asReal (fun m => .ok (matReal (upd m)) m) g) ∧
    (∀ upd, get_mat_complex upd g =
      if g.ty = .NOTYPE then .ok (matComplex (upd ⟨0, 0, []⟩)) ⟨0, 0, []⟩
      else throughMatrix .MAT_COMPLEX matAccepts asComplex (fun m => .ok (matComplex (upd m)) m) g) := by
  refine ⟨fun upd => ?_, fun upd => ?_, fun upd => ?_, fun upd => ?_⟩
  · cases g <;> first
      | rfl
      | (refine Eq.trans ?_ (if_neg (by simp [GC.ty])).symm
         first
         | exact promote_through .MAT_INTEGER matAccepts matInt asInt (get_mat_int.after upd) _ _ rfl hs rfl rfl rfl
             (fun _ => rfl) (fun h => absurd rfl h)
         | exact through_same .MAT_INTEGER matAccepts int asInt (fun m => .ok (matInt (upd m)) m) _ _ rfl rfl rfl (fun _ => rfl) rfl
         | exact (congrArg (fun r => Res.bind r (get_mat_int.after upd)) (C91_promote .MAT_INTEGER _ rfl hs)))
  · cases g <;> first
      | rfl
      | (refine Eq.trans ?_ (if_neg (by simp [GC.ty])).symm
         first
         | exact promote_through .MAT_LONG matAccepts matLong asLong (get_mat_long.after upd) _ _ rfl hs rfl rfl rfl
             (fun _ => rfl) (fun h => by first | exact absurd rfl h | rfl)
         | exact through_same .MAT_LONG matAccepts long asLong (fun m => .ok (matLong (upd m)) m) _ _ rfl rfl rfl (fun _ => rfl) rfl
         | exact (congrArg (fun r => Res.bind r (get_mat_long.after upd)) (C91_promote .MAT_LONG _ rfl hs)))
  · cases g <;> first
      | rfl
      | (refine Eq.trans ?_ (if_neg (by simp [GC.ty])).symm
         first
         | exact promote_through .MAT_REAL matAccepts matReal asReal (get_mat_real.after upd) _ _ rfl hs rfl rfl rfl
             (fun _ => rfl) (fun h => absurd rfl h)
         | exact through_same .MAT_REAL matAccepts real asReal (fun m => .ok (matReal (upd m)) m) _ _ rfl rfl rfl (fun _ => rfl) rfl
         | exact (congrArg (fun r => Res.bind r (get_mat_real.after upd)) (C91_promote .MAT_REAL _ rfl hs)))
  · cases g <;> first
      | rfl
      | (refine Eq.trans ?_ (if_neg (by simp [GC.ty])).symm
         first
         | exact promote_through .MAT_COMPLEX matAccepts matComplex asComplex (get_mat_complex.after upd) _ _ rfl hs rfl rfl rfl
             (fun _ => rfl) (fun h => absurd rfl h)
         | exact through_same .MAT_COMPLEX matAccepts complex asComplex (fun m => .ok (matComplex (upd m)) m) _ _ rfl rfl rfl (fun _ => rfl) rfl
         | exact (congrArg (fun r => Res.bind r (get_mat_complex.after upd)) (C91_promote .MAT_COMPLEX _ rfl hs)))

example : get_mat_long id (vecBool [true]) = .throw (matReal ⟨1, 1, [F64.ofBool true]⟩) ∧
    get_mat_real id (vecInt [3]) = .ok (matReal ⟨1, 1, [F64.ofI32 3]⟩) ⟨1, 1, [F64.ofI32 3]⟩ :=
  ⟨(C98_reference _ rfl).2.1 _, (C98_reference _ rfl).2.2.1 _⟩

/-- **C98.** `get_T_at(i,j)` on any container, with any update made through the reference. -/
theorem C98_cell (g : GC) (hs : sizeOk g = true) (i j : Nat) :
    (∀ upd, get_int_at2 i j upd g =
      if g.ty = .NOTYPE then .throw (matReal (zeros .zero i j))
      else throughMatrix .MAT_INTEGER cellAccepts asInt (atCell matInt i j upd) g) ∧
    (∀ upd, get_long_at2 i j upd g =
      if g.ty = .NOTYPE then .throw (matReal (zeros .zero i j))
      else throughMatrix .MAT_LONG cellAccepts asLong (atCell matLong i j upd) g) ∧
    (∀ upd, get_real_at2 i j upd g =
      if g.ty = .NOTYPE then atCell matReal i j upd (zeros .zero i j)
      else throughMatrix .MAT_REAL cellAccepts asReal (atCell matReal i j upd) g) ∧
    (∀ upd, get_complex_at2 i j upd g =
      if g.ty = .NOTYPE then atCell matComplex i j upd (zeros .zero i j)
      else throughMatrix .MAT_COMPLEX cellAccepts asComplex (atCell matComplex i j upd) g) := by
  refine ⟨fun upd => ?_, fun upd => ?_, fun upd => ?_, fun upd => ?_⟩
  · cases g <;> first
      | rfl
      | (refine Eq.trans ?_ (if_neg (by simp [GC.ty])).symm
         first
         | exact promote_through .MAT_INTEGER cellAccepts matInt asInt (get_int_at2.after i j upd) _ _ rfl hs rfl rfl rfl
             (fun m => refAt2_atCell _ m _ _ _) (fun h => absurd rfl h)
         | exact (refAt2_atCell _ _ _ _ _).trans
             (through_same .MAT_INTEGER cellAccepts int asInt (atCell matInt i j upd) _ _ rfl rfl rfl (fun _ => rfl) rfl))
  · cases g <;> first
      | rfl
      | (refine Eq.trans ?_ (if_neg (by simp [GC.ty])).symm
         first
         | exact promote_through .MAT_LONG cellAccepts matLong asLong (get_long_at2.after i j upd) _ _ rfl hs rfl rfl rfl
             (fun m => refAt2_atCell _ m _ _ _) (fun h => by first | exact absurd rfl h | rfl)
         | exact (refAt2_atCell _ _ _ _ _).trans
             (through_same .MAT_LONG cellAccepts long asLong (atCell matLong i j upd) _ _ rfl rfl rfl (fun _ => rfl) rfl))
  · cases g <;> first
      | rfl
      | exact refAt2_atCell _ _ _ _ _
      | (refine Eq.trans ?_ (if_neg (by simp [GC.ty])).symm
         first
         | exact promote_through .MAT_REAL cellAccepts matReal asReal (get_real_at2.after i j upd) _ _ rfl hs rfl rfl rfl
             (fun m => refAt2_atCell _ m _ _ _) (fun h => absurd rfl h)
         | exact (refAt2_atCell _ _ _ _ _).trans
             (through_same .MAT_REAL cellAccepts real asReal (atCell matReal i j upd) _ _ rfl rfl rfl (fun _ => rfl) rfl))
  · cases g <;> first
      | rfl
      | exact refAt2_atCell _ _ _ _ _
      | (refine Eq.trans ?_ (if_neg (by simp [GC.ty])).symm
         first
         | exact promote_through .MAT_COMPLEX cellAccepts matComplex asComplex (get_complex_at2.after i j upd) _ _ rfl hs rfl rfl rfl
             (fun m => refAt2_atCell _ m _ _ _) (fun h => absurd rfl h)
         | exact (refAt2_atCell _ _ _ _ _).trans
             (through_same .MAT_COMPLEX cellAccepts complex asComplex (atCell matComplex i j upd) _ _ rfl rfl rfl (fun _ => rfl) rfl)
         | exact (congrArg (fun r => Res.bind r (get_complex_at2.after i j upd)) (C91_promote .MAT_COMPLEX _ rfl hs)))

/-- **C98**, the const calls: get_int_at and get_long_at check row and column; get_real_at checks that the row is less than the
number of stored elements, get_complex_at checks nothing more than that the flat position exists. -/
theorem C98_cell_const (g : GC) (i j : Nat) :
    (∀ x, get_int_at2_c i j g = .ok x ↔
      ∃ m, g = matInt m ∧ i < m.nr ∧ j < m.nc ∧ m.data[(i + j * m.nr) % 2 ^ 32]? = some x) ∧
    (∀ x, get_long_at2_c i j g = .ok x ↔
      ∃ m, g = matLong m ∧ i < m.nr ∧ j < m.nc ∧ m.data[(i + j * m.nr) % 2 ^ 32]? = some x) ∧
    (∀ x, get_real_at2_c i j g = .ok x ↔
      ∃ m, g = matReal m ∧ i < m.data.length ∧ m.data[(i + j * m.nr) % 2 ^ 32]? = some x) ∧
    (∀ x, get_complex_at2_c i j g = .ok x ↔
      ∃ m, g = matComplex m ∧ m.data[(i + j * m.nr) % 2 ^ 32]? = some x) ∧
    (get_int_at2_c i j g = .throw ∨ ∃ x, get_int_at2_c i j g = .ok x) ∧
    (get_long_at2_c i j g = .throw ∨ ∃ x, get_long_at2_c i j g = .ok x) ∧
    (get_real_at2_c i j g = .throw ∨ ∃ x, get_real_at2_c i j g = .ok x) ∧
    (get_complex_at2_c i j g = .throw ∨ ∃ x, get_complex_at2_c i j g = .ok x) := by
  have get : ∀ {α : Type} (m : Mat α) (x : α), m.get i j = .ok x ↔ m.data[(i + j * m.nr) % 2 ^ 32]? = some x :=
    fun m x => (C13_unchecked_partial m i j).1 x
  have two : ∀ {α : Type} (m : Mat α), m.get i j = .throw ∨ ∃ x, m.get i j = .ok x := fun m => by
    rcases C13_no_overrun m i j with ⟨x, -, h⟩ | h
    · exact .inr ⟨x, h⟩
    · exact .inl h
  refine ⟨fun x => ?_, fun x => ?_, fun x => ?_, fun x => ?_, ?_, ?_, ?_, ?_⟩
  · cases g <;> first
      | (rename_i m
         rw [get_int_at2_c]
         by_cases h : i < m.nr ∧ j < m.nc
         · rw [if_pos h, get]; simp [h.1, h.2]
         · rw [if_neg h]; simp only [reduceCtorEq, matInt.injEq, exists_eq_left', false_iff]; exact fun h' => h ⟨h'.1, h'.2.1⟩)
      | simp [get_int_at2_c]
  · cases g <;> first
      | (rename_i m
         rw [get_long_at2_c]
         by_cases h : i < m.nr ∧ j < m.nc
         · rw [if_pos h, get]; simp [h.1, h.2]
         · rw [if_neg h]; simp only [reduceCtorEq, matLong.injEq, exists_eq_left', false_iff]; exact fun h' => h ⟨h'.1, h'.2.1⟩)
      | simp [get_long_at2_c]
  · cases g <;> first
      | (rename_i m
         rw [get_real_at2_c]
         by_cases h : i < m.data.length
         · rw [if_pos h, get]; simp [h]
         · rw [if_neg h]; simp only [reduceCtorEq, matReal.injEq, exists_eq_left', false_iff]; exact fun h' => h h'.1)
      | simp [get_real_at2_c]
  · cases g <;> first
      | (rename_i m
         rw [get_complex_at2_c, get]; simp)
      | simp [get_complex_at2_c]
  · cases g <;> first
      | (rename_i m; rw [get_int_at2_c]; split
         · exact two m
         · exact .inl rfl)
      | exact .inl rfl
  · cases g <;> first
      | (rename_i m; rw [get_long_at2_c]; split
         · exact two m
         · exact .inl rfl)
      | exact .inl rfl
  · cases g <;> first
      | (rename_i m; rw [get_real_at2_c]; split
         · exact two m
         · exact .inl rfl)
      | exact .inl rfl
  · cases g <;> first
      | exact two _
      | exact .inl rfl

end GC
end GCV
