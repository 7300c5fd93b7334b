import Verif.Lemmas.Promote

/-!
# C15: promotions keep the numbers and their positions; C14: push appends
-/

namespace GCV
namespace GC

open F64

/-- `promote_to_X`, by the type asked for. -/
def promoteTo (t : Ty) (g : GC) : Res Unit :=
  match t with
  | .INTEGER => promote_to_int g
  | .LONG => promote_to_long g
  | .REAL => promote_to_real g
  | .COMPLEX => promote_to_complex g
  | .VEC_INTEGER => promote_to_vec_int g
  | .VEC_LONG => promote_to_vec_long g
  | .VEC_REAL => promote_to_vec_real g
  | .VEC_COMPLEX => promote_to_vec_complex g
  | .MAT_INTEGER => promote_to_mat_int g
  | .MAT_LONG => promote_to_mat_long g
  | .MAT_REAL => promote_to_mat_real g
  | .MAT_COMPLEX => promote_to_mat_complex g
  | _ => .throw g

/-- The types to which a promotion exists, `promote_to_vector` apart. -/
def promotable (t : Ty) : Bool :=
  match t with
  | .INTEGER | .LONG | .REAL | .COMPLEX | .VEC_INTEGER | .VEC_LONG | .VEC_REAL | .VEC_COMPLEX
  | .MAT_INTEGER | .MAT_LONG | .MAT_REAL | .MAT_COMPLEX => true
  | _ => false

/-- The widenings the library gets wrong: vectors to COMPLEX, VEC_BOOL and VEC_INTEGER to
MAT_INTEGER, VEC_BOOL to MAT_LONG, vectors to MAT_COMPLEX. -/
def badPromotion (t : Ty) (g : GC) : Bool :=
  match t, g with
  | .COMPLEX, vecBool _ | .COMPLEX, vecInt _ | .COMPLEX, vecLong _ | .COMPLEX, vecReal _ => true
  | .MAT_INTEGER, vecBool v => !v.isEmpty
  | .MAT_INTEGER, vecInt v => !v.isEmpty
  | .MAT_LONG, vecBool _ => true
  | .MAT_COMPLEX, vecBool v => !v.isEmpty
  | .MAT_COMPLEX, vecInt v => !v.isEmpty
  | .MAT_COMPLEX, vecLong v => !v.isEmpty
  | .MAT_COMPLEX, vecReal v => !v.isEmpty
  | _, _ => false

/-- The type holds floating point numbers. -/
def holdsReals (t : Ty) : Bool := (width t).any (3 ≤ ·)

/-- Rows and columns of `g'` once `g` has been promoted to it: a scalar is 1 x 1, a vector of
`n` elements is `n` x 1, a matrix keeps its sizes. -/
def dimsKept (g g' : GC) : Prop :=
  match dims g' with
  | none => True
  | some (r, c) =>
    match dims g with
    | some d => d = (r, c)
    | none => r = (elems g).length ∧ c = 1
where
  dims : GC → Option (Nat × Nat)
    | matInt m => some (m.nr, m.nc)
    | matLong m => some (m.nr, m.nc)
    | matReal m => some (m.nr, m.nc)
    | matComplex m => some (m.nr, m.nc)
    | _ => none

theorem become_refill {α β : Type} (d : β) (f : α → β) (up : List β → GC) {v : List α}
    (h : v.length < 2 ^ 32) :
    become ((refill d f v).bind fun w => .ok (up w)) = .ok (up (v.map f)) () := by
  rw [refill_ok d f h]; rfl

theorem become_convMat {α β : Type} (d : β) (f : α → β) (up : Mat β → GC) {m : Mat α}
    (h : m.wf = true) :
    become ((convMat d f m).bind fun w => .ok (up w)) = .ok (up ⟨m.nr, m.nc, m.data.map f⟩) () := by
  rw [convMat_ok d f h]; rfl

theorem if_left {b : Bool} {P Q : Prop} (hb : b = true) (h : P) :
    if b = true then P else Q := by rw [if_pos hb]; exact h

theorem if_right {b : Bool} {P Q : Prop} (hb : b = false) (h : Q) :
    if b = true then P else Q := by rw [if_neg (by simp [hb])]; exact h

/-- **C15.** A container that is not empty, promoted to a type `t`: when `t` is at least as wide
(in number type and shape) the call succeeds, the container has type `t` and holds the same
numbers in the same positions; otherwise the call throws and the container is as before.
Partial: apart from `badPromotion` and `refused`, and for longs of at most 2^53 in
magnitude when the new type is real or complex. -/
theorem C15_promote_partial (t : Ty) (g : GC) (ht : promotable t = true) (hn : g ≠ notype)
    (hs : sizeOk g = true) (hb : badPromotion t g = false)
    (hl : holdsReals t = true → LongsExact g) :
    if widens g.ty t && !refused g.ty t then
      ∃ g', promoteTo t g = .ok g' () ∧ g'.ty = t ∧ SameElems (elems g) (elems g') ∧ dimsKept g g'
    else promoteTo t g = .throw g := by
  cases g <;> cases t <;>
    first
    | (exact absurd ht (by decide))
    | (exact absurd rfl hn)
    | (exact absurd hb (by simp only [badPromotion]; decide))
    | (exact if_right rfl rfl)
    | (simp only [badPromotion, Bool.not_eq_false', List.isEmpty_iff] at hb
       subst hb
       refine if_left rfl ⟨_, rfl, rfl, ?_, ?_⟩)
    | (refine if_left rfl ⟨_, rfl, rfl, ?_, ?_⟩)
    | (have hs' := of_decide_eq_true hs
       refine if_left rfl ⟨_, become_refill _ _ _ hs', rfl, ?_, ?_⟩)
    | (have hs' := of_decide_eq_true hs
       refine if_left rfl ⟨_, toColumn_ok _ _ _ hs', rfl, ?_, ?_⟩)
    | (refine if_left rfl ⟨_, become_convMat _ _ _ hs, rfl, ?_, ?_⟩)
  all_goals
    first
    | exact trivial
    | exact rfl
    | exact ⟨rfl, rfl⟩
    | exact ⟨(List.length_map ..).symm, rfl⟩
    | exact sameElems_refl _
    | skip
  all_goals
    simp only [elems, List.map_nil, List.map_cons, List.map_id]
    first
    | exact sameElems_refl _
    | refine sameElems_one ?_
    | refine sameElems_map _ _ _ _ ?_
  all_goals
    first
    | exact sn_bool_int _ | exact sn_bool_long _ | exact sn_bool_real _ | exact sn_bool_complex _
    | exact sn_int_long _ | exact sn_int_real _ | exact sn_int_complex _
    | exact sn_real_complex _
    | exact sn_long_real (hl rfl _ (by simp [elems]))
    | exact sn_long_complex (hl rfl _ (by simp [elems]))
    | exact fun x _ => sn_bool_int x | exact fun x _ => sn_bool_long x
    | exact fun x _ => sn_bool_real x | exact fun x _ => sn_bool_complex x
    | exact fun x _ => sn_int_long x | exact fun x _ => sn_int_real x
    | exact fun x _ => sn_int_complex x | exact fun x _ => sn_real_complex x
    | exact fun x hx => sn_long_real (hl rfl x (by simp [elems, hx]))
    | exact fun x hx => sn_long_complex (hl rfl x (by simp [elems, hx]))

/-- The hypotheses are met and the promotion does change the container. -/
example : promoteTo .MAT_REAL (vecLong [1, 2]) =
    .ok (matReal ⟨2, 1, [F64.ofI64 1, F64.ofI64 2]⟩) () ∧
    sizeOk (vecLong [1, 2]) = true ∧ badPromotion .MAT_REAL (vecLong [1, 2]) = false := by
  exact ⟨toColumn_ok .zero F64.ofI64 matReal (v := [1, 2]) (by decide), rfl, rfl⟩

/-- An empty container is promoted to the number zero (a vector of one zero, a 1 x 1 matrix). -/
theorem C15_promote_empty (t : Ty) (ht : promotable t = true) :
    ∃ g' z, promoteTo t notype = .ok g' () ∧ g'.ty = t ∧ elems g' = [z] ∧ numValue z = some 0 := by
  cases t <;> first
    | (exact absurd ht (by decide))
    | (refine ⟨_, _, rfl, rfl, rfl, ?_⟩; first | rfl | decide | simp [numValue])

/-- The claim is false for the promotions of `badPromotion`: either undefined behaviour or a
container of another type. -/
theorem C15_promote_negation (t : Ty) (g : GC) (hs : sizeOk g = true)
    (hb : badPromotion t g = true) :
    promoteTo t g = .ub ∨ ∃ g', promoteTo t g = .ok g' () ∧ g'.ty ≠ t := by
  cases t <;> cases g <;> first
    | (exact absurd hb (by simp only [badPromotion]; decide))
    | (have hs' := of_decide_eq_true hs
       refine .inr ⟨_, become_refill _ _ _ hs', by simp [GC.ty]⟩)
    | (have hs' := of_decide_eq_true hs
       refine .inr ⟨_, toColumn_ok _ _ _ hs', by simp [GC.ty]⟩)
    | (rename_i v; cases v with
       | nil => exact absurd hb (by simp only [badPromotion]; decide)
       | cons x r => exact .inl rfl)

/-- A widening that is refused (and must not be according to the documentation). -/
theorem C15_refused_negation (l : I64) (c : Cplx) (v : List Cplx) :
    promoteTo .MAT_LONG (long l) = .throw (long l) ∧
    promoteTo .MAT_REAL (long l) = .throw (long l) ∧
    promoteTo .MAT_COMPLEX (complex c) = .throw (complex c) ∧
    promoteTo .MAT_COMPLEX (vecComplex v) = .throw (vecComplex v) := ⟨rfl, rfl, rfl, rfl⟩

/-- Longs over 2^53 are rounded when promoted to real. -/
theorem C15_long_negation : ∃ g g', promoteTo .REAL g = .ok g' () ∧
    ¬ SameElems (elems g) (elems g') := by
  refine ⟨long (BitVec.ofNat 64 (2 ^ 53 + 1)), _, rfl, ?_⟩
  intro h
  have := h.2 0 _ _ rfl rfl
  rcases this with h | ⟨q, h1, h2⟩ | ⟨r, h, _⟩
  · exact absurd h (by simp)
  · rw [real_value] at h2
    have e : F64.ofI64 (BitVec.ofNat 64 (2 ^ 53 + 1)) = F64.ofInt (2 ^ 53) := by decide +kernel
    rw [e, value_ofInt (by decide)] at h2
    rw [show numValue (long (BitVec.ofNat 64 (2 ^ 53 + 1))) = some (((2 ^ 53 + 1 : Int)) * unit) from by
      simp only [numValue]; congr 2] at h1
    rw [← h2] at h1
    simp only [Option.some.injEq] at h1
    have := mul_unit_inj h1
    exact absurd this (by decide)
  · exact absurd h (by simp)

/-- **C15** for `promote_to_vector`: every vector becomes a vector of containers with the same
values in the same positions.  Partial: not for scalars, see the negation. -/
theorem C15_promote_vector_partial (g : GC) (hs : sizeOk g = true)
    (h1 : shape g.ty = 1 ∨ g.ty = .VECTOR) :
    promote_to_vector g = .ok (vector (elems g)) () := by
  cases g <;> first
    | (simp [shape, GC.ty] at h1; done)
    | rfl
    | (have hs' := of_decide_eq_true hs
       exact become_refill _ _ _ hs')

example : promote_to_vector (vecReal [.zero, .zero]) = .ok (vector [real .zero, real .zero]) () :=
  C15_promote_vector_partial _ rfl (.inl rfl)

/-- Matrices and maps are refused and stay as they are. -/
theorem C15_promote_vector_refused (g : GC) (h1 : shape g.ty = 2 ∨ g.ty = .MAP) :
    promote_to_vector g = .throw g := by
  cases g <;> first
    | (simp [shape, GC.ty] at h1; done)
    | rfl

/-- Every scalar promoted to a vector is read after its storage has been reused. -/
theorem C15_promote_vector_negation (g : GC) (h0 : shape g.ty = 0) (h1 : g.ty ≠ .NOTYPE)
    (h2 : g.ty ≠ .VECTOR) (h3 : g.ty ≠ .MAP) : promote_to_vector g = .ub := by
  cases g <;> first
    | rfl
    | (simp [shape, GC.ty] at h0; done)
    | (exact absurd rfl h1)
    | (exact absurd rfl h2)
    | (exact absurd rfl h3)

end GC
end GCV
