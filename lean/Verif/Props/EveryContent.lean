import Verif.Spec.EveryContent
import Verif.Props.At

/-!
# C91 to C93: promotion, push and positional access, for every content
-/

namespace GCV
namespace GC

open F64

/-! ## C91: promotion -/

theorem if3_ub {α : Type} {a b : Bool} {x y z : α} (h : a = true) :
    (if a = true then x else if b = true then y else z) = x := if_pos h

theorem if3_ok {α : Type} {a b : Bool} {x y z : α} (h : a = false) (h' : b = true) :
    (if a = true then x else if b = true then y else z) = y := by
  rw [if_neg (by simp [h]), if_pos h']

theorem if3_throw {α : Type} {a b : Bool} {x y z : α} (h : a = false) (h' : b = false) :
    (if a = true then x else if b = true then y else z) = z := by
  rw [if_neg (by simp [h]), if_neg (by simp [h'])]

theorem map_same {α β γ : Type} (v : List α) (up : α → β) (f : β → γ) (k : α → γ)
    (h : ∀ x, f (up x) = k x) : (v.map up).map f = v.map k := by
  rw [List.map_map]; exact List.map_congr_left fun x _ => h x

/-- **C91.** Exactly what `promote_to_T` does with every content: undefined when the new matrix is written
through the wrong member, else the numbers in the (landing) type, else an exception and nothing changed. -/
theorem C91_promote (t : Ty) (g : GC) (ht : promotable t = true) (hs : sizeOk g = true) :
    promoteTo t g =
      if wrongMember t g then .ub
      else if accepted g.ty t then .ok (inType (landing g.ty t) g) ()
      else .throw g := by
  cases g <;> cases t <;>
    first
    | (exact absurd ht (by decide))
    | (exact (if3_throw rfl rfl).symm)
    | (exact (if3_ok rfl rfl).symm)
    | (have hs' := of_decide_eq_true hs
       refine Eq.trans ((become_refill _ _ _ hs').trans ?_) (if3_ok rfl rfl).symm)
    | (have hs' := of_decide_eq_true hs
       refine Eq.trans ((toColumn_ok _ _ _ hs').trans ?_) (if3_ok rfl rfl).symm)
    | (refine Eq.trans ((become_convMat _ _ _ hs).trans ?_) (if3_ok rfl rfl).symm)
    | (refine Eq.trans ?_ (if3_ok rfl rfl).symm)
    | (rename_i v; cases v with
       | nil => exact (if3_ok rfl rfl).symm
       | cons x r => exact (if3_ub rfl).symm)
  all_goals
    simp only [landing, vectorForComplex, GC.ty, inType, cells, elems, tall, wide, List.map_map, List.length_map]
    first
    | rfl
    | (simp [Function.comp_def, asInt, asLong, asReal, asComplex, Cplx.ofReal, promoteTo, promote_to_vec_int,
         promote_to_vec_long, promote_to_vec_real, promote_to_vec_complex, promote_to_mat_int, promote_to_mat_long,
         promote_to_mat_real, promote_to_mat_complex]; done)

example : promoteTo .MAT_LONG (vecBool [true]) = .ok (matReal ⟨1, 1, [F64.ofBool true]⟩) () ∧
    promoteTo .MAT_INTEGER (vecInt [5]) = .ub ∧ promoteTo .VEC_INTEGER (vecReal []) = .throw (vecReal []) := by
  refine ⟨?_, ?_, ?_⟩ <;> exact C91_promote _ _ rfl rfl

/-- **C91** for `promote_to_vector`. -/
theorem C91_vector (g : GC) (hs : sizeOk g = true) :
    promote_to_vector g =
      if g = notype then .ok (vector [notype]) ()
      else if shape g.ty = 1 ∨ g.ty = .VECTOR then .ok (vector (elems g)) ()
      else if shape g.ty = 2 ∨ g.ty = .MAP then .throw g
      else .ub := by
  by_cases h0 : g = notype
  · subst h0; rfl
  · rw [if_neg h0]
    by_cases h1 : shape g.ty = 1 ∨ g.ty = .VECTOR
    · rw [if_pos h1]; exact C15_promote_vector_partial g hs h1
    · rw [if_neg h1]
      by_cases h2 : shape g.ty = 2 ∨ g.ty = .MAP
      · rw [if_pos h2]; exact C15_promote_vector_refused g h2
      · rw [if_neg h2]
        cases g <;> first
          | rfl
          | (exact absurd rfl h0)
          | (exact absurd (.inl rfl) h1)
          | (exact absurd (.inr rfl) h1)
          | (exact absurd (.inl rfl) h2)
          | (exact absurd (.inr rfl) h2)

/-! ## C92: push -/

/-- `push_T`, by the value pushed. -/
def pushValue (x : GC) (g : GC) : Res Unit :=
  match x with
  | bool b => push_bool b g
  | int i => push_int i g
  | long l => push_long l g
  | real r => push_real r g
  | complex c => push_complex c g
  | string s => push_string s g
  | _ => .throw g

/-- **C92.** Pushing a number: behind the elements of a vector whose type is as wide or that takes anything, else
(not for a boolean) behind the content in the type of the number if that is as wide, else an exception and nothing
changed. -/
theorem C92_number (x g : GC) (hx : number x = true) (hs : sizeOk g = true) :
    pushValue x g =
      if g.ty == .VECTOR || (shape g.ty == 1 && widens x.ty g.ty) then .ok (appended x g) ()
      else if x.ty != .BOOL && accepted g.ty (vecOf x.ty) then
        .ok (appended x (inType (vecOf x.ty) g)) ()
      else .throw g := by
  cases x <;>
    first
    | (exfalso; simp [number, shape, width, GC.ty] at hx; done)
    | skip
  all_goals
    cases g <;>
    first
    | (exact (if3_ub rfl).symm)
    | (exact (if3_ok rfl rfl).symm)
    | (exact (if3_throw rfl rfl).symm)
    | (have hs' := of_decide_eq_true hs
       refine Eq.trans ?_ (if3_ok rfl rfl).symm
       simp only [pushValue, push_int, push_long, push_real, push_complex, promote_to_vec_int, promote_to_vec_long,
         promote_to_vec_real, promote_to_vec_complex, become_refill _ _ _ hs']
       simp [Res.bind, vecOf, GC.ty, inType, cells, elems, appended, asInt, asLong, asReal, asComplex,
         Cplx.ofReal, Function.comp_def]; done)
    | (rename_i a b; cases a <;> rfl)
    | skip

example : pushValue (long 7) (vecBool [true, false]) = .ok (vecLong [1, 0, 7]) () ∧
    pushValue (int 7) notype = .ok (vecInt [0, 7]) () ∧ pushValue (bool true) notype = .throw notype := by
  refine ⟨?_, ?_, ?_⟩ <;> exact C92_number _ _ rfl rfl

/-- **C92** for strings. -/
theorem C92_string (s : Bytes) (g : GC) (hs : sizeOk g = true) :
    pushValue (string s) g =
      if g.ty = .VEC_STRING then .ok (appended (string s) g) ()
      else if g = notype then .ok (vector [notype, string s]) ()
      else if shape g.ty = 1 ∨ g.ty = .VECTOR then .ok (vector (elems g ++ [string s])) ()
      else if shape g.ty = 2 ∨ g.ty = .MAP then .throw g
      else .ub := by
  by_cases h : g.ty = .VEC_STRING
  · rw [if_pos h]
    cases g <;> first
      | rfl
      | (exact absurd h (by simp [GC.ty]))
  · rw [if_neg h]
    have e : pushValue (string s) g = (promote_to_vector g).bind fun g' _ =>
        match g' with | vector v => .ok (vector (v ++ [string s])) () | _ => .ub := by
      cases g <;> first
        | rfl
        | exact absurd rfl h
    rw [e, C91_vector g hs]
    by_cases h0 : g = notype
    · rw [if_pos h0, if_pos h0]; rfl
    · rw [if_neg h0, if_neg h0]
      by_cases h1 : shape g.ty = 1 ∨ g.ty = .VECTOR
      · rw [if_pos h1, if_pos h1]; rfl
      · rw [if_neg h1, if_neg h1]
        by_cases h2 : shape g.ty = 2 ∨ g.ty = .MAP
        · rw [if_pos h2]; rfl
        · rw [if_neg h2]; rfl

example : pushValue (string [97]) (vecInt [1]) = .ok (vector [int 1, string [97]]) () ∧
    pushValue (string [97]) (int 1) = .ub := by
  refine ⟨?_, ?_⟩ <;> exact C92_string _ _ rfl

/-! ## C93: positional access -/

theorem checkResize_grown {α : Type} (d : α) (v : List α) (i : Nat) (h : i + 1 < 2 ^ 32) :
    checkResize d i v = grown d v i := by
  unfold checkResize grown
  by_cases h' : v.length ≤ i
  · rw [if_pos h', u32_of_lt h]
    unfold resizeL
    rw [List.take_of_length_le (by omega)]
  · rw [if_neg h', Nat.sub_eq_zero_of_le (by omega), List.replicate_zero, List.append_nil]

theorem grown_get {α : Type} (d : α) (v : List α) (i : Nat) : (grown d v i)[i]? = some ((v[i]?).getD d) := by
  unfold grown
  by_cases h' : i < v.length
  · rw [List.getElem?_append_left h', List.getElem?_eq_getElem h']; rfl
  · rw [List.getElem?_append_right (by omega), List.getElem?_replicate, if_pos (by omega),
      List.getElem?_eq_none (by omega)]; rfl

theorem refAt_onVector {α : Type} (d : α) (up : List α → GC) (v : List α) (i : Nat) (upd : α → α)
    (h : i + 1 < 2 ^ 32) : refAt d up v i upd = onVector d up v i upd := by
  unfold refAt onVector
  simp only [checkResize_grown d v i h, grown_get]

theorem refAtVector_onContainers {α : Type} (mk : α → GC) (z : α) (i : Nat) (upd : α → α) (g : GC)
    (h : i + 1 < 2 ^ 32) (hs : sizeOk g = true) (hn : g ≠ notype) :
    refAtVector mk z i upd g = onContainers mk z i upd g := by
  unfold refAtVector onContainers
  rw [C91_vector g hs, if_neg hn]
  by_cases h1 : shape g.ty = 1 ∨ g.ty = .VECTOR
  · rw [if_pos h1, if_pos h1]
    simp only [Res.bind, checkResize_grown _ _ i h, grown_get]
  · rw [if_neg h1, if_neg h1]
    by_cases h2 : shape g.ty = 2 ∨ g.ty = .MAP
    · rw [if_pos h2, if_pos h2]; rfl
    · rw [if_neg h2, if_neg h2]; rfl

/-- **C93.** Exactly what `get_T_at(i)` does on every content (any update made through the reference). -/
theorem C93_at (i : Nat) (h : i + 1 < 2 ^ 32) (g : GC) (hs : sizeOk g = true) :
    (get_bool_at i g =
      if g.ty = .NOTYPE ∨ g.ty = .VEC_BOOL then onVector false vecBool ((elems g).map asBool) i id
      else onContainers bool false i id g) ∧
    (∀ upd, get_int_at i upd g =
      if accepted g.ty .VEC_INTEGER then onVector 0 vecInt ((elems g).map asInt) i upd
      else onContainers int 0 i upd g) ∧
    (∀ upd, get_long_at i upd g =
      if accepted g.ty .VEC_LONG then onVector 0 vecLong ((elems g).map asLong) i upd
      else onContainers long 0 i upd g) ∧
    (∀ upd, get_real_at i upd g =
      if g.ty = .NOTYPE ∨ (shape g.ty = 1 ∧ accepted g.ty .VEC_REAL) then
        onVector .zero vecReal ((elems g).map asReal) i upd
      else onContainers real .zero i upd g) ∧
    (∀ upd, get_complex_at i upd g =
      if g.ty = .NOTYPE ∨ (shape g.ty = 1 ∧ accepted g.ty .VEC_COMPLEX) then
        onVector .zero vecComplex ((elems g).map asComplex) i upd
      else onContainers complex .zero i upd g) ∧
    (∀ upd, get_string_at i upd g =
      if g.ty = .NOTYPE ∨ g.ty = .VEC_STRING then
        onVector [] vecString ((elems g).map asText) i upd
      else onContainers string [] i upd g) := by
  refine ⟨?_, ?_, ?_, ?_, ?_, ?_⟩
  all_goals
    try intro upd
    cases g <;> first
      | (rw [if_neg (by simp [GC.ty, shape, accepted, vectorForComplex, widens, width, refused])]
         exact refAtVector_onContainers _ _ i _ _ h hs (by simp))
      | (rw [if_pos (by simp [GC.ty, shape, accepted, vectorForComplex, widens, width, refused])]
         simp only [elems, List.map_map, List.map_nil, List.map_cons]
         first
         | exact refAt_onVector _ _ _ i _ h
         | (refine (refAt_onVector _ _ _ i _ h).trans ?_
            simp [Function.comp_def, asBool, asText, asInt, asLong, asReal, asComplex]; done)
         | (have hs' := of_decide_eq_true hs
            simp only [get_int_at, get_long_at, get_real_at, get_complex_at, promote_to_vec_int, promote_to_vec_long,
              promote_to_vec_real, promote_to_vec_complex, become_refill _ _ _ hs']
            refine (refAt_onVector _ _ _ i _ h).trans ?_
            simp only [Function.comp_def, asInt, asLong, asReal, asComplex]
            first | done | rfl))

example : get_int_at 2 (fun _ => 7) (vecReal [.zero]) = .ok (vector [real .zero, notype, int 7]) 0 ∧
    get_long_at 1 (fun _ => 7) (int 5) = .ok (vecLong [5, 7]) 0 ∧ get_real_at 0 id (int 5) = .ub := by
  refine ⟨(C93_at 2 (by decide) _ rfl).2.1 _, (C93_at 1 (by decide) _ rfl).2.2.1 _, (C93_at 0 (by decide) _ rfl).2.2.2.1 _⟩

theorem refAt_last {α : Type} (d : α) (up : List α → GC) (v : List α) (upd : α → α) (hv : v.length < 2 ^ 32) :
    refAt d up v (2 ^ 32 - 1) upd = .ub := by
  have : checkResize d (2 ^ 32 - 1) v = [] := by
    rw [checkResize, if_pos (by omega), show u32 (2 ^ 32 - 1 + 1) = 0 from by decide]
    simp [resizeL]
  simp only [refAt, this]
  rfl

theorem elems_short {g : GC} (hs : sizeOk g = true) (h1 : shape g.ty = 1 ∨ g.ty = .VECTOR) :
    (elems g).length < 2 ^ 32 := by
  cases g <;> first
    | (simp [shape, GC.ty] at h1; done)
    | (have hs' := of_decide_eq_true hs
       simpa [elems] using hs')

theorem refAtVector_last {α : Type} (mk : α → GC) (z : α) (upd : α → α) (g : GC) (hs : sizeOk g = true) :
    refAtVector mk z (2 ^ 32 - 1) upd g = if shape g.ty = 2 ∨ g.ty = .MAP then .throw g else .ub := by
  unfold refAtVector
  have e : ∀ v : List GC, v.length < 2 ^ 32 → checkResize notype (2 ^ 32 - 1) v = [] := by
    intro v hv
    rw [checkResize, if_pos (by omega), show u32 (2 ^ 32 - 1 + 1) = 0 from by decide]
    simp [resizeL]
  rw [C91_vector g hs]
  by_cases hn : g = notype
  · subst hn
    rw [if_pos rfl]
    simp only [Res.bind, e [notype] (by decide)]
    rfl
  · rw [if_neg hn]
    by_cases h1 : shape g.ty = 1 ∨ g.ty = .VECTOR
    · rw [if_pos h1, if_neg (by cases g <;> simp_all [shape, GC.ty])]
      simp only [Res.bind, e _ (elems_short hs h1)]
      rfl
    · rw [if_neg h1]
      by_cases h2 : shape g.ty = 2 ∨ g.ty = .MAP
      · rw [if_pos h2, if_pos h2]; rfl
      · rw [if_neg h2, if_neg h2]; rfl

/-- **C93**, the last index there is: the size asked for wraps to none and the access is outside of the vector. -/
theorem C93_last (g : GC) (hs : sizeOk g = true) :
    let r {α : Type} : Res α := if shape g.ty = 2 ∨ g.ty = .MAP then .throw g else .ub
    get_bool_at (2 ^ 32 - 1) g = r ∧ (∀ upd, get_int_at (2 ^ 32 - 1) upd g = r) ∧
    (∀ upd, get_long_at (2 ^ 32 - 1) upd g = r) ∧ (∀ upd, get_real_at (2 ^ 32 - 1) upd g = r) ∧
    (∀ upd, get_complex_at (2 ^ 32 - 1) upd g = r) ∧ (∀ upd, get_string_at (2 ^ 32 - 1) upd g = r) := by
  refine ⟨?_, ?_, ?_, ?_, ?_, ?_⟩
  all_goals
    try intro upd
    cases g <;> first
      | exact refAtVector_last _ _ _ _ hs
      | (refine Eq.trans ?_ (if_neg (by simp [shape, GC.ty])).symm
         first
         | (simp only [get_bool_at, get_int_at, get_long_at, get_real_at, get_complex_at, get_string_at, promote_to_vec_int,
              promote_to_vec_long, Res.bind, get_int_at.after, get_long_at.after]
            refine refAt_last _ _ _ _ ?_
            simp; done)
         | exact refAt_last _ _ _ _ (of_decide_eq_true hs)
         | (have hs' := of_decide_eq_true hs
            simp only [get_int_at, get_long_at, get_real_at, get_complex_at, promote_to_vec_int, promote_to_vec_long,
              promote_to_vec_real, promote_to_vec_complex, become_refill _ _ _ hs']
            exact refAt_last _ _ _ _ (by simpa using hs')))

end GC
end GCV
