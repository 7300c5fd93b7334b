import Verif.Model.At
import Verif.Spec.Elems
import Verif.Lemmas.Map
import Verif.Lemmas.Convert

/-! # Lemmas about promotions -/

namespace GCV
namespace GC

open F64

theorem refill_ok {α β : Type} (d : β) (f : α → β) {v : List α} (h : v.length < 2 ^ 32) :
    refill d f v = .ok (v.map f) := by
  unfold refill
  have := copy_alloc d (v := v.map f) (w := []) (by simpa using h) (.inr rfl)
  simpa using this

theorem convMat_ok {α β : Type} (d : β) (f : α → β) {m : Mat α} (h : m.wf = true) :
    convMat d f m = .ok ⟨m.nr, m.nc, m.data.map f⟩ := by
  unfold Mat.wf at h
  simp only [Bool.and_eq_true, decide_eq_true_eq] at h
  unfold convMat
  rw [copyL_eq (by simp [Mat.make, u32, h.2])]
  rfl

theorem fillColumn_ok {α : Type} : ∀ (r pre : List α) (d : α) (n : Nat), n < 2 ^ 32 →
    pre.length + r.length = n →
    fillColumn ⟨n, 1, pre ++ List.replicate r.length d⟩ pre.length r = (⟨n, 1, pre ++ r⟩, true)
  | [], pre, d, n, _, _ => by simp [fillColumn]
  | x :: r, pre, d, n, h, hl => by
    have hi : (⟨n, 1, pre ++ List.replicate (x :: r).length d⟩ : Mat α).index pre.length 0 =
        pre.length := by
      simp [Mat.index, u32] at *; omega
    rw [fillColumn, Mat.set, hi]
    have hlt : pre.length < (pre ++ List.replicate (x :: r).length d).length := by simp
    rw [if_pos hlt]
    have e : (pre ++ List.replicate (x :: r).length d).set pre.length x =
        (pre ++ [x]) ++ List.replicate r.length d := by
      simp [List.replicate_succ]
    simp only [e]
    have := fillColumn_ok r (pre ++ [x]) d n h (by simp at *; omega)
    simpa using this

theorem toColumn_ok {α β : Type} (d : β) (f : α → β) (up : Mat β → GC) {v : List α}
    (h : v.length < 2 ^ 32) : toColumn d f up v = .ok (up ⟨v.length, 1, v.map f⟩) () := by
  unfold toColumn Mat.make
  have := fillColumn_ok (v.map f) [] d v.length h (by simp)
  simp only [List.nil_append, List.length_map, List.length_nil] at this
  rw [Nat.mul_one, u32_of_lt h, u32_of_lt h, this]

/-! ## Same numbers -/

theorem SameNumber.rfl' (a : GC) : SameNumber a a := .inl rfl

theorem sameElems_refl (v : List GC) : SameElems v v :=
  ⟨rfl, fun i a b h1 h2 => by rw [h1] at h2; simp at h2; subst h2; exact .inl rfl⟩

theorem sameElems_map {α β : Type} (v : List α) (f : α → β) (up : α → GC) (up' : β → GC)
    (h : ∀ x ∈ v, SameNumber (up x) (up' (f x))) :
    SameElems (v.map up) ((v.map f).map up') := by
  refine ⟨by simp, ?_⟩
  intro i a b h1 h2
  simp only [List.getElem?_map, Option.map_eq_some_iff] at h1 h2
  obtain ⟨x, h3, rfl⟩ := h1
  obtain ⟨y, ⟨x', h4, rfl⟩, rfl⟩ := h2
  rw [h3] at h4; simp at h4; subst h4
  exact h x (List.mem_of_getElem? h3)

theorem sameElems_map_right {α : Type} (v : List α) (up up' : α → GC)
    (h : ∀ x ∈ v, SameNumber (up x) (up' x)) : SameElems (v.map up) (v.map up') := by
  have := sameElems_map v id up up' h
  simpa using this

theorem sameElems_one {a b : GC} (h : SameNumber a b) : SameElems [a] [b] := by
  refine ⟨rfl, ?_⟩
  intro i x y h1 h2
  cases i with
  | zero => simp at h1 h2; rw [← h1, ← h2]; exact h
  | succ n => simp at h1

theorem value_ofInt {n : Int} (h : n.natAbs ≤ 2 ^ 53) : (ofInt n).value = some (n * unit) := by
  obtain ⟨h1, h2⟩ := ofInt_exact h
  simp [value, h1, h2]

theorem isZero_zero : F64.zero.isZero = true := by decide

theorem complex_ofReal (r : F64) : numValue (complex (.ofReal r)) = r.value := by
  rw [complex_value, Cplx.ofReal, if_pos isZero_zero]

theorem sn_bool_int (b : Bool) : SameNumber (bool b) (int (I32.ofBool b)) :=
  .inr (.inl ⟨_, numValue_bool b, by cases b <;> rfl⟩)
theorem sn_bool_long (b : Bool) : SameNumber (bool b) (long (I64.ofBool b)) :=
  .inr (.inl ⟨_, numValue_bool b, by cases b <;> rfl⟩)
theorem value_ofBool (b : Bool) : (F64.ofBool b).value = some ((if b then 1 else 0 : Int) * unit) := by
  cases b
  · exact value_ofInt (n := 0) (by decide)
  · exact value_ofInt (n := 1) (by decide)
theorem sn_bool_real (b : Bool) : SameNumber (bool b) (real (F64.ofBool b)) :=
  .inr (.inl ⟨_, numValue_bool b, by rw [real_value, value_ofBool]⟩)
theorem sn_bool_complex (b : Bool) : SameNumber (bool b) (complex (.ofReal (F64.ofBool b))) :=
  .inr (.inl ⟨_, numValue_bool b, by rw [complex_ofReal, value_ofBool]⟩)
theorem sn_int_long (i : I32) : SameNumber (int i) (long i.toI64) :=
  .inr (.inl ⟨_, rfl, by rw [numValue, toI64_exact]⟩)
theorem value_ofI32 (i : I32) : (F64.ofI32 i).value = some (i.toInt * unit) := by
  apply value_ofInt
  have h1 := i.toInt_lt; have h2 := i.le_toInt
  omega
theorem sn_int_real (i : I32) : SameNumber (int i) (real (F64.ofI32 i)) :=
  .inr (.inl ⟨_, rfl, by rw [real_value, value_ofI32]⟩)
theorem sn_int_complex (i : I32) : SameNumber (int i) (complex (.ofReal (F64.ofI32 i))) :=
  .inr (.inl ⟨_, rfl, by rw [complex_ofReal, value_ofI32]⟩)
theorem sn_long_real {l : I64} (h : l.toInt.natAbs ≤ 2 ^ 53) :
    SameNumber (long l) (real (F64.ofI64 l)) :=
  .inr (.inl ⟨_, rfl, by rw [real_value]; exact value_ofInt h⟩)
theorem sn_long_complex {l : I64} (h : l.toInt.natAbs ≤ 2 ^ 53) :
    SameNumber (long l) (complex (.ofReal (F64.ofI64 l))) :=
  .inr (.inl ⟨_, rfl, by rw [complex_ofReal]; exact value_ofInt h⟩)
theorem sn_real_complex (r : F64) : SameNumber (real r) (complex (.ofReal r)) :=
  .inr (.inr ⟨r, rfl, rfl⟩)

end GC
end GCV
