import Verif.Spec.Sized
import Verif.Props.History

/-! # C90: making a vector or a matrix of a given size -/

namespace GCV
namespace GC

theorem resizeL_get {α : Type} (d : α) (n : Nat) (v : List α) {i : Nat} (hi : i < n) :
    (resizeL d n v)[i]? = some ((v[i]?).getD d) := by
  unfold resizeL
  rw [List.getElem?_append]
  split
  · next h =>
    rw [List.getElem?_take, if_pos hi]
    rw [List.length_take] at h
    have : i < v.length := by omega
    rw [List.getElem?_eq_getElem this]; rfl
  · next h =>
    rw [List.length_take] at h
    have hv : v.length ≤ i := by omega
    rw [List.getElem?_replicate, if_pos (by rw [List.length_take]; omega), List.getElem?_eq_none hv]; rfl

theorem resizeL_length {α : Type} (d : α) (n : Nat) (v : List α) : (resizeL d n v).length = n := by
  unfold resizeL
  rw [List.length_append, List.length_take, List.length_replicate]
  omega

theorem allocL_resized {α : Type} (d : α) (n : Nat) (v : List α) : Resized d n v (allocL d n v) := by
  unfold allocL
  constructor
  · rintro rfl; rw [if_neg (by omega)]
  · intro h
    rw [if_pos (by omega)]
    exact ⟨resizeL_length d n v, fun i hi => resizeL_get d n v hi⟩

/-- C90: `set_vec_X(n)` never fails, the container then holds a vector of that type; if it held one before, its elements are
kept as far as they fit, and the size 0 changes nothing at all; new elements are zero, false or empty. -/
theorem C90_vec (n : BitVec 32) (g : GC) :
    (∃ w, step (.sizeVecPointer n) g = .ok (vecPointer w) () ∧
      Resized 0 n.toNat (match g with | vecPointer v => v | _ => []) w) ∧
    (∃ w, step (.sizeVecBool n) g = .ok (vecBool w) () ∧ Resized false n.toNat (match g with | vecBool v => v | _ => []) w) ∧
    (∃ w, step (.sizeVecInt n) g = .ok (vecInt w) () ∧ Resized 0 n.toNat (match g with | vecInt v => v | _ => []) w) ∧
    (∃ w, step (.sizeVecLong n) g = .ok (vecLong w) () ∧ Resized 0 n.toNat (match g with | vecLong v => v | _ => []) w) ∧
    (∃ w, step (.sizeVecReal n) g = .ok (vecReal w) () ∧ Resized .zero n.toNat (match g with | vecReal v => v | _ => []) w) ∧
    (∃ w, step (.sizeVecComplex n) g = .ok (vecComplex w) () ∧
      Resized .zero n.toNat (match g with | vecComplex v => v | _ => []) w) ∧
    (∃ w, step (.sizeVecString n) g = .ok (vecString w) () ∧ Resized [] n.toNat (match g with | vecString v => v | _ => []) w) ∧
    (∃ w, step (.setVector n) g = .ok (vector w) () ∧ Resized notype n.toNat (match g with | vector v => v | _ => []) w) := by
  refine ⟨⟨_, rfl, ?_⟩, ⟨_, rfl, ?_⟩, ⟨_, rfl, ?_⟩, ⟨_, rfl, ?_⟩, ⟨_, rfl, ?_⟩, ⟨_, rfl, ?_⟩, ⟨_, rfl, ?_⟩, ⟨_, rfl, ?_⟩⟩
  all_goals cases g <;> exact allocL_resized _ _ _

example : step (.sizeVecInt 3) (vecInt [7, 8]) = .ok (vecInt [7, 8, 0]) () ∧
    step (.sizeVecInt 1) (vecInt [7, 8]) = .ok (vecInt [7]) () ∧
    step (.sizeVecInt 0) (vecInt [7, 8]) = .ok (vecInt [7, 8]) () ∧
    step (.sizeVecInt 2) (vecLong [7, 8]) = .ok (vecInt [0, 0]) () := by
  refine ⟨?_, ?_, ?_, ?_⟩ <;> decide +kernel

theorem shaped_make {α : Type} (d : α) (nr nc : Nat) (h : nr * nc < 2 ^ 32) : Shaped d nr nc [] (Mat.make d nr nc) := by
  have hu : u32 (nr * nc) = nr * nc := Nat.mod_eq_of_lt h
  refine ⟨rfl, rfl, by simp [Mat.make, hu], fun i j hi hj => ?_⟩
  have hb : i + j * nr < nr * nc := by
    have : (j + 1) * nr ≤ nc * nr := Nat.mul_le_mul_right nr hj
    rw [Nat.add_mul, Nat.one_mul] at this
    rw [Nat.mul_comm nr nc]; omega
  simp [Mat.make, hu, List.getElem?_replicate, hb]

theorem shaped_resize {α : Type} (d : α) (nr nc : Nat) (m : Mat α) (h : nr * nc < 2 ^ 32) :
    Shaped d nr nc m.data (m.resize d nr nc) := by
  have hu : u32 (nr * nc) = nr * nc := Nat.mod_eq_of_lt h
  refine ⟨rfl, rfl, by simp [Mat.resize, hu, resizeL_length], fun i j hi hj => ?_⟩
  have hb : i + j * nr < nr * nc := by
    have : (j + 1) * nr ≤ nc * nr := Nat.mul_le_mul_right nr hj
    rw [Nat.add_mul, Nat.one_mul] at this
    rw [Nat.mul_comm nr nc]; omega
  simp only [Mat.resize, hu]
  exact resizeL_get d _ m.data hb

/-- C90: `set_mat_X(nr,nc)`, with less than 2^32 entries: the container then holds a matrix of that type with `nr` rows and
`nc` columns.  If it held one before, its data is kept in the order of the columns; so entries stay in their place only if
the number of rows does not change.  All others are zero. -/
theorem C90_matrix (nr nc : BitVec 32) (g : GC) (h : nr.toNat * nc.toNat < 2 ^ 32) :
    (∃ m, step (.sizeMatInt nr nc) g = .ok (matInt m) () ∧
      Shaped 0 nr.toNat nc.toNat (match g with | matInt v => v.data | _ => []) m) ∧
    (∃ m, step (.sizeMatLong nr nc) g = .ok (matLong m) () ∧
      Shaped 0 nr.toNat nc.toNat (match g with | matLong v => v.data | _ => []) m) ∧
    (∃ m, step (.sizeMatReal nr nc) g = .ok (matReal m) () ∧
      Shaped .zero nr.toNat nc.toNat (match g with | matReal v => v.data | _ => []) m) ∧
    (∃ m, step (.sizeMatComplex nr nc) g = .ok (matComplex m) () ∧
      Shaped .zero nr.toNat nc.toNat (match g with | matComplex v => v.data | _ => []) m) := by
  refine ⟨?_, ?_, ?_, ?_⟩
  all_goals cases g <;> first
    | exact ⟨_, rfl, shaped_resize _ _ _ _ h⟩
    | exact ⟨_, rfl, shaped_make _ _ _ h⟩

example : step (.sizeMatInt 2 2) (matInt ⟨2, 1, [7, 8]⟩) = .ok (matInt ⟨2, 2, [7, 8, 0, 0]⟩) () ∧
    step (.sizeMatInt 3 1) (matInt ⟨2, 2, [1, 2, 3, 4]⟩) = .ok (matInt ⟨3, 1, [1, 2, 3]⟩) () ∧
    step (.sizeMatLong 1 2) (matInt ⟨2, 1, [7, 8]⟩) = .ok (matLong ⟨1, 2, [0, 0]⟩) () := by
  refine ⟨?_, ?_, ?_⟩ <;> decide +kernel

/-- C90: the entries of a matrix stay in their place when only the number of columns is changed. -/
theorem C90_columns (nc : BitVec 32) (m : Mat I64) (hr : m.nr < 2 ^ 32) (hd : m.data.length = m.nr * m.nc)
    (h : m.nr * nc.toNat < 2 ^ 32) :
    ∃ m', step (.sizeMatLong (BitVec.ofNat 32 m.nr) nc) (matLong m) = .ok (matLong m') () ∧ m'.nr = m.nr ∧
      m'.nc = nc.toNat ∧ ∀ i j, i < m.nr → j < nc.toNat →
        m'.data[i + j * m.nr]? = if j < m.nc then m.data[i + j * m.nr]? else some 0 := by
  have e : (BitVec.ofNat 32 m.nr).toNat = m.nr := by rw [BitVec.toNat_ofNat]; exact Nat.mod_eq_of_lt hr
  obtain ⟨m', h1, h2, h3, -, h5⟩ := (C90_matrix (BitVec.ofNat 32 m.nr) nc (matLong m) (by rw [e]; exact h)).2.1
  rw [e] at h2 h5
  refine ⟨m', h1, h2, h3, fun i j hi hj => ?_⟩
  rw [h5 i j hi hj]
  have bound : ∀ j, j < m.nc → i + j * m.nr < m.data.length := by
    intro j hj
    have : (j + 1) * m.nr ≤ m.nc * m.nr := Nat.mul_le_mul_right m.nr hj
    rw [Nat.add_mul, Nat.one_mul] at this
    rw [hd, Nat.mul_comm m.nr m.nc]; omega
  by_cases hc : j < m.nc
  · rw [if_pos hc]
    show some ((m.data[i + j * m.nr]?).getD 0) = _
    rw [List.getElem?_eq_getElem (bound j hc)]; rfl
  · rw [if_neg hc]
    show some ((m.data[i + j * m.nr]?).getD 0) = _
    have : m.data.length ≤ i + j * m.nr := by
      have : m.nc * m.nr ≤ j * m.nr := Nat.mul_le_mul_right m.nr (by omega)
      rw [hd, Nat.mul_comm m.nr m.nc]; omega
    rw [List.getElem?_eq_none this]; rfl

example : step (.sizeMatLong 2 1) (matLong ⟨2, 2, [1, 2, 3, 4]⟩) = .ok (matLong ⟨2, 1, [1, 2]⟩) () := by decide +kernel

/-- C90: `set_map()` keeps the entries of a map, and makes an empty map of everything else. -/
theorem C90_map (g : GC) : step .setMap g = .ok (map (match g with | map m => m | _ => [])) () := by
  cases g <;> rfl

example : step .setMap (map [(str "a", int 1)]) = .ok (map [(str "a", int 1)]) () ∧ step .setMap (int 3) = .ok (map []) () := by
  constructor <;> decide +kernel

/-- C90: with 2^32 entries or more only the remainder modulo 2^32 is allocated: the dimensions and the data disagree. -/
theorem C90_overflow (nr nc : BitVec 32) (g : GC) (h : 2 ^ 32 ≤ nr.toNat * nc.toNat) :
    ∃ m, step (.sizeMatInt nr nc) g = .ok (matInt m) () ∧ m.nr = nr.toNat ∧ m.nc = nc.toNat ∧
      m.data.length = (nr.toNat * nc.toNat) % 2 ^ 32 ∧ m.data.length < m.nr * m.nc := by
  have hl : (nr.toNat * nc.toNat) % 2 ^ 32 < nr.toNat * nc.toNat := by
    have := Nat.mod_lt (nr.toNat * nc.toNat) (show 0 < 2 ^ 32 by decide)
    omega
  cases g
  case matInt v =>
    refine ⟨_, rfl, rfl, rfl, ?_, ?_⟩
    · exact resizeL_length _ _ _
    · show (resizeL _ _ _).length < _
      rw [resizeL_length]; exact hl
  all_goals
    refine ⟨_, rfl, rfl, rfl, ?_, ?_⟩
    · exact List.length_replicate
    · show (List.replicate _ _).length < _
      rw [List.length_replicate]; exact hl

example : ∃ m, step (.sizeMatInt 65536 65536) notype = .ok (matInt m) () ∧ m.data = [] := ⟨_, rfl, rfl⟩

end GC
end GCV
