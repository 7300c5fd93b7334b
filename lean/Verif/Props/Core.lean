import Verif.Model.Dispatch
import Verif.Lemmas.Copy
import Verif.Lemmas.Dec
import Verif.Lemmas.DeSerialize

/-!
# C08, C09, C24, C39: setters, typed getters, counts, clear
-/

namespace GCV
namespace GC

/-! ## C09 Typed read access is type safe -/

/-- The accessor of type `t` returns `v` exactly if the container holds `v` and `v` is of type
`t`; in all other cases it throws. -/
theorem C09_typed_access (t : Ty) (g : GC) :
    (∀ v, readC t g = .ok v ↔ Holds g v ∧ v.ty = t) ∧
    ((¬ ∃ v, Holds g v ∧ v.ty = t) → readC t g = .throw) := by
  constructor
  · intro v
    constructor
    · intro h
      cases t <;> cases g <;> simp [readC, get_pvoid, get_bool_c, get_int_c, get_long_c, get_real_c,
        get_complex_c, get_string_c, get_vec_pointer, get_vec_bool, get_vec_int_c, get_vec_long_c,
        get_vec_real_c, get_vec_complex_c, get_vec_string, get_mat_int_c, get_mat_long_c,
        get_mat_real_c, get_mat_complex_c, get_vector, get_map, Out.bind] at h <;>
        (subst h; exact ⟨by constructor, rfl⟩)
    · rintro ⟨h, rfl⟩
      cases h <;> rfl
  · intro h
    cases t <;> cases g <;> first
      | rfl
      | exact absurd ⟨_, by constructor, rfl⟩ h

/-- Every container except the empty one holds exactly one value, of its own type. -/
theorem C09_holds_unique (g : GC) (h : g.ty ≠ .NOTYPE) :
    ∃ v, Holds g v ∧ v.ty = g.ty ∧ ∀ w, Holds g w → w = v := by
  cases g <;> first
    | exact absurd rfl h
    | exact ⟨_, by constructor, rfl, fun w hw => by cases hw; rfl⟩

example : Holds (vecInt [3, 4]) (.vecInt [3, 4]) ∧ readC .VEC_REAL (vecInt [3, 4]) = .throw :=
  ⟨.vecInt _, rfl⟩

/-! ## C08 set_* then get_* returns what was stored -/

/-- After `set_X(v)` the container holds `v` (so its type is that of `v` and the accessor of
that type returns `v`), except for an empty vector set over a vector of the same kind.
Missing from the full statement: that case, where it fails (`C08_set_get_negation`). -/
theorem C08_set_get_partial (v : Val) (g : GC) (hv : v.settable)
    (he : v.isEmptyVec = false ∨ g.ty ≠ v.ty) :
    ∃ g', writeV v g = .ok g' ∧ Holds g' v ∧ g'.ty = v.ty ∧ readC v.ty g' = .ok v := by
  have key : ∃ g', writeV v g = .ok g' ∧ Holds g' v := by
    have kv : ∀ {α : Type} (d : α) (l w : List α) (c : List α → GC), l.length < 2 ^ 32 →
        (l ≠ [] ∨ w = []) →
        ((copyL l (allocL d (u32 l.length) w)).bind fun w => .ok (c w)) = Out.ok (c l) := by
      intro α d l w c h h'
      rw [copy_alloc d h h']; rfl
    have ho : ∀ {α : Type} {l : List α} {w : GC → List α}, (l.isEmpty = false ∨ g.ty ≠ v.ty) →
        (g.ty ≠ v.ty → w g = []) → (l ≠ [] ∨ w g = []) := by
      intro α l w h1 h2
      rcases h1 with h1 | h1
      · left; intro h; simp [h] at h1
      · right; exact h2 h1
    cases v with
    | vecPointer l =>
      refine ⟨_, kv 0 l g.oldVecPointer vecPointer (by simpa [Val.settable] using hv)
        (ho (w := oldVecPointer) he fun h => ?_), .vecPointer _⟩
      cases g <;> first | rfl | exact absurd rfl h
    | vecBool l =>
      refine ⟨_, kv false l g.oldVecBool vecBool (by simpa [Val.settable] using hv)
        (ho (w := oldVecBool) he fun h => ?_), .vecBool _⟩
      cases g <;> first | rfl | exact absurd rfl h
    | vecInt l =>
      refine ⟨_, kv 0 l g.oldVecInt vecInt (by simpa [Val.settable] using hv)
        (ho (w := oldVecInt) he fun h => ?_), .vecInt _⟩
      cases g <;> first | rfl | exact absurd rfl h
    | vecLong l =>
      refine ⟨_, kv 0 l g.oldVecLong vecLong (by simpa [Val.settable] using hv)
        (ho (w := oldVecLong) he fun h => ?_), .vecLong _⟩
      cases g <;> first | rfl | exact absurd rfl h
    | vecReal l =>
      refine ⟨_, kv F64.zero l g.oldVecReal vecReal (by simpa [Val.settable] using hv)
        (ho (w := oldVecReal) he fun h => ?_), .vecReal _⟩
      cases g <;> first | rfl | exact absurd rfl h
    | vecComplex l =>
      refine ⟨_, kv Cplx.zero l g.oldVecComplex vecComplex (by simpa [Val.settable] using hv)
        (ho (w := oldVecComplex) he fun h => ?_), .vecComplex _⟩
      cases g <;> first | rfl | exact absurd rfl h
    | vecString l =>
      refine ⟨_, kv [] l g.oldVecString vecString (by simpa [Val.settable] using hv)
        (ho (w := oldVecString) he fun h => ?_), .vecString _⟩
      cases g <;> first | rfl | exact absurd rfl h
    | matInt m =>
      rw [writeV, set_mat_int]
      have : ∃ w, allocate_mat_int m.nr m.nc g = matInt w ∧
          (w = .make 0 m.nr m.nc ∨ ∃ q, w = Mat.resize 0 m.nr m.nc q) := by
        cases g <;> simp [allocate_mat_int]
        exact .inr ⟨_, rfl⟩
      obtain ⟨w, h1, h2⟩ := this
      obtain ⟨h3, h4, h5⟩ := mat_copy 0 hv h2
      rw [h1]
      refine ⟨matInt m, ?_, .matInt _⟩
      simp only [h3, Out.bind]; cases w; cases m; simp_all
    | matLong m =>
      rw [writeV, set_mat_long]
      have : ∃ w, allocate_mat_long m.nr m.nc g = matLong w ∧
          (w = .make 0 m.nr m.nc ∨ ∃ q, w = Mat.resize 0 m.nr m.nc q) := by
        cases g <;> simp [allocate_mat_long]
        exact .inr ⟨_, rfl⟩
      obtain ⟨w, h1, h2⟩ := this
      obtain ⟨h3, h4, h5⟩ := mat_copy 0 hv h2
      rw [h1]
      refine ⟨matLong m, ?_, .matLong _⟩
      simp only [h3, Out.bind]; cases w; cases m; simp_all
    | matReal m =>
      rw [writeV, set_mat_real]
      have : ∃ w, allocate_mat_real m.nr m.nc g = matReal w ∧
          (w = .make .zero m.nr m.nc ∨ ∃ q, w = Mat.resize .zero m.nr m.nc q) := by
        cases g <;> simp [allocate_mat_real]
        exact .inr ⟨_, rfl⟩
      obtain ⟨w, h1, h2⟩ := this
      obtain ⟨h3, h4, h5⟩ := mat_copy .zero hv h2
      rw [h1]
      refine ⟨matReal m, ?_, .matReal _⟩
      simp only [h3, Out.bind]; cases w; cases m; simp_all
    | matComplex m =>
      rw [writeV, set_mat_complex]
      have : ∃ w, allocate_mat_complex m.nr m.nc g = matComplex w ∧
          (w = .make .zero m.nr m.nc ∨ ∃ q, w = Mat.resize .zero m.nr m.nc q) := by
        cases g <;> simp [allocate_mat_complex]
        exact .inr ⟨_, rfl⟩
      obtain ⟨w, h1, h2⟩ := this
      obtain ⟨h3, h4, h5⟩ := mat_copy .zero hv h2
      rw [h1]
      refine ⟨matComplex m, ?_, .matComplex _⟩
      simp only [h3, Out.bind]; cases w; cases m; simp_all
    | vector l => simp [Val.settable] at hv
    | map m => simp [Val.settable] at hv
    | string s =>
      refine ⟨string s, ?_, .string _⟩
      rw [writeV, set_string]; cases g <;> rfl
    | _ => exact ⟨_, rfl, by constructor⟩
  obtain ⟨g', h1, h2⟩ := key
  exact ⟨g', h1, h2, by cases h2 <;> rfl, ((C09_typed_access v.ty g').1 v).2 ⟨h2, rfl⟩⟩

/-- Setting an empty `vec_int` over `[1,2]` leaves `[1,2]`; assigning the unsigned number
4294967295 stores the int -1. -/
theorem C08_set_get_negation :
    writeV (.vecInt []) (vecInt [1, 2]) = .ok (vecInt [1, 2]) ∧
    (∃ u : BitVec 32, u.toNat = 4294967295 ∧ ∀ g, assign_uint u g = int (BitVec.ofInt 32 (-1))) :=
  ⟨rfl, ⟨BitVec.ofNat 32 4294967295, by decide, fun _ => by rfl⟩⟩

/-- `operator=(unsigned)` stores exactly the number when it is below 2^31, and
`operator=(unsigned long)` when it is below 2^63. -/
theorem C08_assign_unsigned_partial (g : GC) :
    (∀ u : BitVec 32, u.toNat < 2 ^ 31 → ∃ i : I32, assign_uint u g = int i ∧ i.toInt = u.toNat) ∧
    (∀ u : BitVec 64, u.toNat < 2 ^ 63 →
      ∃ i : I64, assign_ulong u g = long i ∧ i.toInt = u.toNat) := by
  refine ⟨fun u h => ⟨u, rfl, ?_⟩, fun u h => ⟨u, rfl, ?_⟩⟩
  · rw [BitVec.toInt_eq_toNat_cond, if_pos (by omega)]
  · rw [BitVec.toInt_eq_toNat_cond, if_pos (by omega)]

example : (Val.vecInt [1, 2]).settable ∧ (Val.vecInt [1, 2]).isEmptyVec = false ∧
    (Val.matReal ⟨1, 2, [.zero, .zero]⟩).settable ∧ (Val.string (str "s")).settable := by
  decide +kernel

/-! ## C24 Element counts agree with the content -/

/-- The counts of a non-empty container are those of the value it holds (matrices with rows x
cols elements, fewer than 2^32 elements); an empty container has count, rows and columns 0.
Missing from the full statement: containers of 2^32 and more elements, whose size does not fit
the result type. -/
theorem C24_counts_partial (g : GC) :
    (g.ty = .NOTYPE → get_num_elements g = 0 ∧ num_rows g = 0 ∧ num_cols g = 0) ∧
    (∀ v, Holds g v → WF g → v.count < 2 ^ 32 → get_num_elements g = v.count ∧
      num_rows g = v.rows ∧ num_cols g = v.cols) := by
  constructor
  · intro h; cases g <;> first | exact ⟨rfl, rfl, rfl⟩ | exact absurd h (by simp [ty])
  · intro v hv hw hc
    cases hv <;> simp only [Val.count] at hc <;>
      simp only [get_num_elements, num_rows, num_cols, Val.count, Val.rows, Val.cols, true_and]
    case matInt m | matLong m | matReal m | matComplex m =>
      simp [WF, Mat.wf] at hw
      have h2 := hw.2
      rw [Nat.mod_eq_of_lt hc] at h2
      rw [h2, u32_of_lt hc]; simp
    all_goals
      first
      | exact ⟨u32_of_lt hc, u32_of_lt hc⟩
      | trivial
      | skip

example : Holds (matReal ⟨2, 3, List.replicate 6 .zero⟩) (.matReal ⟨2, 3, List.replicate 6 .zero⟩) ∧
    WF (matReal ⟨2, 3, List.replicate 6 .zero⟩) := ⟨.matReal _, by decide +kernel⟩

/-! ## C39 clear empties the container -/

/-- After `clear()`: empty type, all counts 0, no key exists, every const accessor throws, and
setting or assigning anything gives the same as on a new container. -/
theorem C39_clear (g : GC) :
    (clear g).ty = .NOTYPE ∧ get_num_elements (clear g) = 0 ∧ num_rows (clear g) = 0 ∧
    num_cols (clear g) = 0 ∧ get_keys (clear g) = [] ∧ (∀ k, (clear g).exists k = false) ∧
    (∀ t, readC t (clear g) = .throw) ∧
    (∀ v, writeV v (clear g) = writeV v empty) ∧ (∀ b, from_gc b (clear g) = copy b) := by
  refine ⟨rfl, rfl, rfl, rfl, rfl, fun _ => rfl, fun t => by cases t <;> rfl, fun _ => rfl,
    fun _ => rfl⟩

end GC
end GCV
