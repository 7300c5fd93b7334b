import Verif.Lemmas.MatlabKept

/-!
# C76, C77, C78, C79: the MATLAB interface
-/

namespace GCV
namespace GC

/-! ## C76 -/

/-- **C76**: whatever the container has before, it gets exactly the data of the MATLAB value (`MxHolds`). -/
theorem C76_from_matlab (mx : Mx) (h : mx.Legal) : ∃ g', MxHolds mx g' ∧ ∀ g, fromMx mx g = .ok g' := by
  obtain ⟨g', h1, h2⟩ := from_holds mx h
  exact ⟨g', h2, fun g => by rw [fromMx_clear, h1]⟩

/-- **C76**: the integers of MATLAB keep their values, except the unsigned ones that have no place in int or long. -/
theorem C76_integers (c : IntCls) (x : Int) (h : c.has x) :
    numValue (c.stored x) = some (x * F64.unit) ↔ ¬ (c = .u32 ∧ 2 ^ 31 ≤ x) ∧ ¬ (c = .u64 ∧ 2 ^ 63 ≤ x) := by
  have hu : (F64.unit : Int) ≠ 0 := unit_ne
  have key : numValue (c.stored x) = some (x * F64.unit) ↔
      (if c.bits = 64 then (BitVec.ofInt 64 x).toInt = x else (BitVec.ofInt 32 x).toInt = x) := by
    rw [IntCls.stored]
    split
    · rw [numValue, Option.some.injEq]; exact Int.mul_eq_mul_right_iff hu
    · rw [numValue, Option.some.injEq]; exact Int.mul_eq_mul_right_iff hu
  rw [key]
  cases c <;> simp only [IntCls.bits, IntCls.has, IntCls.signed, BitVec.toInt_ofInt, Int.bmod_def] at h ⊢ <;>
    simp at h ⊢ <;> omega

/-- **C76**: a numeric array with three dimensions or more, not of one element, leaves the container empty. -/
theorem C76_dims_negation (a b c : Nat) (ds : List Nat) (d : MxNum) (g : GC) (h : (Mx.num (a :: b :: c :: ds) d).Legal)
    (h1 : d.values.length ≠ 1) (hc : d.cls ≠ .logical) : fromMx (.num (a :: b :: c :: ds) d) g = .ok notype := by
  obtain ⟨g', h2, h3⟩ := C76_from_matlab _ h
  rw [MxHolds] at h2
  have h4 : g' = notype := (numHolds_many h1 hc).1 h2
  rw [h3 g, h4]

/-- **C76**: a sparse logical matrix with elements is undefined behaviour. -/
theorem C76_sparse_negation (nc : Nat) (jc ir : List Nat) (l : List Bool) (n : Nat) (h : jc[nc]? = some n) (h0 : n ≠ 0) (g : GC) :
    fromMx (.sparse nc jc ir (.logical l)) g = .ub := by
  rw [fromMx, fromSparse, getL, h]
  simp only [Out.bind]
  split
  · rfl
  · rfl

/-- A structure with a matrix, a cell, a text, logicals and a structure array. -/
def mxExample : Mx := .struct 1 1 [(str "z", [.num [2, 2] (.double [⟨0⟩, ⟨1⟩, ⟨2⟩, ⟨3⟩])]),
  (str "a", [.cell [2, 1] [.char (str "hi"), .num [1, 3] (.ints .u8 [1, 255, 3])]]),
  (str "m", [.struct 1 2 [(str "x", [.num [1, 1] (.ints .i64 [-5]), .null])]]),
  (str "l", [.num [2, 1] (.logical [true, false])])]

example : mxExample.Legal := by
  simp [mxExample, Mx.Legal, Mx.LegalL, Mx.LegalF, MxNum.values, MxNum.inRange, IntCls.has, IntCls.signed, IntCls.bits, str]

example : fromMx mxExample (int 7) = .ok (map [(str "a", vector [string (str "hi"), vecInt [1, 255, 3]]),
    (str "l", vector [bool true, bool false]), (str "m", map [(str "x", vector [long (-5), notype])]),
    (str "z", matReal ⟨2, 2, [⟨0⟩, ⟨1⟩, ⟨2⟩, ⟨3⟩]⟩)]) := by decide +kernel

/-- **C76**, what is not kept: `uint32(2^31)` becomes negative, and so does `uint64(2^63)`; a logical matrix loses its
dimensions; a `string` that needs more than two bytes per character is cut. -/
theorem C76_negation :
    fromMx (.num [1, 1] (.ints .u32 [2147483648])) notype = .ok (int (-2147483648)) ∧
    fromMx (.num [1, 1] (.ints .u64 [9223372036854775808])) notype = .ok (long (-9223372036854775808)) ∧
    fromMx (.num [2, 2] (.logical [true, false, false, true])) notype =
      fromMx (.num [1, 4] (.logical [true, false, false, true])) notype ∧
    fromMx (.text 1 [0xE2, 0x82, 0xAC]) notype = .ok (string [0xE2, 0x82]) := by decide +kernel

/-! ## C77 -/

/-- **C77**: a container without an empty map in it becomes a MATLAB value with exactly its data (`Shown`). -/
theorem C77_to_matlab (g : GC) (hf : every full g = true) (he : every notEmptyMap g = true) :
    ∃ mx, toMx g = .ok mx ∧ Shown g mx := ⟨mxOf g, toMx_eq.1 g hf he, shown.1 g⟩

/-- **C77**: with an empty map in it the conversion is undefined behaviour, and only then. -/
theorem C77_empty_map (g : GC) (hf : every full g = true) : toMx g = .ub ↔ every notEmptyMap g = false := by
  constructor
  · intro h
    by_contra hn
    rw [toMx_eq.1 g hf (by simpa using hn)] at h
    cases h
  · exact toMx_ub.1 g hf

/-- **C77**: `to_mxArray` makes of the numbers and strings of a container the same value as the conversion of the
container, only that vectors become columns, and those of ints stay int32. -/
theorem C77_overloads (g : GC) (hf : full g = true) (ht : numeric g = true ∨ (∃ s, g = string s) ∨ ∃ v, g = vecString v) :
    ∃ mx, to_mxArray g = .ok mx ∧
      if shape g.ty = 1 then
        (∃ v, g = vecInt v ∧ mx = .num [v.length, 1] (.ints .i32 (v.map BitVec.toInt))) ∨
        (∃ d n, toMx g = .ok (.num [1, n] d) ∧ mx = .num [n, 1] d ∧ ∀ v, g ≠ vecInt v) ∨
        ∃ l n, toMx g = .ok (.cell [1, n] l) ∧ mx = .cell [n, 1] l
      else toMx g = .ok mx := by
  have hg : (∀ v, g ≠ vector v) ∧ ∀ m, g ≠ map m := by
    constructor <;> rintro v rfl <;> simp [numeric, ty, width] at ht
  have ht1 := toMx_leaf g hf hg.1 hg.2
  cases g
  case bool b => exact ⟨_, rfl, rfl⟩
  case int i =>
    refine ⟨_, rfl, ?_⟩
    rw [if_neg (by simp [shape, ty]), toMx, to_mxArray_int, BitVec.toInt_signExtend_of_le (by decide)]
  case long b => exact ⟨_, rfl, rfl⟩
  case real b => exact ⟨_, rfl, rfl⟩
  case complex b => exact ⟨_, rfl, rfl⟩
  case string s => exact ⟨_, rfl, rfl⟩
  case vecBool v => exact ⟨_, rfl, .inr (.inl ⟨_, _, ht1, rfl, by simp⟩)⟩
  case vecInt v => exact ⟨_, rfl, .inl ⟨v, rfl, rfl⟩⟩
  case vecLong v => exact ⟨_, rfl, .inr (.inl ⟨_, _, ht1, rfl, by simp⟩)⟩
  case vecReal v => exact ⟨_, rfl, .inr (.inl ⟨_, _, ht1, rfl, by simp⟩)⟩
  case vecComplex v => exact ⟨_, rfl, .inr (.inl ⟨_, _, ht1, rfl, by simp⟩)⟩
  case vecString v => exact ⟨_, rfl, .inr (.inr ⟨_, _, ht1, rfl⟩)⟩
  case matInt m =>
    simp only [full, sizeOk, num_rows, num_cols, Bool.and_eq_true] at hf
    rw [to_mxArray, to_mxArray_mat_int, collect2_mat hf.1 (of_decide_eq_true hf.2) (fun _ _ _ _ _ h => h)]
    exact ⟨_, rfl, ht1⟩
  case matLong m =>
    simp only [full, sizeOk, num_rows, num_cols, Bool.and_eq_true] at hf
    rw [to_mxArray, to_mxArray_mat_long, collect2_mat hf.1 (of_decide_eq_true hf.2) (fun _ _ _ _ _ h => h)]
    exact ⟨_, rfl, ht1⟩
  case matReal m =>
    simp only [full, sizeOk, num_rows, num_cols, Bool.and_eq_true] at hf
    rw [to_mxArray, to_mxArray_mat_real, collect2_mat hf.1 (of_decide_eq_true hf.2) (fun _ _ _ _ _ h => h)]
    exact ⟨_, rfl, ht1⟩
  case matComplex m =>
    simp only [full, sizeOk, num_rows, num_cols, Bool.and_eq_true] at hf
    rw [to_mxArray, to_mxArray_mat_complex, collect2_mat hf.1 (of_decide_eq_true hf.2) (fun _ _ _ _ _ h => h)]
    exact ⟨_, rfl, ht1⟩
  all_goals simp [numeric, ty, width] at ht

/-- A container with a map, a vector, numbers and matrices. -/
def gcExample : GC := map [(str "a", vector [int (-3), string (str "hi"), vecInt [4, 5]]),
  (str "b", matInt ⟨1, 2, [6, 7]⟩), (str "c", matReal ⟨2, 1, [⟨8⟩, ⟨9⟩]⟩), (str "d", vecBool [true])]

example : every full gcExample = true ∧ every notEmptyMap gcExample = true ∧ every cleanKeys gcExample = true := by decide +kernel

example : toMx gcExample = .ok (.struct 1 1 [
    (str "a", [.cell [1, 3] [.num [1, 1] (.ints .i64 [-3]), .char (str "hi"), .num [1, 2] (.ints .i64 [4, 5])]]),
    (str "b", [.num [1, 2] (.ints .i32 [6, 7])]), (str "c", [.num [2, 1] (.double [⟨8⟩, ⟨9⟩])]),
    (str "d", [.num [1, 1] (.logical [true])])]) := by rfl

/-! ## C78 -/

/-- **C78**: what comes back into a container, through MATLAB, is `mxForm`. -/
theorem C78_round_trip (g : GC) (hf : every full g = true) (he : every notEmptyMap g = true)
    (hk : every cleanKeys g = true) (hw : WF g) : ∃ mx, toMx g = .ok mx ∧ ∀ h, fromMx mx h = .ok (mxForm g) :=
  ⟨mxOf g, toMx_eq.1 g hf he, fun h => by rw [fromMx_clear, back.1 g hf hk hw]⟩

/-- **C78**: these containers come back the same, and no others. -/
theorem C78_same (g : GC) : mxForm g = g ↔ every mxNormal g = true := fixed.1 g

/-- **C78**: from the second time on nothing changes any more. -/
theorem C78_settles (g : GC) : mxForm (mxForm (mxForm g)) = mxForm (mxForm g) := (fixed.1 _).2 (normal_two.1 g)

/-- **C78**: the numbers come back, in the same order. -/
theorem C78_numbers (g : GC) (h : numeric g = true) : SameElems (elems g) (elems (mxForm g)) := form_elems g h

example : mxForm gcExample = map [(str "a", vector [long (-3), string (str "hi"), vecLong [4, 5]]),
  (str "b", vecInt [6, 7]), (str "c", matReal ⟨2, 1, [⟨8⟩, ⟨9⟩]⟩), (str "d", bool true)] := by decide +kernel

example : WF gcExample := by
  simp only [gcExample, WF, WFM, WFL, KeysSorted, and_true, true_and]
  refine ⟨?_, by decide, by decide⟩
  simp only [List.pairwise_cons, List.mem_cons, forall_eq_or_imp, List.not_mem_nil, false_imp_iff, implies_true,
    List.Pairwise.nil, and_true]
  refine ⟨⟨?_, ?_, ?_⟩, ⟨?_, ?_⟩, ?_⟩ <;> exact .inr ⟨[], _, _, [], [], rfl, rfl, by decide⟩

/-- **C78**, what does not come back: an int becomes a long, a vector of one element a number, a matrix of one row a
vector, an empty container a matrix without elements; and one trip is not enough. -/
theorem C78_changes : mxForm (int 1) = long 1 ∧ mxForm (vecReal [⟨0⟩]) = real ⟨0⟩ ∧
    mxForm (matInt ⟨1, 2, [1, 2]⟩) = vecInt [1, 2] ∧ mxForm (mxForm (matInt ⟨1, 2, [1, 2]⟩)) = vecLong [1, 2] ∧
    mxForm notype = matReal ⟨0, 0, []⟩ ∧ mxForm (string [65, 0, 66]) = string [65] := by decide +kernel

/-! ## C79 -/

/-- **C79**: a MATLAB value put into a container and converted back is the same if and only if it is one of these
(`MxKept`). -/
theorem C79_kept (mx : Mx) (h : mx.Legal) (g : GC) :
    (∃ g', fromMx mx g = .ok g' ∧ toMx g' = .ok mx) ↔ MxKept mx := by
  rw [fromMx_clear, ← kept_iff mx h]; rfl

example : MxKept (.struct 1 1 [(str "a", [.cell [1, 2] [.char (str "hi"), .num [3, 1] (.ints .i32 [1, 2, 3])]]),
    (str "b", [.num [1, 2] (.double [⟨0⟩, ⟨1⟩])])]) := by
  simp only [MxKept, MxKeptL, MxKeptF, MxNum.cls, MxNum.values]
  refine ⟨trivial, trivial, by simp, ?_, ?_⟩
  · simp only [List.pairwise_cons, List.mem_cons, forall_eq_or_imp, List.not_mem_nil, false_imp_iff, implies_true,
      List.Pairwise.nil, and_true]
    exact .inr ⟨[], _, _, [], [], rfl, rfl, by decide⟩
  · simp

/-- Fields that are not in the order of their names come back in another order, a column cell as a row. -/
theorem C79_changes : ¬ MxKept mxExample ∧ ¬ MxKept (.cell [2, 1] [.null, .null]) ∧
    ¬ MxKept (.num [1, 1] (.ints .i32 [1])) := by
  simp [MxKept, mxExample, MxKeptF, MxKeptL, MxNum.cls, MxNum.values]

end GC
end GCV
