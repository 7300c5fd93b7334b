import Verif.Lemmas.CopyTo
import Verif.Props.Matrix

/-!
# C16: copyto_*

"The same numbers" is position by position: `Pointwise R (elems g) w` with `R x a` saying that
the element `x` is the number `a`.  Each theorem says: either the call succeeds with exactly the
stored numbers in order, or it throws and the numbers cannot be stored in the destination type.
-/

namespace GCV
namespace GC

open F64

/-- `x` is the signed integer `a`. -/
def IsInt {w : Nat} (x : GC) (a : BitVec w) : Prop := numValue x = some (a.toInt * unit)

/-- `x` is the unsigned integer `a`. -/
def IsNat {w : Nat} (x : GC) (a : BitVec w) : Prop := numValue x = some ((a.toNat : Int) * unit)

/-- **C16**, `copyto_vec_int`.  Partial: for elements that are not subnormal, and in the 32 bit
range unless they are longs outside of a vector of containers; see `C16_negation`. -/
theorem C16_vec_int_partial (g : GC) (hs : sizeOk g = true) (hm : g.ty ≠ .MAP)
    (h : ∀ x ∈ elems g, NoSubnormal x ∧
      ((∃ l, x = long l) ∧ g.ty ≠ .VECTOR ∨ IntegerIn (-2 ^ 31) (2 ^ 31) x)) :
    (∃ w, copyto_vec_int g = .ok w ∧ Pointwise IsInt (elems g) w) ∨
    (copyto_vec_int g = .throw ∧ ¬ ∃ w : List I32, Pointwise IsInt (elems g) w) := by
  refine copyToVec_exact copyInt get_as_int IsInt g hs hm (fun _ _ h => isNumber_of_value h) ?_ ?_
  · intro _ x hx _
    refine copyInt_exact (h x hx).1 ?_
    rcases (h x hx).2 with ⟨h1, _⟩ | h1
    · exact .inl h1
    · exact .inr h1
  · intro hv x hx
    refine exact_of_C10 (C10_as_int_partial x (h x hx).1 ?_)
    rcases (h x hx).2 with ⟨_, h1⟩ | h1
    · exact absurd hv h1
    · exact h1

/-- **C16**, `copyto_vec_long`. -/
theorem C16_vec_long_partial (g : GC) (hs : sizeOk g = true) (hm : g.ty ≠ .MAP)
    (h : ∀ x ∈ elems g, NoSubnormal x ∧ IntegerIn (-2 ^ 63) (2 ^ 63) x) :
    (∃ w, copyto_vec_long g = .ok w ∧ Pointwise IsInt (elems g) w) ∨
    (copyto_vec_long g = .throw ∧ ¬ ∃ w : List I64, Pointwise IsInt (elems g) w) :=
  copyToVec_exact copyLong get_as_long IsInt g hs hm (fun _ _ h => isNumber_of_value h)
    (fun _ x hx _ => copyLong_exact (h x hx).1 (h x hx).2)
    (fun _ x hx => exact_of_C10_long (C10_as_long_partial x (h x hx).1 (h x hx).2))

/-- **C16**, `copyto_vec_uint`.  A long from 2^31 on is refused although it fits
(`C16_uint_refused`). -/
theorem C16_vec_uint_partial (g : GC) (hs : sizeOk g = true) (hm : g.ty ≠ .MAP)
    (h : ∀ x ∈ elems g, NoSubnormal x ∧ (∀ n : Int, numValue x = some (n * unit) → n < 2 ^ 32) ∧
      ∀ l, x = long l → l.toInt < 2 ^ 31) :
    (∃ w, copyto_vec_uint g = .ok w ∧ Pointwise IsNat (elems g) w) ∨
    (copyto_vec_uint g = .throw ∧ ¬ ∃ w : List (BitVec 32), Pointwise IsNat (elems g) w) :=
  copyToVec_exact copyUint get_as_uint IsNat g hs hm (fun _ _ h => isNumber_of_value h)
    (fun _ x hx _ => copyUint_exact (h x hx).1 (h x hx).2.1 (h x hx).2.2)
    (fun _ x hx => exact_of_C10_u (C10_as_uint_partial x (h x hx).1 (h x hx).2.1))

/-- **C16**, `copyto_vec_ulong`. -/
theorem C16_vec_ulong_partial (g : GC) (hs : sizeOk g = true) (hm : g.ty ≠ .MAP)
    (h : ∀ x ∈ elems g, NoSubnormal x ∧ (∀ n : Int, numValue x = some (n * unit) → n < 2 ^ 64)) :
    (∃ w, copyto_vec_ulong g = .ok w ∧ Pointwise IsNat (elems g) w) ∨
    (copyto_vec_ulong g = .throw ∧ ¬ ∃ w : List (BitVec 64), Pointwise IsNat (elems g) w) :=
  copyToVec_exact copyUlong get_as_ulong IsNat g hs hm (fun _ _ h => isNumber_of_value h)
    (fun _ x hx _ => copyUlong_exact (h x hx).1 (h x hx).2)
    (fun _ x hx => exact_of_C10_u (C10_as_ulong_partial x (h x hx).1 (h x hx).2))

/-- A complex number with a zero imaginary part and the real number with that real part. -/
def IsReal (x : GC) (a : F64) : Prop :=
  SameNumber x (real a) ∨ ∃ i, x = complex ⟨a, i⟩ ∧ i.isZero = true

/-- **C16**, `copyto_vec_real`: for longs of at most 2^53 and, in a vector of containers, no
complex numbers with zero imaginary part (they are refused). -/
theorem C16_vec_real_partial (g : GC) (hs : sizeOk g = true) (hm : g.ty ≠ .MAP)
    (hl : LongsExact g) (h : ∀ x ∈ elems g, NoSubnormal x ∧
      (g.ty = .VECTOR → ∀ c, x = complex c → c.im.isZero = false)) :
    (∃ w, copyto_vec_real g = .ok w ∧ Pointwise IsReal (elems g) w) ∨
    (copyto_vec_real g = .throw ∧ ¬ ∃ w, Pointwise IsReal (elems g) w) := by
  have num : ∀ x a, IsReal x a → isNumber x = true := by
    rintro x a (h | ⟨i, h, _⟩)
    · exact isNumber_of_same_real h
    · rw [h]; rfl
  have cno : ∀ c : Cplx, c.im.isZero = false → ¬ ∃ a, IsReal (complex c) a := by
    rintro c hc ⟨a, h | ⟨i, h, hi⟩⟩
    · rcases h with h | ⟨q, h, _⟩ | ⟨r, h, _⟩
      · simp at h
      · rw [complex_value, hc] at h; simp at h
      · simp at h
    · simp at h; rw [h] at hc; simp [hi] at hc
  refine copyToVec_exact copyReal get_number IsReal g hs hm num ?_ ?_
  · intro _ x hx hn
    cases x with
    | bool b => exact .inl ⟨_, rfl, .inl (sn_bool_real b)⟩
    | int b => exact .inl ⟨_, rfl, .inl (sn_int_real b)⟩
    | long b => exact .inl ⟨_, rfl, .inl (sn_long_real (hl b hx))⟩
    | real b => exact .inl ⟨_, rfl, .inl (.inl rfl)⟩
    | complex c =>
      by_cases hc : c.im.isZero0 = true
      · exact .inl ⟨c.re, by rw [copyReal, if_pos hc], .inr ⟨c.im, rfl, (h _ hx).1.2 hc⟩⟩
      · refine .inr ⟨by rw [copyReal, if_neg hc], cno c ?_⟩
        cases hz : c.im.isZero
        · rfl
        · exact absurd (isZero0_of_isZero hz) hc
    | _ => simp [isNumber] at hn
  · intro hv x hx
    cases x with
    | bool b => exact .inl ⟨_, rfl, .inl (sn_bool_real b)⟩
    | int b => exact .inl ⟨_, rfl, .inl (sn_int_real b)⟩
    | long b => exact .inl ⟨_, rfl, .inl (sn_long_real (hl b hx))⟩
    | real b => exact .inl ⟨_, rfl, .inl (.inl rfl)⟩
    | complex c => exact .inr ⟨rfl, cno c ((h _ hx).2 hv c rfl)⟩
    | _ => exact .inr ⟨rfl, by rintro ⟨a, ha⟩; have := num _ _ ha; simp [isNumber] at this⟩

/-- **C16**, `copyto_vec_complex`: every container of numbers, for longs of at most 2^53; a vector
of containers has to hold only complex numbers, others are refused. -/
theorem C16_vec_complex_partial (g : GC) (hs : sizeOk g = true) (hm : g.ty ≠ .MAP)
    (hl : LongsExact g)
    (h : g.ty = .VECTOR → ∀ x ∈ elems g, isNumber x = true → x.ty = .COMPLEX) :
    (∃ w, copyto_vec_complex g = .ok w ∧ Pointwise (fun x c => SameNumber x (complex c)) (elems g) w) ∨
    (copyto_vec_complex g = .throw ∧
      ¬ ∃ w, Pointwise (fun x c => SameNumber x (complex c)) (elems g) w) := by
  refine copyToVec_exact copyComplex get_complex_c _ g hs hm (fun _ _ h => isNumber_of_same_complex h) ?_ ?_
  · intro _ x hx hn
    cases x with
    | bool b => exact .inl ⟨_, rfl, sn_bool_complex b⟩
    | int b => exact .inl ⟨_, rfl, sn_int_complex b⟩
    | long b => exact .inl ⟨_, rfl, sn_long_complex (hl b hx)⟩
    | real b => exact .inl ⟨_, rfl, sn_real_complex b⟩
    | complex c => exact .inl ⟨_, rfl, .inl rfl⟩
    | _ => simp [isNumber] at hn
  · intro hv x hx
    by_cases hn : isNumber x = true
    · have := h hv x hx hn
      cases x with
      | complex c => exact .inl ⟨c, rfl, .inl rfl⟩
      | _ => simp [GC.ty] at this
    · refine .inr ⟨?_, by rintro ⟨a, ha⟩; exact hn (isNumber_of_same_complex ha)⟩
      cases x <;> first | rfl | (exact absurd rfl hn)

/-- **C16**, `copyto_vec_string`: the strings stored, or throw; an empty container and all others
throw. -/
theorem C16_vec_string (g : GC) (hs : sizeOk g = true) :
    (∃ w, copyto_vec_string g = .ok w ∧ elems g = w.map string) ∨
    (copyto_vec_string g = .throw ∧ ((g.ty = .VECTOR ∧ ¬ ∃ w : List Bytes, elems g = w.map string) ∨
      g.ty ∉ [.STRING, .VEC_STRING, .VECTOR])) := by
  cases g with
  | string s => exact .inl ⟨[s], rfl, rfl⟩
  | vecString v =>
    refine .inl ⟨v, ?_, rfl⟩
    rw [copyto_vec_string, u32_of_lt (of_decide_eq_true hs), copyL_eq (by simp)]
  | vector v =>
    rw [copyto_vec_string, u32_of_lt (of_decide_eq_true hs), List.take_length]
    have key := convLoop_exact get_string_c id (fun x s => x = string s) v (by
      intro x _
      cases x with
      | string s => exact .inl ⟨s, rfl, rfl⟩
      | _ => exact .inr ⟨rfl, by simp⟩)
    have pw : ∀ (v : List GC) (w : List Bytes), Pointwise (fun x s => x = string s) v w ↔ v = w.map string := by
      intro v w
      constructor
      · rintro ⟨h1, h2⟩
        apply List.ext_getElem? 
        intro i
        rw [List.getElem?_map]
        cases hi : v[i]? with
        | none =>
          have : w[i]? = none := by simp at hi ⊢; omega
          rw [this]; rfl
        | some x =>
          have hlt := (List.getElem?_eq_some_iff.1 hi).1
          have : w[i]? = some (w[i]'(by omega)) := List.getElem?_eq_getElem (by omega)
          rw [this, h2 i x _ hi this]; rfl
      · rintro rfl
        refine ⟨by simp, ?_⟩
        intro i x s h1 h2
        rw [List.getElem?_map, h2] at h1; simp at h1; exact h1.symm
    simp only [List.map_id, pw] at key
    rcases key with ⟨w, h1, h2⟩ | ⟨h1, h2⟩
    · exact .inl ⟨w, h1, h2⟩
    · exact .inr ⟨h1, .inl ⟨rfl, h2⟩⟩
  | _ => exact .inr ⟨rfl, .inr (by simp [GC.ty])⟩

/-- The hypotheses are met by mixed data; the data is copied or refused. -/
example : copyto_vec_int (vecLong [1, -2, 2147483647]) = .ok [1, -2, 2147483647] ∧
    copyto_vec_int (vecLong [1, 2147483648]) = .throw ∧
    copyto_vec_int (vector [bool true, long 7]) = .ok [1, 7] := by decide

/-- A map that is not empty is refused by all of them. -/
theorem C16_map (m : Entries) (hm : m ≠ []) (hs : m.length < 2 ^ 32) :
    copyto_vec_int (map m) = .throw ∧ copyto_vec_uint (map m) = .throw ∧
    copyto_vec_long (map m) = .throw ∧ copyto_vec_ulong (map m) = .throw ∧
    copyto_vec_real (map m) = .throw ∧ copyto_vec_complex (map m) = .throw ∧
    copyto_vec_string (map m) = .throw := by
  have : ¬ u32 m.length = 0 := by
    rw [u32_of_lt hs]; intro h; exact hm (List.eq_nil_of_length_eq_zero h)
  simp [copyto_vec_int, copyto_vec_uint, copyto_vec_long, copyto_vec_ulong, copyto_vec_real,
    copyto_vec_complex, copyto_vec_string, copyToVec, this]

/-- The full claim is false: a long in a vector of containers is cut to its low 32 bits, and a
real out of range is undefined. -/
theorem C16_negation :
    copyto_vec_int (vector [long 4294967297]) = .ok [1] ∧
    copyto_vec_int (vecReal [⟨0x7FE0000000000000⟩]) = .ub := by decide +kernel

/-- Refused although the number can be stored. -/
theorem C16_uint_refused : copyto_vec_uint (long 3000000000) = .throw ∧
    copyto_vec_complex (vector [int 1]) = .throw := by decide

/-! ## Matrices -/

/-- `m` holds the numbers of `g`: a matrix of the same sizes, a column for a scalar or a vector of
numbers, one column for each element of a vector of containers. -/
def MatrixOf {α : Type} (R : GC → α → Prop) (g : GC) (m : Mat α) : Prop :=
  match g with
  | matInt n => m.nr = n.nr ∧ m.nc = n.nc ∧ Pointwise R (elems g) m.data
  | matLong n => m.nr = n.nr ∧ m.nc = n.nc ∧ Pointwise R (elems g) m.data
  | matReal n => m.nr = n.nr ∧ m.nc = n.nc ∧ Pointwise R (elems g) m.data
  | matComplex n => m.nr = n.nr ∧ m.nc = n.nc ∧ Pointwise R (elems g) m.data
  | vector v => m.nc = v.length ∧ m.data.length = m.nr * m.nc ∧
      ∀ j x, v[j]? = some x → Pointwise R (elems x) ((m.data.drop (j * m.nr)).take m.nr)
  | g => m.nr = (elems g).length ∧ m.nc = 1 ∧ Pointwise R (elems g) m.data

theorem pw_map {α β : Type} {R : GC → β → Prop} (v : List α) (up : α → GC) (f : α → β)
    (h : ∀ x ∈ v, R (up x) (f x)) : Pointwise R (v.map up) (v.map f) := by
  refine ⟨by simp, ?_⟩
  intro i a b h1 h2
  simp only [List.getElem?_map, Option.map_eq_some_iff] at h1 h2
  obtain ⟨x, h3, rfl⟩ := h1
  obtain ⟨y, h4, rfl⟩ := h2
  rw [h3] at h4; simp at h4; subst h4
  exact h x (List.mem_of_getElem? h3)

theorem pw_one {α : Type} {R : GC → α → Prop} {x : GC} {a : α} (h : R x a) : Pointwise R [x] [a] := by
  have := pw_map (R := R) [()] (fun _ => x) (fun _ => a) (fun _ _ => h)
  simpa using this

theorem copyN_column {β : Type} (d : β) {w : List β} (h : w.length < 2 ^ 32) (hne : w ≠ []) :
    copyN w w.length (.make d (u32 w.length) 1) = .ok ⟨w.length, 1, w⟩ := by
  rw [u32_of_lt h]
  unfold copyN Mat.make
  rw [Nat.mul_one, u32_of_lt h]
  have : (List.replicate w.length d) ≠ [] := by
    cases w with
    | nil => exact absurd rfl hne
    | cons => simp
  rw [if_neg this, if_pos (by simp)]
  simp

theorem copyMat_ok {α β : Type} (d : β) (f : α → β) {m : Mat α} (h : m.wf = true) (hne : m.data ≠ []) :
    copyMat d f m = .ok ⟨m.nr, m.nc, m.data.map f⟩ := by
  unfold Mat.wf at h
  simp only [Bool.and_eq_true, decide_eq_true_eq] at h
  have e : u32 (m.nr * m.nc) = m.data.length := by rw [h.2, u32]
  have hl : (m.data.map f).length = m.data.length := by simp
  unfold copyMat copyN Mat.make
  rw [if_neg hne, e]
  have : List.replicate m.data.length d ≠ [] := by
    cases hm : m.data with
    | nil => exact absurd hm hne
    | cons => simp
  rw [if_neg this, if_pos (by simp), ← hl, List.take_length]
  simp

theorem copyColumn_ok {α : Type} : ∀ (r pre : List α) (d : α) (n : Nat), n < 2 ^ 32 →
    pre.length + r.length = n →
    copyColumn ⟨n, 1, pre ++ List.replicate r.length d⟩ pre.length r = .ok ⟨n, 1, pre ++ r⟩
  | [], pre, d, n, _, _ => by simp [copyColumn]
  | x :: r, pre, d, n, h, hl => by
    have hi : (⟨n, 1, pre ++ List.replicate (x :: r).length d⟩ : Mat α).index pre.length 0 =
        pre.length := by
      simp [Mat.index, u32] at *; omega
    rw [copyColumn, Mat.set, hi]
    have hlt : pre.length < (pre ++ List.replicate (x :: r).length d).length := by simp
    rw [if_pos hlt]
    have e : (pre ++ List.replicate (x :: r).length d).set pre.length x =
        (pre ++ [x]) ++ List.replicate r.length d := by
      simp [List.replicate_succ]
    simp only [e]
    have := copyColumn_ok r (pre ++ [x]) d n h (by simp at *; omega)
    simpa [Out.bind] using this

theorem copyColumn_map {α β : Type} (d : β) (f : α → β) {v : List α} (h : v.length < 2 ^ 32) :
    copyColumn (.make d (u32 v.length) 1) 0 (v.map f) = .ok ⟨v.length, 1, v.map f⟩ := by
  have := copyColumn_ok (v.map f) [] d v.length h (by simp)
  unfold Mat.make
  rw [Nat.mul_one, u32_of_lt h, u32_of_lt h]
  simpa using this

theorem fillCol_ok {β : Type} (nr nc j : Nat) (vj : List β) (hv : vj.length = nr)
    (hlt : (j + 1) * nr < 2 ^ 32) : ∀ (n i : Nat) (dn rest : List β),
    i + n = nr → dn.length = j * nr + i → n ≤ rest.length →
    fillCol ⟨nr, nc, dn ++ rest⟩ j vj i n = .ok ⟨nr, nc, dn ++ vj.drop i ++ rest.drop n⟩
  | 0, i, dn, rest, h1, _, _ => by
    rw [fillCol, List.drop_eq_nil_of_le (by omega)]; simp
  | n + 1, i, dn, rest, h1, h2, h3 => by
    cases rest with
    | nil => simp at h3
    | cons y rest =>
      have hi : i < vj.length := by omega
      have hidx : (⟨nr, nc, dn ++ y :: rest⟩ : Mat β).index i j = dn.length := by
        unfold Mat.index u32
        rw [Nat.succ_mul] at hlt
        rw [h2]; simp only
        rw [Nat.mod_eq_of_lt (by omega)]; omega
      rw [fillCol, getL, List.getElem?_eq_getElem hi, Out.bind, Mat.set, hidx,
        if_pos (by simp), Out.bind]
      have e : (dn ++ y :: rest).set dn.length vj[i] = (dn ++ [vj[i]]) ++ rest := by simp
      simp only [e]
      rw [fillCol_ok nr nc j vj hv hlt n (i + 1) (dn ++ [vj[i]]) rest (by omega) (by simp; omega)
        (by simp at h3; omega)]
      rw [List.drop_eq_getElem_cons hi]
      simp

theorem fillCols_ok {β : Type} (conv : GC → Out (List β)) (nr nc : Nat) (hlt : nr * nc < 2 ^ 32) :
    ∀ (v : List GC) (ws : List (List β)) (j : Nat) (dn rest : List β),
    j + v.length = nc → dn.length = j * nr → rest.length = v.length * nr →
    v.length = ws.length →
    (∀ (k : Nat) x w, v[k]? = some x → ws[k]? = some w → conv x = .ok w ∧ w.length = nr) →
    fillCols conv nr ⟨nr, nc, dn ++ rest⟩ j v = .ok ⟨nr, nc, dn ++ ws.flatten⟩
  | [], ws, j, dn, rest, _, _, h3, h4, _ => by
    have : ws = [] := List.eq_nil_of_length_eq_zero (by simpa using h4.symm)
    have h5 : rest = [] := List.eq_nil_of_length_eq_zero (by simpa using h3)
    simp [fillCols, this, h5]
  | x :: v, [], j, dn, rest, _, _, _, h4, _ => by simp at h4
  | x :: v, w :: ws, j, dn, rest, h1, h2, h3, h4, h5 => by
    obtain ⟨hc, hw⟩ := h5 0 x w rfl rfl
    have hj : (j + 1) * nr ≤ nc * nr := Nat.mul_le_mul_right _ (by simp at h1; omega)
    have h3' : rest.length = v.length * nr + nr := by rw [h3, List.length_cons, Nat.succ_mul]
    have hf := fillCol_ok nr nc j w hw (by rw [Nat.mul_comm nc nr] at hj; omega) nr 0 dn rest
      (by omega) (by omega) (by omega)
    rw [fillCols, hc, Out.bind, hf, Out.bind]
    rw [List.drop_zero]
    rw [fillCols_ok conv nr nc hlt v ws (j + 1) (dn ++ w) (rest.drop nr) (by simp at h1; omega)
      (by rw [List.length_append, hw, h2, Nat.succ_mul]) (by rw [List.length_drop, h3']; omega)
      (by simpa using h4) (fun k y z h6 h7 => h5 (k + 1) y z (by simpa using h6) (by simpa using h7))]
    simp

theorem flatten_column {β : Type} : ∀ (ws : List (List β)) (nr j : Nat) (w : List β),
    (∀ x ∈ ws, x.length = nr) → ws[j]? = some w → (ws.flatten.drop (j * nr)).take nr = w
  | [], nr, j, w, _, h => by simp at h
  | x :: ws, nr, 0, w, hl, h => by
    simp at h; subst h
    have := hl x (by simp)
    simp [← this]
  | x :: ws, nr, j + 1, w, hl, h => by
    have hx := hl x (by simp)
    have : (x :: ws).flatten.drop ((j + 1) * nr) = ws.flatten.drop (j * nr) := by
      rw [List.flatten_cons, Nat.succ_mul, Nat.add_comm, ← hx, ← List.drop_drop, List.drop_left]
    rw [this]
    exact flatten_column ws nr j w (fun y hy => hl y (by simp [hy])) (by simpa using h)

theorem fillCols_throw {β : Type} (conv : GC → Out (List β)) (nr nc : Nat) (hlt : nr * nc < 2 ^ 32) :
    ∀ (v : List GC) (j : Nat) (dn rest : List β),
    j + v.length = nc → dn.length = j * nr → rest.length = v.length * nr →
    (∀ x ∈ v, (∃ w, conv x = .ok w ∧ w.length = nr) ∨ conv x = .throw) →
    (∃ x ∈ v, conv x = .throw) →
    fillCols conv nr ⟨nr, nc, dn ++ rest⟩ j v = .throw
  | [], j, dn, rest, _, _, _, _, h => by simp at h
  | x :: v, j, dn, rest, h1, h2, h3, h4, h5 => by
    rcases h4 x (by simp) with ⟨w, hc, hw⟩ | hc
    · have hj : (j + 1) * nr ≤ nc * nr := Nat.mul_le_mul_right _ (by simp at h1; omega)
      have h3' : rest.length = v.length * nr + nr := by rw [h3, List.length_cons, Nat.succ_mul]
      have hf := fillCol_ok nr nc j w hw (by rw [Nat.mul_comm nc nr] at hj; omega) nr 0 dn rest
        (by omega) (by omega) (by omega)
      rw [fillCols, hc, Out.bind, hf, Out.bind, List.drop_zero]
      refine fillCols_throw conv nr nc hlt v (j + 1) (dn ++ w) (rest.drop nr) (by simp at h1; omega)
        (by rw [List.length_append, hw, h2, Nat.succ_mul]) (by rw [List.length_drop, h3']; omega)
        (fun y hy => h4 y (by simp [hy])) ?_
      obtain ⟨y, hy, hyc⟩ := h5
      rcases List.mem_cons.1 hy with rfl | hy
      · rw [hc] at hyc; simp at hyc
      · exact ⟨y, hy, hyc⟩
    · rw [fillCols, hc, Out.bind]

/-- The number of elements as counted by `get_num_elements()`. -/
theorem num_elements_elems (g : GC) (hs : sizeOk g = true) (hm : g.ty ≠ .MAP) :
    g.get_num_elements = (elems g).length := by
  have wfl : ∀ {β : Type} (m : Mat β), m.wf = true → m.data.length < 2 ^ 32 := by
    intro β m h
    unfold Mat.wf at h
    simp only [Bool.and_eq_true, decide_eq_true_eq] at h
    rw [h.2]; exact Nat.mod_lt _ (by decide)
  cases g <;> first
    | rfl
    | (exact absurd rfl hm)
    | (simp only [get_num_elements, elems, List.length_map]; exact u32_of_lt (of_decide_eq_true hs))
    | (simp only [get_num_elements, elems, List.length_map]; exact u32_of_lt (wfl _ hs))

theorem columns_spec {β : Type} (d : β) (conv : GC → Out (List β)) (R : GC → β → Prop) (v : List GC)
    (hv : v.length < 2 ^ 32)
    (hn : ∀ x ∈ v, sizeOk x = true ∧ x.ty ≠ .MAP ∧ (elems x).length * v.length < 2 ^ 32)
    (hc : ∀ x ∈ v, (∃ w, conv x = .ok w ∧ Pointwise R (elems x) w) ∨ conv x = .throw) :
    (∃ m, columns d conv v = .ok m ∧ MatrixOf R (vector v) m) ∨ columns d conv v = .throw := by
  unfold columns
  rw [u32_of_lt hv, List.take_length]
  cases v with
  | nil => exact .inr rfl
  | cons x r =>
    simp only
    by_cases hall : (r.all fun y => y.get_num_elements == x.get_num_elements) = true
    · rw [if_pos hall]
      have hlen : ∀ y ∈ x :: r, (elems y).length = x.get_num_elements := by
        intro y hy
        rw [← num_elements_elems y (hn y hy).1 (hn y hy).2.1]
        rcases List.mem_cons.1 hy with rfl | hy
        · rfl
        · simp only [List.all_eq_true, beq_iff_eq] at hall; exact hall y hy
      have hx := hn x (by simp)
      have hmul : x.get_num_elements * (r.length + 1) < 2 ^ 32 := by
        rw [num_elements_elems x hx.1 hx.2.1]; exact hx.2.2
      have hmk : Mat.make d x.get_num_elements (r.length + 1) =
          ⟨x.get_num_elements, r.length + 1, [] ++ List.replicate ((r.length + 1) * x.get_num_elements) d⟩ := by
        unfold Mat.make; rw [u32_of_lt hmul, Nat.mul_comm]; rfl
      rw [hmk]
      by_cases ht : ∃ y ∈ x :: r, conv y = .throw
      · right
        refine fillCols_throw conv _ _ hmul (x :: r) 0 [] _ (by simp) (by simp) (by simp) ?_ ht
        intro y hy
        rcases hc y hy with ⟨w, h1, h2⟩ | h1
        · exact .inl ⟨w, h1, by rw [← h2.1, hlen y hy]⟩
        · exact .inr h1
      · left
        have hex : ∀ (v : List GC), (∀ y ∈ v, y ∈ x :: r) → ∃ ws : List (List β), v.length = ws.length ∧
            ∀ (k : Nat) y w, v[k]? = some y → ws[k]? = some w → conv y = .ok w ∧ Pointwise R (elems y) w := by
          intro v
          induction v with
          | nil => intro _; exact ⟨[], rfl, by intro k y w h; simp at h⟩
          | cons y v ih =>
            intro hsub
            obtain ⟨ws, h1, h2⟩ := ih (fun z hz => hsub z (by simp [hz]))
            rcases hc y (hsub y (by simp)) with ⟨w, h3, h4⟩ | h3
            · refine ⟨w :: ws, by simp [h1], ?_⟩
              intro k z u h5 h6
              cases k with
              | zero => simp at h5 h6; rw [← h5, ← h6]; exact ⟨h3, h4⟩
              | succ k => exact h2 k z u (by simpa using h5) (by simpa using h6)
            · exact absurd ⟨y, hsub y (by simp), h3⟩ ht
        obtain ⟨ws, h1, h2⟩ := hex (x :: r) (fun _ h => h)
        have hwl : ∀ (k : Nat) y w, (x :: r)[k]? = some y → ws[k]? = some w → w.length = x.get_num_elements := by
          intro k y w h3 h4
          rw [← (h2 k y w h3 h4).2.1]; exact hlen y (List.mem_of_getElem? h3)
        have hwl' : ∀ w ∈ ws, w.length = x.get_num_elements := by
          intro w hw
          obtain ⟨k, hk⟩ := List.mem_iff_getElem?.1 hw
          have hk' := (List.getElem?_eq_some_iff.1 hk).1
          have : (x :: r)[k]? = some ((x :: r)[k]'(by omega)) := List.getElem?_eq_getElem (by omega)
          exact hwl k _ w this hk
        refine ⟨_, fillCols_ok conv _ _ hmul (x :: r) ws 0 [] _ (by simp) (by simp) (by simp) h1
          (fun k y w h3 h4 => ⟨(h2 k y w h3 h4).1, hwl k y w h3 h4⟩), ?_⟩
        refine ⟨rfl, ?_, ?_⟩
        · have hfl : ∀ (ws : List (List β)) n, (∀ w ∈ ws, w.length = n) → ws.flatten.length = n * ws.length := by
            intro ws n
            induction ws with
            | nil => intro _; simp
            | cons w ws ih =>
              intro h
              rw [List.flatten_cons, List.length_append, ih (fun u hu => h u (by simp [hu])), h w (by simp),
                List.length_cons, Nat.mul_succ]; omega
          simp only [List.nil_append]
          rw [hfl ws _ hwl', ← h1]; rfl
        · intro j y hy
          have hj := (List.getElem?_eq_some_iff.1 hy).1
          have hw : ws[j]? = some (ws[j]'(by omega)) := List.getElem?_eq_getElem (by omega)
          simp only [List.nil_append]
          rw [flatten_column ws _ j _ hwl' hw]
          exact (h2 j y _ hy hw).2
    · rw [if_neg hall]; exact .inr rfl

/-- Sizes in a vector of containers: every column and the whole matrix within 32 bits, and no map
among the elements. -/
def ColumnsOk (g : GC) : Prop :=
  ∀ v, g = vector v → ∀ x ∈ v, sizeOk x = true ∧ x.ty ≠ .MAP ∧ (elems x).length * v.length < 2 ^ 32

/-- Vectors and matrices with at least an element. -/
def NotEmpty (g : GC) : Prop := elems g ≠ []

/-- Numbers stored in the container itself or in the elements of a vector of containers. -/
def leaves : GC → List GC
  | vector v => v.flatMap elems
  | g => elems g

theorem mem_leaves {v : List GC} {x y : GC} (hx : x ∈ v) (hy : y ∈ elems x) : y ∈ leaves (vector v) :=
  List.mem_flatMap.2 ⟨x, hx, hy⟩

theorem isInt_bool32 (b : Bool) : IsInt (bool b) (I32.ofBool b) := by
  cases b
  · show some (0 : Int) = some ((I32.ofBool false).toInt * (unit : Int))
    rw [show (I32.ofBool false).toInt = 0 from by decide, Int.zero_mul]
  · show some (unit : Int) = some ((I32.ofBool true).toInt * (unit : Int))
    rw [show (I32.ofBool true).toInt = 1 from by decide, Int.one_mul]

theorem isInt_bool64 (b : Bool) : IsInt (bool b) (I64.ofBool b) := by
  cases b
  · show some (0 : Int) = some ((I64.ofBool false).toInt * (unit : Int))
    rw [show (I64.ofBool false).toInt = 0 from by decide, Int.zero_mul]
  · show some (unit : Int) = some ((I64.ofBool true).toInt * (unit : Int))
    rw [show (I64.ofBool true).toInt = 1 from by decide, Int.one_mul]

/-- **C16**, `copyto_mat_int`: the same numbers at the same rows and columns, or throw.
Partial: the conditions of `C16_vec_int_partial` on the numbers, and not for vectors and matrices
without elements, see `C16_mat_empty_negation`. -/
theorem C16_mat_int_partial (g : GC) (hs : sizeOk g = true) (hne : NotEmpty g) (hco : ColumnsOk g)
    (h : ∀ x ∈ leaves g, NoSubnormal x ∧ IntegerIn (-2 ^ 31) (2 ^ 31) x) :
    (∃ m, copyto_mat_int g = .ok m ∧ MatrixOf IsInt g m) ∨ copyto_mat_int g = .throw := by
  cases g with
  | notype => exact absurd rfl hne
  | bool b => exact .inl ⟨_, rfl, rfl, rfl, pw_one (isInt_bool32 b)⟩
  | int i => exact .inl ⟨_, rfl, rfl, rfl, pw_one rfl⟩
  | vecBool v =>
    refine .inl ⟨_, copyColumn_map _ _ (of_decide_eq_true hs), ?_, rfl, pw_map _ _ _ ?_⟩
    · simp [elems]
    · intro b _; exact isInt_bool32 b
  | vecInt v =>
    refine .inl ⟨_, copyN_column _ (of_decide_eq_true hs) (by simpa [NotEmpty, elems] using hne), ?_, rfl, ?_⟩
    · simp [elems]
    · have := pw_map (R := IsInt) v int id (fun _ _ => rfl); simpa [elems] using this
  | matInt m =>
    refine .inl ⟨_, copyMat_ok _ _ hs (by simpa [NotEmpty, elems] using hne), rfl, rfl, pw_map _ _ _ ?_⟩
    intro x _; rfl
  | vector v =>
    refine columns_spec 0 copyto_vec_int IsInt v (of_decide_eq_true hs) (hco v rfl) ?_
    intro x hx
    obtain ⟨h1, h2, _⟩ := hco v rfl x hx
    rcases C16_vec_int_partial x h1 h2 (fun y hy =>
      ⟨(h y (mem_leaves hx hy)).1, .inr (h y (mem_leaves hx hy)).2⟩) with h3 | h3
    · exact .inl h3
    · exact .inr h3.1
  | _ => exact .inr rfl

/-- **C16**, `copyto_mat_long`. -/
theorem C16_mat_long_partial (g : GC) (hs : sizeOk g = true) (hne : NotEmpty g) (hco : ColumnsOk g)
    (h : ∀ x ∈ leaves g, NoSubnormal x ∧ IntegerIn (-2 ^ 63) (2 ^ 63) x) :
    (∃ m, copyto_mat_long g = .ok m ∧ MatrixOf IsInt g m) ∨ copyto_mat_long g = .throw := by
  have nb := isInt_bool64
  have ni : ∀ i : I32, IsInt (int i) i.toI64 := by intro i; rw [IsInt, numValue, toI64_exact]
  cases g with
  | notype => exact absurd rfl hne
  | bool b => exact .inl ⟨_, rfl, rfl, rfl, pw_one (nb b)⟩
  | int i => exact .inl ⟨_, rfl, rfl, rfl, pw_one (ni i)⟩
  | long i => exact .inl ⟨_, rfl, rfl, rfl, pw_one rfl⟩
  | vecBool v =>
    refine .inl ⟨_, copyColumn_map _ _ (of_decide_eq_true hs), ?_, rfl, pw_map _ _ _ fun b _ => nb b⟩
    simp [elems]
  | vecInt v =>
    have hl := of_decide_eq_true hs
    refine .inl ⟨⟨v.length, 1, v.map I32.toI64⟩, ?_, ?_, rfl, pw_map _ _ _ fun i _ => ni i⟩
    · have := copyN_column (0 : I64) (w := v.map I32.toI64) (by simpa using hl) (by simpa [NotEmpty, elems] using hne)
      simpa [copyto_mat_long] using this
    · simp [elems]
  | vecLong v =>
    refine .inl ⟨_, copyN_column _ (of_decide_eq_true hs) (by simpa [NotEmpty, elems] using hne), ?_, rfl, ?_⟩
    · simp [elems]
    · have := pw_map (R := IsInt) v long id (fun _ _ => rfl); simpa [elems] using this
  | matInt m =>
    exact .inl ⟨_, copyMat_ok _ _ hs (by simpa [NotEmpty, elems] using hne), rfl, rfl, pw_map _ _ _ fun i _ => ni i⟩
  | matLong m =>
    refine .inl ⟨_, copyMat_ok _ _ hs (by simpa [NotEmpty, elems] using hne), rfl, rfl, pw_map _ _ _ ?_⟩
    intro x _; rfl
  | vector v =>
    refine columns_spec 0 copyto_vec_long IsInt v (of_decide_eq_true hs) (hco v rfl) ?_
    intro x hx
    obtain ⟨h1, h2, _⟩ := hco v rfl x hx
    rcases C16_vec_long_partial x h1 h2 (fun y hy => h y (mem_leaves hx hy)) with h3 | h3
    · exact .inl h3
    · exact .inr h3.1
  | _ => exact .inr rfl

/-- **C16**, `copyto_mat_real`. -/
theorem C16_mat_real_partial (g : GC) (hs : sizeOk g = true) (hne : NotEmpty g) (hco : ColumnsOk g)
    (h : ∀ x ∈ leaves g, NoSubnormal x ∧ (∀ l, x = long l → l.toInt.natAbs ≤ 2 ^ 53) ∧
      ∀ c, x = complex c → c.im.isZero = false) :
    (∃ m, copyto_mat_real g = .ok m ∧ MatrixOf IsReal g m) ∨ copyto_mat_real g = .throw := by
  have nb : ∀ b : Bool, IsReal (bool b) (F64.ofBool b) := fun b => .inl (sn_bool_real b)
  have ni : ∀ i : I32, IsReal (int i) (F64.ofI32 i) := fun i => .inl (sn_int_real i)
  have nr : ∀ r : F64, IsReal (real r) r := fun r => .inl (.inl rfl)
  cases g with
  | notype => exact absurd rfl hne
  | bool b => exact .inl ⟨_, rfl, rfl, rfl, pw_one (nb b)⟩
  | int i => exact .inl ⟨_, rfl, rfl, rfl, pw_one (ni i)⟩
  | long i => exact .inl ⟨_, rfl, rfl, rfl, pw_one (.inl (sn_long_real ((h _ (by simp [leaves, elems])).2.1 i rfl)))⟩
  | real r => exact .inl ⟨_, rfl, rfl, rfl, pw_one (nr r)⟩
  | vecBool v =>
    refine .inl ⟨_, copyColumn_map _ _ (of_decide_eq_true hs), ?_, rfl, pw_map _ _ _ fun b _ => nb b⟩
    simp [elems]
  | vecInt v =>
    have hl := of_decide_eq_true hs
    refine .inl ⟨⟨v.length, 1, v.map F64.ofI32⟩, ?_, ?_, rfl, pw_map _ _ _ fun i _ => ni i⟩
    · have := copyN_column F64.zero (w := v.map F64.ofI32) (by simpa using hl) (by simpa [NotEmpty, elems] using hne)
      simpa [copyto_mat_real] using this
    · simp [elems]
  | vecLong v =>
    have hl := of_decide_eq_true hs
    refine .inl ⟨⟨v.length, 1, v.map F64.ofI64⟩, ?_, ?_, rfl, pw_map _ _ _ fun l hl => .inl (sn_long_real ((h _ (by simp [leaves, elems, hl])).2.1 l rfl))⟩
    · have := copyN_column F64.zero (w := v.map F64.ofI64) (by simpa using hl) (by simpa [NotEmpty, elems] using hne)
      simpa [copyto_mat_real] using this
    · simp [elems]
  | vecReal v =>
    refine .inl ⟨_, copyN_column _ (of_decide_eq_true hs) (by simpa [NotEmpty, elems] using hne), ?_, rfl, ?_⟩
    · simp [elems]
    · have := pw_map (R := IsReal) v real id (fun r _ => nr r); simpa [elems] using this
  | matInt m =>
    exact .inl ⟨_, copyMat_ok _ _ hs (by simpa [NotEmpty, elems] using hne), rfl, rfl, pw_map _ _ _ fun i _ => ni i⟩
  | matLong m =>
    exact .inl ⟨_, copyMat_ok _ _ hs (by simpa [NotEmpty, elems] using hne), rfl, rfl, pw_map _ _ _ fun l hl => .inl (sn_long_real ((h _ (by simp [leaves, elems, hl])).2.1 l rfl))⟩
  | matReal m =>
    exact .inl ⟨_, copyMat_ok _ _ hs (by simpa [NotEmpty, elems] using hne), rfl, rfl, pw_map _ _ _ fun r _ => nr r⟩
  | vector v =>
    refine columns_spec .zero copyto_vec_real IsReal v (of_decide_eq_true hs) (hco v rfl) ?_
    intro x hx
    obtain ⟨h1, h2, _⟩ := hco v rfl x hx
    rcases C16_vec_real_partial x h1 h2 (fun l hl => (h _ (mem_leaves hx hl)).2.1 l rfl)
      (fun y hy => ⟨(h y (mem_leaves hx hy)).1, fun _ => (h y (mem_leaves hx hy)).2.2⟩) with h3 | h3
    · exact .inl h3
    · exact .inr h3.1
  | _ => exact .inr rfl

/-- **C16**, `copyto_mat_complex`.  Partial: also not for complex matrices (refused,
`C16_mat_complex_negation`), and for vectors of containers with columns of numbers. -/
theorem C16_mat_complex_partial (g : GC) (hs : sizeOk g = true) (hne : NotEmpty g) (hco : ColumnsOk g)
    (h : ∀ x ∈ leaves g, ∀ l, x = long l → l.toInt.natAbs ≤ 2 ^ 53)
    (hv : ∀ v, g = vector v → ∀ x ∈ v, x.ty ≠ .VECTOR) :
    (∃ m, copyto_mat_complex g = .ok m ∧ MatrixOf (fun x c => SameNumber x (complex c)) g m) ∨
    copyto_mat_complex g = .throw := by
  cases g with
  | notype => exact absurd rfl hne
  | bool b => exact .inl ⟨_, rfl, rfl, rfl, pw_one (sn_bool_complex b)⟩
  | int i => exact .inl ⟨_, rfl, rfl, rfl, pw_one (sn_int_complex i)⟩
  | long i => exact .inl ⟨_, rfl, rfl, rfl, pw_one (sn_long_complex (h _ (by simp [leaves, elems]) i rfl))⟩
  | real r => exact .inl ⟨_, rfl, rfl, rfl, pw_one (sn_real_complex r)⟩
  | complex c => exact .inl ⟨_, rfl, rfl, rfl, pw_one (.inl rfl)⟩
  | vecBool v =>
    refine .inl ⟨_, copyColumn_map _ _ (of_decide_eq_true hs), ?_, rfl, pw_map _ _ _ fun b _ => sn_bool_complex b⟩
    simp [elems]
  | vecInt v =>
    have hl := of_decide_eq_true hs
    refine .inl ⟨⟨v.length, 1, v.map fun i => .ofReal (F64.ofI32 i)⟩, ?_, ?_, rfl, pw_map _ _ _ fun i _ => sn_int_complex i⟩
    · have := copyN_column Cplx.zero (w := v.map fun i => .ofReal (F64.ofI32 i)) (by simpa using hl) (by simpa [NotEmpty, elems] using hne)
      simpa [copyto_mat_complex] using this
    · simp [elems]
  | vecLong v =>
    have hl := of_decide_eq_true hs
    refine .inl ⟨⟨v.length, 1, v.map fun i => .ofReal (F64.ofI64 i)⟩, ?_, ?_, rfl, pw_map _ _ _ fun l hl => sn_long_complex (h _ (by simp [leaves, elems, hl]) l rfl)⟩
    · have := copyN_column Cplx.zero (w := v.map fun i => .ofReal (F64.ofI64 i)) (by simpa using hl) (by simpa [NotEmpty, elems] using hne)
      simpa [copyto_mat_complex] using this
    · simp [elems]
  | vecReal v =>
    have hl := of_decide_eq_true hs
    refine .inl ⟨⟨v.length, 1, v.map Cplx.ofReal⟩, ?_, ?_, rfl, pw_map _ _ _ fun r _ => sn_real_complex r⟩
    · have := copyN_column Cplx.zero (w := v.map Cplx.ofReal) (by simpa using hl) (by simpa [NotEmpty, elems] using hne)
      simpa [copyto_mat_complex] using this
    · simp [elems]
  | vecComplex v =>
    refine .inl ⟨_, copyN_column _ (of_decide_eq_true hs) (by simpa [NotEmpty, elems] using hne), ?_, rfl, ?_⟩
    · simp [elems]
    · have := pw_map (R := fun x c => SameNumber x (complex c)) v complex id (fun r _ => .inl rfl)
      simpa [elems] using this
  | matInt m =>
    exact .inl ⟨_, copyMat_ok _ _ hs (by simpa [NotEmpty, elems] using hne), rfl, rfl, pw_map _ _ _ fun i _ => sn_int_complex i⟩
  | matLong m =>
    exact .inl ⟨_, copyMat_ok _ _ hs (by simpa [NotEmpty, elems] using hne), rfl, rfl, pw_map _ _ _ fun l hl => sn_long_complex (h _ (by simp [leaves, elems, hl]) l rfl)⟩
  | matReal m =>
    exact .inl ⟨_, copyMat_ok _ _ hs (by simpa [NotEmpty, elems] using hne), rfl, rfl, pw_map _ _ _ fun r _ => sn_real_complex r⟩
  | vector v =>
    refine columns_spec .zero copyto_vec_complex _ v (of_decide_eq_true hs) (hco v rfl) ?_
    intro x hx
    obtain ⟨h1, h2, _⟩ := hco v rfl x hx
    rcases C16_vec_complex_partial x h1 h2 (fun l hl => h _ (mem_leaves hx hl) l rfl)
      (fun e => absurd e (hv v rfl x hx)) with h3 | h3
    · exact .inl h3
    · exact .inr h3.1
  | _ => exact .inr rfl

/-- Two columns. -/
example : copyto_mat_int (vector [vecInt [1, 2], vecBool [true, false]]) = .ok ⟨2, 2, [1, 2, 1, 0]⟩ ∧
    copyto_mat_int (vector [vecInt [1, 2], vecInt [3]]) = .throw := by decide

/-- A vector or matrix without elements: undefined. -/
theorem C16_mat_empty_negation : copyto_mat_int (vecInt []) = .ub ∧
    copyto_mat_real (matReal ⟨0, 3, []⟩) = .ub := by decide

/-- No complex matrix is ever copied. -/
theorem C16_mat_complex_negation (m : Mat Cplx) : copyto_mat_complex (matComplex m) = .throw := rfl

end GC
end GCV
