import Verif.Spec.Matlab
import Verif.Lemmas.Promote
import Verif.Props.Matrix
import Verif.Props.TableWrite

/-! # Lemmas on the MATLAB interface -/

namespace GCV
namespace GC

/-! ## Maps -/

theorem mset_keys {k : Bytes} {v : GC} : ∀ {m : Entries}, mfind k m = none →
    ((mset k v m).map Prod.fst).Perm (k :: m.map Prod.fst)
  | [], _ => .refl _
  | (k', v') :: r, h => by
    rw [mfind] at h
    split at h
    · cases h
    · next hk =>
      rw [mset, if_neg hk]
      split
      · exact .refl _
      · exact ((mset_keys h).cons k').trans (.swap k k' _)

theorem mem_mset_self (k : Bytes) (v : GC) (m : Entries) : (k, v) ∈ mset k v m := mem_of_mfind (mfind_mset_same k v m)

theorem mem_mset_other {k : Bytes} {v : GC} : ∀ {m : Entries} {e : Bytes × GC}, e ∈ m → e.1 ≠ k → e ∈ mset k v m
  | (k', v') :: r, e, h, hk => by
    rw [mset]
    split
    · next e' =>
      rcases List.mem_cons.1 h with rfl | h
      · exact absurd e'.symm hk
      · exact .tail _ h
    · split
      · exact .tail _ h
      · rcases List.mem_cons.1 h with rfl | h
        · exact .head _
        · exact .tail _ (mem_mset_other h hk)

theorem not_key_of_none {k : Bytes} : ∀ {m : Entries}, mfind k m = none → ∀ e ∈ m, e.1 ≠ k
  | [], _, e, he => by cases he
  | (k', v') :: r, h, e, he => by
    rw [mfind] at h
    split at h
    · cases h
    · next hk =>
      rcases List.mem_cons.1 he with rfl | he
      · exact fun h => hk h.symm
      · exact not_key_of_none h e he

/-! ## From MATLAB -/

theorem cstr_of_notMem {s : Bytes} (h : (0 : Byte) ∉ s) : cstr s = s :=
  cstr_of_noNul (by rw [noNul, List.all_eq_true]; intro x hx; simp only [decide_eq_true_eq]; exact fun e => h (e ▸ hx))

theorem fromMx_clear (mx : Mx) (g : GC) : fromMx mx g = fromMx mx notype := by
  cases mx <;> simp only [fromMx, clear]

theorem fresh_vector {n : Nat} : (set_vector n notype).oldVector = List.replicate n notype := by
  rw [set_vector, allocate_vector, oldVector, oldVector, allocL]
  split
  · simp [resizeL]
  · next h => have : n = 0 := by omega
              rw [this]; rfl
  · simp

theorem length_one {α : Type} {l : List α} (h : l.length = 1) : ∃ x, l = [x] := by
  match l, h with
  | [x], _ => exact ⟨x, rfl⟩

theorem mx_to_vec_one {α : Type} (dims : List Nat) (x : α) (sc : α → GC) (ve : List α → GC) (ma : Mat α → GC) :
    mx_to_vec dims [x] sc ve ma = .ok (sc x) := rfl

theorem mx_to_vec_many {α : Type} {dims : List Nat} {l : List α} (sc : α → GC) (ve : List α → GC) (ma : Mat α → GC)
    (h : l.length ≠ 1) : mx_to_vec dims l sc ve ma = match dims with
    | [_] => if l.length < 2 ^ 32 then .ok (ve l) else .ub
    | [r, c] =>
      if r = 1 then if l.length < 2 ^ 32 then .ok (ve l) else .ub
      else if r < 2 ^ 32 ∧ c < 2 ^ 32 ∧ r * c < 2 ^ 32 then .ok (ma ⟨r, c, l⟩) else .ub
    | _ => .ok notype := by
  match l, h with
  | [], _ => rfl
  | [x], h => exact absurd rfl h
  | x :: y :: l, _ => rfl

theorem numHolds_one {dims : List Nat} {d : MxNum} {g : GC} (h : d.values = [g]) : NumHolds dims d g := by
  unfold NumHolds
  rw [h, if_pos (by rfl)]

theorem numHolds_many {dims : List Nat} {d : MxNum} {g : GC} (h : d.values.length ≠ 1) (hc : d.cls ≠ .logical) :
    NumHolds dims d g ↔ match dims with
    | [_] => elems g = d.values ∧ g.ty = d.cls.vecTy
    | [r, c] =>
      elems g = d.values ∧
        if r = 1 then g.ty = d.cls.vecTy else g.ty = d.cls.matTy ∧ g.num_rows = r ∧ g.num_cols = c
    | _ => g = .notype := by
  unfold NumHolds
  rw [if_neg h, if_neg hc]
  exact Iff.rfl

theorem numHolds_logical {dims : List Nat} {d : MxNum} {g : GC} (h : d.values.length ≠ 1) (hc : d.cls = .logical) :
    NumHolds dims d g ↔ g = vector d.values := by
  unfold NumHolds
  rw [if_neg h, if_pos hc]

/-- The four functions for numbers. -/
theorem num_holds {α : Type} {dims : List Nat} {l : List α} {sc : α → GC} {ve : List α → GC} {ma : Mat α → GC} {d : MxNum}
    (hv : d.values = l.map sc) (hp : l.length = dims.prod) (h32 : l.length < 2 ^ 32) (hd : ∀ n ∈ dims, n < 2 ^ 32)
    (hc : d.cls ≠ .logical)
    (hve : elems (ve l) = l.map sc ∧ (ve l).ty = d.cls.vecTy)
    (hma : ∀ r c, elems (ma ⟨r, c, l⟩) = l.map sc ∧ (ma ⟨r, c, l⟩).ty = d.cls.matTy ∧ (ma ⟨r, c, l⟩).num_rows = r ∧
      (ma ⟨r, c, l⟩).num_cols = c) :
    ∃ g, mx_to_vec dims l sc ve ma = .ok g ∧ NumHolds dims d g := by
  by_cases h1 : l.length = 1
  · obtain ⟨x, rfl⟩ := length_one h1
    exact ⟨sc x, rfl, numHolds_one hv⟩
  · rw [mx_to_vec_many sc ve ma h1]
    have hn : ∀ g, _ := fun g => numHolds_many (dims := dims) (g := g) (by rw [hv]; simpa using h1) hc
    simp only [hn, hv]
    clear hn
    match dims, hp, hd with
    | [], _, _ => exact ⟨notype, rfl, rfl⟩
    | [n], _, _ => exact ⟨ve l, if_pos h32, hve⟩
    | [r, c], hp, hd =>
      by_cases hr : r = 1
      · exact ⟨ve l, by simp only [if_pos hr, if_pos h32], hve.1, by rw [if_pos hr]; exact hve.2⟩
      · have : r * c < 2 ^ 32 := by
          have : [r, c].prod = r * c := by simp
          omega
        refine ⟨ma ⟨r, c, l⟩, ?_, (hma r c).1, by rw [if_neg hr]; exact (hma r c).2⟩
        simp only [if_neg hr]
        exact if_pos ⟨hd r (by simp), hd c (by simp), this⟩
    | _ :: _ :: _ :: _, _, _ => exact ⟨notype, rfl, rfl⟩

theorem fromNum_holds (dims : List Nat) (d : MxNum) (h : (Mx.num dims d).Legal) :
    ∃ g, fromNum dims d = .ok g ∧ NumHolds dims d g := by
  obtain ⟨hp, -, h32, -, hd⟩ := h
  cases d with
  | logical l =>
    simp only [MxNum.values, List.length_map] at hp h32
    by_cases h1 : l.length = 1
    · obtain ⟨x, rfl⟩ := length_one h1
      exact ⟨bool x, rfl, numHolds_one rfl⟩
    · refine ⟨vector (l.map bool), ?_, ?_⟩
      · rw [fromNum]
        match l, h1, h32 with
        | [], _, _ => rfl
        | [x], h1, _ => exact absurd rfl h1
        | x :: y :: l, _, h32 => exact if_pos h32
      · exact (numHolds_logical (by simpa [MxNum.values] using h1) rfl).2 rfl
  | ints c l =>
    simp only [MxNum.values, List.length_map] at hp h32
    rw [fromNum]
    by_cases hc : c.bits = 64
    · have : c.isLong = true := by cases c <;> simp_all [IntCls.bits, IntCls.isLong]
      rw [if_pos this]
      refine num_holds ?_ (by simpa using hp) (by simpa using h32) hd (by simp [MxNum.cls]) ?_ ?_
      · rw [MxNum.values, List.map_map]; congr 1; funext x; simp [IntCls.stored, hc]
      · exact ⟨rfl, by simp [MxNum.cls, MxCls.vecTy, hc, ty]⟩
      · exact fun r c' => ⟨rfl, by simp [MxNum.cls, MxCls.matTy, hc, ty], rfl, rfl⟩
    · have : c.isLong = false := by cases c <;> simp_all [IntCls.bits, IntCls.isLong]
      rw [if_neg (by simp [this])]
      refine num_holds ?_ (by simpa using hp) (by simpa using h32) hd (by simp [MxNum.cls]) ?_ ?_
      · rw [MxNum.values, List.map_map]; congr 1; funext x; simp [IntCls.stored, hc]
      · exact ⟨rfl, by simp [MxNum.cls, MxCls.vecTy, hc, ty]⟩
      · exact fun r c' => ⟨rfl, by simp [MxNum.cls, MxCls.matTy, hc, ty], rfl, rfl⟩
  | single l =>
    simp only [MxNum.values, List.length_map] at hp h32
    exact num_holds rfl hp h32 hd (by simp [MxNum.cls]) ⟨rfl, rfl⟩ fun r c => ⟨rfl, rfl, rfl, rfl⟩
  | double l =>
    simp only [MxNum.values, List.length_map] at hp h32
    exact num_holds rfl hp h32 hd (by simp [MxNum.cls]) ⟨rfl, rfl⟩ fun r c => ⟨rfl, rfl, rfl, rfl⟩
  | cints c l =>
    simp only [MxNum.values, List.length_map] at hp h32
    exact num_holds (by rw [MxNum.values, List.map_map]; rfl) (by simpa using hp) (by simpa using h32) hd
      (by simp [MxNum.cls]) ⟨rfl, rfl⟩ fun r c => ⟨rfl, rfl, rfl, rfl⟩
  | csingle l =>
    simp only [MxNum.values, List.length_map] at hp h32
    exact num_holds rfl hp h32 hd (by simp [MxNum.cls]) ⟨rfl, rfl⟩ fun r c => ⟨rfl, rfl, rfl, rfl⟩
  | cdouble l =>
    simp only [MxNum.values, List.length_map] at hp h32
    exact num_holds rfl hp h32 hd (by simp [MxNum.cls]) ⟨rfl, rfl⟩ fun r c => ⟨rfl, rfl, rfl, rfl⟩

theorem three (a b c : GC) : mset (str "values") c (mset (str "ir") b (mset (str "jc") a [])) =
    [(str "ir", b), (str "jc", a), (str "values", c)] := by
  simp only [mset]
  rw [if_neg (by decide), if_pos (by decide)]
  rw [mset, if_neg (by decide), if_neg (by decide), mset, if_neg (by decide), if_neg (by decide), mset]

theorem fromSparse_holds (nc : Nat) (jc ir : List Nat) (v : SpNum) (h : (Mx.sparse nc jc ir v).Legal) :
    ∃ g, fromSparse nc jc ir v notype = .ok g ∧ MxHolds (.sparse nc jc ir v) g := by
  obtain ⟨h1, h2, h3, h4, h5, h6⟩ := h
  rw [fromSparse, getL, h3]
  simp only [Out.bind]
  rw [if_pos ⟨h1, h4, Nat.le_refl _⟩, List.take_length, List.take_of_length_le (by omega), show oldMap notype = [] from rfl]
  cases v with
  | double l =>
    simp only [SpNum.values, List.length_map] at h5
    simp only [h5, Nat.le_refl, if_true, three]
    refine ⟨_, rfl, vecReal l, rfl, .inr rfl, ?_, ?_⟩
    · simp [ty]
    · rw [← h5, List.take_length]
  | cdouble l =>
    simp only [SpNum.values, List.length_map] at h5
    simp only [h5, Nat.le_refl, if_true, three]
    refine ⟨_, rfl, vecComplex l, rfl, .inl rfl, ?_, ?_⟩
    · simp [ty]
    · rw [← h5, List.take_length]
  | logical l =>
    have := h6 l rfl
    subst this
    simp only [SpNum.values, List.map_nil, List.length_nil] at h5
    simp only [← h5, if_true, three]
    exact ⟨_, rfl, vecReal [], rfl, .inr rfl, by simp [ty], rfl⟩

mutual

theorem from_holds : ∀ mx : Mx, mx.Legal → ∃ g', fromMx mx notype = .ok g' ∧ MxHolds mx g'
  | .null, _ => ⟨notype, rfl, rfl⟩
  | .other, _ => ⟨notype, rfl, rfl⟩
  | .cell dims l, h => by
    obtain ⟨-, h2, h3⟩ := h
    obtain ⟨v, h4, h5⟩ := from_holdsL l h3 (List.replicate l.length notype) (by simp)
    refine ⟨vector v, ?_, v, rfl, h5⟩
    rw [fromMx, clear, fresh_vector, u32_of_lt h2, h4]; rfl
  | .struct nr nc fs, h => by
    obtain ⟨h1, h2, h3, h4, h5⟩ := h
    obtain ⟨m, h6, h7, h8, h9, -⟩ := from_holdsF fs nr nc h1 h2 h3 h5 h4 [] List.Pairwise.nil (fun _ _ => rfl)
    refine ⟨map m, ?_, m, rfl, h7, by simpa using h8, h9⟩
    rw [fromMx]
    show (fromFields nr nc fs []).bind _ = _
    rw [h6]; rfl
  | .char s, h => ⟨string s, by rw [fromMx, cstr_of_notMem h]; rfl, rfl⟩
  | .text n s, h => ⟨string (s.take (2 * n)), by
      rw [fromMx, cstr_of_notMem (fun hm => h (List.mem_of_mem_take hm)), Nat.mul_comm]; rfl, rfl⟩
  | .sparse nc jc ir v, h => by
    obtain ⟨g, h1, h2⟩ := fromSparse_holds nc jc ir v h
    exact ⟨g, by rw [fromMx, clear, h1], h2⟩
  | .num dims d, h => by
    obtain ⟨g, h1, h2⟩ := fromNum_holds dims d h
    exact ⟨g, by rw [fromMx, h1], h2⟩

theorem from_holdsL : ∀ l : List Mx, Mx.LegalL l → ∀ w : List GC, w.length = l.length →
    ∃ v, fromCells l l.length w = .ok v ∧ MxHoldsL l v
  | [], _, w, hw => ⟨w, by rw [List.length_nil, fromCells], List.length_eq_zero_iff.1 hw⟩
  | x :: l, h, w, hw => by
    obtain ⟨g, h1, h2⟩ := from_holds x h.1
    obtain ⟨v, h3, h4⟩ := from_holdsL l h.2 w.tail (by simp [hw])
    refine ⟨g :: v, ?_, g, v, rfl, h2, h4⟩
    rw [List.length_cons, fromCells, fromMx_clear, h1]
    simp only [Out.bind, h3]

theorem from_holdsF : ∀ (fs : List (Bytes × List Mx)) (nr nc : Nat), nr < 2 ^ 32 → nc < 2 ^ 32 → nr * nc < 2 ^ 32 →
    Mx.LegalF (nr * nc) fs → (fs.map Prod.fst).Nodup → ∀ m : Entries, KeysSorted m →
    (∀ k ∈ fs.map Prod.fst, mfind k m = none) →
    ∃ m', fromFields nr nc fs m = .ok m' ∧ KeysSorted m' ∧ (m'.map Prod.fst).Perm (fs.map Prod.fst ++ m.map Prod.fst) ∧
      MxHoldsF (nr = 1 ∧ nc = 1) fs m' ∧ ∀ e ∈ m, e ∈ m'
  | [], nr, nc, _, _, _, _, _, m, hm, _ => ⟨m, by rw [fromFields], hm, .refl _, trivial, fun _ h => h⟩
  | (k, l) :: fs, nr, nc, h1, h2, h3, hl, hn, m, hm, hk => by
    obtain ⟨hk0, hlen, hl1, hl2⟩ := hl
    rw [List.map_cons, List.nodup_cons] at hn
    have hkm : mfind k m = none := hk k (by simp)
    have key : ∃ y, (if u32 nc = 1 ∧ u32 nr = 1 then
        (fromCells l 1 [(mfind (cstr k) m).getD notype]).bind fun w => .ok (w.headD notype)
      else
        (fromCells l (u32 (u32 nr * u32 nc)) (set_vector (u32 (u32 nr * u32 nc))
          ((mfind (cstr k) m).getD notype)).oldVector).bind fun w => .ok (vector w)) = .ok y ∧
        (((nr = 1 ∧ nc = 1) ∧ MxHoldsL l [y]) ∨ (¬ (nr = 1 ∧ nc = 1) ∧ ∃ w, y = .vector w ∧ MxHoldsL l w)) := by
      rw [cstr_of_notMem hk0, hkm, u32_of_lt h1, u32_of_lt h2, u32_of_lt h3]
      by_cases hs : nr = 1 ∧ nc = 1
      · obtain ⟨rfl, rfl⟩ := hs
        obtain ⟨v, h4, h5⟩ := from_holdsL l hl1 [notype] (by rw [hlen]; rfl)
        rw [hlen] at h4
        match l, hlen, h5 with
        | [x], _, h5 =>
          obtain ⟨y, w, rfl, h6, h7⟩ := h5
          cases h7
          refine ⟨y, ?_, .inl ⟨⟨rfl, rfl⟩, y, [], rfl, h6, rfl⟩⟩
          rw [if_pos ⟨rfl, rfl⟩]
          simp only [Option.getD_none]
          simp only [Nat.mul_one] at h4
          rw [h4]; rfl
      · rw [if_neg fun h => hs ⟨h.2, h.1⟩]
        obtain ⟨v, h4, h5⟩ := from_holdsL l hl1 (List.replicate (nr * nc) notype) (by simp [hlen])
        rw [hlen] at h4
        refine ⟨vector v, ?_, .inr ⟨hs, v, rfl, h5⟩⟩
        rw [Option.getD_none, fresh_vector, h4]; rfl
    obtain ⟨y, e, hy⟩ := key
    have hne : ∀ k' ∈ fs.map Prod.fst, k' ≠ k := fun k' hk' e => hn.1 (e ▸ hk')
    obtain ⟨m', h6, h7, h8, h9, h10⟩ := from_holdsF fs nr nc h1 h2 h3 hl2 hn.2 (mset k y m) (sorted_mset k y m hm)
      (fun k' hk' => by rw [mfind_mset_other (hne k' hk')]; exact hk k' (.tail _ hk'))
    refine ⟨m', ?_, h7, ?_, ⟨⟨y, h10 _ (mem_mset_self k y m), hy⟩, h9⟩, fun e' he => ?_⟩
    · rw [fromFields]
      refine (congrArg (fun o => Out.bind o _) e).trans ?_
      show fromFields nr nc fs (mset (cstr k) y m) = _
      rw [cstr_of_notMem hk0, h6]
    · exact h8.trans (((mset_keys hkm).append_left _).trans List.perm_middle)
    · exact h10 _ (mem_mset_other he (not_key_of_none hkm e' he))

end

/-! ## To MATLAB -/

theorem collect_list {α : Type} {f : Nat → Out α} : ∀ {v : List α} {i : Nat},
    (∀ j x, v[j]? = some x → f (i + j) = .ok x) → collect f i v.length = .ok v
  | [], i, _ => rfl
  | x :: v, i, h => by
    rw [List.length_cons, collect, show f i = .ok x from h 0 x rfl]
    simp only [Out.bind]
    rw [collect_list (v := v) (fun j y hj => by rw [Nat.add_right_comm]; exact h (j + 1) y (by simpa using hj))]

theorem collect_vec {α : Type} {f : Nat → Out α} {v : List α} (hl : v.length < 2 ^ 32)
    (h : ∀ j x, v[j]? = some x → f j = .ok x) : collect f 0 (u32 v.length) = .ok v := by
  rw [u32_of_lt hl]
  exact collect_list fun j x hj => by rw [Nat.zero_add]; exact h j x hj

theorem checkedAt_some {α : Type} {v : List α} {i : Nat} {x : α} (h : v[i]? = some x) : checkedAt v i = .ok x := by
  rw [checkedAt, h]

theorem getL_some {α : Type} {v : List α} {i : Nat} {x : α} (h : v[i]? = some x) : getL v i = .ok x := by
  rw [getL, h]

theorem collect2_list {α : Type} {f : Nat → Nat → Out α} {nr : Nat} : ∀ {nc : Nat} {v : List α} {j : Nat},
    v.length = nr * nc → (∀ i k x, i < nr → k < nc → v[i + k * nr]? = some x → f i (j + k) = .ok x) →
    ∃ cols, collect (fun j => collect (fun i => f i j) 0 nr) j nc = .ok cols ∧ cols.flatten = v
  | 0, v, j, hl, _ => ⟨[], rfl, by rw [Nat.mul_zero] at hl; rw [List.length_eq_zero_iff.1 hl]; rfl⟩
  | nc + 1, v, j, hl, h => by
    have hl' : v.length = nr * nc + nr := by rw [hl, Nat.mul_succ]
    have h1 : collect (fun i => f i j) 0 (v.take nr).length = .ok (v.take nr) := collect_list fun i x hi => by
      rw [List.getElem?_take] at hi
      split at hi
      · next hlt =>
        have := h i 0 x hlt (by omega) (by simpa using hi)
        simpa using this
      · cases hi
    rw [List.length_take, Nat.min_eq_left (by omega)] at h1
    obtain ⟨cols, h2, h3⟩ := collect2_list (f := f) (nr := nr) (nc := nc) (v := v.drop nr) (j := j + 1)
      (by rw [List.length_drop]; omega) (fun i k x hi hk hx => by
        rw [List.getElem?_drop] at hx
        rw [show j + 1 + k = j + (k + 1) by omega]
        exact h i (k + 1) x hi (by omega) (by rw [Nat.succ_mul, show i + (k * nr + nr) = nr + (i + k * nr) by omega]; exact hx))
    refine ⟨v.take nr :: cols, ?_, by rw [List.flatten_cons, h3, List.take_append_drop]⟩
    rw [collect, h1]
    simp only [Out.bind, h2]

theorem collect2_mat {α : Type} {m : Mat α} {f : Nat → Nat → Out α} (hw : m.wf = true) (hc : m.nr * m.nc < 2 ^ 32)
    (h : ∀ i j x, i < m.nr → j < m.nc → m.get i j = .ok x → f i j = .ok x) : collect2 f m.nr m.nc = .ok m.data := by
  have hlen := Mat.wf_length hw hc
  obtain ⟨cols, h1, h2⟩ := collect2_list (f := f) (nr := m.nr) (nc := m.nc) (v := m.data) (j := 0) (by rw [hlen])
    (fun i k x hi hk hx => by
      rw [Nat.zero_add]
      refine h i k x hi hk ?_
      rw [Mat.get_of_data (Mat.index_eq hc hi hk), Nat.add_comm, hx])
  rw [collect2, h1]
  simp only [Out.bind, h2]

mutual
/-- The MATLAB value of a container. -/
def mxOf : GC → Mx
  | bool b => .num [1, 1] (.logical [b])
  | int i => .num [1, 1] (.ints .i64 [i.toInt])
  | long l => .num [1, 1] (.ints .i64 [l.toInt])
  | real r => .num [1, 1] (.double [r])
  | complex c => .num [1, 1] (.cdouble [c])
  | string s => .char (cut s)
  | vecBool v => .num [1, v.length] (.logical v)
  | vecInt v => .num [1, v.length] (.ints .i64 (v.map BitVec.toInt))
  | vecLong v => .num [1, v.length] (.ints .i64 (v.map BitVec.toInt))
  | vecReal v => .num [1, v.length] (.double v)
  | vecComplex v => .num [1, v.length] (.cdouble v)
  | vecString v => .cell [1, v.length] (v.map fun s => .char (cut s))
  | matInt m => .num [m.nr, m.nc] (.ints .i32 (m.data.map BitVec.toInt))
  | matLong m => .num [m.nr, m.nc] (.ints .i64 (m.data.map BitVec.toInt))
  | matReal m => .num [m.nr, m.nc] (.double m.data)
  | matComplex m => .num [m.nr, m.nc] (.cdouble m.data)
  | vector v => .cell [1, v.length] (mxOfL v)
  | map m => .struct 1 1 (mxOfM m)
  | notype => .num [0, 0] (.double [])
  | pointer _ => .num [0, 0] (.double [])
  | vecPointer _ => .num [0, 0] (.double [])
termination_by structural g => g
def mxOfL : List GC → List Mx
  | [] => []
  | x :: v => mxOf x :: mxOfL v
termination_by structural v => v
def mxOfM : Entries → List (Bytes × List Mx)
  | [] => []
  | (k, x) :: m => (cut k, [mxOf x]) :: mxOfM m
termination_by structural m => m
end

theorem cut_eq (s : Bytes) : cut s = cstr s := rfl

theorem toMx_leaf : ∀ g : GC, full g = true → (∀ v, g ≠ vector v) → (∀ m, g ≠ map m) → toMx g = .ok (mxOf g)
  | vector v, _, h, _ => absurd rfl (h v)
  | map m, _, _, h => absurd rfl (h m)
  | notype, _, _, _ => rfl
  | pointer _, _, _, _ => rfl
  | vecPointer _, _, _, _ => rfl
  | bool _, _, _, _ => rfl
  | int _, _, _, _ => rfl
  | long _, _, _, _ => rfl
  | real _, _, _, _ => rfl
  | complex _, _, _, _ => rfl
  | string _, _, _, _ => rfl
  | vecBool v, h, _, _ => by
    have hl : v.length < 2 ^ 32 := by simp [full, sizeOk] at h; omega
    rw [toMx, get_num_elements, collect_vec (f := fun i => get_bool_at_c i (vecBool v)) hl (fun j x hj => checkedAt_some hj), u32_of_lt hl]; rfl
  | vecInt v, h, _, _ => by
    have hl : v.length < 2 ^ 32 := by simp [full, sizeOk] at h; omega
    rw [toMx, get_num_elements, collect_vec (f := fun i => get_int_at_c i (vecInt v)) hl (fun j x hj => checkedAt_some hj), u32_of_lt hl]; rfl
  | vecLong v, h, _, _ => by
    have hl : v.length < 2 ^ 32 := by simp [full, sizeOk] at h; omega
    rw [toMx, get_num_elements, collect_vec (f := fun i => get_long_at_c i (vecLong v)) hl (fun j x hj => checkedAt_some hj), u32_of_lt hl]; rfl
  | vecReal v, h, _, _ => by
    have hl : v.length < 2 ^ 32 := by simp [full, sizeOk] at h; omega
    rw [toMx, get_num_elements, collect_vec (f := fun i => get_real_at_c i (vecReal v)) hl (fun j x hj => checkedAt_some hj), u32_of_lt hl]; rfl
  | vecComplex v, h, _, _ => by
    have hl : v.length < 2 ^ 32 := by simp [full, sizeOk] at h; omega
    rw [toMx, get_num_elements, collect_vec (f := fun i => get_complex_number_at i (vecComplex v)) hl (fun j x hj => getL_some hj), u32_of_lt hl]; rfl
  | vecString v, h, _, _ => by
    have hl : v.length < 2 ^ 32 := by simp [full, sizeOk] at h; omega
    rw [toMx, get_num_elements, collect_vec (f := fun i => get_string_at_c i (vecString v)) hl (fun j x hj => checkedAt_some hj), u32_of_lt hl]; rfl
  | matInt m, h, _, _ => by
    simp only [full, sizeOk, num_rows, num_cols, Bool.and_eq_true] at h
    replace h := And.intro h.1 (of_decide_eq_true h.2)
    rw [toMx, num_rows, num_cols, collect2_mat (f := fun i j => get_int_at2_c i j (matInt m)) h.1 h.2 (fun i j x hi hj hx => (if_pos ⟨hi, hj⟩).trans hx)]; rfl
  | matLong m, h, _, _ => by
    simp only [full, sizeOk, num_rows, num_cols, Bool.and_eq_true] at h
    replace h := And.intro h.1 (of_decide_eq_true h.2)
    rw [toMx, num_rows, num_cols, collect2_mat (f := fun i j => get_long_at2_c i j (matLong m)) h.1 h.2 (fun i j x hi hj hx => (if_pos ⟨hi, hj⟩).trans hx)]; rfl
  | matReal m, h, _, _ => by
    simp only [full, sizeOk, num_rows, num_cols, Bool.and_eq_true] at h
    replace h := And.intro h.1 (of_decide_eq_true h.2)
    have hlen := Mat.wf_length h.1 h.2
    rw [toMx, num_rows, num_cols, collect2_mat (f := fun i j => get_real_at2_c i j (matReal m)) h.1 h.2 (fun i j x hi hj hx => (if_pos (by
      have := Nat.le_mul_of_pos_right m.nr (show 0 < m.nc by omega)
      omega)).trans hx)]; rfl
  | matComplex m, h, _, _ => by
    simp only [full, sizeOk, num_rows, num_cols, Bool.and_eq_true] at h
    replace h := And.intro h.1 (of_decide_eq_true h.2)
    rw [toMx, num_rows, num_cols, collect2_mat (f := fun i j => get_complex_at2_c i j (matComplex m)) h.1 h.2 (fun i j x hi hj hx => hx)]; rfl

theorem every_leaf {p : GC → Bool} {g : GC} (hv : ∀ v, g ≠ vector v) (hm : ∀ m, g ≠ map m) (h : every p g = true) :
    p g = true := by
  cases g
  case vector v => exact absurd rfl (hv v)
  case map m => exact absurd rfl (hm m)
  all_goals simpa only [every] using h

theorem toMx_eq :
    (∀ g : GC, every full g = true → every notEmptyMap g = true → toMx g = .ok (mxOf g)) ∧
    (∀ v : List GC, everyL full v = true → everyL notEmptyMap v = true → toCells v.length v = .ok (mxOfL v)) ∧
    (∀ m : Entries, everyM full m = true → everyM notEmptyMap m = true → toFields m = .ok (mxOfM m)) := by
  refine induct ?_ ?_ ?_ ?_ ?_ ?_ ?_
  · exact fun g hv hm h _ => toMx_leaf g (every_leaf hv hm h) hv hm
  · intro v ih h he
    rw [every, Bool.and_eq_true] at h he
    have hl : v.length < 2 ^ 32 := by have := h.1; simp [full, sizeOk] at this; omega
    rw [toMx, get_num_elements, u32_of_lt hl, ih h.2 he.2]; rfl
  · intro m ih h he
    rw [every, Bool.and_eq_true] at h he
    have := ih h.2 he.2
    cases m with
    | nil => exact absurd he.1 (by decide)
    | cons e m =>
      obtain ⟨k, x⟩ := e
      rw [toFields] at this
      obtain ⟨y, h1, this⟩ := out_bind_ok this
      obtain ⟨fs, h2, this⟩ := out_bind_ok this
      simp only [Out.ok.injEq] at this
      rw [toMx, h1]
      simp only [Out.bind, h2]
      rw [mxOf, ← this]
  · exact fun _ _ => rfl
  · intro x v ih1 ih2 h he
    rw [everyL, Bool.and_eq_true] at h he
    rw [List.length_cons, toCells, ih1 h.1 he.1]
    simp only [Out.bind, ih2 h.2 he.2]
    rw [mxOfL]
  · exact fun _ _ => rfl
  · intro k x m ih1 ih2 h he
    rw [everyM, Bool.and_eq_true] at h he
    rw [toFields, ih1 h.1 he.1]
    simp only [Out.bind, ih2 h.2 he.2]
    rw [mxOfM]; rfl

/-- An empty map inside: undefined behaviour. -/
theorem toMx_ub :
    (∀ g : GC, every full g = true → every notEmptyMap g = false → toMx g = .ub) ∧
    (∀ v : List GC, everyL full v = true → everyL notEmptyMap v = false → toCells v.length v = .ub) ∧
    (∀ m : Entries, everyM full m = true → everyM notEmptyMap m = false → toFields m = .ub) := by
  refine induct ?_ ?_ ?_ ?_ ?_ ?_ ?_
  · intro g hv hm h he
    exfalso
    cases g
    case vector v => exact absurd rfl (hv v)
    case map m => exact absurd rfl (hm m)
    all_goals simp [every, notEmptyMap] at he
  · intro v ih h he
    rw [every, Bool.and_eq_true] at h
    rw [every, show notEmptyMap (vector v) = true from rfl, Bool.true_and] at he
    have hl : v.length < 2 ^ 32 := by have := h.1; simp [full, sizeOk] at this; omega
    rw [toMx, get_num_elements, u32_of_lt hl, ih h.2 he]; rfl
  · intro m ih h he
    rw [every, Bool.and_eq_true] at h
    cases m with
    | nil => rfl
    | cons e m =>
      obtain ⟨k, x⟩ := e
      rw [every, show notEmptyMap (map ((k, x) :: m)) = true from rfl, Bool.true_and] at he
      have := ih h.2 he
      rw [toFields] at this
      rw [toMx]
      cases h1 : toMx x <;> rw [h1] at this <;> simp only [Out.bind] at this ⊢ <;> try (first | rfl | cases this)
      cases h2 : toFields m <;> rw [h2] at this <;> simp only at this ⊢ <;> cases this
  · intro _ h; cases h
  · intro x v ih1 ih2 h he
    rw [everyL, Bool.and_eq_true] at h
    rw [everyL] at he
    rw [List.length_cons, toCells]
    by_cases hx : every notEmptyMap x = true
    · rw [toMx_eq.1 x h.1 hx]
      simp only [Out.bind]
      rw [ih2 h.2 (by rwa [hx, Bool.true_and] at he)]
    · rw [ih1 h.1 (by simpa using hx)]; rfl
  · intro _ h; cases h
  · intro k x m ih1 ih2 h he
    rw [everyM, Bool.and_eq_true] at h
    rw [everyM] at he
    rw [toFields]
    by_cases hx : every notEmptyMap x = true
    · rw [toMx_eq.1 x h.1 hx]
      simp only [Out.bind]
      rw [ih2 h.2 (by rwa [hx, Bool.true_and] at he)]
    · rw [ih1 h.1 (by simpa using hx)]; rfl

end GC
end GCV
