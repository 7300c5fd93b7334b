import Verif.Spec.Packed
import Verif.Props.Collapse
import Verif.Props.CopyToExact

/-!
# C99: exactly what collapse does
-/

namespace GCV
namespace GC

theorem convLoop_cond {α β : Type} (f : α → Out β) (p : α → Prop) [DecidablePred p] (h : α → β) : ∀ (v : List α),
    (∀ x ∈ v, (p x → f x = .throw) ∧ (¬ p x → f x = .ok (h x))) →
    convLoop f v = if ∃ x ∈ v, p x then .throw else .ok (v.map h)
  | [], _ => by rw [if_neg (by simp)]; rfl
  | x :: r, hf => by
    have ih := convLoop_cond f p h r (fun y hy => hf y (by simp [hy]))
    obtain ⟨h1, h2⟩ := hf x (by simp)
    by_cases hx : p x
    · rw [convLoop, h1 hx, if_pos ⟨x, by simp, hx⟩]; rfl
    · rw [convLoop, h2 hx, ih]
      by_cases hr : ∃ y ∈ r, p y
      · obtain ⟨y, hy, hp⟩ := hr
        rw [if_pos ⟨y, hy, hp⟩, if_pos ⟨y, by simp [hy], hp⟩]; rfl
      · rw [if_neg hr, if_neg]
        · rfl
        · rintro ⟨y, hy, hp⟩
          rcases List.mem_cons.1 hy with rfl | hy
          · exact hx hp
          · exact hr ⟨y, hy, hp⟩

theorem idxOf_rank (t : Ty) : typeOrder.idxOf t = t.rank := by cases t <;> rfl

theorem rank_inj {a b : Ty} (h : a.rank = b.rank) : a = b := by
  have e : ∀ t : Ty, typeOrder[t.rank]? = some t := by intro t; cases t <;> rfl
  have := e a
  rw [h, e b] at this
  simpa using this.symm

theorem maxType_last {t : Ty} {v : List GC} (h : LastType t v) : maxType .NOTYPE v = t := by
  obtain ⟨⟨x, hx, hxt⟩, hall⟩ := h
  obtain ⟨-, h2, h3⟩ := maxType_spec v .NOTYPE
  have h4 : t.rank ≤ (maxType .NOTYPE v).rank := by rw [← hxt]; exact h2 x hx
  refine rank_inj (Nat.le_antisymm ?_ h4)
  rcases h3 with h3 | ⟨y, hy, hyt⟩
  · rw [h3]; exact Nat.zero_le _
  · rw [← hyt, ← idxOf_rank, ← idxOf_rank]; exact hall y hy

theorem sameCount_stuck : ∀ (v : List GC) (l : I32), (sameCount l false v).2 = false
  | [], _ => rfl
  | x :: r, l => by rw [sameCount]; simp only [Bool.false_eq_true, and_false, if_false]; exact sameCount_stuck r _

theorem i32_count {n : Nat} (h : n < 2 ^ 31) : 0 ≤ (BitVec.ofNat 32 n).toInt ∧ (BitVec.ofNat 32 n).toNat = n := by
  have h1 : (BitVec.ofNat 32 n).toNat = n := by rw [BitVec.toNat_ofNat]; omega
  refine ⟨?_, h1⟩
  rw [BitVec.toInt_eq_toNat_of_lt (by rw [h1]; omega), h1]
  exact Int.natCast_nonneg n

theorem sameCount_counted : ∀ (v : List GC) (n : Nat), n < 2 ^ 31 →
    (∀ x ∈ v, sizeOk x = true ∧ mapOk x ∧ counted x < 2 ^ 31) →
    ((sameCount (BitVec.ofNat 32 n) true v).2 = true ↔ ∀ x ∈ v, counted x = n) ∧
    ((∀ x ∈ v, counted x = n) → (sameCount (BitVec.ofNat 32 n) true v).1.toNat = n)
  | [], n, hn, _ => ⟨by simp [sameCount], fun _ => (i32_count hn).2⟩
  | x :: r, n, hn, h => by
    obtain ⟨h1, h2, h3⟩ := h x (by simp)
    have hr := fun m hm => sameCount_counted r m hm (fun y hy => h y (by simp [hy]))
    rw [sameCount]
    simp only [num_elements_counted x h1 h2, if_pos (show 0 ≤ (BitVec.ofNat 32 n).toInt ∧ True from ⟨(i32_count hn).1, trivial⟩)]
    by_cases hx : counted x = n
    · rw [hx, beq_self_eq_true]
      obtain ⟨a, b⟩ := hr n hn
      exact ⟨by rw [a]; simp [hx], fun hh => b (fun y hy => hh y (by simp [hy]))⟩
    · have : (BitVec.ofNat 32 n == BitVec.ofNat 32 (counted x)) = false := by
        rw [beq_eq_false_iff_ne]
        intro e
        have := congrArg BitVec.toNat e
        rw [(i32_count hn).2, (i32_count h3).2] at this
        exact hx this.symm
      rw [this, sameCount_stuck]
      refine ⟨by simp; intro e; exact absurd e hx, fun hh => absurd (hh x (by simp)) hx⟩

theorem sameCount_sizes (v : List GC) (h : ∀ x ∈ v, sizeOk x = true ∧ mapOk x ∧ counted x < 2 ^ 31) :
    ((sameCount (-1) true v).2 = true ↔ sameSizes v) ∧
    (sameSizes v → ∀ x ∈ v, (sameCount (-1) true v).1.toNat = counted x) := by
  cases v with
  | nil => exact ⟨by simp [sameCount, sameSizes], by simp⟩
  | cons x r =>
    obtain ⟨h1, h2, h3⟩ := h x (by simp)
    rw [sameCount, num_elements_counted x h1 h2]
    have e : ¬ (0 ≤ (-1 : I32).toInt ∧ true = true) := by decide
    rw [if_neg e]
    obtain ⟨a, b⟩ := sameCount_counted r (counted x) h3 (fun y hy => h y (by simp [hy]))
    refine ⟨?_, ?_⟩
    · rw [a]
      constructor
      · intro hh y hy z hz
        have : ∀ y ∈ x :: r, counted y = counted x := by
          intro y hy
          rcases List.mem_cons.1 hy with rfl | hy
          · rfl
          · exact hh y hy
        rw [this y hy, this z hz]
      · intro hh y hy; exact hh y (by simp [hy]) x (by simp)
    · intro hh y hy
      rw [b (fun z hz => hh z (by simp [hz]) x (by simp))]
      exact hh x (by simp) y hy

theorem assign_list {α : Type} (d : α) (up : List α → GC) (set : List α → GC → Out GC) (v : List GC) (c : Out (List α))
    (hset : ∀ w, set w (vector v) = (copyL w (allocL d (u32 w.length) [])).bind fun w => .ok (up w))
    (hv : v.length < 2 ^ 32) (P : Prop) [Decidable P] (h : GC → α) (hc : c = if P then .throw else .ok (v.map h)) :
    assignPacked v c set = if P then .throw (vector v) else .ok (up (v.map h)) () := by
  rw [hc]
  by_cases hp : P
  · rw [if_pos hp, if_pos hp]; rfl
  · rw [if_neg hp, if_neg hp]
    exact assign_ok rfl (by rw [hset]; exact set_list_ok d up (by simpa using hv))

theorem gather_length {α β : Type} (f : α → Out β) : ∀ (v : List α) (ws : List β), gather f v = .ok ws →
    ws.length = v.length ∧ ∀ w ∈ ws, ∃ x ∈ v, f x = .ok w
  | [], ws, h => by simp [gather] at h; subst h; simp
  | x :: r, ws, h => by
    rw [gather] at h
    cases h1 : f x with
    | ok y =>
      cases h2 : gather f r with
      | ok l =>
        rw [h1, h2] at h
        simp at h; subst h
        obtain ⟨a, b⟩ := gather_length f r l h2
        refine ⟨by simp [a], ?_⟩
        intro w hw
        rcases List.mem_cons.1 hw with rfl | hw
        · exact ⟨x, by simp, h1⟩
        · obtain ⟨z, hz, hz'⟩ := b w hw
          exact ⟨z, by simp [hz], hz'⟩
      | _ => rw [h1, h2] at h; simp at h
    | _ => rw [h1] at h; simp at h

theorem assign_columns {α : Type} (d : α) (conv : GC → Out (List α)) (up : Mat α → GC) (set : Mat α → GC → Out GC)
    (v : List GC) (n : Nat) (hv : v ≠ []) (hfit : sizesFit v) (hsame : sameSizes v) (hn : ∀ x ∈ v, n = counted x)
    (hset : ∀ w, w.wf = true → set w (vector v) = .ok (up w))
    (hc : ∀ x ∈ v, ∀ w, conv x = .ok w → w.length = counted x) :
    assignPacked v (packColumns d conv n v) set = asMatrix up v (columnsOf conv v) := by
  have e : packColumns d conv n v = columnsOf conv v := by
    have e1 := columns_columnsOf d conv v hfit.1 (fun x hx => ⟨(hfit.2 x hx).1, (hfit.2 x hx).2.1, (hfit.2 x hx).2.2.2⟩) hc
    rw [← e1]
    unfold columns packColumns
    rw [u32_of_lt hfit.1, List.take_length]
    cases v with
    | nil => exact absurd rfl hv
    | cons x r =>
      have hx := hfit.2 x (by simp)
      rw [hn x (by simp)]
      simp only [num_elements_counted x hx.1 hx.2.1]
      rw [if_pos]
      · rfl
      · rw [List.all_eq_true]
        intro y hy
        have hy' := hfit.2 y (by simp [hy])
        rw [num_elements_counted y hy'.1 hy'.2.1, hsame y (by simp [hy]) x (by simp)]; simp
  rw [e]
  cases hm : columnsOf conv v with
  | ok m =>
    refine assign_ok rfl (hset m ?_)
    cases v with
    | nil => exact absurd rfl hv
    | cons x r =>
      rw [columnsOf, if_pos (fun y hy => hsame y (by simp [hy]) x (by simp))] at hm
      cases hg : gather conv (x :: r) with
      | ok ws =>
        rw [hg] at hm; simp at hm; subst hm
        obtain ⟨a, b⟩ := gather_length conv _ ws hg
        have hx := hfit.2 x (by simp)
        refine mat_flat_wf (by simpa using hx.2.2.2) (by have := hx.2.2.1; omega) (by simpa using hfit.1) (by simpa using a) ?_
        intro w hw
        obtain ⟨z, hz, hz'⟩ := b w hw
        rw [hc z hz w hz']; exact hsame z hz x (by simp)
      | _ => rw [hg] at hm; simp at hm
  | _ => rfl

theorem scalar_counted {x : GC} (h : x.ty.rank ≤ 7) : counted x = 1 ∨ x = notype := by
  cases x <;> first | exact .inl rfl | exact .inr rfl | simp [ty, Ty.rank] at h

theorem pack_exact (v : List GC) (t : Ty) (hv : v ≠ []) (hfit : sizesFit v) (ht : LastType t v) :
    pack v = if sameSizes v then packedAs t v else .ok (vector v) () := by
  obtain ⟨s1, s2⟩ := sameCount_sizes v (fun x hx => ⟨(hfit.2 x hx).1, (hfit.2 x hx).2.1, (hfit.2 x hx).2.2.1⟩)
  unfold pack
  by_cases hs : sameSizes v
  · rw [if_pos hs]
    have hcan := s1.2 hs
    have hlast := s2 hs
    have hmax := maxType_last ht
    obtain ⟨⟨z, hz, hzt⟩, hall⟩ := ht
    -- the elements of a vector of scalars
    have scal : t.rank ≤ 7 → t ≠ .NOTYPE → ∀ x ∈ v, x.ty.rank ≤ t.rank ∧ x ≠ notype := by
      intro h7 h0 x hx
      have hr : x.ty.rank ≤ t.rank := by rw [← idxOf_rank, ← idxOf_rank]; exact hall x hx
      refine ⟨hr, ?_⟩
      rintro rfl
      have e := hs _ hx z hz
      rcases scalar_counted (x := z) (by rw [hzt]; exact h7) with h | h
      · rw [h] at e; simp [counted, elems] at e
      · rw [h] at hzt; exact h0 hzt.symm
    have cut : ∀ {α : Type} (f : GC → Out α), convLoop f (v.take (u32 v.length)) = convLoop f v := by
      intro α f; rw [u32_of_lt hfit.1, List.take_length]
    have lens : ∀ {α : Type} (sc el : GC → Out α), ∀ x ∈ v, ∀ w, copyToVec sc el x = .ok w → w.length = counted x :=
      fun sc el x hx w hw => copyToVec_length sc el x (hfit.2 x hx).1 (hfit.2 x hx).2.1 w hw
    simp only [hcan, not_true_eq_false, if_false, hmax]
    by_cases hstr : ∀ x ∈ v, x.ty = .STRING
    · rw [if_pos (by rw [List.all_eq_true]; intro x hx; exact decide_eq_true (hstr x hx))]
      have : t = .STRING := by rw [← hzt]; exact hstr z hz
      subst this
      show _ = if _ then _ else _
      rw [if_pos hstr]
      have := assign_list ([] : Bytes) vecString set_vec_string v (convLoop get_string_c v) (fun _ => rfl) hfit.1 False asText (by
        rw [if_neg id, convLoop_cond get_string_c (fun _ => False) asText v, if_neg (by simp)]
        intro x hx
        refine ⟨False.elim, fun _ => ?_⟩
        have := hstr x hx
        cases x <;> first | rfl | simp [ty] at this)
      rwa [if_neg id] at this
    · rw [if_neg (by
        rw [List.all_eq_true]; intro h; exact hstr fun x hx => of_decide_eq_true (h x hx))]
      cases t with
      | STRING => show _ = if _ then _ else _; rw [if_neg hstr]
      | BOOL =>
        refine assign_list false vecBool set_vec_bool v _ (fun _ => rfl) hfit.1 _ asBool ?_
        refine convLoop_cond _ (fun x => x.ty = .POINTER) _ v (fun x hx => ?_)
        obtain ⟨h1, h2⟩ := scal (by decide) (by decide) x hx
        cases x <;> simp [ty, Ty.rank] at h1 h2 ⊢ <;> rfl
      | INTEGER =>
        refine assign_list (0 : I32) vecInt set_vec_int v _ (fun _ => rfl) hfit.1 _ asInt ?_
        refine (cut _).trans (convLoop_cond _ (fun x => x.ty = .POINTER) _ v (fun x hx => ?_))
        obtain ⟨h1, h2⟩ := scal (by decide) (by decide) x hx
        cases x <;> simp [ty, Ty.rank] at h1 h2 ⊢ <;> rfl
      | LONG =>
        refine assign_list (0 : I64) vecLong set_vec_long v _ (fun _ => rfl) hfit.1 _ asLong ?_
        refine (cut _).trans (convLoop_cond _ (fun x => x.ty = .POINTER) _ v (fun x hx => ?_))
        obtain ⟨h1, h2⟩ := scal (by decide) (by decide) x hx
        cases x <;> simp [ty, Ty.rank] at h1 h2 ⊢ <;> rfl
      | REAL =>
        refine assign_list F64.zero vecReal set_vec_real v _ (fun _ => rfl) hfit.1 _ asReal ?_
        refine (cut _).trans (convLoop_cond _ (fun x => x.ty = .POINTER) _ v (fun x hx => ?_))
        obtain ⟨h1, h2⟩ := scal (by decide) (by decide) x hx
        cases x <;> simp [ty, Ty.rank] at h1 h2 ⊢ <;> rfl
      | COMPLEX =>
        have := assign_list Cplx.zero vecComplex set_vec_complex v (copyto_vec_complex (vector v)) (fun _ => rfl) hfit.1
          (¬ ∀ x ∈ v, x.ty = .COMPLEX) asComplex (by
            refine ((cut _).trans (convLoop_cond _ (fun x => x.ty ≠ .COMPLEX) asComplex v (fun x hx => ?_))).trans ?_
            · cases x <;> simp [ty] <;> rfl
            · by_cases h : ∀ x ∈ v, x.ty = .COMPLEX
              · rw [if_neg (not_not_intro h), if_neg (by simpa using h)]
              · rw [if_pos h, if_pos (by simpa using h)])
        refine this.trans ?_
        show _ = if _ then _ else _
        by_cases h : ∀ x ∈ v, x.ty = .COMPLEX
        · rw [if_neg (not_not_intro h), if_pos h]
        · rw [if_pos h, if_neg h]
      | VEC_INTEGER =>
        refine assign_columns (0 : I32) copyto_vec_int matInt set_mat_int v _ hv hfit hs hlast (fun w hw => ?_) (lens _ _)
        obtain ⟨h1, h2, h3⟩ := mat_copy (0 : I32) hw (.inl rfl)
        show (copyL w.data (Mat.make 0 w.nr w.nc).data).bind _ = _
        rw [h1]; rfl
      | VEC_LONG =>
        refine assign_columns (0 : I64) copyto_vec_long matLong set_mat_long v _ hv hfit hs hlast (fun w hw => ?_) (lens _ _)
        obtain ⟨h1, h2, h3⟩ := mat_copy (0 : I64) hw (.inl rfl)
        show (copyL w.data (Mat.make 0 w.nr w.nc).data).bind _ = _
        rw [h1]; rfl
      | VEC_REAL =>
        refine assign_columns F64.zero copyto_vec_real matReal set_mat_real v _ hv hfit hs hlast (fun w hw => ?_) (lens _ _)
        obtain ⟨h1, h2, h3⟩ := mat_copy F64.zero hw (.inl rfl)
        show (copyL w.data (Mat.make F64.zero w.nr w.nc).data).bind _ = _
        rw [h1]; rfl
      | VEC_COMPLEX =>
        refine assign_columns Cplx.zero copyto_vec_complex matComplex set_mat_complex v _ hv hfit hs hlast (fun w hw => ?_) (lens _ _)
        obtain ⟨h1, h2, h3⟩ := mat_copy Cplx.zero hw (.inl rfl)
        show (copyL w.data (Mat.make Cplx.zero w.nr w.nc).data).bind _ = _
        rw [h1]; rfl
      | _ => rfl
  · rw [if_neg hs]
    have : (sameCount (-1) true v).2 = false := by
      cases h : (sameCount (-1) true v).2 with
      | false => rfl
      | true => exact absurd (s1.1 h) hs
    simp only [this, Bool.false_eq_true, not_false_eq_true, if_true]

theorem collapseL_ok : ∀ (v v' : List GC), List.Forall₂ (fun x y => collapse x = .ok y ()) v v' → collapseL v = .ok v'
  | _, _, .nil => rfl
  | _, _, .cons h r => by rw [collapseL, h, collapseL_ok _ _ r]

theorem collapseL_throw : ∀ (a a' : List GC) (x x' : GC) (b : List GC),
    List.Forall₂ (fun x y => collapse x = .ok y ()) a a' → collapse x = .throw x' →
    collapseL (a ++ x :: b) = .throw (a' ++ x' :: b)
  | _, _, x, x', b, .nil, h => by rw [List.nil_append, collapseL, h]; rfl
  | _, _, x, x', b, .cons h1 r, h => by
    rw [List.cons_append, collapseL, h1, collapseL_throw _ _ x x' b r h]; rfl

/-- **C99**, vectors of containers: the elements are collapsed first; when they do not all have the same number of elements the
vector stays one; else the last type (in the order of declaration) that occurs among them decides. -/
theorem C99_vector (v v' : List GC) (t : Ty) (hv : v ≠ []) (hc : List.Forall₂ (fun x y => collapse x = .ok y ()) v v')
    (hfit : sizesFit v') (ht : LastType t v') :
    collapse (vector v) = if sameSizes v' then packedAs t v' else .ok (vector v') () := by
  have hv' : v' ≠ [] := by
    rintro rfl
    cases hc; exact hv rfl
  rw [collapse_vector, if_neg hv, collapseL_ok v v' hc]
  exact pack_exact v' t hv' hfit ht

/-- Two columns of different types, one of them a vector of containers to be collapsed first. -/
example : sizesFit [vecInt [1, 2], vecReal [.zero, .zero]] ∧ LastType .VEC_REAL [vecInt [1, 2], vecReal [.zero, .zero]] ∧
    List.Forall₂ (fun x y => collapse x = .ok y ()) [vector [int 1, int 2], vecReal [.zero, .zero]]
      [vecInt [1, 2], vecReal [.zero, .zero]] ∧
    packedAs .VEC_REAL [vecInt [1, 2], vecReal [.zero, .zero]] =
      .ok (matReal ⟨2, 2, [F64.ofI32 1, F64.ofI32 2, .zero, .zero]⟩) () := by
  refine ⟨⟨by decide, ?_⟩, by decide, .cons (by decide +kernel) (.cons rfl .nil), by decide +kernel⟩
  intro x hx
  simp at hx
  rcases hx with rfl | rfl <;> exact ⟨by decide, by intro m h; simp at h, by decide, by decide⟩

/-- A pointer beside an integer: collapse throws.  A string beside an integer: the vector stays. -/
example : collapse (vector [pointer 8, int 1]) = .throw (vector [pointer 8, int 1]) ∧
    packedAs .INTEGER [pointer 8, int 1] = .throw (vector [pointer 8, int 1]) ∧
    packedAs .STRING [string [65], int 1] = .ok (vector [string [65], int 1]) () := by
  refine ⟨by decide +kernel, by decide +kernel, by decide +kernel⟩

/-- **C99**: collapse throws at the first element that does; the ones before are collapsed, the ones after untouched. -/
theorem C99_vector_throws (a a' : List GC) (x x' : GC) (b : List GC)
    (hc : List.Forall₂ (fun x y => collapse x = .ok y ()) a a') (hx : collapse x = .throw x') :
    collapse (vector (a ++ x :: b)) = .throw (vector (a' ++ x' :: b)) := by
  rw [collapse_vector, if_neg (by simp), collapseL_throw a a' x x' b hc hx]

example : collapse (vector [vector [int 1], vector [pointer 8, int 1], vector [int 2]]) =
    .throw (vector [vecInt [1], vector [pointer 8, int 1], vector [int 2]]) := by decide +kernel

theorem collapseM_ok : ∀ (m m' : Entries), List.Forall₂ (fun x y => y.1 = x.1 ∧ collapse x.2 = .ok y.2 ()) m m' →
    collapseM m = .ok m'
  | _, _, .nil => rfl
  | (k, x) :: m, (k', y) :: m', .cons h r => by
    obtain ⟨rfl, h2⟩ := h
    simp only at h2
    rw [collapseM, h2, collapseM_ok _ _ r]

theorem collapseM_throw : ∀ (a a' : Entries) (k : Bytes) (x x' : GC) (b : Entries),
    List.Forall₂ (fun x y => y.1 = x.1 ∧ collapse x.2 = .ok y.2 ()) a a' → collapse x = .throw x' →
    collapseM (a ++ (k, x) :: b) = .throw (a' ++ (k, x') :: b)
  | _, _, k, x, x', b, .nil, h => by rw [List.nil_append, collapseM, h]; rfl
  | (k1, x1) :: a, (k2, x2) :: a', k, x, x', b, .cons h1 r, h => by
    obtain ⟨rfl, h2⟩ := h1
    simp only at h2
    rw [List.cons_append, collapseM, h2, collapseM_throw _ _ k x x' b r h]; rfl

/-- **C99**, maps: the keys stay and each value is collapsed, up to the first one that throws; everything else is left as it
is. -/
theorem C99_map :
    (∀ (m m' : Entries), List.Forall₂ (fun x y => y.1 = x.1 ∧ collapse x.2 = .ok y.2 ()) m m' →
      collapse (map m) = .ok (map m') ()) ∧
    (∀ (a a' : Entries) (k : Bytes) (x x' : GC) (b : Entries),
      List.Forall₂ (fun x y => y.1 = x.1 ∧ collapse x.2 = .ok y.2 ()) a a' → collapse x = .throw x' →
      collapse (map (a ++ (k, x) :: b)) = .throw (map (a' ++ (k, x') :: b))) ∧
    (∀ g : GC, (g.ty ≠ .VECTOR ∧ g.ty ≠ .MAP) ∨ g = vector [] → collapse g = .ok g ()) := by
  refine ⟨fun m m' h => ?_, fun a a' k x x' b h hx => ?_, ?_⟩
  · rw [collapse, collapseM_ok m m' h]
  · rw [collapse, collapseM_throw a a' k x x' b h hx]
  · rintro g (h | rfl)
    · exact collapse_leaf h
    · rfl

example : collapse (map [([65], vector [int 1]), ([66], vector [pointer 8, int 1]), ([67], vector [int 2])]) =
    .throw (map [([65], vecInt [1]), ([66], vector [pointer 8, int 1]), ([67], vector [int 2])]) := by decide +kernel

end GC
end GCV
