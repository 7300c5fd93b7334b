import Verif.Model.CopyDest
import Verif.Spec.CopyDest
import Verif.Props.CopyToExact

/-!
# C109: what a copy that throws leaves in the destination
-/

namespace GCV
namespace GC

open F64

theorem convInto_result {α β : Type} (f : α → Out β) : ∀ (v : List β) (xs : List α),
    (convInto f v xs).result = (convLoop f xs).bind fun l => .ok (v ++ l)
  | v, [] => by simp [convInto, convLoop, Loop.result, Out.bind]
  | v, x :: r => by
    rw [convInto, convLoop]
    cases f x with
    | ok y =>
      show (convInto f (v ++ [y]) r).result = _
      rw [convInto_result f (v ++ [y]) r]
      cases convLoop f r <;> simp [Out.bind]
    | _ => rfl

theorem convInto_throw {α β : Type} (f : α → Out β) : ∀ (v : List β) (xs : List α) (w : List β),
    convInto f v xs = .throw w ↔
      ∃ a x b l, xs = a ++ x :: b ∧ convLoop f a = .ok l ∧ f x = .throw ∧ w = v ++ l
  | v, [], w => by simp [convInto]
  | v, x :: r, w => by
    rw [convInto]
    constructor
    · intro h
      cases hx : f x with
      | ok y =>
        rw [hx] at h
        obtain ⟨a, z, b, l, e1, e2, e3, e4⟩ := (convInto_throw f (v ++ [y]) r w).1 h
        refine ⟨x :: a, z, b, y :: l, by rw [e1]; rfl, ?_, e3, by rw [e4]; simp⟩
        rw [convLoop, hx, e2]; rfl
      | throw =>
        rw [hx] at h
        injection h with h
        exact ⟨[], x, r, [], rfl, rfl, hx, by rw [← h]; simp⟩
      | ub => rw [hx] at h; simp at h
      | diverge => rw [hx] at h; simp at h
    · rintro ⟨a, z, b, l, e1, e2, e3, e4⟩
      cases a with
      | nil =>
        simp only [List.nil_append, List.cons.injEq] at e1
        obtain ⟨rfl, rfl⟩ := e1
        simp only [convLoop, Out.ok.injEq] at e2
        subst e2
        rw [e3, e4]; simp
      | cons x' a =>
        simp only [List.cons_append, List.cons.injEq] at e1
        obtain ⟨rfl, rfl⟩ := e1
        rw [convLoop] at e2
        cases hx : f x with
        | ok y =>
          rw [hx, Out.bind] at e2
          cases ha : convLoop f a with
          | ok l' =>
            rw [ha, Out.bind] at e2
            injection e2 with e2
            exact (convInto_throw f (v ++ [y]) _ w).2 ⟨a, z, b, l', rfl, ha, e3, by rw [e4, ← e2]; simp⟩
          | _ => rw [ha] at e2; simp [Out.bind] at e2
        | _ => rw [hx] at e2; simp [Out.bind] at e2

theorem convInto_stops {α β γ : Type} (f : α → Out β) (k : β → γ) (hk : Function.Injective k) (up : α → GC)
    (F : GC → Out γ) (xs : List α) (h : ∀ x ∈ xs, ((f x).bind fun y => .ok (k y)) = F (up x)) (w : List β) :
    convInto f [] xs = .throw w ↔ StopsAt F (xs.map up) (w.map k) := by
  rw [convInto_throw]
  constructor
  · rintro ⟨a, x, b, l, e1, e2, e3, e4⟩
    simp only [List.nil_append] at e4
    subst e4
    refine ⟨a.map up, up x, b.map up, by rw [e1]; simp, ?_, ?_⟩
    · rw [← convLoop_gather f k up F a (fun y hy => h y (by rw [e1]; simp [hy])), e2]; rfl
    · rw [← h x (by rw [e1]; simp), e3]; rfl
  · rintro ⟨a, x, b, e1, e2, e3⟩
    obtain ⟨a', r, rfl, rfl, e4⟩ := List.map_eq_append_iff.1 e1
    obtain ⟨x', b', rfl, rfl, rfl⟩ := List.map_eq_cons_iff.1 e4
    rw [← convLoop_gather f k up F a' (fun y hy => h y (by simp [hy]))] at e2
    rw [← h x' (by simp)] at e3
    cases ha : convLoop f a' with
    | ok l =>
      rw [ha, Out.bind] at e2
      injection e2 with e2
      refine ⟨a', x', b', l, rfl, ha, ?_, ?_⟩
      · cases hx : f x' with
        | throw => rfl
        | _ => rw [hx] at e3; simp [Out.bind] at e3
      · have e5 : l = w := by
          have : ∀ (a b : List β), a.map k = b.map k → a = b := by
            intro a
            induction a with
            | nil => intro b hb; cases b with
              | nil => rfl
              | cons => simp at hb
            | cons y a ih => intro b hb; cases b with
              | nil => simp at hb
              | cons z b =>
                simp only [List.map_cons, List.cons.injEq] at hb
                rw [hk hb.1, ih b hb.2]
          exact this _ _ e2
        rw [e5]; rfl
    | _ => rw [ha] at e2; simp [Out.bind] at e2

theorem not_stopsAt_nil {β : Type} (F : GC → Out β) (w : List β) : ¬ StopsAt F [] w := by
  rintro ⟨a, x, b, h, _⟩; simp at h

theorem stopsAt_first {β : Type} (F : GC → Out β) (x : GC) (r : List GC) (h : F x = .throw) (w : List β) :
    StopsAt F (x :: r) w ↔ w = [] := by
  constructor
  · rintro ⟨a, y, b, e1, e2, e3⟩
    cases a with
    | nil => simp [gather] at e2; exact e2
    | cons z a =>
      simp only [List.cons_append, List.cons.injEq] at e1
      rw [gather, ← e1.1, h] at e2
      simp at e2
  · rintro rfl
    exact ⟨[], x, r, rfl, rfl, h⟩

theorem vecInto_result {α : Type} (sc el : GC → Out α) (g : GC) (v : List α) :
    (vecInto sc el g v).result = copyToVec sc el g := by
  have h : ∀ {β : Type} (f : β → Out α) (xs : List β), (convInto f (v.take 0) xs).result = convLoop f xs := by
    intro β f xs
    rw [convInto_result]; cases convLoop f xs <;> simp [Out.bind]
  cases g with
  | vecPointer w => simp only [vecInto, copyToVec]; split <;> rfl
  | vecString w => simp only [vecInto, copyToVec]; split <;> rfl
  | map w => simp only [vecInto, copyToVec]; split <;> rfl
  | notype => rfl
  | pointer p => rfl
  | string p => rfl
  | _ => exact h _ _

theorem vecInto_stops {α γ : Type} (sc el : GC → Out α) (k : α → γ) (hk : Function.Injective k) (F E : GC → Out γ)
    (g : GC) (hs : sizeOk g = true) (hm : mapOk g)
    (hF : ∀ x, isNumber x = true → ((sc x).bind fun y => .ok (k y)) = F x)
    (hn : ∀ x, isNumber x = false → F x = .throw)
    (hE : ∀ x, ((el x).bind fun y => .ok (k y)) = E x) (v w : List α) :
    vecInto sc el g v = .throw w ↔ StopsAt (if g.ty = .VECTOR then E else F) (toCopy g) (w.map k) := by
  have one : ∀ x, isNumber x = true → (convInto sc (v.take 0) [x] = .throw w ↔ StopsAt F [x] (w.map k)) := by
    intro x hx
    exact convInto_stops sc k hk id F [x] (fun y hy => by simp at hy; subst hy; exact hF y hx) w
  have many : ∀ {β : Type} (up : β → GC) (xs : List β), (∀ x, isNumber (up x) = true) → xs.length < 2 ^ 32 →
      (convInto (fun b => sc (up b)) (v.take 0) (xs.take (u32 xs.length)) = .throw w ↔
        StopsAt F (xs.map up) (w.map k)) := by
    intro β up xs h1 h2
    rw [u32_of_lt h2, List.take_length]
    exact convInto_stops _ k hk up F xs (fun y _ => hF _ (h1 y)) w
  have no : ∀ {β : Type} (up : β → GC) (xs : List β), (∀ x, isNumber (up x) = false) → xs.length < 2 ^ 32 →
      ((if u32 xs.length = 0 then (.ok (v.take 0) : Loop (List α)) else .throw (v.take 0)) = .throw w ↔
        StopsAt F (xs.map up) (w.map k)) := by
    intro β up xs h1 h2
    rw [u32_of_lt h2]
    cases xs with
    | nil => simp [not_stopsAt_nil]
    | cons x r =>
      rw [if_neg (by simp), List.map_cons, stopsAt_first F _ _ (hn _ (h1 x))]
      simp [eq_comm]
  have refuse : ∀ x, isNumber x = false → ((.throw (v.take 0) : Loop (List α)) = .throw w ↔ StopsAt F [x] (w.map k)) := by
    intro x hx
    rw [stopsAt_first F _ _ (hn _ hx)]
    simp [eq_comm]
  have tc : ∀ x : GC, x.ty ≠ .MAP → toCopy x = elems x := by
    intro x hx
    rw [toCopy, if_neg]
    rintro rfl
    exact hx rfl
  cases g with
  | map m =>
    rw [if_neg (by simp [GC.ty])]
    simp only [vecInto]
    rw [u32_of_lt (hm m rfl)]
    cases m with
    | nil => simp [toCopy, not_stopsAt_nil]
    | cons e r =>
      rw [toCopy, if_neg (by simp), if_neg (by simp)]
      exact refuse _ rfl
  | vector v' =>
    rw [if_pos (by simp [GC.ty]), tc _ (by simp [GC.ty])]
    have h2 : v'.length < 2 ^ 32 := of_decide_eq_true hs
    simp only [vecInto]
    rw [u32_of_lt h2, List.take_length]
    have := convInto_stops el k hk id E v' (fun y _ => hE y) w
    simpa [elems] using this
  | vecPointer v => rw [if_neg (by simp [GC.ty]), tc _ (by simp [GC.ty])]; exact no pointer v (fun _ => rfl) (of_decide_eq_true hs)
  | vecString v => rw [if_neg (by simp [GC.ty]), tc _ (by simp [GC.ty])]; exact no string v (fun _ => rfl) (of_decide_eq_true hs)
  | vecBool v => rw [if_neg (by simp [GC.ty]), tc _ (by simp [GC.ty])]; exact many bool v (fun _ => rfl) (of_decide_eq_true hs)
  | vecInt v => rw [if_neg (by simp [GC.ty]), tc _ (by simp [GC.ty])]; exact many int v (fun _ => rfl) (of_decide_eq_true hs)
  | vecLong v => rw [if_neg (by simp [GC.ty]), tc _ (by simp [GC.ty])]; exact many long v (fun _ => rfl) (of_decide_eq_true hs)
  | vecReal v => rw [if_neg (by simp [GC.ty]), tc _ (by simp [GC.ty])]; exact many real v (fun _ => rfl) (of_decide_eq_true hs)
  | vecComplex v => rw [if_neg (by simp [GC.ty]), tc _ (by simp [GC.ty])]; exact many complex v (fun _ => rfl) (of_decide_eq_true hs)
  | matInt m => rw [if_neg (by simp [GC.ty]), tc _ (by simp [GC.ty])]; exact many int m.data (fun _ => rfl) (mat_short hs)
  | matLong m => rw [if_neg (by simp [GC.ty]), tc _ (by simp [GC.ty])]; exact many long m.data (fun _ => rfl) (mat_short hs)
  | matReal m => rw [if_neg (by simp [GC.ty]), tc _ (by simp [GC.ty])]; exact many real m.data (fun _ => rfl) (mat_short hs)
  | matComplex m => rw [if_neg (by simp [GC.ty]), tc _ (by simp [GC.ty])]; exact many complex m.data (fun _ => rfl) (mat_short hs)
  | notype =>
    rw [if_neg (by simp [GC.ty])]
    simp [vecInto, toCopy, elems, not_stopsAt_nil]
  | pointer p => rw [if_neg (by simp [GC.ty]), tc _ (by simp [GC.ty])]; exact refuse _ rfl
  | string p => rw [if_neg (by simp [GC.ty]), tc _ (by simp [GC.ty])]; exact refuse _ rfl
  | bool b => rw [if_neg (by simp [GC.ty]), tc _ (by simp [GC.ty])]; exact one _ rfl
  | int b => rw [if_neg (by simp [GC.ty]), tc _ (by simp [GC.ty])]; exact one _ rfl
  | long b => rw [if_neg (by simp [GC.ty]), tc _ (by simp [GC.ty])]; exact one _ rfl
  | real b => rw [if_neg (by simp [GC.ty]), tc _ (by simp [GC.ty])]; exact one _ rfl
  | complex b => rw [if_neg (by simp [GC.ty]), tc _ (by simp [GC.ty])]; exact one _ rfl

/-- **C109**: `copyto_vec_int`, `_long`, `_uint` and `_ulong` throw, leaving `w` in the destination, exactly when `w` holds
the numbers before the first element that is refused; nothing of the old content stays. -/
theorem C109_integers (g : GC) (hs : sizeOk g = true) (hm : mapOk g) :
    (∀ old w, copyto_vec_int_into g old = .throw w ↔
      StopsAt (if g.ty = .VECTOR then asSigned 32 else fitSigned 32) (toCopy g) (w.map (·.toInt))) ∧
    (∀ old w, copyto_vec_long_into g old = .throw w ↔
      StopsAt (if g.ty = .VECTOR then asSigned 64 else fitSigned 64) (toCopy g) (w.map (·.toInt))) ∧
    (∀ old w, copyto_vec_uint_into g old = .throw w ↔
      StopsAt (if g.ty = .VECTOR then asUnsigned 32 else fitUnsigned 32) (toCopy g) (w.map fun i => (i.toNat : Int))) ∧
    (∀ old w, copyto_vec_ulong_into g old = .throw w ↔
      StopsAt (if g.ty = .VECTOR then asUnsigned 64 else fitUnsigned 64) (toCopy g) (w.map fun i => (i.toNat : Int))) := by
  have n1 : ∀ w x, isNumber x = false → fitSigned w x = .throw := by
    intro w x hx; cases x <;> first | rfl | simp [isNumber] at hx
  have n2 : ∀ w x, isNumber x = false → fitUnsigned w x = .throw := by
    intro w x hx; cases x <;> first | rfl | simp [isNumber] at hx
  have i1 : ∀ {n : Nat}, Function.Injective (fun x : BitVec n => x.toInt) := fun {_ a b} h => BitVec.eq_of_toInt_eq h
  have i2 : ∀ {n : Nat}, Function.Injective (fun x : BitVec n => (x.toNat : Int)) :=
    fun {_ a b} h => BitVec.eq_of_toNat_eq (Int.ofNat.inj h)
  exact ⟨vecInto_stops _ _ _ i1 _ _ g hs hm (fun x _ => fit_int x) (n1 32) (fun x => (C59_signed x).1),
    vecInto_stops _ _ _ i1 _ _ g hs hm (fun x _ => fit_long x) (n1 64) (fun x => (C59_signed x).2),
    vecInto_stops _ _ _ i2 _ _ g hs hm (fun x _ => fit_uint x) (n2 32) (fun x => (C59_unsigned x).1),
    vecInto_stops _ _ _ i2 _ _ g hs hm (fun x _ => fit_ulong x) (n2 64) (fun x => (C59_unsigned x).2)⟩

/-- **C109**, `copyto_vec_real`, `_complex` and `_string`. -/
theorem C109_others (g : GC) (hs : sizeOk g = true) (hm : mapOk g) :
    (∀ old w, copyto_vec_real_into g old = .throw w ↔
      StopsAt (if g.ty = .VECTOR then onlyReal else fitReal) (toCopy g) w) ∧
    (∀ old w, copyto_vec_complex_into g old = .throw w ↔
      StopsAt (if g.ty = .VECTOR then onlyComplex else fitComplex) (toCopy g) w) ∧
    (∀ old w, copyto_vec_string_into g old = .throw w ↔
      if g.ty = .VECTOR then StopsAt onlyText (elems g) w else g.ty ≠ .STRING ∧ g.ty ≠ .VEC_STRING ∧ w = []) := by
  refine ⟨?_, ?_, ?_⟩
  · intro old w
    rw [← List.map_id w]
    refine Iff.trans ?_ (vecInto_stops copyReal get_number id (fun _ _ h => h) _ _ g hs hm ?_ ?_ ?_ old w)
    · rw [List.map_id]; rfl
    · intro x hx
      rw [bind_ok_id]
      cases x <;> first
        | rfl
        | (rename_i c; simp only [copyReal, fitReal, tiny_eq]; done)
        | simp [isNumber] at hx
    · intro x hx; cases x <;> first | rfl | simp [isNumber] at hx
    · intro x; rw [bind_ok_id]; cases x <;> rfl
  · intro old w
    rw [← List.map_id w]
    refine Iff.trans ?_ (vecInto_stops copyComplex get_complex_c id (fun _ _ h => h) _ _ g hs hm ?_ ?_ ?_ old w)
    · rw [List.map_id]; rfl
    · intro x hx
      rw [bind_ok_id]
      cases x <;> first
        | rfl
        | simp [isNumber] at hx
    · intro x hx; cases x <;> first | rfl | simp [isNumber] at hx
    · intro x; rw [bind_ok_id]; cases x <;> rfl
  · intro old w
    cases g with
    | string s => rw [if_neg (by simp [GC.ty])]; simp [copyto_vec_string_into, GC.ty]
    | vecString v =>
      rw [if_neg (by simp [GC.ty])]
      simp only [copyto_vec_string_into, copyL]
      constructor
      · intro h; split at h <;> simp at h
        rename_i h'; split at h' <;> simp at h'
      · intro h; simp [GC.ty] at h
    | vector v =>
      rw [if_pos (by simp [GC.ty])]
      simp only [copyto_vec_string_into]
      rw [u32_of_lt (of_decide_eq_true hs), List.take_length]
      have := convInto_stops get_string_c id (fun _ _ h => h) id onlyText v
        (fun x _ => by rw [bind_ok_id]; cases x <;> rfl) w
      simpa [elems] using this
    | _ => rw [if_neg (by simp [GC.ty])]; simp [copyto_vec_string_into, GC.ty, eq_comm]

/-! ## Matrices -/

theorem columnInto_result {β : Type} : ∀ (v : List β) (m : Mat β) (i : Nat),
    (columnInto m i v).result = copyColumn m i v
  | [], m, i => rfl
  | x :: r, m, i => by
    rw [columnInto, copyColumn]
    cases m.set i 0 x with
    | ok m' => exact columnInto_result r m' (i + 1)
    | _ => rfl

theorem fillColInto_result {β : Type} (j : Nat) (vj : List β) : ∀ (n i : Nat) (m : Mat β),
    (fillColInto m j vj i n).result = fillCol m j vj i n
  | 0, i, m => rfl
  | n + 1, i, m => by
    rw [fillColInto, fillCol]
    cases getL vj i with
    | ok x =>
      simp only [Out.bind]
      cases m.set i j x with
      | ok m' => exact fillColInto_result j vj n (i + 1) m'
      | _ => rfl
    | _ => rfl

theorem fillColsInto_result {β : Type} (conv : GC → Out (List β)) (nr : Nat) : ∀ (v : List GC) (j : Nat) (m : Mat β),
    (fillColsInto conv nr m j v).result = fillCols conv nr m j v
  | [], j, m => rfl
  | x :: r, j, m => by
    rw [fillColsInto, fillCols]
    cases conv x with
    | ok vj =>
      simp only [Out.bind]
      have h := fillColInto_result j vj nr 0 m
      rw [← h]
      cases fillColInto m j vj 0 nr with
      | ok m' => exact fillColsInto_result conv nr r (j + 1) m'
      | _ => rfl
    | _ => rfl

theorem resize_cleared {β : Type} (d : β) (nr nc : Nat) (m : Mat β) : m.cleared.resize d nr nc = .make d nr nc := by
  simp [Mat.cleared, Mat.resize, Mat.make, resizeL]

theorem matInto_result {β : Type} (d : β) (ofBool : Bool → β) (conv : GC → Out (List β)) (plain : GC → Out (Mat β))
    (g : GC) (m : Mat β) (hb : ∀ v, plain (vecBool v) = copyColumn (.make d (u32 v.length) 1) 0 (v.map ofBool))
    (hv : ∀ v, plain (vector v) = columns d conv v) : (matInto d ofBool conv plain g m).result = plain g := by
  cases g with
  | vecBool v => rw [hb]; simp only [matInto]; rw [resize_cleared, columnInto_result]
  | vector v =>
    rw [hv]
    simp only [matInto, columnsInto, columns]
    cases v.take (u32 v.length) with
    | nil => rfl
    | cons x r =>
      simp only
      split
      · rw [resize_cleared, fillColsInto_result]
      · rfl
  | _ =>
    simp only [matInto]
    split <;> simp_all [Loop.result]

/-- **C109**: what is in the destination before does not matter to the outcome of any of the functions, and when they
return it holds what `C94` says. -/
theorem C109_result (g : GC) :
    (∀ old, (copyto_vec_int_into g old).result = copyto_vec_int g) ∧
    (∀ old, (copyto_vec_uint_into g old).result = copyto_vec_uint g) ∧
    (∀ old, (copyto_vec_long_into g old).result = copyto_vec_long g) ∧
    (∀ old, (copyto_vec_ulong_into g old).result = copyto_vec_ulong g) ∧
    (∀ old, (copyto_vec_real_into g old).result = copyto_vec_real g) ∧
    (∀ old, (copyto_vec_complex_into g old).result = copyto_vec_complex g) ∧
    (∀ old, (copyto_vec_string_into g old).result = copyto_vec_string g) ∧
    (∀ old, (copyto_mat_int_into g old).result = copyto_mat_int g) ∧
    (∀ old, (copyto_mat_long_into g old).result = copyto_mat_long g) ∧
    (∀ old, (copyto_mat_real_into g old).result = copyto_mat_real g) ∧
    (∀ old, (copyto_mat_complex_into g old).result = copyto_mat_complex g) := by
  refine ⟨vecInto_result _ _ g, vecInto_result _ _ g, vecInto_result _ _ g, vecInto_result _ _ g, vecInto_result _ _ g,
    vecInto_result _ _ g, ?_, fun m => matInto_result _ _ _ _ g m (fun _ => rfl) (fun _ => rfl),
    fun m => matInto_result _ _ _ _ g m (fun _ => rfl) (fun _ => rfl),
    fun m => matInto_result _ _ _ _ g m (fun _ => rfl) (fun _ => rfl),
    fun m => matInto_result _ _ _ _ g m (fun _ => rfl) (fun _ => rfl)⟩
  intro old
  cases g with
  | vector v =>
    simp only [copyto_vec_string_into, copyto_vec_string]
    rw [convInto_result]; cases convLoop get_string_c _ <;> simp [Out.bind]
  | vecString v =>
    simp only [copyto_vec_string_into, copyto_vec_string]
    have : resizeL ([] : Bytes) (u32 v.length) (old.take 0) = List.replicate (u32 v.length) [] := by simp [resizeL]
    rw [this]
    cases copyL v (List.replicate (u32 v.length) []) <;> rfl
  | _ => rfl

theorem fillColsInto_throw {β : Type} (d : β) (conv : GC → Out (List β)) (nr nc : Nat) (hlt : nr * nc < 2 ^ 32) :
    ∀ (v : List GC) (j : Nat) (dn : List β), j + v.length = nc → dn.length = j * nr →
    (∀ x ∈ v, ∀ w, conv x = .ok w → w.length = nr) → ∀ m,
    (fillColsInto conv nr ⟨nr, nc, dn ++ List.replicate (v.length * nr) d⟩ j v = .throw m ↔
      ∃ a x b ws, v = a ++ x :: b ∧ gather conv a = .ok ws ∧ conv x = .throw ∧
        m = ⟨nr, nc, dn ++ (ws.flatten ++ List.replicate ((b.length + 1) * nr) d)⟩)
  | [], j, dn, _, _, _, m => by simp [fillColsInto]
  | x :: v, j, dn, h1, h2, h4, m => by
    cases hc : conv x with
    | ok w =>
      have hw := h4 x (by simp) w hc
      have hj : (j + 1) * nr ≤ nc * nr := Nat.mul_le_mul_right _ (by simp at h1; omega)
      have h3' : (v.length + 1) * nr = v.length * nr + nr := Nat.succ_mul _ _
      have hf := fillCol_ok nr nc j w hw (by rw [Nat.mul_comm nc nr] at hj; omega) nr 0 dn
        (List.replicate ((v.length + 1) * nr) d) (by omega) (by omega) (by rw [List.length_replicate]; omega)
      rw [List.drop_zero, List.drop_replicate] at hf
      have e : (v.length + 1) * nr - nr = v.length * nr := by omega
      rw [e] at hf
      have hi := fillColInto_result j w nr 0 ⟨nr, nc, dn ++ List.replicate ((v.length + 1) * nr) d⟩
      rw [hf] at hi
      have hg : fillColInto ⟨nr, nc, dn ++ List.replicate ((v.length + 1) * nr) d⟩ j w 0 nr =
          .ok ⟨nr, nc, dn ++ w ++ List.replicate (v.length * nr) d⟩ := by
        revert hi
        cases fillColInto ⟨nr, nc, dn ++ List.replicate ((v.length + 1) * nr) d⟩ j w 0 nr <;> simp [Loop.result]
      rw [fillColsInto, hc, List.length_cons]
      simp only [hg]
      rw [fillColsInto_throw d conv nr nc hlt v (j + 1) (dn ++ w) (by simp at h1; omega)
        (by rw [List.length_append, hw, h2, Nat.succ_mul]) (fun y hy => h4 y (by simp [hy]))]
      constructor
      · rintro ⟨a, z, b, ws, rfl, e2, e3, rfl⟩
        refine ⟨x :: a, z, b, w :: ws, rfl, by rw [gather, hc, e2], e3, by simp⟩
      · rintro ⟨a, z, b, ws, e1, e2, e3, rfl⟩
        cases a with
        | nil =>
          simp only [List.nil_append, List.cons.injEq] at e1
          rw [← e1.1, hc] at e3; simp at e3
        | cons y a =>
          simp only [List.cons_append, List.cons.injEq] at e1
          obtain ⟨rfl, rfl⟩ := e1
          rw [gather, hc] at e2
          cases hg2 : gather conv a with
          | ok l =>
            rw [hg2] at e2
            simp only [Out.ok.injEq] at e2
            exact ⟨a, z, b, l, rfl, hg2, e3, by rw [← e2]; simp⟩
          | _ => rw [hg2] at e2; simp at e2
    | throw =>
      rw [fillColsInto, hc]
      constructor
      · intro h
        simp only [Loop.throw.injEq] at h
        refine ⟨[], x, v, [], rfl, rfl, hc, by rw [← h]; simp⟩
      · rintro ⟨a, z, b, ws, e1, e2, e3, rfl⟩
        cases a with
        | nil =>
          simp only [List.nil_append, List.cons.injEq] at e1
          simp [gather] at e2
          subst e2
          rw [e1.2]; simp
        | cons y a =>
          simp only [List.cons_append, List.cons.injEq] at e1
          rw [gather, ← e1.1, hc] at e2; simp at e2
    | ub | diverge =>
      rw [fillColsInto, hc]
      constructor
      · intro h; simp at h
      · rintro ⟨a, z, b, ws, e1, e2, e3, rfl⟩
        cases a with
        | nil =>
          simp only [List.nil_append, List.cons.injEq] at e1
          rw [← e1.1, hc] at e3; simp at e3
        | cons y a =>
          simp only [List.cons_append, List.cons.injEq] at e1
          rw [gather, ← e1.1, hc] at e2; simp at e2

theorem columnsInto_leaves {β : Type} (d : β) (conv : GC → Out (List β)) (v : List GC) (hv : v.length < 2 ^ 32)
    (hn : ∀ x ∈ v, sizeOk x = true ∧ mapOk x ∧ counted x * v.length < 2 ^ 32)
    (hc : ∀ x ∈ v, ∀ w, conv x = .ok w → w.length = counted x) (old m : Mat β) :
    columnsInto d conv v old.cleared = .throw m ↔
    ((v = [] ∨ ¬ oneLength v) ∧ m = hollow old) ∨
    (oneLength v ∧ ∃ before x after cols, v = before ++ x :: after ∧ gather conv before = .ok cols ∧ conv x = .throw ∧
      m = ⟨counted x, v.length, cols.flatten ++ List.replicate ((after.length + 1) * counted x) d⟩) := by
  unfold columnsInto
  rw [u32_of_lt hv, List.take_length]
  cases v with
  | nil =>
    show Loop.throw old.cleared = .throw m ↔ _
    constructor
    · intro h; injection h with h
      exact .inl ⟨.inl rfl, h.symm⟩
    · rintro (⟨_, rfl⟩ | ⟨_, a, x, b, _, e, _⟩)
      · rfl
      · simp at e
  | cons x r =>
    obtain ⟨hx1, hx2, hx3⟩ := hn x (by simp)
    have ex := num_elements_counted x hx1 hx2
    simp only [ex]
    have key : (r.all fun y => y.get_num_elements == counted x) = true ↔ oneLength (x :: r) := by
      rw [List.all_eq_true]
      constructor
      · intro h
        have h' : ∀ y ∈ x :: r, counted y = counted x := by
          intro y hy
          rcases List.mem_cons.1 hy with rfl | hy
          · rfl
          · obtain ⟨h1, h2, _⟩ := hn y (by simp [hy])
            have := h y hy
            rw [num_elements_counted y h1 h2] at this
            simpa using this
        intro y hy z hz
        rw [h' y hy, h' z hz]
      · intro h y hy
        obtain ⟨h1, h2, _⟩ := hn y (by simp [hy])
        rw [num_elements_counted y h1 h2, h y (by simp [hy]) x (by simp)]; simp
    by_cases h : oneLength (x :: r)
    · rw [if_pos (key.2 h), resize_cleared]
      have e : (Mat.make d (counted x) (r.length + 1)) =
          ⟨counted x, r.length + 1, [] ++ List.replicate ((x :: r).length * counted x) d⟩ := by
        rw [Mat.make, u32_of_lt (by simpa using hx3), Nat.mul_comm]; rfl
      rw [e, fillColsInto_throw d conv (counted x) (r.length + 1) (by simpa using hx3) (x :: r) 0 [] (by simp) (by simp)
        (fun y hy w hw => by rw [hc y hy w hw]; exact h y hy x (by simp))]
      constructor
      · rintro ⟨a, z, b, ws, e1, e2, e3, e4⟩
        refine .inr ⟨h, a, z, b, ws, e1, e2, e3, ?_⟩
        rw [e4, h z (by rw [e1]; simp) x (by simp)]; rfl
      · rintro (⟨h1 | h1, _⟩ | ⟨_, a, z, b, ws, e1, e2, e3, e4⟩)
        · simp at h1
        · exact absurd h h1
        · refine ⟨a, z, b, ws, e1, e2, e3, ?_⟩
          rw [e4, h z (by rw [e1]; simp) x (by simp)]; rfl
    · rw [if_neg (fun hh => h (key.1 hh))]
      constructor
      · intro h'; injection h' with h'
        exact .inl ⟨.inr h, h'.symm⟩
      · rintro (⟨_, rfl⟩ | ⟨h1, _⟩)
        · rfl
        · exact absurd h1 h

theorem matInto_leaves {β : Type} (d : β) (ofBool : Bool → β) (conv : GC → Out (List β)) (plain : GC → Out (Mat β))
    (t : Ty) (f : GC → β) (g : GC) (hs : sizeOk g = true) (hc : columnsFit g)
    (hl : ∀ x, sizeOk x = true → mapOk x → ∀ w, conv x = .ok w → w.length = counted x)
    (hb : ∀ v, plain (vecBool v) = copyColumn (.make d (u32 v.length) 1) 0 (v.map ofBool))
    (hp : plain g = matrixOutcome t f conv g) (old m : Mat β) :
    matInto d ofBool conv plain g old = .throw m ↔ LeavesMatrix d t f conv g old m := by
  cases g with
  | vector v =>
    have hh := hc v rfl
    exact columnsInto_leaves d conv v (of_decide_eq_true hs) hh (fun x hx => hl x (hh x hx).1 (hh x hx).2.1) old m
  | vecBool v =>
    have h1 := hb v
    rw [copyColumn_map d ofBool (of_decide_eq_true hs)] at h1
    have h2 := columnInto_result (v.map ofBool) (.make d (u32 v.length) 1) 0
    rw [← hb v, h1] at h2
    simp only [matInto, LeavesMatrix]
    rw [← hp, h1, resize_cleared]
    constructor
    · intro h; rw [h] at h2; simp [Loop.result] at h2
    · intro h; simp at h
  | _ =>
    simp only [matInto, LeavesMatrix]
    rw [← hp]
    split <;> rename_i h <;> rw [h] <;> simp
    exact eq_comm

/-- **C109**, `copyto_mat_*`: a copy that throws because of the type or of the lengths of the columns leaves the sizes of
the old matrix and none of its elements; one that throws because of a column leaves a matrix of the new sizes with the
columns before it and zeros from there on. -/
theorem C109_matrix (g : GC) (hs : sizeOk g = true) (hc : columnsFit g) :
    (∀ old m, copyto_mat_int_into g old = .throw m ↔ LeavesMatrix 0 .MAT_INTEGER asInt copyto_vec_int g old m) ∧
    (∀ old m, copyto_mat_long_into g old = .throw m ↔ LeavesMatrix 0 .MAT_LONG asLong copyto_vec_long g old m) ∧
    (∀ old m, copyto_mat_real_into g old = .throw m ↔ LeavesMatrix .zero .MAT_REAL asReal copyto_vec_real g old m) ∧
    (∀ old m, copyto_mat_complex_into g old = .throw m ↔
      LeavesMatrix .zero .MAT_COMPLEX asComplex copyto_vec_complex g old m) := by
  obtain ⟨h1, h2, h3, h4⟩ := C94_matrix g hs hc
  exact ⟨matInto_leaves _ _ _ _ _ _ g hs hc (fun x a b => copyToVec_length _ _ x a b) (fun _ => rfl) h1,
    matInto_leaves _ _ _ _ _ _ g hs hc (fun x a b => copyToVec_length _ _ x a b) (fun _ => rfl) h2,
    matInto_leaves _ _ _ _ _ _ g hs hc (fun x a b => copyToVec_length _ _ x a b) (fun _ => rfl) h3,
    matInto_leaves _ _ _ _ _ _ g hs hc (fun x a b => copyToVec_length _ _ x a b) (fun _ => rfl) h4⟩

/-- **C110** (partial): the matrix a copy fails on keeps as many elements as its sizes say when the copy had begun, that is
when the content is a vector of containers of one length. -/
theorem C110_consistent_partial (v : List GC) (hs : sizeOk (vector v) = true) (hc : columnsFit (vector v)) (hv : v ≠ [])
    (hsame : oneLength v) :
    (∀ old m, copyto_mat_int_into (vector v) old = .throw m → m.wf = true) ∧
    (∀ old m, copyto_mat_long_into (vector v) old = .throw m → m.wf = true) ∧
    (∀ old m, copyto_mat_real_into (vector v) old = .throw m → m.wf = true) ∧
    (∀ old m, copyto_mat_complex_into (vector v) old = .throw m → m.wf = true) := by
  obtain ⟨h1, h2, h3, h4⟩ := C109_matrix (vector v) hs hc
  have key : ∀ {β : Type} (d : β) (t : Ty) (f : GC → β) (sc el : GC → Out β) (old m : Mat β),
      LeavesMatrix d t f (copyToVec sc el) (vector v) old m → m.wf = true := by
    intro β d t f sc el old m h
    rcases h with ⟨h | h, _⟩ | ⟨_, a, x, b, cols, e1, e2, e3, rfl⟩
    · exact absurd h hv
    · exact absurd hsame h
    · have hx : x ∈ v := by rw [e1]; simp
      have hf := hc v rfl x hx
      have hcols : ∀ (a : List GC) (cols : List (List β)), (∀ y ∈ a, y ∈ v) → gather (copyToVec sc el) a = .ok cols →
          cols.flatten.length = a.length * counted x := by
        intro a
        induction a with
        | nil => intro cols _ h; simp [gather] at h; subst h; simp
        | cons y a ih =>
          intro cols ha h
          rw [gather] at h
          cases hy : copyToVec sc el y with
          | ok w =>
            rw [hy] at h
            cases hg : gather (copyToVec sc el) a with
            | ok l =>
              rw [hg] at h
              simp only [Out.ok.injEq] at h
              subst h
              have hyv := ha y (by simp)
              have hfy := hc v rfl y hyv
              rw [List.flatten_cons, List.length_append, ih l (fun z hz => ha z (by simp [hz])) hg,
                copyToVec_length sc el y hfy.1 hfy.2.1 w hy, hsame y hyv x hx, List.length_cons, Nat.succ_mul, Nat.add_comm]
            | _ => rw [hg] at h; simp at h
          | _ => rw [hy] at h; simp at h
      have hl := hcols a cols (fun y hy => by rw [e1]; simp [hy]) e2
      have hlen : v.length = a.length + (b.length + 1) := by rw [e1]; simp
      have hprod : counted x * v.length = a.length * counted x + (b.length + 1) * counted x := by
        rw [hlen, Nat.mul_add, Nat.mul_comm (counted x), Nat.mul_comm (counted x)]
      have hv32 : v.length < 2 ^ 32 := of_decide_eq_true hs
      have hr32 : counted x < 2 ^ 32 := by
        have : 1 ≤ v.length := by omega
        calc counted x = counted x * 1 := by omega
          _ ≤ counted x * v.length := Nat.mul_le_mul_left _ this
          _ < 2 ^ 32 := hf.2.2
      unfold Mat.wf
      simp only [Bool.and_eq_true, decide_eq_true_eq, beq_iff_eq, List.length_append, List.length_replicate]
      rw [hl, Nat.mod_eq_of_lt hf.2.2, hprod]
      exact ⟨⟨hr32, hv32⟩, rfl⟩
  exact ⟨fun old m h => key _ _ _ _ _ _ _ ((h1 old m).1 h), fun old m h => key _ _ _ _ _ _ _ ((h2 old m).1 h),
    fun old m h => key _ _ _ _ _ _ _ ((h3 old m).1 h), fun old m h => key _ _ _ _ _ _ _ ((h4 old m).1 h)⟩

/-- **C110** fails for "a matrix that a copy was refused for can still be read": after the refusal it still has two rows and
two columns, and none of the four elements. -/
theorem C110_consistent_negation :
    ¬ ∀ (g : GC) (old m : Mat I32), sizeOk g = true → columnsFit g → old.wf = true →
      copyto_mat_int_into g old = .throw m → m.wf = true := by
  intro h
  have := h (string [65]) ⟨2, 2, [1, 2, 3, 4]⟩ ⟨2, 2, []⟩ rfl (by intro v h; simp at h) (by decide +kernel) (by decide +kernel)
  simp [Mat.wf, u32] at this

example : copyto_mat_int_into (vector [vecInt [1, 2], vecString [[65], [66]], vecInt [5, 6]]) ⟨1, 1, [9]⟩ =
      .throw ⟨2, 3, [1, 2, 0, 0, 0, 0]⟩ ∧
    copyto_mat_int_into (vector [vecInt [1, 2], vecInt [3]]) ⟨1, 1, [9]⟩ = .throw ⟨1, 1, []⟩ ∧
    columnsFit (vector [vecInt [1, 2], vecInt [3]]) := by
  refine ⟨by decide +kernel, by decide +kernel, ?_⟩
  intro v h
  injection h with h
  subst h
  intro x hx
  simp at hx
  rcases hx with rfl | rfl <;> exact ⟨rfl, by intro m h; simp at h, by simp [counted, elems]⟩

example : (copyto_vec_int_into (vector [int 1, bool true, string [65], int 2]) [9, 9, 9] = .throw [1, 1]) ∧
    copyto_vec_int_into (string [65]) [9] = .throw [] ∧ copyto_vec_string_into (int 1) [[65]] = .throw [] ∧
    sizeOk (vector [int 1, bool true, string [65], int 2]) = true ∧ mapOk (string [65]) := by
  refine ⟨by decide +kernel, by decide +kernel, by decide +kernel, rfl, ?_⟩
  intro m h; simp at h

end GC
end GCV
