import Verif.Spec.CopyTo
import Verif.Props.EveryContent
import Verif.Props.CopyTo
import Verif.Props.Exact

/-!
# C94: exactly what copyto_vec_* and copyto_mat_* do
-/

namespace GCV
namespace GC

open F64

theorem convLoop_gather {α β γ : Type} (f : α → Out β) (k : β → γ) (up : α → GC) (F : GC → Out γ) :
    ∀ (v : List α), (∀ x ∈ v, ((f x).bind fun y => .ok (k y)) = F (up x)) →
    ((convLoop f v).bind fun w => .ok (w.map k)) = gather F (v.map up)
  | [], _ => rfl
  | x :: r, h => by
    have h1 := h x (by simp)
    have h2 := convLoop_gather f k up F r (fun y hy => h y (by simp [hy]))
    rw [convLoop, List.map_cons, gather, ← h1, ← h2]
    cases f x with
    | ok y => cases convLoop f r <;> rfl
    | _ => rfl

theorem mat_short {β : Type} {m : Mat β} (h : m.wf = true) : m.data.length < 2 ^ 32 := by
  unfold Mat.wf at h
  simp only [Bool.and_eq_true, decide_eq_true_eq] at h
  rw [h.2]; exact Nat.mod_lt _ (by decide)

theorem copyToVec_gather {α γ : Type} (sc el : GC → Out α) (k : α → γ) (F E : GC → Out γ) (g : GC)
    (hs : sizeOk g = true) (hm : mapOk g)
    (hF : ∀ x, isNumber x = true → ((sc x).bind fun y => .ok (k y)) = F x)
    (hn : ∀ x, isNumber x = false → F x = .throw)
    (hE : ∀ x, ((el x).bind fun y => .ok (k y)) = E x) :
    ((copyToVec sc el g).bind fun w => .ok (w.map k)) =
      if g.ty = .VECTOR then gather E (toCopy g) else gather F (toCopy g) := by
  have one : ∀ x, isNumber x = true →
      ((convLoop sc [x]).bind fun w => .ok (w.map k)) = gather F [x] := by
    intro x hx
    exact convLoop_gather sc k id F [x] (fun y hy => by
      simp at hy; subst hy; exact hF y hx)
  have many : ∀ {β : Type} (up : β → GC) (v : List β), (∀ x, isNumber (up x) = true) → v.length < 2 ^ 32 →
      ((convLoop (fun b => sc (up b)) (v.take (u32 v.length))).bind fun w => .ok (w.map k)) =
        gather F (v.map up) := by
    intro β up v h1 h2
    rw [u32_of_lt h2, List.take_length]
    exact convLoop_gather _ k up F v (fun y _ => hF _ (h1 y))
  have no : ∀ {β : Type} (up : β → GC) (v : List β), (∀ x, isNumber (up x) = false) → v.length < 2 ^ 32 →
      (((if u32 v.length = 0 then .ok [] else .throw : Out (List α))).bind fun w => .ok (w.map k)) =
        gather F (v.map up) := by
    intro β up v h1 h2
    rw [u32_of_lt h2]
    cases v with
    | nil => rfl
    | cons x r => rw [if_neg (by simp), List.map_cons, gather, hn _ (h1 x)]; rfl
  have tc : ∀ x : GC, x.ty ≠ .MAP → toCopy x = elems x := by
    intro x hx
    rw [toCopy, if_neg]
    rintro rfl
    exact hx rfl
  cases g with
  | map m =>
    rw [if_neg (by simp [GC.ty])]
    rw [copyToVec, u32_of_lt (hm m rfl)]
    cases m with
    | nil => rfl
    | cons e r =>
      rw [toCopy, if_neg (by simp), if_neg (by simp), elems, gather, hn _ rfl]; rfl
      all_goals simp
  | vector v =>
    rw [if_pos (by simp [GC.ty]), tc _ (by simp [GC.ty])]
    have h2 : v.length < 2 ^ 32 := of_decide_eq_true hs
    rw [copyToVec, u32_of_lt h2, List.take_length]
    have := convLoop_gather el k id E v (fun y _ => hE y)
    simpa [elems] using this
  | vecPointer v => rw [if_neg (by simp [GC.ty]), tc _ (by simp [GC.ty])]; exact no pointer v (fun _ => rfl) (of_decide_eq_true hs)
  | vecString v => rw [if_neg (by simp [GC.ty]), tc _ (by simp [GC.ty])]; exact no string v (fun _ => rfl) (of_decide_eq_true hs)
  | vecBool v => rw [if_neg (by simp [GC.ty]), tc _ (by simp [GC.ty])]; exact many bool v (fun _ => rfl) (of_decide_eq_true hs)
  | vecInt v => rw [if_neg (by simp [GC.ty]), tc _ (by simp [GC.ty])]; exact many int v (fun _ => rfl) (of_decide_eq_true hs)
  | vecLong v => rw [if_neg (by simp [GC.ty]), tc _ (by simp [GC.ty])]; exact many long v (fun _ => rfl) (of_decide_eq_true hs)
  | vecReal v => rw [if_neg (by simp [GC.ty]), tc _ (by simp [GC.ty])]; exact many real v (fun _ => rfl) (of_decide_eq_true hs)
  | vecComplex v => rw [if_neg (by simp [GC.ty]), tc _ (by simp [GC.ty])]; exact many complex v (fun _ => rfl) (of_decide_eq_true hs)
  | matInt m => rw [if_neg (by simp [GC.ty]), tc _ (by simp [GC.ty])]; exact many int m.data (fun _ => rfl) (mat_short hs)
  | matLong m => rw [if_neg (by simp [GC.ty]), tc _ (by simp [GC.ty])]; exact many long m.data (fun _ => rfl) (mat_short hs)
  | matReal m => rw [if_neg (by simp [GC.ty]), tc _ (by simp [GC.ty])]; exact many real m.data (fun _ => rfl) (mat_short hs)
  | matComplex m => rw [if_neg (by simp [GC.ty]), tc _ (by simp [GC.ty])]; exact many complex m.data (fun _ => rfl) (mat_short hs)
  | notype => rfl
  | pointer p => rw [if_neg (by simp [GC.ty]), tc _ (by simp [GC.ty]), elems, gather, hn _ rfl]; rfl; all_goals simp
  | string p => rw [if_neg (by simp [GC.ty]), tc _ (by simp [GC.ty]), elems, gather, hn _ rfl]; rfl; all_goals simp
  | bool b => rw [if_neg (by simp [GC.ty]), tc _ (by simp [GC.ty])]; exact one _ rfl
  | int b => rw [if_neg (by simp [GC.ty]), tc _ (by simp [GC.ty])]; exact one _ rfl
  | long b => rw [if_neg (by simp [GC.ty]), tc _ (by simp [GC.ty])]; exact one _ rfl
  | real b => rw [if_neg (by simp [GC.ty]), tc _ (by simp [GC.ty])]; exact one _ rfl
  | complex b => rw [if_neg (by simp [GC.ty]), tc _ (by simp [GC.ty])]; exact one _ rfl

theorem fit_complex_signed (w : Nat) (hw : 0 < w) (c : Cplx) :
    ((if c.im.isZero0 ∧ c.re.isInteger then c.re.toSigned w else .throw).bind fun i => .ok i.toInt) =
    if c.im.tiny then realAsSigned w c.re else .throw := by
  rw [tiny_eq]
  by_cases h : c.im.isZero0 = true
  · rw [if_pos h, ← signed_read w hw]; simp [h]
  · rw [if_neg h, if_neg (fun hc => h hc.1)]; rfl

theorem fit_complex_unsigned (w : Nat) (c : Cplx) :
    ((if c.im.isZero0 ∧ c.re.isUnsigned then c.re.toUnsigned w else .throw).bind fun i => .ok (i.toNat : Int)) =
    if c.im.tiny then realAsUnsigned w c.re else .throw := by
  rw [tiny_eq]
  by_cases h : c.im.isZero0 = true
  · rw [if_pos h, ← unsigned_read w]; simp [h]
  · rw [if_neg h, if_neg (fun hc => h hc.1)]; rfl

theorem fit_int (x : GC) : ((copyInt x).bind fun i => .ok i.toInt) = fitSigned 32 x := by
  cases x with
  | bool b => cases b <;> rfl
  | int i => rfl
  | long l =>
    rw [copyInt, fitSigned]
    by_cases h : l.toI32.toI64 = l
    · rw [if_pos h, if_pos ((toI32_toI64_iff l).1 h), Out.bind]
      congr 1
      conv => rhs; rw [← h]
      rw [toI64_exact]
    · rw [if_neg h, if_neg (fun h' => h ((toI32_toI64_iff l).2 h'))]; rfl
  | real r => exact signed_read 32 (by omega) r
  | complex c => exact fit_complex_signed 32 (by omega) c
  | _ => rfl

theorem fit_long (x : GC) : ((copyLong x).bind fun i => .ok i.toInt) = fitSigned 64 x := by
  cases x with
  | bool b => cases b <;> rfl
  | int i => rw [copyLong, Out.bind, toI64_exact, fitSigned]
  | long l =>
    rw [copyLong, fitSigned, if_pos ⟨l.le_toInt, l.toInt_lt⟩]; rfl
  | real r => exact signed_read 64 (by omega) r
  | complex c => exact fit_complex_signed 64 (by omega) c
  | _ => rfl

theorem fit_uint (x : GC) : ((copyUint x).bind fun i => .ok (i.toNat : Int)) = fitUnsigned 32 x := by
  cases x with
  | bool b => cases b <;> rfl
  | int i =>
    show ((if 0 ≤ i.toInt then Out.ok i else .throw).bind fun i => .ok (i.toNat : Int)) =
      if i.toInt < 0 then .throw else .ok (i.toInt % 2 ^ 32)
    by_cases h : 0 ≤ i.toInt
    · rw [if_pos h, if_neg (by omega), Out.bind]
      have h1 := i.toInt_lt
      rw [Int.emod_eq_of_lt h (by omega)]
      rw [BitVec.toInt_eq_toNat_of_msb (by rw [BitVec.msb_eq_toInt]; simp; omega)]
    · rw [if_neg h, if_pos (by omega)]; rfl
  | long l =>
    show ((if l.toI32.toI64 = l ∧ 0 ≤ l.toInt then Out.ok (l.setWidth 32) else .throw).bind
      fun i => .ok (i.toNat : Int)) = if 0 ≤ l.toInt ∧ l.toInt < 2 ^ 31 then .ok l.toInt else .throw
    by_cases h : 0 ≤ l.toInt ∧ l.toInt < 2 ^ 31
    · rw [if_pos h, if_pos ⟨(toI32_toI64_iff l).2 ⟨by omega, h.2⟩, h.1⟩, Out.bind, BitVec.toNat_setWidth]
      have e : l.toInt = (l.toNat : Int) :=
        BitVec.toInt_eq_toNat_of_msb (by rw [BitVec.msb_eq_toInt]; simp; omega)
      congr 1
      omega
    · rw [if_neg h, if_neg]
      · rfl
      · rintro ⟨h1, h2⟩; exact h ⟨h2, ((toI32_toI64_iff l).1 h1).2⟩
  | real r => exact unsigned_read 32 r
  | complex c => exact fit_complex_unsigned 32 c
  | _ => rfl

theorem fit_ulong (x : GC) : ((copyUlong x).bind fun i => .ok (i.toNat : Int)) = fitUnsigned 64 x := by
  cases x with
  | bool b => cases b <;> rfl
  | int i =>
    show ((if 0 ≤ i.toInt then Out.ok i.toI64 else .throw).bind fun i => .ok (i.toNat : Int)) =
      if i.toInt < 0 then .throw else .ok (i.toInt % 2 ^ 64)
    by_cases h : 0 ≤ i.toInt
    · rw [if_pos h, if_neg (by omega), Out.bind]
      have h1 := i.toInt_lt
      rw [Int.emod_eq_of_lt h (by omega), ← toI64_exact]
      have h0 : 0 ≤ i.toI64.toInt := by rw [toI64_exact]; exact h
      rw [BitVec.toInt_eq_toNat_of_msb (by rw [BitVec.msb_eq_toInt]; simp; omega)]
    · rw [if_neg h, if_pos (by omega)]; rfl
  | long l =>
    show ((if 0 ≤ l.toInt then Out.ok l else .throw).bind fun i => .ok (i.toNat : Int)) =
      if 0 ≤ l.toInt ∧ l.toInt < 2 ^ 63 then .ok l.toInt else .throw
    by_cases h : 0 ≤ l.toInt
    · rw [if_pos h, if_pos ⟨h, l.toInt_lt⟩, Out.bind,
        BitVec.toInt_eq_toNat_of_msb (by rw [BitVec.msb_eq_toInt]; simp; omega)]
    · rw [if_neg h, if_neg (fun h' => h h'.1)]; rfl
  | real r => exact unsigned_read 64 r
  | complex c => exact fit_complex_unsigned 64 c
  | _ => rfl

/-- **C94**, `copyto_vec_int`, `_long`, `_uint` and `_ulong` on every content: the numbers in order, otherwise what the first
element that is refused (or converted without a defined result) does.  In a vector of containers integers are cut
(`asSigned`), elsewhere integers that do not fit are refused (`fitSigned`). -/
theorem C94_integers (g : GC) (hs : sizeOk g = true) (hm : mapOk g) :
    ((copyto_vec_int g).bind fun w => .ok (w.map (·.toInt))) =
      (if g.ty = .VECTOR then gather (asSigned 32) (toCopy g) else gather (fitSigned 32) (toCopy g)) ∧
    ((copyto_vec_long g).bind fun w => .ok (w.map (·.toInt))) =
      (if g.ty = .VECTOR then gather (asSigned 64) (toCopy g) else gather (fitSigned 64) (toCopy g)) ∧
    ((copyto_vec_uint g).bind fun w => .ok (w.map fun i => (i.toNat : Int))) =
      (if g.ty = .VECTOR then gather (asUnsigned 32) (toCopy g) else gather (fitUnsigned 32) (toCopy g)) ∧
    ((copyto_vec_ulong g).bind fun w => .ok (w.map fun i => (i.toNat : Int))) =
      (if g.ty = .VECTOR then gather (asUnsigned 64) (toCopy g) else gather (fitUnsigned 64) (toCopy g)) := by
  have n1 : ∀ w x, isNumber x = false → fitSigned w x = .throw := by
    intro w x hx; cases x <;> first | rfl | simp [isNumber] at hx
  have n2 : ∀ w x, isNumber x = false → fitUnsigned w x = .throw := by
    intro w x hx; cases x <;> first | rfl | simp [isNumber] at hx
  exact ⟨copyToVec_gather _ _ _ _ _ g hs hm (fun x _ => fit_int x) (n1 32) (fun x => (C59_signed x).1),
    copyToVec_gather _ _ _ _ _ g hs hm (fun x _ => fit_long x) (n1 64) (fun x => (C59_signed x).2),
    copyToVec_gather _ _ _ _ _ g hs hm (fun x _ => fit_uint x) (n2 32) (fun x => (C59_unsigned x).1),
    copyToVec_gather _ _ _ _ _ g hs hm (fun x _ => fit_ulong x) (n2 64) (fun x => (C59_unsigned x).2)⟩

theorem bind_map_id {α : Type} (o : Out (List α)) : (o.bind fun w => .ok (w.map id)) = o := by
  cases o <;> simp [Out.bind]

theorem bind_ok_id {α : Type} (o : Out α) : (o.bind fun w => .ok (id w)) = o := by
  cases o <;> rfl

/-- **C94**, `copyto_vec_real`, `_complex` and `_string`. -/
theorem C94_others (g : GC) (hs : sizeOk g = true) (hm : mapOk g) :
    copyto_vec_real g =
      (if g.ty = .VECTOR then gather onlyReal (toCopy g) else gather fitReal (toCopy g)) ∧
    copyto_vec_complex g =
      (if g.ty = .VECTOR then gather onlyComplex (toCopy g) else gather fitComplex (toCopy g)) ∧
    copyto_vec_string g =
      (if g.ty = .STRING ∨ g.ty = .VEC_STRING ∨ g.ty = .VECTOR then gather onlyText (elems g) else .throw) := by
  refine ⟨?_, ?_, ?_⟩
  · rw [← bind_map_id (copyto_vec_real g)]
    refine copyToVec_gather _ _ _ _ _ g hs hm ?_ ?_ ?_
    · intro x hx
      rw [bind_ok_id]
      cases x <;> first
        | rfl
        | (rename_i c; simp only [copyReal, fitReal, tiny_eq]; done)
        | simp [isNumber] at hx
    · intro x hx; cases x <;> first | rfl | simp [isNumber] at hx
    · intro x; rw [bind_ok_id]; cases x <;> rfl
  · rw [← bind_map_id (copyto_vec_complex g)]
    refine copyToVec_gather _ _ _ _ _ g hs hm ?_ ?_ ?_
    · intro x hx
      rw [bind_ok_id]
      cases x <;> first
        | rfl
        | simp [isNumber] at hx
    · intro x hx; cases x <;> first | rfl | simp [isNumber] at hx
    · intro x; rw [bind_ok_id]; cases x <;> rfl
  · have many : ∀ v : List Bytes, gather onlyText (v.map string) = .ok v := by
      intro v
      induction v with
      | nil => rfl
      | cons x r ih => rw [List.map_cons, gather, ih]; rfl
    cases g with
    | string s => rfl
    | vecString v =>
      rw [if_pos (.inr (.inl rfl)), elems, many, copyto_vec_string, u32_of_lt (of_decide_eq_true hs), copyL_eq (by simp)]
    | vector v =>
      rw [if_pos (.inr (.inr rfl)), elems, copyto_vec_string, u32_of_lt (of_decide_eq_true hs), List.take_length,
        ← bind_map_id (convLoop _ _)]
      have := convLoop_gather get_string_c id id onlyText v (fun x _ => by rw [bind_ok_id]; cases x <;> rfl)
      simpa using this
    | _ => rw [if_neg (by simp [GC.ty])]; rfl

example : copyto_vec_int (vector [long 4294967297, real ⟨0x3FF8000000000000⟩]) = .throw ∧
    copyto_vec_real (vecComplex [⟨.zero, .zero⟩]) = .ok [.zero] ∧ sizeOk (vector [long 1]) = true ∧ mapOk (vector [long 1]) := by
  refine ⟨by decide +kernel, by decide +kernel, rfl, ?_⟩
  intro m h; simp at h

/-! ## Matrices -/

theorem convLoop_length {α β : Type} (f : α → Out β) : ∀ (v : List α) (w : List β), convLoop f v = .ok w →
    w.length = v.length
  | [], w, h => by simp [convLoop] at h; subst h; rfl
  | x :: r, w, h => by
    rw [convLoop] at h
    cases h1 : f x with
    | ok y =>
      rw [h1, Out.bind] at h
      cases h2 : convLoop f r with
      | ok l =>
        rw [h2, Out.bind] at h
        simp at h; subst h
        simp [convLoop_length f r l h2]
      | _ => rw [h2] at h; simp [Out.bind] at h
    | _ => rw [h1] at h; simp [Out.bind] at h

theorem copyToVec_length {α : Type} (sc el : GC → Out α) (g : GC) (hs : sizeOk g = true) (hm : mapOk g) (w : List α)
    (h : copyToVec sc el g = .ok w) : w.length = counted g := by
  cases g with
  | notype => simp [copyToVec] at h; subst h; rfl
  | pointer p => simp [copyToVec] at h
  | string p => simp [copyToVec] at h
  | map m =>
    rw [copyToVec, u32_of_lt (hm m rfl)] at h
    cases m with
    | nil => simp at h; subst h; rfl
    | cons e r => simp at h
  | vecPointer v =>
    rw [copyToVec, u32_of_lt (of_decide_eq_true hs)] at h
    cases v with
    | nil => simp at h; subst h; rfl
    | cons e r => simp at h
  | vecString v =>
    rw [copyToVec, u32_of_lt (of_decide_eq_true hs)] at h
    cases v with
    | nil => simp at h; subst h; rfl
    | cons e r => simp at h
  | vector v =>
    rw [copyToVec, u32_of_lt (of_decide_eq_true hs), List.take_length] at h
    rw [convLoop_length _ _ _ h]; rfl
  | vecBool v | vecInt v | vecLong v | vecReal v | vecComplex v =>
    rw [copyToVec, u32_of_lt (of_decide_eq_true hs), List.take_length] at h
    rw [convLoop_length _ _ _ h]; simp [counted, elems]
  | matInt v | matLong v | matReal v | matComplex v =>
    rw [copyToVec, u32_of_lt (mat_short hs), List.take_length] at h
    rw [convLoop_length _ _ _ h]; simp [counted, elems]
  | bool b | int b | long b | real b | complex b =>
    rw [copyToVec] at h
    rw [convLoop_length _ _ _ h]; rfl

theorem num_elements_counted (g : GC) (hs : sizeOk g = true) (hm : mapOk g) : g.get_num_elements = counted g := by
  by_cases h : g.ty = .MAP
  · cases g with
    | map m => simp only [get_num_elements, counted]; exact u32_of_lt (hm m rfl)
    | _ => simp [GC.ty] at h
  · rw [num_elements_elems g hs h]
    cases g <;> first | rfl | exact absurd rfl h

theorem fillCols_gather {β : Type} (conv : GC → Out (List β)) (nr nc : Nat) (hlt : nr * nc < 2 ^ 32) :
    ∀ (v : List GC) (j : Nat) (dn rest : List β),
    j + v.length = nc → dn.length = j * nr → rest.length = v.length * nr →
    (∀ x ∈ v, ∀ w, conv x = .ok w → w.length = nr) →
    fillCols conv nr ⟨nr, nc, dn ++ rest⟩ j v =
      match gather conv v with
      | .ok ws => .ok ⟨nr, nc, dn ++ ws.flatten⟩
      | .throw => .throw
      | .ub => .ub
      | .diverge => .diverge
  | [], j, dn, rest, _, _, h3, _ => by
    have h5 : rest = [] := List.eq_nil_of_length_eq_zero (by simpa using h3)
    simp [fillCols, gather, h5]
  | x :: v, j, dn, rest, h1, h2, h3, h4 => by
    cases hc : conv x with
    | ok w =>
      have hw := h4 x (by simp) w hc
      have hj : (j + 1) * nr ≤ nc * nr := Nat.mul_le_mul_right _ (by simp at h1; omega)
      have h3' : rest.length = v.length * nr + nr := by rw [h3, List.length_cons, Nat.succ_mul]
      have hf := fillCol_ok nr nc j w hw (by rw [Nat.mul_comm nc nr] at hj; omega) nr 0 dn rest
        (by omega) (by omega) (by omega)
      rw [fillCols, hc, Out.bind, hf, Out.bind, List.drop_zero]
      rw [fillCols_gather conv nr nc hlt v (j + 1) (dn ++ w) (rest.drop nr) (by simp at h1; omega)
        (by rw [List.length_append, hw, h2, Nat.succ_mul]) (by rw [List.length_drop, h3']; omega)
        (fun y hy => h4 y (by simp [hy]))]
      rw [gather, hc]
      cases gather conv v <;> simp
    | _ => rw [fillCols, hc, Out.bind, gather, hc]

theorem columns_columnsOf {β : Type} (d : β) (conv : GC → Out (List β)) (v : List GC) (hv : v.length < 2 ^ 32)
    (hn : ∀ x ∈ v, sizeOk x = true ∧ mapOk x ∧ counted x * v.length < 2 ^ 32)
    (hc : ∀ x ∈ v, ∀ w, conv x = .ok w → w.length = counted x) :
    columns d conv v = columnsOf conv v := by
  unfold columns columnsOf
  rw [u32_of_lt hv, List.take_length]
  cases v with
  | nil => rfl
  | cons x r =>
    obtain ⟨hx1, hx2, hx3⟩ := hn x (by simp)
    have ex := num_elements_counted x hx1 hx2
    simp only [ex]
    by_cases h : ∀ y ∈ r, counted y = counted x
    · rw [if_pos h, if_pos]
      · have e : (Mat.make d (counted x) (r.length + 1)) =
            ⟨counted x, r.length + 1, [] ++ List.replicate ((r.length + 1) * counted x) d⟩ := by
          rw [Mat.make, u32_of_lt (by simpa using hx3), Nat.mul_comm]; rfl
        rw [e, fillCols_gather conv (counted x) (r.length + 1) (by simpa using hx3) (x :: r) 0 [] _
          (by simp) (by simp) (by simp)]
        · cases gather conv (x :: r) <;> simp
        · intro y hy w hw
          rw [hc y hy w hw]
          rcases List.mem_cons.1 hy with rfl | hy
          · rfl
          · exact h y hy
      · rw [List.all_eq_true]
        intro y hy
        obtain ⟨h1, h2, _⟩ := hn y (by simp [hy])
        rw [num_elements_counted y h1 h2, h y hy]; simp
    · rw [if_neg h, if_neg]
      rw [List.all_eq_true]
      intro h'
      refine h fun y hy => ?_
      obtain ⟨h1, h2, _⟩ := hn y (by simp [hy])
      have := h' y hy
      rw [num_elements_counted y h1 h2] at this
      simpa using this

theorem mvec {α β : Type} (d : β) (up : α → GC) (f : α → β) (conv : GC → β) (t : Ty) (ht : t ≠ .VEC_BOOL) (v : List α)
    (h : v.length < 2 ^ 32) (hf : ∀ x, conv (up x) = f x) :
    copyN (v.map f) v.length (.make d (u32 v.length) 1) =
      if v.map up = [] ∧ t ≠ .VEC_BOOL then .ub else .ok ⟨(v.map up).length, 1, (v.map up).map conv⟩ := by
  cases v with
  | nil => rw [if_pos ⟨rfl, ht⟩]; rfl
  | cons x r =>
    rw [if_neg (by simp), map_same (x :: r) up conv f hf, List.length_map]
    have := copyN_column d (w := (x :: r).map f) (by simpa using h) (by simp)
    rwa [List.length_map] at this

theorem mvec_id {α : Type} (d : α) (up : α → GC) (conv : GC → α) (t : Ty) (ht : t ≠ .VEC_BOOL) (v : List α)
    (h : v.length < 2 ^ 32) (hf : ∀ x, conv (up x) = x) :
    copyN v v.length (.make d (u32 v.length) 1) =
      if v.map up = [] ∧ t ≠ .VEC_BOOL then .ub else .ok ⟨(v.map up).length, 1, (v.map up).map conv⟩ := by
  have := mvec d up id conv t ht v h hf
  rwa [List.map_id] at this

theorem mmat {α β : Type} (d : β) (up : α → GC) (f : α → β) (conv : GC → β) (t : Ty) (ht : t ≠ .VEC_BOOL) (m : Mat α)
    (h : m.wf = true) (hf : ∀ x, conv (up x) = f x) :
    copyMat d f m =
      if m.data.map up = [] ∧ t ≠ .VEC_BOOL then .ub else .ok ⟨m.nr, m.nc, (m.data.map up).map conv⟩ := by
  by_cases h0 : m.data = []
  · rw [if_pos ⟨by rw [h0]; rfl, ht⟩, copyMat, if_pos h0]
  · rw [if_neg (by simp [h0]), map_same m.data up conv f hf, copyMat_ok d f h h0]

theorem mbool {β : Type} (d : β) (f : Bool → β) (conv : GC → β) (v : List Bool) (h : v.length < 2 ^ 32)
    (hf : ∀ x, conv (bool x) = f x) :
    copyColumn (.make d (u32 v.length) 1) 0 (v.map f) =
      if v.map bool = [] ∧ Ty.VEC_BOOL ≠ .VEC_BOOL then .ub
      else .ok ⟨(v.map bool).length, 1, (v.map bool).map conv⟩ := by
  rw [if_neg (by simp), map_same v bool conv f hf, copyColumn_map d f h, List.length_map]

/-- **C94**, `copyto_mat_*` on every content. -/
theorem C94_matrix (g : GC) (hs : sizeOk g = true) (hc : columnsFit g) :
    copyto_mat_int g = matrixOutcome .MAT_INTEGER asInt copyto_vec_int g ∧
    copyto_mat_long g = matrixOutcome .MAT_LONG asLong copyto_vec_long g ∧
    copyto_mat_real g = matrixOutcome .MAT_REAL asReal copyto_vec_real g ∧
    copyto_mat_complex g = matrixOutcome .MAT_COMPLEX asComplex copyto_vec_complex g := by
  cases g with
  | vector v =>
    have hv : v.length < 2 ^ 32 := of_decide_eq_true hs
    have hh := hc v rfl
    exact ⟨columns_columnsOf _ _ v hv hh (fun x hx w hw => copyToVec_length _ _ x (hh x hx).1 (hh x hx).2.1 w hw),
      columns_columnsOf _ _ v hv hh (fun x hx w hw => copyToVec_length _ _ x (hh x hx).1 (hh x hx).2.1 w hw),
      columns_columnsOf _ _ v hv hh (fun x hx w hw => copyToVec_length _ _ x (hh x hx).1 (hh x hx).2.1 w hw),
      columns_columnsOf _ _ v hv hh (fun x hx w hw => copyToVec_length _ _ x (hh x hx).1 (hh x hx).2.1 w hw)⟩
  | _ =>
    refine ⟨?_, ?_, ?_, ?_⟩ <;> first
      | rfl
      | exact mbool _ _ _ _ (of_decide_eq_true hs) (fun _ => rfl)
      | exact mvec_id _ _ _ (vecInt []).ty (by decide) _ (of_decide_eq_true hs) (fun _ => rfl)
      | exact mvec_id _ _ _ (vecLong []).ty (by decide) _ (of_decide_eq_true hs) (fun _ => rfl)
      | exact mvec_id _ _ _ (vecReal []).ty (by decide) _ (of_decide_eq_true hs) (fun _ => rfl)
      | exact mvec_id _ _ _ (vecComplex []).ty (by decide) _ (of_decide_eq_true hs) (fun _ => rfl)
      | exact mvec _ _ _ _ (vecInt []).ty (by decide) _ (of_decide_eq_true hs) (fun _ => rfl)
      | exact mvec _ _ _ _ (vecLong []).ty (by decide) _ (of_decide_eq_true hs) (fun _ => rfl)
      | exact mvec _ _ _ _ (vecReal []).ty (by decide) _ (of_decide_eq_true hs) (fun _ => rfl)
      | exact mmat _ _ _ _ Ty.MAT_INTEGER (by decide) _ hs (fun _ => rfl)
      | exact mmat _ _ _ _ Ty.MAT_LONG (by decide) _ hs (fun _ => rfl)
      | exact mmat _ _ _ _ Ty.MAT_REAL (by decide) _ hs (fun _ => rfl)

example : copyto_mat_int (vector [vecInt [1, 2], vecReal [.zero, .zero]]) = .ok ⟨2, 2, [1, 2, 0, 0]⟩ ∧
    copyto_mat_real (vecInt []) = .ub ∧ copyto_mat_real (vecBool []) = .ok ⟨0, 1, []⟩ ∧ columnsFit (vecInt []) := by
  refine ⟨by decide +kernel, by decide +kernel, by decide +kernel, ?_⟩
  intro v h; simp at h

end GC
end GCV
