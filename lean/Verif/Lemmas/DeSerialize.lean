import Verif.Lemmas.Serialize
import Verif.Lemmas.Copy

/-! # Lemmas about reading the serialized form back -/

namespace GCV

/-- `bs` is what memory holds from offset `p` on. -/
def At (buf : Bytes) (p : Nat) (bs : Bytes) : Prop := ∃ post, buf.drop p = bs ++ post

theorem At.left {buf p a b} (h : At buf p (a ++ b)) : At buf p a := by
  obtain ⟨post, h⟩ := h
  exact ⟨b ++ post, by rw [h, List.append_assoc]⟩

theorem At.right {buf p a b} (h : At buf p (a ++ b)) : At buf (p + a.length) b := by
  obtain ⟨post, h⟩ := h
  refine ⟨post, ?_⟩
  rw [← List.drop_drop, h, List.append_assoc, List.drop_left]

namespace Rd

theorem bytesAt_eq {buf : Bytes} : ∀ (bs : Bytes) (p : Nat), At buf p bs →
    bytesAt buf bs.length p = .ok bs
  | [], p, _ => rfl
  | b :: r, p, h => by
    have hb : buf[p]? = some b := by
      obtain ⟨post, h⟩ := h
      have := congrArg (·[0]?) h
      simpa using this
    have hr : At buf (p + 1) r := At.right (a := [b]) h
    simp only [List.length_cons, bytesAt, byteAt, Int.toNat_natCast, hb]
    rw [if_pos (Int.natCast_nonneg p), Out.bind_ok, show ((p : Int) + 1) = ((p + 1 : Nat) : Int) by omega,
      bytesAt_eq r (p + 1) hr, Out.bind_ok]

theorem get_eq {buf : Bytes} {p n x : Nat} {nb : Int} (h : At buf p (leBytes n x))
    (hx : x < 256 ^ n) : get buf n ⟨p, nb⟩ = .ok (x, ⟨(p + n : Nat), nb + n⟩) := by
  have := bytesAt_eq _ p h
  rw [length_leBytes] at this
  simp only [get, this, Out.bind_ok, leValue_le_of_lt hx]
  congr 3

theorem cstrAt_cut {buf : Bytes} {p : Nat} {s : Bytes} (h : At buf p (s ++ [0])) :
    cstrAt buf p = .ok (GC.beforeNul s) := by
  obtain ⟨post, h⟩ := h
  unfold cstrAt
  rw [if_pos (Int.natCast_nonneg p)]
  simp only [Int.toNat_natCast, h]
  rw [if_pos (by simp)]
  congr 1
  clear h
  unfold GC.beforeNul
  induction s with
  | nil => simp
  | cons x r ih =>
    rw [List.cons_append, List.cons_append, List.takeWhile_cons, List.takeWhile_cons, ih]

theorem beforeNul_eq {s : Bytes} (hs : noNul s = true) : GC.beforeNul s = s := cstr_of_noNul hs

theorem cstrAt_eq {buf : Bytes} {p : Nat} {s : Bytes} (hs : noNul s = true)
    (h : At buf p (s ++ [0])) : cstrAt buf p = .ok s := by
  rw [cstrAt_cut h, beforeNul_eq hs]

theorem getStr_cut {buf : Bytes} {p : Nat} {s : Bytes} {nb : Nat}
    (h : At buf p (encStr s)) (hb : nb + (encStr s).length < 2 ^ 31) :
    getStr buf ⟨p, nb⟩ =
      .ok (GC.beforeNul s, ⟨(p + (encStr s).length : Nat), (nb + (encStr s).length : Nat)⟩) := by
  rw [length_encStr] at hb ⊢
  have h1 := h.left
  have h2 := h.right
  rw [length_leBytes] at h2
  unfold getStr
  rw [get_eq h1 (by omega), Out.bind_ok]
  simp only []
  rw [cstrAt_cut h2, Out.bind_ok, toI32_of_lt (by omega),
    show ((nb : Int) + (4 : Nat)) = ((nb + 4 : Nat) : Int) by omega, addI32_of_lt (by omega),
    Out.bind_ok]
  congr 3 <;> omega

theorem getStr_eq {buf : Bytes} {p : Nat} {s : Bytes} {nb : Nat} (hs : noNul s = true)
    (h : At buf p (encStr s)) (hb : nb + (encStr s).length < 2 ^ 31) :
    getStr buf ⟨p, nb⟩ =
      .ok (s, ⟨(p + (encStr s).length : Nat), (nb + (encStr s).length : Nat)⟩) := by
  rw [getStr_cut h hb, beforeNul_eq hs]

theorem each_map {α β : Type} {buf : Bytes} {B : Nat} {f : Rd → Out (β × Rd)} {e : α → Bytes} {o : α → β} :
    ∀ (v : List α),
    (∀ x ∈ v, ∀ p nb : Nat, At buf p (e x) → nb + (e x).length ≤ B →
      f ⟨p, nb⟩ = .ok (o x, ⟨(p + (e x).length : Nat), (nb + (e x).length : Nat)⟩)) →
    ∀ p nb : Nat, At buf p (v.flatMap e) → nb + (v.flatMap e).length ≤ B →
    each f v.length ⟨p, nb⟩ =
      .ok (v.map o, ⟨(p + (v.flatMap e).length : Nat), (nb + (v.flatMap e).length : Nat)⟩)
  | [], _, p, nb, _, _ => rfl
  | x :: r, hf, p, nb, h, hb => by
    simp only [List.flatMap_cons, List.length_append] at h hb ⊢
    simp only [List.length_cons, each]
    rw [hf x (.head _) p nb h.left (by omega), Out.bind_ok]
    simp only []
    rw [each_map r (fun y hy => hf y (.tail _ hy)) _ _ h.right (by omega), Out.bind_ok]
    simp only [Nat.add_assoc, List.map_cons]

theorem each_eq {α : Type} {buf : Bytes} {B : Nat} {f : Rd → Out (α × Rd)} {e : α → Bytes}
    (v : List α)
    (hf : ∀ x ∈ v, ∀ p nb : Nat, At buf p (e x) → nb + (e x).length ≤ B →
      f ⟨p, nb⟩ = .ok (x, ⟨(p + (e x).length : Nat), (nb + (e x).length : Nat)⟩))
    (p nb : Nat) (h : At buf p (v.flatMap e)) (hb : nb + (v.flatMap e).length ≤ B) :
    each f v.length ⟨p, nb⟩ =
      .ok (v, ⟨(p + (v.flatMap e).length : Nat), (nb + (v.flatMap e).length : Nat)⟩) := by
  have := each_map (o := id) v hf p nb h hb
  simpa using this

theorem getF64_eq {buf : Bytes} {p nb : Nat} {x : F64} (h : At buf p (leBytes 8 x.bits.toNat)) :
    getF64 buf ⟨p, nb⟩ = .ok (x, ⟨(p + 8 : Nat), (nb + 8 : Nat)⟩) := by
  unfold getF64
  rw [get_eq h x.bits.isLt, Out.bind_ok]
  simp

theorem getCplx_eq {buf : Bytes} {p nb : Nat} {c : Cplx} (h : At buf p (encCplx c)) :
    getCplx buf ⟨p, nb⟩ = .ok (c, ⟨(p + 16 : Nat), (nb + 16 : Nat)⟩) := by
  unfold getCplx
  have h2 := h.right
  rw [length_leBytes] at h2
  rw [getF64_eq h.left, Out.bind_ok]
  simp only []
  rw [getF64_eq h2, Out.bind_ok]

end Rd

theorem ofCode_code (t : Ty) : Ty.ofCode t.code = some t := by cases t <;> rfl

theorem code_lt (t : Ty) : t.code < 256 ^ 4 := by cases t <;> decide

theorem foldl_mset (m : Entries) (acc : Entries) (h : KeysSorted (acc ++ m)) :
    m.foldl (fun m e => mset e.1 e.2 m) acc = acc ++ m := by
  induction m generalizing acc with
  | nil => simp
  | cons e r ih =>
    simp only [List.foldl_cons]
    have h1 : ∀ e' ∈ acc, strLT e'.1 e.1 := by
      intro e' he'
      exact (List.pairwise_append.1 h).2.2 e' he' e (by simp)
    rw [mset_append h1, ih _ (by simpa using h)]
    simp

theorem length_le_flatMap {α : Type} (e : α → Bytes) (h : ∀ x, 1 ≤ (e x).length) :
    ∀ v : List α, v.length ≤ (v.flatMap e).length
  | [] => by simp
  | x :: r => by
    have := length_le_flatMap e h r
    have := h x
    simp only [List.flatMap_cons, List.length_append, List.length_cons]; omega

namespace GC

theorem depth_le_of_mem {x : GC} : ∀ {v : List GC}, x ∈ v → depth x ≤ depthL v
  | y :: r, h => by
    rw [depthL]
    rcases List.mem_cons.1 h with rfl | h
    · omega
    · have := depth_le_of_mem h; omega

theorem depth_le_of_memM {e : Bytes × GC} : ∀ {m : Entries}, e ∈ m → depth e.2 ≤ depthM m
  | (k, y) :: r, h => by
    rw [depthM]
    rcases List.mem_cons.1 h with rfl | h
    · simp only; omega
    · have := depth_le_of_memM h; omega

theorem enc_pos (x : GC) : 1 ≤ (enc x).length := by
  cases x <;> simp only [enc, List.length_append, length_leBytes] <;> omega

theorem cutNulL_map : ∀ v : List GC, cutNulL v = v.map cutNul
  | [] => rfl
  | x :: r => by rw [cutNulL, cutNulL_map r, List.map_cons]

theorem cutNulM_map : ∀ m : Entries, cutNulM m = m.map fun e => (beforeNul e.1, cutNul e.2)
  | [] => rfl
  | (k, x) :: r => by rw [cutNulM, cutNulM_map r, List.map_cons]

/-- Statement of the round trip for one tree. -/
def Reads (g : GC) : Prop :=
  NoPtrNoMatC g → WF g → ∀ (buf : Bytes) (fuel p : Nat) (dim : Int), depth g < fuel →
    At buf p (enc g) → (enc g).length < 2 ^ 31 → (enc g).length ≤ dim →
    de_ser buf fuel dim p = .ok (cutNul g, ((enc g).length : Int))

theorem reads_cut : (∀ g, Reads g) := by
  refine (GC.induct (P := Reads) (PL := fun v => ∀ x ∈ v, Reads x)
    (PM := fun m => ∀ e ∈ m, Reads e.2) ?_ ?_ ?_ ?_ ?_ ?_ ?_).1
  · intro g hv hm hs hw buf fuel p dim hfuel hat hlen hdim
    obtain ⟨fuel, rfl⟩ : ∃ f, fuel = f + 1 := ⟨fuel - 1, by omega⟩
    have hs : bytesNode g = true := by
      cases g <;> simp [NoPtrNoMatC, every] at hs <;> try exact hs
      · exact absurd rfl (hv _)
      · exact absurd rfl (hm _)
    have tag : ∀ (t : Ty) (b : Bytes), At buf p (leBytes 4 t.code ++ b) →
        Rd.get buf 4 ⟨p, 0⟩ = .ok (t.code, ⟨(p + 4 : Nat), (4 : Nat)⟩) ∧ At buf (p + 4) b := by
      intro t b h
      have h2 := h.right
      rw [length_leBytes] at h2
      exact ⟨by rw [Rd.get_eq h.left (code_lt t)]; simp, h2⟩
    have g32 : ∀ (q nb x : Nat) (b : Bytes), At buf q (leBytes 4 x ++ b) → x < 2 ^ 32 →
        Rd.get buf 4 ⟨q, nb⟩ = .ok (x, ⟨(q + 4 : Nat), (nb + 4 : Nat)⟩) ∧ At buf (q + 4) b := by
      intro q nb x b h hx
      have h2 := h.right
      rw [length_leBytes] at h2
      exact ⟨by rw [Rd.get_eq h.left (by omega)]; simp, h2⟩
    have i32 : ∀ (x : I32) (p nb : Nat), At buf p (leBytes 4 x.toNat) →
        nb + (leBytes 4 x.toNat).length ≤ 2 ^ 31 →
        ((Rd.get buf 4 ⟨p, nb⟩).bind fun y => .ok (BitVec.ofNat 32 y.1, y.2)) =
        .ok (x, (⟨(p + (leBytes 4 x.toNat).length : Nat),
          (nb + (leBytes 4 x.toNat).length : Nat)⟩ : Rd)) := by
      intro x p nb h _
      rw [Rd.get_eq h x.isLt, Out.bind_ok]; simp [length_leBytes]
    have i64 : ∀ (x : I64) (p nb : Nat), At buf p (leBytes 8 x.toNat) →
        nb + (leBytes 8 x.toNat).length ≤ 2 ^ 31 →
        ((Rd.get buf 8 ⟨p, nb⟩).bind fun y => .ok (BitVec.ofNat 64 y.1, y.2)) =
        .ok (x, (⟨(p + (leBytes 8 x.toNat).length : Nat),
          (nb + (leBytes 8 x.toNat).length : Nat)⟩ : Rd)) := by
      intro x p nb h _
      rw [Rd.get_eq h x.isLt, Out.bind_ok]; simp [length_leBytes]
    have b8 : ∀ (x : Bool) (p nb : Nat), At buf p (encBool x) →
        nb + (encBool x).length ≤ 2 ^ 31 →
        ((Rd.get buf 1 ⟨p, nb⟩).bind fun y => .ok (decide (0 < y.1), y.2)) =
        .ok (x, (⟨(p + (encBool x).length : Nat), (nb + (encBool x).length : Nat)⟩ : Rd)) := by
      intro x p nb h _
      have h' : At buf p (leBytes 1 (if x then 1 else 0)) := by
        cases x <;> exact h
      rw [Rd.get_eq h' (by cases x <;> decide), Out.bind_ok]
      cases x <;> simp [encBool]
    have f64 : ∀ (x : F64) (p nb : Nat), At buf p (leBytes 8 x.bits.toNat) →
        nb + (leBytes 8 x.bits.toNat).length ≤ 2 ^ 31 →
        Rd.getF64 buf ⟨p, nb⟩ =
        .ok (x, (⟨(p + (leBytes 8 x.bits.toNat).length : Nat),
          (nb + (leBytes 8 x.bits.toNat).length : Nat)⟩ : Rd)) := by
      intro x p nb h _
      rw [Rd.getF64_eq h]; simp [length_leBytes]
    have c128 : ∀ (x : Cplx) (p nb : Nat), At buf p (encCplx x) →
        nb + (encCplx x).length ≤ 2 ^ 31 →
        Rd.getCplx buf ⟨p, nb⟩ =
        .ok (x, (⟨(p + (encCplx x).length : Nat), (nb + (encCplx x).length : Nat)⟩ : Rd)) := by
      intro x p nb h _
      rw [Rd.getCplx_eq h]; simp [length_leBytes, encCplx]
    cases g with
    | vector v => exact absurd rfl (hv v)
    | map m => exact absurd rfl (hm m)
    | pointer p => simp [bytesNode] at hs
    | vecPointer p => simp [bytesNode] at hs
    | matComplex p => simp [bytesNode] at hs
    | notype =>
      obtain ⟨t1, _⟩ := tag .NOTYPE [] (by simpa [enc] using hat)
      simp only [enc, length_leBytes] at hdim ⊢
      rw [cutNul.eq_def, de_ser, t1, Out.bind_ok]; simp only [ofCode_code]
      rw [if_pos hdim]
    | int i =>
      obtain ⟨t1, t2⟩ := tag .INTEGER _ (by simpa only [enc] using hat)
      simp only [enc, List.length_append, length_leBytes] at hdim ⊢
      rw [cutNul.eq_def, de_ser, t1, Out.bind_ok]; simp only [ofCode_code]
      rw [Rd.get_eq t2 i.isLt, Out.bind_ok]; simp only []
      rw [if_pos (by omega)]; simp
    | long i =>
      obtain ⟨t1, t2⟩ := tag .LONG _ (by simpa only [enc] using hat)
      simp only [enc, List.length_append, length_leBytes] at hdim ⊢
      rw [cutNul.eq_def, de_ser, t1, Out.bind_ok]; simp only [ofCode_code]
      rw [Rd.get_eq t2 i.isLt, Out.bind_ok]; simp only []
      rw [if_pos (by omega)]; simp
    | bool b =>
      obtain ⟨t1, t2⟩ := tag .BOOL _ (by simpa only [enc] using hat)
      simp only [enc, List.length_append, length_leBytes] at hdim ⊢
      rw [cutNul.eq_def, de_ser, t1, Out.bind_ok]; simp only [ofCode_code]
      have h' : At buf (p + 4) (leBytes 1 (if b then 1 else 0)) := by
        cases b <;> exact t2
      have hl : (encBool b).length = 1 := rfl
      rw [Rd.get_eq h' (by cases b <;> decide), Out.bind_ok]; simp only []
      rw [if_pos (by omega)]; cases b <;> simp [encBool]
    | real x =>
      obtain ⟨t1, t2⟩ := tag .REAL _ (by simpa only [enc] using hat)
      simp only [enc, List.length_append, length_leBytes] at hdim ⊢
      rw [cutNul.eq_def, de_ser, t1, Out.bind_ok]; simp only [ofCode_code]
      rw [Rd.getF64_eq t2, Out.bind_ok]; simp only []
      rw [if_pos (by omega)]
    | complex x =>
      obtain ⟨t1, t2⟩ := tag .COMPLEX _ (by simpa only [enc] using hat)
      simp only [enc, encCplx, List.length_append, length_leBytes] at hdim ⊢
      rw [cutNul.eq_def, de_ser, t1, Out.bind_ok]; simp only [ofCode_code]
      rw [Rd.getCplx_eq t2, Out.bind_ok]; simp only []
      rw [if_pos (by omega)]
    | string x =>
      obtain ⟨t1, t2⟩ := tag .STRING _ (by simpa only [enc] using hat)
      simp only [enc, List.length_append, length_leBytes] at hdim hlen ⊢
      rw [cutNul.eq_def, de_ser, t1, Out.bind_ok]; simp only [ofCode_code]
      rw [Rd.getStr_cut t2 (by omega), Out.bind_ok]; simp only []
      rw [if_pos (by omega)]
    | vecBool v =>
      obtain ⟨t1, t2⟩ := tag .VEC_BOOL _ (by simpa only [enc] using hat)
      simp only [enc, List.length_append, length_leBytes] at hdim hlen ⊢
      have hc := length_flatMap_const encBool 1 (fun _ => rfl) v
      obtain ⟨t3, t4⟩ := g32 _ 4 _ _ t2 (by omega)
      rw [cutNul.eq_def, de_ser, t1, Out.bind_ok]; simp only [ofCode_code]
      rw [t3, Out.bind_ok]; simp only []
      rw [toI32_of_lt (by omega), if_neg (by omega),
        Rd.each_eq (B := 2 ^ 31) v (fun x _ => b8 x) _ _ t4 (by omega), Out.bind_ok]
      simp only []
      rw [if_pos (by omega)]
      congr 2; omega
    | vecInt v =>
      obtain ⟨t1, t2⟩ := tag .VEC_INTEGER _ (by simpa only [enc] using hat)
      simp only [enc, List.length_append, length_leBytes] at hdim hlen ⊢
      have hc := length_flatMap_const (fun p : I32 => leBytes 4 p.toNat) 4
        (fun _ => by first | exact length_leBytes _ _ | simp [length_leBytes, encCplx]) v
      obtain ⟨t3, t4⟩ := g32 _ 4 _ _ t2 (by omega)
      rw [cutNul.eq_def, de_ser, t1, Out.bind_ok]; simp only [ofCode_code]
      rw [t3, Out.bind_ok]; simp only []
      rw [Rd.each_eq (B := 2 ^ 31) v (fun x _ => i32 x) _ _ t4 (by omega), Out.bind_ok]
      simp only []
      rw [if_pos (by omega)]
      congr 2; omega
    | vecLong v =>
      obtain ⟨t1, t2⟩ := tag .VEC_LONG _ (by simpa only [enc] using hat)
      simp only [enc, List.length_append, length_leBytes] at hdim hlen ⊢
      have hc := length_flatMap_const (fun p : I64 => leBytes 8 p.toNat) 8
        (fun _ => by first | exact length_leBytes _ _ | simp [length_leBytes, encCplx]) v
      obtain ⟨t3, t4⟩ := g32 _ 4 _ _ t2 (by omega)
      rw [cutNul.eq_def, de_ser, t1, Out.bind_ok]; simp only [ofCode_code]
      rw [t3, Out.bind_ok]; simp only []
      rw [Rd.each_eq (B := 2 ^ 31) v (fun x _ => i64 x) _ _ t4 (by omega), Out.bind_ok]
      simp only []
      rw [if_pos (by omega)]
      congr 2; omega
    | vecReal v =>
      obtain ⟨t1, t2⟩ := tag .VEC_REAL _ (by simpa only [enc] using hat)
      simp only [enc, List.length_append, length_leBytes] at hdim hlen ⊢
      have hc := length_flatMap_const (fun p : F64 => leBytes 8 p.bits.toNat) 8
        (fun _ => by first | exact length_leBytes _ _ | simp [length_leBytes, encCplx]) v
      obtain ⟨t3, t4⟩ := g32 _ 4 _ _ t2 (by omega)
      rw [cutNul.eq_def, de_ser, t1, Out.bind_ok]; simp only [ofCode_code]
      rw [t3, Out.bind_ok]; simp only []
      rw [Rd.each_eq (B := 2 ^ 31) v (fun x _ => f64 x) _ _ t4 (by omega), Out.bind_ok]
      simp only []
      rw [if_pos (by omega)]
      congr 2; omega
    | vecComplex v =>
      obtain ⟨t1, t2⟩ := tag .VEC_COMPLEX _ (by simpa only [enc] using hat)
      simp only [enc, List.length_append, length_leBytes] at hdim hlen ⊢
      have hc := length_flatMap_const encCplx 16
        (fun _ => by first | exact length_leBytes _ _ | simp [length_leBytes, encCplx]) v
      obtain ⟨t3, t4⟩ := g32 _ 4 _ _ t2 (by omega)
      rw [cutNul.eq_def, de_ser, t1, Out.bind_ok]; simp only [ofCode_code]
      rw [t3, Out.bind_ok]; simp only []
      rw [Rd.each_eq (B := 2 ^ 31) v (fun x _ => c128 x) _ _ t4 (by omega), Out.bind_ok]
      simp only []
      rw [if_pos (by omega)]
      congr 2; omega
    | vecString v =>
      obtain ⟨t1, t2⟩ := tag .VEC_STRING _ (by simpa only [enc] using hat)
      simp only [enc, List.length_append, length_leBytes] at hdim hlen ⊢
      have hc := length_le_flatMap encStr (fun s => by rw [length_encStr]; omega) v
      obtain ⟨t3, t4⟩ := g32 _ 4 _ _ t2 (by omega)
      rw [cutNul.eq_def, de_ser, t1, Out.bind_ok]; simp only [ofCode_code]
      rw [t3, Out.bind_ok]; simp only []
      rw [Rd.each_map (B := 2 ^ 31 - 1) (o := beforeNul) v
        (fun x hx p nb h1 h2 => Rd.getStr_cut h1 (by omega)) _ _ t4 (by omega), Out.bind_ok]
      simp only []
      rw [if_pos (by omega)]
      congr 2; omega
    | matInt m =>
      simp [WF, Mat.wf] at hw
      obtain ⟨t1, t2⟩ := tag .MAT_INTEGER _ (by simpa only [enc] using hat)
      simp only [enc, List.length_append, length_leBytes] at hdim hlen ⊢
      obtain ⟨t3, t4⟩ := g32 _ 4 _ _ t2 (by omega)
      obtain ⟨t5, t6⟩ := g32 _ 8 _ _ t4 (by omega)
      rw [cutNul.eq_def, de_ser, t1, Out.bind_ok]; simp only [ofCode_code]
      rw [t3, Out.bind_ok]; simp only []
      rw [t5, Out.bind_ok]; simp only []
      rw [u32, ← hw.2, Rd.each_eq (B := 2 ^ 31) m.data (fun x _ => i32 x) _ _ t6 (by omega),
        Out.bind_ok]
      simp only []
      rw [if_pos (by omega)]
      congr 2; omega
    | matLong m =>
      simp [WF, Mat.wf] at hw
      obtain ⟨t1, t2⟩ := tag .MAT_LONG _ (by simpa only [enc] using hat)
      simp only [enc, List.length_append, length_leBytes] at hdim hlen ⊢
      obtain ⟨t3, t4⟩ := g32 _ 4 _ _ t2 (by omega)
      obtain ⟨t5, t6⟩ := g32 _ 8 _ _ t4 (by omega)
      rw [cutNul.eq_def, de_ser, t1, Out.bind_ok]; simp only [ofCode_code]
      rw [t3, Out.bind_ok]; simp only []
      rw [t5, Out.bind_ok]; simp only []
      rw [u32, ← hw.2, Rd.each_eq (B := 2 ^ 31) m.data (fun x _ => i64 x) _ _ t6 (by omega),
        Out.bind_ok]
      simp only []
      rw [if_pos (by omega)]
      congr 2; omega
    | matReal m =>
      simp [WF, Mat.wf] at hw
      obtain ⟨t1, t2⟩ := tag .MAT_REAL _ (by simpa only [enc] using hat)
      simp only [enc, List.length_append, length_leBytes] at hdim hlen ⊢
      obtain ⟨t3, t4⟩ := g32 _ 4 _ _ t2 (by omega)
      obtain ⟨t5, t6⟩ := g32 _ 8 _ _ t4 (by omega)
      rw [cutNul.eq_def, de_ser, t1, Out.bind_ok]; simp only [ofCode_code]
      rw [t3, Out.bind_ok]; simp only []
      rw [t5, Out.bind_ok]; simp only []
      rw [u32, ← hw.2, Rd.each_eq (B := 2 ^ 31) m.data (fun x _ => f64 x) _ _ t6 (by omega),
        Out.bind_ok]
      simp only []
      rw [if_pos (by omega)]
      congr 2; omega
  · intro v ih hs hw buf fuel p dim hfuel hat hlen hdim
    obtain ⟨fuel, rfl⟩ : ∃ f, fuel = f + 1 := ⟨fuel - 1, by omega⟩
    have hs : everyL bytesNode v = true := by
      simpa [NoPtrNoMatC, every, bytesNode] using hs
    have hw := WFL_iff.1 hw
    simp only [depth] at hfuel
    simp only [enc, encL_flatMap] at hat
    simp only [enc, encL_flatMap, List.length_append, length_leBytes] at hdim hlen ⊢
    have t2 := hat.right
    have t4 := t2.right
    rw [length_leBytes] at t2 t4
    rw [length_leBytes] at t4
    have hc := length_le_flatMap enc enc_pos v
    rw [de_ser, Rd.get_eq hat.left (code_lt _), Out.bind_ok]; simp only [ofCode_code]
    rw [Rd.get_eq t2.left (by omega), Out.bind_ok]; simp only []
    have e1 : ((0 : Int) + (4 : Nat) + (4 : Nat)) = ((8 : Nat) : Int) := rfl
    rw [cutNul, cutNulL_map, e1, Rd.each_map (B := 8 + (v.flatMap enc).length) (e := enc) (o := cutNul) v ?_ _ _ t4 (by omega),
      Out.bind_ok]
    · simp only []
      rw [if_pos (by omega)]
      congr 2; omega
    · intro x hx q nb h1 h2
      have := depth_le_of_mem hx
      simp only []
      rw [ih x hx (everyL_iff.1 hs x hx) (hw x hx) buf fuel q (dim - nb) (by omega) h1 (by omega)
        (by omega), Out.bind_ok]
      simp only []
      rw [addI32_of_lt (by omega), Out.bind_ok]
      rfl
  · intro m ih hs hw buf fuel p dim hfuel hat hlen hdim
    obtain ⟨fuel, rfl⟩ : ∃ f, fuel = f + 1 := ⟨fuel - 1, by omega⟩
    have hs : everyM bytesNode m = true := by
      simpa [NoPtrNoMatC, every, bytesNode] using hs
    have hw2 := WFM_iff.1 hw.2
    simp only [depth] at hfuel
    simp only [enc, encM_flatMap] at hat
    simp only [enc, encM_flatMap, List.length_append, length_leBytes] at hdim hlen ⊢
    have t2 := hat.right
    have t4 := t2.right
    rw [length_leBytes] at t2 t4
    rw [length_leBytes] at t4
    have hc := length_le_flatMap (fun e : Bytes × GC => encStr e.1 ++ enc e.2)
      (fun e => by simp only [List.length_append]; have := enc_pos e.2; omega) m
    rw [de_ser, Rd.get_eq hat.left (code_lt _), Out.bind_ok]; simp only [ofCode_code]
    rw [Rd.get_eq t2.left (by omega), Out.bind_ok]; simp only []
    have e1 : ((0 : Int) + (4 : Nat) + (4 : Nat)) = ((8 : Nat) : Int) := rfl
    rw [cutNul, cutNulM_map, e1, toI32_of_lt (by omega), Int.toNat_natCast,
      Rd.each_map (B := 8 + (m.flatMap fun e => encStr e.1 ++ enc e.2).length)
        (e := fun e : Bytes × GC => encStr e.1 ++ enc e.2) (o := fun e => (beforeNul e.1, cutNul e.2)) m ?_ _ _ t4 (by omega), Out.bind_ok]
    · simp only []
      rw [if_pos (by omega)]
      congr 2; omega
    · intro e he q nb h1 h2
      have := depth_le_of_memM he
      simp only [List.length_append] at h2 ⊢
      rw [Rd.getStr_cut h1.left (by omega), Out.bind_ok]
      simp only []
      rw [ih e he (everyM_iff.1 hs e he) (hw2 e he) buf fuel _ _ (by omega) h1.right (by omega)
        (by omega), Out.bind_ok]
      simp only []
      rw [addI32_of_lt (by omega), Out.bind_ok]
      congr 3 <;> omega
  · simp
  · intro x xs hx hxs b hb
    rcases List.mem_cons.1 hb with rfl | hb
    · exact hx
    · exact hxs b hb
  · simp
  · intro k x xs hx hxs b hb
    rcases List.mem_cons.1 hb with rfl | hb
    · exact hx
    · exact hxs b hb

theorem cutNul_storable : (∀ g, Storable g → WF g → cutNul g = g) ∧ (∀ v, everyL storableNode v = true → WFL v → cutNulL v = v) ∧
    ∀ m, everyM storableNode m = true → WFM m → (∀ e ∈ m, noNul e.1 = true) → cutNulM m = m := by
  apply GC.induct
  · intro g hv hm hs hw
    cases g <;> try rfl
    · rw [cutNul, Rd.beforeNul_eq (by simpa [Storable, every, storableNode] using hs)]
    · next v =>
      have hs : ∀ x ∈ v, noNul x = true := by simpa [Storable, every, storableNode] using hs
      rw [cutNul]
      congr 1
      conv => rhs; rw [← List.map_id v]
      exact List.map_congr_left fun x hx => Rd.beforeNul_eq (hs x hx)
    · exact absurd rfl (hv _)
    · exact absurd rfl (hm _)
  · intro v ih hs hw
    rw [cutNul, ih (by simpa [Storable, every, storableNode] using hs) hw]
  · intro m ih hs hw
    have hs : (∀ e ∈ m, noNul e.1 = true) ∧ everyM storableNode m = true := by
      simpa [Storable, every, storableNode] using hs
    rw [cutNul, ih hs.2 hw.2 hs.1, foldl_mset m [] (by simpa using hw.1)]
    rfl
  · intros; rfl
  · intro x r hx hr hs hw
    simp only [everyL, Bool.and_eq_true] at hs
    rw [cutNulL, hx hs.1 hw.1, hr hs.2 hw.2]
  · intros; rfl
  · intro k x r hx hr hs hw hk
    simp only [everyM, Bool.and_eq_true] at hs
    rw [cutNulM, hx hs.1 hw.1, hr hs.2 hw.2 fun e he => hk e (.tail _ he), Rd.beforeNul_eq (hk (k, x) (.head _))]

theorem Storable.noPtr : (∀ g, Storable g → NoPtrNoMatC g) ∧ (∀ v, everyL storableNode v = true → everyL bytesNode v = true) ∧
    ∀ m, everyM storableNode m = true → everyM bytesNode m = true := by
  apply GC.induct
  · intro g hv hm h
    cases g <;> first | rfl | exact h | skip
    · exact absurd rfl (hv _)
    · exact absurd rfl (hm _)
  · intro v ih h
    simp only [Storable, NoPtrNoMatC, every, Bool.and_eq_true] at h ⊢
    exact ⟨rfl, ih h.2⟩
  · intro m ih h
    simp only [Storable, NoPtrNoMatC, every, Bool.and_eq_true] at h ⊢
    exact ⟨rfl, ih h.2⟩
  · intros; rfl
  · intro x r hx hr h
    simp only [everyL, Bool.and_eq_true] at h ⊢
    exact ⟨hx h.1, hr h.2⟩
  · intros; rfl
  · intro k x r hx hr h
    simp only [everyM, Bool.and_eq_true] at h ⊢
    exact ⟨hx h.1, hr h.2⟩

/-- Without NUL bytes the container itself comes back. -/
theorem reads_all (g : GC) (hs : Storable g) (hw : WF g) (buf : Bytes) (fuel p : Nat) (dim : Int) (hf : depth g < fuel)
    (hat : At buf p (enc g)) (hl : (enc g).length < 2 ^ 31) (hd : (enc g).length ≤ dim) :
    de_ser buf fuel dim p = .ok (g, ((enc g).length : Int)) := by
  rw [reads_cut g (Storable.noPtr.1 g hs) hw buf fuel p dim hf hat hl hd, cutNul_storable.1 g hs hw]

end GC
end GCV
