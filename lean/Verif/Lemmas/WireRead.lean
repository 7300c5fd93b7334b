import Verif.Spec.WireRead
import Verif.Lemmas.SerializeCut

/-!
# Reading arbitrary bytes
-/

namespace GCV
namespace GC
namespace WireRead

theorem leNum_eq : ∀ b : Bytes, leValue b = leNum b
  | [] => rfl
  | x :: r => by rw [leValue, leNum_eq r]; rfl

/-- Outcome with the byte count of the record that starts at `s`. -/
def toR {α : Type} (s : Int) : Out (α × Int) → Out (α × Rd)
  | .ok (x, q) => .ok (x, ⟨q, q - s⟩)
  | .throw => .throw
  | .ub => .ub
  | .diverge => .diverge

def rel {α : Type} (s : Int) : Out (α × Int) → Out (α × Int)
  | .ok (x, q) => .ok (x, q - s)
  | .throw => .throw
  | .ub => .ub
  | .diverge => .diverge

/-- A piece and the offset after it. -/
def step {α : Type} (buf : Bytes) (k : Nat) (f : Bytes → α) (p : Int) : Out (α × Int) :=
  match piece buf p k with
  | some b => .ok (f b, p + k)
  | none => .ub

theorem bytesAt_piece {buf : Bytes} {n : Nat} (hn : 0 < n) (p : Int) :
    Rd.bytesAt buf n p = match piece buf p n with
      | some b => .ok b
      | none => .ub := by
  rw [piece]
  by_cases h0 : 0 ≤ p
  · obtain ⟨m, rfl⟩ := Int.eq_ofNat_of_zero_le h0
    rw [Int.toNat_natCast]
    by_cases h1 : m + n ≤ buf.length
    · rw [if_pos ⟨h0, h1⟩]
      have hl : ((buf.drop m).take n).length = n := by simp; omega
      have := Rd.bytesAt_eq (buf := buf) ((buf.drop m).take n) m ⟨(buf.drop m).drop n, by rw [List.take_append_drop]⟩
      rw [hl] at this
      exact this
    · rw [if_neg (fun h => h1 h.2)]
      exact Rd.bytesAt_ub n m (by omega)
  · rw [if_neg (fun h => h0 h.1)]
    obtain ⟨k, rfl⟩ := Nat.exists_eq_succ_of_ne_zero (Nat.pos_iff_ne_zero.1 hn)
    rw [Rd.bytesAt, Rd.byteAt, if_neg h0]; rfl

theorem get_step {buf : Bytes} {n : Nat} (hn : 0 < n) (s p : Int) :
    Rd.get buf n ⟨p, p - s⟩ = toR s (step buf n leNum p) := by
  rw [Rd.get, bytesAt_piece hn, step]
  cases piece buf p n with
  | none => rfl
  | some b =>
    simp only [Out.bind_ok, toR, leNum_eq]
    congr 3
    omega

theorem toI32_signed {n : Nat} (h : n < 2 ^ 32) : toI32 n = signed n := by
  rw [toI32, signed, BitVec.toInt_eq_toNat_cond, BitVec.toNat_ofNat, Nat.mod_eq_of_lt h]
  split <;> split <;> omega

theorem leNum_lt : ∀ b : Bytes, leNum b < 256 ^ b.length
  | [] => by simp [leNum]
  | x :: r => by
    have h := leNum_lt r
    have hx : x.toNat < 256 := x.isLt
    have : leNum (x :: r) = x.toNat + 256 * leNum r := rfl
    rw [this, List.length_cons, Nat.pow_succ]
    omega

theorem wordAt_lt {buf : Bytes} {p : Int} {n : Nat} (h : wordAt buf p = some n) : n < 2 ^ 32 := by
  rw [wordAt, Option.map_eq_some_iff] at h
  obtain ⟨b, hb, rfl⟩ := h
  rw [piece] at hb
  split at hb
  · rename_i h1
    injection hb with hb
    have := leNum_lt b
    rw [← hb] at this ⊢
    have hl : ((buf.drop p.toNat).take 4).length = 4 := by simp; omega
    rw [hl] at this
    omega
  · cases hb

/-- Reading a number of four bytes. -/
theorem get4 {buf : Bytes} (s p : Int) :
    Rd.get buf 4 ⟨p, p - s⟩ = match wordAt buf p with
      | some n => .ok (n, ⟨p + 4, p + 4 - s⟩)
      | none => .ub := by
  rw [get_step (by decide), step, wordAt]
  cases piece buf p 4 <;> rfl

theorem cstrAt_text {buf : Bytes} (p : Int) : Rd.cstrAt buf p = match textAt buf p with
      | some t => .ok t
      | none => .ub := by
  rw [Rd.cstrAt, textAt]
  by_cases h0 : 0 ≤ p
  · by_cases h1 : (0 : Byte) ∈ buf.drop p.toNat
    · simp only [if_pos h0, if_pos h1, if_pos (And.intro h0 h1)]; rfl
    · simp only [if_pos h0, if_neg h1, if_neg (fun h : _ ∧ _ => h1 h.2)]
  · simp only [if_neg h0, if_neg (fun h : _ ∧ _ => h0 h.1)]

theorem addI32_count (a b : Int) : addI32 a b = if inCount (a + b) then .ok (a + b) else .ub := by
  rw [addI32]; rfl

theorem getStr_text {buf : Bytes} (s p : Int) : Rd.getStr buf ⟨p, p - s⟩ = toR s (lenText buf s p) := by
  rw [Rd.getStr, get4, lenText]
  cases hn : wordAt buf p with
  | none => rfl
  | some n =>
    simp only [Out.bind_ok, cstrAt_text]
    cases textAt buf (p + 4) with
    | none => rfl
    | some t =>
      simp only [Out.bind_ok, addI32_count, toI32_signed (wordAt_lt hn)]
      rw [show p + 4 - s + signed n = p + 4 + signed n - s by omega]
      split
      · rfl
      · rfl

theorem each_chunks {α : Type} {buf : Bytes} {k : Nat} {f : Bytes → α} {s : Int} {F : Rd → Out (α × Rd)}
    (hF : ∀ p, F ⟨p, p - s⟩ = toR s (step buf k f p)) : ∀ (n : Nat) (p : Int),
    Rd.each F n ⟨p, p - s⟩ = toR s (match chunks buf k n p with
      | some bs => .ok (bs.map f, p + k * n)
      | none => .ub)
  | 0, p => by simp [Rd.each, chunks, toR]
  | n + 1, p => by
    rw [Rd.each, hF, step, chunks]
    cases piece buf p k with
    | none => rfl
    | some b =>
      simp only [toR, Out.bind_ok]
      rw [each_chunks hF n (p + k)]
      cases chunks buf k n (p + k) with
      | none => rfl
      | some bs =>
        simp only [toR, Out.bind_ok, List.map_cons]
        have : p + (k : Int) + k * n = p + k * ((n + 1 : Nat) : Int) := by
          rw [Int.natCast_add, Int.mul_add]; omega
        rw [this]

theorem each_texts {buf : Bytes} {s : Int} : ∀ (n : Nat) (p : Int),
    Rd.each (fun r => Rd.getStr buf r) n ⟨p, p - s⟩ = toR s (lenTexts buf s n p)
  | 0, p => rfl
  | n + 1, p => by
    rw [Rd.each, getStr_text, lenTexts]
    cases h : lenText buf s p with
    | ok a =>
      simp only [toR, Out.bind_ok]
      rw [each_texts n a.2]
      cases lenTexts buf s n a.2 <;> rfl
    | throw =>
      rw [lenText] at h
      split at h
      · split at h <;> cases h
      · cases h
    | ub => rfl
    | diverge =>
      rw [lenText] at h
      split at h
      · split at h <;> cases h
      · cases h

theorem piece_split {buf : Bytes} (p : Int) (a b : Nat) : piece buf p (a + b) =
    match piece buf p a, piece buf (p + a) b with
    | some x, some y => some (x ++ y)
    | _, _ => none := by
  simp only [piece]
  by_cases h0 : 0 ≤ p
  · obtain ⟨m, rfl⟩ := Int.eq_ofNat_of_zero_le h0
    have h1 : (0 : Int) ≤ (m : Int) + a := by omega
    have h2 : ((m : Int) + a).toNat = m + a := by omega
    simp only [h0, h1, h2, true_and, Int.toNat_natCast]
    by_cases hb : m + (a + b) ≤ buf.length
    · rw [if_pos hb, if_pos (by omega), if_pos (by omega)]
      simp only [List.take_add, List.drop_drop]
    · rw [if_neg hb, if_neg (show ¬ m + a + b ≤ buf.length by omega)]
      split <;> simp_all
  · rw [if_neg (fun h => h0 h.1), if_neg (fun h : _ ∧ _ => h0 h.1)]

theorem piece_length {buf : Bytes} {p : Int} {n : Nat} {b : Bytes} (h : piece buf p n = some b) : b.length = n := by
  rw [piece] at h
  split at h
  · injection h with h
    rw [← h]; simp; omega
  · cases h

theorem getF64_step {buf : Bytes} (s p : Int) : Rd.getF64 buf ⟨p, p - s⟩ = toR s (step buf 8 realOf p) := by
  rw [Rd.getF64, get_step (by decide), step, step]
  cases piece buf p 8 <;> rfl

theorem getCplx_step {buf : Bytes} (s p : Int) : Rd.getCplx buf ⟨p, p - s⟩ = toR s (step buf 16 complexOf p) := by
  have h16 := piece_split (buf := buf) p 8 8
  rw [Rd.getCplx, getF64_step, step, step]
  cases h1 : piece buf p 8 with
  | none =>
    rw [h1] at h16
    rw [show (16 : Nat) = 8 + 8 from rfl, h16]; rfl
  | some x =>
    simp only [toR, Out.bind_ok]
    rw [show ((8 : Nat) : Int) = 8 from rfl] at *
    rw [getF64_step, step]
    cases h2 : piece buf (p + 8) 8 with
    | none =>
      rw [h1, h2] at h16
      rw [show (16 : Nat) = 8 + 8 from rfl, h16]; rfl
    | some y =>
      rw [h1, h2] at h16
      rw [show (16 : Nat) = 8 + 8 from rfl, h16]
      have hx := piece_length h1
      simp only [toR, Out.bind_ok, complexOf]
      have e1 : (x ++ y).take 8 = x := by rw [← hx]; simp
      have e2 : (x ++ y).drop 8 = y := by rw [← hx]; simp
      rw [e1, e2, show p + 8 + ((8 : Nat) : Int) = p + ((8 + 8 : Nat) : Int) by omega]

theorem get_map {α : Type} {buf : Bytes} {k : Nat} (hk : 0 < k) (f : Nat → α) (s p : Int) :
    (Rd.get buf k ⟨p, p - s⟩).bind (fun (x, r) => Out.ok (f x, r)) = toR s (step buf k (fun b => f (leNum b)) p) := by
  rw [get_step hk, step, step]
  cases piece buf p k <;> rfl

/-- The end of a call. -/
def fin (dim : Int) (x : GC × Rd) : Out (GC × Int) := if x.2.nbyte ≤ dim then .ok (x.1, x.2.nbyte) else .throw

theorem fin_eq {α : Type} (lim s : Int) (f : α → GC) (o : Out (α × Int)) :
    ((toR s o).bind fun (x, r) => fin (lim - s) (f x, r)) = rel s (limited lim (changed f o)) := by
  cases o with
  | ok a =>
    simp only [toR, Out.bind_ok, changed, limited, fin]
    by_cases h : a.2 ≤ lim
    · rw [if_pos h, if_pos (by omega)]; rfl
    · rw [if_neg h, if_neg (by omega)]; rfl
  | throw => rfl
  | ub => rfl
  | diverge => rfl

theorem wordAt_none_get {buf : Bytes} (s p : Int) (h : wordAt buf p = none) : Rd.get buf 4 ⟨p, p - s⟩ = .ub := by
  rw [get4, h]

theorem wordAt_some_get {buf : Bytes} {n : Nat} (s p : Int) (h : wordAt buf p = some n) :
    Rd.get buf 4 ⟨p, p - s⟩ = .ok (n, ⟨p + 4, p + 4 - s⟩) := by
  rw [get4, h]

/-- One value after the tag. -/
theorem one_eq {α : Type} {buf : Bytes} (lim s : Int) (k : Nat) (f : Bytes → α) (h : α → GC) (q : Int) (hq : q = s + 4) :
    ((toR s (step buf k f q)).bind fun (x, r) => fin (lim - s) (h x, r)) =
      rel s (limited lim (oneValue buf s k fun b => h (f b))) := by
  subst hq
  rw [fin_eq, step, oneValue]
  cases piece buf (s + 4) k <;> rfl

/-- A count and the values after it. -/
theorem many_eq {α : Type} {buf : Bytes} (lim s : Int) (k : Nat) (f : Bytes → α) (h : List α → GC) {F : Rd → Out (α × Rd)}
    (hF : ∀ p, F ⟨p, p - s⟩ = toR s (step buf k f p)) :
    ((Rd.get buf 4 ⟨s + 4, s + 4 - s⟩).bind fun (n, r) => (Rd.each F n r).bind fun (v, r) => fin (lim - s) (h v, r)) =
      rel s (limited lim (manyValues buf s k fun b => h (b.map f))) := by
  rw [manyValues]
  cases hw : wordAt buf (s + 4) with
  | none => rw [wordAt_none_get s _ hw]; rfl
  | some n =>
    rw [wordAt_some_get s _ hw, Out.bind_ok]
    simp only [each_chunks hF]
    rw [fin_eq, show s + 4 + 4 = s + 8 by omega]
    cases chunks buf k n (s + 8) <;> rfl

/-- Rows, columns and the cells after them. -/
theorem cells_eq {α : Type} {buf : Bytes} (s : Int) (k : Nat) (f : Bytes → α) {F : Rd → Out (α × Rd)}
    (hF : ∀ p, F ⟨p, p - s⟩ = toR s (step buf k f p)) (G : Nat → Nat → List α × Rd → Out (GC × Int)) :
    ((Rd.get buf 4 ⟨s + 4, s + 4 - s⟩).bind fun (nr, r) => (r.get buf 4).bind fun (nc, r) =>
        (Rd.each F (u32 (nr * nc)) r).bind (G nr nc)) =
      (toR s (cellValues buf s k fun nr nc b => (nr, nc, b.map f))).bind fun (x, r) => G x.1 x.2.1 (x.2.2, r) := by
  rw [cellValues]
  cases hw : wordAt buf (s + 4) with
  | none => rw [wordAt_none_get s _ hw]; rfl
  | some nr =>
    rw [wordAt_some_get s _ hw, Out.bind_ok]
    simp only [show s + 4 + 4 = s + 8 by omega]
    cases hw : wordAt buf (s + 8) with
    | none => rw [wordAt_none_get s _ hw]; rfl
    | some nc =>
      rw [wordAt_some_get s _ hw, Out.bind_ok]
      simp only [show s + 8 + 4 = s + 12 by omega, each_chunks hF, u32]
      cases chunks buf k (nr * nc % 2 ^ 32) (s + 12) <;> rfl

theorem cellValues_map {α β : Type} {buf : Bytes} (s : Int) (k : Nat) (f : Nat → Nat → List Bytes → α) (h : α → β) :
    changed h (cellValues buf s k f) = cellValues buf s k fun nr nc b => h (f nr nc b) := by
  simp only [cellValues]
  split
  · split <;> rfl
  · rfl

theorem mat_eq {α : Type} {buf : Bytes} (lim s : Int) (k : Nat) (f : Bytes → α) (h : Nat → Nat → List α → GC) {F : Rd → Out (α × Rd)}
    (hF : ∀ p, F ⟨p, p - s⟩ = toR s (step buf k f p)) :
    ((Rd.get buf 4 ⟨s + 4, s + 4 - s⟩).bind fun (nr, r) => (r.get buf 4).bind fun (nc, r) =>
        (Rd.each F (u32 (nr * nc)) r).bind fun (v, r) => fin (lim - s) (h nr nc v, r)) =
      rel s (limited lim (cellValues buf s k fun nr nc b => h nr nc (b.map f))) := by
  rw [← cellValues_map s k (fun nr nc b => (nr, nc, b.map f)) (fun x => h x.1 x.2.1 x.2.2), ← fin_eq]
  exact cells_eq s k f hF fun nr nc x => fin (lim - s) (h nr nc x.1, x.2)

theorem texts_eq {buf : Bytes} (lim s p : Int) :
    ((Rd.get buf 4 ⟨p, p - s⟩).bind fun (n, r) => (Rd.each (fun r => r.getStr buf) n r).bind fun (v, r) =>
        fin (lim - s) (vecString v, r)) = rel s (limited lim (manyTexts buf s p)) := by
  rw [manyTexts]
  cases hw : wordAt buf p with
  | none => rw [wordAt_none_get s _ hw]; rfl
  | some n =>
    rw [wordAt_some_get s _ hw, Out.bind_ok]
    simp only [each_texts]
    rw [fin_eq]

/-- A record that holds no containers. -/
theorem flat_eq {buf : Bytes} (fuel : Nat) (lim s : Int) {t : Nat} (ht : wordAt buf s = some t) (h19 : t ≠ 19) (h20 : t ≠ 20) :
    de_ser buf (fuel + 1) (lim - s) s = rel s (limited lim (flatRecord buf s t)) := by
  have h0 : Rd.get buf 4 ⟨s, 0⟩ = .ok (t, ⟨s + 4, s + 4 - s⟩) := by
    have := wordAt_some_get s s ht
    rwa [show s - s = 0 by omega] at this
  rw [de_ser, h0, Out.bind_ok]
  have hno : fin (lim - s) (notype, ⟨s + 4, s + 4 - s⟩) = rel s (limited lim (.ok (notype, s + 4))) :=
    fin_eq lim s (fun _ : Unit => notype) (.ok ((), s + 4))
  by_cases hl : t < 21
  · have hc : t = 0 ∨ t = 1 ∨ t = 2 ∨ t = 3 ∨ t = 4 ∨ t = 5 ∨ t = 6 ∨ t = 7 ∨ t = 8 ∨ t = 9 ∨ t = 10 ∨ t = 11 ∨ t = 12 ∨
      t = 13 ∨ t = 14 ∨ t = 15 ∨ t = 16 ∨ t = 17 ∨ t = 18 := by omega
    rcases hc with rfl | rfl | rfl | rfl | rfl | rfl | rfl | rfl | rfl | rfl | rfl | rfl | rfl | rfl | rfl | rfl | rfl | rfl | rfl
    · exact hno
    · exact hno
    · have hb : (fun b => bool (boolOf b)) = fun b => bool (decide (0 < leNum b)) := by
        funext b; simp [boolOf, Nat.pos_iff_ne_zero]
      show _ = rel s (limited lim (oneValue buf s 1 fun b => bool (boolOf b)))
      rw [hb]
      refine Eq.trans ?_ (one_eq lim s 1 leNum (fun b => bool (decide (0 < b))) _ rfl)
      rw [← get_step (by decide)]; rfl
    · refine Eq.trans ?_ (one_eq lim s 4 leNum (fun b => int (BitVec.ofNat 32 b)) _ rfl)
      rw [← get_step (by decide)]; rfl
    · refine Eq.trans ?_ (one_eq lim s 8 leNum (fun b => long (BitVec.ofNat 64 b)) _ rfl)
      rw [← get_step (by decide)]; rfl
    · refine Eq.trans ?_ (one_eq lim s 8 realOf real _ rfl)
      rw [← getF64_step]; rfl
    · refine Eq.trans ?_ (one_eq lim s 16 complexOf complex _ rfl)
      rw [← getCplx_step]; rfl
    · refine Eq.trans ?_ (fin_eq lim s string (lenText buf s (s + 4)))
      rw [← getStr_text]; rfl
    · exact hno
    · show (Rd.get buf 4 ⟨s + 4, s + 4 - s⟩).bind _ = rel s (limited lim (match wordAt buf (s + 4) with
        | some n => if 2 ^ 31 ≤ n then .throw else manyValues buf s 1 fun b => vecBool (b.map boolOf)
        | none => .ub))
      have hm := many_eq lim s 1 boolOf vecBool
        (F := fun r => (r.get buf 1).bind fun (b, r) => .ok (decide (0 < b), r))
        (fun p => by
          refine (get_map (by decide) (fun b => decide (0 < b)) s p).trans ?_
          congr 2; funext b; simp [boolOf, Nat.pos_iff_ne_zero])
      cases hw : wordAt buf (s + 4) with
      | none => rw [wordAt_none_get s _ hw]; rfl
      | some n =>
        rw [wordAt_some_get s _ hw, Out.bind_ok] at hm ⊢
        simp only [toI32_signed (wordAt_lt hw)]
        have hl := wordAt_lt hw
        by_cases hn : 2 ^ 31 ≤ n
        · rw [if_pos hn, if_pos (by rw [signed, if_neg (by omega)]; omega)]; rfl
        · rw [if_neg hn, if_neg (by rw [signed, if_pos (by omega)]; omega)]
          exact hm
    · exact many_eq lim s 4 intOf vecInt (fun p => get_map (by decide) (BitVec.ofNat 32) s p)
    · exact many_eq lim s 8 longOf vecLong (fun p => get_map (by decide) (BitVec.ofNat 64) s p)
    · exact many_eq lim s 8 realOf vecReal (fun p => getF64_step s p)
    · exact many_eq lim s 16 complexOf vecComplex (fun p => getCplx_step s p)
    · exact texts_eq lim s (s + 4)
    · exact mat_eq lim s 4 intOf (fun nr nc v => matInt ⟨nr, nc, v⟩) (fun p => get_map (by decide) (BitVec.ofNat 32) s p)
    · exact mat_eq lim s 8 longOf (fun nr nc v => matLong ⟨nr, nc, v⟩) (fun p => get_map (by decide) (BitVec.ofNat 64) s p)
    · exact mat_eq lim s 8 realOf (fun nr nc v => matReal ⟨nr, nc, v⟩) (fun p => getF64_step s p)
    · refine (cells_eq s 16 complexOf (fun p => getCplx_step s p) fun _ _ x =>
        (x.2.get buf 4).bind fun (n, r) => (Rd.each (fun r => r.getStr buf) n r).bind fun (v, r) =>
          fin (lim - s) (vecString v, r)).trans ?_
      show _ = rel s (limited lim (match cellValues buf s 16 fun _ _ _ => () with
        | .ok (_, q) => manyTexts buf s q
        | _ => .ub))
      rw [← cellValues_map s 16 (fun nr nc b => (nr, nc, b.map complexOf)) (fun _ => ())]
      cases hc : cellValues buf s 16 fun nr nc b => (nr, nc, b.map complexOf) with
      | ok a => exact texts_eq lim s a.2
      | throw =>
        rw [cellValues] at hc
        split at hc
        · split at hc <;> cases hc
        · cases hc
      | ub => rfl
      | diverge =>
        rw [cellValues] at hc
        split at hc
        · split at hc <;> cases hc
        · cases hc
  · have hc : Ty.ofCode t = none := by
      rw [Ty.ofCode, List.getElem?_eq_none_iff]; simp; omega
    have hf : flatRecord buf s t = .ok (notype, s + 4) := by
      rw [flatRecord] <;> omega
    simp only [hc, hf]
    exact hno

theorem mfind_lastValue (k : Bytes) : ∀ (kv acc : Entries),
    mfind k (kv.foldl (fun m e => mset e.1 e.2 m) acc) = (lastValue kv k).or (mfind k acc)
  | [], acc => rfl
  | (k', x) :: r, acc => by
    rw [List.foldl_cons, mfind_lastValue k r]
    simp only [lastValue, List.reverse_cons, List.find?_append]
    cases List.find? (fun e => decide (e.1 = k)) r.reverse with
    | some e => rfl
    | none =>
      by_cases hk : k' = k
      · subst hk; simp [mfind_mset_same]
      · simp [mfind_mset_other (Ne.symm hk), hk]

theorem sorted_foldl : ∀ (kv acc : Entries), KeysSorted acc → KeysSorted (kv.foldl (fun m e => mset e.1 e.2 m) acc)
  | [], _, h => h
  | (k, x) :: r, acc, h => sorted_foldl r _ (sorted_mset k x acc h)

theorem field_mfind (k : Bytes) : ∀ m, mfind k m = field (map m) k
  | [] => rfl
  | (k', x) :: r => by
    rw [mfind, field_mfind k r]
    by_cases h : k' = k
    · subst h; simp [field]
    · have h' : ¬ k = k' := fun e => h e.symm
      simp [field, h, h']

theorem mapOf_foldl (kv : Entries) : MapOf kv (kv.foldl (fun m e => mset e.1 e.2 m) []) := by
  refine ⟨sorted_foldl kv [] (by simp [KeysSorted]), fun k => ?_⟩
  have := mfind_lastValue k kv []
  rw [← field_mfind, this]
  cases lastValue kv k <;> rfl

theorem mapOf_eq {kv m : Entries} (h : MapOf kv m) : m = kv.foldl (fun m e => mset e.1 e.2 m) [] := by
  refine sorted_ext h.1 (mapOf_foldl kv).1 fun k => ?_
  have h1 := h.2 k
  have h2 := (mapOf_foldl kv).2 k
  rw [← field_mfind] at h1 h2
  rw [h1, h2]

/-- The loop of a vector. -/
def vecStep (buf : Bytes) (fuel : Nat) (dim : Int) (r : Rd) : Out (GC × Rd) :=
  (de_ser buf fuel (dim - r.nbyte) r.pos).bind fun (x, sz) =>
    (addI32 r.nbyte sz).bind fun nb => .ok (x, ⟨r.pos + sz, nb⟩)

/-- The loop of a map. -/
def mapStep (buf : Bytes) (fuel : Nat) (dim : Int) (r : Rd) : Out ((Bytes × GC) × Rd) :=
  (r.getStr buf).bind fun (k, r) =>
    (de_ser buf fuel (dim - r.nbyte) r.pos).bind fun (x, sz) =>
      (addI32 r.nbyte sz).bind fun nb => .ok ((k, x), (⟨r.pos + sz, nb⟩ : Rd))

/-- Outcome of a nested call. -/
def nested (s : Int) : Out (GC × Int) → Out (GC × Int)
  | .ok (x, q) => if inCount (q - s) then .ok (x, q) else .ub
  | o => o

theorem nested_eq (s p : Int) (o : Out (GC × Int)) : ((rel p o).bind fun (x, sz) =>
    (addI32 (p - s) sz).bind fun nb => Out.ok (x, (⟨p + sz, nb⟩ : Rd))) = toR s (nested s o) := by
  cases o with
  | ok a =>
    simp only [rel, Out.bind_ok, addI32_count, nested]
    rw [show p - s + (a.2 - p) = a.2 - s by omega, show p + (a.2 - p) = a.2 by omega]
    split <;> rfl
  | throw => rfl
  | ub => rfl
  | diverge => rfl

theorem vecStep_eq {buf : Bytes} {fuel : Nat} {lim p : Int} {o : Out (GC × Int)} (s : Int)
    (h : de_ser buf fuel (lim - p) p = rel p o) : vecStep buf fuel (lim - s) ⟨p, p - s⟩ = toR s (nested s o) := by
  rw [vecStep, ← nested_eq s p, ← h]
  simp only [show lim - s - (p - s) = lim - p by omega]

theorem mapStep_eq {buf : Bytes} {fuel : Nat} {lim p q : Int} {k : Bytes} {o : Out (GC × Int)} (s : Int)
    (hk : lenText buf s p = .ok (k, q)) (h : de_ser buf fuel (lim - q) q = rel q o) :
    mapStep buf fuel (lim - s) ⟨p, p - s⟩ = toR s (changed (fun x => (k, x)) (nested s o)) := by
  rw [mapStep, getStr_text, hk, toR, Out.bind_ok]
  have hn := nested_eq s q o
  rw [← h] at hn
  simp only [show lim - s - (q - s) = lim - q by omega]
  cases o with
  | ok a =>
    rw [h] at hn ⊢
    simp only [rel, Out.bind_ok, addI32_count, nested]
    rw [show q - s + (a.2 - q) = a.2 - s by omega, show q + (a.2 - q) = a.2 by omega]
    split <;> rfl
  | throw => rw [h]; rfl
  | ub => rw [h]; rfl
  | diverge => rw [h]; rfl

theorem head_eq {buf : Bytes} {s : Int} {t : Nat} (ht : wordAt buf s = some t) :
    Rd.get buf 4 ⟨s, 0⟩ = .ok (t, ⟨s + 4, s + 4 - s⟩) := by
  have := wordAt_some_get s s ht
  rwa [show s - s = 0 by omega] at this

theorem noTag_eq {buf : Bytes} (fuel : Nat) (dim s : Int) (h : wordAt buf s = none) :
    de_ser buf (fuel + 1) dim s = .ub := by
  have := wordAt_none_get s s h
  rw [show s - s = 0 by omega] at this
  rw [de_ser, this]; rfl

theorem noCount_eq {buf : Bytes} (fuel : Nat) (dim s : Int) {t : Nat} (ht : wordAt buf s = some t) (h : t = 19 ∨ t = 20)
    (hn : wordAt buf (s + 4) = none) : de_ser buf (fuel + 1) dim s = .ub := by
  rw [de_ser, head_eq ht, Out.bind_ok]
  rcases h with rfl | rfl
  · show (Rd.get buf 4 ⟨s + 4, s + 4 - s⟩).bind _ = _
    rw [wordAt_none_get s _ hn]; rfl
  · show (Rd.get buf 4 ⟨s + 4, s + 4 - s⟩).bind _ = _
    rw [wordAt_none_get s _ hn]; rfl

theorem vector_eq {buf : Bytes} {fuel : Nat} {lim s : Int} {n : Nat} {o : Out (List GC × Int)} (ht : wordAt buf s = some 19)
    (hn : wordAt buf (s + 4) = some n) (h : Rd.each (vecStep buf fuel (lim - s)) n ⟨s + 8, s + 8 - s⟩ = toR s o) :
    de_ser buf (fuel + 1) (lim - s) s = rel s (limited lim (changed vector o)) := by
  rw [de_ser, head_eq ht, Out.bind_ok]
  show (Rd.get buf 4 ⟨s + 4, s + 4 - s⟩).bind _ = _
  rw [wordAt_some_get s _ hn, Out.bind_ok, ← fin_eq, ← h, show s + 8 = s + 4 + 4 by omega]
  rfl

theorem map_eq {buf : Bytes} {fuel : Nat} {lim s : Int} {n : Nat} {o : Out (Entries × Int)} (ht : wordAt buf s = some 20)
    (hn : wordAt buf (s + 4) = some n)
    (h : Rd.each (mapStep buf fuel (lim - s)) (signed n).toNat ⟨s + 8, s + 8 - s⟩ = toR s o) :
    de_ser buf (fuel + 1) (lim - s) s =
      rel s (limited lim (changed (fun kv => map (kv.foldl (fun m e => mset e.1 e.2 m) [])) o)) := by
  rw [de_ser, head_eq ht, Out.bind_ok]
  show (Rd.get buf 4 ⟨s + 4, s + 4 - s⟩).bind _ = _
  rw [wordAt_some_get s _ hn, Out.bind_ok, ← fin_eq, ← h, show s + 8 = s + 4 + 4 by omega,
    ← toI32_signed (wordAt_lt hn)]
  rfl

theorem each_cons {α : Type} {F : Rd → Out (α × Rd)} {s p q : Int} {n : Nat} {x : α} {o : Out (List α × Int)}
    (h : F ⟨p, p - s⟩ = toR s (.ok (x, q))) (ho : Rd.each F n ⟨q, q - s⟩ = toR s o) :
    Rd.each F (n + 1) ⟨p, p - s⟩ = toR s (changed (x :: ·) o) := by
  rw [Rd.each, h, toR, Out.bind_ok]
  simp only [ho]
  cases o <;> rfl

theorem each_stop {α : Type} {F : Rd → Out (α × Rd)} {s p : Int} {n : Nat} {o : Out (α × Int)} {o' : Out (List α × Int)}
    (h : F ⟨p, p - s⟩ = toR s o) (ho : (o = .throw ∧ o' = .throw) ∨ (o = .ub ∧ o' = .ub)) :
    Rd.each F (n + 1) ⟨p, p - s⟩ = toR s o' := by
  rw [Rd.each, h]
  rcases ho with ⟨rfl, rfl⟩ | ⟨rfl, rfl⟩ <;> rfl

mutual

/-- What is read is what the call gives, given enough levels. -/
theorem record_sound {buf : Bytes} {lim : Int} : ∀ {p : Int} {o : Out (GC × Int)}, Record buf lim p o →
    ∃ N, ∀ fuel, N ≤ fuel → de_ser buf fuel (lim - p) p = rel p o
  | p, _, .noTag h => ⟨1, fun fuel hf => by
      obtain ⟨f, rfl⟩ : ∃ f, fuel = f + 1 := ⟨fuel - 1, by omega⟩
      exact noTag_eq f _ p h⟩
  | p, _, .flat ht h19 h20 => ⟨1, fun fuel hf => by
      obtain ⟨f, rfl⟩ : ∃ f, fuel = f + 1 := ⟨fuel - 1, by omega⟩
      exact flat_eq f lim p ht h19 h20⟩
  | p, _, .noCount ht h hn => ⟨1, fun fuel hf => by
      obtain ⟨f, rfl⟩ : ∃ f, fuel = f + 1 := ⟨fuel - 1, by omega⟩
      exact noCount_eq f _ p ht h hn⟩
  | p, _, .vector ht hn hr => by
      obtain ⟨N, hN⟩ := records_sound hr
      refine ⟨N + 1, fun fuel hf => ?_⟩
      obtain ⟨f, rfl⟩ : ∃ f, fuel = f + 1 := ⟨fuel - 1, by omega⟩
      exact vector_eq ht hn (hN f (by omega))
  | p, _, .map ht hn hr hm => by
      obtain ⟨N, hN⟩ := fields_sound hr
      refine ⟨N + 1, fun fuel hf => ?_⟩
      obtain ⟨f, rfl⟩ : ∃ f, fuel = f + 1 := ⟨fuel - 1, by omega⟩
      rw [mapOf_eq hm]
      exact map_eq ht hn (hN f (by omega))
  | p, _, .mapThrow ht hn hr => by
      obtain ⟨N, hN⟩ := fields_sound hr
      refine ⟨N + 1, fun fuel hf => ?_⟩
      obtain ⟨f, rfl⟩ : ∃ f, fuel = f + 1 := ⟨fuel - 1, by omega⟩
      exact map_eq ht hn (hN f (by omega))
  | p, _, .mapUb ht hn hr => by
      obtain ⟨N, hN⟩ := fields_sound hr
      refine ⟨N + 1, fun fuel hf => ?_⟩
      obtain ⟨f, rfl⟩ : ∃ f, fuel = f + 1 := ⟨fuel - 1, by omega⟩
      exact map_eq ht hn (hN f (by omega))

theorem records_sound {buf : Bytes} {lim : Int} : ∀ {s : Int} {n : Nat} {p : Int} {o : Out (List GC × Int)},
    Records buf lim s n p o → ∃ N, ∀ fuel, N ≤ fuel → Rd.each (vecStep buf fuel (lim - s)) n ⟨p, p - s⟩ = toR s o
  | s, _, p, _, .nil => ⟨0, fun _ _ => rfl⟩
  | s, _, p, _, .throw h => by
      obtain ⟨N, hN⟩ := record_sound h
      exact ⟨N, fun fuel hf => each_stop (vecStep_eq s (hN fuel hf)) (.inl ⟨rfl, rfl⟩)⟩
  | s, _, p, _, .ub h => by
      obtain ⟨N, hN⟩ := record_sound h
      exact ⟨N, fun fuel hf => each_stop (vecStep_eq s (hN fuel hf)) (.inr ⟨rfl, rfl⟩)⟩
  | s, _, p, _, .over h hc => by
      obtain ⟨N, hN⟩ := record_sound h
      exact ⟨N, fun fuel hf => each_stop (vecStep_eq s (hN fuel hf)) (.inr ⟨by rw [nested, if_neg hc], rfl⟩)⟩
  | s, _, p, _, .cons h hc hr => by
      obtain ⟨N, hN⟩ := record_sound h
      obtain ⟨M, hM⟩ := records_sound hr
      refine ⟨max N M, fun fuel hf => each_cons ?_ (hM fuel (by omega))⟩
      have := vecStep_eq s (hN fuel (by omega))
      rwa [nested, if_pos hc] at this

theorem fields_sound {buf : Bytes} {lim : Int} : ∀ {s : Int} {n : Nat} {p : Int} {o : Out (Entries × Int)},
    KeyRecords buf lim s n p o → ∃ N, ∀ fuel, N ≤ fuel → Rd.each (mapStep buf fuel (lim - s)) n ⟨p, p - s⟩ = toR s o
  | s, _, p, _, .nil => ⟨0, fun _ _ => rfl⟩
  | s, _, p, _, .noKey hk => ⟨0, fun fuel _ => each_stop (o := .ub)
      (by rw [mapStep, getStr_text, hk]; rfl) (.inr ⟨rfl, rfl⟩)⟩
  | s, _, p, _, .throw hk h => by
      obtain ⟨N, hN⟩ := record_sound h
      exact ⟨N, fun fuel hf => each_stop (mapStep_eq s hk (hN fuel hf)) (.inl ⟨rfl, rfl⟩)⟩
  | s, _, p, _, .ub hk h => by
      obtain ⟨N, hN⟩ := record_sound h
      exact ⟨N, fun fuel hf => each_stop (mapStep_eq s hk (hN fuel hf)) (.inr ⟨rfl, rfl⟩)⟩
  | s, _, p, _, .over hk h hc => by
      obtain ⟨N, hN⟩ := record_sound h
      exact ⟨N, fun fuel hf => each_stop (mapStep_eq s hk (hN fuel hf)) (.inr ⟨by rw [nested, if_neg hc]; rfl, rfl⟩)⟩
  | s, _, p, _, .cons hk h hc hr => by
      obtain ⟨N, hN⟩ := record_sound h
      obtain ⟨M, hM⟩ := fields_sound hr
      refine ⟨max N M, fun fuel hf => each_cons ?_ (hM fuel (by omega))⟩
      have := mapStep_eq s hk (hN fuel (by omega))
      rwa [nested, if_pos hc] at this

end

theorem lenText_cases (buf : Bytes) (s p : Int) : lenText buf s p = .ub ∨ ∃ k q, lenText buf s p = .ok (k, q) := by
  rw [lenText]
  split
  · split
    · exact .inr ⟨_, _, rfl⟩
    · exact .inl rfl
  · exact .inl rfl

theorem changed_no {α β : Type} {f : α → β} {o : Out (α × Int)} (h : o ≠ .diverge) : changed f o ≠ .diverge := by
  cases o <;> simp_all [changed]

theorem limited_no {lim : Int} {o : Out (GC × Int)} (h : o ≠ .diverge) : limited lim o ≠ .diverge := by
  cases o with
  | ok a => rw [limited]; split <;> simp
  | _ => simp_all [limited]

theorem lenTexts_no (buf : Bytes) (s : Int) : ∀ (n : Nat) (p : Int), lenTexts buf s n p ≠ .diverge
  | 0, p => by simp [lenTexts]
  | n + 1, p => by
    rw [lenTexts]
    split
    · exact changed_no (lenTexts_no buf s n _)
    · simp

theorem manyTexts_no (buf : Bytes) (s p : Int) : manyTexts buf s p ≠ .diverge := by
  rw [manyTexts]
  split
  · simp
  · exact changed_no (lenTexts_no buf s _ _)

theorem one_no (buf : Bytes) (p : Int) (k : Nat) (f : Bytes → GC) : oneValue buf p k f ≠ .diverge := by
  rw [oneValue]; split <;> simp

theorem many_no (buf : Bytes) (p : Int) (k : Nat) (f : List Bytes → GC) : manyValues buf p k f ≠ .diverge := by
  rw [manyValues]
  split
  · simp
  · split <;> simp

theorem cells_no {α : Type} (buf : Bytes) (p : Int) (k : Nat) (f : Nat → Nat → List Bytes → α) :
    cellValues buf p k f ≠ .diverge := by
  rw [cellValues]
  split
  · split <;> simp
  · simp

theorem lenText_no (buf : Bytes) (s p : Int) : lenText buf s p ≠ .diverge := by
  rcases lenText_cases buf s p with h | ⟨k, q, h⟩ <;> simp [h]

theorem flat_no (buf : Bytes) (p : Int) (t : Nat) : flatRecord buf p t ≠ .diverge := by
  unfold flatRecord
  split
  all_goals first
    | exact one_no _ _ _ _
    | exact many_no _ _ _ _
    | exact cells_no _ _ _ _
    | exact manyTexts_no _ _ _
    | exact changed_no (lenText_no _ _ _)
    | (split
       · split
         · simp
         · exact many_no _ _ _ _
       · simp)
    | (split
       · exact manyTexts_no _ _ _
       · simp)
    | simp

mutual

theorem record_no {buf : Bytes} {lim : Int} : ∀ {p : Int} {o : Out (GC × Int)}, Record buf lim p o → o ≠ .diverge
  | _, _, .noTag _ => by simp
  | _, _, .flat _ _ _ => limited_no (flat_no _ _ _)
  | _, _, .noCount _ _ _ => by simp
  | _, _, .vector _ _ hr => limited_no (changed_no (records_no hr))
  | _, _, .map _ _ _ _ => limited_no (by simp)
  | _, _, .mapThrow _ _ _ => by simp
  | _, _, .mapUb _ _ _ => by simp

theorem records_no {buf : Bytes} {lim : Int} : ∀ {s : Int} {n : Nat} {p : Int} {o : Out (List GC × Int)},
    Records buf lim s n p o → o ≠ .diverge
  | _, _, _, _, .nil => by simp
  | _, _, _, _, .throw _ => by simp
  | _, _, _, _, .ub _ => by simp
  | _, _, _, _, .over _ _ => by simp
  | _, _, _, _, .cons _ _ hr => changed_no (records_no hr)

end

theorem fields_no {buf : Bytes} {lim : Int} : ∀ {s : Int} {n : Nat} {p : Int} {o : Out (Entries × Int)},
    KeyRecords buf lim s n p o → o ≠ .diverge
  | _, _, _, _, .nil => by simp
  | _, _, _, _, .noKey _ => by simp
  | _, _, _, _, .throw _ _ => by simp
  | _, _, _, _, .ub _ _ => by simp
  | _, _, _, _, .over _ _ _ => by simp
  | _, _, _, _, .cons _ _ _ hr => changed_no (fields_no hr)

section complete

variable {buf : Bytes} {lim : Int} {fuel : Nat}
  (IH : ∀ p, de_ser buf fuel (lim - p) p = .diverge ∨ ∃ o, Record buf lim p o ∧ de_ser buf fuel (lim - p) p = rel p o)
include IH

theorem records_complete (s : Int) : ∀ (n : Nat) (p : Int), Rd.each (vecStep buf fuel (lim - s)) n ⟨p, p - s⟩ = .diverge ∨
    ∃ o, Records buf lim s n p o ∧ Rd.each (vecStep buf fuel (lim - s)) n ⟨p, p - s⟩ = toR s o
  | 0, p => .inr ⟨_, .nil, rfl⟩
  | n + 1, p => by
    rcases IH p with h | ⟨o, ho, h⟩
    · left
      rw [Rd.each, vecStep]
      simp only [show lim - s - (p - s) = lim - p by omega, h]; rfl
    · have hv := vecStep_eq s h
      cases o with
      | ok a =>
        obtain ⟨x, q⟩ := a
        by_cases hc : inCount (q - s)
        · rw [nested, if_pos hc] at hv
          rcases records_complete s n q with h1 | ⟨o, ho1, h1⟩
          · left
            rw [Rd.each, hv, toR, Out.bind_ok]
            simp only [h1]; rfl
          · exact .inr ⟨_, .cons ho hc ho1, each_cons hv h1⟩
        · exact .inr ⟨_, .over ho hc, each_stop hv (.inr ⟨by rw [nested, if_neg hc], rfl⟩)⟩
      | throw => exact .inr ⟨_, .throw ho, each_stop hv (.inl ⟨rfl, rfl⟩)⟩
      | ub => exact .inr ⟨_, .ub ho, each_stop hv (.inr ⟨rfl, rfl⟩)⟩
      | diverge => exact absurd rfl (record_no ho)

theorem fields_complete (s : Int) : ∀ (n : Nat) (p : Int), Rd.each (mapStep buf fuel (lim - s)) n ⟨p, p - s⟩ = .diverge ∨
    ∃ o, KeyRecords buf lim s n p o ∧ Rd.each (mapStep buf fuel (lim - s)) n ⟨p, p - s⟩ = toR s o
  | 0, p => .inr ⟨_, .nil, rfl⟩
  | n + 1, p => by
    rcases lenText_cases buf s p with hk | ⟨k, r, hk⟩
    · exact .inr ⟨_, .noKey hk, each_stop (o := .ub) (by rw [mapStep, getStr_text, hk]; rfl) (.inr ⟨rfl, rfl⟩)⟩
    · rcases IH r with h | ⟨o, ho, h⟩
      · left
        rw [Rd.each, mapStep, getStr_text, hk, toR, Out.bind_ok]
        simp only [show lim - s - (r - s) = lim - r by omega, h]; rfl
      · have hv := mapStep_eq s hk h
        cases o with
        | ok a =>
          obtain ⟨x, q⟩ := a
          by_cases hc : inCount (q - s)
          · rw [nested, if_pos hc] at hv
            rcases fields_complete s n q with h1 | ⟨o, ho1, h1⟩
            · left
              rw [Rd.each, hv, changed, toR, Out.bind_ok]
              simp only [h1]; rfl
            · exact .inr ⟨_, .cons hk ho hc ho1, each_cons hv h1⟩
          · exact .inr ⟨_, .over hk ho hc, each_stop hv (.inr ⟨by rw [nested, if_neg hc]; rfl, rfl⟩)⟩
        | throw => exact .inr ⟨_, .throw hk ho, each_stop hv (.inl ⟨rfl, rfl⟩)⟩
        | ub => exact .inr ⟨_, .ub hk ho, each_stop hv (.inr ⟨rfl, rfl⟩)⟩
        | diverge => exact absurd rfl (record_no ho)

end complete

/-- What a call gives that ends is what is read. -/
theorem record_complete (buf : Bytes) (lim : Int) : ∀ (fuel : Nat) (p : Int), de_ser buf fuel (lim - p) p = .diverge ∨
    ∃ o, Record buf lim p o ∧ de_ser buf fuel (lim - p) p = rel p o
  | 0, p => .inl (by rw [de_ser])
  | fuel + 1, p => by
    have IH := record_complete buf lim fuel
    cases ht : wordAt buf p with
    | none => exact .inr ⟨_, .noTag ht, noTag_eq fuel _ p ht⟩
    | some t =>
      by_cases h19 : t = 19
      · cases hn : wordAt buf (p + 4) with
        | none => exact .inr ⟨_, .noCount ht (.inl h19) hn, noCount_eq fuel _ p ht (.inl h19) hn⟩
        | some n =>
          subst h19
          rcases records_complete IH p n (p + 8) with h | ⟨o, ho, h⟩
          · left
            have := vector_eq (o := .diverge) ht hn h
            exact this
          · exact .inr ⟨_, .vector ht hn ho, vector_eq ht hn h⟩
      · by_cases h20 : t = 20
        · cases hn : wordAt buf (p + 4) with
          | none => exact .inr ⟨_, .noCount ht (.inr h20) hn, noCount_eq fuel _ p ht (.inr h20) hn⟩
          | some n =>
            subst h20
            rcases fields_complete IH p (signed n).toNat (p + 8) with h | ⟨o, ho, h⟩
            · left
              exact map_eq (o := .diverge) ht hn h
            · have hm := map_eq ht hn h
              cases o with
              | ok a => exact .inr ⟨_, .map ht hn ho (mapOf_foldl a.1), hm⟩
              | throw => exact .inr ⟨_, .mapThrow ht hn ho, hm⟩
              | ub => exact .inr ⟨_, .mapUb ht hn ho, hm⟩
              | diverge => exact absurd rfl (fields_no ho)
        · exact .inr ⟨_, .flat ht h19 h20, flat_eq fuel lim p ht h19 h20⟩

end WireRead
end GC
end GCV
