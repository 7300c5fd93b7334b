import Verif.Props.History
import Verif.Lemmas.DeSerialize

/-! # Lemmas: what `de_serialize` can return, and reading a truncated form -/

namespace GCV

theorem noNul_takeWhile (l : Bytes) : noNul (l.takeWhile (· ≠ 0)) = true := by
  induction l with
  | nil => rfl
  | cons x r ih =>
    rw [List.takeWhile_cons]
    by_cases h : x ≠ 0
    · rw [if_pos (by simpa using h)]
      simp only [noNul, List.all_cons, Bool.and_eq_true]
      exact ⟨by simpa using h, ih⟩
    · rw [if_neg (by simpa using h)]; rfl

theorem noNul_getStr {buf : Bytes} {r r' : Rd} {s : Bytes} (h : r.getStr buf = .ok (s, r')) :
    noNul s = true := by
  obtain ⟨⟨n, r1⟩, -, h⟩ := GC.out_bind_ok h
  obtain ⟨t, ht, h⟩ := GC.out_bind_ok h
  obtain ⟨nb, -, h⟩ := GC.out_bind_ok h
  simp only [Out.ok.injEq, Prod.mk.injEq] at h
  rw [← h.1]
  unfold Rd.cstrAt at ht
  split at ht
  · dsimp only at ht
    split at ht
    · injection ht with ht; rw [← ht]; exact noNul_takeWhile _
    · simp at ht
  · simp at ht

namespace GC

theorem Storable_foldl_mset : ∀ (l : List (Bytes × GC)) {m : Entries},
    (∀ e ∈ m, noNul e.1 = true ∧ Storable e.2) → (∀ e ∈ l, noNul e.1 = true ∧ Storable e.2) →
    ∀ e ∈ l.foldl (fun m e => mset e.1 e.2 m) m, noNul e.1 = true ∧ Storable e.2
  | [], m, h, _ => h
  | x :: r, m, h, hl => by
    refine Storable_foldl_mset r (m := mset x.1 x.2 m) ?_ (fun e he => hl e (by simp [he]))
    intro e he
    rcases mem_mset he with rfl | he
    · exact hl x (by simp)
    · exact h e he

theorem Storable_de_ser {buf : Bytes} : ∀ (fuel : Nat) {dim pos : Int} {g : GC} {n : Int},
    de_ser buf fuel dim pos = .ok (g, n) → Storable g
  | 0, dim, pos, g, n, h => by simp [de_ser] at h
  | fuel + 1, dim, pos, g, n, h => by
    rw [de_ser] at h
    obtain ⟨⟨tag, r⟩, -, h⟩ := out_bind_ok h
    have fin : ∀ {x : GC} {r : Rd}, (if r.nbyte ≤ dim then Out.ok (x, r.nbyte) else .throw) = .ok (g, n) → x = g := by
      intro x r h
      split at h
      · simp only [Out.ok.injEq, Prod.mk.injEq] at h; exact h.1
      · simp at h
    dsimp only at h
    split at h
    · rw [← fin h]; rfl
    · rw [← fin h]; rfl
    · rw [← fin h]; rfl
    · rw [← fin h]; rfl
    · obtain ⟨⟨b, r1⟩, -, h⟩ := out_bind_ok h
      rw [← fin h]; rfl
    · obtain ⟨⟨b, r1⟩, -, h⟩ := out_bind_ok h
      rw [← fin h]; rfl
    · obtain ⟨⟨b, r1⟩, -, h⟩ := out_bind_ok h
      rw [← fin h]; rfl
    · obtain ⟨⟨b, r1⟩, -, h⟩ := out_bind_ok h
      rw [← fin h]; rfl
    · obtain ⟨⟨b, r1⟩, hb, h⟩ := out_bind_ok h
      rw [← fin h]; exact noNul_getStr hb
    · obtain ⟨⟨b, r1⟩, -, h⟩ := out_bind_ok h
      rw [← fin h]; rfl
    · obtain ⟨⟨b, r1⟩, -, h⟩ := out_bind_ok h
      dsimp only at h
      split at h
      · simp at h
      · obtain ⟨⟨v, r2⟩, -, h⟩ := out_bind_ok h
        rw [← fin h]; rfl
    · obtain ⟨⟨b, r1⟩, -, h⟩ := out_bind_ok h
      obtain ⟨⟨v, r2⟩, -, h⟩ := out_bind_ok h
      rw [← fin h]; rfl
    · obtain ⟨⟨b, r1⟩, -, h⟩ := out_bind_ok h
      obtain ⟨⟨v, r2⟩, -, h⟩ := out_bind_ok h
      rw [← fin h]; rfl
    · obtain ⟨⟨b, r1⟩, -, h⟩ := out_bind_ok h
      obtain ⟨⟨v, r2⟩, -, h⟩ := out_bind_ok h
      rw [← fin h]; rfl
    · obtain ⟨⟨b, r1⟩, -, h⟩ := out_bind_ok h
      obtain ⟨⟨v, r2⟩, -, h⟩ := out_bind_ok h
      rw [← fin h]; rfl
    · obtain ⟨⟨nr, r1⟩, -, h⟩ := out_bind_ok h
      obtain ⟨⟨nc, r2⟩, -, h⟩ := out_bind_ok h
      obtain ⟨⟨v, r3⟩, -, h⟩ := out_bind_ok h
      rw [← fin h]; rfl
    · obtain ⟨⟨nr, r1⟩, -, h⟩ := out_bind_ok h
      obtain ⟨⟨nc, r2⟩, -, h⟩ := out_bind_ok h
      obtain ⟨⟨v, r3⟩, -, h⟩ := out_bind_ok h
      rw [← fin h]; rfl
    · obtain ⟨⟨nr, r1⟩, -, h⟩ := out_bind_ok h
      obtain ⟨⟨nc, r2⟩, -, h⟩ := out_bind_ok h
      obtain ⟨⟨v, r3⟩, -, h⟩ := out_bind_ok h
      rw [← fin h]; rfl
    · obtain ⟨⟨nr, r1⟩, -, h⟩ := out_bind_ok h
      obtain ⟨⟨nc, r2⟩, -, h⟩ := out_bind_ok h
      obtain ⟨⟨v, r3⟩, -, h⟩ := out_bind_ok h
      obtain ⟨⟨n', r4⟩, -, h⟩ := out_bind_ok h
      obtain ⟨⟨v', r5⟩, hv, h⟩ := out_bind_ok h
      rw [← fin h]
      exact List.all_eq_true.2 (each_all (P := fun s => noNul s = true) (fun _ _ _ h => noNul_getStr h) _ hv).2
    · obtain ⟨⟨b, r1⟩, -, h⟩ := out_bind_ok h
      obtain ⟨⟨v, r2⟩, hv, h⟩ := out_bind_ok h
      rw [← fin h]
      exact List.all_eq_true.2 (each_all (P := fun s => noNul s = true) (fun _ _ _ h => noNul_getStr h) _ hv).2
    · obtain ⟨⟨b, r1⟩, -, h⟩ := out_bind_ok h
      obtain ⟨⟨v, r2⟩, hv, h⟩ := out_bind_ok h
      rw [← fin h]
      have : everyL storableNode v = true := by
        refine everyL_iff.2 (each_all (P := fun x => every storableNode x = true) ?_ _ hv).2
        intro r x r' hx
        obtain ⟨⟨y, sz⟩, hy, hx⟩ := out_bind_ok hx
        obtain ⟨nb, -, hx⟩ := out_bind_ok hx
        simp only [Out.ok.injEq, Prod.mk.injEq] at hx
        exact hx.1 ▸ Storable_de_ser fuel hy
      simp [Storable, every, this, storableNode]
    · obtain ⟨⟨b, r1⟩, -, h⟩ := out_bind_ok h
      obtain ⟨⟨v, r2⟩, hv, h⟩ := out_bind_ok h
      rw [← fin h]
      have := Storable_foldl_mset v (m := []) (by simp)
        (each_all (P := fun e : Bytes × GC => noNul e.1 = true ∧ Storable e.2) (by
          intro r x r' hx
          obtain ⟨⟨k, r3⟩, hk, hx⟩ := out_bind_ok hx
          obtain ⟨⟨y, sz⟩, hy, hx⟩ := out_bind_ok hx
          obtain ⟨nb, -, hx⟩ := out_bind_ok hx
          simp only [Out.ok.injEq, Prod.mk.injEq] at hx
          exact hx.1 ▸ ⟨noNul_getStr hk, Storable_de_ser fuel hy⟩) _ hv).2
      simp only [Storable, every, storableNode, Bool.and_eq_true, List.all_eq_true]
      exact ⟨fun e he => (this e he).1, everyM_iff.2 fun e he => (this e he).2⟩

/-! ## Truncated forms -/

end GC

/-- Memory ends inside `bs` when read from offset `p`. -/
def Cut (buf : Bytes) (p : Nat) (bs : Bytes) : Prop :=
  p ≤ buf.length ∧ ∃ post, post ≠ [] ∧ bs = buf.drop p ++ post

theorem Cut.split {buf p a b} (h : Cut buf p (a ++ b)) :
    Cut buf p a ∨ (At buf p a ∧ Cut buf (p + a.length) b) := by
  obtain ⟨hle, post, hp, h⟩ := h
  by_cases hl : a.length ≤ (buf.drop p).length
  · right
    have e1 : a = (buf.drop p).take a.length := by
      have := congrArg (List.take a.length) h
      rwa [List.take_left, List.take_append_of_le_length hl] at this
    have e2 : b = (buf.drop p).drop a.length ++ post := by
      have := congrArg (List.drop a.length) h
      rwa [List.drop_left, List.drop_append_of_le_length hl] at this
    refine ⟨⟨(buf.drop p).drop a.length, ?_⟩, by rw [List.length_drop] at hl; omega, post, hp, ?_⟩
    · conv => lhs; rw [← List.take_append_drop a.length (buf.drop p), ← e1]
    · rw [e2, List.drop_drop]
  · left
    refine ⟨hle, a.drop (buf.drop p).length, ?_, ?_⟩
    · intro hc
      have := congrArg List.length hc
      simp only [List.length_drop, List.length_nil] at this hl; omega
    · have := congrArg (List.take (buf.drop p).length) h
      rw [List.take_left, List.take_append_of_le_length (by omega)] at this
      conv => lhs; rw [← List.take_append_drop (buf.drop p).length a, this]

theorem Cut.lt {buf p bs} (h : Cut buf p bs) : buf.length - p < bs.length := by
  obtain ⟨hle, post, hp, h⟩ := h
  have := congrArg List.length h
  rw [List.length_append, List.length_drop] at this
  have := List.length_pos_iff.2 hp
  omega

namespace Rd

theorem bytesAt_ub {buf : Bytes} : ∀ (n p : Nat), buf.length - p < n →
    bytesAt buf n p = .ub
  | 0, p, h => absurd h (by omega)
  | n + 1, p, h => by
    rw [bytesAt, byteAt, if_pos (Int.natCast_nonneg p), Int.toNat_natCast]
    cases hb : buf[p]? with
    | none => rfl
    | some b =>
      have : p < buf.length := by
        have := (List.getElem?_eq_some_iff.1 hb).1; exact this
      simp only [Out.bind_ok]
      rw [show ((p : Int) + 1) = ((p + 1 : Nat) : Int) by omega, bytesAt_ub n (p + 1) (by omega)]
      rfl

theorem get_ub {buf : Bytes} {p n x : Nat} {nb : Int} (h : Cut buf p (leBytes n x)) :
    get buf n ⟨p, nb⟩ = .ub := by
  have := h.lt
  rw [length_leBytes] at this
  rw [get, bytesAt_ub n p this]; rfl

theorem cstrAt_ub {buf : Bytes} {p : Nat} {s : Bytes} (hs : noNul s = true)
    (h : Cut buf p (s ++ [0])) : cstrAt buf p = .ub := by
  unfold cstrAt
  rw [if_pos (Int.natCast_nonneg p), Int.toNat_natCast]
  dsimp only
  rw [if_neg]
  intro hm
  obtain ⟨hle, post, hp, h⟩ := h
  have hpre : buf.drop p <+: s ++ [0] := ⟨post, h.symm⟩
  have hs' : buf.drop p <+: s := by
    rcases List.prefix_concat_iff.1 hpre with h1 | h1
    · exfalso
      rw [h1] at h
      exact hp (List.append_right_eq_self.1 h.symm)
    · exact h1
  have := hs'.subset hm
  simp only [noNul, List.all_eq_true] at hs
  exact absurd (hs 0 this) (by simp)

theorem getStr_ub {buf : Bytes} {p : Nat} {s : Bytes} {nb : Nat} (hs : noNul s = true)
    (hlen : s.length + 1 < 2 ^ 31) (h : Cut buf p (encStr s)) : getStr buf ⟨p, nb⟩ = .ub := by
  unfold getStr
  rcases h.split with h | ⟨h1, h2⟩
  · rw [get_ub h]; rfl
  · rw [length_leBytes] at h2
    rw [get_eq h1 (by omega), Out.bind_ok]
    dsimp only
    rw [cstrAt_ub hs h2]; rfl

theorem each_ub {α : Type} {buf : Bytes} {B c : Nat} {f : Rd → Out (α × Rd)} {e : α → Bytes} :
    ∀ (v : List α),
    (∀ x ∈ v, ∀ p nb : Nat, p = c + nb → At buf p (e x) → nb + (e x).length ≤ B →
      f ⟨p, nb⟩ = .ok (x, ⟨(p + (e x).length : Nat), (nb + (e x).length : Nat)⟩)) →
    (∀ x ∈ v, ∀ p nb : Nat, p = c + nb → Cut buf p (e x) → nb + (e x).length ≤ B →
      f ⟨p, nb⟩ = .ub) →
    ∀ p nb : Nat, p = c + nb → Cut buf p (v.flatMap e) → nb + (v.flatMap e).length ≤ B →
    each f v.length ⟨p, nb⟩ = .ub
  | [], _, _, p, nb, _, h, _ => absurd h.lt (by simp)
  | x :: r, hf, hu, p, nb, hc, h, hb => by
    simp only [List.flatMap_cons, List.length_append] at h hb ⊢
    simp only [List.length_cons, each]
    rcases h.split with h | ⟨h1, h2⟩
    · rw [hu x (.head _) p nb hc h (by omega)]; rfl
    · rw [hf x (.head _) p nb hc h1 (by omega), Out.bind_ok]
      dsimp only
      rw [each_ub r (fun y hy => hf y (.tail _ hy)) (fun y hy => hu y (.tail _ hy)) _ _ (by omega)
        h2 (by omega)]
      rfl

theorem getF64_ub {buf : Bytes} {p nb : Nat} {x : F64} (h : Cut buf p (leBytes 8 x.bits.toNat)) :
    getF64 buf ⟨p, nb⟩ = .ub := by
  unfold getF64
  rw [get_ub h]; rfl

theorem getCplx_ub {buf : Bytes} {p nb : Nat} {c : Cplx} (h : Cut buf p (encCplx c)) :
    getCplx buf ⟨p, nb⟩ = .ub := by
  unfold getCplx
  rcases Cut.split h with h | ⟨h1, h2⟩
  · rw [getF64_ub h]; rfl
  · rw [length_leBytes] at h2
    rw [getF64_eq h1, Out.bind_ok]
    dsimp only
    rw [getF64_ub h2]; rfl

end Rd

namespace GC

/-- Reading the form of `g` from memory that ends inside it is undefined. -/
def CutUb (g : GC) : Prop :=
  Storable g → WF g → ∀ (buf : Bytes) (fuel p : Nat) (dim : Int), depth g < fuel →
    Cut buf p (enc g) → (enc g).length < 2 ^ 31 → ((buf.length - p : Nat) : Int) ≤ dim →
    de_ser buf fuel dim p = .ub

theorem At.le {buf p bs} (h : At buf p bs) (hb : bs ≠ []) : p + bs.length ≤ buf.length := by
  obtain ⟨post, h⟩ := h
  have := congrArg List.length h
  rw [List.length_append, List.length_drop] at this
  have := List.length_pos_iff.2 hb
  omega

theorem cut_all : ∀ g, CutUb g := by
  refine (GC.induct (P := CutUb) (PL := fun v => ∀ x ∈ v, CutUb x)
    (PM := fun m => ∀ e ∈ m, CutUb e.2) ?_ ?_ ?_ ?_ ?_ ?_ ?_).1
  · intro g hv hm hs hw buf fuel p dim hfuel hcut hlen hdim
    obtain ⟨fuel, rfl⟩ : ∃ f, fuel = f + 1 := ⟨fuel - 1, by omega⟩
    have hs : storableNode g = true := by
      cases g <;> simp [Storable, every] at hs <;> try exact hs
      · exact absurd rfl (hv _)
      · exact absurd rfl (hm _)
    have g32 : ∀ (q nb x : Nat), At buf q (leBytes 4 x) → x < 2 ^ 32 →
        Rd.get buf 4 ⟨q, nb⟩ = .ok (x, ⟨(q + 4 : Nat), (nb + 4 : Nat)⟩) := by
      intro q nb x h hx
      rw [Rd.get_eq h (by omega)]; simp
    have tag : ∀ (t : Ty), At buf p (leBytes 4 t.code) →
        Rd.get buf 4 ⟨p, 0⟩ = .ok (t.code, ⟨(p + 4 : Nat), (4 : Nat)⟩) := by
      intro t h
      rw [Rd.get_eq h (code_lt t)]; simp
    -- scalars: tag, then the data
    have one : ∀ (t : Ty) (b : Bytes), Cut buf p (leBytes 4 t.code ++ b) →
        Rd.get buf 4 ⟨p, 0⟩ = .ub ∨
        (Rd.get buf 4 ⟨p, 0⟩ = .ok (t.code, ⟨(p + 4 : Nat), (4 : Nat)⟩) ∧ Cut buf (p + 4) b) := by
      intro t b h
      rcases h.split with h | ⟨h1, h2⟩
      · exact .inl (Rd.get_ub h)
      · rw [length_leBytes] at h2
        exact .inr ⟨tag t h1, h2⟩
    have two : ∀ (q nb x : Nat) (b : Bytes), Cut buf q (leBytes 4 x ++ b) → x < 2 ^ 32 →
        Rd.get buf 4 ⟨q, nb⟩ = .ub ∨
        (Rd.get buf 4 ⟨q, nb⟩ = .ok (x, ⟨(q + 4 : Nat), (nb + 4 : Nat)⟩) ∧ Cut buf (q + 4) b) := by
      intro q nb x b h hx
      rcases h.split with h | ⟨h1, h2⟩
      · exact .inl (Rd.get_ub h)
      · rw [length_leBytes] at h2
        exact .inr ⟨g32 q nb x h1 hx, h2⟩
    have vec : ∀ {α : Type} {f : Rd → Out (α × Rd)} {e : α → Bytes} (v : List α),
        (∀ x ∈ v, ∀ q nb : Nat, At buf q (e x) → nb + (e x).length < 2 ^ 31 →
          f ⟨q, nb⟩ = .ok (x, ⟨(q + (e x).length : Nat), (nb + (e x).length : Nat)⟩)) →
        (∀ x ∈ v, ∀ q nb : Nat, Cut buf q (e x) → nb + (e x).length < 2 ^ 31 → f ⟨q, nb⟩ = .ub) →
        ∀ nb : Nat, Cut buf (p + nb) (v.flatMap e) → nb + (v.flatMap e).length < 2 ^ 31 →
        Rd.each f v.length ⟨(p + nb : Nat), nb⟩ = .ub := by
      intro α f e v h1 h2 nb h hl
      exact Rd.each_ub (B := 2 ^ 31 - 1) (c := p) v (fun x hx q nb _ h hb => h1 x hx q nb h (by omega))
        (fun x hx q nb _ h hb => h2 x hx q nb h (by omega)) _ _ rfl h (by omega)
    have i32o : ∀ (x : I32) (q nb : Nat), At buf q (leBytes 4 x.toNat) →
        ((Rd.get buf 4 ⟨q, nb⟩).bind fun y => .ok (BitVec.ofNat 32 y.1, y.2)) =
        .ok (x, (⟨(q + (leBytes 4 x.toNat).length : Nat),
          (nb + (leBytes 4 x.toNat).length : Nat)⟩ : Rd)) := by
      intro x q nb h
      rw [Rd.get_eq h x.isLt, Out.bind_ok]; simp [length_leBytes]
    have i32u : ∀ (x : I32) (q nb : Nat), Cut buf q (leBytes 4 x.toNat) →
        ((Rd.get buf 4 ⟨q, nb⟩).bind fun y => Out.ok (BitVec.ofNat 32 y.1, y.2)) = .ub := by
      intro x q nb h
      rw [Rd.get_ub h]; rfl
    have i64o : ∀ (x : I64) (q nb : Nat), At buf q (leBytes 8 x.toNat) →
        ((Rd.get buf 8 ⟨q, nb⟩).bind fun y => .ok (BitVec.ofNat 64 y.1, y.2)) =
        .ok (x, (⟨(q + (leBytes 8 x.toNat).length : Nat),
          (nb + (leBytes 8 x.toNat).length : Nat)⟩ : Rd)) := by
      intro x q nb h
      rw [Rd.get_eq h x.isLt, Out.bind_ok]; simp [length_leBytes]
    have i64u : ∀ (x : I64) (q nb : Nat), Cut buf q (leBytes 8 x.toNat) →
        ((Rd.get buf 8 ⟨q, nb⟩).bind fun y => Out.ok (BitVec.ofNat 64 y.1, y.2)) = .ub := by
      intro x q nb h
      rw [Rd.get_ub h]; rfl
    have b8o : ∀ (x : Bool) (q nb : Nat), At buf q (encBool x) →
        ((Rd.get buf 1 ⟨q, nb⟩).bind fun y => .ok (decide (0 < y.1), y.2)) =
        .ok (x, (⟨(q + (encBool x).length : Nat), (nb + (encBool x).length : Nat)⟩ : Rd)) := by
      intro x q nb h
      have h' : At buf q (leBytes 1 (if x then 1 else 0)) := by
        cases x <;> exact h
      rw [Rd.get_eq h' (by cases x <;> decide), Out.bind_ok]
      cases x <;> simp [encBool]
    have b8u : ∀ (x : Bool) (q nb : Nat), Cut buf q (encBool x) →
        Rd.get buf 1 ⟨q, nb⟩ = .ub := by
      intro x q nb h
      have h' : Cut buf q (leBytes 1 (if x then 1 else 0)) := by
        cases x <;> exact h
      exact Rd.get_ub h'
    have f64o : ∀ (x : F64) (q nb : Nat), At buf q (leBytes 8 x.bits.toNat) →
        Rd.getF64 buf ⟨q, nb⟩ =
        .ok (x, (⟨(q + (leBytes 8 x.bits.toNat).length : Nat),
          (nb + (leBytes 8 x.bits.toNat).length : Nat)⟩ : Rd)) := by
      intro x q nb h
      rw [Rd.getF64_eq h]; simp [length_leBytes]
    have c128o : ∀ (x : Cplx) (q nb : Nat), At buf q (encCplx x) →
        Rd.getCplx buf ⟨q, nb⟩ =
        .ok (x, (⟨(q + (encCplx x).length : Nat), (nb + (encCplx x).length : Nat)⟩ : Rd)) := by
      intro x q nb h
      rw [Rd.getCplx_eq h]; simp [length_leBytes, encCplx]
    cases g with
    | vector v => exact absurd rfl (hv v)
    | map m => exact absurd rfl (hm m)
    | pointer p => simp [storableNode] at hs
    | vecPointer p => simp [storableNode] at hs
    | matComplex p => simp [storableNode] at hs
    | notype =>
      have := Rd.get_ub (nb := 0) hcut
      rw [de_ser, this]; rfl
    | int x =>
      simp only [enc, List.length_append, length_leBytes] at hcut hlen
      rcases one .INTEGER _ hcut with h | ⟨t1, t2⟩
      · rw [de_ser, h]; rfl
      · rw [de_ser, t1, Out.bind_ok]; simp only [ofCode_code]
        rw [Rd.get_ub t2]; rfl
    | long x =>
      simp only [enc, List.length_append, length_leBytes] at hcut hlen
      rcases one .LONG _ hcut with h | ⟨t1, t2⟩
      · rw [de_ser, h]; rfl
      · rw [de_ser, t1, Out.bind_ok]; simp only [ofCode_code]
        rw [Rd.get_ub t2]; rfl
    | bool x =>
      simp only [enc, List.length_append, length_leBytes] at hcut hlen
      rcases one .BOOL _ hcut with h | ⟨t1, t2⟩
      · rw [de_ser, h]; rfl
      · rw [de_ser, t1, Out.bind_ok]; simp only [ofCode_code]
        rw [b8u x _ _ t2]; rfl
    | real x =>
      simp only [enc, List.length_append, length_leBytes] at hcut hlen
      rcases one .REAL _ hcut with h | ⟨t1, t2⟩
      · rw [de_ser, h]; rfl
      · rw [de_ser, t1, Out.bind_ok]; simp only [ofCode_code]
        rw [Rd.getF64_ub t2]; rfl
    | complex x =>
      simp only [enc, List.length_append, length_leBytes] at hcut hlen
      rcases one .COMPLEX _ hcut with h | ⟨t1, t2⟩
      · rw [de_ser, h]; rfl
      · rw [de_ser, t1, Out.bind_ok]; simp only [ofCode_code]
        rw [Rd.getCplx_ub t2]; rfl
    | string x =>
      simp only [enc, List.length_append, length_leBytes, length_encStr] at hcut hlen
      rcases one .STRING _ hcut with h | ⟨t1, t2⟩
      · rw [de_ser, h]; rfl
      · rw [de_ser, t1, Out.bind_ok]; simp only [ofCode_code]
        rw [Rd.getStr_ub hs (by omega) t2]; rfl
    | vecBool v =>
      simp only [enc, List.length_append, length_leBytes] at hcut hlen
      have hc := length_flatMap_const encBool 1 (fun _ => rfl) v
      rcases one .VEC_BOOL _ hcut with h | ⟨t1, t2⟩
      · rw [de_ser, h]; rfl
      · rw [de_ser, t1, Out.bind_ok]; simp only [ofCode_code]
        rcases two _ 4 _ _ t2 (by omega) with h | ⟨t3, t4⟩
        · rw [h]; rfl
        · rw [t3, Out.bind_ok]; simp only []
          rw [toI32_of_lt (by omega), if_neg (by omega)]
          rw [vec v (fun x hx q nb h _ => b8o x q nb h) (fun x hx q nb h _ => by rw [b8u x q nb h]; rfl) 8 t4 (by omega)]; rfl
    | vecInt v =>
      simp only [enc, List.length_append, length_leBytes] at hcut hlen
      have hc := length_flatMap_const (fun p : I32 => leBytes 4 p.toNat) 4 (fun _ => length_leBytes _ _) v
      rcases one .VEC_INTEGER _ hcut with h | ⟨t1, t2⟩
      · rw [de_ser, h]; rfl
      · rw [de_ser, t1, Out.bind_ok]; simp only [ofCode_code]
        rcases two _ 4 _ _ t2 (by omega) with h | ⟨t3, t4⟩
        · rw [h]; rfl
        · rw [t3, Out.bind_ok]; simp only []
          rw [vec v (fun x hx q nb h _ => i32o x q nb h) (fun x hx q nb h _ => i32u x q nb h) 8 t4 (by omega)]; rfl
    | vecLong v =>
      simp only [enc, List.length_append, length_leBytes] at hcut hlen
      have hc := length_flatMap_const (fun p : I64 => leBytes 8 p.toNat) 8 (fun _ => length_leBytes _ _) v
      rcases one .VEC_LONG _ hcut with h | ⟨t1, t2⟩
      · rw [de_ser, h]; rfl
      · rw [de_ser, t1, Out.bind_ok]; simp only [ofCode_code]
        rcases two _ 4 _ _ t2 (by omega) with h | ⟨t3, t4⟩
        · rw [h]; rfl
        · rw [t3, Out.bind_ok]; simp only []
          rw [vec v (fun x hx q nb h _ => i64o x q nb h) (fun x hx q nb h _ => i64u x q nb h) 8 t4 (by omega)]; rfl
    | vecReal v =>
      simp only [enc, List.length_append, length_leBytes] at hcut hlen
      have hc := length_flatMap_const (fun p : F64 => leBytes 8 p.bits.toNat) 8 (fun _ => length_leBytes _ _) v
      rcases one .VEC_REAL _ hcut with h | ⟨t1, t2⟩
      · rw [de_ser, h]; rfl
      · rw [de_ser, t1, Out.bind_ok]; simp only [ofCode_code]
        rcases two _ 4 _ _ t2 (by omega) with h | ⟨t3, t4⟩
        · rw [h]; rfl
        · rw [t3, Out.bind_ok]; simp only []
          rw [vec v (fun x hx q nb h _ => f64o x q nb h) (fun x hx q nb h _ => Rd.getF64_ub h) 8 t4 (by omega)]; rfl
    | vecComplex v =>
      simp only [enc, List.length_append, length_leBytes] at hcut hlen
      have hc := length_flatMap_const encCplx 16 (fun _ => by simp [length_leBytes, encCplx]) v
      rcases one .VEC_COMPLEX _ hcut with h | ⟨t1, t2⟩
      · rw [de_ser, h]; rfl
      · rw [de_ser, t1, Out.bind_ok]; simp only [ofCode_code]
        rcases two _ 4 _ _ t2 (by omega) with h | ⟨t3, t4⟩
        · rw [h]; rfl
        · rw [t3, Out.bind_ok]; simp only []
          rw [vec v (fun x hx q nb h _ => c128o x q nb h) (fun x hx q nb h _ => Rd.getCplx_ub h) 8 t4 (by omega)]; rfl
    | vecString v =>
      simp only [enc, List.length_append, length_leBytes] at hcut hlen
      have hc := length_le_flatMap encStr (fun s => by rw [length_encStr]; omega) v
      simp only [storableNode, List.all_eq_true] at hs
      rcases one .VEC_STRING _ hcut with h | ⟨t1, t2⟩
      · rw [de_ser, h]; rfl
      · rw [de_ser, t1, Out.bind_ok]; simp only [ofCode_code]
        rcases two _ 4 _ _ t2 (by omega) with h | ⟨t3, t4⟩
        · rw [h]; rfl
        · rw [t3, Out.bind_ok]; simp only []
          rw [vec v (fun x hx q nb h hb => Rd.getStr_eq (hs x hx) h (by omega))
            (fun x hx q nb h hb => Rd.getStr_ub (hs x hx) (by rw [length_encStr] at hb; omega) h)
            8 t4 (by omega)]
          rfl
    | matInt m =>
      simp [WF, Mat.wf] at hw
      simp only [enc, List.length_append, length_leBytes] at hcut hlen
      rcases one .MAT_INTEGER _ hcut with h | ⟨t1, t2⟩
      · rw [de_ser, h]; rfl
      · rw [de_ser, t1, Out.bind_ok]; simp only [ofCode_code]
        rcases two _ 4 _ _ t2 (by omega) with h | ⟨t3, t4⟩
        · rw [h]; rfl
        · rw [t3, Out.bind_ok]; simp only []
          rcases two _ 8 _ _ t4 (by omega) with h | ⟨t5, t6⟩
          · rw [h]; rfl
          · rw [t5, Out.bind_ok]; simp only []
            rw [u32, ← hw.2, vec m.data (fun x hx q nb h _ => i32o x q nb h) (fun x hx q nb h _ => i32u x q nb h) 12 t6
              (by omega)]
            rfl
    | matLong m =>
      simp [WF, Mat.wf] at hw
      simp only [enc, List.length_append, length_leBytes] at hcut hlen
      rcases one .MAT_LONG _ hcut with h | ⟨t1, t2⟩
      · rw [de_ser, h]; rfl
      · rw [de_ser, t1, Out.bind_ok]; simp only [ofCode_code]
        rcases two _ 4 _ _ t2 (by omega) with h | ⟨t3, t4⟩
        · rw [h]; rfl
        · rw [t3, Out.bind_ok]; simp only []
          rcases two _ 8 _ _ t4 (by omega) with h | ⟨t5, t6⟩
          · rw [h]; rfl
          · rw [t5, Out.bind_ok]; simp only []
            rw [u32, ← hw.2, vec m.data (fun x hx q nb h _ => i64o x q nb h) (fun x hx q nb h _ => i64u x q nb h) 12 t6
              (by omega)]
            rfl
    | matReal m =>
      simp [WF, Mat.wf] at hw
      simp only [enc, List.length_append, length_leBytes] at hcut hlen
      rcases one .MAT_REAL _ hcut with h | ⟨t1, t2⟩
      · rw [de_ser, h]; rfl
      · rw [de_ser, t1, Out.bind_ok]; simp only [ofCode_code]
        rcases two _ 4 _ _ t2 (by omega) with h | ⟨t3, t4⟩
        · rw [h]; rfl
        · rw [t3, Out.bind_ok]; simp only []
          rcases two _ 8 _ _ t4 (by omega) with h | ⟨t5, t6⟩
          · rw [h]; rfl
          · rw [t5, Out.bind_ok]; simp only []
            rw [u32, ← hw.2, vec m.data (fun x hx q nb h _ => f64o x q nb h) (fun x hx q nb h _ => Rd.getF64_ub h) 12 t6
              (by omega)]
            rfl
  · intro v ih hs hw buf fuel p dim hfuel hcut hlen hdim
    obtain ⟨fuel, rfl⟩ : ∃ f, fuel = f + 1 := ⟨fuel - 1, by omega⟩
    have hs : everyL storableNode v = true := by
      simpa [Storable, every, storableNode] using hs
    have hw := WFL_iff.1 hw
    simp only [depth] at hfuel
    simp only [enc, encL_flatMap] at hcut
    simp only [enc, encL_flatMap, List.length_append, length_leBytes] at hlen
    have hc := length_le_flatMap enc enc_pos v
    rcases hcut.split with h | ⟨h1, h2⟩
    · rw [de_ser, Rd.get_ub h]; rfl
    rw [length_leBytes] at h2
    rw [de_ser, Rd.get_eq h1 (code_lt _), Out.bind_ok]; simp only [ofCode_code]
    rcases h2.split with h | ⟨h3, h4⟩
    · rw [Rd.get_ub h]; rfl
    rw [length_leBytes] at h4
    rw [Rd.get_eq h3 (by omega), Out.bind_ok]; simp only []
    have e1 : ((0 : Int) + (4 : Nat) + (4 : Nat)) = ((8 : Nat) : Int) := rfl
    rw [e1, Rd.each_ub (B := 8 + (v.flatMap enc).length) (c := p) (e := enc) v ?_ ?_ (p + 4 + 4) 8 rfl h4
      (by omega)]
    · rfl
    · intro x hx q nb hq h1 h2
      have := depth_le_of_mem hx
      have := At.le h1 (fun hc => by have := enc_pos x; rw [hc] at this; simp at this)
      simp only []
      rw [reads_all x (everyL_iff.1 hs x hx) (hw x hx) buf fuel q (dim - nb) (by omega) h1 (by omega)
        (by omega), Out.bind_ok]
      simp only []
      rw [addI32_of_lt (by omega), Out.bind_ok]
      rfl
    · intro x hx q nb hq h1 h2
      have := depth_le_of_mem hx
      have := h1.1
      simp only []
      rw [ih x hx (everyL_iff.1 hs x hx) (hw x hx) buf fuel q (dim - nb) (by omega) h1 (by omega)
        (by omega)]
      rfl
  · intro m ih hs hw buf fuel p dim hfuel hcut hlen hdim
    obtain ⟨fuel, rfl⟩ : ∃ f, fuel = f + 1 := ⟨fuel - 1, by omega⟩
    have hs : (∀ e ∈ m, noNul e.1 = true) ∧ everyM storableNode m = true := by
      simpa [Storable, every, storableNode] using hs
    have hw2 := WFM_iff.1 hw.2
    simp only [depth] at hfuel
    simp only [enc, encM_flatMap] at hcut
    simp only [enc, encM_flatMap, List.length_append, length_leBytes] at hlen
    have hc := length_le_flatMap (fun e : Bytes × GC => encStr e.1 ++ enc e.2)
      (fun e => by simp only [List.length_append]; have := enc_pos e.2; omega) m
    rcases hcut.split with h | ⟨h1, h2⟩
    · rw [de_ser, Rd.get_ub h]; rfl
    rw [length_leBytes] at h2
    rw [de_ser, Rd.get_eq h1 (code_lt _), Out.bind_ok]; simp only [ofCode_code]
    rcases h2.split with h | ⟨h3, h4⟩
    · rw [Rd.get_ub h]; rfl
    rw [length_leBytes] at h4
    rw [Rd.get_eq h3 (by omega), Out.bind_ok]; simp only []
    have e1 : ((0 : Int) + (4 : Nat) + (4 : Nat)) = ((8 : Nat) : Int) := rfl
    have e2 : (toI32 m.length).toNat = m.length := by rw [toI32_of_lt (by omega)]; simp
    rw [e1, e2, Rd.each_ub (B := 8 + (m.flatMap fun e => encStr e.1 ++ enc e.2).length) (c := p)
      (e := fun e => encStr e.1 ++ enc e.2) m ?_ ?_ (p + 4 + 4) 8 rfl h4 (by omega)]
    · rfl
    · intro e he q nb hq h1 h2
      have := depth_le_of_memM he
      rw [List.length_append] at h2 ⊢
      have hr := h1.right
      have := At.le hr (fun hc => by have := enc_pos e.2; rw [hc] at this; simp at this)
      rw [Rd.getStr_eq (hs.1 e he) h1.left (by omega), Out.bind_ok]
      simp only []
      rw [reads_all e.2 (everyM_iff.1 hs.2 e he) (hw2 e he) buf fuel _ _ (by omega) hr (by omega)
        (by omega), Out.bind_ok]
      simp only []
      rw [addI32_of_lt (by omega), Out.bind_ok]
      congr 3 <;> omega
    · intro e he q nb hq h1 h2
      have := depth_le_of_memM he
      rw [List.length_append] at h2
      rcases h1.split with h1 | ⟨h1, h3⟩
      · rw [Rd.getStr_ub (hs.1 e he) (by rw [length_encStr] at h2; omega) h1]; rfl
      · rw [Rd.getStr_eq (hs.1 e he) h1 (by omega), Out.bind_ok]
        have := h3.1
        simp only []
        rw [ih e he (everyM_iff.1 hs.2 e he) (hw2 e he) buf fuel _ _ (by omega) h3 (by omega)
          (by omega)]
        rfl
  · simp
  · intro x r hx hr y hy
    rcases List.mem_cons.1 hy with rfl | hy
    · exact hx
    · exact hr y hy
  · simp
  · intro k x r hx hr y hy
    rcases List.mem_cons.1 hy with rfl | hy
    · exact hx
    · exact hr y hy

end GC
end GCV
