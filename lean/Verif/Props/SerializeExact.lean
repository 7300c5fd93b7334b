import Verif.Lemmas.SerializeInj
import Verif.Props.Serialize

/-!
# C04, C05, C55: what the binary form says, reading a truncated form, what survives

`serialize n buf g` is `g.serialize( n, buf )`, `de_serialize fuel dim mem b` is
`b.de_serialize( dim, mem )`; see Props/Serialize.
-/

namespace GCV
namespace GC

/-- Bytes written by a successful `serialize`. -/
theorem serialize_ok {g : GC} {n : Nat} {buf out : Bytes} {k : Int} (hs : wireSize g < 2 ^ 31)
    (hn : n ≤ buf.length) (h31 : n < 2 ^ 31) (h : serialize n buf g = .ok (out, k)) :
    k = wireSize g ∧ out.take k.toNat = enc g ∧ out = enc g ++ buf.drop (wireSize g) := by
  have hg := writable_of_serialize hs h
  rw [serialize_eq hg hn h31] at h
  by_cases hc : wireSize g ≤ n
  · rw [if_pos hc] at h
    injection h with h
    injection h with h1 h2
    subst h1 h2
    refine ⟨rfl, ?_, rfl⟩
    rw [Int.toNat_natCast, ← length_enc.1 g, List.take_left]
  · rw [if_neg hc] at h; simp at h

/-! ## C04 Serialized form identifies the container -/

/-- Let `g1` and `g2` be any two containers, of less than 2 GiB in binary form, and let both be
serialized successfully (each into a buffer of its own, of any size).  If the bytes written for
`g1`, possibly followed by further ones, are the bytes written for `g2`, then `g1` and `g2` are the
same container and nothing follows. -/
theorem C04_prefix_free (g1 g2 : GC) (n1 n2 : Nat) (b1 b2 o1 o2 rest : Bytes) (k1 k2 : Int)
    (hw1 : WF g1) (hw2 : WF g2) (hs1 : wireSize g1 < 2 ^ 31) (hs2 : wireSize g2 < 2 ^ 31)
    (hn1 : n1 ≤ b1.length) (hn2 : n2 ≤ b2.length) (h1 : n1 < 2 ^ 31) (h2 : n2 < 2 ^ 31)
    (e1 : serialize n1 b1 g1 = .ok (o1, k1)) (e2 : serialize n2 b2 g2 = .ok (o2, k2))
    (hp : o1.take k1.toNat ++ rest = o2.take k2.toNat) : g1 = g2 ∧ rest = [] := by
  obtain ⟨-, t1, -⟩ := serialize_ok hs1 hn1 h1 e1
  obtain ⟨-, t2, -⟩ := serialize_ok hs2 hn2 h2 e2
  rw [t1, t2, ← List.append_nil (enc g2)] at hp
  exact enc_inj g1 g2 rest [] hw1 hw2 hs1 hs2 hp

/-- Two containers with pointers and NUL bytes, which C01 does not cover. -/
example : WF (vector [pointer 3, string [97, 0]]) ∧
    wireSize (vector [pointer 3, string [97, 0]]) < 2 ^ 31 ∧
    ∃ o k, serialize 50 (List.replicate 50 0) (vector [pointer 3, string [97, 0]]) = .ok (o, k) :=
  ⟨by decide +kernel, by decide +kernel, _, _, rfl⟩

/-! ## C05 de_serialize on arbitrary bytes -/

/-- Whatever the bytes and the announced count: if `de_serialize` returns, then the container is
well formed, contains no pointer, no complex matrix and no NUL inside strings and keys, and the
reported count is at most the announced one. -/
theorem C05_result (fuel : Nat) (dim : Int) (buf : Bytes) (prev g : GC) (k : Int)
    (h : de_serialize fuel dim buf prev = .ok (g, k)) : WF g ∧ Storable g ∧ k ≤ dim := by
  refine ⟨WF_de_ser fuel h, Storable_de_ser fuel h, ?_⟩
  unfold de_serialize at h
  cases fuel with
  | zero => simp [de_ser] at h
  | succ fuel =>
    rw [de_ser] at h
    obtain ⟨⟨tag, r⟩, -, h⟩ := out_bind_ok h
    have fin : ∀ {x : GC} {r : Rd},
        (if r.nbyte ≤ dim then Out.ok (x, r.nbyte) else .throw) = .ok (g, k) → k ≤ dim := by
      intro x r h
      split at h
      · rename_i hle
        simp only [Out.ok.injEq, Prod.mk.injEq] at h; omega
      · simp at h
    dsimp only at h
    split at h
    iterate 4 exact fin h
    iterate 6
      obtain ⟨_, -, h⟩ := out_bind_ok h
      exact fin h
    · obtain ⟨⟨_, _⟩, -, h⟩ := out_bind_ok h
      dsimp only at h
      split at h
      · simp at h
      · obtain ⟨_, -, h⟩ := out_bind_ok h
        exact fin h
    iterate 4
      obtain ⟨_, -, h⟩ := out_bind_ok h
      obtain ⟨_, -, h⟩ := out_bind_ok h
      exact fin h
    iterate 3
      obtain ⟨_, -, h⟩ := out_bind_ok h
      obtain ⟨_, -, h⟩ := out_bind_ok h
      obtain ⟨_, -, h⟩ := out_bind_ok h
      exact fin h
    · obtain ⟨_, -, h⟩ := out_bind_ok h
      obtain ⟨_, -, h⟩ := out_bind_ok h
      obtain ⟨_, -, h⟩ := out_bind_ok h
      obtain ⟨_, -, h⟩ := out_bind_ok h
      obtain ⟨_, -, h⟩ := out_bind_ok h
      exact fin h
    all_goals
      obtain ⟨_, -, h⟩ := out_bind_ok h
      obtain ⟨_, -, h⟩ := out_bind_ok h
      exact fin h

example : ∃ g k, de_serialize 3 8 [3, 0, 0, 0, 1, 2, 3, 4, 5] notype = .ok (g, k) := ⟨_, _, rfl⟩

/-- Truncation is never detected: for every container that can be read back, every proper prefix of
its binary form makes `de_serialize` read outside of the bytes, also when the announced count is
the true number of bytes. -/
theorem C05_every_truncation_negation (g prev : GC) (j : Nat) (fuel : Nat) (dim : Int)
    (hw : WF g) (hs : Storable g) (hsize : wireSize g < 2 ^ 31) (hfuel : depth g < fuel)
    (hj : j < wireSize g) (hdim : j ≤ dim) :
    ∃ bytes, serialize (wireSize g) (List.replicate (wireSize g) 0) g =
        .ok (bytes, (wireSize g : Int)) ∧
      de_serialize fuel dim (bytes.take j) prev = .ub := by
  have h := serialize_eq (hs.writable hsize) (n := wireSize g)
    (buf := List.replicate (wireSize g) 0) (by simp) hsize
  rw [if_pos (Nat.le_refl _)] at h
  refine ⟨_, h, ?_⟩
  rw [List.drop_of_length_le (by simp), List.append_nil]
  have hl := length_enc.1 g
  refine cut_all g hs hw _ fuel 0 dim hfuel ⟨by omega, (enc g).drop j, ?_, ?_⟩ (by omega) ?_
  · intro hc
    have := congrArg List.length hc
    rw [List.length_drop, hl, List.length_nil] at this; omega
  · rw [List.drop_zero, List.take_append_drop]
  · rw [List.length_take]; omega

example : WF sample ∧ Storable sample ∧ wireSize sample < 2 ^ 31 ∧ depth sample < 5 ∧
    40 < wireSize sample := by decide +kernel

/-- The same outcome, or `throw`. -/
def OrThrow {α : Type} (a b : Out α) : Prop := a = b ∨ a = .throw

theorem OrThrow.bind {α β : Type} {a b : Out α} {f g : α → Out β} (h : OrThrow a b) (hf : ∀ x, OrThrow (f x) (g x)) :
    OrThrow (a.bind f) (b.bind g) := by
  rcases h with rfl | rfl
  · cases a with
    | ok x => exact hf x
    | throw => exact .inr rfl
    | ub => exact .inl rfl
    | diverge => exact .inl rfl
  · exact .inr rfl

theorem OrThrow.each {α : Type} {f g : Rd → Out (α × Rd)} (h : ∀ r, OrThrow (f r) (g r)) :
    ∀ n r, OrThrow (Rd.each f n r) (Rd.each g n r)
  | 0, _ => .inl rfl
  | n + 1, r => by
    rw [Rd.each, Rd.each]
    exact (h r).bind fun x => (OrThrow.each h n x.2).bind fun y => .inl rfl

theorem de_ser_dim (buf : Bytes) : ∀ (fuel : Nat) (d e : Int) (pos : Int), d ≤ e →
    OrThrow (de_ser buf fuel d pos) (de_ser buf fuel e pos)
  | 0, _, _, _, _ => .inl rfl
  | fuel + 1, d, e, pos, h => by
    have fin : ∀ x : GC × Rd, OrThrow (if x.2.nbyte ≤ d then Out.ok (x.1, x.2.nbyte) else .throw)
        (if x.2.nbyte ≤ e then Out.ok (x.1, x.2.nbyte) else .throw) := by
      intro x
      by_cases hx : x.2.nbyte ≤ d
      · rw [if_pos hx, if_pos (by omega)]; exact .inl rfl
      · rw [if_neg hx]; exact .inr rfl
    rw [de_ser, de_ser]
    refine OrThrow.bind (.inl rfl) fun x => ?_
    obtain ⟨tag, r⟩ := x
    dsimp only
    split
    iterate 4 exact fin (_, _)
    iterate 6 exact OrThrow.bind (.inl rfl) fun x => fin (_, _)
    · refine OrThrow.bind (.inl rfl) fun x => ?_
      by_cases hx : toI32 x.1 < 0
      · rw [if_pos hx, if_pos hx]; exact .inl rfl
      · rw [if_neg hx, if_neg hx]
        exact OrThrow.bind (.inl rfl) fun x => fin (_, _)
    iterate 4
      exact OrThrow.bind (.inl rfl) fun x => OrThrow.bind (.inl rfl) fun x => fin (_, _)
    iterate 3
      exact OrThrow.bind (.inl rfl) fun x => OrThrow.bind (.inl rfl) fun x => OrThrow.bind (.inl rfl) fun x => fin (_, _)
    · exact OrThrow.bind (.inl rfl) fun x => OrThrow.bind (.inl rfl) fun x => OrThrow.bind (.inl rfl) fun x =>
        OrThrow.bind (.inl rfl) fun x => OrThrow.bind (.inl rfl) fun x => fin (_, _)
    · exact OrThrow.bind (.inl rfl) fun x => OrThrow.bind (.inl rfl) fun x => fin (_, _)
    · refine OrThrow.bind (.inl rfl) fun x => OrThrow.bind (OrThrow.each (fun r => ?_) _ _) fun x => fin (_, _)
      exact (de_ser_dim buf fuel _ _ _ (by omega)).bind fun _ => .inl rfl
    · refine OrThrow.bind (.inl rfl) fun x => OrThrow.bind (OrThrow.each (fun r => ?_) _ _) fun x => fin (_, _)
      exact OrThrow.bind (.inl rfl) fun y => (de_ser_dim buf fuel _ _ _ (by omega)).bind fun _ => .inl rfl

/-- The announced count has no other effect than an error: with a smaller one `de_serialize` does the same as with a
larger one, or throws. -/
theorem C05_announced (fuel : Nat) (d e : Int) (h : d ≤ e) (buf : Bytes) (prev : GC) :
    de_serialize fuel d buf prev = de_serialize fuel e buf prev ∨ de_serialize fuel d buf prev = .throw :=
  de_ser_dim buf fuel d e 0 h

/-- If `de_serialize` returns with some announced count, then with a count smaller than the number of bytes it used it
throws. -/
theorem C05_short (fuel : Nat) (d e : Int) (buf : Bytes) (prev g : GC) (k : Int)
    (h : de_serialize fuel e buf prev = .ok (g, k)) (hk : d < k) : de_serialize fuel d buf prev = .throw := by
  have hd : d ≤ e := by
    have := (C05_result fuel e buf prev g k h).2.2
    omega
  rcases C05_announced fuel d e hd buf prev with h1 | h1
  · rw [h] at h1
    have := (C05_result fuel d buf prev g k h1).2.2
    omega
  · exact h1

example : de_serialize 3 8 [3, 0, 0, 0, 1, 2, 3, 4, 5] notype = .ok (int 0x04030201, 8) := rfl

theorem toI32_neg {n : Nat} (h1 : 2 ^ 31 ≤ n) (h2 : n < 2 ^ 32) : toI32 n < 0 := by
  rw [toI32, BitVec.toInt_eq_toNat_cond, BitVec.toNat_ofNat, Nat.mod_eq_of_lt h2, if_neg (by omega)]
  omega

/-- A vector of booleans announced with 2^31 elements or more, that is, with the highest bit of the count set, is refused
with an error. -/
theorem C05_vec_bool_count (fuel : Nat) (dim : Int) (a b c d : Byte) (tail : Bytes) (prev : GC) (hd : 128 ≤ d.toNat) :
    de_serialize (fuel + 1) dim (9 :: 0 :: 0 :: 0 :: a :: b :: c :: d :: tail) prev = .throw := by
  have hneg : toI32 (leValue [a, b, c, d]) < 0 := by
    have h1 := a.isLt
    have h2 := b.isLt
    have h3 := c.isLt
    have h4 := d.isLt
    apply toI32_neg <;> simp only [leValue] <;> omega
  rw [de_serialize, de_ser]
  have e1 : Rd.get (9 :: 0 :: 0 :: 0 :: a :: b :: c :: d :: tail) 4 ⟨0, 0⟩ = .ok (9, ⟨4, 4⟩) := rfl
  have e2 : Rd.get (9 :: 0 :: 0 :: 0 :: a :: b :: c :: d :: tail) 4 ⟨4, 4⟩ = .ok (leValue [a, b, c, d], ⟨8, 8⟩) := rfl
  rw [e1, Out.bind_ok]
  show (Rd.get (9 :: 0 :: 0 :: 0 :: a :: b :: c :: d :: tail) 4 ⟨4, 4⟩).bind _ = _
  rw [e2, Out.bind_ok]
  exact if_pos hneg

/-! ## C55 Which containers survive serialization -/

/-- Serializing a container of less than 2 GiB into a buffer that is large enough, and reading it
back, gives the container again if and only if there is no pointer and no complex matrix anywhere in
it and no NUL inside its strings and keys. -/
theorem C55_survives_iff (g prev : GC) (n : Nat) (buf : Bytes) (fuel : Nat) (hw : WF g)
    (hfit : wireSize g ≤ n) (hn : n ≤ buf.length) (h31 : n < 2 ^ 31) (hfuel : depth g < fuel) :
    (∃ out k, serialize n buf g = .ok (out, k) ∧ de_serialize fuel n out prev = .ok (g, k)) ↔
    Storable g := by
  constructor
  · rintro ⟨out, k, -, h⟩
    exact Storable_de_ser fuel h
  · intro hs
    have hg := hs.writable (by omega)
    have h := serialize_eq hg hn h31
    rw [if_pos hfit] at h
    exact ⟨_, _, h, C01_round_trip_same_memory_partial g prev n buf _ _ n fuel hw hs hg hn h31 h hfuel
      (by omega)⟩

/-- What comes back of a container with NUL bytes inside, without pointers and complex matrices: the same container with
its strings and keys cut at the first NUL.  Everything else is unchanged, and all the bytes written are read. -/
theorem C55_comes_back (g prev : GC) (n : Nat) (buf : Bytes) (fuel : Nat) (hw : WF g) (hp : NoPtrNoMatC g)
    (hfit : wireSize g ≤ n) (hn : n ≤ buf.length) (h31 : n < 2 ^ 31) (hfuel : depth g < fuel) :
    ∃ out, serialize n buf g = .ok (out, (wireSize g : Int)) ∧
      de_serialize fuel n out prev = .ok (cutNul g, (wireSize g : Int)) := by
  have hg : Writable g := writable_of_size.1 g
    ((every_mono (by intro g hg; cases g <;> first | rfl | simp [bytesNode] at hg)).1 g hp) (by omega)
  have h := serialize_eq hg hn h31
  rw [if_pos hfit] at h
  refine ⟨_, h, ?_⟩
  have hl := length_enc.1 g
  have := reads_cut g hp hw (enc g ++ buf.drop (wireSize g)) fuel 0 n hfuel ⟨buf.drop (wireSize g), by simp⟩ (by omega)
    (by omega)
  rw [hl] at this
  exact this

/-- The entry of the map that comes back under a key: the last one whose key is that one up to its first NUL. -/
theorem C55_comes_back_entry (m : Entries) (k : Bytes) :
    ∃ m', cutNul (map m) = map m' ∧
      mfind k m' = ((m.reverse.find? fun e => decide (beforeNul e.1 = k)).map fun e => cutNul e.2) := by
  refine ⟨_, by rw [cutNul, cutNulM_map], ?_⟩
  have key : ∀ (l : Entries) (acc : Entries), mfind k ((l.map fun e => (beforeNul e.1, cutNul e.2)).foldl
      (fun m e => mset e.1 e.2 m) acc) = ((l.reverse.find? fun e => decide (beforeNul e.1 = k)).map fun e => cutNul e.2).or
        (mfind k acc) := by
    intro l
    induction l with
    | nil => intro acc; simp
    | cons e l ih =>
      intro acc
      rw [List.map_cons, List.foldl_cons, ih, List.reverse_cons, List.find?_append]
      cases hf : l.reverse.find? (fun e => decide (beforeNul e.1 = k)) with
      | some x => simp
      | none =>
        by_cases he : beforeNul e.1 = k
        · simp [he, mfind_mset_same]
        · simp [he, mfind_mset_other (Ne.symm he)]
  rw [key]
  simp [mfind]

example : WF (vector [string [97, 0, 98], int 7]) ∧ NoPtrNoMatC (vector [string [97, 0, 98], int 7]) ∧
    cutNul (vector [string [97, 0, 98], int 7]) = vector [string [97], int 7] ∧
    cutNul (map [([97], int 1), ([97, 0], int 2)]) = map [([97], int 2)] := by decide +kernel

/-- The same for the `std::vector<uint8_t>` versions. -/
theorem C55_survives_vec_iff (g prev : GC) (buf : Bytes) (fuel : Nat) (hw : WF g)
    (hfit : wireSize g ≤ buf.length) (h31 : buf.length < 2 ^ 31) (hfuel : depth g < fuel) :
    (∃ out k, serialize_vec buf g = .ok (out, k) ∧ de_serialize_vec fuel out prev = .ok (g, k)) ↔
    Storable g := by
  rw [← C55_survives_iff g prev buf.length buf fuel hw hfit (Nat.le_refl _) h31 hfuel]
  unfold serialize_vec de_serialize_vec
  rw [toI32_of_lt h31]
  constructor
  · rintro ⟨out, k, h1, h2⟩
    refine ⟨out, k, h1, ?_⟩
    rwa [(serialize_ok (by omega) (Nat.le_refl _) h31 h1).2.2, List.length_append, length_enc.1,
      List.length_drop, show wireSize g + (buf.length - wireSize g) = buf.length by omega,
      ← (serialize_ok (by omega) (Nat.le_refl _) h31 h1).2.2, toI32_of_lt h31] at h2
  · rintro ⟨out, k, h1, h2⟩
    refine ⟨out, k, h1, ?_⟩
    rwa [(serialize_ok (by omega) (Nat.le_refl _) h31 h1).2.2, List.length_append, length_enc.1,
      List.length_drop, show wireSize g + (buf.length - wireSize g) = buf.length by omega,
      ← (serialize_ok (by omega) (Nat.le_refl _) h31 h1).2.2, toI32_of_lt h31]

example : WF sample ∧ wireSize sample ≤ 200 ∧ depth sample < 5 := by decide +kernel

/-! ## C62 Exactly what serialize does -/

/-- Undefined, or refused for lack of room. -/
def Fails (need : Nat) (o : Out Wr) (avail : Int) : Prop :=
  (o = .ub ∨ o = .throw) ∧ ((need : Int) ≤ avail → o = .ub)

theorem fails_bind {w : Wr} (h : w.Good) (a : Bytes) {f : Wr → Out Wr} {n : Nat}
    (hf : ∀ w', w'.Good → Fails n (f w') w'.avail) :
    Fails (a.length + n) ((w.tryPut a).bind f) w.avail := by
  unfold Wr.tryPut
  by_cases ha : (a.length : Int) ≤ w.avail
  · rw [if_pos ha]
    obtain ⟨h1, h2⟩ := hf _ (Wr.good_write h ha)
    refine ⟨h1, fun hn => h2 ?_⟩
    show _ ≤ w.avail - a.length
    push_cast at hn
    omega
  · rw [if_neg ha]
    exact ⟨.inr rfl, fun hn => by push_cast at hn; omega⟩

theorem fails_all :
    (∀ g, every notMatC g = false → wireSize g < 2 ^ 31 → ∀ w : Wr, w.Good →
      Fails (wireSize g) (ser g w) w.avail) ∧
    (∀ v, everyL notMatC v = false → wireSizeL v < 2 ^ 31 → ∀ w : Wr, w.Good →
      Fails (wireSizeL v) (serL v w) w.avail) ∧
    (∀ m, everyM notMatC m = false → wireSizeM m < 2 ^ 31 → ∀ w : Wr, w.Good →
      Fails (wireSizeM m) (serM m w) w.avail) := by
  apply GC.induct
  · intro g hv hm hg hs w h
    cases g <;> first
      | exact absurd rfl (hv _)
      | exact absurd rfl (hm _)
      | simp [every, notMatC] at hg
    rename_i m
    have h32 : ∀ x (w : Wr), w.Good → w.put32 x = w.tryPut (leBytes 4 x) :=
      fun x w h => Wr.put_eq h _
    have h64 : ∀ x (w : Wr), w.Good → w.put64 x = w.tryPut (leBytes 8 x) :=
      fun x w h => Wr.put_eq h _
    have hc : ∀ c (w : Wr), w.Good → ((w.put64 c.re.bits.toNat).bind
        fun w => w.put64 c.im.bits.toNat) = w.tryPut (encCplx c) := by
      intro c w h
      rw [h64 _ _ h]; exact Wr.bind_tryPut h _ _ fun w h => h64 _ _ h
    rw [ser, h32 _ _ h, Wr.bind_tryPut h _ (leBytes 4 m.nr ++ (leBytes 4 m.nc ++ m.data.flatMap encCplx))
      fun w h => by
      rw [h32 _ _ h]
      refine Wr.bind_tryPut h _ _ fun w h => ?_
      rw [h32 _ _ h]
      exact Wr.bind_tryPut h _ _ (Wr.each_eq m.data fun x _ => hc x)]
    have hl : (m.data.flatMap encCplx).length = 16 * m.data.length :=
      length_flatMap_const encCplx 16 (by simp [encCplx, length_leBytes]) _
    unfold Wr.tryPut
    simp only [List.length_append, length_leBytes, hl]
    split
    · exact ⟨.inl rfl, fun _ => rfl⟩
    · rename_i hn
      refine ⟨.inr rfl, fun h => ?_⟩
      simp only [wireSize] at h
      omega
  · intro v ih hg hs w h
    simp only [every, notMatC, Bool.true_and] at hg
    simp only [wireSize] at hs
    rw [ser, Wr.put32, Wr.put_eq h]
    have e : wireSize (vector v) = (leBytes 4 (Ty.code .VECTOR)).length +
        ((leBytes 4 v.length).length + wireSizeL v) := by
      simp [wireSize, length_leBytes]; omega
    rw [e]
    refine fails_bind h _ fun w h => ?_
    rw [Wr.put32, Wr.put_eq h]
    exact fails_bind h _ (ih hg (by omega))
  · intro m ih hg hs w h
    simp only [every, notMatC, Bool.true_and] at hg
    simp only [wireSize] at hs
    rw [ser, Wr.put32, Wr.put_eq h]
    have e : wireSize (map m) = (leBytes 4 (Ty.code .MAP)).length +
        ((leBytes 4 m.length).length + wireSizeM m) := by
      simp [wireSize, length_leBytes]; omega
    rw [e]
    refine fails_bind h _ fun w h => ?_
    rw [Wr.put32, Wr.put_eq h]
    exact fails_bind h _ (ih hg (by omega))
  · intro hg; simp [everyL] at hg
  · intro x r hx hr hg hs w h
    simp only [everyL] at hg
    simp only [wireSizeL] at hs ⊢
    rw [serL]
    cases hb : every notMatC x with
    | false =>
      obtain ⟨h1, h2⟩ := hx hb (by omega) w h
      refine ⟨by rcases h1 with h1 | h1 <;> simp [h1, Out.bind], fun hn => ?_⟩
      rw [h2 (by push_cast at hn; omega)]; rfl
    | true =>
      rw [ser_eq.1 x (writable_of_size.1 x hb (by omega)) w h, ← length_enc.1 x]
      exact fails_bind h _ (hr (by simpa [hb] using hg) (by omega))
  · intro hg; simp [everyM] at hg
  · intro k x r hx hr hg hs w h
    simp only [everyM] at hg
    simp only [wireSizeM] at hs ⊢
    rw [serM, Wr.putStr_eq h k (by omega), Nat.add_assoc _ (wireSize x), ← length_encStr]
    refine fails_bind h _ fun w h => ?_
    cases hb : every notMatC x with
    | false =>
      obtain ⟨h1, h2⟩ := hx hb (by omega) w h
      refine ⟨by rcases h1 with h1 | h1 <;> simp [h1, Out.bind], fun hn => ?_⟩
      rw [h2 (by push_cast at hn; omega)]; rfl
    | true =>
      rw [ser_eq.1 x (writable_of_size.1 x hb (by omega)) w h, ← length_enc.1 x]
      exact fails_bind h _ (hr (by simpa [hb] using hg) (by omega))

/-- `serialize` of a container of less than 2 GiB into a buffer of `n` bytes.  It succeeds if and
only if there is no complex matrix in the container and `n` is at least `mem_size()`; then it has
written `mem_size()` bytes and no other.  Without a complex matrix it throws otherwise.  With one,
it throws or is undefined, and is undefined whenever the buffer is large enough. -/
theorem C62_serialize (g : GC) (n : Nat) (buf : Bytes) (hs : wireSize g < 2 ^ 31)
    (hn : n ≤ buf.length) (h31 : n < 2 ^ 31) :
    ∃ s : Nat, mem_size g = .ok s ∧
      ((∃ r, serialize n buf g = .ok r) ↔ NoComplexMatrix g ∧ s ≤ n) ∧
      (∀ out k, serialize n buf g = .ok (out, k) →
        k = s ∧ out.length = buf.length ∧ out.drop s = buf.drop s) ∧
      (NoComplexMatrix g → n < s → serialize n buf g = .throw) ∧
      (¬ NoComplexMatrix g → serialize n buf g = .throw ∨ serialize n buf g = .ub) ∧
      (¬ NoComplexMatrix g → s ≤ n → serialize n buf g = .ub) := by
  refine ⟨wireSize g, mem_size_eq.1 g hs, ?_⟩
  by_cases hc : NoComplexMatrix g
  · have hw := writable_of_size.1 g hc hs
    have he := serialize_eq hw hn h31
    refine ⟨?_, ?_, ?_, fun h => absurd hc h, fun h => absurd hc h⟩
    · rw [he]
      constructor
      · rintro ⟨r, h⟩
        refine ⟨hc, ?_⟩
        by_cases hl : wireSize g ≤ n
        · exact hl
        · rw [if_neg hl] at h; simp at h
      · rintro ⟨-, h⟩; exact ⟨_, by rw [if_pos h]⟩
    · intro out k h
      obtain ⟨h1, -, h2⟩ := serialize_ok hs hn h31 h
      rw [he] at h
      by_cases hl : wireSize g ≤ n
      · refine ⟨h1, ?_, ?_⟩
        · rw [h2, List.length_append, length_enc.1, List.length_drop]; omega
        · rw [h2, ← length_enc.1 g, List.drop_left]
      · rw [if_neg hl] at h; simp at h
    · intro _ h; rw [he, if_neg (by omega)]
  · have hf := fails_all.1 g (by simpa [NoComplexMatrix] using hc) hs ⟨buf, 0, n⟩
      ⟨by simp, by simp; omega, by simp; omega⟩
    have hno : ∀ r, serialize n buf g ≠ .ok r := by
      intro r h
      obtain ⟨w, hw, -⟩ := out_bind_ok h
      exact hc (no_matC_of_ser.1 g _ _ hw)
    refine ⟨⟨fun ⟨r, h⟩ => absurd h (hno r), fun h => absurd h.1 hc⟩,
      fun out k h => absurd h (hno _), fun h => absurd h hc, fun _ => ?_, fun _ h => ?_⟩
    · unfold serialize
      rcases hf.1 with h | h <;> simp [h, Out.bind]
    · unfold serialize
      rw [hf.2 (by simpa using h)]; rfl

example : wireSize (vector [int 1, matComplex ⟨1, 1, [.zero]⟩]) < 2 ^ 31 ∧
    ¬ NoComplexMatrix (vector [int 1, matComplex ⟨1, 1, [.zero]⟩]) ∧
    serialize 50 (List.replicate 50 0) (vector [int 1, matComplex ⟨1, 1, [.zero]⟩]) = .ub ∧
    serialize 10 (List.replicate 50 0) (vector [int 1, matComplex ⟨1, 1, [.zero]⟩]) = .throw ∧
    NoComplexMatrix sample := by decide +kernel

end GC
end GCV
