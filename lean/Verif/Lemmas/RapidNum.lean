import Verif.Lemmas.Rapid

/-! # Lemmas on the RapidJSON reader: numbers -/

namespace GCV
namespace Rapid
open Json

theorem isDigit_iff (c : Byte) : isDigit c = true ↔ 48 ≤ c.toNat ∧ c.toNat ≤ 57 := by
  simp [isDigit]

/-- All of these are digits. -/
def AllDigits (ds : Bytes) : Prop := ∀ c ∈ ds, 48 ≤ c.toNat ∧ c.toNat ≤ 57

/-- The number that digits make behind the number `i`. -/
def val (i : Nat) (ds : Bytes) : Nat := ds.foldl (fun a c => 10 * a + (c.toNat - 48)) i

theorem val_cons (i : Nat) (c : Byte) (ds : Bytes) : val i (c :: ds) = val (10 * i + (c.toNat - 48)) ds := by
  rw [val, val, List.foldl_cons]

theorem le_val : ∀ (ds : Bytes) (i : Nat), i ≤ val i ds
  | [], _ => Nat.le_refl _
  | c :: ds, i => by rw [val_cons]; have := le_val ds (10 * i + (c.toNat - 48)); omega

theorem val_append (i : Nat) (a b : Bytes) : val i (a ++ b) = val (val i a) b := List.foldl_append

theorem digitsValue_val {ds : Bytes} (h : AllDigits ds) : digitsValue ds = val 0 ds := by
  have : ∀ (ds : Bytes) (i : Nat), AllDigits ds →
      ds.foldl (fun (a : Int) c => 10 * a + ((c.toNat : Int) - 48)) i = (val i ds : Nat) := by
    intro ds
    induction ds with
    | nil => intro i _; rfl
    | cons c ds ih =>
      intro i h
      rw [List.foldl_cons, val_cons, ← ih _ fun d hd => h d (.tail _ hd)]
      have := h c (by simp)
      congr 1
      omega
  exact this ds 0 h

theorem skipDigits_digits : ∀ (ds r : Bytes), AllDigits ds → isDigit (peek r) = false → skipDigits (ds ++ r) = r
  | [], [], _, _ => rfl
  | [], c :: r, _, h => by rw [List.nil_append, skipDigits, if_neg (by simpa [peek] using h)]
  | c :: ds, r, h, hr => by
    rw [List.cons_append, skipDigits, if_pos ((isDigit_iff c).2 (h c (by simp)))]
    exact skipDigits_digits ds r (fun d hd => h d (.tail _ hd)) hr

theorem skipDigits_split : ∀ t : Bytes, ∃ ds, t = ds ++ skipDigits t ∧ AllDigits ds ∧ isDigit (peek (skipDigits t)) = false
  | [] => ⟨[], rfl, (fun c hc => by cases hc), rfl⟩
  | c :: r => by
    by_cases h : isDigit c = true
    · obtain ⟨ds, h1, h2, h3⟩ := skipDigits_split r
      rw [skipDigits, if_pos h]
      refine ⟨c :: ds, by rw [List.cons_append, ← h1], ?_, h3⟩
      intro d hd
      rcases List.mem_cons.1 hd with rfl | hd
      · exact (isDigit_iff _).1 h
      · exact h2 d hd
    · rw [skipDigits, if_neg h]
      exact ⟨[], rfl, (fun c hc => by cases hc), by simpa [peek] using h⟩

theorem someDigits_digits {ds r : Bytes} (h : Digits ds) (hr : isDigit (peek r) = false) :
    someDigits (ds ++ r) = some r := by
  obtain ⟨hne, h⟩ := h
  match ds with
  | [] => exact absurd rfl hne
  | c :: ds =>
    rw [List.cons_append, someDigits, if_pos ((isDigit_iff c).2 (h c (by simp))),
      skipDigits_digits ds r (fun d hd => h d (.tail _ hd)) hr]

theorem someDigits_some {t r : Bytes} (h : someDigits t = some r) :
    ∃ ds, t = ds ++ r ∧ Digits ds ∧ isDigit (peek r) = false := by
  match t with
  | [] => cases h
  | c :: t =>
    rw [someDigits] at h
    split at h
    · next hc =>
      obtain ⟨ds, h1, h2, h3⟩ := skipDigits_split t
      simp only [Option.some.injEq] at h
      rw [h] at h1 h3
      refine ⟨c :: ds, by rw [List.cons_append, ← h1], ⟨by simp, ?_⟩, h3⟩
      intro d hd
      rcases List.mem_cons.1 hd with rfl | hd
      · exact (isDigit_iff _).1 hc
      · exact h2 d hd
    · cases h

/-- The loop over the digits: up to the greatest number that fits, or broken off. -/
theorem digits_spec {w lim : Nat} {last : Byte} (hl : 48 ≤ last.toNat ∧ last.toNat ≤ 57)
    (hw : 10 * lim + (last.toNat - 48) < 2 ^ w) :
    ∀ (ds r : Bytes) (i : Nat), AllDigits ds → isDigit (peek r) = false → i ≤ 10 * lim + (last.toNat - 48) →
      (val i ds ≤ 10 * lim + (last.toNat - 48) → digits w lim last i (ds ++ r) = (val i ds, false, r)) ∧
      (10 * lim + (last.toNat - 48) < val i ds → ∃ a b, ds = a ++ b ∧
        digits w lim last i (ds ++ r) = (val i a, true, b ++ r) ∧ val i a ≤ 10 * lim + (last.toNat - 48))
  | [], [], i, _, _, hi => ⟨fun _ => rfl, fun h => absurd h (by show ¬ _ < i; omega)⟩
  | [], c :: r, i, _, hr, hi => by
    refine ⟨fun _ => ?_, fun h => absurd h (by show ¬ _ < i; omega)⟩
    rw [List.nil_append, digits, if_neg (by simpa [peek] using hr)]; rfl
  | c :: ds, r, i, hd, hr, hi => by
    have hc := hd c (by simp)
    rw [List.cons_append, digits, if_pos ((isDigit_iff c).2 hc), val_cons]
    by_cases hb : lim ≤ i ∧ (i ≠ lim ∨ last.toNat < c.toNat)
    · rw [if_pos hb]
      have hbig : 10 * lim + (last.toNat - 48) < 10 * i + (c.toNat - 48) := by omega
      refine ⟨fun h => absurd h ?_, fun _ => ⟨[], c :: ds, rfl, rfl, hi⟩⟩
      have := le_val ds (10 * i + (c.toNat - 48))
      omega
    · rw [if_neg hb]
      have hsm : 10 * i + (c.toNat - 48) ≤ 10 * lim + (last.toNat - 48) := by omega
      rw [show (i * 10 + (c.toNat - 48)) % 2 ^ w = 10 * i + (c.toNat - 48) by
        rw [Nat.mod_eq_of_lt (by omega)]; omega]
      obtain ⟨h1, h2⟩ := digits_spec hl hw ds r _ (fun d hd' => hd d (.tail _ hd')) hr hsm
      refine ⟨h1, fun h => ?_⟩
      obtain ⟨a, b, rfl, h3, h4⟩ := h2 h
      exact ⟨c :: a, b, rfl, h3, h4⟩

/-- The greatest absolute values of 32 and of 64 bits. -/
def max32 (minus : Bool) : Nat := if minus then 2 ^ 31 else 2 ^ 32 - 1
def max64 (minus : Bool) : Nat := if minus then 2 ^ 63 else 2 ^ 64 - 1

theorem intPart_spec {minus : Bool} {b r : Bytes} (hb : Rfc.Int b) (hr : b = [48] ∨ isDigit (peek r) = false) :
    ∃ i u d r', intPart minus (b ++ r) = some (i, u, d, r') ∧ (if d then skipDigits r' else r') = r ∧
      (d = true ↔ max64 minus < val 0 b) ∧ (u = true ↔ max32 minus < val 0 b) ∧ (d = false → i = val 0 b) := by
  by_cases h0 : b = [48]
  · subst h0
    refine ⟨0, false, false, r, ?_, rfl, ?_, ?_, fun _ => rfl⟩
    · rw [List.cons_append, intPart, if_pos rfl]; rfl
    · simp [val]
    · simp [val]
  · replace hr := hr.resolve_left h0
    obtain ⟨⟨hne, hd⟩, hh⟩ := hb.resolve_left h0
    clear hb h0
    match b, hne, hd, hh with
    | c :: ds, _, hd, hh =>
      have hc := hd c (by simp)
      have hds : AllDigits ds := fun d h => hd d (.tail _ h)
      have hc0 : c ≠ 48 := fun e => hh (by rw [e]; rfl)
      have hc1 : 49 ≤ c.toNat := by
        rcases Nat.lt_or_ge c.toNat 49 with h | h
        · exact absurd (BitVec.eq_of_toNat_eq (by show c.toNat = 48; omega)) hc0
        · exact h
      have hv : val 0 (c :: ds) = val (c.toNat - 48) ds := by rw [val_cons]; simp
      rw [List.cons_append, intPart, if_neg hc0, if_pos ⟨hc1, hc.2⟩]
      have key : ∀ (l1 l2 : Nat) (c1 c2 : Byte) (m1 m2 : Nat), 48 ≤ c1.toNat ∧ c1.toNat ≤ 57 →
          48 ≤ c2.toNat ∧ c2.toNat ≤ 57 → 10 * l1 + (c1.toNat - 48) = m1 → 10 * l2 + (c2.toNat - 48) = m2 →
          9 ≤ m1 → m1 ≤ m2 → m1 < 2 ^ 32 → m2 < 2 ^ 64 → ∃ i u d r',
          (let (i, use64, r) := digits 32 l1 c1 (c.toNat - 48) (ds ++ r)
           if use64 then
             let (i, useDouble, r) := digits 64 l2 c2 i r
             some (i, true, useDouble, r)
           else some (i, false, false, r)) = some (i, u, d, r') ∧
          (if d then skipDigits r' else r') = r ∧
          (d = true ↔ m2 < val 0 (c :: ds)) ∧ (u = true ↔ m1 < val 0 (c :: ds)) ∧ (d = false → i = val 0 (c :: ds)) := by
        intro l1 l2 c1 c2 m1 m2 hc1 hc2 e1 e2 h9 hm h32 h64
        have s1 := digits_spec (w := 32) (lim := l1) hc1 (by omega) ds r (c.toNat - 48) hds hr (by omega)
        rw [e1] at s1
        rcases Nat.lt_or_ge m1 (val (c.toNat - 48) ds) with hlt | hge
        · obtain ⟨a, b, rfl, h3, h4⟩ := s1.2 hlt
          have ha : AllDigits b := fun d hd => hds d (List.mem_append_right _ hd)
          have s2 := digits_spec (w := 64) (lim := l2) hc2 (by omega) b r (val (c.toNat - 48) a) ha hr (by omega)
          rw [e2, ← val_append, ← hv] at s2
          rw [← hv] at hlt
          rw [h3]
          dsimp only
          rw [if_pos rfl]
          rcases Nat.lt_or_ge m2 (val 0 (c :: (a ++ b))) with hlt2 | hge2
          · obtain ⟨a2, b2, rfl, h5, _⟩ := s2.2 hlt2
            rw [h5]
            refine ⟨_, true, true, b2 ++ r, rfl, ?_, ?_, ?_, by simp⟩
            · rw [if_pos rfl]
              exact skipDigits_digits b2 r (fun d hd => ha d (List.mem_append_right _ hd)) hr
            · simpa using hlt2
            · simpa using hlt
          · rw [s2.1 hge2]
            exact ⟨_, true, false, r, rfl, rfl, by simpa using hge2, by simpa using hlt, fun _ => rfl⟩
        · rw [s1.1 hge]
          rw [← hv] at hge ⊢
          exact ⟨_, false, false, r, rfl, rfl, by simp; omega, by simpa using hge, fun _ => rfl⟩
      cases minus with
      | true => exact (key 214748364 0x0CCCCCCCCCCCCCCC 56 56 (2 ^ 31) (2 ^ 63) (by decide) (by decide) (by decide)
          (by decide) (by decide) (by decide) (by decide) (by decide))
      | false => exact (key 429496729 0x1999999999999999 53 53 (2 ^ 32 - 1) (2 ^ 64 - 1) (by decide) (by decide) (by decide)
          (by decide) (by decide) (by decide) (by decide) (by decide))

theorem intPart_some {minus : Bool} {t : Bytes} {x : Nat × Bool × Bool × Bytes} (h : intPart minus t = some x) :
    ∃ b r, t = b ++ r ∧ Rfc.Int b ∧ (b = [48] ∨ isDigit (peek r) = false) := by
  match t with
  | [] => cases h
  | c :: t =>
    rw [intPart] at h
    split at h
    · next hc => subst hc; exact ⟨[48], t, rfl, .inl rfl, .inl rfl⟩
    · next h0 =>
      split at h
      · next hc =>
        obtain ⟨ds, h1, h2, h3⟩ := skipDigits_split t
        refine ⟨c :: ds, _, by rw [List.cons_append, ← h1], .inr ⟨⟨by simp, ?_⟩, ?_⟩, .inr h3⟩
        · intro d hd
          rcases List.mem_cons.1 hd with rfl | hd
          · omega
          · exact h2 d hd
        · simp only [List.head?_cons, ne_eq, Option.some.injEq]; exact h0
      · cases h

/-- A fraction or nothing. -/
def Frac (f : Bytes) : Prop := f = [] ∨ ∃ d, f = 46 :: d ∧ Digits d
/-- An exponent or nothing. -/
def Expo (e : Bytes) : Prop := e = [] ∨ ∃ x y d, e = x :: y ++ d ∧ (x = 101 ∨ x = 69) ∧ Sign y ∧ Digits d

theorem fraction_spec {f r : Bytes} (hf : Frac f) (h1 : f = [] → peek r ≠ 46) (h2 : f ≠ [] → isDigit (peek r) = false) :
    fraction (f ++ r) = some (!f.isEmpty, r) := by
  rcases hf with rfl | ⟨d, rfl, hd⟩
  · have : consume 46 r = none := by
      cases hc : consume 46 r with
      | none => rfl
      | some x => rw [consume_some.1 hc] at h1; exact absurd rfl (h1 rfl)
    rw [List.nil_append, fraction, this]; rfl
  · rw [fraction, List.cons_append, consume_cons]
    dsimp only
    rw [someDigits_digits hd (h2 (by simp))]; rfl

theorem fraction_some {t r : Bytes} {b : Bool} (h : fraction t = some (b, r)) :
    ∃ f, t = f ++ r ∧ Frac f ∧ (f = [] → peek r ≠ 46) ∧ (f ≠ [] → isDigit (peek r) = false) := by
  rw [fraction] at h
  split at h
  · next x hx =>
    rw [consume_some] at hx
    cases hs : someDigits x with
    | none => rw [hs] at h; cases h
    | some y =>
      rw [hs] at h
      simp only [Option.map_some, Option.some.injEq, Prod.mk.injEq] at h
      obtain ⟨_, rfl⟩ := h
      obtain ⟨ds, rfl, h2, h3⟩ := someDigits_some hs
      exact ⟨46 :: ds, hx, .inr ⟨ds, rfl, h2⟩, by simp, fun _ => h3⟩
  · next hx =>
    simp only [Option.some.injEq, Prod.mk.injEq] at h
    obtain ⟨_, rfl⟩ := h
    refine ⟨[], rfl, .inl rfl, fun _ e => ?_, by simp⟩
    match t with
    | [] => cases e
    | c :: t => rw [peek] at e; rw [e, consume_cons] at hx; cases hx

theorem digit_not_sign {ds r : Bytes} (h : Digits ds) : consume 43 (ds ++ r) = none ∧ consume 45 (ds ++ r) = none := by
  obtain ⟨hne, h⟩ := h
  match ds with
  | [] => exact absurd rfl hne
  | c :: ds =>
    have := h c (by simp)
    constructor <;>
    · refine consume_ne fun e => ?_
      rw [e] at this
      revert this; decide

theorem exponent_spec {e r : Bytes} (he : Expo e) (h1 : e = [] → peek r ≠ 101 ∧ peek r ≠ 69)
    (h2 : e ≠ [] → isDigit (peek r) = false) : exponent (e ++ r) = some (!e.isEmpty, r) := by
  have no : ∀ c : Byte, c ≠ 0 → peek r ≠ c → consume c r = none := by
    intro c _ h
    match r with
    | [] => rfl
    | d :: r => exact consume_ne h
  rcases he with rfl | ⟨x, y, d, rfl, hx, hy, hd⟩
  · rw [List.nil_append, exponent, no 101 (by decide) (h1 rfl).1, no 69 (by decide) (h1 rfl).2]; rfl
  · have hs := someDigits_digits hd (h2 (by simp))
    have : (consume 101 (x :: y ++ d ++ r)).or (consume 69 (x :: y ++ d ++ r)) = some (y ++ d ++ r) := by
      rcases hx with rfl | rfl
      · rw [List.cons_append, List.cons_append, consume_cons]; rfl
      · rw [List.cons_append, List.cons_append, consume_cons, consume_ne (by decide)]; rfl
    rw [exponent, this]
    dsimp only
    rcases hy with rfl | rfl | rfl
    · rw [List.nil_append, expSign, (digit_not_sign hd).1, (digit_not_sign hd).2]
      show (someDigits (d ++ r)).map _ = _
      rw [hs]; rfl
    · rw [List.append_assoc, List.singleton_append, expSign, consume_cons]
      dsimp only
      rw [hs]; rfl
    · rw [List.append_assoc, List.singleton_append, expSign, consume_ne (by decide), consume_cons]
      show (someDigits (d ++ r)).map _ = _
      rw [hs]; rfl

theorem exponent_some {t r : Bytes} {b : Bool} (h : exponent t = some (b, r)) :
    ∃ e, t = e ++ r ∧ Expo e ∧ (e = [] → peek r ≠ 101 ∧ peek r ≠ 69) ∧ (e ≠ [] → isDigit (peek r) = false) := by
  rw [exponent] at h
  split at h
  · next x hx =>
    have ht : ∃ c : Byte, (c = 101 ∨ c = 69) ∧ t = c :: x := by
      cases h1 : consume 101 t with
      | none => rw [h1, Option.none_or] at hx; exact ⟨69, .inr rfl, consume_some.1 hx⟩
      | some z =>
        rw [h1, Option.some_or, Option.some.injEq] at hx
        exact ⟨101, .inl rfl, by rw [← hx]; exact consume_some.1 h1⟩
    obtain ⟨c, hc, rfl⟩ := ht
    generalize hz : expSign x = z at h
    rw [expSign] at hz
    cases hs : someDigits z with
    | none => rw [hs] at h; cases h
    | some y =>
      rw [hs] at h
      simp only [Option.map_some, Option.some.injEq, Prod.mk.injEq] at h
      obtain ⟨_, rfl⟩ := h
      obtain ⟨ds, rfl, h2, h3⟩ := someDigits_some hs
      have hy : ∃ y', Sign y' ∧ x = y' ++ (ds ++ y) := by
        split at hz
        · next w hw => exact ⟨[43], .inr (.inl rfl), by rw [← hz]; exact consume_some.1 hw⟩
        · next hw =>
          cases h45 : consume 45 x with
          | none => rw [h45] at hz; exact ⟨[], .inl rfl, hz⟩
          | some w => rw [h45] at hz; exact ⟨[45], .inr (.inr rfl), by rw [← hz]; exact consume_some.1 h45⟩
      obtain ⟨y', hy', rfl⟩ := hy
      exact ⟨c :: y' ++ ds, by simp, .inr ⟨c, y', ds, rfl, hc, hy', h2⟩, by simp, fun _ => h3⟩
  · next hx =>
    simp only [Option.some.injEq, Prod.mk.injEq] at h
    obtain ⟨_, rfl⟩ := h
    refine ⟨[], rfl, .inl rfl, fun _ => ?_, by simp⟩
    constructor <;>
    · intro e
      match t with
      | [] => cases e
      | c :: t =>
        rw [peek] at e; subst e
        simp [consume] at hx

/-- What an integer is read as: by its sign and size. -/
def intVal (conv : Bytes → Option F64) (l : Bytes) : Option Val :=
  if l.head? = some 45 then
    if -2 ^ 31 ≤ intValue l then some (.int (BitVec.ofInt 32 (intValue l)))
    else if -2 ^ 63 ≤ intValue l then some (.int64 (BitVec.ofInt 64 (intValue l)))
    else (conv l).map .double
  else if intValue l < 2 ^ 32 then some (.uint (BitVec.ofInt 32 (intValue l)))
  else if intValue l < 2 ^ 64 then some (.uint64 (BitVec.ofInt 64 (intValue l)))
  else (conv l).map .double

/-- What another number is read as. -/
def numVal (conv : Bytes → Option F64) (l : Bytes) : Option Val := (conv l).map .double

theorem Rfc.Int.digits {b : Bytes} (h : Rfc.Int b) : Digits b := by
  rcases h with rfl | h
  · exact ⟨by simp, by intro c hc; rw [List.mem_singleton] at hc; subst hc; decide⟩
  · exact h.1

/-- A number: sign, integer part, fraction, exponent; and what is read. -/
theorem number_spec {conv : Bytes → Option F64} {a b f e r : Bytes} (ha : a = [] ∨ a = [45]) (hb : Rfc.Int b)
    (hf : Frac f) (he : Expo e) (h0 : b = [48] ∨ isDigit (peek (f ++ e ++ r)) = false)
    (h1 : f = [] → peek (e ++ r) ≠ 46) (h2 : f ≠ [] → isDigit (peek (e ++ r)) = false)
    (h3 : e = [] → peek r ≠ 101 ∧ peek r ≠ 69) (h4 : e ≠ [] → isDigit (peek r) = false) :
    number conv (a ++ b ++ f ++ e ++ r) =
      (if f = [] ∧ e = [] then intVal conv (a ++ b ++ f ++ e) else numVal conv (a ++ b ++ f ++ e)).map fun v => (v, r) := by
  have hbd := Rfc.Int.digits hb
  have hcons : (consume 45 (a ++ b ++ f ++ e ++ r)).isSome = !a.isEmpty ∧
      (consume 45 (a ++ b ++ f ++ e ++ r)).getD (a ++ b ++ f ++ e ++ r) = b ++ (f ++ e ++ r) := by
    rcases ha with rfl | rfl
    · have : consume 45 ([] ++ b ++ f ++ e ++ r) = none := by
        rw [List.nil_append, List.append_assoc, List.append_assoc]; exact (digit_not_sign hbd).2
      rw [this]
      exact ⟨rfl, by simp⟩
    · simp only [List.cons_append, List.nil_append, consume_cons]
      exact ⟨rfl, by simp⟩
  obtain ⟨i, u, d, r', e1, e2, e3, e4, e5⟩ := intPart_spec (minus := !a.isEmpty) hb h0
  have htake : (a ++ b ++ f ++ e ++ r).take ((a ++ b ++ f ++ e ++ r).length - r.length) = a ++ b ++ f ++ e := by
    rw [List.length_append, Nat.add_sub_cancel, List.take_left]
  unfold number
  dsimp only
  rw [hcons.1, hcons.2, e1]
  dsimp only
  rw [e2, List.append_assoc f, fraction_spec hf h1 h2]
  dsimp only
  rw [exponent_spec he h3 h4]
  dsimp only
  rw [htake]
  have isnil : ∀ l : Bytes, (!l.isEmpty) = true ↔ l ≠ [] := by intro l; cases l <;> simp
  by_cases hi : f = [] ∧ e = []
  · obtain ⟨rfl, rfl⟩ := hi
    rw [if_pos (show ([] : Bytes) = [] ∧ ([] : Bytes) = [] from ⟨rfl, rfl⟩)]
    simp only [List.append_nil, List.isEmpty_nil, Bool.not_true, Bool.false_eq_true, or_false]
    have hval : val 0 b = (digitsValue b).natAbs ∧ digitsValue b = val 0 b := by
      rw [digitsValue_val hbd.2]; exact ⟨by simp, rfl⟩
    rcases ha with rfl | rfl
    · have hh : ([] ++ b).head? ≠ some 45 := by
        rw [List.nil_append]
        match b, hbd with
        | c :: b, hbd =>
          intro e
          simp only [List.head?_cons, Option.some.injEq] at e
          have := hbd.2 c (by simp)
          rw [e] at this; revert this; decide
      rw [intVal, if_neg hh, List.nil_append, intValue_digits hbd, hval.2]
      simp only [List.isEmpty_nil, Bool.not_true, Bool.false_eq_true, if_false, max64, max32] at e3 e4 ⊢
      by_cases hd : d = true
      · rw [if_pos hd]
        have := e3.1 hd
        rw [if_neg (by omega), if_neg (by omega)]
        cases conv b <;> rfl
      · rw [if_neg hd]
        have h5 := e5 (by simpa using hd)
        have h6 := mt e3.2 hd
        by_cases hu : u = true
        · have := e4.1 hu
          rw [if_pos hu, if_neg (by omega), if_pos (by omega), h5]
          simp [BitVec.ofInt_natCast]
        · have := mt e4.2 hu
          rw [if_neg hu, if_pos (by omega), h5]
          simp [BitVec.ofInt_natCast]
    · rw [intVal, if_pos (show (([45] : Bytes) ++ b).head? = some (45 : Byte) from rfl)]
      rw [show intValue ([45] ++ b) = - (val 0 b : Nat) by rw [List.singleton_append, intValue_neg, hval.2]]
      simp only [List.isEmpty_cons, Bool.not_false, if_true, max64, max32] at e3 e4 ⊢
      by_cases hd : d = true
      · rw [if_pos hd]
        have := e3.1 hd
        rw [if_neg (by omega), if_neg (by omega)]
        cases conv ([45] ++ b) <;> rfl
      · rw [if_neg hd]
        have h5 := e5 (by simpa using hd)
        have h6 := mt e3.2 hd
        have neg : ∀ w : Nat, ~~~ (BitVec.ofNat w (val 0 b)) + 1 = BitVec.ofInt w (-(val 0 b : Nat)) := by
          intro w
          show ~~~ (BitVec.ofNat w (val 0 b)) + 1#w = _
          rw [← BitVec.neg_eq_not_add, BitVec.ofInt_neg, BitVec.ofInt_natCast]
        by_cases hu : u = true
        · have := e4.1 hu
          rw [if_pos hu, if_neg (by omega), if_pos (by omega), h5, neg]; rfl
        · have := mt e4.2 hu
          rw [if_neg hu, if_pos (by omega), h5, neg]; rfl
  · rw [if_neg hi]
    have : (d = true ∨ (!f.isEmpty) = true ∨ (!e.isEmpty) = true) := by
      rw [isnil, isnil]
      by_cases hf : f = []
      · exact .inr (.inr fun he => hi ⟨hf, he⟩)
      · exact .inr (.inl hf)
    rw [if_pos this, numVal]
    cases conv (a ++ b ++ f ++ e) <;> rfl

end Rapid
end GCV
