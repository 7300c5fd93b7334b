import Verif.Lemmas.RapidNum

/-! # Lemmas on the RapidJSON reader: documents -/

namespace GCV
namespace Rapid
open Json

/-! ## Numbers in a text -/

/-- What may stand behind a number. -/
def Follow (r : Bytes) : Prop := isDigit (peek r) = false ∧ peek r ≠ 46 ∧ peek r ≠ 101 ∧ peek r ≠ 69

theorem number_int {conv : Bytes → Option F64} {l r : Bytes} (h : Rfc.IntLit l) (hr : Follow r) :
    number conv (l ++ r) = (intVal conv l).map fun v => (v, r) := by
  obtain ⟨a, b, rfl, ha, hb⟩ := h
  have := number_spec (conv := conv) (f := []) (e := []) (r := r) ha hb (.inl rfl) (.inl rfl) (.inr hr.1)
    (fun _ => hr.2.1) (by simp) (fun _ => hr.2.2) (by simp)
  rw [if_pos ⟨rfl, rfl⟩] at this
  simpa only [List.append_nil] using this

theorem number_float {conv : Bytes → Option F64} {l r : Bytes} (h : Rfc.FloatLit l) (hr : Follow r) :
    number conv (l ++ r) = (numVal conv l).map fun v => (v, r) := by
  obtain ⟨a, b, f, e, rfl, ha, hb, hf, he, hne⟩ := h
  have hpe : ∀ e : Bytes, Expo e → e ≠ [] → peek (e ++ r) = 101 ∨ peek (e ++ r) = 69 := by
    intro e he hne
    rcases he with rfl | ⟨x, y, d, rfl, hx, _, _⟩
    · exact absurd rfl hne
    · exact hx
  have hfollow : peek (e ++ r) ≠ 46 ∧ isDigit (peek (e ++ r)) = false := by
    by_cases h0 : e = []
    · subst h0; exact ⟨hr.2.1, hr.1⟩
    · rcases hpe e he h0 with h | h <;> rw [h] <;> decide
  have := number_spec (conv := conv) (r := r) ha hb hf he (.inr ?_)
    (fun _ => hfollow.1) (fun _ => hfollow.2) (fun _ => hr.2.2) (fun _ => hr.1)
  · rw [if_neg (by rintro ⟨rfl, rfl⟩; rcases hne with h | h <;> exact h rfl)] at this
    exact this
  · rcases hf with rfl | ⟨d, rfl, _⟩
    · rw [List.nil_append]; exact hfollow.2
    · rfl

theorem number_sound {conv : Bytes → Option F64} {t r : Bytes} {v : Val} (h : number conv t = some (v, r)) :
    ∃ l, t = l ++ r ∧ ((Rfc.IntLit l ∧ intVal conv l = some v) ∨ (Rfc.FloatLit l ∧ numVal conv l = some v)) := by
  have hstart : ∃ a t', t = a ++ t' ∧ (a = [] ∨ a = [45]) ∧ (consume 45 t).isSome = !a.isEmpty ∧
      (consume 45 t).getD t = t' := by
    cases hc : consume 45 t with
    | none => exact ⟨[], t, rfl, .inl rfl, rfl, rfl⟩
    | some t' => exact ⟨[45], t', consume_some.1 hc, .inr rfl, rfl, rfl⟩
  obtain ⟨a, t', rfl, ha, hm, hg⟩ := hstart
  have h' := h
  unfold number at h
  dsimp only at h
  rw [hm, hg] at h
  split at h
  · cases h
  · next i u d r1 hi =>
    obtain ⟨b, r0, rfl, hb, hb0⟩ := intPart_some hi
    obtain ⟨i', u', d', r1', e1, e2, _⟩ := intPart_spec (minus := !a.isEmpty) hb hb0
    rw [hi] at e1
    simp only [Option.some.injEq, Prod.mk.injEq] at e1
    obtain ⟨rfl, rfl, rfl, rfl⟩ := e1
    rw [e2] at h
    split at h
    · cases h
    · next fb r2 hfr =>
      obtain ⟨f, rfl, hf, hf1, hf2⟩ := fraction_some hfr
      split at h
      · cases h
      · next eb r3 her =>
        obtain ⟨e, rfl, he, he1, he2⟩ := exponent_some her
        have hr3 : r3 = r := by
          split at h
          · split at h
            · cases h
            · simp only [Option.some.injEq, Prod.mk.injEq] at h; exact h.2
          · split at h
            · split at h <;> (simp only [Option.some.injEq, Prod.mk.injEq] at h; exact h.2)
            · split at h <;> (simp only [Option.some.injEq, Prod.mk.injEq] at h; exact h.2)
        subst hr3
        have hn := number_spec (conv := conv) (r := r3) ha hb hf he (by simpa only [List.append_assoc] using hb0) hf1 hf2 he1 he2
        rw [show a ++ (b ++ (f ++ (e ++ r3))) = a ++ b ++ f ++ e ++ r3 by simp only [List.append_assoc]] at h' ⊢
        rw [hn] at h'
        refine ⟨_, rfl, ?_⟩
        by_cases hfe : f = [] ∧ e = []
        · rw [if_pos hfe] at h'
          refine .inl ⟨⟨a, b, by rw [hfe.1, hfe.2, List.append_nil, List.append_nil], ha, hb⟩, ?_⟩
          cases hv : intVal conv (a ++ b ++ f ++ e) with
          | none => rw [hv] at h'; cases h'
          | some w =>
            rw [hv] at h'
            simp only [Option.map_some, Option.some.injEq, Prod.mk.injEq] at h'
            rw [h'.1]
        · rw [if_neg hfe] at h'
          refine .inr ⟨⟨a, b, f, e, rfl, ha, hb, hf, he, ?_⟩, ?_⟩
          · by_cases hf0 : f = []
            · exact .inr fun he0 => hfe ⟨hf0, he0⟩
            · exact .inl hf0
          · cases hv : numVal conv (a ++ b ++ f ++ e) with
            | none => rw [hv] at h'; cases h'
            | some w =>
              rw [hv] at h'
              simp only [Option.map_some, Option.some.injEq, Prod.mk.injEq] at h'
              rw [h'.1]

/-! ## What documents are read as -/

mutual
def docVal (conv : Bytes → Option F64) : Doc → Option Val
  | .null => some .null
  | .bool b => some (.bool b)
  | .string s => some (.str s)
  | .int l => intVal conv l
  | .num l => numVal conv l
  | .arr ds => (docVals conv ds).map .arr
  | .obj ms => (docMembers conv ms).map .obj
def docVals (conv : Bytes → Option F64) : List Doc → Option (List Val)
  | [] => some []
  | d :: ds => (docVal conv d).bind fun v => (docVals conv ds).map fun l => v :: l
def docMembers (conv : Bytes → Option F64) : List (Bytes × Doc) → Option (List (Bytes × Val))
  | [] => some []
  | (k, d) :: ms => (docVal conv d).bind fun v => (docMembers conv ms).map fun l => (k, v) :: l
end

/-! ## Tokens -/

theorem written_head {t : Tok} {w : Bytes} (h : Rfc.Written t w) : ∃ c w', w = c :: w' ∧ blank c = false ∧ c ≠ 0 := by
  have dig : ∀ c : Byte, 48 ≤ c.toNat ∧ c.toNat ≤ 57 → blank c = false ∧ c ≠ 0 := by
    intro c hc
    refine ⟨?_, fun e => by rw [e] at hc; revert hc; decide⟩
    cases hb : blank c with
    | false => rfl
    | true => rcases (blank_iff c).1 hb with rfl | rfl | rfl | rfl <;> (revert hc; decide)
  have num : ∀ a b r : Bytes, (a = [] ∨ a = [45]) → Rfc.Int b → ∃ c w', a ++ b ++ r = c :: w' ∧ blank c = false ∧ c ≠ 0 := by
    intro a b r ha hb
    have hd := Rfc.Int.digits hb
    match b, hd with
    | c :: b, hd =>
      rcases ha with rfl | rfl
      · exact ⟨c, b ++ r, rfl, dig c (hd.2 c (by simp))⟩
      · exact ⟨45, c :: b ++ r, rfl, by decide⟩
    | [], hd => exact absurd rfl hd.1
  cases h with
  | int h =>
    obtain ⟨a, b, rfl, ha, hb⟩ := h
    simpa using num a b [] ha hb
  | num h =>
    obtain ⟨a, b, f, e, rfl, ha, hb, _⟩ := h
    simpa only [List.append_assoc] using num a b (f ++ e) ha hb
  | string h => exact ⟨34, _, rfl, by decide⟩
  | lcurly | rcurly | lbrack | rbrack | comma | colon => exact ⟨_, _, rfl, by decide⟩
  | true => exact ⟨116, str "rue", rfl, by decide⟩
  | false => exact ⟨102, str "alse", rfl, by decide⟩
  | null => exact ⟨110, str "ull", rfl, by decide⟩

theorem spells_cons {t : Tok} {ts : List Tok} {text : Bytes} (h : Rfc.Spells (t :: ts) text) :
    ∃ b w r, text = b ++ w ++ r ∧ Rfc.Blanks b ∧ Rfc.Written t w ∧ Rfc.Spells ts r ∧
      ∀ z, skip (text ++ z) = w ++ r ++ z := by
  cases h with
  | @cons _ _ b w r hb hw hs =>
    refine ⟨b, w, r, rfl, hb, hw, hs, fun z => ?_⟩
    obtain ⟨c, w', rfl, hc, _⟩ := written_head hw
    rw [List.append_assoc, List.append_assoc, skip_blanks _ _ hb, List.cons_append, skip_of_not hc,
      List.append_assoc, List.cons_append]

theorem spells_nil {text : Bytes} (h : Rfc.Spells [] text) : Rfc.Blanks text := by
  cases h with
  | nil h => exact h

/-- Blanks in front do not matter. -/
theorem spells_blanks {ts : List Tok} {b text : Bytes} (hb : Rfc.Blanks b) (h : Rfc.Spells ts text) :
    Rfc.Spells ts (b ++ text) := by
  have app : ∀ {a c : Bytes}, Rfc.Blanks a → Rfc.Blanks c → Rfc.Blanks (a ++ c) := by
    intro a c ha hc d hd
    rcases List.mem_append.1 hd with h | h
    · exact ha d h
    · exact hc d h
  cases h with
  | nil h => exact .nil (app hb h)
  | @cons _ _ b' w r hb' hw hs =>
    rw [← List.append_assoc, ← List.append_assoc]
    exact .cons (app hb hb') hw hs

/-- Nothing, or a comma or a closing bracket. -/
def Behind (ts : List Tok) : Prop :=
  ts = [] ∨ ∃ t l, ts = t :: l ∧ (t = .comma ∨ t = .rbrack ∨ t = .rcurly)

theorem follow_of {ts : List Tok} {r z : Bytes} (hb : Behind ts) (h : Rfc.Spells ts r) (hz : peek z = 0) :
    Follow (r ++ z) := by
  have bl : ∀ c : Byte, c = 32 ∨ c = 9 ∨ c = 10 ∨ c = 13 → isDigit c = false ∧ c ≠ 46 ∧ c ≠ 101 ∧ c ≠ 69 := by
    rintro c (rfl | rfl | rfl | rfl) <;> decide
  rcases hb with rfl | ⟨t, l, rfl, ht⟩
  · have hr := spells_nil h
    match r with
    | [] => rw [List.nil_append]; unfold Follow; rw [hz]; decide
    | c :: r => exact bl c (hr c (by simp))
  · cases h with
    | @cons _ _ b w r hb hw hs =>
      match b with
      | c :: b => exact bl c (hb c (by simp))
      | [] =>
        rcases ht with rfl | rfl | rfl <;> cases hw <;>
        · unfold Follow; simp only [List.nil_append, List.cons_append, peek]; decide

/-! ## Reading is total -/

theorem word_split : ∀ {w t r : Bytes}, word w t = some r → t = w ++ r
  | [], t, r, h => by simpa [word] using h
  | c :: w, t, r, h => by
    rw [word] at h
    split at h
    · next x hx =>
      rw [consume_some] at hx
      rw [hx, word_split h]; rfl
    · cases h

theorem word_append : ∀ (w r : Bytes), word w (w ++ r) = some r
  | [], _ => rfl
  | c :: w, r => by
    rw [List.cons_append, word, consume_cons]
    exact word_append w r

theorem peek_cons {t : Bytes} {c : Byte} (h : peek t = c) (hc : c ≠ 0) : t = c :: t.tail := by
  match t with
  | [] => exact absurd h.symm hc
  | d :: t => rw [show d = c from h]; rfl

/-- A result: an error or something, behind which less is left. -/
def Less {α : Type} (x : Out (Option (α × Bytes))) (t : Bytes) : Prop :=
  ∃ y, x = .ok y ∧ ∀ a r, y = some (a, r) → r.length < t.length

theorem Less.andThen {α β : Type} {x : Out (Option (α × Bytes))} {t t' : Bytes} (h : Less x t)
    {f : α → Bytes → Out (Option (β × Bytes))} (hf : ∀ a r, r.length < t.length → Less (f a r) t') :
    Less (andThen x f) t' := by
  obtain ⟨y, rfl, h⟩ := h
  match y with
  | none => exact ⟨none, rfl, by simp⟩
  | some (a, r) => exact hf a r (h a r rfl)

theorem Less.none {α : Type} (t : Bytes) : Less (.ok none : Out (Option (α × Bytes))) t := ⟨_, rfl, by simp⟩

theorem Less.some {α : Type} {a : α} {r t : Bytes} (h : r.length < t.length) : Less (.ok (some (a, r))) t :=
  ⟨_, rfl, by rintro b s h'; simp only [Option.some.injEq, Prod.mk.injEq] at h'; rw [← h'.2]; exact h⟩

theorem Less.mono {α : Type} {x : Out (Option (α × Bytes))} {t t' : Bytes} (h : Less x t) (ht : t.length ≤ t'.length) :
    Less x t' := by
  obtain ⟨y, h1, h2⟩ := h
  exact ⟨y, h1, fun a r e => Nat.lt_of_lt_of_le (h2 a r e) ht⟩

theorem number_less {conv : Bytes → Option F64} {t : Bytes} : Less (.ok (number conv t)) t := by
  refine ⟨_, rfl, fun v r h => ?_⟩
  obtain ⟨l, ht, hl⟩ := number_sound h
  clear h
  subst ht
  have : ∃ c l', l = c :: l' := by
    rcases hl with ⟨h, _⟩ | ⟨h, _⟩
    · obtain ⟨c, w, h, _⟩ := written_head (.int h); exact ⟨c, w, h⟩
    · obtain ⟨c, w, h, _⟩ := written_head (.num h); exact ⟨c, w, h⟩
  obtain ⟨c, l', rfl⟩ := this
  simp only [List.cons_append, List.length_cons, List.length_append]; omega

theorem total (conv : Bytes → Option F64) : ∀ n : Nat,
    (∀ t : Bytes, 2 * t.length + 1 ≤ n → Less (value conv n t) t) ∧
    (∀ t : Bytes, 2 * t.length + 2 ≤ n → Less (elements conv n t) t) ∧
    (∀ t : Bytes, 2 * t.length + 2 ≤ n → Less (members conv n t) t)
  | 0 => ⟨fun _ h => absurd h (by omega), fun _ h => absurd h (by omega), fun _ h => absurd h (by omega)⟩
  | n + 1 => by
    obtain ⟨hv, he, hm⟩ := total conv n
    have hcons : ∀ {c : Byte} {r t : Bytes}, consume c (skip r) = some t → t.length < r.length := by
      intro c r t h
      have h1 := congrArg List.length (consume_some.1 h)
      have h2 := length_skip r
      rw [List.length_cons] at h1; omega
    refine ⟨fun t hn => ?_, fun t hn => ?_, fun t hn => ?_⟩
    · rw [value]
      have wd : ∀ (c : Byte) (w : Bytes) (v : Val), c ≠ 0 → peek t = c →
          Less (.ok ((word w t.tail).map fun r => (v, r))) t := by
        intro c w v hc0 hc
        refine ⟨_, rfl, fun a r h => ?_⟩
        have ht := peek_cons hc hc0
        cases hw : word w t.tail with
        | none => rw [hw] at h; cases h
        | some x =>
          rw [hw] at h
          simp only [Option.map_some, Option.some.injEq, Prod.mk.injEq] at h
          rw [ht, word_split hw, ← h.2]
          simp only [List.length_cons, List.length_append]; omega
      split
      · next h => exact wd _ _ _ (by decide) h
      split
      · next h => exact wd _ _ _ (by decide) h
      split
      · next h => exact wd _ _ _ (by decide) h
      split
      · next h =>
        have ht := peek_cons h (by decide)
        refine ⟨_, rfl, fun a r h => ?_⟩
        cases hs : string t.tail with
        | none => rw [hs] at h; cases h
        | some x =>
          obtain ⟨s, r'⟩ := x
          rw [hs] at h
          simp only [Option.map_some, Option.some.injEq, Prod.mk.injEq] at h
          obtain ⟨b, _, hb⟩ := string_sound _ _ _ _ (Nat.le_refl _) hs
          rw [ht, hb, ← h.2]
          simp only [List.length_cons, List.length_append]; omega
      split
      · next h =>
        have ht := congrArg List.length (peek_cons h (by decide))
        rw [List.length_cons] at ht
        have hk := length_skip t.tail
        dsimp only
        split
        · next r hr =>
          have := hcons hr
          exact .some (by omega)
        · exact (hm (skip t.tail) (by omega)).andThen fun a r h => .some (by omega)
      split
      · next h =>
        have ht := congrArg List.length (peek_cons h (by decide))
        rw [List.length_cons] at ht
        have hk := length_skip t.tail
        dsimp only
        split
        · next r hr =>
          have := hcons hr
          exact .some (by omega)
        · exact (he (skip t.tail) (by omega)).andThen fun a r h => .some (by omega)
      · exact number_less
    · rw [elements]
      refine (hv t (by omega)).andThen fun v r hr => ?_
      dsimp only
      split
      · next x hx =>
        have := hcons hx
        have := length_skip x
        exact (he (skip x) (by omega)).andThen fun a r h => .some (by omega)
      · split
        · next x hx =>
          have := hcons hx
          exact .some (by omega)
        · exact .none t
    · rw [members]
      split
      · exact .none t
      · next h =>
        have ht := congrArg List.length (peek_cons (Classical.not_not.1 h) (by decide))
        rw [List.length_cons] at ht
        split
        · exact .none t
        · next k r hs =>
          obtain ⟨b, _, hb⟩ := string_sound _ _ _ _ (Nat.le_refl _) hs
          have hb := congrArg List.length hb
          simp only [List.length_append, List.length_cons] at hb
          split
          · exact .none t
          · next x hx =>
            have := hcons hx
            have := length_skip x
            refine (hv (skip x) (by omega)).andThen fun v r hr => ?_
            dsimp only
            split
            · next x hx =>
              have := hcons hx
              have := length_skip x
              exact (hm (skip x) (by omega)).andThen fun a r h => .some (by omega)
            · split
              · next x hx =>
                have := hcons hx
                exact .some (by omega)
              · exact .none t

theorem parse_total (conv : Bytes → Option F64) (t : Bytes) : ∃ x, parse conv t = .ok x := by
  unfold parse
  dsimp only
  split
  · exact ⟨_, rfl⟩
  · obtain ⟨y, h, _⟩ := (total conv _).1 (skip t) (Nat.le_refl _)
    rw [h]
    match y with
    | none => exact ⟨_, rfl⟩
    | some (v, r) =>
      show ∃ x, (if peek (skip r) ≠ 0 then Out.ok none else .ok (some v)) = .ok x
      split <;> exact ⟨_, rfl⟩

/-! ## What is accepted is a document -/

/-- The text read, `w`, may stand before whatever goes on with `ts`. -/
def Makes (l : List Tok) (t r : Bytes) : Prop :=
  ∃ w, t = w ++ r ∧ ∀ b ts r', Rfc.Blanks b → Rfc.Spells ts r' → Rfc.Spells (l ++ ts) (b ++ w ++ r')

theorem blanks_nil : Rfc.Blanks [] := fun c hc => by cases hc

theorem makes_one {t : Tok} {w r : Bytes} (h : Rfc.Written t w) : Makes [t] (w ++ r) r :=
  ⟨w, rfl, fun _ _ _ hb hs => .cons hb h hs⟩

theorem Makes.append {l l' : List Tok} {t r r' : Bytes} (h : Makes l t r) (h' : Makes l' r r') : Makes (l ++ l') t r' := by
  obtain ⟨w, rfl, h⟩ := h
  obtain ⟨w', rfl, h'⟩ := h'
  refine ⟨w ++ w', by rw [List.append_assoc], fun b ts r2 hb hs => ?_⟩
  have h1 := h' [] ts r2 blanks_nil hs
  rw [List.nil_append] at h1
  have h2 := h b _ _ hb h1
  simpa only [List.append_assoc] using h2

/-- Blanks in front. -/
theorem Makes.skip {l : List Tok} {t r : Bytes} (h : Makes l (skip t) r) : Makes l t r := by
  obtain ⟨w, h1, h⟩ := h
  obtain ⟨b, h2, h3⟩ := skip_split t
  refine ⟨b ++ w, by rw [List.append_assoc, ← h1]; exact h2, fun b' ts r' hb hs => ?_⟩
  rw [← List.append_assoc]
  exact h (b' ++ b) ts r' (by
    intro c hc
    rcases List.mem_append.1 hc with hc | hc
    · exact hb c hc
    · exact h3 c hc) hs

theorem andThen_some {α β : Type} {x : Out (Option (α × Bytes))} {f : α → Bytes → Out (Option (β × Bytes))}
    {b : β} {r : Bytes} (h : andThen x f = .ok (some (b, r))) : ∃ a s, x = .ok (some (a, s)) ∧ f a s = .ok (some (b, r)) := by
  match x with
  | .ok none => simp [andThen, Out.bind] at h
  | .ok (some (a, s)) => exact ⟨a, s, rfl, h⟩
  | .throw => cases h
  | .ub => cases h
  | .diverge => cases h

theorem sound (conv : Bytes → Option F64) : ∀ n : Nat,
    (∀ t v r, value conv n t = .ok (some (v, r)) → ∃ d, docVal conv d = some v ∧ Makes d.toks t r) ∧
    (∀ t l r, elements conv n t = .ok (some (l, r)) → ∃ d ds, docVals conv (d :: ds) = some l ∧
      Makes (d.toks ++ toksTail ds ++ [.rbrack]) t r) ∧
    (∀ t l r, members conv n t = .ok (some (l, r)) → ∃ k d ms, docMembers conv ((k, d) :: ms) = some l ∧
      Makes (.string k :: .colon :: d.toks ++ toksMembers ms ++ [.rcurly]) t r)
  | 0 => by
    refine ⟨fun t v r h => ?_, fun t v r h => ?_, fun t v r h => ?_⟩ <;> cases h
  | n + 1 => by
    obtain ⟨hv, he, hm⟩ := sound conv n
    have tok : ∀ {c : Byte} {tk : Tok} {r s : Bytes}, Rfc.Written tk [c] → consume c (Rapid.skip r) = some s →
        Makes [tk] r s := by
      intro c tk r s hw h
      refine Makes.skip ?_
      rw [consume_some.1 h]
      exact makes_one hw
    refine ⟨fun t v r h => ?_, fun t l r h => ?_, fun t l r h => ?_⟩
    · rw [value] at h
      have wd : ∀ (c : Byte) (w : Bytes) (v' : Val) (d : Doc) (tk : Tok), c ≠ 0 → peek t = c →
          docVal conv d = some v' → d.toks = [tk] → Rfc.Written tk (c :: w) →
          Out.ok ((word w t.tail).map fun r => (v', r)) = .ok (some (v, r)) →
          ∃ d, docVal conv d = some v ∧ Makes d.toks t r := by
        intro c w v' d tk hc0 hc hd ht hw h
        cases hx : word w t.tail with
        | none => rw [hx] at h; cases h
        | some x =>
          rw [hx] at h
          simp only [Option.map_some, Out.ok.injEq, Option.some.injEq, Prod.mk.injEq] at h
          obtain ⟨rfl, rfl⟩ := h
          refine ⟨d, hd, ?_⟩
          rw [ht, peek_cons hc hc0, word_split hx]
          exact makes_one hw
      split at h
      · next hc => exact wd _ _ _ .null .null (by decide) hc rfl rfl .null h
      split at h
      · next hc => exact wd _ _ _ (.bool true) .true (by decide) hc rfl rfl .true h
      split at h
      · next hc => exact wd _ _ _ (.bool false) .false (by decide) hc rfl rfl .false h
      split at h
      · next hc =>
        have ht := peek_cons hc (by decide)
        cases hs : string t.tail with
        | none => rw [hs] at h; cases h
        | some x =>
          obtain ⟨s, r'⟩ := x
          rw [hs] at h
          simp only [Option.map_some, Out.ok.injEq, Option.some.injEq, Prod.mk.injEq] at h
          obtain ⟨rfl, rfl⟩ := h
          obtain ⟨b, hb, e⟩ := string_sound _ _ _ _ (Nat.le_refl _) hs
          refine ⟨.string s, rfl, ?_⟩
          rw [ht, e]
          have := makes_one (r := r') (Rfc.Written.string hb)
          simpa [Doc.toks] using this
      split at h
      · next hc =>
        have ht := peek_cons hc (by decide)
        have hl : Makes [.lcurly] t t.tail := by
          have := makes_one (r := t.tail) Rfc.Written.lcurly
          rwa [List.singleton_append, ← ht] at this
        dsimp only at h
        split at h
        · next x hx =>
          simp only [Out.ok.injEq, Option.some.injEq, Prod.mk.injEq] at h
          obtain ⟨rfl, rfl⟩ := h
          exact ⟨.obj [], rfl, hl.append (tok .rcurly hx)⟩
        · obtain ⟨l, s, h1, h2⟩ := andThen_some h
          simp only [Out.ok.injEq, Option.some.injEq, Prod.mk.injEq] at h2
          obtain ⟨rfl, rfl⟩ := h2
          obtain ⟨k, d, ms, h3, h4⟩ := hm _ _ _ h1
          refine ⟨.obj ((k, d) :: ms), by rw [docVal, h3]; rfl, ?_⟩
          have := hl.append h4.skip
          simpa [Doc.toks] using this
      split at h
      · next hc =>
        have ht := peek_cons hc (by decide)
        have hl : Makes [.lbrack] t t.tail := by
          have := makes_one (r := t.tail) Rfc.Written.lbrack
          rwa [List.singleton_append, ← ht] at this
        dsimp only at h
        split at h
        · next x hx =>
          simp only [Out.ok.injEq, Option.some.injEq, Prod.mk.injEq] at h
          obtain ⟨rfl, rfl⟩ := h
          exact ⟨.arr [], rfl, hl.append (tok .rbrack hx)⟩
        · obtain ⟨l, s, h1, h2⟩ := andThen_some h
          simp only [Out.ok.injEq, Option.some.injEq, Prod.mk.injEq] at h2
          obtain ⟨rfl, rfl⟩ := h2
          obtain ⟨d, ds, h3, h4⟩ := he _ _ _ h1
          refine ⟨.arr (d :: ds), by rw [docVal, h3]; rfl, ?_⟩
          have := hl.append h4.skip
          simpa [Doc.toks] using this
      · simp only [Out.ok.injEq] at h
        obtain ⟨l, ht, hl⟩ := number_sound h
        clear h
        subst ht
        rcases hl with ⟨h1, h2⟩ | ⟨h1, h2⟩
        · exact ⟨.int l, h2, makes_one (.int h1)⟩
        · exact ⟨.num l, h2, makes_one (.num h1)⟩
    · rw [elements] at h
      obtain ⟨v, s, h1, h⟩ := andThen_some h
      obtain ⟨d, hd, h2⟩ := hv _ _ _ h1
      dsimp only at h
      split at h
      · next x hx =>
        obtain ⟨l', s', h3, h⟩ := andThen_some h
        simp only [Out.ok.injEq, Option.some.injEq, Prod.mk.injEq] at h
        obtain ⟨rfl, rfl⟩ := h
        obtain ⟨d', ds, h4, h5⟩ := he _ _ _ h3
        refine ⟨d, d' :: ds, by rw [docVals, hd, h4]; rfl, ?_⟩
        have := (h2.append (tok .comma hx)).append h5.skip
        simpa [toksTail] using this
      · split at h
        · next x hx =>
          simp only [Out.ok.injEq, Option.some.injEq, Prod.mk.injEq] at h
          obtain ⟨rfl, rfl⟩ := h
          refine ⟨d, [], by rw [docVals, hd]; rfl, ?_⟩
          have := h2.append (tok .rbrack hx)
          simpa [toksTail] using this
        · cases h
    · rw [members] at h
      split at h
      · cases h
      · next hc =>
        have ht := peek_cons (Classical.not_not.1 hc) (by decide)
        split at h
        · cases h
        · next k r0 hs =>
          obtain ⟨b, hb, e⟩ := string_sound _ _ _ _ (Nat.le_refl _) hs
          have hk : Makes [.string k] t r0 := by
            rw [ht, e]
            have := makes_one (r := r0) (Rfc.Written.string hb)
            simpa using this
          split at h
          · cases h
          · next x hx =>
            obtain ⟨v, s, h1, h⟩ := andThen_some h
            obtain ⟨d, hd, h2⟩ := hv _ _ _ h1
            have hkd := (hk.append (tok .colon hx)).append h2.skip
            dsimp only at h
            split at h
            · next y hy =>
              obtain ⟨l', s', h3, h⟩ := andThen_some h
              simp only [Out.ok.injEq, Option.some.injEq, Prod.mk.injEq] at h
              obtain ⟨rfl, rfl⟩ := h
              obtain ⟨k', d', ms, h4, h5⟩ := hm _ _ _ h3
              refine ⟨k, d, (k', d') :: ms, by rw [docMembers, hd, h4]; rfl, ?_⟩
              have := (hkd.append (tok .comma hy)).append h5.skip
              simpa [toksMembers] using this
            · split at h
              · next y hy =>
                simp only [Out.ok.injEq, Option.some.injEq, Prod.mk.injEq] at h
                obtain ⟨rfl, rfl⟩ := h
                refine ⟨k, d, [], by rw [docMembers, hd]; rfl, ?_⟩
                have := hkd.append (tok .rcurly hy)
                simpa [toksMembers] using this
              · cases h

/-! ## Every document is read -/

theorem lit_head {l : Bytes} (h : Rfc.IntLit l ∨ Rfc.FloatLit l) :
    ∃ c l', l = c :: l' ∧ (c = 45 ∨ (48 ≤ c.toNat ∧ c.toNat ≤ 57)) := by
  have num : ∀ a b r : Bytes, (a = [] ∨ a = [45]) → Rfc.Int b →
      ∃ c w', a ++ b ++ r = c :: w' ∧ (c = 45 ∨ (48 ≤ c.toNat ∧ c.toNat ≤ 57)) := by
    intro a b r ha hb
    have hd := Rfc.Int.digits hb
    match b, hd with
    | c :: b, hd =>
      rcases ha with rfl | rfl
      · exact ⟨c, b ++ r, rfl, .inr (hd.2 c (by simp))⟩
      · exact ⟨45, c :: b ++ r, rfl, .inl rfl⟩
    | [], hd => exact absurd rfl hd.1
  rcases h with ⟨a, b, rfl, ha, hb⟩ | ⟨a, b, f, e, rfl, ha, hb, _⟩
  · simpa using num a b [] ha hb
  · simpa only [List.append_assoc] using num a b (f ++ e) ha hb

theorem value_number {conv : Bytes → Option F64} {n : Nat} {l r : Bytes} (h : Rfc.IntLit l ∨ Rfc.FloatLit l) :
    value conv (n + 1) (l ++ r) = .ok (number conv (l ++ r)) := by
  obtain ⟨c, l', rfl, hc⟩ := lit_head h
  have ne : ∀ d : Byte, d ≠ 45 → ¬ (48 ≤ d.toNat ∧ d.toNat ≤ 57) → ¬ peek (c :: l' ++ r) = d := by
    intro d h1 h2 e
    rw [List.cons_append, peek] at e
    subst e
    exact hc.elim h1 h2
  rw [value, if_neg (ne 110 (by decide) (by decide)), if_neg (ne 116 (by decide) (by decide)),
    if_neg (ne 102 (by decide) (by decide)), if_neg (ne 34 (by decide) (by decide)),
    if_neg (ne 123 (by decide) (by decide)), if_neg (ne 91 (by decide) (by decide))]

/-- A document does not begin like the end of an array. -/
theorem toks_head (d : Doc) : ∃ t l, d.toks = t :: l ∧ ∀ w r, Rfc.Written t w → consume 93 (w ++ r) = none := by
  have lit : ∀ {l : Bytes} (r : Bytes), Rfc.IntLit l ∨ Rfc.FloatLit l → consume 93 (l ++ r) = none := by
    intro l r h
    obtain ⟨c, l', rfl, hc⟩ := lit_head h
    refine consume_ne fun e => ?_
    subst e
    revert hc; decide
  match d with
  | .null => exact ⟨_, _, rfl, fun w r h => by cases h; exact consume_ne (by decide)⟩
  | .bool true => exact ⟨_, _, rfl, fun w r h => by cases h; exact consume_ne (by decide)⟩
  | .bool false => exact ⟨_, _, rfl, fun w r h => by cases h; exact consume_ne (by decide)⟩
  | .string s => exact ⟨_, _, rfl, fun w r h => by cases h; exact consume_ne (by decide)⟩
  | .int l => exact ⟨_, _, rfl, fun w r h => by cases h with | int h => exact lit r (.inl h)⟩
  | .num l => exact ⟨_, _, rfl, fun w r h => by cases h with | num h => exact lit r (.inr h)⟩
  | .arr [] => exact ⟨_, _, rfl, fun w r h => by cases h; exact consume_ne (by decide)⟩
  | .arr (_ :: _) => exact ⟨_, _, rfl, fun w r h => by cases h; exact consume_ne (by decide)⟩
  | .obj [] => exact ⟨_, _, rfl, fun w r h => by cases h; exact consume_ne (by decide)⟩
  | .obj ((_, _) :: _) => exact ⟨_, _, rfl, fun w r h => by cases h; exact consume_ne (by decide)⟩

section
variable (conv : Bytes → Option F64) (n : Nat) (t : Bytes)

theorem value_null : value conv (n + 1) (110 :: t) = .ok ((word (str "ull") t).map fun r => (.null, r)) := by
  rw [value]; simp [peek]
theorem value_true : value conv (n + 1) (116 :: t) = .ok ((word (str "rue") t).map fun r => (.bool true, r)) := by
  rw [value]; simp [peek]
theorem value_false : value conv (n + 1) (102 :: t) = .ok ((word (str "alse") t).map fun r => (.bool false, r)) := by
  rw [value]; simp [peek]
theorem value_string : value conv (n + 1) (34 :: t) = .ok ((string t).map fun (s, r) => (.str s, r)) := by
  rw [value]; simp [peek]
theorem value_obj : value conv (n + 1) (123 :: t) = match consume 125 (skip t) with
    | some r => .ok (some (.obj [], r))
    | none => andThen (members conv n (skip t)) fun m r => .ok (some (.obj m, r)) := by
  rw [value]; simp [peek]; rfl
theorem value_arr : value conv (n + 1) (91 :: t) = match consume 93 (skip t) with
    | some r => .ok (some (.arr [], r))
    | none => andThen (elements conv n (skip t)) fun m r => .ok (some (.arr m, r)) := by
  rw [value]; simp [peek]; rfl

end

theorem complete (conv : Bytes → Option F64) {z : Bytes} (hz : peek z = 0) : ∀ n : Nat,
    (∀ d ts text, Rfc.Spells (d.toks ++ ts) text → Behind ts → 2 * (skip (text ++ z)).length + 1 ≤ n →
      ∃ r, Rfc.Spells ts r ∧ (r ++ z).length ≤ (skip (text ++ z)).length ∧
        value conv n (skip (text ++ z)) = .ok ((docVal conv d).map fun v => (v, r ++ z))) ∧
    (∀ d ds ts text, Rfc.Spells (d.toks ++ (toksTail ds ++ .rbrack :: ts)) text →
      2 * (skip (text ++ z)).length + 2 ≤ n →
      ∃ r, Rfc.Spells ts r ∧ (r ++ z).length ≤ (skip (text ++ z)).length ∧
        elements conv n (skip (text ++ z)) = .ok ((docVals conv (d :: ds)).map fun v => (v, r ++ z))) ∧
    (∀ k d ms ts text, Rfc.Spells (.string k :: .colon :: (d.toks ++ (toksMembers ms ++ .rcurly :: ts))) text →
      2 * (skip (text ++ z)).length + 2 ≤ n →
      ∃ r, Rfc.Spells ts r ∧ (r ++ z).length ≤ (skip (text ++ z)).length ∧
        members conv n (skip (text ++ z)) = .ok ((docMembers conv ((k, d) :: ms)).map fun v => (v, r ++ z)))
  | 0 => ⟨fun _ _ _ _ _ h => absurd h (by omega), fun _ _ _ _ _ h => absurd h (by omega),
      fun _ _ _ _ _ _ h => absurd h (by omega)⟩
  | n + 1 => by
    obtain ⟨hv, he, hm⟩ := complete conv hz n
    have len : ∀ w r : Bytes, (r ++ z).length ≤ (w ++ r ++ z).length := by
      intro w r; simp only [List.length_append]; omega
    refine ⟨fun d ts text hs hb hn => ?_, fun d ds ts text hs hn => ?_, fun k d ms ts text hs hn => ?_⟩
    · match d with
      | .null =>
        obtain ⟨b, w, r, rfl, _, hw, hr, hk⟩ := spells_cons (show Rfc.Spells (.null :: ts) text from hs)
        refine ⟨r, hr, by rw [hk]; exact len w r, ?_⟩
        rw [hk]
        cases hw
        rw [show str "null" ++ r ++ z = 110 :: (str "ull" ++ (r ++ z)) from rfl, value_null, word_append]; rfl
      | .bool true =>
        obtain ⟨b, w, r, rfl, _, hw, hr, hk⟩ := spells_cons (show Rfc.Spells (.true :: ts) text from hs)
        refine ⟨r, hr, by rw [hk]; exact len w r, ?_⟩
        rw [hk]
        cases hw
        rw [show str "true" ++ r ++ z = 116 :: (str "rue" ++ (r ++ z)) from rfl, value_true, word_append]; rfl
      | .bool false =>
        obtain ⟨b, w, r, rfl, _, hw, hr, hk⟩ := spells_cons (show Rfc.Spells (.false :: ts) text from hs)
        refine ⟨r, hr, by rw [hk]; exact len w r, ?_⟩
        rw [hk]
        cases hw
        rw [show str "false" ++ r ++ z = 102 :: (str "alse" ++ (r ++ z)) from rfl, value_false, word_append]; rfl
      | .string s =>
        obtain ⟨b, w, r, rfl, _, hw, hr, hk⟩ := spells_cons (show Rfc.Spells (.string s :: ts) text from hs)
        refine ⟨r, hr, by rw [hk]; exact len w r, ?_⟩
        rw [hk]
        cases hw with
        | @string _ b hb =>
          rw [show 34 :: b ++ [34] ++ r ++ z = 34 :: (b ++ 34 :: (r ++ z)) by simp, value_string, string_complete hb]; rfl
      | .int l =>
        obtain ⟨b, w, r, rfl, _, hw, hr, hk⟩ := spells_cons (show Rfc.Spells (.int l :: ts) text from hs)
        refine ⟨r, hr, by rw [hk]; exact len w r, ?_⟩
        rw [hk]
        cases hw with
        | int hl =>
          rw [List.append_assoc, value_number (.inl hl), number_int hl (follow_of hb hr hz)]; rfl
      | .num l =>
        obtain ⟨b, w, r, rfl, _, hw, hr, hk⟩ := spells_cons (show Rfc.Spells (.num l :: ts) text from hs)
        refine ⟨r, hr, by rw [hk]; exact len w r, ?_⟩
        rw [hk]
        cases hw with
        | num hl =>
          rw [List.append_assoc, value_number (.inr hl), number_float hl (follow_of hb hr hz)]; rfl
      | .arr [] =>
        obtain ⟨b, w, r, rfl, _, hw, hr, hk⟩ := spells_cons (show Rfc.Spells (.lbrack :: .rbrack :: ts) text from hs)
        obtain ⟨b', w', r', rfl, _, hw', hr', hk'⟩ := spells_cons hr
        refine ⟨r', hr', by rw [hk]; simp only [List.length_append]; omega, ?_⟩
        rw [hk]
        cases hw
        cases hw'
        rw [List.append_assoc, List.singleton_append, value_arr, hk', List.append_assoc, List.singleton_append, consume_cons]; rfl
      | .arr (d :: ds) =>
        have hs' : Rfc.Spells (.lbrack :: (d.toks ++ (toksTail ds ++ .rbrack :: ts))) text := by
          simpa [Doc.toks] using hs
        obtain ⟨b, w, r, rfl, _, hw, hr, hk⟩ := spells_cons hs'
        have hcon : consume 93 (skip (r ++ z)) = none := by
          obtain ⟨t, l, ht, hh⟩ := toks_head d
          have hr2 := hr
          rw [ht, List.cons_append] at hr2
          obtain ⟨b', w', r', rfl, _, hw', _, hk'⟩ := spells_cons hr2
          rw [hk', List.append_assoc]
          exact hh _ _ hw'
        cases hw
        have hlen := congrArg List.length (hk z)
        have hle := length_skip (r ++ z)
        simp only [List.length_append, List.length_cons, List.length_nil] at hlen hle
        obtain ⟨r', h1, h2, h3⟩ := he d ds ts r hr (by omega)
        refine ⟨r', h1, by simp only [List.length_append] at h2 ⊢; omega, ?_⟩
        rw [hk, List.append_assoc, List.singleton_append, value_arr, hcon, h3, docVal]
        cases docVals conv (d :: ds) <;> rfl
      | .obj [] =>
        obtain ⟨b, w, r, rfl, _, hw, hr, hk⟩ := spells_cons (show Rfc.Spells (.lcurly :: .rcurly :: ts) text from hs)
        obtain ⟨b', w', r', rfl, _, hw', hr', hk'⟩ := spells_cons hr
        refine ⟨r', hr', by rw [hk]; simp only [List.length_append]; omega, ?_⟩
        rw [hk]
        cases hw
        cases hw'
        rw [List.append_assoc, List.singleton_append, value_obj, hk', List.append_assoc, List.singleton_append, consume_cons]; rfl
      | .obj ((k, d) :: ms) =>
        have hs' : Rfc.Spells (.lcurly :: (.string k :: .colon :: (d.toks ++ (toksMembers ms ++ .rcurly :: ts)))) text := by
          simpa [Doc.toks] using hs
        obtain ⟨b, w, r, rfl, _, hw, hr, hk⟩ := spells_cons hs'
        have hcon : consume 125 (skip (r ++ z)) = none := by
          obtain ⟨b', w', r', rfl, _, hw', _, hk'⟩ := spells_cons hr
          rw [hk', List.append_assoc]
          cases hw'
          exact consume_ne (by decide)
        cases hw
        have hlen := congrArg List.length (hk z)
        have hle := length_skip (r ++ z)
        simp only [List.length_append, List.length_cons, List.length_nil] at hlen hle
        obtain ⟨r', h1, h2, h3⟩ := hm k d ms ts r hr (by omega)
        refine ⟨r', h1, by simp only [List.length_append] at h2 ⊢; omega, ?_⟩
        rw [hk, List.append_assoc, List.singleton_append, value_obj, hcon, h3, docVal]
        cases docMembers conv ((k, d) :: ms) <;> rfl
    · have hbeh : Behind (toksTail ds ++ .rbrack :: ts) := by
        cases ds with
        | nil => exact .inr ⟨_, _, rfl, .inr (.inl rfl)⟩
        | cons d ds => exact .inr ⟨_, _, rfl, .inl rfl⟩
      obtain ⟨r, h1, h2, h3⟩ := hv d _ text hs hbeh (by omega)
      match ds with
      | [] =>
        obtain ⟨b', w', r', rfl, _, hw', hr', hk'⟩ := spells_cons (show Rfc.Spells (.rbrack :: ts) r from h1)
        refine ⟨r', hr', by simp only [List.length_append] at h2 ⊢; omega, ?_⟩
        rw [elements, h3, docVals]
        cases docVal conv d with
        | none => rfl
        | some v =>
          show (match consume 44 (skip (b' ++ w' ++ r' ++ z)) with
            | some r => _
            | none => match consume 93 (skip (b' ++ w' ++ r' ++ z)) with
              | some r => Out.ok (some ([v], r))
              | none => _) = _
          cases hw'
          rw [hk', List.append_assoc, List.singleton_append, consume_ne (by decide), consume_cons]; rfl
      | d' :: ds =>
        have h1' : Rfc.Spells (.comma :: (d'.toks ++ (toksTail ds ++ .rbrack :: ts))) r := by
          simpa [toksTail] using h1
        obtain ⟨b', w', r', rfl, _, hw', hr', hk'⟩ := spells_cons h1'
        cases hw'
        have hle := length_skip (r' ++ z)
        simp only [List.length_append, List.length_cons, List.length_nil] at h2 hle
        obtain ⟨r2, h4, h5, h6⟩ := he d' ds ts r' hr' (by omega)
        refine ⟨r2, h4, by simp only [List.length_append] at h5 ⊢; omega, ?_⟩
        rw [elements, h3, docVals]
        cases docVal conv d with
        | none => rfl
        | some v =>
          show (match consume 44 (skip (b' ++ [44] ++ r' ++ z)) with
            | some r => andThen (elements conv n (skip r)) fun l r => .ok (some (v :: l, r))
            | none => _) = _
          rw [hk', List.append_assoc, List.singleton_append, consume_cons]
          dsimp only
          rw [h6]
          cases docVals conv (d' :: ds) <;> rfl
    · obtain ⟨b0, w0, r0, rfl, _, hw0, hr0, hk0⟩ := spells_cons hs
      obtain ⟨b1, w1, r1, rfl, _, hw1, hr1, hk1⟩ := spells_cons hr0
      cases hw0 with
      | @string _ body hbody =>
        cases hw1
        have hlen := congrArg List.length (hk0 z)
        have hle := length_skip (r1 ++ z)
        simp only [List.length_append, List.length_cons, List.length_nil] at hlen hle
        have hbeh : Behind (toksMembers ms ++ .rcurly :: ts) := by
          match ms with
          | [] => exact .inr ⟨_, _, rfl, .inr (.inr rfl)⟩
          | (_, _) :: _ => exact .inr ⟨_, _, rfl, .inl rfl⟩
        obtain ⟨r, h1, h2, h3⟩ := hv d _ r1 hr1 hbeh (by omega)
        have start : ∀ X : Out (Option (List (Bytes × Val) × Bytes)),
            andThen (value conv n (skip (r1 ++ z))) (fun v r =>
              let r := skip r
              match consume 44 r with
              | some r => andThen (members conv n (skip r)) fun m r => .ok (some ((k, v) :: m, r))
              | none =>
                match consume 125 r with
                | some r => .ok (some ([(k, v)], r))
                | none => .ok none) = X →
            members conv (n + 1) (34 :: body ++ [34] ++ (b1 ++ [58] ++ r1) ++ z) = X := by
          intro X hX
          rw [members, if_neg (show ¬ peek (34 :: body ++ [34] ++ (b1 ++ [58] ++ r1) ++ z) ≠ 34 from fun h => h rfl)]
          rw [show List.tail (34 :: body ++ [34] ++ (b1 ++ [58] ++ r1) ++ z : Bytes) = body ++ 34 :: ((b1 ++ [58] ++ r1) ++ z) by simp,
            string_complete hbody]
          dsimp only
          rw [hk1, List.append_assoc, List.singleton_append, consume_cons]
          exact hX
        match ms with
        | [] =>
          obtain ⟨b', w', r', rfl, _, hw', hr', hk'⟩ := spells_cons (show Rfc.Spells (.rcurly :: ts) r from h1)
          refine ⟨r', hr', by simp only [List.length_append] at h2 ⊢; omega, ?_⟩
          rw [hk0]
          refine start _ ?_
          rw [h3, docMembers]
          cases docVal conv d with
          | none => rfl
          | some v =>
            show (match consume 44 (skip (b' ++ w' ++ r' ++ z)) with
              | some r => _
              | none => match consume 125 (skip (b' ++ w' ++ r' ++ z)) with
                | some r => Out.ok (some ([(k, v)], r))
                | none => _) = _
            cases hw'
            rw [hk', List.append_assoc, List.singleton_append, consume_ne (by decide), consume_cons]; rfl
        | (k', d') :: ms =>
          have h1' : Rfc.Spells (.comma :: (.string k' :: .colon :: (d'.toks ++ (toksMembers ms ++ .rcurly :: ts)))) r := by
            simpa [toksMembers] using h1
          obtain ⟨b', w', r', rfl, _, hw', hr', hk'⟩ := spells_cons h1'
          cases hw'
          have hle' := length_skip (r' ++ z)
          simp only [List.length_append, List.length_cons, List.length_nil] at h2 hle'
          obtain ⟨r2, h4, h5, h6⟩ := hm k' d' ms ts r' hr' (by omega)
          refine ⟨r2, h4, by simp only [List.length_append] at h5 ⊢; omega, ?_⟩
          rw [hk0]
          refine start _ ?_
          rw [h3, docMembers]
          cases docVal conv d with
          | none => rfl
          | some v =>
            show (match consume 44 (skip (b' ++ [44] ++ r' ++ z)) with
              | some r => andThen (members conv n (skip r)) fun m r => .ok (some ((k, v) :: m, r))
              | none => _) = _
            rw [hk', List.append_assoc, List.singleton_append, consume_cons]
            dsimp only
            rw [h6]
            cases docMembers conv ((k', d') :: ms) <;> rfl

/-! ## Texts -/

theorem body_no_nul {s b : Bytes} (h : Rfc.Body s b) : (0 : Byte) ∉ b := by
  have hx : ∀ {c : Byte} {n : Nat}, Rfc.Hex c n → (0 : Byte) ≠ c := by
    intro c n h e
    subst e
    rcases h with h | h | h <;> · have := h.1; rw [show (0 : Byte).toNat = 0 from rfl] at this; omega
  have h4 : ∀ {l : Bytes} {u : Nat}, Rfc.Hex4 l u → (0 : Byte) ∉ l := by
    intro l u h
    obtain ⟨a, b, c, d, i, j, k, m, rfl, h1, h2, h3, h4, _⟩ := h
    simp only [List.mem_cons, List.not_mem_nil, or_false, not_or]
    exact ⟨hx h1, hx h2, hx h3, hx h4⟩
  induction h with
  | nil => exact List.not_mem_nil
  | plain h1 _ _ _ ih =>
    simp only [List.mem_cons, not_or]
    refine ⟨fun e => ?_, ih⟩
    rw [← e] at h1; revert h1; decide
  | escape h1 _ ih =>
    simp only [List.mem_cons, not_or]
    refine ⟨by decide, fun e => ?_, ih⟩
    rw [← e] at h1
    simp [Rfc.escapes] at h1
  | unicode h1 _ _ ih =>
    simp only [List.cons_append, List.mem_cons, List.mem_append, not_or]
    exact ⟨by decide, by decide, h4 h1, ih⟩
  | pair h1 h2 _ _ _ _ _ ih =>
    simp only [List.cons_append, List.mem_cons, List.mem_append, not_or]
    exact ⟨by decide, by decide, ⟨h4 h1, by decide, by decide, h4 h2⟩, ih⟩

theorem written_no_nul {t : Tok} {w : Bytes} (h : Rfc.Written t w) : (0 : Byte) ∉ w := by
  have dg : ∀ {l : Bytes}, Digits l → (0 : Byte) ∉ l := by
    intro l h hm
    have := h.2 _ hm
    revert this; decide
  have sg : ∀ {a : Bytes}, (a = [] ∨ a = [45]) → (0 : Byte) ∉ a := by
    rintro a (rfl | rfl) <;> decide
  cases h with
  | string h =>
    simp only [List.cons_append, List.mem_cons, List.mem_append, List.not_mem_nil, or_false, not_or]
    exact ⟨by decide, body_no_nul h, by decide⟩
  | int h =>
    obtain ⟨a, b, rfl, ha, hb⟩ := h
    simp only [List.mem_append, not_or]
    exact ⟨sg ha, dg (Rfc.Int.digits hb)⟩
  | num h =>
    obtain ⟨a, b, f, e, rfl, ha, hb, hf, he, _⟩ := h
    simp only [List.mem_append, not_or]
    refine ⟨⟨⟨sg ha, dg (Rfc.Int.digits hb)⟩, ?_⟩, ?_⟩
    · rcases hf with rfl | ⟨d, rfl, hd⟩
      · exact List.not_mem_nil
      · simp only [List.mem_cons, not_or]; exact ⟨by decide, dg hd⟩
    · rcases he with rfl | ⟨x, y, d, rfl, hx, hy, hd⟩
      · exact List.not_mem_nil
      · simp only [List.cons_append, List.mem_cons, List.mem_append, not_or]
        refine ⟨by rcases hx with rfl | rfl <;> decide, ?_, dg hd⟩
        rcases hy with rfl | rfl | rfl <;> decide
  | lcurly | rcurly | lbrack | rbrack | comma | colon | true | false | null => decide

theorem blanks_no_nul {b : Bytes} (h : Rfc.Blanks b) : (0 : Byte) ∉ b := by
  intro hm
  have := h _ hm
  revert this; decide

theorem spells_no_nul {ts : List Tok} {text : Bytes} (h : Rfc.Spells ts text) : (0 : Byte) ∉ text := by
  induction h with
  | nil h => exact blanks_no_nul h
  | cons hb hw _ ih =>
    simp only [List.mem_append, not_or]
    exact ⟨⟨blanks_no_nul hb, written_no_nul hw⟩, ih⟩

theorem cstr_split (t : Bytes) : ∃ z, t = cstr t ++ z ∧ peek z = 0 := by
  induction t with
  | nil => exact ⟨[], rfl, rfl⟩
  | cons c t ih =>
    obtain ⟨z, h1, h2⟩ := ih
    by_cases hc : c = 0
    · exact ⟨c :: t, by simp [cstr, hc], hc⟩
    · refine ⟨z, ?_, h2⟩
      have : cstr (c :: t) = c :: cstr t := List.takeWhile_cons_of_pos (by simpa using hc)
      rw [this, List.cons_append, ← h1]

theorem cstr_of_split {a z : Bytes} (h : (0 : Byte) ∉ a) (hz : peek z = 0) : cstr (a ++ z) = a := by
  induction a with
  | nil =>
    match z with
    | [] => rfl
    | c :: z => rw [peek] at hz; simp [cstr, hz]
  | cons c a ih =>
    simp only [List.mem_cons, not_or] at h
    have : cstr (c :: a ++ z) = c :: cstr (a ++ z) := List.takeWhile_cons_of_pos (by simpa using Ne.symm h.1)
    rw [this, ih h.2]

/-- A JSON text is read as its document. -/
theorem parse_doc {conv : Bytes → Option F64} {d : Doc} {text : Bytes} (h : Rfc.JsonText d (cstr text)) :
    parse conv text = .ok (docVal conv d) := by
  obtain ⟨z, h1, hz⟩ := cstr_split text
  obtain ⟨t, l, ht, _⟩ := toks_head d
  have hsk : peek (skip text) ≠ 0 := by
    have h' : Rfc.Spells (t :: l) (cstr text) := by rw [← ht]; exact h
    obtain ⟨b, w, r, _, _, hw, _, hk⟩ := spells_cons h'
    obtain ⟨c, w', rfl, _, hc⟩ := written_head hw
    rw [h1, hk]
    exact hc
  unfold parse
  dsimp only
  rw [if_neg hsk]
  have h0 : Rfc.Spells (d.toks ++ []) (cstr text) := by rw [List.append_nil]; exact h
  obtain ⟨r, h2, _, h3⟩ := (complete conv hz _).1 d [] (cstr text) h0 (.inl rfl) (Nat.le_refl _)
  rw [← h1] at h3
  rw [h3]
  cases docVal conv d with
  | none => rfl
  | some v =>
    show (if peek (skip (r ++ z)) ≠ 0 then Out.ok none else .ok (some v)) = _
    have : peek (skip (r ++ z)) = 0 := by
      rw [skip_blanks _ _ (spells_nil h2)]
      match z with
      | [] => rfl
      | c :: z => rw [peek] at hz; subst hz; rfl
    rw [if_neg (by simp [this])]

/-- What is read is a JSON text. -/
theorem parse_some {conv : Bytes → Option F64} {text : Bytes} {v : Val} (h : parse conv text = .ok (some v)) :
    ∃ d, Rfc.JsonText d (cstr text) ∧ docVal conv d = some v := by
  unfold parse at h
  dsimp only at h
  split at h
  · cases h
  · obtain ⟨y, hy, _⟩ := (total conv _).1 (skip text) (Nat.le_refl _)
    rw [hy] at h
    match y with
    | none => cases h
    | some (v', r) =>
      replace h : (if peek (skip r) ≠ 0 then Out.ok none else .ok (some v')) = .ok (some v) := h
      split at h
      · cases h
      · next hp =>
        simp only [Out.ok.injEq, Option.some.injEq] at h
        subst h
        obtain ⟨d, hd, hm⟩ := (sound conv _).1 _ _ _ hy
        obtain ⟨w, hw, hm⟩ := hm.skip
        obtain ⟨b, hr, hb⟩ := skip_split r
        have hj := hm [] [] b blanks_nil (.nil hb)
        rw [List.append_nil, List.nil_append] at hj
        refine ⟨d, ?_, hd⟩
        have : cstr text = w ++ b := by
          rw [hw, hr, ← List.append_assoc]
          rw [hr] at hp
          exact cstr_of_split (spells_no_nul hj) (by
            have := Classical.not_not.1 hp
            rwa [← hr] at this)
        rw [this]
        exact hj

end Rapid
end GCV
