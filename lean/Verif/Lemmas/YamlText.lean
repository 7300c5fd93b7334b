import Verif.Spec.Yaml

/-! # Lemmas about YAML texts: a text stands for one document only -/

namespace GCV
namespace YamlText
open Json

/-! ## Strings -/

/-- The character behind a backslash. -/
def unesc (c : Byte) : Byte :=
  if c = 110 then 10 else if c = 114 then 13 else if c = 116 then 9 else if c = 98 then 8 else if c = 97 then 7
  else if c = 118 then 11 else c

/-- The text up to the closing quote and what follows it. -/
def unquote : Bytes → Bytes × Bytes
  | [] => ([], [])
  | [c] => if c = 34 then ([], []) else ([c], [])
  | c :: d :: r =>
    if c = 34 then ([], d :: r)
    else if c = 92 then (unesc d :: (unquote r).1, (unquote r).2)
    else (c :: (unquote (d :: r)).1, (unquote (d :: r)).2)

theorem unquote_plain {c : Byte} {l : Bytes} (h1 : c ≠ 34) (h2 : c ≠ 92) :
    unquote (c :: l) = (c :: (unquote l).1, (unquote l).2) := by
  cases l with
  | nil => show unquote [c] = ([c], []); rw [unquote, if_neg h1]
  | cons d r => rw [unquote, if_neg h1, if_neg h2]

theorem unquote_end (r : Bytes) : unquote (34 :: r) = ([], r) := by
  cases r with
  | nil => rfl
  | cons d r => rw [unquote, if_pos rfl]

theorem unquote_esc (d : Byte) (r : Bytes) : unquote (92 :: d :: r) = (unesc d :: (unquote r).1, (unquote r).2) := by
  rw [unquote, if_neg (by decide), if_pos rfl]

theorem high_ne {c : Byte} (h : 0x80 ≤ c.toNat) : c ≠ 34 ∧ c ≠ 92 :=
  ⟨by rintro rfl; exact absurd h (by decide), by rintro rfl; exact absurd h (by decide)⟩

theorem unquote_quoted {s b : Bytes} (h : Quoted s b) (r : Bytes) : unquote (b ++ 34 :: r) = (s, r) := by
  induction h with
  | nil => exact unquote_end r
  | plain _ _ h1 h2 _ ih => rw [List.cons_append, unquote_plain h1 h2, ih]
  | quote _ ih => rw [List.cons_append, List.cons_append, unquote_esc, ih]; rfl
  | backslash _ ih => rw [List.cons_append, List.cons_append, unquote_esc, ih]; rfl
  | newline _ ih => rw [List.cons_append, List.cons_append, unquote_esc, ih]; rfl
  | ret _ ih => rw [List.cons_append, List.cons_append, unquote_esc, ih]; rfl
  | tab _ ih => rw [List.cons_append, List.cons_append, unquote_esc, ih]; rfl
  | back _ ih => rw [List.cons_append, List.cons_append, unquote_esc, ih]; rfl
  | bell _ ih => rw [List.cons_append, List.cons_append, unquote_esc, ih]; rfl
  | vtab _ ih => rw [List.cons_append, List.cons_append, unquote_esc, ih]; rfl
  | two c1 _ d1 _ _ ih =>
    have hc := high_ne (Nat.le_trans (by decide) c1)
    have hd := high_ne d1
    simp only [List.cons_append, unquote_plain hc.1 hc.2, unquote_plain hd.1 hd.2, ih]
  | three c1 _ d1 _ e1 _ _ ih =>
    have hc := high_ne (Nat.le_trans (by decide) c1)
    have hd := high_ne d1
    have he := high_ne e1
    simp only [List.cons_append, unquote_plain hc.1 hc.2, unquote_plain hd.1 hd.2, unquote_plain he.1 he.2, ih]
  | four c1 _ d1 _ e1 _ f1 _ _ ih =>
    have hc := high_ne (Nat.le_trans (by decide) c1)
    have hd := high_ne d1
    have he := high_ne e1
    have hf := high_ne f1
    simp only [List.cons_append, unquote_plain hc.1 hc.2, unquote_plain hd.1 hd.2, unquote_plain he.1 he.2,
      unquote_plain hf.1 hf.2, ih]

theorem quoted_no_newline {s b : Bytes} (h : Quoted s b) : (10 : Byte) ∉ b := by
  have big : ∀ {c : Byte}, 0x20 ≤ c.toNat → (10 : Byte) ≠ c := by rintro c h rfl; exact absurd h (by decide)
  have step : ∀ {c : Byte} {b : Bytes}, 0x20 ≤ c.toNat → (10 : Byte) ∉ b → (10 : Byte) ∉ c :: b :=
    fun hc hb => List.not_mem_cons_of_ne_of_not_mem (big hc) hb
  induction h with
  | nil => exact List.not_mem_nil
  | plain h _ _ _ _ ih => exact step h ih
  | quote _ ih => exact step (by decide) (step (by decide) ih)
  | backslash _ ih => exact step (by decide) (step (by decide) ih)
  | newline _ ih => exact step (by decide) (step (by decide) ih)
  | ret _ ih => exact step (by decide) (step (by decide) ih)
  | tab _ ih => exact step (by decide) (step (by decide) ih)
  | back _ ih => exact step (by decide) (step (by decide) ih)
  | bell _ ih => exact step (by decide) (step (by decide) ih)
  | vtab _ ih => exact step (by decide) (step (by decide) ih)
  | two c1 _ d1 _ _ ih => exact step (by omega) (step (by omega) ih)
  | three c1 _ d1 _ e1 _ _ ih => exact step (by omega) (step (by omega) (step (by omega) ih))
  | four c1 _ d1 _ e1 _ f1 _ _ ih => exact step (by omega) (step (by omega) (step (by omega) (step (by omega) ih)))

/-! ## Scalars -/

/-- The bytes of numbers. -/
def NumByte (c : Byte) : Prop := (48 ≤ c.toNat ∧ c.toNat ≤ 57) ∨ c = 43 ∨ c = 45 ∨ c = 46 ∨ c = 101 ∨ c = 69

theorem sign_bytes {s : Bytes} (h : Sign s) : ∀ c ∈ s, c = 43 ∨ c = 45 := by
  rcases h with rfl | rfl | rfl <;> simp

theorem intLit_bytes {l : Bytes} (h : IntLit l) : l ≠ [] ∧ ∀ c ∈ l, (48 ≤ c.toNat ∧ c.toNat ≤ 57) ∨ c = 43 ∨ c = 45 := by
  obtain ⟨a, b, rfl, h1, h2⟩ := h
  refine ⟨by simp [h2.1], fun c hc => ?_⟩
  rcases List.mem_append.1 hc with hc | hc
  · exact .inr (sign_bytes h1 c hc)
  · exact .inl (h2.2 c hc)

theorem floatLit_bytes {l : Bytes} (h : FloatLit l) : l ≠ [] ∧ (∀ c ∈ l, NumByte c) ∧
    ((46 : Byte) ∈ l ∨ (101 : Byte) ∈ l ∨ (69 : Byte) ∈ l) := by
  obtain ⟨a, b, p, e, rfl, h1, h2, h3, h4, h5⟩ := h
  have hb : ∀ c ∈ a ++ b, NumByte c := by
    intro c hc
    rcases List.mem_append.1 hc with hc | hc
    · rcases sign_bytes h1 c hc with h | h
      · exact .inr (.inl h)
      · exact .inr (.inr (.inl h))
    · exact .inl (h2.2 c hc)
  have hp : ∀ c ∈ p, NumByte c := by
    rcases h3 with rfl | ⟨d, rfl, hd⟩
    · intro c hc; cases hc
    · intro c hc
      rcases List.mem_cons.1 hc with rfl | hc
      · exact .inr (.inr (.inr (.inl rfl)))
      · exact .inl (hd.2 c hc)
  have he : ∀ c ∈ e, NumByte c := by
    rcases h4 with rfl | ⟨x, y, d, rfl, hx, hy, hd⟩
    · intro c hc; cases hc
    · intro c hc
      rcases List.mem_append.1 hc with hc | hc
      · rcases List.mem_cons.1 hc with rfl | hc
        · rcases hx with h | h
          · exact .inr (.inr (.inr (.inr (.inl h))))
          · exact .inr (.inr (.inr (.inr (.inr h))))
        · rcases sign_bytes hy c hc with h | h
          · exact .inr (.inl h)
          · exact .inr (.inr (.inl h))
      · exact .inl (hd.2 c hc)
  refine ⟨by simp [h2.1], fun c hc => ?_, ?_⟩
  · rcases List.mem_append.1 hc with hc | hc
    · rcases List.mem_append.1 hc with hc | hc
      · exact hb c hc
      · exact hp c hc
    · exact he c hc
  · rcases h3 with rfl | ⟨d, rfl, hd⟩
    · rcases h4 with rfl | ⟨x, y, d, rfl, hx, hy, hd⟩
      · simp at h5
      · rcases hx with rfl | rfl
        · exact .inr (.inl (List.mem_append_right _ (.head _)))
        · exact .inr (.inr (List.mem_append_right _ (.head _)))
    · exact .inl (List.mem_append_left _ (List.mem_append_right _ (.head _)))

theorem numeral_bytes {l : Bytes} (h : Numeral l) : l ≠ [] ∧ ∀ c ∈ l, NumByte c := by
  rcases h with h | h
  · refine ⟨(intLit_bytes h).1, fun c hc => ?_⟩
    rcases (intLit_bytes h).2 c hc with h | h | h
    · exact .inl h
    · exact .inr (.inl h)
    · exact .inr (.inr (.inl h))
  · exact ⟨(floatLit_bytes h).1, (floatLit_bytes h).2.1⟩

theorem cplxLit_bytes {l : Bytes} (h : CplxLit l) : l ≠ [] ∧ (∀ c ∈ l, NumByte c ∨ c = 105) ∧ (105 : Byte) ∈ l := by
  obtain ⟨a, sg, b, rfl, h1, h2, h3⟩ := h
  refine ⟨by simp, fun c hc => ?_, List.mem_append_right _ (.head _)⟩
  rcases List.mem_append.1 hc with hc | hc
  · rcases List.mem_append.1 hc with hc | hc
    · exact .inl ((numeral_bytes h1).2 c hc)
    · rcases List.mem_cons.1 hc with rfl | hc
      · rcases h2 with h | h
        · exact .inl (.inr (.inl h))
        · exact .inl (.inr (.inr (.inl h)))
      · exact .inl ((numeral_bytes h3).2 c hc)
  · exact .inr (List.mem_singleton.1 hc)

/-- The bytes of a scalar without quotes. -/
def WordByte (c : Byte) : Prop := NumByte c ∨ (97 ≤ c.toNat ∧ c.toNat ≤ 122)

theorem wordByte_ne {c d : Byte} (h : WordByte c) (hd : d = 10 ∨ d = 32 ∨ d = 34 ∨ d = 44 ∨ d = 91 ∨ d = 93) : c ≠ d := by
  rintro rfl
  rcases hd with rfl | rfl | rfl | rfl | rfl | rfl <;> revert h <;> unfold WordByte NumByte <;> decide

theorem numByte_ne {c : Byte} (h : NumByte c) (hd : c = 105 ∨ c = 110 ∨ c = 116 ∨ c = 102) : False := by
  rcases hd with rfl | rfl | rfl | rfl <;> revert h <;> unfold NumByte <;> decide

/-- A scalar is a string between quotes or a word. -/
theorem scalar_cases {d : Doc} {t : Bytes} (h : Scalar d t) :
    (∃ s b, d = .string s ∧ t = 34 :: b ++ [34] ∧ Quoted s b) ∨ (t ≠ [] ∧ ∀ c ∈ t, WordByte c) := by
  cases h with
  | null => exact .inr ⟨by decide, fun c hc => .inr (by revert c; decide)⟩
  | true => exact .inr ⟨by decide, fun c hc => .inr (by revert c; decide)⟩
  | false => exact .inr ⟨by decide, fun c hc => .inr (by revert c; decide)⟩
  | int h => exact .inr ⟨(numeral_bytes (.inl h)).1, fun c hc => .inl ((numeral_bytes (.inl h)).2 c hc)⟩
  | num h => exact .inr ⟨(numeral_bytes (.inr h)).1, fun c hc => .inl ((numeral_bytes (.inr h)).2 c hc)⟩
  | quoted h => exact .inl ⟨_, _, rfl, rfl, h⟩
  | cplx h =>
    refine .inr ⟨(cplxLit_bytes h).1, fun c hc => ?_⟩
    rcases (cplxLit_bytes h).2.1 c hc with h | rfl
    · exact .inl h
    · exact .inr (by decide)

open Classical in
/-- The document of a word. -/
noncomputable def wordDoc (t : Bytes) : Doc :=
  if t = str "null" then .null else if t = str "true" then .bool true else if t = str "false" then .bool false
  else if (105 : Byte) ∈ t then .string t else if (46 : Byte) ∈ t ∨ (101 : Byte) ∈ t ∨ (69 : Byte) ∈ t then .num t else .int t

theorem scalar_word {d : Doc} {t : Bytes} (h : Scalar d t) (hw : ∀ c ∈ t, WordByte c) : d = wordDoc t := by
  have lits : ∀ {t : Bytes}, (∀ c ∈ t, NumByte c ∨ c = 105) → t ≠ str "null" ∧ t ≠ str "true" ∧ t ≠ str "false" := by
    intro t ht
    refine ⟨?_, ?_, ?_⟩ <;> rintro rfl
    · rcases ht 110 (by decide) with h | h
      · exact numByte_ne h (by simp)
      · exact absurd h (by decide)
    · rcases ht 116 (by decide) with h | h
      · exact numByte_ne h (by simp)
      · exact absurd h (by decide)
    · rcases ht 102 (by decide) with h | h
      · exact numByte_ne h (by simp)
      · exact absurd h (by decide)
  unfold wordDoc
  cases h with
  | null => rw [if_pos rfl]
  | true => rw [if_neg (by decide), if_pos rfl]
  | false => rw [if_neg (by decide), if_neg (by decide), if_pos rfl]
  | int h =>
    have hb := numeral_bytes (.inl h)
    obtain ⟨h1, h2, h3⟩ := lits fun c hc => .inl (hb.2 c hc)
    rw [if_neg h1, if_neg h2, if_neg h3, if_neg (fun hc => numByte_ne (hb.2 _ hc) (by simp)), if_neg]
    rintro (hc | hc | hc) <;> have := (intLit_bytes h).2 _ hc <;> revert this <;> decide
  | num h =>
    have hb := floatLit_bytes h
    obtain ⟨h1, h2, h3⟩ := lits fun c hc => .inl (hb.2.1 c hc)
    rw [if_neg h1, if_neg h2, if_neg h3, if_neg (fun hc => numByte_ne (hb.2.1 _ hc) (by simp)), if_pos hb.2.2]
  | quoted h => exact absurd rfl (wordByte_ne (hw 34 (.head _)) (by simp))
  | cplx h =>
    have hb := cplxLit_bytes h
    obtain ⟨h1, h2, h3⟩ := lits hb.2.1
    rw [if_neg h1, if_neg h2, if_neg h3, if_pos hb.2.2]

/-- What may follow a scalar. -/
def Stop (r : Bytes) : Prop := ∃ c u, r = c :: u ∧ (c = 10 ∨ c = 32 ∨ c = 44)

theorem split_words {t t' r r' : Bytes} (h : ∀ c ∈ t, WordByte c) (h' : ∀ c ∈ t', WordByte c) (hr : Stop r) (hr' : Stop r')
    (e : t ++ r = t' ++ r') : t = t' ∧ r = r' := by
  induction t generalizing t' with
  | nil =>
    cases t' with
    | nil => exact ⟨rfl, e⟩
    | cons c t' =>
      obtain ⟨d, u, rfl, hd⟩ := hr
      simp only [List.nil_append, List.cons_append, List.cons.injEq] at e
      exact absurd e.1.symm (wordByte_ne (h' c (.head _)) (by rcases hd with h | h | h <;> simp [h]))
  | cons c t ih =>
    cases t' with
    | nil =>
      obtain ⟨d, u, rfl, hd⟩ := hr'
      simp only [List.nil_append, List.cons_append, List.cons.injEq] at e
      exact absurd e.1 (wordByte_ne (h c (.head _)) (by rcases hd with h | h | h <;> simp [h]))
    | cons c' t' =>
      simp only [List.cons_append, List.cons.injEq] at e
      obtain ⟨rfl, h2⟩ := ih (fun c hc => h c (.tail _ hc)) (fun c hc => h' c (.tail _ hc)) e.2
      exact ⟨by rw [e.1], h2⟩

theorem scalar_unique {d d' : Doc} {t t' r r' : Bytes} (h : Scalar d t) (h' : Scalar d' t') (hr : Stop r) (hr' : Stop r')
    (e : t ++ r = t' ++ r') : d = d' ∧ r = r' := by
  rcases scalar_cases h with ⟨s, b, rfl, rfl, hq⟩ | ⟨hne, hw⟩ <;> rcases scalar_cases h' with ⟨s', b', rfl, rfl, hq'⟩ | ⟨hne', hw'⟩
  · simp only [List.cons_append, List.append_assoc, List.cons.injEq, true_and, List.nil_append] at e
    have h1 := unquote_quoted hq r
    rw [e, unquote_quoted hq' r'] at h1
    simp only [Prod.mk.injEq] at h1
    exact ⟨by rw [h1.1], h1.2.symm⟩
  · cases t' with
    | nil => exact absurd rfl hne'
    | cons c t' =>
      simp only [List.cons_append, List.cons.injEq] at e
      exact absurd e.1.symm (wordByte_ne (hw' c (.head _)) (by simp))
  · cases t with
    | nil => exact absurd rfl hne
    | cons c t =>
      simp only [List.cons_append, List.cons.injEq] at e
      exact absurd e.1 (wordByte_ne (hw c (.head _)) (by simp))
  · obtain ⟨rfl, h2⟩ := split_words hw hw' hr hr' e
    exact ⟨by rw [scalar_word h hw, scalar_word h' hw], h2⟩

theorem flowItems_unique {ds : List Doc} {t : Bytes} (h : FlowItems ds t) : ∀ {ds' : List Doc} {t' r r' : Bytes},
    FlowItems ds' t' → t ++ 32 :: r = t' ++ 32 :: r' → ds = ds' ∧ r = r' := by
  have c1 : ∀ r : Bytes, Stop (32 :: r) := fun r => ⟨_, _, rfl, by simp⟩
  have c2 : ∀ r : Bytes, Stop (44 :: r) := fun r => ⟨_, _, rfl, by simp⟩
  induction h with
  | one h =>
    intro ds' t' r r' h' e
    cases h' with
    | one h' =>
      obtain ⟨h1, h2⟩ := scalar_unique h h' (c1 _) (c1 _) e
      exact ⟨by rw [h1], by injection h2⟩
    | cons h' _ =>
      rw [List.append_assoc] at e
      obtain ⟨_, h2⟩ := scalar_unique h h' (c1 _) (c2 _) e
      injection h2 with h2 _; exact absurd h2 (by decide)
  | @cons d ds t u h hi ih =>
    intro ds' t' r r' h' e
    rw [List.append_assoc] at e
    cases h' with
    | one h' =>
      obtain ⟨_, h2⟩ := scalar_unique h h' (c2 _) (c1 _) e
      injection h2 with h2 _; exact absurd h2 (by decide)
    | cons h' hi' =>
      rw [List.append_assoc, List.cons_append, List.cons_append, List.cons_append, List.cons_append] at e
      obtain ⟨h1, h2⟩ := scalar_unique h h' (c2 _) (c2 _) e
      simp only [List.cons.injEq, true_and] at h2
      obtain ⟨h3, h4⟩ := ih hi' h2
      exact ⟨by rw [h1, h3], h4⟩

theorem scalar_head {d : Doc} {t : Bytes} (h : Scalar d t) : ∃ c u, t = c :: u ∧ c ≠ 10 ∧ c ≠ 91 := by
  rcases scalar_cases h with ⟨s, b, rfl, rfl, hq⟩ | ⟨hne, hw⟩
  · exact ⟨_, _, rfl, by decide, by decide⟩
  · cases t with
    | nil => exact absurd rfl hne
    | cons c t => exact ⟨_, _, rfl, wordByte_ne (hw c (.head _)) (by simp), wordByte_ne (hw c (.head _)) (by simp)⟩

theorem flow_head {d : Doc} {t : Bytes} (h : Flow d t) : ∃ c u, t = c :: u ∧ c ≠ 10 := by
  cases h with
  | scalar h => obtain ⟨c, u, h1, h2, _⟩ := scalar_head h; exact ⟨c, u, h1, h2⟩
  | seq h => exact ⟨_, _, rfl, by decide⟩

theorem flow_unique {d d' : Doc} {t t' r r' : Bytes} (h : Flow d t) (h' : Flow d' t') (e : t ++ 10 :: r = t' ++ 10 :: r') :
    d = d' ∧ r = r' := by
  have c1 : ∀ r : Bytes, Stop (10 :: r) := fun r => ⟨_, _, rfl, by simp⟩
  cases h with
  | scalar h =>
    cases h' with
    | scalar h' =>
      obtain ⟨h1, h2⟩ := scalar_unique h h' (c1 _) (c1 _) e
      exact ⟨h1, by injection h2⟩
    | seq h' =>
      obtain ⟨c, u, rfl, _, hc⟩ := scalar_head h
      simp only [List.cons_append, List.cons.injEq] at e
      exact absurd e.1 hc
  | seq h =>
    cases h' with
    | scalar h' =>
      obtain ⟨c, u, rfl, _, hc⟩ := scalar_head h'
      simp only [List.cons_append, List.cons.injEq] at e
      exact absurd e.1.symm hc
    | seq h' =>
      simp only [List.cons_append, List.append_assoc, List.cons.injEq, true_and] at e
      obtain ⟨h1, h2⟩ := flowItems_unique h h' e
      simp only [List.nil_append, List.cons.injEq, true_and] at h2
      exact ⟨by rw [h1], h2⟩

/-! ## Blocks -/

/-- What may follow the text of a document behind column `n`: nothing, or a line that starts at column `n` or before. -/
def Ends (n : Int) (r : Bytes) : Prop := r = [] ∨ ∃ j c u, r = spaces j ++ c :: u ∧ c ≠ 32 ∧ (j : Int) ≤ n

theorem spaces_inj : ∀ {i j : Nat} {c d : Byte} {u v : Bytes}, c ≠ 32 → d ≠ 32 → spaces i ++ c :: u = spaces j ++ d :: v →
    i = j ∧ c = d ∧ u = v
  | 0, 0, c, d, u, v, _, _, e => by simpa [spaces] using e
  | 0, j + 1, c, d, u, v, hc, _, e => by
    simp only [spaces, List.replicate_succ, List.replicate_zero, List.nil_append, List.cons_append, List.cons.injEq] at e
    exact absurd e.1 hc
  | i + 1, 0, c, d, u, v, _, hd, e => by
    simp only [spaces, List.replicate_succ, List.replicate_zero, List.nil_append, List.cons_append, List.cons.injEq] at e
    exact absurd e.1.symm hd
  | i + 1, j + 1, c, d, u, v, hc, hd, e => by
    simp only [spaces, List.replicate_succ, List.cons_append, List.cons.injEq, true_and] at e
    obtain ⟨h1, h2⟩ := spaces_inj (i := i) (j := j) hc hd e
    exact ⟨by rw [h1], h2⟩

theorem Ends.not {n : Int} {m : Nat} {c : Byte} {u r : Bytes} (h : Ends n r) (hn : n < m) (hc : c ≠ 32) :
    r ≠ spaces m ++ c :: u := by
  rintro rfl
  rcases h with h | ⟨j, d, v, e, hd, hj⟩
  · simp at h
  · obtain ⟨rfl, -⟩ := spaces_inj hc hd e
    omega

theorem key_head {k : Bytes} (h : Key k) : ∃ c r, k = c :: r ∧ c ≠ 32 ∧ c ≠ 45 := by
  obtain ⟨⟨c, r, rfl, hc⟩, -⟩ := h
  refine ⟨c, r, rfl, ?_, ?_⟩ <;> rintro rfl <;> revert hc <;> unfold Letter <;> decide

theorem key_unique {k k' r r' : Bytes} (h : Key k) (h' : Key k') (e : k ++ 58 :: r = k' ++ 58 :: r') : k = k' ∧ r = r' := by
  have hne : ∀ {k : Bytes}, Key k → ∀ c ∈ k, c ≠ 58 := by
    rintro k ⟨-, hk, -⟩ c hc rfl
    have := hk _ hc
    revert this; unfold Letter; decide
  have h1 := hne h
  have h2 := hne h'
  clear h h'
  induction k generalizing k' with
  | nil =>
    cases k' with
    | nil => simpa using e
    | cons c k' =>
      simp only [List.nil_append, List.cons_append, List.cons.injEq] at e
      exact absurd e.1.symm (h2 c (.head _))
  | cons c k ih =>
    cases k' with
    | nil =>
      simp only [List.nil_append, List.cons_append, List.cons.injEq] at e
      exact absurd e.1 (h1 c (.head _))
    | cons c' k' =>
      simp only [List.cons_append, List.cons.injEq] at e
      obtain ⟨rfl, h4⟩ := ih e.2 (fun c hc => h1 c (.tail _ hc)) (fun c hc => h2 c (.tail _ hc))
      exact ⟨by rw [e.1], h4⟩

/-- The first line of a block sequence. -/
theorem items_head {m : Nat} {ds : List Doc} {t : Bytes} (h : Items m ds t) (hne : ds ≠ []) :
    ∃ u, t = spaces m ++ 45 :: u := by
  cases h with
  | nil => exact absurd rfl hne
  | cons => exact ⟨_, by simp; rfl⟩

theorem pairs_head {m : Nat} {ms : List (Bytes × Doc)} {t : Bytes} (h : Pairs m ms t) (hne : ms ≠ []) :
    ∃ c u, t = spaces m ++ c :: u ∧ c ≠ 32 ∧ c ≠ 45 := by
  cases h with
  | nil => exact absurd rfl hne
  | cons hk =>
    obtain ⟨c, r, rfl, h1, h2⟩ := key_head hk
    exact ⟨c, _, by simp; rfl, h1, h2⟩

theorem items_ends {m : Nat} {ds : List Doc} {t r : Bytes} (h : Items m ds t) {n : Int} (hr : Ends n r) (hn : n < m) :
    Ends m (t ++ r) := by
  cases h with
  | nil =>
    rcases hr with rfl | ⟨j, c, u, rfl, hc, hj⟩
    · exact .inl rfl
    · exact .inr ⟨j, c, u, rfl, hc, by omega⟩
  | @cons _ d ds t u => exact .inr ⟨m, 45, 32 :: t ++ u ++ r, by simp, by decide, by omega⟩

theorem pairs_ends {m : Nat} {ms : List (Bytes × Doc)} {t r : Bytes} (h : Pairs m ms t) {n : Int} (hr : Ends n r) (hn : n < m) :
    Ends m (t ++ r) := by
  cases h with
  | nil =>
    rcases hr with rfl | ⟨j, c, u, rfl, hc, hj⟩
    · exact .inl rfl
    · exact .inr ⟨j, c, u, rfl, hc, by omega⟩
  | @cons _ k d ms t u hk =>
    obtain ⟨c, k', rfl, h1, h2⟩ := key_head hk
    exact .inr ⟨m, c, k' ++ 58 :: 32 :: t ++ u ++ r, by simp, h1, by omega⟩

theorem node_unique {n : Int} {d : Doc} {t : Bytes} (h : Node n d t) : ∀ {d' : Doc} {t' r r' : Bytes}, Node n d' t' →
    Ends n r → Ends n r' → t ++ r = t' ++ r' → d = d' ∧ r = r' := by
  refine Node.rec
    (motive_1 := fun n d t _ => ∀ {d' : Doc} {t' r r' : Bytes}, Node n d' t' → Ends n r → Ends n r' → t ++ r = t' ++ r' →
      d = d' ∧ r = r')
    (motive_2 := fun m ds t _ => ∀ {n : Int} {ds' : List Doc} {t' r r' : Bytes}, n < m → Items m ds' t' → Ends n r → Ends n r' →
      t ++ r = t' ++ r' → ds = ds' ∧ r = r')
    (motive_3 := fun m ms t _ => ∀ {n : Int} {ms' : List (Bytes × Doc)} {t' r r' : Bytes}, n < m → Pairs m ms' t' → Ends n r →
      Ends n r' → t ++ r = t' ++ r' → ms = ms' ∧ r = r')
    ?_ ?_ ?_ ?_ ?_ ?_ ?_ h
  · intro n d t hf d' t' r r' h' hr hr' e
    obtain ⟨c, u, hcu, hc⟩ := flow_head hf
    cases h' with
    | flow hf' => exact flow_unique hf hf' (by simpa using e)
    | seq => subst hcu; simp only [List.cons_append, List.cons.injEq] at e; exact absurd e.1 hc
    | map => subst hcu; simp only [List.cons_append, List.cons.injEq] at e; exact absurd e.1 hc
  · intro n m ds t hn hne hi ih d' t' r r' h' hr hr' e
    obtain ⟨u, hu⟩ := items_head hi hne
    cases h' with
    | flow hf' =>
      obtain ⟨c, v, rfl, hc⟩ := flow_head hf'
      simp only [List.cons_append, List.cons.injEq] at e
      exact absurd e.1.symm hc
    | @seq _ m' ds' t' hn' hne' hi' =>
      simp only [List.cons_append, List.cons.injEq, true_and] at e
      obtain ⟨u', hu'⟩ := items_head hi' hne'
      have e' := e
      rw [hu, hu', List.append_assoc, List.append_assoc, List.cons_append, List.cons_append] at e'
      obtain ⟨rfl, -⟩ := spaces_inj (by decide) (by decide) e'
      obtain ⟨h1, h2⟩ := ih hn hi' hr hr' e
      exact ⟨by rw [h1], h2⟩
    | @map _ m' ms t' hn' hne' hk hi' =>
      simp only [List.cons_append, List.cons.injEq, true_and] at e
      obtain ⟨c, u', hu', h1, h2⟩ := pairs_head hi' hne'
      rw [hu, hu', List.append_assoc, List.append_assoc, List.cons_append, List.cons_append] at e
      obtain ⟨-, h3, -⟩ := spaces_inj (by decide) h1 e
      exact absurd h3.symm h2
  · intro n m ms t hn hne hnd hi ih d' t' r r' h' hr hr' e
    obtain ⟨c, u, hu, h1, h2⟩ := pairs_head hi hne
    cases h' with
    | flow hf' =>
      obtain ⟨c, v, rfl, hc⟩ := flow_head hf'
      simp only [List.cons_append, List.cons.injEq] at e
      exact absurd e.1.symm hc
    | @seq _ m' ds' t' hn' hne' hi' =>
      simp only [List.cons_append, List.cons.injEq, true_and] at e
      obtain ⟨u', hu'⟩ := items_head hi' hne'
      rw [hu, hu', List.append_assoc, List.append_assoc, List.cons_append, List.cons_append] at e
      obtain ⟨-, h3, -⟩ := spaces_inj h1 (by decide) e
      exact absurd h3 h2
    | @map _ m' ms t' hn' hne' hk hi' =>
      simp only [List.cons_append, List.cons.injEq, true_and] at e
      obtain ⟨c', u', hu', h1', h2'⟩ := pairs_head hi' hne'
      have e' := e
      rw [hu, hu', List.append_assoc, List.append_assoc, List.cons_append, List.cons_append] at e'
      obtain ⟨rfl, -⟩ := spaces_inj h1 h1' e'
      obtain ⟨h3, h4⟩ := ih hn hi' hr hr' e
      exact ⟨by rw [h3], h4⟩
  · intro m n ds' t' r r' hn h' hr hr' e
    cases h' with
    | nil => exact ⟨rfl, e⟩
    | @cons _ d ds t u => exact absurd e (by simpa using hr.not (c := 45) (u := 32 :: (t ++ (u ++ r'))) hn (by decide))
  · intro m d ds t u hd hi ihd ihi n ds' t' r r' hn h' hr hr' e
    cases h' with
    | nil => exact absurd e.symm (by simpa using hr'.not (c := 45) (u := 32 :: (t ++ (u ++ r))) hn (by decide))
    | @cons _ d' ds' t' u' hd' hi' =>
      simp only [List.append_assoc, List.cons_append] at e
      have e := List.append_cancel_left e
      simp only [List.cons.injEq, true_and] at e
      obtain ⟨h1, h2⟩ := ihd hd' (items_ends hi hr hn) (items_ends hi' hr' hn) e
      obtain ⟨h3, h4⟩ := ihi hn hi' hr hr' h2
      exact ⟨by rw [h1, h3], h4⟩
  · intro m n ms' t' r r' hn h' hr hr' e
    cases h' with
    | nil => exact ⟨rfl, e⟩
    | @cons _ k d ms t u hk =>
      obtain ⟨c, k', rfl, h1, h2⟩ := key_head hk
      exact absurd e (by simpa using hr.not (c := c) (u := k' ++ 58 :: 32 :: (t ++ (u ++ r'))) hn h1)
  · intro m k d ms t u hk hd hi ihd ihi n ms' t' r r' hn h' hr hr' e
    cases h' with
    | nil =>
      obtain ⟨c, k', rfl, h1, h2⟩ := key_head hk
      exact absurd e.symm (by simpa using hr'.not (c := c) (u := k' ++ 58 :: 32 :: (t ++ (u ++ r))) hn h1)
    | @cons _ k' d' ms' t' u' hk' hd' hi' =>
      simp only [List.append_assoc, List.cons_append] at e
      have e := List.append_cancel_left e
      obtain ⟨h0, e⟩ := key_unique hk hk' e
      simp only [List.cons.injEq, true_and] at e
      obtain ⟨h1, h2⟩ := ihd hd' (pairs_ends hi hr hn) (pairs_ends hi' hr' hn) e
      obtain ⟨h3, h4⟩ := ihi hn hi' hr hr' h2
      exact ⟨by rw [h0, h1, h3], h4⟩

end YamlText
end GCV
