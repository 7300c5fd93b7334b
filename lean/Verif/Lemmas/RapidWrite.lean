import Verif.Spec.RapidWrite
import Verif.Lemmas.Writer
import Verif.Lemmas.RapidTree
import Verif.Lemmas.YamlBack

/-! # Lemmas about the JSON writer and RFC 8259 -/

namespace GCV
namespace Rfc
open Json (Doc Tok Digits toksTail toksMembers memToks numDoc columns_full colsText_vec describes_packed pointwise_cons intValue)

theorem Blanks.append {a b : Bytes} (h1 : Blanks a) (h2 : Blanks b) : Blanks (a ++ b) := by
  intro c hc
  rcases List.mem_append.1 hc with h | h
  · exact h1 c h
  · exact h2 c h

theorem blank_nil : Blanks [] := by intro c hc; cases hc

theorem IntLit.json {l : Bytes} (h : IntLit l) : Json.IntLit l := by
  obtain ⟨a, b, rfl, ha, hb⟩ := h
  exact ⟨a, b, rfl, by rcases ha with rfl | rfl <;> simp [Json.Sign], Rapid.Rfc.Int.digits hb⟩

theorem FloatLit.json {l : Bytes} (h : FloatLit l) : Json.FloatLit l := by
  obtain ⟨a, b, f, e, rfl, ha, hb, hf, he, hn⟩ := h
  exact ⟨a, b, f, e, rfl, by rcases ha with rfl | rfl <;> simp [Json.Sign], Rapid.Rfc.Int.digits hb, hf, he, hn⟩

theorem FloatLit.not_int {l : Bytes} (h : FloatLit l) : ¬ Json.IntLit l := by
  rintro ⟨a', b', e', ha', hb'⟩
  obtain ⟨a, b, f, e, rfl, ha, hb, hf, he, hn⟩ := h
  have hm : (46 : Byte) ∈ a' ++ b' ∨ (101 : Byte) ∈ a' ++ b' ∨ (69 : Byte) ∈ a' ++ b' := by
    rw [← e']
    rcases hn with hn | hn
    · rcases hf with rfl | ⟨d, rfl, -⟩
      · exact absurd rfl hn
      · left; simp
    · rcases he with rfl | ⟨x, y, d, rfl, hx, -⟩
      · exact absurd rfl hn
      · right; rcases hx with rfl | rfl <;> simp
  have key : ∀ c : Byte, c ∈ a' ++ b' → c = 43 ∨ c = 45 ∨ (48 ≤ c.toNat ∧ c.toNat ≤ 57) := by
    intro c hc
    rcases List.mem_append.1 hc with hc | hc
    · rcases ha' with rfl | rfl | rfl <;> simp at hc <;> simp [hc]
    · exact .inr (.inr (hb'.2 c hc))
  rcases hm with hm | hm | hm <;> exact absurd (key _ hm) (by decide)

/-- The text spells the document, wherever it stands. -/
def Wr (d : Doc) (t : Bytes) : Prop :=
  ∀ (b : Bytes) (ts : List Tok) (r : Bytes), Blanks b → Spells ts r →
    Spells (d.toks ++ ts) (b ++ t ++ r)

theorem Wr.one {d : Doc} {t : Bytes} {tok : Tok} (h : d.toks = [tok])
    (hw : Written tok t) : Wr d t := by
  intro b ts r hb hs
  rw [h]
  exact .cons hb hw hs

theorem wr_null : Wr .null (str "null") := .one rfl .null
theorem wr_bool (b : Bool) : Wr (.bool b) (boolOut b) := by
  cases b
  · exact .one rfl .false
  · exact .one rfl .true
theorem wr_int {l : Bytes} (h : IntLit l) : Wr (.int l) l := .one rfl (.int h)
theorem wr_num {l : Bytes} (h : FloatLit l) : Wr (.num l) l := .one rfl (.num h)
theorem wr_string {s b : Bytes} (h : Body s b) : Wr (.string s) (34 :: b ++ [34]) := .one rfl (.string h)

theorem body_escape {s : Bytes} (h : Carried s) : Body s (s.map escapeByte).flatten := by
  induction s with
  | nil => exact .nil
  | cons c s ih =>
    have ih := ih fun x hx => h x (.tail _ hx)
    have hc := h c (.head _)
    rw [List.map_cons, List.flatten_cons]
    have esc : ∀ e : Byte, (e, c) ∈ escapes → escapeByte c = [92, e] → Body (c :: s) (escapeByte c ++ (s.map escapeByte).flatten) :=
      fun e h1 h2 => by rw [h2]; exact .escape h1 ih
    by_cases h1 : c = 34
    · exact esc 34 (by rw [h1]; decide) (by rw [h1]; decide)
    by_cases h2 : c = 10
    · exact esc 110 (by rw [h2]; decide) (by rw [h2]; decide)
    by_cases h3 : c = 13
    · exact esc 114 (by rw [h3]; decide) (by rw [h3]; decide)
    by_cases h4 : c = 9
    · exact esc 116 (by rw [h4]; decide) (by rw [h4]; decide)
    by_cases h5 : c = 8
    · exact esc 98 (by rw [h5]; decide) (by rw [h5]; decide)
    by_cases h6 : c = 92
    · exact esc 92 (by rw [h6]; decide) (by rw [h6]; decide)
    have h7 : 0x20 ≤ c.toNat := by
      rcases hc with h | h | h | h | h
      · exact h
      · exact absurd h h5
      · exact absurd h h4
      · exact absurd h h2
      · exact absurd h h3
    have h8 : c ≠ 11 := by rintro rfl; exact absurd h7 (by decide)
    have h9 : c ≠ 7 := by rintro rfl; exact absurd h7 (by decide)
    have e : escapeByte c = [c] := by
      unfold escapeByte
      rw [if_neg h1, if_neg h2, if_neg h3, if_neg h4, if_neg h8, if_neg h5, if_neg h9, if_neg h6]
    rw [e]
    exact .plain h7 h1 h6 ih

theorem wr_escape {s : Bytes} (h : Carried s) : Wr (.string s) (string_escape s) := wr_string (body_escape h)

theorem body_bare {s : Bytes} (h : Bare s) : Body s s := by
  induction s with
  | nil => exact .nil
  | cons c s ih =>
    obtain ⟨h1, h2, h3⟩ := h c (.head _)
    exact .plain h1 h2 h3 (ih fun x hx => h x (.tail _ hx))

theorem natText_int : ∀ (fuel n : Nat), n < fuel → Int (natText 10 fuel n)
  | 0, n, h => by omega
  | fuel + 1, n, h => by
    have hd : ∀ d, d < 10 → (natText.digit d).toNat = 48 + d := by
      intro d hd
      unfold natText.digit
      rw [if_pos hd, BitVec.toNat_ofNat]
      omega
    rw [natText]
    split
    · next h10 =>
      have h1 := hd n h10
      by_cases h0 : n = 0
      · subst h0; left; rfl
      · right
        refine ⟨⟨by simp, fun c hc => ?_⟩, ?_⟩
        · simp only [List.mem_singleton] at hc; subst hc; omega
        · rw [List.head?_cons]
          intro e
          rw [Option.some.injEq] at e
          rw [e] at h1
          exact absurd h1 (by have : (48 : Byte).toNat = 48 := rfl; omega)
    · next h10 =>
      have h1 := natText_int fuel (n / 10) (by omega)
      have h2 := natText_spec fuel (n / 10) (by omega)
      have hm := hd (n % 10) (by omega)
      right
      have hne : natText 10 fuel (n / 10) ≠ [48] := by
        intro e
        have := h2.2.2
        rw [e] at this
        simp at this
        omega
      have h3 := h1.resolve_left hne
      refine ⟨⟨by simp, fun c hc => ?_⟩, ?_⟩
      · rw [List.mem_append, List.mem_singleton] at hc
        rcases hc with hc | rfl
        · exact h2.2.1 c hc
        · omega
      · cases hx : natText 10 fuel (n / 10) with
        | nil => exact absurd hx h2.1
        | cons a r => have := h3.2; rw [hx] at this; simpa using this

theorem intOut_lit {w : Nat} (i : BitVec w) : IntLit (intOut false i) := by
  have hd : ∀ n, Int (natOut false n) := by
    intro n
    unfold natOut
    exact natText_int _ n (by omega)
  unfold intOut
  simp only [Bool.false_eq_true, if_false]
  cases hm : i.msb with
  | true => exact ⟨[45], _, rfl, .inr rfl, hd _⟩
  | false => exact ⟨[], _, rfl, .inl rfl, hd _⟩

/-- Elements behind the first one. -/
theorem spells_tail {bl : Bytes} (hb : Blanks bl) : ∀ (ps : List (Doc × Bytes)) (ts : List Tok) (r : Bytes),
    (∀ p ∈ ps, Wr p.1 p.2) → Spells ts r →
    Spells (toksTail (ps.map Prod.fst) ++ ts) (sepText (44 :: bl) (44 :: bl) (ps.map Prod.snd) ++ r)
  | [], ts, r, _, hs => hs
  | (d, t) :: ps, ts, r, hps, hs => by
    have h1 := spells_tail hb ps ts r (fun p hp => hps p (.tail _ hp)) hs
    have h3 := hps (d, t) (by simp) bl _ _ hb h1
    have : Spells (.comma :: (d.toks ++ (toksTail (ps.map Prod.fst) ++ ts))) _ := .cons blank_nil .comma h3
    simpa [toksTail, sepText, List.append_assoc] using this

/-- An array from its elements. -/
theorem wr_arr {b1 b2 b3 b4 : Bytes} (h1 : Blanks b1) (h2 : Blanks b2) (h3 : Blanks b3) (h4 : Blanks b4)
    {ps : List (Doc × Bytes)} (hne : ps ≠ []) (hps : ∀ p ∈ ps, Wr p.1 p.2) :
    Wr (.arr (ps.map Prod.fst)) (b1 ++ sepText (91 :: b2) (44 :: b3) (ps.map Prod.snd) ++ b4 ++ [93]) := by
  cases ps with
  | nil => exact absurd rfl hne
  | cons p ps =>
    obtain ⟨d, t⟩ := p
    intro b ts r hb hs
    have hend : Spells (.rbrack :: ts) (b4 ++ [93] ++ r) := .cons h4 .rbrack hs
    have h5 := spells_tail h3 ps _ _ (fun p hp => hps p (.tail _ hp)) hend
    have h7 := hps (d, t) (by simp) b2 _ _ h2 h5
    have h8 : Spells (.lbrack :: (d.toks ++ (toksTail (ps.map Prod.fst) ++ .rbrack :: ts))) (b ++ b1 ++ [91] ++ _) :=
      .cons (hb.append h1) .lbrack h7
    simpa [Doc.toks, sepText, List.append_assoc] using h8

theorem blanks_lit : Blanks (str " ") ∧ Blanks (str "  ") ∧ Blanks (str "\n") := by
  refine ⟨?_, ?_, ?_⟩ <;> intro c hc <;> revert c <;> decide

/-- A vector of leaves. -/
theorem wr_vec {ps : List (Doc × Bytes)} (hne : ps ≠ []) (hps : ∀ p ∈ ps, Wr p.1 p.2) :
    Wr (.arr (ps.map Prod.fst)) (jsonVec (ps.map Prod.snd)) := by
  have := wr_arr (b1 := []) (b2 := str " ") (b3 := str " ") (b4 := str " ") blank_nil blanks_lit.1 blanks_lit.1
    blanks_lit.1 hne hps
  have e1 : str "[ " = 91 :: str " " := by decide
  have e2 : str ", " = 44 :: str " " := by decide
  have e3 : str " ]" = str " " ++ [93] := by decide
  simpa [jsonVec, e1, e2, e3] using this

/-- A matrix of leaves. -/
theorem wr_mat {α : Type} {m : Mat α} (h : FullMat m) (doc : α → Doc) (txt : α → Bytes)
    (hw : ∀ x ∈ m.data, Wr (doc x) (txt x)) {pre : Bytes} (hp : Blanks pre) :
    ∃ (t : Bytes) (cols : List (List Doc)), jsonMat pre txt m = .ok t ∧ Wr (.arr (cols.map .arr)) t ∧ cols.length = m.nc ∧
      (∀ c ∈ cols, c.length = m.nr) ∧
      ∀ (i j : Nat) c x d, i < m.nr → cols[j]? = some c → m.data[i + j * m.nr]? = some x → c[i]? = some d → d = doc x := by
  obtain ⟨cols, h1, h2, h3, h4⟩ := columns_full h.1 h.2.2.2
  obtain ⟨_, hr, hc, _⟩ := h
  have hne : cols ≠ [] := by rintro rfl; simp at h2; omega
  have hne' : ∀ c ∈ cols, c ≠ [] := by rintro c hc' rfl; have := h3 _ hc'; simp at this; omega
  have hmem : ∀ c ∈ cols, ∀ x ∈ c, x ∈ m.data := by
    intro c hc' x hx
    obtain ⟨j, hj, e⟩ := List.getElem_of_mem hc'
    obtain ⟨i, hi, e'⟩ := List.getElem_of_mem hx
    obtain ⟨y, h5, h6⟩ := h4 i j c (by rw [← h3 c hc']; exact hi) (List.getElem?_eq_some_iff.2 ⟨hj, e⟩)
    rw [List.getElem?_eq_some_iff.2 ⟨hi, e'⟩] at h5
    cases h5
    exact List.mem_of_getElem? h6
  refine ⟨_, cols.map (·.map doc), by rw [jsonMat, h1]; rfl, ?_, by simpa using h2, ?_, ?_⟩
  · have hp1 : Blanks (pre ++ str "  ") := hp.append blanks_lit.2.1
    have hps := wr_arr (b1 := []) (b2 := str "\n" ++ (pre ++ str "  ")) (b3 := str "\n" ++ (pre ++ str "  "))
      (b4 := str "\n" ++ pre) blank_nil (blanks_lit.2.2.append hp1) (blanks_lit.2.2.append hp1)
      (blanks_lit.2.2.append hp) (ps := cols.map fun c => (.arr (c.map doc), jsonVec (c.map txt))) (by simpa using hne)
      (by
        intro p hp
        obtain ⟨c, hc', rfl⟩ := List.mem_map.1 hp
        have := wr_vec (ps := c.map fun x => (doc x, txt x)) (by simpa using hne' c hc') (by
          intro p hp
          obtain ⟨x, hx, rfl⟩ := List.mem_map.1 hp
          exact hw x (hmem c hc' x hx))
        simpa [List.map_map, Function.comp_def] using this)
    have e1 : ∀ p : Bytes, p ++ str "  [ " = p ++ str "  " ++ str "[ " := by
      intro p; rw [List.append_assoc]; congr 1
    have e2 : str " ],\n" ++ pre ++ str "  [ " = str " ],\n" ++ (pre ++ str "  ") ++ str "[ " := by
      rw [List.append_assoc, e1]; simp
    have e3 : str " ]\n" = str " ]" ++ str "\n" := by decide
    have e4 : str "]" = [93] := by decide
    have e5 : str "[\n" = 91 :: str "\n" := by decide
    have e6 : str ",\n" = 44 :: str "\n" := by decide
    have key := colsText_vec (pre ++ str "  ") (pre ++ str "  ") (cols.map (·.map txt))
      (by simpa using hne') (by simpa using hne)
    have e7 : ∀ (a b c : Bytes) (l : List Bytes), l ≠ [] → a ++ sepText b c l = sepText (a ++ b) c l := by
      intro a b c l hl
      cases l with
      | nil => exact absurd rfl hl
      | cons x l => simp [sepText]
    have e8 : str "[\n" ++ colsText (pre ++ str "  [ ") (str " ],\n" ++ pre ++ str "  [ ") (cols.map (·.map txt)) ++
        str " ]\n" ++ pre ++ str "]" =
        sepText (91 :: (str "\n" ++ (pre ++ str "  "))) (44 :: (str "\n" ++ (pre ++ str "  ")))
          ((cols.map (·.map txt)).map jsonVec) ++ (str "\n" ++ pre) ++ [93] := by
      rw [e1, e2, e3]
      rw [show ∀ A B C D E : Bytes, A ++ B ++ (C ++ D) ++ pre ++ E = (A ++ (B ++ C)) ++ (D ++ pre) ++ E by
        intro A B C D E; simp]
      rw [key, e7 _ _ _ _ (by simpa using hne), e4, e5, e6]
      simp
    rw [e8]
    simpa [List.map_map, Function.comp_def] using hps
  · intro c hc'
    obtain ⟨c0, h5, rfl⟩ := List.mem_map.1 hc'
    simpa using h3 c0 h5
  · intro i j c x d hi hj hx hd
    rw [List.getElem?_map] at hj
    cases hcj : cols[j]? with
    | none => rw [hcj] at hj; simp at hj
    | some c0 =>
      rw [hcj] at hj
      simp only [Option.map_some, Option.some.injEq] at hj
      subst hj
      obtain ⟨y, h5, h6⟩ := h4 i j c0 hi hcj
      rw [hx] at h6
      cases h6
      rw [List.getElem?_map, h5] at hd
      simpa using hd.symm

/-! ## The writer -/

variable {f : Fmt}

/-- A packed vector. -/
theorem write_packed {g : GC} (hv : isVec g) {α : Type} {v : List α} {mk : α → GC} (he : elems g = v.map mk) (hne : v ≠ [])
    (doc : α → Doc) (txt : α → Bytes) (hd : ∀ x ∈ v, Describes f (mk x) (doc x)) (hw : ∀ x ∈ v, Wr (doc x) (txt x)) :
    ∃ d, Describes f g d ∧ Wr d (jsonVec (v.map txt)) := by
  refine ⟨_, describes_packed hv he hd, ?_⟩
  have := wr_vec (ps := v.map fun x => (doc x, txt x)) (by simpa using hne) (by
    intro p hp
    obtain ⟨x, hx, rfl⟩ := List.mem_map.1 hp
    exact hw x hx)
  simpa [List.map_map, Function.comp_def] using this

/-- A matrix. -/
theorem write_mat {g : GC} {α : Type} {m : Mat α} {mk : α → GC} (hm : matDims g = some (m.nr, m.nc))
    (he : elems g = m.data.map mk) (h : FullMat m) (doc : α → Doc) (txt : α → Bytes)
    (hd : ∀ x ∈ m.data, Describes f (mk x) (doc x)) (hw : ∀ x ∈ m.data, Wr (doc x) (txt x)) {pre : Bytes}
    (hp : Blanks pre) : ∃ t d, jsonMat pre txt m = .ok t ∧ Describes f g d ∧ Wr d t := by
  obtain ⟨t, cols, h1, h2, h3, h4, h5⟩ := wr_mat h doc txt hw hp
  refine ⟨t, _, h1, .mat hm h3 h4 fun i j c x d hi hj hx hd' => ?_, h2⟩
  rw [he, List.getElem?_map] at hx
  cases hvi : m.data[i + j * m.nr]? with
  | none => rw [hvi] at hx; simp at hx
  | some y =>
    rw [hvi] at hx
    simp only [Option.map_some, Option.some.injEq] at hx
    subst hx
    rw [h5 i j c y d hi hj hvi hd']
    exact hd y (List.mem_of_getElem? hvi)

theorem numDoc_spec {r : F64} (h : Rfc.Numeral (f.real r)) :
    Describes f (.real r) (numDoc (f.real r)) ∧ Wr (numDoc (f.real r)) (f.real r) := by
  unfold numDoc
  by_cases hi : Rfc.IntLit (f.real r)
  · have : Json.IntLit (f.real r) := hi.json
    rw [if_pos this]; exact ⟨.whole this, wr_int hi⟩
  · have h1 : Rfc.FloatLit (f.real r) := h.resolve_left hi
    rw [if_neg h1.not_int]
    exact ⟨.real h1.json, wr_num h1⟩

mutual
theorem write_json : ∀ (g : GC), GC.RfcOk f g → ∀ {pre : Bytes}, Blanks pre → ∃ t d, GC.toJson f pre g false = .ok (t, false) ∧
    Describes f g d ∧ Wr d t
  | .notype, _, pre, _ => ⟨_, _, rfl, .null, wr_null⟩
  | .pointer p, h, pre, _ => by simp [GC.RfcOk] at h
  | .bool b, _, pre, _ => ⟨_, _, rfl, .bool, wr_bool b⟩
  | .int i, _, pre, _ => ⟨_, _, rfl, .int (GCV.intOut_lit i).1 (GCV.intOut_lit i).2, wr_int (intOut_lit i)⟩
  | .long i, _, pre, _ => ⟨_, _, rfl, .long (GCV.intOut_lit i).1 (GCV.intOut_lit i).2, wr_int (intOut_lit i)⟩
  | .real r, h, pre, _ => by
    rw [GC.RfcOk] at h
    exact ⟨_, _, rfl, numDoc_spec h⟩
  | .complex c, h, pre, _ => by
    rw [GC.RfcOk] at h
    exact ⟨_, _, rfl, .complex, wr_string (body_bare h)⟩
  | .string s, h, pre, _ => by
    rw [GC.RfcOk] at h
    exact ⟨_, _, rfl, .string, wr_escape h⟩
  | .vecPointer p, h, pre, _ => by simp [GC.RfcOk] at h
  | .vecBool v, h, pre, _ => by
    rw [GC.RfcOk] at h
    obtain ⟨d, h1, h2⟩ := write_packed (f := f) (g := .vecBool v) (.inl rfl) (mk := .bool) rfl h .bool boolOut
      (fun _ _ => .bool) (fun x _ => wr_bool x)
    exact ⟨_, d, rfl, h1, h2⟩
  | .vecInt v, h, pre, _ => by
    rw [GC.RfcOk] at h
    obtain ⟨d, h1, h2⟩ := write_packed (f := f) (g := .vecInt v) (.inl rfl) (mk := .int) rfl h
      (fun i => .int (intOut false i)) (intOut false) (fun i _ => .int (GCV.intOut_lit i).1 (GCV.intOut_lit i).2)
      (fun i _ => wr_int (intOut_lit i))
    exact ⟨_, d, rfl, h1, h2⟩
  | .vecLong v, h, pre, _ => by
    rw [GC.RfcOk] at h
    obtain ⟨d, h1, h2⟩ := write_packed (f := f) (g := .vecLong v) (.inl rfl) (mk := .long) rfl h
      (fun i => .int (intOut false i)) (intOut false) (fun i _ => .long (GCV.intOut_lit i).1 (GCV.intOut_lit i).2)
      (fun i _ => wr_int (intOut_lit i))
    exact ⟨_, d, rfl, h1, h2⟩
  | .vecReal v, h, pre, _ => by
    rw [GC.RfcOk] at h
    obtain ⟨d, h1, h2⟩ := write_packed (f := f) (g := .vecReal v) (.inl rfl) (mk := .real) rfl h.1
      (fun r => numDoc (f.real r)) f.real (fun r hr => (numDoc_spec (h.2 r hr)).1) (fun r hr => (numDoc_spec (h.2 r hr)).2)
    exact ⟨_, d, rfl, h1, h2⟩
  | .vecComplex v, h, pre, _ => by
    rw [GC.RfcOk] at h
    obtain ⟨d, h1, h2⟩ := write_packed (f := f) (g := .vecComplex v) (.inl rfl) (mk := .complex) rfl h.1
      (fun c => .string (cplxOut f c)) (fun c => 34 :: cplxOut f c ++ [34]) (fun c _ => .complex)
      (fun c hc => wr_string (body_bare (h.2 c hc)))
    exact ⟨_, d, rfl, h1, h2⟩
  | .vecString v, h, pre, _ => by
    rw [GC.RfcOk] at h
    obtain ⟨d, h1, h2⟩ := write_packed (f := f) (g := .vecString v) (.inl rfl) (mk := .string) rfl h.1
      .string string_escape (fun c _ => .string) (fun s hs => wr_escape (h.2 s hs))
    exact ⟨_, d, rfl, h1, h2⟩
  | .matInt m, h, pre, hp => by
    rw [GC.RfcOk] at h
    obtain ⟨t, d, h0, h1, h2⟩ := write_mat (f := f) (g := .matInt m) (mk := .int) rfl rfl h
      (fun i => .int (intOut false i)) (intOut false) (fun i _ => .int (GCV.intOut_lit i).1 (GCV.intOut_lit i).2)
      (fun i _ => wr_int (intOut_lit i)) hp
    exact ⟨t, d, by rw [GC.toJson, h0]; rfl, h1, h2⟩
  | .matLong m, h, pre, hp => by
    rw [GC.RfcOk] at h
    obtain ⟨t, d, h0, h1, h2⟩ := write_mat (f := f) (g := .matLong m) (mk := .long) rfl rfl h
      (fun i => .int (intOut false i)) (intOut false) (fun i _ => .long (GCV.intOut_lit i).1 (GCV.intOut_lit i).2)
      (fun i _ => wr_int (intOut_lit i)) hp
    exact ⟨t, d, by rw [GC.toJson, h0]; rfl, h1, h2⟩
  | .matReal m, h, pre, hp => by
    rw [GC.RfcOk] at h
    obtain ⟨t, d, h0, h1, h2⟩ := write_mat (f := f) (g := .matReal m) (mk := .real) rfl rfl h.1
      (fun r => numDoc (f.real r)) f.real (fun r hr => (numDoc_spec (h.2 r hr)).1) (fun r hr => (numDoc_spec (h.2 r hr)).2)
      hp
    exact ⟨t, d, by rw [GC.toJson, h0]; rfl, h1, h2⟩
  | .matComplex m, h, pre, _ => by simp [GC.RfcOk] at h
  | .vector v, h, pre, hp => by
    rw [GC.RfcOk] at h
    obtain ⟨ps, h1, h2, h3⟩ := write_elems v h.2 hp
    have hne : ps ≠ [] := by
      rintro rfl
      have := h3.1
      simp at this
      exact h.1 this
    have hw := wr_arr (b1 := str "\n" ++ pre) (b2 := str "\n" ++ (pre ++ str "  ")) (b3 := str "\n" ++ (pre ++ str "  "))
      (b4 := str "\n" ++ pre) (blanks_lit.2.2.append hp) (blanks_lit.2.2.append (hp.append blanks_lit.2.1))
      (blanks_lit.2.2.append (hp.append blanks_lit.2.1)) (blanks_lit.2.2.append hp) hne h2
    refine ⟨_, _, ?_, .vec (.inr rfl) h3.1.symm (fun i x d hx hd => h3.2 i x d hx hd), hw⟩
    rw [GC.toJson, if_neg (by simpa using h.1), h1]
    have e4 : str "]" = [93] := by decide
    have e5 : str "[\n" = 91 :: str "\n" := by decide
    have e6 : str ",\n" = 44 :: str "\n" := by decide
    have e7 : str "\n" = [10] := by decide
    simp [Out.bind, e4, e5, e6, e7]
  | .map m, h, pre, hp => by
    rw [GC.RfcOk] at h
    obtain ⟨body, ms, h1, h2, h3, h4⟩ := write_entries m h.2 hp
    refine ⟨str "\n" ++ pre ++ (str "{\n" ++ body) ++ (str "\n" ++ pre) ++ [125], .obj ms, ?_, .map h2 h3, ?_⟩
    · rw [GC.toJson, if_neg (by simpa using h.1), h1, if_neg h.1]
      have e4 : str "}" = [125] := by decide
      have e7 : str "\n" = [10] := by decide
      simp [Out.bind, e4, e7]
    · intro b ts r hb hs
      cases ms with
      | nil =>
        cases m with
        | nil => exact absurd rfl h.1
        | cons e m => simp at h2
      | cons kd ms =>
        obtain ⟨k, d⟩ := kd
        have hend : Spells (.rcurly :: ts) (str "\n" ++ pre ++ [125] ++ r) := .cons (blanks_lit.2.2.append hp) .rcurly hs
        have h5 := h4 (str "\n") _ _ blanks_lit.2.2 hend
        rw [if_neg h.1] at h5
        have h6 : Spells (.lcurly :: (memToks ((k, d) :: ms) ++ .rcurly :: ts)) (b ++ (str "\n" ++ pre) ++ [123] ++ _) :=
          .cons (hb.append (blanks_lit.2.2.append hp)) .lcurly h5
        have e5 : str "{\n" = 123 :: str "\n" := by decide
        simpa [Doc.toks, memToks, e5] using h6
theorem write_elems : ∀ (v : List GC), GC.RfcOkL f v → ∀ {pre : Bytes}, Blanks pre → ∃ ps : List (Doc × Bytes),
    (∀ sep, GC.toJsonElems f pre sep v false =
      .ok (sepText (sep ++ (pre ++ str "  ")) (str ",\n" ++ (pre ++ str "  ")) (ps.map Prod.snd), false)) ∧
    (∀ p ∈ ps, Wr p.1 p.2) ∧ Pointwise (Describes f) v (ps.map Prod.fst)
  | [], _, pre, _ => ⟨[], fun _ => rfl, by simp, rfl, by simp⟩
  | x :: v, h, pre, hp => by
    rw [GC.RfcOkL] at h
    obtain ⟨t, d, h1, h2, h3⟩ := write_json x h.1 (hp.append blanks_lit.2.1)
    obtain ⟨ps, h4, h5, h6⟩ := write_elems v h.2 hp
    refine ⟨(d, t) :: ps, fun sep => ?_, ?_, ?_⟩
    · rw [GC.toJsonElems, h1, Out.bind]
      simp only [h4, Out.bind, List.map_cons, sepText]
    · intro p hp
      rcases List.mem_cons.1 hp with rfl | hp
      · exact h3
      · exact h5 p hp
    · exact pointwise_cons h2 h6
theorem write_entries : ∀ (m : Entries), GC.RfcOkM f m → ∀ {pre : Bytes}, Blanks pre → ∃ (body : Bytes) (ms : List (Bytes × Doc)),
    (∀ sep, GC.toJsonEntries f pre sep m false = .ok (if m = [] then [] else sep ++ body, false)) ∧
    ms.map Prod.fst = m.map Prod.fst ∧
    (∀ (i : Nat) k x l d, m[i]? = some (k, x) → ms[i]? = some (l, d) → Describes f x d) ∧
    ∀ (b : Bytes) (ts : List Tok) (r : Bytes), Blanks b → Spells ts r →
      Spells (memToks ms ++ ts) (if m = [] then r else b ++ body ++ r)
  | [], _, pre, _ => ⟨[], [], fun _ => rfl, rfl, by simp, fun b ts r _ hs => by simpa [memToks] using hs⟩
  | (k, x) :: m, h, pre, hp => by
    rw [GC.RfcOkM] at h
    obtain ⟨t, d, h1, h2, h3⟩ := write_json x h.2.1 (hp.append blanks_lit.2.1)
    obtain ⟨body, ms, h4, h5, h6, h7⟩ := write_entries m h.2.2 hp
    refine ⟨pre ++ str "  " ++ (34 :: k ++ [34]) ++ str ": " ++ t ++ (if m = [] then [] else str ",\n" ++ body),
      (k, d) :: ms, fun sep => ?_, by simp [h5], ?_, ?_⟩
    · rw [GC.toJsonEntries, h1, Out.bind]
      simp only [h4, Out.bind]
      simp
    · intro i k' x' l d' hx hd
      cases i with
      | zero => simp at hx hd; obtain ⟨_, rfl⟩ := hx; obtain ⟨_, rfl⟩ := hd; exact h2
      | succ i => exact h6 i k' x' l d' (by simpa using hx) (by simpa using hd)
    · intro b ts r hb hs
      have hrest : Spells (toksMembers ms ++ ts) ((if m = [] then [] else str ",\n" ++ body) ++ r) := by
        have h8 := h7 (str "\n") ts r blanks_lit.2.2 hs
        cases m with
        | nil =>
          cases ms with
          | nil => exact hs
          | cons e ms => simp at h5
        | cons e m =>
          cases ms with
          | nil => simp at h5
          | cons e' ms =>
            obtain ⟨k', d'⟩ := e'
            rw [if_neg (by simp)] at h8
            have e6 : str ",\n" = 44 :: str "\n" := by decide
            rw [if_neg (by simp), e6]
            have : Spells (.comma :: (memToks ((k', d') :: ms) ++ ts)) ([] ++ [44] ++ _) := .cons blank_nil .comma h8
            simpa [toksMembers, memToks] using this
      have h9 := h3 (str " ") _ _ blanks_lit.1 hrest
      have h10 : Spells (.colon :: _) ([] ++ [58] ++ _) := .cons blank_nil .colon h9
      have h11 : Spells (.string k :: _) (b ++ (pre ++ str "  ") ++ (34 :: k ++ [34]) ++ _) :=
        .cons (hb.append (hp.append blanks_lit.2.1)) (.string (body_bare h.1)) h10
      have e : str ": " = 58 :: str " " := by decide
      rw [if_neg (by simp)]
      simpa [memToks, e] using h11
end

end Rfc
end GCV
