import Verif.Spec.Writer
import Verif.Lemmas.JsonText
import Verif.Props.Matrix

/-! # Lemmas about the JSON writer -/

namespace GCV
open Json

/-! ## Decimal numbers -/

theorem natText_spec : ∀ (fuel n : Nat), n < fuel → natText 10 fuel n ≠ [] ∧
    (∀ c ∈ natText 10 fuel n, 48 ≤ c.toNat ∧ c.toNat ≤ 57) ∧
    (natText 10 fuel n).foldl (fun a c => 10 * a + ((c.toNat : Int) - 48)) 0 = n
  | 0, n, h => by omega
  | fuel + 1, n, h => by
    have hd : ∀ d, d < 10 → (natText.digit d).toNat = 48 + d := by
      intro d hd
      unfold natText.digit
      rw [if_pos hd, BitVec.toNat_ofNat]
      omega
    rw [natText]
    split
    · next h10 =>
      have := hd n h10
      refine ⟨by simp, fun c hc => ?_, ?_⟩
      · simp only [List.mem_singleton] at hc; subst hc; omega
      · simp only [List.foldl_cons, List.foldl_nil, this]; omega
    · next h10 =>
      obtain ⟨h1, h2, h3⟩ := natText_spec fuel (n / 10) (by omega)
      have hm := hd (n % 10) (by omega)
      refine ⟨by simp, fun c hc => ?_, ?_⟩
      · rw [List.mem_append, List.mem_singleton] at hc
        rcases hc with hc | rfl
        · exact h2 c hc
        · omega
      · rw [List.foldl_append, h3, List.foldl_cons, List.foldl_nil, hm]
        omega

theorem natOut_digits (n : Nat) : Digits (natOut false n) :=
  ⟨(natText_spec (n + 1) n (by omega)).1, (natText_spec (n + 1) n (by omega)).2.1⟩

/-- The value of a text of digits. -/
def digitsValue (l : Bytes) : Int := l.foldl (fun a c => 10 * a + ((c.toNat : Int) - 48)) 0

theorem intValue_neg (l : Bytes) : intValue (45 :: l) = - digitsValue l := rfl

theorem intValue_digits {l : Bytes} (h : Digits l) : intValue l = digitsValue l := by
  obtain ⟨h1, h2⟩ := h
  cases l with
  | nil => exact absurd rfl h1
  | cons c r =>
    have hc := h2 c (by simp)
    have h45 : c ≠ 45 := by rintro rfl; exact absurd hc.1 (by decide)
    have h43 : c ≠ 43 := by rintro rfl; exact absurd hc.1 (by decide)
    unfold intValue
    dsimp only
    split
    · next e => injection e with e _; exact absurd e h45
    · next e => injection e with e _; exact absurd e h43
    · rfl

theorem natOut_value (n : Nat) : digitsValue (natOut false n) = n := (natText_spec (n + 1) n (by omega)).2.2

theorem intOut_lit {w : Nat} (i : BitVec w) : IntLit (intOut false i) ∧ intValue (intOut false i) = i.toInt := by
  unfold intOut
  simp only [Bool.false_eq_true, if_false]
  have hd := natOut_digits i.toInt.natAbs
  have hv := natOut_value i.toInt.natAbs
  cases hm : i.msb with
  | true =>
    have hneg : i.toInt < 0 := by
      rw [BitVec.toInt_eq_msb_cond, hm]
      have := i.isLt
      simp only [if_true]
      omega
    simp only [if_true]
    refine ⟨⟨[45], _, rfl, .inr (.inr rfl), hd⟩, ?_⟩
    rw [intValue_neg, hv]; omega
  | false =>
    have hpos : 0 ≤ i.toInt := by
      rw [BitVec.toInt_eq_msb_cond, hm]; simp
    simp only [Bool.false_eq_true, if_false]
    refine ⟨⟨[], _, rfl, .inl rfl, hd⟩, ?_⟩
    rw [intValue_digits hd, hv]; omega

/-! ## Texts that spell a document -/

/-- Nothing but blanks. -/
def Blanks (b : Bytes) : Prop := ∀ c ∈ b, c = 32 ∨ (9 ≤ c.toNat ∧ c.toNat ≤ 13)

theorem Blanks.append {a b : Bytes} (h1 : Blanks a) (h2 : Blanks b) : Blanks (a ++ b) := by
  intro c hc
  rcases List.mem_append.1 hc with h | h
  · exact h1 c h
  · exact h2 c h

theorem blank_nil : Blanks [] := by intro c hc; cases hc

/-- What may follow a number. -/
def Foll (r : Bytes) : Prop :=
  ∃ c t, r = c :: t ∧ (c = 44 ∨ c = 93 ∨ c = 125 ∨ c = 32 ∨ (9 ≤ c.toNat ∧ c.toNat ≤ 13))

theorem Foll.of_blank {b r : Bytes} (hb : Blanks b) (h : Foll r) : Foll (b ++ r) := by
  cases b with
  | nil => exact h
  | cons c b => exact ⟨c, b ++ r, rfl, by rcases hb c (by simp) with h | h <;> simp [h]⟩

namespace Json

def Doc.isNum : Doc → Bool
  | .int _ | .num _ => true
  | _ => false

/-- The text spells the document, wherever it stands. -/
def Wr (d : Doc) (t : Bytes) : Prop :=
  ∀ (b : Bytes) (ts : List Tok) (r : Bytes), Blanks b → (d.isNum = true → Foll r) → Spells ts r →
    Spells (d.toks ++ ts) (b ++ t ++ r)

theorem Wr.one {d : Doc} {t : Bytes} {tok : Tok} (h : d.toks = [tok])
    (hw : ∀ r, (d.isNum = true → Foll r) → Written tok t r) : Wr d t := by
  intro b ts r hb hf hs
  rw [h]
  exact .cons hb (hw r hf) hs

theorem wr_null : Wr .null (str "null") := .one rfl fun _ _ => .null
theorem wr_bool (b : Bool) : Wr (.bool b) (boolOut b) := by
  cases b
  · exact .one rfl fun _ _ => .false
  · exact .one rfl fun _ _ => .true
theorem wr_int {l : Bytes} (h : IntLit l) : Wr (.int l) l := by
  refine .one rfl fun r hf => ?_
  obtain ⟨c, t, rfl, hc⟩ := hf rfl
  exact .int h hc
theorem wr_num {l : Bytes} (h : FloatLit l) : Wr (.num l) l := by
  refine .one rfl fun r hf => ?_
  obtain ⟨c, t, rfl, hc⟩ := hf rfl
  exact .num h hc
theorem wr_string {s b : Bytes} (h : Body s b) : Wr (.string s) (34 :: b ++ [34]) := .one rfl fun _ _ => .string h
theorem wr_escape {s : Bytes} (h : Escapable s) : Wr (.string s) (string_escape s) :=
  wr_string (body_escape h.1 h.2.1 h.2.2)

/-- Elements behind the first one. -/
theorem spells_tail {bl : Bytes} (hb : Blanks bl) : ∀ (ps : List (Doc × Bytes)) (ts : List Tok) (r : Bytes),
    (∀ p ∈ ps, Wr p.1 p.2) → Foll r → Spells ts r →
    Spells (toksTail (ps.map Prod.fst) ++ ts) (sepText (44 :: bl) (44 :: bl) (ps.map Prod.snd) ++ r) ∧
    Foll (sepText (44 :: bl) (44 :: bl) (ps.map Prod.snd) ++ r)
  | [], ts, r, _, hf, hs => ⟨hs, hf⟩
  | (d, t) :: ps, ts, r, hps, hf, hs => by
    obtain ⟨h1, h2⟩ := spells_tail hb ps ts r (fun p hp => hps p (.tail _ hp)) hf hs
    have h3 := hps (d, t) (by simp) bl _ _ hb (fun _ => h2) h1
    constructor
    · have : Spells (.comma :: (d.toks ++ (toksTail (ps.map Prod.fst) ++ ts))) _ := .cons blank_nil .comma h3
      simpa [toksTail, sepText, List.append_assoc] using this
    · exact ⟨44, _, rfl, .inl rfl⟩

/-- An array from its elements. -/
theorem wr_arr {b1 b2 b3 b4 : Bytes} (h1 : Blanks b1) (h2 : Blanks b2) (h3 : Blanks b3) (h4 : Blanks b4)
    {ps : List (Doc × Bytes)} (hne : ps ≠ []) (hps : ∀ p ∈ ps, Wr p.1 p.2) :
    Wr (.arr (ps.map Prod.fst)) (b1 ++ sepText (91 :: b2) (44 :: b3) (ps.map Prod.snd) ++ b4 ++ [93]) := by
  cases ps with
  | nil => exact absurd rfl hne
  | cons p ps =>
    obtain ⟨d, t⟩ := p
    intro b ts r hb _ hs
    have hend : Spells (.rbrack :: ts) (b4 ++ [93] ++ r) := .cons h4 .rbrack hs
    have hf : Foll (b4 ++ [93] ++ r) := by
      rw [List.append_assoc]
      exact Foll.of_blank h4 ⟨93, r, rfl, .inr (.inl rfl)⟩
    obtain ⟨h5, h6⟩ := spells_tail h3 ps _ _ (fun p hp => hps p (.tail _ hp)) hf hend
    have h7 := hps (d, t) (by simp) b2 _ _ h2 (fun _ => h6) h5
    have h8 : Spells (.lbrack :: (d.toks ++ (toksTail (ps.map Prod.fst) ++ .rbrack :: ts))) (b ++ b1 ++ [91] ++ _) :=
      .cons (hb.append h1) .lbrack h7
    simpa [Doc.toks, sepText, List.append_assoc] using h8

theorem blanks_lit : Blanks (str " ") ∧ Blanks (str "  ") ∧ Blanks (str "\n") := by
  refine ⟨?_, ?_, ?_⟩ <;> intro c hc <;> revert c <;> decide

/-- A vector of leaves. -/
theorem wr_vec {ps : List (Doc × Bytes)} (hne : ps ≠ []) (hps : ∀ p ∈ ps, Wr p.1 p.2) :
    Wr (.arr (ps.map Prod.fst)) (jsonVec (ps.map Prod.snd)) := by
  have := wr_arr (b1 := []) (b2 := str " ") (b3 := str " ") (b4 := str " ") blank_nil blanks_lit.1 blanks_lit.1
    blanks_lit.1 hne hps
  have e1 : str "[ " = 91 :: str " " := by decide
  have e2 : str ", " = 44 :: str " " := by decide
  have e3 : str " ]" = str " " ++ [93] := by decide
  simpa [jsonVec, e1, e2, e3] using this

/-- The columns of a matrix, written as vectors. -/
theorem colsText_vec (p1 : Bytes) : ∀ (first : Bytes) (cs : List (List Bytes)), (∀ c ∈ cs, c ≠ []) → cs ≠ [] →
    colsText (first ++ str "[ ") (str " ],\n" ++ p1 ++ str "[ ") cs ++ str " ]" =
      sepText first (str ",\n" ++ p1) (cs.map jsonVec)
  | first, [], _, h => absurd rfl h
  | first, [c], hc, _ => by
    cases c with
    | nil => exact absurd rfl (hc [] (by simp))
    | cons x c => simp [colsText, sepText, jsonVec]
  | first, c :: c' :: cs, hc, _ => by
    have ih := colsText_vec p1 (str ",\n" ++ p1) (c' :: cs) (fun c hc' => hc c (.tail _ hc')) (by simp)
    have e : str " ],\n" = str " ]" ++ str ",\n" := by decide
    rw [colsText, List.append_assoc]
    have e2 : str " ],\n" ++ p1 ++ str "[ " = str " ]" ++ (str ",\n" ++ p1 ++ str "[ ") := by simp [e]
    have e3 : ∀ n rest, colsText (str " ]" ++ (str ",\n" ++ p1 ++ str "[ ")) n (c' :: cs) ++ rest =
        str " ]" ++ (colsText (str ",\n" ++ p1 ++ str "[ ") n (c' :: cs) ++ rest) := by
      intro n rest
      have hc' := hc c' (by simp)
      cases c' with
      | nil => exact absurd rfl hc'
      | cons x c' => simp [colsText, sepText]
    conv => lhs; rw [show colsText (str " ],\n" ++ p1 ++ str "[ ") (str " ],\n" ++ p1 ++ str "[ ") (c' :: cs) =
      colsText (str " ]" ++ (str ",\n" ++ p1 ++ str "[ ")) (str " ],\n" ++ p1 ++ str "[ ") (c' :: cs) by rw [e2]]
    rw [e3, ih, List.map_cons, sepText]
    cases c with
    | nil => exact absurd rfl (hc [] (by simp))
    | cons x c => simp [sepText, jsonVec]

/-- `M(i,j)` for all the elements of a full matrix. -/
theorem columns_full {α : Type} {m : Mat α} (hw : m.wf = true) (hn : m.nr * m.nc < 2 ^ 32) : ∃ cols, m.readCols = .ok cols ∧ cols.length = m.nc ∧
    (∀ c ∈ cols, c.length = m.nr) ∧
    (∀ (i j : Nat) c, i < m.nr → cols[j]? = some c → ∃ x, c[i]? = some x ∧ m.data[i + j * m.nr]? = some x) := by
  have hcol : ∀ j, j < m.nc → ∃ c, Mat.collect (fun i => m.get i j) m.nr = .ok c ∧ c.length = m.nr ∧
      ∀ i, i < m.nr → ∃ x, c[i]? = some x ∧ m.data[i + j * m.nr]? = some x := by
    intro j hj
    obtain ⟨l, h1, h2, h3⟩ := Mat.collect_spec (fun i => m.get i j) m.nr (fun i hi => by
      obtain ⟨x, _, hx⟩ := Mat.get_eq hw hn hi hj; exact ⟨x, hx⟩)
    refine ⟨l, h1, h2, fun i hi => ?_⟩
    obtain ⟨x, h4, h5⟩ := h3 i hi
    obtain ⟨y, h6, h7⟩ := Mat.get_eq hw hn hi hj
    rw [h7] at h5
    cases h5
    refine ⟨_, h4, ?_⟩
    rw [Mat.cell, if_pos ⟨hi, hj⟩] at h6
    rw [Nat.add_comm]; exact h6
  obtain ⟨l, h1, h2, h3⟩ := Mat.collect_spec (fun j => Mat.collect (fun i => m.get i j) m.nr) m.nc (fun j hj => by
    obtain ⟨c, hc, _⟩ := hcol j hj; exact ⟨c, hc⟩)
  have h4 : ∀ (j : Nat) c, l[j]? = some c → c.length = m.nr ∧
      ∀ i, i < m.nr → ∃ x, c[i]? = some x ∧ m.data[i + j * m.nr]? = some x := by
    intro j c hj
    have hlt : j < m.nc := by rw [← h2]; exact (List.getElem?_eq_some_iff.1 hj).1
    obtain ⟨c', h5, h6⟩ := h3 j hlt
    obtain ⟨c'', h7, h8, h9⟩ := hcol j hlt
    rw [hj] at h5
    cases h5
    rw [h7] at h6
    cases h6
    exact ⟨h8, h9⟩
  refine ⟨l, h1, h2, fun c hc => ?_, fun i j c hi hj => (h4 j c hj).2 i hi⟩
  obtain ⟨j, hj, e⟩ := List.getElem_of_mem hc
  exact (h4 j c (List.getElem?_eq_some_iff.2 ⟨hj, e⟩)).1

/-- A matrix of leaves. -/
theorem wr_mat {α : Type} {m : Mat α} (h : FullMat m) (doc : α → Doc) (txt : α → Bytes)
    (hw : ∀ x ∈ m.data, Wr (doc x) (txt x)) {pre : Bytes} (hp : Blanks pre) :
    ∃ (t : Bytes) (cols : List (List Doc)), jsonMat pre txt m = .ok t ∧ Wr (.arr (cols.map .arr)) t ∧ cols.length = m.nc ∧
      (∀ c ∈ cols, c.length = m.nr) ∧
      ∀ (i j : Nat) c x d, i < m.nr → cols[j]? = some c → m.data[i + j * m.nr]? = some x → c[i]? = some d → d = doc x := by
  obtain ⟨cols, h1, h2, h3, h4⟩ := columns_full h.1 h.2.2.2
  obtain ⟨_, hr, hc, _⟩ := h
  have hne : cols ≠ [] := by rintro rfl; simp at h2; omega
  have hne' : ∀ c ∈ cols, c ≠ [] := by rintro c hc' rfl; have := h3 _ hc'; simp at this; omega
  have hmem : ∀ c ∈ cols, ∀ x ∈ c, x ∈ m.data := by
    intro c hc' x hx
    obtain ⟨j, hj, e⟩ := List.getElem_of_mem hc'
    obtain ⟨i, hi, e'⟩ := List.getElem_of_mem hx
    obtain ⟨y, h5, h6⟩ := h4 i j c (by rw [← h3 c hc']; exact hi) (List.getElem?_eq_some_iff.2 ⟨hj, e⟩)
    rw [List.getElem?_eq_some_iff.2 ⟨hi, e'⟩] at h5
    cases h5
    exact List.mem_of_getElem? h6
  refine ⟨_, cols.map (·.map doc), by rw [jsonMat, h1]; rfl, ?_, by simpa using h2, ?_, ?_⟩
  · have hp1 : Blanks (pre ++ str "  ") := hp.append blanks_lit.2.1
    have hps := wr_arr (b1 := []) (b2 := str "\n" ++ (pre ++ str "  ")) (b3 := str "\n" ++ (pre ++ str "  "))
      (b4 := str "\n" ++ pre) blank_nil (blanks_lit.2.2.append hp1) (blanks_lit.2.2.append hp1)
      (blanks_lit.2.2.append hp) (ps := cols.map fun c => (.arr (c.map doc), jsonVec (c.map txt))) (by simpa using hne)
      (by
        intro p hp
        obtain ⟨c, hc', rfl⟩ := List.mem_map.1 hp
        have := wr_vec (ps := c.map fun x => (doc x, txt x)) (by simpa using hne' c hc') (by
          intro p hp
          obtain ⟨x, hx, rfl⟩ := List.mem_map.1 hp
          exact hw x (hmem c hc' x hx))
        simpa [List.map_map, Function.comp_def] using this)
    have e1 : ∀ p : Bytes, p ++ str "  [ " = p ++ str "  " ++ str "[ " := by
      intro p; rw [List.append_assoc]; congr 1
    have e2 : str " ],\n" ++ pre ++ str "  [ " = str " ],\n" ++ (pre ++ str "  ") ++ str "[ " := by
      rw [List.append_assoc, e1]; simp
    have e3 : str " ]\n" = str " ]" ++ str "\n" := by decide
    have e4 : str "]" = [93] := by decide
    have e5 : str "[\n" = 91 :: str "\n" := by decide
    have e6 : str ",\n" = 44 :: str "\n" := by decide
    have key := colsText_vec (pre ++ str "  ") (pre ++ str "  ") (cols.map (·.map txt))
      (by simpa using hne') (by simpa using hne)
    have e7 : ∀ (a b c : Bytes) (l : List Bytes), l ≠ [] → a ++ sepText b c l = sepText (a ++ b) c l := by
      intro a b c l hl
      cases l with
      | nil => exact absurd rfl hl
      | cons x l => simp [sepText]
    have e8 : str "[\n" ++ colsText (pre ++ str "  [ ") (str " ],\n" ++ pre ++ str "  [ ") (cols.map (·.map txt)) ++
        str " ]\n" ++ pre ++ str "]" =
        sepText (91 :: (str "\n" ++ (pre ++ str "  "))) (44 :: (str "\n" ++ (pre ++ str "  ")))
          ((cols.map (·.map txt)).map jsonVec) ++ (str "\n" ++ pre) ++ [93] := by
      rw [e1, e2, e3]
      rw [show ∀ A B C D E : Bytes, A ++ B ++ (C ++ D) ++ pre ++ E = (A ++ (B ++ C)) ++ (D ++ pre) ++ E by
        intro A B C D E; simp]
      rw [key, e7 _ _ _ _ (by simpa using hne), e4, e5, e6]
      simp
    rw [e8]
    simpa [List.map_map, Function.comp_def] using hps
  · intro c hc'
    obtain ⟨c0, h5, rfl⟩ := List.mem_map.1 hc'
    simpa using h3 c0 h5
  · intro i j c x d hi hj hx hd
    rw [List.getElem?_map] at hj
    cases hcj : cols[j]? with
    | none => rw [hcj] at hj; simp at hj
    | some c0 =>
      rw [hcj] at hj
      simp only [Option.map_some, Option.some.injEq] at hj
      subst hj
      obtain ⟨y, h5, h6⟩ := h4 i j c0 hi hcj
      rw [hx] at h6
      cases h6
      rw [List.getElem?_map, h5] at hd
      simpa using hd.symm

/-! ## The writer -/

variable {f : Fmt}

theorem describes_packed {g : GC} (hv : isVec g) {α : Type} {v : List α} {mk : α → GC} (he : elems g = v.map mk)
    {doc : α → Doc} (hd : ∀ x ∈ v, Describes f (mk x) (doc x)) : Describes f g (.arr (v.map doc)) := by
  refine .vec hv (by simp [he]) fun i x d hx hd' => ?_
  rw [he, List.getElem?_map] at hx
  rw [List.getElem?_map] at hd'
  cases hvi : v[i]? with
  | none => rw [hvi] at hx; simp at hx
  | some y =>
    rw [hvi] at hx hd'
    simp only [Option.map_some, Option.some.injEq] at hx hd'
    subst hx hd'
    exact hd y (List.mem_of_getElem? hvi)

/-- A packed vector. -/
theorem write_packed {g : GC} (hv : isVec g) {α : Type} {v : List α} {mk : α → GC} (he : elems g = v.map mk) (hne : v ≠ [])
    (doc : α → Doc) (txt : α → Bytes) (hd : ∀ x ∈ v, Describes f (mk x) (doc x)) (hw : ∀ x ∈ v, Wr (doc x) (txt x)) :
    ∃ d, Describes f g d ∧ Wr d (jsonVec (v.map txt)) := by
  refine ⟨_, describes_packed hv he hd, ?_⟩
  have := wr_vec (ps := v.map fun x => (doc x, txt x)) (by simpa using hne) (by
    intro p hp
    obtain ⟨x, hx, rfl⟩ := List.mem_map.1 hp
    exact hw x hx)
  simpa [List.map_map, Function.comp_def] using this

/-- A matrix. -/
theorem write_mat {g : GC} {α : Type} {m : Mat α} {mk : α → GC} (hm : matDims g = some (m.nr, m.nc))
    (he : elems g = m.data.map mk) (h : FullMat m) (doc : α → Doc) (txt : α → Bytes)
    (hd : ∀ x ∈ m.data, Describes f (mk x) (doc x)) (hw : ∀ x ∈ m.data, Wr (doc x) (txt x)) {pre : Bytes}
    (hp : Blanks pre) : ∃ t d, jsonMat pre txt m = .ok t ∧ Describes f g d ∧ Wr d t := by
  obtain ⟨t, cols, h1, h2, h3, h4, h5⟩ := wr_mat h doc txt hw hp
  refine ⟨t, _, h1, .mat hm h3 h4 fun i j c x d hi hj hx hd' => ?_, h2⟩
  rw [he, List.getElem?_map] at hx
  cases hvi : m.data[i + j * m.nr]? with
  | none => rw [hvi] at hx; simp at hx
  | some y =>
    rw [hvi] at hx
    simp only [Option.map_some, Option.some.injEq] at hx
    subst hx
    rw [h5 i j c y d hi hj hvi hd']
    exact hd y (List.mem_of_getElem? hvi)

open Classical in
/-- The document of a real. -/
noncomputable def numDoc (t : Bytes) : Doc := if IntLit t then .int t else .num t

theorem numDoc_spec {r : F64} (h : Numeral (f.real r)) :
    Describes f (.real r) (numDoc (f.real r)) ∧ Wr (numDoc (f.real r)) (f.real r) := by
  unfold numDoc
  by_cases hi : IntLit (f.real r)
  · rw [if_pos hi]; exact ⟨.whole hi, wr_int hi⟩
  · rw [if_neg hi]
    have : FloatLit (f.real r) := h.resolve_left hi
    exact ⟨.real this, wr_num this⟩

theorem pointwise_cons {α β : Type} {R : α → β → Prop} {x : α} {y : β} {v : List α} {w : List β} (h : R x y)
    (hv : Pointwise R v w) : Pointwise R (x :: v) (y :: w) := by
  refine ⟨by simp [hv.1], fun i a b ha hb => ?_⟩
  cases i with
  | zero => simp at ha hb; subst ha hb; exact h
  | succ i => exact hv.2 i a b (by simpa using ha) (by simpa using hb)

/-- Members of an object without the comma in front of the first one. -/
def memToks : List (Bytes × Doc) → List Tok
  | [] => []
  | (k, d) :: ms => .string k :: .colon :: (d.toks ++ toksMembers ms)

mutual
theorem write_json : ∀ (g : GC), GC.JsonOk f g → ∀ {pre : Bytes}, Blanks pre → ∃ t d, GC.toJson f pre g false = .ok (t, false) ∧
    Describes f g d ∧ Wr d t
  | .notype, _, pre, _ => ⟨_, _, rfl, .null, wr_null⟩
  | .pointer p, h, pre, _ => by simp [GC.JsonOk] at h
  | .bool b, _, pre, _ => ⟨_, _, rfl, .bool, wr_bool b⟩
  | .int i, _, pre, _ => ⟨_, _, rfl, .int (intOut_lit i).1 (intOut_lit i).2, wr_int (intOut_lit i).1⟩
  | .long i, _, pre, _ => ⟨_, _, rfl, .long (intOut_lit i).1 (intOut_lit i).2, wr_int (intOut_lit i).1⟩
  | .real r, h, pre, _ => by
    rw [GC.JsonOk] at h
    exact ⟨_, _, rfl, numDoc_spec h⟩
  | .complex c, h, pre, _ => by
    rw [GC.JsonOk] at h
    exact ⟨_, _, rfl, .complex, wr_string h⟩
  | .string s, h, pre, _ => by
    rw [GC.JsonOk] at h
    exact ⟨_, _, rfl, .string, wr_escape h⟩
  | .vecPointer p, h, pre, _ => by simp [GC.JsonOk] at h
  | .vecBool v, h, pre, _ => by
    rw [GC.JsonOk] at h
    obtain ⟨d, h1, h2⟩ := write_packed (f := f) (g := .vecBool v) (.inl rfl) (mk := .bool) rfl h .bool boolOut
      (fun _ _ => .bool) (fun x _ => wr_bool x)
    exact ⟨_, d, rfl, h1, h2⟩
  | .vecInt v, h, pre, _ => by
    rw [GC.JsonOk] at h
    obtain ⟨d, h1, h2⟩ := write_packed (f := f) (g := .vecInt v) (.inl rfl) (mk := .int) rfl h
      (fun i => .int (intOut false i)) (intOut false) (fun i _ => .int (intOut_lit i).1 (intOut_lit i).2)
      (fun i _ => wr_int (intOut_lit i).1)
    exact ⟨_, d, rfl, h1, h2⟩
  | .vecLong v, h, pre, _ => by
    rw [GC.JsonOk] at h
    obtain ⟨d, h1, h2⟩ := write_packed (f := f) (g := .vecLong v) (.inl rfl) (mk := .long) rfl h
      (fun i => .int (intOut false i)) (intOut false) (fun i _ => .long (intOut_lit i).1 (intOut_lit i).2)
      (fun i _ => wr_int (intOut_lit i).1)
    exact ⟨_, d, rfl, h1, h2⟩
  | .vecReal v, h, pre, _ => by
    rw [GC.JsonOk] at h
    obtain ⟨d, h1, h2⟩ := write_packed (f := f) (g := .vecReal v) (.inl rfl) (mk := .real) rfl h.1
      (fun r => numDoc (f.real r)) f.real (fun r hr => (numDoc_spec (h.2 r hr)).1) (fun r hr => (numDoc_spec (h.2 r hr)).2)
    exact ⟨_, d, rfl, h1, h2⟩
  | .vecComplex v, h, pre, _ => by
    rw [GC.JsonOk] at h
    obtain ⟨d, h1, h2⟩ := write_packed (f := f) (g := .vecComplex v) (.inl rfl) (mk := .complex) rfl h.1
      (fun c => .string (cplxOut f c)) (fun c => 34 :: cplxOut f c ++ [34]) (fun c _ => .complex)
      (fun c hc => wr_string (h.2 c hc))
    exact ⟨_, d, rfl, h1, h2⟩
  | .vecString v, h, pre, _ => by
    rw [GC.JsonOk] at h
    obtain ⟨d, h1, h2⟩ := write_packed (f := f) (g := .vecString v) (.inl rfl) (mk := .string) rfl h.1
      .string string_escape (fun c _ => .string) (fun s hs => wr_escape (h.2 s hs))
    exact ⟨_, d, rfl, h1, h2⟩
  | .matInt m, h, pre, hp => by
    rw [GC.JsonOk] at h
    obtain ⟨t, d, h0, h1, h2⟩ := write_mat (f := f) (g := .matInt m) (mk := .int) rfl rfl h
      (fun i => .int (intOut false i)) (intOut false) (fun i _ => .int (intOut_lit i).1 (intOut_lit i).2)
      (fun i _ => wr_int (intOut_lit i).1) hp
    exact ⟨t, d, by rw [GC.toJson, h0]; rfl, h1, h2⟩
  | .matLong m, h, pre, hp => by
    rw [GC.JsonOk] at h
    obtain ⟨t, d, h0, h1, h2⟩ := write_mat (f := f) (g := .matLong m) (mk := .long) rfl rfl h
      (fun i => .int (intOut false i)) (intOut false) (fun i _ => .long (intOut_lit i).1 (intOut_lit i).2)
      (fun i _ => wr_int (intOut_lit i).1) hp
    exact ⟨t, d, by rw [GC.toJson, h0]; rfl, h1, h2⟩
  | .matReal m, h, pre, hp => by
    rw [GC.JsonOk] at h
    obtain ⟨t, d, h0, h1, h2⟩ := write_mat (f := f) (g := .matReal m) (mk := .real) rfl rfl h.1
      (fun r => numDoc (f.real r)) f.real (fun r hr => (numDoc_spec (h.2 r hr)).1) (fun r hr => (numDoc_spec (h.2 r hr)).2)
      hp
    exact ⟨t, d, by rw [GC.toJson, h0]; rfl, h1, h2⟩
  | .matComplex m, h, pre, _ => by simp [GC.JsonOk] at h
  | .vector v, h, pre, hp => by
    rw [GC.JsonOk] at h
    obtain ⟨ps, h1, h2, h3⟩ := write_elems v h.2 hp
    have hne : ps ≠ [] := by
      rintro rfl
      have := h3.1
      simp at this
      exact h.1 this
    have hw := wr_arr (b1 := str "\n" ++ pre) (b2 := str "\n" ++ (pre ++ str "  ")) (b3 := str "\n" ++ (pre ++ str "  "))
      (b4 := str "\n" ++ pre) (blanks_lit.2.2.append hp) (blanks_lit.2.2.append (hp.append blanks_lit.2.1))
      (blanks_lit.2.2.append (hp.append blanks_lit.2.1)) (blanks_lit.2.2.append hp) hne h2
    refine ⟨_, _, ?_, .vec (.inr rfl) h3.1.symm (fun i x d hx hd => h3.2 i x d hx hd), hw⟩
    rw [GC.toJson, if_neg (by simpa using h.1), h1]
    have e4 : str "]" = [93] := by decide
    have e5 : str "[\n" = 91 :: str "\n" := by decide
    have e6 : str ",\n" = 44 :: str "\n" := by decide
    have e7 : str "\n" = [10] := by decide
    simp [Out.bind, e4, e5, e6, e7]
  | .map m, h, pre, hp => by
    rw [GC.JsonOk] at h
    obtain ⟨body, ms, h1, h2, h3, h4⟩ := write_entries m h.2 hp
    refine ⟨str "\n" ++ pre ++ (str "{\n" ++ body) ++ (str "\n" ++ pre) ++ [125], .obj ms, ?_, .map h2 h3, ?_⟩
    · rw [GC.toJson, if_neg (by simpa using h.1), h1, if_neg h.1]
      have e4 : str "}" = [125] := by decide
      have e7 : str "\n" = [10] := by decide
      simp [Out.bind, e4, e7]
    · intro b ts r hb _ hs
      cases ms with
      | nil =>
        cases m with
        | nil => exact absurd rfl h.1
        | cons e m => simp at h2
      | cons kd ms =>
        obtain ⟨k, d⟩ := kd
        have hend : Spells (.rcurly :: ts) (str "\n" ++ pre ++ [125] ++ r) := .cons (blanks_lit.2.2.append hp) .rcurly hs
        have hf : Foll (str "\n" ++ pre ++ [125] ++ r) := by
          rw [List.append_assoc]
          exact Foll.of_blank (blanks_lit.2.2.append hp) ⟨125, r, rfl, .inr (.inr (.inl rfl))⟩
        have h5 := h4 (str "\n") _ _ blanks_lit.2.2 hf hend
        rw [if_neg h.1] at h5
        have h6 : Spells (.lcurly :: (memToks ((k, d) :: ms) ++ .rcurly :: ts)) (b ++ (str "\n" ++ pre) ++ [123] ++ _) :=
          .cons (hb.append (blanks_lit.2.2.append hp)) .lcurly h5
        have e5 : str "{\n" = 123 :: str "\n" := by decide
        simpa [Doc.toks, memToks, e5] using h6
theorem write_elems : ∀ (v : List GC), GC.JsonOkL f v → ∀ {pre : Bytes}, Blanks pre → ∃ ps : List (Doc × Bytes),
    (∀ sep, GC.toJsonElems f pre sep v false =
      .ok (sepText (sep ++ (pre ++ str "  ")) (str ",\n" ++ (pre ++ str "  ")) (ps.map Prod.snd), false)) ∧
    (∀ p ∈ ps, Wr p.1 p.2) ∧ Pointwise (Describes f) v (ps.map Prod.fst)
  | [], _, pre, _ => ⟨[], fun _ => rfl, by simp, rfl, by simp⟩
  | x :: v, h, pre, hp => by
    rw [GC.JsonOkL] at h
    obtain ⟨t, d, h1, h2, h3⟩ := write_json x h.1 (hp.append blanks_lit.2.1)
    obtain ⟨ps, h4, h5, h6⟩ := write_elems v h.2 hp
    refine ⟨(d, t) :: ps, fun sep => ?_, ?_, ?_⟩
    · rw [GC.toJsonElems, h1, Out.bind]
      simp only [h4, Out.bind, List.map_cons, sepText]
    · intro p hp
      rcases List.mem_cons.1 hp with rfl | hp
      · exact h3
      · exact h5 p hp
    · exact pointwise_cons h2 h6
theorem write_entries : ∀ (m : Entries), GC.JsonOkM f m → ∀ {pre : Bytes}, Blanks pre → ∃ (body : Bytes) (ms : List (Bytes × Doc)),
    (∀ sep, GC.toJsonEntries f pre sep m false = .ok (if m = [] then [] else sep ++ body, false)) ∧
    ms.map Prod.fst = m.map Prod.fst ∧
    (∀ (i : Nat) k x l d, m[i]? = some (k, x) → ms[i]? = some (l, d) → Describes f x d) ∧
    ∀ (b : Bytes) (ts : List Tok) (r : Bytes), Blanks b → Foll r → Spells ts r →
      Spells (memToks ms ++ ts) (if m = [] then r else b ++ body ++ r)
  | [], _, pre, _ => ⟨[], [], fun _ => rfl, rfl, by simp, fun b ts r _ _ hs => by simpa [memToks] using hs⟩
  | (k, x) :: m, h, pre, hp => by
    rw [GC.JsonOkM] at h
    obtain ⟨t, d, h1, h2, h3⟩ := write_json x h.2.1 (hp.append blanks_lit.2.1)
    obtain ⟨body, ms, h4, h5, h6, h7⟩ := write_entries m h.2.2 hp
    refine ⟨pre ++ str "  " ++ (34 :: k ++ [34]) ++ str ": " ++ t ++ (if m = [] then [] else str ",\n" ++ body),
      (k, d) :: ms, fun sep => ?_, by simp [h5], ?_, ?_⟩
    · rw [GC.toJsonEntries, h1, Out.bind]
      simp only [h4, Out.bind]
      simp
    · intro i k' x' l d' hx hd
      cases i with
      | zero => simp at hx hd; obtain ⟨_, rfl⟩ := hx; obtain ⟨_, rfl⟩ := hd; exact h2
      | succ i => exact h6 i k' x' l d' (by simpa using hx) (by simpa using hd)
    · intro b ts r hb hf hs
      have hrest : Spells (toksMembers ms ++ ts) ((if m = [] then [] else str ",\n" ++ body) ++ r) ∧
          Foll ((if m = [] then [] else str ",\n" ++ body) ++ r) := by
        have h8 := h7 (str "\n") ts r blanks_lit.2.2 hf hs
        cases m with
        | nil =>
          cases ms with
          | nil => exact ⟨hs, hf⟩
          | cons e ms => simp at h5
        | cons e m =>
          cases ms with
          | nil => simp at h5
          | cons e' ms =>
            obtain ⟨k', d'⟩ := e'
            rw [if_neg (by simp)] at h8
            have e6 : str ",\n" = 44 :: str "\n" := by decide
            rw [if_neg (by simp), e6]
            refine ⟨?_, 44, _, rfl, .inl rfl⟩
            have : Spells (.comma :: (memToks ((k', d') :: ms) ++ ts)) ([] ++ [44] ++ _) := .cons blank_nil .comma h8
            simpa [toksMembers, memToks] using this
      have h9 := h3 (str " ") _ _ blanks_lit.1 (fun _ => hrest.2) hrest.1
      have h10 : Spells (.colon :: _) ([] ++ [58] ++ _) := .cons blank_nil .colon h9
      have h11 : Spells (.string k :: _) (b ++ (pre ++ str "  ") ++ (34 :: k ++ [34]) ++ _) :=
        .cons (hb.append (hp.append blanks_lit.2.1)) (.string h.1) h10
      have e : str ": " = 58 :: str " " := by decide
      rw [if_neg (by simp)]
      simpa [memToks, e] using h11
end

end Json
end GCV
