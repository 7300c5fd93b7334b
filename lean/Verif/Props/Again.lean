import Verif.Props.Pieces

/-!
# C100, C101: writing again on the same stream

The base of the stream is read before each whole number.  Writing twice gives twice the same text exactly when nothing is
written in base 16, or only zeros are written before the first address.
-/

namespace GCV

/-- The bit pattern is that of the number. -/
def Piece.honest : Piece → Prop
  | .num n b => n = 0 ↔ b = 0
  | .cell n b => n = 0 ↔ b = 0
  | _ => True

theorem count_zero {t : Bytes} (h : ∀ c ∈ t, c ≠ 120) : t.count 120 = 0 := List.count_eq_zero.2 fun hm => h _ hm rfl

theorem natText_no_x (base fuel n : Nat) (hb : 1 < base) (hb' : base ≤ 16) : ∀ c ∈ natText base fuel n, c ≠ 120 := by
  have hd : ∀ d : Nat, d < 16 → natText.digit d ≠ 120 := by
    intro d hd
    have : ∀ d : Fin 16, natText.digit d.val ≠ 120 := by decide
    exact this ⟨d, hd⟩
  induction fuel generalizing n with
  | zero => intro c hc; simp [natText] at hc
  | succ k ih =>
    intro c hc
    rw [natText] at hc
    split at hc
    · rw [List.mem_singleton.1 hc]; exact hd _ (by omega)
    · rcases List.mem_append.1 hc with hc | hc
      · exact ih _ c hc
      · rw [List.mem_singleton.1 hc]; exact hd _ (Nat.lt_of_lt_of_le (Nat.mod_lt _ (by omega)) hb')

theorem hexadecimal_count (n : Nat) : (hexadecimal n).count 120 = if n = 0 then 0 else 1 := by
  unfold hexadecimal
  by_cases h : n = 0
  · rw [if_pos h, if_pos h]; decide
  · rw [if_neg h, if_neg h, List.count_append, ← natText_hex _ n (Nat.lt_succ_self n), count_zero (natText_no_x 16 _ n (by omega) (by omega))]
    decide

theorem decimal_count (n : Int) : (decimal n).count 120 = 0 := by
  have hn : ∀ k : Nat, (decimal k).count 120 = 0 := by
    intro k
    rw [← decimal_nat]
    exact count_zero (natText_no_x 10 _ k (by omega) (by omega))
  cases n with
  | ofNat k => exact hn k
  | negSucc k =>
    have e : decimal (Int.negSucc k) = 45 :: decimal ((k + 1 : Nat) : Int) := by
      simp only [decimal, str]
      show ("-" ++ Nat.repr (k + 1)).toList.map _ = _
      rw [String.toList_append, List.map_append]; rfl
    rw [e, List.count_cons, hn]; rfl

theorem padded_count (w : Nat) (t : Bytes) : (padded w t).count 120 = t.count 120 := by
  unfold padded
  rw [List.count_append, List.count_replicate]
  simp

/-- The count of the numbers that are not zero. -/
theorem spell_count : ∀ (ps : List Piece), (∀ p ∈ ps, p.honest) →
    (spell false ps).count 120 ≤ (spell true ps).count 120 ∧
    ((spell false ps).count 120 = (spell true ps).count 120 → ∀ p ∈ beforeAddress ps, ¬ p.nonzero)
  | [], _ => ⟨Nat.le_refl _, by simp [beforeAddress]⟩
  | p :: r, hh => by
    obtain ⟨h1, h2⟩ := spell_count r fun q hq => hh q (by simp [hq])
    have hp := hh p (by simp)
    cases p with
    | lit t =>
      simp only [spell, List.count_append]
      refine ⟨by omega, fun e => ?_⟩
      have := h2 (by omega)
      simpa [beforeAddress, Piece.isAddr, Piece.nonzero] using this
    | addr n =>
      simp only [spell]
      exact ⟨Nat.le_refl _, by simp [beforeAddress, Piece.isAddr]⟩
    | num n b =>
      simp only [spell, List.count_append, if_true, Bool.false_eq_true, if_false, decimal_count, hexadecimal_count]
      refine ⟨by omega, fun e => ?_⟩
      by_cases hb : b = 0
      · rw [if_pos hb] at e
        have := h2 (by omega)
        simpa [beforeAddress, Piece.isAddr, Piece.nonzero, hp.2 hb] using this
      · rw [if_neg hb] at e; omega
    | cell n b =>
      simp only [spell, List.count_append, if_true, Bool.false_eq_true, if_false, padded_count, decimal_count, hexadecimal_count]
      refine ⟨by omega, fun e => ?_⟩
      by_cases hb : b = 0
      · rw [if_pos hb] at e
        have := h2 (by omega)
        simpa [beforeAddress, Piece.isAddr, Piece.nonzero, hp.2 hb] using this
      · rw [if_neg hb] at e; omega

theorem zero_same : decimal 0 = hexadecimal 0 := by decide

theorem spell_zero : ∀ (ps : List Piece), (∀ p ∈ ps, p.honest) → (∀ p ∈ beforeAddress ps, ¬ p.nonzero) →
    spell false ps = spell true ps
  | [], _, _ => rfl
  | p :: r, hh, hz => by
    have hp := hh p (by simp)
    have hr := fun h => spell_zero r (fun q hq => hh q (by simp [hq])) h
    cases p with
    | lit t =>
      rw [spell, spell, hr (by simpa [beforeAddress, Piece.isAddr, Piece.nonzero] using hz)]
    | addr n => rfl
    | num n b =>
      have h0 : n = 0 ∧ ∀ p ∈ beforeAddress r, ¬ p.nonzero := by
        simpa [beforeAddress, Piece.isAddr, Piece.nonzero] using hz
      rw [spell, spell, hr h0.2, h0.1, hp.1 h0.1]
      simp [zero_same]
    | cell n b =>
      have h0 : n = 0 ∧ ∀ p ∈ beforeAddress r, ¬ p.nonzero := by
        simpa [beforeAddress, Piece.isAddr, Piece.nonzero] using hz
      rw [spell, spell, hr h0.2, h0.1, hp.1 h0.1]
      simp [zero_same]

theorem spell_again (ps : List Piece) (hh : ∀ p ∈ ps, p.honest) :
    spell false ps = spell (hexAfter false ps) ps ↔
      (∀ p ∈ ps, p.isAddr = false) ∨ ∀ p ∈ beforeAddress ps, ¬ p.nonzero := by
  cases h : hexAfter false ps with
  | false =>
    have : ∀ p ∈ ps, p.isAddr = false := by
      simpa [hexAfter] using h
    exact ⟨fun _ => .inl this, fun _ => rfl⟩
  | true =>
    constructor
    · intro e
      exact .inr ((spell_count ps hh).2 (by rw [e]))
    · rintro (h0 | h0)
      · obtain ⟨p, hp, ha⟩ : ∃ p ∈ ps, p.isAddr = true := by simpa [hexAfter] using h
        simp [h0 p hp] at ha
      · exact spell_zero ps hh h0

/-! ## The pieces are honest -/

theorem honest_int {w : Nat} (i : BitVec w) : (i.toInt = 0 ↔ i.toNat = 0) := by
  constructor
  · intro h
    have : i = 0#w := by apply BitVec.eq_of_toInt_eq; simpa using h
    simp [this]
  · intro h
    have : i = 0#w := by apply BitVec.eq_of_toNat_eq; simpa using h
    simp [this]

theorem honest_joined (sep : Bytes) (es : List (List Piece)) (h : ∀ e ∈ es, ∀ p ∈ e, p.honest) :
    ∀ p ∈ joined sep es, p.honest := by
  cases es with
  | nil => intro p hp; simp [joined] at hp
  | cons a r =>
    intro p hp
    rw [joined] at hp
    rcases List.mem_append.1 hp with hp | hp
    · exact h a (by simp) p hp
    · obtain ⟨b, hb, hp⟩ := List.mem_flatMap.1 hp
      rcases List.mem_cons.1 hp with rfl | hp
      · trivial
      · exact h b (by simp [hb]) p hp

theorem honest_bracketed (es : List (List Piece)) (h : ∀ e ∈ es, ∀ p ∈ e, p.honest) : ∀ p ∈ bracketed es, p.honest := by
  unfold bracketed
  split
  · simp [Piece.honest]
  · intro p hp
    have := honest_joined (str ", ") es h
    simp only [List.cons_append, List.mem_cons, List.mem_append, List.not_mem_nil, or_false] at hp
    rcases hp with rfl | hp | rfl
    · trivial
    · exact this p hp
    · trivial

namespace GC

theorem honest_value (f : Fmt) (c : Cplx → Bytes) (s : Bytes → Bytes) (g : GC) : ∀ p ∈ valuePieces f c s g, p.honest := by
  cases g <;> simp [valuePieces, Piece.honest, honest_int]

theorem honest_map (f : Fmt) (c : Cplx → Bytes) (s : Bytes → Bytes) (es : List GC) :
    ∀ e ∈ es.map (valuePieces f c s), ∀ p ∈ e, p.honest := by
  intro e he
  obtain ⟨x, -, rfl⟩ := List.mem_map.1 he
  exact honest_value f c s x

theorem honest_jsonMatrix (f : Fmt) (pre : Bytes) (nr nc : Nat) (es : List GC) : ∀ p ∈ jsonMatrix f pre nr nc es, p.honest := by
  unfold jsonMatrix
  split
  · simp [Piece.honest]
  · intro p hp
    simp only [List.cons_append, List.mem_cons, List.mem_append, List.not_mem_nil, or_false] at hp
    rcases hp with rfl | hp | rfl
    · trivial
    · refine honest_joined _ _ ?_ p hp
      intro e he p hp
      obtain ⟨c, -, rfl⟩ := List.mem_map.1 he
      rcases List.mem_cons.1 hp with rfl | hp
      · trivial
      · exact honest_bracketed _ (honest_map f _ _ c) p hp
    · trivial

theorem honest_json (f : Fmt) (g : GC) (pre : Bytes) : ∀ p ∈ jsonPieces f pre g, p.honest := by
  refine (GC.induct (P := fun g => ∀ pre, ∀ p ∈ jsonPieces f pre g, p.honest)
    (PL := fun v => ∀ pre, ∀ e ∈ jsonItems f pre v, ∀ p ∈ e, p.honest)
    (PM := fun m => ∀ pre, ∀ e ∈ jsonMembers f pre m, ∀ p ∈ e, p.honest) ?_ ?_ ?_ ?_ ?_ ?_ ?_).1 g pre
  · intro g hv hm pre
    rw [jsonPieces_leaf f pre g hv hm]
    split
    · exact honest_jsonMatrix _ _ _ _ _
    · split
      · exact honest_bracketed _ (honest_map f _ _ _)
      · exact honest_value f _ _ g
  · intro v ih pre p hp
    rw [jsonPieces] at hp
    split at hp
    · simp at hp
    · simp only [List.cons_append, List.mem_cons, List.mem_append, List.not_mem_nil, or_false] at hp
      rcases hp with rfl | hp | rfl
      · trivial
      · exact honest_joined _ _ (ih pre) p hp
      · trivial
  · intro m ih pre p hp
    rw [jsonPieces] at hp
    split at hp
    · simp at hp
    · simp only [List.cons_append, List.mem_cons, List.mem_append, List.not_mem_nil, or_false] at hp
      rcases hp with rfl | hp | rfl
      · trivial
      · exact honest_joined _ _ (ih pre) p hp
      · trivial
  · intro pre e he; simp [jsonItems] at he
  · intro x r hx hr pre e he
    rw [jsonItems] at he
    rcases List.mem_cons.1 he with rfl | he
    · intro p hp
      rcases List.mem_cons.1 hp with rfl | hp
      · trivial
      · exact hx _ p hp
    · exact hr pre e he
  · intro pre e he; simp [jsonMembers] at he
  · intro k x r hx hr pre e he
    rw [jsonMembers] at he
    rcases List.mem_cons.1 he with rfl | he
    · intro p hp
      rcases List.mem_cons.1 hp with rfl | hp
      · trivial
      · exact hx _ p hp
    · exact hr pre e he

theorem honest_yaml (f : Fmt) (g : GC) (pre : Bytes) : ∀ p ∈ yamlPieces f pre g, p.honest := by
  refine (GC.induct (P := fun g => ∀ pre, ∀ p ∈ yamlPieces f pre g, p.honest)
    (PL := fun v => ∀ pre, ∀ p ∈ yamlItems f pre v, p.honest)
    (PM := fun m => ∀ pre, ∀ p ∈ yamlMembers f pre m, p.honest) ?_ ?_ ?_ ?_ ?_ ?_ ?_).1 g pre
  · intro g hv hm pre
    by_cases hpv : ∃ v, g = vecPointer v
    · obtain ⟨v, rfl⟩ := hpv
      intro p hp
      rw [yamlPieces] at hp
      rcases List.mem_cons.1 hp with rfl | hp
      · trivial
      · obtain ⟨x, -, hp⟩ := List.mem_flatMap.1 hp
        simp only [List.mem_cons, List.not_mem_nil, or_false] at hp
        rcases hp with rfl | rfl | rfl <;> trivial
    rw [yamlPieces_leaf f pre g hv hm fun v e => hpv ⟨v, e⟩]
    split
    · intro p hp
      rcases List.mem_cons.1 hp with rfl | hp
      · trivial
      · obtain ⟨c, -, hp⟩ := List.mem_flatMap.1 hp
        unfold yamlColumn at hp
        split at hp
        · rw [List.mem_singleton.1 hp]; trivial
        · simp only [List.cons_append, List.mem_cons, List.mem_append, List.not_mem_nil, or_false] at hp
          rcases hp with rfl | hp | rfl
          · trivial
          · exact honest_bracketed _ (honest_map f _ _ c) p hp
          · trivial
    · intro p hp
      rcases List.mem_append.1 hp with hp | hp
      · split at hp
        · exact honest_bracketed _ (honest_map f _ _ _) p hp
        · exact honest_value f _ _ g p hp
      · rw [List.mem_singleton.1 hp]; trivial
  · intro v ih pre p hp
    rw [yamlPieces] at hp
    split at hp
    · rw [List.mem_singleton.1 hp]; trivial
    · rcases List.mem_cons.1 hp with rfl | hp
      · trivial
      · exact ih pre p hp
  · intro m ih pre p hp
    rw [yamlPieces] at hp
    split at hp
    · rw [List.mem_singleton.1 hp]; trivial
    · rcases List.mem_cons.1 hp with rfl | hp
      · trivial
      · exact ih pre p hp
  · intro pre p hp; simp [yamlItems] at hp
  · intro x r hx hr pre p hp
    rw [yamlItems] at hp
    simp only [List.cons_append, List.mem_cons, List.mem_append] at hp
    rcases hp with rfl | hp | hp
    · trivial
    · exact hx _ p hp
    · exact hr pre p hp
  · intro pre p hp; simp [yamlMembers] at hp
  · intro k x r hx hr pre p hp
    rw [yamlMembers] at hp
    simp only [List.cons_append, List.mem_cons, List.mem_append] at hp
    rcases hp with rfl | hp | hp
    · trivial
    · exact hx _ p hp
    · exact hr pre p hp

theorem honest_listCell (f : Fmt) (j : Nat) (g : GC) : (listCell f j g).honest := by
  cases g <;> simp [listCell, Piece.honest, honest_int]

theorem honest_listMatrix (f : Fmt) (nr nc : Nat) (es : List GC) : ∀ p ∈ listMatrix f nr nc es, p.honest := by
  unfold listMatrix
  split
  · simp [Piece.honest]
  · intro p hp
    obtain ⟨r, -, hp⟩ := List.mem_flatMap.1 hp
    rcases List.mem_append.1 hp with hp | hp
    · refine honest_joined _ _ ?_ p hp
      intro e he p hp
      obtain ⟨i, hi, rfl⟩ := List.mem_mapIdx.1 he
      rw [List.mem_singleton.1 hp]; exact honest_listCell f _ _
    · rw [List.mem_singleton.1 hp]; trivial

theorem honest_list (f : Fmt) (g : GC) (pre ind : Bytes) : ∀ p ∈ listPieces f pre ind g, p.honest := by
  refine (GC.induct (P := fun g => ∀ pre ind, ∀ p ∈ listPieces f pre ind g, p.honest)
    (PL := fun v => ∀ pre pre2 i, ∀ p ∈ listItems f pre pre2 i v, p.honest)
    (PM := fun m => ∀ pre pre2, ∀ p ∈ listMembers f pre pre2 m, p.honest) ?_ ?_ ?_ ?_ ?_ ?_ ?_).1 g pre ind
  · intro g hv hm pre ind
    by_cases hpv : ∃ v, g = vecPointer v
    · obtain ⟨v, rfl⟩ := hpv
      intro p hp
      rw [listPieces] at hp
      obtain ⟨x, -, hp⟩ := List.mem_flatMap.1 hp
      simp only [List.mem_cons, List.not_mem_nil, or_false] at hp
      rcases hp with rfl | rfl | rfl | rfl | rfl <;> simp [Piece.honest]
    by_cases hps : ∃ v, g = vecString v
    · obtain ⟨v, rfl⟩ := hps
      intro p hp
      rw [listPieces] at hp
      obtain ⟨x, -, hp⟩ := List.mem_flatMap.1 hp
      simp only [List.mem_cons, List.not_mem_nil, or_false] at hp
      rcases hp with rfl | rfl | rfl <;> simp [Piece.honest]
    rw [listPieces_leaf f pre ind g hv hm (fun v e => hpv ⟨v, e⟩) (fun v e => hps ⟨v, e⟩)]
    split
    · exact honest_listMatrix _ _ _ _
    · intro p hp
      split at hp
      · simp only [List.cons_append, List.mem_cons, List.mem_append, List.not_mem_nil, or_false] at hp
        rcases hp with rfl | hp | rfl
        · trivial
        · obtain ⟨x, -, hp⟩ := List.mem_flatMap.1 hp
          rcases List.mem_cons.1 hp with rfl | hp
          · trivial
          · exact honest_value f _ _ x p hp
        · trivial
      · simp only [List.cons_append, List.mem_cons, List.mem_append, List.not_mem_nil, or_false] at hp
        rcases hp with rfl | hp | rfl
        · trivial
        · exact honest_value f _ _ g p hp
        · trivial
  · intro v ih pre ind; exact ih _ _ _
  · intro m ih pre ind; exact ih _ _
  · intro pre pre2 i p hp; simp [listItems] at hp
  · intro x r hx hr pre pre2 i p hp
    rw [listItems] at hp
    rcases List.mem_append.1 hp with hp | hp
    · split at hp <;>
      · simp only [List.mem_cons] at hp
        rcases hp with rfl | rfl | rfl | hp
        · trivial
        · simp [Piece.honest]
        · trivial
        · exact hx _ _ p hp
    · exact hr _ _ _ p hp
  · intro pre pre2 p hp; simp [listMembers] at hp
  · intro k x r hx hr pre pre2 p hp
    rw [listMembers] at hp
    rcases List.mem_append.1 hp with hp | hp
    · cases hk : heading k <;> rw [hk] at hp <;> simp only at hp <;> split at hp <;>
      · rcases List.mem_cons.1 hp with rfl | hp
        · trivial
        · exact hx _ _ p hp
    · exact hr _ _ p hp

/-! ## Writing again -/

/-- **C100**: `to_json` twice on the same stream: twice the same text exactly when there is no address in it or only zeros
before the first address. -/
theorem C100_json_again (f : Fmt) (pre t1 t2 : Bytes) (g : GC) (h1 h2 : Bool) (hs : SizesOk g)
    (e1 : toJson f pre g false = .ok (t1, h1)) (e2 : toJson f pre g h1 = .ok (t2, h2)) :
    t1 = t2 ↔ (∀ p ∈ jsonPieces f pre g, p.isAddr = false) ∨ ∀ p ∈ beforeAddress (jsonPieces f pre g), ¬ p.nonzero := by
  rw [C100_json f pre g false hs] at e1
  injection e1 with e1; injection e1 with a1 a2
  rw [C100_json f pre g h1 hs] at e2
  injection e2 with e2; injection e2 with b1 b2
  rw [← a1, ← b1, ← a2]; exact spell_again _ (honest_json f g pre)

/-- **C100**: the same for `to_yaml`. -/
theorem C100_yaml_again (f : Fmt) (pre t1 t2 : Bytes) (g : GC) (h1 h2 : Bool) (hs : SizesOk g)
    (e1 : toYaml f pre g false = .ok (t1, h1)) (e2 : toYaml f pre g h1 = .ok (t2, h2)) :
    t1 = t2 ↔ (∀ p ∈ yamlPieces f pre g, p.isAddr = false) ∨ ∀ p ∈ beforeAddress (yamlPieces f pre g), ¬ p.nonzero := by
  rw [C100_yaml f pre g false hs] at e1
  injection e1 with e1; injection e1 with a1 a2
  rw [C100_yaml f pre g h1 hs] at e2
  injection e2 with e2; injection e2 with b1 b2
  rw [← a1, ← b1, ← a2]; exact spell_again _ (honest_yaml f g pre)

/-- **C101**: the same for `print`: this is C68, exactly. -/
theorem C101_print_again (f : Fmt) (pre ind t1 t2 : Bytes) (g : GC) (h1 h2 : Bool) (hs : SizesOk g)
    (e1 : dump f pre ind g false = .ok (t1, h1)) (e2 : dump f pre ind g h1 = .ok (t2, h2)) :
    t1 = t2 ↔ ¬ HasPointer g ∨ ∀ p ∈ beforeAddress (listPieces f pre ind g), ¬ p.nonzero := by
  have e0 := (C65_base f pre ind t1 g false h1 e1)
  rw [C101_print f pre ind g false hs] at e1
  injection e1 with e1; injection e1 with a1 a2
  rw [C101_print f pre ind g h1 hs] at e2
  injection e2 with e2; injection e2 with b1 b2
  have e3 : (∀ p ∈ listPieces f pre ind g, p.isAddr = false) ↔ ¬ HasPointer g := by
    rw [← a2] at e0
    have : hexAfter false (listPieces f pre ind g) = true ↔ ∃ p ∈ listPieces f pre ind g, p.isAddr = true := by simp [hexAfter]
    constructor
    · intro h hp
      obtain ⟨p, hp, ha⟩ := this.1 (e0.2 (.inr hp))
      simp [h p hp] at ha
    · intro h p hp
      cases ha : p.isAddr with
      | false => rfl
      | true => exact absurd (e0.1 (this.2 ⟨p, hp, ha⟩)) (by simpa using h)
  rw [← e3, ← a1, ← b1, ← a2]; exact spell_again _ (honest_list f g pre ind)

/-! ## Beside the theorems -/

/-- A map with a number, two addresses and a matrix. -/
def mixed : GC := map [(str "a", int 10), (str "m", matInt ⟨1, 2, [7, 8]⟩), (str "p", vecPointer [16, 0]), (str "z", vecInt [255])]

theorem mixed_sizes : SizesOk mixed := by
  intro x hx
  have h : x = mixed ∨ x = int 10 ∨ x = matInt ⟨1, 2, [7, 8]⟩ ∨ x = vecPointer [16, 0] ∨ x = vecInt [255] := by
    cases hx with
    | self => exact .inl rfl
    | value h hx =>
      simp at h
      rcases h with ⟨-, rfl⟩ | ⟨-, rfl⟩ | ⟨-, rfl⟩ | ⟨-, rfl⟩ <;> cases hx <;> simp
  rcases h with rfl | rfl | rfl | rfl | rfl <;>
    refine ⟨by decide, fun nr nc h => ?_⟩ <;> simp [mixed, matDims] at h
  obtain ⟨rfl, rfl⟩ := h; decide

example : toJson ⟨fun _ => [], fun _ => []⟩ [] mixed false =
    .ok (str "\n{\n  \"a\": 10,\n  \"m\": [\n    [ 7 ],\n    [ 8 ]\n  ],\n  \"p\": [ 0x10, 0 ],\n  \"z\": [ 0xff ]\n}", true) := by
  decide +kernel

example : toYaml ⟨fun _ => [], fun _ => []⟩ [] mixed false =
    .ok (str "\na: 10\nm: \n  - [ 7 ]\n  - [ 8 ]\np: \n  - 0x10\n  - 0\nz: [ 0xff ]\n", true) := by
  decide +kernel

example : dump ⟨fun _ => [], fun _ => []⟩ [] indent4 mixed false =
    .ok (str "a: 10\nm:\n       7        8\np:\n    vec_pointer(0): 0x10\n    vec_pointer(0x1): 0\nz:\n    [ 0xff ]\n", true) := by
  decide +kernel

/-- Both sides of the equivalence: the text changes for `mixed` (10 is before the first address), and not for a map in which
only a zero is before it. -/
example : (∃ p ∈ beforeAddress (listPieces ⟨fun _ => [], fun _ => []⟩ [] indent4 mixed), p.nonzero) ∧
    ∀ p ∈ beforeAddress (listPieces ⟨fun _ => [], fun _ => []⟩ [] indent4 (vector [pointer 16, int 255])), ¬ p.nonzero := by
  constructor
  · exact ⟨.num 10 10, by decide +kernel, by simp [Piece.nonzero]⟩
  · intro p hp
    have e : beforeAddress (listPieces ⟨fun _ => [], fun _ => []⟩ [] indent4 (vector [pointer 16, int 255])) =
      [.lit [], .num 0 0, .lit (str ": "), .lit []] := by
      decide +kernel
    rw [e] at hp
    simp at hp
    rcases hp with rfl | rfl | rfl | rfl <;> simp [Piece.nonzero]

end GC
end GCV
