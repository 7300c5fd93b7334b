import Verif.Spec.Pieces
import Verif.Props.Print
import Verif.Lemmas.Writer
import Verif.Model.YamlWrite

/-!
# C100, C101: exactly the text of to_json, to_yaml and print
-/

namespace GCV

/-! ## Numbers -/

theorem hex_char (d : Nat) (h : d < 16) : natText.digit d = BitVec.ofNat 8 (Nat.digitChar d).toNat := by
  have : ∀ d : Fin 16, natText.digit d.val = BitVec.ofNat 8 (Nat.digitChar d.val).toNat := by decide
  exact this ⟨d, h⟩

theorem natText_hex : ∀ (fuel n : Nat), n < fuel →
    natText 16 fuel n = (Nat.toDigits 16 n).map fun c => BitVec.ofNat 8 c.toNat
  | 0, _, h => absurd h (by omega)
  | fuel + 1, n, h => by
    rw [natText]
    split
    · rename_i hn
      rw [Nat.toDigits_of_lt_base hn, hex_char n hn]; rfl
    · rename_i hn
      rw [Nat.toDigits_of_base_le (by omega) (by omega), natText_hex fuel (n / 16) (by omega),
        hex_char (n % 16) (by omega)]
      simp

theorem hex_nat (n : Nat) : natOut true n = hexadecimal n := by
  unfold natOut hexadecimal
  rw [if_pos rfl]
  by_cases h : n = 0
  · rw [if_pos h, if_pos h]; rfl
  · rw [if_neg h, if_neg h, natText_hex _ _ (by omega)]; rfl

theorem nat_text (hex : Bool) (n : Nat) : natOut hex n = if hex then hexadecimal n else decimal n := by
  cases hex
  · rw [decimal_nat]; rfl
  · rw [hex_nat]; rfl

theorem int_text {w : Nat} (hex : Bool) (i : BitVec w) :
    intOut hex i = if hex then hexadecimal i.toNat else decimal i.toInt := by
  cases hex
  · rw [decimal_int]; rfl
  · rw [intOut, if_pos rfl, hex_nat]; rfl

/-! ## Pieces -/

theorem spell_append : ∀ (a b : List Piece) (h : Bool), spell h (a ++ b) = spell h a ++ spell (hexAfter h a) b
  | [], b, h => by simp [spell, hexAfter]
  | .lit t :: a, b, h => by
    rw [List.cons_append, spell, spell_append a b h, spell, List.append_assoc]; rfl
  | .num n k :: a, b, h => by
    rw [List.cons_append, spell, spell_append a b h, spell, List.append_assoc]; rfl
  | .cell n k :: a, b, h => by
    rw [List.cons_append, spell, spell_append a b h, spell, List.append_assoc]; rfl
  | .addr n :: a, b, h => by
    rw [List.cons_append, spell, spell_append a b true, spell, List.append_assoc]
    simp [hexAfter, Piece.isAddr]

theorem hexAfter_append (a b : List Piece) (h : Bool) : hexAfter h (a ++ b) = hexAfter (hexAfter h a) b := by
  simp [hexAfter, Bool.or_assoc]

theorem hexAfter_lit (t : Bytes) (a : List Piece) (h : Bool) : hexAfter h (.lit t :: a) = hexAfter h a := by
  simp [hexAfter, Piece.isAddr]

theorem hexAfter_num (n : Int) (b : Nat) (a : List Piece) (h : Bool) : hexAfter h (.num n b :: a) = hexAfter h a := by
  simp [hexAfter, Piece.isAddr]

theorem hexAfter_nil (h : Bool) : hexAfter h [] = h := by simp [hexAfter]

/-- `S` holds all along and the pieces of an element spell `t` then. -/
theorem spell_flatMap {α : Type} (S : Bool → Prop) (p : α → List Piece) (t : α → Bytes) : ∀ (es : List α) (h : Bool), S h →
    (∀ x ∈ es, ∀ h, S h → spell h (p x) = t x ∧ S (hexAfter h (p x))) →
    spell h (es.flatMap p) = es.flatMap t ∧ S (hexAfter h (es.flatMap p))
  | [], h, hS, _ => ⟨rfl, by simpa [hexAfter] using hS⟩
  | x :: r, h, hS, hp => by
    obtain ⟨h1, h2⟩ := hp x (by simp) h hS
    obtain ⟨h3, h4⟩ := spell_flatMap S p t r _ h2 (fun y hy => hp y (by simp [hy]))
    rw [List.flatMap_cons, List.flatMap_cons, spell_append, hexAfter_append, h1, h3]
    exact ⟨rfl, h4⟩

theorem sepText_flatMap (sep : Bytes) : ∀ (ts : List Bytes), sepText sep sep ts = ts.flatMap fun t => sep ++ t
  | [] => rfl
  | t :: r => by rw [sepText, sepText_flatMap sep r, List.flatMap_cons]

theorem spell_joined {α : Type} (S : Bool → Prop) (p : α → List Piece) (t : α → Bytes) (first sep : Bytes) (es : List α)
    (hne : es ≠ []) (h : Bool) (hS : S h)
    (hp : ∀ x ∈ es, ∀ h, S h → spell h (p x) = t x ∧ S (hexAfter h (p x))) :
    first ++ spell h (joined sep (es.map p)) = sepText first sep (es.map t) ∧ S (hexAfter h (joined sep (es.map p))) := by
  cases es with
  | nil => exact absurd rfl hne
  | cons x r =>
    obtain ⟨h1, h2⟩ := hp x (by simp) h hS
    obtain ⟨h3, h4⟩ := spell_flatMap S (fun x => .lit sep :: p x) (fun x => sep ++ t x) r _ h2 (by
      intro y hy h hS
      obtain ⟨h5, h6⟩ := hp y (by simp [hy]) h hS
      exact ⟨by rw [spell, h5], by rwa [hexAfter_lit]⟩)
    rw [List.map_cons, joined, List.flatMap_map, spell_append, hexAfter_append, h1, h3, List.map_cons, sepText, sepText_flatMap,
      List.flatMap_map, List.append_assoc]
    exact ⟨rfl, h4⟩

theorem spell_bracketed {α : Type} (S : Bool → Prop) (p : α → List Piece) (t : α → Bytes) (es : List α) (h : Bool) (hS : S h)
    (hp : ∀ x ∈ es, ∀ h, S h → spell h (p x) = t x ∧ S (hexAfter h (p x))) :
    spell h (bracketed (es.map p)) = sepText (str "[ ") (str ", ") (es.map t) ++ str " ]" ∧ S (hexAfter h (bracketed (es.map p))) := by
  unfold bracketed
  by_cases he : es = []
  · subst he
    exact ⟨by simp [spell, sepText], by simpa [hexAfter, Piece.isAddr] using hS⟩
  · rw [if_neg (by simpa using he)]
    obtain ⟨h1, h2⟩ := spell_joined S p t (str "[ ") (str ", ") es he h hS hp
    rw [List.cons_append, spell, spell_append, ← h1, hexAfter_lit, hexAfter_append, hexAfter_lit, hexAfter_nil]
    exact ⟨by simp [spell], h2⟩

theorem steady {ps : List Piece} (hp : ps.any Piece.isAddr = false) (h : Bool) : hexAfter h ps = h := by simp [hexAfter, hp]

theorem bracketed_steady {α : Type} (p : α → List Piece) (es : List α) (h : Bool)
    (hp : ∀ x ∈ es, (p x).any Piece.isAddr = false) :
    spell h (bracketed (es.map p)) = sepText (str "[ ") (str ", ") (es.map fun x => spell h (p x)) ++ str " ]" ∧
    hexAfter h (bracketed (es.map p)) = h :=
  spell_bracketed (· = h) p (fun x => spell h (p x)) es h rfl fun x hx k hk => by
    subst hk; exact ⟨rfl, steady (hp x hx) _⟩

theorem flatMap_steady {α : Type} (p : α → List Piece) (es : List α) (h : Bool)
    (hp : ∀ x ∈ es, (p x).any Piece.isAddr = false) :
    spell h (es.flatMap p) = es.flatMap (fun x => spell h (p x)) ∧ hexAfter h (es.flatMap p) = h :=
  spell_flatMap (· = h) p (fun x => spell h (p x)) es h rfl fun x hx k hk => by
    subst hk; exact ⟨rfl, steady (hp x hx) _⟩

namespace GC

theorem value_steady (f : Fmt) (c : Cplx → Bytes) (s : Bytes → Bytes) (x : GC) (h : x.ty ≠ .POINTER) :
    (valuePieces f c s x).any Piece.isAddr = false := by
  cases x <;> first | rfl | exact absurd rfl h

/-- The vectors of booleans, numbers and strings. -/
theorem vec_text {α : Type} (f : Fmt) (c : Cplx → Bytes) (s : Bytes → Bytes) (con : α → GC) (txt : α → Bytes) (v : List α) (h : Bool)
    (h1 : ∀ x, (con x).ty ≠ .POINTER) (h2 : ∀ x, spell h (valuePieces f c s (con x)) = txt x) :
    spell h (bracketed ((v.map con).map (valuePieces f c s))) = sepText (str "[ ") (str ", ") (v.map txt) ++ str " ]" ∧
    hexAfter h (bracketed ((v.map con).map (valuePieces f c s))) = h := by
  obtain ⟨h3, h4⟩ := bracketed_steady (valuePieces f c s) (v.map con) h (by
    intro x hx
    obtain ⟨a, -, rfl⟩ := List.mem_map.1 hx
    exact value_steady f c s _ (h1 a))
  refine ⟨?_, h4⟩
  rw [h3, List.map_map]
  congr 2
  exact List.map_congr_left fun x _ => h2 x

/-! ## Matrices -/

theorem cols_text {α : Type} (con : α → GC) (m : Mat α) (hw : m.wf = true) (hn : m.nr * m.nc < 2 ^ 32) :
    ∃ cols, m.readCols = .ok cols ∧ cols.map (·.map con) = columnsIn m.nr m.nc (m.data.map con) := by
  obtain ⟨cols, h1, h2, h3, h4⟩ := Json.columns_full hw hn
  refine ⟨cols, h1, ?_⟩
  apply List.ext_getElem?
  intro j
  unfold columnsIn
  by_cases hj : j < m.nc
  · have hj' : j < cols.length := by omega
    rw [List.getElem?_map, List.getElem?_map, List.getElem?_range hj, List.getElem?_eq_getElem hj']
    simp only [Option.map_some]
    congr 1
    have hc := h3 cols[j] (List.getElem_mem hj')
    apply List.ext_getElem?
    intro i
    by_cases hi : i < m.nr
    · obtain ⟨x, hx1, hx2⟩ := h4 i j _ hi (List.getElem?_eq_getElem hj')
      rw [List.getElem?_map, hx1, List.getElem?_map, List.getElem?_range hi]
      simp [hx2]
    · rw [List.getElem?_eq_none (by simp; omega), List.getElem?_eq_none (by simp; omega)]
  · rw [List.getElem?_eq_none (by simp; omega), List.getElem?_eq_none (by simp; omega)]

theorem sepText_split (a b sep : Bytes) (ts : List Bytes) (h : ts ≠ []) : sepText (a ++ b) sep ts = a ++ sepText b sep ts := by
  cases ts with
  | nil => exact absurd rfl h
  | cons t r => rw [sepText, sepText]; simp

theorem jsonMat_text {α : Type} (f : Fmt) (pre : Bytes) (con : α → GC) (txt : α → Bytes) (m : Mat α) (h : Bool)
    (hw : m.wf = true) (hn : m.nr * m.nc < 2 ^ 32)
    (h1 : ∀ x, (con x).ty ≠ .POINTER) (h2 : ∀ x, spell h (jsonCell f (con x)) = txt x) :
    jsonMat pre txt m = .ok (spell h (jsonMatrix f pre m.nr m.nc (m.data.map con))) ∧
    hexAfter h (jsonMatrix f pre m.nr m.nc (m.data.map con)) = h := by
  obtain ⟨cols, hc1, hc2⟩ := cols_text con m hw hn
  obtain ⟨cols', hc1', hl, hlen, -⟩ := Json.columns_full hw hn
  have : cols = cols' := by rw [hc1] at hc1'; simpa using hc1'
  subst this
  have ht : cols.map (·.map txt) = (columnsIn m.nr m.nc (m.data.map con)).map (·.map fun x => spell h (jsonCell f x)) := by
    rw [← hc2, List.map_map]
    refine List.map_congr_left fun c _ => ?_
    simp only [Function.comp, List.map_map]
    exact List.map_congr_left fun x _ => (h2 x).symm
  unfold jsonMat jsonMatrix
  rw [hc1, Out.bind]
  by_cases h0 : m.nr = 0 ∨ m.nc = 0
  · rw [if_pos h0]
    refine ⟨?_, by simp [hexAfter, Piece.isAddr]⟩
    have e : colsText (pre ++ str "  [ ") (str " ],\n" ++ pre ++ str "  [ ") (cols.map (·.map txt)) = [] := by
      have : ∀ (a b : Bytes) (cs : List (List Bytes)), (∀ c ∈ cs, c = []) → colsText a b cs = [] := by
        intro a b cs
        induction cs generalizing a with
        | nil => intro _; rfl
        | cons c cs ih =>
          intro hc
          rw [colsText, hc c (by simp), sepText, ih b (fun d hd => hc d (by simp [hd]))]; rfl
      apply this
      intro c hc
      obtain ⟨d, hd, rfl⟩ := List.mem_map.1 hc
      rcases h0 with h0 | h0
      · have := hlen d hd; rw [h0] at this; rw [List.eq_nil_of_length_eq_zero this]; rfl
      · rw [h0] at hl; rw [List.eq_nil_of_length_eq_zero hl] at hd; simp at hd
    rw [e]
    simp [spell, str]
  · rw [if_neg h0]
    have hes : ∀ c ∈ columnsIn m.nr m.nc (m.data.map con), ∀ x ∈ c, (jsonCell f x).any Piece.isAddr = false := by
      intro c hc x hx
      rw [← hc2] at hc
      obtain ⟨d, -, rfl⟩ := List.mem_map.1 hc
      obtain ⟨a, -, rfl⟩ := List.mem_map.1 hx
      exact value_steady f _ _ _ (h1 a)
    have hne : ∀ c ∈ columnsIn m.nr m.nc (m.data.map con), c ≠ [] := by
      intro c hc hcn
      obtain ⟨j, -, rfl⟩ := List.mem_map.1 hc
      simp at hcn; exact h0 (.inl hcn)
    rw [ht]
    have hnil : columnsIn m.nr m.nc (m.data.map con) ≠ [] := by
      intro e; apply h0; right; simpa [columnsIn] using e
    generalize columnsIn m.nr m.nc (m.data.map con) = C at *
    cases C with
    | nil => exact absurd rfl hnil
    | cons c cs =>
      have hb : ∀ d ∈ c :: cs, spell h (bracketed (d.map (jsonCell f))) =
          sepText (str "[ ") (str ", ") (d.map fun x => spell h (jsonCell f x)) ++ str " ]" ∧
          hexAfter h (bracketed (d.map (jsonCell f))) = h :=
        fun d hd => bracketed_steady (jsonCell f) d h (hes d hd)
      have key : ∀ ds : List (List GC), (∀ d ∈ ds, d ∈ c :: cs) →
          colsText (str " ],\n" ++ pre ++ str "  [ ") (str " ],\n" ++ pre ++ str "  [ ")
            (ds.map (·.map fun x => spell h (jsonCell f x))) ++ str " ]" =
          str " ]" ++ spell h (ds.flatMap fun c => .lit (str ",\n") :: .lit (pre ++ str "  ") :: bracketed (c.map (jsonCell f))) ∧
          hexAfter h (ds.flatMap fun c => .lit (str ",\n") :: .lit (pre ++ str "  ") :: bracketed (c.map (jsonCell f))) = h := by
        intro ds
        induction ds with
        | nil => intro _; exact ⟨by simp [colsText, spell], by simp [hexAfter]⟩
        | cons d ds ih =>
          intro hd
          obtain ⟨i1, i2⟩ := ih (fun e he => hd e (by simp [he]))
          obtain ⟨h3, h4⟩ := hb d (hd d (by simp))
          have e1 : str " ],\n" ++ pre ++ str "  [ " = (str " ]" ++ (str ",\n" ++ (pre ++ str "  "))) ++ str "[ " := by
            simp [str]
          constructor
          · rw [List.map_cons, colsText, List.append_assoc, i1, List.flatMap_cons, spell_append, hexAfter_lit, hexAfter_lit, h4,
              spell, spell, h3, e1, sepText_split _ _ _ _ (by simpa using hne d (hd d (by simp)))]
            simp only [List.append_assoc]
          · rw [List.flatMap_cons, hexAfter_append, hexAfter_lit, hexAfter_lit, h4]; exact i2
      obtain ⟨k1, k2⟩ := key cs (fun d hd => by simp [hd])
      obtain ⟨h3, h4⟩ := hb c (by simp)
      have h5 : hexAfter h (.lit (pre ++ str "  ") :: bracketed (c.map (jsonCell f))) = h := by rw [hexAfter_lit, h4]
      have h6 : hexAfter h (joined (str ",\n") ((c :: cs).map fun c => .lit (pre ++ str "  ") :: bracketed (c.map (jsonCell f)))) = h := by
        rw [List.map_cons, joined, List.flatMap_map, hexAfter_append, h5, k2]
      constructor
      · rw [List.cons_append, spell, spell_append, h6, List.map_cons, List.map_cons, joined, List.flatMap_map, spell_append, h5, spell, h3,
          colsText, show pre ++ str "  [ " = (pre ++ str "  ") ++ str "[ " by simp [str],
          sepText_split _ _ _ _ (by simpa using hne c (by simp))]
        have e2 : str " ]\n" = str " ]" ++ str "\n" := by simp [str]
        rw [e2]
        simp only [List.append_assoc, spell, List.append_nil] at k1 ⊢
        rw [← List.append_assoc (colsText _ _ _), k1]
        simp only [List.append_assoc]
      · rw [List.cons_append, hexAfter_lit, hexAfter_append, h6, hexAfter_lit, hexAfter_nil]

/-! ## to_json -/

/-- The items, `sep` in front of the first. -/
def chain (sep : Bytes) : List (List Piece) → List Piece
  | [] => []
  | a :: r => .lit sep :: a ++ chain (str ",\n") r

theorem chain_joined (sep : Bytes) (items : List (List Piece)) (h : items ≠ []) :
    chain sep items = .lit sep :: joined (str ",\n") items := by
  cases items with
  | nil => exact absurd rfl h
  | cons a r =>
    have : ∀ r : List (List Piece), chain (str ",\n") r = r.flatMap fun b => .lit (str ",\n") :: b := by
      intro r
      induction r with
      | nil => rfl
      | cons b r ih => rw [chain, List.flatMap_cons, ih]
    rw [chain, joined, List.cons_append, this]

theorem jsonPieces_leaf (f : Fmt) (pre : Bytes) (g : GC) (hv : ∀ v, g ≠ vector v) (hm : ∀ m, g ≠ map m) :
    jsonPieces f pre g = match matDims g with
    | some (nr, nc) => jsonMatrix f pre nr nc (elems g)
    | none => if shape g.ty = 1 then bracketed ((elems g).map (jsonValue f)) else jsonValue f g := by
  cases g <;> first | rfl | exact absurd rfl (hv _) | exact absurd rfl (hm _)

theorem json_leaf (f : Fmt) (pre : Bytes) (g : GC) (h : Bool) (hv : ∀ v, g ≠ vector v) (hm : ∀ m, g ≠ map m) (hs : SizesOk g) :
    toJson f pre g h = .ok (spell h (jsonPieces f pre g), hexAfter h (jsonPieces f pre g)) := by
  have hs' := hs g .self
  rw [jsonPieces_leaf f pre g hv hm]
  have vec : ∀ {α : Type} (con : α → GC) (txt : α → Bytes) (v : List α), (∀ x, (con x).ty ≠ .POINTER) →
      (∀ x, spell h (jsonValue f (con x)) = txt x) →
      Out.ok (jsonVec (v.map txt), h) = .ok (spell h (bracketed ((v.map con).map (jsonValue f))),
        hexAfter h (bracketed ((v.map con).map (jsonValue f)))) := by
    intro α con txt v h1 h2
    obtain ⟨h3, h4⟩ := vec_text f (fun z => str "\"" ++ cplxOut f z ++ str "\"") string_escape con txt v h h1 h2
    rw [jsonVec, ← h3]; exact congrArg Out.ok (Prod.ext rfl h4.symm)
  have mat : ∀ {α : Type} (con : α → GC) (txt : α → Bytes) (m : Mat α), m.wf = true → m.nr * m.nc < 2 ^ 32 →
      (∀ x, (con x).ty ≠ .POINTER) → (∀ x, spell h (jsonCell f (con x)) = txt x) →
      ((jsonMat pre txt m).bind fun t => Out.ok (t, h)) = .ok (spell h (jsonMatrix f pre m.nr m.nc (m.data.map con)),
        hexAfter h (jsonMatrix f pre m.nr m.nc (m.data.map con))) := by
    intro α con txt m hw hn h1 h2
    obtain ⟨h3, h4⟩ := jsonMat_text f pre con txt m h hw hn h1 h2
    rw [h3, h4]; rfl
  have si : ∀ {w : Nat} (i : BitVec w), spell h [.num i.toInt i.toNat] = intOut h i := by
    intro w i; rw [int_text]; simp [spell]
  have sl : ∀ t, spell h [.lit t] = t := by intro t; simp [spell]
  have sb : ∀ b, spell h [.lit (if b then str "true" else str "false")] = boolOut b := by intro b; rw [sl]; rfl
  cases g with
  | notype => exact congrArg Out.ok (Prod.ext (sl _).symm (steady rfl h).symm)
  | bool b => exact congrArg Out.ok (Prod.ext (sb b).symm (steady rfl h).symm)
  | int i => exact congrArg Out.ok (Prod.ext (si i).symm (steady rfl h).symm)
  | long i => exact congrArg Out.ok (Prod.ext (si i).symm (steady rfl h).symm)
  | real r => exact congrArg Out.ok (Prod.ext (sl _).symm (steady rfl h).symm)
  | complex c => exact congrArg Out.ok (Prod.ext (sl _).symm (steady rfl h).symm)
  | string s => exact congrArg Out.ok (Prod.ext (sl _).symm (steady rfl h).symm)
  | pointer p =>
    refine congrArg Out.ok (Prod.ext ?_ ?_)
    · show natOut true p.toNat = spell h [.addr p.toNat]
      rw [hex_nat]; simp [spell]
    · show true = hexAfter h [.addr p.toNat]
      simp [hexAfter, Piece.isAddr]
  | vecBool v => exact vec bool boolOut v (by simp [ty]) sb
  | vecInt v => exact vec int (intOut h) v (by simp [ty]) si
  | vecLong v => exact vec long (intOut h) v (by simp [ty]) si
  | vecReal v => exact vec real f.real v (by simp [ty]) (fun _ => sl _)
  | vecComplex v => exact vec complex (fun c => 34 :: cplxOut f c ++ [34]) v (by simp [ty]) (fun _ => sl _)
  | vecString v => exact vec string string_escape v (by simp [ty]) (fun _ => sl _)
  | vecPointer v =>
    obtain ⟨h3, -⟩ := spell_bracketed (fun _ => True) (jsonValue f) (fun x => spell true (jsonValue f x)) (v.map pointer) h trivial (by
      intro x hx k _
      obtain ⟨a, -, rfl⟩ := List.mem_map.1 hx
      exact ⟨by simp [jsonValue, valuePieces, spell], trivial⟩)
    refine congrArg Out.ok (Prod.ext ?_ ?_)
    · refine Eq.trans ?_ h3.symm
      show jsonVec _ = _
      rw [jsonVec, List.map_map]
      congr 2
      refine List.map_congr_left fun p _ => ?_
      rw [hex_nat]; simp [spell, jsonValue, valuePieces]
    · show (h || !v.isEmpty) = hexAfter h (bracketed ((v.map pointer).map (jsonValue f)))
      cases v with
      | nil => simp [hexAfter, bracketed, Piece.isAddr]
      | cons p v => simp [hexAfter, bracketed, Piece.isAddr, joined, jsonValue, valuePieces]
  | matInt m => exact mat int (intOut h) m hs'.1 (hs'.2 _ _ rfl) (by simp [ty]) si
  | matLong m => exact mat long (intOut h) m hs'.1 (hs'.2 _ _ rfl) (by simp [ty]) si
  | matReal m => exact mat real f.real m hs'.1 (hs'.2 _ _ rfl) (by simp [ty]) (fun _ => sl _)
  | matComplex m => exact mat complex _ m hs'.1 (hs'.2 _ _ rfl) (by simp [ty]) (fun _ => sl _)
  | vector v => exact absurd rfl (hv v)
  | map m => exact absurd rfl (hm m)

/-- **C100**: the text of to_json, for every container with full matrices and every state of the stream. -/
theorem C100_json (f : Fmt) (pre : Bytes) (g : GC) (h : Bool) (hs : SizesOk g) :
    toJson f pre g h = .ok (spell h (jsonPieces f pre g), hexAfter h (jsonPieces f pre g)) := by
  refine (GC.induct (P := fun g => SizesOk g → ∀ pre h,
      toJson f pre g h = .ok (spell h (jsonPieces f pre g), hexAfter h (jsonPieces f pre g)))
    (PL := fun v => (∀ x ∈ v, SizesOk x) → ∀ pre sep h,
      toJsonElems f pre sep v h = .ok (spell h (chain sep (jsonItems f pre v)), hexAfter h (chain sep (jsonItems f pre v))))
    (PM := fun m => (∀ x ∈ m, SizesOk x.2) → ∀ pre sep h,
      toJsonEntries f pre sep m h = .ok (spell h (chain sep (jsonMembers f pre m)), hexAfter h (chain sep (jsonMembers f pre m))))
    ?_ ?_ ?_ ?_ ?_ ?_ ?_).1 g hs pre h
  · intro g hv hm hs pre h; exact json_leaf f pre g h hv hm hs
  · intro v ih hs pre h
    rw [toJson, jsonPieces]
    by_cases hv : v = []
    · subst hv; simp [spell, hexAfter]
    · rw [if_neg (by simpa using hv), if_neg hv, ih hs.elem pre _ h, Out.bind]
      have hne : jsonItems f pre v ≠ [] := by cases v <;> simp [jsonItems] at hv ⊢
      refine congrArg Out.ok (Prod.ext ?_ ?_)
      · rw [chain_joined _ _ hne, List.cons_append]
        simp only [spell, spell_append, List.append_nil]
        simp [str]
      · simp only [chain_joined _ _ hne, List.cons_append, hexAfter_lit, hexAfter_append, hexAfter_nil]
  · intro m ih hs pre h
    rw [toJson, jsonPieces]
    by_cases hv : m = []
    · subst hv; simp [spell, hexAfter]
    · rw [if_neg (by simpa using hv), if_neg hv, ih hs.value pre _ h, Out.bind]
      have hne : jsonMembers f pre m ≠ [] := by
        cases m with
        | nil => exact absurd rfl hv
        | cons a r => obtain ⟨k, x⟩ := a; simp [jsonMembers]
      refine congrArg Out.ok (Prod.ext ?_ ?_)
      · rw [chain_joined _ _ hne, List.cons_append]
        simp only [spell, spell_append, List.append_nil]
        simp [str]
      · simp only [chain_joined _ _ hne, List.cons_append, hexAfter_lit, hexAfter_append, hexAfter_nil]
  · intro _ pre sep h; simp [toJsonElems, jsonItems, chain, spell, hexAfter]
  · intro x r hx hr hs pre sep h
    rw [toJsonElems, hx (hs x (by simp)), Out.bind]
    simp only [hr (fun y hy => hs y (by simp [hy])), Out.bind]
    rw [jsonItems, chain, List.cons_append, List.cons_append]
    refine congrArg Out.ok (Prod.ext ?_ ?_)
    · simp only [spell, spell_append, List.append_assoc]
    · simp only [hexAfter_lit, hexAfter_append]
  · intro _ pre sep h; simp [toJsonEntries, jsonMembers, chain, spell, hexAfter]
  · intro k x r hx hr hs pre sep h
    rw [toJsonEntries, hx (hs (k, x) (by simp)), Out.bind]
    simp only [hr (fun y hy => hs y (by simp [hy])), Out.bind]
    rw [jsonMembers, chain, List.cons_append, List.cons_append]
    refine congrArg Out.ok (Prod.ext ?_ ?_)
    · simp only [spell, spell_append, List.append_assoc, hexAfter_lit]
      simp [str]
    · simp only [hexAfter_lit, hexAfter_append]

/-! ## to_yaml -/

theorem yamlMat_text {α : Type} (f : Fmt) (pre : Bytes) (con : α → GC) (txt : α → Bytes) (m : Mat α) (h : Bool)
    (hw : m.wf = true) (hn : m.nr * m.nc < 2 ^ 32)
    (h1 : ∀ x, (con x).ty ≠ .POINTER) (h2 : ∀ x, spell h (yamlCell f (con x)) = txt x) :
    yamlMat pre txt m = .ok (spell h (.lit (str "\n") :: (columnsIn m.nr m.nc (m.data.map con)).flatMap (yamlColumn f pre))) ∧
    hexAfter h (.lit (str "\n") :: (columnsIn m.nr m.nc (m.data.map con)).flatMap (yamlColumn f pre)) = h := by
  obtain ⟨cols, hc1, hc2⟩ := cols_text con m hw hn
  have hes : ∀ c ∈ columnsIn m.nr m.nc (m.data.map con), ∀ x ∈ c, (yamlCell f x).any Piece.isAddr = false := by
    intro c hc x hx
    rw [← hc2] at hc
    obtain ⟨d, -, rfl⟩ := List.mem_map.1 hc
    obtain ⟨a, -, rfl⟩ := List.mem_map.1 hx
    exact value_steady f _ _ _ (h1 a)
  have ht : cols.map (·.map txt) = (columnsIn m.nr m.nc (m.data.map con)).map (·.map fun x => spell h (yamlCell f x)) := by
    rw [← hc2, List.map_map]
    refine List.map_congr_left fun c _ => ?_
    simp only [Function.comp, List.map_map]
    exact List.map_congr_left fun x _ => (h2 x).symm
  obtain ⟨h3, h4⟩ := spell_flatMap (· = h) (yamlColumn f pre)
    (fun c => pre ++ sepText (str "- [ ") (str ", ") (c.map fun x => spell h (yamlCell f x)) ++ str " ]\n")
    (columnsIn m.nr m.nc (m.data.map con)) h rfl (by
      rintro c hc k rfl
      unfold yamlColumn
      by_cases hcn : c = []
      · subst hcn; rw [if_pos rfl]
        exact ⟨by simp [spell, sepText], by simp [hexAfter, Piece.isAddr]⟩
      · rw [if_neg hcn]
        obtain ⟨h5, h6⟩ := bracketed_steady (yamlCell f) c k (hes c hc)
        constructor
        · rw [List.cons_append, spell, spell_append, h5, h6,
            show str "- [ " = str "- " ++ str "[ " by simp [str], sepText_split _ _ _ _ (by simpa using hcn)]
          simp only [spell, List.append_nil, List.append_assoc]
          simp [str]
        · rw [List.cons_append, hexAfter_lit, hexAfter_append, h6, hexAfter_lit, hexAfter_nil])
  refine ⟨?_, by rw [hexAfter_lit]; exact h4⟩
  rw [yamlMat, hc1, Out.bind, spell, h3]
  have e : (cols.flatMap fun c => pre ++ sepText (str "- [ ") (str ", ") (c.map txt) ++ str " ]\n") =
      (cols.map (·.map txt)).flatMap fun t => pre ++ sepText (str "- [ ") (str ", ") t ++ str " ]\n" := by
    rw [List.flatMap_map]
  rw [e, ht, List.flatMap_map]; rfl

theorem yamlPieces_leaf (f : Fmt) (pre : Bytes) (g : GC) (hv : ∀ v, g ≠ vector v) (hm : ∀ m, g ≠ map m)
    (hp : ∀ v, g ≠ vecPointer v) :
    yamlPieces f pre g = match matDims g with
    | some (nr, nc) => .lit (str "\n") :: (columnsIn nr nc (elems g)).flatMap (yamlColumn f pre)
    | none => (if shape g.ty = 1 then bracketed ((elems g).map (yamlCell f)) else yamlValue f g) ++ [.lit (str "\n")] := by
  cases g <;> first | rfl | exact absurd rfl (hv _) | exact absurd rfl (hm _) | exact absurd rfl (hp _)

theorem yaml_leaf (f : Fmt) (pre : Bytes) (g : GC) (h : Bool) (hv : ∀ v, g ≠ vector v) (hm : ∀ m, g ≠ map m) (hs : SizesOk g) :
    toYaml f pre g h = .ok (spell h (yamlPieces f pre g), hexAfter h (yamlPieces f pre g)) := by
  have hs' := hs g .self
  by_cases hpv : ∃ v, g = vecPointer v
  · obtain ⟨v, rfl⟩ := hpv
    rw [yamlPieces, toYaml]
    obtain ⟨h3, -⟩ := spell_flatMap (fun _ => True) (fun p : Ptr => [.lit (pre ++ str "- "), .addr p.toNat, .lit (str "\n")])
      (fun p => pre ++ str "- " ++ natOut true p.toNat ++ [10]) v h trivial (by
        intro p _ k _
        exact ⟨by simp [spell, hex_nat, str], trivial⟩)
    refine congrArg Out.ok (Prod.ext ?_ ?_)
    · simp only [spell, h3]; rfl
    · simp only [hexAfter_lit]
      cases v <;> simp [hexAfter, Piece.isAddr]
  have hp : ∀ v, g ≠ vecPointer v := fun v e => hpv ⟨v, e⟩
  rw [yamlPieces_leaf f pre g hv hm hp]
  have vec : ∀ {α : Type} (con : α → GC) (txt : α → Bytes) (v : List α), (∀ x, (con x).ty ≠ .POINTER) →
      (∀ x, spell h (yamlCell f (con x)) = txt x) →
      Out.ok (yamlVec (v.map txt), h) = .ok (spell h (bracketed ((v.map con).map (yamlCell f)) ++ [.lit (str "\n")]),
        hexAfter h (bracketed ((v.map con).map (yamlCell f)) ++ [.lit (str "\n")])) := by
    intro α con txt v h1 h2
    obtain ⟨h3, h4⟩ := vec_text f (pairText f) string_escape con txt v h h1 h2
    refine congrArg Out.ok (Prod.ext ?_ ?_)
    · simp only [spell_append]
      refine Eq.trans ?_ (congrArg (· ++ _) h3.symm)
      simp [yamlVec, spell, str]
    · simp only [hexAfter_append, hexAfter_lit, hexAfter_nil]
      exact h4.symm
  have mat : ∀ {α : Type} (con : α → GC) (txt : α → Bytes) (m : Mat α), m.wf = true → m.nr * m.nc < 2 ^ 32 →
      (∀ x, (con x).ty ≠ .POINTER) → (∀ x, spell h (yamlCell f (con x)) = txt x) →
      ((yamlMat pre txt m).bind fun t => Out.ok (t, h)) =
        .ok (spell h (.lit (str "\n") :: (columnsIn m.nr m.nc (m.data.map con)).flatMap (yamlColumn f pre)),
        hexAfter h (.lit (str "\n") :: (columnsIn m.nr m.nc (m.data.map con)).flatMap (yamlColumn f pre))) := by
    intro α con txt m hw hn h1 h2
    obtain ⟨h3, h4⟩ := yamlMat_text f pre con txt m h hw hn h1 h2
    rw [h3, h4]; rfl
  have si : ∀ {w : Nat} (i : BitVec w), spell h [.num i.toInt i.toNat] = intOut h i := by
    intro w i; rw [int_text]; simp [spell]
  have sl : ∀ t, spell h [.lit t] = t := by intro t; simp [spell]
  have sb : ∀ b, spell h [.lit (if b then str "true" else str "false")] = boolOut b := by intro b; rw [sl]; rfl
  have li : ∀ {w : Nat} (i : BitVec w), intOut h i ++ [10] = spell h ([.num i.toInt i.toNat] ++ [.lit (str "\n")]) := by
    intro w i; rw [int_text]; simp [spell, str]
  have ll : ∀ t, t ++ [10] = spell h ([.lit t] ++ [.lit (str "\n")]) := by intro t; simp [spell, str]
  cases g with
  | notype => exact congrArg Out.ok (Prod.ext (ll (str "null")) (steady rfl h).symm)
  | bool b => exact congrArg Out.ok (Prod.ext (ll _) (steady rfl h).symm)
  | int i => exact congrArg Out.ok (Prod.ext (li i) (steady rfl h).symm)
  | long i => exact congrArg Out.ok (Prod.ext (li i) (steady rfl h).symm)
  | real r => exact congrArg Out.ok (Prod.ext (ll _) (steady rfl h).symm)
  | complex c => exact congrArg Out.ok (Prod.ext (ll _) (steady rfl h).symm)
  | string s => exact congrArg Out.ok (Prod.ext (ll _) (steady rfl h).symm)
  | pointer p =>
    refine congrArg Out.ok (Prod.ext ?_ ?_)
    · show natOut true p.toNat ++ [10] = spell h [.addr p.toNat, .lit (str "\n")]
      rw [hex_nat]; simp [spell, str]
    · show true = hexAfter h [.addr p.toNat, .lit (str "\n")]
      simp [hexAfter, Piece.isAddr]
  | vecBool v => exact vec bool boolOut v (by simp [ty]) sb
  | vecInt v => exact vec int (intOut h) v (by simp [ty]) si
  | vecLong v => exact vec long (intOut h) v (by simp [ty]) si
  | vecReal v => exact vec real f.real v (by simp [ty]) (fun _ => sl _)
  | vecComplex v => exact vec complex (pairText f) v (by simp [ty]) (fun _ => sl _)
  | vecString v => exact vec string string_escape v (by simp [ty]) (fun _ => sl _)
  | vecPointer v => exact absurd rfl (hp v)
  | matInt m => exact mat int (intOut h) m hs'.1 (hs'.2 _ _ rfl) (by simp [ty]) si
  | matLong m => exact mat long (intOut h) m hs'.1 (hs'.2 _ _ rfl) (by simp [ty]) si
  | matReal m => exact mat real f.real m hs'.1 (hs'.2 _ _ rfl) (by simp [ty]) (fun _ => sl _)
  | matComplex m => exact mat complex (pairText f) m hs'.1 (hs'.2 _ _ rfl) (by simp [ty]) (fun _ => sl _)
  | vector v => exact absurd rfl (hv v)
  | map m => exact absurd rfl (hm m)

/-- **C100**: the text of to_yaml, for every container with full matrices and every state of the stream. -/
theorem C100_yaml (f : Fmt) (pre : Bytes) (g : GC) (h : Bool) (hs : SizesOk g) :
    toYaml f pre g h = .ok (spell h (yamlPieces f pre g), hexAfter h (yamlPieces f pre g)) := by
  refine (GC.induct (P := fun g => SizesOk g → ∀ pre h,
      toYaml f pre g h = .ok (spell h (yamlPieces f pre g), hexAfter h (yamlPieces f pre g)))
    (PL := fun v => (∀ x ∈ v, SizesOk x) → ∀ pre h,
      toYamlElems f pre v h = .ok (spell h (yamlItems f pre v), hexAfter h (yamlItems f pre v)))
    (PM := fun m => (∀ x ∈ m, SizesOk x.2) → ∀ pre h,
      toYamlEntries f pre m h = .ok (spell h (yamlMembers f pre m), hexAfter h (yamlMembers f pre m)))
    ?_ ?_ ?_ ?_ ?_ ?_ ?_).1 g hs pre h
  · intro g hv hm hs pre h; exact yaml_leaf f pre g h hv hm hs
  · intro v ih hs pre h
    rw [toYaml, yamlPieces]
    by_cases hv : v = []
    · subst hv; simp [spell, hexAfter, Piece.isAddr]
    · rw [if_neg (by simpa using hv), if_neg hv, ih hs.elem pre h, Out.bind, spell, hexAfter_lit]; rfl
  · intro m ih hs pre h
    rw [toYaml, yamlPieces]
    by_cases hv : m = []
    · subst hv; simp [spell, hexAfter, Piece.isAddr]
    · rw [if_neg (by simpa using hv), if_neg hv, ih hs.value pre h, Out.bind, spell, hexAfter_lit]; rfl
  · intro _ pre h; simp [toYamlElems, yamlItems, spell, hexAfter]
  · intro x r hx hr hs pre h
    rw [toYamlElems, hx (hs x (by simp)), Out.bind]
    simp only [hr (fun y hy => hs y (by simp [hy])), Out.bind]
    rw [yamlItems, List.cons_append]
    refine congrArg Out.ok (Prod.ext ?_ ?_)
    · simp only [spell, spell_append, List.append_assoc]
    · simp only [hexAfter_lit, hexAfter_append]
  · intro _ pre h; simp [toYamlEntries, yamlMembers, spell, hexAfter]
  · intro k x r hx hr hs pre h
    rw [toYamlEntries, hx (hs (k, x) (by simp)), Out.bind]
    simp only [hr (fun y hy => hs y (by simp [hy])), Out.bind]
    rw [yamlMembers, List.cons_append]
    refine congrArg Out.ok (Prod.ext ?_ ?_)
    · simp only [spell, spell_append, List.append_assoc]
    · simp only [hexAfter_lit, hexAfter_append]

/-! ## print -/

theorem rows_text {α : Type} (con : α → GC) (m : Mat α) (hw : m.wf = true) (hn : m.nr * m.nc < 2 ^ 32) :
    ∃ rows, m.readRows = .ok rows ∧ rows.map (·.map con) = rowsIn m.nr m.nc (m.data.map con) := by
  obtain ⟨rows, h1, -, h2⟩ := collect_map (fun i => Mat.collect (fun j => m.get i j) m.nc) (fun _ r => r.map con)
    (fun i => (List.range m.nc).map fun j => (m.data.map con)[i + j * m.nr]?.getD notype) m.nr (by
      intro i hi
      obtain ⟨l, h3, -, h4⟩ := collect_map (fun j => m.get i j) (fun _ x => con x)
        (fun j => (m.data.map con)[i + j * m.nr]?.getD notype) m.nc (by
          intro j hj
          obtain ⟨x, hx1, hx2⟩ := Mat.get_eq hw hn hi hj
          rw [Mat.cell, if_pos ⟨hi, hj⟩] at hx1
          exact ⟨x, hx2, by rw [List.getElem?_map, Nat.add_comm, hx1]; rfl⟩)
      exact ⟨l, h3, by rw [← h4, mapIdx_const]⟩)
  exact ⟨rows, h1, by rw [← mapIdx_const, h2]; rfl⟩

theorem list_matrix {α : Type} (f : Fmt) (w : Nat) (first next : α → Bytes) (con : α → GC) (m : Mat α) (h : Bool)
    (hw : m.wf = true) (hn : m.nr * m.nc < 2 ^ 32) (hst : ∀ j x, (listCell f j (con x)).isAddr = false)
    (hc : ∀ j x, spell h [listCell f j (con x)] = if j = 0 then padded 8 (first x) else padded w (next x)) :
    matText h w first next m = .ok (spell h (listMatrix f m.nr m.nc (m.data.map con))) ∧
    hexAfter h (listMatrix f m.nr m.nc (m.data.map con)) = h := by
  unfold matText listMatrix
  by_cases h0 : m.nr = 0 ∨ m.nc = 0
  · rw [if_pos h0, if_neg (by omega)]
    refine ⟨?_, by simp [hexAfter, Piece.isAddr]⟩
    simp only [spell, nat_text]
    simp [str]
  · rw [if_neg h0, if_pos (by omega)]
    obtain ⟨rows, h1, h2⟩ := rows_text con m hw hn
    rw [h1, Out.bind, ← h2, List.flatMap_map]
    obtain ⟨h3, h4⟩ := spell_flatMap (· = h)
      (fun r : List α => joined (str " ") ((r.map con).mapIdx fun j x => [listCell f j x]) ++ [.lit (str "\n")])
      (rowText w first next) rows h rfl (by
        rintro r hr k rfl
        have hrn : r ≠ [] := by
          rintro rfl
          have : ([] : List GC) ∈ rowsIn m.nr m.nc (m.data.map con) := by
            rw [← h2]; exact List.mem_map.2 ⟨[], hr, rfl⟩
          obtain ⟨i, -, hi⟩ := List.mem_map.1 this
          simp at hi; exact h0 (.inr hi)
        obtain ⟨x, r, rfl⟩ := List.exists_cons_of_ne_nil hrn
        have tail : ∀ (r : List α) (n : Nat), 0 < n →
            spell k ((r.map con |>.mapIdx fun j x => [listCell f (j + n) x]).flatMap fun b => .lit (str " ") :: b) =
              r.flatMap (fun y => 32 :: padded w (next y)) ∧
            hexAfter k ((r.map con |>.mapIdx fun j x => [listCell f (j + n) x]).flatMap fun b => .lit (str " ") :: b) = k := by
          intro r
          induction r with
          | nil => intro n _; exact ⟨rfl, by simp [hexAfter]⟩
          | cons y r ih =>
            intro n hn
            obtain ⟨i1, i2⟩ := ih (n + 1) (by omega)
            rw [List.map_cons, List.mapIdx_cons, List.flatMap_cons, spell_append, hexAfter_append, hexAfter_lit,
              steady (by simp [hst]), List.flatMap_cons, spell, hc, if_neg (by omega)]
            have e : (fun i x => [listCell f (i + 1 + n) x]) = fun i x => [listCell f (i + (n + 1)) x] := by
              funext i x; rw [Nat.add_assoc, Nat.add_comm 1 n]
            simp only [e, i1, i2]
            simp [str]
        obtain ⟨t1, t2⟩ := tail r 1 (by omega)
        have hst1 : hexAfter k [listCell f 0 (con x)] = k := steady (by simp [hst]) k
        rw [List.map_cons, List.mapIdx_cons, joined]
        simp only [spell_append, hexAfter_append, hst1, t1, t2, hc 0 x, if_true, hexAfter_lit, hexAfter_nil, and_true]
        rw [rowText]; simp [spell, str])
    exact ⟨by rw [h3], h4⟩

theorem shortItem_eq (g : GC) (hs : sizeOk g = true) :
    (g.simple_data || (g.simple_vec_data && decide (g.get_num_elements ≤ 10))) = decide (shortItem g) := by
  cases g <;>
    simp_all [simple_data, simple_vec_data, ty, shortItem, single, shape, Ty.code, get_num_elements, elems, sizeOk, u32] <;>
    (apply decide_eq_decide.2; omega)

theorem listPieces_leaf (f : Fmt) (pre ind : Bytes) (g : GC) (hv : ∀ v, g ≠ vector v) (hm : ∀ m, g ≠ map m)
    (hp : ∀ v, g ≠ vecPointer v) (hq : ∀ v, g ≠ vecString v) :
    listPieces f pre ind g = match matDims g with
    | some (nr, nc) => listMatrix f nr nc (elems g)
    | none =>
      if shape g.ty = 1 then
        .lit (pre ++ str "[") :: (elems g).flatMap (fun x => .lit (str " ") :: listValue f x) ++ [.lit (str " ]\n")]
      else .lit pre :: listValue f g ++ [.lit (str "\n")] := by
  cases g <;> first
    | rfl | exact absurd rfl (hv _) | exact absurd rfl (hm _) | exact absurd rfl (hp _) | exact absurd rfl (hq _)

theorem numbered_text (pre : Bytes) (h : Bool) : ∀ (v : List Bytes) (i : Nat),
    numbered h pre [] (str ": \"") (str "\"") i v =
      spell h ((v.zipIdx i).flatMap fun si => [.lit pre, .num si.2 si.2, .lit (str ": \"" ++ si.1 ++ str "\"\n")]) ∧
    hexAfter h ((v.zipIdx i).flatMap fun si => [.lit pre, .num si.2 si.2, .lit (str ": \"" ++ si.1 ++ str "\"\n")]) = h
  | [], _ => ⟨rfl, by simp [hexAfter]⟩
  | s :: v, i => by
    obtain ⟨h1, h2⟩ := numbered_text pre h v (i + 1)
    rw [numbered, List.zipIdx_cons, List.flatMap_cons, spell_append, hexAfter_append, hexAfter_lit, hexAfter_num, hexAfter_lit,
      hexAfter_nil, h1, h2, nat_text]
    exact ⟨by simp [spell, str], rfl⟩

theorem pointers_text (pre : Bytes) : ∀ (v : List Ptr) (i : Nat) (h : Bool),
    pointers h pre i v = spell h ((v.zipIdx i).flatMap fun pi =>
      [.lit (pre ++ str "vec_pointer("), .num pi.2 pi.2, .lit (str "): "), .addr pi.1.toNat, .lit (str "\n")])
  | [], _, _ => rfl
  | p :: v, i, h => by
    rw [pointers, List.zipIdx_cons, List.flatMap_cons, spell_append, pointers_text pre v (i + 1) true, nat_text, hex_nat]
    have : hexAfter h [Piece.lit (pre ++ str "vec_pointer("), .num i i, .lit (str "): "), .addr p.toNat, .lit (str "\n")] = true := by
      simp [hexAfter, Piece.isAddr]
    simp only [this]
    simp [spell, str]

theorem list_leaf (f : Fmt) (pre ind : Bytes) (g : GC) (h : Bool) (hv : ∀ v, g ≠ vector v) (hm : ∀ m, g ≠ map m) (hs : SizesOk g) :
    dump f pre ind g h = .ok (spell h (listPieces f pre ind g), hexAfter h (listPieces f pre ind g)) := by
  have hs' := hs g .self
  by_cases hpv : ∃ v, g = vecPointer v
  · obtain ⟨v, rfl⟩ := hpv
    rw [listPieces, dump, pointers_text]
    refine congrArg Out.ok (Prod.ext rfl ?_)
    cases v with
    | nil => simp [hexAfter]
    | cons p v => simp [hexAfter, Piece.isAddr]
  by_cases hps : ∃ v, g = vecString v
  · obtain ⟨v, rfl⟩ := hps
    obtain ⟨h1, h2⟩ := numbered_text pre h v 0
    rw [listPieces, dump, h1, h2]
  rw [listPieces_leaf f pre ind g hv hm (fun v e => hpv ⟨v, e⟩) (fun v e => hps ⟨v, e⟩)]
  have vec : ∀ {α : Type} (con : α → GC) (txt : α → Bytes) (v : List α), (∀ x, (con x).ty ≠ .POINTER) →
      (∀ x, spell h (listValue f (con x)) = txt x) →
      Out.ok (pre ++ vecText (v.map txt) ++ [10], h) =
        .ok (spell h (.lit (pre ++ str "[") :: (v.map con).flatMap (fun x => .lit (str " ") :: listValue f x) ++ [.lit (str " ]\n")]),
        hexAfter h (.lit (pre ++ str "[") :: (v.map con).flatMap (fun x => .lit (str " ") :: listValue f x) ++ [.lit (str " ]\n")])) := by
    intro α con txt v h1 h2
    obtain ⟨h3, h4⟩ := flatMap_steady (fun x => .lit (str " ") :: listValue f x) (v.map con) h (by
      intro x hx
      obtain ⟨a, -, rfl⟩ := List.mem_map.1 hx
      have := value_steady f (cplxOut f) (fun s => str "\"" ++ s ++ str "\"") _ (h1 a)
      simpa [Piece.isAddr, listValue] using this)
    refine congrArg Out.ok (Prod.ext ?_ ?_)
    · simp only [List.cons_append, spell, spell_append, h3, h4]
      simp only [List.flatMap_map, h2, vecText]
      simp [str]
    · simp only [List.cons_append, hexAfter_append, hexAfter_lit, hexAfter_nil, h4]
  have mat : ∀ {α : Type} (w : Nat) (first next : α → Bytes) (con : α → GC) (m : Mat α), m.wf = true → m.nr * m.nc < 2 ^ 32 →
      (∀ j x, (listCell f j (con x)).isAddr = false) →
      (∀ j x, spell h [listCell f j (con x)] = if j = 0 then padded 8 (first x) else padded w (next x)) →
      ((matText h w first next m).bind fun t => Out.ok (t, h)) =
        .ok (spell h (listMatrix f m.nr m.nc (m.data.map con)), hexAfter h (listMatrix f m.nr m.nc (m.data.map con))) := by
    intro α w first next con m hw hn h1 h2
    obtain ⟨h3, h4⟩ := list_matrix f w first next con m h hw hn h1 h2
    rw [h3, h4]; rfl
  have si : ∀ {w : Nat} (i : BitVec w), spell h [.num i.toInt i.toNat] = intOut h i := by
    intro w i; rw [int_text]; simp [spell]
  have sl : ∀ t, spell h [.lit t] = t := by intro t; simp [spell]
  have sb : ∀ b, spell h [.lit (if b then str "true" else str "false")] = boolOut b := by intro b; rw [sl]; rfl
  have li : ∀ {w : Nat} (i : BitVec w), pre ++ intOut h i ++ [10] = spell h (.lit pre :: [.num i.toInt i.toNat] ++ [.lit (str "\n")]) := by
    intro w i; rw [int_text]; simp [spell, str]
  have ll : ∀ t, pre ++ t ++ [10] = spell h (.lit pre :: [.lit t] ++ [.lit (str "\n")]) := by intro t; simp [spell, str]
  have ci : ∀ {w : Nat} (i : BitVec w) (j : Nat), spell h [.cell i.toInt i.toNat] =
      if j = 0 then padded 8 (intOut h i) else padded 8 (intOut h i) := by
    intro w i j; rw [int_text]; simp [spell]
  cases g with
  | notype =>
    refine congrArg Out.ok (Prod.ext (Eq.trans ?_ (ll (str "null"))) (steady rfl h).symm)
    simp [str]
  | bool b => exact congrArg Out.ok (Prod.ext (ll _) (steady rfl h).symm)
  | int i => exact congrArg Out.ok (Prod.ext (li i) (steady rfl h).symm)
  | long i => exact congrArg Out.ok (Prod.ext (li i) (steady rfl h).symm)
  | real r => exact congrArg Out.ok (Prod.ext (ll _) (steady rfl h).symm)
  | complex c => exact congrArg Out.ok (Prod.ext (ll _) (steady rfl h).symm)
  | string s =>
    refine congrArg Out.ok (Prod.ext (Eq.trans ?_ (ll (str "\"" ++ s ++ str "\""))) (steady rfl h).symm)
    simp [str]
  | pointer p =>
    refine congrArg Out.ok (Prod.ext ?_ ?_)
    · show pre ++ natOut true p.toNat ++ [10] = spell h [.lit pre, .addr p.toNat, .lit (str "\n")]
      rw [hex_nat]; simp [spell, str]
    · show true = hexAfter h [.lit pre, .addr p.toNat, .lit (str "\n")]
      simp [hexAfter, Piece.isAddr]
  | vecBool v => exact vec bool boolOut v (by simp [ty]) sb
  | vecInt v => exact vec int (intOut h) v (by simp [ty]) si
  | vecLong v => exact vec long (intOut h) v (by simp [ty]) si
  | vecReal v => exact vec real f.real v (by simp [ty]) (fun _ => sl _)
  | vecComplex v => exact vec complex (cplxOut f) v (by simp [ty]) (fun _ => sl _)
  | vecString v => exact absurd ⟨v, rfl⟩ hps
  | vecPointer v => exact absurd ⟨v, rfl⟩ hpv
  | matInt m => exact mat 8 (intOut h) (intOut h) int m hs'.1 (hs'.2 _ _ rfl) (fun _ _ => rfl) (fun j x => ci x j)
  | matLong m => exact mat 8 (intOut h) (intOut h) long m hs'.1 (hs'.2 _ _ rfl) (fun _ _ => rfl) (fun j x => ci x j)
  | matReal m =>
    exact mat 8 f.real f.real real m hs'.1 (hs'.2 _ _ rfl) (fun _ _ => rfl) (fun j x => by
      show spell h [.lit _] = _; rw [sl]; simp)
  | matComplex m =>
    exact mat 12 (pairText f) (cplxOut f) complex m hs'.1 (hs'.2 _ _ rfl) (fun _ _ => rfl) (fun j x => by
      show spell h [.lit _] = _; rw [sl])
  | vector v => exact absurd rfl (hv v)
  | map m => exact absurd rfl (hm m)

/-- **C101**: the text of print, for every container with full matrices and every state of the stream. -/
theorem C101_print (f : Fmt) (pre ind : Bytes) (g : GC) (h : Bool) (hs : SizesOk g) :
    dump f pre ind g h = .ok (spell h (listPieces f pre ind g), hexAfter h (listPieces f pre ind g)) := by
  have e4 : indent4 = str "    " := rfl
  refine (GC.induct (P := fun g => SizesOk g → ∀ pre ind h,
      dump f pre ind g h = .ok (spell h (listPieces f pre ind g), hexAfter h (listPieces f pre ind g)))
    (PL := fun v => (∀ x ∈ v, SizesOk x) → ∀ pre pre2 i h,
      dumpElems f pre pre2 i v h = .ok (spell h (listItems f pre pre2 i v), hexAfter h (listItems f pre pre2 i v)))
    (PM := fun m => (∀ x ∈ m, SizesOk x.2) → ∀ pre pre2 h,
      dumpEntries f pre pre2 m h = .ok (spell h (listMembers f pre pre2 m), hexAfter h (listMembers f pre pre2 m)))
    ?_ ?_ ?_ ?_ ?_ ?_ ?_).1 g hs pre ind h
  · intro g hv hm hs pre ind h; exact list_leaf f pre ind g h hv hm hs
  · intro v ih hs pre ind h; exact ih hs.elem _ _ _ _
  · intro m ih hs pre ind h; exact ih hs.value _ _ _
  · intro _ pre pre2 i h; simp [dumpElems, listItems, spell, hexAfter]
  · intro x r hx hr hs pre pre2 i h
    have hx' := hx (hs x (by simp))
    have hr' := hr (fun y hy => hs y (by simp [hy]))
    rw [dumpElems, listItems, shortItem_eq x (hs x (by simp) x .self).1]
    by_cases hsh : shortItem x
    · rw [if_pos (by simpa using hsh), if_pos hsh, hx']
      simp only [Out.bind, hr', e4]
      refine congrArg Out.ok (Prod.ext ?_ ?_)
      · simp only [spell, spell_append, List.append_assoc, List.cons_append, nat_text]
      · simp only [hexAfter_lit, hexAfter_num, hexAfter_append, List.cons_append]
    · rw [if_neg (by simpa using hsh), if_neg hsh, hx']
      simp only [Out.bind, hr', e4]
      refine congrArg Out.ok (Prod.ext ?_ ?_)
      · simp only [spell, spell_append, List.append_assoc, List.cons_append, nat_text]
      · simp only [hexAfter_lit, hexAfter_num, hexAfter_append, List.cons_append]
  · intro _ pre pre2 h; simp [dumpEntries, listMembers, spell, hexAfter]
  · intro k x r hx hr hs pre pre2 h
    have hx' := hx (hs (k, x) (by simp))
    have hr' := hr (fun y hy => hs y (by simp [hy]))
    have fin : ∀ (t a b : Bytes),
        (((dump f a (str "    ") x h).bind fun (u, h') => Out.ok (t ++ u, h')).bind fun (u, h') =>
          (dumpEntries f pre pre2 r h').bind fun (w, h'') => .ok (u ++ w, h'')) =
        .ok (spell h ((.lit t :: listPieces f a (str "    ") x) ++ listMembers f pre pre2 r),
          hexAfter h ((.lit t :: listPieces f a (str "    ") x) ++ listMembers f pre pre2 r)) := by
      intro t a _
      rw [hx']
      simp only [Out.bind, hr']
      refine congrArg Out.ok (Prod.ext ?_ ?_)
      · simp only [spell, spell_append, List.append_assoc, List.cons_append]
      · simp only [hexAfter_lit, hexAfter_append, List.cons_append]
    rw [dumpEntries, listMembers, e4]
    cases hk : heading k with
    | none =>
      simp only [simple_data_eq]
      by_cases hsh : single x.ty = true
      · rw [if_pos hsh, if_pos (show shortValue x from hsh)]; exact fin _ _ []
      · rw [if_neg hsh, if_neg (show ¬shortValue x from hsh)]; exact fin _ _ []
    | some d =>
      obtain ⟨s, u, hd⟩ := d
      simp only [simple_data_eq]
      by_cases hsh : single x.ty = true
      · rw [if_pos hsh, if_pos (show shortValue x from hsh)]; exact fin _ _ []
      · rw [if_neg hsh, if_neg (show ¬shortValue x from hsh), headLines_eq pre [] [] s u hd (heading_sharp hk)]; exact fin _ _ []

end GC
end GCV
