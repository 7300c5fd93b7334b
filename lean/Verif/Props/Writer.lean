import Verif.Lemmas.Writer
import Verif.Lemmas.DeSerialize
import Verif.Props.TomlWrite
import Verif.Props.Json

/-!
# C54: writing JSON and reading it back
-/

namespace GCV
namespace GC
open Json

theorem wr_end {d : Doc} {t : Bytes} (h : Json.Wr d t) (hn : d.isNum = false) : Spells d.toks t := by
  have := h [] [] [] blank_nil (by simp [hn]) .nil
  simpa using this

theorem describes_num {f : Fmt} {g : GC} {d : Doc} (h : Describes f g d) (hd : d.isNum = true) :
    g.ty = .INTEGER ∨ g.ty = .LONG ∨ g.ty = .REAL := by
  cases h <;> simp [Doc.isNum] at hd <;> simp [ty]

/-- **C54**: the text written by to_json is JSON: it spells a document, and the document says what is in the container.
Partial: containers as in `JsonOk`, not just a number (`C54_number_negation`). -/
theorem C54_document_partial (f : Fmt) (pre : Bytes) (g : GC) (hp : ∀ c ∈ pre, c = 32 ∨ (9 ≤ c.toNat ∧ c.toNat ≤ 13))
    (h : JsonOk f g) (hn : g.ty ≠ .INTEGER ∧ g.ty ≠ .LONG ∧ g.ty ≠ .REAL) :
    ∃ text d, to_json f pre g = .ok text ∧ Describes f g d ∧ Spells d.toks text := by
  obtain ⟨t, d, h1, h2, h3⟩ := write_json g h hp
  refine ⟨t, d, by rw [to_json, h1]; rfl, h2, wr_end h3 ?_⟩
  cases hd : d.isNum with
  | false => rfl
  | true => rcases describes_num h2 hd with h | h | h <;> simp [h] at hn

/-- **C54**: to_json returns, for every container whose matrices are full (at most 2^32 elements) and every state of the
stream: no exception, no undefined behaviour. -/
theorem C54_returns (f : Fmt) (pre : Bytes) (g : GC) (hex : Bool)
    (h : ∀ x nr nc, Inside x g → matDims x = some (nr, nc) → sizeOk x = true ∧ nr * nc < 2 ^ 32) :
    ∃ r, toJson f pre g hex = .ok r := by
  have mat : ∀ {α : Type} (txt : α → Bytes) (m : Mat α) (pre : Bytes) (hex : Bool), m.wf = true → m.nr * m.nc < 2 ^ 32 →
      ∃ r, ((jsonMat pre txt m).bind fun t => Out.ok (t, hex)) = .ok r := by
    intro α txt m pre hex h1 h2
    obtain ⟨cols, hc, -⟩ := columns_full h1 h2
    exact ⟨_, by rw [jsonMat, hc]; rfl⟩
  refine (GC.induct (P := fun g => (∀ x nr nc, Inside x g → matDims x = some (nr, nc) → sizeOk x = true ∧ nr * nc < 2 ^ 32) →
      ∀ pre hex, ∃ r, toJson f pre g hex = .ok r)
    (PL := fun v => (∀ y ∈ v, ∀ x nr nc, Inside x y → matDims x = some (nr, nc) → sizeOk x = true ∧ nr * nc < 2 ^ 32) →
      ∀ pre sep hex, ∃ r, toJsonElems f pre sep v hex = .ok r)
    (PM := fun m => (∀ y ∈ m, ∀ x nr nc, Inside x y.2 → matDims x = some (nr, nc) → sizeOk x = true ∧ nr * nc < 2 ^ 32) →
      ∀ pre sep hex, ∃ r, toJsonEntries f pre sep m hex = .ok r) ?_ ?_ ?_ ?_ ?_ ?_ ?_).1 g h pre hex
  · intro g hv hm h pre hex
    cases g with
    | vector => exact absurd rfl (hv _)
    | map => exact absurd rfl (hm _)
    | matInt m => exact mat _ m pre hex (h _ _ _ .self rfl).1 (h _ _ _ .self rfl).2
    | matLong m => exact mat _ m pre hex (h _ _ _ .self rfl).1 (h _ _ _ .self rfl).2
    | matReal m => exact mat _ m pre hex (h _ _ _ .self rfl).1 (h _ _ _ .self rfl).2
    | matComplex m => exact mat _ m pre hex (h _ _ _ .self rfl).1 (h _ _ _ .self rfl).2
    | _ => exact ⟨_, rfl⟩
  · intro v ih h pre hex
    obtain ⟨r, hr⟩ := ih (fun y hy x nr nc hx => h x nr nc (.elem hy hx)) pre (str "[\n") hex
    rw [toJson, hr]
    split <;> exact ⟨_, rfl⟩
  · intro m ih h pre hex
    obtain ⟨r, hr⟩ := ih (fun y hy x nr nc hx => h x nr nc (.value (k := y.1) hy hx)) pre (str "{\n") hex
    rw [toJson, hr]
    split <;> exact ⟨_, rfl⟩
  · intro _ pre sep hex; exact ⟨_, rfl⟩
  · intro x r ihx ihr h pre sep hex
    obtain ⟨a, ha⟩ := ihx (h x (.head _)) (pre ++ str "  ") hex
    obtain ⟨b, hb⟩ := ihr (fun y hy => h y (.tail _ hy)) pre (str ",\n") a.2
    exact ⟨_, by rw [toJsonElems, ha]; simp only [Out.bind, hb]; rfl⟩
  · intro _ pre sep hex; exact ⟨_, rfl⟩
  · intro k x r ihx ihr h pre sep hex
    obtain ⟨a, ha⟩ := ihx (h (k, x) (.head _)) (pre ++ str "  ") hex
    obtain ⟨b, hb⟩ := ihr (fun y hy => h y (.tail _ hy)) pre (str ",\n") a.2
    exact ⟨_, by rw [toJsonEntries, ha]; simp only [Out.bind, hb]; rfl⟩

example : ∃ r, toJson ⟨fun _ => [], fun _ => []⟩ [] (vector [matInt ⟨2, 1, [1, 2]⟩, pointer 0]) true = .ok r := by
  refine C54_returns _ _ _ _ fun x nr nc hx hm => ?_
  cases hx with
  | self => simp [matDims] at hm
  | elem hx hi =>
    simp at hx
    rcases hx with rfl | rfl <;> cases hi <;> simp [matDims] at hm
    obtain ⟨rfl, rfl⟩ := hm; decide

/-- A way to write numbers, for the examples. -/
def fmt0 : Fmt := ⟨fun _ => str "0.5", fun _ => str "0.5"⟩

/-- Maps, vectors, a matrix, strings with quotes. -/
def writeExample : GC := map [(str "a", vecInt [1, -2]), (str "b", vector [string (str "x\"y"), real .zero, notype]),
  (str "m", matInt ⟨2, 2, [1, 2, 3, 4]⟩)]

theorem plain_ascii : ∀ s : Bytes, (∀ c ∈ s, c.toNat < 0x80 ∧ c ≠ 34 ∧ c ≠ 92) → Plain s
  | [], _ => .nil
  | c :: s, h => .plain (h c (.head _)).1 (h c (.head _)).2.1 (h c (.head _)).2.2
      (plain_ascii s fun d hd => h d (.tail _ hd))

theorem utf8_ascii : ∀ s : Bytes, (∀ c ∈ s, c.toNat < 0x80) → Utf8 s
  | [], _ => .nil
  | c :: s, h => .one (h c (.head _)) (utf8_ascii s fun d hd => h d (.tail _ hd))

theorem fmt0_lit : FloatLit (str "0.5") :=
  ⟨[], [48], [46, 53], [], by decide, .inl rfl, ⟨by simp, by decide⟩, .inr ⟨[53], rfl, by simp, by decide⟩, .inl rfl,
    .inl (by simp)⟩

theorem writeExample_ok : JsonOk fmt0 writeExample := by
  unfold writeExample
  refine ⟨by simp, plain_ascii _ (by decide), by simp [JsonOk], plain_ascii _ (by decide), ⟨by simp, ?_⟩,
    plain_ascii _ (by decide), ⟨by decide, by decide, by decide, by decide⟩, trivial⟩
  exact ⟨⟨utf8_ascii _ (by decide), by decide, by decide⟩, .inr fmt0_lit, trivial, trivial⟩

example : ∃ text d, to_json fmt0 [] writeExample = .ok text ∧ Describes fmt0 writeExample d ∧ Spells d.toks text :=
  C54_document_partial fmt0 [] _ (by simp) writeExample_ok (by decide)

example : to_json fmt0 [] writeExample = .ok (str
  "\n{\n  \"a\": [ 1, -2 ],\n  \"b\": \n  [\n    \"x\\\"y\",\n    0.5,\n    null\n  ],\n  \"m\": [\n    [ 1, 2 ],\n    [ 3, 4 ]\n  ]\n}") := by
  decide +kernel

/-! ## Reading back -/

/-- What is asked of every container inside of one that is read back. -/
structure BackOne (f : Fmt) (strtod : Bytes → Option F64) (m : Bool) (x : GC) : Prop where
  keys : ∀ e, x = map e → KeysSorted e
  size : sizeOk x = true
  plain : shape x.ty ≠ 2 ∧ ∀ c, complex c ∉ elems x
  flat : ∀ v, x = vector v → ∀ y ∈ v, ¬ listLike y
  reals : ∀ r, real r ∈ elems x → ReadsBack strtod (f.real r) r
  fine : ∀ y ∈ elems x, Fine m y

/-- What is shown of the document. -/
structure JReads (strtod : Bytes → Option F64) (m : Bool) (g : GC) (d : Doc) : Prop where
  usual : d.Usual
  arr : d.isArr = true ↔ listLike g
  same : SameTree (view g) (view (docTree strtod d))
  vecs : ∀ v, Inside (vector v) (docTree strtod d) → VectorOk v
  fine : ∀ x, Inside x (docTree strtod d) → ∀ y ∈ elems x, Fine m y

theorem inside_leaf {y x : GC} (h : Inside y x) (h1 : x.ty ≠ .VECTOR) (h2 : x.ty ≠ .MAP) : y = x := by
  cases h with
  | self => rfl
  | elem => exact absurd rfl h1
  | value => exact absurd rfl h2

theorem reads_leaf {strtod : Bytes → Option F64} {m : Bool} {g t : GC} {d : Doc} (hu : d.Usual) (ha : d.isArr = false)
    (hg : scalar g.ty = true ∨ g = notype) (ht : docTree strtod d = t) (hts : scalar t.ty = true ∨ t = notype)
    (hs : SameNumber g t) (hf : Fine m t) : JReads strtod m g d := by
  have e : ∀ {x : GC}, scalar x.ty = true ∨ x = notype → view x = .leaf x ∧ ¬ listLike x ∧ x.ty ≠ .VECTOR ∧ x.ty ≠ .MAP ∧
      (∀ y ∈ elems x, y = x) := by
    intro x hx
    cases x <;> simp [scalar, ty, Ty.rank] at hx <;> simp [view, listLike, shape, ty, elems]
  refine ⟨hu, ?_, ?_, ?_, ?_⟩
  · rw [ha]; simpa using (e hg).2.1
  · rw [ht, (e hg).1, (e hts).1]; exact .leaf hs
  · intro v hv
    rw [ht] at hv
    have := inside_leaf hv (e hts).2.2.1 (e hts).2.2.2.1
    rw [← this] at hts
    simp [scalar, ty, Ty.rank] at hts
  · intro x hx y hy
    rw [ht] at hx
    rw [inside_leaf hx (e hts).2.2.1 (e hts).2.2.2.1] at hy
    rw [(e hts).2.2.2.2 y hy]; exact hf

/-- The tree of a document other than an array. -/
theorem docTree_ty (strtod : Bytes → Option F64) (d : Doc) (h : d.isArr = false) :
    (docTree strtod d).ty ∈ [Ty.NOTYPE, .BOOL, .INTEGER, .LONG, .REAL, .STRING, .MAP] := by
  cases d with
  | arr => cases h
  | int l => rw [docTree]; unfold intTree; dsimp only; split <;> simp [ty]
  | num l => rw [docTree]; unfold numTree; split <;> simp [ty]
  | _ => rw [docTree]; simp [ty]

theorem plain_vectorOk {v : List GC} (hl : v.length < 2 ^ 32)
    (h : ∀ x ∈ v, x.ty ∈ [Ty.NOTYPE, .BOOL, .INTEGER, .LONG, .REAL, .STRING, .MAP]) : VectorOk v := by
  have nl : ∀ x ∈ v, ¬ listLike x ∧ sizeOk x = true := by
    intro x hx
    have := h x hx
    cases x <;> simp [ty] at this <;> exact ⟨by simp [listLike, shape, ty], rfl⟩
  refine ⟨hl, fun x hx => (nl x hx).2, fun x hx hx' => absurd hx' (nl x hx).1, fun x _ y hy _ hy' => absurd hy' (nl y hy).1,
    ?_, ?_, ?_⟩
  · intro q hq; have := h _ hq; simp [ty] at this
  · intro q hq; have := h _ hq; simp [ty] at this
  · intro q hq; have := h _ hq; simp [ty] at this

theorem intTree_value {l : Bytes} (h1 : -2 ^ 63 ≤ intValue l) (h2 : intValue l < 2 ^ 63) :
    numValue (intTree l) = some (intValue l * F64.unit) ∧ scalar (intTree l).ty = true ∧
      (intTree l = int (BitVec.ofInt 32 (intValue l)) ∨ intTree l = long (BitVec.ofInt 64 (intValue l))) ∧
      (BitVec.ofInt 64 (intValue l)).toInt = intValue l := by
  have h64 : (BitVec.ofInt 64 (intValue l)).toInt = intValue l := by
    rw [BitVec.toInt_ofInt, Int.bmod_eq_of_le] <;> omega
  unfold intTree
  dsimp only
  split
  · rename_i h
    have : (BitVec.ofInt 32 (intValue l)).toInt = intValue l := by
      rw [BitVec.toInt_ofInt, Int.bmod_eq_of_le] <;> omega
    exact ⟨by rw [numValue, this], rfl, .inl rfl, h64⟩
  · exact ⟨by rw [numValue, h64], rfl, .inr rfl, h64⟩

theorem reads_int {strtod : Bytes → Option F64} {m : Bool} {g : GC} {l : Bytes} (hl : IntLit l) (h1 : -2 ^ 63 ≤ intValue l)
    (h2 : intValue l < 2 ^ 63) (hg : scalar g.ty = true) (hv : numValue g = some (intValue l * F64.unit))
    (hf : m = true → (intValue l).natAbs ≤ 2 ^ 53) : JReads strtod m g (.int l) := by
  obtain ⟨h3, h4, h5, h6⟩ := intTree_value h1 h2
  refine reads_leaf ⟨hl, h1, h2⟩ rfl (.inl hg) rfl (.inl h4) (.inr (.inl ⟨_, hv, h3⟩)) ?_
  show Fine m (intTree l)
  cases m with
  | false => rcases h5 with h | h <;> rw [h] <;> trivial
  | true =>
    rcases h5 with h | h <;> rw [h]
    · trivial
    · show _ ≤ _
      rw [h6]; exact hf rfl

theorem usualElems_of : ∀ {ds : List Doc}, (∀ d ∈ ds, d.isArr = false ∧ d.Usual) → UsualElems ds
  | [], _ => trivial
  | d :: _, h => ⟨(h d (.head _)).1, (h d (.head _)).2, usualElems_of fun e he => h e (.tail _ he)⟩

theorem usualMembers_of : ∀ {ms : List (Bytes × Doc)}, (∀ p ∈ ms, p.2.Usual) → UsualMembers ms
  | [], _ => trivial
  | (k, d) :: _, h => ⟨h (k, d) (.head _), usualMembers_of fun e he => h e (.tail _ he)⟩

theorem docEntries_foldl (strtod : Bytes → Option F64) : ∀ (ms : List (Bytes × Doc)) (e : Entries), docEntries strtod e ms =
    (ms.map fun p => (p.1, docTree strtod p.2)).foldl (fun m e => mset e.1 e.2 m) e
  | [], e => by rw [docEntries]; rfl
  | (k, d) :: ms, e => by rw [docEntries, docEntries_foldl strtod ms]; rfl

theorem sorted_of_keys {m : Entries} {n : Entries} (h : KeysSorted m) (hk : n.map Prod.fst = m.map Prod.fst) :
    KeysSorted n := by
  unfold KeysSorted at *
  rw [← List.pairwise_map (f := Prod.fst) (R := fun a b => strLT a b)] at h ⊢
  rw [hk]; exact h

theorem describes_reads {f : Fmt} {strtod : Bytes → Option F64} {m : Bool} {g : GC} {d : Doc} (h : Describes f g d) :
    (∀ x, Inside x g → BackOne f strtod m x) → JReads strtod m g d := by
  induction h with
  | null => exact fun _ => reads_leaf trivial rfl (.inr rfl) rfl (.inr rfl) (.inl rfl) (by cases m <;> trivial)
  | bool => exact fun _ => reads_leaf trivial rfl (.inl rfl) rfl (.inl rfl) (.inl rfl) (by cases m <;> trivial)
  | @int i l hl hv =>
    intro _
    have := i.toInt_lt
    have := i.le_toInt
    exact reads_int hl (by omega) (by omega) rfl (by rw [numValue, hv]) (by intro _; omega)
  | @long i l hl hv =>
    intro hb
    have := i.toInt_lt
    have := i.le_toInt
    refine reads_int hl (by omega) (by omega) rfl (by rw [numValue, hv]) ?_
    rintro rfl
    rw [hv]
    exact (hb _ .self).fine (.long i) (by simp [elems])
  | @whole r hl =>
    intro hb
    obtain ⟨h1, h2⟩ := ((hb _ .self).reals r (by simp [elems])).2 hl
    refine reads_int hl (by omega) (by omega) rfl ?_ (fun _ => h1)
    rw [numValue]; exact h2
  | @real r hl =>
    intro hb
    have h1 := ((hb _ .self).reals r (by simp [elems])).1 hl
    refine reads_leaf hl rfl (.inl rfl) (t := .real r) ?_ (.inl rfl) (.inl rfl) ((hb _ .self).fine _ (by simp [elems]))
    rw [docTree, numTree, h1]
  | @complex c => intro hb; exact absurd (by simp [elems]) ((hb _ .self).plain.2 c)
  | string => exact fun _ => reads_leaf trivial rfl (.inl rfl) rfl (.inl rfl) (.inl rfl) (by cases m <;> trivial)
  | @vec g ds hv hl hd ih =>
    intro hb
    have hg := hb g .self
    have hlen : ds.length < 2 ^ 32 := by
      have := hg.size
      rw [hl]
      rcases hv with hv | hv <;> cases g <;> simp [ty, shape] at hv <;> simpa [sizeOk, elems] using this
    have scal : shape g.ty = 1 → ∀ y ∈ elems g, ∀ z, Inside z y → z = y ∧ elems y = [y] ∧ ¬ listLike y ∧
        sizeOk y = true ∧ shape y.ty ≠ 2 ∧ (∀ e, y ≠ .map e) ∧ ∀ v, y ≠ .vector v := by
      intro hs y hy z hz
      cases g <;> simp [shape, ty] at hs <;>
        (obtain ⟨a, -, rfl⟩ := List.mem_map.1 hy
         exact ⟨inside_leaf hz (by simp [ty]) (by simp [ty]), rfl, by simp [listLike, shape, ty], rfl, by simp [shape, ty],
           by simp, by simp⟩)
    have hel : ∀ y ∈ elems g, (∀ x, Inside x y → BackOne f strtod m x) ∧ ¬ listLike y := by
      intro y hy
      rcases hv with hv | hv
      · refine ⟨fun x hx => ?_, (scal hv y hy y .self).2.2.1⟩
        obtain ⟨rfl, h2, h3, h4, h5, h6, h7⟩ := scal hv y hy x hx
        refine ⟨fun e he => absurd he (h6 e), h4, ⟨h5, ?_⟩, fun v he => absurd he (h7 v), ?_, ?_⟩
        · intro c hc; rw [h2] at hc; simp at hc; exact hg.plain.2 c (hc ▸ hy)
        · intro r hr; rw [h2] at hr; simp at hr; exact hg.reals r (hr ▸ hy)
        · intro z hz; rw [h2] at hz; simp at hz; exact hg.fine z (hz ▸ hy)
      · cases g <;> simp [ty] at hv
        exact ⟨fun x hx => hb x (.elem hy hx), hg.flat _ rfl y hy⟩
    have mem : ∀ d ∈ ds, ∃ y ∈ elems g, ¬ listLike y ∧ JReads strtod m y d := by
      intro d hd'
      obtain ⟨i, hi, rfl⟩ := List.mem_iff_getElem.1 hd'
      have hi' : i < (elems g).length := hl ▸ hi
      have hy := List.getElem_mem hi'
      exact ⟨_, hy, (hel _ hy).2, ih i _ _ (List.getElem?_eq_getElem hi') (List.getElem?_eq_getElem hi) (hel _ hy).1⟩
    have hna : ∀ d ∈ ds, d.isArr = false := by
      intro d hd'
      obtain ⟨y, -, h1, h2⟩ := mem d hd'
      cases h : d.isArr with
      | false => rfl
      | true => exact absurd (h2.arr.1 h) h1
    have ht : docTree strtod (.arr ds) = .vector (ds.map (docTree strtod)) := by rw [docTree, docTrees_map]
    refine ⟨usualElems_of fun d hd' => ?_, ⟨fun _ => hv, fun _ => rfl⟩, ?_, ?_, ?_⟩
    · obtain ⟨y, -, -, h2⟩ := mem d hd'
      exact ⟨hna d hd', h2.usual⟩
    · rw [ht, view_list hv, view, viewL_eq]
      refine .list (by simp [hl]) ?_
      intro i t t' h1 h2
      rw [List.getElem?_map] at h1 h2
      rw [List.getElem?_map] at h2
      cases hy : (elems g)[i]? with
      | none => rw [hy] at h1; simp at h1
      | some y =>
        cases hx : ds[i]? with
        | none => rw [hx] at h2; simp at h2
        | some x =>
          rw [hy] at h1; rw [hx] at h2
          simp at h1 h2
          subst h1 h2
          exact (ih i y x hy hx (hel y (List.mem_of_getElem? hy)).1).same
    · intro v hv'
      rw [ht] at hv'
      cases hv' with
      | self =>
        refine plain_vectorOk (by simpa using hlen) ?_
        intro x hx
        obtain ⟨d, hd', rfl⟩ := List.mem_map.1 hx
        exact docTree_ty strtod d (hna d hd')
      | elem hx hi =>
        obtain ⟨d, hd', rfl⟩ := List.mem_map.1 hx
        obtain ⟨y, -, -, h2⟩ := mem d hd'
        exact h2.vecs v hi
    · intro x hx y hy
      rw [ht] at hx
      cases hx with
      | self =>
        simp only [elems] at hy
        obtain ⟨d, hd', rfl⟩ := List.mem_map.1 hy
        obtain ⟨z, -, -, h2⟩ := mem d hd'
        have h3 := h2.fine _ .self
        have := docTree_ty strtod d (hna d hd')
        generalize docTree strtod d = t at this h3
        cases t <;> simp [ty] at this <;> first
          | (cases m <;> trivial)
          | (refine h3 _ ?_; simp [elems])
      | elem hx hi =>
        obtain ⟨d, hd', rfl⟩ := List.mem_map.1 hx
        obtain ⟨z, -, -, h2⟩ := mem d hd'
        exact h2.fine x hi y hy
  | @mat g nr nc cols hm =>
    intro hb
    have := (hb g .self).plain.1
    cases g <;> simp [matDims] at hm <;> simp [shape, ty] at this
  | @map e ms hk hd ih =>
    intro hb
    have hs : KeysSorted e := (hb _ .self).keys e rfl
    have mem : ∀ p ∈ ms, ∃ k x, (k, x) ∈ e ∧ JReads strtod m x p.2 := by
      rintro ⟨k, d⟩ hp
      obtain ⟨i, hi, hp⟩ := List.mem_iff_getElem.1 hp
      have hi' : i < e.length := by
        have := congrArg List.length hk
        simp at this; omega
      refine ⟨e[i].1, e[i].2, List.getElem_mem hi', ?_⟩
      exact ih i _ _ k d (List.getElem?_eq_getElem hi') (by rw [List.getElem?_eq_getElem hi, hp]) fun x hx =>
        hb x (.value (List.getElem_mem hi') hx)
    have ht : docTree strtod (.obj ms) = .map (ms.map fun p => (p.1, docTree strtod p.2)) := by
      rw [docTree, docEntries_foldl, foldl_mset _ []]
      · rfl
      · refine sorted_of_keys hs ?_
        simpa [Function.comp_def] using hk
    refine ⟨⟨hk ▸ nodup_of_sorted hs, usualMembers_of fun p hp => ?_⟩, ?_, ?_, ?_, ?_⟩
    · obtain ⟨k, x, -, h2⟩ := mem p hp; exact h2.usual
    · simp [Doc.isArr, listLike, shape, ty]
    · rw [ht, view, view, viewM_eq, viewM_eq]
      refine .dict (by simpa [Function.comp_def] using hk.symm) ?_
      intro i k t k' t' h1 h2
      rw [List.getElem?_map] at h1 h2
      rw [List.getElem?_map] at h2
      cases hy : e[i]? with
      | none => rw [hy] at h1; simp at h1
      | some y =>
        cases hx : ms[i]? with
        | none => rw [hx] at h2; simp at h2
        | some x =>
          rw [hy] at h1; rw [hx] at h2
          simp at h1 h2
          obtain ⟨-, rfl⟩ := h1
          obtain ⟨-, rfl⟩ := h2
          exact (ih i y.1 y.2 x.1 x.2 hy hx fun z hz => hb z (.value (List.mem_of_getElem? hy) hz)).same
    · intro v hv
      rw [ht] at hv
      cases hv with
      | value hx hi =>
        obtain ⟨p, hp, he⟩ := List.mem_map.1 hx
        obtain ⟨k, x, -, h2⟩ := mem p hp
        rw [Prod.mk.injEq] at he
        rw [← he.2] at hi
        exact h2.vecs v hi
    · intro y hy z hz
      rw [ht] at hy
      cases hy with
      | self =>
        simp only [elems, List.mem_singleton] at hz
        subst hz; cases m <;> trivial
      | value hx hi =>
        obtain ⟨p, hp, he⟩ := List.mem_map.1 hx
        obtain ⟨k, x, -, h2⟩ := mem p hp
        rw [Prod.mk.injEq] at he
        rw [← he.2] at hi
        exact h2.fine y hi z hz

/-- **C54**: what to_json writes, from_json2 reads back as the same data.  Partial: containers as in `JsonOk` and
`JsonBack`, not just a number. -/
theorem C54_round_trip_partial (f : Fmt) (strtod : Bytes → Option F64) (pre : Bytes) (g : GC)
    (hp : ∀ c ∈ pre, c = 32 ∨ (9 ≤ c.toNat ∧ c.toNat ≤ 13)) (h : JsonOk f g) (hb : JsonBack f strtod g)
    (hn : g.ty ≠ .INTEGER ∧ g.ty ≠ .LONG ∧ g.ty ≠ .REAL) :
    ∃ text g', to_json f pre g = .ok text ∧ from_json2 strtod text notype = .ok g' true ∧ SameTree (view g) (view g') := by
  obtain ⟨text, d, h1, h2, h3⟩ := C54_document_partial f pre g hp h hn
  obtain ⟨m, hm⟩ : ∃ m, ∀ x, Inside x g → ∀ y ∈ elems x, Fine m y := by
    rcases hb.nums with hl | hr
    · refine ⟨true, fun x hx y hy => ?_⟩
      cases y <;> first | trivial | exact hl x hx _ hy
    · refine ⟨false, fun x hx y hy => ?_⟩
      cases y <;> first | trivial | exact absurd hy (hr x hx _) | exact absurd hy ((hb.plain x hx).2 _)
  have hr : JReads strtod m g d := describes_reads h2 fun x hx =>
    ⟨fun e he => hb.keys e (he ▸ hx), hb.size x hx, hb.plain x hx, fun v he => hb.flat v (he ▸ hx), hb.reals x hx, hm x hx⟩
  obtain ⟨g', h4, h5, -⟩ := collapse_ok m _ hr.vecs hr.fine
  refine ⟨text, g', h1, ?_, SameTree.trans hr.same h5⟩
  rw [(C30_tree_partial strtod d text h3 hr.usual).2, h4]
  rfl

/-- A map with a vector of numbers and a list of strings, numbers and nothing. -/
def backExample : GC := map [(str "a", vecInt [1, -2]), (str "b", vector [string (str "x\"y"), real ⟨0x3FE0000000000000⟩, notype])]

theorem backExample_back : JsonBack fmt0 (fun _ => some ⟨0x3FE0000000000000⟩) backExample := by
  have hin : ∀ x, Inside x backExample → x = backExample ∨ x = vecInt [1, -2] ∨
      x = vector [string (str "x\"y"), real ⟨0x3FE0000000000000⟩, notype] ∨ x = string (str "x\"y") ∨
      x = real ⟨0x3FE0000000000000⟩ ∨ x = notype := by
    intro x hx
    cases hx with
    | self => exact .inl rfl
    | value hx hi =>
      simp at hx
      rcases hx with ⟨rfl, rfl⟩ | ⟨rfl, rfl⟩
      · cases hi; simp
      · cases hi with
        | self => simp
        | elem hx hi =>
          simp at hx
          rcases hx with rfl | rfl | rfl <;> cases hi <;> simp
  refine ⟨?_, ?_, ?_, ?_, ?_, ?_⟩
  · intro m hm
    rcases hin _ hm with h | h | h | h | h | h <;> simp [backExample] at h
    subst h; exact List.pairwise_pair.2 (.inr ⟨[], 97, 98, [], [], rfl, rfl, by decide⟩)
  · intro x hx; rcases hin x hx with rfl | rfl | rfl | rfl | rfl | rfl <;> simp [sizeOk, backExample]
  · intro x hx; rcases hin x hx with rfl | rfl | rfl | rfl | rfl | rfl <;> simp [shape, ty, backExample, elems]
  · intro v hv
    rcases hin _ hv with h | h | h | h | h | h <;> simp [backExample] at h
    subst h; simp [shape, ty]
  · intro x hx r hr
    have : r = ⟨0x3FE0000000000000⟩ := by
      rcases hin x hx with rfl | rfl | rfl | rfl | rfl | rfl <;> simp [backExample, elems] at hr <;> exact hr
    subst this
    refine ⟨fun _ => rfl, fun h => ?_⟩
    obtain ⟨a, b, h1, h2, h3, h4⟩ := h
    exfalso
    have hm : (46 : Byte) ∈ a ++ b := by rw [← h1]; decide
    rcases List.mem_append.1 hm with h | h
    · rcases h2 with rfl | rfl | rfl <;> simp at h
    · exact absurd (h4 _ h) (by decide)
  · left
    intro x hx l hl
    rcases hin x hx with rfl | rfl | rfl | rfl | rfl | rfl <;> simp [backExample, elems] at hl

theorem backExample_ok : JsonOk fmt0 backExample := by
  unfold backExample
  refine ⟨by simp, plain_ascii _ (by decide), by simp [JsonOk], plain_ascii _ (by decide), ⟨by simp, ?_⟩, trivial⟩
  exact ⟨⟨utf8_ascii _ (by decide), by decide, by decide⟩, .inr fmt0_lit, trivial, trivial⟩

example : ∃ text g', to_json fmt0 [] backExample = .ok text ∧
    from_json2 (fun _ => some ⟨0x3FE0000000000000⟩) text notype = .ok g' true ∧ SameTree (view backExample) (view g') :=
  C54_round_trip_partial fmt0 _ [] _ (by simp) backExample_ok backExample_back (by decide)

/-! ## Where it fails -/

/-- **C54** fails for every int and long written alone: the text is accepted and nothing is read. -/
theorem C54_number_negation (f : Fmt) (strtod : Bytes → Option F64) (pre : Bytes) (i : I32) (l : I64) :
    (∃ text, to_json f pre (int i) = .ok text ∧ from_json2 strtod text notype = .ok notype true) ∧
    (∃ text, to_json f pre (long l) = .ok text ∧ from_json2 strtod text notype = .ok notype true) := by
  refine ⟨⟨_, rfl, ?_⟩, ⟨_, rfl, ?_⟩⟩
  · rw [from_json2, C30_number_negation strtod _ (intOut_lit i).1]; rfl
  · rw [from_json2, C30_number_negation strtod _ (intOut_lit l).1]; rfl

theorem from_json2_error (strtod : Bytes → Option F64) {text : Bytes} {acts : List Act} {w : Wrapper}
    (h1 : parse text = .error acts) (h2 : Wrapper.acts strtod ⟨notype, [[]]⟩ acts = .ok w) :
    from_json2 strtod text notype = .throw w.root := by
  rw [from_json2, json2_tree, h1]
  dsimp only
  rw [h2]; rfl

/-- **C54** fails for vectors and maps without elements: packed vectors are written as `]` alone, which is refused, the
others as nothing at all, which reads as an empty container at the top and is refused as a value. -/
theorem C54_empty_negation (f : Fmt) (strtod : Bytes → Option F64) (pre : Bytes) :
    (∀ g, shape g.ty = 1 → elems g = [] → to_json f pre g = .ok (str " ]") ∧
      from_json2 strtod (str " ]") notype = .throw notype) ∧
    (∀ g, g = vector [] ∨ g = map [] → to_json f pre g = .ok [] ∧ from_json2 strtod [] notype = .ok notype true ∧
      to_json f [] (map [(str "k", g)]) = .ok (str "\n{\n  \"k\": \n}") ∧
      from_json2 strtod (str "\n{\n  \"k\": \n}") notype = .throw (map [(str "k", notype)])) := by
  refine ⟨fun g h1 h2 => ⟨?_, ?_⟩, fun g hg => ⟨?_, rfl, ?_, ?_⟩⟩
  · cases g <;> simp [shape, ty] at h1 <;> simp [elems] at h2 <;> subst h2 <;> rfl
  · exact from_json2_error strtod (acts := []) (by decide +kernel) rfl
  · rcases hg with rfl | rfl <;> rfl
  · rcases hg with rfl | rfl <;> rfl
  · exact from_json2_error strtod (acts := [.openMap, .setKey (str "k")]) (by decide +kernel) rfl

/-- **C54** fails for keys with a quote: they are written as they are. -/
theorem C54_key_negation (f : Fmt) (strtod : Bytes → Option F64) :
    to_json f [] (map [(str "a\"b", notype)]) = .ok (str "\n{\n  \"a\"b\": null\n}") ∧
    from_json2 strtod (str "\n{\n  \"a\"b\": null\n}") notype = .throw (map [(str "a", notype)]) :=
  ⟨rfl, from_json2_error strtod (acts := [.openMap, .setKey (str "a")]) (by decide +kernel) rfl⟩

/-- **C54** fails for matrices: they are not read back as such, nor as lists of columns; matrices of complex numbers are
written between single quotes, which is not JSON. -/
theorem C54_matrix_negation (f : Fmt) (strtod : Bytes → Option F64) :
    (∃ text, to_json f [] (matInt ⟨1, 2, [1, 2]⟩) = .ok text ∧
      from_json2 strtod text notype = .ok (vector [vector [], int 1, vector [], int 2]) true) ∧
    (∃ text, to_json ⟨f.real, fun _ => str "0"⟩ [] (matComplex ⟨1, 1, [.zero]⟩) = .ok text ∧
      from_json2 strtod text notype = .throw (vector [vector []])) := by
  refine ⟨⟨str "[\n  [ 1 ],\n  [ 2 ]\n]", rfl, ?_⟩, ⟨str "[\n  [ '0' ]\n]", rfl, ?_⟩⟩
  · have h : parse (str "[\n  [ 1 ],\n  [ 2 ]\n]") = .accept [.openVector, .openVector, .setInteger (str "1"),
        .closeVector, .openVector, .setInteger (str "2"), .closeVector, .closeVector] := by decide +kernel
    rw [from_json2, json2_tree, h]
    rfl
  · exact from_json2_error strtod (acts := [.openVector, .openVector]) (by decide +kernel) rfl

/-- **C54** fails for complex numbers: what is read back is a string. -/
theorem C54_complex_negation (f : Fmt) (strtod : Bytes → Option F64) (pre : Bytes) (c : Cplx) (h : Plain (cplxOut f c)) :
    ∃ text, to_json f pre (complex c) = .ok text ∧ from_json2 strtod text notype = .ok (string (cplxOut f c)) true := by
  refine ⟨_, rfl, ?_⟩
  have := (C30_tree_partial strtod (.string (cplxOut f c)) _ (wr_end (wr_string h) rfl) trivial).2
  rw [this, docTree]; rfl

example : Plain (cplxOut fmt0 .zero) := plain_ascii _ (by decide +kernel)

/-- **C54** fails after a pointer, which is written in base 16: integers written later to the same stream are in base 16
too, so that the text is not JSON. -/
theorem C54_pointer_negation (f : Fmt) (p : Ptr) (i : I32) :
    to_json f [] (vector [pointer p, int i]) =
      .ok (str "\n[\n  " ++ natOut true p.toNat ++ str ",\n  " ++ natOut true i.toNat ++ str "\n]") ∧
    to_json f [] (vector [int i, pointer p]) =
      .ok (str "\n[\n  " ++ intOut false i ++ str ",\n  " ++ natOut true p.toNat ++ str "\n]") ∧
    natOut true 255 = str "0xff" ∧ intOut false (255 : I32) = str "255" := by
  have e1 : str "[\n" = [91, 10] := by decide
  have e2 : str ",\n" = [44, 10] := by decide
  have e3 : str "  " = [32, 32] := by decide
  have e4 : str "\n[\n  " = [10, 91, 10, 32, 32] := by decide
  have e5 : str ",\n  " = [44, 10, 32, 32] := by decide
  have e6 : str "\n]" = [10, 93] := by decide
  have e7 : str "]" = [93] := by decide
  refine ⟨?_, ?_, by decide +kernel, by decide +kernel⟩
  · simp [to_json, toJson, toJsonElems, Out.bind, e1, e2, e3, e4, e5, e6, e7, intOut]
  · simp [to_json, toJson, toJsonElems, Out.bind, e1, e2, e3, e4, e5, e6, e7]

end GC
end GCV
