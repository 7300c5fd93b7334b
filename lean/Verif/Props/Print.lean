import Verif.Lemmas.Print

/-!
# C53, C63 - C68: listings

What `print` / `dump`, `print_content_types` and `info` send to the stream.
-/

namespace GCV
namespace GC

theorem simple_data_eq (g : GC) : g.simple_data = single g.ty := by cases g <;> rfl

theorem shortType_eq (g : GC) : (g.simple_data || g.simple_vec_data) = decide (shortType g) := by
  cases g <;> simp [simple_data, simple_vec_data, ty, shortType, single, shape, Ty.code]

theorem shortElem_eq (g : GC) (hs : sizeOk g = true) (hp : g.ty ≠ .VEC_POINTER) :
    (g.simple_data || (g.simple_vec_data && decide (g.get_num_elements ≤ 10))) = decide (shortElem g) := by
  cases g <;> simp [ty] at hp <;>
    simp_all [simple_data, simple_vec_data, ty, shortElem, single, Ty.code, get_num_elements, elems, sizeOk, u32] <;>
    (apply decide_eq_decide.2; omega)

/-! ## Lines -/

theorem text_deeper (pre ind rest : Bytes) (l : Line) :
    l.text (pre ++ ind) rest rest = l.deeper.text pre ind rest := by
  obtain ⟨d, t⟩ := l
  cases d with
  | none => rfl
  | some d => cases d <;> simp [Line.text, Line.deeper, List.replicate_succ]

theorem flatMap_deeper (pre ind rest : Bytes) (ls : List Line) :
    ls.flatMap (Line.text (pre ++ ind) rest rest) = (ls.map Line.deeper).flatMap (Line.text pre ind rest) := by
  rw [List.flatMap_map]
  congr 1; funext l; exact text_deeper pre ind rest l

theorem numbered_eq (pre ind rest : Bytes) : ∀ (v : List Bytes) (i : Nat),
    numbered false pre [] (str ": \"") (str "\"") i v =
      (v.zipIdx i |>.map fun si => ((some 0, decimal si.2 ++ str ": \"" ++ si.1 ++ str "\"") : Line)).flatMap
        (Line.text pre ind rest)
  | [], _ => rfl
  | s :: v, i => by
    rw [numbered, numbered_eq pre ind rest v (i + 1)]
    simp [Line.text, decimal_nat]

theorem headLines_eq (pre ind rest s u h : Bytes) (hs : s = str "#" ∨ s = str "##") :
    headLines pre s u h = (headOutline s u h).flatMap (Line.text pre ind rest) := by
  unfold headLines headOutline
  rcases hs with rfl | rfl <;> cases u <;> simp [str, Line.text]

theorem heading_sharp {k s u h : Bytes} (e : heading k = some (s, u, h)) : s = str "#" ∨ s = str "##" := by
  obtain ⟨_, _, _, _, hn, _⟩ := (heading_iff k s u h).1 e
  exact hn.sharp

/-! ## Matrices -/

theorem collect_map {α β : Type} (f : Nat → Out α) (F : Nat → α → β) (T : Nat → β) : ∀ n : Nat,
    (∀ i, i < n → ∃ x, f i = .ok x ∧ F i x = T i) →
    ∃ l, Mat.collect f n = .ok l ∧ l.length = n ∧ l.mapIdx F = (List.range n).map T
  | 0, _ => ⟨[], rfl, rfl, rfl⟩
  | n + 1, h => by
    obtain ⟨l, h1, h2, h3⟩ := collect_map f F T n fun i hi => h i (by omega)
    obtain ⟨x, h4, h5⟩ := h n (by omega)
    refine ⟨l ++ [x], by simp [Mat.collect, h1, h4, Out.bind], by simp [h2], ?_⟩
    rw [List.mapIdx_append, h3, List.range_succ, List.map_append]
    simp [h2, h5]

theorem mapIdx_const {α β : Type} (g : α → β) (l : List α) : l.mapIdx (fun _ x => g x) = l.map g := by
  apply List.ext_getElem? ; intro i; simp

theorem rowText_eq {α : Type} (w : Nat) (first next : α → Bytes) (l : List α) (h : l ≠ []) :
    rowText w first next l = (str " ").intercalate
      (l.mapIdx fun j x => if j = 0 then padded 8 (first x) else padded w (next x)) ++ [10] := by
  cases l with
  | nil => exact absurd rfl h
  | cons x r =>
    have : ∀ (r : List α) (a : Bytes), (str " ").intercalate (a :: r.map fun y => padded w (next y)) =
        a ++ r.flatMap fun y => 32 :: padded w (next y) := by
      intro r
      induction r with
      | nil => intro a; simp [List.intercalate]
      | cons y r ih =>
        intro a
        rw [List.map_cons, List.flatMap_cons, List.intercalate_cons_cons, ih]
        simp [str]
    rw [rowText, List.mapIdx_cons]
    simp only [if_true]
    have e : (r.mapIdx fun i (x : α) => if i + 1 = 0 then padded 8 (first x) else padded w (next x)) =
        r.map fun y => padded w (next y) := by
      rw [← mapIdx_const]; simp
    rw [e, this]

theorem matText_eq {α : Type} (f : Fmt) (pre ind rest : Bytes) (w : Nat) (first next : α → Bytes) (con : α → GC)
    (m : Mat α) (hw : m.wf = true) (hn : m.nr * m.nc < 2 ^ 32)
    (hc : ∀ j x, showCell f j (con x) = if j = 0 then padded 8 (first x) else padded w (next x)) :
    matText false w first next m =
      .ok ((matLines f m.nr m.nc (m.data.map con)).flatMap (Line.text pre ind rest)) := by
  unfold matText matLines
  by_cases h0 : 0 < m.nr ∧ 0 < m.nc
  · rw [if_pos h0, if_pos h0]
    let T : Nat → Bytes := fun i => (str " ").intercalate
      ((List.range m.nc).map fun j => showCell f j ((m.data.map con)[i + j * m.nr]?.getD notype)) ++ [10]
    obtain ⟨rows, h1, h2, h3⟩ := collect_map (fun i => Mat.collect (fun j => m.get i j) m.nc)
      (fun _ l => rowText w first next l) T m.nr (by
        intro i hi
        obtain ⟨l, h4, h5, h6⟩ := collect_map (fun j => m.get i j)
          (fun j x => if j = 0 then padded 8 (first x) else padded w (next x))
          (fun j => showCell f j ((m.data.map con)[i + j * m.nr]?.getD notype)) m.nc (by
            intro j hj
            obtain ⟨x, h6, h7⟩ := Mat.get_eq hw hn hi hj
            rw [Mat.cell, if_pos ⟨hi, hj⟩] at h6
            refine ⟨x, h7, ?_⟩
            rw [List.getElem?_map, Nat.add_comm, h6]
            exact (hc j x).symm)
        refine ⟨l, h4, ?_⟩
        rw [rowText_eq _ _ _ _ (by rintro rfl; simp at h5; omega), h6])
    rw [Mat.readRows, h1]
    show Out.ok _ = _
    congr 1
    rw [mapIdx_const] at h3
    rw [List.flatMap_def, h3, List.flatMap_map, List.flatMap_def]
    rfl
  · rw [if_neg h0, if_neg h0]
    simp [Line.text, decimal_nat, str]

/-- The matrices in a container are full, and the vectors have less than 2^32 elements. -/
def SizesOk (g : GC) : Prop :=
  ∀ x, Inside x g → sizeOk x = true ∧ ∀ nr nc, matDims x = some (nr, nc) → nr * nc < 2 ^ 32

/-- There are no pointers, and no vectors of pointers. -/
def NoPointers (g : GC) : Prop := ∀ x, Inside x g → x.ty ≠ .POINTER ∧ x.ty ≠ .VEC_POINTER

theorem SizesOk.elem {v : List GC} (h : SizesOk (vector v)) : ∀ x ∈ v, SizesOk x := fun _ hx _ hy => h _ (.elem hx hy)
theorem SizesOk.value {m : Entries} (h : SizesOk (map m)) : ∀ kx ∈ m, SizesOk kx.2 :=
  fun kx hx _ hy => h _ (.value (k := kx.1) hx hy)
theorem NoPointers.elem {v : List GC} (h : NoPointers (vector v)) : ∀ x ∈ v, NoPointers x :=
  fun _ hx _ hy => h _ (.elem hx hy)
theorem NoPointers.value {m : Entries} (h : NoPointers (map m)) : ∀ kx ∈ m, NoPointers kx.2 :=
  fun kx hx _ hy => h _ (.value (k := kx.1) hx hy)

theorem outline_line (f : Fmt) (g : GC) (h : single g.ty = true ∨ (shape g.ty = 1 ∧ g.ty ≠ .VEC_STRING)) :
    outline f g = [(some 0, showLine f g)] := by
  cases g <;> first
    | rfl
    | simp [single, shape, ty] at h

theorem vecText_eq {α : Type} (f : Fmt) (con : α → GC) (txt : α → Bytes) (v : List α)
    (h : ∀ x, showScalar f (con x) = txt x) : vecText (v.map txt) = showVec f (v.map con) := by
  unfold vecText showVec
  rw [List.flatMap_map, List.flatMap_map]
  simp [h, str]

theorem dump_leaf (f : Fmt) (pre ind : Bytes) (g : GC) (hv : ∀ v, g ≠ vector v) (hm : ∀ m, g ≠ map m)
    (hs : SizesOk g) (hp : NoPointers g) :
    dump f pre ind g false = .ok ((outline f g).flatMap (Line.text pre ind indent4), false) := by
  have hp' := hp g .self
  have one : ∀ t, (([(some 0, t)] : List Line).flatMap (Line.text pre ind indent4)) = pre ++ t ++ [10] := by
    intro t; simp [Line.text]
  have mat : ∀ {α : Type} (w : Nat) (first next : α → Bytes) (con : α → GC) (m : Mat α), m.wf = true →
      m.nr * m.nc < 2 ^ 32 →
      (∀ j x, showCell f j (con x) = if j = 0 then padded 8 (first x) else padded w (next x)) →
      ((matText false w first next m).bind fun t => Out.ok (t, false)) =
        .ok ((matLines f m.nr m.nc (m.data.map con)).flatMap (Line.text pre ind indent4), false) := by
    intro α w first next con m h1 h2 h3
    rw [matText_eq f pre ind indent4 w first next con m h1 h2 h3]; rfl
  cases g with
  | vector => exact absurd rfl (hv _)
  | map => exact absurd rfl (hm _)
  | pointer => exact absurd rfl hp'.1
  | vecPointer => exact absurd rfl hp'.2
  | notype => simp [dump, outline, one, showLine, shape, ty, showScalar, str]
  | bool => simp [dump, outline, one, showLine, shape, ty, showScalar, boolOut]
  | int => simp [dump, outline, one, showLine, shape, ty, showScalar, decimal_int]
  | long => simp [dump, outline, one, showLine, shape, ty, showScalar, decimal_int]
  | real => simp [dump, outline, one, showLine, shape, ty, showScalar]
  | complex => simp [dump, outline, one, showLine, shape, ty, showScalar]
  | string => simp [dump, outline, one, showLine, shape, ty, showScalar, str]
  | vecBool v => 
    rw [dump, outline_line f _ (.inr (by simp [shape, ty])), one]
    simp only [showLine, shape, ty, elems]
    rw [vecText_eq f .bool boolOut v fun x => rfl]
  | vecInt v => 
    rw [dump, outline_line f _ (.inr (by simp [shape, ty])), one]
    simp only [showLine, shape, ty, elems]
    rw [vecText_eq f .int (intOut false) v fun x => (decimal_int x).symm]
  | vecLong v => 
    rw [dump, outline_line f _ (.inr (by simp [shape, ty])), one]
    simp only [showLine, shape, ty, elems]
    rw [vecText_eq f .long (intOut false) v fun x => (decimal_int x).symm]
  | vecReal v => 
    rw [dump, outline_line f _ (.inr (by simp [shape, ty])), one]
    simp only [showLine, shape, ty, elems]
    rw [vecText_eq f .real f.real v fun x => rfl]
  | vecComplex v => 
    rw [dump, outline_line f _ (.inr (by simp [shape, ty])), one]
    simp only [showLine, shape, ty, elems]
    rw [vecText_eq f .complex (cplxOut f) v fun x => rfl]
  | vecString v =>
    rw [dump, numbered_eq pre ind indent4 v 0]; rfl
  | matInt m =>
    exact mat 8 _ _ .int m (hs _ .self).1 ((hs _ .self).2 _ _ rfl) (by
      intro j x; simp [showCell, showScalar, decimal_int])
  | matLong m =>
    exact mat 8 _ _ .long m (hs _ .self).1 ((hs _ .self).2 _ _ rfl) (by
      intro j x; simp [showCell, showScalar, decimal_int])
  | matReal m =>
    exact mat 8 _ _ .real m (hs _ .self).1 ((hs _ .self).2 _ _ rfl) (by
      intro j x; simp [showCell, showScalar])
  | matComplex m =>
    exact mat 12 _ _ .complex m (hs _ .self).1 ((hs _ .self).2 _ _ rfl) (by
      intro j x; simp [showCell])

/-- The text of a value on the line of its label. -/
theorem dump_short (f : Fmt) (g : GC) (h : single g.ty = true ∨ shortElem g)
    (d : dump f [] indent4 g false = .ok ((outline f g).flatMap (Line.text [] indent4 indent4), false)) :
    dump f [] indent4 g false = .ok (showLine f g ++ [10], false) := by
  rw [d, outline_line]
  · simp [Line.text]
  · rcases h with h | h | ⟨h, _⟩
    · exact .inl h
    · exact .inl h
    · right; rcases h with h | h | h | h | h <;> rw [h] <;> simp [shape]

theorem dump_outline (f : Fmt) : (∀ g, SizesOk g → NoPointers g → ∀ pre ind,
      dump f pre ind g false = .ok ((outline f g).flatMap (Line.text pre ind indent4), false)) ∧
    (∀ v, (∀ x ∈ v, SizesOk x ∧ NoPointers x) → ∀ pre ind i,
      dumpElems f pre (pre ++ ind) i v false = .ok ((outlineL f i v).flatMap (Line.text pre ind indent4), false)) ∧
    (∀ m : Entries, (∀ kx ∈ m, SizesOk kx.2 ∧ NoPointers kx.2) → ∀ pre ind,
      dumpEntries f pre (pre ++ ind) m false = .ok ((outlineM f m).flatMap (Line.text pre ind indent4), false)) := by
  refine GC.induct ?_ ?_ ?_ ?_ ?_ ?_ ?_
  · intro g hv hm hs hp pre ind
    exact dump_leaf f pre ind g hv hm hs hp
  · intro v ih hs hp pre ind
    rw [dump, outline]
    exact ih (fun x hx => ⟨hs.elem x hx, hp.elem x hx⟩) pre ind 0
  · intro m ih hs hp pre ind
    rw [dump, outline]
    exact ih (fun x hx => ⟨hs.value x hx, hp.value x hx⟩) pre ind
  · intro _ pre ind i; rfl
  · intro x r ihx ihr h pre ind i
    obtain ⟨hs, hp⟩ := h x (.head _)
    have ih := ihx hs hp
    have hr := ihr (fun y hy => h y (.tail _ hy)) pre ind (i + 1)
    rw [dumpElems, outlineL]
    rw [shortElem_eq x (hs x .self).1 (hp x .self).2]
    by_cases hx : shortElem x
    · rw [if_pos (decide_eq_true hx), if_pos hx, dump_short f x (.inr hx) (ih _ _)]
      simp [Out.bind, hr, Line.text, decimal_nat]
    · rw [if_neg (by simpa using hx), if_neg hx, ih, flatMap_deeper]
      simp [Out.bind, hr, Line.text, decimal_nat, str]
  · intro _ pre ind; rfl
  · intro k x r ihx ihr h pre ind
    obtain ⟨hs, hp⟩ := h (k, x) (.head _)
    have ih := ihx hs hp
    have hr := ihr (fun y hy => h y (.tail _ hy)) pre ind
    rw [dumpEntries, outlineM]
    have e : x.simple_data = decide (shortValue x) := by
      rw [Bool.eq_iff_iff, simple_data_eq, decide_eq_true_iff]; rfl
    rw [e]
    by_cases hx : shortValue x
    · simp only [if_pos (decide_eq_true hx), if_pos hx, dump_short f x (.inl hx) (ih _ _)]
      cases heading k with
      | none => simp [Out.bind, hr, Line.text]
      | some y => simp [Out.bind, hr, Line.text]
    · simp only [if_neg hx, if_neg (show ¬ decide (shortValue x) = true by simpa using hx), ih, flatMap_deeper]
      cases hk : heading k with
      | none => simp [Out.bind, hr, Line.text, str]
      | some y =>
        obtain ⟨s, u, t⟩ := y
        simp [Out.bind, hr, headLines_eq pre ind indent4 s u t (heading_sharp hk)]

/-- **C53**: print writes the listing of the container, line by line: every value is on its own line, or on the line of
its index or key; what is inside a vector or map follows its index or key, one level deeper; the lines of a matrix
start at the margin.  The text of `indent` is used for the first level only, four blanks for the others.  Containers
with pointers: `C65_base`. -/
theorem C53_print (f : Fmt) (pre ind : Bytes) (g : GC) (hs : SizesOk g) (hp : NoPointers g) :
    dump f pre ind g false = .ok ((outline f g).flatMap (Line.text pre ind indent4), false) :=
  (dump_outline f).1 g hs hp pre ind

/-- A container for the examples. -/
def listed : GC := map [(str "1##-Data", vector [int (-5), vecInt [1, 2], vecString [str "a"], notype]),
  (str "k", bool true), (str "m", matInt ⟨2, 2, [1, 2, 3, 4]⟩)]

theorem listed_inside {x : GC} (h : Inside x listed) : x = listed ∨ x ∈ [vector [int (-5), vecInt [1, 2], vecString [str "a"], notype],
    int (-5), vecInt [1, 2], vecString [str "a"], notype, bool true, matInt ⟨2, 2, [1, 2, 3, 4]⟩] := by
  have leaf : ∀ {x y : GC}, (∀ v, y ≠ vector v) → (∀ m, y ≠ map m) → Inside x y → x = y := by
    intro x y hv hm h
    cases h with
    | self => rfl
    | elem => exact absurd rfl (hv _)
    | value => exact absurd rfl (hm _)
  unfold listed at h ⊢
  cases h with
  | self => exact .inl rfl
  | value hx hi =>
    right
    simp only [List.mem_cons, List.not_mem_nil, or_false, Prod.mk.injEq] at hx
    rcases hx with ⟨rfl, rfl⟩ | ⟨rfl, rfl⟩ | ⟨rfl, rfl⟩
    · cases hi with
      | self => simp
      | elem hx hi =>
        simp only [List.mem_cons, List.not_mem_nil, or_false] at hx
        rcases hx with rfl | rfl | rfl | rfl <;> rw [leaf (by simp) (by simp) hi] <;> simp
    · rw [leaf (by simp) (by simp) hi]; simp
    · rw [leaf (by simp) (by simp) hi]; simp

theorem listed_ok : SizesOk listed ∧ NoPointers listed := by
  constructor <;> intro x hx <;> rcases listed_inside hx with rfl | h
  · exact ⟨rfl, by intro nr nc h; simp [matDims, listed] at h⟩
  · simp only [List.mem_cons, List.not_mem_nil, or_false] at h
    rcases h with rfl | rfl | rfl | rfl | rfl | rfl | rfl <;> refine ⟨by decide, ?_⟩ <;> intro nr nc h <;>
      simp [matDims] at h
    obtain ⟨rfl, rfl⟩ := h; decide
  · simp [listed, ty]
  · simp only [List.mem_cons, List.not_mem_nil, or_false] at h
    rcases h with rfl | rfl | rfl | rfl | rfl | rfl | rfl <;> simp [ty]

example (f : Fmt) : dump f (str "> ") (str "  ") listed false =
    .ok ((outline f listed).flatMap (Line.text (str "> ") (str "  ") indent4), false) :=
  C53_print f _ _ _ listed_ok.1 listed_ok.2

example : dump ⟨fun _ => [], fun _ => []⟩ (str "> ") (str "  ") listed false = .ok (str ("\n> Data\n> ----\n" ++
    ">   0: -5\n>   1: [ 1 2 ]\n>   2:\n>       0: \"a\"\n>   3: null\n" ++
    "> k: true\n> m:\n       1        3\n       2        4\n"), false) := by
  decide +kernel

/-- **C53**: print returns, with or without pointers, whatever the stream does with integers: no exception, no undefined
behaviour, if the matrices are full. -/
theorem C53_returns (f : Fmt) (pre ind : Bytes) (g : GC) (hex : Bool) (hs : SizesOk g) :
    ∃ r, dump f pre ind g hex = .ok r := by
  have mat : ∀ {α : Type} (hex : Bool) (w : Nat) (first next : α → Bytes) (m : Mat α), m.wf = true → m.nr * m.nc < 2 ^ 32 →
      ∃ r, ((matText hex w first next m).bind fun t => Out.ok (t, hex)) = .ok r := by
    intro α hex w first next m h1 h2
    unfold matText
    split
    · obtain ⟨rows, h3, -⟩ := collect_map (fun i => Mat.collect (fun j => m.get i j) m.nc) (fun _ _ => ()) (fun _ => ())
        m.nr (by
          intro i hi
          obtain ⟨l, h4, -⟩ := collect_map (fun j => m.get i j) (fun _ _ => ()) (fun _ => ()) m.nc (by
            intro j hj
            obtain ⟨x, _, h5⟩ := Mat.get_eq h1 h2 hi hj
            exact ⟨x, h5, rfl⟩)
          exact ⟨l, h4, rfl⟩)
      rw [Mat.readRows, h3]; exact ⟨_, rfl⟩
    · exact ⟨_, rfl⟩
  refine (GC.induct (P := fun g => SizesOk g → ∀ pre ind hex, ∃ r, dump f pre ind g hex = .ok r)
    (PL := fun v => (∀ x ∈ v, SizesOk x) → ∀ pre pre2 i hex, ∃ r, dumpElems f pre pre2 i v hex = .ok r)
    (PM := fun m => (∀ kx ∈ m, SizesOk kx.2) → ∀ pre pre2 hex, ∃ r, dumpEntries f pre pre2 m hex = .ok r)
    ?_ ?_ ?_ ?_ ?_ ?_ ?_).1 g hs pre ind hex
  · intro g hv hm hs pre ind hex
    cases g with
    | vector => exact absurd rfl (hv _)
    | map => exact absurd rfl (hm _)
    | matInt m => exact mat _ _ _ _ m (hs _ .self).1 ((hs _ .self).2 _ _ rfl)
    | matLong m => exact mat _ _ _ _ m (hs _ .self).1 ((hs _ .self).2 _ _ rfl)
    | matReal m => exact mat _ _ _ _ m (hs _ .self).1 ((hs _ .self).2 _ _ rfl)
    | matComplex m => exact mat _ _ _ _ m (hs _ .self).1 ((hs _ .self).2 _ _ rfl)
    | _ => exact ⟨_, rfl⟩
  · intro v ih hs pre ind hex; rw [dump]; exact ih hs.elem _ _ _ _
  · intro m ih hs pre ind hex; rw [dump]; exact ih hs.value _ _ _
  · intro _ pre pre2 i hex; exact ⟨_, rfl⟩
  · intro x r ihx ihr h pre pre2 i hex
    rw [dumpElems]
    obtain ⟨a, ha⟩ := ihx (h x (.head _)) [] indent4 hex
    obtain ⟨b, hb⟩ := ihx (h x (.head _)) pre2 indent4 hex
    have hr := ihr fun y hy => h y (.tail _ hy)
    rw [ha, hb]
    split
    · obtain ⟨c, hc⟩ := hr pre pre2 (i + 1) a.2
      simp only [Out.bind, hc]; exact ⟨_, rfl⟩
    · obtain ⟨c, hc⟩ := hr pre pre2 (i + 1) b.2
      simp only [Out.bind, hc]; exact ⟨_, rfl⟩
  · intro _ pre pre2 hex; exact ⟨_, rfl⟩
  · intro k x r ihx ihr h pre pre2 hex
    rw [dumpEntries]
    obtain ⟨a, ha⟩ := ihx (h _ (.head _)) [] indent4 hex
    obtain ⟨b, hb⟩ := ihx (h _ (.head _)) pre2 indent4 hex
    have hr := ihr fun y hy => h y (.tail _ hy)
    rw [ha, hb]
    obtain ⟨c, hc⟩ := hr pre pre2 a.2
    obtain ⟨d, hd⟩ := hr pre pre2 b.2
    cases heading k <;> dsimp only <;> split <;> simp only [Out.bind, hc, hd] <;> exact ⟨_, rfl⟩

example (f : Fmt) : ∃ r, dump f [] [] listed true = .ok r := C53_returns f _ _ _ _ listed_ok.1

/-- **C67** as a user expects it ("nested elements are indented by `indent`") is refuted: below the first level the text
given is ignored. -/
theorem C67_indent_negation : ∃ (g : GC) (text : Bytes), SizesOk g ∧ NoPointers g ∧
    (∀ f, dump f [] (str "\t") g false = .ok (text, false)) ∧
    text = str "a:\n\tb:\n\t    c: 1\n" := by
  refine ⟨map [(str "a", map [(str "b", map [(str "c", int 1)])])], _, ?_, ?_, fun f => ?_, rfl⟩
  rotate_left 2
  · simp only [dump, dumpEntries]
    decide +kernel
  all_goals
    intro x hx
    have : x.ty = .MAP ∨ x = int 1 := by
      cases hx with
      | self => exact .inl rfl
      | value h hx =>
        simp at h; obtain ⟨rfl, rfl⟩ := h
        cases hx with
        | self => exact .inl rfl
        | value h hx =>
          simp at h; obtain ⟨rfl, rfl⟩ := h
          cases hx with
          | self => exact .inl rfl
          | value h hx =>
            simp at h; obtain ⟨rfl, rfl⟩ := h
            cases hx with
            | self => exact .inr rfl
    rcases this with h | rfl
    · cases x <;> simp [ty] at h <;> simp [sizeOk, matDims, ty]
    · simp [sizeOk, matDims, ty]

/-- **C67** as documented ("prefix: string to be prepended to any field") is refuted: the rows of a matrix do not get the
prefix. -/
theorem C67_prefix_negation : ∃ (g : GC) (text : Bytes), SizesOk g ∧ NoPointers g ∧
    (∀ f, dump f (str "> ") indent4 g false = .ok (text, false)) ∧ text = str "       1\n" := by
  refine ⟨matInt ⟨1, 1, [1]⟩, _, ?_, ?_, fun f => rfl, by decide +kernel⟩
  · intro x hx; cases hx; exact ⟨by decide, by intro nr nc h; simp [matDims] at h; obtain ⟨rfl, rfl⟩ := h; decide⟩
  · intro x hx; cases hx; simp [ty]

/-- A way to write numbers, for the example. -/
def fmtDot : Fmt := ⟨fun _ => str "0.5", fun _ => str "0.5"⟩

/-- No line break in the strings, keys and number formats, no matrices, and no key that asks for an empty line. -/
structure OneLiners (f : Fmt) (g : GC) : Prop where
  texts : (∀ r, (10 : Byte) ∉ f.real r) ∧ ∀ r, (10 : Byte) ∉ f.real12 r
  strings : ∀ x, Inside x g → ∀ s, string s ∈ elems x → (10 : Byte) ∉ s
  keys : ∀ m, Inside (map m) g → ∀ kx ∈ m, (10 : Byte) ∉ kx.1 ∧ ∀ u h, heading kx.1 ≠ some (str "##", u, h)
  noMat : ∀ x, Inside x g → matDims x = none

theorem OneLiners.elem {f : Fmt} {v : List GC} (h : OneLiners f (vector v)) : ∀ x ∈ v, OneLiners f x := fun _ hx =>
  ⟨h.texts, fun _ hy => h.strings _ (.elem hx hy), fun _ hy => h.keys _ (.elem hx hy), fun _ hy => h.noMat _ (.elem hx hy)⟩
theorem OneLiners.value {f : Fmt} {m : Entries} (h : OneLiners f (map m)) : ∀ kx ∈ m, OneLiners f kx.2 := fun kx hx =>
  ⟨h.texts, fun _ hy => h.strings _ (.value (k := kx.1) hx hy), fun _ hy => h.keys _ (.value (k := kx.1) hx hy),
    fun _ hy => h.noMat _ (.value (k := kx.1) hx hy)⟩

theorem decimal_no_break (n : Nat) : (10 : Byte) ∉ decimal n := by
  rw [← decimal_nat]
  intro h
  have := (natOut_digits n).2 _ h
  simp at this

theorem decimal_no_break' {w : Nat} (i : BitVec w) : (10 : Byte) ∉ decimal i.toInt := by
  rw [← decimal_int]
  unfold intOut
  rw [if_neg (by simp), ]
  have := decimal_no_break i.toInt.natAbs
  rw [← decimal_nat] at this
  split
  · simp only [List.mem_cons, not_or]; exact ⟨by decide, this⟩
  · exact this

theorem showScalar_no_break {f : Fmt} {g x : GC} (h : OneLiners f g) (hx : x ∈ elems g ∨ x = notype) :
    (10 : Byte) ∉ showScalar f x := by
  have hs := h.strings g .self
  obtain ⟨h1, h2⟩ := h.texts
  cases x with
  | bool b => cases b <;> simp [showScalar] <;> decide
  | int i => simp only [showScalar]; exact decimal_no_break' i
  | long i => simp only [showScalar]; exact decimal_no_break' i
  | real r => exact h1 r
  | complex c =>
    simp only [showScalar, cplxOut]
    have h3 : (10 : Byte) ∉ (if c.im.gtZero = true then 43 :: f.real12 c.im ++ [105] else []) := by
      split
      · simp only [List.mem_cons, List.mem_append, not_or]; exact ⟨⟨by decide, h2 _⟩, by decide⟩
      · exact List.not_mem_nil
    have h4 : (10 : Byte) ∉ (if c.im.ltZero = true then 45 :: f.real12 c.im.neg ++ [105] else []) := by
      split
      · simp only [List.mem_cons, List.mem_append, not_or]; exact ⟨⟨by decide, h2 _⟩, by decide⟩
      · exact List.not_mem_nil
    simp only [List.mem_append, not_or]
    exact ⟨⟨h2 _, h3⟩, h4⟩
  | string s =>
    rcases hx with hx | hx
    · simp only [showScalar, List.mem_cons, List.mem_append, not_or]
      exact ⟨⟨by decide, hs s hx⟩, by decide⟩
    · simp at hx
  | notype => show (10 : Byte) ∉ str "null"; decide
  | _ => simp [showScalar]

theorem showVec_no_break {f : Fmt} {es : List GC} (h : ∀ x ∈ es, (10 : Byte) ∉ showScalar f x) : (10 : Byte) ∉ showVec f es := by
  unfold showVec
  simp only [List.mem_append, List.mem_flatMap, List.mem_cons, not_or, not_exists, not_and]
  refine ⟨⟨by decide, fun x hx => ⟨by decide, h x hx⟩⟩, by decide⟩

theorem showLine_no_break {f : Fmt} {g : GC} (h : OneLiners f g) (hv : ∀ v, g ≠ vector v) (hm : ∀ m, g ≠ map m) :
    (10 : Byte) ∉ showLine f g := by
  unfold showLine
  split
  · exact showVec_no_break fun x hx => showScalar_no_break h (.inl hx)
  · rename_i hsh
    cases g with
    | vector => exact absurd rfl (hv _)
    | map => exact absurd rfl (hm _)
    | notype => exact showScalar_no_break h (.inr rfl)
    | bool => exact showScalar_no_break h (.inl (by simp [elems]))
    | int => exact showScalar_no_break h (.inl (by simp [elems]))
    | long => exact showScalar_no_break h (.inl (by simp [elems]))
    | real => exact showScalar_no_break h (.inl (by simp [elems]))
    | complex => exact showScalar_no_break h (.inl (by simp [elems]))
    | string => exact showScalar_no_break h (.inl (by simp [elems]))
    | _ => simp [showScalar]

/-- A line with a depth and without line breaks in its text. -/
def Line.Tidy (l : Line) : Prop := l.1 ≠ none ∧ (10 : Byte) ∉ l.2

theorem tidy_deeper {l : Line} (h : Line.Tidy l) : Line.Tidy l.deeper := by
  obtain ⟨d, t⟩ := l
  cases d with
  | none => exact absurd rfl h.1
  | some d => exact ⟨by simp [Line.deeper], h.2⟩

theorem mem_heading {k s u h : Bytes} (hk : heading k = some (s, u, h)) (h10 : (10 : Byte) ∉ k) :
    (10 : Byte) ∉ h ∧ (10 : Byte) ∉ u := by
  obtain ⟨w1, d, w2, w3, hn, _⟩ := (heading_iff k s u h).1 hk
  have := hn.eq
  constructor <;> intro h' <;> apply h10 <;> rw [this] <;> simp only [List.mem_append, h', true_or, or_true]

theorem outline_tidy (f : Fmt) : (∀ g, OneLiners f g → ∀ l ∈ outline f g, Line.Tidy l) ∧
    (∀ v, (∀ x ∈ v, OneLiners f x) → ∀ i, ∀ l ∈ outlineL f i v, Line.Tidy l) ∧
    (∀ m : Entries, (∀ kx ∈ m, OneLiners f kx.2 ∧ (10 : Byte) ∉ kx.1 ∧ ∀ u h, heading kx.1 ≠ some (str "##", u, h)) →
      ∀ l ∈ outlineM f m, Line.Tidy l) := by
  refine GC.induct ?_ ?_ ?_ ?_ ?_ ?_ ?_
  · intro g hv hm h l hl
    have hn := h.noMat g .self
    have one : outline f g = [(some 0, showLine f g)] → Line.Tidy l := by
      intro e
      rw [e] at hl
      obtain rfl := List.mem_singleton.1 hl
      exact ⟨by simp, showLine_no_break h hv hm⟩
    cases g with
    | vector => exact absurd rfl (hv _)
    | map => exact absurd rfl (hm _)
    | matInt => simp [matDims] at hn
    | matLong => simp [matDims] at hn
    | matReal => simp [matDims] at hn
    | matComplex => simp [matDims] at hn
    | vecString v =>
      rw [outline] at hl
      obtain ⟨⟨t, i⟩, hi, rfl⟩ := List.mem_map.1 hl
      refine ⟨by simp, ?_⟩
      have : t ∈ v := by
        have := (List.mem_zipIdx' hi).2
        rw [this]; exact List.getElem_mem _
      have h' := h.strings _ .self t (by simp [elems, this])
      have hd := decimal_no_break i
      simp only [List.mem_append, not_or]
      exact ⟨⟨⟨hd, by decide⟩, h'⟩, by decide⟩
    | _ => exact one rfl
  · intro v ih h l hl
    rw [outline] at hl
    exact ih h.elem 0 l hl
  · intro m ih h l hl
    rw [outline] at hl
    exact ih (fun kx hx => ⟨h.value kx hx, h.keys m .self kx hx⟩) l hl
  · intro _ i l hl; simp [outlineL] at hl
  · intro x r ihx ihr h i l hl
    rw [outlineL] at hl
    rcases List.mem_append.1 hl with hl | hl
    · split at hl
      · rename_i hs
        obtain rfl := List.mem_singleton.1 hl
        refine ⟨by simp, ?_⟩
        simp only [List.mem_append, not_or]
        refine ⟨⟨decimal_no_break i, by decide⟩, showLine_no_break (h x (.head _)) ?_ ?_⟩ <;>
          · rintro v rfl; simp [shortElem, single, ty] at hs
      · rcases List.mem_cons.1 hl with rfl | hl
        · refine ⟨by simp, ?_⟩
          simp only [List.mem_append, not_or]
          exact ⟨decimal_no_break i, by decide⟩
        · obtain ⟨l', hl', rfl⟩ := List.mem_map.1 hl
          exact tidy_deeper (ihx (h x (.head _)) l' hl')
    · exact ihr (fun y hy => h y (.tail _ hy)) _ l hl
  · intro _ l hl; simp [outlineM] at hl
  · intro k x r ihx ihr h l hl
    obtain ⟨h1, h2, h3⟩ := h (k, x) (.head _)
    rw [outlineM] at hl
    have hs : shortValue x → (10 : Byte) ∉ showLine f x := fun hs =>
      showLine_no_break h1 (by rintro v rfl; simp [shortValue, single, ty] at hs)
        (by rintro v rfl; simp [shortValue, single, ty] at hs)
    rcases List.mem_append.1 hl with hl | hl
    · cases hk : heading k with
      | none =>
        simp only [hk] at hl
        split at hl
        · rename_i hx
          obtain rfl := List.mem_singleton.1 hl
          refine ⟨by simp, ?_⟩
          simp only [List.mem_append, not_or]
          exact ⟨⟨h2, by decide⟩, hs hx⟩
        · rcases List.mem_cons.1 hl with rfl | hl
          · refine ⟨by simp, ?_⟩
            simp only [List.mem_append, not_or]
            exact ⟨h2, by decide⟩
          · obtain ⟨l', hl', rfl⟩ := List.mem_map.1 hl
            exact tidy_deeper (ihx h1 l' hl')
      | some y =>
        obtain ⟨s, u, t⟩ := y
        obtain ⟨h4, h5⟩ := mem_heading hk h2
        simp only [hk] at hl
        split at hl
        · rename_i hx
          obtain rfl := List.mem_singleton.1 hl
          refine ⟨by simp, ?_⟩
          simp only [List.mem_append, not_or]
          exact ⟨⟨h4, by decide⟩, hs hx⟩
        · rcases List.mem_append.1 hl with hl | hl
          · unfold headOutline at hl
            rw [if_neg (by rintro rfl; exact h3 u t hk)] at hl
            cases u with
            | nil =>
              obtain rfl := List.mem_singleton.1 hl
              refine ⟨by simp, ?_⟩
              simp only [List.mem_append, not_or]
              exact ⟨h4, by decide⟩
            | cons c u =>
              simp at hl
              rcases hl with rfl | rfl
              · exact ⟨by simp, h4⟩
              · refine ⟨by simp, ?_⟩
                intro h'
                have := (List.mem_replicate.1 h').2
                exact h5 (by rw [this]; exact .head _)
          · obtain ⟨l', hl', rfl⟩ := List.mem_map.1 hl
            exact tidy_deeper (ihx h1 l' hl')
    · exact ihr (fun y hy => h y (.tail _ hy)) l hl

/-- **C67**: every line printed starts with the prefix.  Partial: no pointers, no matrices (`C67_prefix_negation`), no
line breaks inside strings and keys. -/
theorem C67_prefix_partial (f : Fmt) (pre ind : Bytes) (g : GC) (hs : SizesOk g) (hp : NoPointers g) (ho : OneLiners f g)
    (hi : (10 : Byte) ∉ ind) : ∃ lines : List Bytes, (∀ l ∈ lines, (10 : Byte) ∉ l) ∧
      dump f pre ind g false = .ok (lines.flatMap fun l => pre ++ l ++ [10], false) := by
  have ht := (outline_tidy f).1 g ho
  rw [C53_print f pre ind g hs hp]
  generalize outline f g = ls at ht
  have : ∃ lines : List Bytes, (∀ l ∈ lines, (10 : Byte) ∉ l) ∧
      ls.flatMap (Line.text pre ind indent4) = lines.flatMap fun l => pre ++ l ++ [10] := by
    induction ls with
    | nil => exact ⟨[], by simp, rfl⟩
    | cons l ls ih =>
      obtain ⟨lines, h1, h2⟩ := ih fun l hl => ht l (.tail _ hl)
      obtain ⟨h3, h4⟩ := ht l (.head _)
      obtain ⟨d, t⟩ := l
      cases d with
      | none => exact absurd rfl h3
      | some d =>
        cases d with
        | zero => exact ⟨t :: lines, by simpa using ⟨h4, h1⟩, by simp [Line.text, h2]⟩
        | succ d =>
          refine ⟨(ind ++ (List.replicate d indent4).flatten ++ t) :: lines, ?_, by simp [Line.text, h2]⟩
          intro l hl
          rcases List.mem_cons.1 hl with rfl | hl
          · simp only [List.mem_append, List.mem_flatten, List.mem_replicate, not_or, not_exists, not_and]
            refine ⟨⟨hi, ?_⟩, h4⟩
            rintro x ⟨_, rfl⟩; decide
          · exact h1 l hl
  obtain ⟨lines, h1, h2⟩ := this
  exact ⟨lines, h1, by rw [h2]⟩

example : SizesOk (vector [int 1, string (str "a")]) ∧ NoPointers (vector [int 1, string (str "a")]) ∧
    OneLiners fmtDot (vector [int 1, string (str "a")]) := by
  have h : ∀ x, Inside x (vector [int 1, string (str "a")]) →
      x = vector [int 1, string (str "a")] ∨ x = int 1 ∨ x = string (str "a") := by
    intro x hx
    cases hx with
    | self => exact .inl rfl
    | elem h hx =>
      simp at h
      rcases h with rfl | rfl <;> cases hx <;> simp
  refine ⟨fun x hx => ?_, fun x hx => ?_, ⟨fun _ => by show (10 : Byte) ∉ str "0.5"; decide, fun _ => by show (10 : Byte) ∉ str "0.5"; decide⟩, fun x hx => ?_, fun m hx => ?_, fun x hx => ?_⟩
  · rcases h x hx with rfl | rfl | rfl <;> exact ⟨by decide, by simp [matDims]⟩
  · rcases h x hx with rfl | rfl | rfl <;> simp [ty]
  · rcases h x hx with rfl | rfl | rfl <;> intro s hs <;> simp [elems] at hs <;> subst hs <;> decide
  · rcases h _ hx with h | h | h <;> cases h
  · rcases h x hx with rfl | rfl | rfl <;> rfl

/-! ## Keys with a number -/

/-- **C63**: a key is shown as a heading exactly if it has the form of a numbered key (`1#text`, `02##=text`, ...). -/
theorem C63_heading_iff (k : Bytes) : (heading k).isSome = true ↔ ∃ w1 d w2 s u w3 h, Numbered k w1 d w2 s u w3 h := by
  rw [Option.isSome_iff_ne_none, Ne, heading_none, Classical.not_not]

/-- **C63**: what is shown of a numbered key is the text after the number, the `#`, the underline character and the
blanks. -/
theorem C63_heading (k s u h : Bytes) : heading k = some (s, u, h) ↔
    ∃ w1 d w2 w3, Numbered k w1 d w2 s u w3 h ∧ Greedy s u w3 h := heading_iff k s u h

example : heading (str " 12 ##=  A title") = some (str "##", str "=", str "A title") := by decide +kernel
example : heading (str "a1#x") = none := by decide +kernel

/-! ## Types -/

theorem typeOutline_line (g : GC) (h : shortType g) : printTypes false [] indent4 g = typeLine g ++ [10] := by
  cases g <;> simp [shortType, single, shape, ty] at h <;>
    simp [printTypes, typeLine, typeTitle, ty, matDims, shape, sizeText, decimal_nat, elems, str]

/-- **C64**: print_content_types writes the types in the container, line by line, with the sizes of vectors and
matrices; what is inside a vector or map follows its index or key, one level deeper.  Vectors of strings and matrices
start at the margin. -/
theorem C64_types (pre ind : Bytes) (g : GC) :
    printTypes false pre ind g = (typeOutline g).flatMap (Line.text pre ind ind) := by
  refine (GC.induct (P := fun g => ∀ pre, printTypes false pre ind g = (typeOutline g).flatMap (Line.text pre ind ind))
    (PL := fun v => ∀ pre i, printTypesElems false pre ind i v = (typeOutlineL i v).flatMap (Line.text pre ind ind))
    (PM := fun m => ∀ pre, printTypesEntries false pre ind m = (typeOutlineM m).flatMap (Line.text pre ind ind))
    ?_ ?_ ?_ ?_ ?_ ?_ ?_).1 g pre
  · intro g hv hm pre
    cases g <;> first
      | exact absurd rfl (hv _)
      | exact absurd rfl (hm _)
      | simp [printTypes, typeOutline, typeLine, typeTitle, ty, matDims, shape, sizeText, dimsText, decimal_nat, elems, str,
          Line.text]
  · intro v ih pre; rw [printTypes, typeOutline, ih]
  · intro m ih pre; rw [printTypes, typeOutline, ih]
  · intro pre i; rfl
  · intro x r ihx ihr pre i
    rw [printTypesElems, typeOutlineL, shortType_eq, ihr]
    by_cases hx : shortType x
    · rw [if_pos (decide_eq_true hx), if_pos hx, typeOutline_line x hx]
      simp [Line.text, decimal_nat]
    · rw [if_neg (by simpa using hx), if_neg hx, ihx, flatMap_deeper]
      simp [Line.text, decimal_nat, str]
  · intro pre; rfl
  · intro k x r ihx ihr pre
    rw [printTypesEntries, typeOutlineM, shortType_eq, ihr]
    by_cases hx : shortType x
    · simp only [if_pos (decide_eq_true hx), if_pos hx, typeOutline_line x hx]
      cases heading k <;> simp [Line.text]
    · simp only [if_neg hx, if_neg (show ¬ decide (shortType x) = true by simpa using hx), ihx, flatMap_deeper]
      cases hk : heading k with
      | none => simp [Line.text, str]
      | some y =>
        obtain ⟨s, u, t⟩ := y
        simp [headLines_eq pre ind ind s u t (heading_sharp hk)]

example : printTypes false [] (str "  ") listed = str
    "\nData\n----\n  0: int\n  1: vector of int[2]\n  2:\nvector of string[1]\n  3: Empty!\nk: bool\nm:\nmatrix of int[2,2]\n" := by
  decide +kernel

theorem sameTypes_short {a b : GC} (h : SameTypes a b) : a.simple_data = b.simple_data ∧ a.simple_vec_data = b.simple_vec_data := by
  have : a.ty = b.ty := by cases h <;> first | assumption | rfl
  simp [simple_data, simple_vec_data, this]

/-- **C64**: print_content_types shows types, keys and sizes only: containers that differ in the values stored have the
same listing. -/
theorem C64_no_values (hex : Bool) (pre ind : Bytes) (a b : GC) (h : SameTypes a b) :
    printTypes hex pre ind a = printTypes hex pre ind b := by
  refine (GC.induct (P := fun a => ∀ b, SameTypes a b → ∀ pre ind, printTypes hex pre ind a = printTypes hex pre ind b)
    (PL := fun v => ∀ w : List GC, v.length = w.length →
      (∀ (i : Nat) x y, v[i]? = some x → w[i]? = some y → SameTypes x y) →
      ∀ pre ind i, printTypesElems hex pre ind i v = printTypesElems hex pre ind i w)
    (PM := fun m => ∀ n : Entries, m.map Prod.fst = n.map Prod.fst →
      (∀ (i : Nat) k x l y, m[i]? = some (k, x) → n[i]? = some (l, y) → SameTypes x y) →
      ∀ pre ind, printTypesEntries hex pre ind m = printTypesEntries hex pre ind n)
    ?_ ?_ ?_ ?_ ?_ ?_ ?_).1 a b h pre ind
  · intro a hv hm b h pre ind
    cases h with
    | vec => exact absurd rfl (hv _)
    | map => exact absurd rfl (hm _)
    | leaf ht _ _ hl hd =>
      cases a <;> cases b <;> simp [ty] at ht <;> simp_all [printTypes, elems, matDims]
  · intro v ih b h pre ind
    cases h with
    | leaf _ h => exact absurd rfl h
    | vec hl h => rw [printTypes, printTypes, ih _ hl h]
  · intro v ih b h pre ind
    cases h with
    | leaf _ _ h => exact absurd rfl h
    | map hl h => rw [printTypes, printTypes, ih _ hl h]
  · intro w hl h pre ind i
    cases w with
    | nil => rfl
    | cons => simp at hl
  · intro x r ihx ihr w hl h pre ind i
    cases w with
    | nil => simp at hl
    | cons y w =>
      have hxy := h 0 x y rfl rfl
      rw [printTypesElems, printTypesElems, (sameTypes_short hxy).1, (sameTypes_short hxy).2, ihx y hxy, ihx y hxy,
        ihr w (by simpa using hl) (fun i a b ha hb => h (i + 1) a b ha hb)]
  · intro n hl h pre ind
    cases n with
    | nil => rfl
    | cons => simp at hl
  · intro k x r ihx ihr n hl h pre ind
    cases n with
    | nil => simp at hl
    | cons ly n =>
      obtain ⟨l, y⟩ := ly
      simp only [List.map_cons, List.cons.injEq] at hl
      obtain ⟨rfl, hl⟩ := hl
      have hxy := h 0 k x k y rfl rfl
      rw [printTypesEntries, printTypesEntries, (sameTypes_short hxy).1, (sameTypes_short hxy).2, ihx y hxy, ihx y hxy,
        ihr n hl (fun i k a l b ha hb => h (i + 1) k a l b ha hb)]

example : SameTypes (vector [int 1, vecReal [.zero]]) (vector [int 2, vecReal [⟨5⟩]]) := by
  refine .vec rfl fun i x y hx hy => ?_
  match i with
  | 0 => cases hx; cases hy; exact .leaf rfl (by simp [ty]) (by simp [ty]) rfl rfl
  | 1 => cases hx; cases hy; exact .leaf rfl (by simp [ty]) (by simp [ty]) rfl rfl
  | n + 2 => simp at hx

/-- **C64** does not go the other way (the listing does not tell the containers apart): a vector and a map with the keys 0, 1, ... have the same listing, and an empty
vector and an empty map have none. -/
theorem C64_not_injective :
    printTypes false [] indent4 (vector [int 1]) = printTypes false [] indent4 (map [(str "0", int 1)]) ∧
    printTypes false [] indent4 (vector []) = [] ∧ printTypes false [] indent4 (map []) = [] := by decide +kernel

/-! ## The stream -/

/-- **C65**: after print the stream writes integers in base 16 exactly if it did before or there is a pointer in the
container. -/
theorem C65_base (f : Fmt) (pre ind t : Bytes) (g : GC) (hex hex' : Bool) (h : dump f pre ind g hex = .ok (t, hex')) :
    hex' = true ↔ hex = true ∨ HasPointer g := by
  have leaf : ∀ g : GC, (∀ v, g ≠ vector v) → (∀ m, g ≠ map m) → (HasPointer g ↔ ∃ p, pointer p ∈ elems g) := by
    intro g hv hm
    constructor
    · rintro ⟨x, hx, p, hp⟩
      cases hx with
      | self => exact ⟨p, hp⟩
      | elem => exact absurd rfl (hv _)
      | value => exact absurd rfl (hm _)
    · rintro ⟨p, hp⟩; exact ⟨g, .self, p, hp⟩
  have bind2 : ∀ {o : Out (Bytes × Bool)} {F : Bytes × Bool → Out (Bytes × Bool)} {r}, o.bind F = .ok r →
      ∃ a, o = .ok a ∧ F a = .ok r := by
    intro o F r h
    cases o <;> simp [Out.bind] at h
    exact ⟨_, rfl, h⟩
  refine (GC.induct (P := fun g => ∀ pre ind hex t hex', dump f pre ind g hex = .ok (t, hex') →
      (hex' = true ↔ hex = true ∨ HasPointer g))
    (PL := fun v => ∀ pre pre2 i hex t hex', dumpElems f pre pre2 i v hex = .ok (t, hex') →
      (hex' = true ↔ hex = true ∨ ∃ x ∈ v, HasPointer x))
    (PM := fun m => ∀ pre pre2 hex t hex', dumpEntries f pre pre2 m hex = .ok (t, hex') →
      (hex' = true ↔ hex = true ∨ ∃ kx ∈ m, HasPointer kx.2))
    ?_ ?_ ?_ ?_ ?_ ?_ ?_).1 g pre ind hex t hex' h
  · intro g hv hm pre ind hex t hex' h
    rw [leaf g hv hm]
    have mat : ∀ (o : Out Bytes), (o.bind fun t => Out.ok (t, hex)) = .ok (t, hex') → hex' = hex := by
      intro o h; cases o <;> simp [Out.bind] at h; exact h.2.symm
    cases g with
    | vector => exact absurd rfl (hv _)
    | map => exact absurd rfl (hm _)
    | matInt m => rw [dump] at h; rw [mat _ h]; simp [elems]
    | matLong m => rw [dump] at h; rw [mat _ h]; simp [elems]
    | matReal m => rw [dump] at h; rw [mat _ h]; simp [elems]
    | matComplex m => rw [dump] at h; rw [mat _ h]; simp [elems]
    | vecPointer v =>
      simp [dump] at h; rw [← h.2]
      cases v <;> simp [elems]
    | _ => simp [dump] at h; obtain ⟨_, rfl⟩ := h; simp [elems]
  · intro v ih pre ind hex t hex' h
    rw [dump] at h
    rw [ih _ _ _ _ _ _ h]
    refine or_congr_right ⟨?_, ?_⟩
    · rintro ⟨x, hx, y, hy, hp⟩; exact ⟨y, .elem hx hy, hp⟩
    · rintro ⟨y, hy, p, hp⟩
      cases hy with
      | self => exact ⟨_, hp, _, .self, p, by simp [elems]⟩
      | elem hx hy => exact ⟨_, hx, y, hy, p, hp⟩
  · intro m ih pre ind hex t hex' h
    rw [dump] at h
    rw [ih _ _ _ _ _ h]
    refine or_congr_right ⟨?_, ?_⟩
    · rintro ⟨x, hx, y, hy, hp⟩; exact ⟨y, .value (k := x.1) hx hy, hp⟩
    · rintro ⟨y, hy, p, hp⟩
      cases hy with
      | self => simp [elems] at hp
      | value hx hy => exact ⟨_, hx, y, hy, p, hp⟩
  · intro pre pre2 i hex t hex' h
    simp [dumpElems] at h; simp [h.2]
  · intro x r ihx ihr pre pre2 i hex t hex' h
    rw [dumpElems] at h
    obtain ⟨a, h1, h2⟩ := bind2 h
    obtain ⟨b, h3, h4⟩ := bind2 h2
    simp only [Out.ok.injEq, Prod.mk.injEq] at h4
    have hb := ihr _ _ _ _ _ _ h3
    rw [← h4.2, hb]
    have ha : a.2 = true ↔ hex = true ∨ HasPointer x := by
      split at h1 <;> obtain ⟨c, h5, h6⟩ := bind2 h1 <;> simp only [Out.ok.injEq] at h6 <;> rw [← h6] <;> exact ihx _ _ _ _ _ h5
    rw [ha]; simp [or_assoc]
  · intro pre pre2 hex t hex' h
    simp [dumpEntries] at h; simp [h.2]
  · intro k x r ihx ihr pre pre2 hex t hex' h
    rw [dumpEntries] at h
    obtain ⟨a, h1, h2⟩ := bind2 h
    obtain ⟨b, h3, h4⟩ := bind2 h2
    simp only [Out.ok.injEq, Prod.mk.injEq] at h4
    have hb := ihr _ _ _ _ _ h3
    rw [← h4.2, hb]
    have ha : a.2 = true ↔ hex = true ∨ HasPointer x := by
      split at h1 <;> split at h1 <;> obtain ⟨c, h5, h6⟩ := bind2 h1 <;> simp only [Out.ok.injEq] at h6 <;> rw [← h6] <;>
        exact ihx _ _ _ _ _ h5
    rw [ha]; simp [or_assoc]

example : dump ⟨fun _ => [], fun _ => []⟩ [] [] (vector [pointer 16, int 255]) false = .ok (str "0: 0x10\n0x1: 0xff\n", true) := by
  decide +kernel

/-- **C68** as a user expects it ("printing a container does not change how the stream writes other numbers", and so
twice the same text for the same container) is refuted: after a pointer the integers that follow are in base 16, those of
the same container and those printed later. -/
theorem C68_same_text_negation : ∃ (g : GC) (t1 t2 : Bytes), (∀ f, dump f [] indent4 g false = .ok (t1, true)) ∧
    (∀ f, dump f [] indent4 g true = .ok (t2, true)) ∧ t1 ≠ t2 ∧ t1 = str "a: 10\np: 0x10\nz: 0xff\n" := by
  refine ⟨map [(str "a", int 10), (str "p", pointer 16), (str "z", int 255)], _, str "a: 0xa\np: 0x10\nz: 0xff\n", fun f => ?_, fun f => ?_, by decide +kernel, rfl⟩ <;>
  · simp only [dump, dumpEntries]
    decide +kernel

/-- **C68**: printed again on the same stream the container gives the same text.  Partial: no pointers. -/
theorem C68_same_text_partial (f : Fmt) (pre ind t1 t2 : Bytes) (g : GC) (h1 h2 : Bool) (hp : ¬ HasPointer g)
    (e1 : dump f pre ind g false = .ok (t1, h1)) (e2 : dump f pre ind g h1 = .ok (t2, h2)) : t1 = t2 ∧ h2 = false := by
  have b1 := C65_base f pre ind t1 g false h1 e1
  cases h1 with
  | true => exact absurd (b1.1 rfl) (by simpa using hp)
  | false =>
    rw [e1] at e2
    simp only [Out.ok.injEq, Prod.mk.injEq] at e2
    exact ⟨e2.1, e2.2.symm⟩

/-! ## info -/

/-- What `info` says of a type. -/
def infoTitle : Ty → Bytes
  | .NOTYPE => str "GenericContainer: No data stored"
  | .POINTER => str "Generic pointer: "
  | .BOOL => str "Boolean: "
  | .INTEGER => str "Integer: "
  | .LONG => str "Long: "
  | .REAL => str "Floating Point: "
  | .COMPLEX => str "Complex Floating Point: "
  | .STRING => str "String: "
  | .VEC_POINTER => str "Vector of generic pointer of size "
  | .VEC_BOOL => str "Vector of boolean of size "
  | .VEC_INTEGER => str "Vector of integer of size "
  | .VEC_LONG => str "Vector of long integer of size "
  | .VEC_REAL => str "Vector of floating point number of size "
  | .VEC_COMPLEX => str "Vector of complex floating point number of size "
  | .VEC_STRING => str "Vector of string of size "
  | .MAT_INTEGER | .MAT_LONG | .MAT_REAL | .MAT_COMPLEX => str "Matrix of floating point number of size "
  | .VECTOR => str "Vector of generic data type of size "
  | .MAP => str "Map"

/-- **C66**: info writes one line with the title of the type and, for a scalar, the value, for a vector, the number of
its elements, for a matrix, rows and columns; a string up to its first NUL. -/
theorem C66_info (f : Fmt) (g : GC) : info f false g = infoTitle g.ty ++
    (match g with
     | notype | map _ => []
     | pointer p => natOut true p.toNat
     | string s => s.takeWhile (· ≠ 0)
     | g => match matDims g with
       | some (nr, nc) => decimal nr ++ str " x " ++ decimal nc
       | none => if single g.ty then showScalar f g else decimal (elems g).length) ++ [10] := by
  cases g <;>
    simp [info, infoTitle, ty, matDims, single, elems, decimal_nat, decimal_int, showScalar, boolOut, matInfo, str, cstr]

/-- The types. -/
def allTypes : List Ty := [.NOTYPE, .POINTER, .BOOL, .INTEGER, .LONG, .REAL, .COMPLEX, .STRING, .VEC_POINTER, .VEC_BOOL,
  .VEC_INTEGER, .VEC_LONG, .VEC_REAL, .VEC_COMPLEX, .VEC_STRING, .MAT_INTEGER, .MAT_LONG, .MAT_REAL, .MAT_COMPLEX, .VECTOR,
  .MAP]

theorem mem_allTypes (t : Ty) : t ∈ allTypes := by cases t <;> decide

/-- **C66**: info tells any two types apart except those of the four matrices: one says nothing of the other. -/
theorem C66_titles (s t : Ty) (h : infoTitle s = infoTitle t) : s = t ∨ (shape s = 2 ∧ shape t = 2) := by
  have : ∀ s ∈ allTypes, ∀ t ∈ allTypes, infoTitle s = infoTitle t → s = t ∨ (shape s = 2 ∧ shape t = 2) := by
    decide +kernel
  exact this s (mem_allTypes s) t (mem_allTypes t) h

/-- **C66**: the matrices are not told apart: a matrix of integers is reported as a matrix of
floating point numbers. -/
theorem C66_matrices_alike (f : Fmt) : info f false (matInt ⟨1, 1, [1]⟩) = info f false (matReal ⟨1, 1, [.zero]⟩) := rfl

end GC
end GCV
