import Verif.Spec.TomlExact
import Verif.Props.DocsExact
import Verif.Props.TomlWrite

/-!
# C108: exactly what comes back after to_toml and from_toml
-/

namespace GCV
namespace GC

theorem toTomlL_kinds (hex : Ptr → Bytes) : ∀ (v : List GC) (l : List Toml), toTomlL hex v = .ok l →
    tomlStrings l = allTexts hex v ∧ (tomlInts l).map (·.map low) = allWholes v ∧ tomlFloats l = allReals v ∧
      l.length = v.length
  | [], l, h => by cases h; exact ⟨rfl, rfl, rfl, rfl⟩
  | x :: r, l, h => by
    rw [toTomlL] at h
    have key : ∀ d, GC_to_TOML hex x = .ok (some d) → ∃ l', toTomlL hex r = .ok l' ∧ l = d :: l' := by
      intro d hd
      rw [hd] at h
      simp only [Out.bind] at h
      cases hr : toTomlL hex r with
      | ok l' => rw [hr] at h; simp only [Out.ok.injEq] at h; exact ⟨l', rfl, h.symm⟩
      | _ => rw [hr] at h; cases h
    have fin : ∀ d l', toTomlL hex r = .ok l' → l = d :: l' →
        (tomlStrings (d :: l') = allTexts hex (x :: r) ∧ (tomlInts (d :: l')).map (·.map low) = allWholes (x :: r) ∧
          tomlFloats (d :: l') = allReals (x :: r)) →
        tomlStrings l = allTexts hex (x :: r) ∧ (tomlInts l).map (·.map low) = allWholes (x :: r) ∧
          tomlFloats l = allReals (x :: r) ∧ l.length = (x :: r).length := by
      rintro d l' h1 rfl ⟨h2, h3, h4⟩
      exact ⟨h2, h3, h4, by simp [(toTomlL_kinds hex r l' h1).2.2.2]⟩
    have hlow : ∀ i : I32, low (i.signExtend 64) = i := by
      intro i
      unfold low
      rw [BitVec.toInt_signExtend_of_le (by omega)]
      exact BitVec.ofInt_toInt
    have hmap : ∀ (o : Option (List I64)) (n : I64), (o.map (n :: ·)).map (·.map low) = (o.map (·.map low)).map (low n :: ·) := by
      intro o n; cases o <;> rfl
    cases x with
    | notype => cases h
    | vector v =>
      cases hv : toTomlL hex v with
      | ok lv =>
        obtain ⟨l', h1, h2⟩ := key (.arr lv) (by rw [GC_to_TOML, hv]; rfl)
        exact fin _ l' h1 h2 ⟨rfl, rfl, rfl⟩
      | _ => rw [GC_to_TOML, hv] at h; cases h
    | map m =>
      cases hv : toTomlM hex m with
      | ok lv =>
        obtain ⟨l', h1, h2⟩ := key (.table lv) (by rw [GC_to_TOML, hv]; rfl)
        exact fin _ l' h1 h2 ⟨rfl, rfl, rfl⟩
      | _ => rw [GC_to_TOML, hv] at h; cases h
    | int i =>
      obtain ⟨l', h1, h2⟩ := key _ rfl
      obtain ⟨i1, i2, i3, -⟩ := toTomlL_kinds hex r l' h1
      exact fin _ l' h1 h2 ⟨rfl, by rw [tomlInts, hmap, i2, hlow]; rfl, rfl⟩
    | long i =>
      obtain ⟨l', h1, h2⟩ := key _ rfl
      obtain ⟨i1, i2, i3, -⟩ := toTomlL_kinds hex r l' h1
      exact fin _ l' h1 h2 ⟨rfl, by rw [tomlInts, hmap, i2]; rfl, rfl⟩
    | real i =>
      obtain ⟨l', h1, h2⟩ := key _ rfl
      obtain ⟨i1, i2, i3, -⟩ := toTomlL_kinds hex r l' h1
      exact fin _ l' h1 h2 ⟨rfl, rfl, by rw [tomlFloats, i3]; rfl⟩
    | string i =>
      obtain ⟨l', h1, h2⟩ := key _ rfl
      obtain ⟨i1, i2, i3, -⟩ := toTomlL_kinds hex r l' h1
      exact fin _ l' h1 h2 ⟨by rw [tomlStrings, i1]; rfl, rfl, rfl⟩
    | pointer i =>
      obtain ⟨l', h1, h2⟩ := key _ rfl
      obtain ⟨i1, i2, i3, -⟩ := toTomlL_kinds hex r l' h1
      exact fin _ l' h1 h2 ⟨by rw [tomlStrings, i1]; rfl, rfl, rfl⟩
    | _ =>
      obtain ⟨l', h1, h2⟩ := key _ rfl
      exact fin _ l' h1 h2 ⟨rfl, rfl, rfl⟩
termination_by structural v => v

/-- The vectors of scalars. -/
theorem arr_back {α : Type} (v : List α) (f : α → Toml) (b : α → GC) (hb : ∀ x, tomlOver (f x) notype = b x) :
    tomlOvers (v.map f) [] = v.map b := by
  induction v with
  | nil => rfl
  | cons x r ih => rw [List.map_cons, tomlOvers, List.headD_nil, List.tail_nil, ih, hb]; rfl

theorem sized_scalars {α : Type} (v : List α) (f : α → Toml) (h : ∀ x, (f x).sized = true) : Toml.sizedL (v.map f) = true := by
  induction v with
  | nil => rfl
  | cons x r ih => rw [List.map_cons, Toml.sizedL, h, ih]; rfl

theorem strs_strings (v : List Bytes) : tomlStrings (v.map .str) = some v := by
  induction v with
  | nil => rfl
  | cons x r ih => rw [List.map_cons, tomlStrings, ih]; rfl

theorem ints_ints (v : List I64) : tomlInts (v.map .int) = some v := by
  induction v with
  | nil => rfl
  | cons x r ih => rw [List.map_cons, tomlInts, ih]; rfl

theorem floats_floats (v : List F64) : tomlFloats (v.map .float) = some v := by
  induction v with
  | nil => rfl
  | cons x r ih => rw [List.map_cons, tomlFloats, ih]; rfl

theorem back_strs (v : List Bytes) : tomlOver (.arr (v.map .str)) notype = vecString v := by
  rw [tomlOver, tomlArray, strs_strings]; simp [stringsOf]

theorem back_ints (v : List I64) : tomlOver (.arr (v.map .int)) notype = orEmpty v (vecInt (v.map low)) := by
  rw [tomlOver, tomlArray, ints_ints]
  cases v with
  | nil => rfl
  | cons x r => rfl

theorem back_floats (v : List F64) : tomlOver (.arr (v.map .float)) notype = orEmpty v (vecReal v) := by
  rw [tomlOver, tomlArray, floats_floats]
  cases v with
  | nil => rfl
  | cons x r => rfl

theorem back_signs (v : List I32) : tomlOver (.arr (v.map fun i => .int (i.signExtend 64))) notype = orEmpty v (vecInt v) := by
  have := back_ints (v.map fun i => i.signExtend 64)
  rw [List.map_map, List.map_map] at this
  rw [show (v.map fun i => Toml.int (i.signExtend 64)) = v.map (Toml.int ∘ fun i => i.signExtend 64) from rfl, this]
  unfold orEmpty
  have e : v.map (low ∘ fun i => i.signExtend 64) = v := by
    have : ∀ i : I32, low (i.signExtend 64) = i := by
      intro i
      unfold low
      rw [BitVec.toInt_signExtend_of_le (by omega)]
      exact BitVec.ofInt_toInt
    simp [Function.comp_def, this]
  rw [e]
  simp

theorem back_bools (v : List Bool) : tomlOver (.arr (v.map .bool)) notype = orEmpty v (vector (v.map bool)) := by
  rw [tomlOver, tomlArray, show itemsOf notype = [] from rfl, arr_back v _ bool fun _ => rfl]
  cases v with
  | nil => rfl
  | cons x r => rfl

theorem back_complexes (v : List Cplx) :
    tomlOver (.arr (v.map tomlComplex)) notype = orEmpty v (vector (v.map fun c => vecReal [c.re, c.im])) := by
  rw [tomlOver, tomlArray, show itemsOf notype = [] from rfl, arr_back v _ (fun c => vecReal [c.re, c.im]) fun _ => rfl]
  cases v with
  | nil => rfl
  | cons x r => rfl

/-- What is asked: nothing empty inside, vectors of less than 2^32 elements, full matrices. -/
def tomlFit (x : GC) : Bool := sizeOk x && decide (x.ty ≠ .NOTYPE)

theorem wf_length {α : Type} {m : Mat α} (h : m.wf = true) : m.data.length < 2 ^ 32 := by
  simp only [Mat.wf, Bool.and_eq_true, decide_eq_true_eq] at h
  omega

theorem mfind_after {k : Bytes} {m : Entries} (h : ∀ e ∈ m, strLT e.1 k) : mfind k m = none := by
  cases hf : mfind k m with
  | none => rfl
  | some x => exact absurd (h _ (mem_of_mfind hf)) (strLT_irrefl _)

theorem sized_mat1 {α : Type} (name k : Bytes) (m : Mat α) (d : Toml) : (tomlMat name m [(k, d)]).sized = d.sized := by
  simp [tomlMat, Toml.sized, Toml.sizedM]

theorem sized_mat2 {α : Type} (name k k' : Bytes) (m : Mat α) (d d' : Toml) :
    (tomlMat name m [(k, d), (k', d')]).sized = (d.sized && d'.sized) := by
  simp [tomlMat, Toml.sized, Toml.sizedM]

theorem dims_after (a : Entries) (n1 n2 : I64) (h : ∀ e ∈ a, strLT e.1 (str "$ncols")) :
    tomlOverMembers [(str "$ncols", .int n1), (str "$nrows", .int n2)] a =
      a ++ [(str "$ncols", whole n1), (str "$nrows", whole n2)] := by
  have h2 : ∀ e ∈ a ++ [(str "$ncols", whole n1)], strLT e.1 (str "$nrows") := by
    intro e he
    rcases List.mem_append.1 he with he | he
    · exact strLT_trans (h e he) ((blt_iff _ _).1 (by decide +kernel))
    · rw [List.mem_singleton] at he; subst he
      exact (blt_iff _ _).1 (show blt (str "$ncols") (str "$nrows") = true by decide +kernel)
  rw [tomlOverMembers, tomlOverMembers, tomlOverMembers, mfind_after h, mset_append h]
  rw [show tomlOver (.int n1) ((none : Option GC).getD notype) = whole n1 from rfl, mfind_after h2, mset_append h2]
  simp [tomlOver]

theorem back_mat1 {α : Type} {k : Bytes} (name : Bytes) (hk : strLT k (str "$ncols")) (m : Mat α) (d : Toml) :
    tomlOver (tomlMat name m [(k, d)]) notype = matBack name m [(k, tomlOver d notype)] := by
  have e : tomlOverMembers [(str "$ncols", .int (BitVec.ofNat 64 m.nc)), (str "$nrows", .int (BitVec.ofNat 64 m.nr))]
      [(k, tomlOver d notype)] = _ := dims_after _ _ _ (by intro e he; rw [List.mem_singleton] at he; subst he; exact hk)
  show GC.map [(name, GC.map (tomlOverMembers _ [(k, tomlOver d notype)]))] = _
  exact congrArg (fun x => GC.map [(name, GC.map x)]) e

theorem back_mat2 {α : Type} {k k' : Bytes} (name : Bytes) (hk : strLT k k') (hk' : strLT k' (str "$ncols")) (m : Mat α)
    (d d' : Toml) : tomlOver (tomlMat name m [(k, d), (k', d')]) notype =
      matBack name m [(k, tomlOver d notype), (k', tomlOver d' notype)] := by
  have h2 : ∀ e ∈ [(k, tomlOver d notype)], strLT e.1 k' := by
    intro e he; rw [List.mem_singleton] at he; subst he; exact hk
  have e : tomlOverMembers [(str "$ncols", .int (BitVec.ofNat 64 m.nc)), (str "$nrows", .int (BitVec.ofNat 64 m.nr))]
      [(k, tomlOver d notype), (k', tomlOver d' notype)] = _ := dims_after _ _ _ (by
        intro e he
        simp only [List.mem_cons, List.not_mem_nil, or_false] at he
        rcases he with rfl | rfl
        · exact strLT_trans hk hk'
        · exact hk')
  have e2 : tomlOverMembers ((k', d') :: [(str "$ncols", .int (BitVec.ofNat 64 m.nc)), (str "$nrows", .int (BitVec.ofNat 64 m.nr))])
      [(k, tomlOver d notype)] = [(k, tomlOver d notype), (k', tomlOver d' notype)] ++
        [(str "$ncols", whole (BitVec.ofNat 64 m.nc)), (str "$nrows", whole (BitVec.ofNat 64 m.nr))] := by
    rw [tomlOverMembers, mfind_after h2, mset_append h2]; exact e
  exact congrArg (fun x => GC.map [(name, GC.map x)]) e2

mutual

theorem back_over (hex : Ptr → Bytes) : ∀ (g : GC) (d : Toml), GC_to_TOML hex g = .ok (some d) → g.every tomlFit = true → WF g →
    d.sized = true ∧ tomlOver d notype = tomlBack hex g
  | notype, d, h, _, _ => by cases h
  | bool b, d, h, _, _ => by cases h; exact ⟨rfl, rfl⟩
  | int i, d, h, _, _ => by
    cases h
    refine ⟨rfl, ?_⟩
    rw [tomlOver, tomlBack]
    have e : (i.signExtend 64).toInt = i.toInt := BitVec.toInt_signExtend_of_le (by omega)
    have := i.toInt_lt
    have := i.le_toInt
    rw [whole, e, if_pos (by omega), BitVec.ofInt_toInt]
  | long l, d, h, _, _ => by cases h; exact ⟨rfl, rfl⟩
  | real r, d, h, _, _ => by cases h; exact ⟨rfl, rfl⟩
  | complex c, d, h, _, _ => by cases h; exact ⟨rfl, rfl⟩
  | string s, d, h, _, _ => by cases h; exact ⟨rfl, rfl⟩
  | pointer s, d, h, _, _ => by cases h; exact ⟨rfl, rfl⟩
  | vecBool v, d, h, hs, _ => by
    cases h
    simp [every, tomlFit, sizeOk] at hs
    exact ⟨by rw [Toml.sized, sized_scalars _ _ fun _ => rfl]; simp [hs.1], back_bools v⟩
  | vecInt v, d, h, hs, _ => by
    cases h
    simp [every, tomlFit, sizeOk] at hs
    exact ⟨by rw [Toml.sized, sized_scalars _ _ fun _ => rfl]; simp [hs.1], back_signs v⟩
  | vecLong v, d, h, hs, _ => by
    cases h
    simp [every, tomlFit, sizeOk] at hs
    exact ⟨by rw [Toml.sized, sized_scalars _ _ fun _ => rfl]; simp [hs.1], back_ints v⟩
  | vecReal v, d, h, hs, _ => by
    cases h
    simp [every, tomlFit, sizeOk] at hs
    exact ⟨by rw [Toml.sized, sized_scalars _ _ fun _ => rfl]; simp [hs.1], back_floats v⟩
  | vecComplex v, d, h, hs, _ => by
    cases h
    simp [every, tomlFit, sizeOk] at hs
    exact ⟨by rw [Toml.sized, sized_scalars _ _ fun _ => rfl]; simp [hs.1], back_complexes v⟩
  | vecString v, d, h, hs, _ => by
    cases h
    simp [every, tomlFit, sizeOk] at hs
    exact ⟨by rw [Toml.sized, sized_scalars _ _ fun _ => rfl]; simp [hs.1], back_strs v⟩
  | vecPointer v, d, h, hs, _ => by
    cases h
    simp [every, tomlFit, sizeOk] at hs
    refine ⟨by rw [Toml.sized, sized_scalars _ _ fun _ => rfl]; simp [hs.1], ?_⟩
    have := back_strs (v.map hex)
    rwa [List.map_map] at this
  | matInt m, d, h, hs, hw => by
    cases h
    have hl := wf_length (show m.wf = true from hw)
    exact ⟨by rw [sized_mat1, Toml.sized, sized_scalars _ _ fun _ => rfl]; simpa using hl,
      by rw [back_mat1 _ ((blt_iff _ _).1 (by decide +kernel)), back_signs]; rfl⟩
  | matLong m, d, h, hs, hw => by
    cases h
    have hl := wf_length (show m.wf = true from hw)
    exact ⟨by rw [sized_mat1, Toml.sized, sized_scalars _ _ fun _ => rfl]; simpa using hl,
      by rw [back_mat1 _ ((blt_iff _ _).1 (by decide +kernel)), back_ints]; rfl⟩
  | matReal m, d, h, hs, hw => by
    cases h
    have hl := wf_length (show m.wf = true from hw)
    exact ⟨by rw [sized_mat1, Toml.sized, sized_scalars _ _ fun _ => rfl]; simpa using hl,
      by rw [back_mat1 _ ((blt_iff _ _).1 (by decide +kernel)), back_floats]; rfl⟩
  | matComplex m, d, h, hs, hw => by
    cases h
    have hl := wf_length (show m.wf = true from hw)
    have e : ∀ f : Cplx → F64, tomlOver (.arr (m.data.map fun c => .float (f c))) notype =
        orEmpty m.data (vecReal (m.data.map f)) := by
      intro f
      have := back_floats (m.data.map f)
      rw [List.map_map] at this
      rw [show (m.data.map fun c => Toml.float (f c)) = m.data.map (Toml.float ∘ f) from rfl, this]
      unfold orEmpty; simp
    refine ⟨?_, by rw [back_mat2 _ ((blt_iff _ _).1 (by decide +kernel)) ((blt_iff _ _).1 (by decide +kernel)), e, e]; rfl⟩
    rw [sized_mat2, Toml.sized, Toml.sized, sized_scalars _ _ fun _ => rfl, sized_scalars _ _ fun _ => rfl]
    simpa using hl
  | vector v, d, h, hs, hw => by
    rw [GC_to_TOML] at h
    cases hv : toTomlL hex v with
    | ok l =>
      rw [hv] at h
      simp only [Out.bind, Out.ok.injEq, Option.some.injEq] at h
      subst h
      rw [every, Bool.and_eq_true] at hs
      obtain ⟨k1, k2, k3, k4⟩ := toTomlL_kinds hex v l hv
      obtain ⟨i1, i2⟩ := back_overs hex v l hv hs.2 hw
      have hl := hs.1
      simp [tomlFit, sizeOk] at hl
      refine ⟨by rw [Toml.sized, i1, k4]; simp [hl.1], ?_⟩
      rw [tomlOver, tomlBack, tomlArray, packedBack, k1, ← k2, k3, show itemsOf notype = [] from rfl, i2]
      cases allTexts hex v with
      | some s => simp [stringsOf]
      | none =>
        cases tomlInts l with
        | some n => simp only [Option.map_some, intsOf, List.nil_append]; rfl
        | none =>
          cases allReals v with
          | some x => simp [realsOf]
          | none => rfl
    | _ => rw [hv] at h; cases h
  | map m, d, h, hs, hw => by
    rw [GC_to_TOML] at h
    cases hv : toTomlM hex m with
    | ok l =>
      rw [hv] at h
      simp only [Out.bind, Out.ok.injEq, Option.some.injEq] at h
      subst h
      rw [every, Bool.and_eq_true] at hs
      obtain ⟨i1, i2⟩ := back_members hex m l hv hs.2 hw.2
      refine ⟨by rw [Toml.sized, i1], ?_⟩
      have := i2 [] (by simp) hw.1
      rw [tomlOver, tomlBack, show entriesOf notype = [] from rfl, this, List.nil_append]
    | _ => rw [hv] at h; cases h
termination_by structural g => g

theorem back_overs (hex : Ptr → Bytes) : ∀ (v : List GC) (l : List Toml), toTomlL hex v = .ok l → everyL tomlFit v = true → WFL v →
    Toml.sizedL l = true ∧ tomlOvers l [] = tomlBacks hex v
  | [], l, h, _, _ => by cases h; exact ⟨rfl, rfl⟩
  | x :: r, l, h, hs, hw => by
    rw [everyL, Bool.and_eq_true] at hs
    rw [toTomlL] at h
    cases hx : GC_to_TOML hex x with
    | ok o =>
      rw [hx] at h
      cases o with
      | none => cases h
      | some d =>
        simp only [Out.bind] at h
        cases hr : toTomlL hex r with
        | ok l' =>
          rw [hr] at h
          simp only [Out.ok.injEq] at h
          subst h
          obtain ⟨a1, a2⟩ := back_over hex x d hx hs.1 hw.1
          obtain ⟨b1, b2⟩ := back_overs hex r l' hr hs.2 hw.2
          exact ⟨by rw [Toml.sizedL, a1, b1]; rfl, by rw [tomlOvers, tomlBacks, List.headD_nil, List.tail_nil, a2, b2]⟩
        | _ => rw [hr] at h; cases h
    | _ => rw [hx] at h; cases h
termination_by structural v => v

theorem back_members (hex : Ptr → Bytes) : ∀ (m : Entries) (l : List (Bytes × Toml)), toTomlM hex m = .ok l →
    everyM tomlFit m = true → WFM m → Toml.sizedM l = true ∧
      ∀ e : Entries, (∀ a ∈ e, ∀ b ∈ m, strLT a.1 b.1) → KeysSorted m → tomlOverMembers l e = e ++ tomlBackMembers hex m
  | [], l, h, _, _ => by cases h; exact ⟨rfl, fun e _ _ => by rw [tomlOverMembers, tomlBackMembers, List.append_nil]⟩
  | (k, x) :: r, l, h, hs, hw => by
    rw [everyM, Bool.and_eq_true] at hs
    rw [toTomlM] at h
    cases hx : GC_to_TOML hex x with
    | ok o =>
      rw [hx] at h
      cases o with
      | none => cases h
      | some d =>
        simp only [Out.bind] at h
        cases hr : toTomlM hex r with
        | ok l' =>
          rw [hr] at h
          simp only [Out.ok.injEq] at h
          subst h
          obtain ⟨a1, a2⟩ := back_over hex x d hx hs.1 hw.1
          obtain ⟨b1, b2⟩ := back_members hex r l' hr hs.2 hw.2
          refine ⟨by rw [Toml.sizedM, a1, b1]; rfl, fun e he hk => ?_⟩
          have hk' := List.pairwise_cons.1 hk
          have hb : ∀ a ∈ e, strLT a.1 k := fun a ha => he a ha (k, x) (.head _)
          rw [tomlOverMembers, mfind_after hb, Option.getD_none, a2, mset_append hb, b2 _ ?_ hk'.2, tomlBackMembers]
          · simp
          · intro a ha b hb'
            rcases List.mem_append.1 ha with ha | ha
            · exact he a ha b (.tail _ hb')
            · rw [List.mem_singleton] at ha; subst ha; exact hk'.1 b hb'
        | _ => rw [hr] at h; cases h
    | _ => rw [hx] at h; cases h
termination_by structural m => m

end

mutual

theorem every_of_inside {p : GC → Bool} : ∀ (g : GC), (∀ x, Inside x g → p x = true) → g.every p = true
  | vector v, h => by
    rw [every, h _ .self, Bool.true_and]
    exact every_of_insides v fun y hy x hx => h x (.elem hy hx)
  | map m, h => by
    rw [every, h _ .self, Bool.true_and]
    exact every_of_members m fun y hy x hx => h x (.value (k := y.1) hy hx)
  | notype, h => h _ .self
  | pointer _, h => h _ .self
  | bool _, h => h _ .self
  | int _, h => h _ .self
  | long _, h => h _ .self
  | real _, h => h _ .self
  | complex _, h => h _ .self
  | string _, h => h _ .self
  | vecPointer _, h => h _ .self
  | vecBool _, h => h _ .self
  | vecInt _, h => h _ .self
  | vecLong _, h => h _ .self
  | vecReal _, h => h _ .self
  | vecComplex _, h => h _ .self
  | vecString _, h => h _ .self
  | matInt _, h => h _ .self
  | matLong _, h => h _ .self
  | matReal _, h => h _ .self
  | matComplex _, h => h _ .self
termination_by structural g => g

theorem every_of_insides {p : GC → Bool} : ∀ (v : List GC), (∀ y ∈ v, ∀ x, Inside x y → p x = true) → everyL p v = true
  | [], _ => rfl
  | y :: r, h => by
    rw [everyL, every_of_inside y (h y (.head _)), every_of_insides r fun z hz => h z (.tail _ hz)]; rfl
termination_by structural v => v

theorem every_of_members {p : GC → Bool} : ∀ (m : Entries), (∀ y ∈ m, ∀ x, Inside x y.2 → p x = true) → everyM p m = true
  | [], _ => rfl
  | (k, y) :: r, h => by
    rw [everyM, every_of_inside y (h (k, y) (.head _)), every_of_members r fun z hz => h z (.tail _ hz)]; rfl
termination_by structural m => m

end

/-- **C108**: exactly what comes back from to_toml followed by from_toml on an empty container: `tomlBack`, packed by
`collapse`; the answer is true unless that throws.  (With an empty container inside to_toml is undefined, C50.) -/
theorem C108_back (hex : Ptr → Bytes) (m : Entries) (hn : ¬ Inside notype (map m))
    (hs : ∀ x, Inside x (map m) → sizeOk x = true) (hw : WF (map m)) :
    ∃ d, to_toml hex (map m) = .ok d ∧ from_toml (some d) notype = answered (collapse (tomlBack hex (map m))) := by
  have hf : (map m).every tomlFit = true := every_of_inside _ fun x hx => by
    have : x.ty ≠ .NOTYPE := by
      intro h
      cases x <;> simp [ty] at h
      exact hn hx
    simp [tomlFit, hs x hx, this]
  obtain ⟨d, hd⟩ := (C50_empty_negation hex (map m)).2 hn
  refine ⟨d, hd, ?_⟩
  rw [to_toml] at hd
  cases hg : GC_to_TOML hex (map m) with
  | ok o =>
    rw [hg] at hd
    cases o with
    | none => cases hd
    | some d' =>
      cases hd
      obtain ⟨h1, h2⟩ := back_over hex (map m) d hg hf hw
      rw [C106_toml d h1, h2]
  | _ => rw [hg] at hd; cases hd

theorem toTomlM_keys (hex : Ptr → Bytes) : ∀ (m : Entries) (l : List (Bytes × Toml)), toTomlM hex m = .ok l →
    l.map Prod.fst = m.map Prod.fst
  | [], l, h => by cases h; rfl
  | (k, x) :: r, l, h => by
    rw [toTomlM] at h
    cases hx : GC_to_TOML hex x with
    | ok o =>
      rw [hx] at h
      cases o with
      | none => cases h
      | some d =>
        simp only [Out.bind] at h
        cases hr : toTomlM hex r with
        | ok l' =>
          rw [hr] at h
          simp only [Out.ok.injEq] at h
          subst h
          rw [List.map_cons, List.map_cons, toTomlM_keys hex r l' hr]
        | _ => rw [hr] at h; cases h
    | _ => rw [hx] at h; cases h

theorem over_other {k : Bytes} : ∀ (l : List (Bytes × Toml)) (e : Entries), k ∉ l.map Prod.fst →
    mfind k (tomlOverMembers l e) = mfind k e
  | [], e, _ => by rw [tomlOverMembers]
  | (k', d) :: r, e, h => by
    simp only [List.map_cons, List.mem_cons, not_or] at h
    rw [tomlOverMembers, over_other r _ h.2, mfind_mset_other h.1]

theorem absent_key {k : Bytes} {x : GC} : ∀ {m : Entries}, mfind k m = none → (k, x) ∉ m
  | [], _ => by simp
  | (k', y) :: r, h => by
    rw [mfind] at h
    by_cases hk : k = k'
    · rw [if_pos hk] at h; cases h
    · rw [if_neg hk] at h
      intro hm
      rcases List.mem_cons.1 hm with hm | hm
      · exact hk (congrArg Prod.fst hm)
      · exact absent_key h hm

/-- **C108**, over data that are there: the document is stored over the old entries; a key that is new is as on an empty
container and entries the document does not have stay. -/
theorem C108_over (hex : Ptr → Bytes) (m e : Entries) (hn : ¬ Inside notype (map m))
    (hs : ∀ x, Inside x (map m) → sizeOk x = true) (hw : WF (map m)) :
    ∃ d, to_toml hex (map m) = .ok (.table d) ∧
      from_toml (some (.table d)) (map e) = answered (collapse (map (tomlOverMembers d e))) ∧ d.map Prod.fst = m.map Prod.fst ∧
      ∀ k, mfind k m = none → mfind k (tomlOverMembers d e) = mfind k e := by
  obtain ⟨d, h1, -⟩ := C108_back hex m hn hs hw
  have hf : (map m).every tomlFit = true := every_of_inside _ fun x hx => by
    have : x.ty ≠ .NOTYPE := by
      intro h
      cases x <;> simp [ty] at h
      exact hn hx
    simp [tomlFit, hs x hx, this]
  rw [to_toml, GC_to_TOML] at h1
  cases hm : toTomlM hex m with
  | ok l =>
    have hl := (back_over hex (map m) (.table l) (by rw [GC_to_TOML, hm]; rfl) hf hw).1
    have hk := toTomlM_keys hex m l hm
    refine ⟨l, by rw [to_toml, GC_to_TOML, hm]; rfl, ?_, hk, fun k hk' => over_other l e ?_⟩
    · rw [C106_toml _ hl, tomlOver]; rfl
    · rw [hk]
      intro hin
      obtain ⟨⟨k', x⟩, hx, rfl⟩ := List.mem_map.1 hin
      exact absurd hx (absent_key hk')
  | _ => rw [hm] at h1; cases h1

/-- A record with a list of longs, a complex number and a matrix. -/
def tomlSample : Entries := [(str "a", vecLong [4294967297#64, 2#64]), (str "b", complex ⟨.zero, .zero⟩),
  (str "c", vector [string (str "x"), pointer 7]), (str "d", vecBool [])]

theorem sample_inside {x : GC} (h : Inside x (map tomlSample)) : x = map tomlSample ∨ x = vecLong [4294967297#64, 2#64] ∨
    x = complex ⟨.zero, .zero⟩ ∨ x = vector [string (str "x"), pointer 7] ∨ x = string (str "x") ∨ x = pointer 7 ∨ x = vecBool [] := by
  cases h with
  | self => exact .inl rfl
  | value hm hx =>
    simp only [tomlSample, List.mem_cons, Prod.mk.injEq, List.not_mem_nil, or_false] at hm
    rcases hm with ⟨-, rfl⟩ | ⟨-, rfl⟩ | ⟨-, rfl⟩ | ⟨-, rfl⟩
    · cases hx; simp
    · cases hx; simp
    · cases hx with
      | self => simp
      | elem hm hx => simp at hm; rcases hm with rfl | rfl <;> cases hx <;> simp
    · cases hx; simp

/-- C108: the hypotheses are met. -/
example : ¬ Inside notype (map tomlSample) ∧ (∀ x, Inside x (map tomlSample) → sizeOk x = true) ∧ WF (map tomlSample) := by
  refine ⟨fun h => ?_, fun x h => ?_, ?_⟩
  · rcases sample_inside h with h | h | h | h | h | h | h <;> cases h
  · rcases sample_inside h with rfl | rfl | rfl | rfl | rfl | rfl | rfl <;> rfl
  · refine ⟨?_, trivial, trivial, ⟨trivial, trivial, trivial⟩, trivial, trivial⟩
    simp only [KeysSorted, tomlSample, List.pairwise_cons, List.mem_cons, List.not_mem_nil, or_false]
    refine ⟨?_, ?_, ?_, by simp, .nil⟩
    · rintro a (rfl | rfl | rfl) <;> exact (blt_iff _ _).1 (by decide +kernel)
    · rintro a (rfl | rfl) <;> exact (blt_iff _ _).1 (by decide +kernel)
    · rintro a rfl; exact (blt_iff _ _).1 (by decide +kernel)

/-- C108: the longs lose their high bits, the complex number is a list of two, the pointer a string, the empty list a list
of strings. -/
example (hex : Ptr → Bytes) : tomlBack hex (map tomlSample) = map [(str "a", vecInt [1#32, 2#32]), (str "b", vecReal [.zero, .zero]),
    (str "c", vecString [str "x", hex 7]), (str "d", vecString [])] := rfl

end GC
end GCV
