import Verif.Lemmas.RapidDoc
import Verif.Spec.Rapid
import Verif.Props.Docs

/-! # Lemmas on `from_json`: the tree of a document -/

namespace GCV
namespace GC
open Json Rapid
open Rfc (Part Readable Distinct Kept)

theorem part_trans {a b c : Doc} (h1 : Part a b) (h2 : Part b c) : Part a c := by
  induction h2 with
  | self => exact h1
  | elem h _ ih => exact .elem h ih
  | value h _ ih => exact .value h ih

/-! ## Numbers -/

theorem numVal_some {conv : Bytes → Option F64} {l : Bytes} {v : Val} (h : numVal conv l = some v) (g : GC) :
    decode_json v g = .ok (numTree conv l) () := by
  unfold numVal at h
  cases hc : conv l with
  | none => rw [hc] at h; cases h
  | some r =>
    rw [hc] at h
    simp only [Option.map_some, Option.some.injEq] at h
    subst h
    rw [decode_json, numTree, hc, set_real]

theorem decode_whole (v : Val) (n : Int) (g : GC) (hb : v.bits = BitVec.ofInt 64 n)
    (h1 : v.isInt = true ↔ -2 ^ 31 ≤ n ∧ n < 2 ^ 31) (h2 : v.isUint = true ↔ 0 ≤ n ∧ n < 2 ^ 32)
    (hk : (∃ i, v = .int i) ∨ (∃ u, v = .uint u) ∨ (∃ i, v = .int64 i) ∨ ∃ u, v = .uint64 u) :
    decode_json v g = .ok (if -2 ^ 31 ≤ n ∧ n < 2 ^ 32 then int (BitVec.ofInt 32 n) else long (BitVec.ofInt 64 n)) () := by
  have e : decode_json v g = if v.isInt then .ok (set_int (v.bits.setWidth 32) g) ()
      else if v.isUint then .ok (set_int (v.bits.setWidth 32) g) ()
      else if v.isInt64 then .ok (set_long v.bits g) ()
      else .ok (set_long v.bits g) () := by
    rcases hk with ⟨i, rfl⟩ | ⟨i, rfl⟩ | ⟨i, rfl⟩ | ⟨i, rfl⟩ <;> rw [decode_json] <;> simp
  have hw : (BitVec.ofInt 64 n).setWidth 32 = BitVec.ofInt 32 n := by
    apply BitVec.eq_of_toNat_eq
    rw [BitVec.toNat_setWidth, BitVec.toNat_ofInt, BitVec.toNat_ofInt]
    omega
  rw [e, hb, hw, set_int, set_long]
  by_cases ha : v.isInt = true
  · rw [if_pos ha, if_pos (by have := h1.1 ha; omega)]
  · rw [if_neg ha]
    by_cases hu : v.isUint = true
    · rw [if_pos hu, if_pos (by have := h2.1 hu; omega)]
    · have ha := mt h1.2 ha
      have hu' := mt h2.2 hu
      rw [if_neg hu, if_neg (show ¬ (-2 ^ 31 ≤ n ∧ n < 2 ^ 32) by omega)]
      split <;> rfl

theorem lit_sign {l : Bytes} (hl : Rfc.IntLit l) :
    (l.head? = some 45 → intValue l ≤ 0) ∧ (l.head? ≠ some 45 → 0 ≤ intValue l) := by
  have hdig : ∀ {b : Bytes}, Rfc.Int b → digitsValue b = val 0 b := fun hb => digitsValue_val (Rfc.Int.digits hb).2
  obtain ⟨a, b, rfl, ha, hb⟩ := hl
  rcases ha with rfl | rfl
  · have hd := Rfc.Int.digits hb
    rw [List.nil_append, intValue_digits hd, hdig hb]
    refine ⟨fun e => ?_, fun _ => by omega⟩
    match b, hd with
    | c :: b, hd =>
      simp only [List.head?_cons, Option.some.injEq] at e
      have := hd.2 c (by simp)
      rw [e] at this; exact absurd this (by decide)
  · rw [List.singleton_append, intValue_neg, hdig hb]
    exact ⟨fun _ => by omega, fun h => absurd rfl h⟩

theorem intVal_some {conv : Bytes → Option F64} {l : Bytes} {v : Val} (hl : Rfc.IntLit l) (h : intVal conv l = some v) (g : GC) :
    decode_json v g = .ok (storedInt conv l) () := by
  have hsign := lit_sign hl
  have hn : ∀ v' : Val, numVal conv l = some v' → ¬ (-2 ^ 63 ≤ intValue l ∧ intValue l < 2 ^ 64) →
      decode_json v' g = .ok (storedInt conv l) () := by
    intro v' hv hr
    rw [numVal_some hv, storedInt]
    rw [if_neg (by omega), if_neg hr]
  unfold intVal at h
  rw [storedInt]
  split at h
  · next h45 =>
    have hle := hsign.1 h45
    split at h
    · next h1 =>
      simp only [Option.some.injEq] at h; subst h
      have ht : (BitVec.ofInt 32 (intValue l)).toInt = intValue l := by
        rw [BitVec.toInt_ofInt, Int.bmod_def]; omega
      rw [decode_whole _ (intValue l) g (by
          rw [Val.bits]
          apply BitVec.eq_of_toInt_eq
          rw [BitVec.toInt_signExtend_of_le (by decide), ht, BitVec.toInt_ofInt, Int.bmod_def]; omega)
        (by simp [Val.isInt]; omega) (by simp [Val.isUint, ht]; omega) (.inl ⟨_, rfl⟩)]
      rw [if_pos (by omega), if_pos (by omega)]
    · next h1 =>
      split at h
      · next h2 =>
        simp only [Option.some.injEq] at h; subst h
        have ht : (BitVec.ofInt 64 (intValue l)).toInt = intValue l := by
          rw [BitVec.toInt_ofInt, Int.bmod_def]; omega
        rw [decode_whole (.int64 (BitVec.ofInt 64 (intValue l))) (intValue l) g rfl (by simp [Val.isInt, ht]) (by simp [Val.isUint, ht])
          (.inr (.inr (.inl ⟨_, rfl⟩)))]
        rw [if_neg (by omega), if_neg (by omega), if_pos (by omega)]
      · have := hn v h (by omega)
        rwa [storedInt] at this
  · next h45 =>
    have hge := hsign.2 h45
    split at h
    · next h1 =>
      simp only [Option.some.injEq] at h; subst h
      have ht : (BitVec.ofInt 32 (intValue l)).toNat = (intValue l).toNat := by
        rw [BitVec.toNat_ofInt]; omega
      rw [decode_whole _ (intValue l) g (by
          rw [Val.bits]
          apply BitVec.eq_of_toNat_eq
          rw [BitVec.toNat_setWidth, ht, BitVec.toNat_ofInt]; omega)
        (by simp only [Val.isInt, ht, decide_eq_true_eq]; omega) (by simp [Val.isUint]; omega) (.inr (.inl ⟨_, rfl⟩))]
      rw [if_pos (by omega), if_pos (by omega)]
    · next h1 =>
      split at h
      · next h2 =>
        simp only [Option.some.injEq] at h; subst h
        have ht : (BitVec.ofInt 64 (intValue l)).toNat = (intValue l).toNat := by
          rw [BitVec.toNat_ofInt]; omega
        rw [decode_whole (.uint64 (BitVec.ofInt 64 (intValue l))) (intValue l) g rfl (by simp only [Val.isInt, ht, decide_eq_true_eq]; omega)
          (by simp only [Val.isUint, ht, decide_eq_true_eq]; omega) (.inr (.inr (.inr ⟨_, rfl⟩)))]
        rw [if_neg (by omega), if_neg (by omega), if_pos (by omega)]
      · have := hn v h (by omega)
        rwa [storedInt] at this

theorem intVal_isSome {conv : Bytes → Option F64} {l : Bytes} (hl : Rfc.IntLit l) :
    (intVal conv l).isSome ↔ (-2 ^ 63 ≤ intValue l ∧ intValue l < 2 ^ 64) ∨ conv l ≠ none := by
  obtain ⟨h1, h2⟩ := lit_sign hl
  unfold intVal
  have hm : ((conv l).map Val.double).isSome = true ↔ conv l ≠ none := by
    rw [Option.isSome_map, Option.isSome_iff_ne_none]
  split
  · next h45 =>
    have := h1 h45
    split
    · simp only [Option.isSome_some, true_iff]; left; omega
    · split
      · simp only [Option.isSome_some, true_iff]; left; omega
      · rw [hm]; constructor
        · exact .inr
        · exact fun h => h.resolve_left (by omega)
  · next h45 =>
    have := h2 h45
    split
    · simp only [Option.isSome_some, true_iff]; left; omega
    · split
      · simp only [Option.isSome_some, true_iff]; left; omega
      · rw [hm]; constructor
        · exact .inr
        · exact fun h => h.resolve_left (by omega)

/-! ## Documents -/

/-- The integers of a document are integers. -/
def Lits (d : Doc) : Prop := ∀ l, Part (.int l) d → Rfc.IntLit l

theorem set_vector_fresh {n : Nat} (h : n < 2 ^ 32) : (set_vector (u32 n) notype).oldVector = List.replicate n notype := by
  rw [u32_of_lt h, set_vector, allocate_vector, oldVector, oldVector, allocL]
  split
  · simp [resizeL]
  · next h => have : n = 0 := by omega
              rw [this]; rfl
  · simp

mutual

theorem decode_tree {conv : Bytes → Option F64} : ∀ (d : Doc) (v : Val), docVal conv d = some v → Lits d → Distinct d →
    decode_json v notype = .ok (stored conv d) ()
  | .null, v, h, _, _ => by
    simp only [docVal, Option.some.injEq] at h; subst h; rfl
  | .bool b, v, h, _, _ => by
    simp only [docVal, Option.some.injEq] at h; subst h; rfl
  | .string s, v, h, _, _ => by
    simp only [docVal, Option.some.injEq] at h; subst h; rfl
  | .int l, v, h, hl, _ => intVal_some (hl l .self) h notype
  | .num l, v, h, _, _ => numVal_some h notype
  | .arr ds, v, h, hl, hd => by
    rw [docVal] at h
    cases hv : docVals conv ds with
    | none => rw [hv] at h; cases h
    | some vs =>
      rw [hv] at h
      simp only [Option.map_some, Option.some.injEq] at h; subst h
      obtain ⟨h1, h2⟩ := decode_trees ds vs hv (fun x hx l hp => hl l (.elem hx hp))
        (fun x hx => ⟨fun ms hp => hd.keys ms (.elem hx hp), fun es hp => hd.size es (.elem hx hp)⟩)
      rw [decode_json, h2, set_vector_fresh (hd.size ds .self), h1]; rfl
  | .obj ms, v, h, hl, hd => by
    rw [docVal] at h
    cases hv : docMembers conv ms with
    | none => rw [hv] at h; cases h
    | some vs =>
      rw [hv] at h
      simp only [Option.map_some, Option.some.injEq] at h; subst h
      have h1 := decode_members ms vs [] hv (fun x hx l hp => hl l (.value (k := x.1) hx hp))
        (fun x hx => ⟨fun ms hp => hd.keys ms (.value (k := x.1) hx hp), fun es hp => hd.size es (.value (k := x.1) hx hp)⟩)
        (hd.keys ms .self) (fun _ _ => rfl)
      rw [decode_json]
      show (match decodeMembers vs [] with | .ok e => _ | .throw e => _ | .ub => _ | .diverge => _) = _
      rw [h1]; rfl

theorem decode_trees {conv : Bytes → Option F64} : ∀ (ds : List Doc) (vs : List Val), docVals conv ds = some vs →
    (∀ x ∈ ds, Lits x) → (∀ x ∈ ds, Distinct x) →
    decodeElems vs (List.replicate ds.length notype) = .ok (treesOf (storedInt conv) (numTree conv) cstr ds) ∧
      vs.length = ds.length
  | [], vs, h, _, _ => by
    simp only [docVals, Option.some.injEq] at h; subst h
    exact ⟨by rw [decodeElems]; rfl, rfl⟩
  | d :: ds, vs, h, hl, hd => by
    rw [docVals] at h
    cases hv : docVal conv d with
    | none => rw [hv] at h; cases h
    | some v =>
      cases hvs : docVals conv ds with
      | none => rw [hv, hvs] at h; cases h
      | some vs' =>
        rw [hv, hvs] at h
        simp only [Option.bind_some, Option.map_some, Option.some.injEq] at h; subst h
        have h1 := decode_tree d v hv (hl d (.head _)) (hd d (.head _))
        obtain ⟨h2, h3⟩ := decode_trees ds vs' hvs (fun x hx => hl x (.tail _ hx)) (fun x hx => hd x (.tail _ hx))
        refine ⟨?_, by rw [List.length_cons, List.length_cons, h3]⟩
        rw [List.length_cons, List.replicate_succ, decodeElems, h1]
        simp only [h2]; rfl

theorem decode_members {conv : Bytes → Option F64} : ∀ (ms : List (Bytes × Doc)) (vs : List (Bytes × Val)) (e : Entries),
    docMembers conv ms = some vs → (∀ x ∈ ms, Lits x.2) → (∀ x ∈ ms, Distinct x.2) →
    (ms.map fun e => cstr e.1).Nodup → (∀ k ∈ ms.map (fun e => cstr e.1), mfind k e = none) →
    decodeMembers vs e = .ok (membersOf (storedInt conv) (numTree conv) cstr e ms)
  | [], vs, e, h, _, _, _, _ => by
    simp only [docMembers, Option.some.injEq] at h; subst h
    rw [decodeMembers]; rfl
  | (k, d) :: ms, vs, e, h, hl, hd, hn, hf => by
    rw [docMembers] at h
    cases hv : docVal conv d with
    | none => rw [hv] at h; cases h
    | some v =>
      cases hvs : docMembers conv ms with
      | none => rw [hv, hvs] at h; cases h
      | some vs' =>
        rw [hv, hvs] at h
        simp only [Option.bind_some, Option.map_some, Option.some.injEq] at h; subst h
        rw [List.map_cons, List.nodup_cons] at hn
        have h1 := decode_tree d v hv (hl _ (.head _)) (hd _ (.head _))
        have h2 := decode_members ms vs' (mset (cstr k) (stored conv d) e) hvs (fun x hx => hl x (.tail _ hx))
          (fun x hx => hd x (.tail _ hx)) hn.2 (fun k' hk' => by
            have : k' ≠ cstr k := fun h => hn.1 (h ▸ hk')
            rw [mfind_mset_other this]
            exact hf k' (by rw [List.map_cons]; exact .tail _ hk'))
        rw [decodeMembers, hf (cstr k) (by rw [List.map_cons]; exact .head _)]
        simp only [Option.getD_none, h1, h2]; rfl

end

theorem set_vector_over {n : Nat} (h : n < 2 ^ 32) (h0 : n ≠ 0) (g : GC) :
    (set_vector (u32 n) g).oldVector = (itemsOf g).take n ++ List.replicate (n - (itemsOf g).length) notype := by
  have e : g.oldVector = itemsOf g := by cases g <;> rfl
  rw [u32_of_lt h, set_vector, allocate_vector, oldVector, e, allocL, if_pos (by omega), resizeL]

mutual

theorem decode_over {conv : Bytes → Option F64} : ∀ (d : Doc) (v : Val) (g : GC), docVal conv d = some v → Lits d →
    (∀ ds, Part (.arr ds) d → ds.length < 2 ^ 32) → decode_json v g = .ok (over conv d g) ()
  | .null, v, g, h, _, _ => by
    simp only [docVal, Option.some.injEq] at h; subst h; rw [decode_json, over, clear]
  | .bool b, v, g, h, _, _ => by
    simp only [docVal, Option.some.injEq] at h; subst h; rw [decode_json, over, set_bool]
  | .string s, v, g, h, _, _ => by
    simp only [docVal, Option.some.injEq] at h; subst h; rw [decode_json, over, show set_string (cstr s) g = string (cstr s) by cases g <;> rfl]
  | .int l, v, g, h, hl, _ => by rw [over]; exact intVal_some (hl l .self) h g
  | .num l, v, g, h, _, _ => by rw [over]; exact numVal_some h g
  | .arr [], v, g, h, hl, hd => by
    simp only [docVal, docVals, Option.map_some, Option.some.injEq] at h; subst h
    cases g <;> rfl
  | .arr (d :: ds), v, g, h, hl, hd => by
    rw [docVal] at h
    cases hv : docVals conv (d :: ds) with
    | none => rw [hv] at h; cases h
    | some vs =>
      rw [hv] at h
      simp only [Option.map_some, Option.some.injEq] at h; subst h
      obtain ⟨h1, h2⟩ := decode_overs (d :: ds) vs (itemsOf g) hv (fun x hx l hp => hl l (.elem hx hp))
        (fun x hx es hp => hd es (.elem hx hp))
      rw [decode_json, h2, set_vector_over (hd (d :: ds) .self) (by simp), h1, over, overs]
  | .obj ms, v, g, h, hl, hd => by
    rw [docVal] at h
    cases hv : docMembers conv ms with
    | none => rw [hv] at h; cases h
    | some vs =>
      rw [hv] at h
      simp only [Option.map_some, Option.some.injEq] at h; subst h
      have h1 := decode_overMembers ms vs (entriesOf g) hv (fun x hx l hp => hl l (.value (k := x.1) hx hp))
        (fun x hx es hp => hd es (.value (k := x.1) hx hp))
      have e : (set_map g).oldMap = entriesOf g := by cases g <;> rfl
      rw [decode_json, e, h1, over]

theorem decode_overs {conv : Bytes → Option F64} : ∀ (ds : List Doc) (vs : List Val) (w : List GC), docVals conv ds = some vs →
    (∀ x ∈ ds, Lits x) → (∀ x ∈ ds, ∀ es, Part (.arr es) x → es.length < 2 ^ 32) →
    decodeElems vs (w.take ds.length ++ List.replicate (ds.length - w.length) notype) = .ok (overs conv ds w) ∧
      vs.length = ds.length
  | [], vs, w, h, _, _ => by
    simp only [docVals, Option.some.injEq] at h; subst h
    exact ⟨by rw [decodeElems]; simp [overs], rfl⟩
  | d :: ds, vs, w, h, hl, hd => by
    rw [docVals] at h
    cases hv : docVal conv d with
    | none => rw [hv] at h; cases h
    | some v =>
      cases hvs : docVals conv ds with
      | none => rw [hv, hvs] at h; cases h
      | some vs' =>
        rw [hv, hvs] at h
        simp only [Option.bind_some, Option.map_some, Option.some.injEq] at h; subst h
        have h1 := decode_over d v (w.headD notype) hv (hl d (.head _)) (hd d (.head _))
        obtain ⟨h2, h3⟩ := decode_overs ds vs' w.tail hvs (fun x hx => hl x (.tail _ hx)) (fun x hx => hd x (.tail _ hx))
        refine ⟨?_, by rw [List.length_cons, List.length_cons, h3]⟩
        have e : w.take (d :: ds).length ++ List.replicate ((d :: ds).length - w.length) notype =
            w.headD notype :: (w.tail.take ds.length ++ List.replicate (ds.length - w.tail.length) notype) := by
          cases w with
          | nil => simp [List.replicate_succ]
          | cons x w => simp
        rw [e, decodeElems, h1]
        simp only [h2]; rw [overs]

theorem decode_overMembers {conv : Bytes → Option F64} : ∀ (ms : List (Bytes × Doc)) (vs : List (Bytes × Val)) (e : Entries),
    docMembers conv ms = some vs → (∀ x ∈ ms, Lits x.2) → (∀ x ∈ ms, ∀ es, Part (.arr es) x.2 → es.length < 2 ^ 32) →
    decodeMembers vs e = .ok (overMembers conv ms e)
  | [], vs, e, h, _, _ => by
    simp only [docMembers, Option.some.injEq] at h; subst h
    rw [decodeMembers, overMembers]
  | (k, d) :: ms, vs, e, h, hl, hd => by
    rw [docMembers] at h
    cases hv : docVal conv d with
    | none => rw [hv] at h; cases h
    | some v =>
      cases hvs : docMembers conv ms with
      | none => rw [hv, hvs] at h; cases h
      | some vs' =>
        rw [hv, hvs] at h
        simp only [Option.bind_some, Option.map_some, Option.some.injEq] at h; subst h
        have h1 := decode_over d v ((mfind (cstr k) e).getD notype) hv (hl _ (.head _)) (hd _ (.head _))
        have h2 := decode_overMembers ms vs' (mset (cstr k) (over conv d ((mfind (cstr k) e).getD notype)) e) hvs
          (fun x hx => hl x (.tail _ hx)) (fun x hx => hd x (.tail _ hx))
        rw [decodeMembers, h1]
        simp only [h2]; rw [overMembers]

end

mutual

theorem docVal_some {conv : Bytes → Option F64} : ∀ d : Doc, Lits d → ((docVal conv d).isSome ↔ Readable conv d)
  | .null, _ => ⟨fun _ => ⟨fun l h => (by cases h), fun l h => (by cases h)⟩, fun _ => rfl⟩
  | .bool _, _ => ⟨fun _ => ⟨fun l h => (by cases h), fun l h => (by cases h)⟩, fun _ => rfl⟩
  | .string _, _ => ⟨fun _ => ⟨fun l h => (by cases h), fun l h => (by cases h)⟩, fun _ => rfl⟩
  | .num l, _ => by
    rw [docVal, numVal, Option.isSome_map]
    constructor
    · intro h
      refine ⟨fun l' hp => ?_, fun l h => (by cases h)⟩
      cases hp
      exact Option.isSome_iff_ne_none.1 h
    · intro h
      exact Option.isSome_iff_ne_none.2 (h.nums l .self)
  | .int l, hl => by
    have hs := intVal_isSome (conv := conv) (hl l .self)
    rw [docVal, hs]
    constructor
    · intro h
      refine ⟨fun l h => (by cases h), fun l' hp => ?_⟩
      cases hp
      exact fun h' e => h' (h.resolve_right fun h => h e)
    · intro h
      by_cases hr : -2 ^ 63 ≤ intValue l ∧ intValue l < 2 ^ 64
      · exact .inl hr
      · exact .inr (h.ints l .self hr)
  | .arr ds, hl => by
    rw [docVal, Option.isSome_map, docVals_some ds fun x hx l hp => hl l (.elem hx hp)]
    constructor
    · intro h
      refine ⟨fun l hp => ?_, fun l hp => ?_⟩ <;> cases hp with | elem hx hp => ?_
      · exact (h _ hx).nums l hp
      · exact (h _ hx).ints l hp
    · intro h x hx
      exact ⟨fun l hp => h.nums l (.elem hx hp), fun l hp => h.ints l (.elem hx hp)⟩
  | .obj ms, hl => by
    rw [docVal, Option.isSome_map, docMembers_some ms fun x hx l hp => hl l (.value (k := x.1) hx hp)]
    constructor
    · intro h
      refine ⟨fun l hp => ?_, fun l hp => ?_⟩ <;> cases hp with | value hx hp => ?_
      · exact (h _ hx).nums l hp
      · exact (h _ hx).ints l hp
    · intro h x hx
      exact ⟨fun l hp => h.nums l (.value (k := x.1) hx hp), fun l hp => h.ints l (.value (k := x.1) hx hp)⟩

theorem docVals_some {conv : Bytes → Option F64} : ∀ ds : List Doc, (∀ x ∈ ds, Lits x) →
    ((docVals conv ds).isSome ↔ ∀ x ∈ ds, Readable conv x)
  | [], _ => ⟨fun _ x hx => (by cases hx), fun _ => rfl⟩
  | d :: ds, hl => by
    have h1 := docVal_some (conv := conv) d (hl d (.head _))
    have h2 := docVals_some (conv := conv) ds fun x hx => hl x (.tail _ hx)
    rw [docVals, List.forall_mem_cons, ← h1, ← h2]
    cases docVal conv d <;> simp

theorem docMembers_some {conv : Bytes → Option F64} : ∀ ms : List (Bytes × Doc), (∀ x ∈ ms, Lits x.2) →
    ((docMembers conv ms).isSome ↔ ∀ x ∈ ms, Readable conv x.2)
  | [], _ => ⟨fun _ x hx => (by cases hx), fun _ => rfl⟩
  | (k, d) :: ms, hl => by
    have h1 := docVal_some (conv := conv) d (hl _ (.head _))
    have h2 := docMembers_some (conv := conv) ms fun x hx => hl x (.tail _ hx)
    rw [docMembers, List.forall_mem_cons, ← h1, ← h2]
    cases docVal conv d <;> simp

end

/-! ## Tokens of the parts -/

theorem mem_toksTail : ∀ {ds : List Doc} {x : Doc}, x ∈ ds → ∀ t ∈ x.toks, t ∈ toksTail ds
  | d :: ds, x, hx, t, ht => by
    rw [toksTail]
    rcases List.mem_cons.1 hx with rfl | hx
    · exact .tail _ (List.mem_append_left _ ht)
    · exact .tail _ (List.mem_append_right _ (mem_toksTail hx t ht))

theorem mem_toksMembers : ∀ {ms : List (Bytes × Doc)} {k : Bytes} {x : Doc}, (k, x) ∈ ms →
    ∀ t ∈ x.toks, t ∈ toksMembers ms
  | (k', d) :: ms, k, x, hx, t, ht => by
    rw [toksMembers]
    rcases List.mem_cons.1 hx with e | hx
    · simp only [Prod.mk.injEq] at e
      obtain ⟨-, rfl⟩ := e
      exact .tail _ (.tail _ (.tail _ (List.mem_append_left _ ht)))
    · exact .tail _ (.tail _ (.tail _ (List.mem_append_right _ (mem_toksMembers hx t ht))))

theorem part_toks {d y : Doc} (h : Part y d) : ∀ t ∈ y.toks, t ∈ d.toks := by
  induction h with
  | self => exact fun _ h => h
  | @elem x l hx _ ih =>
    intro t ht
    match l, hx with
    | d :: ds, hx =>
      rw [Doc.toks]
      rcases List.mem_cons.1 hx with rfl | hx
      · exact List.mem_cons_of_mem _ (by simp only [List.mem_append]; exact .inl (.inl (ih t ht)))
      · exact List.mem_cons_of_mem _ (by simp only [List.mem_append]; exact .inl (.inr (mem_toksTail hx t (ih t ht))))
  | @value k x m hx _ ih =>
    intro t ht
    match m, hx with
    | (k', d) :: ms, hx =>
      rw [Doc.toks]
      rcases List.mem_cons.1 hx with e | hx
      · simp only [Prod.mk.injEq] at e
        obtain ⟨-, rfl⟩ := e
        have := ih t ht
        exact List.mem_cons_of_mem _ (by simp only [List.cons_append, List.mem_append, List.mem_cons, this]; simp)
      · have := mem_toksMembers hx t (ih t ht)
        exact List.mem_cons_of_mem _ (by simp only [List.cons_append, List.mem_append, List.mem_cons, this]; simp)

theorem spells_written {ts : List Tok} {text : Bytes} (h : Rfc.Spells ts text) : ∀ t ∈ ts, ∃ w, Rfc.Written t w := by
  induction h with
  | nil => intro t ht; cases ht
  | cons _ hw _ ih =>
    intro t ht
    rcases List.mem_cons.1 ht with rfl | ht
    · exact ⟨_, hw⟩
    · exact ih t ht

theorem lits_of {d : Doc} {text : Bytes} (h : Rfc.JsonText d text) : Lits d := by
  intro l hp
  obtain ⟨w, hw⟩ := spells_written h (.int l) (part_toks hp _ (by simp [Doc.toks]))
  cases hw with
  | int h => exact h

theorem length_toksTail : ∀ {ds : List Doc}, ds.length ≤ (toksTail ds).length ∧
    ∀ x ∈ ds, x.toks.length ≤ (toksTail ds).length
  | [] => ⟨Nat.le_refl _, fun x hx => (by cases hx)⟩
  | d :: ds => by
    obtain ⟨h1, h2⟩ := length_toksTail (ds := ds)
    rw [toksTail]
    simp only [List.length_cons, List.length_append]
    refine ⟨by omega, fun x hx => ?_⟩
    rcases List.mem_cons.1 hx with rfl | hx
    · omega
    · have := h2 x hx; omega

theorem length_toksMembers : ∀ {ms : List (Bytes × Doc)}, ∀ x ∈ ms, x.2.toks.length ≤ (toksMembers ms).length
  | (k, d) :: ms, x, hx => by
    rw [toksMembers]
    simp only [List.length_cons, List.length_append]
    rcases List.mem_cons.1 hx with rfl | hx
    · simp only []; omega
    · have := length_toksMembers x hx; omega

theorem length_arr (ds : List Doc) : ds.length < (Doc.arr ds).toks.length := by
  cases ds with
  | nil => decide
  | cons d ds =>
    have := (length_toksTail (ds := ds)).1
    rw [Doc.toks]
    simp only [List.length_cons, List.length_append]; omega

theorem length_part {d y : Doc} (h : Part y d) : y.toks.length ≤ d.toks.length := by
  induction h with
  | self => exact Nat.le_refl _
  | @elem x l hx _ ih =>
    match l, hx with
    | d :: ds, hx =>
      rw [Doc.toks]
      simp only [List.length_cons, List.length_append]
      rcases List.mem_cons.1 hx with rfl | hx
      · omega
      · have := length_toksTail.2 x hx; omega
  | @value k x m hx _ ih =>
    match m, hx with
    | (k', d) :: ms, hx =>
      rw [Doc.toks]
      simp only [List.length_cons, List.length_append]
      rcases List.mem_cons.1 hx with e | hx
      · simp only [Prod.mk.injEq] at e
        obtain ⟨-, rfl⟩ := e
        omega
      · have := length_toksMembers _ hx; dsimp only at this; omega

theorem spells_length {ts : List Tok} {text : Bytes} (h : Rfc.Spells ts text) : ts.length ≤ text.length := by
  induction h with
  | nil => exact Nat.zero_le _
  | cons _ hw _ ih =>
    obtain ⟨c, w', rfl, _⟩ := written_head hw
    simp only [List.length_append, List.length_cons]; omega

theorem arr_size {d : Doc} {text : Bytes} (h : Rfc.JsonText d text) {ds : List Doc} (hp : Part (.arr ds) d) :
    ds.length < text.length := by
  have h1 := length_arr ds
  have h2 := length_part hp
  have h3 := spells_length h
  omega

/-! ## The data -/

mutual
/-- The same document as YAML nodes. -/
def node (conv : Bytes → Option F64) : Doc → Yaml
  | .null => .null
  | .bool b => .bool b
  | .string s => .str s
  | .int l => .int (BitVec.ofInt 64 (intValue l))
  | .num l => match conv l with
    | some r => .float r
    | none => .null
  | .arr ds => .seq (nodes conv ds)
  | .obj ms => .mapping (nodeMembers conv ms)
def nodes (conv : Bytes → Option F64) : List Doc → List Yaml
  | [] => []
  | d :: ds => node conv d :: nodes conv ds
def nodeMembers (conv : Bytes → Option F64) : List (Bytes × Doc) → List (Option Bytes × Yaml)
  | [] => []
  | (k, d) :: ms => (some k, node conv d) :: nodeMembers conv ms
end

theorem nodes_map (conv : Bytes → Option F64) : ∀ ds, nodes conv ds = ds.map (node conv)
  | [] => rfl
  | d :: ds => by rw [nodes, nodes_map conv ds]; rfl

theorem nodeMembers_map (conv : Bytes → Option F64) : ∀ ms,
    nodeMembers conv ms = ms.map fun e => (some e.1, node conv e.2)
  | [] => rfl
  | (k, d) :: ms => by rw [nodeMembers, nodeMembers_map conv ms]; rfl

theorem Kept.elem {ds : List Doc} (h : Kept (.arr ds)) {x : Doc} (hx : x ∈ ds) : Kept x where
  strings s hp := h.strings s (.elem hx hp)
  names ms hp := h.names ms (.elem hx hp)
  keys ms hp := h.keys ms (.elem hx hp)
  size l hp := h.size l (.elem hx hp)
  ints l hp := h.ints l (.elem hx hp)
  apart l hp := h.apart l (.elem hx hp)
  cells l hp := h.cells l (.elem hx hp)
  nums := h.nums.imp (fun h l hp => h l (.elem hx hp)) fun h l hp => h l (.elem hx hp)

theorem Kept.value {ms : List (Bytes × Doc)} (h : Kept (.obj ms)) {x : Bytes × Doc} (hx : x ∈ ms) : Kept x.2 where
  strings s hp := h.strings s (.value (k := x.1) hx hp)
  names ms hp := h.names ms (.value (k := x.1) hx hp)
  keys ms hp := h.keys ms (.value (k := x.1) hx hp)
  size l hp := h.size l (.value (k := x.1) hx hp)
  ints l hp := h.ints l (.value (k := x.1) hx hp)
  apart l hp := h.apart l (.value (k := x.1) hx hp)
  cells l hp := h.cells l (.value (k := x.1) hx hp)
  nums := h.nums.imp (fun h l hp => h l (.value (k := x.1) hx hp)) fun h l hp => h l (.value (k := x.1) hx hp)

theorem cstr_clean {s : Bytes} (h : (0 : Byte) ∉ s) : cstr s = s := by
  have := cstr_of_split (z := []) h rfl
  rwa [List.append_nil] at this

mutual

theorem stored_faithful {conv : Bytes → Option F64} : ∀ d : Doc, Kept d → stored conv d = faithful conv d
  | .null, _ => rfl
  | .bool _, _ => rfl
  | .string s, h => by
    show string (cstr s) = string s
    rw [cstr_clean (h.strings s .self)]
  | .int l, h => by
    show storedInt conv l = intTree l
    have := h.ints l .self
    unfold storedInt intTree
    dsimp only
    by_cases hc : -2 ^ 31 ≤ intValue l ∧ intValue l < 2 ^ 31
    · rw [if_pos hc, if_pos (by omega)]
    · rw [if_neg hc, if_neg (by omega), if_pos (by omega)]
  | .num _, _ => rfl
  | .arr ds, h => by
    show vector _ = vector _
    rw [stored_faithfuls ds fun x hx => Kept.elem h hx]
  | .obj ms, h => by
    show map _ = map _
    rw [stored_members ms [] (h.names ms .self) fun x hx => Kept.value h hx]

theorem stored_faithfuls {conv : Bytes → Option F64} : ∀ ds : List Doc, (∀ x ∈ ds, Kept x) →
    treesOf (storedInt conv) (numTree conv) cstr ds = treesOf intTree (numTree conv) id ds
  | [], _ => rfl
  | d :: ds, h => by
    rw [treesOf, treesOf, stored_faithfuls ds fun x hx => h x (.tail _ hx)]
    exact congrArg (· :: _) (stored_faithful d (h d (.head _)))

theorem stored_members {conv : Bytes → Option F64} : ∀ (ms : List (Bytes × Doc)) (e : Entries),
    (∀ x ∈ ms, (0 : Byte) ∉ x.1) → (∀ x ∈ ms, Kept x.2) →
    membersOf (storedInt conv) (numTree conv) cstr e ms = membersOf intTree (numTree conv) id e ms
  | [], _, _, _ => rfl
  | (k, d) :: ms, e, hk, h => by
    have h1 := stored_faithful (conv := conv) d (h _ (.head _))
    have h2 := hk _ (.head _)
    rw [membersOf, membersOf, cstr_clean h2, id, stored_members ms _ (fun x hx => hk x (.tail _ hx)) fun x hx => h x (.tail _ hx)]
    unfold stored faithful at h1
    rw [h1]

end

theorem whole64 {n : Int} (h1 : -2 ^ 63 ≤ n) (h2 : n < 2 ^ 63) : (BitVec.ofInt 64 n).toInt = n := by
  rw [BitVec.toInt_ofInt, Int.bmod_def]; omega

mutual

theorem node_read {conv : Bytes → Option F64} : ∀ d : Doc, Kept d →
    YAML_to_GC (node conv d) notype = .ok (faithful conv d) ()
  | .null, _ => rfl
  | .bool _, _ => rfl
  | .string s, h => rfl
  | .int l, h => by
    have := h.ints l .self
    show Res.ok (setWhole (BitVec.ofInt 64 (intValue l)) notype) () = .ok (intTree l) ()
    unfold setWhole intTree
    dsimp only
    rw [whole64 this.2.1 this.2.2, set_int, set_long]
    have hw : (BitVec.ofInt 64 (intValue l)).setWidth 32 = BitVec.ofInt 32 (intValue l) := by
      apply BitVec.eq_of_toNat_eq
      rw [BitVec.toNat_setWidth, BitVec.toNat_ofInt, BitVec.toNat_ofInt]
      omega
    by_cases hc : -2 ^ 31 ≤ intValue l ∧ intValue l < 2 ^ 31
    · rw [if_pos hc, if_pos (by omega), hw]
    · rw [if_neg hc, if_neg (by omega)]
  | .num l, _ => by
    show YAML_to_GC (match conv l with | some r => .float r | none => .null) notype = .ok (numTree conv l) ()
    rw [numTree]
    cases conv l <;> rfl
  | .arr ds, h => by
    have h1 := node_reads (conv := conv) ds fun x hx => Kept.elem h hx
    have hl : (nodes conv ds).length = ds.length := by rw [nodes_map, List.length_map]
    rw [node, YAML_to_GC, hl, set_vector_fresh (h.size ds .self), h1]; rfl
  | .obj ms, h => by
    have h1 := node_members (conv := conv) ms [] (fun x hx => Kept.value h hx) (h.keys ms .self) (fun _ _ => rfl)
    rw [node, YAML_to_GC]
    show (match yamlEntries (nodeMembers conv ms) [] with | .ok e => _ | .throw e => _ | .ub => _ | .diverge => _) = _
    rw [h1]; rfl

theorem node_reads {conv : Bytes → Option F64} : ∀ ds : List Doc, (∀ x ∈ ds, Kept x) →
    yamlElems (nodes conv ds) (List.replicate ds.length notype) = .ok (treesOf intTree (numTree conv) id ds)
  | [], _ => by rw [nodes, yamlElems]; rfl
  | d :: ds, h => by
    have h1 := node_read (conv := conv) d (h d (.head _))
    have h2 := node_reads (conv := conv) ds fun x hx => h x (.tail _ hx)
    rw [nodes, List.length_cons, List.replicate_succ, yamlElems, h1]
    simp only [h2]; rfl

theorem node_members {conv : Bytes → Option F64} : ∀ (ms : List (Bytes × Doc)) (e : Entries), (∀ x ∈ ms, Kept x.2) →
    (ms.map Prod.fst).Nodup → (∀ k ∈ ms.map Prod.fst, mfind k e = none) →
    yamlEntries (nodeMembers conv ms) e = .ok (membersOf intTree (numTree conv) id e ms)
  | [], e, _, _, _ => by rw [nodeMembers, yamlEntries]; rfl
  | (k, d) :: ms, e, h, hn, hf => by
    rw [List.map_cons, List.nodup_cons] at hn
    have h1 := node_read (conv := conv) d (h _ (.head _))
    have h2 := node_members (conv := conv) ms (mset k (faithful conv d) e) (fun x hx => h x (.tail _ hx)) hn.2
      (fun k' hk' => by
        have : k' ≠ k := fun h => hn.1 (h ▸ hk')
        rw [mfind_mset_other this]
        exact hf k' (by rw [List.map_cons]; exact .tail _ hk'))
    rw [nodeMembers, yamlEntries, hf k (by rw [List.map_cons]; exact .head _)]
    simp only [Option.getD_none, h1, h2]; rfl

end

theorem node_part {conv : Bytes → Option F64} {y z : Yaml} (h : YInside y z) : ∀ d, z = node conv d →
    ∃ d', Part d' d ∧ y = node conv d' := by
  induction h with
  | self => exact fun d e => ⟨d, .self, e⟩
  | elem hx _ ih =>
    intro d e
    match d with
    | .arr ds =>
      simp only [node, Yaml.seq.injEq] at e
      subst e
      rw [nodes_map] at hx
      obtain ⟨x, hm, rfl⟩ := List.mem_map.1 hx
      obtain ⟨d', h1, h2⟩ := ih x rfl
      exact ⟨d', .elem hm h1, h2⟩
    | .num l => simp only [node] at e; split at e <;> cases e
  | value hx _ ih =>
    intro d e
    match d with
    | .obj ms =>
      simp only [node, Yaml.mapping.injEq] at e
      subst e
      rw [nodeMembers_map] at hx
      obtain ⟨⟨k, x⟩, hm, he⟩ := List.mem_map.1 hx
      simp only [Prod.mk.injEq] at he
      obtain ⟨rfl, rfl⟩ := he
      obtain ⟨d', h1, h2⟩ := ih x rfl
      exact ⟨d', .value hm h1, h2⟩
    | .num l => simp only [node] at e; split at e <;> cases e

theorem node_seq {conv : Bytes → Option F64} {d : Doc} {l : List Yaml} (h : node conv d = .seq l) :
    ∃ ds, d = .arr ds ∧ l = ds.map (node conv) := by
  match d with
  | .arr ds =>
    simp only [node, Yaml.seq.injEq] at h
    exact ⟨ds, rfl, by rw [← h, nodes_map]⟩
  | .num l => simp only [node] at h; split at h <;> cases h

theorem node_mapping {conv : Bytes → Option F64} {d : Doc} {l : List (Option Bytes × Yaml)} (h : node conv d = .mapping l) :
    ∃ ms, d = .obj ms ∧ l = ms.map fun e => (some e.1, node conv e.2) := by
  match d with
  | .obj ms =>
    simp only [node, Yaml.mapping.injEq] at h
    exact ⟨ms, rfl, by rw [← h, nodeMembers_map]⟩
  | .num l => simp only [node] at h; split at h <;> cases h

theorem node_ok {conv : Bytes → Option F64} : ∀ (n : Nat) (d : Doc), sizeOf d < n → Kept d → YamlOk (node conv d)
  | 0, _, h, _ => absurd h (by omega)
  | n + 1, d, hn, h => by
    match d with
    | .null => exact .null
    | .bool _ => exact .bool
    | .string _ => exact .str
    | .int _ => exact .int
    | .num l => rw [node]; cases conv l <;> first | exact .float | exact .null
    | .arr ds =>
      rw [node, nodes_map]
      refine .seq (by rw [List.length_map]; exact h.size ds .self) fun y hy => ?_
      obtain ⟨x, hx, rfl⟩ := List.mem_map.1 hy
      have := List.sizeOf_lt_of_mem hx
      exact node_ok n x (by simp only [Doc.arr.sizeOf_spec] at hn; omega) (Kept.elem h hx)
    | .obj ms =>
      rw [node, nodeMembers_map]
      refine .mapping ?_ ?_ fun y hy => ?_
      · have := h.keys ms .self
        rw [List.map_map]
        have e : (ms.map (Prod.fst ∘ fun e : Bytes × Doc => (some e.1, node conv e.2))) = (ms.map Prod.fst).map some := by
          rw [List.map_map]; rfl
        rw [e]
        exact List.Pairwise.map _ (fun a b h h' => h (Option.some.inj h')) this
      · intro hm
        obtain ⟨⟨a, b⟩, h1, h2⟩ := List.mem_map.1 hm
        obtain ⟨x, _, h3⟩ := List.mem_map.1 h1
        simp only [Prod.mk.injEq] at h3
        rw [← h3.1] at h2
        cases h2
      · obtain ⟨x, hx, rfl⟩ := List.mem_map.1 hy
        have := List.sizeOf_lt_of_mem hx
        have h2 : sizeOf x.2 < sizeOf x := by cases x; simp only [Prod.mk.sizeOf_spec]; omega
        exact node_ok n x.2 (by simp only [Doc.obj.sizeOf_spec] at hn; omega) (Kept.value h hx)

theorem node_flat {conv : Bytes → Option F64} {d : Doc} (h : Kept d) : YamlFlat (node conv d) where
  apart l hl := by
    obtain ⟨d', hp, he⟩ := node_part hl d rfl
    obtain ⟨ds, rfl, rfl⟩ := node_seq he.symm
    rcases h.apart ds hp with ha | ha
    · left
      intro y hy
      obtain ⟨x, hx, rfl⟩ := List.mem_map.1 hy
      obtain ⟨l, rfl⟩ := ha x hx
      exact ⟨_, rfl⟩
    · right
      intro y hy s e
      obtain ⟨x, hx, rfl⟩ := List.mem_map.1 hy
      obtain ⟨l, rfl, _⟩ := node_seq e
      exact ha _ hx l rfl
  cells l hl s hs := by
    obtain ⟨d', hp, he⟩ := node_part hl d rfl
    obtain ⟨ds, rfl, rfl⟩ := node_seq he.symm
    obtain ⟨x, hx, e⟩ := List.mem_map.1 hs
    obtain ⟨l, rfl, rfl⟩ := node_seq e
    rw [List.length_map, List.length_map]
    exact h.cells ds hp l hx
  nums := by
    rcases h.nums with hn | hn
    · left
      intro n hi
      obtain ⟨d', hp, he⟩ := node_part hi d rfl
      match d' with
      | .int l =>
        simp only [node, Yaml.int.injEq] at he
        subst he
        have := h.ints l hp
        rw [whole64 this.2.1 this.2.2]
        exact hn l hp
      | .num l => simp only [node] at he; split at he <;> cases he
    · right
      intro r hr
      obtain ⟨d', hp, he⟩ := node_part hr d rfl
      match d' with
      | .num l => exact hn l hp

theorem faithful_collapse {conv : Bytes → Option F64} {d : Doc} (h : Kept d) :
    ∃ g', collapse (faithful conv d) = .ok g' () ∧ SameTree (view (faithful conv d)) (view g') := by
  have hok := node_ok (conv := conv) _ d (Nat.lt_succ_self _) h
  obtain ⟨g, h1, h2⟩ := yaml_read hok
  rw [node_read d h] at h1
  simp only [Res.ok.injEq, and_true] at h1
  subst h1
  exact yaml_collapse hok (node_flat h) h2

end GC
end GCV
