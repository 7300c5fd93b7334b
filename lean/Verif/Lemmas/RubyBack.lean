import Verif.Lemmas.RubyRead
import Mathlib.Data.List.TakeWhile

/-!
# Which Ruby objects come back
-/

namespace GCV
namespace Ruby
open GC CApi

theorem value_none {g : GC} : value g = none ↔ HoldsMap g := by
  constructor
  · exact value_none_holds g
  · intro h
    induction h with
    | map m => rfl
    | elem v g h hg ih =>
      have : ∀ {v : List GC}, g ∈ v → values v = none := by
        intro v
        induction v with
        | nil => intro h; cases h
        | cons x v iv =>
          intro h
          rcases List.mem_cons.1 h with rfl | h
          · simp [values, ih]
          · cases hx : value x <;> simp [values, hx, iv h]
      simp [value, this h]
where
  value_none_holds : ∀ g : GC, value g = none → HoldsMap g
    | vector v, h => by
      simp only [value, Option.map_eq_none_iff] at h
      obtain ⟨g, h1, h2⟩ := values_none_holds v h
      exact .elem v g h1 h2
    | map m, _ => .map m
    | notype, h => by cases h
    | pointer _, h => by cases h
    | GC.bool _, h => by cases h
    | int _, h => by cases h
    | long _, h => by cases h
    | real _, h => by cases h
    | complex _, h => by cases h
    | string _, h => by cases h
    | vecPointer _, h => by cases h
    | vecBool _, h => by cases h
    | vecInt _, h => by cases h
    | vecLong _, h => by cases h
    | vecReal _, h => by cases h
    | vecComplex _, h => by cases h
    | vecString _, h => by cases h
    | matInt _, h => by cases h
    | matLong _, h => by cases h
    | matReal _, h => by cases h
    | matComplex _, h => by cases h
  values_none_holds : ∀ v : List GC, values v = none → ∃ g ∈ v, HoldsMap g
    | [], h => by cases h
    | g :: v, h => by
      rw [values] at h
      cases hg : value g with
      | none => exact ⟨g, .head _, value_none_holds g hg⟩
      | some x =>
        cases hv : values v with
        | none =>
          obtain ⟨y, h1, h2⟩ := values_none_holds v hv
          exact ⟨y, .tail _ h1, h2⟩
        | some xs => rw [hg, hv] at h; cases h

theorem values_append : ∀ (a b : List GC), values (a ++ b) = (values a).bind fun x => (values b).map (x ++ ·)
  | [], b => by cases h : values b <;> simp [values, h]
  | g :: a, b => by
    rw [List.cons_append, values, values, values_append a b]
    cases value g <;> cases values a <;> cases values b <;> rfl

theorem values_length : ∀ {a : List GC} {xs : List Rb}, values a = some xs → xs.length = a.length
  | [], xs, h => by cases h; rfl
  | g :: a, xs, h => by
    rw [values] at h
    cases hg : value g with
    | none => rw [hg] at h; cases h
    | some x =>
      cases ha : values a with
      | none => rw [hg, ha] at h; cases h
      | some ys =>
        rw [hg, ha] at h
        cases h
        simp [values_length ha]

theorem values_map (f : Rb → GC) : ∀ (l : List Rb), values (l.map f) = some l ↔ ∀ x ∈ l, value (f x) = some x
  | [] => by simp [values]
  | x :: l => by
    rw [List.map_cons, values, List.forall_mem_cons, ← values_map f l]
    cases h1 : value (f x) <;> cases h2 : values (l.map f) <;> simp

theorem values_append_map (f h : Rb → GC) (a b : List Rb) :
    values (a.map f ++ b.map h) = some (a ++ b) ↔ (∀ x ∈ a, value (f x) = some x) ∧ ∀ x ∈ b, value (h x) = some x := by
  rw [values_append, ← values_map, ← values_map]
  cases ha : values (a.map f) with
  | none => simp
  | some x =>
    cases hb : values (b.map h) with
    | none => simp
    | some y =>
      have := values_length ha
      rw [List.length_map] at this
      simp only [Option.bind_some, Option.map_some, Option.some.injEq]
      exact ⟨fun e => List.append_inj e this, fun e => by rw [e.1, e.2]⟩

theorem value_packed (w : Width) (l : List Rb) : value (packed w l) = (values (l.map (Rb.as w))).map .arr := by
  induction l with
  | nil => cases w <;> rfl
  | cons x l ih =>
    cases w <;> simp only [packed, value, List.map_cons, values, Rb.as, List.map_map, Option.bind_some] at ih ⊢ <;>
      (cases hv : values (l.map _) with
       | none => rw [hv] at ih; cases ih
       | some xs => rw [hv] at ih; cases ih; rfl)

theorem value_texts (l : List Rb) (h : ∀ x ∈ l, x.isText = true) :
    value (vecString (l.map Rb.asText)) = (values (l.map Rb.single)).map .arr := by
  induction l with
  | nil => rfl
  | cons x l ih =>
    have ih := ih fun y hy => h y (.tail _ hy)
    have hx := h x (.head _)
    cases x <;> simp only [Rb.isText, Bool.false_eq_true] at hx <;>
      simp only [value, List.map_cons, values, Rb.single, Rb.asText, List.map_map, Option.bind_some] at ih ⊢ <;>
      (cases hv : values (l.map Rb.single) with
       | none => rw [hv] at ih; cases ih
       | some xs => rw [hv] at ih; cases ih; rfl)

theorem ofInt_toInt {n : Int} (h : -2 ^ 31 ≤ n ∧ n < 2 ^ 31) : (BitVec.ofInt 32 n).toInt = n := by
  rw [BitVec.toInt_ofInt]
  exact Int.bmod_eq_of_le (by omega) (by omega)

theorem value_single {x : Rb} (hs : x.isScalar = true) (hf : x.fits = true) : value x.single = some x ↔ x.Back := by
  cases x <;> simp only [Rb.isScalar, Bool.false_eq_true] at hs <;>
    simp only [Rb.single, value, Rb.Back, reduceCtorEq, Option.some.injEq]
  · simp only [Rb.fits, decide_eq_true_eq] at hf
    simp only [ofInt_toInt hf, true_iff]; exact hf
  · simp only [Rb.fits, decide_eq_true_eq] at hf
    simp only [cstr_fits hf, true_iff]; exact hf

/-- A number of a type. -/
def Kind : Width → Rb → Prop
  | .bool, _ => False
  | .int, x => x.isInt = true
  | .real, x => x.isFloat = true

theorem value_as {w : Width} {x : Rb} (hs : x.isScalar = true) (hf : x.fits = true) (ht : x.isText = false)
    (hw : w.max x.width = w) : value (x.as w) = some x ↔ Kind w x := by
  cases x <;> simp only [Rb.isScalar, Rb.isText, Bool.false_eq_true, reduceCtorEq] at hs ht <;> cases w <;>
    simp only [Rb.width, Width.max, reduceCtorEq] at hw <;> simp [Rb.as, value, Rb.asBool, Rb.asInt, Rb.asReal, Rb.isInt, Rb.isFloat, Kind, -BitVec.toInt_ofInt]
  simp only [Rb.fits, decide_eq_true_eq] at hf
  exact ofInt_toInt hf

theorem backList_iff : ∀ {l : List Rb}, BackList l ↔ ∀ x ∈ l, x.Back
  | [] => by simp [BackList]
  | x :: l => by rw [BackList, backList_iff, List.forall_mem_cons]

theorem back_fits {x : Rb} (h : x.Back) : x.fits = true := by
  cases x <;> simp only [Rb.Back] at h <;> simp [Rb.fits] <;> assumption

/-- The widest type of numbers. -/
theorem widest_int {l : List Rb} (hne : l ≠ []) (h : ∀ x ∈ l, x.isInt = true) : widest l = .int := by
  cases l with
  | nil => exact absurd rfl hne
  | cons x l =>
    clear hne
    induction l generalizing x with
    | nil => have := h x (.head _); cases x <;> simp only [Rb.isInt, Bool.false_eq_true] at this; rfl
    | cons y l ih =>
      have := h x (.head _)
      rw [widest, ih y fun z hz => h z (.tail _ hz)]
      cases x <;> simp only [Rb.isInt, Bool.false_eq_true] at this; rfl

theorem widest_real {l : List Rb} (hne : l ≠ []) (h : ∀ x ∈ l, x.isFloat = true) : widest l = .real := by
  cases l with
  | nil => exact absurd rfl hne
  | cons x l =>
    have := h x (.head _)
    cases x <;> simp only [Rb.isFloat, Bool.false_eq_true] at this
    rfl

theorem widest_mem : ∀ {l : List Rb} {x : Rb}, x ∈ l → (widest l).max x.width = widest l
  | y :: l, x, h => by
    rw [widest]
    rcases List.mem_cons.1 h with rfl | h
    · rw [max_comm _ x.width, ← max_max, max_self]
    · rw [max_max, widest_mem h]

theorem values_numbers {l : List Rb} (hne : l ≠ []) (hs : ∀ x ∈ l, x.isScalar = true) (hf : ∀ x ∈ l, x.fits = true)
    (ht : ∀ x ∈ l, x.isText = false) :
    (∀ x ∈ l, value (x.as (widest l)) = some x) ↔ (∀ x ∈ l, x.isInt = true) ∨ ∀ x ∈ l, x.isFloat = true := by
  have hv : ∀ w, widest l = w → ((∀ x ∈ l, value (x.as w) = some x) ↔ ∀ x ∈ l, Kind w x) := fun w hw =>
    ⟨fun h x hx => (value_as (hs x hx) (hf x hx) (ht x hx) (hw ▸ widest_mem hx)).1 (h x hx),
     fun h x hx => (value_as (hs x hx) (hf x hx) (ht x hx) (hw ▸ widest_mem hx)).2 (h x hx)⟩
  constructor
  · intro h
    cases hw : widest l with
    | bool =>
      rw [hw] at h
      obtain ⟨x, hx⟩ := List.exists_mem_of_ne_nil l hne
      exact ((hv .bool hw).1 h x hx).elim
    | int => rw [hw] at h; exact .inl ((hv .int hw).1 h)
    | real => rw [hw] at h; exact .inr ((hv .real hw).1 h)
  · rintro (h | h)
    · rw [widest_int hne h]; exact (hv .int (widest_int hne h)).2 h
    · rw [widest_real hne h]; exact (hv .real (widest_real hne h)).2 h

theorem numbers_after (l : List Rb) : numbers l ++ afterNumbers l = l := List.takeWhile_append_dropWhile

theorem back_of_number {x : Rb} (hf : x.fits = true) (h : x.isInt = true ∨ x.isFloat = true) : x.Back := by
  cases x <;> simp only [Rb.isInt, Rb.isFloat, Bool.false_eq_true, or_self] at h <;> simp only [Rb.Back]
  simpa [Rb.fits] using hf

theorem numbers_text {l : List Rb} {x : Rb} (h : x ∈ numbers l) : x.isText = false := by
  have := List.mem_takeWhile_imp h
  simpa using this

theorem scalars_back {l : List Rb} (hs : ∀ x ∈ l, x.isScalar = true) (hf : ∀ x ∈ l, x.fits = true) :
    (scalars l).bind value = some (.arr l) ↔
      BackList l ∧ ((∀ x ∈ l, x.isText = true) ∨ (numbers l ≠ [] ∧
        ((∀ x ∈ numbers l, x.isInt = true) ∨ ∀ x ∈ numbers l, x.isFloat = true))) := by
  have hl := numbers_after l
  have hin : ∀ x ∈ numbers l, x ∈ l := fun x hx => by rw [← hl]; exact List.mem_append_left _ hx
  have hia : ∀ x ∈ afterNumbers l, x ∈ l := fun x hx => by
    have : x ∈ numbers l ++ afterNumbers l := List.mem_append_right _ hx
    rwa [hl] at this
  unfold scalars
  by_cases h0 : l = []
  · subst h0
    simp [value, BackList]
  rw [if_neg h0]
  by_cases h1 : l.all Rb.isText = true
  · rw [if_pos h1]
    rw [List.all_eq_true] at h1
    rw [Option.bind_some, value_texts l h1, backList_iff]
    constructor
    · intro h
      refine ⟨fun x hx => (value_single (hs x hx) (hf x hx)).1 ?_, .inl h1⟩
      cases hv : values (l.map Rb.single) with
      | none => rw [hv] at h; cases h
      | some y => rw [hv] at h; cases h; exact (values_map _ _).1 hv x hx
    · intro h
      rw [(values_map Rb.single l).2 fun x hx => (value_single (hs x hx) (hf x hx)).2 (h.1 x hx)]
      rfl
  rw [if_neg h1]
  have h1' : ¬ ∀ x ∈ l, x.isText = true := by rwa [List.all_eq_true] at h1
  by_cases h2 : numbers l = []
  · rw [if_pos h2]
    constructor
    · intro h; cases h
    · intro h
      rcases h.2 with h | h
      · exact absurd h h1'
      · exact absurd h2 h.1
  rw [if_neg h2]
  have hN := values_numbers h2 (fun x hx => hs x (hin x hx)) (fun x hx => hf x (hin x hx)) fun x hx => numbers_text hx
  by_cases h3 : afterNumbers l = []
  · rw [if_pos h3]
    have hn : numbers l = l := by rw [h3, List.append_nil] at hl; exact hl
    rw [hn] at hN ⊢
    rw [Option.bind_some, value_packed, backList_iff]
    constructor
    · intro h
      have hv : values (l.map (Rb.as (widest l))) = some l := by
        cases hv : values (l.map (Rb.as (widest l))) with
        | none => rw [hv] at h; cases h
        | some y => rw [hv] at h; cases h; rfl
      have hk := hN.1 ((values_map _ _).1 hv)
      refine ⟨fun x hx => back_of_number (hf x hx) ?_, .inr ⟨h0, hk⟩⟩
      rcases hk with hk | hk
      · exact .inl (hk x hx)
      · exact .inr (hk x hx)
    · intro h
      rcases h.2 with h4 | h4
      · exact absurd h4 h1'
      · rw [(values_map _ _).2 (hN.2 h4.2)]; rfl
  · rw [if_neg h3, Option.bind_some, value, backList_iff]
    have hv : (values ((numbers l).map (Rb.as (widest (numbers l))) ++ (afterNumbers l).map Rb.single)).map Rb.arr = some (.arr l) ↔
        values ((numbers l).map (Rb.as (widest (numbers l))) ++ (afterNumbers l).map Rb.single) = some (numbers l ++ afterNumbers l) := by
      rw [hl]
      cases values ((numbers l).map (Rb.as (widest (numbers l))) ++ (afterNumbers l).map Rb.single) <;> simp
    rw [hv, values_append_map, hN]
    constructor
    · intro h
      refine ⟨fun x hx => ?_, .inr ⟨h2, h.1⟩⟩
      have hx' : x ∈ numbers l ++ afterNumbers l := by rw [hl]; exact hx
      rcases List.mem_append.1 hx' with h4 | h4
      · refine back_of_number (hf x hx) ?_
        rcases h.1 with hk | hk
        · exact .inl (hk x h4)
        · exact .inr (hk x h4)
      · exact (value_single (hs x hx) (hf x hx)).1 (h.2 x h4)
    · intro h
      refine ⟨?_, fun x hx => (value_single (hs x (hia x hx)) (hf x (hia x hx))).2 (h.1 x (hia x hx))⟩
      rcases h.2 with h4 | h4
      · exact absurd h4 h1'
      · exact h4.2

mutual
theorem image_back : ∀ (v : Rb), (image v).bind value = some v ↔ v.Back
  | .nil => by simp [image, Rb.fits, Rb.single, value, Rb.Back]
  | .other => by simp [image, Rb.fits, Rb.single, value, Rb.Back]
  | .tru => by simp [image, Rb.fits, Rb.single, value, Rb.Back]
  | .fals => by simp [image, Rb.fits, Rb.single, value, Rb.Back]
  | .int n => by
    rw [image_scalar rfl]
    cases hf : (Rb.int n).fits with
    | true => rw [if_pos rfl]; exact value_single rfl hf
    | false => rw [if_neg (by simp)]; exact ⟨fun h => (by cases h), fun h => by rw [back_fits h] at hf; cases hf⟩
  | .float x => by simp [image, Rb.fits, Rb.single, value, Rb.Back]
  | .str s => by
    rw [image_scalar rfl]
    cases hf : (Rb.str s).fits with
    | true => rw [if_pos rfl]; exact value_single rfl hf
    | false => rw [if_neg (by simp)]; exact ⟨fun h => (by cases h), fun h => by rw [back_fits h] at hf; cases hf⟩
  | .sym s => by
    rw [image_scalar rfl]
    cases hf : (Rb.sym s).fits with
    | true => rw [if_pos rfl]; exact value_single rfl hf
    | false => rw [if_neg (by simp)]; exact ⟨fun h => (by cases h), fun h => by simp [Rb.Back] at h⟩
  | .hash m => by
    rw [image]
    cases imageEntries m <;> simp [value, Rb.Back]
  | .arr l => by
    rw [image, Rb.Back]
    by_cases h : l.all Rb.isScalar = true
    · rw [if_pos h]
      rw [List.all_eq_true] at h
      have hll : leading l = l := List.takeWhile_eq_self_iff.2 (by simpa using h)
      rw [hll]
      by_cases hf : l.all Rb.fits = true
      · rw [if_pos hf]
        rw [List.all_eq_true] at hf
        rw [scalars_back h hf]
        simp only [true_imp_iff]
      · rw [if_neg hf]
        refine ⟨fun h => (by cases h), fun h => absurd (List.all_eq_true.2 fun x hx => back_fits (backList_iff.1 h.1 x hx)) hf⟩
    · rw [if_neg h]
      have hll : leading l ≠ l := fun e => h (List.all_eq_true.2 (by simpa using List.takeWhile_eq_self_iff.1 e))
      have hc : ((∀ x ∈ leading l, x.isText = true) ∨ (numbers (leading l) ≠ [] ∧
          (leading l = l → (∀ x ∈ numbers l, x.isInt = true) ∨ ∀ x ∈ numbers l, x.isFloat = true))) ↔
          ((leading l).head?.any Rb.isText && (leading l).any (fun x => !x.isText)) = false := by
        cases hq : leading l with
        | nil => simp
        | cons x xs =>
          rw [hq] at hll
          cases ht : x.isText with
          | true =>
            have hn : numbers (x :: xs) = [] := by simp [numbers, ht]
            simp [hn, ht]
          | false =>
            have hn : numbers (x :: xs) ≠ [] := by simp [numbers, ht]
            simp [hn, ht, hll]
      rw [hc]
      by_cases hb : ((leading l).head?.any Rb.isText && (leading l).any (fun x => !x.isText)) = true
      · rw [if_pos hb]
        refine ⟨fun h => (by cases h), fun h => by rw [hb] at h; cases h.2⟩
      · rw [if_neg hb, ← images_back l]
        simp only [Bool.not_eq_true] at hb
        rw [hb]
        cases hi : images l with
        | none => simp
        | some gs =>
          simp only [Option.map_some, Option.bind_some, value, and_true]
          cases values gs <;> simp
theorem images_back : ∀ (l : List Rb), (images l).bind values = some l ↔ BackList l
  | [] => by simp [images, values, BackList]
  | x :: l => by
    rw [BackList, ← image_back x, ← images_back l, images]
    cases image x with
    | none => simp
    | some g =>
      cases images l with
      | none => simp
      | some gs =>
        simp only [Option.bind_some, values]
        cases value g <;> cases values gs <;> simp
end

/-! ## What is stored is sound and small -/

theorem WFL_of : ∀ {v : List GC}, (∀ g ∈ v, WF g) → WFL v
  | [], _ => by simp [WFL]
  | g :: v, h => by
    rw [WFL]
    exact ⟨h g (.head _), WFL_of fun x hx => h x (.tail _ hx)⟩

theorem SmallList_of : ∀ {v : List GC}, (∀ g ∈ v, Small g) → SmallList v
  | [], _ => by simp [SmallList]
  | g :: v, h => by
    rw [SmallList]
    exact ⟨h g (.head _), SmallList_of fun x hx => h x (.tail _ hx)⟩

theorem foldl_wf : ∀ (es : List (Bytes × GC)) (m : Entries), (∀ e ∈ es, WF e.2) → KeysSorted m ∧ WFM m →
    KeysSorted (es.foldl (fun acc e => mset e.1 e.2 acc) m) ∧ WFM (es.foldl (fun acc e => mset e.1 e.2 acc) m)
  | [], m, _, h => h
  | e :: es, m, he, h => foldl_wf es _ (fun x hx => he x (.tail _ hx)) ⟨sorted_mset _ _ _ h.1, WFM_mset h.2 (he e (.head _))⟩

theorem single_ok (x : Rb) : Small x.single ∧ WF x.single := by cases x <;> simp [Rb.single, Small, WF]
theorem as_ok (w : Width) (x : Rb) : Small (x.as w) ∧ WF (x.as w) := by cases w <;> simp [Rb.as, Small, WF]

theorem scalars_ok {l : List Rb} {s : GC} (hl : l.length < 2 ^ 31) (h : scalars l = some s) : Small s ∧ WF s := by
  unfold scalars at h
  split at h
  · cases h; simp [Small, WF]
  · split at h
    · cases h; simpa [Small, WF] using hl
    · split at h
      · cases h
      · split at h
        · cases h
          cases widest l <;> simpa [packed, Small, WF] using hl
        · cases h
          have : ((numbers l).map (Rb.as (widest (numbers l))) ++ (afterNumbers l).map Rb.single).length < 2 ^ 31 := by
            have := congrArg List.length (numbers_after l)
            simp only [List.length_append, List.length_map] at this ⊢
            omega
          simp only [Small, WF]
          refine ⟨⟨this, SmallList_of fun g hg => ?_⟩, WFL_of fun g hg => ?_⟩ <;>
          · rcases List.mem_append.1 hg with hg | hg <;> obtain ⟨x, _, rfl⟩ := List.mem_map.1 hg
            · first | exact (as_ok _ x).1 | exact (as_ok _ x).2
            · first | exact (single_ok x).1 | exact (single_ok x).2

mutual
theorem image_ok : ∀ (v : Rb) {s : GC}, v.Proper → image v = some s → Small s ∧ WF s
  | .arr l, s, hp, h => by
    rw [image] at h
    rw [Rb.Proper] at hp
    split at h
    · split at h
      · exact scalars_ok hp.1 h
      · cases h
    · split at h
      · cases h
      · cases hi : images l with
        | none => rw [hi] at h; cases h
        | some gs =>
          rw [hi] at h
          cases h
          obtain ⟨h1, h2⟩ := images_ok l hp.2 hi
          simp only [Small, WF]
          exact ⟨⟨by omega, SmallList_of fun g hg => (h2 g hg).1⟩, WFL_of fun g hg => (h2 g hg).2⟩
  | .hash m, s, hp, h => by
    rw [image] at h
    rw [Rb.Proper] at hp
    cases hi : imageEntries m with
    | none => rw [hi] at h; cases h
    | some gs =>
      rw [hi] at h
      cases h
      simp only [Small, WF, true_and]
      exact foldl_wf gs [] (entries_ok m hp.2 hi) ⟨by simp [KeysSorted], by simp [WFM]⟩
  | .nil, s, _, h => by cases h; exact single_ok .nil
  | .other, s, _, h => by cases h; exact single_ok .other
  | .tru, s, _, h => by cases h; exact single_ok .tru
  | .fals, s, _, h => by cases h; exact single_ok .fals
  | .float x, s, _, h => by cases h; exact single_ok (.float x)
  | .int n, s, _, h => by
    rw [image_scalar rfl] at h
    split at h
    · cases h; exact single_ok (.int n)
    · cases h
  | .str n, s, _, h => by
    rw [image_scalar rfl] at h
    split at h
    · cases h; exact single_ok (.str n)
    · cases h
  | .sym n, s, _, h => by
    rw [image_scalar rfl] at h
    split at h
    · cases h; exact single_ok (.sym n)
    · cases h
theorem images_ok : ∀ (l : List Rb) {gs : List GC}, ProperList l → images l = some gs →
    gs.length = l.length ∧ ∀ g ∈ gs, Small g ∧ WF g
  | [], gs, _, h => by cases h; exact ⟨rfl, fun g hg => by cases hg⟩
  | x :: l, gs, hp, h => by
    rw [images] at h
    rw [ProperList] at hp
    cases hx : image x with
    | none => rw [hx] at h; cases h
    | some g =>
      cases hl : images l with
      | none => rw [hx, hl] at h; cases h
      | some gs' =>
        rw [hx, hl] at h
        cases h
        obtain ⟨h1, h2⟩ := images_ok l hp.2 hl
        refine ⟨by simp [h1], fun y hy => ?_⟩
        rcases List.mem_cons.1 hy with rfl | hy
        · exact image_ok x hp.1 hx
        · exact h2 y hy
theorem entries_ok : ∀ (m : List (Bytes × Rb)) {gs : List (Bytes × GC)}, ProperEntries m → imageEntries m = some gs →
    ∀ e ∈ gs, WF e.2
  | [], gs, _, h => by cases h; intro e he; cases he
  | (k, x) :: m, gs, hp, h => by
    rw [imageEntries] at h
    rw [ProperEntries] at hp
    split at h
    · cases h
    · cases hx : image x with
      | none => rw [hx] at h; cases h
      | some g =>
        cases hl : imageEntries m with
        | none => rw [hx, hl] at h; cases h
        | some gs' =>
          rw [hx, hl] at h
          cases h
          intro e he
          rcases List.mem_cons.1 he with rfl | he
          · exact (image_ok x hp.1 hx).2
          · exact entries_ok m hp.2 hl e he
end

end Ruby
end GCV
