import Verif.Lemmas.RubyBack
import Verif.Props.CInterface

/-!
# C84, C85, C86: the Ruby interface
-/

namespace GCV
namespace Ruby
open GC CApi

/-! ## The object whose method is called -/

theorem find_of_named {l : Lib} {id : Bytes} {e : Explorer} (he : l.named id = some e) :
    ∃ a, l.find id = some a ∧ l.heap[a]? = some e := by
  unfold Lib.named at he
  cases hf : l.find id with
  | none => rw [hf] at he; cases he
  | some a => rw [hf] at he; exact ⟨a, rfl, he⟩

theorem at_select {l : Lib} {id : Bytes} {d : GC} {p : List Sel} {r : List (Option (List Sel))} {it : Iter}
    (hn : Named l) (hc : Chain d (some p :: r)) (he : l.named id = some ⟨d, some p :: r, it⟩) :
    ∃ a, l.find id = some a ∧ l.select id = { l with active := some a } ∧ At (l.select id) a d p r (l.select id) ∧
      check (.select id) l = .ok (l.select id) () := by
  obtain ⟨a, hf, hh⟩ := find_of_named he
  have hs : l.select id = { l with active := some a } := by unfold Lib.select; rw [hf]
  refine ⟨a, hf, hs, ⟨?_, ?_, hc, it, ?_⟩, by simp [check, call, Call.run, OK, RbOut.bind]⟩
  · rw [hs]
  · rw [hs]; exact (List.getElem?_eq_some_iff.1 hh).1
  · rw [hs]
    show (⟨_, _, _⟩ : Lib) = ⟨_, _, _⟩
    rw [set_same hh]

theorem after_at {l l' : Lib} {id : Bytes} {a : Nat} {d : GC} {p : List Sel} {r : List (Option (List Sel))}
    (hn : Named l) (hf : l.find id = some a) (hs : l.select id = { l with active := some a })
    (h : At (l.select id) a d p r l') :
    (∃ it, l'.named id = some ⟨d, some p :: r, it⟩) ∧ (∀ id', id' ≠ id → l'.named id' = l.named id') ∧ Named l' := by
  obtain ⟨h1, h2, h3, it, rfl⟩ := h
  rw [hs] at h2 ⊢
  refine ⟨⟨it, ?_⟩, fun id' hne => ?_, ?_⟩
  · show ((l.find id).bind fun b => (l.heap.set a ⟨d, some p :: r, it⟩)[b]?) = _
    rw [hf]
    exact List.getElem?_set_self h2
  · show ((l.find id').bind fun b => (l.heap.set a ⟨d, some p :: r, it⟩)[b]?) = (l.find id').bind fun b => l.heap[b]?
    cases hf' : l.find id' with
    | none => rfl
    | some b =>
      have : b ≠ a := fun e => hne (find_inj hn (e ▸ hf') hf)
      exact List.getElem?_set_ne (Ne.symm this)
  · have := select_named id hn
    rw [hs] at this
    exact named_of_frame this rfl rfl (by simp)

theorem loaded {l : Lib} {id : Bytes} {d g : GC} {p : List Sel} {r : List (Option (List Sel))} {it : Iter} {v : Rb}
    (hn : Named l) (hw : WF d) (hc : Chain d (some p :: r)) (he : l.named id = some ⟨d, some p :: r, it⟩)
    (hg : getAt p d = some g) (hv : v.Proper) (hb : Base v g) :
    ∃ a, l.find id = some a ∧ l.select id = { l with active := some a } ∧
      Loaded (l.select id) a d p r (image v) (load id v l) := by
  obtain ⟨a, hf, hs, hat, hk⟩ := at_select hn hc he
  refine ⟨a, hf, hs, ?_⟩
  have := fromHash_spec v hv hb hg (by rw [modAt_same hw hg]; exact hat)
  unfold load
  rw [hk]
  exact this

theorem reached {l : Lib} (h : ReachableNoFill l) {id : Bytes} {e : Explorer} (he : l.named id = some e) :
    Named l ∧ WF e.data ∧ Chain e.data e.head := by
  obtain ⟨h1, h2⟩ := reachable_placed h
  obtain ⟨a, hf, hh⟩ := find_of_named he
  have := h2 e (List.mem_of_getElem? hh)
  exact ⟨h1, this.1.1, this.2⟩

/-! ## C84 -/

/-- C84: `load` of an object on a container that is empty, or holds no array and no hash, stores exactly the container that
the object stands for, where the cursor is, and leaves the cursor and the other objects as they are; when the object stands
for none, it raises, and only what is at the cursor has changed. -/
theorem C84_load (l : Lib) (h : ReachableNoFill l) (id : Bytes) (d g : GC) (p : List Sel) (r : List (Option (List Sel)))
    (it : Iter) (he : l.named id = some ⟨d, some p :: r, it⟩) (hg : getAt p d = some g) (v : Rb) (hv : v.Proper)
    (hb : g = notype ∨ (plain g = true ∧ v.isVoid = false)) :
    (∀ s, image v = some s → ∃ l' it', load id v l = .ok l' () ∧
      l'.named id = some ⟨modAt p (fun _ => s) d, some p :: r, it'⟩ ∧ ∀ id', id' ≠ id → l'.named id' = l.named id') ∧
    (image v = none → ∃ l' it' s q, load id v l = .raise l' ∧
      l'.named id = some ⟨modAt p (fun _ => s) d, some (p ++ q) :: below p r q, it'⟩ ∧
      ∀ id', id' ≠ id → l'.named id' = l.named id') := by
  obtain ⟨hn, hw, hc⟩ := reached h he
  obtain ⟨a, hf, hs, hl⟩ := loaded hn hw hc he hg hv hb
  refine ⟨fun s hi => ?_, fun hi => ?_⟩
  · rw [hi] at hl
    obtain ⟨l', e1, e2⟩ := hl
    obtain ⟨⟨it', h1⟩, h2, _⟩ := after_at hn hf hs e2
    exact ⟨l', it', e1, h1, h2⟩
  · rw [hi] at hl
    obtain ⟨l', s, q, e1, e2⟩ := hl
    obtain ⟨⟨it', h1⟩, h2, _⟩ := after_at hn hf hs e2
    exact ⟨l', it', s, q, e1, h1, h2⟩

/-- A new object is empty, with the cursor on it. -/
theorem C84_new (l : Lib) (id : Bytes) (h : l.find id = none) :
    ∃ l', (Call.new id).run l = .ok l' (.code 0) ∧ l'.named id = some ⟨notype, [some []], .null⟩ ∧
      ∀ id' e, l.named id' = some e → l'.named id' = some e := by
  obtain ⟨h1, _, h3⟩ := C34_select l id
  refine ⟨l.select id, rfl, ?_, h3⟩
  have := h1 h
  unfold Lib.named
  rw [(find_select_self (l := l) id).1]
  exact this

/-- Loading an array of integers on a vector of integers does not replace it: the integers are appended. -/
theorem C84_array_again (l : Lib) (h : ReachableNoFill l) (id : Bytes) (d : GC) (v : List I32) (p : List Sel)
    (r : List (Option (List Sel))) (it : Iter) (he : l.named id = some ⟨d, some p :: r, it⟩)
    (hg : getAt p d = some (vecInt v)) (ns : List Int) (hne : ns ≠ []) (hr : ∀ n ∈ ns, -2 ^ 31 ≤ n ∧ n < 2 ^ 31)
    (hl : v.length + ns.length < 2 ^ 32) :
    ∃ l' it', load id (.arr (ns.map .int)) l = .ok l' () ∧
      l'.named id = some ⟨modAt p (fun _ => vecInt (v ++ ns.map (BitVec.ofInt 32))) d, some p :: r, it'⟩ := by
  obtain ⟨hn, hw, hc⟩ := reached h he
  obtain ⟨a, hf, hs, hat, hk⟩ := at_select hn hc he
  unfold load
  rw [hk]
  simp only [RbOut.bind]
  have h1 := (check_guarded hat hg (c := .setEmptyVecInt) (op := .sizeVecInt 0) rfl).1 (vecInt v) rfl
  obtain ⟨l1, e1, e2⟩ := h1
  have hall : (ns.map Rb.int).all Rb.isScalar = true := by simp [Rb.isScalar]
  have hfits : (ns.map Rb.int).all Rb.fits = true := by
    rw [List.all_eq_true]
    intro x hx
    obtain ⟨n, hn, rfl⟩ := List.mem_map.1 hx
    simpa [Rb.fits] using hr n hn
  have hpk : packed .int (v.map fun i => .int i.toInt) = vecInt v := by
    simp only [packed, List.map_map]
    congr 1
    exact (List.map_congr_left (g := fun i => i) (by intro i _; simp [Rb.asInt, BitVec.ofInt_toInt])).trans (by simp)
  have hpl := pushList_numbers (ns.map .int) .int (v.map fun i => .int i.toInt)
    (by intro y hy; obtain ⟨i, _, rfl⟩ := List.mem_map.1 hy; exact ⟨rfl, rfl, rfl⟩)
    (by
      rw [List.all_eq_true]
      intro x hx
      obtain ⟨i, _, rfl⟩ := List.mem_map.1 hx
      have h1 := BitVec.le_toInt i
      have h2 := BitVec.toInt_lt (x := i)
      simp only [Rb.fits, decide_eq_true_eq]
      omega)
    (by simpa using hl) hall hfits (by simp [Rb.isText])
  have hwi : Width.int.max (widest (ns.map .int)) = .int := by
    rw [widest_int (by simpa using hne) (by intro x hx; obtain ⟨n, _, rfl⟩ := List.mem_map.1 hx; rfl)]; rfl
  rw [hpk, hwi] at hpl
  have hfin : packed .int (v.map (fun i => .int i.toInt) ++ ns.map .int) = vecInt (v ++ ns.map (BitVec.ofInt 32)) := by
    have := hpk
    simp only [packed, GC.vecInt.injEq, List.map_append, List.map_map] at this ⊢
    rw [this]; rfl
  rw [hfin] at hpl
  cases ns with
  | nil => exact absurd rfl hne
  | cons n ns =>
    obtain ⟨_, l2, e3, e4⟩ := (pushAll_spec hg (fromVector (ns.length + 1) (fromElems (.int n :: ns.map .int) 0)) []
      (.int n :: ns.map .int) e2 (by simpa using hall) (by simpa [Room] using hl)).1 _ hpl
    obtain ⟨⟨it', h1⟩, _, _⟩ := after_at hn hf hs e4
    refine ⟨l2, it', ?_, h1⟩
    rw [List.map_cons, fromHash]
    simp only [emptyCall, List.length_map, e1, RbOut.bind]
    rw [List.append_nil] at e3
    rw [e3]
    rfl

/-- Loading a hash on a map does not replace it: the entries that were there stay. -/
theorem C84_hash_again (l : Lib) (h : ReachableNoFill l) (id : Bytes) (d : GC) (m : Entries) (p : List Sel)
    (r : List (Option (List Sel))) (it : Iter) (he : l.named id = some ⟨d, some p :: r, it⟩)
    (hg : getAt p d = some (map m)) (k : Bytes) (hk0 : (0 : Byte) ∉ k) (hk : mfind k m = none) (v : Rb) (hv : v.Proper)
    (s : GC) (hs : image v = some s) :
    ∃ l' it', load id (.hash [(k, v)]) l = .ok l' () ∧
      l'.named id = some ⟨modAt p (fun _ => map (mset k s m)) d, some p :: r, it'⟩ := by
  obtain ⟨hn, hw, hc⟩ := reached h he
  obtain ⟨a, hf, hsel, hat, hk'⟩ := at_select hn hc he
  unfold load
  rw [hk']
  simp only [RbOut.bind]
  obtain ⟨l1, e1, e2⟩ := (call_guarded hat hg (c := .setMap) (op := .setMap) rfl).1 (map m) rfl
  have := fromEntries_spec [(k, v)] m (by simp) (by simp [ProperEntries, hv]) (by simpa using hk) hg e2
  simp only [imageEntries, if_neg hk0, hs, Option.bind_some, Option.map_some, List.foldl_cons, List.foldl_nil] at this
  obtain ⟨l2, e3, e4⟩ := this
  obtain ⟨⟨it', h1⟩, _, _⟩ := after_at hn hf hsel e4
  refine ⟨l2, it', ?_, h1⟩
  rw [fromHash, e1]
  exact e3

/-- After an exception in a hash the cursor stays on the entry, although `load` selects the object again: the next `load`
stores there. -/
theorem C84_raise (l : Lib) (h : ReachableNoFill l) (id : Bytes) (d g : GC) (p : List Sel)
    (r : List (Option (List Sel))) (it : Iter) (he : l.named id = some ⟨d, some p :: r, it⟩)
    (hg : getAt p d = some g) (hpl : plain g = true) (k : Bytes) (hk : (0 : Byte) ∉ k) (n : Int)
    (hn : ¬ (-2 ^ 31 ≤ n ∧ n < 2 ^ 31)) (x : I32) :
    ∃ l' it', load id (.hash [(k, .int n)]) l = .raise l' ∧
      l'.named id = some ⟨modAt p (fun _ => map [(k, notype)]) d, some (p ++ [.key k]) :: some p :: r, it'⟩ ∧
      ∃ l'' it'', load id (.int x.toInt) l' = .ok l'' () ∧
        l''.named id = some ⟨modAt p (fun _ => map [(k, int x)]) d, some (p ++ [.key k]) :: some p :: r, it''⟩ := by
  obtain ⟨hna, hw, hc⟩ := reached h he
  obtain ⟨a, hf, hsel, hat, hk'⟩ := at_select hna hc he
  obtain ⟨l1, e1, e2⟩ := (call_guarded hat hg (c := .setMap) (op := .setMap) rfl).1 (map [])
    (by cases g <;> simp only [plain, Bool.false_eq_true] at hpl <;> rfl)
  obtain ⟨l2, e3, e4⟩ := check_key e2 (getAt_const _ hg) hk
  rw [modAt_const _ _ hg] at e4
  have e4' : At (l.select id) a (modAt p (fun _ => map [(k, notype)]) d) (p ++ [.key k]) (some p :: r) l2 := e4
  obtain ⟨⟨it', h1⟩, _, hn2⟩ := after_at hna hf hsel e4'
  refine ⟨l2, it', ?_, h1, ?_⟩
  · unfold load
    rw [hk']
    simp only [RbOut.bind]
    rw [fromHash, e1]
    simp only [RbOut.bind, fromEntries, ffiString, if_neg hk, e3, fromHash, setArg, ffiInt, if_neg hn, Arg.of]
  · have hwf : WF (modAt p (fun _ => map [(k, notype)]) d) :=
      WF_modAt _ _ hw fun _ _ => by simp [WF, KeysSorted, WFM]
    have hgk : getAt (p ++ [.key k]) (modAt p (fun _ => map [(k, notype)]) d) = some notype := by
      rw [getAt_append, getAt_const _ hg]; simp [getAt, mfind]
    have hfit : (Rb.int x.toInt).fits = true := by
      have h1 := BitVec.le_toInt x
      have h2 := BitVec.toInt_lt (x := x)
      simp only [Rb.fits, decide_eq_true_eq]
      omega
    obtain ⟨a', hf', hsel', hl⟩ := loaded hn2 hwf e4'.2.2.1 h1 hgk (v := .int x.toInt) (by simp [Rb.Proper]) (.inl rfl)
    rw [image_scalar rfl, if_pos hfit] at hl
    obtain ⟨l3, e5, e6⟩ := hl
    obtain ⟨⟨it'', h3⟩, _, _⟩ := after_at hn2 hf' hsel' e6
    refine ⟨l3, it'', e5, ?_⟩
    rw [h3, nest _ hg]
    simp [modAt, mfind, mset, Rb.single, BitVec.ofInt_toInt]

/-! ## C85 -/

theorem got {l : Lib} {id : Bytes} {d g : GC} {p : List Sel} {r : List (Option (List Sel))} {it : Iter} {n : Nat}
    (hn : Named l) (hw : WF d) (hc : Chain d (some p :: r)) (he : l.named id = some ⟨d, some p :: r, it⟩)
    (hg : getAt p d = some g) (hs : Small g) (hd : depth g ≤ n) :
    ∃ a, l.find id = some a ∧ l.select id = { l with active := some a } ∧
      Got (l.select id) a d p r (value g) (get_data n id l) := by
  obtain ⟨a, hf, hsel, hat, hk⟩ := at_select hn hc he
  refine ⟨a, hf, hsel, ?_⟩
  unfold get_data
  rw [hk]
  exact toHash_spec hw n g hd hs hg hat

/-- C85: `get_data` gives exactly the Ruby object of the container at the cursor, and changes nothing. -/
theorem C85_get_data (l : Lib) (h : ReachableNoFill l) (id : Bytes) (d g : GC) (p : List Sel) (r : List (Option (List Sel)))
    (it : Iter) (he : l.named id = some ⟨d, some p :: r, it⟩) (hg : getAt p d = some g) (hs : Small g) (n : Nat)
    (hd : depth g ≤ n) (x : Rb) (hx : value g = some x) :
    ∃ l' it', get_data n id l = .ok l' x ∧ l'.named id = some ⟨d, some p :: r, it'⟩ ∧
      ∀ id', id' ≠ id → l'.named id' = l.named id' := by
  obtain ⟨hn, hw, hc⟩ := reached h he
  obtain ⟨a, hf, hsel, hgot⟩ := got hn hw hc he hg hs hd
  rw [hx] at hgot
  obtain ⟨l', e1, e2⟩ := hgot
  obtain ⟨⟨it', h1⟩, h2, _⟩ := after_at hn hf hsel e2
  exact ⟨l', it', e1, h1, h2⟩

/-- C85: it comes to an end exactly when no map is reached. -/
theorem C85_ends (l : Lib) (h : ReachableNoFill l) (id : Bytes) (d g : GC) (p : List Sel) (r : List (Option (List Sel)))
    (it : Iter) (he : l.named id = some ⟨d, some p :: r, it⟩) (hg : getAt p d = some g) (hs : Small g) (n : Nat)
    (hd : depth g ≤ n) : get_data n id l = .diverge ↔ HoldsMap g := by
  obtain ⟨hn, hw, hc⟩ := reached h he
  obtain ⟨a, hf, hsel, hgot⟩ := got hn hw hc he hg hs hd
  rw [← value_none]
  cases hv : value g with
  | none => rw [hv] at hgot; exact ⟨fun _ => rfl, fun _ => hgot⟩
  | some x =>
    rw [hv] at hgot
    obtain ⟨l', e1, _⟩ := hgot
    rw [e1]
    exact ⟨fun h => (by cases h), fun h => (by cases h)⟩

/-- `get_data` of a map, even an empty one, never ends. -/
theorem C85_map (l : Lib) (h : ReachableNoFill l) (id : Bytes) (d : GC) (m : Entries) (p : List Sel)
    (r : List (Option (List Sel))) (it : Iter) (he : l.named id = some ⟨d, some p :: r, it⟩) (hg : getAt p d = some (map m))
    (n : Nat) : get_data (n + 1) id l = .diverge :=
  (C85_ends l h id d (map m) p r it he hg (by simp [Small]) (n + 1) (by simp [depth])).2 (.map m)

/-! ## C86 -/

/-- C86: what is loaded comes back the same exactly when it is made of `nil`, 32 bit integers, floats, strings and the arrays
of these that `Rb.Back` describes. -/
theorem C86_round_trip (l : Lib) (h : ReachableNoFill l) (id : Bytes) (d g : GC) (p : List Sel) (r : List (Option (List Sel)))
    (it : Iter) (he : l.named id = some ⟨d, some p :: r, it⟩) (hg : getAt p d = some g) (v : Rb) (hv : v.Proper)
    (hb : g = notype ∨ (plain g = true ∧ v.isVoid = false)) (n : Nat) (hd : ∀ s, image v = some s → depth s ≤ n) :
    (∃ l', (load id v l).bind (fun l _ => get_data n id l) = .ok l' v) ↔ v.Back := by
  obtain ⟨hn, hw, hc⟩ := reached h he
  obtain ⟨a, hf, hsel, hl⟩ := loaded hn hw hc he hg hv hb
  rw [← image_back]
  cases hi : image v with
  | none =>
    rw [hi] at hl
    obtain ⟨l', s, q, e1, _⟩ := hl
    rw [e1]
    exact ⟨fun ⟨_, h⟩ => (by cases h), fun h => (by cases h)⟩
  | some s =>
    rw [hi] at hl
    obtain ⟨l', e1, e2⟩ := hl
    obtain ⟨⟨it', h1⟩, _, hn'⟩ := after_at hn hf hsel e2
    obtain ⟨hsm, hwf⟩ := image_ok v hv hi
    obtain ⟨a', hf', hsel', hgot⟩ := got hn' (WF_modAt _ _ hw fun _ _ => hwf) e2.2.2.1 h1 (getAt_const _ hg) hsm (hd s hi)
    rw [e1]
    simp only [RbOut.bind, Option.bind_some]
    cases hx : value s with
    | none =>
      rw [hx] at hgot
      rw [show get_data n id l' = .diverge from hgot]
      exact ⟨fun ⟨_, h⟩ => (by cases h), fun h => (by cases h)⟩
    | some x =>
      rw [hx] at hgot
      obtain ⟨l2, g1, _⟩ := hgot
      rw [g1]
      constructor
      · rintro ⟨l3, h⟩; cases h; rfl
      · intro h; cases h; exact ⟨l2, rfl⟩

/-- What comes back in general. -/
theorem C86_result (l : Lib) (h : ReachableNoFill l) (id : Bytes) (d g : GC) (p : List Sel) (r : List (Option (List Sel)))
    (it : Iter) (he : l.named id = some ⟨d, some p :: r, it⟩) (hg : getAt p d = some g) (v : Rb) (hv : v.Proper)
    (hb : g = notype ∨ (plain g = true ∧ v.isVoid = false)) (s : GC) (hi : image v = some s) (n : Nat) (hd : depth s ≤ n) :
    (∀ x, value s = some x → ∃ l', (load id v l).bind (fun l _ => get_data n id l) = .ok l' x) ∧
    (value s = none → (load id v l).bind (fun l _ => get_data n id l) = .diverge) := by
  obtain ⟨hn, hw, hc⟩ := reached h he
  obtain ⟨a, hf, hsel, hl⟩ := loaded hn hw hc he hg hv hb
  rw [hi] at hl
  obtain ⟨l', e1, e2⟩ := hl
  obtain ⟨⟨it', h1⟩, _, hn'⟩ := after_at hn hf hsel e2
  obtain ⟨hsm, hwf⟩ := image_ok v hv hi
  obtain ⟨a', hf', hsel', hgot⟩ := got hn' (WF_modAt _ _ hw fun _ _ => hwf) e2.2.2.1 h1 (getAt_const _ hg) hsm hd
  rw [e1]
  simp only [RbOut.bind]
  refine ⟨fun x hx => ?_, fun hx => ?_⟩
  · rw [hx] at hgot
    obtain ⟨l2, g1, _⟩ := hgot
    exact ⟨l2, g1⟩
  · rw [hx] at hgot
    exact hgot

/-- What does not come back: `true` is `1`, a symbol is a string, an integer with a float in the array is a float, a hash
never comes back. -/
theorem C86_changed (l : Lib) (h : ReachableNoFill l) (id : Bytes) (d : GC) (p : List Sel)
    (r : List (Option (List Sel))) (it : Iter) (he : l.named id = some ⟨d, some p :: r, it⟩) (hg : getAt p d = some notype)
    (n : Nat) :
    (∃ l', (load id .tru l).bind (fun l _ => get_data (n + 1) id l) = .ok l' (.int 1)) ∧
    (∀ s : Bytes, (0 : Byte) ∉ s → ∃ l', (load id (.sym s) l).bind (fun l _ => get_data (n + 1) id l) = .ok l' (.str s)) ∧
    (∀ (i : I32) (x : F64), ∃ l', (load id (.arr [.int i.toInt, .float x]) l).bind (fun l _ => get_data (n + 1) id l) =
      .ok l' (.arr [.float (F64.ofInt i.toInt), .float x])) ∧
    (load id (.hash []) l).bind (fun l _ => get_data (n + 1) id l) = .diverge := by
  have R := fun v hv s hi hd => C86_result l h id d notype p r it he hg v hv (.inl rfl) s hi (n + 1) hd
  refine ⟨?_, fun s hs => ?_, fun i x => ?_, ?_⟩
  · exact (R .tru (by simp [Rb.Proper]) (GC.bool true) rfl (by simp [depth])).1 _ rfl
  · refine (R (.sym s) (by simp [Rb.Proper]) (string s) ?_ (by simp [depth])).1 _ ?_
    · rw [image_scalar rfl, if_pos (by simpa [Rb.fits] using hs)]; rfl
    · simp [value, cstr_fits hs]
  · refine (R (.arr [.int i.toInt, .float x]) (by simp [Rb.Proper, ProperList]) (vecReal [F64.ofInt i.toInt, x]) ?_
      (by simp [depth])).1 _ ?_
    · have hfit : (Rb.int i.toInt).fits = true := by
        have h1 := BitVec.le_toInt i
        have h2 := BitVec.toInt_lt (x := i)
        simp only [Rb.fits, decide_eq_true_eq]
        omega
      have hfl : (Rb.float x).fits = true := rfl
      simp [image, hfit, hfl, Rb.isScalar, scalars, Rb.isText, numbers, afterNumbers, widest, Rb.width, Width.max, packed,
        Rb.asReal]
    · rfl
  · exact (R (.hash []) (by simp [Rb.Proper, ProperEntries]) (map []) rfl (by simp [depth])).2 rfl

/-! ## Cases that meet the hypotheses -/

/-- A new object. -/
def fresh : Lib := Lib.init.select (str "7")

example : ReachableNoFill fresh ∧ fresh.named (str "7") = some ⟨notype, [some []], .null⟩ ∧ getAt [] notype = some notype :=
  ⟨⟨[.new (str "7")], by intro c hc; simp at hc; rw [hc]; rfl, rfl⟩, rfl, rfl⟩

/-- `{ "a" => [1, 2.5, "x", [nil]], "b" => :c }` -/
example : (Rb.hash [(str "a", .arr [.int 1, .float F64.zero, .str (str "x"), .arr [.nil]]), (str "b", .sym (str "c"))]).Proper ∧
    image (.hash [(str "a", .arr [.int 1, .float F64.zero, .str (str "x"), .arr [.nil]]), (str "b", .sym (str "c"))]) =
      some (map [(str "a", vector [int 1, real F64.zero, string (str "x"), vector [notype]]), (str "b", string (str "c"))]) := by
  refine ⟨?_, by decide +kernel⟩
  simp only [Rb.Proper, ProperEntries, ProperList]
  decide +kernel

/-- `[1, 2, ["a", "b"]]` comes back. -/
example : (Rb.arr [.int 1, .int 2, .arr [.str (str "a"), .str (str "b")]]).Back := by
  have h1 : leading [.int 1, .int 2, .arr [.str (str "a"), .str (str "b")]] = [.int 1, .int 2] := rfl
  have h2 : leading [.str (str "a"), .str (str "b")] = [.str (str "a"), .str (str "b")] := rfl
  simp only [Rb.Back, BackList, h1, h2]
  refine ⟨⟨by decide, by decide, ⟨⟨by decide +kernel, by decide +kernel, trivial⟩, .inl (by simp [Rb.isText])⟩, trivial⟩,
    .inr ⟨by simp [numbers, Rb.isText], fun h => by simp at h⟩⟩

/-- A vector with a matrix. -/
example : Small (vector [int 3, matReal ⟨1, 2, [.zero, .zero]⟩]) ∧ depth (vector [int 3, matReal ⟨1, 2, [.zero, .zero]⟩]) = 2 ∧
    value (vector [int 3, matReal ⟨1, 2, [.zero, .zero]⟩]) = some (.arr [.int 3, .arr [.arr [.float .zero, .float .zero]]]) := by
  refine ⟨?_, by decide +kernel, by rfl⟩
  simp [Small, SmallList]

end Ruby
end GCV
