import Verif.Lemmas.Ruby
import Verif.Props.Matrix

/-! # Lemmas about the Ruby interface: reading -/

namespace GCV
namespace Ruby
open GC CApi

section
variable {l0 : Lib} {a : Nat} {d g : GC} {p : List Sel} {r : List (Option (List Sel))}

theorem call_same {l : Lib} (hw : WF d) (h : At l0 a d p r l) (hg : getAt p d = some g) {c : Call} {dv : Value}
    {f : GC → Res Value} (hc : c.query = some (dv, f)) {v : Value} (hf : f g = .ok g v) :
    ∃ l', call c l = .ok l' v ∧ At l0 a d p r l' := by
  have := call_query h hg hc hf
  rwa [modAt_same hw hg] at this

theorem get_same {l : Lib} (hw : WF d) (h : At l0 a d p r l) (hg : getAt p d = some g) {c : Call} {dv : Value}
    {f : GC → Res Value} (hc : c.query = some (dv, f)) {v : Value} (hf : f g = .ok g v) :
    ∃ l', get c l = .ok l' (toRb v) ∧ At l0 a d p r l' := by
  obtain ⟨l', e1, e2⟩ := call_same hw h hg hc hf
  exact ⟨l', by rw [get, e1]; rfl, e2⟩

theorem size_same {l : Lib} (hw : WF d) (h : At l0 a d p r l) (hg : getAt p d = some g) {c : Call} {dv : Value}
    {f : GC → Res Value} (hc : c.query = some (dv, f)) {n : Nat} (hn : n < 2 ^ 31) (hf : f g = .ok g (.int (BitVec.ofNat 32 n))) :
    ∃ l', size c l = .ok l' n ∧ At l0 a d p r l' := by
  obtain ⟨l', e1, e2⟩ := call_same hw h hg hc hf
  refine ⟨l', ?_, e2⟩
  have : (BitVec.ofNat 32 n).toInt.toNat = n := by
    rw [BitVec.toInt_eq_toNat_of_lt (by rw [toNat_small hn]; omega), toNat_small hn]; rfl
  rw [size, e1]
  show RbOut.ok l' (BitVec.ofNat 32 n).toInt.toNat = _
  rw [this]

theorem each_spec {α : Type} {f : Nat → Lib → RbOut α} {F : Nat → α} {N : Nat}
    (hf : ∀ j l, j < N → At l0 a d p r l → ∃ l', f j l = .ok l' (F j) ∧ At l0 a d p r l') :
    ∀ (k i : Nat) (l : Lib), i + k ≤ N → At l0 a d p r l →
      ∃ l', each f k i l = .ok l' ((List.range' i k).map F) ∧ At l0 a d p r l'
  | 0, i, l, _, h => ⟨l, rfl, h⟩
  | k + 1, i, l, hk, h => by
    obtain ⟨l1, e1, e2⟩ := hf i l (by omega) h
    obtain ⟨l2, c1, c2⟩ := each_spec hf k (i + 1) l1 (by omega) e2
    refine ⟨l2, ?_, c2⟩
    rw [each, e1]
    show (each f k (i + 1) l1).bind _ = _
    rw [c1]
    rfl

theorem each_list {α β : Type} {f : Nat → Lib → RbOut β} {v : List α} (F : α → β)
    (hf : ∀ j x l, v[j]? = some x → At l0 a d p r l → ∃ l', f j l = .ok l' (F x) ∧ At l0 a d p r l') (l : Lib)
    (h : At l0 a d p r l) : ∃ l', each f v.length 0 l = .ok l' (v.map F) ∧ At l0 a d p r l' := by
  cases v with
  | nil => exact ⟨l, rfl, h⟩
  | cons x0 v0 =>
  obtain ⟨l', e1, e2⟩ := each_spec (F := fun j => F ((x0 :: v0).getD j x0)) (N := (x0 :: v0).length) (fun j l hj h =>
    hf j ((x0 :: v0).getD j x0) l (by rw [List.getD_eq_getElem?_getD, List.getElem?_eq_getElem hj]; rfl) h) (x0 :: v0).length 0 l (by omega) h
  refine ⟨l', ?_, e2⟩
  rw [e1]
  congr 1
  apply List.ext_getElem
  · simp
  · intro j h1 h2
    simp only [List.getElem_map, List.getElem_range', Nat.zero_add, Nat.one_mul]
    congr 1
    rw [List.getD_eq_getElem?_getD, List.getElem?_eq_getElem (by simpa using h2)]
    rfl

end

theorem refAt_same {α : Type} (z : α) (up : List α → GC) {v : List α} {i : Nat} {x : α} (h : v[i]? = some x) :
    refAt z up v i id = .ok (up v) x := by
  have hi : i < v.length := (List.getElem?_eq_some_iff.1 h).1
  have hc : checkResize z i v = v := by unfold checkResize; rw [if_neg (by omega)]
  unfold refAt
  simp only [hc, h, id]
  rw [set_same h]

section
variable {l0 : Lib} {a : Nat} {d : GC} {p : List Sel} {r : List (Option (List Sel))}

theorem toList_spec {α : Type} {v : List α} {g : GC} (F : α → Rb) {c : I32 → Call} {l : Lib} (hw : WF d) (h : At l0 a d p r l)
    (hg : getAt p d = some g) (hn : g.get_num_elements = v.length) (hl : v.length < 2 ^ 31)
    (hc : ∀ j x, v[j]? = some x → ∃ dv f val, (c (BitVec.ofNat 32 j)).query = some (dv, f) ∧ f g = .ok g val ∧ toRb val = F x) :
    ∃ l', toList c l = .ok l' (.arr (v.map F)) ∧ At l0 a d p r l' := by
  obtain ⟨l1, e1, e2⟩ := size_same hw h hg (c := .getVectorSize) rfl hl (by rw [hn])
  obtain ⟨l2, c1, c2⟩ := each_list (f := fun i l => get (c (BitVec.ofNat 32 i)) l) F (fun j x l hx h => by
    obtain ⟨dv, f, val, q1, q2, q3⟩ := hc j x hx
    obtain ⟨l', g1, g2⟩ := get_same hw h hg q1 q2
    exact ⟨l', by rw [g1, q3], g2⟩) l1 e2
  refine ⟨l2, ?_, c2⟩
  rw [toList, e1]
  show (each _ _ 0 l1).bind _ = _
  rw [c1]
  rfl

theorem toComplexVector_spec {v : List Cplx} {l : Lib} (hw : WF d) (h : At l0 a d p r l)
    (hg : getAt p d = some (vecComplex v)) (hl : v.length < 2 ^ 31) :
    ∃ l', toComplexVector l = .ok l' (.arr (v.map fun c => .arr [.float c.re, .float c.im])) ∧ At l0 a d p r l' := by
  obtain ⟨l1, e1, e2⟩ := size_same hw h hg (c := .getVectorSize) (n := v.length) rfl hl
    (by rw [get_num_elements, u32_of_lt (by omega)])
  obtain ⟨l2, c1, c2⟩ := each_list (f := fun i l => (get (.getComplexReAt (BitVec.ofNat 32 i)) l).bind fun l a =>
    (get (.getComplexImAt (BitVec.ofNat 32 i)) l).bind fun l b => .ok l (.arr [a, b]))
    (fun c : Cplx => Rb.arr [.float c.re, .float c.im]) (fun j x l hx h => by
      have hj : j < v.length := (List.getElem?_eq_some_iff.1 hx).1
      obtain ⟨l1, a1, a2⟩ := get_same hw h hg (c := .getComplexReAt (BitVec.ofNat 32 j)) (v := .real x.re) rfl (by
        rw [toNat_small (by omega)]; simp [get_complex_number_at, getL, hx, Out.bind, Call.query.const])
      obtain ⟨l2, b1, b2⟩ := get_same hw a2 hg (c := .getComplexImAt (BitVec.ofNat 32 j)) (v := .real x.im) rfl (by
        rw [toNat_small (by omega)]; simp [get_complex_number_at, getL, hx, Out.bind, Call.query.const])
      refine ⟨l2, ?_, b2⟩
      rw [a1]
      show (get _ l1).bind _ = _
      rw [b1]
      rfl) l1 e2
  refine ⟨l2, ?_, c2⟩
  rw [toComplexVector, e1]
  show (each _ _ 0 l1).bind _ = _
  rw [c1]
  rfl

theorem get2 {α : Type} {m : Mat α} (hm : m.wf = true) (hs : m.nr * m.nc < 2 ^ 32) (z : α) {i j : Nat} (hi : i < m.nr)
    (hj : j < m.nc) : m.get i j = .ok (entry z m i j) ∧ m.set i j (entry z m i j) = .ok m := by
  have hk : j * m.nr + i < m.nr * m.nc := Mat.index_lt hi hj
  simp only [Mat.wf, Bool.and_eq_true, decide_eq_true_eq] at hm
  have hlen : m.data.length = m.nr * m.nc := by rw [hm.2, Nat.mod_eq_of_lt hs]
  have hidx : m.index i j = j * m.nr + i := by
    unfold Mat.index
    first
      | rw [u32_of_lt (by omega)]; omega
      | (unfold u32; rw [Nat.mod_eq_of_lt (by omega)])
  have hget : m.data[j * m.nr + i]? = some (entry z m i j) := by
    unfold entry
    rw [List.getD_eq_getElem?_getD, List.getElem?_eq_getElem (by omega)]; rfl
  constructor
  · unfold Mat.get
    rw [hidx, hget]
  · unfold Mat.set
    rw [hidx, if_pos (by omega), set_same hget]

theorem toRealMatrix_spec {m : Mat F64} {l : Lib} (hw : WF d) (h : At l0 a d p r l) (hg : getAt p d = some (matReal m))
    (hr : m.nr < 2 ^ 31) (hc : m.nc < 2 ^ 31) (hs : m.nr * m.nc < 2 ^ 32) :
    ∃ l', toRealMatrix l = .ok l' (.arr ((List.range m.nr).map fun i => .arr ((List.range m.nc).map fun j =>
      .float (entry .zero m i j)))) ∧ At l0 a d p r l' := by
  have hm : m.wf = true := WF_getAt p hw hg
  obtain ⟨l1, e1, e2⟩ := size_same hw h hg (c := .getNumRows) (n := m.nr) rfl hr rfl
  obtain ⟨l2, f1, f2⟩ := size_same hw e2 hg (c := .getNumCols) (n := m.nc) rfl hc rfl
  obtain ⟨l3, c1, c2⟩ := each_spec (l0 := l0) (a := a) (d := d) (p := p) (r := r) (N := m.nr)
    (f := fun i l => (each (fun j l => get (.getRealCoor (BitVec.ofNat 32 i) (BitVec.ofNat 32 j)) l) m.nc 0 l).bind
      fun l r => .ok l (.arr r))
    (F := fun i => Rb.arr ((List.range' 0 m.nc).map fun j => .float (entry .zero m i j))) (fun i l hi h => by
      obtain ⟨l', g1, g2⟩ := each_spec (l0 := l0) (a := a) (d := d) (p := p) (r := r) (N := m.nc)
        (f := fun j l => get (.getRealCoor (BitVec.ofNat 32 i) (BitVec.ofNat 32 j)) l)
        (F := fun j => Rb.float (entry .zero m i j)) (fun j l hj h =>
          get_same hw h hg (c := .getRealCoor (BitVec.ofNat 32 i) (BitVec.ofNat 32 j)) (v := .real (entry .zero m i j)) rfl (by
            obtain ⟨x1, x2⟩ := get2 hm hs .zero hi hj
            rw [toNat_small (by omega), toNat_small (by omega)]
            simp only [get_real_at2, refAt2, x1, id, x2, Res.bind])) m.nc 0 l (by omega) h
      exact ⟨l', by rw [g1]; rfl, g2⟩) m.nr 0 l2 (by omega) f2
  refine ⟨l3, ?_, c2⟩
  rw [toRealMatrix, e1]
  show (size _ l1).bind _ = _
  rw [f1]
  show (each _ m.nr 0 l2).bind _ = _
  rw [c1]
  simp only [RbOut.bind, List.range_eq_range']

theorem toComplexMatrix_spec {m : Mat Cplx} {l : Lib} (hw : WF d) (h : At l0 a d p r l) (hg : getAt p d = some (matComplex m))
    (hr : m.nr < 2 ^ 31) (hc : m.nc < 2 ^ 31) (hs : m.nr * m.nc < 2 ^ 32) :
    ∃ l', toComplexMatrix l = .ok l' (.arr ((List.range m.nr).map fun i => .arr ((List.range m.nc).map fun j =>
      .arr [.float (entry .zero m i j).re, .float (entry .zero m i j).im]))) ∧ At l0 a d p r l' := by
  have hm : m.wf = true := WF_getAt p hw hg
  obtain ⟨l1, e1, e2⟩ := size_same hw h hg (c := .getNumRows) (n := m.nr) rfl hr rfl
  obtain ⟨l2, f1, f2⟩ := size_same hw e2 hg (c := .getNumCols) (n := m.nc) rfl hc rfl
  obtain ⟨l3, c1, c2⟩ := each_spec (l0 := l0) (a := a) (d := d) (p := p) (r := r) (N := m.nr)
    (f := fun i l => (each (fun j l =>
      (get (.getComplexReCoor (BitVec.ofNat 32 i) (BitVec.ofNat 32 j)) l).bind fun l a =>
      (get (.getComplexImCoor (BitVec.ofNat 32 i) (BitVec.ofNat 32 j)) l).bind fun l b => .ok l (.arr [a, b])) m.nc 0 l).bind
      fun l r => .ok l (.arr r))
    (F := fun i => Rb.arr ((List.range' 0 m.nc).map fun j => .arr [.float (entry .zero m i j).re, .float (entry .zero m i j).im]))
    (fun i l hi h => by
      obtain ⟨l', g1, g2⟩ := each_spec (l0 := l0) (a := a) (d := d) (p := p) (r := r) (N := m.nc)
        (f := fun j l => (get (.getComplexReCoor (BitVec.ofNat 32 i) (BitVec.ofNat 32 j)) l).bind fun l a =>
          (get (.getComplexImCoor (BitVec.ofNat 32 i) (BitVec.ofNat 32 j)) l).bind fun l b => .ok l (.arr [a, b]))
        (F := fun j => Rb.arr [.float (entry .zero m i j).re, .float (entry .zero m i j).im]) (fun j l hj h => by
          obtain ⟨x1, x2⟩ := get2 hm hs Cplx.zero hi hj
          obtain ⟨la, a1, a2⟩ := get_same hw h hg (c := .getComplexReCoor (BitVec.ofNat 32 i) (BitVec.ofNat 32 j))
            (v := .real (entry .zero m i j).re) rfl (by
              rw [toNat_small (by omega), toNat_small (by omega)]
              simp only [get_complex_at2, refAt2, x1, id, x2, Res.bind])
          obtain ⟨lb, b1, b2⟩ := get_same hw a2 hg (c := .getComplexImCoor (BitVec.ofNat 32 i) (BitVec.ofNat 32 j))
            (v := .real (entry .zero m i j).im) rfl (by
              rw [toNat_small (by omega), toNat_small (by omega)]
              simp only [get_complex_at2, refAt2, x1, id, x2, Res.bind])
          refine ⟨lb, ?_, b2⟩
          rw [a1]
          show (get _ la).bind _ = _
          rw [b1]
          rfl) m.nc 0 l (by omega) h
      exact ⟨l', by rw [g1]; rfl, g2⟩) m.nr 0 l2 (by omega) f2
  refine ⟨l3, ?_, c2⟩
  rw [toComplexMatrix, e1]
  show (size _ l1).bind _ = _
  rw [f1]
  show (each _ m.nr 0 l2).bind _ = _
  rw [c1]
  simp only [RbOut.bind, List.range_eq_range']

/-- `GC_get_next_key` never gives `nil`. -/
theorem keysLoop_none {m : Entries} (hg : getAt p d = some (map m)) : ∀ (n : Nat) (ks : List Bytes) (k : Option Bytes) (l : Lib),
    l.active = some a → a < l.heap.length → l.heap[a]? = some ⟨d, some p :: r, .at p k⟩ → keysLoop n ks l = none
  | 0, _, _, _, _, _, _ => rfl
  | n + 1, ks, k, l, ha, hlt, hl => by
    have key : ∃ s k', call .getNextKey l =
        .ok { l with heap := l.heap.set a ⟨d, some p :: r, .at p k'⟩ } (.text (some s)) := by
      unfold call
      rw [run_act rfl, onActive_eq ha hl]
      cases k with
      | none =>
        refine ⟨cstr [], none, ?_⟩
        simp only [Call.act, Explorer.next_map_key, hg, Step.map]
      | some k =>
        refine ⟨cstr k, nextKey (some k) m, ?_⟩
        simp only [Call.act, Explorer.next_map_key, hg, Step.map]
    obtain ⟨s, k', e⟩ := key
    rw [keysLoop, e]
    exact keysLoop_none hg n _ k' _ ha (by simpa using hlt) (List.getElem?_set_self hlt)

theorem keys_diverge {m : Entries} (hg : getAt p d = some (map m)) (k : Option Bytes) (l : Lib)
    (ha : l.active = some a) (hlt : a < l.heap.length) (hl : l.heap[a]? = some ⟨d, some p :: r, .at p k⟩) : keys l = .diverge := by
  unfold keys
  rw [dif_neg]
  rintro ⟨n, x, hx⟩
  rw [keysLoop_none hg n [] k l ha hlt hl] at hx
  cases hx

theorem initMapKey_spec {m : Entries} {l : Lib} (h : At l0 a d p r l) (hg : getAt p d = some (map m)) :
    ∃ l' k, check .initMapKey l = .ok l' () ∧ l'.active = some a ∧ a < l'.heap.length ∧
      l'.heap[a]? = some ⟨d, some p :: r, .at p k⟩ := by
  obtain ⟨it, ha, he, hp⟩ := h.fields
  have hlt : a < l.heap.length := (List.getElem?_eq_some_iff.1 he).1
  refine ⟨{ l with heap := l.heap.set a ⟨d, some p :: r, .at p (nextKey none m)⟩ }, nextKey none m, ?_, ha, by simpa using hlt,
    List.getElem?_set_self hlt⟩
  have hr : Call.initMapKey.run l =
      .ok { l with heap := l.heap.set a ⟨d, some p :: r, .at p (nextKey none m)⟩ } (.code 0) := by
    rw [run_act rfl, onActive_eq ha he]
    simp only [Call.act, Explorer.init_map_key]
    rw [check_eq rfl hg]
    simp only [GC.ty, if_true, hg, Step.map]
    rfl
  simp [check, call, hr, RbOut.bind]

/-- How a read ends. -/
def Got (l0 : Lib) (a : Nat) (d : GC) (p : List Sel) (r : List (Option (List Sel))) {α : Type} (o : Option α) (x : RbOut α) : Prop :=
  match o with
  | some v => ∃ l', x = .ok l' v ∧ At l0 a d p r l'
  | none => x = .diverge

theorem visits_spec {n : Nat} (hw : WF d) {v : List GC} (hg : getAt p d = some (vector v)) (hlen : v.length < 2 ^ 31)
    (ih : ∀ g, g ∈ v → ∀ l i, getAt (p ++ [.idx i]) d = some g → At l0 a d (p ++ [.idx i]) (some p :: r) l →
      Got l0 a d (p ++ [.idx i]) (some p :: r) (value g) (toHash n l)) :
    ∀ (w : List GC) (i : Nat) (l : Lib), v = v.take i ++ w → i ≤ v.length → At l0 a d p r l →
      Got l0 a d p r (values w) (each (fun i l => visit (.pushVectorPosition (BitVec.ofNat 32 i)) (toHash n) l) w.length i l)
  | [], i, l, _, _, h => ⟨l, rfl, h⟩
  | g :: w, i, l, hv, hi, h => by
    have hlt : i < v.length := by
      have := congrArg List.length hv
      simp only [List.length_append, List.length_take, List.length_cons] at this
      omega
    have hgi : v[i]? = some g := by
      rw [hv, List.getElem?_append_right (by simp)]
      simp [Nat.min_eq_left hi]
    obtain ⟨l1, e1, e2⟩ := check_idx h hg hlt (by omega)
    rw [modAt_same hw hg] at e2
    have hgd : getAt (p ++ [.idx i]) d = some g := by rw [getAt_append, hg]; simp [getAt, hgi]
    have hr := ih g (List.mem_of_getElem? hgi) l1 i hgd e2
    simp only [List.length_cons, each, visit, e1, values]
    show Got l0 a d p r _ ((((toHash n l1).bind _)).bind _)
    cases hval : value g with
    | none =>
      rw [hval] at hr
      have hr' : toHash n l1 = .diverge := hr
      rw [hr']
      rfl
    | some x =>
      rw [hval] at hr
      obtain ⟨l2, r1, r2⟩ := hr
      obtain ⟨l3, q1, q2⟩ := check_pop r2
      rw [r1]
      show Got l0 a d p r _ (((check .popHead l2).bind _).bind _)
      rw [q1]
      have := visits_spec hw hg hlen ih w (i + 1) l3 (by
        have ht : v.take (i + 1) = v.take i ++ [g] := by
          rw [List.take_add_one, hgi]; rfl
        rw [ht, List.append_assoc]; exact hv) (by omega) q2
      show Got l0 a d p r _ ((each (fun i l => visit (.pushVectorPosition (BitVec.ofNat 32 i)) (toHash n) l) w.length (i + 1) l3).bind _)
      cases hvs : values w with
      | none =>
        rw [hvs] at this
        have this' : each (fun i l => visit (.pushVectorPosition (BitVec.ofNat 32 i)) (toHash n) l) w.length (i + 1) l3 = .diverge := this
        rw [this']
        rfl
      | some xs =>
        rw [hvs] at this
        obtain ⟨l4, t1, t2⟩ := this
        rw [t1]
        exact ⟨l4, rfl, t2⟩

end

theorem depth_mem {g : GC} : ∀ {v : List GC}, g ∈ v → depth g ≤ depths v
  | x :: v, h => by
    rcases List.mem_cons.1 h with rfl | h
    · simp only [depths]; omega
    · have := depth_mem h
      simp only [depths]; omega

theorem small_mem {g : GC} : ∀ {v : List GC}, SmallList v → g ∈ v → Small g
  | x :: v, hs, h => by
    simp only [SmallList] at hs
    rcases List.mem_cons.1 h with rfl | h
    · exact hs.1
    · exact small_mem hs.2 h

theorem toHash_spec {l0 : Lib} {a : Nat} {d : GC} (hw : WF d) : ∀ (n : Nat) (g : GC) {p : List Sel}
    {r : List (Option (List Sel))} {l : Lib}, depth g ≤ n → Small g → getAt p d = some g → At l0 a d p r l →
    Got l0 a d p r (value g) (toHash n l)
  | 0, g, p, r, l, hd, _, _, _ => by cases g <;> simp [depth] at hd
  | n + 1, g, p, r, l, hd, hs, hg, h => by
    obtain ⟨l1, e1, e2⟩ := call_same hw h hg (c := .getTypeName) rfl rfl
    rw [toHash, e1]
    simp only [RbOut.bind]
    have elem : ∀ {α : Type} {v : List α} (F : α → Rb) {c : I32 → Call}, g.get_num_elements = v.length → v.length < 2 ^ 31 →
        (∀ j x, j < 2 ^ 31 → v[j]? = some x → ∃ dv f val, (c (BitVec.ofNat 32 j)).query = some (dv, f) ∧ f g = .ok g val ∧ toRb val = F x) →
        Got l0 a d p r (some (Rb.arr (v.map F))) (toList c l1) := by
      intro α v F c h1 h2 h3
      exact toList_spec F hw e2 hg h1 h2 fun j x hx =>
        h3 j x (by have := (List.getElem?_eq_some_iff.1 hx).1; omega) hx
    obtain ⟨t, ht⟩ : ∃ t, g.ty = t := ⟨_, rfl⟩
    rw [show g.get_type_name = t.name by rw [← ht]; rfl]
    cases g
    all_goals simp only [GC.ty] at ht
    all_goals subst ht
    case notype => repeat rw [if_neg (by decide +kernel)]
                   exact ⟨l1, rfl, e2⟩
    case pointer => repeat rw [if_neg (by decide +kernel)]
                    exact ⟨l1, rfl, e2⟩
    case bool b =>
      rw [if_pos (by decide +kernel)]
      exact get_same hw e2 hg (c := .getBool false) (v := .bool b) rfl rfl
    case int i =>
      rw [if_neg (by decide +kernel), if_pos (by decide +kernel)]
      exact get_same hw e2 hg (c := .getInt 0) (v := .int i) rfl rfl
    case long i =>
      iterate 2 rw [if_neg (by decide +kernel)]
      rw [if_pos (by decide +kernel)]
      exact get_same hw e2 hg (c := .getLong 0) (v := .long i) rfl rfl
    case real x =>
      iterate 3 rw [if_neg (by decide +kernel)]
      rw [if_pos (by decide +kernel)]
      exact get_same hw e2 hg (c := .getReal .zero) (v := .real x) rfl rfl
    case complex => repeat rw [if_neg (by decide +kernel)]
                    exact ⟨l1, rfl, e2⟩
    case string s =>
      iterate 4 rw [if_neg (by decide +kernel)]
      rw [if_pos (by decide +kernel)]
      exact get_same hw e2 hg (c := .getString) (v := .text (some (cstr s))) rfl rfl
    case vecPointer => repeat rw [if_neg (by decide +kernel)]
                       exact ⟨l1, rfl, e2⟩
    case vecBool v =>
      iterate 5 rw [if_neg (by decide +kernel)]
      rw [if_pos (by decide +kernel)]
      simp only [Small] at hs
      refine elem (v := v) _ (by rw [get_num_elements, u32_of_lt (by omega)]) hs fun j x hj hx => ⟨_, _, .bool x, rfl, ?_, rfl⟩
      simp only [toNat_small hj, get_bool_at, refAt_same _ _ hx, Res.bind]
    case vecInt v =>
      iterate 6 rw [if_neg (by decide +kernel)]
      rw [if_pos (by decide +kernel)]
      simp only [Small] at hs
      refine elem (v := v) _ (by rw [get_num_elements, u32_of_lt (by omega)]) hs fun j x hj hx => ⟨_, _, .int x, rfl, ?_, rfl⟩
      simp only [toNat_small hj, get_int_at, refAt_same _ _ hx, Res.bind]
    case vecLong => repeat rw [if_neg (by decide +kernel)]
                    exact ⟨l1, rfl, e2⟩
    case vecReal v =>
      iterate 7 rw [if_neg (by decide +kernel)]
      rw [if_pos (by decide +kernel)]
      simp only [Small] at hs
      refine elem (v := v) _ (by rw [get_num_elements, u32_of_lt (by omega)]) hs fun j x hj hx => ⟨_, _, .real x, rfl, ?_, rfl⟩
      simp only [toNat_small hj, get_number_at, getL, hx, Out.bind, Call.query.const]
    case vecComplex v =>
      iterate 9 rw [if_neg (by decide +kernel)]
      rw [if_pos (by decide +kernel)]
      simp only [Small] at hs
      exact toComplexVector_spec hw e2 hg hs
    case vecString v =>
      iterate 8 rw [if_neg (by decide +kernel)]
      rw [if_pos (by decide +kernel)]
      simp only [Small] at hs
      refine elem (v := v) _ (by rw [get_num_elements, u32_of_lt (by omega)]) hs fun j x hj hx =>
        ⟨_, _, .text (some (cstr x)), rfl, ?_, rfl⟩
      simp only [toNat_small hj, get_string_at, refAt_same _ _ hx, Res.bind]
    case matInt => repeat rw [if_neg (by decide +kernel)]
                   exact ⟨l1, rfl, e2⟩
    case matLong => repeat rw [if_neg (by decide +kernel)]
                    exact ⟨l1, rfl, e2⟩
    case matReal m =>
      iterate 10 rw [if_neg (by decide +kernel)]
      rw [if_pos (by decide +kernel)]
      simp only [Small] at hs
      exact toRealMatrix_spec hw e2 hg hs.1 hs.2.1 hs.2.2
    case matComplex m =>
      iterate 11 rw [if_neg (by decide +kernel)]
      rw [if_pos (by decide +kernel)]
      simp only [Small] at hs
      exact toComplexMatrix_spec hw e2 hg hs.1 hs.2.1 hs.2.2
    case vector v =>
      iterate 12 rw [if_neg (by decide +kernel)]
      rw [if_pos (by decide +kernel)]
      simp only [Small] at hs
      simp only [depth] at hd
      obtain ⟨l2, s1, s2⟩ := size_same hw e2 hg (c := .getVectorSize) (n := v.length) rfl hs.1
        (by rw [get_num_elements, u32_of_lt (by omega)])
      have := visits_spec (n := n) hw hg hs.1 (fun g hm l i hgi hl =>
        toHash_spec hw n g (by have := depth_mem hm; omega) (small_mem hs.2 hm) hgi hl) v 0 l2 (by simp) (by omega) s2
      rw [s1]
      simp only [value]
      show Got l0 a d p r _ ((each _ v.length 0 l2).bind _)
      cases hv : values v with
      | none =>
        rw [hv] at this
        have this' : each (fun i l => visit (.pushVectorPosition (BitVec.ofNat 32 i)) (toHash n) l) v.length 0 l2 = .diverge := this
        rw [this']
        rfl
      | some xs =>
        rw [hv] at this
        obtain ⟨l4, t1, t2⟩ := this
        rw [t1]
        exact ⟨l4, rfl, t2⟩
    case map m =>
      iterate 13 rw [if_neg (by decide +kernel)]
      rw [if_pos (by decide +kernel)]
      obtain ⟨l2, k, i1, i2, i3, i4⟩ := initMapKey_spec e2 hg
      rw [i1]
      show Got l0 a d p r _ ((keys l2).bind _)
      rw [keys_diverge hg k l2 i2 i3 i4]
      rfl

end Ruby
end GCV
