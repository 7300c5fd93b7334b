import Verif.Lemmas.LuaMixed
import Verif.Spec.LuaList
import Mathlib.Data.List.Induction

/-! # Reading a Lua list of any mixture of values, in order -/

namespace GCV
namespace GC
open F64

theorem table_append : ∀ (t u : List (LKey × LuaV)) (g : GC), lua_table_to_GC (t ++ u) g =
    (lua_table_to_GC t g).bind fun g' _ => lua_table_to_GC u g'
  | [], u, g => rfl
  | (k, v) :: t, u, g => by
    have hb : ∀ (r : Res Unit), (r.bind fun g' _ => lua_table_to_GC (t ++ u) g') =
        (r.bind fun g' _ => lua_table_to_GC t g').bind fun g' _ => lua_table_to_GC u g' := by
      intro r
      cases r with
      | ok g' a => exact table_append t u g'
      | _ => rfl
    rw [List.cons_append]
    cases k <;> simp only [lua_table_to_GC]
    · exact hb _
    · exact hb _
    · exact hb _
    · exact table_append t u g

theorem arrayEntries_snoc (vs : List LuaV) (v : LuaV) :
    arrayEntries (vs ++ [v]) = arrayEntries vs ++ [(LKey.int (vs.length + 1), v)] := by
  simp [arrayEntries, List.zipIdx_append]

/-- The last value of a list. -/
theorem table_snoc (vs : List LuaV) (v : LuaV) (h : vs.length < 2 ^ 32) (g : GC) :
    lua_table_to_GC (arrayEntries (vs ++ [v])) g =
      (lua_table_to_GC (arrayEntries vs) g).bind fun g' _ => pushVecElement vs.length v g' := by
  rw [arrayEntries_snoc, table_append]
  congr 1
  funext g' _
  rw [lua_table_to_GC, luaIdx_succ h]
  cases pushVecElement vs.length v g' <;> rfl

theorem checkResize_end {α : Type} (d : α) (w : List α) (h : w.length + 1 < 2 ^ 32) :
    checkResize d w.length w = w ++ [d] := by
  obtain ⟨h1, h2⟩ := checkResize_spec d w.length w h
  apply List.ext_getElem?
  intro j
  rw [h2, grownAt]
  by_cases hj : j < w.length
  · rw [if_pos hj, List.getElem?_append_left hj]
  · rw [if_neg hj]
    by_cases hj' : j = w.length
    · subst hj'; simp
    · rw [if_neg (by omega), List.getElem?_eq_none (by simp; omega)]

theorem refAt_end {α : Type} (d : α) (up : List α → GC) (w : List α) (y : α) (h : w.length + 1 < 2 ^ 32) :
    refAt d up w w.length (fun _ => y) = .ok (up (w ++ [y])) d := by
  rw [refAt, checkResize_end d w h]
  simp

theorem refAtVector_end {α : Type} (mk : α → GC) (z y : α) (g : GC) (xs : List GC) (hg : promote_to_vector g = .ok (vector xs) ())
    (h : xs.length + 1 < 2 ^ 32) : refAtVector mk z xs.length (fun _ => y) g = .ok (vector (xs ++ [mk y])) z := by
  rw [refAtVector, hg]
  simp only [Res.bind]
  rw [checkResize_end notype xs h]
  simp

/-- The number a boolean or a number counts as. -/
def countsAs : LuaV → Option Int
  | .bool b => some (if b then (unit : Int) else 0)
  | v => luaNumber v

def numLike (v : LuaV) : Bool := v.isBool || v.isNumber

theorem refill_map {α β : Type} (d : β) (f : α → β) (up : List β → GC) (v : List α) (h : v.length < 2 ^ 32) :
    become ((refill d f v).bind fun w => .ok (up w)) = .ok (up (v.map f)) () := become_refill d f up h

/-- A number behind a vector of numbers. -/
theorem number_end {x : F64} {q : Int} (hx : x.value = some q) (hr : InLong q) :
    (∀ w : List I64, w.length + 1 < 2 ^ 32 →
      (∃ n : Int, q = n * unit ∧ (BitVec.ofInt 64 n).toInt = n ∧
        pushLuaNumber w.length x (vecLong w) = .ok (vecLong (w ++ [BitVec.ofInt 64 n])) ()) ∨
      ((¬ ∃ n : Int, q = n * unit) ∧
        pushLuaNumber w.length x (vecLong w) = .ok (vecReal (w.map F64.ofI64 ++ [x])) ())) ∧
    (∀ w : List F64, w.length + 1 < 2 ^ 32 →
      pushLuaNumber w.length x (vecReal w) = .ok (vecReal (w ++ [x])) ()) ∧
    (∀ w : List Bool, w.length + 1 < 2 ^ 32 →
      (∃ n : Int, q = n * unit ∧ (BitVec.ofInt 64 n).toInt = n ∧
        pushLuaNumber w.length x (vecBool w) = .ok (vecLong (w.map I64.ofBool ++ [BitVec.ofInt 64 n])) ()) ∨
      ((¬ ∃ n : Int, q = n * unit) ∧
        pushLuaNumber w.length x (vecBool w) = .ok (vecReal (w.map F64.ofBool ++ [x])) ())) ∧
    ((∃ n : Int, q = n * unit ∧ (BitVec.ofInt 64 n).toInt = n ∧
        pushLuaNumber 0 x notype = .ok (vecLong [BitVec.ofInt 64 n]) ()) ∨
      ((¬ ∃ n : Int, q = n * unit) ∧ pushLuaNumber 0 x notype = .ok (vecReal [x]) ())) ∧
    (∀ g xs, promote_to_vector g = .ok (vector xs) () → xs.length + 1 < 2 ^ 32 → (g.ty = .VEC_STRING ∨ g.ty = .VECTOR) →
      (∃ n : Int, q = n * unit ∧ (BitVec.ofInt 64 n).toInt = n ∧
        pushLuaNumber xs.length x g = .ok (vector (xs ++ [long (BitVec.ofInt 64 n)])) ()) ∨
      ((¬ ∃ n : Int, q = n * unit) ∧ pushLuaNumber xs.length x g = .ok (vector (xs ++ [real x])) ())) := by
  refine ⟨?_, ?_, ?_, ?_, ?_⟩
  · intro w hw
    rcases isInteger64_spec hx hr with ⟨n, hn, h1, h2, h3⟩ | ⟨hno, h1⟩
    · refine .inl ⟨n, hn, h3, ?_⟩
      simp only [pushLuaNumber, h1, h2, get_long_at, refAt_end _ _ _ _ hw]; rfl
    · refine .inr ⟨hno, ?_⟩
      have := refAt_end F64.zero vecReal (w.map F64.ofI64) x (by simpa using hw)
      rw [List.length_map] at this
      simp only [pushLuaNumber, h1, get_real_at, promote_to_vec_real]
      rw [refill_map _ _ _ _ (by omega)]
      simp only [Res.bind, get_real_at.after, this]
  · intro w hw
    simp only [pushLuaNumber, get_real_at, refAt_end _ _ _ _ hw]; rfl
  · intro w hw
    rcases isInteger64_spec hx hr with ⟨n, hn, h1, h2, h3⟩ | ⟨hno, h1⟩
    · refine .inl ⟨n, hn, h3, ?_⟩
      have := refAt_end 0 vecLong (w.map I64.ofBool) (BitVec.ofInt 64 n) (by simpa using hw)
      rw [List.length_map] at this
      simp only [pushLuaNumber, h1, h2, get_long_at, promote_to_vec_long]
      rw [refill_map _ _ _ _ (by omega)]
      simp only [Res.bind, get_long_at.after, this]
    · refine .inr ⟨hno, ?_⟩
      have := refAt_end F64.zero vecReal (w.map F64.ofBool) x (by simpa using hw)
      rw [List.length_map] at this
      simp only [pushLuaNumber, h1, get_real_at, promote_to_vec_real]
      rw [refill_map _ _ _ _ (by omega)]
      simp only [Res.bind, get_real_at.after, this]
  · rcases isInteger64_spec hx hr with ⟨n, hn, h1, h2, h3⟩ | ⟨hno, h1⟩
    · refine .inl ⟨n, hn, h3, ?_⟩
      have := refAt_end 0 vecLong [] (BitVec.ofInt 64 n) (by simp)
      simp only [List.length_nil, List.nil_append] at this
      simp only [pushLuaNumber, h1, h2, get_long_at, this]; rfl
    · refine .inr ⟨hno, ?_⟩
      have := refAt_end F64.zero vecReal [] x (by simp)
      simp only [List.length_nil, List.nil_append] at this
      simp only [pushLuaNumber, h1, get_real_at, this]; rfl
  · intro g xs hg hw hty
    have hpush : ∀ i, pushLuaNumber i x g = match x.isInteger64 with
        | .ok true => match x.toSigned 64 with
          | .ok l => (refAtVector long 0 i (fun _ => l) g).bind fun g' _ => .ok g' ()
          | _ => .ub
        | .ok false => (refAtVector real .zero i (fun _ => x) g).bind fun g' _ => .ok g' ()
        | _ => .ub := by
      intro i
      cases g <;> first | rfl | simp [GC.ty] at hty
    rw [hpush]
    rcases isInteger64_spec hx hr with ⟨n, hn, h1, h2, h3⟩ | ⟨hno, h1⟩
    · refine .inl ⟨n, hn, h3, ?_⟩
      simp only [h1, h2, refAtVector_end _ _ _ _ _ hg hw]; rfl
    · refine .inr ⟨hno, ?_⟩
      simp only [h1, refAtVector_end _ _ _ _ _ hg hw]; rfl

/-- A table behind a vector of containers, and behind anything else. -/
theorem table_end {t : List (LKey × LuaV)} {x : GC} (h : lua_to_GC (.table t) = .ok x ()) :
    (∀ xs : List GC, xs.length + 1 < 2 ^ 32 → pushVecElement xs.length (.table t) (vector xs) = .ok (vector (xs ++ [x])) ()) ∧
    (∀ (n : Nat) (g : GC), n + 1 < 2 ^ 32 → g.ty ≠ .VECTOR →
      pushVecElement n (.table t) g = .ok (vector (List.replicate n notype ++ [x])) ()) := by
  rw [lua_to_GC] at h
  constructor
  · intro xs hl
    rw [pushVecElement, withIdx, oldVector]
    rw [checkResize_end notype xs hl]
    simp [h, Res.mapState]
  · intro n g hl hg
    rw [pushVecElement, withIdx]
    have h0 : g.oldVector = [] := by cases g <;> first | rfl | simp [GC.ty] at hg
    have hc : checkResize notype n [] = List.replicate n notype ++ [notype] := by
      obtain ⟨h1, h2⟩ := checkResize_spec notype n [] hl
      rw [← List.replicate_succ']
      apply List.ext_getElem?
      intro j
      rw [h2, grownAt, List.getElem?_replicate]
      simp only [List.length_nil, Nat.not_lt_zero, if_false]
      by_cases hj : j ≤ n
      · rw [if_pos hj, if_pos (by omega)]
      · rw [if_neg hj, if_neg (by omega)]
    rw [h0, hc]
    simp [h, Res.mapState]

/-- What the container is like after the values `vs`. -/
inductive Listed : List LuaV → GC → Prop
  | empty : Listed [] notype
  | bools (bs : List Bool) : bs ≠ [] → Listed (bs.map .bool) (vecBool bs)
  | longs (vs : List LuaV) (w : List I64) : (∀ v ∈ vs, numLike v = true) → (∃ v ∈ vs, v.isNumber = true) →
      (∀ v ∈ vs, ¬ Fraction v) → w.length = vs.length →
      (∀ (i : Nat) v l, vs[i]? = some v → w[i]? = some l → IsDouble l ∧ countsAs v = some (l.toInt * unit)) →
      Listed vs (vecLong w)
  | reals (vs : List LuaV) (w : List F64) : (∀ v ∈ vs, numLike v = true) → (∃ v ∈ vs, Fraction v) → w.length = vs.length →
      (∀ (i : Nat) v x, vs[i]? = some v → w[i]? = some x → ∃ q, countsAs v = some q ∧ x.value = some q) →
      Listed vs (vecReal w)
  | strs (ss : List Bytes) : ss ≠ [] → Listed (ss.map .str) (vecString ss)
  | list (vs : List LuaV) (xs : List GC) : ((∃ v ∈ vs, v.isTable = true) ∨ Mixes vs) → xs.length = vs.length →
      (∀ (i : Nat) v e, vs[i]? = some v → xs[i]? = some e → ListElem vs i v e) → Listed vs (vector xs)

theorem listed_len {vs : List LuaV} {g : GC} (h : Listed vs g) : (elems g).length = vs.length := by
  cases h <;> simp [elems] <;> assumption

theorem listed_promote {vs : List LuaV} {g : GC} (h : Listed vs g) (h0 : vs ≠ []) (hl : vs.length < 2 ^ 32) :
    promote_to_vector g = .ok (vector (elems g)) () := by
  have := listed_len h
  cases h with
  | empty => exact absurd rfl h0
  | list vs xs => rfl
  | _ =>
    simp only [elems, List.length_map] at this
    rw [promote_to_vector, become_refill _ _ _ (by simp_all)]; rfl

theorem fraction_number {v : LuaV} (h : Fraction v) : v.isNumber = true := by
  obtain ⟨q, hq, -⟩ := h
  cases v <;> simp [luaNumber] at hq <;> rfl

/-- The elements of a vector of numbers, when the list begins with those. -/
theorem kept_numeric {vs vs' : List LuaV} {g : GC} (h : Listed vs g) (hn : ∀ v ∈ vs, numLike v = true)
    (hf : numbersFirst vs' = vs) : ∀ (i : Nat) v e, vs[i]? = some v → (elems g)[i]? = some e → KeptAs vs' i v e := by
  intro i v e hv he
  have hm := List.mem_of_getElem? hv
  have hi : i < vs.length := (List.getElem?_eq_some_iff.1 hv).1
  have notStr : ∀ u ∈ vs, u.isStr = false := by
    intro u hu
    have := hn u hu
    cases u <;> simp [numLike, LuaV.isBool, LuaV.isNumber] at this <;> rfl
  have notTable : ∀ u ∈ vs, u.isTable = false := by
    intro u hu
    have := hn u hu
    cases u <;> simp [numLike, LuaV.isBool, LuaV.isNumber] at this <;> rfl
  cases h with
  | empty => simp at hv
  | bools bs h0 =>
    simp only [List.getElem?_map, Option.map_eq_some_iff] at hv
    obtain ⟨b, hb, rfl⟩ := hv
    simp only [elems, List.getElem?_map, hb, Option.map_some, Option.some.injEq] at he
    subst he
    refine ⟨fun ⟨u, hu, hnum⟩ => ?_, fun _ => rfl⟩
    rw [hf] at hu
    obtain ⟨b, -, rfl⟩ := List.mem_map.1 hu
    cases hnum
  | longs _ w _ hx hfr hw hall =>
    simp only [elems, List.getElem?_map, Option.map_eq_some_iff] at he
    obtain ⟨l, hl, rfl⟩ := he
    obtain ⟨-, hc⟩ := hall i v l hv hl
    have hno : ¬ ∃ u ∈ numbersFirst vs', Fraction u := by rw [hf]; exact fun ⟨u, hu, h⟩ => hfr u hu h
    have hnf := hfr v hm
    cases v with
    | bool b =>
      refine ⟨fun _ => ⟨?_, fun h => (hno h).elim, fun _ => rfl⟩, fun h => ?_⟩
      · simp only [countsAs] at hc
        rw [numValue, ← hc]
      · rw [hf] at h; exact (h hx).elim
    | int k => exact ⟨_, hc, rfl, fun h => (h.elim hnf fun h => hno h.2).elim, fun _ => rfl⟩
    | num k => exact ⟨_, hc, rfl, fun h => (h.elim hnf fun h => hno h.2).elim, fun _ => rfl⟩
    | _ => simpa [numLike, LuaV.isBool, LuaV.isNumber] using hn _ hm
  | reals _ w _ hx hw hall =>
    simp only [elems, List.getElem?_map, Option.map_eq_some_iff] at he
    obtain ⟨x, hl, rfl⟩ := he
    obtain ⟨q, hc, hq⟩ := hall i v x hv hl
    have hyes : ∃ u ∈ numbersFirst vs', Fraction u := by rw [hf]; exact hx
    cases v with
    | bool b =>
      refine ⟨fun _ => ⟨?_, fun _ => rfl, fun h => (h hyes).elim⟩, fun h => ?_⟩
      · simp only [countsAs] at hc
        exact hq.trans hc.symm
      · obtain ⟨u, hu, hu'⟩ := hyes
        exact (h ⟨u, hu, fraction_number hu'⟩).elim
    | int k => exact ⟨q, hc, hq, fun _ => rfl, fun h => (h (.inr ⟨by rw [hf]; exact hi, hyes⟩)).elim⟩
    | num k => exact ⟨q, hc, hq, fun _ => rfl, fun h => (h (.inr ⟨by rw [hf]; exact hi, hyes⟩)).elim⟩
    | _ => simpa [numLike, LuaV.isBool, LuaV.isNumber] using hn _ hm
  | strs ss h0 =>
    simp only [List.getElem?_map, Option.map_eq_some_iff] at hv
    obtain ⟨b, hb, rfl⟩ := hv
    cases notStr _ hm
  | list _ xs hk =>
    rcases hk with ⟨u, hu, ht⟩ | ⟨⟨u, hu, hs⟩, -⟩
    · rw [notTable u hu] at ht; cases ht
    · rw [notStr u hu] at hs; cases hs

/-! ## One more value -/

theorem takeWhile_all {α : Type} (p : α → Bool) {l : List α} (h : ∀ x ∈ l, p x = true) : l.takeWhile p = l := by
  induction l with
  | nil => rfl
  | cons x r ih =>
    rw [List.takeWhile_cons, if_pos (h x (by simp)), ih fun y hy => h y (.tail _ hy)]

theorem takeWhile_snoc_all {α : Type} (p : α → Bool) {l : List α} (h : ∀ x ∈ l, p x = true) (u : α) :
    (l ++ [u]).takeWhile p = if p u then l ++ [u] else l := by
  induction l with
  | nil => simp [List.takeWhile_cons]
  | cons x r ih =>
    rw [List.cons_append, List.takeWhile_cons, if_pos (h x (by simp)), ih fun y hy => h y (.tail _ hy)]
    split <;> rfl

theorem takeWhile_snoc_not {α : Type} (p : α → Bool) {l : List α} (h : ∃ x ∈ l, p x = false) (u : α) :
    (l ++ [u]).takeWhile p = l.takeWhile p ∧ (l.takeWhile p).length < l.length := by
  induction l with
  | nil => simp at h
  | cons x r ih =>
    rw [List.cons_append, List.takeWhile_cons, List.takeWhile_cons]
    by_cases hp : p x = true
    · obtain ⟨y, hy, hpy⟩ := h
      have : ∃ y ∈ r, p y = false := by
        rcases List.mem_cons.1 hy with rfl | hy
        · rw [hp] at hpy; cases hpy
        · exact ⟨y, hy, hpy⟩
      obtain ⟨h1, h2⟩ := ih this
      simp only [hp, if_true, h1, List.length_cons, true_and]
      omega
    · simp [hp]

/-- The last value is never lost. -/
theorem lost_last (vs : List LuaV) (u : LuaV) : ¬ Lost (vs ++ [u]) vs.length := by
  rintro ⟨⟨v, hv, ht⟩, hl, -⟩
  have hne : ∃ x ∈ vs ++ [u], (!x.isTable) = false := ⟨v, hv, by simp [ht]⟩
  obtain ⟨-, h⟩ := takeWhile_snoc_not (fun v : LuaV => !v.isTable) hne u
  unfold beforeTables at hl
  simp only [List.length_append, List.length_singleton] at h
  omega

theorem lost_none {vs : List LuaV} (h : ∀ v ∈ vs, v.isTable = false) (i : Nat) : ¬ Lost vs i := by
  rintro ⟨⟨v, hv, ht⟩, -⟩
  rw [h v hv] at ht; cases ht

theorem mixes_append {vs : List LuaV} (h : Mixes vs) (us : List LuaV) : Mixes (vs ++ us) := by
  obtain ⟨⟨a, ha, h1⟩, ⟨b, hb, h2⟩⟩ := h
  exact ⟨⟨a, by simp [ha], h1⟩, ⟨b, by simp [hb], h2⟩⟩

/-- Once the values are containers of their own, further values change none of them. -/
theorem elem_append {vs : List LuaV} (h : (∃ v ∈ vs, v.isTable = true) ∨ Mixes vs) (u : LuaV) {i : Nat} {v : LuaV} {e : GC}
    (he : ListElem vs i v e) : ListElem (vs ++ [u]) i v e := by
  have hrun : numbersFirst (vs ++ [u]) = numbersFirst vs := by
    refine (takeWhile_snoc_not _ ?_ u).1
    rcases h with ⟨x, hx, ht⟩ | ⟨⟨x, hx, ht⟩, -⟩
    · refine ⟨x, hx, ?_⟩; cases x <;> simp [LuaV.isTable] at ht; rfl
    · refine ⟨x, hx, ?_⟩; cases x <;> simp [LuaV.isStr] at ht; rfl
  have hkept : KeptAs (vs ++ [u]) i v e ↔ KeptAs vs i v e := by unfold KeptAs; rw [hrun]
  have hlost : Lost (vs ++ [u]) i ↔ Lost vs i := by
    by_cases ht : ∃ v ∈ vs, v.isTable = true
    · have hb : beforeTables (vs ++ [u]) = beforeTables vs := by
        refine (takeWhile_snoc_not _ ?_ u).1
        obtain ⟨x, hx, ht⟩ := ht
        exact ⟨x, hx, by simp [ht]⟩
      unfold Lost
      rw [hb]
      constructor
      · exact fun ⟨_, h⟩ => ⟨ht, h⟩
      · rintro ⟨⟨x, hx, h1⟩, h⟩
        exact ⟨⟨x, by simp [hx], h1⟩, h⟩
    · have hm : Mixes vs := h.resolve_left ht
      have hall : ∀ x ∈ vs, (!x.isTable) = true := by
        intro x hx
        cases hxt : x.isTable with
        | false => rfl
        | true => exact (ht ⟨x, hx, hxt⟩).elim
      constructor
      · rintro ⟨-, -, hn⟩
        refine (hn ?_).elim
        unfold beforeTables
        rw [takeWhile_snoc_all _ hall]
        split
        · exact mixes_append hm _
        · exact hm
      · exact fun ⟨h, _⟩ => (ht h).elim
  exact ⟨fun h => he.1 (hlost.1 h), fun h => hkept.2 (he.2 fun h' => h (hlost.2 h'))⟩

/-- Adding the last element. -/
theorem snoc_cases {α : Type} {l : List α} {a x : α} {i : Nat} (h : (l ++ [a])[i]? = some x) :
    (i < l.length ∧ l[i]? = some x) ∨ (i = l.length ∧ x = a) := by
  by_cases hi : i < l.length
  · rw [List.getElem?_append_left hi] at h; exact .inl ⟨hi, h⟩
  · rw [List.getElem?_append_right (by omega)] at h
    obtain ⟨hj, h⟩ := List.getElem?_eq_some_iff.1 h
    simp only [List.length_singleton] at hj
    have : i = l.length := by omega
    subst this
    simp at h
    exact .inr ⟨rfl, h.symm⟩

/-- A vector of containers with one more. -/
theorem list_snoc {vs : List LuaV} {xs : List GC} {u : LuaV} {y : GC} (hk : (∃ v ∈ vs ++ [u], v.isTable = true) ∨ Mixes (vs ++ [u]))
    (hl : xs.length = vs.length) (hold : ∀ (i : Nat) v e, vs[i]? = some v → xs[i]? = some e → ListElem (vs ++ [u]) i v e)
    (hnew : KeptAs (vs ++ [u]) vs.length u y) : Listed (vs ++ [u]) (vector (xs ++ [y])) := by
  refine .list _ _ hk (by simp [hl]) ?_
  intro i v e hv he
  rcases snoc_cases hv with ⟨h1, h2⟩ | ⟨rfl, rfl⟩
  · rcases snoc_cases he with ⟨-, h3⟩ | ⟨h3, -⟩
    · exact hold i v e h2 h3
    · omega
  · rcases snoc_cases he with ⟨h3, -⟩ | ⟨-, rfl⟩
    · omega
    · exact ⟨fun h => (lost_last _ _ h).elim, fun _ => hnew⟩

theorem isBool_of_map {bs : List Bool} {v : LuaV} (h : v ∈ bs.map LuaV.bool) : v.isBool = true := by
  obtain ⟨b, -, rfl⟩ := List.mem_map.1 h; rfl

theorem numLike_of_map {bs : List Bool} : ∀ v ∈ bs.map LuaV.bool, numLike v = true := by
  intro v h; rw [numLike, isBool_of_map h]; rfl

theorem numLike_str {v : LuaV} (h : numLike v = true) : v.isStr = false ∧ v.isTable = false := by
  cases v <;> simp [numLike, LuaV.isBool, LuaV.isNumber] at h <;> exact ⟨rfl, rfl⟩

/-- What the container is like, coarsely. -/
theorem listed_kind {vs : List LuaV} {g : GC} (h : Listed vs g) :
    (vs = [] ∧ g = notype) ∨ (vs ≠ [] ∧ (∀ v ∈ vs, numLike v = true) ∧ g.ty ≠ .VECTOR ∧ g.ty ≠ .VEC_STRING) ∨
    (∃ ss, ss ≠ [] ∧ vs = ss.map .str ∧ g = vecString ss) ∨
    (∃ xs, g = vector xs ∧ ((∃ v ∈ vs, v.isTable = true) ∨ Mixes vs) ∧ xs.length = vs.length ∧
      ∀ (i : Nat) v e, vs[i]? = some v → xs[i]? = some e → ListElem vs i v e) := by
  cases h with
  | empty => exact .inl ⟨rfl, rfl⟩
  | bools bs h0 => exact .inr (.inl ⟨by simpa using h0, numLike_of_map, by simp [GC.ty], by simp [GC.ty]⟩)
  | longs _ w h1 h2 =>
    obtain ⟨v, hv, -⟩ := h2
    exact .inr (.inl ⟨List.ne_nil_of_mem hv, h1, by simp [GC.ty], by simp [GC.ty]⟩)
  | reals _ w h1 h2 =>
    obtain ⟨v, hv, -⟩ := h2
    exact .inr (.inl ⟨List.ne_nil_of_mem hv, h1, by simp [GC.ty], by simp [GC.ty]⟩)
  | strs ss h0 => exact .inr (.inr (.inl ⟨ss, h0, rfl, rfl⟩))
  | list _ xs h1 h2 h3 => exact .inr (.inr (.inr ⟨xs, rfl, h1, h2, h3⟩))

theorem list_step_string {vs : List LuaV} {g : GC} {s : Bytes} (h : Listed vs g) (hl : vs.length + 1 < 2 ^ 32) (hs : noNul s = true) :
    ∃ g', pushVecElement vs.length (.str s) g = .ok g' () ∧ Listed (vs ++ [.str s]) g' := by
  rw [pushVecElement, cstr_of_noNul hs]
  have hlen := listed_len h
  rcases listed_kind h with ⟨rfl, rfl⟩ | ⟨h0, hn, h1, h2⟩ | ⟨ss, h0, rfl, rfl⟩ | ⟨xs, rfl, hk, hx, hall⟩
  · have := refAt_end [] vecString [] s (by simp)
    simp only [List.length_nil, List.nil_append] at this
    exact ⟨vecString [s], by simp only [get_string_at, List.length_nil, this]; rfl, .strs [s] (by simp)⟩
  · have hg : get_string_at vs.length (fun _ => s) g = refAtVector string [] vs.length (fun _ => s) g := by
      have hne : g ≠ notype := by rintro rfl; simp [elems] at hlen; exact h0 (List.eq_nil_of_length_eq_zero hlen.symm)
      cases g <;> first | rfl | exact absurd rfl hne | simp [GC.ty] at h2
    have he := refAtVector_end string [] s g (elems g) (listed_promote h h0 (by omega)) (by omega)
    rw [hlen] at he
    refine ⟨_, by rw [hg, he]; rfl, ?_⟩
    have hrun : numbersFirst (vs ++ [.str s]) = vs := by
      unfold numbersFirst
      rw [takeWhile_snoc_all _ (fun v hv => by simpa [numLike] using hn v hv)]; rfl
    refine list_snoc (.inr ⟨⟨.str s, by simp, rfl⟩, ?_⟩) hlen ?_ rfl
    · obtain ⟨v, hv⟩ := List.exists_mem_of_ne_nil _ h0
      exact ⟨v, by simp [hv], (numLike_str (hn v hv)).1⟩
    · intro i v e hv he
      refine ⟨fun hlost => (lost_none ?_ i hlost).elim, fun _ => kept_numeric h hn hrun i v e hv he⟩
      intro v hv
      rcases List.mem_append.1 hv with hv | hv
      · exact (numLike_str (hn v hv)).2
      · rw [List.mem_singleton.1 hv]; rfl
  · have := refAt_end [] vecString ss s (by simpa using hl)
    simp only [List.length_map, get_string_at, this]
    exact ⟨_, rfl, by simpa using Listed.strs (ss ++ [s]) (by simp)⟩
  · have he := refAtVector_end string [] s (vector xs) xs rfl (by omega)
    rw [hx] at he
    refine ⟨_, by
      rw [show get_string_at vs.length (fun _ => s) (vector xs) = refAtVector string [] vs.length (fun _ => s) (vector xs) from rfl,
        he]; rfl, ?_⟩
    · refine list_snoc ?_ hx (fun i v e hv he => elem_append hk _ (hall i v e hv he)) rfl
      rcases hk with ⟨v, hv, ht⟩ | hm
      · exact .inl ⟨v, by simp [hv], ht⟩
      · exact .inr (mixes_append hm _)

theorem list_step_table {vs : List LuaV} {g x : GC} {t : List (LKey × LuaV)} (h : Listed vs g) (hl : vs.length + 1 < 2 ^ 32)
    (ht : lua_to_GC (.table t) = .ok x ()) :
    ∃ g', pushVecElement vs.length (.table t) g = .ok g' () ∧ Listed (vs ++ [.table t]) g' := by
  have hlen := listed_len h
  obtain ⟨t1, t2⟩ := table_end ht
  have packed : g.ty ≠ .VECTOR → (∀ v ∈ vs, v.isTable = false) → ¬ Mixes vs →
      ∃ g', pushVecElement vs.length (.table t) g = .ok g' () ∧ Listed (vs ++ [.table t]) g' := by
    intro hg hnt hm
    refine ⟨_, t2 vs.length g hl hg, ?_⟩
    refine list_snoc (.inl ⟨.table t, by simp, rfl⟩) (by simp) ?_ ht
    intro i v e hv he
    have hb : beforeTables (vs ++ [.table t]) = vs := by
      unfold beforeTables
      rw [takeWhile_snoc_all _ (fun v hv => by simp [hnt v hv])]; rfl
    have hlost : Lost (vs ++ [.table t]) i :=
      ⟨⟨.table t, by simp, rfl⟩, by rw [hb]; exact (List.getElem?_eq_some_iff.1 hv).1, by rw [hb]; exact hm⟩
    refine ⟨fun _ => ?_, fun h => (h hlost).elim⟩
    exact List.eq_of_mem_replicate (List.mem_of_getElem? he)
  rcases listed_kind h with ⟨rfl, rfl⟩ | ⟨h0, hn, h1, h2⟩ | ⟨ss, h0, rfl, rfl⟩ | ⟨xs, rfl, hk, hx, hall⟩
  · exact packed (by simp [GC.ty]) (by simp) (by rintro ⟨⟨_, h, _⟩, _⟩; cases h)
  · refine packed h1 (fun v hv => (numLike_str (hn v hv)).2) ?_
    rintro ⟨⟨v, hv, hs⟩, -⟩
    rw [(numLike_str (hn v hv)).1] at hs; cases hs
  · refine packed (by simp [GC.ty]) ?_ ?_
    · intro v hv; obtain ⟨_, -, rfl⟩ := List.mem_map.1 hv; rfl
    · rintro ⟨-, ⟨v, hv, hs⟩⟩
      obtain ⟨_, -, rfl⟩ := List.mem_map.1 hv; cases hs
  · have he := t1 xs (by omega)
    rw [hx] at he
    refine ⟨_, he, list_snoc (.inl ⟨.table t, by simp, rfl⟩) hx (fun i v e hv he => elem_append hk _ (hall i v e hv he)) ht⟩

theorem list_step_bool {vs : List LuaV} {g : GC} {b : Bool} (h : Listed vs g) (hl : vs.length + 1 < 2 ^ 32)
    (hb : ∀ v ∈ vs, v.isBool = true) :
    ∃ g', pushVecElement vs.length (.bool b) g = .ok g' () ∧ Listed (vs ++ [.bool b]) g' := by
  have key : ∀ bs : List Bool, bs.length + 1 < 2 ^ 32 →
      ((refAt false vecBool bs bs.length id).bind fun g' _ => match g' with
        | vecBool v => if bs.length < v.length then (Res.ok (vecBool (v.set bs.length b)) () : Res Unit) else .ub
        | g' => .throw g') = .ok (vecBool (bs ++ [b])) () := by
    intro bs hl
    rw [refAt, checkResize_end false bs hl]
    simp [Res.bind]
  cases h with
  | empty => exact ⟨vecBool [b], key [] (by simp), .bools [b] (by simp)⟩
  | bools bs h0 =>
    refine ⟨vecBool (bs ++ [b]), ?_, by simpa using Listed.bools (bs ++ [b]) (by simp)⟩
    rw [List.length_map]
    exact key bs (by simpa using hl)
  | longs _ w h1 h2 =>
    obtain ⟨v, hv, hn⟩ := h2
    have := hb v hv
    cases v <;> simp_all [LuaV.isBool, LuaV.isNumber]
  | reals _ w h1 h2 =>
    obtain ⟨v, hv, hn⟩ := h2
    have := hb v hv
    have := fraction_number hn
    cases v <;> simp_all [LuaV.isBool, LuaV.isNumber]
  | strs ss h0 =>
    obtain ⟨v, hv⟩ := List.exists_mem_of_ne_nil _ h0
    cases hb (.str v) (List.mem_map.2 ⟨v, hv, rfl⟩)
  | list _ xs hk =>
    rcases hk with ⟨v, hv, ht⟩ | ⟨⟨v, hv, ht⟩, -⟩
    · have := hb v hv
      cases v <;> simp_all [LuaV.isBool, LuaV.isTable]
    · have := hb v hv
      cases v <;> simp_all [LuaV.isBool, LuaV.isStr]

theorem list_step_late {vs : List LuaV} {g : GC} {b : Bool} (h : Listed vs g) (hl : vs.length + 1 < 2 ^ 32)
    (hb : ∃ v ∈ vs, v.isBool = false) :
    pushVecElement vs.length (.bool b) g = .throw (vector (elems g ++ [bool false])) := by
  have hlen := listed_len h
  have h0 : vs ≠ [] := by obtain ⟨v, hv, -⟩ := hb; exact List.ne_nil_of_mem hv
  have he := refAtVector_end bool false false g (elems g) (listed_promote h h0 (by omega)) (by omega)
  rw [hlen] at he
  have hid : refAtVector bool false vs.length id g = refAtVector bool false vs.length (fun _ => false) g := rfl
  have hg : get_bool_at vs.length g = refAtVector bool false vs.length id g := by
    cases h with
    | empty => exact absurd rfl h0
    | bools bs _ =>
      obtain ⟨v, hv, hv'⟩ := hb
      rw [isBool_of_map hv] at hv'; cases hv'
    | _ => rfl
  rw [pushVecElement, pushLuaBool, hg, hid, he]
  rfl

theorem countsAs_number {v : LuaV} {q : Int} (h : luaNumber v = some q) : v.isNumber = true ∧ countsAs v = some q := by
  cases v <;> simp [luaNumber] at h <;> exact ⟨rfl, by simpa [countsAs, luaNumber] using h⟩

theorem fraction_iff {v : LuaV} {q : Int} (h : luaNumber v = some q) : Fraction v ↔ ¬ ∃ n : Int, q = n * unit := by
  constructor
  · rintro ⟨p, hp, hn⟩
    rw [h] at hp; cases hp; exact hn
  · exact fun hn => ⟨q, h, hn⟩

theorem toInt_ofBool (b : Bool) : IsDouble (I64.ofBool b) ∧ (some (if b then (unit : Int) else 0)) = some ((I64.ofBool b).toInt * unit) := by
  cases b
  · exact ⟨isDouble_zero, by simp [I64.ofBool]⟩
  · refine ⟨⟨F64.ofBool true, ?_⟩, by simp [I64.ofBool]⟩
    decide +kernel

theorem value_ofBool_unit (b : Bool) : (F64.ofBool b).value = some (if b then (unit : Int) else 0) := by
  cases b <;> decide +kernel

/-- A number behind numbers. -/
theorem longs_snoc {vs : List LuaV} {w : List I64} {v : LuaV} {n : Int} (h1 : ∀ v ∈ vs, numLike v = true)
    (h2 : ∀ v ∈ vs, ¬ Fraction v) (hl : w.length = vs.length)
    (h3 : ∀ (i : Nat) v l, vs[i]? = some v → w[i]? = some l → IsDouble l ∧ countsAs v = some (l.toInt * unit))
    (hv : luaNumber v = some (n * unit)) (hd : IsDouble (BitVec.ofInt 64 n)) (hn : (BitVec.ofInt 64 n).toInt = n) :
    Listed (vs ++ [v]) (vecLong (w ++ [BitVec.ofInt 64 n])) := by
  obtain ⟨c1, c2⟩ := countsAs_number hv
  refine .longs _ _ ?_ ⟨v, by simp, c1⟩ ?_ (by simp [hl]) ?_
  · intro u hu
    rcases List.mem_append.1 hu with hu | hu
    · exact h1 u hu
    · rw [List.mem_singleton.1 hu, numLike, c1]; simp
  · intro u hu
    rcases List.mem_append.1 hu with hu | hu
    · exact h2 u hu
    · rw [List.mem_singleton.1 hu, fraction_iff hv]
      exact fun h => h ⟨n, rfl⟩
  · intro i u l hu hl'
    rcases snoc_cases hu with ⟨a1, a2⟩ | ⟨rfl, rfl⟩
    · rcases snoc_cases hl' with ⟨-, a3⟩ | ⟨a3, -⟩
      · exact h3 i u l a2 a3
      · omega
    · rcases snoc_cases hl' with ⟨a3, -⟩ | ⟨-, rfl⟩
      · omega
      · exact ⟨hd, by rw [c2, hn]⟩

theorem reals_snoc {vs : List LuaV} {w : List F64} {v : LuaV} {x : F64} {q : Int} (h1 : ∀ v ∈ vs, numLike v = true)
    (h2 : (∃ v ∈ vs, Fraction v) ∨ Fraction v) (hl : w.length = vs.length)
    (h3 : ∀ (i : Nat) v x, vs[i]? = some v → w[i]? = some x → ∃ q, countsAs v = some q ∧ x.value = some q)
    (hv : luaNumber v = some q) (hx : x.value = some q) : Listed (vs ++ [v]) (vecReal (w ++ [x])) := by
  obtain ⟨c1, c2⟩ := countsAs_number hv
  refine .reals _ _ ?_ ?_ (by simp [hl]) ?_
  · intro u hu
    rcases List.mem_append.1 hu with hu | hu
    · exact h1 u hu
    · rw [List.mem_singleton.1 hu, numLike, c1]; simp
  · rcases h2 with ⟨u, hu, h⟩ | h
    · exact ⟨u, by simp [hu], h⟩
    · exact ⟨v, by simp, h⟩
  · intro i u l hu hl'
    rcases snoc_cases hu with ⟨a1, a2⟩ | ⟨rfl, rfl⟩
    · rcases snoc_cases hl' with ⟨-, a3⟩ | ⟨a3, -⟩
      · exact h3 i u l a2 a3
      · omega
    · rcases snoc_cases hl' with ⟨a3, -⟩ | ⟨-, rfl⟩
      · omega
      · exact ⟨q, c2, hx⟩

theorem kept_number {vs : List LuaV} {v : LuaV} {q : Int} (hq : luaNumber v = some q) (e : GC)
    (hstr : ∃ u ∈ vs, numLike u = false)
    (h : (∃ n : Int, q = n * unit ∧ (BitVec.ofInt 64 n).toInt = n ∧ e = long (BitVec.ofInt 64 n)) ∨
      ((¬ ∃ n : Int, q = n * unit) ∧ ∃ x : F64, x.value = some q ∧ e = real x)) : KeptAs (vs ++ [v]) vs.length v e := by
  obtain ⟨hrun, hlt⟩ := takeWhile_snoc_not numLike hstr v
  have hout : ¬ (vs.length < (numbersFirst (vs ++ [v])).length ∧ ∃ u ∈ numbersFirst (vs ++ [v]), Fraction u) := by
    rintro ⟨h, -⟩
    rw [show numbersFirst (vs ++ [v]) = (vs ++ [v]).takeWhile numLike from rfl, hrun] at h
    omega
  have main : ∃ p, luaNumber v = some p ∧
      NumberAs p (Fraction v ∨ vs.length < (numbersFirst (vs ++ [v])).length ∧ ∃ u ∈ numbersFirst (vs ++ [v]), Fraction u) e := by
    refine ⟨q, hq, ?_⟩
    rcases h with ⟨n, h1, h2, rfl⟩ | ⟨h1, x, h2, rfl⟩
    · refine ⟨by rw [numValue, h2, h1], fun h => ?_, fun _ => rfl⟩
      rcases h with h | h
      · exact ((fraction_iff hq).1 h ⟨n, h1⟩).elim
      · exact (hout h).elim
    · exact ⟨h2, fun _ => rfl, fun h => (h (.inl ((fraction_iff hq).2 h1))).elim⟩
  cases v with
  | int k => exact main
  | num k => exact main
  | _ => simp [luaNumber] at hq

theorem list_step_number {vs : List LuaV} {g : GC} {v : LuaV} (h : Listed vs g) (hl : vs.length + 1 < 2 ^ 32) (hv : LuaExact v) :
    ∃ g', pushVecElement vs.length v g = .ok g' () ∧ Listed (vs ++ [v]) g' := by
  obtain ⟨x, q, hx, hr, hq, hp, -⟩ := luaExact_double hv
  rw [hp]
  obtain ⟨n1, n2, n3, n4, n5⟩ := number_end hx hr
  have dbl : ∀ n : Int, q = n * unit → (BitVec.ofInt 64 n).toInt = n → IsDouble (BitVec.ofInt 64 n) :=
    fun n h1 h2 => ⟨x, by rw [h2, ← h1]; exact hx⟩
  have hlen := listed_len h
  have inVector : ∀ xs, promote_to_vector g = .ok (vector xs) () → xs.length = vs.length → (g.ty = .VEC_STRING ∨ g.ty = .VECTOR) →
      (∃ u ∈ vs, numLike u = false) → ((∃ v ∈ vs, v.isTable = true) ∨ Mixes (vs ++ [v])) →
      (∀ (i : Nat) u e, vs[i]? = some u → xs[i]? = some e → ListElem (vs ++ [v]) i u e) →
      ∃ g', pushLuaNumber vs.length x g = .ok g' () ∧ Listed (vs ++ [v]) g' := by
    intro xs h1 h2 h3 h4 h5 h6
    have hk : (∃ u ∈ vs ++ [v], u.isTable = true) ∨ Mixes (vs ++ [v]) := by
      rcases h5 with ⟨u, hu, ht⟩ | h5
      · exact .inl ⟨u, by simp [hu], ht⟩
      · exact .inr h5
    rcases n5 g xs h1 (by omega) h3 with ⟨n, a1, a2, a3⟩ | ⟨a1, a3⟩
    · rw [h2] at a3
      exact ⟨_, a3, list_snoc hk h2 h6 (kept_number hq _ h4 (.inl ⟨n, a1, a2, rfl⟩))⟩
    · rw [h2] at a3
      exact ⟨_, a3, list_snoc hk h2 h6 (kept_number hq _ h4 (.inr ⟨a1, x, hx, rfl⟩))⟩
  cases h with
  | empty =>
    rcases n4 with ⟨n, a1, a2, a3⟩ | ⟨a1, a3⟩
    · exact ⟨_, a3, longs_snoc (w := []) (by simp) (by simp) rfl (by simp) (a1 ▸ hq) (dbl n a1 a2) a2⟩
    · exact ⟨_, a3, reals_snoc (w := []) (by simp) (.inr ((fraction_iff hq).2 a1)) rfl (by simp) hq hx⟩
  | bools bs h0 =>
    rw [List.length_map]
    rcases n3 bs (by simpa using hl) with ⟨n, a1, a2, a3⟩ | ⟨a1, a3⟩
    · refine ⟨_, a3, longs_snoc numLike_of_map ?_ (by simp) ?_ (a1 ▸ hq) (dbl n a1 a2) a2⟩
      · intro u hu hf
        obtain ⟨b, -, rfl⟩ := List.mem_map.1 hu
        cases fraction_number hf
      · intro i u l hu hl
        simp only [List.getElem?_map, Option.map_eq_some_iff] at hu hl
        obtain ⟨b, hb, rfl⟩ := hu
        obtain ⟨b', hb', rfl⟩ := hl
        rw [hb] at hb'; cases hb'
        exact toInt_ofBool b
    · refine ⟨_, a3, reals_snoc numLike_of_map (.inr ((fraction_iff hq).2 a1)) (by simp) ?_ hq hx⟩
      intro i u l hu hl
      simp only [List.getElem?_map, Option.map_eq_some_iff] at hu hl
      obtain ⟨b, hb, rfl⟩ := hu
      obtain ⟨b', hb', rfl⟩ := hl
      rw [hb] at hb'; cases hb'
      exact ⟨_, rfl, value_ofBool_unit b⟩
  | longs _ w h1 h2 h3 h4 h5 =>
    have n1 := n1 w (by omega)
    rw [h4] at n1
    rcases n1 with ⟨n, a1, a2, a3⟩ | ⟨a1, a3⟩
    · exact ⟨_, a3, longs_snoc h1 h3 h4 h5 (a1 ▸ hq) (dbl n a1 a2) a2⟩
    · refine ⟨_, a3, reals_snoc h1 (.inr ((fraction_iff hq).2 a1)) (by simp [h4]) ?_ hq hx⟩
      intro i u l hu hl
      simp only [List.getElem?_map, Option.map_eq_some_iff] at hl
      obtain ⟨k, hk, rfl⟩ := hl
      obtain ⟨b1, b2⟩ := h5 i u k hu hk
      exact ⟨_, b2, value_ofI64 b1⟩
  | reals _ w h1 h2 h3 h4 =>
    have n2 := n2 w (by omega)
    rw [h3] at n2
    exact ⟨_, n2, reals_snoc h1 (.inl h2) h3 h4 hq hx⟩
  | strs ss h0 =>
    obtain ⟨s, hs⟩ := List.exists_mem_of_ne_nil _ h0
    have hmem : LuaV.str s ∈ ss.map LuaV.str := List.mem_map.2 ⟨s, hs, rfl⟩
    have hpr := listed_promote (Listed.strs ss h0) (List.ne_nil_of_mem hmem) (by omega)
    refine inVector _ hpr hlen (.inl rfl) ⟨_, hmem, rfl⟩ (.inr ⟨⟨_, by simp; exact .inl ⟨s, hs, rfl⟩, rfl⟩, ⟨v, by simp, ?_⟩⟩) ?_
    · exact (numLike_str (by rw [numLike, (countsAs_number hq).1]; simp)).1
    · intro i u e hu he
      simp only [elems, List.getElem?_map, Option.map_eq_some_iff] at hu he
      obtain ⟨b, hb, rfl⟩ := hu
      obtain ⟨b', hb', rfl⟩ := he
      rw [hb] at hb'; cases hb'
      refine ⟨fun hlost => (lost_none ?_ i hlost).elim, fun _ => rfl⟩
      intro u hu
      rcases List.mem_append.1 hu with hu | hu
      · obtain ⟨_, -, rfl⟩ := List.mem_map.1 hu; rfl
      · rw [List.mem_singleton.1 hu]
        exact (numLike_str (by rw [numLike, (countsAs_number hq).1]; simp)).2
  | list _ xs hk hxl hall =>
    refine inVector xs rfl hxl (.inr rfl) ?_ (hk.imp_right fun h => mixes_append h _)
      (fun i u e hu he => elem_append hk _ (hall i u e hu he))
    rcases hk with ⟨u, hu, ht⟩ | ⟨⟨u, hu, ht⟩, -⟩
    · refine ⟨u, hu, ?_⟩; cases u <;> simp [LuaV.isTable] at ht; rfl
    · refine ⟨u, hu, ?_⟩; cases u <;> simp [LuaV.isStr] at ht; rfl

/-- The whole list. -/
theorem read_list (vs : List LuaV) (hl : vs.length < 2 ^ 32) (hv : ∀ v ∈ vs, ListItem v) :
    (LateBool vs → ∃ g, lua_table_to_GC (arrayEntries vs) notype = .throw g) ∧
    (¬ LateBool vs → ∃ g, lua_table_to_GC (arrayEntries vs) notype = .ok g () ∧ Listed vs g) := by
  induction vs using List.reverseRecOn with
  | nil =>
    refine ⟨?_, fun _ => ⟨notype, rfl, .empty⟩⟩
    rintro ⟨i, j, u, v, -, h, -⟩
    simp at h
  | append_singleton vs v ih =>
    have hl' : vs.length + 1 < 2 ^ 32 := by simpa using hl
    obtain ⟨ih1, ih2⟩ := ih (by omega) (fun u hu => hv u (by simp [hu]))
    rw [table_snoc vs v (by omega)]
    have late_mono : LateBool vs → LateBool (vs ++ [v]) := by
      rintro ⟨i, j, a, b, hij, ha, hb, h⟩
      refine ⟨i, j, a, b, hij, ?_, ?_, h⟩
      · rw [List.getElem?_append_left (List.getElem?_eq_some_iff.1 ha).1]; exact ha
      · rw [List.getElem?_append_left (List.getElem?_eq_some_iff.1 hb).1]; exact hb
    have late_split : LateBool (vs ++ [v]) → LateBool vs ∨ (v.isBool = true ∧ ∃ u ∈ vs, u.isBool = false) := by
      rintro ⟨i, j, a, b, hij, ha, hb, h1, h2⟩
      rcases snoc_cases hb with ⟨b1, b2⟩ | ⟨b1, rfl⟩
      · rcases snoc_cases ha with ⟨a1, a2⟩ | ⟨a1, -⟩
        · exact .inl ⟨i, j, a, b, hij, a2, b2, h1, h2⟩
        · omega
      · rcases snoc_cases ha with ⟨a1, a2⟩ | ⟨a1, -⟩
        · exact .inr ⟨h2, a, List.mem_of_getElem? a2, h1⟩
        · omega
    have late_last : v.isBool = true → (∃ u ∈ vs, u.isBool = false) → LateBool (vs ++ [v]) := by
      rintro h ⟨u, hu, hb⟩
      obtain ⟨i, hi, hu⟩ := List.getElem_of_mem hu
      refine ⟨i, vs.length, u, v, hi, ?_, by simp, hb, h⟩
      rw [List.getElem?_append_left hi, List.getElem?_eq_getElem hi, hu]
    by_cases hlate : LateBool vs
    · obtain ⟨g, hg⟩ := ih1 hlate
      exact ⟨fun _ => ⟨g, by rw [hg]; rfl⟩, fun h => (h (late_mono hlate)).elim⟩
    · obtain ⟨g, hg, hL⟩ := ih2 hlate
      rw [hg]
      simp only [Res.bind]
      have notb : ∀ {p : Prop}, v.isBool = false → p → (LateBool (vs ++ [v]) → ∃ g', pushVecElement vs.length v g = .throw g') ∧
          (¬ LateBool (vs ++ [v]) → p) := by
        intro p hb hp
        refine ⟨fun h => ?_, fun _ => hp⟩
        rcases late_split h with h | ⟨h, -⟩
        · exact (hlate h).elim
        · rw [hb] at h; cases h
      rcases hv v (by simp) with hb | hb | ⟨s, rfl, hs⟩ | ⟨ht, x, hx⟩
      · cases v with
        | bool b =>
          by_cases hnb : ∃ u ∈ vs, u.isBool = false
          · exact ⟨fun _ => ⟨_, list_step_late hL hl' hnb⟩, fun h => (h (late_last rfl hnb)).elim⟩
          · refine ⟨fun h => ?_, fun _ => list_step_bool hL hl' ?_⟩
            · rcases late_split h with h | ⟨-, h⟩
              · exact (hlate h).elim
              · exact (hnb h).elim
            · intro u hu
              cases hub : u.isBool with
              | true => rfl
              | false => exact (hnb ⟨u, hu, hub⟩).elim
        | _ => simp [LuaV.isBool] at hb
      · refine notb ?_ (list_step_number hL hl' hb)
        obtain ⟨_, q, _, _, hq, _⟩ := luaExact_double hb
        cases v <;> simp [luaNumber] at hq <;> rfl
      · exact notb rfl (list_step_string hL hl' hs)
      · cases v with
        | table t => exact notb rfl (list_step_table hL hl' hx)
        | _ => simp [LuaV.isTable] at ht

end GC
end GCV
