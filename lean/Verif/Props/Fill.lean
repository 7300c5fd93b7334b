import Verif.Spec.Fill
import Verif.Lemmas.Fill
import Verif.Props.CInterface

/-!
# C121: what `GC_fill_for_test` leaves
-/

namespace GCV
namespace CApi
open GC

theorem was_before (g : GC) (i : Nat) : was g i = before g i := by
  unfold was before
  cases g <;> first | rfl | (rename_i v; show v[i]?.getD notype = match v[i]? with | some x => x | none => notype; cases v[i]? <;> rfl)

theorem getD_orElse {α : Type} (z : α) (l : List α) (i : Nat) : l[i]?.getD z = orElse z l i := by
  unfold orElse; cases l[i]? <;> rfl

theorem oldMap_under (g : GC) (k : Bytes) : mfind k g.oldMap = under g k := by cases g <;> rfl

theorem mfind_mset_if (k k' : Bytes) (x : GC) (m : Entries) : mfind k (mset k' x m) = if k = k' then some x else mfind k m := by
  by_cases h : k = k'
  · rw [if_pos h, h, mfind_mset_same]
  · rw [if_neg h, mfind_mset_other h]

theorem ite_swap {α : Type} {p q : Prop} [Decidable p] [Decidable q] (h : p → ¬ q) (x y z : α) :
    (if p then x else if q then y else z) = if q then y else if p then x else z := by
  by_cases hp : p
  · simp [hp, h hp]
  · simp [hp]

theorem fill_value (fl : String → F64) (g : GC) : Filled fl g (fillValue fl g) := by
  refine ⟨fillReals fl g, fillOne g, fillThree fl g, ?_, ?_, ?_, ?_, ?_, ?_⟩
  · unfold fillValue
    have e3 : (was g 3).oldVecString = textsOf (before g 3) := by rw [was_before]; cases before g 3 <;> rfl
    have e7 : (was (was g 7) 3).oldVecComplex = complexesOf (before (before g 7) 3) := by
      rw [was_before, was_before]; cases before (before g 7) 3 <;> rfl
    have e8 : oldMatReal (was g 8) = realEntriesOf (before g 8) := by rw [was_before]; cases before g 8 <;> rfl
    have e9 : oldMatComplex (was g 9) = complexEntriesOf (before g 9) := by rw [was_before]; cases before g 9 <;> rfl
    simp only [e3, e7, e8, e9, getD_orElse, List.append_assoc, List.cons_append, List.nil_append]
  · simp [fillReals, resizeL_range]
  · rw [fillReals, List.getElem?_set_self (by simp [resizeL_range])]
  · intro i hi h2
    have e1 : (was g 1).oldVecReal = realsOf (before g 1) := by rw [was_before]; cases before g 1 <;> rfl
    rw [fillReals, List.getElem?_set_ne (Ne.symm h2), resizeL_range, List.getElem?_map, List.getElem?_range hi, e1, ← getD_orElse]
    rfl
  · intro k
    simp only [fillOne, mfind_mset_if, was_before, oldMap_under]
    by_cases h1 : k = str "pippo"
    · subst h1; rfl
    by_cases h2 : k = str "pluto"
    · subst h2; rfl
    by_cases h3 : k = str "paperino"
    · subst h3; rfl
    by_cases h4 : k = str "aaa"
    · subst h4; rfl
    simp only [if_neg h1, if_neg h2, if_neg h3, if_neg h4]
  · intro k
    have e6 : ((mfind (str "vector") (fillTwo fl g)).getD notype).oldVecInt =
        match under (before g 6) (str "vector") with | some x => intsOf x | none => [] := by
      rw [fillTwo, mfind_mset_if, if_neg (by decide), mfind_mset_if, if_neg (by decide), oldMap_under, was_before]
      cases under (before g 6) (str "vector") with
      | none => rfl
      | some x => cases x <;> rfl
    rw [fillThree, e6]
    simp only [mfind_mset_if, fillTwo, was_before, oldMap_under, List.append_assoc, List.cons_append, List.nil_append]
    by_cases h1 : k = str "vector"
    · subst h1; rfl
    by_cases h2 : k = str "aaa"
    · subst h2; rfl
    simp only [if_neg h1, if_neg h2]

theorem onRoot_does {ops : List Op} {e : Explorer} {t : GC} (h : Does ops e.data t) :
    ∃ e', Explorer.onRoot ops e = .ok e' () ∧ e'.data = t := by
  generalize hg : e.data = g at h
  induction h generalizing e with
  | nil => exact ⟨e, rfl, hg⟩
  | @cons op ops g s t hs _ ih =>
    obtain ⟨e', h1, h2⟩ := ih (e := e.become s) rfl
    refine ⟨e', ?_, h2⟩
    rw [Explorer.onRoot, hg, hs]
    exact h1

/-- **C121.** `GC_fill_for_test` never fails: from every state that calls lead to, whatever the named container holds and
wherever its cursor is, the call returns `GENERIC_CONTAINER_OK`; the named container is then selected and filled, and the
containers of the other names are as they were. -/
theorem C121_fill (l : Lib) (h : Reachable l) (fl : String → F64) (id : Bytes) :
    ∃ l' e, (Call.fillForTest fl id).run l = .ok l' (.code OK) ∧ l'.named id = some e ∧ l'.current = some e ∧
      Filled fl (match l.named id with | some o => o.data | none => notype) e.data ∧
      ∀ id', id' ≠ id → l'.named id' = l.named id' := by
  obtain ⟨hn, _⟩ := reachable_sound h
  have hn' := select_named id hn
  obtain ⟨hs1, hs2⟩ := find_select_self (l := l) id
  obtain ⟨a, ha⟩ := Option.isSome_iff_exists.1 hs2
  have hact : (l.select id).active = some a := by rw [← hs1]; exact ha
  have hlt := hn'.2.2.2 a hact
  have he : (l.select id).heap[a]? = some (l.select id).heap[a] := List.getElem?_eq_getElem hlt
  generalize (l.select id).heap[a] = o at he
  have hold : (match l.named id with | some o => o.data | none => notype) = o.data := by
    unfold Lib.named
    cases hf : l.find id with
    | none =>
      have h1 := (C34_select l id).1 hf
      rw [Lib.current, hact] at h1
      have := he.symm.trans h1
      cases this; rfl
    | some b =>
      have h1 : l.select id = { l with active := some b } := by unfold Lib.select; rw [hf]
      rw [h1] at ha he
      have : l.find id = some a := ha
      rw [hf] at this; cases this
      show (match l.heap[a]? with | some o => o.data | none => notype) = _
      have : l.heap[a]? = some o := he
      rw [this]
  obtain ⟨e', h1, h2⟩ := onRoot_does (e := o) (fill_does fl o.data)
  have hl : (a : Nat) < (l.select id).heap.length := hlt
  refine ⟨{ l.select id with heap := (l.select id).heap.set a e' }, e', ?_, ?_, ?_, ?_, ?_⟩
  · simp only [Call.run, Lib.onActive, hact, he, h1, bare, Step.map]
  · unfold Lib.named
    show ((l.select id).find id).bind (fun b => ((l.select id).heap.set a e')[b]?) = _
    rw [ha]
    exact List.getElem?_set_self hl
  · unfold Lib.current
    show (l.select id).active.bind _ = _
    rw [hact]
    exact List.getElem?_set_self hl
  · rw [hold, h2]; exact fill_value fl o.data
  · intro id' hne
    have hfo := find_select_other (l := l) hne
    unfold Lib.named
    show ((l.select id).find id').bind (fun b => ((l.select id).heap.set a e')[b]?) = _
    rw [hfo]
    cases hf : l.find id' with
    | none => rfl
    | some b =>
      have hba : b ≠ a := fun hb => hne (find_inj hn' (by rw [hfo, hf, hb]) ha)
      have hbl : b < l.heap.length := hn.2.2.1 _ (find_mem hf)
      show ((l.select id).heap.set a e')[b]? = l.heap[b]?
      rw [List.getElem?_set_ne (Ne.symm hba)]
      rcases select_heap (l := l) id with h3 | h3 <;> rw [h3]
      exact List.getElem?_append_left hbl

/-- **C121.** A second call does not start afresh: it finds the lists of the first one and adds to them, so the strings, the
integers under `vector` and the complex numbers are there twice. -/
theorem C121_again (l : Lib) (h : Reachable l) (fl : String → F64) (id : Bytes) (l1 : Lib) (v : Value)
    (h1 : (Call.fillForTest fl id).run l = .ok l1 v)
    (hfresh : l.named id = none) :
    ∃ l2 e w, (Call.fillForTest fl id).run l1 = .ok l2 (.code OK) ∧ l2.named id = some e ∧ e.data = vector w ∧
      w[3]? = some (vecString [str "string1", str "string2", str "string3", str "string4",
        str "string1", str "string2", str "string3", str "string4"]) ∧
      ∃ n, w[6]? = some (map n) ∧ mfind (str "vector") n = some (vecInt [12, 10, 1, 12, 10, 1]) := by
  obtain ⟨l1', e1, g1, g2, _, g4, _⟩ := C121_fill l h fl id
  rw [g1] at h1
  cases h1
  have hr : Reachable l1 := reachable_step h (by rw [g1]; rfl)
  obtain ⟨l2, e2, k1, k2, _, k4, _⟩ := C121_fill l1 hr fl id
  rw [hfresh] at g4
  rw [g2] at k4
  replace k4 : Filled fl e1.data e2.data := k4
  obtain ⟨r, m, n, hd, _, _, _, _, hn⟩ := g4
  obtain ⟨r', m', n', hd', _, _, _, _, hn'⟩ := k4
  refine ⟨l2, e2, _, k1, k2, hd', ?_, n', rfl, ?_⟩
  · rw [hd]; rfl
  · have h6 : under (before e1.data 6) (str "vector") = some (vecInt [12, 10, 1]) := by
      rw [hd]; show mfind (str "vector") n = _
      rw [hn, if_neg (by decide), if_neg (by decide), if_pos rfl]; rfl
    rw [hn', if_neg (by decide), if_neg (by decide), if_pos rfl]
    rw [h6]; rfl

/-- A container filled, its cursor moved inside, something else written there, and filled again. -/
example : ∃ l, Reachable l ∧ ∃ e, l.named (str "a") = some e ∧ e.head.length = 2 ∧ ∃ v, e.data = vector v ∧ v.length = 11 :=
  ⟨_, ⟨[.fillForTest (fun _ => .zero) (str "a"), .pushVectorPosition 3, .setInt 4], rfl⟩, _, rfl, by decide +kernel, _, rfl, rfl⟩

/-- What it makes of the name `a` in the state at program start. -/
example (fl : String → F64) : ∃ l e, (Call.fillForTest fl (str "a")).run .init = .ok l (.code OK) ∧ l.named (str "a") = some e ∧
    Filled fl notype e.data := by
  obtain ⟨l, e, h1, h2, _, h4, _⟩ := C121_fill .init ⟨[], rfl⟩ fl (str "a")
  exact ⟨l, e, h1, h2, h4⟩

end CApi
end GCV
