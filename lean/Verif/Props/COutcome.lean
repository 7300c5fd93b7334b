import Verif.Spec.COutcome
import Verif.Props.CInterface
import Verif.Props.EveryContent
import Verif.Props.AnyKey
import Verif.Props.MatrixRef

/-!
# C119: how every call of the C interface ends
-/

namespace GCV
namespace CApi
open GC

/-- How a C++ call ends. -/
def ends {α : Type} : Res α → Outcome → Prop
  | .ok _ _, o => o = .returns
  | .throw _, o => o = .exception
  | .ub, o => o = .undefined
  | .diverge, _ => False

theorem ends_bind {α β : Type} {r : Res α} {f : GC → α → β} {o : Outcome} (h : ends r o) :
    ends (r.bind fun s a => .ok s (f s a)) o := by
  cases r <;> exact h

theorem growing_at {α : Type} (mk : α → GC) (z : α) (up : List α → GC) (t : List α) (P : Prop) [Decidable P] (upd : α → α)
    (own : Bool) (pos : I32) (hpos : pos ≠ -1) (g : GC) (hf : P → fixed g.ty = false)
    (h1 : P → single g.ty = false ∨ own = true) (h2 : ¬P → g.ty ≠ .NOTYPE ∧ (own = true → single g.ty = false)) :
    ends (if P then onVector z up t pos.toNat upd else onContainers mk z pos.toNat upd g) (growing g.ty own pos) := by
  unfold growing
  rw [if_neg hpos]
  by_cases hp : P
  · rw [if_pos hp, if_neg (by simp [hf hp]), if_neg (by rcases h1 hp with h | h <;> simp [h])]
    rfl
  · rw [if_neg hp]
    obtain ⟨h3, h4⟩ := h2 hp
    unfold onContainers
    cases g <;> simp [GC.ty, shape, fixed, single, ends] at h3 h4 ⊢
    all_goals cases own <;> simp_all

theorem toNat_last {pos : I32} : pos.toNat = 2 ^ 32 - 1 ↔ pos = -1 := by
  constructor
  · intro h; apply BitVec.eq_of_toNat_eq; rw [h]; decide
  · rintro rfl; decide

theorem last_ends {α : Type} (g : GC) (own : Bool) :
    ends (if shape g.ty = 2 ∨ g.ty = .MAP then .throw g else .ub : Res α) (growing g.ty own (-1)) := by
  cases g <;> simp [GC.ty, shape, growing, fixed, ends]

theorem bool_at_ends (g : GC) (hs : sizeOk g = true) (pos : I32) : ends (get_bool_at pos.toNat g) (growing g.ty false pos) := by
  by_cases hp : pos = -1
  · subst hp
    have := (C93_last g hs).1
    rw [toNat_last.2 rfl, this]; exact last_ends g _
  · have : pos.toNat + 1 < 2 ^ 32 := by have := pos.isLt; have := mt toNat_last.1 hp; omega
    rw [(C93_at _ this g hs).1]
    refine growing_at _ _ _ _ _ _ _ _ hp g ?_ ?_ ?_
    · rintro (h | h) <;> rw [h] <;> rfl
    · rintro (h | h) <;> rw [h] <;> exact .inl rfl
    · intro h; exact ⟨fun h' => h (.inl h'), fun h => by cases h⟩

theorem string_at_ends (g : GC) (hs : sizeOk g = true) (pos : I32) :
    ends (get_string_at pos.toNat id g) (growing g.ty false pos) := by
  by_cases hp : pos = -1
  · subst hp
    have := (C93_last g hs).2.2.2.2.2 id
    rw [toNat_last.2 rfl, this]; exact last_ends g _
  · have : pos.toNat + 1 < 2 ^ 32 := by have := pos.isLt; have := mt toNat_last.1 hp; omega
    rw [(C93_at _ this g hs).2.2.2.2.2 id]
    refine growing_at _ _ _ _ _ _ _ _ hp g ?_ ?_ ?_
    · rintro (h | h) <;> rw [h] <;> rfl
    · rintro (h | h) <;> rw [h] <;> exact .inl rfl
    · intro h; exact ⟨fun h' => h (.inl h'), fun h => by cases h⟩

theorem int_at_ends (g : GC) (hs : sizeOk g = true) (pos : I32) :
    ends (get_int_at pos.toNat id g) (growing g.ty (g.ty = .BOOL || g.ty = .INTEGER) pos) := by
  by_cases hp : pos = -1
  · subst hp
    have := (C93_last g hs).2.1 id
    rw [toNat_last.2 rfl, this]; exact last_ends g _
  · have : pos.toNat + 1 < 2 ^ 32 := by have := pos.isLt; have := mt toNat_last.1 hp; omega
    rw [(C93_at _ this g hs).2.1 id]
    refine growing_at _ _ _ _ _ _ _ _ hp g ?_ ?_ ?_ <;>
      (generalize g.ty = t; cases t <;> simp [accepted, vectorForComplex, widens, width, refused, shape, fixed, single])

theorem const_ends (g : GC) (r : Out Value) (o : Outcome) (h : match r with
    | .ok _ => o = .returns | .throw => o = .exception | .ub => o = .undefined | .diverge => False) :
    ends (Call.query.const g r) o := by
  cases r <;> exact h

theorem real_at_ends (g : GC) (pos : I32) (f : F64 → Value) :
    ends (Call.query.const g ((get_number_at pos.toNat g).bind fun r => .ok (f r)))
      (counting g (g.ty = .VECTOR || severalNumbers 3 g.ty) isRealNumber pos) := by
  apply const_ends
  rw [(C95_number_at g _).1]
  unfold counting
  by_cases h : g.ty = .VECTOR ∨ severalNumbers 3 g.ty = true
  · rw [if_pos h, if_pos (by simpa using h)]
    cases (elems g)[pos.toNat]? with
    | none => rfl
    | some x => dsimp only [onlyReal]; cases isRealNumber x <;> rfl
  · rw [if_neg h, if_neg (by simpa using h)]; rfl

theorem complex_at_ends (g : GC) (pos : I32) (f : Cplx → Value) :
    ends (Call.query.const g ((get_complex_number_at pos.toNat g).bind fun r => .ok (f r)))
      (counting g (g.ty = .VECTOR || severalNumbers 4 g.ty) isNumber pos) := by
  apply const_ends
  rw [(C95_number_at g _).2]
  unfold counting
  by_cases h : g.ty = .VECTOR ∨ severalNumbers 4 g.ty = true
  · rw [if_pos h, if_pos (by simpa using h)]
    cases (elems g)[pos.toNat]? with
    | none => rfl
    | some x => cases x <;> rfl
  · rw [if_neg h, if_neg (by simpa using h)]; rfl

theorem cell_ends {β : Type} (up : Mat β → GC) (i j : I32) (upd : β → β) (m : Mat β) {rows count : Nat} (hr : m.nr = rows)
    (hc : m.data.length = count) : ends (atCell up i.toNat j.toNat upd m) (coordinate rows count i j) := by
  subst hr hc
  unfold atCell coordinate
  by_cases h : (i.toNat + j.toNat * m.nr) % 2 ^ 32 < m.data.length
  · rw [List.getElem?_eq_getElem h, if_pos h]; rfl
  · rw [List.getElem?_eq_none (by omega), if_neg h]; rfl

theorem through_ends {β : Type} (t : Ty) (ht : t = .MAT_REAL ∨ t = .MAT_COMPLEX) (conv : GC → β) (up : Mat β → GC) (z : β)
    (i j : I32) (upd : β → β) (g : GC) :
    ends (if g.ty = .NOTYPE then atCell up i.toNat j.toNat upd (zeros z i.toNat j.toNat)
      else throughMatrix t cellAccepts conv (atCell up i.toNat j.toNat upd) g) (coordinates g t i j) := by
  unfold coordinates
  by_cases h0 : g.ty = .NOTYPE
  · rw [if_pos h0, if_pos h0]
    exact cell_ends _ _ _ _ _ rfl (by simp [zeros])
  · rw [if_neg h0, if_neg h0]
    unfold throughMatrix
    by_cases h1 : cellAccepts g.ty t = true
    · rw [if_pos h1, if_pos h1]
      by_cases h2 : wrongMember t g = true
      · rw [if_pos h2, if_pos h2]; rfl
      · rw [if_neg h2, if_neg h2, if_pos (by rcases ht with rfl | rfl <;> simp [landing, vectorForComplex])]
        refine cell_ends _ _ _ _ _ rfl ?_
        simp only [matrixOf, List.length_map]
        cases g <;> first | rfl | exact absurd rfl h0
    · rw [if_neg h1, if_neg h1]; rfl

/-- What the getters do to the container under the cursor. -/
theorem query_ends {c : Call} {d : Value} {f : GC → Res Value} (hc : c.query = some (d, f)) (g : GC) (hs : sizeOk g = true) :
    ends (f g) (atContainer g c) := by
  cases c <;> simp only [Call.query] at hc <;> first | (cases hc; done) | skip
  all_goals cases hc
  all_goals first
    | rfl
    | exact ends_bind (bool_at_ends g hs _)
    | exact ends_bind (int_at_ends g hs _)
    | exact ends_bind (string_at_ends g hs _)
    | exact real_at_ends g _ _
    | exact complex_at_ends g _ _
    | (refine ends_bind ?_
       rw [(C98_cell g hs _ _).2.2.1]
       exact through_ends _ (.inl rfl) _ _ _ _ _ _ g)
    | (refine ends_bind ?_
       rw [(C98_cell g hs _ _).2.2.2]
       exact through_ends _ (.inr rfl) _ _ _ _ _ _ g)
    | (cases g <;> rfl)

theorem if_ok {α : Type} {a b : Prop} [Decidable a] [Decidable b] {s t u : GC} {x y : α} :
    (if a then Res.ok s x else if b then .ok t y else .throw u) ≠ .ub ∧
    (if a then Res.ok s x else if b then .ok t y else .throw u) ≠ .diverge := by
  split
  · exact ⟨nofun, nofun⟩
  · split <;> exact ⟨nofun, nofun⟩

/-- The guarded calls are undefined in one case. -/
theorem guarded_ends {c : Call} {op : Op} (hc : c.guardedOp = some op) (g : GC) (hs : sizeOk g = true) :
    step op g ≠ .diverge ∧ (step op g = .ub → atContainer g c = .undefined) ∧
      (step op g ≠ .ub → atContainer g c = .returns) := by
  have num : ∀ {r : Res Unit} {o : Outcome}, r ≠ .ub ∧ r ≠ .diverge → o = .returns →
      r ≠ .diverge ∧ (r = .ub → o = .undefined) ∧ (r ≠ .ub → o = .returns) :=
    fun h ho => ⟨h.2, fun h' => absurd h' h.1, fun _ => ho⟩
  have of_ok : ∀ {r : Res Unit} {s : GC}, r = .ok s () → r ≠ .ub ∧ r ≠ .diverge := by
    rintro r s rfl; exact ⟨nofun, nofun⟩
  have push : ∀ x, number x = true → pushValue x g ≠ .ub ∧ pushValue x g ≠ .diverge := by
    intro x hx
    rw [C92_number x g hx hs]
    exact if_ok
  cases c <;> simp only [Call.guardedOp] at hc <;> first | (cases hc; done) | skip
  all_goals cases hc
  all_goals first
    | exact num (of_ok rfl) rfl
    | (rename_i x; exact num (push (bool (x != 0)) rfl) rfl)
    | (rename_i x; exact num (push (int x) rfl) rfl)
    | (rename_i x; exact num (push (real x) rfl) rfl)
    | (rename_i x; exact num (push (complex x) rfl) rfl)
    | skip
  rename_i x
  have h := C92_string (cstr x) g hs
  change push_string (cstr x) g = _ at h
  change push_string (cstr x) g ≠ _ ∧ _
  change _ ∧ (push_string (cstr x) g = _ → _) ∧ (push_string (cstr x) g ≠ _ → _)
  rw [h]
  cases g <;> simp [GC.ty, shape, atContainer, single]

theorem fill_ends {c : Call} {f : GC → Res Unit} (hc : c.fill = some f) (g : GC) :
    ∃ g', f g = .ok g' () := by
  cases c <;> simp only [Call.fill] at hc <;> first | (cases hc; done) | skip
  all_goals (cases hc; exact ⟨_, rfl⟩)

theorem onActive_ends {l : Lib} {a : Nat} {e : Explorer} {d : Value} {f : Explorer → Step Explorer Value} {o : Outcome}
    (ha : l.active = some a) (he : l.heap[a]? = some e) (h : (f e).Ends o) : (l.onActive d f).Ends o := by
  rw [onActive_eq ha he]
  cases hf : f e <;> rw [hf] at h <;> exact h

theorem map_ends {σ α β : Type} {r : Step σ α} {f : α → β} {o : Outcome} (h : r.Ends o) : (r.map f).Ends o := by
  cases r <;> exact h

theorem onTop_ends {α : Type} {f : GC → Res α} {e : Explorer} {p : List Sel} {r : List (Option (List Sel))} {g : GC}
    (hp : Placed e) (hh : e.head = some p :: r) (hg : getAt p e.data = some g) {o : Outcome} (h : ends (f g) o) :
    (e.onTop f).Ends o := by
  obtain ⟨g1, hg1, ho⟩ := onTop_eq f hp hh
  rw [hg] at hg1
  cases hg1
  rw [ho]
  cases hf : f g <;> rw [hf] at h <;> exact h

theorem onTop_none {α : Type} {f : GC → Res α} {e : Explorer} (hh : e.head = []) : e.onTop f = .throw e := by
  unfold Explorer.onTop; rw [hh]

theorem fill_open {c : Call} {f : GC → Res Unit} (hc : c.fill = some f) (g : GC) :
    c.open = true ∧ atContainer g c = .returns ∧ ∀ l e, l.current = some e → outcome c l =
      match l.top with | none => if c.open then .exception else .returns | some g => atContainer g c := by
  cases c <;> simp only [Call.fill] at hc <;> first | (cases hc; done) | skip
  all_goals
    refine ⟨rfl, rfl, fun l e he => ?_⟩
    simp only [outcome, he]
    cases l.top <;> rfl

theorem query_open {c : Call} {d : Value} {f : GC → Res Value} (hc : c.query = some (d, f)) :
    c.open = true ∧ ∀ l e, l.current = some e → outcome c l =
      match l.top with | none => if c.open then .exception else .returns | some g => atContainer g c := by
  cases c <;> simp only [Call.query] at hc <;> first | (cases hc; done) | skip
  all_goals
    refine ⟨rfl, fun l e he => ?_⟩
    simp only [outcome, he]
    cases l.top <;> rfl

theorem guarded_open {c : Call} {op : Op} (hc : c.guardedOp = some op) :
    c.open = false ∧ ∀ l e, l.current = some e → outcome c l =
      match l.top with | none => if c.open then .exception else .returns | some g => atContainer g c := by
  cases c <;> simp only [Call.guardedOp] at hc <;> first | (cases hc; done) | skip
  all_goals
    refine ⟨rfl, fun l e he => ?_⟩
    simp only [outcome, he]
    cases l.top <;> rfl

/-- The call is a navigation call, or it is in one of the three groups, or it is one of two others. -/
theorem call_cases (c : Call) (hc : c.isFill = false) (hn : c.id? = none) :
    (∃ op, c.guardedOp = some op) ∨ (∃ d f, c.query = some (d, f)) ∨ (∃ f, c.fill = some f) ∨ c = .getNextKey ∨
      (Navigation c ∧ ∀ g, atContainer g c = .returns) ∨ c = .pushVectorPosition (-1) := by
  cases c <;> first
    | (cases hn; done)
    | exact .inl ⟨_, rfl⟩
    | exact .inr (.inl ⟨_, _, rfl⟩)
    | exact .inr (.inr (.inl ⟨_, rfl⟩))
    | exact .inr (.inr (.inr (.inl rfl)))
    | exact .inr (.inr (.inr (.inr (.inl ⟨by constructor, fun _ => rfl⟩))))
    | skip
  rename_i pos
  by_cases hp : pos = -1
  · subst hp; exact .inr (.inr (.inr (.inr (.inr rfl))))
  · refine .inr (.inr (.inr (.inr (.inl ⟨.index _ (mt toNat_last.1 hp), fun g => if_neg fun h => hp h.2⟩))))

/-- **C119.** How every call ends, in every state that calls lead to: it returns, an exception leaves it, or it is undefined,
as the table says. -/
theorem C119_outcome (l : Lib) (h : ReachableNoFill l) (hs : ∀ g, l.top = some g → sizeOk g = true) (c : Call)
    (hc : c.isFill = false) : (c.run l).Ends (outcome c l) := by
  cases hid : c.id? with
  | some id =>
    have : outcome c l = .returns := by
      unfold outcome
      cases l.current with
      | none => rfl
      | some e => cases c <;> first | (cases hid; done) | (cases hc; done) | rfl
    rw [this]
    cases c <;> first | (cases hid; done) | (cases hc; done) | rfl
  | none =>
    rw [run_act hid]
    rcases active_cases h with ha | ⟨a, e, ha, he, hp, hsd, hl⟩
    · have : l.current = none := by unfold Lib.current; rw [ha]; rfl
      unfold outcome Lib.onActive
      rw [this, ha]; rfl
    · have hcur : l.current = some e := by unfold Lib.current; rw [ha]; exact he
      rcases call_cases c hc hid with ⟨op, hop⟩ | ⟨d, f, hf⟩ | ⟨f, hf⟩ | rfl | ⟨hn, hr⟩ | rfl
      · obtain ⟨ho, hout⟩ := guarded_open hop
        rw [(act_guarded hop).2, hout l e hcur]
        refine onActive_ends ha he (map_ends ?_)
        rcases placed_head hp with hh | ⟨p, r, hh⟩
        · have ht : l.top = none := by unfold Lib.top; rw [hcur]; simp [hh]
          rw [ht, ho, onTop_none hh]; rfl
        · obtain ⟨g, hg, hon⟩ := onTop_eq (step op) hp hh
          have ht : l.top = some g := by unfold Lib.top; rw [hcur]; simp [hh, hg]
          rw [ht, hon]
          obtain ⟨g1, g2, g3⟩ := guarded_ends hop g (hs g ht)
          cases hst : step op g with
          | ok s u => exact g3 (by rw [hst]; nofun)
          | throw s => exact g3 (by rw [hst]; nofun)
          | ub => exact g2 hst
          | diverge => exact absurd hst g1
      · obtain ⟨ho, hout⟩ := query_open hf
        rw [(act_query hf).2, hout l e hcur]
        refine onActive_ends ha he ?_
        rcases placed_head hp with hh | ⟨p, r, hh⟩
        · have ht : l.top = none := by unfold Lib.top; rw [hcur]; simp [hh]
          rw [ht, ho]; dsimp only; rw [onTop_none hh]; rfl
        · obtain ⟨g, hg, _⟩ := onTop_eq f hp hh
          have ht : l.top = some g := by unfold Lib.top; rw [hcur]; simp [hh, hg]
          rw [ht]
          exact onTop_ends hp hh hg (query_ends hf g (hs g ht))
      · obtain ⟨ho, _, hout⟩ := fill_open hf notype
        rw [(act_fill hf).2, hout l e hcur]
        refine onActive_ends ha he (map_ends ?_)
        rcases placed_head hp with hh | ⟨p, r, hh⟩
        · have ht : l.top = none := by unfold Lib.top; rw [hcur]; simp [hh]
          rw [ht, ho, onTop_none hh]; rfl
        · obtain ⟨g, hg, hon⟩ := onTop_eq f hp hh
          have ht : l.top = some g := by unfold Lib.top; rw [hcur]; simp [hh, hg]
          rw [ht, hon]
          obtain ⟨g', hg'⟩ := fill_ends hf g
          rw [hg']
          exact (fill_open hf g).2.1
      · refine onActive_ends ha he ?_
        unfold outcome
        rw [hcur]
        dsimp only [Call.act]
        refine map_ends ?_
        unfold Explorer.next_map_key
        cases hi : e.iter with
        | null => rfl
        | gone => rfl
        | «at» p k =>
          have := hsd.2 p k hi
          unfold isMapAt at this
          dsimp only
          split at this
          · rename_i m hm
            cases k <;> rfl
          · cases this
      · have key := C33_navigation_partial l h c hn
        rw [run_act hid] at key
        obtain ⟨l', n, h1, _⟩ := key
        rw [h1]
        have : c.open = false := by cases hn <;> rfl
        unfold outcome
        rw [hcur]
        cases hn <;> (cases l.top <;> first | rfl | exact hr _)
      · refine onActive_ends ha he ?_
        dsimp only [Call.act]
        refine map_ends ?_
        have : outcome (.pushVectorPosition (-1)) l = match l.top with
            | none => .returns | some g => atContainer g (.pushVectorPosition (-1)) := by
          simp only [outcome, hcur]
          cases l.top <;> rfl
        rw [this]
        unfold Explorer.push_vector_position
        rcases placed_head hp with hh | ⟨p, r, hh⟩
        · have ht : l.top = none := by unfold Lib.top; rw [hcur]; simp [hh]
          rw [ht, check_empty hh]; rfl
        · obtain ⟨g, hg, hon⟩ := onTop_eq (withIdx (-1 : I32).toNat fun x => .ok x ()) hp hh
          have ht : l.top = some g := by unfold Lib.top; rw [hcur]; simp [hh, hg]
          rw [ht, check_eq hh hg]
          dsimp only [atContainer]
          by_cases hv : Ty.VECTOR = g.ty
          · rw [if_pos hv, if_pos rfl, if_pos ⟨hv.symm, rfl⟩, hon]
            cases g with
            | vector v =>
              have hlen : v.length < 2 ^ 32 := of_decide_eq_true (hs _ ht)
              have hw : withIdx (-1 : I32).toNat (fun x => .ok x ()) (vector v) = .ub := by
                unfold withIdx
                dsimp only [oldVector]
                rw [toNat_last.2 rfl]
                have : checkResize notype (2 ^ 32 - 1) v = [] := by
                  unfold checkResize
                  rw [if_pos (by omega)]
                  have h0 : u32 (2 ^ 32 - 1 + 1) = 0 := by decide
                  rw [h0]; simp [resizeL]
                rw [this]; rfl
              rw [hw]; rfl
            | _ => cases hv
          · rw [if_neg hv, if_neg (by decide), if_neg fun h => hv h.1.symm]; rfl

example : ∃ l, ReachableNoFill l ∧ l.top = some (vecReal [.one]) ∧ outcome (.getRealAt 1) l = .undefined ∧
    outcome (.getRealAt 0) l = .returns ∧ outcome .getString l = .exception ∧ outcome .getNextKey l = .undefined ∧
    outcome (.pushVectorPosition (-1)) l = .returns :=
  ⟨_, ⟨[.new (str "a"), .setVecReal [.one]], by simp [Call.isFill], rfl⟩, rfl, rfl, rfl, rfl, rfl, rfl⟩

end CApi
end GCV
