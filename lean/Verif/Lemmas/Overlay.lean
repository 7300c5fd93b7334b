import Verif.Spec.Overlay
import Verif.Lemmas.History

/-! # Lemmas: assignment is an overlay -/

namespace GCV
namespace GC

theorem OverlaidM_iff : ∀ {m : Entries} {a r : GC},
    OverlaidM m a r ↔ ∀ e ∈ m, Overlaid e.2 (valueAt a e.1) (valueAt r e.1)
  | [], a, r => by simp [OverlaidM]
  | (k, x) :: s, a, r => by simp [OverlaidM, OverlaidM_iff (m := s)]

theorem keysOf_old (a : GC) : mapKeys a = a.oldMap.map Prod.fst := by
  cases a <;> rfl

theorem OverlaidL_of : ∀ (v w r : List GC) (a : GC) (i : Nat), from_gcL v w = .ok r →
    v.length = w.length → (∀ j, j < v.length → w[j]? = some (elemAt a (i + j))) →
    (∀ x ∈ v, ∀ a y, WF a → from_gc x a = .ok y → Overlaid x a y) → (∀ j, WF (elemAt a j)) →
    OverlaidL v a i r
  | [], [], r, a, i, h, _, _, _, _ => by
    injection h with h; simp [OverlaidL, ← h]
  | [], _ :: _, r, a, i, h, hl, _, _, _ => by simp at hl
  | x :: xs, [], r, a, i, h, hl, _, _, _ => by simp at hl
  | x :: xs, y :: ys, r, a, i, h, hl, hw, ih, hwf => by
    rw [from_gcL] at h
    obtain ⟨y', h1, h⟩ := out_bind_ok h
    obtain ⟨ys', h2, h⟩ := out_bind_ok h
    injection h with h; subst h
    refine ⟨y', ys', rfl, ?_, ?_⟩
    · have := hw 0 (by simp)
      simp only [List.getElem?_cons_zero, Option.some.injEq, Nat.add_zero] at this
      rw [← this]
      refine ih x (by simp) y y' ?_ h1
      rw [this]; exact hwf _
    · refine OverlaidL_of xs ys ys' a (i + 1) h2 (by simpa using hl) ?_
        (fun z hz => ih z (by simp [hz])) hwf
      intro j hj
      have := hw (j + 1) (by simpa using hj)
      rw [List.getElem?_cons_succ] at this
      rw [this, show i + 1 + j = i + (j + 1) by omega]

theorem overlaid_of : ∀ b, Fits b → WF b → ∀ a r, WF a → from_gc b a = .ok r → Overlaid b a r := by
  refine (GC.induct
    (P := fun b => Fits b → WF b → ∀ a r, WF a → from_gc b a = .ok r → Overlaid b a r)
    (PL := fun v => ∀ b ∈ v, Fits b → WF b → ∀ a r, WF a → from_gc b a = .ok r → Overlaid b a r)
    (PM := fun m => ∀ e ∈ m, Fits e.2 → WF e.2 → ∀ a r, WF a → from_gc e.2 a = .ok r →
      Overlaid e.2 a r) ?_ ?_ ?_ ?_ ?_ ?_ ?_).1
  · intro g hv hm hf hw a r ha h
    have iff := from_gc_iff g hf hw a ha
    by_cases hc : Clean g a
    · have h' := iff.2 hc
      rw [h'] at h
      injection h with h; subst h
      cases g <;> first
        | exact absurd rfl (hv _)
        | exact absurd rfl (hm _)
        | (cases a <;> simp [Overlaid, isEmptyVec, ty] <;>
            simp [Clean, isEmptyVec, sameKindNonEmpty] at hc <;>
            intro he <;> subst he <;> simp_all)
    · cases g <;> first
        | exact absurd rfl (hv _)
        | exact absurd rfl (hm _)
        | (refine absurd ?_ hc; simp [Clean, isEmptyVec]; done)
        | skip
      all_goals
        rename_i v
        cases a <;> simp [Clean, isEmptyVec, sameKindNonEmpty] at hc
        obtain ⟨rfl, -⟩ := hc
        injection h with h
        subst h
        simp [Overlaid, isEmptyVec, ty, allocL, oldVecPointer, oldVecBool, oldVecInt, oldVecLong,
          oldVecReal, oldVecComplex, oldVecString, u32]
  · intro v ih hf hw a r ha h
    obtain ⟨h32, hfl⟩ := Fits_vector hf
    rw [from_gc] at h
    obtain ⟨w, hw', h⟩ := out_bind_ok h
    injection h with h; subst h
    rw [u32_of_lt h32] at hw'
    rw [Overlaid]
    by_cases hv : v = []
    · subst hv
      injection hw' with hw'
      subst hw'
      cases a <;> simp [allocL, ty, oldVector, OverlaidL]
    · rw [if_neg (by simp [hv])]
      have hlen : 0 < v.length := List.length_pos_iff.2 hv
      refine ⟨w, rfl, ?_⟩
      refine OverlaidL_of v _ w a 0 hw' (by rw [length_allocL _ _ _ hlen]) ?_
        (fun x hx a y ha hy => ih x hx (everyL_iff.1 hfl x hx) (WFL_iff.1 hw x hx) a y ha hy)
        (fun j => WF_elemAt ha j)
      intro j hj
      rw [allocL_get a.oldVector hlen hj, Nat.zero_add, elemAt_old]
  · intro m ih hf hw a r ha h
    obtain ⟨hnul, hfm⟩ := Fits_map hf
    rw [from_gc] at h
    obtain ⟨w, hw', h⟩ := out_bind_ok h
    injection h with h; subst h
    obtain ⟨h1, h2⟩ := from_gcM_spec m hw.1 hnul hw'
    refine ⟨rfl, ?_, ?_, ?_⟩
    · intro k
      rw [keysOf_old a]
      by_cases hk : k ∈ m.map Prod.fst
      · simp only [hk, true_or, iff_true]
        obtain ⟨e, he, rfl⟩ := List.mem_map.1 hk
        obtain ⟨y, _, hy⟩ := h2 e he
        exact mfind_isSome.1 (by simp [hy])
      · simp only [hk, false_or, mapKeys]
        rw [← mfind_isSome, ← mfind_isSome, h1 k hk]
    · intro k hk
      rw [valueAt_old, valueAt_old]
      simp only [oldMap, h1 k hk]
    · rw [OverlaidM_iff]
      intro e he
      obtain ⟨y, hy, hy'⟩ := h2 e he
      have : valueAt (map w) e.1 = y := by rw [valueAt_old]; simp [oldMap, hy']
      rw [this, valueAt_old]
      exact ih e he (everyM_iff.1 hfm e he) (WFM_iff.1 hw.2 e he) _ _ (WF_valueAt ha _) hy
  · simp
  · intro x xs hx hxs b hb
    rcases List.mem_cons.1 hb with rfl | hb
    · exact hx
    · exact hxs b hb
  · simp
  · intro k x xs hx hxs b hb
    rcases List.mem_cons.1 hb with rfl | hb
    · exact hx
    · exact hxs b hb

theorem OverlaidL_unique : ∀ (v : List GC) (a : GC) (i : Nat) (w w' : List GC),
    (∀ x ∈ v, ∀ a r r', WF r → WF r' → Overlaid x a r → Overlaid x a r' → r = r') →
    WFL w → WFL w' → OverlaidL v a i w → OverlaidL v a i w' → w = w'
  | [], a, i, w, w', _, _, _, h, h' => by rw [OverlaidL] at h h'; rw [h, h']
  | x :: xs, a, i, w, w', ih, hw, hw', h, h' => by
    rw [OverlaidL] at h h'
    obtain ⟨y, s, rfl, h1, h2⟩ := h
    obtain ⟨y', s', rfl, h1', h2'⟩ := h'
    rw [ih x (by simp) _ _ _ hw.1 hw'.1 h1 h1',
      OverlaidL_unique xs a (i + 1) s s' (fun z hz => ih z (by simp [hz])) hw.2 hw'.2 h2 h2']

theorem overlaid_unique : ∀ b a r r', WF r → WF r' → Overlaid b a r → Overlaid b a r' → r = r' := by
  refine (GC.induct
    (P := fun b => ∀ a r r', WF r → WF r' → Overlaid b a r → Overlaid b a r' → r = r')
    (PL := fun v => ∀ b ∈ v, ∀ a r r', WF r → WF r' → Overlaid b a r → Overlaid b a r' → r = r')
    (PM := fun m => ∀ e ∈ m, ∀ a r r', WF r → WF r' → Overlaid e.2 a r → Overlaid e.2 a r' → r = r')
    ?_ ?_ ?_ ?_ ?_ ?_ ?_).1
  · intro g hv hm a r r' _ _ h h'
    cases g <;> first
      | exact absurd rfl (hv _)
      | exact absurd rfl (hm _)
      | (simp only [Overlaid] at h h'
         split at h <;> simp_all)
  · intro v ih a r r' hr hr' h h'
    rw [Overlaid] at h h'
    split at h
    · rename_i hc
      rw [if_pos hc] at h'; rw [h, h']
    · rename_i hc
      rw [if_neg hc] at h'
      obtain ⟨w, rfl, h⟩ := h
      obtain ⟨w', rfl, h'⟩ := h'
      rw [OverlaidL_unique v a 0 w w' ih hr hr' h h']
  · intro m ih a r r' hr hr' h h'
    obtain ⟨h1, h2, h3, h4⟩ := h
    obtain ⟨h1', h2', h3', h4'⟩ := h'
    rw [OverlaidM_iff] at h4 h4'
    cases r <;> simp only [ty, reduceCtorEq] at h1
    cases r' <;> simp only [ty, reduceCtorEq] at h1'
    rename_i w w'
    have hv : ∀ k, valueAt (map w) k = valueAt (map w') k := by
      intro k
      by_cases hk : k ∈ m.map Prod.fst
      · obtain ⟨e, he, rfl⟩ := List.mem_map.1 hk
        refine ih e he _ _ _ ?_ ?_ (h4 e he) (h4' e he)
        · rw [valueAt_old]; exact WF_valueAt hr _
        · rw [valueAt_old]; exact WF_valueAt hr' _
      · rw [h3 k hk, h3' k hk]
    congr 1
    apply sorted_ext hr.1 hr'.1
    intro k
    have hk : (mfind k w).isSome ↔ (mfind k w').isSome := by
      rw [mfind_isSome, mfind_isSome]
      exact (h2 k).trans (h2' k).symm
    have := hv k
    rw [valueAt_old, valueAt_old] at this
    simp only [oldMap] at this
    cases hA : mfind k w <;> cases hB : mfind k w' <;> simp_all
  · simp
  · intro x xs hx hxs b hb
    rcases List.mem_cons.1 hb with rfl | hb
    · exact hx
    · exact hxs b hb
  · simp
  · intro k x xs hx hxs b hb
    rcases List.mem_cons.1 hb with rfl | hb
    · exact hx
    · exact hxs b hb

end GC
end GCV
