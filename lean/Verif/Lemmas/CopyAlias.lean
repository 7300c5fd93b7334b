import Verif.Model.CopyAlias
import Verif.Spec.CopyDest
import Verif.Lemmas.Map

/-! # Lemmas: copies into a part of the container -/

namespace GCV
namespace GC

variable {α β : Type}

/-- What has parts is a VECTOR or a MAP, and stays one when a part changes. -/
theorem modAt_ty {s : Sel} {q : List Sel} {x y : GC} (f : GC → GC) (h : getAt (s :: q) x = some y) :
    (x.ty = .VECTOR ∨ x.ty = .MAP) ∧ (modAt (s :: q) f x).ty = x.ty := by
  cases s with
  | idx i =>
    cases x <;> first
      | (simp [getAt] at h; done)
      | (refine ⟨Or.inl rfl, ?_⟩
         simp only [modAt]
         split <;> rfl)
  | key k =>
    cases x <;> first
      | (simp [getAt] at h; done)
      | (refine ⟨Or.inr rfl, ?_⟩
         simp only [modAt]
         split <;> rfl)

theorem length_mset_any (k : Bytes) (a b : GC) : ∀ m : Entries, (mset k a m).length = (mset k b m).length
  | [] => rfl
  | (k', v) :: r => by
    simp only [mset]
    split
    · rfl
    · split
      · rfl
      · simp only [List.length_cons, length_mset_any k a b r]

theorem length_mset_old {k : Bytes} {x : GC} (a : GC) : ∀ {m : Entries}, KeysSorted m → mfind k m = some x →
    (mset k a m).length = m.length
  | [], _, h => by simp [mfind] at h
  | (k', v) :: r, hs, h => by
    simp only [mset]
    by_cases hk : k = k'
    · rw [if_pos hk]; rfl
    · rw [if_neg hk]
      rw [mfind, if_neg hk] at h
      rw [KeysSorted, List.pairwise_cons] at hs
      have hlt : blt k k' = false := by
        cases hb : blt k k' with
        | false => rfl
        | true =>
          exfalso
          have : mfind k r = none := mfind_none_of_lt fun e he =>
            (blt_iff _ _).1 (blt_trans hb ((blt_iff _ _).2 (hs.1 e he)))
          rw [this] at h
          cases h
      rw [hlt]
      simp only [Bool.false_eq_true, if_false, List.length_cons, length_mset_old a hs.2 h]

/-- The loop over the elements of a VECTOR, one of which the destination is in. -/
theorem loopAt_vector {R : GC → Nat → Out α} {el : GC → Out α} {mk : List α → GC}
    (hR : ∀ u i, R (vector u) i = (getL u i).bind el) (hel : ∀ u : GC, u.ty = .VECTOR ∨ u.ty = .MAP → el u = .throw)
    (hmk : ∀ w, el (mk w) = .throw) {j : Nat} {q : List Sel} {v : List GC} {old : List α}
    (hx : getAt (.idx j :: q) (vector v) = some (mk old)) {ne : Nat} (hne : ne ≤ v.length) : ∀ (n i : Nat) (w : List α), n + i = ne →
    loopAt R (fun w => modAt (.idx j :: q) (fun _ => mk w) (vector v)) n i w = convInto el w ((v.take ne).drop i)
  | 0, i, w, h => by
    rw [List.drop_eq_nil_of_le (by rw [List.length_take]; omega)]
    rfl
  | n + 1, i, w, h => by
    have hi : i < v.length := by omega
    have hd : (v.take ne).drop i = v[i] :: (v.take ne).drop (i + 1) := by
      have hi' : i < (v.take ne).length := by rw [List.length_take]; omega
      rw [List.drop_eq_getElem_cons hi', List.getElem_take]
    have ih := fun w => loopAt_vector hR hel hmk hx hne n (i + 1) w (by omega)
    simp only [getAt] at hx
    cases hj : v[j]? with
    | none => simp [hj] at hx
    | some x =>
      rw [hj, Option.bind_some] at hx
      rw [hd, loopAt, convInto]
      simp only [modAt, hj, hR] at ih ⊢
      by_cases hij : i = j
      · subst hij
        have e1 : (v.set i (modAt q (fun _ => mk w) x))[i]? = some (modAt q (fun _ => mk w) x) := List.getElem?_set_self hi
        have e2 : v[i] = x := by
          rw [List.getElem?_eq_getElem hi] at hj
          exact Option.some.inj hj
        have t1 : el (modAt q (fun _ => mk w) x) = .throw := by
          cases q with
          | nil => exact hmk w
          | cons s q =>
            obtain ⟨h1, h2⟩ := modAt_ty (fun _ => mk w) hx
            exact hel _ (by rw [h2]; exact h1)
        have t2 : el x = .throw := by
          cases q with
          | nil => simp only [getAt, Option.some.injEq] at hx; rw [hx]; exact hmk old
          | cons s q => exact hel _ (modAt_ty (fun _ => mk w) hx).1
        simp only [getL, e1, e2, Out.bind, t1, t2]
      · have e1 : (v.set j (modAt q (fun _ => mk w) x))[i]? = some v[i] := by
          rw [List.getElem?_set_ne (Ne.symm hij), List.getElem?_eq_getElem hi]
        simp only [getL, e1, Out.bind]
        cases el v[i] with
        | ok y => exact ih _
        | throw => rfl
        | ub => rfl
        | diverge => rfl

/-- A copy to a vector inside of the container is a copy to a vector apart. -/
theorem vecAt_inside {sc el : GC → Out α} {mk : List α → GC} (hel : ∀ u : GC, u.ty = .VECTOR ∨ u.ty = .MAP → el u = .throw)
    (hmk : ∀ w, el (mk w) = .throw) {s : Sel} {q : List Sel} {g : GC} {old : List α} (hw : WF g)
    (hx : getAt (s :: q) g = some (mk old)) :
    vecAt sc el mk (s :: q) g = (vecInto sc el g old).into fun w => modAt (s :: q) (fun _ => mk w) g := by
  cases s with
  | idx j =>
    cases g <;> try (simp [getAt] at hx; done)
    rename_i v
    obtain ⟨x, hj, -⟩ : ∃ x, v[j]? = some x ∧ True := by
      simp only [getAt] at hx
      cases hj : v[j]? with
      | none => simp [hj] at hx
      | some x => exact ⟨x, rfl, trivial⟩
    have hn : (modAt (.idx j :: q) (fun _ => mk []) (vector v)).get_num_elements = u32 v.length := by
      simp only [modAt, hj, get_num_elements, List.length_set]
    have hle : u32 v.length ≤ v.length := Nat.mod_le _ _
    simp only [vecAt, hn, vecInto, List.take_zero]
    rw [loopAt_vector (R := readNum sc el) (fun _ _ => rfl) hel hmk hx hle (u32 v.length) 0 [] (Nat.add_zero _), List.drop_zero]
  | key k =>
    cases g <;> try (simp [getAt] at hx; done)
    rename_i m
    obtain ⟨x, hk, -⟩ : ∃ x, mfind k m = some x ∧ True := by
      simp only [getAt] at hx
      cases hk : mfind k m with
      | none => simp [hk] at hx
      | some x => exact ⟨x, rfl, trivial⟩
    have hn : (modAt (.key k :: q) (fun _ => mk []) (map m)).get_num_elements = u32 m.length := by
      simp only [modAt, hk, get_num_elements, length_mset_old _ hw.1 hk]
    simp only [vecAt, hn, vecInto, List.take_zero]
    by_cases h0 : u32 m.length = 0
    · rw [if_pos h0, h0]; rfl
    · rw [if_neg h0]
      obtain ⟨n, hn'⟩ : ∃ n, u32 m.length = n + 1 := ⟨u32 m.length - 1, by omega⟩
      rw [hn', loopAt]
      simp only [modAt, hk, readNum]

theorem convInto_not_ok {el : GC → Out α} {x : GC} (hx : el x = .throw) : ∀ {l : List GC} (w : List α) (r : List α), x ∈ l →
    convInto el w l ≠ .ok r
  | [], _, _, h => by simp at h
  | y :: l, w, r, h => by
    rw [convInto]
    cases hy : el y with
    | ok z =>
      have : x ∈ l := by
        rcases List.mem_cons.1 h with rfl | h
        · rw [hx] at hy; cases hy
        · exact h
      exact convInto_not_ok hx _ r this
    | throw => simp
    | ub => simp
    | diverge => simp

/-! ## Matrices -/

theorem convLoop_set {γ : Type} {f : GC → Out γ} {a b : GC} (h : f a = f b) : ∀ (l : List GC) (k : Nat),
    convLoop f (l.set k a) = convLoop f (l.set k b)
  | [], _ => rfl
  | x :: l, 0 => by simp only [List.set_cons_zero, convLoop, h]
  | x :: l, k + 1 => by simp only [List.set_cons_succ, convLoop, convLoop_set h l k]

/-- What a column is read as does not depend on a matrix inside one of its elements. -/
theorem column_hole {sc el : GC → Out β} {mk : Mat β → GC} (hel : ∀ u : GC, u.ty = .VECTOR ∨ u.ty = .MAP → el u = .throw)
    (hmk : ∀ w, el (mk w) = .throw) {s : Sel} {q : List Sel} {x y : GC} (hx : getAt (s :: q) x = some y) (m1 m2 : Mat β) :
    copyToVec sc el (modAt (s :: q) (fun _ => mk m1) x) = copyToVec sc el (modAt (s :: q) (fun _ => mk m2) x) := by
  cases s with
  | idx j =>
    cases x <;> try (simp [getAt] at hx; done)
    rename_i v
    simp only [getAt] at hx
    cases hj : v[j]? with
    | none => simp [hj] at hx
    | some z =>
      rw [hj, Option.bind_some] at hx
      have t : ∀ m, el (modAt q (fun _ => mk m) z) = .throw := fun m => by
        cases q with
        | nil => exact hmk m
        | cons s q =>
          obtain ⟨h1, h2⟩ := modAt_ty (fun _ => mk m) hx
          exact hel _ (by rw [h2]; exact h1)
      simp only [modAt, hj, copyToVec, List.length_set, List.take_set]
      exact convLoop_set (by rw [t, t]) _ _
  | key k =>
    cases x <;> try (simp [getAt] at hx; done)
    rename_i m
    simp only [modAt]
    cases hk : mfind k m with
    | none => rfl
    | some z => simp only [copyToVec, length_mset_any k _ (modAt q (fun _ => mk m2) z) m]

theorem colsAt_vector {sc el : GC → Out β} {mk : Mat β → GC} (hel : ∀ u : GC, u.ty = .VECTOR ∨ u.ty = .MAP → el u = .throw)
    (hmk : ∀ w, el (mk w) = .throw) (h0 : ∀ m : Mat β, m.data = [] → copyToVec sc el (mk m) = .ok [])
    {j : Nat} {q : List Sel} {v : List GC} {x : GC} {m0 m1 : Mat β} (hj : v[j]? = some x) (hx : getAt q x = some (mk m1))
    (hm0 : m0.data = []) {nr : Nat} (hnr : q = [] → nr = 0) :
    ∀ (n i : Nat) (m : Mat β), n + i = v.length → (q = [] → m.data = []) →
    colsAt (copyToVec sc el) (fun m => modAt (.idx j :: q) (fun _ => mk m) (vector v)) nr n i m =
      fillColsInto (copyToVec sc el) nr m i ((v.set j (modAt q (fun _ => mk m0) x)).drop i)
  | 0, i, m, h, _ => by
    rw [List.drop_eq_nil_of_le (by rw [List.length_set]; omega)]
    rfl
  | n + 1, i, m, h, hm => by
    have hi : i < v.length := by omega
    have hd : (v.set j (modAt q (fun _ => mk m0) x)).drop i =
        (v.set j (modAt q (fun _ => mk m0) x))[i]'(by rw [List.length_set]; exact hi) ::
          (v.set j (modAt q (fun _ => mk m0) x)).drop (i + 1) :=
      List.drop_eq_getElem_cons _
    have ih := fun m hm => colsAt_vector hel hmk h0 hj hx hm0 hnr n (i + 1) m (by omega) hm
    have hget : (v.set j (modAt q (fun _ => mk m) x))[i]? =
        some ((v.set j (modAt q (fun _ => mk m) x))[i]'(by rw [List.length_set]; exact hi)) :=
      List.getElem?_eq_getElem _
    have hcol : copyToVec sc el ((v.set j (modAt q (fun _ => mk m) x))[i]'(by rw [List.length_set]; exact hi)) =
        copyToVec sc el ((v.set j (modAt q (fun _ => mk m0) x))[i]'(by rw [List.length_set]; exact hi)) := by
      by_cases hij : j = i
      · subst hij
        rw [List.getElem_set_self, List.getElem_set_self]
        cases q with
        | nil => simp only [modAt]; rw [h0 m (hm rfl), h0 m0 hm0]
        | cons s q => exact column_hole hel hmk hx _ _
      · rw [List.getElem_set_ne hij, List.getElem_set_ne hij]
    rw [hd, colsAt, fillColsInto]
    simp only [modAt, hj] at ih ⊢
    simp only [hget, hcol]
    cases copyToVec sc el ((v.set j (modAt q (fun _ => mk m0) x))[i]'(by rw [List.length_set]; exact hi)) with
    | ok vj =>
      simp only []
      cases hf : fillColInto m i vj 0 nr with
      | ok m' =>
        refine ih m' fun hq => ?_
        rw [hnr hq] at hf
        rw [fillColInto] at hf
        injection hf with hf
        exact hf ▸ hm hq
      | throw m' => rfl
      | ub => rfl
      | diverge => rfl
    | throw => rfl
    | ub => rfl
    | diverge => rfl

/-- A copy to a matrix inside of the container is a copy to a matrix apart, from the container in which the matrix has lost
its elements. -/
theorem matAt_inside {sc el : GC → Out β} {mk : Mat β → GC} (d : β) (ofBool : Bool → β) (plain : GC → Out (Mat β)) (own : Bool)
    (hel : ∀ u : GC, u.ty = .VECTOR ∨ u.ty = .MAP → el u = .throw) (hmk : ∀ w, el (mk w) = .throw)
    (h0 : ∀ m : Mat β, m.data = [] → copyToVec sc el (mk m) = .ok []) (hc : ∀ m : Mat β, m.data = [] → (mk m).get_num_elements = 0)
    (hp : ∀ e, plain (map e) = .throw) {s : Sel} {q : List Sel} {g : GC} {m : Mat β} (hs : sizeOk g = true)
    (hx : getAt (s :: q) g = some (mk m)) :
    matAt d (copyToVec sc el) mk own (s :: q) g m =
      (matInto d ofBool (copyToVec sc el) plain (modAt (s :: q) (fun _ => mk (hollow m)) g) m).into
        fun m => modAt (s :: q) (fun _ => mk m) g := by
  have hh : m.cleared = hollow m := rfl
  cases s with
  | idx j =>
    cases g <;> try (simp [getAt] at hx; done)
    rename_i v
    have hv : v.length < 2 ^ 32 := by simpa [sizeOk] using hs
    have hu : u32 v.length = v.length := Nat.mod_eq_of_lt hv
    simp only [getAt] at hx
    cases hj : v[j]? with
    | none => simp [hj] at hx
    | some x =>
      rw [hj, Option.bind_some] at hx
      have hjl : j < v.length := (List.getElem?_eq_some_iff.1 hj).1
      have e : modAt (.idx j :: q) (fun _ => mk (hollow m)) (vector v) = vector (v.set j (modAt q (fun _ => mk (hollow m)) x)) := by
        simp only [modAt, hj]
      have ht : (v.set j (modAt q (fun _ => mk (hollow m)) x)).take (u32 (v.set j (modAt q (fun _ => mk (hollow m)) x)).length) =
          v.set j (modAt q (fun _ => mk (hollow m)) x) := by
        rw [List.length_set, hu]
        exact List.take_of_length_le (by rw [List.length_set]; exact Nat.le_refl _)
      simp only [matAt, hh, e, matInto]
      congr 1
      simp only [columnsAt, columnsInto, ht]
      cases hl : v.set j (modAt q (fun _ => mk (hollow m)) x) with
      | nil => rfl
      | cons z r =>
        have hlen : r.length + 1 = v.length := by
          have := congrArg List.length hl
          rw [List.length_set, List.length_cons] at this
          omega
        simp only []
        by_cases hall : (r.all fun y => y.get_num_elements == z.get_num_elements) = true
        · rw [if_pos hall, if_pos hall]
          have hz : q = [] → z.get_num_elements = 0 := fun hq => by
            subst hq
            have hmem : mk (hollow m) ∈ z :: r := by
              rw [← hl]
              exact List.mem_set hjl _
            rcases List.mem_cons.1 hmem with h | h
            · rw [← h]; exact hc _ rfl
            · have := List.all_eq_true.1 hall _ h
              rw [beq_iff_eq] at this
              rw [← this]; exact hc _ rfl
          have key := colsAt_vector (nr := z.get_num_elements) hel hmk h0 hj hx (m0 := hollow m) rfl hz (r.length + 1) 0
            ((hollow m).resize d z.get_num_elements (r.length + 1)) (by omega) (fun hq => by
              rw [hz hq]; simp [Mat.resize, hollow, resizeL, u32])
          rw [List.drop_zero, hl] at key
          exact key
        · rw [if_neg hall, if_neg hall]
  | key k =>
    cases g <;> try (simp [getAt] at hx; done)
    rename_i e
    simp only [getAt] at hx
    cases hk : mfind k e with
    | none => simp [hk] at hx
    | some x => simp only [matAt, modAt, hk, matInto, hp, Loop.into, hh]

end GC
end GCV
