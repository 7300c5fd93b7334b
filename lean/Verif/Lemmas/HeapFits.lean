import Verif.Lemmas.HeapCopy
import Verif.Lemmas.CInterface

/-! # Sizes and keys stay in range -/

namespace GCV
namespace GC

theorem Fits_vector_iff {v : List GC} : Fits (vector v) ↔ v.length < 2 ^ 32 ∧ ∀ x ∈ v, Fits x := by
  simp [Fits, every, fitsNode, everyL_iff]

theorem Fits_map_iff {e : Entries} : Fits (map e) ↔ (∀ p ∈ e, noNul p.1 = true) ∧ ∀ p ∈ e, Fits p.2 := by
  simp [Fits, every, fitsNode, everyM_iff]

theorem noNul_cstr : ∀ s : Bytes, noNul (cstr s) = true
  | [] => rfl
  | c :: r => by
    have ih := noNul_cstr r
    unfold noNul cstr at ih ⊢
    by_cases h : c = 0
    · rw [List.takeWhile_cons_of_neg (by simpa using h)]; rfl
    · rw [List.takeWhile_cons_of_pos (by simpa using h), List.all_cons, ih]; simpa using h

theorem length_fits {α : Type} {dflt : α} {v w old : List α} (hv : v.length < 2 ^ 32) (ho : old.length < 2 ^ 32)
    (h : copyL v (allocL dflt (u32 v.length) old) = .ok w) : w.length < 2 ^ 32 := by
  rw [u32_of_lt hv] at h
  unfold copyL at h
  split at h
  · rename_i hle
    injection h with h
    subst h
    unfold allocL at hle ⊢
    by_cases h0 : 0 < v.length
    · rw [if_pos h0] at hle ⊢
      simp only [resizeL, List.length_append, List.length_drop, List.length_take, List.length_replicate] at hle ⊢
      omega
    · rw [if_neg h0] at hle ⊢
      simp only [List.length_append, List.length_drop]
      omega
  · simp at h

theorem Fits_mset {e : Entries} {k : Bytes} (h : Fits (map e)) (hk : noNul k = true) (hx : Fits x) :
    Fits (map (mset k x e)) := by
  rw [Fits_map_iff] at h ⊢
  refine ⟨fun p hp => ?_, fun p hp => ?_⟩
  · rcases mem_mset hp with rfl | hp
    · exact hk
    · exact h.1 p hp
  · rcases mem_mset hp with rfl | hp
    · exact hx
    · exact h.2 p hp

theorem Fits_find {e : Entries} {k : Bytes} (h : Fits (map e)) (hx : mfind k e = some x) : Fits x :=
  (Fits_map_iff.1 h).2 _ (mem_of_mfind hx)

theorem Fits_findD {e : Entries} (h : Fits (map e)) (k : Bytes) : Fits ((mfind k e).getD notype) := by
  cases hk : mfind k e with
  | none => rfl
  | some x => exact Fits_find h hk

theorem Fits_oldMap (h : Fits g) : Fits (map g.oldMap) := by
  cases g <;> first | exact h | rfl

theorem Fits_oldVector (h : Fits g) : Fits (vector g.oldVector) := by
  cases g <;> first | exact h | rfl

theorem Fits_resizeL {v : List GC} {n : Nat} (hn : n < 2 ^ 32) (h : Fits (vector v)) : Fits (vector (resizeL notype n v)) := by
  rw [Fits_vector_iff] at h ⊢
  refine ⟨?_, fun x hx => ?_⟩
  · simp only [resizeL, List.length_append, List.length_take, List.length_replicate]; omega
  · rcases List.mem_append.1 hx with hx | hx
    · exact h.2 x (List.mem_of_mem_take hx)
    · rw [(List.mem_replicate.1 hx).2]; rfl

theorem Fits_allocL {v : List GC} {n : Nat} (hn : n < 2 ^ 32) (h : Fits (vector v)) : Fits (vector (allocL notype n v)) := by
  unfold allocL
  split
  · exact Fits_resizeL hn h
  · exact h

mutual

theorem Fits_from_gc : ∀ a d : GC, Fits a → Fits d → ∀ r, from_gc a d = .ok r → Fits r
  | vector v, d, ha, hd, r, h => by
    rw [Fits_vector_iff] at ha
    rw [from_gc, u32_of_lt ha.1] at h
    obtain ⟨w, hw, e⟩ := out_bind_ok h
    injection e with e; subst e
    exact Fits_from_gcL v _ ha.2 (Fits_allocL ha.1 (Fits_oldVector hd)) w hw
  | map m, d, ha, hd, r, h => by
    rw [from_gc] at h
    obtain ⟨w, hw, e⟩ := out_bind_ok h
    injection e with e; subst e
    exact Fits_from_gcM m _ (Fits_map_iff.1 ha).2 (Fits_oldMap hd) w hw
  | matInt m, d, ha, hd, r, h => by
    rw [from_gc] at h
    unfold set_mat_int at h
    split at h
    · obtain ⟨x, hx, e⟩ := out_bind_ok h
      injection e with e; subst e; rfl
    · rename_i w; injection h with h; subst h
      cases d <;> exact absurd rfl (w _)
  | matLong m, d, ha, hd, r, h => by
    rw [from_gc] at h
    unfold set_mat_long at h
    split at h
    · obtain ⟨x, hx, e⟩ := out_bind_ok h
      injection e with e; subst e; rfl
    · rename_i w; injection h with h; subst h
      cases d <;> exact absurd rfl (w _)
  | matReal m, d, ha, hd, r, h => by
    rw [from_gc] at h
    unfold set_mat_real at h
    split at h
    · obtain ⟨x, hx, e⟩ := out_bind_ok h
      injection e with e; subst e; rfl
    · rename_i w; injection h with h; subst h
      cases d <;> exact absurd rfl (w _)
  | matComplex m, d, ha, hd, r, h => by
    rw [from_gc] at h
    unfold set_mat_complex at h
    split at h
    · obtain ⟨x, hx, e⟩ := out_bind_ok h
      injection e with e; subst e; rfl
    · rename_i w; injection h with h; subst h
      cases d <;> exact absurd rfl (w _)
  | notype, d, ha, hd, r, h => by injection h with h; subst h; rfl
  | bool _, d, ha, hd, r, h => by injection h with h; subst h; rfl
  | int _, d, ha, hd, r, h => by injection h with h; subst h; rfl
  | long _, d, ha, hd, r, h => by injection h with h; subst h; rfl
  | real _, d, ha, hd, r, h => by injection h with h; subst h; rfl
  | complex _, d, ha, hd, r, h => by injection h with h; subst h; rfl
  | pointer _, d, ha, hd, r, h => by injection h with h; subst h; rfl
  | string _, d, ha, hd, r, h => by injection h with h; subst h; cases d <;> rfl
  | vecBool v, d, ha, hd, r, h => by
    obtain ⟨w, hw, e⟩ := out_bind_ok (show Out.bind _ _ = _ from h); injection e with e; subst e
    simp only [Fits, every, fitsNode, decide_eq_true_eq] at ha ⊢
    exact length_fits ha (by cases d <;> simp_all [Fits, every, fitsNode, oldVecBool]) hw
  | vecInt v, d, ha, hd, r, h => by
    obtain ⟨w, hw, e⟩ := out_bind_ok (show Out.bind _ _ = _ from h); injection e with e; subst e
    simp only [Fits, every, fitsNode, decide_eq_true_eq] at ha ⊢
    exact length_fits ha (by cases d <;> simp_all [Fits, every, fitsNode, oldVecInt]) hw
  | vecLong v, d, ha, hd, r, h => by
    obtain ⟨w, hw, e⟩ := out_bind_ok (show Out.bind _ _ = _ from h); injection e with e; subst e
    simp only [Fits, every, fitsNode, decide_eq_true_eq] at ha ⊢
    exact length_fits ha (by cases d <;> simp_all [Fits, every, fitsNode, oldVecLong]) hw
  | vecReal v, d, ha, hd, r, h => by
    obtain ⟨w, hw, e⟩ := out_bind_ok (show Out.bind _ _ = _ from h); injection e with e; subst e
    simp only [Fits, every, fitsNode, decide_eq_true_eq] at ha ⊢
    exact length_fits ha (by cases d <;> simp_all [Fits, every, fitsNode, oldVecReal]) hw
  | vecComplex v, d, ha, hd, r, h => by
    obtain ⟨w, hw, e⟩ := out_bind_ok (show Out.bind _ _ = _ from h); injection e with e; subst e
    simp only [Fits, every, fitsNode, decide_eq_true_eq] at ha ⊢
    exact length_fits ha (by cases d <;> simp_all [Fits, every, fitsNode, oldVecComplex]) hw
  | vecString v, d, ha, hd, r, h => by
    obtain ⟨w, hw, e⟩ := out_bind_ok (show Out.bind _ _ = _ from h); injection e with e; subst e
    simp only [Fits, every, fitsNode, decide_eq_true_eq] at ha ⊢
    exact length_fits ha (by cases d <;> simp_all [Fits, every, fitsNode, oldVecString]) hw
  | vecPointer v, d, ha, hd, r, h => by
    obtain ⟨w, hw, e⟩ := out_bind_ok (show Out.bind _ _ = _ from h); injection e with e; subst e
    simp only [Fits, every, fitsNode, decide_eq_true_eq] at ha ⊢
    exact length_fits ha (by cases d <;> simp_all [Fits, every, fitsNode, oldVecPointer]) hw

theorem Fits_from_gcL : ∀ (v w : List GC), (∀ x ∈ v, Fits x) → Fits (vector w) → ∀ r, from_gcL v w = .ok r → Fits (vector r)
  | [], w, _, hw, r, h => by injection h with h; exact h ▸ hw
  | _ :: _, [], _, _, r, h => by simp [from_gcL] at h
  | x :: xs, y :: ys, hv, hw, r, h => by
    rw [from_gcL] at h
    obtain ⟨a, ha, h⟩ := out_bind_ok h
    obtain ⟨b, hb, h⟩ := out_bind_ok h
    injection h with h; subst h
    have hw' := Fits_vector_iff.1 hw
    have hys : Fits (vector ys) := Fits_vector_iff.2 ⟨by have := hw'.1; rw [List.length_cons] at this; omega,
      fun z hz => hw'.2 z (List.mem_cons_of_mem _ hz)⟩
    have h1 := Fits_from_gc x y (hv x (by simp)) (hw'.2 y (by simp)) a ha
    have h2 := Fits_vector_iff.1 (Fits_from_gcL xs ys (fun z hz => hv z (List.mem_cons_of_mem _ hz)) hys b hb)
    have hlen : ∀ (v w r : List GC), from_gcL v w = .ok r → r.length = w.length := by
      intro v
      induction v with
      | nil => intro w r h; injection h with h; rw [h]
      | cons z zs ih =>
        intro w r h
        cases w with
        | nil => simp [from_gcL] at h
        | cons u us =>
          rw [from_gcL] at h
          obtain ⟨a, ha, h⟩ := out_bind_ok h
          obtain ⟨b, hb, h⟩ := out_bind_ok h
          injection h with h; subst h
          rw [List.length_cons, List.length_cons, ih us b hb]
    refine Fits_vector_iff.2 ⟨?_, ?_⟩
    · have := hw'.1
      rw [List.length_cons, hlen xs ys b hb]
      rw [List.length_cons] at this
      exact this
    · intro z hz
      rcases List.mem_cons.1 hz with rfl | hz
      · exact h1
      · exact h2.2 z hz

theorem Fits_from_gcM : ∀ (m w : Entries), (∀ p ∈ m, Fits p.2) → Fits (map w) → ∀ r, from_gcM m w = .ok r → Fits (map r)
  | [], w, _, hw, r, h => by injection h with h; exact h ▸ hw
  | (k, x) :: xs, w, hv, hw, r, h => by
    rw [from_gcM] at h
    obtain ⟨a, ha, h⟩ := out_bind_ok h
    exact Fits_from_gcM xs _ (fun p hp => hv p (List.mem_cons_of_mem _ hp))
      (Fits_mset hw (noNul_cstr k) (Fits_from_gc x _ (hv (k, x) (by simp)) (Fits_findD hw _) a ha)) r h

end

theorem Fits_getAt : ∀ (p : List Sel) {g x : GC}, Fits g → getAt p g = some x → Fits x
  | [], g, x, h, hx => by cases hx; exact h
  | .key k :: p, g, x, h, hx => by
    cases g with
    | map m =>
      simp only [getAt] at hx
      cases hm : mfind k m with
      | none => rw [hm] at hx; cases hx
      | some y => rw [hm] at hx; exact Fits_getAt p (Fits_find h hm) hx
    | _ => simp [getAt] at hx
  | .idx i :: p, g, x, h, hx => by
    cases g with
    | vector v =>
      simp only [getAt] at hx
      cases hm : v[i]? with
      | none => rw [hm] at hx; cases hx
      | some y => rw [hm] at hx; exact Fits_getAt p ((Fits_vector_iff.1 h).2 y (List.mem_of_getElem? hm)) hx
    | _ => simp [getAt] at hx

theorem Fits_modAt (f : GC → GC) : ∀ (p : List Sel) {g : GC}, Fits g → (∀ x, getAt p g = some x → Fits (f x)) →
    Fits (modAt p f g)
  | [], g, h, hf => hf g rfl
  | .key k :: p, g, h, hf => by
    cases g with
    | map m =>
      simp only [modAt]
      cases hm : mfind k m with
      | none => exact h
      | some y =>
        refine Fits_mset h ((Fits_map_iff.1 h).1 _ (mem_of_mfind hm)) ?_
        exact Fits_modAt f p (Fits_find h hm) fun x hx => hf x (by simp [getAt, hm, hx])
    | _ => exact h
  | .idx i :: p, g, h, hf => by
    cases g with
    | vector v =>
      simp only [modAt]
      cases hm : v[i]? with
      | none => exact h
      | some y =>
        have h' := Fits_vector_iff.1 h
        refine Fits_vector_iff.2 ⟨by rw [List.length_set]; exact h'.1, fun z hz => ?_⟩
        rcases List.mem_or_eq_of_mem_set hz with hz | rfl
        · exact h'.2 z hz
        · exact Fits_modAt f p (h'.2 y (List.mem_of_getElem? hm)) fun x hx => hf x (by simp [getAt, hm, hx])
    | _ => exact h

end GC
end GCV
