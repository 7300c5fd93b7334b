import Verif.Lemmas.HeapCopy

/-!
# More fuel does not change what a call does
-/

namespace GCV
namespace Heap
open GC

/-- The first run is the second one, or ran out of fuel. -/
def Run.Le {α : Type} (r r' : Run α) : Prop := r = .fuel ∨ r = r'

theorem Run.Le.refl {α : Type} (r : Run α) : r.Le r := .inr rfl

theorem Run.Le.trans {α : Type} {r s t : Run α} (h : r.Le s) (h' : s.Le t) : r.Le t := by
  rcases h with rfl | rfl
  · exact .inl rfl
  · exact h'

theorem Run.Le.bind {α β : Type} {r r' : Run α} {f f' : Mem → α → Run β} (h : r.Le r') (hf : ∀ m a, (f m a).Le (f' m a)) :
    (r.bind f).Le (r'.bind f') := by
  rcases h with rfl | rfl
  · exact .inl rfl
  · cases r with
    | ok m a => exact hf m a
    | throw m => exact .refl _
    | ub => exact .refl _
    | fuel => exact .refl _

theorem forL_mono {f f' : Cell → Mem → Run Unit} (hf : ∀ c m, (f c m).Le (f' c m)) : ∀ (cs : List Cell) (m : Mem),
    (forL f cs m).Le (forL f' cs m)
  | [], _ => .refl _
  | c :: cs, m => (hf c m).bind fun m _ => forL_mono hf cs m

theorem freeF_succ : ∀ (n : Nat) (c : Cell) (m : Mem), (freeF n c m).Le (freeF (n + 1) c m)
  | n, .imm g, m => by cases n <;> exact .refl _
  | 0, .box t a, m => .inl rfl
  | n + 1, .box t a, m => by
    unfold freeF
    split
    · exact .refl _
    · exact (forL_mono (freeF_succ n) _ m).bind fun _ _ => .refl _
    · exact (forL_mono (freeF_succ n) _ m).bind fun _ _ => .refl _
    · exact .refl _

theorem clearAt_succ (n : Nat) (l : Loc) (m : Mem) : (clearAt n l m).Le (clearAt (n + 1) l m) := by
  unfold clearAt
  cases m.read l with
  | none => exact .refl _
  | some c => exact (freeF_succ n c m).bind fun _ _ => .refl _

theorem allocBox_succ (n : Nat) (t : Ty) (b : Block) (l : Loc) (m : Mem) : (allocBox n t b l m).Le (allocBox (n + 1) t b l m) := by
  unfold allocBox
  cases m.read l with
  | none => exact .refl _
  | some c =>
    cases c with
    | imm g => exact (clearAt_succ n l m).bind fun _ _ => .refl _
    | box t' a =>
      dsimp only
      split
      · exact .refl _
      · exact (clearAt_succ n l m).bind fun _ _ => .refl _

theorem vecLoop_mono {f f' : Loc → Loc → Mem → Run Unit} (hf : ∀ d s m, (f d s m).Le (f' d s m)) (b a : Addr) :
    ∀ (k i : Nat) (m : Mem), (vecLoop f b a i k m).Le (vecLoop f' b a i k m)
  | 0, _, _ => .refl _
  | k + 1, i, m => by
    unfold vecLoop
    split
    · split
      · exact (hf _ _ m).bind fun m _ => vecLoop_mono hf b a k (i + 1) m
      · exact .refl _
    · exact .refl _

theorem mapLoop_mono {f f' : Loc → Loc → Mem → Run Unit} (hf : ∀ d s m, (f d s m).Le (f' d s m)) (b a : Addr) :
    ∀ (k i : Nat) (m : Mem), (mapLoop f b a i k m).Le (mapLoop f' b a i k m)
  | 0, _, _ => .refl _
  | k + 1, i, m => by
    unfold mapLoop
    split
    · split
      · exact (Run.Le.refl _).bind fun m _ => (hf _ _ m).bind fun m _ => mapLoop_mono hf b a k (i + 1) m
      · exact .refl _
    · exact .refl _

theorem resizeF_mono {ip : Nat → Nat → Bool} {f f' : Loc → Loc → Mem → Run Unit} {g g' : Cell → Mem → Run Unit}
    (hf : ∀ d s m, (f d s m).Le (f' d s m)) (hg : ∀ c m, (g c m).Le (g' c m)) (a : Addr) (sz : Nat) (m : Mem) :
    (resizeF ip g f a sz m).Le (resizeF ip g' f' a sz m) := by
  unfold resizeF
  split
  · split
    · exact (forL_mono hg _ m).bind fun _ _ => .refl _
    · split
      · exact .refl _
      · exact (vecLoop_mono hf _ _ _ _ _).bind fun m _ => (forL_mono hg _ m).bind fun _ _ => .refl _
  · exact .refl _

theorem fromF_succ (ip : Nat → Nat → Bool) : ∀ (n : Nat) (d s : Loc) (m : Mem), (fromF ip n d s m).Le (fromF ip (n + 1) d s m)
  | 0, _, _, _ => .inl rfl
  | n + 1, d, s, m => by
    have ih := fromF_succ ip n
    unfold fromF
    split
    · exact .refl _
    · exact (clearAt_succ n d m).bind fun _ _ => .refl _
    · exact (clearAt_succ n d m).bind fun _ _ => .refl _
    · refine (allocBox_succ n _ _ d m).bind fun m b => ?_
      split
      · split
        · refine Run.Le.bind ?_ fun m _ => vecLoop_mono ih b _ _ 0 m
          split
          · exact resizeF_mono ih (freeF_succ n) b _ m
          · exact .refl _
        · exact .refl _
      · exact .refl _
    · refine (allocBox_succ n _ _ d m).bind fun m b => ?_
      split
      · split
        · exact mapLoop_mono ih b _ _ 0 m
        · exact .refl _
      · exact .refl _
    · exact (allocBox_succ n _ _ d m).bind fun _ _ => .refl _

theorem le_of_succ {α : Type} {r : Nat → Run α} (h : ∀ n, (r n).Le (r (n + 1))) {n k : Nat} (hk : n ≤ k) : (r n).Le (r k) := by
  induction hk with
  | refl => exact .refl _
  | step _ ih => exact ih.trans (h _)

theorem fromF_mono (ip : Nat → Nat → Bool) {n k : Nat} (hk : n ≤ k) (d s : Loc) (m : Mem) :
    (fromF ip n d s m).Le (fromF ip k d s m) :=
  le_of_succ (r := fun n => fromF ip n d s m) (fun n => fromF_succ ip n d s m) hk

theorem freeF_mono {n k : Nat} (hk : n ≤ k) (c : Cell) (m : Mem) : (freeF n c m).Le (freeF k c m) :=
  le_of_succ (r := fun n => freeF n c m) (fun n => freeF_succ n c m) hk

theorem allocBox_mono {n k : Nat} (hk : n ≤ k) (t : Ty) (b : Block) (l : Loc) (m : Mem) :
    (allocBox n t b l m).Le (allocBox k t b l m) :=
  le_of_succ (r := fun n => allocBox n t b l m) (fun n => allocBox_succ n t b l m) hk

end Heap
end GCV
