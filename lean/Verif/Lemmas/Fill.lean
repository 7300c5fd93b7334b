import Verif.Lemmas.CInterface
import Verif.Lemmas.JsonTree

/-!
# `GC_fill_for_test`, call by call
-/

namespace GCV
namespace CApi
open GC

/-- Calls one after the other on a container, all of them returning. -/
inductive Does : List Op → GC → GC → Prop
  | nil (g : GC) : Does [] g g
  | cons {op : Op} {ops : List Op} {g s t : GC} : step op g = .ok s () → Does ops s t → Does (op :: ops) g t

theorem step_idx {i : BitVec 32} {op : Op} {v : List GC} {x y : GC} (hx : v[i.toNat]? = some x) (hy : step op x = .ok y ()) :
    step (.idx i op) (vector v) = .ok (vector (v.set i.toNat y)) () := by
  have hi : i.toNat < v.length := (List.getElem?_eq_some_iff.1 hx).1
  have hc : checkResize notype i.toNat v = v := by simp [checkResize]; omega
  simp only [step, withIdx, oldVector, hc, hx, hy, Res.mapState]

theorem step_key {k : Bytes} {op : Op} {m : Entries} {y : GC}
    (hy : step op ((mfind (cstr k) m).getD notype) = .ok y ()) :
    step (.key k op) (map m) = .ok (map (mset (cstr k) y m)) () := by
  simp only [step, withKey, oldMap, hy, Res.mapState]

theorem step_key_again {k : Bytes} {op : Op} {m : Entries} {x y : GC} (hy : step op x = .ok y ()) :
    step (.key k op) (map (mset (cstr k) x m)) = .ok (map (mset (cstr k) y m)) () := by
  simp only [step, withKey, oldMap, mfind_mset_same, Option.getD, hy, Res.mapState, mset_mset]

theorem step_text {s : Bytes} (g : GC) : step (.setString s) g = .ok (string s) () := by
  cases g <;> rfl

theorem step_key_int {k : Bytes} {i : I32} {m : Entries} (hk : cstr k = k) :
    step (.key k (.setInt i)) (map m) = .ok (map (mset k (int i) m)) () := by
  rw [step_key (y := int i) rfl, hk]

theorem step_key_text {k s : Bytes} {m : Entries} (hk : cstr k = k) :
    step (.key k (.setString s)) (map m) = .ok (map (mset k (string s) m)) () := by
  rw [step_key (y := string s) (step_text _), hk]

theorem step_key_real {k : Bytes} {r : F64} {m : Entries} (hk : cstr k = k) :
    step (.key k (.setReal r)) (map m) = .ok (map (mset k (real r) m)) () := by
  rw [step_key (y := real r) rfl, hk]

theorem step_key_ints {k : Bytes} {m : Entries} (hk : cstr k = k) :
    step (.key k (.sizeVecInt 0)) (map m) = .ok (map (mset k (vecInt ((mfind k m).getD notype).oldVecInt) m)) () := by
  rw [step_key (y := vecInt ((mfind k m).getD notype).oldVecInt) (by rw [hk]; rfl), hk]

theorem step_key_push {k : Bytes} {i : I32} {v : List I32} {m : Entries} (hk : cstr k = k) :
    step (.key k (.pushInt i)) (map (mset k (vecInt v) m)) = .ok (map (mset k (vecInt (v ++ [i])) m)) () := by
  have := step_key_again (k := k) (m := m) (op := .pushInt i) (x := vecInt v) (y := vecInt (v ++ [i])) rfl
  rwa [hk] at this

theorem resizeL_range {α : Type} (d : α) (n : Nat) (l : List α) : resizeL d n l = (List.range n).map fun i => l[i]?.getD d := by
  apply List.ext_getElem?
  intro i
  rw [resizeL, List.getElem?_append, List.getElem?_map]
  simp only [List.length_take, List.getElem?_take, List.getElem?_replicate]
  by_cases hi : i < n
  · rw [List.getElem?_range hi]
    by_cases hl : i < l.length
    · rw [if_pos (by omega), if_pos hi]; simp [hl]
    · rw [if_neg (by omega), if_pos (by omega)]; simp [List.getElem?_eq_none (Nat.le_of_not_lt hl)]
  · rw [if_neg (by omega), if_neg (by omega), List.getElem?_eq_none (by simpa using hi)]; rfl

/-- Element `i` of what was a VECTOR. -/
def was (g : GC) (i : Nat) : GC := g.oldVector[i]?.getD notype

theorem step_vector (g : GC) : Does [.setVector 0, .setVector 11] g (vector
    [was g 0, was g 1, was g 2, was g 3, was g 4, was g 5, was g 6, was g 7, was g 8, was g 9, was g 10]) := by
  refine .cons (s := vector g.oldVector) rfl (.cons (s := vector (resizeL notype 11 g.oldVector)) rfl ?_)
  rw [resizeL_range]; exact .nil _

theorem step_four (g : GC) : step (.setVector 4) (vector g.oldVector) = .ok (vector
    [was g 0, was g 1, was g 2, was g 3]) () := by
  show Res.ok (vector (resizeL notype 4 g.oldVector)) () = _
  rw [resizeL_range]; rfl

def oldMatReal : GC → List F64 | matReal m => m.data | _ => []
def oldMatComplex : GC → List Cplx | matComplex m => m.data | _ => []

theorem step_real (g : GC) : step (.sizeMatReal 2 2) g = .ok (matReal ⟨2, 2,
    [(oldMatReal g)[0]?.getD .zero, (oldMatReal g)[1]?.getD .zero, (oldMatReal g)[2]?.getD .zero, (oldMatReal g)[3]?.getD .zero]⟩) () := by
  cases g <;> first
    | rfl
    | (rename_i m; show Res.ok (matReal ⟨2, 2, resizeL F64.zero 4 m.data⟩) () = _; rw [resizeL_range]; rfl)

theorem step_cplx (g : GC) : step (.sizeMatComplex 2 2) g = .ok (matComplex ⟨2, 2,
    [(oldMatComplex g)[0]?.getD .zero, (oldMatComplex g)[1]?.getD .zero, (oldMatComplex g)[2]?.getD .zero, (oldMatComplex g)[3]?.getD .zero]⟩) () := by
  cases g <;> first
    | rfl
    | (rename_i m; show Res.ok (matComplex ⟨2, 2, resizeL Cplx.zero 4 m.data⟩) () = _; rw [resizeL_range]; rfl)

/-- Element 1 after the call. -/
def fillReals (fl : String → F64) (g : GC) : List F64 := (resizeL .zero 10 (was g 1).oldVecReal).set 2 (fl "123")

/-- Element 2 after the call. -/
def fillOne (g : GC) : Entries :=
  mset (str "bbb") (string (str "stringa2")) (mset (str "aaa") (string (str "stringa1"))
    (mset (str "paperino") (int 3) (mset (str "pluto") (int 1) (mset (str "pippo") (int 13) (was g 2).oldMap))))

/-- Element 6 before its key `vector` is set. -/
def fillTwo (fl : String → F64) (g : GC) : Entries :=
  mset (str "bbb") (real (fl "3.4")) (mset (str "aaa") (int 123) (was g 6).oldMap)

/-- Element 6 after the call. -/
def fillThree (fl : String → F64) (g : GC) : Entries :=
  mset (str "vector") (vecInt (((mfind (str "vector") (fillTwo fl g)).getD notype).oldVecInt ++ [12] ++ [10] ++ [1])) (fillTwo fl g)

/-- What `GC_fill_for_test` leaves. -/
def fillValue (fl : String → F64) (g : GC) : GC :=
  vector
    [int 1, vecReal (fillReals fl g), map (fillOne g),
     vecString ((was g 3).oldVecString ++ [str "string1"] ++ [str "string2"] ++ [str "string3"] ++ [str "string4"]),
     real (fl "1.3"), string (str "pippo"), map (fillThree fl g),
     vector [int 123, real (fl "3.14"), string (str "nonna papera"),
       vecComplex ((was (was g 7) 3).oldVecComplex ++ [⟨fl "1", fl "0"⟩] ++ [⟨fl "2", fl "0"⟩] ++ [⟨fl "3", fl "0"⟩] ++
         [⟨fl "-12", fl "2"⟩])],
     matReal ⟨2, 2, [(oldMatReal (was g 8))[0]?.getD .zero, (oldMatReal (was g 8))[1]?.getD .zero, fl "3", fl "2"]⟩,
     matComplex ⟨2, 2, [(oldMatComplex (was g 9))[0]?.getD .zero, (oldMatComplex (was g 9))[1]?.getD .zero,
       ⟨fl "1", fl "-1"⟩, ⟨fl "2", fl "2"⟩]⟩,
     bool true]

theorem Does.append {a b : List Op} {g s t : GC} (h : Does a g s) (h' : Does b s t) : Does (a ++ b) g t := by
  induction h with
  | nil => exact h'
  | cons h _ ih => exact .cons h (ih h')

/-- The calls for element `i`. -/
def forElem (i : Nat) (ps : List (Nat × Op)) : List Op := (ps.filter fun p => p.1 == i).map Prod.snd

/-- Calls on the elements of a VECTOR: what happens to each element depends on the calls for it only. -/
theorem does_elems : ∀ (ps : List (Nat × Op)) (v w : List GC), v.length = w.length → v.length < 2 ^ 32 →
    (∀ p ∈ ps, p.1 < v.length) →
    (∀ (i : Nat) x y, v[i]? = some x → w[i]? = some y → Does (forElem i ps) x y) →
    Does (ps.map fun p => .idx (BitVec.ofNat 32 p.1) p.2) (vector v) (vector w)
  | [], v, w, hl, _, _, h => by
    have : v = w := by
      apply List.ext_getElem hl
      intro i h1 h2
      have := h i _ _ (List.getElem?_eq_getElem h1) (List.getElem?_eq_getElem h2)
      generalize v[i] = x at this
      generalize w[i] = y at this
      cases this; rfl
    rw [this]; exact .nil _
  | (i, op) :: ps, v, w, hl, hb, hi, h => by
    have hiv : i < v.length := hi _ (.head _)
    have hiw : i < w.length := hl ▸ hiv
    have h0 := h i _ _ (List.getElem?_eq_getElem hiv) (List.getElem?_eq_getElem hiw)
    have hf : forElem i ((i, op) :: ps) = op :: forElem i ps := by simp [forElem]
    rw [hf] at h0
    generalize hx : v[i] = x at h0
    generalize hy : w[i] = y at h0
    cases h0 with
    | @cons _ _ _ s _ hs hr =>
      have ht : (BitVec.ofNat 32 i).toNat = i := by rw [BitVec.toNat_ofNat]; exact Nat.mod_eq_of_lt (by omega)
      refine .cons (s := vector (v.set i s)) ?_ (does_elems ps _ w (by simpa using hl) (by simpa using hb) ?_ ?_)
      · have := step_idx (i := BitVec.ofNat 32 i) (v := v) (x := x) (by rw [ht, ← hx]; exact List.getElem?_eq_getElem hiv) hs
        rwa [ht] at this
      · intro p hp; simpa using hi p (.tail _ hp)
      · intro j a b ha hb'
        by_cases hj : j = i
        · subst hj
          rw [List.getElem?_set_self hiv, Option.some.injEq] at ha
          rw [List.getElem?_eq_getElem hiw, Option.some.injEq, hy] at hb'
          subst ha hb'; exact hr
        · rw [List.getElem?_set_ne (Ne.symm hj)] at ha
          have := h j a b ha hb'
          have hn : forElem j ((i, op) :: ps) = forElem j ps := by simp [forElem, Ne.symm hj]
          rwa [hn] at this

theorem does_of {ops ops' : List Op} {x y : GC} (he : ops = ops') (h : Does ops' x y) : Does ops x y := he ▸ h

/-- The calls of `GC_fill_for_test`, with the elements they are for. -/
def fillPairs (fl : String → F64) : List (Nat × Op) :=
  (fillOps fl).drop 2 |>.filterMap fun o => match o with | .idx i op => some (i.toNat, op) | _ => none

def fillPairs7 (fl : String → F64) : List (Nat × Op) :=
  (forElem 7 (fillPairs fl)).drop 2 |>.filterMap fun o => match o with | .idx i op => some (i.toNat, op) | _ => none

theorem all_lt {ps : List (Nat × Op)} {n : Nat} (h : (ps.all fun p => decide (p.1 < n)) = true) : ∀ p ∈ ps, p.1 < n :=
  fun p hp => of_decide_eq_true (List.all_eq_true.1 h p hp)

theorem does7 (fl : String → F64) (x0 x1 x2 x3 : GC) :
    Does ((fillPairs7 fl).map fun p => .idx (BitVec.ofNat 32 p.1) p.2) (vector [x0, x1, x2, x3])
      (vector [int 123, real (fl "3.14"), string (str "nonna papera"),
       vecComplex (x3.oldVecComplex ++ [⟨fl "1", fl "0"⟩] ++ [⟨fl "2", fl "0"⟩] ++ [⟨fl "3", fl "0"⟩] ++
         [⟨fl "-12", fl "2"⟩])]) := by
  refine does_elems _ _ _ rfl (by simp) (all_lt rfl) ?_
  intro i x y hx hy
  match i with
  | 0 => cases hx; cases hy; exact does_of (ops' := [.setInt 123]) rfl (.cons rfl (.nil _))
  | 1 => cases hx; cases hy; exact does_of (ops' := [.setReal (fl "3.14")]) rfl (.cons rfl (.nil _))
  | 2 => cases hx; cases hy; exact does_of (ops' := [.setString (str "nonna papera")]) rfl (.cons (step_text _) (.nil _))
  | 3 =>
    cases hx; cases hy
    exact does_of (ops' := [.sizeVecComplex 0, .pushComplex ⟨fl "1", fl "0"⟩, .pushComplex ⟨fl "2", fl "0"⟩,
      .pushComplex ⟨fl "3", fl "0"⟩, .pushComplex ⟨fl "-12", fl "2"⟩]) rfl
      (.cons rfl (.cons rfl (.cons rfl (.cons rfl (.cons rfl (.nil _))))))
  | n + 4 => cases hx

theorem fill_does (fl : String → F64) (g : GC) : Does (fillOps fl) g (fillValue fl g) := by
  refine (step_vector g).append (b := (fillPairs fl).map fun p => .idx (BitVec.ofNat 32 p.1) p.2) ?_
  refine does_elems _ _ _ rfl (by simp) (all_lt rfl) ?_
  intro i x y hx hy
  match i with
  | 0 => cases hx; cases hy; exact does_of (ops' := [.setInt 1]) rfl (.cons rfl (.nil _))
  | 1 =>
    cases hx; cases hy
    exact does_of (ops' := [.sizeVecReal 0, .getVecReal fun w => (resizeL .zero 10 w).set 2 (fl "123")]) rfl
      (.cons rfl (.cons rfl (.nil _)))
  | 2 =>
    cases hx; cases hy
    exact does_of (ops' := [.setMap, .key (str "pippo") (.setInt 13), .key (str "pluto") (.setInt 1),
      .key (str "paperino") (.setInt 3), .key (str "aaa") (.setString (str "stringa1")),
      .key (str "bbb") (.setString (str "stringa2"))]) rfl
      (.cons rfl (.cons (step_key_int (by decide)) (.cons (step_key_int (by decide)) (.cons (step_key_int (by decide))
      (.cons (step_key_text (by decide)) (.cons (step_key_text (by decide)) (.nil _)))))))
  | 3 =>
    cases hx; cases hy
    exact does_of (ops' := [.sizeVecString 0, .pushString (str "string1"), .pushString (str "string2"),
      .pushString (str "string3"), .pushString (str "string4")]) rfl
      (.cons rfl (.cons rfl (.cons rfl (.cons rfl (.cons rfl (.nil _))))))
  | 4 => cases hx; cases hy; exact does_of (ops' := [.setReal (fl "1.3")]) rfl (.cons rfl (.nil _))
  | 5 => cases hx; cases hy; exact does_of (ops' := [.setString (str "pippo")]) rfl (.cons (step_text _) (.nil _))
  | 6 =>
    cases hx; cases hy
    exact does_of (ops' := [.setMap, .key (str "aaa") (.setInt 123), .key (str "bbb") (.setReal (fl "3.4")),
      .key (str "vector") (.sizeVecInt 0), .key (str "vector") (.pushInt 12), .key (str "vector") (.pushInt 10),
      .key (str "vector") (.pushInt 1)]) rfl
      (.cons rfl (.cons (step_key_int (by decide)) (.cons (step_key_real (by decide)) (.cons (step_key_ints (by decide))
      (.cons (step_key_push (by decide)) (.cons (step_key_push (by decide)) (.cons (step_key_push (by decide)) (.nil _))))))))
  | 7 =>
    cases hx; cases hy
    exact does_of (ops' := .setVector 0 :: .setVector 4 :: (fillPairs7 fl).map fun p => .idx (BitVec.ofNat 32 p.1) p.2) rfl
      (.cons rfl (.cons (step_four _) (does7 fl _ _ _ _)))
  | 8 =>
    cases hx; cases hy
    exact does_of (ops' := [.sizeMatReal 2 2, .realAt2 1 1 fun _ => fl "2", .realAt2 0 1 fun _ => fl "3"]) rfl
      (.cons (step_real _) (.cons rfl (.cons rfl (.nil _))))
  | 9 =>
    cases hx; cases hy
    exact does_of (ops' := [.sizeMatComplex 2 2, .complexAt2 1 1 fun _ => ⟨fl "2", fl "2"⟩,
      .complexAt2 0 1 fun _ => ⟨fl "1", fl "-1"⟩]) rfl (.cons (step_cplx _) (.cons rfl (.cons rfl (.nil _))))
  | 10 => cases hx; cases hy; exact does_of (ops' := [.setBool true]) rfl (.cons rfl (.nil _))
  | n + 11 => cases hx
end CApi
end GCV
