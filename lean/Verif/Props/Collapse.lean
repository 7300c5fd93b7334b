import Verif.Lemmas.Collapse
import Verif.Lemmas.Copy

/-!
# C17, C18: collapse
-/

namespace GCV
namespace GC

open F64

/-! ## C18 -/

theorem assignPacked_leaf {α : Type} {v : List GC} {c : Out α} {set : α → GC → Out GC} {g : GC}
    (hset : ∀ a d g, set a d = .ok g → g.ty ≠ .VECTOR ∧ g.ty ≠ .MAP)
    (h : assignPacked v c set = .ok g ()) : g.ty ≠ .VECTOR ∧ g.ty ≠ .MAP := by
  unfold assignPacked at h
  cases c with
  | ok a =>
    rw [Out.bind] at h
    cases hs : set a (vector v) with
    | ok g' => rw [hs] at h; simp at h; subst h; exact hset a _ _ hs
    | throw => rw [hs] at h; simp at h
    | ub => rw [hs] at h; simp at h
    | diverge => rw [hs] at h; simp at h
  | throw => simp [Out.bind] at h
  | ub => simp [Out.bind] at h
  | diverge => simp [Out.bind] at h

theorem bind_ok_elim {α : Type} {c : Out α} {up : α → GC} {g : GC}
    (h : (c.bind fun w => .ok (up w)) = .ok g) : ∃ w, g = up w := by
  cases c with
  | ok a => simp [Out.bind] at h; exact ⟨a, h.symm⟩
  | throw => simp [Out.bind] at h
  | ub => simp [Out.bind] at h
  | diverge => simp [Out.bind] at h

theorem pack_leaf {v : List GC} {g : GC} (h : pack v = .ok g ()) :
    g = vector v ∨ g.ty ≠ .VECTOR ∧ g.ty ≠ .MAP := by
  have sm : ∀ {α : Type} (set : α → GC → Out GC) (up : α → GC),
      (∀ a d, ∃ c : Out α, set a d = c.bind fun w => .ok (up w)) →
      (∀ w, (up w).ty ≠ .VECTOR ∧ (up w).ty ≠ .MAP) →
      ∀ a d g, set a d = .ok g → g.ty ≠ .VECTOR ∧ g.ty ≠ .MAP := by
    intro α set up h1 h2 a d g h
    obtain ⟨c, hc⟩ := h1 a d
    rw [hc] at h
    obtain ⟨w, rfl⟩ := bind_ok_elim h
    exact h2 w
  have two : ∀ {α : Type} (c : Out (List α)) (up : Mat α → GC) (w : Mat α),
      (c.bind fun d => Out.ok (up { w with data := d })) = (c.bind fun d => .ok { w with data := d }).bind fun m => .ok (up m) := by
    intro α c up w; cases c <;> rfl
  unfold pack at h
  simp only at h
  split at h
  · simp at h; exact .inl h.symm
  · split at h
    · exact .inr (assignPacked_leaf (sm _ vecString (fun a d => ⟨_, rfl⟩) (by simp [ty])) h)
    · split at h
      · exact .inr (assignPacked_leaf (sm _ vecBool (fun a d => ⟨_, rfl⟩) (by simp [ty])) h)
      · exact .inr (assignPacked_leaf (sm _ vecInt (fun a d => ⟨_, rfl⟩) (by simp [ty])) h)
      · exact .inr (assignPacked_leaf (sm _ vecLong (fun a d => ⟨_, rfl⟩) (by simp [ty])) h)
      · exact .inr (assignPacked_leaf (sm _ vecReal (fun a d => ⟨_, rfl⟩) (by simp [ty])) h)
      · exact .inr (assignPacked_leaf (sm _ vecComplex (fun a d => ⟨_, rfl⟩) (by simp [ty])) h)
      · refine .inr (assignPacked_leaf (sm _ matInt (fun a d => ?_) (by simp [ty])) h)
        cases d <;> exact ⟨_, two _ matInt _⟩
      · refine .inr (assignPacked_leaf (sm _ matLong (fun a d => ?_) (by simp [ty])) h)
        cases d <;> exact ⟨_, two _ matLong _⟩
      · refine .inr (assignPacked_leaf (sm _ matReal (fun a d => ?_) (by simp [ty])) h)
        cases d <;> exact ⟨_, two _ matReal _⟩
      · refine .inr (assignPacked_leaf (sm _ matComplex (fun a d => ?_) (by simp [ty])) h)
        cases d <;> exact ⟨_, two _ matComplex _⟩
      · simp at h; exact .inl h.symm

theorem collapse_leaf {g : GC} (h : g.ty ≠ .VECTOR ∧ g.ty ≠ .MAP) : collapse g = .ok g () := by
  cases g <;> first | rfl | exact absurd rfl h.1 | exact absurd rfl h.2

theorem collapse_vector (v : List GC) : collapse (vector v) =
    if v = [] then .ok (vector v) ()
    else match collapseL v with
      | .ok v' => pack v'
      | .throw v' => .throw (vector v')
      | .ub => .ub
      | .diverge => .diverge := rfl

/-- **C18**: a second collapse() changes nothing, for every tree on which the first returns. -/
theorem C18_idempotent (g g' : GC) (h : collapse g = .ok g' ()) : collapse g' = .ok g' () := by
  refine (GC.induct (P := fun g => ∀ g', collapse g = .ok g' () → collapse g' = .ok g' ())
    (PL := fun v => ∀ v', collapseL v = .ok v' → collapseL v' = .ok v' ∧ (v ≠ [] → v' ≠ []))
    (PM := fun m => ∀ m', collapseM m = .ok m' → collapseM m' = .ok m') ?_ ?_ ?_ ?_ ?_ ?_ ?_).1 g g' h
  · intro g hv hm g' h
    have : collapse g = .ok g () := by
      cases g <;> first | rfl | exact absurd rfl (hv _) | exact absurd rfl (hm _)
    rw [this] at h; simp at h; subst h; exact this
  · intro v ih g' h
    rw [collapse_vector] at h
    by_cases hv : v = []
    · rw [if_pos hv] at h; simp at h; subst h; rw [collapse_vector, if_pos hv]
    · rw [if_neg hv] at h
      cases hc : collapseL v with
      | ok v' =>
        rw [hc] at h; simp only at h
        obtain ⟨h1, h2⟩ := ih v' hc
        rcases pack_leaf h with rfl | hl
        · rw [collapse_vector, if_neg (h2 hv), h1]; exact h
        · exact collapse_leaf hl
      | throw v' => rw [hc] at h; simp at h
      | ub => rw [hc] at h; simp at h
      | diverge => rw [hc] at h; simp at h
  · intro m ih g' h
    rw [collapse] at h
    cases hc : collapseM m with
    | ok m' =>
      rw [hc] at h; simp at h; subst h
      rw [collapse, ih m' hc]
    | throw v' => rw [hc] at h; simp at h
    | ub => rw [hc] at h; simp at h
    | diverge => rw [hc] at h; simp at h
  · intro v' h; rw [collapseL] at h; simp at h; subst h; exact ⟨rfl, id⟩
  · intro x xs hx hxs v' h
    rw [collapseL] at h
    cases hc : collapse x with
    | ok x' u =>
      rw [hc] at h; simp only at h
      cases hr : collapseL xs with
      | ok r' =>
        rw [hr] at h; simp at h; subst h
        exact ⟨by rw [collapseL, hx x' hc, (hxs r' hr).1], by simp⟩
      | throw v' => rw [hr] at h; simp at h
      | ub => rw [hr] at h; simp at h
      | diverge => rw [hr] at h; simp at h
    | throw v' => rw [hc] at h; simp at h
    | ub => rw [hc] at h; simp at h
    | diverge => rw [hc] at h; simp at h
  · intro v' h; rw [collapseM] at h; simp at h; subst h; rfl
  · intro k x xs hx hxs v' h
    rw [collapseM] at h
    cases hc : collapse x with
    | ok x' u =>
      rw [hc] at h; simp only at h
      cases hr : collapseM xs with
      | ok r' =>
        rw [hr] at h; simp at h; subst h
        rw [collapseM, hx x' hc, hxs r' hr]
      | throw v' => rw [hr] at h; simp at h
      | ub => rw [hr] at h; simp at h
      | diverge => rw [hr] at h; simp at h
    | throw v' => rw [hc] at h; simp at h
    | ub => rw [hc] at h; simp at h
    | diverge => rw [hc] at h; simp at h

/-- A nested list of integers with a string beside. -/
def collapseExample : GC :=
  map [(str "m", vector [vector [int 1, int 2], vector [bool true, int 4]]),
       (str "v", vector [int 1, vector [real .zero, int 2]])]

example : collapse collapseExample = .ok (map [(str "m", matInt ⟨2, 2, [1, 2, 1, 4]⟩),
    (str "v", vector [int 1, vecReal [.zero, F64.ofI32 2]])]) () := by decide +kernel

/-! ## C17 -/

/-- Longs within 2^53 (`true`), or no real or complex numbers (`false`). -/
def Fine : Bool → GC → Prop
  | true, long l => l.toInt.natAbs ≤ 2 ^ 53
  | false, real _ => False
  | false, complex _ => False
  | _, _ => True

/-- A vector of numbers or strings (not of pointers) and the type it is packed into. -/
def packs : Ty → Option Ty
  | .BOOL => some .VEC_BOOL
  | .INTEGER => some .VEC_INTEGER
  | .LONG => some .VEC_LONG
  | .REAL => some .VEC_REAL
  | .COMPLEX => some .VEC_COMPLEX
  | .VEC_INTEGER => some .MAT_INTEGER
  | .VEC_LONG => some .MAT_LONG
  | .VEC_REAL => some .MAT_REAL
  | .VEC_COMPLEX => some .MAT_COMPLEX
  | _ => none

/-- What `pack` needs of the (already collapsed) elements. -/
structure Parts (m : Bool) (v : List GC) : Prop where
  ne : v ≠ []
  len : v.length < 2 ^ 32
  size : ∀ x ∈ v, sizeOk x = true
  cells : ∀ x ∈ v, shape x.ty = 1 → (elems x).length * v.length < 2 ^ 32
  apart : ∀ x ∈ v, ∀ y ∈ v, scalar x.ty = true → shape y.ty = 1 → (elems x).length ≠ (elems y).length
  ptr : ∀ q, pointer q ∈ v → ∀ x ∈ v, isNumber x = false
  vptr : ∀ q, vecPointer q ∈ v → q ≠ [] → ∀ x ∈ v, shape x.ty = 1 → width x.ty = none
  cplx : ∀ c, complex c ∈ v → ∀ x ∈ v, isNumber x = true → ∃ c', x = complex c'
  fine : ∀ x ∈ v, shape x.ty = 1 ∨ scalar x.ty = true → ∀ y ∈ elems x, Fine m y

theorem count_scalar {x : GC} (h : scalar x.ty = true) (hn : x ≠ notype) : x.get_num_elements = 1 := by
  cases x <;> first | rfl | exact absurd rfl hn | (simp [scalar, ty, Ty.rank] at h)

theorem pw_of {α : Type} {R : GC → α → Prop} {β : Type} {up : β → GC} {v : List β} {w : List α}
    (h : Pointwise (fun b a => R (up b) a) v w) : Pointwise R (v.map up) w := by
  refine ⟨by simpa using h.1, ?_⟩
  intro i x a h1 h2
  simp only [List.getElem?_map, Option.map_eq_some_iff] at h1
  obtain ⟨b, hb, rfl⟩ := h1
  exact h.2 i b a hb h2

theorem copyToVec_packed {α : Type} (sc el : GC → Out α) (R : GC → α → Prop) (x : GC)
    (h1 : shape x.ty = 1) (hs : sizeOk x = true) (h2 : x.ty ≠ .VEC_STRING)
    (h3 : ∀ q, x = vecPointer q → q = [])
    (h : ∀ y ∈ elems x, ∃ a, sc y = .ok a ∧ R y a) :
    ∃ w, copyToVec sc el x = .ok w ∧ Pointwise R (elems x) w := by
  have many : ∀ {β : Type} (up : β → GC) (v : List β), v.length < 2 ^ 32 →
      (∀ y ∈ v.map up, ∃ a, sc y = .ok a ∧ R y a) →
      ∃ w, convLoop (fun b => sc (up b)) (v.take (u32 v.length)) = .ok w ∧ Pointwise R (v.map up) w := by
    intro β up v hv hy
    rw [u32_of_lt hv, List.take_length]
    obtain ⟨w, hw, hp⟩ := convLoop_all (fun b => sc (up b)) (fun b a => R (up b) a) v
      (fun b hb => hy (up b) (List.mem_map_of_mem hb))
    exact ⟨w, hw, pw_of hp⟩
  cases x <;> first
    | (simp [shape, ty] at h1; done)
    | exact absurd rfl h2
    | exact many _ _ (of_decide_eq_true hs) h
    | (rename_i q; have := h3 q rfl; subst this; exact ⟨[], rfl, rfl, by intro i x a h; simp [elems] at h⟩)

theorem assign_ok {α : Type} {v : List GC} {c : Out α} {set : α → GC → Out GC} {a : α} {g : GC}
    (h1 : c = .ok a) (h2 : set a (vector v) = .ok g) : assignPacked v c set = .ok g () := by
  unfold assignPacked; rw [h1, Out.bind, h2]

theorem set_list_ok {α : Type} (d : α) (up : List α → GC) {w : List α} (h : w.length < 2 ^ 32) :
    ((copyL w (allocL d (u32 w.length) [])).bind fun w => Out.ok (up w)) = .ok (up w) := by
  rw [copy_alloc d h (.inr rfl), Out.bind]

theorem mat_flat_wf {α : Type} {n c : Nat} {ws : List (List α)} (h : n * c < 2 ^ 32) (hn : n < 2 ^ 32)
    (hc : c < 2 ^ 32) (hl : ws.length = c) (hw : ∀ w ∈ ws, w.length = n) :
    (⟨n, c, ws.flatten⟩ : Mat α).wf = true := by
  unfold Mat.wf
  simp only [Bool.and_eq_true, decide_eq_true_eq]
  refine ⟨⟨hn, hc⟩, ?_⟩
  rw [flatten_length ws n hw, hl, Nat.mod_eq_of_lt h]

/-- One number converted to an int, a long, a real, a complex: the same number. -/
theorem one_int {m : Bool} {y : GC} (h1 : 2 ≤ y.ty.rank) (h2 : y.ty.rank ≤ 3) :
    ∃ a, get_as_int y = .ok a ∧ copyInt y = .ok a ∧ SameNumber y (int a) ∧ Fine m (int a) := by
  cases y <;> simp [ty, Ty.rank] at h1 h2
  · exact ⟨_, rfl, rfl, sn_bool_int _, by cases m <;> trivial⟩
  · exact ⟨_, rfl, rfl, .inl rfl, by cases m <;> trivial⟩

theorem i32_small (i : I32) : i.toI64.toInt.natAbs ≤ 2 ^ 53 := by
  rw [toI64_exact]
  have := BitVec.toInt_lt (x := i); have := BitVec.le_toInt (x := i)
  simp at *; omega

theorem bool_small (b : Bool) : (I64.ofBool b).toInt.natAbs ≤ 2 ^ 53 := by cases b <;> decide

theorem one_long {m : Bool} {y : GC} (h1 : 2 ≤ y.ty.rank) (h2 : y.ty.rank ≤ 4) (hf : Fine m y) :
    ∃ a, get_as_long y = .ok a ∧ copyLong y = .ok a ∧ SameNumber y (long a) ∧ Fine m (long a) := by
  cases y <;> simp [ty, Ty.rank] at h1 h2
  · exact ⟨_, rfl, rfl, sn_bool_long _, by cases m; trivial; exact bool_small _⟩
  · exact ⟨_, rfl, rfl, sn_int_long _, by cases m; trivial; exact i32_small _⟩
  · exact ⟨_, rfl, rfl, .inl rfl, hf⟩

theorem one_real {y : GC} (h1 : 2 ≤ y.ty.rank) (h2 : y.ty.rank ≤ 5) (hf : Fine true y) :
    ∃ a, get_number y = .ok a ∧ copyReal y = .ok a ∧ SameNumber y (real a) ∧ Fine true (real a) := by
  cases y <;> simp [ty, Ty.rank] at h1 h2
  · exact ⟨_, rfl, rfl, sn_bool_real _, trivial⟩
  · exact ⟨_, rfl, rfl, sn_int_real _, trivial⟩
  · exact ⟨_, rfl, rfl, sn_long_real hf, trivial⟩
  · exact ⟨_, rfl, rfl, .inl rfl, trivial⟩

theorem one_complex {y : GC} (h1 : 2 ≤ y.ty.rank) (h2 : y.ty.rank ≤ 6) (hf : Fine true y) :
    ∃ a, copyComplex y = .ok a ∧ SameNumber y (complex a) := by
  cases y <;> simp [ty, Ty.rank] at h1 h2
  · exact ⟨_, rfl, sn_bool_complex _⟩
  · exact ⟨_, rfl, sn_int_complex _⟩
  · exact ⟨_, rfl, sn_long_complex hf⟩
  · exact ⟨_, rfl, sn_real_complex _⟩
  · exact ⟨_, rfl, .inl rfl⟩

/-- What `pack` does, on elements as above. -/
def PackSpec (m : Bool) (v : List GC) (g : GC) : Prop :=
  SameTree (.list (viewL v)) (view g) ∧ sizeOk g = true ∧
  ((g = vector v ∧ ((sameCount (-1) true v).2 = false ∨ packs (maxType .NOTYPE v) = none)) ∨
   (packs (maxType .NOTYPE v) = some g.ty ∨ ((∀ x ∈ v, x.ty = .STRING) ∧ g.ty = .VEC_STRING)) ∧
   (shape g.ty = 2 ∨ (shape g.ty = 1 ∧ g.ty ≠ .VEC_POINTER ∧ (elems g).length = v.length ∧
     ∀ y ∈ elems g, Fine m y)))

theorem fine_of_pw {α : Type} {m : Bool} {v : List GC} {w : List α} {up : α → GC}
    (h : Pointwise (fun x a => SameNumber x (up a) ∧ Fine m (up a)) v w) : ∀ y ∈ w.map up, Fine m y := by
  intro y hy
  obtain ⟨a, ha, rfl⟩ := List.mem_map.1 hy
  obtain ⟨i, hi⟩ := List.mem_iff_getElem?.1 ha
  have hl := (List.getElem?_eq_some_iff.1 hi).1
  have : v[i]? = some (v[i]'(by rw [h.1]; exact hl)) := List.getElem?_eq_getElem _
  exact (h.2 i _ a this hi).2

theorem pack_ok {m : Bool} {v : List GC} (hp : Parts m v) : ∃ g, pack v = .ok g () ∧ PackSpec m v g := by
  have stay : ∀ (h : (sameCount (-1) true v).2 = false ∨ packs (maxType .NOTYPE v) = none),
      PackSpec m v (vector v) := fun h =>
    ⟨SameTree.rfl' _, decide_eq_true hp.len, .inl ⟨rfl, h⟩⟩
  obtain ⟨-, hmax, hex⟩ := maxType_spec v .NOTYPE
  unfold pack
  simp only
  by_cases hcan : (sameCount (-1) true v).2 = true
  · rw [if_neg (fun h => h hcan)]
    by_cases hstr : (v.all fun x => decide (x.ty = .STRING)) = true
    · rw [if_pos hstr]
      simp only [List.all_eq_true, decide_eq_true_eq] at hstr
      obtain ⟨w, hw, hpw⟩ := convLoop_all get_string_c (fun x a => SameNumber x (string a) ∧ Fine m (string a)) v (by
        intro x hx
        have := hstr x hx
        cases x <;> simp [ty] at this
        exact ⟨_, rfl, .inl rfl, by cases m <;> trivial⟩)
      have hl : w.length = v.length := hpw.1.symm
      refine ⟨vecString w, assign_ok hw (set_list_ok [] vecString (by rw [hl]; exact hp.len)), ?_, ?_, .inr ⟨.inr ⟨hstr, rfl⟩, .inr ⟨rfl, by simp [ty], by simp [elems, hl], fine_of_pw hpw⟩⟩⟩
      · exact same_packed (fun x hx => by rw [hstr x hx]; rfl) ⟨hpw.1, fun i x a h1 h2 => (hpw.2 i x a h1 h2).1⟩
      · exact decide_eq_true (by rw [hl]; exact hp.len)
    · rw [if_neg hstr]
      -- all elements up to rank 13 have the same number of elements
      have small : (maxType .NOTYPE v).rank ≤ 13 → ∀ x ∈ v, scalar x.ty = true ∨ shape x.ty = 1 := by
        intro h x hx
        have := Nat.le_trans (hmax x hx) h
        cases x <;> first
          | exact .inl rfl
          | exact .inr rfl
          | (exfalso; simp [ty, Ty.rank] at this)
      have cnt : (maxType .NOTYPE v).rank ≤ 13 → ∀ x ∈ v, x.get_num_elements = (elems x).length := by
        intro h x hx
        apply num_elements_elems x (hp.size x hx)
        have := Nat.le_trans (hmax x hx) h
        intro he; rw [he] at this; simp [Ty.rank] at this
      have lt32 : ∀ x : GC, x.get_num_elements < 2 ^ 32 := by
        intro x
        cases x <;> first
          | (show (1 : Nat) < _; decide)
          | (show (0 : Nat) < _; decide)
          | exact Nat.mod_lt _ (by decide)
      have same : (maxType .NOTYPE v).rank ≤ 13 → ∀ x ∈ v,
          (elems x).length = (sameCount (-1) true v).1.toNat := by
        intro h x hx
        rw [← cnt h x hx]
        refine sameCount_all hp.ne ?_ (fun y _ => lt32 y) hcan x hx
        intro h2 y hy
        rcases small h y hy with hs | hs
        · by_cases hn : y = notype
          · subst hn; decide
          · rw [count_scalar hs hn]; decide
        · have := hp.cells y hy hs
          rw [cnt h y hy]
          have : (elems y).length * 2 ≤ (elems y).length * v.length := Nat.mul_le_mul_left _ h2
          omega
      -- scalars
      have scal : ∀ t, maxType .NOTYPE v = t → 2 ≤ t.rank → t.rank ≤ 6 → ∀ x ∈ v,
          scalar x.ty = true ∧ 2 ≤ x.ty.rank ∧ x.ty.rank ≤ t.rank := by
        intro t ht h2 h6 x hx
        have h13 : (maxType .NOTYPE v).rank ≤ 13 := by rw [ht]; omega
        have hr := hmax x hx
        rw [ht] at hr
        have hs : scalar x.ty = true := decide_eq_true (by omega)
        obtain ⟨y, hy, hyt⟩ : ∃ y ∈ v, y.ty = t := by
          rcases hex with h | ⟨y, hy, h⟩
          · rw [ht] at h; subst h; simp [Ty.rank] at h2
          · exact ⟨y, hy, by rw [h, ht]⟩
        have hyn : isNumber y = true ∧ (elems y).length = 1 := by
          cases y <;> simp [ty] at hyt <;> subst hyt <;> simp [Ty.rank] at h2 h6 <;> exact ⟨rfl, rfl⟩
        have h1 : (elems x).length = 1 := by rw [same h13 x hx, ← same h13 y hy]; exact hyn.2
        refine ⟨hs, ?_, hr⟩
        cases x <;> first
          | (simp [elems] at h1; done)
          | (have := hp.ptr _ hx y hy; rw [hyn.1] at this; simp at this)
          | (simp [ty, Ty.rank])
      have fineS : ∀ x ∈ v, scalar x.ty = true → 2 ≤ x.ty.rank → Fine m x := by
        intro x hx hs h2
        refine hp.fine x hx (.inr hs) x ?_
        cases x <;> first
          | (simp [elems]; done)
          | (simp [ty, Ty.rank] at h2; done)
          | (simp [scalar, ty, Ty.rank] at hs)
      have pickS : ∀ t, maxType .NOTYPE v = t → t ≠ .NOTYPE → ∃ y ∈ v, y.ty = t := by
        intro t ht hn
        rcases hex with h | ⟨y, hy, h⟩
        · rw [ht] at h; exact absurd h hn
        · exact ⟨y, hy, by rw [h, ht]⟩
      have finish : ∀ {α : Type} (t tv : Ty) (d : α) (up : α → GC) (upv : List α → GC) (f : GC → Out α)
          (c : Out (List α)),
          maxType .NOTYPE v = t → 2 ≤ t.rank → t.rank ≤ 6 → packs t = some tv →
          (∀ w, (upv w).ty = tv) → shape tv = 1 → tv ≠ .VEC_POINTER → (∀ w, elems (upv w) = w.map up) →
          (∀ w, view (upv w) = leaves1 up w) → (∀ w, sizeOk (upv w) = decide (w.length < 2 ^ 32)) →
          c = convLoop f v →
          (∀ x ∈ v, scalar x.ty = true → 2 ≤ x.ty.rank → x.ty.rank ≤ t.rank → Fine m x →
            ∃ a, f x = .ok a ∧ SameNumber x (up a) ∧ Fine m (up a)) →
          ∀ (set : List α → GC → Out GC), (∀ w, w.length < 2 ^ 32 → set w (vector v) = .ok (upv w)) →
          ∃ g, assignPacked v c set = .ok g () ∧ PackSpec m v g := by
        intro α t tv d up upv f c ht h2 h6 hpk htv hsh hvp hel hvw hsz hc hf set hset
        obtain ⟨w, hw, hpw⟩ := convLoop_all f (fun x a => SameNumber x (up a) ∧ Fine m (up a)) v (by
          intro x hx
          obtain ⟨h7, h8, h9⟩ := scal t ht h2 h6 x hx
          exact hf x hx h7 h8 h9 (fineS x hx h7 h8))
        have hl : w.length = v.length := hpw.1.symm
        refine ⟨upv w, assign_ok (hc.trans hw) (hset w (by rw [hl]; exact hp.len)), ?_, ?_,
          .inr ⟨.inl (by rw [ht, hpk, htv]), .inr ⟨by rw [htv]; exact hsh, by rw [htv]; exact hvp,
            by rw [hel]; simp [hl], by rw [hel]; exact fine_of_pw hpw⟩⟩⟩
        · rw [hvw]
          exact same_packed (fun x hx => (scal t ht h2 h6 x hx).1)
            ⟨hpw.1, fun i x a h1 h2 => (hpw.2 i x a h1 h2).1⟩
        · rw [hsz]; exact decide_eq_true (by rw [hl]; exact hp.len)
      have cut : ∀ {α : Type} (f : GC → Out α), convLoop f (v.take (u32 v.length)) = convLoop f v := by
        intro α f; rw [u32_of_lt hp.len, List.take_length]
      -- vectors
      have vecs : ∀ t, maxType .NOTYPE v = t → 10 ≤ t.rank → t.rank ≤ 13 → ∀ x ∈ v,
          shape x.ty = 1 ∧ x.ty ≠ .VEC_STRING ∧ (∀ q, x = vecPointer q → q = []) ∧
          ∀ y ∈ elems x, 2 ≤ y.ty.rank ∧ y.ty.rank ≤ t.rank - 7 ∧ Fine m y := by
        intro t ht h10 h13' x hx
        have h13 : (maxType .NOTYPE v).rank ≤ 13 := by rw [ht]; exact h13'
        have hr := hmax x hx
        rw [ht] at hr
        obtain ⟨y, hy, hyt⟩ := pickS t ht (by intro h; subst h; simp [Ty.rank] at h10)
        have hyn : shape y.ty = 1 ∧ width y.ty ≠ none := by
          rw [hyt]; cases t <;> simp [Ty.rank] at h10 h13' <;> simp [shape, width]
        have hx1 : shape x.ty = 1 := by
          rcases small h13 x hx with h | h
          · exact absurd (by rw [same h13 x hx, same h13 y hy]) (hp.apart x hx y hy h hyn.1)
          · exact h
        have hvp : ∀ q, x = vecPointer q → q = [] := by
          intro q hq
          by_cases hq' : q = []
          · exact hq'
          · subst hq; exact absurd (hp.vptr q hx hq' y hy hyn.1) hyn.2
        have hns : x.ty ≠ .VEC_STRING := by
          intro h; have := Nat.le_trans hr h13'; rw [h] at this; simp [Ty.rank] at this
        refine ⟨hx1, hns, hvp, ?_⟩
        intro z hz
        have hfz := hp.fine x hx (.inl hx1) z hz
        cases x <;> first
          | (simp [shape, ty] at hx1; done)
          | exact absurd rfl hns
          | (rename_i q; have := hvp q rfl; subst this; simp [elems] at hz)
          | (simp only [elems, List.mem_map] at hz; obtain ⟨a, -, rfl⟩ := hz
             refine ⟨by simp [ty, Ty.rank], ?_, hfz⟩
             simp [ty, Ty.rank] at hr ⊢; omega)
      have finishM : ∀ {α : Type} (t tv : Ty) (d : α) (up : α → GC) (upm : Mat α → GC) (sc el : GC → Out α),
          maxType .NOTYPE v = t → 10 ≤ t.rank → t.rank ≤ 13 → packs t = some tv → (∀ w, (upm w).ty = tv) →
          shape tv = 2 → (∀ w, view (upm w) = leaves2 up w) → (∀ w, sizeOk (upm w) = w.wf) →
          (∀ x ∈ v, ∀ y ∈ elems x, 2 ≤ y.ty.rank → y.ty.rank ≤ t.rank - 7 → Fine m y → ∃ a, sc y = .ok a ∧ SameNumber y (up a)) →
          ∀ (set : Mat α → GC → Out GC), (∀ w, w.wf = true → set w (vector v) = .ok (upm w)) →
          ∃ g, assignPacked v (packColumns d (copyToVec sc el) (sameCount (-1) true v).1.toNat v) set = .ok g () ∧ PackSpec m v g := by
        intro α t tv d up upm sc el ht h10 h13' hpk htv hsh hvw hsz hf set hset
        have h13 : (maxType .NOTYPE v).rank ≤ 13 := by rw [ht]; exact h13'
        have hn : (sameCount (-1) true v).1.toNat * v.length < 2 ^ 32 := by
          obtain ⟨x, hx⟩ := List.exists_mem_of_ne_nil v hp.ne
          rw [← same h13 x hx]
          exact hp.cells x hx (vecs t ht h10 h13' x hx).1
        obtain ⟨ws, h1, h2, h3, h4⟩ := packColumns_ok d (copyToVec sc el) (fun y a => SameNumber y (up a)) v
          (sameCount (-1) true v).1.toNat hp.len hn (by
            intro x hx
            obtain ⟨h5, h6, h7, h8⟩ := vecs t ht h10 h13' x hx
            exact copyToVec_packed sc el _ x h5 (hp.size x hx) h6 h7
              (fun y hy => hf x hx y hy (h8 y hy).1 (h8 y hy).2.1 (h8 y hy).2.2)) (same h13)
        have hwf : (⟨(sameCount (-1) true v).1.toNat, v.length, ws.flatten⟩ : Mat α).wf = true :=
          mat_flat_wf hn (BitVec.isLt _) hp.len h2 h3
        refine ⟨upm _, assign_ok h1 (hset _ hwf), ?_, by rw [hsz]; exact hwf,
          .inr ⟨.inl (by rw [ht, hpk, htv]), .inl (by rw [htv]; exact hsh)⟩⟩
        rw [hvw]
        have := same_columns (n := (sameCount (-1) true v).1.toNat)
          (fun x hx => (vecs t ht h10 h13' x hx).1) h3 h4
        rwa [h2] at this
      have mfine : ∀ t, maxType .NOTYPE v = t → t = .REAL ∨ t = .COMPLEX → m = true := by
        intro t ht h
        obtain ⟨y, hy, hyt⟩ := pickS t ht (by rcases h with rfl | rfl <;> simp)
        have hs : scalar y.ty = true := by rw [hyt]; rcases h with rfl | rfl <;> rfl
        have := fineS y hy hs (by rw [hyt]; rcases h with rfl | rfl <;> simp [Ty.rank])
        cases m with
        | true => rfl
        | false =>
          rcases h with rfl | rfl <;> cases y <;> simp [ty] at hyt <;> exact absurd this (by simp [Fine])
      -- a packed vector of reals may be empty, and then nothing is converted
      have nofine : ∀ t, t = .VEC_REAL ∨ t = .VEC_COMPLEX → maxType .NOTYPE v = t → m = true ∨
          ∀ x ∈ v, elems x = [] := by
        intro t h ht
        have h13 : (maxType .NOTYPE v).rank ≤ 13 := by rw [ht]; rcases h with rfl | rfl <;> simp [Ty.rank]
        obtain ⟨y, hy, hyt⟩ := pickS t ht (by rcases h with rfl | rfl <;> simp)
        have hy1 : shape y.ty = 1 := by rw [hyt]; rcases h with rfl | rfl <;> rfl
        cases m with
        | true => exact .inl rfl
        | false =>
          right
          have : elems y = [] := by
            cases he : elems y with
            | nil => rfl
            | cons z l =>
              have hz := hp.fine y hy (.inl hy1) z (by rw [he]; simp)
              rcases h with rfl | rfl <;> cases y <;> simp [ty] at hyt <;>
                (simp only [elems] at he; rename_i q; cases q <;> simp at he; rw [← he.1] at hz; exact absurd hz (by simp [Fine]))
          intro x hx
          have e := same h13 x hx
          rw [← same h13 y hy, this] at e
          exact List.eq_nil_of_length_eq_zero (by simpa using e)
      generalize hT : maxType .NOTYPE v = T at *
      cases T with
      | BOOL =>
        exact finish .BOOL .VEC_BOOL false bool vecBool get_bool_c _ rfl (by decide) (by decide) rfl
          (fun _ => rfl) rfl (by decide) (fun _ => rfl) (fun _ => rfl) (fun _ => rfl) rfl
          (by
            intro x _ _ h2 h3 _
            cases x <;> simp [ty, Ty.rank] at h2 h3
            exact ⟨_, rfl, .inl rfl, by cases m <;> trivial⟩) _
          (fun w hw => set_list_ok false vecBool hw)
      | INTEGER =>
        exact finish .INTEGER .VEC_INTEGER 0 int vecInt get_as_int _ rfl (by decide) (by decide) rfl
          (fun _ => rfl) rfl (by decide) (fun _ => rfl) (fun _ => rfl) (fun _ => rfl) (cut _)
          (by
            intro x _ _ h2 h3 _
            obtain ⟨a, h4, -, h5⟩ := one_int (m := m) h2 h3
            exact ⟨a, h4, h5⟩) _
          (fun w hw => set_list_ok 0 vecInt hw)
      | LONG =>
        exact finish .LONG .VEC_LONG 0 long vecLong get_as_long _ rfl (by decide) (by decide) rfl
          (fun _ => rfl) rfl (by decide) (fun _ => rfl) (fun _ => rfl) (fun _ => rfl) (cut _)
          (by
            intro x _ _ h2 h3 hf
            obtain ⟨a, h4, -, h5⟩ := one_long (m := m) h2 h3 hf
            exact ⟨a, h4, h5⟩) _
          (fun w hw => set_list_ok 0 vecLong hw)
      | REAL =>
        have := mfine .REAL rfl (.inl rfl); subst this
        exact finish .REAL .VEC_REAL F64.zero real vecReal get_number _ rfl (by decide) (by decide) rfl
          (fun _ => rfl) rfl (by decide) (fun _ => rfl) (fun _ => rfl) (fun _ => rfl) (cut _)
          (by
            intro x _ _ h2 h3 hf
            obtain ⟨a, h4, -, h5⟩ := one_real h2 h3 hf
            exact ⟨a, h4, h5⟩) _
          (fun w hw => set_list_ok F64.zero vecReal hw)
      | COMPLEX =>
        have := mfine .COMPLEX rfl (.inr rfl); subst this
        obtain ⟨y, hy, hyt⟩ := pickS .COMPLEX rfl (by simp)
        exact finish .COMPLEX .VEC_COMPLEX Cplx.zero complex vecComplex get_complex_c _ rfl (by decide) (by decide) rfl
          (fun _ => rfl) rfl (by decide) (fun _ => rfl) (fun _ => rfl) (fun _ => rfl) (cut _)
          (by
            intro x hx hs h2 h3 hf
            cases y <;> simp [ty] at hyt
            obtain ⟨c, rfl⟩ := hp.cplx _ hy x hx (by
              cases x <;> simp [ty, Ty.rank] at h2 h3 <;> rfl)
            exact ⟨c, rfl, .inl rfl, trivial⟩) _
          (fun w hw => set_list_ok Cplx.zero vecComplex hw)
      | VEC_INTEGER =>
        exact finishM .VEC_INTEGER .MAT_INTEGER 0 int matInt copyInt get_as_int rfl (by decide) (by decide) rfl
          (fun _ => rfl) rfl (fun _ => rfl) (fun _ => rfl)
          (by intro _ _ y _ h1 h2 _; obtain ⟨a, -, h3, h4, -⟩ := one_int (m := m) h1 h2; exact ⟨a, h3, h4⟩)
          set_mat_int (fun w hw => by
            obtain ⟨h1, h2, h3⟩ := mat_copy (0 : I32) hw (.inl rfl)
            show (copyL w.data (Mat.make 0 w.nr w.nc).data).bind _ = _
            rw [h1]; rfl)
      | VEC_LONG =>
        exact finishM .VEC_LONG .MAT_LONG 0 long matLong copyLong get_as_long rfl (by decide) (by decide) rfl
          (fun _ => rfl) rfl (fun _ => rfl) (fun _ => rfl)
          (by intro _ _ y _ h1 h2 h; obtain ⟨a, -, h3, h4, -⟩ := one_long (m := m) h1 h2 h; exact ⟨a, h3, h4⟩)
          set_mat_long (fun w hw => by
            obtain ⟨h1, h2, h3⟩ := mat_copy (0 : I64) hw (.inl rfl)
            show (copyL w.data (Mat.make 0 w.nr w.nc).data).bind _ = _
            rw [h1]; rfl)
      | VEC_REAL =>
        have hset : ∀ w : Mat F64, w.wf = true → set_mat_real w (vector v) = .ok (matReal w) := by
          intro w hw
          obtain ⟨h1, h2, h3⟩ := mat_copy F64.zero hw (.inl rfl)
          show (copyL w.data (Mat.make F64.zero w.nr w.nc).data).bind _ = _
          rw [h1]; rfl
        exact finishM .VEC_REAL .MAT_REAL F64.zero real matReal copyReal get_number rfl (by decide) (by decide) rfl
          (fun _ => rfl) rfl (fun _ => rfl) (fun _ => rfl)
          (by
            intro x hx y hy h1 h2 h
            rcases nofine .VEC_REAL (.inl rfl) rfl with h' | h'
            · subst h'; obtain ⟨a, -, h3, h4, -⟩ := one_real h1 h2 h; exact ⟨a, h3, h4⟩
            · rw [h' x hx] at hy; simp at hy)
          set_mat_real hset
      | VEC_COMPLEX =>
        have hset : ∀ w : Mat Cplx, w.wf = true → set_mat_complex w (vector v) = .ok (matComplex w) := by
          intro w hw
          obtain ⟨h1, h2, h3⟩ := mat_copy Cplx.zero hw (.inl rfl)
          show (copyL w.data (Mat.make Cplx.zero w.nr w.nc).data).bind _ = _
          rw [h1]; rfl
        exact finishM .VEC_COMPLEX .MAT_COMPLEX Cplx.zero complex matComplex copyComplex get_complex_c rfl (by decide) (by decide) rfl
          (fun _ => rfl) rfl (fun _ => rfl) (fun _ => rfl)
          (by
            intro x hx y hy h1 h2 h
            rcases nofine .VEC_COMPLEX (.inr rfl) rfl with h' | h'
            · subst h'; exact one_complex h1 h2 h
            · rw [h' x hx] at hy; simp at hy)
          set_mat_complex hset
      | _ => exact ⟨_, rfl, stay (.inr rfl)⟩
  · rw [if_pos hcan]
    exact ⟨_, rfl, stay (.inl (by simpa using hcan))⟩

/-- Vectors of scalars and vectors of containers. -/
def listLike (x : GC) : Prop := shape x.ty = 1 ∨ x.ty = .VECTOR

/-- What is asked of a vector of containers: sizes within 32 bits, no scalar beside a vector with as many
elements, no pointers beside numbers, no complex numbers beside other numbers. -/
structure VectorOk (v : List GC) : Prop where
  len : v.length < 2 ^ 32
  size : ∀ x ∈ v, sizeOk x = true
  cells : ∀ x ∈ v, listLike x → (elems x).length * v.length < 2 ^ 32
  apart : ∀ x ∈ v, ∀ y ∈ v, scalar x.ty = true → listLike y → (elems x).length ≠ (elems y).length
  ptr : ∀ q, pointer q ∈ v → ∀ x ∈ v, isNumber x = false
  vptr : ∀ q, vecPointer q ∈ v → q ≠ [] → ∀ x ∈ v, x.ty ≠ .VECTOR ∧ (shape x.ty = 1 → width x.ty = none)
  cplx : ∀ c, complex c ∈ v → ∀ x ∈ v, isNumber x = true → ∃ c', x = complex c'

/-- How an element is related to its collapsed form. -/
def Kin (m : Bool) (x x' : GC) : Prop :=
  (x.ty ≠ .VECTOR ∧ x.ty ≠ .MAP ∧ x' = x) ∨ (x.ty = .MAP ∧ x'.ty = .MAP) ∨
  (x.ty = .VECTOR ∧ sizeOk x' = true ∧ (x'.ty = .VECTOR ∨ shape x'.ty = 2 ∨
    (shape x'.ty = 1 ∧ x'.ty ≠ .VEC_POINTER ∧ (elems x').length = (elems x).length ∧
      ∀ y ∈ elems x', Fine m y)))

theorem shape_not {t : Ty} : (t = .VECTOR → shape t = 0 ∧ scalar t = false) ∧
    (t = .MAP → shape t = 0 ∧ scalar t = false) ∧ (shape t = 2 → scalar t = false) ∧
    (shape t = 1 → scalar t = false) := by
  cases t <;> simp [shape, scalar, Ty.rank]

theorem kin_scalar {m : Bool} {x x' : GC} (h : Kin m x x') (hs : scalar x'.ty = true) : x' = x := by
  have sn := @shape_not x'.ty
  rcases h with ⟨-, -, rfl⟩ | ⟨-, h⟩ | ⟨-, -, h | h | ⟨h, -⟩⟩
  · rfl
  · rw [(sn.2.1 h).2] at hs; simp at hs
  · rw [(sn.1 h).2] at hs; simp at hs
  · rw [sn.2.2.1 h] at hs; simp at hs
  · rw [sn.2.2.2 h] at hs; simp at hs

theorem kin_shape {m : Bool} {x x' : GC} (h : Kin m x x') (hs : shape x'.ty = 1) :
    listLike x ∧ (elems x').length = (elems x).length ∧
    (x' = x ∨ x.ty = .VECTOR ∧ x'.ty ≠ .VEC_POINTER ∧ ∀ y ∈ elems x', Fine m y) := by
  have sn := @shape_not x'.ty
  rcases h with ⟨-, -, rfl⟩ | ⟨-, h⟩ | ⟨hv, -, h | h | ⟨h, h2, h3, h4⟩⟩
  · exact ⟨.inl hs, rfl, .inl rfl⟩
  · rw [(sn.2.1 h).1] at hs; simp at hs
  · rw [(sn.1 h).1] at hs; simp at hs
  · rw [h] at hs; simp at hs
  · exact ⟨.inr hv, h3, .inr ⟨hv, h2, h4⟩⟩

theorem parts_of {m : Bool} {v v' : List GC} (hne : v' ≠ []) (ok : VectorOk v) (hl : v.length = v'.length)
    (hk : ∀ x' ∈ v', ∃ x ∈ v, Kin m x x')
    (hf : ∀ x ∈ v, ∀ y ∈ elems x, Fine m y) : Parts m v' := by
  have num : ∀ x : GC, isNumber x = true → scalar x.ty = true := by
    intro x h; cases x <;> first | rfl | simp [isNumber] at h
  have back : ∀ x' ∈ v', scalar x'.ty = true → x' ∈ v := by
    intro x' hx hs
    obtain ⟨x, hx1, hx2⟩ := hk x' hx
    rw [kin_scalar hx2 hs]; exact hx1
  refine ⟨hne, by rw [← hl]; exact ok.len, ?_, ?_, ?_, ?_, ?_, ?_, ?_⟩
  · intro x' hx
    obtain ⟨x, hx1, hx2⟩ := hk x' hx
    rcases hx2 with ⟨-, -, rfl⟩ | ⟨-, h⟩ | ⟨-, h, -⟩
    · exact ok.size _ hx1
    · cases x' <;> simp [ty] at h; rfl
    · exact h
  · intro x' hx hs
    obtain ⟨x, hx1, hx2⟩ := hk x' hx
    obtain ⟨h1, h2, -⟩ := kin_shape hx2 hs
    rw [h2, ← hl]; exact ok.cells x hx1 h1
  · intro x' hx y' hy hs hs'
    obtain ⟨y, hy1, hy2⟩ := hk y' hy
    obtain ⟨h1, h2, -⟩ := kin_shape hy2 hs'
    rw [h2]; exact ok.apart x' (back x' hx hs) y hy1 hs h1
  · intro q hq x' hx
    cases hn : isNumber x' with
    | false => rfl
    | true =>
      rw [← hn]; exact ok.ptr q (back _ hq rfl) x' (back x' hx (num _ hn))
  · intro q hq hne x' hx hs
    obtain ⟨x, hx1, hx2⟩ := hk x' hx
    obtain ⟨z, hz1, hz2⟩ := hk _ hq
    obtain ⟨-, -, h3⟩ := kin_shape hz2 rfl
    have hzv : vecPointer q ∈ v := by
      rcases h3 with h3 | ⟨-, h3, -⟩
      · rw [h3]; exact hz1
      · exact absurd rfl h3
    have := ok.vptr q hzv hne x hx1
    obtain ⟨h1, -, h4⟩ := kin_shape hx2 hs
    rcases h4 with rfl | ⟨h4, -⟩
    · exact this.2 hs
    · exact absurd h4 this.1
  · intro c hc x' hx hn
    exact ok.cplx c (back _ hc rfl) x' (back x' hx (num _ hn)) hn
  · intro x' hx hs y hy
    obtain ⟨x, hx1, hx2⟩ := hk x' hx
    rcases hs with hs | hs
    · obtain ⟨-, -, h4⟩ := kin_shape hx2 hs
      rcases h4 with rfl | ⟨-, -, h4⟩
      · exact hf _ hx1 y hy
      · exact h4 y hy
    · have := kin_scalar hx2 hs; subst this; exact hf _ hx1 y hy

theorem collapse_ok (m : Bool) (g : GC) :
    (∀ v, Inside (vector v) g → VectorOk v) → (∀ x, Inside x g → ∀ y ∈ elems x, Fine m y) →
    ∃ g', collapse g = .ok g' () ∧ SameTree (view g) (view g') ∧ Kin m g g' := by
  refine (GC.induct (P := fun g =>
      (∀ v, Inside (vector v) g → VectorOk v) → (∀ x, Inside x g → ∀ y ∈ elems x, Fine m y) →
      ∃ g', collapse g = .ok g' () ∧ SameTree (view g) (view g') ∧ Kin m g g')
    (PL := fun l => (∀ v, (∃ x ∈ l, Inside (vector v) x) → VectorOk v) →
      (∀ z, (∃ x ∈ l, Inside z x) → ∀ y ∈ elems z, Fine m y) →
      ∃ l', collapseL l = .ok l' ∧ SameTree (.list (viewL l)) (.list (viewL l')) ∧ l.length = l'.length ∧
        ∀ x' ∈ l', ∃ x ∈ l, Kin m x x')
    (PM := fun l => (∀ v, (∃ e ∈ l, Inside (vector v) e.2) → VectorOk v) →
      (∀ z, (∃ e ∈ l, Inside z e.2) → ∀ y ∈ elems z, Fine m y) →
      ∃ l', collapseM l = .ok l' ∧ SameTree (.dict (viewM l)) (.dict (viewM l'))) ?_ ?_ ?_ ?_ ?_ ?_ ?_).1 g
  · intro g hv hm _ _
    have h1 : g.ty ≠ .VECTOR ∧ g.ty ≠ .MAP := by
      cases g <;> first | exact absurd rfl (hv _) | exact absurd rfl (hm _) | simp [ty]
    exact ⟨g, collapse_leaf h1, SameTree.rfl' _, .inl ⟨h1.1, h1.2, rfl⟩⟩
  · intro v ih h1 h2
    rw [collapse_vector]
    by_cases hv : v = []
    · subst hv; exact ⟨_, by rw [if_pos rfl], SameTree.rfl' _, .inr (.inr ⟨rfl, rfl, .inl rfl⟩)⟩
    · rw [if_neg hv]
      obtain ⟨v', h3, h4, h5, h6⟩ := ih (fun w ⟨x, hx, hi⟩ => h1 w (.elem hx hi))
        (fun z ⟨x, hx, hi⟩ => h2 z (.elem hx hi))
      rw [h3]
      have hne : v' ≠ [] := by intro h; subst h; exact hv (List.eq_nil_of_length_eq_zero h5)
      have hp := parts_of hne (h1 v .self) h5 h6 (fun x hx => h2 x (.elem hx .self))
      obtain ⟨g, hg1, hg2, hg3, hg4⟩ := pack_ok hp
      refine ⟨g, hg1, h4.trans hg2, .inr (.inr ⟨rfl, hg3, ?_⟩)⟩
      rcases hg4 with ⟨rfl, -⟩ | ⟨-, h | ⟨ha, hb, hc, hd⟩⟩
      · exact .inl rfl
      · exact .inr (.inl h)
      · exact .inr (.inr ⟨ha, hb, by rw [hc, ← h5]; rfl, hd⟩)
  · intro l ih h1 h2
    obtain ⟨l', h3, h4⟩ := ih (fun w ⟨e, he, hi⟩ => h1 w (.value he hi))
      (fun z ⟨e, he, hi⟩ => h2 z (.value he hi))
    exact ⟨map l', by rw [collapse, h3], h4, .inr (.inl ⟨rfl, rfl⟩)⟩
  · intro _ _; exact ⟨[], rfl, SameTree.rfl' _, rfl, by simp⟩
  · intro x xs hx hxs h1 h2
    obtain ⟨x', h3, h4, h5⟩ := hx (fun v hv => h1 v ⟨x, by simp, hv⟩) (fun z hz => h2 z ⟨x, by simp, hz⟩)
    obtain ⟨r', h6, h7, h8, h9⟩ := hxs (fun v ⟨y, hy, hi⟩ => h1 v ⟨y, by simp [hy], hi⟩)
      (fun z ⟨y, hy, hi⟩ => h2 z ⟨y, by simp [hy], hi⟩)
    refine ⟨x' :: r', by rw [collapseL, h3]; simp only; rw [h6], ?_, by simp [h8], ?_⟩
    · cases h7 with
      | list hl hp =>
        refine .list (by simp [viewL, hl]) ?_
        intro i t t' ht ht'
        cases i with
        | zero => simp [viewL] at ht ht'; rw [← ht, ← ht']; exact h4
        | succ n => exact hp n t t' (by simpa [viewL] using ht) (by simpa [viewL] using ht')
    · intro y hy
      rcases List.mem_cons.1 hy with rfl | hy
      · exact ⟨x, by simp, h5⟩
      · obtain ⟨z, hz1, hz2⟩ := h9 y hy; exact ⟨z, by simp [hz1], hz2⟩
  · intro _ _; exact ⟨[], rfl, SameTree.rfl' _⟩
  · intro k x xs hx hxs h1 h2
    obtain ⟨x', h3, h4, h5⟩ := hx (fun v hv => h1 v ⟨(k, x), by simp, hv⟩) (fun z hz => h2 z ⟨(k, x), by simp, hz⟩)
    obtain ⟨r', h6, h7⟩ := hxs (fun v ⟨y, hy, hi⟩ => h1 v ⟨y, by simp [hy], hi⟩)
      (fun z ⟨y, hy, hi⟩ => h2 z ⟨y, by simp [hy], hi⟩)
    refine ⟨(k, x') :: r', by rw [collapseM, h3]; simp only; rw [h6], ?_⟩
    · cases h7 with
      | dict hl hp =>
        refine .dict (by simp [viewM, hl]) ?_
        intro i a t a' t' ht ht'
        cases i with
        | zero => simp [viewM] at ht ht'; rw [← ht.2, ← ht'.2]; exact h4
        | succ n => exact hp n a t a' t' (by simpa [viewM] using ht) (by simpa [viewM] using ht')

/-- **C17**: collapse() returns and the tree holds the same data: the same lists and dictionaries with the
same scalars in the same places, a packed vector being the list of its elements and a matrix the list of its
columns.  Partial: vectors of containers as in `VectorOk`, and longs within 2^53 or no reals
(`C17_negation`, `C17_mixed_negation`, `C17_long_negation`). -/
theorem C17_data_partial (g : GC) (hv : ∀ v, Inside (vector v) g → VectorOk v)
    (hf : (∀ x, Inside x g → ∀ l, long l ∈ elems x → l.toInt.natAbs ≤ 2 ^ 53) ∨
      (∀ x, Inside x g → (∀ r, real r ∉ elems x) ∧ ∀ c, complex c ∉ elems x)) :
    ∃ g', collapse g = .ok g' () ∧ SameTree (view g) (view g') := by
  have : ∃ m, ∀ x, Inside x g → ∀ y ∈ elems x, Fine m y := by
    rcases hf with h | h
    · refine ⟨true, fun x hx y hy => ?_⟩
      cases y <;> first | trivial | exact h x hx _ hy
    · refine ⟨false, fun x hx y hy => ?_⟩
      cases y <;> first | trivial | exact absurd hy ((h x hx).1 _) | exact absurd hy ((h x hx).2 _)
  obtain ⟨m, hm⟩ := this
  obtain ⟨g', h1, h2, -⟩ := collapse_ok m g hv hm
  exact ⟨g', h1, h2⟩

/-- A list of lists of numbers. -/
def nestedExample : GC := vector [vector [int 1, int 2], vector [bool true, int 4]]

theorem insideExample {x : GC} (h : Inside x nestedExample) : x = nestedExample ∨
    x = vector [int 1, int 2] ∨ x = vector [bool true, int 4] ∨ scalar x.ty = true := by
  cases h with
  | self => exact .inl rfl
  | elem hx hi =>
    simp only [List.mem_cons, List.not_mem_nil, or_false] at hx
    rcases hx with rfl | rfl <;> cases hi with
    | self => simp
    | elem hx hi =>
      simp only [List.mem_cons, List.not_mem_nil, or_false] at hx
      rcases hx with rfl | rfl <;> cases hi <;> simp [scalar, ty, Ty.rank]

example : ∃ g', collapse nestedExample = .ok g' () ∧ SameTree (view nestedExample) (view g') := by
  refine C17_data_partial nestedExample ?_ (.inl ?_)
  · intro v hv
    rcases insideExample hv with h | h | h | h
    · injection h with h; subst h
      constructor <;> simp [sizeOk, scalar, listLike, elems, ty, shape, Ty.rank, isNumber, width]
    · injection h with h; subst h
      constructor <;> simp [sizeOk, scalar, listLike, elems, ty, shape, Ty.rank, isNumber, width]
    · injection h with h; subst h
      constructor <;> simp [sizeOk, scalar, listLike, elems, ty, shape, Ty.rank, isNumber, width]
    · simp [scalar, ty, Ty.rank] at h
  · intro x hx l hl
    rcases insideExample hx with rfl | rfl | rfl | h
    · simp [nestedExample, elems] at hl
    · simp [elems] at hl
    · simp [elems] at hl
    · exfalso
      cases hx with
      | elem h1 hi =>
        simp only [List.mem_cons, List.not_mem_nil, or_false] at h1
        rcases h1 with rfl | rfl <;> cases hi with
        | self => simp [scalar, ty, Ty.rank] at h
        | elem hx hi =>
          simp only [List.mem_cons, List.not_mem_nil, or_false] at hx
          rcases hx with rfl | rfl <;> cases hi <;> simp [elems] at hl
      | self => simp [scalar, nestedExample, ty, Ty.rank] at h

theorem sameCount_true : ∀ (v : List GC) (n : Nat) (l : I32), (l = -1 ∨ l = BitVec.ofNat 32 n) →
    (∀ x ∈ v, x.get_num_elements = n) → (sameCount l true v).2 = true
  | [], _, _, _, _ => rfl
  | x :: r, n, l, hl, h => by
    rw [sameCount, h x (by simp)]
    have : (if 0 ≤ l.toInt ∧ true = true then l == BitVec.ofNat 32 n else true) = true := by
      rcases hl with rfl | rfl
      · rw [if_neg (by decide)]
      · split <;> simp
    rw [this]
    exact sameCount_true r n _ (.inr rfl) (fun y hy => h y (by simp [hy]))

theorem collapseL_leaves : ∀ v : List GC, (∀ x ∈ v, x.ty ≠ .VECTOR ∧ x.ty ≠ .MAP) → collapseL v = .ok v
  | [], _ => rfl
  | x :: r, h => by
    rw [collapseL, collapse_leaf (h x (by simp)), collapseL_leaves r (fun y hy => h y (by simp [hy]))]

theorem fine_exists {v : List GC}
    (hf : (∀ l, long l ∈ v → l.toInt.natAbs ≤ 2 ^ 53) ∨ ((∀ r, real r ∉ v) ∧ ∀ c, complex c ∉ v)) :
    ∃ m, ∀ y ∈ v, Fine m y := by
  rcases hf with h | h
  · refine ⟨true, fun y hy => ?_⟩
    cases y <;> first | trivial | exact h _ hy
  · refine ⟨false, fun y hy => ?_⟩
    cases y <;> first | trivial | exact absurd hy (h.1 _) | exact absurd hy (h.2 _)

theorem number_scalar {x : GC} (h : isNumber x = true) : scalar x.ty = true ∧ x.ty ≠ .VECTOR ∧ x.ty ≠ .MAP ∧
    x ≠ notype ∧ elems x = [x] ∧ 2 ≤ x.ty.rank ∧ x.ty.rank ≤ 6 := by
  cases x <;> first
    | (simp [isNumber] at h; done)
    | exact ⟨rfl, by simp [ty], by simp [ty], by simp, rfl, by simp [ty, Ty.rank], by simp [ty, Ty.rank]⟩

theorem number_parts {m : Bool} {v : List GC} (hne : v ≠ []) (hl : v.length < 2 ^ 32)
    (hn : ∀ x ∈ v, isNumber x = true) (hc : ∀ c, complex c ∈ v → ∀ x ∈ v, ∃ c', x = complex c')
    (hf : ∀ y ∈ v, Fine m y) : Parts m v := by
  have sn : ∀ x ∈ v, shape x.ty ≠ 1 := by
    intro x hx h
    have := number_scalar (hn x hx)
    rw [(@shape_not x.ty).2.2.2 h] at this; simp at this
  refine ⟨hne, hl, ?_, ?_, ?_, ?_, ?_, ?_, ?_⟩
  · intro x hx; have := hn x hx; cases x <;> first | rfl | simp [isNumber] at this
  · intro x hx h; exact absurd h (sn x hx)
  · intro x _ y hy _ h; exact absurd h (sn y hy)
  · intro q hq; have := hn _ hq; simp [isNumber] at this
  · intro q hq; have := hn _ hq; simp [isNumber] at this
  · intro c hc' x hx _; exact hc c hc' x hx
  · intro x hx _ y hy
    rw [(number_scalar (hn x hx)).2.2.2.2.1] at hy; simp at hy; subst hy; exact hf _ hx

/-- **C17**, the packing itself: a vector of numbers becomes the vector of its widest type. -/
theorem C17_packs_numbers_partial (v : List GC) (hne : v ≠ []) (hl : v.length < 2 ^ 32)
    (hn : ∀ x ∈ v, isNumber x = true) (hc : ∀ c, complex c ∈ v → ∀ x ∈ v, ∃ c', x = complex c')
    (hf : (∀ l, long l ∈ v → l.toInt.natAbs ≤ 2 ^ 53) ∨ ((∀ r, real r ∉ v) ∧ ∀ c, complex c ∉ v)) :
    ∃ g', collapse (vector v) = .ok g' () ∧ SameElems v (elems g') ∧ shape g'.ty = 1 ∧
      (∃ x ∈ v, width g'.ty = width x.ty) ∧ ∀ x ∈ v, ∃ a b, width x.ty = some a ∧ width g'.ty = some b ∧ a ≤ b := by
  obtain ⟨m, hm⟩ := fine_exists hf
  have hp := number_parts (m := m) hne hl hn hc hm
  obtain ⟨g', h1, h2, h3, h4⟩ := pack_ok hp
  have hcan : (sameCount (-1) true v).2 = true := by
    refine sameCount_true v 1 (-1) (.inl rfl) ?_
    intro x hx
    have := number_scalar (hn x hx)
    exact count_scalar this.1 this.2.2.2.1
  obtain ⟨-, hmax, hex⟩ := maxType_spec v .NOTYPE
  obtain ⟨y, hy⟩ := List.exists_mem_of_ne_nil v hne
  have hmr : 2 ≤ (maxType .NOTYPE v).rank ∧ (maxType .NOTYPE v).rank ≤ 6 := by
    refine ⟨Nat.le_trans (number_scalar (hn y hy)).2.2.2.2.2.1 (hmax y hy), ?_⟩
    rcases hex with h | ⟨x, hx, h⟩
    · rw [h]; decide
    · rw [← h]; exact (number_scalar (hn x hx)).2.2.2.2.2.2
  obtain ⟨z, hz, hzt⟩ : ∃ x ∈ v, x.ty = maxType .NOTYPE v := by
    rcases hex with h | h
    · rw [h] at hmr; simp [Ty.rank] at hmr
    · exact h
  have hpk : ∃ b, packs (maxType .NOTYPE v) = some b ∧ shape b = 1 ∧ width b = width (maxType .NOTYPE v) ∧
      ∀ t : Ty, 2 ≤ t.rank → t.rank ≤ (maxType .NOTYPE v).rank → ∃ a c, width t = some a ∧ width b = some c ∧ a ≤ c := by
    generalize maxType .NOTYPE v = T at hmr
    cases T <;> simp [Ty.rank] at hmr <;> refine ⟨_, rfl, rfl, rfl, ?_⟩ <;>
      (intro t h1 h2; cases t <;> simp [Ty.rank] at h1 h2 <;> simp [width])
  obtain ⟨b, hb1, hb2, hb3, hb4⟩ := hpk
  have hty : g'.ty = b ∧ ∀ y ∈ elems g', Fine m y := by
    rcases h4 with ⟨-, h | h⟩ | ⟨h | ⟨h, -⟩, h'⟩
    · rw [hcan] at h; simp at h
    · rw [hb1] at h; simp at h
    · rw [hb1] at h; injection h with h
      refine ⟨h.symm, ?_⟩
      rcases h' with h' | h'
      · rw [← h, hb2] at h'; simp at h'
      · exact h'.2.2.2
    · have h5 := h y hy; have h6 := hn y hy
      cases y <;> simp [ty] at h5 <;> simp [isNumber] at h6
  refine ⟨g', ?_, ?_, by rw [hty.1]; exact hb2, ⟨z, hz, by rw [hty.1, hb3, hzt]⟩, ?_⟩
  · rw [collapse_vector, if_neg hne, collapseL_leaves v (fun x hx => ⟨(number_scalar (hn x hx)).2.1, (number_scalar (hn x hx)).2.2.1⟩)]
    exact h1
  · rw [view_shape1 (by rw [hty.1]; exact hb2)] at h2
    cases h2 with
    | list hlen hel =>
      refine ⟨by simpa [viewL_eq] using hlen, ?_⟩
      intro i a c ha hc'
      have := hel i (.leaf a) (.leaf c) (by
        rw [viewL_eq, List.getElem?_map, ha, Option.map_some,
          view_scalar (number_scalar (hn a (List.mem_of_getElem? ha))).1]) (by simp [hc'])
      cases this with | leaf h => exact h
  · intro x hx
    rw [hty.1]
    exact hb4 x.ty (number_scalar (hn x hx)).2.2.2.2.2.1 (hmax x hx)

example : collapse (vector [bool true, real .zero, int 3]) =
    .ok (vecReal [F64.ofI32 1, .zero, F64.ofI32 3]) () := by decide +kernel

/-- Collapsing a list of lists of numbers, element by element. -/
theorem collapseL_lists {m : Bool} {n : Nat} (hn0 : 0 < n) : ∀ v : List GC,
    (∀ x ∈ v, ∃ w, x = vector w ∧ w.length = n ∧ (∀ y ∈ w, isNumber y = true) ∧
      (∀ c, complex c ∈ w → ∀ y ∈ w, ∃ c', y = complex c') ∧ n < 2 ^ 32 ∧ ∀ y ∈ w, Fine m y) →
    ∃ v', collapseL v = .ok v' ∧ v.length = v'.length ∧
      (∀ x' ∈ v', ∃ x ∈ v, Kin m x x') ∧
      (∀ x' ∈ v', shape x'.ty = 1 ∧ (elems x').length = n ∧ 9 ≤ x'.ty.rank ∧ x'.ty.rank ≤ 13) ∧
      SameTree (.list (viewL v)) (.list (viewL v')) ∧
      ((∃ x ∈ v, ∃ y ∈ elems x, y.ty ≠ .BOOL) → ∃ x' ∈ v', 10 ≤ x'.ty.rank)
  | [], _ => ⟨[], rfl, rfl, by simp, by simp, SameTree.rfl' _, by simp⟩
  | x :: r, h => by
    obtain ⟨w, hw, hl, hnum, hc, h32, hf⟩ := h x (by simp)
    subst hw
    obtain ⟨r', h1, h2, h3, h4, h5, h6⟩ := collapseL_lists hn0 r (fun y hy => h y (by simp [hy]))
    have hne : w ≠ [] := by intro h; subst h; simp at hl; omega
    have hfm : (∀ l, long l ∈ w → l.toInt.natAbs ≤ 2 ^ 53) ∨ ((∀ r, real r ∉ w) ∧ ∀ c, complex c ∉ w) := by
      cases m with
      | true => exact .inl fun l hl => hf _ hl
      | false => exact .inr ⟨fun l hl => hf _ hl, fun l hl => hf _ hl⟩
    have hp := number_parts (m := m) hne (by rw [hl]; exact h32) hnum hc hf
    obtain ⟨g', e1, e2, e3, e4, e5⟩ := C17_packs_numbers_partial w hne (by rw [hl]; exact h32) hnum hc hfm
    have e1' : pack w = .ok g' () := by
      rw [collapse_vector, if_neg hne, collapseL_leaves w (fun x hx => ⟨(number_scalar (hnum x hx)).2.1, (number_scalar (hnum x hx)).2.2.1⟩)] at e1
      exact e1
    obtain ⟨g2, q1, q2, q3, q4⟩ := pack_ok hp
    rw [e1'] at q1; injection q1 with q1; subst q1
    have hkin : Kin m (vector w) g' := by
      refine .inr (.inr ⟨rfl, q3, ?_⟩)
      rcases q4 with ⟨rfl, -⟩ | ⟨-, q4 | ⟨qa, qb, qc, qd⟩⟩
      · exact .inl rfl
      · exact .inr (.inl q4)
      · exact .inr (.inr ⟨qa, qb, qc, qd⟩)
    have hrank : 9 ≤ g'.ty.rank ∧ g'.ty.rank ≤ 13 ∧ ((∃ y ∈ w, y.ty ≠ .BOOL) → 10 ≤ g'.ty.rank) := by
      obtain ⟨y, hy⟩ := List.exists_mem_of_ne_nil w hne
      obtain ⟨a, b, -, hb, -⟩ := e5 y hy
      have : ∀ t : Ty, shape t = 1 → width t = some b → 9 ≤ t.rank ∧ t.rank ≤ 13 ∧ (0 < b → 10 ≤ t.rank) := by
        intro t h1 h2
        cases t <;> simp [shape] at h1 <;> simp [width] at h2 <;> subst h2 <;> simp [Ty.rank]
      obtain ⟨p1, p2, p3⟩ := this g'.ty e3 hb
      refine ⟨p1, p2, fun ⟨z, hz, hzt⟩ => p3 ?_⟩
      obtain ⟨a', b', ha', hb', hab⟩ := e5 z hz
      rw [hb] at hb'; injection hb' with hb'; subst hb'
      have := hnum z hz
      cases z <;> simp [isNumber] at this <;> simp [ty] at hzt <;> simp [ty, width] at ha' <;> omega
    refine ⟨g' :: r', ?_, by simp [h2], ?_, ?_, ?_, ?_⟩
    · rw [collapseL, e1]; simp only; rw [h1]
    · intro x' hx'
      rcases List.mem_cons.1 hx' with rfl | hx'
      · exact ⟨vector w, by simp, hkin⟩
      · obtain ⟨y, hy1, hy2⟩ := h3 x' hx'; exact ⟨y, by simp [hy1], hy2⟩
    · intro x' hx'
      rcases List.mem_cons.1 hx' with rfl | hx'
      · exact ⟨e3, by rw [← e2.1, hl], hrank.1, hrank.2.1⟩
      · exact h4 x' hx'
    · cases h5 with
      | list hl hp =>
        refine .list (by simp [viewL, hl]) ?_
        intro i t t' ht ht'
        cases i with
        | zero => simp [viewL] at ht ht'; rw [← ht, ← ht']; exact q2
        | succ n => exact hp n t t' (by simpa [viewL] using ht) (by simpa [viewL] using ht')
    · rintro ⟨y, hy, z, hz, hzt⟩
      rcases List.mem_cons.1 hy with rfl | hy
      · exact ⟨g', by simp, hrank.2.2 ⟨z, hz, hzt⟩⟩
      · obtain ⟨x', hx1, hx2⟩ := h6 ⟨y, hy, z, hz, hzt⟩; exact ⟨x', by simp [hx1], hx2⟩

/-- **C17**, the packing itself: a list of lists of `n > 0` numbers becomes a matrix, one column for
each list.  Partial: conditions as above, and not all booleans (there are no matrices of booleans). -/
theorem C17_packs_matrix_partial (v : List GC) (n : Nat) (hne : v ≠ []) (hn0 : 0 < n) (hn : n * v.length < 2 ^ 32)
    (h : ∀ x ∈ v, ∃ w, x = vector w ∧ w.length = n ∧ (∀ y ∈ w, isNumber y = true) ∧
      ∀ c, complex c ∈ w → ∀ y ∈ w, ∃ c', y = complex c')
    (hb : ∃ x ∈ v, ∃ y ∈ elems x, y.ty ≠ .BOOL)
    (hf : (∀ x ∈ v, ∀ l, long l ∈ elems x → l.toInt.natAbs ≤ 2 ^ 53) ∨
      (∀ x ∈ v, (∀ r, real r ∉ elems x) ∧ ∀ c, complex c ∉ elems x)) :
    ∃ g', collapse (vector v) = .ok g' () ∧ shape g'.ty = 2 ∧ SameTree (view (vector v)) (view g') := by
  obtain ⟨m, hm⟩ : ∃ m, ∀ x ∈ v, ∀ y ∈ elems x, Fine m y := by
    rcases hf with h | h
    · refine ⟨true, fun x hx y hy => ?_⟩
      cases y <;> first | trivial | exact h x hx _ hy
    · refine ⟨false, fun x hx y hy => ?_⟩
      cases y <;> first | trivial | exact absurd hy ((h x hx).1 _) | exact absurd hy ((h x hx).2 _)
  have hlen : 1 ≤ v.length := by cases v with | nil => exact absurd rfl hne | cons => simp
  have h32 : n < 2 ^ 32 := by
    have := Nat.mul_le_mul_left n hlen; omega
  have hv32 : v.length < 2 ^ 32 := by
    have := Nat.mul_le_mul_right v.length hn0; omega
  obtain ⟨v', h1, h2, h3, h4, h5, h6⟩ := collapseL_lists (m := m) hn0 v (by
    intro x hx
    obtain ⟨w, rfl, hl, hnum, hc⟩ := h x hx
    exact ⟨w, rfl, hl, hnum, hc, h32, fun y hy => hm _ hx y hy⟩)
  have hne' : v' ≠ [] := by intro h; subst h; exact hne (List.eq_nil_of_length_eq_zero h2)
  have isvec : ∀ x ∈ v, x.ty = .VECTOR := by
    intro x hx; obtain ⟨w, rfl, -⟩ := h x hx; rfl
  have hok : VectorOk v := by
    refine ⟨hv32, ?_, ?_, ?_, ?_, ?_, ?_⟩
    · intro x hx; obtain ⟨w, rfl, hl, -⟩ := h x hx; exact decide_eq_true (by rw [hl]; exact h32)
    · intro x hx _; obtain ⟨w, rfl, hl, -⟩ := h x hx; show w.length * _ < _; rw [hl]; exact hn
    · intro x hx y hy hs; rw [isvec x hx] at hs; simp [scalar, Ty.rank] at hs
    · intro q hq; have := isvec _ hq; simp [ty] at this
    · intro q hq; have := isvec _ hq; simp [ty] at this
    · intro q hq; have := isvec _ hq; simp [ty] at this
  have hp := parts_of hne' hok h2 h3 hm
  obtain ⟨g', q1, q2, q3, q4⟩ := pack_ok hp
  refine ⟨g', ?_, ?_, h5.trans q2⟩
  · rw [collapse_vector, if_neg hne, h1]; exact q1
  · have hcan : (sameCount (-1) true v').2 = true := by
      refine sameCount_true v' n (-1) (.inl rfl) ?_
      intro x hx
      have hxs := h4 x hx
      rw [num_elements_elems x (hp.size x hx) (by
        intro he; rw [he] at hxs; simp [shape] at hxs)]
      exact hxs.2.1
    obtain ⟨-, hmax, hex⟩ := maxType_spec v' .NOTYPE
    obtain ⟨z, hz, hz10⟩ := h6 hb
    have hmr : 10 ≤ (maxType .NOTYPE v').rank ∧ (maxType .NOTYPE v').rank ≤ 13 := by
      refine ⟨Nat.le_trans hz10 (hmax z hz), ?_⟩
      rcases hex with h | ⟨x, hx, h⟩
      · rw [h]; decide
      · rw [← h]; exact (h4 x hx).2.2.2
    have hpk : ∃ b, packs (maxType .NOTYPE v') = some b ∧ shape b = 2 := by
      generalize maxType .NOTYPE v' = T at hmr
      cases T <;> simp [Ty.rank] at hmr <;> exact ⟨_, rfl, rfl⟩
    obtain ⟨b, hb1, hb2⟩ := hpk
    rcases q4 with ⟨-, h | h⟩ | ⟨h | ⟨h, -⟩, -⟩
    · rw [hcan] at h; simp at h
    · rw [hb1] at h; simp at h
    · rw [hb1] at h; injection h with h; rw [← h]; exact hb2
    · have := h z hz; rw [this] at hz10; simp [Ty.rank] at hz10

example : ∃ g', collapse nestedExample = .ok g' () ∧ shape g'.ty = 2 ∧ SameTree (view nestedExample) (view g') :=
  C17_packs_matrix_partial _ 2 (by simp) (by decide) (by decide)
    (by simp [isNumber]) ⟨vector [int 1, int 2], by simp, int 1, by simp [elems], by simp [ty]⟩
    (.inr (by simp [elems]))

/-- A complex number beside an integer, or a pointer beside a boolean: collapse() throws. -/
theorem C17_negation (c : Cplx) (i : I32) (p : Ptr) (b : Bool) :
    collapse (vector [complex c, int i]) = .throw (vector [complex c, int i]) ∧
    collapse (vector [pointer p, bool b]) = .throw (vector [pointer p, bool b]) ∧
    collapse (vector [string (str "x"), vecInt [i]]) = .throw (vector [string (str "x"), vecInt [i]]) :=
  ⟨rfl, rfl, rfl⟩

/-- A scalar beside a list of one number, or the empty container beside an empty list: the lists and
scalars are mixed up. -/
theorem C17_mixed_negation :
    collapse (vector [int 1, vector [int 2]]) = .ok (matInt ⟨1, 2, [1, 2]⟩) () ∧
    ¬ SameTree (view (vector [int 1, vector [int 2]])) (view (matInt ⟨1, 2, [1, 2]⟩)) ∧
    collapse (vector [notype, vecInt []]) = .ok (matInt ⟨0, 2, []⟩) () := by
  refine ⟨by decide +kernel, ?_, by decide +kernel⟩
  intro h
  cases h with
  | list _ h => cases h 0 _ _ rfl rfl

/-- A long beyond 2^53 beside a real is rounded. -/
theorem C17_long_negation : ∃ r, collapse (vector [long 9007199254740993, real .zero]) = .ok (vecReal [r, .zero]) () ∧
    ¬ SameNumber (long 9007199254740993) (real r) := by
  refine ⟨F64.ofI64 9007199254740993, by decide +kernel, ?_⟩
  intro h
  rcases h with h | ⟨q, h1, h2⟩ | ⟨r, h, -⟩
  · simp at h
  · have : numValue (real (F64.ofI64 9007199254740993)) = numValue (long 9007199254740992) := by decide +kernel
    rw [this] at h2
    rw [numValue, Option.some.injEq] at h1 h2
    rw [← h1] at h2
    have := mul_unit_inj h2
    exact absurd this (by decide)
  · simp at h

end GC
end GCV
