import Verif.Props.Promote

/-! # C14: push_* appends one element and keeps the others -/

namespace GCV
namespace GC

open F64

/-- The values `push_*` takes. -/
inductive PushArg where
  | bool (b : Bool)
  | int (i : I32)
  | long (l : I64)
  | real (r : F64)
  | complex (c : Cplx)
  | string (s : Bytes)

/-- `push_bool(b)`, `push_int(i)`, … -/
def push : PushArg → GC → Res Unit
  | .bool b, g => push_bool b g
  | .int i, g => push_int i g
  | .long l, g => push_long l g
  | .real r, g => push_real r g
  | .complex c, g => push_complex c g
  | .string s, g => push_string s g

/-- The value as a container. -/
def PushArg.value : PushArg → GC
  | .bool b => .bool b
  | .int i => .int i
  | .long l => .long l
  | .real r => .real r
  | .complex c => .complex c
  | .string s => .string s

/-- `g'` has the elements of `g` in their order, followed by `x`. -/
def Appended (g x g' : GC) : Prop :=
  ∃ front last, elems g' = front ++ [last] ∧ SameElems (elems g) front ∧ SameNumber x last

/-- The containers that take the value: vectors of containers, vectors of numbers (for numbers),
vectors of anything (for strings) and, except for `push_bool`, numbers no wider than the value. -/
def takes (g : GC) (x : PushArg) : Bool :=
  match g.ty, width g.ty, width x.value.ty with
  | .VECTOR, _, _ => true
  | _, some w, some w' => shape g.ty == 1 || (shape g.ty == 0 && decide (w ≤ w') && x.value.ty != .BOOL)
  | _, _, none => shape g.ty == 1
  | _, _, _ => false

theorem appended_of {g x g' : GC} {front : List GC} {last : GC} (h : elems g' = front ++ [last])
    (h1 : SameElems (elems g) front) (h2 : SameNumber x last) : Appended g x g' :=
  ⟨front, last, h, h1, h2⟩

theorem appended_vec {α β : Type} {g x : GC} (v : List α) (f : α → β) (y : β) (upa : α → GC)
    (upb : β → GC) (up : List β → GC) (hg : elems g = v.map upa)
    (he : ∀ w, elems (up w) = w.map upb) (h1 : ∀ a ∈ v, SameNumber (upa a) (upb (f a)))
    (h2 : SameNumber x (upb y)) : Appended g x (up (v.map f ++ [y])) := by
  refine appended_of (front := (v.map f).map upb) (last := upb y) (by rw [he]; simp) ?_ h2
  rw [hg]; exact sameElems_map v f upa upb h1

theorem appended_same {β : Type} {g x : GC} (v : List β) (y : β)
    (upb : β → GC) (up : List β → GC) (hg : elems g = v.map upb)
    (he : ∀ w, elems (up w) = w.map upb)
    (h2 : SameNumber x (upb y)) : Appended g x (up (v ++ [y])) := by
  have := appended_vec (g := g) v id y upb upb up hg he (fun a _ => .inl rfl) h2
  simpa using this

theorem appended_scalar {β : Type} {g x : GC} (z y : β)
    (upb : β → GC) (up : List β → GC) (hg : elems g = [g]) (h1 : SameNumber g (upb z))
    (he : ∀ w, elems (up w) = w.map upb)
    (h2 : SameNumber x (upb y)) : Appended g x (up ([z] ++ [y])) := by
  refine appended_of (front := [upb z]) (last := upb y) (by rw [he]; simp) ?_ h2
  rw [hg]; exact sameElems_one h1

/-- **C14.** On a container that is not empty: when it takes the value (`takes`) the call
succeeds, the previous elements keep their values and order and the value is the new last
element; otherwise the call throws and the container is as before.
Partial: not for a scalar and a string (undefined, see the negation), and for longs of at most
2^53 in magnitude where they are converted to reals. -/
theorem C14_push_partial (g : GC) (x : PushArg) (hn : g ≠ notype) (hs : sizeOk g = true)
    (hsc : width x.value.ty = none → shape g.ty ≠ 0 ∨ g.ty = .VECTOR ∨ g.ty = .MAP)
    (hl : holdsReals x.value.ty = true → LongsExact g)
    (hx : holdsReals g.ty = true → LongsExact x.value) :
    if takes g x then ∃ g', push x g = .ok g' () ∧ (shape g'.ty = 1 ∨ g'.ty = .VECTOR) ∧
      Appended g x.value g'
    else push x g = .throw g := by
  have pr : ∀ {α β : Type} (d : β) (f : α → β) (v : List α) (up : List β → GC)
      (k : GC → Unit → Res Unit), v.length < 2 ^ 32 →
      (become ((refill d f v).bind fun w => .ok (up w))).bind k = k (up (v.map f)) () := by
    intro α β d f v up k h
    rw [become_refill d f up h]; rfl
  cases g <;> cases x <;>
    first
    | (exact absurd rfl hn)
    | (simp [width, PushArg.value, GC.ty, shape] at hsc; done)
    | (exact if_right rfl rfl)
    | (refine if_left rfl ⟨_, rfl, by simp [shape, GC.ty], ?_⟩)
    | (have hs' := of_decide_eq_true hs
       refine if_left rfl ⟨_, pr _ _ _ _ _ hs', by simp [shape, GC.ty], ?_⟩)
  all_goals
    simp only [PushArg.value] at hl hx ⊢
    first
    | exact appended_of (front := _) rfl (sameElems_refl _) (.inl rfl)
    | (refine appended_same _ _ .bool vecBool rfl (fun _ => rfl) ?_)
    | (refine appended_same _ _ .int vecInt rfl (fun _ => rfl) ?_)
    | (refine appended_same _ _ .long vecLong rfl (fun _ => rfl) ?_)
    | (refine appended_same _ _ .real vecReal rfl (fun _ => rfl) ?_)
    | (refine appended_same _ _ .complex vecComplex rfl (fun _ => rfl) ?_)
    | (refine appended_same _ _ .string vecString rfl (fun _ => rfl) ?_)
    | (refine appended_scalar _ _ .int vecInt rfl ?_ (fun _ => rfl) ?_)
    | (refine appended_scalar _ _ .long vecLong rfl ?_ (fun _ => rfl) ?_)
    | (refine appended_scalar _ _ .real vecReal rfl ?_ (fun _ => rfl) ?_)
    | (refine appended_scalar _ _ .complex vecComplex rfl ?_ (fun _ => rfl) ?_)
    | (refine appended_vec _ _ _ _ .int vecInt rfl (fun _ => rfl) ?_ ?_)
    | (refine appended_vec _ _ _ _ .long vecLong rfl (fun _ => rfl) ?_ ?_)
    | (refine appended_vec _ _ _ _ .real vecReal rfl (fun _ => rfl) ?_ ?_)
    | (refine appended_vec _ _ _ _ .complex vecComplex rfl (fun _ => rfl) ?_ ?_)
  all_goals
    first
    | exact .inl rfl
    | exact sn_bool_int _ | exact sn_bool_long _ | exact sn_bool_real _ | exact sn_bool_complex _
    | exact sn_int_long _ | exact sn_int_real _ | exact sn_int_complex _
    | exact sn_real_complex _
    | exact sn_long_real (hl rfl _ (by simp [elems]))
    | exact sn_long_complex (hl rfl _ (by simp [elems]))
    | exact sn_long_real (hx rfl _ (by simp [elems]))
    | exact sn_long_complex (hx rfl _ (by simp [elems]))
    | exact fun x _ => sn_bool_int x | exact fun x _ => sn_bool_long x
    | exact fun x _ => sn_bool_real x | exact fun x _ => sn_bool_complex x
    | exact fun x _ => sn_int_long x | exact fun x _ => sn_int_real x
    | exact fun x _ => sn_int_complex x | exact fun x _ => sn_real_complex x
    | exact fun x hx => sn_long_real (hl rfl x (by simp [elems, hx]))
    | exact fun x hx => sn_long_complex (hl rfl x (by simp [elems, hx]))

/-- The hypotheses are met: a real pushed on a vector of integers widens the vector. -/
example : push (.real .zero) (vecInt [1, 2]) =
    .ok (vecReal [F64.ofI32 1, F64.ofI32 2, .zero]) () := by
  have e := become_refill F64.zero F64.ofI32 vecReal (v := [1, 2]) (by decide)
  simp only [push, push_real, promote_to_vec_real, e]
  rfl

/-- Pushes one after the other. -/
def pushAll : List PushArg → GC → Res Unit
  | [], g => .ok g ()
  | x :: r, g => (push x g).bind fun g' _ => pushAll r g'

/-- **C14**, histories: after pushing any values, of any types, on a vector of containers it holds
what it held followed by exactly those values. -/
theorem C14_push_history (xs : List PushArg) : ∀ (v : List GC),
    pushAll xs (vector v) = .ok (vector (v ++ xs.map PushArg.value)) () := by
  induction xs with
  | nil => intro v; simp [pushAll]
  | cons x r ih =>
    intro v
    have e : push x (vector v) = .ok (vector (v ++ [x.value])) () := by cases x <;> rfl
    rw [pushAll, e, Res.bind, ih]
    simp

/-- The same for integers pushed on a vector of integers, and so on for each number type. -/
theorem C14_push_history_packed :
    (∀ (xs v : List I32), pushAll (xs.map .int) (vecInt v) = .ok (vecInt (v ++ xs)) ()) ∧
    (∀ (xs v : List I64), pushAll (xs.map .long) (vecLong v) = .ok (vecLong (v ++ xs)) ()) ∧
    (∀ (xs v : List F64), pushAll (xs.map .real) (vecReal v) = .ok (vecReal (v ++ xs)) ()) ∧
    (∀ (xs v : List Cplx), pushAll (xs.map .complex) (vecComplex v) = .ok (vecComplex (v ++ xs)) ()) ∧
    (∀ (xs v : List Bool), pushAll (xs.map .bool) (vecBool v) = .ok (vecBool (v ++ xs)) ()) ∧
    (∀ (xs v : List Bytes), pushAll (xs.map .string) (vecString v) = .ok (vecString (v ++ xs)) ()) := by
  have key : ∀ {α : Type} (mk : α → PushArg) (up : List α → GC),
      (∀ x v, push (mk x) (up v) = .ok (up (v ++ [x])) ()) →
      ∀ (xs v : List α), pushAll (xs.map mk) (up v) = .ok (up (v ++ xs)) () := by
    intro α mk up h xs
    induction xs with
    | nil => intro v; simp [pushAll]
    | cons x r ih =>
      intro v
      rw [List.map_cons, pushAll, h, Res.bind, ih]; simp
  exact ⟨key _ _ fun _ _ => rfl, key _ _ fun _ _ => rfl, key _ _ fun _ _ => rfl,
    key _ _ fun _ _ => rfl, key _ _ fun _ _ => rfl, key _ _ fun _ _ => rfl⟩

/-- On an empty container the result does not hold just the pushed value: there is a zero before
it; `push_bool` throws. -/
theorem C14_push_empty_negation :
    (∀ i, push (.int i) notype = .ok (vecInt [0, i]) ()) ∧
    (∀ l, push (.long l) notype = .ok (vecLong [0, l]) ()) ∧
    (∀ r, push (.real r) notype = .ok (vecReal [.zero, r]) ()) ∧
    (∀ c, push (.complex c) notype = .ok (vecComplex [.zero, c]) ()) ∧
    (∀ s, push (.string s) notype = .ok (vector [notype, string s]) ()) ∧
    (∀ b, push (.bool b) notype = .throw notype) :=
  ⟨fun _ => rfl, fun _ => rfl, fun _ => rfl, fun _ => rfl, fun _ => rfl, fun _ => rfl⟩

/-- A string pushed on any scalar is undefined. -/
theorem C14_push_string_negation (g : GC) (s : Bytes) (h0 : shape g.ty = 0) (h1 : g.ty ≠ .NOTYPE)
    (h2 : g.ty ≠ .VECTOR) (h3 : g.ty ≠ .MAP) : push (.string s) g = .ub := by
  cases g <;> first
    | rfl
    | (simp [shape, GC.ty] at h0; done)
    | (exact absurd rfl h1)
    | (exact absurd rfl h2)
    | (exact absurd rfl h3)

end GC
end GCV
