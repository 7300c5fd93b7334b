import Verif.Spec.EveryContent

/-!
# Specification vocabulary: copying into vectors and matrices of one type
-/

namespace GCV
namespace GC

/-- All results in order; otherwise what the first element that does not give one does. -/
def gather {α β : Type} (f : α → Out β) : List α → Out (List β)
  | [] => .ok []
  | x :: r =>
    match f x with
    | .ok y =>
      match gather f r with
      | .ok l => .ok (y :: l)
      | .throw => .throw
      | .ub => .ub
      | .diverge => .diverge
    | .throw => .throw
    | .ub => .ub
    | .diverge => .diverge

/-- A number as a signed integer of `w` bits; a long that does not fit is refused. -/
def fitSigned (w : Nat) : GC → Out Int
  | int i => .ok i.toInt
  | long l => if -(2 ^ (w - 1)) ≤ l.toInt ∧ l.toInt < 2 ^ (w - 1) then .ok l.toInt else .throw
  | g => asSigned w g

/-- A number as an unsigned integer of `w` bits; negative numbers are refused, and longs of 2^31 and more when `w` is 32. -/
def fitUnsigned (w : Nat) : GC → Out Int
  | long l => if 0 ≤ l.toInt ∧ l.toInt < 2 ^ (if w = 32 then 31 else 63) then .ok l.toInt else .throw
  | g => asUnsigned w g

/-- A number as a double; of a complex number with a zero (or tiny) imaginary part the real part. -/
def fitReal : GC → Out F64
  | complex c => if c.im.tiny then .ok c.re else .throw
  | g => if isRealNumber g then .ok (asReal g) else .throw

/-- A number as a complex number. -/
def fitComplex : GC → Out Cplx
  | complex c => .ok c
  | g => if isRealNumber g then .ok (asComplex g) else .throw

/-- A number that is not complex as a double. -/
def onlyReal (g : GC) : Out F64 := if isRealNumber g then .ok (asReal g) else .throw

/-- A complex number. -/
def onlyComplex : GC → Out Cplx
  | complex c => .ok c
  | _ => .throw

/-- A string. -/
def onlyText : GC → Out Bytes
  | string s => .ok s
  | _ => .throw

/-- The elements that are looked at: a map without entries has none. -/
def toCopy (g : GC) : List GC := if g = map [] then [] else elems g

/-- Number of elements; of entries for a map. -/
def counted : GC → Nat
  | map m => m.length
  | g => (elems g).length

/-- A matrix with one column for each element of `v`, read with `conv`; the elements have to have the same number of
elements. -/
def columnsOf {β : Type} (conv : GC → Out (List β)) (v : List GC) : Out (Mat β) :=
  match v with
  | [] => .throw
  | x :: r =>
    if ∀ y ∈ r, counted y = counted x then
      match gather conv (x :: r) with
      | .ok ws => .ok ⟨counted x, r.length + 1, ws.flatten⟩
      | .throw => .throw
      | .ub => .ub
      | .diverge => .diverge
    else .throw

/-- The numbers of `g` as a matrix. -/
def matrixOf {β : Type} (conv : GC → β) (g : GC) : Mat β := ⟨tall g, wide g, (cells g).map conv⟩

/-- The short lengths `sizeOk` leaves out. -/
def mapOk (g : GC) : Prop := ∀ m, g = map m → m.length < 2 ^ 32

/-- The sizes of the elements of a vector of containers: less than 2^32 cells. -/
def columnsFit (g : GC) : Prop :=
  ∀ v, g = vector v → ∀ x ∈ v, sizeOk x = true ∧ mapOk x ∧ counted x * v.length < 2 ^ 32

/-- The outcome for a type with conversion `conv` and column reader `col`: 0 for an empty container; a matrix for numbers that
are as narrow, undefined when there are none (VEC_BOOL apart); else refused. -/
def matrixOutcome {β : Type} (t : Ty) (conv : GC → β) (col : GC → Out (List β)) (g : GC) : Out (Mat β) :=
  match g with
  | vector v => columnsOf col v
  | g =>
    if g.ty = .NOTYPE ∨ (widens g.ty t = true ∧ g.ty ≠ .MAT_COMPLEX) then
      if cells g = [] ∧ g.ty ≠ .VEC_BOOL then .ub else .ok (matrixOf conv g)
    else .throw

end GC
end GCV
