import Verif.Model.Num

/-!
# Specification vocabulary: the number stored in a container

Values are counted in units of 2^-1074, of which every finite double is a multiple
(`F64.scaled`, `F64.unit` = 2^1074).  So `numValue g = some (n * F64.unit)` says: `g` stores
the integer `n`.
-/

namespace GCV

/-- The number stored in a scalar container; none for NaN, infinities, a complex number with
non-zero imaginary part, and anything that is not a number. -/
def numValue : GC → Option Int
  | .bool b => some (if b then F64.unit else 0)
  | .int i => some (i.toInt * F64.unit)
  | .long l => some (l.toInt * F64.unit)
  | .real r => if r.isFinite then some r.scaled else none
  | .complex c => if c.re.isFinite ∧ c.im.isZero then some c.re.scaled else none
  | _ => none

/-- The value of a finite double. -/
def F64.value (x : F64) : Option Int := if x.isFinite then some x.scaled else none

/-- No subnormal number other than zero in a scalar container. -/
def NoSubnormal : GC → Prop
  | .real r => r.isZero0 → r.isZero
  | .complex c => (c.re.isZero0 → c.re.isZero) ∧ (c.im.isZero0 → c.im.isZero)
  | _ => True

instance (g : GC) : Decidable (NoSubnormal g) := by
  cases g <;> unfold NoSubnormal <;> infer_instance

/-- If the stored number is an integer, it lies in `[lo, hi)`. -/
def IntegerIn (lo hi : Int) (g : GC) : Prop :=
  ∀ n : Int, numValue g = some (n * F64.unit) → lo ≤ n ∧ n < hi

/-- Element `i` of a packed vector, of a matrix (column after column) or of a vector of
containers, as a container. -/
def elem (g : GC) (i : Nat) : Option GC :=
  match g with
  | .vecPointer v => v[i]?.map .pointer
  | .vecBool v => v[i]?.map .bool
  | .vecInt v => v[i]?.map .int
  | .vecLong v => v[i]?.map .long
  | .vecReal v => v[i]?.map .real
  | .vecComplex v => v[i]?.map .complex
  | .vecString v => v[i]?.map .string
  | .matInt m => m.data[i]?.map .int
  | .matLong m => m.data[i]?.map .long
  | .matReal m => m.data[i]?.map .real
  | .matComplex m => m.data[i]?.map .complex
  | .vector v => v[i]?
  | _ => none

/-- Boolean, integer, long or real. -/
def isRealNumber : GC → Bool
  | .bool _ | .int _ | .long _ | .real _ => true
  | _ => false

/-- Real number or complex number. -/
def isNumber : GC → Bool
  | .bool _ | .int _ | .long _ | .real _ | .complex _ => true
  | _ => false

/-! ### Reading a number as an integer

What the integer reads do with every content, in terms of the number stored. -/

/-- A double read as a signed integer of `w` bits.  NaN, infinities and numbers that are not whole
are refused; a number below 2^-1022 in absolute value (2^52 units) is taken for 0; a whole number
that does not fit has no defined result. -/
def realAsSigned (w : Nat) (x : F64) : Out Int :=
  match x.value with
  | none => .throw
  | some q =>
    if q.natAbs < 2 ^ 52 then .ok 0
    else if (F64.unit : Int) ∣ q then
      if -(2 ^ (w - 1)) ≤ q / F64.unit ∧ q / F64.unit < 2 ^ (w - 1) then .ok (q / F64.unit) else .ub
    else .throw

/-- The same for unsigned integers: negative numbers are refused. -/
def realAsUnsigned (w : Nat) (x : F64) : Out Int :=
  match x.value with
  | none => .throw
  | some q =>
    if q < 0 then .throw
    else if q.natAbs < 2 ^ 52 then .ok 0
    else if (F64.unit : Int) ∣ q then
      if q / F64.unit < 2 ^ w then .ok (q / F64.unit) else .ub
    else .throw

/-- Zero, or below 2^-1022 in absolute value. -/
def F64.tiny (x : F64) : Bool :=
  match x.value with
  | none => false
  | some q => decide (q.natAbs < 2 ^ 52)

/-- A container read as a signed integer of `w` bits: integers of more bits are cut to their `w`
low bits; of a complex number with a zero (or tiny) imaginary part the real part is read. -/
def asSigned (w : Nat) : GC → Out Int
  | .bool b => .ok (if b then 1 else 0)
  | .int i => .ok (i.toInt.bmod (2 ^ w))
  | .long l => .ok (l.toInt.bmod (2 ^ w))
  | .real x => realAsSigned w x
  | .complex c => if c.im.tiny then realAsSigned w c.re else .throw
  | _ => .throw

/-- A container read as an unsigned integer of `w` bits. -/
def asUnsigned (w : Nat) : GC → Out Int
  | .bool b => .ok (if b then 1 else 0)
  | .int i => if i.toInt < 0 then .throw else .ok (i.toInt % 2 ^ w)
  | .long l => if l.toInt < 0 then .throw else .ok (l.toInt % 2 ^ w)
  | .real x => realAsUnsigned w x
  | .complex c => if c.im.tiny then realAsUnsigned w c.re else .throw
  | _ => .throw

end GCV
