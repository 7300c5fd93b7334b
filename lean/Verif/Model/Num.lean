import Verif.Model.Basic

/-!
# Floating point numbers as exact integers

Every finite binary64 number is an integer multiple of `2^-1074`.  `scaled` is that
integer, so `scaled x = n * unit` says that `x` denotes the integer `n`.
-/

namespace GCV
namespace F64

/-- The number 1 in units of `2^-1074`. -/
@[irreducible] def unit : Nat := 2 ^ 1074

/-- Sign bit. -/
def sign (x : F64) : Bool := x.bits.msb
/-- Biased exponent field. -/
def expo (x : F64) : Nat := x.bits.toNat / 2 ^ 52 % 2 ^ 11
/-- Fraction field. -/
def frac (x : F64) : Nat := x.bits.toNat % 2 ^ 52

def isNaN (x : F64) : Bool := x.expo == 2047 && x.frac != 0
def isInf (x : F64) : Bool := x.expo == 2047 && x.frac == 0
def isFinite (x : F64) : Bool := x.expo != 2047

/-- Magnitude of a finite number in units of `2^-1074`. -/
def mag (x : F64) : Nat :=
  if x.expo = 0 then x.frac else (2 ^ 52 + x.frac) * 2 ^ (x.expo - 1)

/-- Value of a finite number in units of `2^-1074`. -/
def scaled (x : F64) : Int := if x.sign then - (x.mag : Int) else x.mag

/-- cc:53-54 `isZero0`: `FP_ZERO` or `FP_SUBNORMAL`, i.e. exponent field 0. -/
def isZero0 (x : F64) : Bool := x.expo == 0

/-- Lua interface `isZero`: `FP_ZERO` (src_lua_interface/GenericContainerInterface_lua.cc:81-85). -/
def isZero (x : F64) : Bool := x.expo == 0 && x.frac == 0

/-- `std::round` on a magnitude, in units of `2^-1074`: nearest integer, halves away from 0. -/
def roundMag (m : Nat) : Nat := (2 * m + unit) / (2 * unit) * unit

/-- cc:56-57 `isInteger`: `isZero0( x-round(x) )`.  For finite `x` the difference is
exactly representable (it is a multiple of the spacing of `x` and at most 1/2), so it is
computed exactly; it is zero or subnormal iff its magnitude is below `2^-1022`, that is
`2^52` units.  For infinities and NaN the difference is NaN, which is neither. -/
def isInteger (x : F64) : Bool :=
  x.isFinite && decide (((x.mag : Int) - (roundMag x.mag : Int)).natAbs < 2 ^ 52)

/-- `x >= 0` in C++. -/
def geZero (x : F64) : Bool := !x.isNaN && (!x.sign || (x.isFinite && x.mag == 0))

/-- `x > 0` in C++. -/
def gtZero (x : F64) : Bool := !x.isNaN && !x.sign && !x.isZero

/-- `x < 0` in C++. -/
def ltZero (x : F64) : Bool := !x.isNaN && x.sign && !x.isZero

/-- cc:59-60 `isUnsigned`. -/
def isUnsigned (x : F64) : Bool := x.isInteger && x.geZero

/-- `x == y` in C++: false on NaN, `0 == -0`, otherwise identity of bit patterns. -/
def feq (x y : F64) : Bool :=
  !x.isNaN && !y.isNaN && (x == y || (x.isZero && y.isZero))

/-- Value truncated towards zero (finite numbers). -/
def trunc (x : F64) : Int := x.scaled.tdiv unit

/-- `static_cast` from `double` to a signed integer of `w` bits: undefined when the
truncated value does not fit. -/
def toSigned (w : Nat) (x : F64) : Out (BitVec w) :=
  if x.isFinite ∧ -(2 ^ (w - 1) : Int) ≤ x.trunc ∧ x.trunc < 2 ^ (w - 1) then
    .ok (BitVec.ofInt w x.trunc)
  else .ub

/-- `static_cast` from `double` to an unsigned integer of `w` bits. -/
def toUnsigned (w : Nat) (x : F64) : Out (BitVec w) :=
  if x.isFinite ∧ 0 ≤ x.trunc ∧ x.trunc < 2 ^ w then .ok (BitVec.ofInt w x.trunc) else .ub

/-- Positive integer to the nearest double (ties to even); exponent and significand are
added, so a carry out of the significand increments the exponent. -/
def ofNatBits (a : Nat) : Nat :=
  let L := a.log2
  let m :=
    if L ≤ 52 then a * 2 ^ (52 - L)
    else
      let q := a / 2 ^ (L - 52)
      let r := a % 2 ^ (L - 52)
      if 2 * r > 2 ^ (L - 52) ∨ (2 * r = 2 ^ (L - 52) ∧ q % 2 = 1) then q + 1 else q
  (L + 1022) * 2 ^ 52 + m

/-- Conversion of an integer to `double` (round to nearest, ties to even). -/
def ofInt (n : Int) : F64 :=
  if n = 0 then ⟨0⟩
  else if n < 0 then ⟨BitVec.ofNat 64 (2 ^ 63 + ofNatBits n.natAbs)⟩
  else ⟨BitVec.ofNat 64 (ofNatBits n.natAbs)⟩

def zero : F64 := ⟨0⟩
def one : F64 := ofInt 1

/-- `b ? 1 : 0` as a double. -/
def ofBool (b : Bool) : F64 := if b then one else zero

/-- `int_type` to `double`. -/
def ofI32 (i : I32) : F64 := ofInt i.toInt
/-- `long_type` to `double`. -/
def ofI64 (i : I64) : F64 := ofInt i.toInt

end F64

namespace Cplx
def zero : Cplx := ⟨.zero, .zero⟩
/-- `complex_type(r,0)`. -/
def ofReal (r : F64) : Cplx := ⟨r, .zero⟩
/-- `a == b` for `std::complex`. -/
def feq (a b : Cplx) : Bool := a.re.feq b.re && a.im.feq b.im
end Cplx

/-- `static_cast<int_type>(long)`: modulo 2^32. -/
def I64.toI32 (l : I64) : I32 := l.setWidth 32
/-- `int_type` to `long_type`. -/
def I32.toI64 (i : I32) : I64 := i.signExtend 64
/-- `b ? 1 : 0`. -/
def I32.ofBool (b : Bool) : I32 := if b then 1 else 0
def I64.ofBool (b : Bool) : I64 := if b then 1 else 0

end GCV
