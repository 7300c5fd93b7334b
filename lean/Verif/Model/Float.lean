import Verif.Model.Convert

/-!
# `float`: `get_value<float>`, assignment of a `float`

The rest of the model has no single precision numbers.
-/

namespace GCV

/-- A `float`: the 32 bit pattern of IEEE-754 binary32. -/
structure F32 where
  bits : BitVec 32
  deriving DecidableEq, Repr

namespace F32

/-- Sign bit. -/
def sign (x : F32) : Bool := x.bits.msb
/-- Biased exponent field. -/
def expo (x : F32) : Nat := x.bits.toNat / 2 ^ 23 % 2 ^ 8
/-- Fraction field. -/
def frac (x : F32) : Nat := x.bits.toNat % 2 ^ 23

/-- A magnitude in units of `2^-1074` to the pattern of the nearest float, ties to even; exponent and significand
are added, so a carry out of the significand increments the exponent.  Beyond the largest float it is infinity (the
behaviour of IEEE-754, which the C++ standard leaves to the implementation). -/
def ofMag (a : Nat) : Nat :=
  let s := max (a.log2 - 23) 925
  let q := a / 2 ^ s
  let r := a % 2 ^ s
  let m := if 2 * r > 2 ^ s ∨ (2 * r = 2 ^ s ∧ q % 2 = 1) then q + 1 else q
  min ((s - 925) * 2 ^ 23 + m) (255 * 2 ^ 23)

/-- The pattern with this sign. -/
def pack (neg : Bool) (b : Nat) : F32 := ⟨BitVec.ofNat 32 (if neg then 2 ^ 31 + b else b)⟩

/-- `static_cast<float>(double)`; a NaN becomes a quiet one with the leading bits of the payload. -/
def ofF64 (x : F64) : F32 :=
  if x.isNaN then pack x.sign (255 * 2 ^ 23 + 2 ^ 22 + x.frac / 2 ^ 29 % 2 ^ 22)
  else if x.isInf then pack x.sign (255 * 2 ^ 23)
  else pack x.sign (ofMag x.mag)

/-- `static_cast<float>` of an integer. -/
def ofInt (n : Int) : F32 := pack (decide (n < 0)) (ofMag (n.natAbs * 2 ^ 1074))

/-- `real_type(a)` for a `float`: exact; a NaN becomes a quiet one. -/
def toF64 (x : F32) : F64 :=
  ⟨BitVec.ofNat 64 ((if x.sign then 2 ^ 63 else 0) +
    if x.expo = 255 then
      if x.frac = 0 then 2047 * 2 ^ 52 else 2047 * 2 ^ 52 + 2 ^ 51 + x.frac % 2 ^ 22 * 2 ^ 29
    else if x.expo ≠ 0 then (x.expo + 896) * 2 ^ 52 + x.frac * 2 ^ 29
    else if x.frac = 0 then 0
    else (x.frac.log2 + 874) * 2 ^ 52 + (x.frac - 2 ^ x.frac.log2) * 2 ^ (52 - x.frac.log2))⟩

end F32

namespace GC

/-- cc:1777-1822, `get_value<float>`. -/
def get_value_float : GC → Out F32
  | bool b => .ok (F32.ofInt (if b then 1 else 0))
  | int i => .ok (F32.ofInt i.toInt)
  | long l => .ok (F32.ofInt l.toInt)
  | real r => .ok (F32.ofF64 r)
  | complex c => if c.im.isZero0 then .ok (F32.ofF64 c.re) else .throw
  | _ => .throw

/-- hh:3557-3558, `operator=(float)`; also `set(float)` hh:3412 and the constructor hh:3825-3826. -/
def assign_float (a : F32) (_ : GC) : GC := real a.toF64
/-- hh:3573-3574, `operator=(complex<float>)`; also `set` hh:3439-3440 and the constructor hh:3839-3840. -/
def assign_complex_float (re im : F32) (_ : GC) : GC := complex ⟨re.toF64, im.toF64⟩

end GC
end GCV
