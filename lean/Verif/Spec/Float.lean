import Verif.Model.Float
import Verif.Spec.Number

/-!
# Specification vocabulary: rounding to `double` and `float`

Values are counted in units of 2^-1074, as in Spec/Number.
-/

namespace GCV

namespace F32

/-! Classes and value of a float, from its fields. -/

def isNaN (x : F32) : Bool := x.expo == 255 && x.frac != 0
def isInf (x : F32) : Bool := x.expo == 255 && x.frac == 0
def isFinite (x : F32) : Bool := x.expo != 255

/-- Magnitude of a finite number in units of `2^-1074`, as for `F64`. -/
def mag (x : F32) : Nat :=
  if x.expo = 0 then x.frac * 2 ^ 925 else (2 ^ 23 + x.frac) * 2 ^ (x.expo - 1 + 925)

/-- Value of a finite number in units of `2^-1074`. -/
def scaled (x : F32) : Int := if x.sign then - (x.mag : Int) else x.mag

end F32

/-- The value of a finite float. -/
def F32.value (x : F32) : Option Int := if x.isFinite then some x.scaled else none

/-- `y` is the double nearest to the number `q`; between two doubles as near it is the one with an even fraction. -/
def NearestDouble (q : Int) (y : F64) : Prop :=
  ∃ v, y.value = some v ∧ ∀ z w, F64.value z = some w →
    (v - q).natAbs ≤ (w - q).natAbs ∧ ((w - q).natAbs = (v - q).natAbs → w = v ∨ y.frac % 2 = 0)

/-- `y` is the float nearest to the number `q`, the one with an even fraction if there are two; from
(2^24 - 1/2) 2^104 on (half a step beyond the largest float) it is infinity. -/
def NearestFloat (q : Int) (y : F32) : Prop :=
  if (2 ^ 25 - 1) * 2 ^ 103 * F64.unit ≤ q.natAbs then y.isInf = true
  else ∃ v, y.value = some v ∧ ∀ z w, F32.value z = some w →
    (v - q).natAbs ≤ (w - q).natAbs ∧ ((w - q).natAbs = (v - q).natAbs → w = v ∨ y.frac % 2 = 0)

/-- What reading `x` as a float gives: NaN for NaN, an infinity for the same infinity, the nearest float otherwise,
always with the sign of `x`. -/
def FloatOf (x : F64) (y : F32) : Prop :=
  y.sign = x.sign ∧
    match x.value with
    | some q => NearestFloat q y
    | none => if x.isNaN then y.isNaN = true else y.isInf = true

end GCV
