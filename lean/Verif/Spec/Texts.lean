import Verif.Spec.Number
import Verif.Model.Writer

/-! # How a complex number and a cell of a table are written -/

namespace GCV

/-- A complex number by `to_string`: the real part alone when the imaginary part is zero or not a number, and otherwise
with `+` or `-`, the size of the imaginary part and `i`. -/
inductive ComplexText (f : Fmt) (c : Cplx) : Bytes → Prop
  | real : c.im.value = some 0 ∨ c.im.isNaN = true → ComplexText f c (f.real12 c.re)
  | plus {q : Int} : c.im.value = some q → 0 < q → ComplexText f c (f.real12 c.re ++ str "+" ++ f.real12 c.im ++ str "i")
  | minus {q : Int} {y : F64} : c.im.value = some q → q < 0 → y.value = some (-q) →
      ComplexText f c (f.real12 c.re ++ str "-" ++ f.real12 y ++ str "i")
  | plusInf : c.im.isInf = true → c.im.sign = false →
      ComplexText f c (f.real12 c.re ++ str "+" ++ f.real12 c.im ++ str "i")
  | minusInf {y : F64} : c.im.isInf = true → c.im.sign = true → y.isInf = true → y.sign = false →
      ComplexText f c (f.real12 c.re ++ str "-" ++ f.real12 y ++ str "i")

/-- `u` is `t` on the right of a field of `n` places, or `t` alone when it is longer. -/
def RightIn (n : Nat) (t u : Bytes) : Prop := ∃ b : Bytes, (∀ x ∈ b, x = 32) ∧ u = b ++ t ∧ u.length = max n t.length

end GCV
