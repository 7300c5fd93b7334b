import Verif.Model.Basic
import Verif.Model.History

/-!
# What a reference into a container refers to

Specification (no code is modelled here).
-/

namespace GCV
namespace Heap
open GC

/-- `Picks part g val`: with `g` for the content, `val` is what is referred to: all of it (`get_string()`, `get_vec_int()`,
...), or element `i` of a vector of strings, a vector of complex numbers or a matrix of complex numbers
(`get_vec_string()[i]`, ...). -/
inductive Picks : Option Nat → GC → GC → Prop
  | whole (g : GC) : Picks none g g
  | string {v : List Bytes} {i : Nat} (h : i < v.length) : Picks (some i) (vecString v) (string v[i])
  | complex {v : List Cplx} {i : Nat} (h : i < v.length) : Picks (some i) (vecComplex v) (complex v[i])
  | cell {m : Mat Cplx} {i : Nat} (h : i < m.data.length) : Picks (some i) (matComplex m) (complex m.data[i])

/-- The call with a copy of the value. -/
def PushOf (val : GC) (op : Op) : Prop :=
  (∃ s, val = string s ∧ op = .pushString s) ∨ ∃ z, val = complex z ∧ op = .pushComplex z

end Heap
end GCV
