import Verif.Spec.Json
import Verif.Spec.Elems
import Verif.Spec.View
import Verif.Model.Writer

/-! # Specification: the document that describes a container -/

namespace GCV
open Json

/-- The container is one of the vectors. -/
def isVec (g : GC) : Prop := shape g.ty = 1 ∨ g.ty = .VECTOR

/-- Rows and columns of a matrix. -/
def matDims : GC → Option (Nat × Nat)
  | .matInt m => some (m.nr, m.nc)
  | .matLong m => some (m.nr, m.nc)
  | .matReal m => some (m.nr, m.nc)
  | .matComplex m => some (m.nr, m.nc)
  | _ => none

/-- `Describes f g d`: the document says what is in the container: null for the empty one, the same booleans, whole
numbers and strings, a real by its decimal form, a complex number by a string, a vector by the array of its elements, a
matrix by the array of its columns, a map by an object with the same keys in the same order. -/
inductive Describes (f : Fmt) : GC → Doc → Prop
  | null : Describes f .notype .null
  | bool {b : Bool} : Describes f (.bool b) (.bool b)
  | int {i : I32} {l : Bytes} : IntLit l → intValue l = i.toInt → Describes f (.int i) (.int l)
  | long {i : I64} {l : Bytes} : IntLit l → intValue l = i.toInt → Describes f (.long i) (.int l)
  | whole {r : F64} : IntLit (f.real r) → Describes f (.real r) (.int (f.real r))
  | real {r : F64} : FloatLit (f.real r) → Describes f (.real r) (.num (f.real r))
  | complex {c : Cplx} : Describes f (.complex c) (.string (cplxOut f c))
  | string {s : Bytes} : Describes f (.string s) (.string s)
  | vec {g : GC} {ds : List Doc} : isVec g → ds.length = (elems g).length →
      (∀ (i : Nat) x d, (elems g)[i]? = some x → ds[i]? = some d → Describes f x d) → Describes f g (.arr ds)
  | mat {g : GC} {nr nc : Nat} {cols : List (List Doc)} : matDims g = some (nr, nc) → cols.length = nc →
      (∀ c ∈ cols, c.length = nr) →
      (∀ (i j : Nat) c x d, i < nr → cols[j]? = some c → (elems g)[i + j * nr]? = some x → c[i]? = some d →
        Describes f x d) → Describes f g (.arr (cols.map .arr))
  | map {m : Entries} {ms : List (Bytes × Doc)} : ms.map Prod.fst = m.map Prod.fst →
      (∀ (i : Nat) k x l d, m[i]? = some (k, x) → ms[i]? = some (l, d) → Describes f x d) →
      Describes f (.map m) (.obj ms)

/-- A text that may stand between quotes as it is. -/
def Plain (s : Bytes) : Prop := Body s s

/-- Texts that `string_escape` writes reversibly: UTF-8 without BEL and VT. -/
def Escapable (s : Bytes) : Prop := Utf8 s ∧ (7 : Byte) ∉ s ∧ (11 : Byte) ∉ s

/-- The decimal form is a JSON number (not so for infinities and NaN). -/
def Numeral (s : Bytes) : Prop := IntLit s ∨ FloatLit s

/-- A full matrix, not empty, of less than 2^32 elements. -/
def FullMat {α : Type} (m : Mat α) : Prop := m.wf = true ∧ 0 < m.nr ∧ 0 < m.nc ∧ m.nr * m.nc < 2 ^ 32

namespace GC

mutual
/-- Containers whose JSON text is a document: no pointers, no complex matrices, no vector, map or matrix without
elements, numbers with a decimal form, strings in UTF-8 without BEL and VT, keys that need no escaping. -/
def JsonOk (f : Fmt) : GC → Prop
  | pointer _ | vecPointer _ | matComplex _ => False
  | real r => Numeral (f.real r)
  | complex c => Plain (cplxOut f c)
  | string s => Escapable s
  | vecBool v => v ≠ []
  | vecInt v => v ≠ []
  | vecLong v => v ≠ []
  | vecReal v => v ≠ [] ∧ ∀ r ∈ v, Numeral (f.real r)
  | vecComplex v => v ≠ [] ∧ ∀ c ∈ v, Plain (cplxOut f c)
  | vecString v => v ≠ [] ∧ ∀ s ∈ v, Escapable s
  | matInt m => FullMat m
  | matLong m => FullMat m
  | matReal m => FullMat m ∧ ∀ r ∈ m.data, Numeral (f.real r)
  | vector v => v ≠ [] ∧ JsonOkL f v
  | map m => m ≠ [] ∧ JsonOkM f m
  | _ => True
def JsonOkL (f : Fmt) : List GC → Prop
  | [] => True
  | x :: r => JsonOk f x ∧ JsonOkL f r
def JsonOkM (f : Fmt) : Entries → Prop
  | [] => True
  | (k, x) :: r => Plain k ∧ JsonOk f x ∧ JsonOkM f r
end

/-- Reading the decimal form `l` gives the number `r` again: by `strtod`, or as a whole number within 2^53. -/
def ReadsBack (strtod : Bytes → Option F64) (l : Bytes) (r : F64) : Prop :=
  (FloatLit l → strtod l = some r) ∧
  (IntLit l → (intValue l).natAbs ≤ 2 ^ 53 ∧ r.value = some (intValue l * F64.unit))

/-- Containers that can be read back from their JSON text: maps with their keys in order, sizes within 32 bits, no
matrices, no vector as an element of a vector, no complex numbers, reals that the library reads back, and longs within
2^53 unless there are no reals. -/
structure JsonBack (f : Fmt) (strtod : Bytes → Option F64) (g : GC) : Prop where
  keys : ∀ m, Inside (map m) g → KeysSorted m
  size : ∀ x, Inside x g → sizeOk x = true
  plain : ∀ x, Inside x g → shape x.ty ≠ 2 ∧ ∀ c, complex c ∉ elems x
  flat : ∀ v, Inside (vector v) g → ∀ x ∈ v, ¬ (shape x.ty = 1 ∨ x.ty = .VECTOR)
  reals : ∀ x, Inside x g → ∀ r, real r ∈ elems x → ReadsBack strtod (f.real r) r
  nums : (∀ x, Inside x g → ∀ l, long l ∈ elems x → l.toInt.natAbs ≤ 2 ^ 53) ∨
    ∀ x, Inside x g → ∀ r, real r ∉ elems x

end GC
end GCV
