import Verif.Spec.Rapid
import Verif.Spec.Yaml

/-! # Specification: containers whose JSON text is RFC 8259 -/

namespace GCV
namespace Rfc

/-- Texts that `string_escape` writes as JSON: no control characters but backspace, tab, line feed, carriage return. -/
def Carried (s : Bytes) : Prop := ∀ c ∈ s, 0x20 ≤ c.toNat ∨ c = 8 ∨ c = 9 ∨ c = 10 ∨ c = 13

/-- Texts that may stand between quotes as they are. -/
def Bare (s : Bytes) : Prop := ∀ c ∈ s, 0x20 ≤ c.toNat ∧ c ≠ 34 ∧ c ≠ 92

/-- The decimal form is a JSON number (not so for infinities and NaN). -/
def Numeral (s : Bytes) : Prop := IntLit s ∨ FloatLit s

end Rfc

namespace GC

mutual
/-- Containers whose JSON text is a document of RFC 8259: no pointers, no complex matrices, no vector, map or matrix
without elements, numbers with a decimal form, strings without control characters but the four, keys that need no
escaping. -/
def RfcOk (f : Fmt) : GC → Prop
  | pointer _ | vecPointer _ | matComplex _ => False
  | real r => Rfc.Numeral (f.real r)
  | complex c => Rfc.Bare (cplxOut f c)
  | string s => Rfc.Carried s
  | vecBool v => v ≠ []
  | vecInt v => v ≠ []
  | vecLong v => v ≠ []
  | vecReal v => v ≠ [] ∧ ∀ r ∈ v, Rfc.Numeral (f.real r)
  | vecComplex v => v ≠ [] ∧ ∀ c ∈ v, Rfc.Bare (cplxOut f c)
  | vecString v => v ≠ [] ∧ ∀ s ∈ v, Rfc.Carried s
  | matInt m => FullMat m
  | matLong m => FullMat m
  | matReal m => FullMat m ∧ ∀ r ∈ m.data, Rfc.Numeral (f.real r)
  | vector v => v ≠ [] ∧ RfcOkL f v
  | map m => m ≠ [] ∧ RfcOkM f m
  | _ => True
def RfcOkL (f : Fmt) : List GC → Prop
  | [] => True
  | x :: r => RfcOk f x ∧ RfcOkL f r
def RfcOkM (f : Fmt) : Entries → Prop
  | [] => True
  | (k, x) :: r => Rfc.Bare k ∧ RfcOk f x ∧ RfcOkM f r
end

/-- Containers that can be read back from their JSON text by `from_json`: as from their YAML text (`YamlBack`), and no
whole number from 2^31 to 2^32-1. -/
structure RfcBack (f : Fmt) (conv : Bytes → Option F64) (g : GC) : Prop extends YamlBack f conv g where
  longs : ∀ l, Part (.leaf (long l)) (view g) → ¬ (2 ^ 31 ≤ l.toInt ∧ l.toInt < 2 ^ 32)
  whole : ∀ r, Part (.leaf (real r)) (view g) → Rfc.IntLit (f.real r) →
    ¬ (2 ^ 31 ≤ Json.intValue (f.real r) ∧ Json.intValue (f.real r) < 2 ^ 32)

end GC
end GCV
