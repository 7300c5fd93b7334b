import Verif.Spec.Json

/-!
# Specification: JSON texts as defined by RFC 8259

`Json.Doc` is a document, numbers given by their literals; `Doc.toks` are its tokens.  The bytes of a string need not be
UTF-8: RFC 8259 speaks of characters, the readers of bytes.
-/

namespace GCV
namespace Rfc
open Json

/-- The UTF-8 form of the character with this number (below 0x110000). -/
def utf8 (u : Nat) : Bytes :=
  if u < 0x80 then [BitVec.ofNat 8 u]
  else if u < 0x800 then [BitVec.ofNat 8 (0xC0 + u / 64), BitVec.ofNat 8 (0x80 + u % 64)]
  else if u < 0x10000 then
    [BitVec.ofNat 8 (0xE0 + u / 4096), BitVec.ofNat 8 (0x80 + u / 64 % 64), BitVec.ofNat 8 (0x80 + u % 64)]
  else [BitVec.ofNat 8 (0xF0 + u / 262144), BitVec.ofNat 8 (0x80 + u / 4096 % 64),
    BitVec.ofNat 8 (0x80 + u / 64 % 64), BitVec.ofNat 8 (0x80 + u % 64)]

/-- A hexadecimal digit and its value. -/
def Hex (c : Byte) (n : Nat) : Prop :=
  (c.toNat = 48 + n ∧ n < 10) ∨ (c.toNat = 55 + n ∧ 10 ≤ n ∧ n < 16) ∨ (c.toNat = 87 + n ∧ 10 ≤ n ∧ n < 16)

/-- Four hexadecimal digits and their value. -/
def Hex4 (h : Bytes) (u : Nat) : Prop :=
  ∃ a b c d i j k l, h = [a, b, c, d] ∧ Hex a i ∧ Hex b j ∧ Hex c k ∧ Hex d l ∧ u = 4096 * i + 256 * j + 16 * k + l

/-- The escapes of one letter: the letter and the character. -/
def escapes : List (Byte × Byte) :=
  [(34, 34), (92, 92), (47, 47), (98, 8), (102, 12), (110, 10), (114, 13), (116, 9)]

/-- `Body s b`: between quotes, `b` stands for the text `s`.  (RFC 8259, section 7.) -/
inductive Body : Bytes → Bytes → Prop
  | nil : Body [] []
  | plain {c : Byte} {s b : Bytes} : 0x20 ≤ c.toNat → c ≠ 34 → c ≠ 92 → Body s b → Body (c :: s) (c :: b)
  | escape {e c : Byte} {s b : Bytes} : (e, c) ∈ escapes → Body s b → Body (c :: s) (92 :: e :: b)
  | unicode {h : Bytes} {u : Nat} {s b : Bytes} : Hex4 h u → ¬ (0xD800 ≤ u ∧ u < 0xE000) → Body s b →
      Body (utf8 u ++ s) (92 :: 117 :: h ++ b)
  | pair {h l : Bytes} {u v : Nat} {s b : Bytes} : Hex4 h u → Hex4 l v → 0xD800 ≤ u → u < 0xDC00 → 0xDC00 ≤ v →
      v < 0xE000 → Body s b →
      Body (utf8 (0x10000 + 0x400 * (u - 0xD800) + (v - 0xDC00)) ++ s) (92 :: 117 :: h ++ 92 :: 117 :: l ++ b)

/-- The integer part of a number: no leading zeros. -/
def Int (s : Bytes) : Prop := s = [48] ∨ (Digits s ∧ s.head? ≠ some 48)

/-- Integers: a minus sign or nothing, and the integer part.  (RFC 8259, section 6.) -/
def IntLit (l : Bytes) : Prop := ∃ a b, l = a ++ b ∧ (a = [] ∨ a = [45]) ∧ Int b

/-- Numbers with a fraction, an exponent, or both. -/
def FloatLit (l : Bytes) : Prop :=
  ∃ a b f e, l = a ++ b ++ f ++ e ∧ (a = [] ∨ a = [45]) ∧ Int b ∧ (f = [] ∨ ∃ d, f = 46 :: d ∧ Digits d) ∧
    (e = [] ∨ ∃ x y d, e = x :: y ++ d ∧ (x = 101 ∨ x = 69) ∧ Sign y ∧ Digits d) ∧ (f ≠ [] ∨ e ≠ [])

/-- How a token is written. -/
inductive Written : Tok → Bytes → Prop
  | lcurly : Written .lcurly [123]
  | rcurly : Written .rcurly [125]
  | lbrack : Written .lbrack [91]
  | rbrack : Written .rbrack [93]
  | comma : Written .comma [44]
  | colon : Written .colon [58]
  | true : Written .true (str "true")
  | false : Written .false (str "false")
  | null : Written .null (str "null")
  | string {s b : Bytes} : Body s b → Written (.string s) (34 :: b ++ [34])
  | int {l : Bytes} : IntLit l → Written (.int l) l
  | num {l : Bytes} : FloatLit l → Written (.num l) l

/-- Space, tab, line feed, carriage return. -/
def Blanks (b : Bytes) : Prop := ∀ c ∈ b, c = 32 ∨ c = 9 ∨ c = 10 ∨ c = 13

/-- A text made of the tokens, with blanks before, between and after them. -/
inductive Spells : List Tok → Bytes → Prop
  | nil {b : Bytes} : Blanks b → Spells [] b
  | cons {t : Tok} {ts : List Tok} {b w r : Bytes} : Blanks b → Written t w → Spells ts r → Spells (t :: ts) (b ++ w ++ r)

/-- The text is a JSON text, and `d` is the document. -/
def JsonText (d : Doc) (text : Bytes) : Prop := Spells d.toks text

end Rfc
end GCV
