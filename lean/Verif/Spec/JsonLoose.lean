import Verif.Spec.Json
import Verif.Spec.Access

/-!
# Specification: the texts that the JSON reader of from_json2 takes, and what they stand for

The reader takes more than JSON.  The grammar of the tokens it takes, and what a document does to the container it is
stored in.
-/

namespace GCV
namespace Json

/-- A byte that continues a character of several bytes. -/
def Cont (c : Byte) : Prop := 0x80 ≤ c.toNat ∧ c.toNat < 0xC0

/-- `LBody s b`: between quotes, `b` is read as `s`.  A backslash and a byte that is no escape of JSON stand for themselves;
characters of several bytes are grouped by their first byte. -/
inductive LBody : Bytes → Bytes → Prop
  | nil : LBody [] []
  | plain {c : Byte} {s b : Bytes} : c.toNat < 0x80 → c ≠ 34 → c ≠ 92 → LBody s b → LBody (c :: s) (c :: b)
  | quote {s b : Bytes} : LBody s b → LBody (34 :: s) (92 :: 34 :: b)
  | backslash {s b : Bytes} : LBody s b → LBody (92 :: s) (92 :: 92 :: b)
  | newline {s b : Bytes} : LBody s b → LBody (10 :: s) (92 :: 110 :: b)
  | ret {s b : Bytes} : LBody s b → LBody (13 :: s) (92 :: 114 :: b)
  | tab {s b : Bytes} : LBody s b → LBody (9 :: s) (92 :: 116 :: b)
  | back {s b : Bytes} : LBody s b → LBody (8 :: s) (92 :: 98 :: b)
  | form {s b : Bytes} : LBody s b → LBody (12 :: s) (92 :: 102 :: b)
  | other {c : Byte} {s b : Bytes} : c ≠ 34 → c ≠ 92 → c ≠ 110 → c ≠ 114 → c ≠ 116 → c ≠ 98 → c ≠ 102 → LBody s b →
      LBody (92 :: c :: s) (92 :: c :: b)
  | two {c d : Byte} {s b : Bytes} : 0x80 ≤ c.toNat → c.toNat < 0xE0 → Cont d → LBody s b →
      LBody (c :: d :: s) (c :: d :: b)
  | three {c d e : Byte} {s b : Bytes} : 0xE0 ≤ c.toNat → c.toNat < 0xF0 → Cont d → Cont e → LBody s b →
      LBody (c :: d :: e :: s) (c :: d :: e :: b)
  | four {c d e f : Byte} {s b : Bytes} : 0xF0 ≤ c.toNat → Cont d → Cont e → Cont f → LBody s b →
      LBody (c :: d :: e :: f :: s) (c :: d :: e :: f :: b)

/-- Digits only, or nothing. -/
def AllDigits (s : Bytes) : Prop := ∀ c ∈ s, 48 ≤ c.toNat ∧ c.toNat ≤ 57

/-- Exponent: digits, or a sign with or without digits. -/
def LExp (e : Bytes) : Prop :=
  ∃ x y, e = x :: y ∧ (x = 101 ∨ x = 69) ∧ ((y ≠ [] ∧ AllDigits y) ∨ ∃ s d, y = s :: d ∧ (s = 43 ∨ s = 45) ∧ AllDigits d)

/-- A number with a point, an exponent, or both: the digits before the point may be missing behind a sign, those behind
the point always. -/
def LFloat (l : Bytes) : Prop :=
  ∃ a b f e, l = a ++ b ++ f ++ e ∧ Sign a ∧ AllDigits b ∧ (f = [] ∨ ∃ d, f = 46 :: d ∧ AllDigits d) ∧ (e = [] ∨ LExp e) ∧
    (f ≠ [] ∨ e ≠ []) ∧ (b = [] → a ≠ [] ∧ f ≠ [])

/-- Something follows, and it cannot be part of a number. -/
def AfterNumber (r : Bytes) : Prop :=
  ∃ c t, r = c :: t ∧ ¬ (48 ≤ c.toNat ∧ c.toNat ≤ 57) ∧ c ≠ 46 ∧ c ≠ 101 ∧ c ≠ 69 ∧ c ≠ 43 ∧ c ≠ 45

/-- `LWritten t w r`: `w`, with `r` behind it, is read as the token `t`. -/
inductive LWritten : Tok → Bytes → Bytes → Prop
  | lcurly {r : Bytes} : LWritten .lcurly [123] r
  | rcurly {r : Bytes} : LWritten .rcurly [125] r
  | lbrack {r : Bytes} : LWritten .lbrack [91] r
  | rbrack {r : Bytes} : LWritten .rbrack [93] r
  | comma {r : Bytes} : LWritten .comma [44] r
  | colon {r : Bytes} : LWritten .colon [58] r
  | true {r : Bytes} : LWritten .true (str "true") r
  | false {r : Bytes} : LWritten .false (str "false") r
  | null {r : Bytes} : LWritten .null (str "null") r
  | string {s b r : Bytes} : LBody s b → LWritten (.string s) (34 :: b ++ [34]) r
  | int {l r : Bytes} : IntLit l → AfterNumber r → LWritten (.int l) l r
  | num {l r : Bytes} : LFloat l → AfterNumber r → LWritten (.num l) l r

/-- Blanks. -/
def Blanks (b : Bytes) : Prop := ∀ c ∈ b, c = 32 ∨ (9 ≤ c.toNat ∧ c.toNat ≤ 13)

/-- `LSpells ts text rest`: the text consists of the tokens, with blanks in front of each of them, and `rest`. -/
inductive LSpells : List Tok → Bytes → Bytes → Prop
  | nil {r : Bytes} : LSpells [] r r
  | cons {t : Tok} {ts : List Tok} {b w r rest : Bytes} :
      Blanks b → LWritten t w r → LSpells ts r rest → LSpells (t :: ts) (b ++ w ++ r) rest

/-- The text is taken to end here: nothing is left, or blanks and then an ASCII character that starts no token. -/
def NoMore (rest : Bytes) : Prop :=
  rest = [] ∨ ∃ b c r, rest = b ++ c :: r ∧ Blanks b ∧ ¬ (c = 32 ∨ (9 ≤ c.toNat ∧ c.toNat ≤ 13)) ∧ c.toNat < 0x80 ∧
    ∀ t w z, LWritten t w z → c :: r ≠ w ++ z

/-- A text whose bytes from 0x80 on are grouped into characters of two, three or four bytes by the first byte of each. -/
inductive Grouped : Bytes → Prop
  | nil : Grouped []
  | one {c : Byte} {s : Bytes} : c.toNat < 0x80 → Grouped s → Grouped (c :: s)
  | two {c d : Byte} {s : Bytes} : 0x80 ≤ c.toNat → c.toNat < 0xE0 → Cont d → Grouped s → Grouped (c :: d :: s)
  | three {c d e : Byte} {s : Bytes} : 0xE0 ≤ c.toNat → c.toNat < 0xF0 → Cont d → Cont e → Grouped s →
      Grouped (c :: d :: e :: s)
  | four {c d e f : Byte} {s : Bytes} : 0xF0 ≤ c.toNat → Cont d → Cont e → Cont f → Grouped s →
      Grouped (c :: d :: e :: f :: s)

/-- What comes back of a byte: BEL and VT as a backslash and a letter. -/
def backByte (c : Byte) : Bytes := if c = 7 then str "\\a" else if c = 11 then str "\\v" else [c]

/-- What comes back of a text. -/
def readBack (s : Bytes) : Bytes := s.flatMap backByte

end Json

namespace GC
open Json

/-- An integer: limited to 64 bits; `int` when it fits 32 bits. -/
def intStored (l : Bytes) : GC :=
  let n := max (-2 ^ 63) (min (2 ^ 63 - 1) (intValue l))
  if -2 ^ 31 ≤ n ∧ n < 2 ^ 31 then int (BitVec.ofInt 32 n) else long (BitVec.ofInt 64 n)

/-- A document that is neither an array nor an object, stored into a container that is not a vector.  A number that
`strtod` does not take leaves what is there. -/
def layLeaf (strtod : Bytes → Option F64) : Doc → GC → GC
  | .null, _ => notype
  | .bool b, _ => bool b
  | .string s, _ => string s
  | .int l, _ => intStored l
  | .num l, g =>
    match strtod l with
    | some x => real x
    | none => g
  | _, g => g

mutual

/-- What a document leaves in a container with the contents `g`.  A vector gets further elements.  The members of an object
are added to a map. -/
def lay (strtod : Bytes → Option F64) : Doc → GC → GC
  | .arr ds, vector v => vector (v ++ vector [] :: addedAll strtod ds)
  | .arr ds, _ => vector (addedAll strtod ds)
  | .obj ms, vector v => vector (v ++ [map (layMembers strtod ms [])])
  | .obj ms, map m => map (layMembers strtod ms m)
  | .obj ms, _ => map (layMembers strtod ms [])
  | d, vector v => vector (v ++ [layLeaf strtod d notype])
  | d, g => layLeaf strtod d g
termination_by structural d => d

/-- The elements that a document adds to a vector: those of an array become elements of that vector, behind an empty
vector. -/
def added (strtod : Bytes → Option F64) : Doc → List GC
  | .arr ds => vector [] :: addedAll strtod ds
  | .obj ms => [map (layMembers strtod ms [])]
  | d => [layLeaf strtod d notype]
termination_by structural d => d

/-- The elements that the documents add to a vector. -/
def addedAll (strtod : Bytes → Option F64) : List Doc → List GC
  | [] => []
  | d :: ds => added strtod d ++ addedAll strtod ds
termination_by structural ds => ds

/-- The members of an object, stored one after the other into the map with the entries `m`, each over what is there under
its key. -/
def layMembers (strtod : Bytes → Option F64) : List (Bytes × Doc) → Entries → Entries
  | [], m => m
  | (k, d) :: ms, m => layMembers strtod ms (mset k (lay strtod d ((field (map m) k).getD notype)) m)
termination_by structural ms => ms

end

end GC
end GCV
