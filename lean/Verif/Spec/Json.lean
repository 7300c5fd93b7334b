import Verif.Model.Json

/-! # Specification: JSON texts and the trees they stand for -/

namespace GCV
namespace Json

/-- Texts that are sequences of UTF-8 encoded characters (a superset: over-long forms are not excluded). -/
inductive Utf8 : Bytes → Prop
  | nil : Utf8 []
  | one {c : Byte} {t : Bytes} : c.toNat < 0x80 → Utf8 t → Utf8 (c :: t)
  | two {c d : Byte} {t : Bytes} : 0xC0 ≤ c.toNat → c.toNat < 0xE0 → 0x80 ≤ d.toNat → d.toNat < 0xC0 →
      Utf8 t → Utf8 (c :: d :: t)
  | three {c d e : Byte} {t : Bytes} : 0xE0 ≤ c.toNat → c.toNat < 0xF0 → 0x80 ≤ d.toNat → d.toNat < 0xC0 →
      0x80 ≤ e.toNat → e.toNat < 0xC0 → Utf8 t → Utf8 (c :: d :: e :: t)
  | four {c d e f : Byte} {t : Bytes} : 0xF0 ≤ c.toNat → c.toNat < 0xF8 → 0x80 ≤ d.toNat → d.toNat < 0xC0 →
      0x80 ≤ e.toNat → e.toNat < 0xC0 → 0x80 ≤ f.toNat → f.toNat < 0xC0 → Utf8 t → Utf8 (c :: d :: e :: f :: t)

/-- `Body s b`: between quotes, `b` stands for the text `s`: characters other than the quote and the
backslash for themselves, and the escapes of JSON except `\/` and `\u`. -/
inductive Body : Bytes → Bytes → Prop
  | nil : Body [] []
  | plain {c : Byte} {s b : Bytes} : c.toNat < 0x80 → c ≠ 34 → c ≠ 92 → Body s b → Body (c :: s) (c :: b)
  | quote {s b : Bytes} : Body s b → Body (34 :: s) (92 :: 34 :: b)
  | backslash {s b : Bytes} : Body s b → Body (92 :: s) (92 :: 92 :: b)
  | newline {s b : Bytes} : Body s b → Body (10 :: s) (92 :: 110 :: b)
  | ret {s b : Bytes} : Body s b → Body (13 :: s) (92 :: 114 :: b)
  | tab {s b : Bytes} : Body s b → Body (9 :: s) (92 :: 116 :: b)
  | back {s b : Bytes} : Body s b → Body (8 :: s) (92 :: 98 :: b)
  | form {s b : Bytes} : Body s b → Body (12 :: s) (92 :: 102 :: b)
  | two {c d : Byte} {s b : Bytes} : 0xC0 ≤ c.toNat → c.toNat < 0xE0 → 0x80 ≤ d.toNat → d.toNat < 0xC0 →
      Body s b → Body (c :: d :: s) (c :: d :: b)
  | three {c d e : Byte} {s b : Bytes} : 0xE0 ≤ c.toNat → c.toNat < 0xF0 → 0x80 ≤ d.toNat → d.toNat < 0xC0 →
      0x80 ≤ e.toNat → e.toNat < 0xC0 → Body s b → Body (c :: d :: e :: s) (c :: d :: e :: b)
  | four {c d e f : Byte} {s b : Bytes} : 0xF0 ≤ c.toNat → c.toNat < 0xF8 → 0x80 ≤ d.toNat → d.toNat < 0xC0 →
      0x80 ≤ e.toNat → e.toNat < 0xC0 → 0x80 ≤ f.toNat → f.toNat < 0xC0 → Body s b →
      Body (c :: d :: e :: f :: s) (c :: d :: e :: f :: b)

/-- Digits. -/
def Digits (s : Bytes) : Prop := s ≠ [] ∧ ∀ c ∈ s, 48 ≤ c.toNat ∧ c.toNat ≤ 57

/-- Sign of a number (JSON allows only the minus; the lexer the plus too). -/
def Sign (s : Bytes) : Prop := s = [] ∨ s = [43] ∨ s = [45]

/-- Integer literal. -/
def IntLit (s : Bytes) : Prop := ∃ a b, s = a ++ b ∧ Sign a ∧ Digits b

/-- Literal with a fraction, an exponent, or both. -/
def FloatLit (s : Bytes) : Prop :=
  ∃ a b f e, s = a ++ b ++ f ++ e ∧ Sign a ∧ Digits b ∧ (f = [] ∨ ∃ d, f = 46 :: d ∧ Digits d) ∧
    (e = [] ∨ ∃ x y d, e = x :: y ++ d ∧ (x = 101 ∨ x = 69) ∧ Sign y ∧ Digits d) ∧ (f ≠ [] ∨ e ≠ [])

/-- The number an integer literal stands for. -/
def intValue (s : Bytes) : Int :=
  let digits (ds : Bytes) : Int := ds.foldl (fun a c => 10 * a + ((c.toNat : Int) - 48)) 0
  match s with
  | 45 :: r => - digits r
  | 43 :: r => digits r
  | r => digits r

/-- A document: numbers are given by their literals. -/
inductive Doc
  | null
  | bool (b : Bool)
  | string (s : Bytes)
  | int (lit : Bytes)
  | num (lit : Bytes)
  | arr (ds : List Doc)
  | obj (ms : List (Bytes × Doc))

/-- Kinds of tokens with what they carry. -/
inductive Tok
  | lcurly | rcurly | lbrack | rbrack | comma | colon | true | false | null
  | string (s : Bytes) | int (lit : Bytes) | num (lit : Bytes)

mutual
/-- The tokens of a document. -/
def Doc.toks : Doc → List Tok
  | .null => [.null]
  | .bool b => [if b then .true else .false]
  | .string s => [.string s]
  | .int l => [.int l]
  | .num l => [.num l]
  | .arr [] => [.lbrack, .rbrack]
  | .arr (d :: ds) => .lbrack :: (d.toks ++ toksTail ds ++ [.rbrack])
  | .obj [] => [.lcurly, .rcurly]
  | .obj ((k, d) :: ms) => .lcurly :: (.string k :: .colon :: d.toks ++ toksMembers ms ++ [.rcurly])
/-- Elements behind the first one, each preceded by a comma. -/
def toksTail : List Doc → List Tok
  | [] => []
  | d :: ds => .comma :: (d.toks ++ toksTail ds)
/-- Members behind the first one, each preceded by a comma. -/
def toksMembers : List (Bytes × Doc) → List Tok
  | [] => []
  | (k, d) :: ms => .comma :: .string k :: .colon :: (d.toks ++ toksMembers ms)
end

/-- How a token is written, given what follows it in the text: a number must be followed by some character
that cannot be part of it. -/
inductive Written : Tok → Bytes → Bytes → Prop
  | lcurly {r : Bytes} : Written .lcurly [123] r
  | rcurly {r : Bytes} : Written .rcurly [125] r
  | lbrack {r : Bytes} : Written .lbrack [91] r
  | rbrack {r : Bytes} : Written .rbrack [93] r
  | comma {r : Bytes} : Written .comma [44] r
  | colon {r : Bytes} : Written .colon [58] r
  | true {r : Bytes} : Written .true (str "true") r
  | false {r : Bytes} : Written .false (str "false") r
  | null {r : Bytes} : Written .null (str "null") r
  | string {s b r : Bytes} : Body s b → Written (.string s) (34 :: b ++ [34]) r
  | int {l r : Bytes} {c : Byte} : IntLit l → (c = 44 ∨ c = 93 ∨ c = 125 ∨ c = 32 ∨ (9 ≤ c.toNat ∧ c.toNat ≤ 13)) →
      Written (.int l) l (c :: r)
  | num {l r : Bytes} {c : Byte} : FloatLit l → (c = 44 ∨ c = 93 ∨ c = 125 ∨ c = 32 ∨ (9 ≤ c.toNat ∧ c.toNat ≤ 13)) →
      Written (.num l) l (c :: r)

/-- A text made of the tokens, with blanks in front of each of them. -/
inductive Spells : List Tok → Bytes → Prop
  | nil : Spells [] []
  | cons {t : Tok} {ts : List Tok} {b w r : Bytes} :
      (∀ c ∈ b, c = 32 ∨ (9 ≤ c.toNat ∧ c.toNat ≤ 13)) → Written t w r → Spells ts r → Spells (t :: ts) (b ++ w ++ r)

end Json

namespace GC
open Json

/-- What an integer is stored as: `int` when it fits 32 bits, `long` otherwise. -/
def intTree (l : Bytes) : GC :=
  let n := intValue l
  if -2 ^ 31 ≤ n ∧ n < 2 ^ 31 then int (BitVec.ofInt 32 n) else long (BitVec.ofInt 64 n)

/-- What another number is stored as, `strtod` being the conversion of the C library. -/
def numTree (strtod : Bytes → Option F64) (l : Bytes) : GC :=
  match strtod l with
  | some x => real x
  | none => notype

mutual
/-- The tree of a document: objects are maps, arrays are vectors. -/
def docTree (strtod : Bytes → Option F64) : Doc → GC
  | .null => notype
  | .bool b => bool b
  | .string s => string s
  | .int l => intTree l
  | .num l => numTree strtod l
  | .arr ds => vector (docTrees strtod ds)
  | .obj ms => map (docEntries strtod [] ms)
def docTrees (strtod : Bytes → Option F64) : List Doc → List GC
  | [] => []
  | d :: ds => docTree strtod d :: docTrees strtod ds
/-- The members are added to the entries one after the other. -/
def docEntries (strtod : Bytes → Option F64) (m : Entries) : List (Bytes × Doc) → Entries
  | [] => m
  | (k, d) :: ms => docEntries strtod (mset k (docTree strtod d) m) ms
end

end GC

namespace Json

def Doc.isArr : Doc → Bool
  | .arr _ => true
  | _ => false

mutual
/-- Documents without an array as element of an array, without repeated keys in an object, with integers of
at most 64 bits. -/
def Doc.Usual : Doc → Prop
  | .int l => IntLit l ∧ -2 ^ 63 ≤ intValue l ∧ intValue l < 2 ^ 63
  | .num l => FloatLit l
  | .arr ds => UsualElems ds
  | .obj ms => (ms.map Prod.fst).Nodup ∧ UsualMembers ms
  | _ => True
def UsualElems : List Doc → Prop
  | [] => True
  | d :: ds => d.isArr = false ∧ d.Usual ∧ UsualElems ds
def UsualMembers : List (Bytes × Doc) → Prop
  | [] => True
  | (_, d) :: ms => d.Usual ∧ UsualMembers ms
end

end Json
end GCV
