import Verif.Spec.Writer
import Verif.Spec.Docs
import Verif.Model.YamlWrite

/-!
# Specification: YAML texts and the documents they stand for

A part of YAML 1.2 (block sequences and mappings, flow sequences of scalars on one line, double-quoted strings, the
numbers, booleans and null of the core schema), kept so small that what is written this way means the same for every
reader of YAML.
-/

namespace GCV
namespace YamlText
open Json (Doc IntLit FloatLit Utf8)

/-- `Quoted s b`: between double quotes `b` stands for the text `s`.  Characters other than the quote, the backslash and
the control characters stand for themselves. -/
inductive Quoted : Bytes → Bytes → Prop
  | nil : Quoted [] []
  | plain {c : Byte} {s b : Bytes} : 0x20 ≤ c.toNat → c.toNat < 0x7F → c ≠ 34 → c ≠ 92 → Quoted s b → Quoted (c :: s) (c :: b)
  | quote {s b : Bytes} : Quoted s b → Quoted (34 :: s) (92 :: 34 :: b)
  | backslash {s b : Bytes} : Quoted s b → Quoted (92 :: s) (92 :: 92 :: b)
  | newline {s b : Bytes} : Quoted s b → Quoted (10 :: s) (92 :: 110 :: b)
  | ret {s b : Bytes} : Quoted s b → Quoted (13 :: s) (92 :: 114 :: b)
  | tab {s b : Bytes} : Quoted s b → Quoted (9 :: s) (92 :: 116 :: b)
  | back {s b : Bytes} : Quoted s b → Quoted (8 :: s) (92 :: 98 :: b)
  | bell {s b : Bytes} : Quoted s b → Quoted (7 :: s) (92 :: 97 :: b)
  | vtab {s b : Bytes} : Quoted s b → Quoted (11 :: s) (92 :: 118 :: b)
  | two {c d : Byte} {s b : Bytes} : 0xC0 ≤ c.toNat → c.toNat < 0xE0 → 0x80 ≤ d.toNat → d.toNat < 0xC0 →
      Quoted s b → Quoted (c :: d :: s) (c :: d :: b)
  | three {c d e : Byte} {s b : Bytes} : 0xE0 ≤ c.toNat → c.toNat < 0xF0 → 0x80 ≤ d.toNat → d.toNat < 0xC0 →
      0x80 ≤ e.toNat → e.toNat < 0xC0 → Quoted s b → Quoted (c :: d :: e :: s) (c :: d :: e :: b)
  | four {c d e f : Byte} {s b : Bytes} : 0xF0 ≤ c.toNat → c.toNat < 0xF8 → 0x80 ≤ d.toNat → d.toNat < 0xC0 →
      0x80 ≤ e.toNat → e.toNat < 0xC0 → 0x80 ≤ f.toNat → f.toNat < 0xC0 → Quoted s b →
      Quoted (c :: d :: e :: f :: s) (c :: d :: e :: f :: b)

/-- A text such as `1.5-2i`: it is not a number, so without quotes it is a string. -/
def CplxLit (s : Bytes) : Prop :=
  ∃ a sg b, s = a ++ sg :: b ++ [105] ∧ Numeral a ∧ (sg = 43 ∨ sg = 45) ∧ Numeral b

/-- What is written on one line. -/
inductive Scalar : Doc → Bytes → Prop
  | null : Scalar .null (str "null")
  | true : Scalar (.bool true) (str "true")
  | false : Scalar (.bool false) (str "false")
  | int {l : Bytes} : IntLit l → Scalar (.int l) l
  | num {l : Bytes} : FloatLit l → Scalar (.num l) l
  | quoted {s b : Bytes} : Quoted s b → Scalar (.string s) (34 :: b ++ [34])
  | cplx {s : Bytes} : CplxLit s → Scalar (.string s) s

/-- The elements of a flow sequence, with a comma between one and the next. -/
inductive FlowItems : List Doc → Bytes → Prop
  | one {d : Doc} {t : Bytes} : Scalar d t → FlowItems [d] t
  | cons {d : Doc} {ds : List Doc} {t r : Bytes} : Scalar d t → FlowItems ds r → FlowItems (d :: ds) (t ++ 44 :: 32 :: r)

/-- A scalar or a flow sequence of scalars. -/
inductive Flow : Doc → Bytes → Prop
  | scalar {d : Doc} {t : Bytes} : Scalar d t → Flow d t
  | seq {ds : List Doc} {t : Bytes} : FlowItems ds t → Flow (.arr ds) (91 :: 32 :: t ++ [32, 93])

/-- ASCII letters. -/
def Letter (c : Byte) : Prop := (65 ≤ c.toNat ∧ c.toNat ≤ 90) ∨ (97 ≤ c.toNat ∧ c.toNat ≤ 122)

/-- Keys that may stand without quotes: a letter or underscore, then letters, digits, `_`, `-` and `.`; not the words that
some version of YAML takes for null or for booleans. -/
def Key (k : Bytes) : Prop :=
  (∃ c r, k = c :: r ∧ (Letter c ∨ c = 95)) ∧
  (∀ c ∈ k, Letter c ∨ (48 ≤ c.toNat ∧ c.toNat ≤ 57) ∨ c = 95 ∨ c = 45 ∨ c = 46) ∧
  k.map (fun c => if 65 ≤ c.toNat ∧ c.toNat ≤ 90 then c + 32 else c) ∉
    [str "null", str "true", str "false", str "yes", str "no", str "on", str "off", str "y", str "n"]

/-- `m` spaces. -/
def spaces (m : Nat) : Bytes := List.replicate m 32

mutual
/-- `Node n d t`: behind a dash or a key at column `n` (-1 at the beginning of the text), `t` stands for the document `d`:
on the same line, or on the following lines at a column beyond `n`. -/
inductive Node : Int → Doc → Bytes → Prop
  | flow {n : Int} {d : Doc} {t : Bytes} : Flow d t → Node n d (t ++ [10])
  | seq {n : Int} {m : Nat} {ds : List Doc} {t : Bytes} : n < m → ds ≠ [] → Items m ds t → Node n (.arr ds) (10 :: t)
  | map {n : Int} {m : Nat} {ms : List (Bytes × Doc)} {t : Bytes} : n < m → ms ≠ [] → (ms.map Prod.fst).Nodup →
      Pairs m ms t → Node n (.obj ms) (10 :: t)
/-- The lines of a block sequence at column `m`. -/
inductive Items : Nat → List Doc → Bytes → Prop
  | nil {m : Nat} : Items m [] []
  | cons {m : Nat} {d : Doc} {ds : List Doc} {t r : Bytes} : Node m d t → Items m ds r →
      Items m (d :: ds) (spaces m ++ 45 :: 32 :: t ++ r)
/-- The lines of a block mapping at column `m`. -/
inductive Pairs : Nat → List (Bytes × Doc) → Bytes → Prop
  | nil {m : Nat} : Pairs m [] []
  | cons {m : Nat} {k : Bytes} {d : Doc} {ms : List (Bytes × Doc)} {t r : Bytes} : Key k → Node m d t → Pairs m ms r →
      Pairs m ((k, d) :: ms) (spaces m ++ k ++ 58 :: 32 :: t ++ r)
end

/-- A whole YAML text and the document it stands for. -/
def Text (d : Doc) (t : Bytes) : Prop := Node (-1) d t

/-- Texts whose characters are written by `string_escape` as YAML wants it: UTF-8, of the control characters only
those with an escape. -/
def Printable (s : Bytes) : Prop :=
  Utf8 s ∧ ∀ c ∈ s, (c.toNat < 0x20 → (7 ≤ c.toNat ∧ c.toNat ≤ 11) ∨ c.toNat = 13) ∧ c.toNat ≠ 0x7F

end YamlText

namespace GC
open YamlText

mutual
/-- Containers whose YAML text is a document: no pointers, no vectors and matrices of complex numbers, complex numbers with
an imaginary part, no vector, map or matrix without elements, numbers with a decimal form, strings without strange
control characters, keys that are plain words. -/
def YamlFine (f : Fmt) : GC → Prop
  | pointer _ | vecPointer _ | matComplex _ | vecComplex _ => False
  | real r => Numeral (f.real r)
  | complex c => CplxLit (cplxOut f c)
  | string s => Printable s
  | vecBool v => v ≠ []
  | vecInt v => v ≠ []
  | vecLong v => v ≠ []
  | vecReal v => v ≠ [] ∧ ∀ r ∈ v, Numeral (f.real r)
  | vecString v => v ≠ [] ∧ ∀ s ∈ v, Printable s
  | matInt m => FullMat m
  | matLong m => FullMat m
  | matReal m => FullMat m ∧ ∀ r ∈ m.data, Numeral (f.real r)
  | vector v => v ≠ [] ∧ YamlFineL f v
  | map m => m ≠ [] ∧ (m.map Prod.fst).Nodup ∧ YamlFineM f m
  | _ => True
def YamlFineL (f : Fmt) : List GC → Prop
  | [] => True
  | x :: r => YamlFine f x ∧ YamlFineL f r
def YamlFineM (f : Fmt) : Entries → Prop
  | [] => True
  | (k, x) :: r => Key k ∧ YamlFine f x ∧ YamlFineM f r
end

end GC

/-! ## Reading back -/

/-- `Part s t`: `s` is `t` or a part of it. -/
inductive Part (s : Tree) : Tree → Prop
  | self : Part s s
  | elem {x : Tree} {l : List Tree} : x ∈ l → Part s x → Part s (.list l)
  | value {k : Bytes} {x : Tree} {m : List (Bytes × Tree)} : (k, x) ∈ m → Part s x → Part s (.dict m)

namespace YamlText
open Json (Doc intValue)

/-- The nodes of a document: whole numbers within 64 bits, other numbers as the C library reads them. -/
inductive NodesOf (strtod : Bytes → Option F64) : Doc → Yaml → Prop
  | null : NodesOf strtod .null .null
  | bool {b : Bool} : NodesOf strtod (.bool b) (.bool b)
  | string {s : Bytes} : NodesOf strtod (.string s) (.str s)
  | int {l : Bytes} {n : I64} : intValue l = n.toInt → NodesOf strtod (.int l) (.int n)
  | num {l : Bytes} {r : F64} : strtod l = some r → NodesOf strtod (.num l) (.float r)
  | arr {ds : List Doc} {ys : List Yaml} : ds.length = ys.length →
      (∀ (i : Nat) d y, ds[i]? = some d → ys[i]? = some y → NodesOf strtod d y) → NodesOf strtod (.arr ds) (.seq ys)
  | obj {ms : List (Bytes × Doc)} {ys : List (Option Bytes × Yaml)} : ms.map (fun p => some p.1) = ys.map Prod.fst →
      (∀ (i : Nat) p q, ms[i]? = some p → ys[i]? = some q → NodesOf strtod p.2 q.2) →
      NodesOf strtod (.obj ms) (.mapping ys)

/-- What is asked of the parser: of a text as above it delivers the nodes. -/
def Parses (strtod : Bytes → Option F64) (parse : Bytes → Option Yaml) : Prop :=
  ∀ d t y, Text d t → NodesOf strtod d y → parse t = some y

end YamlText

namespace GC
open YamlText

/-- Containers that can be read back from their YAML text: matrices that are full, and of the data: keys in order, lists of
less than 2^32 elements which are all lists or none of them, tables of numbers with less than 2^32 entries, no complex
numbers, reals that the library reads back, longs within 2^53 unless there are no reals. -/
structure YamlBack (f : Fmt) (strtod : Bytes → Option F64) (g : GC) : Prop where
  full : ∀ x nr nc, Inside x g → matDims x = some (nr, nc) → (elems x).length = nr * nc
  keys : ∀ m, Part (.dict m) (view g) → m.Pairwise fun a b => strLT a.1 b.1
  size : ∀ l, Part (.list l) (view g) → l.length < 2 ^ 32
  apart : ∀ l, Part (.list l) (view g) → (∀ x ∈ l, ∃ s, x = .list s) ∨ ∀ x ∈ l, ∀ s, x ≠ .list s
  cells : ∀ l, Part (.list l) (view g) → ∀ s, .list s ∈ l → s.length * l.length < 2 ^ 32
  reals : ∀ r, Part (.leaf (real r)) (view g) → ReadsBack strtod (f.real r) r
  plain : ∀ c, ¬ Part (.leaf (complex c)) (view g)
  nums : (∀ l, Part (.leaf (long l)) (view g) → l.toInt.natAbs ≤ 2 ^ 53) ∨ ∀ r, ¬ Part (.leaf (real r)) (view g)

end GC
end GCV
