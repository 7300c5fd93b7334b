import Verif.Model.Docs
import Verif.Spec.View

/-! # Specification: YAML and TOML documents and the containers that hold their data -/

namespace GCV

/-- A whole number as it should be stored: an `int` when 32 bits are enough, a `long` otherwise. -/
def Whole (n : I64) (x : GC) : Prop :=
  if -2 ^ 31 ≤ n.toInt ∧ n.toInt < 2 ^ 31 then ∃ i : I32, x = .int i ∧ i.toInt = n.toInt else x = .long n

/-- `YamlSays d g`: the container holds the data of the document, sequences as vectors and mappings as maps. -/
inductive YamlSays : Yaml → GC → Prop
  | null : YamlSays .null .notype
  | bool {b : Bool} : YamlSays (.bool b) (.bool b)
  | int {n : I64} {x : GC} : Whole n x → YamlSays (.int n) x
  | float {r : F64} : YamlSays (.float r) (.real r)
  | str {s : Bytes} : YamlSays (.str s) (.string s)
  | seq {l : List Yaml} {v : List GC} : l.length = v.length →
      (∀ (i : Nat) d x, l[i]? = some d → v[i]? = some x → YamlSays d x) → YamlSays (.seq l) (.vector v)
  | mapping {m : List (Option Bytes × Yaml)} {e : Entries} : KeysSorted e →
      (∀ k, (∃ d, (some k, d) ∈ m) ↔ ∃ x, (k, x) ∈ e) →
      (∀ k d x, (some k, d) ∈ m → (k, x) ∈ e → YamlSays d x) → YamlSays (.mapping m) (.map e)

/-- What is asked of a YAML document: the keys of a mapping are different strings, and sequences have less than
2^32 elements. -/
inductive YamlOk : Yaml → Prop
  | null : YamlOk .null
  | bool {b : Bool} : YamlOk (.bool b)
  | int {n : I64} : YamlOk (.int n)
  | float {r : F64} : YamlOk (.float r)
  | str {s : Bytes} : YamlOk (.str s)
  | seq {l : List Yaml} : l.length < 2 ^ 32 → (∀ d ∈ l, YamlOk d) → YamlOk (.seq l)
  | mapping {m : List (Option Bytes × Yaml)} : (m.map Prod.fst).Nodup → none ∉ m.map Prod.fst →
      (∀ e ∈ m, YamlOk e.2) → YamlOk (.mapping m)

/-- `YInside y d`: `y` is `d` or a part of it. -/
inductive YInside (y : Yaml) : Yaml → Prop
  | self : YInside y y
  | elem {x : Yaml} {l : List Yaml} : x ∈ l → YInside y x → YInside y (.seq l)
  | value {k : Option Bytes} {x : Yaml} {m : List (Option Bytes × Yaml)} :
      (k, x) ∈ m → YInside y x → YInside y (.mapping m)

/-- Documents whose data `collapse` keeps: the elements of a sequence are all sequences or none of them is, tables
of numbers have less than 2^32 entries, and whole numbers are at most 2^53 in magnitude unless there are no other
numbers. -/
structure YamlFlat (d : Yaml) : Prop where
  apart : ∀ l, YInside (.seq l) d → (∀ x ∈ l, ∃ s, x = .seq s) ∨ ∀ x ∈ l, ∀ s, x ≠ .seq s
  cells : ∀ l, YInside (.seq l) d → ∀ s, .seq s ∈ l → s.length * l.length < 2 ^ 32
  nums : (∀ n, YInside (.int n) d → n.toInt.natAbs ≤ 2 ^ 53) ∨ ∀ r, ¬ YInside (.float r) d

/-- `TomlSays d g`: the container holds the data of the document.  An array is a vector or a packed vector with its
elements; a date or time is a map with its text. -/
inductive TomlSays : Toml → GC → Prop
  | str {s : Bytes} : TomlSays (.str s) (.string s)
  | int {n : I64} {x : GC} : Whole n x → TomlSays (.int n) x
  | float {r : F64} : TomlSays (.float r) (.real r)
  | bool {b : Bool} : TomlSays (.bool b) (.bool b)
  | date {s : Bytes} : TomlSays (.date s) (.map [(str "$date", .string s)])
  | time {s : Bytes} : TomlSays (.time s) (.map [(str "$time", .string s)])
  | date_time {s : Bytes} : TomlSays (.date_time s) (.map [(str "$date_time", .string s)])
  | arr {l : List Toml} {g : GC} : (shape g.ty = 1 ∨ g.ty = .VECTOR) → l.length = (elems g).length →
      (∀ (i : Nat) d x, l[i]? = some d → (elems g)[i]? = some x → TomlSays d x) → TomlSays (.arr l) g
  | table {m : List (Bytes × Toml)} {e : Entries} : KeysSorted e →
      (∀ k, (∃ d, (k, d) ∈ m) ↔ ∃ x, (k, x) ∈ e) →
      (∀ k d x, (k, d) ∈ m → (k, x) ∈ e → TomlSays d x) → TomlSays (.table m) (.map e)

/-- What is asked of a TOML document: the keys of a table are different, and arrays have less than 2^32 elements. -/
inductive TomlOk : Toml → Prop
  | str {s : Bytes} : TomlOk (.str s)
  | int {n : I64} : TomlOk (.int n)
  | float {r : F64} : TomlOk (.float r)
  | bool {b : Bool} : TomlOk (.bool b)
  | date {s : Bytes} : TomlOk (.date s)
  | time {s : Bytes} : TomlOk (.time s)
  | date_time {s : Bytes} : TomlOk (.date_time s)
  | arr {l : List Toml} : l.length < 2 ^ 32 → (∀ d ∈ l, TomlOk d) → TomlOk (.arr l)
  | table {m : List (Bytes × Toml)} : (m.map Prod.fst).Nodup → (∀ e ∈ m, TomlOk e.2) → TomlOk (.table m)

/-- `TInside y d`: `y` is `d` or a part of it. -/
inductive TInside (y : Toml) : Toml → Prop
  | self : TInside y y
  | elem {x : Toml} {l : List Toml} : x ∈ l → TInside y x → TInside y (.arr l)
  | value {k : Bytes} {x : Toml} {m : List (Bytes × Toml)} : (k, x) ∈ m → TInside y x → TInside y (.table m)

/-- As `YamlFlat`. -/
structure TomlFlat (d : Toml) : Prop where
  apart : ∀ l, TInside (.arr l) d → (∀ x ∈ l, ∃ s, x = .arr s) ∨ ∀ x ∈ l, ∀ s, x ≠ .arr s
  cells : ∀ l, TInside (.arr l) d → ∀ s, .arr s ∈ l → s.length * l.length < 2 ^ 32
  nums : (∀ n, TInside (.int n) d → n.toInt.natAbs ≤ 2 ^ 53) ∨ ∀ r, ¬ TInside (.float r) d

/-- In every array of integers all of them fit 32 bits. -/
inductive TomlSmall : Toml → Prop
  | str {s : Bytes} : TomlSmall (.str s)
  | int {n : I64} : TomlSmall (.int n)
  | float {r : F64} : TomlSmall (.float r)
  | bool {b : Bool} : TomlSmall (.bool b)
  | date {s : Bytes} : TomlSmall (.date s)
  | time {s : Bytes} : TomlSmall (.time s)
  | date_time {s : Bytes} : TomlSmall (.date_time s)
  | arr {l : List Toml} : ((∀ d ∈ l, ∃ n, d = .int n) → ∀ n, .int n ∈ l → -2 ^ 31 ≤ n.toInt ∧ n.toInt < 2 ^ 31) →
      (∀ d ∈ l, TomlSmall d) → TomlSmall (.arr l)
  | table {m : List (Bytes × Toml)} : (∀ e ∈ m, TomlSmall e.2) → TomlSmall (.table m)

end GCV

namespace GCV

/-- Containers that TOML can hold: booleans, numbers, strings, vectors of them, vectors and maps of such containers.
(Vectors of less than 2^32 elements, keys in order.)  An array all whose elements are whole numbers has only numbers
that fit 32 bits, and the conditions of `TomlFlat`. -/
structure TomlAble (g : GC) : Prop where
  kind : ∀ x, Inside x g → x.ty ∈ [Ty.BOOL, .INTEGER, .LONG, .REAL, .STRING, .VEC_BOOL, .VEC_INTEGER, .VEC_LONG,
    .VEC_REAL, .VEC_STRING, .VECTOR, .MAP]
  keys : ∀ m, Inside (.map m) g → KeysSorted m
  size : ∀ x, Inside x g → sizeOk x = true
  small : ∀ x, Inside x g → (shape x.ty = 1 ∨ x.ty = .VECTOR) → (∀ y ∈ elems x, y.ty = .INTEGER ∨ y.ty = .LONG) →
    ∀ l, .long l ∈ elems x → -2 ^ 31 ≤ l.toInt ∧ l.toInt < 2 ^ 31
  apart : ∀ v, Inside (.vector v) g → (∀ x ∈ v, shape x.ty = 1 ∨ x.ty = .VECTOR) ∨
    ∀ x ∈ v, ¬ (shape x.ty = 1 ∨ x.ty = .VECTOR)
  cells : ∀ v, Inside (.vector v) g → ∀ x ∈ v, (shape x.ty = 1 ∨ x.ty = .VECTOR) → (elems x).length * v.length < 2 ^ 32
  nums : (∀ x, Inside x g → ∀ l, .long l ∈ elems x → l.toInt.natAbs ≤ 2 ^ 53) ∨
    ∀ x, Inside x g → ∀ r, .real r ∉ elems x

end GCV
