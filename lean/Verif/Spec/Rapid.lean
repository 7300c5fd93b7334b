import Verif.Spec.Rfc
import Verif.Spec.View

/-! # Specification: what `from_json` makes of a JSON document -/

namespace GCV
namespace Rfc
open Json

/-- `Part y d`: `y` is `d` or a part of it. -/
inductive Part (y : Doc) : Doc → Prop
  | self : Part y y
  | elem {x : Doc} {l : List Doc} : x ∈ l → Part y x → Part y (.arr l)
  | value {k : Bytes} {x : Doc} {m : List (Bytes × Doc)} : (k, x) ∈ m → Part y x → Part y (.obj m)

/-- No number is too big for the reader: `conv` is its conversion to `double`, used for the numbers with a fraction or
an exponent and for the integers that no 64 bit type holds. -/
structure Readable (conv : Bytes → Option F64) (d : Doc) : Prop where
  nums : ∀ l, Part (.num l) d → conv l ≠ none
  ints : ∀ l, Part (.int l) d → ¬ (-2 ^ 63 ≤ intValue l ∧ intValue l < 2 ^ 64) → conv l ≠ none

/-- The keys of every object are different (read up to a NUL), and the arrays have less than 2^32 elements. -/
structure Distinct (d : Doc) : Prop where
  keys : ∀ ms, Part (.obj ms) d → (ms.map fun e => cstr e.1).Nodup
  size : ∀ ds, Part (.arr ds) d → ds.length < 2 ^ 32

/-- Documents whose data get into the container: no NUL in strings and keys, no integer from 2^31 to 2^32-1 or from 2^63
to 2^64-1, no key twice in an object, the elements of an array all arrays or none of them, tables of numbers of less
than 2^32 entries, and whole numbers up to 2^53 unless there are no others. -/
structure Kept (d : Doc) : Prop where
  strings : ∀ s, Part (.string s) d → (0 : Byte) ∉ s
  names : ∀ ms, Part (.obj ms) d → ∀ e ∈ ms, (0 : Byte) ∉ e.1
  keys : ∀ ms, Part (.obj ms) d → (ms.map Prod.fst).Nodup
  size : ∀ ds, Part (.arr ds) d → ds.length < 2 ^ 32
  ints : ∀ l, Part (.int l) d → ¬ (2 ^ 31 ≤ intValue l ∧ intValue l < 2 ^ 32) ∧ -2 ^ 63 ≤ intValue l ∧ intValue l < 2 ^ 63
  apart : ∀ ds, Part (.arr ds) d → (∀ x ∈ ds, ∃ l, x = .arr l) ∨ ∀ x ∈ ds, ∀ l, x ≠ .arr l
  cells : ∀ ds, Part (.arr ds) d → ∀ l, .arr l ∈ ds → l.length * ds.length < 2 ^ 32
  nums : (∀ l, Part (.int l) d → (intValue l).natAbs ≤ 2 ^ 53) ∨ ∀ l, ¬ Part (.num l) d

end Rfc

namespace GC
open Json

mutual
/-- The tree of a document, objects as maps and arrays as vectors; `int` and `num` are the containers of the two kinds
of numbers, `text` what is kept of a string. -/
def treeOf (int num : Bytes → GC) (text : Bytes → Bytes) : Doc → GC
  | .null => notype
  | .bool b => bool b
  | .string s => string (text s)
  | .int l => int l
  | .num l => num l
  | .arr ds => vector (treesOf int num text ds)
  | .obj ms => map (membersOf int num text [] ms)
def treesOf (int num : Bytes → GC) (text : Bytes → Bytes) : List Doc → List GC
  | [] => []
  | d :: ds => treeOf int num text d :: treesOf int num text ds
/-- The members are added to the entries one after the other. -/
def membersOf (int num : Bytes → GC) (text : Bytes → Bytes) (m : Entries) : List (Bytes × Doc) → Entries
  | [] => m
  | (k, d) :: ms => membersOf int num text (mset (text k) (treeOf int num text d) m) ms
end

/-- An integer as RapidJSON and `decode_json` store it: an `int` with the low 32 bits up to 2^32-1, a `long` with the
low 64 bits up to 2^64-1, a `real` beyond. -/
def storedInt (conv : Bytes → Option F64) (l : Bytes) : GC :=
  let n := intValue l
  if -2 ^ 31 ≤ n ∧ n < 2 ^ 32 then int (BitVec.ofInt 32 n)
  else if -2 ^ 63 ≤ n ∧ n < 2 ^ 64 then long (BitVec.ofInt 64 n)
  else numTree conv l

/-- The document as `from_json` stores it before `collapse`. -/
def stored (conv : Bytes → Option F64) (d : Doc) : GC := treeOf (storedInt conv) (numTree conv) cstr d

/-- The elements of a vector of containers, the entries of a map; none otherwise. -/
def itemsOf : GC → List GC | vector v => v | _ => []
def entriesOf : GC → Entries | map m => m | _ => []

mutual
/-- The document stored over what the container has before: scalars replace it, the elements of an array are stored over
the elements of the vector there (an empty array leaves them), the members of an object over the entries of the map
there. -/
def over (conv : Bytes → Option F64) : Doc → GC → GC
  | .null, _ => notype
  | .bool b, _ => bool b
  | .string s, _ => string (cstr s)
  | .int l, _ => storedInt conv l
  | .num l, _ => numTree conv l
  | .arr [], g => vector (itemsOf g)
  | .arr (d :: ds), g => vector (over conv d ((itemsOf g).headD notype) :: overs conv ds (itemsOf g).tail)
  | .obj ms, g => map (overMembers conv ms (entriesOf g))
def overs (conv : Bytes → Option F64) : List Doc → List GC → List GC
  | [], _ => []
  | d :: ds, v => over conv d (v.headD notype) :: overs conv ds v.tail
def overMembers (conv : Bytes → Option F64) : List (Bytes × Doc) → Entries → Entries
  | [], m => m
  | (k, d) :: ms, m => overMembers conv ms (mset (cstr k) (over conv d ((mfind (cstr k) m).getD notype)) m)
end

/-- The document as it should be stored: every whole number with its value, every text as it is. -/
def faithful (conv : Bytes → Option F64) (d : Doc) : GC := treeOf intTree (numTree conv) id d

end GC
end GCV
