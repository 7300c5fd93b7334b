import Verif.Model.Lua
import Verif.Spec.Number
import Verif.Spec.Tree
import Verif.Spec.Elems

/-!
# Specification vocabulary: the Lua value that represents a container
-/

namespace GCV

/-- The table holds the items at 1, 2, 3, … and nothing else. -/
def IsArray (items : List LuaV) (t : List (LKey × LuaV)) : Prop :=
  (∀ n : Nat, n < items.length → some (LuaV.get (.int (n + 1)) t) = items[n]?) ∧
  ∀ k, (∀ n : Nat, n < items.length → k ≠ .int (n + 1)) → LuaV.get k t = .nil

mutual

/-- `v` represents the container: numbers as numbers, strings as strings, vectors as arrays starting
at 1, maps as tables with the same keys; types that have no counterpart in Lua as nil. -/
def Shows : GC → LuaV → Prop
  | .bool b, v => v = .bool b
  | .int i, v => v = .num (F64.ofI32 i)
  | .long l, v => v = .num (F64.ofI64 l)
  | .real r, v => v = .num r
  | .string s, v => v = .str s
  | .vecBool l, v => ∃ t, v = .table t ∧ IsArray (l.map .bool) t
  | .vecInt l, v => ∃ t, v = .table t ∧ IsArray (l.map fun i => .num (F64.ofI32 i)) t
  | .vecLong l, v => ∃ t, v = .table t ∧ IsArray (l.map fun i => .num (F64.ofI64 i)) t
  | .vecReal l, v => ∃ t, v = .table t ∧ IsArray (l.map .num) t
  | .vecString l, v => ∃ t, v = .table t ∧ IsArray (l.map .str) t
  | .vector l, v => ∃ t, v = .table t ∧ ShowsL 0 l t ∧
      ∀ k, (∀ n : Nat, n < l.length → k ≠ .int (n + 1)) → LuaV.get k t = .nil
  | .map m, v => ∃ t, v = .table t ∧ ShowsM m t ∧
      ∀ k, (∀ s ∈ m.map Prod.fst, k ≠ .str s) → LuaV.get k t = .nil
  | _, v => v = .nil
termination_by structural g => g

/-- The containers are represented by the entries `i+1`, `i+2`, … of the table. -/
def ShowsL : Nat → List GC → List (LKey × LuaV) → Prop
  | _, [], _ => True
  | i, x :: r, t => Shows x (LuaV.get (.int (i + 1)) t) ∧ ShowsL (i + 1) r t
termination_by structural _ l => l

/-- Every entry of the map is represented by the entry of the table with the same key. -/
def ShowsM : Entries → List (LKey × LuaV) → Prop
  | [], _ => True
  | (k, x) :: r, t => Shows x (LuaV.get (.str k) t) ∧ ShowsM r t
termination_by structural m => m

end

/-- Strings and keys without NUL, vectors of less than 2^31 elements. -/
def luaReady : GC → Bool
  | .string s => noNul s
  | .vecBool v => decide (v.length < 2 ^ 31)
  | .vecInt v => decide (v.length < 2 ^ 31)
  | .vecLong v => decide (v.length < 2 ^ 31)
  | .vecReal v => decide (v.length < 2 ^ 31)
  | .vecString v => decide (v.length < 2 ^ 31) && v.all noNul
  | .vector v => decide (v.length < 2 ^ 31)
  | .map m => m.all fun e => noNul e.1
  | _ => true

/-- A VEC_BOOL. -/
def isVecBool : GC → Bool
  | .vecBool _ => true
  | _ => false

/-- The number a Lua number denotes, in units of 2^-1074. -/
def luaNumber : LuaV → Option Int
  | .int i => some (i.toInt * F64.unit)
  | .num x => x.value
  | _ => none

end GCV

namespace GCV

/-- In range: at least -2^63 and below 2^63. -/
def F64.InLong (q : Int) : Prop := -(2 ^ 63 : Int) * F64.unit ≤ q ∧ q < 2 ^ 63 * (F64.unit : Int)

namespace GC
open F64

/-- The long is a double. -/
def IsDouble (l : I64) : Prop := ∃ x : F64, x.value = some (l.toInt * unit)

/-- The number is stored with its value: a float in the range of `long`, or an integer that is a
double. -/
def LuaExact (v : LuaV) : Prop :=
  (∃ x q, v = .num x ∧ x.value = some q ∧ InLong q) ∨
  (∃ i : I64, v = .int i ∧ IsDouble i)

/-- The entries of a Lua array: value `i` at index `i+1`. -/
def arrayEntries (vs : List LuaV) : List (LKey × LuaV) :=
  vs.zipIdx.map fun p => (LKey.int (p.2 + 1), p.1)

/-- What is asked of a Lua value that arrives in the container: numbers as in `LuaExact`, strings and keys without NUL,
tables that are arrays of numbers, of booleans, of strings, of numbers and strings or of such tables, or have string keys
only.  The entries of a table come in any order. -/
inductive LuaOk : LuaV → Prop
  | bool {b : Bool} : LuaOk (.bool b)
  | number {v : LuaV} : LuaExact v → LuaOk v
  | str {s : Bytes} : noNul s = true → LuaOk (.str s)
  | numbers {t : List (LKey × LuaV)} {vs : List LuaV} : t.Perm (arrayEntries vs) → vs ≠ [] → vs.length < 2 ^ 32 →
      (∀ v ∈ vs, LuaExact v) → LuaOk (.table t)
  | bools {t : List (LKey × LuaV)} {bs : List Bool} : t.Perm (arrayEntries (bs.map .bool)) → bs.length < 2 ^ 32 →
      LuaOk (.table t)
  | strs {t : List (LKey × LuaV)} {ss : List Bytes} : t.Perm (arrayEntries (ss.map .str)) → ss.length < 2 ^ 32 →
      (∀ s ∈ ss, noNul s = true) → LuaOk (.table t)
  | mixed {t : List (LKey × LuaV)} {vs : List LuaV} : t.Perm (arrayEntries vs) → vs.length < 2 ^ 32 →
      (∀ v ∈ vs, LuaExact v ∨ ∃ s, v = .str s ∧ noNul s = true) → (∃ v ∈ vs, LuaExact v) → (∃ s, .str s ∈ vs) →
      LuaOk (.table t)
  | tables {t : List (LKey × LuaV)} {vs : List LuaV} : t.Perm (arrayEntries vs) → vs.length < 2 ^ 32 →
      (∀ v ∈ vs, ∃ t', v = .table t') → (∀ v ∈ vs, LuaOk v) → LuaOk (.table t)
  | hash {t : List (LKey × LuaV)} : (t.map Prod.fst).Nodup → (∀ e ∈ t, ∃ s, e.1 = .str s ∧ noNul s = true) →
      (∀ e ∈ t, LuaOk e.2) → LuaOk (.table t)

/-- An element of an array of numbers and strings: the string, or the number as a LONG or a REAL. -/
def MixedItem (v : LuaV) (x : GC) : Prop :=
  (∃ s, v = .str s ∧ x = .string s) ∨
  ∃ q, luaNumber v = some q ∧ numValue x = some q ∧ (x.ty = .LONG ∨ x.ty = .REAL)

/-- `LuaSays v g`: the container holds the value.  An integer is a LONG and another number a REAL; an array of numbers is
a vector of long if all of them are integers, and a vector of real otherwise; an array of numbers and strings is a vector of
containers, in which an integer may be a REAL. -/
inductive LuaSays : LuaV → GC → Prop
  | bool {b : Bool} : LuaSays (.bool b) (.bool b)
  | number {v : LuaV} {g : GC} {q : Int} : luaNumber v = some q → numValue g = some q → (g.ty = .LONG ∨ g.ty = .REAL) →
      (g.ty = .LONG ↔ ∃ n : Int, q = n * unit) → LuaSays v g
  | str {s : Bytes} : LuaSays (.str s) (.string s)
  | numbers {t : List (LKey × LuaV)} {vs : List LuaV} {g : GC} : t.Perm (arrayEntries vs) → vs ≠ [] →
      (elems g).length = vs.length →
      (∀ (i : Nat) v, vs[i]? = some v → ∃ e q, (elems g)[i]? = some e ∧ numValue e = some q ∧ luaNumber v = some q) →
      (g.ty = .VEC_LONG ∨ g.ty = .VEC_REAL) →
      (g.ty = .VEC_LONG ↔ ∀ v ∈ vs, ∃ n : Int, luaNumber v = some (n * unit)) → LuaSays (.table t) g
  | bools {t : List (LKey × LuaV)} {bs : List Bool} : t.Perm (arrayEntries (bs.map .bool)) → bs ≠ [] →
      LuaSays (.table t) (.vecBool bs)
  | strs {t : List (LKey × LuaV)} {ss : List Bytes} : t.Perm (arrayEntries (ss.map .str)) → ss ≠ [] →
      LuaSays (.table t) (.vecString ss)
  | mixed {t : List (LKey × LuaV)} {vs : List LuaV} {xs : List GC} : t.Perm (arrayEntries vs) →
      (∃ v ∈ vs, ∃ q, luaNumber v = some q) → (∃ s, .str s ∈ vs) → xs.length = vs.length →
      (∀ (i : Nat) v x, vs[i]? = some v → xs[i]? = some x → MixedItem v x) → LuaSays (.table t) (.vector xs)
  | tables {t : List (LKey × LuaV)} {vs : List LuaV} {xs : List GC} : t.Perm (arrayEntries vs) → vs ≠ [] →
      xs.length = vs.length → (∀ (i : Nat) v x, vs[i]? = some v → xs[i]? = some x → LuaSays v x) →
      LuaSays (.table t) (.vector xs)
  | hash {t : List (LKey × LuaV)} {e : Entries} : t ≠ [] → (∀ p ∈ t, ∃ s, p.1 = .str s) → KeysSorted e →
      (∀ k, (∃ v, (LKey.str k, v) ∈ t) ↔ ∃ x, (k, x) ∈ e) →
      (∀ k v x, (LKey.str k, v) ∈ t → (k, x) ∈ e → LuaSays v x) → LuaSays (.table t) (.map e)
  | empty : LuaSays (.table []) .notype

end GC
end GCV
