import Verif.Spec.Lua
import Verif.Model.LuaSession

/-!
# Specification vocabulary: the places a value takes on the Lua stack
-/

namespace GCV

mutual

/-- Places taken while the container is written: a table stays below what it holds, and a key below its value. -/
def luaNeed : GC → Nat
  | .vecInt v => if v = [] then 1 else 2
  | .vecLong v => if v = [] then 1 else 2
  | .vecReal v => if v = [] then 1 else 2
  | .vecString v => if v = [] then 1 else 2
  | .vecBool _ => 2
  | .vector v => 1 + luaNeedL v
  | .map m => 1 + luaNeedM m
  | _ => 1
termination_by structural g => g

/-- The most of the elements. -/
def luaNeedL : List GC → Nat
  | [] => 0
  | x :: r => max (luaNeed x) (luaNeedL r)
termination_by structural v => v

/-- The most of the entries. -/
def luaNeedM : Entries → Nat
  | [] => 0
  | (_, x) :: r => max (1 + luaNeed x) (luaNeedM r)
termination_by structural m => m

end

mutual

/-- Places taken while a value is read that is on the stack already: none, but for a table. -/
def valueNeed : LuaV → Nat
  | .table t => max 1 (entriesNeed t)
  | _ => 0
termination_by structural v => v

/-- The most of the entries: two for key and value; what is under a key that is neither number nor string is not read. -/
def entriesNeed : List (LKey × LuaV) → Nat
  | [] => 0
  | (.other, _) :: r => max 2 (entriesNeed r)
  | (.int _, v) :: r => max (2 + valueNeed v) (entriesNeed r)
  | (.flt _, v) :: r => max (2 + valueNeed v) (entriesNeed r)
  | (.str _, v) :: r => max (2 + valueNeed v) (entriesNeed r)
termination_by structural t => t

end

mutual

/-- How deep lists and maps are in one another. -/
def luaTables : GC → Nat
  | .vecInt _ | .vecLong _ | .vecReal _ | .vecString _ => 1
  | .vector v => 1 + luaTablesL v
  | .map m => 1 + luaTablesM m
  | _ => 0
termination_by structural g => g

def luaTablesL : List GC → Nat
  | [] => 0
  | x :: r => max (luaTables x) (luaTablesL r)
termination_by structural v => v

def luaTablesM : Entries → Nat
  | [] => 0
  | (_, x) :: r => max (luaTables x) (luaTablesM r)
termination_by structural m => m

end

/-- The same call made `n` times by a program that catches the exceptions: the interpreter and the container afterwards;
`none` if one of the calls is undefined or ends the program. -/
def LuaM.times (f : LuaM → GC → LuaRes) : Nat → LuaM → GC → Option (LuaM × GC)
  | 0, m, g => some (m, g)
  | n + 1, m, g =>
    match f m g with
    | .ok m' g' => LuaM.times f n m' g'
    | .throw m' g' => LuaM.times f n m' g'
    | _ => none

/-- Maps in one another, `n + 1` of them. -/
def nestedMaps : Nat → GC
  | 0 => .map [(str "k", .bool true)]
  | n + 1 => .map [(str "k", nestedMaps n)]

end GCV

namespace GCV.GC

/-- The scalar is a number that comes back from Lua with its value: a long that is a double, a real in the range of long. -/
def NumberBack : GC → Prop
  | int _ => True
  | long l => IsDouble l
  | real x => ∃ q, x.value = some q ∧ F64.InLong q
  | _ => False

/-- A list or a map: a table in Lua. -/
def TableLike : GC → Prop
  | vecInt _ | vecLong _ | vecReal _ | vecString _ | vector _ | map _ => True
  | _ => False

/-- What is asked of a container that comes back from Lua: lists are not empty and hold numbers and strings only,
booleans only (not packed), or lists and maps only; maps are not empty; strings and keys are without NUL. -/
inductive LuaBack : GC → Prop
  | bool {b : Bool} : LuaBack (.bool b)
  | number {g : GC} : NumberBack g → LuaBack g
  | string {s : Bytes} : noNul s = true → LuaBack (.string s)
  | ints {v : List I32} : v ≠ [] → v.length < 2 ^ 31 → LuaBack (.vecInt v)
  | longs {v : List I64} : v ≠ [] → v.length < 2 ^ 31 → (∀ l ∈ v, IsDouble l) → LuaBack (.vecLong v)
  | reals {v : List F64} : v ≠ [] → v.length < 2 ^ 31 → (∀ x ∈ v, NumberBack (.real x)) → LuaBack (.vecReal v)
  | strings {v : List Bytes} : v ≠ [] → v.length < 2 ^ 31 → (∀ s ∈ v, noNul s = true) → LuaBack (.vecString v)
  | bools {v : List GC} : v ≠ [] → v.length < 2 ^ 31 → (∀ x ∈ v, ∃ b, x = .bool b) → LuaBack (.vector v)
  | numbers {v : List GC} : v ≠ [] → v.length < 2 ^ 31 → (∀ x ∈ v, NumberBack x) → LuaBack (.vector v)
  | texts {v : List GC} : v ≠ [] → v.length < 2 ^ 31 → (∀ x ∈ v, ∃ s, x = .string s ∧ noNul s = true) → LuaBack (.vector v)
  | mixed {v : List GC} : v ≠ [] → v.length < 2 ^ 31 → (∀ x ∈ v, NumberBack x ∨ ∃ s, x = .string s ∧ noNul s = true) →
      LuaBack (.vector v)
  | lists {v : List GC} : v ≠ [] → v.length < 2 ^ 31 → (∀ x ∈ v, TableLike x) → (∀ x ∈ v, LuaBack x) →
      LuaBack (.vector v)
  | map {m : Entries} : m ≠ [] → KeysSorted m → (∀ e ∈ m, noNul e.1 = true) → (∀ e ∈ m, LuaBack e.2) → LuaBack (.map m)

end GCV.GC
