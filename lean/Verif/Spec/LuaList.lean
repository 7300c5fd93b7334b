import Verif.Spec.Lua

/-!
# Specification vocabulary: what a Lua list of any mixture of values becomes

The entries of the list come in the order 1, 2, 3, …, as Lua delivers a list.
-/

namespace GCV

def LuaV.isBool : LuaV → Bool
  | .bool _ => true
  | _ => false

def LuaV.isNumber : LuaV → Bool
  | .int _ | .num _ => true
  | _ => false

def LuaV.isStr : LuaV → Bool
  | .str _ => true
  | _ => false

def LuaV.isTable : LuaV → Bool
  | .table _ => true
  | _ => false

namespace GC
open F64

/-- A number that is no integer. -/
def Fraction (v : LuaV) : Prop := ∃ q, luaNumber v = some q ∧ ¬ ∃ n : Int, q = n * unit

/-- An item of a list: a boolean, a number that is stored exactly, a string without NUL, or a table that can be read on
its own. -/
def ListItem (v : LuaV) : Prop :=
  v.isBool = true ∨ LuaExact v ∨ (∃ s, v = .str s ∧ noNul s = true) ∨
    (v.isTable = true ∧ ∃ x, lua_to_GC v = .ok x ())

/-- A boolean comes after something that is no boolean. -/
def LateBool (vs : List LuaV) : Prop :=
  ∃ (i j : Nat) (u v : LuaV), i < j ∧ vs[i]? = some u ∧ vs[j]? = some v ∧ u.isBool = false ∧ v.isBool = true

/-- There are strings and values of other kinds. -/
def Mixes (vs : List LuaV) : Prop := (∃ v ∈ vs, v.isStr = true) ∧ ∃ v ∈ vs, v.isStr = false

/-- The booleans and numbers the list begins with. -/
def numbersFirst (vs : List LuaV) : List LuaV := vs.takeWhile fun v => v.isBool || v.isNumber

/-- The values before the first table. -/
def beforeTables (vs : List LuaV) : List LuaV := vs.takeWhile fun v => !v.isTable

/-- Position `i` is before the first table, and what comes before that table is all of one kind: all strings, or no
strings. -/
def Lost (vs : List LuaV) (i : Nat) : Prop :=
  (∃ v ∈ vs, v.isTable = true) ∧ i < (beforeTables vs).length ∧ ¬ Mixes (beforeTables vs)

/-- The number as a REAL if `real` holds, as a LONG otherwise. -/
def NumberAs (q : Int) (real : Prop) (e : GC) : Prop :=
  numValue e = some q ∧ (real → e.ty = .REAL) ∧ (¬ real → e.ty = .LONG)

/-- What the value `v` becomes when it is not lost.  In the numbers the list begins with booleans count as 0 and 1 (but
remain booleans if there is no number among them), and a single fraction makes all of them REAL. -/
def KeptAs (vs : List LuaV) (i : Nat) (v : LuaV) (e : GC) : Prop :=
  match v with
  | .bool b =>
    ((∃ u ∈ numbersFirst vs, u.isNumber = true) →
      NumberAs (if b then unit else 0) (∃ u ∈ numbersFirst vs, Fraction u) e) ∧
    ((¬ ∃ u ∈ numbersFirst vs, u.isNumber = true) → e = .bool b)
  | .str s => e = .string s
  | .table t => lua_to_GC (.table t) = .ok e ()
  | v => ∃ q, luaNumber v = some q ∧
      NumberAs q (Fraction v ∨ i < (numbersFirst vs).length ∧ ∃ u ∈ numbersFirst vs, Fraction u) e

/-- What the value at position `i` becomes: nothing if it is lost. -/
def ListElem (vs : List LuaV) (i : Nat) (v : LuaV) (e : GC) : Prop :=
  (Lost vs i → e = .notype) ∧ (¬ Lost vs i → KeptAs vs i v e)

end GC
end GCV
