import Verif.Spec.LuaRoom

/-!
# Specification vocabulary: sessions with the Lua interpreter
-/

namespace GCV

/-- A call of the interpreter: read a variable, store a container in a variable, run a program, run a file. -/
inductive LuaCall where
  | read (name : Bytes)
  | store (name : Bytes) (g : GC)
  | run (cmd : Bytes)
  | file (name : Bytes)

/-- What the call does.  `g` is the container that is read into. -/
def LuaCall.step (w : LuaWorld) : LuaCall → LuaM → GC → LuaRes
  | .read name, m, g => LuaM.global_to_GC w name m g
  | .store name x, m, g =>
    match LuaM.GC_to_global name m x with
    | .ok m' _ => .ok m' g
    | .throw m' _ => .throw m' g
    | r => r
  | .run cmd, m, g => LuaM.execute w cmd m g
  | .file name, m, g => LuaM.do_file w name m g

/-- The calls one after the other, by a program that catches the exceptions: the interpreter and the container afterwards,
and how many calls threw; `none` if one of the calls is undefined or ends the program. -/
def LuaCall.session (w : LuaWorld) : List LuaCall → LuaM → GC → Option (LuaM × GC × Nat)
  | [], m, g => some (m, g, 0)
  | c :: r, m, g =>
    match c.step w m g with
    | .ok m' g' => LuaCall.session w r m' g'
    | .throw m' g' => (LuaCall.session w r m' g').map fun x => (x.1, x.2.1, x.2.2 + 1)
    | _ => none

namespace GC

/-- A value that is no table and is read as it is, or that is refused. -/
def NoTable (v : LuaV) : Prop := v = .nil ∨ v = .other ∨ LuaOk v ∧ ∀ t, v ≠ .table t

/-- A session, from the variables as they are to what they are afterwards, in which programs and files run without
error, tables are read, and containers are stored that come back from Lua (`LuaBack`); none of them deeper than
twenty places allow. -/
inductive Orderly (w : LuaWorld) : List (LKey × LuaV) → List LuaCall → List (LKey × LuaV) → Prop
  | done {gl} : Orderly w gl [] gl
  | run {gl gl' gl'' cmd cs} : w.run (cstr cmd) gl = (gl', none) → Orderly w gl' cs gl'' → Orderly w gl (.run cmd :: cs) gl''
  | file {gl gl' gl'' name cs} : w.load (cstr name) gl = (gl', none) → Orderly w gl' cs gl'' →
      Orderly w gl (.file name :: cs) gl''
  | read {gl gl'' name cs t} : LuaV.get (.str (cstr name)) gl = .table t → LuaOk (.table t) →
      1 + valueNeed (.table t) ≤ luaSlots → Orderly w gl cs gl'' → Orderly w gl (.read name :: cs) gl''
  | store {gl gl'' name cs g v} : LuaBack g → luaNeed g ≤ luaSlots → GC_to_lua g [] = .ok [v] →
      Orderly w (LuaV.set (.str (cstr name)) v gl) cs gl'' → Orderly w gl (.store name g :: cs) gl''

/-- A session in which every program fails and no variable that is read holds a table. -/
inductive Littering (w : LuaWorld) : List (LKey × LuaV) → List LuaCall → List (LKey × LuaV) → Prop
  | done {gl} : Littering w gl [] gl
  | run {gl gl' gl'' cmd cs e} : w.run (cstr cmd) gl = (gl', some e) → Littering w gl' cs gl'' →
      Littering w gl (.run cmd :: cs) gl''
  | read {gl gl'' name cs} : NoTable (LuaV.get (.str (cstr name)) gl) → Littering w gl cs gl'' →
      Littering w gl (.read name :: cs) gl''

end GC
end GCV
