import Verif.Model.Lua
import Verif.Model.Access
import Verif.Model.Convert

/-!
# The Lua interpreter: src_lua_interface/GenericContainerInterface_lua.cc (`lua`), the stack between the calls

A Lua state gives the C++ code `LUA_MINSTACK` = 20 places (lua-5.4.6/src/lua.h:80, lstate.c:198); to push a value when they
are all taken is undefined, and the code never calls `lua_checkstack`.  What a Lua program does is not modelled: it is a
parameter (`LuaWorld`), so that the theorems hold for all programs.
-/

namespace GCV

/-- lua.h:80 -/
def luaSlots : Nat := 20

/-- The effect of the `lua_push…`, `lua_createtable` and `lua_getglobal` calls. -/
def lpush (v : LuaV) (st : LuaStack) : Out LuaStack := if st.length < luaSlots then .ok (v :: st) else .ub

/-- `pushItems` with the places counted. -/
def pushItemsIn : Nat → List LuaV → LuaStack → Out LuaStack
  | _, [], st => .ok st
  | i, x :: r, st => (lpush x st).bind fun st => (rawseti (luaIndex i) st).bind (pushItemsIn (i + 1) r)

/-- `pushItemTable` with the places counted. -/
def pushItemTableIn (xs : List LuaV) (st : LuaStack) : Out LuaStack := (lpush (.table []) st).bind (pushItemsIn 0 xs)

mutual

/-- lua:227-331, `GC_to_lua` with the places counted. -/
def pushGC : GC → LuaStack → Out LuaStack
  | .bool b, st => lpush (.bool b) st
  | .int i, st => lpush (.num (F64.ofI32 i)) st
  | .long l, st => lpush (.num (F64.ofI64 l)) st
  | .real r, st => lpush (.num r) st
  | .string s, st => lpush (.str (cstr s)) st
  | .vecBool v, st => (pushItemTableIn (v.map .bool) st).bind (lpush .nil)
  | .vecInt v, st => pushItemTableIn (v.map fun i => .num (F64.ofI32 i)) st
  | .vecLong v, st => pushItemTableIn (v.map fun l => .num (F64.ofI64 l)) st
  | .vecReal v, st => pushItemTableIn (v.map .num) st
  | .vecString v, st => pushItemTableIn (v.map fun s => .str (cstr s)) st
  | .vector v, st => (lpush (.table []) st).bind (pushGCElems 0 v)
  | .map m, st => (lpush (.table []) st).bind (pushGCEntries m)
  | _, st => lpush .nil st
termination_by structural g => g

/-- lua:305-308 -/
def pushGCElems : Nat → List GC → LuaStack → Out LuaStack
  | _, [], st => .ok st
  | i, x :: r, st => (pushGC x st).bind fun st => (rawseti (luaIndex i) st).bind (pushGCElems (i + 1) r)
termination_by structural _ v => v

/-- lua:314-318 -/
def pushGCEntries : Entries → LuaStack → Out LuaStack
  | [], st => .ok st
  | (k, x) :: r, st =>
    (lpush (.str (cstr k)) st).bind fun st => (pushGC x st).bind fun st => (settable st).bind (pushGCEntries r)
termination_by structural m => m

end

namespace GC

/-- The container is not touched, and the call is undefined unless there are `n` values at most. -/
def guardL (n : Nat) (r : Res Unit) : Res Unit := if n ≤ luaSlots then r else .ub

mutual

/-- lua:106-141 with the places counted: `h` values are on the stack, the table among them, then key and value. -/
def readVecElement (h : Nat) (i : Nat) : LuaV → GC → Res Unit
  | .bool b, g => pushLuaBool i b g
  | .int n, g => pushLuaNumber i (F64.ofI64 n) g
  | .num x, g => pushLuaNumber i x g
  | .str s, g => (get_string_at i (fun _ => cstr s) g).bind fun g' _ => .ok g' ()
  | .table t, g => withIdx i (fun x => guardL (h + 1) (readTable h t x)) g
  | _, g => .ok g ()
termination_by structural v => v

/-- lua:145-169 with the places counted. -/
def readHashElement (h : Nat) (key : Bytes) : LuaV → GC → Res Unit
  | .bool b, g => withKey key (fun _ => .ok (bool b) ()) g
  | .int n, g => pushHashNumber key (F64.ofI64 n) g
  | .num x, g => pushHashNumber key x g
  | .str s, g => withKey key (fun _ => .ok (string (cstr s)) ()) g
  | .table t, g => withKey key (fun x => guardL (h + 1) (readTable h t x)) g
  | _, g => .ok g ()
termination_by structural v => v

/-- lua:177-189: the loop with the key on the stack; `h` is the number of values up to and including the table.  An entry
takes two places. -/
def readTable (h : Nat) : List (LKey × LuaV) → GC → Res Unit
  | [], g => .ok g ()
  | (.int n, v) :: r, g =>
    guardL (h + 2) ((readVecElement (h + 2) (luaIdx n) v g).bind fun g' _ => readTable h r g')
  | (.flt _, v) :: r, g =>
    guardL (h + 2) ((readVecElement (h + 2) (luaIdx 0) v g).bind fun g' _ => readTable h r g')
  | (.str s, v) :: r, g =>
    guardL (h + 2) ((readHashElement (h + 2) (cstr s) v g).bind fun g' _ => readTable h r g')
  | (.other, _) :: r, g => guardL (h + 2) (readTable h r g)
termination_by structural t => t

end

end GC

/-- lua:173-190: `lua_pushnil` takes a place before the loop. -/
def readTableTop (h : Nat) (t : List (LKey × LuaV)) (g : GC) : Res Unit := GC.guardL (h + 1) (GC.readTable h t g)

/-- The global variables and the stack, top first. -/
structure LuaM where
  globals : List (LKey × LuaV)
  stack : LuaStack

/-- How the Lua programs behave: a chunk (`run`) or the program in a file (`load`) changes the global variables and may end
with an error, a function (`app`) also has a result.  `junk` is what an interrupted conversion of a table leaves on the
stack: it is not computed.  `text` is the string that `lua_tostring` puts in the place of a number (lapi.c,
`lua_tolstring`). -/
structure LuaWorld where
  run : Bytes → List (LKey × LuaV) → List (LKey × LuaV) × Option LuaV
  app : Bytes → LuaV → List (LKey × LuaV) → List (LKey × LuaV) × (LuaV ⊕ LuaV)
  junk : LuaM → LuaStack
  load : Bytes → List (LKey × LuaV) → List (LKey × LuaV) × Option LuaV
  text : LuaV → Bytes

/-- The result of a call: it returns, it throws, Lua ends the program (an error outside of a protected call), or it is
undefined.  The container is that of the caller afterwards. -/
inductive LuaRes where
  | ok (m : LuaM) (g : GC)
  | throw (m : LuaM) (g : GC)
  | stop
  | ub

namespace LuaM

/-- lua:192-216 and lua:435-464: the value on top of the stack goes to the container; a table takes everything off the
stack (`lua_settop(L,0)`), the other values stay.  `strict`: other types throw (lua:459-463). -/
def toContainer (w : LuaWorld) (strict : Bool) (v : LuaV) (m : LuaM) : LuaRes :=
  match v with
  | .table t =>
    match readTableTop m.stack.length t .notype with
    | .ok g _ => .ok { m with stack := [] } g
    | .throw g => .throw { m with stack := w.junk m ++ m.stack } g
    | _ => .ub
  | .nil => if strict then .throw m .notype else .ok m .notype
  | .other => if strict then .throw m .notype else .ok m .notype
  | v =>
    match GC.lua_to_GC v with
    | .ok g _ => .ok m g
    | .throw g => .throw m g
    | _ => .ub

/-- lua:420-465, `Lua_global_to_GC`; hh `global_to_GC`. -/
def global_to_GC (w : LuaWorld) (name : Bytes) (m : LuaM) (g : GC) : LuaRes :=
  let v := LuaV.get (.str (cstr name)) m.globals
  match lpush v m.stack with
  | .ok st =>
    match v with
    | .nil => .throw { m with stack := st } g
    | v => toContainer w true v { m with stack := st }
  | _ => .ub

/-- lua:470-479, `Lua_GC_to_global`: the value on top becomes the variable.  The container is only read. -/
def GC_to_global (name : Bytes) (m : LuaM) (g : GC) : LuaRes :=
  match pushGC g m.stack with
  | .ok (v :: st) => .ok { globals := LuaV.set (.str (cstr name)) v m.globals, stack := st } g
  | .throw => .stop
  | _ => .ub

/-- lua:382-392, `execute`: the chunk takes a place, and an error leaves its message there. -/
def execute (w : LuaWorld) (cmd : Bytes) (m : LuaM) (g : GC) : LuaRes :=
  match lpush .other m.stack with
  | .ok _ =>
    match w.run (cstr cmd) m.globals with
    | (gl, none) => .ok { m with globals := gl } g
    | (gl, some e) => .throw { globals := gl, stack := e :: m.stack } g
  | _ => .ub

/-- lua:364-378, `do_file`: after an error `lua_isnil(L,-1)` is asserted; the message is the text of the exception, and
`lua_tostring` gives a null pointer for one that is neither a string nor a number.  `luaL_loadfile` takes a second place
while it reads (lauxlib.c, `luaL_loadfilex`). -/
def do_file (w : LuaWorld) (name : Bytes) (m : LuaM) (g : GC) : LuaRes :=
  if m.stack.length + 2 ≤ luaSlots then
    match w.load (cstr name) m.globals with
    | (gl, none) => .ok { m with globals := gl } g
    | (gl, some .nil) => .ok { globals := gl, stack := .nil :: m.stack } g
    | (gl, some (.str s)) => .throw { globals := gl, stack := .str s :: m.stack } g
    | (gl, some (.int i)) => .throw { globals := gl, stack := .str (w.text (.int i)) :: m.stack } g
    | (gl, some (.num x)) => .throw { globals := gl, stack := .str (w.text (.num x)) :: m.stack } g
    | (_, some _) => .ub
  else .ub

/-- lua:396-415, `call(fun_io, res)`: `g` is `res`.  Called is what is below the top after the argument has been pushed: if
that is not the function (an argument that pushes two values) the call is an error. -/
def call (w : LuaWorld) (fun_io : GC) (m : LuaM) (g : GC) : LuaRes :=
  match GC.call_key_c (str "function") fun_io with
  | .ok (.string f) =>
    match GC.call_key_c (str "args") fun_io with
    | .ok args =>
      match (lpush (LuaV.get (.str (cstr f)) m.globals) m.stack).bind (pushGC args) with
      | .ok (a :: st) =>
        if st.length = m.stack.length + 1 then
          match w.app (cstr f) a m.globals with
          | (gl, .inl e) => .throw { globals := gl, stack := e :: m.stack } g
          | (gl, .inr r) => toContainer w false r { globals := gl, stack := r :: m.stack }
        else .throw { m with stack := .str [] :: st.tail } g
      | .throw => .stop
      | _ => .ub
    | _ => .throw m g
  | _ => .throw m g

end LuaM
end GCV
