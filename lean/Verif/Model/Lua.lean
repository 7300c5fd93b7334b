import Verif.Model.At

/-!
# The Lua interface: src_lua_interface/GenericContainerInterface_lua.cc (`lua`)

The Lua machine is reduced to its stack.  A table is a value on the stack; tables are not shared by the
code modelled here, so their identity is not represented.  Vectors have less than 2^32 elements (with
more the loops over `unsigned i` would not end).
-/

namespace GCV

/-- Keys of a table as the code tells them apart: integers, other numbers, strings, anything else. -/
inductive LKey where
  | int (n : Int)
  | flt (x : F64)
  | str (s : Bytes)
  | other
  deriving DecidableEq, Repr

/-- A Lua value; numbers are `int` or `num` (Lua 5.4 integers and floats); `other`: functions, threads,
user data. -/
inductive LuaV where
  | nil
  | bool (b : Bool)
  | int (i : I64)
  | num (x : F64)
  | str (s : Bytes)
  | table (t : List (LKey × LuaV))
  | other
  deriving Repr

/-- `t[k]` in Lua. -/
def LuaV.get (k : LKey) : List (LKey × LuaV) → LuaV
  | [] => .nil
  | (k', v) :: r => if k = k' then v else get k r

/-- `t[k] = v` in Lua: assigning nil removes the entry. -/
def LuaV.set (k : LKey) (v : LuaV) (t : List (LKey × LuaV)) : List (LKey × LuaV) :=
  match v with
  | .nil => t.filter fun e => e.1 ≠ k
  | v => (k, v) :: t.filter fun e => e.1 ≠ k

/-- The stack, top first. -/
abbrev LuaStack := List LuaV

/-- `lua_rawseti(L,-2,n)`: the top is stored in the table below it and popped; it is an error of the
caller (undefined) when there is no table. -/
def rawseti (n : Int) : LuaStack → Out LuaStack
  | v :: .table t :: r => .ok (.table (LuaV.set (.int n) v t) :: r)
  | _ => .ub

/-- `lua_settable(L,-3)`: value on top, key below, table below that.  Without a table there, or with a
nil key, Lua raises an error; outside a protected call that ends the program (`throw` here).  What is
stored under a key that is a table or boolean is not recorded. -/
def settable : LuaStack → Out LuaStack
  | v :: .str k :: .table t :: r => .ok (.table (LuaV.set (.str k) v t) :: r)
  | _ :: .nil :: .table _ :: _ => .throw
  | _ :: _ :: .table t :: r => .ok (.table t :: r)
  | _ :: _ :: _ :: _ => .throw
  | _ => .ub

/-- `int(i+1)` for `unsigned i`. -/
def luaIndex (i : Nat) : Int := (BitVec.ofNat 32 (i + 1)).toInt

/-- lua:269-272 and the like: the loop over a vector of scalars, `v` already converted. -/
def pushItems : Nat → List LuaV → LuaStack → Out LuaStack
  | _, [], st => .ok st
  | i, x :: r, st => (rawseti (luaIndex i) (x :: st)).bind (pushItems (i + 1) r)

/-- lua:268-272 and the like: a new table with these items. -/
def pushItemTable (xs : List LuaV) (st : LuaStack) : Out LuaStack := pushItems 0 xs (.table [] :: st)

mutual

/-- lua:227-331.  `lua_pushstring` takes a C string; VEC_BOOL pushes a nil after the table
(lua:264). -/
def GC_to_lua : GC → LuaStack → Out LuaStack
  | .bool b, st => .ok (.bool b :: st)
  | .int i, st => .ok (.num (F64.ofI32 i) :: st)
  | .long l, st => .ok (.num (F64.ofI64 l) :: st)
  | .real r, st => .ok (.num r :: st)
  | .string s, st => .ok (.str (cstr s) :: st)
  | .vecBool v, st => (pushItemTable (v.map .bool) st).bind fun st => .ok (.nil :: st)
  | .vecInt v, st => pushItemTable (v.map fun i => .num (F64.ofI32 i)) st
  | .vecLong v, st => pushItemTable (v.map fun l => .num (F64.ofI64 l)) st
  | .vecReal v, st => pushItemTable (v.map .num) st
  | .vecString v, st => pushItemTable (v.map fun s => .str (cstr s)) st
  | .vector v, st => pushElems 0 v (.table [] :: st)
  | .map m, st => pushEntries m (.table [] :: st)
  | _, st => .ok (.nil :: st)
termination_by structural g => g

/-- lua:305-308 -/
def pushElems : Nat → List GC → LuaStack → Out LuaStack
  | _, [], st => .ok st
  | i, x :: r, st => (GC_to_lua x st).bind fun st => (rawseti (luaIndex i) st).bind (pushElems (i + 1) r)
termination_by structural _ v => v

/-- lua:314-318 -/
def pushEntries : Entries → LuaStack → Out LuaStack
  | [], st => .ok st
  | (k, x) :: r, st => (GC_to_lua x (.str (cstr k) :: st)).bind fun st => (settable st).bind (pushEntries r)
termination_by structural m => m

end

/-! ## From Lua -/

/-- Integer part towards minus infinity of a finite double. -/
def F64.floorI (x : F64) : Int := x.scaled.fdiv F64.unit

/-- lua:87-91 `isInteger64`: `isZero( x-static_cast<int64_t>(floor(x)) )`; the conversion is undefined
outside the range of `int64_t`.  Inside it `floor(x)` is a double, so the difference is zero exactly
when `x` is that integer. -/
def F64.isInteger64 (x : F64) : Out Bool :=
  if x.isFinite ∧ -(2 ^ 63 : Int) ≤ x.floorI ∧ x.floorI < 2 ^ 63 then
    .ok (decide (x.scaled = x.floorI * F64.unit))
  else .ub

namespace GC

/-- lua:202-204: `if ( isInteger64(val) ) gc.set_long(long_type(val)); else gc.set_real(val);` -/
def setLuaNumber (x : F64) : Res Unit :=
  match x.isInteger64 with
  | .ok true => match x.toSigned 64 with
    | .ok l => .ok (long l) ()
    | _ => .ub
  | .ok false => .ok (real x) ()
  | _ => .ub

/-- `unsigned(lua_tointeger(L, -2)-1)` (lua:111); a number that is no integer gives 0. -/
def luaIdx (n : Int) : Nat := ((n - 1) % 2 ^ 32).toNat

/-- lua:115-118: `get_bool_at(idx)`, then element `idx` of the VEC_BOOL is written unchecked. -/
def pushLuaBool (i : Nat) (b : Bool) (g : GC) : Res Unit :=
  (get_bool_at i g).bind fun g' _ =>
    match g' with
    | vecBool v => if i < v.length then .ok (vecBool (v.set i b)) () else .ub
    | g' => .throw g'

/-- lua:122-131 -/
def pushLuaNumber (i : Nat) (x : F64) (g : GC) : Res Unit :=
  match g with
  | vecReal _ | matReal _ => (get_real_at i (fun _ => x) g).bind fun g' _ => .ok g' ()
  | _ =>
    match x.isInteger64 with
    | .ok true => match x.toSigned 64 with
      | .ok l => (get_long_at i (fun _ => l) g).bind fun g' _ => .ok g' ()
      | _ => .ub
    | .ok false => (get_real_at i (fun _ => x) g).bind fun g' _ => .ok g' ()
    | _ => .ub

/-- lua:155-159 -/
def pushHashNumber (key : Bytes) (x : F64) (g : GC) : Res Unit :=
  match x.isInteger64 with
  | .ok _ => withKey key (fun _ => setLuaNumber x) g
  | _ => .ub

mutual

/-- lua:106-141; `lua_tonumber` turns an integer into a `double`. -/
def pushVecElement (i : Nat) : LuaV → GC → Res Unit
  | .bool b, g => pushLuaBool i b g
  | .int n, g => pushLuaNumber i (F64.ofI64 n) g
  | .num x, g => pushLuaNumber i x g
  | .str s, g => (get_string_at i (fun _ => cstr s) g).bind fun g' _ => .ok g' ()
  | .table t, g => withIdx i (lua_table_to_GC t) g
  | _, g => .ok g ()
termination_by structural v => v

/-- lua:145-169 -/
def pushHashElement (key : Bytes) : LuaV → GC → Res Unit
  | .bool b, g => withKey key (fun _ => .ok (bool b) ()) g
  | .int n, g => pushHashNumber key (F64.ofI64 n) g
  | .num x, g => pushHashNumber key x g
  | .str s, g => withKey key (fun _ => .ok (string (cstr s)) ()) g
  | .table t, g => withKey key (lua_table_to_GC t) g
  | _, g => .ok g ()
termination_by structural v => v

/-- lua:173-190; the entries in the order in which `lua_next` delivers them. -/
def lua_table_to_GC : List (LKey × LuaV) → GC → Res Unit
  | [], g => .ok g ()
  | (.int n, v) :: r, g => (pushVecElement (luaIdx n) v g).bind fun g' _ => lua_table_to_GC r g'
  | (.flt _, v) :: r, g => (pushVecElement (luaIdx 0) v g).bind fun g' _ => lua_table_to_GC r g'
  | (.str s, v) :: r, g => (pushHashElement (cstr s) v g).bind fun g' _ => lua_table_to_GC r g'
  | (.other, _) :: r, g => lua_table_to_GC r g
termination_by structural t => t

end

/-- lua:192-216, the container with the value on top of the stack; `Lua_global_to_GC` (lua:420-465)
does the same after fetching a global variable. -/
def lua_to_GC (v : LuaV) : Res Unit :=
  match v with
  | .bool b => .ok (bool b) ()
  | .int n => setLuaNumber (F64.ofI64 n)
  | .num x => setLuaNumber x
  | .str s => .ok (string (cstr s)) ()
  | .table t => lua_table_to_GC t notype
  | _ => .ok notype ()

end GC
end GCV
