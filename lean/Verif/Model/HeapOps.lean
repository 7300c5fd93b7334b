import Verif.Model.Heap

/-!
# Programs: variables, calls on them and on what is inside them, end of their lifetime

A program has variables of type `GenericContainer`.  A call is made on a variable or on a container reached from it by
`operator()`-like access (an element or an entry that exists; otherwise the access throws and the program goes on).
-/

namespace GCV
namespace Heap
open GC

/-- A variable and a path into it. -/
structure Place where
  var : Nat
  path : List Sel
  deriving DecidableEq

/-- What a program does. -/
inductive POp
  /-- `GenericContainer x;` -/
  | construct (x : Nat)
  /-- `GenericContainer x( y );` -/
  | copyConstruct (x : Nat) (y : Place)
  /-- end of the lifetime of `x` -/
  | destroy (x : Nat)
  /-- `x.clear()` -/
  | clear (x : Place)
  /-- `x = g` with a bool, a number, a pointer, a string, a `vec_*` or a `mat_*` that belongs to the caller -/
  | set (x : Place) (g : GC)
  /-- `x.set_vector( n )` -/
  | setVector (x : Place) (n : Nat)
  /-- `x.set_map()` -/
  | setMap (x : Place)
  /-- `x[i]` -/
  | idx (x : Place) (i : Nat)
  /-- `x[k]` -/
  | key (x : Place) (k : Bytes)
  /-- `x.erase( k )` -/
  | erase (x : Place) (k : Bytes)
  /-- `x = y` -/
  | assign (x y : Place)

/-- The memory and where the variables are. -/
structure St where
  mem : Mem
  env : Nat → Option Addr

/-- Follow a path. -/
def resolve (m : Mem) : List Sel → Loc → Option Loc
  | [], l => some l
  | .idx i :: p, l =>
    match m.read l with
    | some (.box .VECTOR a) =>
      match m.read ⟨a, .idx i⟩ with
      | some _ => resolve m p ⟨a, .idx i⟩
      | none => none
    | _ => none
  | .key k :: p, l =>
    match m.read l with
    | some (.box .MAP a) =>
      match m.read ⟨a, .key k⟩ with
      | some _ => resolve m p ⟨a, .key k⟩
      | none => none
    | _ => none

/-- The container at a place. -/
def St.loc (s : St) (x : Place) : Option Loc := (s.env x.var).bind fun a => resolve s.mem x.path ⟨a, .var⟩

/-- cc:926-1126, `set_*` and `operator=` with a value of the caller. -/
def setF (n : Nat) (d : Loc) (g : GC) (m : Mem) : Run Unit :=
  match g with
  | .notype | .bool _ | .int _ | .long _ | .real _ | .pointer _ => (clearAt n d m).bind fun m _ => m.write d (.imm g)
  | .complex _ =>
    (clearAt n d m).bind fun m _ => (m.alloc (.leaf g)).write d (.box .COMPLEX m.next)
  | .vector _ | .map _ => .ub
  | _ =>
    (allocBox n g.ty (.leaf notype) d m).bind fun m b =>
      match m.blk b with
      | some (.leaf old) =>
        match from_gc g old with
        | .ok g' => .ok (m.upd b (some (.leaf g'))) ()
        | _ => .ub
      | _ => .ub

/-- cc:903-910, `allocate_vector( sz )`. -/
def setVectorF (ip : Nat → Nat → Bool) (n : Nat) (d : Loc) (sz : Nat) (m : Mem) : Run Unit :=
  (allocBox n .VECTOR (.vec []) d m).bind fun m b =>
    if 0 < sz then resizeF ip (freeF n) (fromF ip n) b sz m else .ok m ()

/-- cc:913-919, `allocate_map()`. -/
def setMapF (n : Nat) (d : Loc) (m : Mem) : Run Unit :=
  (allocBox n .MAP (.map []) d m).bind fun m _ => .ok m ()

/-- cc:3263-3271, `(*this)[i]`: the container becomes a VECTOR and grows to hold the element. -/
def idxF (ip : Nat → Nat → Bool) (n : Nat) (d : Loc) (i : Nat) (m : Mem) : Run Unit :=
  (allocBox n .VECTOR (.vec []) d m).bind fun m b =>
    match m.blk b with
    | some (.vec cs) =>
      if cs.length ≤ i then resizeF ip (freeF n) (fromF ip n) b (u32 (i + 1)) m else .ok m ()
    | _ => .ub

/-- cc:3397-3401, `(*this)[s]`: the container becomes a MAP and gets the key. -/
def keyF (n : Nat) (d : Loc) (k : Bytes) (m : Mem) : Run Unit :=
  (allocBox n .MAP (.map []) d m).bind fun m b => keyAt b (cstr k) m

/-- cc:626-635, `erase(name)`: the entry is destroyed, if there is one. -/
def eraseF (n : Nat) (d : Loc) (k : Bytes) (m : Mem) : Run Unit :=
  match m.read d with
  | some (.box .MAP a) =>
    match m.blk a with
    | some (.map es) =>
      match kfind k es with
      | some c => (freeF n c m).bind fun m _ => .ok (m.upd a (some (.map (krem k es)))) ()
      | none => .ok m ()
    | _ => .ub
  | some _ => .throw m
  | none => .ub

/-- A call at a place; when the place does not exist the access throws. -/
def St.at (s : St) (x : Place) (f : Loc → Mem → Run Unit) : Run (Nat → Option Addr) :=
  match s.loc x with
  | none => .throw s.mem
  | some l => (f l s.mem).bind fun m _ => .ok m s.env

/-- One step of a program, with fuel `n` for the recursions.  `construct` of a variable that exists and `destroy` of one
that does not are not steps of a program and do nothing. -/
def St.step (ip : Nat → Nat → Bool) (n : Nat) (s : St) : POp → Run (Nat → Option Addr)
  | .construct x =>
    match s.env x with
    | some _ => .throw s.mem
    | none =>
      -- hh:725
      .ok (s.mem.alloc (.var (.imm notype))) fun y => if y = x then some s.mem.next else s.env y
  | .copyConstruct x y =>
    match s.env x, s.loc y with
    | none, some l =>
      -- hh:3880-3881
      let a := s.mem.next
      (fromF ip n ⟨a, .var⟩ l (s.mem.alloc (.var (.imm notype)))).bind fun m _ =>
        .ok m fun y => if y = x then some a else s.env y
    | _, _ => .throw s.mem
  | .destroy x =>
    match s.env x with
    | none => .throw s.mem
    | some a =>
      -- hh:743
      (clearAt n ⟨a, .var⟩ s.mem).bind fun m _ => .ok (m.upd a none) fun y => if y = x then none else s.env y
  | .clear x => s.at x (clearAt n)
  | .set x g => s.at x fun l => setF n l g
  | .setVector x k => s.at x fun l => setVectorF ip n l k
  | .setMap x => s.at x (setMapF n)
  | .idx x i => s.at x fun l => idxF ip n l i
  | .key x k => s.at x fun l => keyF n l k
  | .erase x k => s.at x fun l => eraseF n l k
  | .assign x y =>
    match s.loc y with
    | none => .throw s.mem
    | some l => s.at x fun d => fromF ip n d l

/-- A program runs: an exception ends the call, not the program. -/
def St.run (ip : Nat → Nat → Bool) (n : Nat) : List POp → St → Run (Nat → Option Addr)
  | [], s => .ok s.mem s.env
  | op :: ops, s =>
    match s.step ip n op with
    | .ok m e => St.run ip n ops ⟨m, e⟩
    | .throw m => St.run ip n ops ⟨m, s.env⟩
    | .ub => .ub
    | .fuel => .fuel

/-- At the start there is nothing. -/
def St.init : St := ⟨⟨fun _ => none, 0⟩, fun _ => none⟩

end Heap
end GCV
