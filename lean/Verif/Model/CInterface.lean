import Verif.Model.History
import Verif.Model.Names
import Verif.Model.Json

/-!
# The C interface (src/GenericContainerInterface_C.cc, here `ci`)

The library state are the explorers ever allocated (`GC_delete` releases none), the table of their names and
`gc_active`.  An explorer owns a container and a stack of pointers into it; a pointer is the path to what it
points to, or `none` when that object has been destroyed or moved.  C strings are the bytes before the NUL.

Simplifications: memory is unbounded; arrays are lists and `nelem` is their length; the text written by
`GC_dump` and `GC_print_content_types` is not modelled; the raw pointer given by `GC_mem_ptr` is only its
explorer's address.
-/

namespace GCV
namespace CApi
open GC

/-- Outcome of a call on a state `σ`; `throw`: a C++ exception leaves the call. -/
inductive Step (σ α : Type) where
  | ok (s : σ) (a : α)
  | throw (s : σ)
  | ub
  | diverge
  deriving Repr

/-- `ptr_map` and `map_iterator` (ci:62-63): no map yet; the map of the container at a path, and the key of the
node the iterator points to (`none`: `end()`); a map that no longer exists. -/
inductive Iter where
  | null
  | at (p : List Sel) (k : Option Bytes)
  | gone
  deriving DecidableEq, Repr

/-- ci:47-83 `GenericContainerExplorer`; top of `head` first. -/
structure Explorer where
  data : GC
  head : List (Option (List Sel))
  iter : Iter
  deriving Repr

/-- ci:67, the constructor -/
def Explorer.new : Explorer := ⟨notype, [some []], .null⟩

/-- Does the container object at a path survive a change of the tree?  Elements of a `vector<GenericContainer>` are
copied to other storage when it grows (there is no move constructor, hh:3881) and the ones behind the new end
are destroyed when it shrinks; nodes of a `std::map` stay where they are; a container that changes its type
destroys its elements. Growth within the capacity is counted as a move. -/
def survives : List Sel → GC → GC → Bool
  | [], _, _ => true
  | .key k :: p, map m, map n =>
    match mfind k m, mfind k n with
    | some x, some y => survives p x y
    | _, _ => false
  | .idx i :: p, vector v, vector w =>
    decide (w.length ≤ v.length) &&
      match v[i]?, w[i]? with
      | some x, some y => survives p x y
      | _, _ => false
  | _ :: _, _, _ => false

/-- Is the container at the path a map, in this tree? -/
def isMapAt (p : List Sel) (g : GC) : Bool :=
  match getAt p g with
  | some (map _) => true
  | _ => false

/-- The explorer after its container changed to `new`: which pointers are still valid. -/
def Explorer.become (e : Explorer) (new : GC) : Explorer where
  data := new
  head := e.head.map fun q => q.bind fun p => if survives p e.data new then some p else none
  iter :=
    match e.iter with
    | .at p k => if survives p e.data new && isMapAt p new then .at p k else .gone
    | i => i

/-- `top()` (ci:87-111), then a call `f` on the container: an empty stack fails the assertion. -/
def Explorer.onTop {α : Type} (f : GC → Res α) (e : Explorer) : Step Explorer α :=
  match e.head with
  | [] => .throw e
  | none :: _ => .ub
  | some p :: _ =>
    match getAt p e.data with
    | none => .ub
    | some g =>
      match f g with
      | .ok s a => .ok (e.become (modAt p (fun _ => s) e.data)) a
      | .throw s => .throw (e.become (modAt p (fun _ => s) e.data))
      | .ub => .ub
      | .diverge => .diverge

/-- `top()`, then a const call on the container. -/
def Explorer.readTop {α : Type} (f : GC → Out α) (e : Explorer) : Step Explorer α :=
  match e.head with
  | [] => .throw e
  | none :: _ => .ub
  | some p :: _ =>
    match getAt p e.data with
    | none => .ub
    | some g =>
      match f g with
      | .ok a => .ok e a
      | .throw => .throw e
      | .ub => .ub
      | .diverge => .diverge

/-- `GC_ErrorCodes` (ci:49-55, GenericContainerInterface_C.h:40-46) -/
def OK : Int := 0
def BAD_TYPE : Int := 1
def NO_DATA : Int := 2
def NOT_EMPTY : Int := 3
def BAD_HEAD : Int := 4

/-- ci:117-125 `check`, for a non-empty stack the type of what is on top -/
def Explorer.check (t : Ty) (e : Explorer) : Step Explorer Int :=
  match e.head with
  | [] => .ok e BAD_HEAD
  | none :: _ => .ub
  | some p :: _ =>
    match getAt p e.data with
    | none => .ub
    | some g => .ok e (if t = g.ty then OK else BAD_TYPE)

/-- ci:135-140 `pop` -/
def Explorer.pop (e : Explorer) : Explorer × Int :=
  match e.head with
  | [] => (e, NO_DATA)
  | _ :: r => ({ e with head := r }, OK)

/-- ci:184-189 `reset`: `while ( head.size() > 1 ) head.pop_back()` -/
def Explorer.reset (e : Explorer) : Explorer × Int :=
  if e.head = [] then (e, NO_DATA) else ({ e with head := e.head.drop (e.head.length - 1) }, OK)

/-- `head.push_back( &elem )` for an element of the container on top. -/
def Explorer.descend (s : Sel) (e : Explorer) : Explorer :=
  match e.head with
  | some p :: r => { e with head := some (p ++ [s]) :: some p :: r }
  | _ => e

/-- ci:148-156 `push_vector_position`, `(*head.back())[pos]` then `push_back` -/
def Explorer.push_vector_position (pos : BitVec 32) (e : Explorer) : Step Explorer Int :=
  match e.check .VECTOR with
  | .ok e ok =>
    if ok = OK then
      match e.onTop (withIdx pos.toNat fun x => .ok x ()) with
      | .ok e' _ => .ok (e'.descend (.idx pos.toNat)) ok
      | .throw e' => .throw e'
      | .ub => .ub
      | .diverge => .diverge
    else .ok e ok
  | r => r

/-- ci:158-166 `push_map_position` -/
def Explorer.push_map_position (pos : Bytes) (e : Explorer) : Step Explorer Int :=
  match e.check .MAP with
  | .ok e ok =>
    if ok = OK then
      match e.onTop (withKey pos fun x => .ok x ()) with
      | .ok e' _ => .ok (e'.descend (.key (cstr pos))) ok
      | .throw e' => .throw e'
      | .ub => .ub
      | .diverge => .diverge
    else .ok e ok
  | r => r

/-- First key of a map; the first one behind a given key. -/
def nextKey (k : Option Bytes) (m : Entries) : Option Bytes :=
  match k with
  | none => (m.head?).map Prod.fst
  | some k => (m.find? fun e => blt k e.1).map Prod.fst

/-- ci:168-176 `init_map_key` -/
def Explorer.init_map_key (e : Explorer) : Step Explorer Int :=
  match e.check .MAP with
  | .ok e ok =>
    if ok = OK then
      match e.head with
      | some p :: _ =>
        match getAt p e.data with
        | some (map m) => .ok { e with iter := .at p (nextKey none m) } ok
        | _ => .ub
      | _ => .ub
    else .ok e ok
  | r => r

/-- ci:178-182 `next_map_key`; `ptr_map->end()` of a null or destroyed map is undefined -/
def Explorer.next_map_key (e : Explorer) : Step Explorer Bytes :=
  match e.iter with
  | .null => .ub
  | .gone => .ub
  | .at p k =>
    match getAt p e.data with
    | some (map m) =>
      match k with
      | none => .ok e []
      | some k => .ok { e with iter := .at p (nextKey (some k) m) } k
    | _ => .ub

/-- ci:204-208: `gc_explorer`, `gc_active`, and the explorers in memory -/
structure Lib where
  heap : List Explorer
  names : List (Bytes × Nat)
  active : Option Nat
  deriving Repr

/-- The state at program start. -/
def Lib.init : Lib := ⟨[], [], none⟩

/-- `gc_explorer.find(id)` -/
def Lib.find (id : Bytes) (l : Lib) : Option Nat := (l.names.find? fun e => e.1 == id).map Prod.snd

/-- ci:224-234 `GC_select`, ci:212-222 `GC_new` -/
def Lib.select (id : Bytes) (l : Lib) : Lib :=
  match l.find id with
  | some a => { l with active := some a }
  | none => ⟨l.heap ++ [.new], l.names ++ [(id, l.heap.length)], some l.heap.length⟩

/-- ci:243-247 `GC_delete`: the table entry goes, the explorer and `gc_active` stay -/
def Lib.delete (id : Bytes) (l : Lib) : Lib := { l with names := l.names.filter fun e => e.1 != id }

/-- `if ( gc_active == nullptr ) return dflt; … gc_active->f()` -/
def Lib.onActive {α : Type} (dflt : α) (f : Explorer → Step Explorer α) (l : Lib) : Step Lib α :=
  match l.active with
  | none => .ok l dflt
  | some a =>
    match l.heap[a]? with
    | none => .ub
    | some e =>
      match f e with
      | .ok e' x => .ok { l with heap := l.heap.set a e' } x
      | .throw e' => .throw { l with heap := l.heap.set a e' }
      | .ub => .ub
      | .diverge => .diverge

/-- ci:193-200 `GC_TRY` and `return GENERIC_CONTAINER_OK` -/
def guarded {σ α : Type} : Step σ α → Step σ Int
  | .ok s _ => .ok s OK
  | .throw s => .ok s NO_DATA
  | .ub => .ub
  | .diverge => .diverge

/-- A call that is not guarded, with its result code. -/
def bare {σ α : Type} : Step σ α → Step σ Int
  | .ok s _ => .ok s OK
  | .throw s => .throw s
  | .ub => .ub
  | .diverge => .diverge

/-- What the calls return. -/
inductive Value where
  | code (c : Int)
  | bool (b : Bool)
  | int (i : I32)
  | long (l : I64)
  | real (r : F64)
  | complex (c : Cplx)
  | text (s : Option Bytes)
  | ptr (a : Option Nat)
  deriving DecidableEq, Repr

def Step.map {σ α β : Type} (f : α → β) : Step σ α → Step σ β
  | .ok s a => .ok s (f a)
  | .throw s => .throw s
  | .ub => .ub
  | .diverge => .diverge

/-- `std::copy_n( a, nelem, v.begin() )`, `for … v[i] = a[i]` on the vector made by `set_vec_*( nelem )`, which has at least
`nelem` elements. -/
def over {α : Type} (a v : List α) : List α := a ++ v.drop a.length

/-- ci:623-629 -/
def set_vector_of_bool (a : List Bool) (g : GC) : Res Unit :=
  match set_vec_bool_n a.length g with | vecBool v => .ok (vecBool (over a v)) () | _ => .ub
/-- ci:633-639 -/
def set_vector_of_int (a : List I32) (g : GC) : Res Unit :=
  match set_vec_int_n a.length g with | vecInt v => .ok (vecInt (over a v)) () | _ => .ub
/-- ci:641-647 -/
def set_vector_of_real (a : List F64) (g : GC) : Res Unit :=
  match set_vec_real_n a.length g with | vecReal v => .ok (vecReal (over a v)) () | _ => .ub
/-- ci:649-655 -/
def set_vector_of_complex (a : List Cplx) (g : GC) : Res Unit :=
  match set_vec_complex_n a.length g with | vecComplex v => .ok (vecComplex (over a v)) () | _ => .ub
/-- ci:657-663 -/
def set_vector_of_string (a : List Bytes) (g : GC) : Res Unit :=
  match set_vec_string_n a.length g with | vecString v => .ok (vecString (over a v)) () | _ => .ub

/-- ci:249-313, what `GC_fill_for_test` does to the container, call by call; `fl n` is the double of the integer or
constant named in the code. -/
def fillOps (fl : String → F64) : List Op :=
  let v (i : Nat) (op : Op) : Op := .idx (BitVec.ofNat 32 i) op
  let c (re im : String) : Cplx := ⟨fl re, fl im⟩
  [.setVector 0, .setVector 11,
   v 0 (.setInt 1), v 1 (.sizeVecReal 0), v 2 .setMap, v 3 (.sizeVecString 0), v 4 (.setReal (fl "1.3")),
   v 5 (.setString (str "pippo")), v 6 .setMap, v 7 (.setVector 0), v 10 (.setBool true),
   v 1 (.getVecReal fun w => (resizeL .zero 10 w).set 2 (fl "123")),
   v 2 (.key (str "pippo") (.setInt 13)), v 2 (.key (str "pluto") (.setInt 1)), v 2 (.key (str "paperino") (.setInt 3)),
   v 2 (.key (str "aaa") (.setString (str "stringa1"))), v 2 (.key (str "bbb") (.setString (str "stringa2"))),
   v 3 (.pushString (str "string1")), v 3 (.pushString (str "string2")), v 3 (.pushString (str "string3")),
   v 3 (.pushString (str "string4")),
   v 6 (.key (str "aaa") (.setInt 123)), v 6 (.key (str "bbb") (.setReal (fl "3.4"))),
   v 6 (.key (str "vector") (.sizeVecInt 0)), v 6 (.key (str "vector") (.pushInt 12)),
   v 6 (.key (str "vector") (.pushInt 10)), v 6 (.key (str "vector") (.pushInt 1)),
   v 7 (.setVector 4), v 7 (v 0 (.setInt 123)), v 7 (v 1 (.setReal (fl "3.14"))),
   v 7 (v 2 (.setString (str "nonna papera"))), v 7 (v 3 (.sizeVecComplex 0)), v 7 (v 3 (.pushComplex (c "1" "0"))),
   v 7 (v 3 (.pushComplex (c "2" "0"))), v 7 (v 3 (.pushComplex (c "3" "0"))), v 7 (v 3 (.pushComplex (c "-12" "2"))),
   v 8 (.sizeMatReal 2 2), v 8 (.realAt2 1 1 fun _ => fl "2"), v 8 (.realAt2 0 1 fun _ => fl "3"),
   v 9 (.sizeMatComplex 2 2), v 9 (.complexAt2 1 1 fun _ => c "2" "2"), v 9 (.complexAt2 0 1 fun _ => c "1" "-1")]

/-- Calls made directly on the root container of an explorer (through `mem_ptr`, not `top`). -/
def Explorer.onRoot : List Op → Explorer → Step Explorer Unit
  | [], e => .ok e ()
  | op :: ops, e =>
    match step op e.data with
    | .ok s _ => Explorer.onRoot ops (e.become s)
    | .throw s => .throw (e.become s)
    | .ub => .ub
    | .diverge => .diverge

/-- The functions of the interface. `junk` is what an uninitialised scalar of the union holds (see Core). -/
inductive Call where
  | new (id : Bytes) | select (id : Bytes) | memPtr (id : Bytes) | delete (id : Bytes)
  | fillForTest (fl : String → F64) (id : Bytes)
  | popHead | resetHead | printContentTypes | dump | getType | getTypeName
  | setBool (a : I32) | setInt (a : I32) | setReal (a : F64) | setComplex (a : Cplx) | setString (a : Bytes)
  | getBool (junk : Bool) | getInt (junk : I32) | getLong (junk : I64) | getReal (junk : F64) | getComplex
  | getComplexRe | getComplexIm | getString
  | pushBool (a : I32) | pushInt (a : I32) | pushReal (a : F64) | pushComplex (a : Cplx) | pushString (a : Bytes)
  | getBoolAt (pos : I32) | getIntAt (pos : I32) | getRealAt (pos : I32) | getComplexAt (pos : I32)
  | getComplexReAt (pos : I32) | getComplexImAt (pos : I32) | getStringAt (pos : I32)
  | getRealCoor (i j : I32) | getComplexCoor (i j : I32) | getComplexReCoor (i j : I32) | getComplexImCoor (i j : I32)
  | setEmptyVecBool | setEmptyVecInt | setEmptyVecReal | setEmptyVecComplex | setEmptyVecString
  | setVecBool (a : List I32) | setVecInt (a : List I32) | setVecReal (a : List F64)
  | setVecComplex (a : List Cplx) | setVecString (a : List Bytes)
  | setVector (n : I32) | setEmptyVector | getVectorSize | getNumRows | getNumCols
  | pushVectorPosition (pos : I32) | setMap | pushMapPosition (pos : Bytes) | initMapKey | getNextKey

/-- The guarded calls and what they do to the container on top: ci:356-396 (set), ci:455-496 (push),
ci:586-619 (empty vectors), ci:667-679, ci:707-712. -/
def Call.guardedOp : Call → Option Op
  | .setBool a => some (.setBool (a != 0)) | .setInt a => some (.setInt a) | .setReal a => some (.setReal a)
  | .setComplex a => some (.setComplex a) | .setString a => some (.setString (cstr a))
  | .pushBool a => some (.pushBool (a != 0)) | .pushInt a => some (.pushInt a) | .pushReal a => some (.pushReal a)
  | .pushComplex a => some (.pushComplex a) | .pushString a => some (.pushString (cstr a))
  | .setEmptyVecBool => some (.sizeVecBool 0) | .setEmptyVecInt => some (.sizeVecInt 0)
  | .setEmptyVecReal => some (.sizeVecReal 0) | .setEmptyVecComplex => some (.sizeVecComplex 0)
  | .setEmptyVecString => some (.sizeVecString 0)
  | .setVector n => some (.setVector n) | .setEmptyVector => some (.setVector 0) | .setMap => some .setMap
  | _ => none

/-- The unguarded queries of the container on top (ci:341-352, ci:400-451, ci:499-583, ci:681-697). -/
def Call.query : Call → Option (Value × (GC → Res Value))
  | .getType => some (.code (-1), fun g => .ok g (.code g.ty.code))
  | .getTypeName => some (.text (some []), fun g => .ok g (.text (some (get_type_name g))))
  | .getBool junk => some (.bool false, fun g => (get_bool junk g).bind fun s b => .ok s (.bool b))
  | .getInt junk => some (.int 0, fun g => (get_int junk g).bind fun s b => .ok s (.int b))
  | .getLong junk => some (.long 0, fun g => (get_long junk g).bind fun s b => .ok s (.long b))
  | .getReal junk => some (.real .zero, fun g => (get_real junk g).bind fun s b => .ok s (.real b))
  | .getComplex => some (.complex .zero, fun g => (get_complex g).bind fun s b => .ok s (.complex b))
  | .getComplexRe => some (.real .zero, fun g => (get_complex g).bind fun s b => .ok s (.real b.re))
  | .getComplexIm => some (.real .zero, fun g => (get_complex g).bind fun s b => .ok s (.real b.im))
  | .getString => some (.text none, fun g => (get_string g).bind fun s b => .ok s (.text (some (cstr b))))
  | .getBoolAt pos => some (.bool false, fun g => (get_bool_at pos.toNat g).bind fun s b => .ok s (.bool b))
  | .getIntAt pos => some (.int 0, fun g => (get_int_at pos.toNat id g).bind fun s b => .ok s (.int b))
  | .getRealAt pos => some (.real .zero, fun g => const g ((get_number_at pos.toNat g).bind fun r => .ok (.real r)))
  | .getComplexAt pos =>
    some (.complex .zero, fun g => const g ((get_complex_number_at pos.toNat g).bind fun r => .ok (.complex r)))
  | .getComplexReAt pos =>
    some (.real .zero, fun g => const g ((get_complex_number_at pos.toNat g).bind fun r => .ok (.real r.re)))
  | .getComplexImAt pos =>
    some (.real .zero, fun g => const g ((get_complex_number_at pos.toNat g).bind fun r => .ok (.real r.im)))
  | .getStringAt pos =>
    some (.text none, fun g => (get_string_at pos.toNat id g).bind fun s b => .ok s (.text (some (cstr b))))
  | .getRealCoor i j => some (.real .zero, fun g => (get_real_at2 i.toNat j.toNat id g).bind fun s b => .ok s (.real b))
  | .getComplexCoor i j =>
    some (.complex .zero, fun g => (get_complex_at2 i.toNat j.toNat id g).bind fun s b => .ok s (.complex b))
  | .getComplexReCoor i j =>
    some (.real .zero, fun g => (get_complex_at2 i.toNat j.toNat id g).bind fun s b => .ok s (.real b.re))
  | .getComplexImCoor i j =>
    some (.real .zero, fun g => (get_complex_at2 i.toNat j.toNat id g).bind fun s b => .ok s (.real b.im))
  | .getVectorSize => some (.int 0, fun g => .ok g (.int (BitVec.ofNat 32 g.get_num_elements)))
  | .getNumRows => some (.int 0, fun g => .ok g (.int (BitVec.ofNat 32 g.num_rows)))
  | .getNumCols => some (.int 0, fun g => .ok g (.int (BitVec.ofNat 32 g.num_cols)))
  | _ => none
where
  const (g : GC) : Out Value → Res Value
    | .ok v => .ok g v
    | .throw => .throw g
    | .ub => .ub
    | .diverge => .diverge

/-- The unguarded setters (ci:623-663). -/
def Call.fill : Call → Option (GC → Res Unit)
  | .setVecBool a => some (set_vector_of_bool (a.map (· != 0)))
  | .setVecInt a => some (set_vector_of_int a)
  | .setVecReal a => some (set_vector_of_real a)
  | .setVecComplex a => some (set_vector_of_complex a)
  | .setVecString a => some (set_vector_of_string (a.map cstr))
  | _ => none

/-- One call of the interface; ci:236-241 `GC_mem_ptr`, ci:315-339, ci:699-703, ci:719-736 and the groups above. -/
def Call.run (c : Call) (l : Lib) : Step Lib Value :=
  match c with
  | .new id => .ok (l.select id) (.code OK)
  | .select id => .ok (l.select id) (.code OK)
  | .memPtr id => .ok (l.select id) (.ptr (l.select id).active)
  | .delete id => .ok (l.delete id) (.code OK)
  | .fillForTest fl id => (bare ((l.select id).onActive () (Explorer.onRoot (fillOps fl)))).map .code
  | .popHead => (l.onActive BAD_HEAD fun e => .ok e.pop.1 e.pop.2).map .code
  | .resetHead => (l.onActive BAD_HEAD fun e => .ok e.reset.1 e.reset.2).map .code
  | .printContentTypes => (l.onActive BAD_HEAD fun e => guarded (e.readTop fun _ => .ok ())).map .code
  | .dump => (l.onActive BAD_HEAD fun e => guarded (e.readTop fun _ => .ok ())).map .code
  | .pushVectorPosition pos => (l.onActive BAD_HEAD (Explorer.push_vector_position pos)).map .code
  | .pushMapPosition pos => (l.onActive BAD_HEAD (Explorer.push_map_position pos)).map .code
  | .initMapKey => (l.onActive BAD_HEAD Explorer.init_map_key).map .code
  | .getNextKey => l.onActive (.text none) fun e => e.next_map_key.map fun k => .text (some (cstr k))
  | c =>
    match c.guardedOp, c.query, c.fill with
    | some op, _, _ => (l.onActive BAD_HEAD fun e => guarded (e.onTop (step op))).map .code
    | none, some (d, f), _ => l.onActive d (Explorer.onTop f)
    | none, none, some f => (l.onActive BAD_HEAD fun e => bare (e.onTop f)).map .code
    | none, none, none => .ub

/-- A sequence of calls; the calls go on after an exception that the caller caught. -/
def runs : List Call → Lib → Option Lib
  | [], l => some l
  | c :: cs, l =>
    match c.run l with
    | .ok l' _ => runs cs l'
    | .throw l' => runs cs l'
    | _ => none

end CApi
end GCV
