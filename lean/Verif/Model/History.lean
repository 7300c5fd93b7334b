import Verif.Model.At
import Verif.Model.Copy
import Verif.Model.Collapse
import Verif.Model.Serialize

/-!
# Histories of calls

`Op` lists the modelled calls that may change a container, `step` runs one.  A C++ `unsigned`
argument is a `BitVec 32`.  Writes through a returned reference are part of the call.
-/

namespace GCV
namespace GC

/-- The outcome of a call that returns a container or fails without touching `g`. -/
def keep (g : GC) : Out GC → Res Unit
  | .ok s => .ok s ()
  | .throw => .throw g
  | .ub => .ub
  | .diverge => .diverge

/-- Forget the returned value. -/
def drop {α : Type} : Res α → Res Unit
  | .ok s _ => .ok s ()
  | .throw s => .throw s
  | .ub => .ub
  | .diverge => .diverge

/-- The calls; the functions are the ones of Model/Core, Copy, Access, At, Promote and Collapse, which
cite the code. -/
inductive Op where
  /-- `cc:586-624 clear` -/
  | clear
  /-- `cc:784-796 free_pointer` -/
  | freePointer
  /-- `cc:626-635 erase(key)` -/
  | erase (k : Bytes)
  /-- `set_pointer(x), operator=` -/
  | setPointer (x : Ptr)
  /-- `set_bool(x), operator=` -/
  | setBool (x : Bool)
  /-- `set_int(x), operator=` -/
  | setInt (x : I32)
  /-- `set_long(x), operator=` -/
  | setLong (x : I64)
  /-- `set_real(x), operator=` -/
  | setReal (x : F64)
  /-- `set_complex(x), operator=` -/
  | setComplex (x : Cplx)
  /-- `set_string(x), operator=` -/
  | setString (x : Bytes)
  /-- `operator=(uint)` -/
  | setUint (x : BitVec 32)
  /-- `operator=(ulong)` -/
  | setUlong (x : BitVec 64)
  /-- `set_vec_pointer(n)` -/
  | sizeVecPointer (n : BitVec 32)
  /-- `set_vec_pointer(v), operator=` -/
  | setVecPointer (v : List Ptr)
  /-- `set_vec_bool(n)` -/
  | sizeVecBool (n : BitVec 32)
  /-- `set_vec_bool(v), operator=` -/
  | setVecBool (v : List Bool)
  /-- `set_vec_int(n)` -/
  | sizeVecInt (n : BitVec 32)
  /-- `set_vec_int(v), operator=` -/
  | setVecInt (v : List I32)
  /-- `set_vec_long(n)` -/
  | sizeVecLong (n : BitVec 32)
  /-- `set_vec_long(v), operator=` -/
  | setVecLong (v : List I64)
  /-- `set_vec_real(n)` -/
  | sizeVecReal (n : BitVec 32)
  /-- `set_vec_real(v), operator=` -/
  | setVecReal (v : List F64)
  /-- `set_vec_complex(n)` -/
  | sizeVecComplex (n : BitVec 32)
  /-- `set_vec_complex(v), operator=` -/
  | setVecComplex (v : List Cplx)
  /-- `set_vec_string(n)` -/
  | sizeVecString (n : BitVec 32)
  /-- `set_vec_string(v), operator=` -/
  | setVecString (v : List Bytes)
  /-- `set_mat_int(nr,nc)` -/
  | sizeMatInt (nr nc : BitVec 32)
  /-- `set_mat_int(m), operator=` -/
  | setMatInt (m : Mat I32)
  /-- `set_mat_long(nr,nc)` -/
  | sizeMatLong (nr nc : BitVec 32)
  /-- `set_mat_long(m), operator=` -/
  | setMatLong (m : Mat I64)
  /-- `set_mat_real(nr,nc)` -/
  | sizeMatReal (nr nc : BitVec 32)
  /-- `set_mat_real(m), operator=` -/
  | setMatReal (m : Mat F64)
  /-- `set_mat_complex(nr,nc)` -/
  | sizeMatComplex (nr nc : BitVec 32)
  /-- `set_mat_complex(m), operator=` -/
  | setMatComplex (m : Mat Cplx)
  /-- `set_vector(n)` -/
  | setVector (n : BitVec 32)
  /-- `set_map()` -/
  | setMap
  /-- `operator=(GenericContainer const &), load, from_gc` -/
  | assign (src : GC)
  /-- `src.to_gc( *this )` -/
  | dump (src : GC)
  /-- `merge(src)` -/
  | merge (src : GC)
  /-- `push_bool(x)` -/
  | pushBool (x : Bool)
  /-- `push_int(x)` -/
  | pushInt (x : I32)
  /-- `push_long(x)` -/
  | pushLong (x : I64)
  /-- `push_real(x)` -/
  | pushReal (x : F64)
  /-- `push_complex(x)` -/
  | pushComplex (x : Cplx)
  /-- `push_string(x)` -/
  | pushString (x : Bytes)
  /-- `promote_to_int()` -/
  | promoteInt
  /-- `promote_to_long()` -/
  | promoteLong
  /-- `promote_to_real()` -/
  | promoteReal
  /-- `promote_to_complex()` -/
  | promoteComplex
  /-- `promote_to_vec_int()` -/
  | promoteVecInt
  /-- `promote_to_vec_long()` -/
  | promoteVecLong
  /-- `promote_to_vec_real()` -/
  | promoteVecReal
  /-- `promote_to_vec_complex()` -/
  | promoteVecComplex
  /-- `promote_to_mat_int()` -/
  | promoteMatInt
  /-- `promote_to_mat_long()` -/
  | promoteMatLong
  /-- `promote_to_mat_real()` -/
  | promoteMatReal
  /-- `promote_to_mat_complex()` -/
  | promoteMatComplex
  /-- `promote_to_vector()` -/
  | promoteVector
  /-- `get_bool_at(i)` -/
  | boolAt (i : BitVec 32)
  /-- `get_int_at(i) and a write through the reference` -/
  | intAt (i : BitVec 32) (upd : I32 → I32)
  /-- `get_long_at(i) and a write through the reference` -/
  | longAt (i : BitVec 32) (upd : I64 → I64)
  /-- `get_real_at(i) and a write through the reference` -/
  | realAt (i : BitVec 32) (upd : F64 → F64)
  /-- `get_complex_at(i) and a write through the reference` -/
  | complexAt (i : BitVec 32) (upd : Cplx → Cplx)
  /-- `get_string_at(i) and a write through the reference` -/
  | stringAt (i : BitVec 32) (upd : Bytes → Bytes)
  /-- `get_int_at(i,j) and a write through the reference` -/
  | intAt2 (i j : BitVec 32) (upd : I32 → I32)
  /-- `get_long_at(i,j) and a write through the reference` -/
  | longAt2 (i j : BitVec 32) (upd : I64 → I64)
  /-- `get_real_at(i,j) and a write through the reference` -/
  | realAt2 (i j : BitVec 32) (upd : F64 → F64)
  /-- `get_complex_at(i,j) and a write through the reference` -/
  | complexAt2 (i j : BitVec 32) (upd : Cplx → Cplx)
  /-- `get_vec_int() and writes through the reference` -/
  | getVecInt (upd : List I32 → List I32)
  /-- `get_vec_long() and writes through the reference` -/
  | getVecLong (upd : List I64 → List I64)
  /-- `get_vec_real() and writes through the reference` -/
  | getVecReal (upd : List F64 → List F64)
  /-- `get_vec_complex() and writes through the reference` -/
  | getVecComplex (upd : List Cplx → List Cplx)
  /-- `get_mat_int() and calls through the reference` -/
  | getMatInt (upd : Mat I32 → Mat I32)
  /-- `get_mat_long() and calls through the reference` -/
  | getMatLong (upd : Mat I64 → Mat I64)
  /-- `get_mat_real() and calls through the reference` -/
  | getMatReal (upd : Mat F64 → Mat F64)
  /-- `get_mat_complex() and calls through the reference` -/
  | getMatComplex (upd : Mat Cplx → Mat Cplx)
  /-- `get_bool() = new` -/
  | getBool (junk new : Bool)
  /-- `get_int() = new` -/
  | getInt (junk new : I32)
  /-- `get_long() = new` -/
  | getLong (junk new : I64)
  /-- `get_real() = new` -/
  | getReal (junk new : F64)
  /-- `get_complex() = new` -/
  | getComplex (new : Cplx)
  /-- `get_string() = new` -/
  | getString (new : Bytes)
  /-- `collapse()` -/
  | collapse
  /-- `operator[](key) const` -/
  | constKey (k : Bytes)
  /-- `operator[](i), then op on the element` -/
  | idx (i : BitVec 32) (op : Op)
  /-- `operator()(i), then op on the element` -/
  | call (i : BitVec 32) (op : Op)
  /-- `operator[](key), then op on the element` -/
  | key (k : Bytes) (op : Op)
  /-- `operator()(key), then op on the element` -/
  | callKey (k : Bytes) (op : Op)
  /-- `operator()(keys), then op on the element` -/
  | callKeys (ks : List Bytes) (op : Op)

/-- One call on a container. -/
def step : Op → GC → Res Unit
  | .clear, g => .ok (GC.clear g) ()
  | .freePointer, g => free_pointer g
  | .erase k, g => GC.erase k g
  | .setPointer x, g => .ok (set_pointer x g) ()
  | .setBool x, g => .ok (set_bool x g) ()
  | .setInt x, g => .ok (set_int x g) ()
  | .setLong x, g => .ok (set_long x g) ()
  | .setReal x, g => .ok (set_real x g) ()
  | .setComplex x, g => .ok (set_complex x g) ()
  | .setString x, g => .ok (set_string x g) ()
  | .setUint x, g => .ok (assign_uint x g) ()
  | .setUlong x, g => .ok (assign_ulong x g) ()
  | .sizeVecPointer n, g => .ok (set_vec_pointer_n n.toNat g) ()
  | .setVecPointer v, g => keep g (set_vec_pointer v g)
  | .sizeVecBool n, g => .ok (set_vec_bool_n n.toNat g) ()
  | .setVecBool v, g => keep g (set_vec_bool v g)
  | .sizeVecInt n, g => .ok (set_vec_int_n n.toNat g) ()
  | .setVecInt v, g => keep g (set_vec_int v g)
  | .sizeVecLong n, g => .ok (set_vec_long_n n.toNat g) ()
  | .setVecLong v, g => keep g (set_vec_long v g)
  | .sizeVecReal n, g => .ok (set_vec_real_n n.toNat g) ()
  | .setVecReal v, g => keep g (set_vec_real v g)
  | .sizeVecComplex n, g => .ok (set_vec_complex_n n.toNat g) ()
  | .setVecComplex v, g => keep g (set_vec_complex v g)
  | .sizeVecString n, g => .ok (set_vec_string_n n.toNat g) ()
  | .setVecString v, g => keep g (set_vec_string v g)
  | .sizeMatInt nr nc, g => .ok (set_mat_int_n nr.toNat nc.toNat g) ()
  | .setMatInt m, g => keep g (set_mat_int m g)
  | .sizeMatLong nr nc, g => .ok (set_mat_long_n nr.toNat nc.toNat g) ()
  | .setMatLong m, g => keep g (set_mat_long m g)
  | .sizeMatReal nr nc, g => .ok (set_mat_real_n nr.toNat nc.toNat g) ()
  | .setMatReal m, g => keep g (set_mat_real m g)
  | .sizeMatComplex nr nc, g => .ok (set_mat_complex_n nr.toNat nc.toNat g) ()
  | .setMatComplex m, g => keep g (set_mat_complex m g)
  | .setVector n, g => .ok (set_vector n.toNat g) ()
  | .setMap, g => .ok (set_map g) ()
  | .assign src, g => keep g (from_gc src g)
  | .dump src, g => keep g (to_gc src g)
  | .merge src, g => GC.merge src g
  | .pushBool x, g => push_bool x g
  | .pushInt x, g => push_int x g
  | .pushLong x, g => push_long x g
  | .pushReal x, g => push_real x g
  | .pushComplex x, g => push_complex x g
  | .pushString x, g => push_string x g
  | .promoteInt, g => promote_to_int g
  | .promoteLong, g => promote_to_long g
  | .promoteReal, g => promote_to_real g
  | .promoteComplex, g => promote_to_complex g
  | .promoteVecInt, g => promote_to_vec_int g
  | .promoteVecLong, g => promote_to_vec_long g
  | .promoteVecReal, g => promote_to_vec_real g
  | .promoteVecComplex, g => promote_to_vec_complex g
  | .promoteMatInt, g => promote_to_mat_int g
  | .promoteMatLong, g => promote_to_mat_long g
  | .promoteMatReal, g => promote_to_mat_real g
  | .promoteMatComplex, g => promote_to_mat_complex g
  | .promoteVector, g => promote_to_vector g
  | .boolAt i, g => drop (get_bool_at i.toNat g)
  | .intAt i upd, g => drop (get_int_at i.toNat upd g)
  | .longAt i upd, g => drop (get_long_at i.toNat upd g)
  | .realAt i upd, g => drop (get_real_at i.toNat upd g)
  | .complexAt i upd, g => drop (get_complex_at i.toNat upd g)
  | .stringAt i upd, g => drop (get_string_at i.toNat upd g)
  | .intAt2 i j upd, g => drop (get_int_at2 i.toNat j.toNat upd g)
  | .longAt2 i j upd, g => drop (get_long_at2 i.toNat j.toNat upd g)
  | .realAt2 i j upd, g => drop (get_real_at2 i.toNat j.toNat upd g)
  | .complexAt2 i j upd, g => drop (get_complex_at2 i.toNat j.toNat upd g)
  | .getVecInt upd, g => drop (get_vec_int upd g)
  | .getVecLong upd, g => drop (get_vec_long upd g)
  | .getVecReal upd, g => drop (get_vec_real upd g)
  | .getVecComplex upd, g => drop (get_vec_complex upd g)
  | .getMatInt upd, g => drop (get_mat_int upd g)
  | .getMatLong upd, g => drop (get_mat_long upd g)
  | .getMatReal upd, g => drop (get_mat_real upd g)
  | .getMatComplex upd, g => drop (get_mat_complex upd g)
  | .getBool junk new, g => (get_bool junk g).bind fun _ _ => .ok (set_bool new g) ()
  | .getInt junk new, g => (get_int junk g).bind fun _ _ => .ok (set_int new g) ()
  | .getLong junk new, g => (get_long junk g).bind fun _ _ => .ok (set_long new g) ()
  | .getReal junk new, g => (get_real junk g).bind fun _ _ => .ok (set_real new g) ()
  | .getComplex new, g => (get_complex g).bind fun _ _ => .ok (set_complex new g) ()
  | .getString new, g => (get_string g).bind fun _ _ => .ok (set_string new g) ()
  | .collapse, g => GC.collapse g
  | .constKey k, g => drop (key_c k g)
  | .idx i op, g => withIdx i.toNat (step op) g
  | .call i op, g => withIdxChecked i.toNat (step op) g
  | .key k op, g => withKey k (step op) g
  | .callKey k op, g => withKeyChecked k (step op) g
  | .callKeys ks op, g => withKeysChecked ks (step op) g

/-- The containers given to a call as source. -/
def Op.sources : Op → List GC
  | .assign s => [s]
  | .dump s => [s]
  | .merge s => [s]
  | .idx _ op => op.sources
  | .call _ op => op.sources
  | .key _ op => op.sources
  | .callKey _ op => op.sources
  | .callKeys _ op => op.sources
  | _ => []

/-- The matrices given to a call are matrices as the class `mat_type` builds them, and only matrix
functions are called through a reference to a matrix. -/
def Op.argsOk (wf : {α : Type} → Mat α → Prop) : Op → Prop
  | .setMatInt m => wf m
  | .setMatLong m => wf m
  | .setMatReal m => wf m
  | .setMatComplex m => wf m
  | .getMatInt upd => ∀ m, wf m → wf (upd m)
  | .getMatLong upd => ∀ m, wf m → wf (upd m)
  | .getMatReal upd => ∀ m, wf m → wf (upd m)
  | .getMatComplex upd => ∀ m, wf m → wf (upd m)
  | .idx _ op => op.argsOk wf
  | .call _ op => op.argsOk wf
  | .key _ op => op.argsOk wf
  | .callKey _ op => op.argsOk wf
  | .callKeys _ op => op.argsOk wf
  | _ => True

end GC
end GCV
