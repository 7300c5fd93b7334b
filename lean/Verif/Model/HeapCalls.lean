import Verif.Model.HeapOps
import Verif.Model.History

/-!
# The other calls in memory: promotions, push, positional access, get, merge, collapse

`pr` is src/GenericContainerPromote.cc, `co` src/GenericContainerCollapse.cc.  The calls are those of `Op`
(Verif/Model/History.lean); what they do to the memory is here.  A value that is written through a returned reference is
written in the payload the reference is to.
-/

namespace GCV
namespace Heap
open GC

/-- `m_data_type` -/
def Cell.ty : Cell → Ty
  | .imm g => g.ty
  | .box t _ => t

/-- A value read from the object (`m_data.i`, …) or from a payload without containers (`*m_data.c`, …). -/
def leafAt (m : Mem) : Cell → Option GC
  | .imm g => some g
  | .box _ a =>
    match m.blk a with
    | some (.leaf g) => some g
    | _ => none

/-- What a promotion does for a content of some type. -/
inductive How
  /-- it throws before touching anything -/
  | no
  /-- nothing -/
  | keep
  /-- the old value is copied into a local variable, then `set_T` and, for a vector or matrix, its one element is
  written; `f` gives the new content -/
  | set (f : GC → Res Unit)
  /-- the address of the old payload is kept in a local variable, `m_data_type = NOTYPE`, `set_T` makes a new payload, the
  loop fills it from the old one, and the old one is deleted; `t` is the type of the new payload, `f` gives it -/
  | aside (t : Ty) (f : GC → Res Unit)

/-- A promotion, `how` being its `switch (m_data_type)`. -/
def promF (how : Ty → How) (n : Nat) (d : Loc) (m : Mem) : Run Unit :=
  match m.read d with
  | none => .ub
  | some c =>
    match how c.ty with
    | .no => .throw m
    | .keep => .ok m ()
    | .set f =>
      match leafAt m c with
      | some g =>
        match f g with
        | .ok g' _ => setF n d g' m
        | _ => .ub
      | none => .ub
    | .aside t f =>
      match c with
      | .imm _ => .ub
      | .box _ a =>
        (m.write d (.imm notype)).bind fun m _ =>
          (allocBox n t (.leaf notype) d m).bind fun m b =>
            match m.blk a with
            | some (.leaf g) =>
              match f g with
              | .ok g' _ => .ok ((m.upd b (some (.leaf g'))).upd a none) ()
              | _ => .ub
            | _ => .ub

/-- pr:1120-1154 -/
def howInt : Ty → How
  | .NOTYPE | .BOOL => .set promote_to_int
  | .INTEGER => .keep
  | _ => .no

/-- pr:1156-1190 -/
def howLong : Ty → How
  | .NOTYPE | .BOOL | .INTEGER => .set promote_to_long
  | .LONG => .keep
  | _ => .no

/-- pr:1192-1227 -/
def howReal : Ty → How
  | .NOTYPE | .BOOL | .INTEGER | .LONG => .set promote_to_real
  | .REAL => .keep
  | _ => .no

/-- pr:1272-1321 -/
def howVecInt : Ty → How
  | .NOTYPE | .BOOL | .INTEGER => .set promote_to_vec_int
  | .VEC_BOOL => .aside .VEC_INTEGER promote_to_vec_int
  | .VEC_INTEGER => .keep
  | _ => .no

/-- pr:1323-1384 -/
def howVecLong : Ty → How
  | .NOTYPE | .BOOL | .INTEGER | .LONG => .set promote_to_vec_long
  | .VEC_BOOL | .VEC_INTEGER => .aside .VEC_LONG promote_to_vec_long
  | .VEC_LONG => .keep
  | _ => .no

/-- pr:1386-1460 -/
def howVecReal : Ty → How
  | .NOTYPE | .BOOL | .INTEGER | .LONG | .REAL => .set promote_to_vec_real
  | .VEC_BOOL | .VEC_INTEGER | .VEC_LONG => .aside .VEC_REAL promote_to_vec_real
  | .VEC_REAL => .keep
  | _ => .no

/-- pr:1462-1549; the COMPLEX payload is copied, then released by `set_vec_complex`. -/
def howVecComplex : Ty → How
  | .NOTYPE | .BOOL | .INTEGER | .LONG | .REAL | .COMPLEX => .set promote_to_vec_complex
  | .VEC_BOOL | .VEC_INTEGER | .VEC_LONG | .VEC_REAL => .aside .VEC_COMPLEX promote_to_vec_complex
  | .VEC_COMPLEX => .keep
  | _ => .no

/-- pr:1229-1270 -/
def howComplex : Ty → How
  | .NOTYPE | .BOOL | .INTEGER | .LONG | .REAL => .set promote_to_complex
  | .COMPLEX => .keep
  | .VEC_POINTER => howVecComplex .VEC_POINTER
  | .VEC_BOOL => howVecComplex .VEC_BOOL
  | .VEC_INTEGER => howVecComplex .VEC_INTEGER
  | .VEC_LONG => howVecComplex .VEC_LONG
  | .VEC_REAL => howVecComplex .VEC_REAL
  | _ => .no

/-- pr:1551-1607 -/
def howMatInt : Ty → How
  | .NOTYPE | .BOOL | .INTEGER => .set promote_to_mat_int
  | .VEC_BOOL | .VEC_INTEGER => .aside .MAT_INTEGER promote_to_mat_int
  | .MAT_INTEGER => .keep
  | _ => .no

/-- pr:1609-1681; VEC_BOOL makes a MAT_REAL (pr:1631). -/
def howMatLong : Ty → How
  | .NOTYPE | .BOOL | .INTEGER => .set promote_to_mat_long
  | .VEC_BOOL => .aside .MAT_REAL promote_to_mat_long
  | .VEC_INTEGER | .VEC_LONG | .MAT_INTEGER => .aside .MAT_LONG promote_to_mat_long
  | .MAT_LONG => .keep
  | _ => .no

/-- pr:1683-1776 -/
def howMatReal : Ty → How
  | .NOTYPE | .BOOL | .INTEGER | .REAL => .set promote_to_mat_real
  | .VEC_BOOL | .VEC_INTEGER | .VEC_LONG | .VEC_REAL | .MAT_INTEGER | .MAT_LONG => .aside .MAT_REAL promote_to_mat_real
  | .MAT_REAL => .keep
  | _ => .no

/-- pr:1778-1884 -/
def howMatComplex : Ty → How
  | .NOTYPE | .BOOL | .INTEGER | .LONG | .REAL => .set promote_to_mat_complex
  | .VEC_BOOL | .VEC_INTEGER | .VEC_LONG | .VEC_REAL | .MAT_INTEGER | .MAT_LONG | .MAT_REAL =>
    .aside .MAT_COMPLEX promote_to_mat_complex
  | .MAT_COMPLEX => .keep
  | _ => .no

/-- The payload without containers is changed in place: `push_back`, `resize`, a write through a reference. -/
def editF (f : GC → Res Unit) (_ : Nat) (d : Loc) (m : Mem) : Run Unit :=
  match m.read d with
  | some (.box _ a) =>
    match m.blk a with
    | some (.leaf g) =>
      match f g with
      | .ok g' _ => .ok (m.upd a (some (.leaf g'))) ()
      | .throw _ => .throw m
      | _ => .ub
    | _ => .ub
  | _ => .ub

/-- `if ( m_data_type == ... )` -/
def tagF (k : Ty → Nat → Loc → Mem → Run Unit) (n : Nat) (d : Loc) (m : Mem) : Run Unit :=
  match m.read d with
  | none => .ub
  | some c => k c.ty n d m

/-- One after the other. -/
def seqF (f h : Nat → Loc → Mem → Run Unit) (n : Nat) (d : Loc) (m : Mem) : Run Unit :=
  (f n d m).bind fun m _ => h n d m

/-- An exception, thrown before anything is touched. -/
def throwF (_ : Nat) (_ : Loc) (m : Mem) : Run Unit := .throw m

/-- `m_data.v->resize(m_data.v->size()+1); m_data.v->back().set_T( x )` (cc:1159-1160 and the like). -/
def backF (ip : Nat → Nat → Bool) (x : GC) (n : Nat) (d : Loc) (m : Mem) : Run Unit :=
  match m.read d with
  | some (.box .VECTOR a) =>
    match m.blk a with
    | some (.vec cs) =>
      (resizeF ip (freeF n) (fromF ip n) a (cs.length + 1) m).bind fun m _ => setF n ⟨a, .idx cs.length⟩ x m
    | _ => .ub
  | _ => .ub

/-- `(*m_data.v)[i].set_T( x )` -/
def elemSetF (i : Nat) (x : GC) (n : Nat) (d : Loc) (m : Mem) : Run Unit :=
  match m.read d with
  | some (.box .VECTOR a) => setF n ⟨a, .idx i⟩ x m
  | _ => .ub

/-- `CHECK_RESIZE(m_data.v,i); return (*m_data.v)[i].set_T( z )` on a VECTOR (cc:2926-2928 and the like); `x` is the
value after the write through the reference. -/
def elemF (ip : Nat → Nat → Bool) (i : Nat) (x : GC) : Nat → Loc → Mem → Run Unit :=
  seqF (fun n d => idxF ip n d i) (elemSetF i x)

/-- The elements of a packed vector, each as the container that is made of it. -/
def unpacked : GC → List GC
  | .vecPointer v => v.map pointer
  | .vecBool v => v.map bool
  | .vecInt v => v.map int
  | .vecLong v => v.map long
  | .vecReal v => v.map real
  | .vecComplex v => v.map complex
  | .vecString v => v.map string
  | _ => []

/-- `for ( unsigned i{0}; i < v_i->size(); ++i ) (*m_data.v)[i] = (*v_i)[i]` (pr:1917-1918 and the like): `v_i` at `a`,
the VECTOR at `b`. -/
def unpackLoop (n : Nat) (a b : Addr) : Nat → Nat → Mem → Run Unit
  | _, 0, m => .ok m ()
  | i, k + 1, m =>
    match m.blk a with
    | some (.leaf g) =>
      match (unpacked g)[i]? with
      | some x => (setF n ⟨b, .idx i⟩ x m).bind fun m _ => unpackLoop n a b (i + 1) k m
      | none => .ok m ()
    | _ => .ub

/-- pr:1886-1986, `promote_to_vector`.  The value of a scalar is read from the union after `m_data.v` has become the
active member. -/
def promVecF (ip : Nat → Nat → Bool) (n : Nat) (d : Loc) (m : Mem) : Run Unit :=
  match m.read d with
  | none => .ub
  | some (.imm .notype) =>
    (setVectorF ip n d 1 m).bind fun m _ =>
      match m.read d with
      | some (.box .VECTOR b) => clearAt n ⟨b, .idx 0⟩ m
      | _ => .ub
  | some (.imm _) => .ub
  | some (.box t a) =>
    match t with
    | .VECTOR => .ok m ()
    | .MAT_INTEGER | .MAT_LONG | .MAT_REAL | .MAT_COMPLEX | .MAP => .throw m
    | .VEC_POINTER | .VEC_BOOL | .VEC_INTEGER | .VEC_LONG | .VEC_REAL | .VEC_COMPLEX | .VEC_STRING =>
      match m.blk a with
      | some (.leaf g) =>
        (m.write d (.imm notype)).bind fun m _ =>
          (setVectorF ip n d (u32 (unpacked g).length) m).bind fun m _ =>
            match m.read d with
            | some (.box .VECTOR b) =>
              (unpackLoop n a b 0 (unpacked g).length m).bind fun m _ =>
                match m.blk a with
                | some _ => .ok (m.upd a none) ()
                | none => .ub
            | _ => .ub
      | _ => .ub
    | _ => .ub

/-- `set_T( n )`: `allocate_T` keeps a payload of this type, otherwise clears and makes an empty one; then `resize`. -/
def sizeF (empty : GC) (f : GC → Res Unit) : Nat → Loc → Mem → Run Unit :=
  seqF (fun n d m => (allocBox n empty.ty (.leaf empty) d m).bind fun m _ => .ok m ()) (editF f)

/-- cc:848-890, `allocate_mat_T( nr, nc )`: a matrix of this type is resized, otherwise a new one is made. -/
def sizeMatF (fresh : GC) (f : GC → Res Unit) : Nat → Loc → Mem → Run Unit :=
  tagF fun t =>
    if t = fresh.ty then editF f
    else fun n d m => (allocBox n fresh.ty (.leaf fresh) d m).bind fun m _ => .ok m ()

/-- The first lines of a mutable getter: an empty container gets an empty payload (`set_T()`), some contents are
promoted. -/
def readyF (empty : GC) (promoted : Ty → Bool) (how : Ty → How) : Nat → Loc → Mem → Run Unit :=
  promF fun t =>
    if t = .NOTYPE then .set fun _ => .ok empty ()
    else if promoted t then how t
    else .keep

/-- `get_T_at(i)` (cc:2919-3152): `ready`, then the packed vector of type `t`, or the VECTOR. -/
def atF (ip : Nat → Nat → Bool) (ready : Nat → Loc → Mem → Run Unit) (t : Ty) (f : GC → Res Unit) (i : Nat) (x : GC) :
    Nat → Loc → Mem → Run Unit :=
  seqF ready (tagF fun t' =>
    if t' = t then editF f
    else if t' = .VECTOR then elemF ip i x
    else seqF (promVecF ip) (elemF ip i x))

/-- `ck(where,t); return *m_data.x` -/
def ckF (t : Ty) (f : GC → Res Unit) : Nat → Loc → Mem → Run Unit :=
  tagF fun t' => if t' = t then editF f else throwF

/-- Deep read of a container: what the loops of `collapse` read of the elements. -/
def optL {α β : Type} (f : α → Option β) : List α → Option (List β)
  | [] => some []
  | c :: cs =>
    match f c, optL f cs with
    | some x, some xs => some (x :: xs)
    | _, _ => none

/-- The tree that is in a container. -/
def peek : Nat → Mem → Cell → Option GC
  | _, _, .imm g => some g
  | 0, _, .box _ _ => none
  | n + 1, m, .box _ a =>
    match m.blk a with
    | some (.leaf g) => some g
    | some (.vec cs) => (optL (peek n m) cs).map vector
    | some (.map es) => (optL (fun e => (peek n m e.2).map fun x => (e.1, x)) es).map .map
    | _ => none

/-- `for ( auto & [..] : *m_data.m ) snd.collapse()`, co:50. -/
def eachKey (f : Loc → Mem → Run Unit) (a : Addr) : List Bytes → Mem → Run Unit
  | [], m => .ok m ()
  | k :: ks, m => (f ⟨a, .key k⟩ m).bind fun m _ => eachKey f a ks m

/-- co:61-72, the loop over the elements. -/
def eachIdx (f : Loc → Mem → Run Unit) (a : Addr) : Nat → Nat → Mem → Run Unit
  | _, 0, m => .ok m ()
  | i, k + 1, m => (f ⟨a, .idx i⟩ m).bind fun m _ => eachIdx f a (i + 1) k m

/-- co:45-145, `collapse()`: the elements in place; then the packed data is a local variable that `*this = ...` copies. -/
def collapseF : Nat → Loc → Mem → Run Unit
  | 0, _, _ => .fuel
  | n + 1, d, m =>
    match m.read d with
    | none => .ub
    | some (.box .MAP a) =>
      match m.blk a with
      | some (.map es) => eachKey (collapseF n) a (es.map Prod.fst) m
      | _ => .ub
    | some (.box .VECTOR a) =>
      match m.blk a with
      | some (.vec cs) =>
        if cs.length = 0 then .ok m ()
        else (eachIdx (collapseF n) a 0 cs.length m).bind fun m _ =>
          match m.blk a with
          | some (.vec cs) =>
            match optL (peek n m) cs with
            | some v =>
              match pack v with
              | .ok (.vector _) _ => .ok m ()
              | .ok g' _ => setF n d g' m
              | .throw _ => .throw m
              | _ => .ub
            | none => .ub
          | _ => .ub
      | _ => .ub
    | some _ => .ok m ()

/-- cc:3861-3876, `this->merge( gc )`: `*this` at `d`, `gc` at `s`. -/
def mergeF (ip : Nat → Nat → Bool) (n : Nat) (d s : Loc) (m : Mem) : Run Unit :=
  match m.read s with
  | none => .ub
  | some (.imm .notype) => .ok m ()
  | some (.box .MAP a) =>
    match m.read d with
    | none => .ub
    | some c =>
      (if c.ty = .NOTYPE then setMapF n d m else .ok m ()).bind fun m _ =>
        match m.read d with
        | some (.box .MAP b) =>
          match m.blk a with
          | some (.map es) => mapLoop (fromF ip n) b a 0 es.length m
          | _ => .ub
        | some _ => .throw m
        | none => .ub
  | some _ => .throw m

/-- The calls of `Op` in memory.  Not here: those whose argument is a container (`assign`, `dump`, `merge`), which
`POp.assign` and `mergeF` do with the other container in memory too, and those on an element (`idx`, `call`, `key`,
`callKey`, `callKeys`, `constKey`), which a program does with a place. -/
def callF (ip : Nat → Nat → Bool) : Op → Nat → Loc → Mem → Run Unit
  | .clear => clearAt
  | .freePointer =>
    -- cc:784-796
    promF (fun t => match t with | .NOTYPE | .POINTER => .set fun _ => .ok notype () | _ => .no)
  | .erase k => fun n d => eraseF n d k
  | .setPointer x => fun n d => setF n d (pointer x)
  | .setBool x => fun n d => setF n d (bool x)
  | .setInt x => fun n d => setF n d (int x)
  | .setLong x => fun n d => setF n d (long x)
  | .setReal x => fun n d => setF n d (real x)
  | .setComplex x => fun n d => setF n d (complex x)
  | .setString x => fun n d => setF n d (string x)
  | .setUint x => fun n d => setF n d (assign_uint x notype)
  | .setUlong x => fun n d => setF n d (assign_ulong x notype)
  | .setVecPointer v => fun n d => setF n d (vecPointer v)
  | .setVecBool v => fun n d => setF n d (vecBool v)
  | .setVecInt v => fun n d => setF n d (vecInt v)
  | .setVecLong v => fun n d => setF n d (vecLong v)
  | .setVecReal v => fun n d => setF n d (vecReal v)
  | .setVecComplex v => fun n d => setF n d (vecComplex v)
  | .setVecString v => fun n d => setF n d (vecString v)
  | .setMatInt v => fun n d => setF n d (matInt v)
  | .setMatLong v => fun n d => setF n d (matLong v)
  | .setMatReal v => fun n d => setF n d (matReal v)
  | .setMatComplex v => fun n d => setF n d (matComplex v)
  -- cc:806-891, `allocate_*`
  | .sizeVecPointer k => sizeF (vecPointer []) (fun g => .ok (set_vec_pointer_n k.toNat g) ())
  | .sizeVecBool k => sizeF (vecBool []) (fun g => .ok (set_vec_bool_n k.toNat g) ())
  | .sizeVecInt k => sizeF (vecInt []) (fun g => .ok (set_vec_int_n k.toNat g) ())
  | .sizeVecLong k => sizeF (vecLong []) (fun g => .ok (set_vec_long_n k.toNat g) ())
  | .sizeVecReal k => sizeF (vecReal []) (fun g => .ok (set_vec_real_n k.toNat g) ())
  | .sizeVecComplex k => sizeF (vecComplex []) (fun g => .ok (set_vec_complex_n k.toNat g) ())
  | .sizeVecString k => sizeF (vecString []) (fun g => .ok (set_vec_string_n k.toNat g) ())
  | .sizeMatInt i j =>
    sizeMatF (matInt (.make 0 i.toNat j.toNat)) (fun g => .ok (set_mat_int_n i.toNat j.toNat g) ())
  | .sizeMatLong i j =>
    sizeMatF (matLong (.make 0 i.toNat j.toNat)) (fun g => .ok (set_mat_long_n i.toNat j.toNat g) ())
  | .sizeMatReal i j =>
    sizeMatF (matReal (.make .zero i.toNat j.toNat)) (fun g => .ok (set_mat_real_n i.toNat j.toNat g) ())
  | .sizeMatComplex i j =>
    sizeMatF (matComplex (.make .zero i.toNat j.toNat)) (fun g => .ok (set_mat_complex_n i.toNat j.toNat g) ())
  | .setVector k => fun n d => setVectorF ip n d k.toNat
  | .setMap => setMapF
  -- cc:1147-1245
  | .pushBool x =>
    tagF (fun t => match t with
      | .VEC_BOOL | .VEC_INTEGER | .VEC_LONG | .VEC_REAL | .VEC_COMPLEX => editF (push_bool x)
      | .VECTOR => backF ip (bool x)
      | _ => throwF)
  | .pushInt x =>
    tagF (fun t => match t with
      | .VEC_INTEGER | .VEC_LONG | .VEC_REAL | .VEC_COMPLEX => editF (push_int x)
      | .VECTOR => backF ip (int x)
      | _ => seqF (promF howVecInt) (editF (push_int x)))
  | .pushLong x =>
    tagF (fun t => match t with
      | .VEC_LONG | .VEC_REAL | .VEC_COMPLEX => editF (push_long x)
      | .VECTOR => backF ip (long x)
      | _ => seqF (promF howVecLong) (editF (push_long x)))
  | .pushReal x =>
    tagF (fun t => match t with
      | .VEC_REAL | .VEC_COMPLEX => editF (push_real x)
      | .VECTOR => backF ip (real x)
      | _ => seqF (promF howVecReal) (editF (push_real x)))
  | .pushComplex x =>
    tagF (fun t => match t with
      | .VEC_COMPLEX => editF (push_complex x)
      | .VECTOR => backF ip (complex x)
      | _ => seqF (promF howVecComplex) (editF (push_complex x)))
  | .pushString x =>
    tagF (fun t => match t with
      | .VEC_STRING => editF (push_string x)
      | _ => seqF (promVecF ip) (backF ip (string x)))
  | .promoteInt => promF howInt
  | .promoteLong => promF howLong
  | .promoteReal => promF howReal
  | .promoteComplex => promF howComplex
  | .promoteVecInt => promF howVecInt
  | .promoteVecLong => promF howVecLong
  | .promoteVecReal => promF howVecReal
  | .promoteVecComplex => promF howVecComplex
  | .promoteMatInt => promF howMatInt
  | .promoteMatLong => promF howMatLong
  | .promoteMatReal => promF howMatReal
  | .promoteMatComplex => promF howMatComplex
  | .promoteVector => promVecF ip
  -- cc:2919-3152
  | .boolAt i =>
    atF ip (readyF (vecBool []) (fun _ => false) howInt) .VEC_BOOL (fun g => drop (get_bool_at i.toNat g)) i.toNat
      (bool false)
  | .intAt i upd =>
    atF ip (readyF (vecInt []) (fun t => t = .BOOL ∨ t = .INTEGER ∨ t = .VEC_BOOL) howVecInt) .VEC_INTEGER
      (fun g => drop (get_int_at i.toNat upd g)) i.toNat (int (upd 0))
  | .longAt i upd =>
    atF ip (readyF (vecLong []) (fun t => t = .BOOL ∨ t = .INTEGER ∨ t = .LONG ∨ t = .VEC_BOOL ∨ t = .VEC_INTEGER)
      howVecLong) .VEC_LONG (fun g => drop (get_long_at i.toNat upd g)) i.toNat (long (upd 0))
  | .realAt i upd =>
    atF ip (readyF (vecReal []) (fun t => t = .VEC_BOOL ∨ t = .VEC_INTEGER ∨ t = .VEC_LONG) howVecReal) .VEC_REAL
      (fun g => drop (get_real_at i.toNat upd g)) i.toNat (real (upd .zero))
  | .complexAt i upd =>
    atF ip (readyF (vecComplex []) (fun t => t = .VEC_BOOL ∨ t = .VEC_INTEGER ∨ t = .VEC_LONG ∨ t = .VEC_REAL)
      howVecComplex) .VEC_COMPLEX (fun g => drop (get_complex_at i.toNat upd g)) i.toNat (complex (upd .zero))
  | .stringAt i upd =>
    atF ip (readyF (vecString []) (fun _ => false) howInt) .VEC_STRING (fun g => drop (get_string_at i.toNat upd g))
      i.toNat (string (upd []))
  -- cc:2160-2214
  | .getVecInt upd =>
    seqF (readyF (vecInt []) (fun t => t = .VEC_BOOL) howVecInt)
      (ckF .VEC_INTEGER fun g => drop (get_vec_int upd g))
  | .getVecLong upd =>
    seqF (readyF (vecLong []) (fun t => t = .VEC_BOOL ∨ t = .VEC_INTEGER) howVecLong)
      (ckF .VEC_LONG fun g => drop (get_vec_long upd g))
  | .getVecReal upd =>
    seqF (readyF (vecReal []) (fun t => t = .VEC_BOOL ∨ t = .VEC_INTEGER ∨ t = .VEC_LONG) howVecReal)
      (ckF .VEC_REAL fun g => drop (get_vec_real upd g))
  | .getVecComplex upd =>
    seqF (readyF (vecComplex []) (fun t => t = .VEC_BOOL ∨ t = .VEC_INTEGER ∨ t = .VEC_LONG ∨ t = .VEC_REAL) howVecComplex)
      (ckF .VEC_COMPLEX fun g => drop (get_vec_complex upd g))
  -- cc:2222-2287
  | .getMatInt upd =>
    seqF (readyF (matInt (.make 0 0 0)) (fun t => t = .VEC_BOOL ∨ t = .VEC_INTEGER ∨ t = .VEC_LONG ∨ t = .VEC_REAL)
      howMatInt) (ckF .MAT_INTEGER fun g => drop (get_mat_int upd g))
  | .getMatLong upd =>
    seqF (readyF (matLong (.make 0 0 0)) (fun t => t = .VEC_BOOL ∨ t = .VEC_INTEGER ∨ t = .VEC_LONG ∨ t = .VEC_REAL ∨
      t = .MAT_INTEGER) howMatLong) (ckF .MAT_LONG fun g => drop (get_mat_long upd g))
  | .getMatReal upd =>
    seqF (readyF (matReal (.make .zero 0 0)) (fun t => t = .VEC_BOOL ∨ t = .VEC_INTEGER ∨ t = .VEC_LONG ∨ t = .VEC_REAL ∨
      t = .MAT_INTEGER ∨ t = .MAT_LONG) howMatReal) (ckF .MAT_REAL fun g => drop (get_mat_real upd g))
  | .getMatComplex upd =>
    seqF (readyF (matComplex (.make .zero 0 0)) (fun t => t = .VEC_BOOL ∨ t = .VEC_INTEGER ∨ t = .VEC_LONG ∨
      t = .VEC_REAL ∨ t = .MAT_REAL ∨ t = .VEC_COMPLEX) howMatComplex)
      (ckF .MAT_COMPLEX fun g => drop (get_mat_complex upd g))
  -- cc:2966-3135
  | .intAt2 i j upd =>
    seqF (readyF (matReal (.make .zero i.toNat j.toNat)) (fun t => t = .VEC_BOOL ∨ t = .VEC_INTEGER) howMatInt)
      (ckF .MAT_INTEGER fun g => drop (get_int_at2 i.toNat j.toNat upd g))
  | .longAt2 i j upd =>
    seqF (readyF (matReal (.make .zero i.toNat j.toNat)) (fun t => t = .VEC_BOOL ∨ t = .VEC_INTEGER ∨ t = .VEC_LONG)
      howMatLong) (ckF .MAT_LONG fun g => drop (get_long_at2 i.toNat j.toNat upd g))
  | .realAt2 i j upd =>
    seqF (readyF (matReal (.make .zero i.toNat j.toNat)) (fun t => t = .VEC_BOOL ∨ t = .VEC_INTEGER ∨ t = .VEC_LONG ∨
      t = .VEC_REAL) howMatReal) (ckF .MAT_REAL fun g => drop (get_real_at2 i.toNat j.toNat upd g))
  | .complexAt2 i j upd =>
    seqF (readyF (matComplex (.make .zero i.toNat j.toNat)) (fun t => t = .VEC_BOOL ∨ t = .VEC_INTEGER ∨ t = .VEC_LONG ∨
      t = .VEC_REAL ∨ t = .VEC_COMPLEX ∨ t = .MAT_REAL) howMatComplex)
      (ckF .MAT_COMPLEX fun g => drop (get_complex_at2 i.toNat j.toNat upd g))
  -- cc:2045-2111
  | .getBool _ new => tagF (fun t => match t with | .NOTYPE | .BOOL => fun n d => setF n d (bool new) | _ => throwF)
  | .getInt _ new => tagF (fun t => match t with | .NOTYPE | .INTEGER => fun n d => setF n d (int new) | _ => throwF)
  | .getLong _ new => tagF (fun t => match t with | .NOTYPE | .LONG => fun n d => setF n d (long new) | _ => throwF)
  | .getReal _ new => tagF (fun t => match t with | .NOTYPE | .REAL => fun n d => setF n d (real new) | _ => throwF)
  | .getComplex new =>
    seqF (readyF (complex .zero) (fun _ => false) howInt) (ckF .COMPLEX fun _ => .ok (complex new) ())
  | .getString new =>
    seqF (readyF (string []) (fun _ => false) howInt) (ckF .STRING fun _ => .ok (string new) ())
  | .collapse => collapseF
  | _ => fun _ _ _ => .ub

/-- The calls of `callF`. -/
def inMemory : Op → Bool
  | .assign _ | .dump _ | .merge _ => false
  | .constKey _ | .idx .. | .call .. | .key .. | .callKey .. | .callKeys .. => false
  | _ => true

/-- What a program does, the other calls included. -/
inductive XOp
  | old (op : POp)
  /-- a call at a place -/
  | call (x : Place) (op : Op)
  /-- `x.merge( y )` -/
  | merge (x y : Place)

/-- One step of a program. -/
def St.xstep (ip : Nat → Nat → Bool) (n : Nat) (s : St) : XOp → Run (Nat → Option Addr)
  | .old op => s.step ip n op
  | .call x op => s.at x (callF ip op n)
  | .merge x y =>
    match s.loc y with
    | none => .throw s.mem
    | some l => s.at x fun d => mergeF ip n d l

/-- A program runs: an exception ends the call, not the program. -/
def St.xrun (ip : Nat → Nat → Bool) (n : Nat) : List XOp → St → Run (Nat → Option Addr)
  | [], s => .ok s.mem s.env
  | op :: ops, s =>
    match s.xstep ip n op with
    | .ok m e => St.xrun ip n ops ⟨m, e⟩
    | .throw m => St.xrun ip n ops ⟨m, s.env⟩
    | .ub => .ub
    | .fuel => .fuel

end Heap
end GCV
