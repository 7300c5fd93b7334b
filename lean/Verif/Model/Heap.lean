import Verif.Model.Copy
import Verif.Model.Access
import Verif.Model.Json

/-!
# Memory: who owns which allocation

The other model files treat a container as a value.  Here a container is an object in memory: a tag together with
either an immediate value or the address of an allocated payload (hh:614-641, the union `m_data`), and the functions
are executed on the memory, reading through every address each time the code reads through it.  An access to a payload
that has been released is `ub`.  Addresses are never used twice, so such an access cannot be mistaken for a good one.

Simplifications.  The storage of a `std::vector` or a `std::map` belongs to the block of its header.  A `std::vector`
that grows either keeps its elements where they are or copies them into new storage with the copy constructor and
destroys the old ones, as `std::vector` does for a class without a move constructor; `inPlace size n` says which, and
is arbitrary.  Recursion is bounded by a fuel argument: a call that recurses for ever is `fuel` for every fuel.
-/

namespace GCV

namespace Heap
open GC

/-- Addresses are numbers. -/
scoped notation "Addr" => Nat

/-- A `GenericContainer` object: the members `m_data_type` and `m_data` (hh:614-641).  `imm g`: the tags whose payload is
in the object (NOTYPE, BOOL, INTEGER, LONG, REAL, POINTER); `box t a`: tag `t` with a payload at address `a`. -/
inductive Cell
  | imm (g : GC)
  | box (t : Ty) (a : Addr)

/-- What is allocated: the payload of a COMPLEX, STRING, VEC_* or MAT_*, written as the container that holds it; the
`std::vector<GenericContainer>` of a VECTOR; the `std::map<string,GenericContainer>` of a MAP; a variable of the
program. -/
inductive Block
  | leaf (g : GC)
  | vec (cs : List Cell)
  | map (es : List (Bytes × Cell))
  | var (c : Cell)

/-- Memory: `none` where nothing is allocated; addresses from `next` on have never been used. -/
structure Mem where
  blk : Addr → Option Block
  next : Addr

/-- Where in a block a container is. -/
inductive Slot
  | var
  | idx (i : Nat)
  | key (k : Bytes)
  deriving DecidableEq

/-- The address of a container (`this`, or a reference to a container). -/
structure Loc where
  addr : Addr
  slot : Slot
  deriving DecidableEq

/-- How a call ends. -/
inductive Run (α : Type)
  | ok (m : Mem) (a : α)
  | throw (m : Mem)
  | ub
  | fuel

def Run.bind {α β : Type} : Run α → (Mem → α → Run β) → Run β
  | .ok m a, f => f m a
  | .throw m, _ => .throw m
  | .ub, _ => .ub
  | .fuel, _ => .fuel

/-- The entry of a key. -/
def kfind (k : Bytes) : List (Bytes × Cell) → Option Cell
  | [] => none
  | (k', c) :: r => if k = k' then some c else kfind k r

/-- The entry of a key replaced. -/
def kput (k : Bytes) (c : Cell) : List (Bytes × Cell) → List (Bytes × Cell)
  | [] => []
  | (k', c') :: r => if k = k' then (k', c) :: r else (k', c') :: kput k c r

/-- An entry added in key order. -/
def kins (k : Bytes) (c : Cell) : List (Bytes × Cell) → List (Bytes × Cell)
  | [] => [(k, c)]
  | (k', c') :: r => if blt k k' then (k, c) :: (k', c') :: r else (k', c') :: kins k c r

/-- The entry of a key removed. -/
def krem (k : Bytes) : List (Bytes × Cell) → List (Bytes × Cell)
  | [] => []
  | (k', c') :: r => if k = k' then r else (k', c') :: krem k r

/-- The container in a slot of a block. -/
def Block.get : Block → Slot → Option Cell
  | .var c, .var => some c
  | .vec cs, .idx i => cs[i]?
  | .map es, .key k => kfind k es
  | _, _ => none

/-- The container in a slot of a block replaced. -/
def Block.put : Block → Slot → Cell → Block
  | .var _, .var, c => .var c
  | .vec cs, .idx i, c => .vec (cs.set i c)
  | .map es, .key k, c => .map (kput k c es)
  | b, _, _ => b

namespace Mem

/-- One block replaced, allocated or (with `none`) released. -/
def upd (m : Mem) (a : Addr) (b : Option Block) : Mem := { m with blk := fun x => if x = a then b else m.blk x }

/-- `new` -/
def alloc (m : Mem) (b : Block) : Mem := { blk := fun x => if x = m.next then some b else m.blk x, next := m.next + 1 }

/-- Read the container at a location; `none` when it is not there any more. -/
def read (m : Mem) (l : Loc) : Option Cell := (m.blk l.addr).bind (·.get l.slot)

/-- Write `m_data_type` and `m_data` of the container at a location. -/
def write (m : Mem) (l : Loc) (c : Cell) : Run Unit :=
  match m.blk l.addr with
  | some b => match b.get l.slot with
    | some _ => .ok (m.upd l.addr (some (b.put l.slot c))) ()
    | none => .ub
  | none => .ub

end Mem

/-- A call made for each of a list of containers, in order. -/
def forL (f : Cell → Mem → Run Unit) : List Cell → Mem → Run Unit
  | [], m => .ok m ()
  | c :: cs, m => (f c m).bind fun m _ => forL f cs m

/-- cc:586-624, `clear()`, what it does to the payload: the elements of a VECTOR or MAP are cleared, then the payload is
deleted. -/
def freeF : Nat → Cell → Mem → Run Unit
  | _, .imm _, m => .ok m ()
  | 0, .box _ _, _ => .fuel
  | n + 1, .box _ a, m =>
    match m.blk a with
    | some (.leaf _) => .ok (m.upd a none) ()
    | some (.vec cs) => (forL (freeF n) cs m).bind fun m _ => .ok (m.upd a none) ()
    | some (.map es) => (forL (freeF n) (es.map Prod.snd) m).bind fun m _ => .ok (m.upd a none) ()
    | _ => .ub

/-- cc:586-624, `clear()` on the container at `l`: the payload, then the tag. -/
def clearAt (n : Nat) (l : Loc) (m : Mem) : Run Unit :=
  match m.read l with
  | none => .ub
  | some c => (freeF n c m).bind fun m _ => m.write l (.imm notype)

/-- The `if ( m_data_type != t ) { clear(); m_data_type = t; m_data = new ...; }` of every `allocate_*`
(cc:756-919); gives the address of the payload.  `b` is the new payload. -/
def allocBox (n : Nat) (t : Ty) (b : Block) (l : Loc) (m : Mem) : Run Addr :=
  match m.read l with
  | none => .ub
  | some (.box t' a) =>
    if t' = t then .ok m a
    else (clearAt n l m).bind fun m _ => ((m.alloc b).write l (.box t m.next)).bind fun m' _ => .ok m' m.next
  | some (.imm _) =>
    (clearAt n l m).bind fun m _ => ((m.alloc b).write l (.box t m.next)).bind fun m' _ => .ok m' m.next

/-- cc:3818-3819, `for ( i = 0; i < v.size(); ++i ) vv[i].from_gc( v[i] )`: `v` at `a`, `vv` at `b`.  The size of `v` is
read at every turn, and once more after the last.  Simplified: there are no more turns than `v` had elements at the start.
A turn that makes `v` itself longer takes the assignment of a vector to a vector that it is inside of; what such an
assignment does is claimed only where no turn does so (C122). -/
def vecLoop (from' : Loc → Loc → Mem → Run Unit) (b a : Addr) : Nat → Nat → Mem → Run Unit
  | _, 0, m =>
    match m.blk a with
    | some (.vec _) => .ok m ()
    | _ => .ub
  | i, k + 1, m =>
    match m.blk a with
    | some (.vec cs) =>
      if i < cs.length then (from' ⟨b, .idx i⟩ ⟨a, .idx i⟩ m).bind fun m _ => vecLoop from' b a (i + 1) k m
      else .ok m ()
    | _ => .ub

/-- `std::vector<GenericContainer>::resize(sz)` on the vector at `a`; the elements are copied to new storage
one after the other, as in the loop above. -/
def resizeF (inPlace : Nat → Nat → Bool) (free' : Cell → Mem → Run Unit) (from' : Loc → Loc → Mem → Run Unit)
    (a : Addr) (sz : Nat) (m : Mem) : Run Unit :=
  match m.blk a with
  | some (.vec cs) =>
    if sz ≤ cs.length then
      (forL free' (cs.drop sz) m).bind fun m _ => .ok (m.upd a (some (.vec (cs.take sz)))) ()
    else if inPlace cs.length sz then
      .ok (m.upd a (some (.vec (cs ++ List.replicate (sz - cs.length) (.imm notype))))) ()
    else
      let b := m.next
      (vecLoop from' b a 0 cs.length (m.alloc (.vec (List.replicate sz (.imm notype))))).bind fun m _ =>
        (forL free' cs m).bind fun m _ =>
          match m.blk b with
          | some (.vec cs') => .ok ((m.upd a (some (.vec cs'))).upd b none) ()
          | _ => .ub
  | _ => .ub

/-- cc:3397-3401, `(*this)[s]` on a MAP: the payload is at `b`; an absent key is added with an empty container. -/
def keyAt (b : Addr) (k : Bytes) (m : Mem) : Run Unit :=
  match m.blk b with
  | some (.map es) =>
    match kfind k es with
    | some _ => .ok m ()
    | none => .ok (m.upd b (some (.map (kins k (.imm notype) es)))) ()
  | _ => .ub

/-- cc:3825-3826, `for ( auto &[fst,snd] : m ) (*this)[fst].from_gc( snd )`: `m` at `a`, the payload of `*this` at `b`;
the map is read at every turn, and once more after the last.  The key goes through `s.data()`.  Simplified as above: the
iterator is the number of the entry. -/
def mapLoop (from' : Loc → Loc → Mem → Run Unit) (b a : Addr) : Nat → Nat → Mem → Run Unit
  | _, 0, m =>
    match m.blk a with
    | some (.map _) => .ok m ()
    | _ => .ub
  | i, k + 1, m =>
    match m.blk a with
    | some (.map es) =>
      match es[i]? with
      | some (key, _) =>
        (keyAt b (cstr key) m).bind fun m _ =>
          (from' ⟨b, .key (cstr key)⟩ ⟨a, .key key⟩ m).bind fun m _ => mapLoop from' b a (i + 1) k m
      | none => .ok m ()
    | _ => .ub

/-- The payload at `a` copied over the payload at `b`: the last line of `set_string`, `set_vec_*` and `set_mat_*`
(cc:981-1126), with the `resize` of `allocate_*`. -/
def fillLeaf (a b : Addr) (m : Mem) : Run Unit :=
  match m.blk a, m.blk b with
  | some (.leaf g), some (.leaf old) =>
    match from_gc g old with
    | .ok g' => .ok (m.upd b (some (.leaf g'))) ()
    | _ => .ub
  | _, _ => .ub

/-- cc:3774-3855, `from_gc`: `*this` at `d`, `gc` at `s`.
* BOOL, INTEGER, LONG, REAL, POINTER: the value is passed by value, then `clear()`.
* COMPLEX: passed by reference, then `clear()` and `new` in any case (cc:965-970).
* STRING, VEC_*, MAT_*: passed by reference; `allocate_*` keeps the payload of a destination with the same tag
  (a new payload is written `leaf notype` until it is filled).  Simplification: the source is read after `allocate_*` also
  when it is an empty string, for which the code reads nothing.
* VECTOR: `set_vector()`, `v = *gc.m_data.v`, `vv = set_vector(v.size())`, the loop.
* MAP: `set_map()`, the loop. -/
def fromF (inPlace : Nat → Nat → Bool) : Nat → Loc → Loc → Mem → Run Unit
  | 0, _, _, _ => .fuel
  | n + 1, d, s, m =>
    match m.read s with
    | none => .ub
    | some (.imm g) => (clearAt n d m).bind fun m _ => m.write d (.imm g)
    | some (.box .COMPLEX a) =>
      (clearAt n d m).bind fun m _ =>
        ((m.alloc (.leaf notype)).write d (.box .COMPLEX m.next)).bind fun m' _ =>
          match m'.blk a with
          | some (.leaf g) => .ok (m'.upd m.next (some (.leaf g))) ()
          | _ => .ub
    | some (.box .VECTOR _) =>
      (allocBox n .VECTOR (.vec []) d m).bind fun m b =>
        match m.read s with
        | some (.box .VECTOR a) =>
          match m.blk a with
          | some (.vec cs) =>
            (if 0 < u32 cs.length then resizeF inPlace (freeF n) (fromF inPlace n) b (u32 cs.length) m
             else .ok m ()).bind fun m _ => vecLoop (fromF inPlace n) b a 0 cs.length m
          | _ => .ub
        | _ => .ub
    | some (.box .MAP _) =>
      (allocBox n .MAP (.map []) d m).bind fun m b =>
        match m.read s with
        | some (.box .MAP a) =>
          match m.blk a with
          | some (.map es) => mapLoop (fromF inPlace n) b a 0 es.length m
          | _ => .ub
        | _ => .ub
    | some (.box t a) =>
      (allocBox n t (.leaf notype) d m).bind fun m b => fillLeaf a b m

end Heap
end GCV
