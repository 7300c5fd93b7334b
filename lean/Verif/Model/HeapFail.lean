import Verif.Model.HeapOps

/-!
# Memory that runs out

The functions of Verif/Model/Heap.lean and Verif/Model/HeapOps.lean with a `new` that may fail.  `bad a` says that the
allocation that would have got the address `a` fails: `std::bad_alloc` leaves the call (`oom`), with the memory as it is
then.  An address that was not given out is never given out later.

Allocations that can fail: the payloads (`new string_type`, `new vector_type`, …), and the storage a
`std::vector<GenericContainer>` moves to when it grows.  Simplification: the storage of strings, of packed vectors and
matrices, and the nodes of a `std::map`, do not fail.
-/

namespace GCV
namespace Heap
open GC

/-- How a call ends. -/
inductive ORun (α : Type)
  | ok (m : Mem) (a : α)
  | throw (m : Mem)
  /-- `std::bad_alloc` -/
  | oom (m : Mem)
  | ub
  | fuel

def ORun.bind {α β : Type} : ORun α → (Mem → α → ORun β) → ORun β
  | .ok m a, f => f m a
  | .throw m, _ => .throw m
  | .oom m, _ => .oom m
  | .ub, _ => .ub
  | .fuel, _ => .fuel

/-- Calls that allocate nothing. -/
def Run.sure {α : Type} : Run α → ORun α
  | .ok m a => .ok m a
  | .throw m => .throw m
  | .ub => .ub
  | .fuel => .fuel

/-- An allocation that failed: its address is not used any more. -/
def Mem.skip (m : Mem) : Mem := { m with next := m.next + 1 }

/-- `clear(); m_data_type = t; m_data = new ...;` (cc:756-919, cc:965-978): the tag is written before `new`.  When `new`
throws, `m_data` (a union, hh:640, which no constructor initialises) still has what was there before: a released pointer, a
number, or nothing.  That is not a payload for the tag, and is written as the address that was not given out. -/
def newBoxO (bad : Addr → Bool) (n : Nat) (t : Ty) (b : Block) (l : Loc) (m : Mem) : ORun Addr :=
  (clearAt n l m).sure.bind fun m _ =>
    if bad m.next then (m.skip.write l (.box t m.next)).sure.bind fun m _ => .oom m
    else ((m.alloc b).write l (.box t m.next)).sure.bind fun m' _ => .ok m' m.next

/-- `allocate_*` (cc:756-919); compare `allocBox`. -/
def allocBoxO (bad : Addr → Bool) (n : Nat) (t : Ty) (b : Block) (l : Loc) (m : Mem) : ORun Addr :=
  match m.read l with
  | none => .ub
  | some (.box t' a) => if t' = t then .ok m a else newBoxO bad n t b l m
  | some (.imm _) => newBoxO bad n t b l m

/-- cc:3818-3819; compare `vecLoop`. -/
def vecLoopO (from' : Loc → Loc → Mem → ORun Unit) (b a : Addr) : Nat → Nat → Mem → ORun Unit
  | _, 0, m =>
    match m.blk a with
    | some (.vec _) => .ok m ()
    | _ => .ub
  | i, k + 1, m =>
    match m.blk a with
    | some (.vec cs) =>
      if i < cs.length then (from' ⟨b, .idx i⟩ ⟨a, .idx i⟩ m).bind fun m _ => vecLoopO from' b a (i + 1) k m
      else .ok m ()
    | _ => .ub

/-- A `std::vector` that grows copies its elements to the new storage at `b`.  When the copy constructor of an element
throws, the copies made so far are destroyed and the new storage is released; the destructor of the element under
construction is not called. -/
def growLoopO (free' : Cell → Mem → Run Unit) (from' : Loc → Loc → Mem → ORun Unit) (b a : Addr) :
    Nat → Nat → Mem → ORun Unit
  | _, 0, m =>
    match m.blk a with
    | some (.vec _) => .ok m ()
    | _ => .ub
  | i, k + 1, m =>
    match m.blk a with
    | some (.vec cs) =>
      if i < cs.length then
        match from' ⟨b, .idx i⟩ ⟨a, .idx i⟩ m with
        | .oom m =>
          match m.blk b with
          | some (.vec cs') => (forL free' (cs'.take i) m).sure.bind fun m _ => .oom (m.upd b none)
          | _ => .ub
        | r => r.bind fun m _ => growLoopO free' from' b a (i + 1) k m
      else .ok m ()
    | _ => .ub

/-- `std::vector<GenericContainer>::resize(sz)`; compare `resizeF`. -/
def resizeO (bad : Addr → Bool) (inPlace : Nat → Nat → Bool) (free' : Cell → Mem → Run Unit)
    (from' : Loc → Loc → Mem → ORun Unit) (a : Addr) (sz : Nat) (m : Mem) : ORun Unit :=
  match m.blk a with
  | some (.vec cs) =>
    if sz ≤ cs.length then
      (forL free' (cs.drop sz) m).sure.bind fun m _ => .ok (m.upd a (some (.vec (cs.take sz)))) ()
    else if inPlace cs.length sz then
      .ok (m.upd a (some (.vec (cs ++ List.replicate (sz - cs.length) (.imm notype))))) ()
    else if bad m.next then .oom m.skip
    else
      let b := m.next
      (growLoopO free' from' b a 0 cs.length (m.alloc (.vec (List.replicate sz (.imm notype))))).bind fun m _ =>
        (forL free' cs m).sure.bind fun m _ =>
          match m.blk b with
          | some (.vec cs') => .ok ((m.upd a (some (.vec cs'))).upd b none) ()
          | _ => .ub
  | _ => .ub

/-- cc:3825-3826; compare `mapLoop`. -/
def mapLoopO (from' : Loc → Loc → Mem → ORun Unit) (b a : Addr) : Nat → Nat → Mem → ORun Unit
  | _, 0, m =>
    match m.blk a with
    | some (.map _) => .ok m ()
    | _ => .ub
  | i, k + 1, m =>
    match m.blk a with
    | some (.map es) =>
      match es[i]? with
      | some (key, _) =>
        (keyAt b (cstr key) m).sure.bind fun m _ =>
          (from' ⟨b, .key (cstr key)⟩ ⟨a, .key key⟩ m).bind fun m _ => mapLoopO from' b a (i + 1) k m
      | none => .ok m ()
    | _ => .ub

/-- cc:3774-3855, `from_gc`; compare `fromF`. -/
def fromO (bad : Addr → Bool) (inPlace : Nat → Nat → Bool) : Nat → Loc → Loc → Mem → ORun Unit
  | 0, _, _, _ => .fuel
  | n + 1, d, s, m =>
    match m.read s with
    | none => .ub
    | some (.imm g) => ((clearAt n d m).bind fun m _ => m.write d (.imm g)).sure
    | some (.box .COMPLEX a) =>
      (newBoxO bad n .COMPLEX (.leaf notype) d m).bind fun m b =>
        match m.blk a with
        | some (.leaf g) => .ok (m.upd b (some (.leaf g))) ()
        | _ => .ub
    | some (.box .VECTOR _) =>
      (allocBoxO bad n .VECTOR (.vec []) d m).bind fun m b =>
        match m.read s with
        | some (.box .VECTOR a) =>
          match m.blk a with
          | some (.vec cs) =>
            (if 0 < u32 cs.length then resizeO bad inPlace (freeF n) (fromO bad inPlace n) b (u32 cs.length) m
             else .ok m ()).bind fun m _ => vecLoopO (fromO bad inPlace n) b a 0 cs.length m
          | _ => .ub
        | _ => .ub
    | some (.box .MAP _) =>
      (allocBoxO bad n .MAP (.map []) d m).bind fun m b =>
        match m.read s with
        | some (.box .MAP a) =>
          match m.blk a with
          | some (.map es) => mapLoopO (fromO bad inPlace n) b a 0 es.length m
          | _ => .ub
        | _ => .ub
    | some (.box t a) =>
      (allocBoxO bad n t (.leaf notype) d m).bind fun m b => (fillLeaf a b m).sure

/-- cc:926-1126; compare `setF`. -/
def setO (bad : Addr → Bool) (n : Nat) (d : Loc) (g : GC) (m : Mem) : ORun Unit :=
  match g with
  | .notype | .bool _ | .int _ | .long _ | .real _ | .pointer _ =>
    ((clearAt n d m).bind fun m _ => m.write d (.imm g)).sure
  | .complex _ => (newBoxO bad n .COMPLEX (.leaf g) d m).bind fun m _ => .ok m ()
  | .vector _ | .map _ => .ub
  | _ =>
    (allocBoxO bad n g.ty (.leaf notype) d m).bind fun m b =>
      match m.blk b with
      | some (.leaf old) =>
        match from_gc g old with
        | .ok g' => .ok (m.upd b (some (.leaf g'))) ()
        | _ => .ub
      | _ => .ub

/-- cc:903-910; compare `setVectorF`. -/
def setVectorO (bad : Addr → Bool) (ip : Nat → Nat → Bool) (n : Nat) (d : Loc) (sz : Nat) (m : Mem) : ORun Unit :=
  (allocBoxO bad n .VECTOR (.vec []) d m).bind fun m b =>
    if 0 < sz then resizeO bad ip (freeF n) (fromO bad ip n) b sz m else .ok m ()

/-- cc:913-919; compare `setMapF`. -/
def setMapO (bad : Addr → Bool) (n : Nat) (d : Loc) (m : Mem) : ORun Unit :=
  (allocBoxO bad n .MAP (.map []) d m).bind fun m _ => .ok m ()

/-- cc:3263-3271; compare `idxF`. -/
def idxO (bad : Addr → Bool) (ip : Nat → Nat → Bool) (n : Nat) (d : Loc) (i : Nat) (m : Mem) : ORun Unit :=
  (allocBoxO bad n .VECTOR (.vec []) d m).bind fun m b =>
    match m.blk b with
    | some (.vec cs) =>
      if cs.length ≤ i then resizeO bad ip (freeF n) (fromO bad ip n) b (u32 (i + 1)) m else .ok m ()
    | _ => .ub

/-- cc:3397-3401; compare `keyF`. -/
def keyO (bad : Addr → Bool) (n : Nat) (d : Loc) (k : Bytes) (m : Mem) : ORun Unit :=
  (allocBoxO bad n .MAP (.map []) d m).bind fun m b => (keyAt b (cstr k) m).sure

/-- A call at a place; compare `St.at`. -/
def St.atO (s : St) (x : Place) (f : Loc → Mem → ORun Unit) : ORun (Nat → Option Addr) :=
  match s.loc x with
  | none => .throw s.mem
  | some l => (f l s.mem).bind fun m _ => .ok m s.env

/-- One step of a program; compare `St.step`.  When the copy constructor (hh:3880-3881) throws there is no object: its
destructor is not called. -/
def St.stepO (bad : Addr → Bool) (ip : Nat → Nat → Bool) (n : Nat) (s : St) : POp → ORun (Nat → Option Addr)
  | .copyConstruct x y =>
    match s.env x, s.loc y with
    | none, some l =>
      let a := s.mem.next
      match fromO bad ip n ⟨a, .var⟩ l (s.mem.alloc (.var (.imm notype))) with
      | .oom m => .oom (m.upd a none)
      | r => r.bind fun m _ => .ok m fun y => if y = x then some a else s.env y
    | _, _ => .throw s.mem
  | .set x g => s.atO x fun l => setO bad n l g
  | .setVector x k => s.atO x fun l => setVectorO bad ip n l k
  | .setMap x => s.atO x (setMapO bad n)
  | .idx x i => s.atO x fun l => idxO bad ip n l i
  | .key x k => s.atO x fun l => keyO bad n l k
  | .assign x y =>
    match s.loc y with
    | none => .throw s.mem
    | some l => s.atO x fun d => fromO bad ip n d l
  -- no allocation
  | op => (s.step ip n op).sure

end Heap
end GCV
