import Verif.Model.HeapCalls

/-!
# Arguments passed by reference that are in memory too

`set_complex( complex_type const & )`, `set_string( string_view )`, `set_vec_*( ... const & )`, `set_mat_*( ... const & )`,
`push_complex( complex_type & )`, `push_string( string_view )`: the argument may be something the caller has got from a
container, `x.get_string()`, `x["a"].get_vec_int()`, `x[3].get_vec_string()[2]`, ...  Here the functions read it from memory
each time the code does.
-/

namespace GCV
namespace Heap
open GC

/-- A reference to the payload at `addr` (`part = none`), or to one element of it. -/
structure Ref where
  addr : Addr
  part : Option Nat

/-- What is referred to in a payload: all of it, or a string of a VEC_STRING, a number of a VEC_COMPLEX or MAT_COMPLEX. -/
def picked : Option Nat → GC → Option GC
  | none, g => some g
  | some i, vecString v => v[i]?.map string
  | some i, vecComplex v => v[i]?.map complex
  | some i, matComplex m => m.data[i]?.map complex
  | some _, _ => none

/-- Read through a reference; `none` when what it refers to has been released. -/
def Ref.read (r : Ref) (m : Mem) : Option GC :=
  match m.blk r.addr with
  | some (.leaf g) => picked r.part g
  | _ => none

/-- An argument.  A `string_view` of an empty string refers to no characters (`val`). -/
inductive Arg
  | val (g : GC)
  | ref (t : Ty) (r : Ref)

/-- `std::copy( v.begin(), v.end(), ... )`, `*m_data.s = value`, `*m_data.c = value` (cc:969, 983, 995, ...), with the
`resize` of `allocate_*`: the argument copied into the payload at `b`.  Copied onto itself it stays as it is
(`std::copy` with the destination at the start of the source is not for its preconditions, but copies each element onto
itself). -/
def fillRef (r : Ref) (b : Addr) (m : Mem) : Run Unit :=
  match r.read m, m.blk b with
  | some g, some (.leaf old) =>
    match from_gc g old with
    | .ok g' => .ok (m.upd b (some (.leaf g'))) ()
    | _ => .ub
  | _, _ => .ub

/-- cc:964-970 `set_complex( complex_type const & )`; cc:980-984 `set_string`; cc:992-1126 `set_vec_*( v )` and
`set_mat_*( m )`, which first read the size of their argument. -/
def setArgF (n : Nat) (d : Loc) : Arg → Mem → Run Unit
  | .val g, m => setF n d g m
  | .ref .COMPLEX r, m =>
    (clearAt n d m).bind fun m _ =>
      ((m.alloc (.leaf notype)).write d (.box .COMPLEX m.next)).bind fun m' _ => fillRef r m.next m'
  | .ref .STRING r, m => (allocBox n .STRING (.leaf notype) d m).bind fun m b => fillRef r b m
  | .ref t r, m =>
    match r.read m with
    | none => .ub
    | some _ => (allocBox n t (.leaf notype) d m).bind fun m b => fillRef r b m

/-- cc:1221-1222, 1241-1242, `m_data.v->resize(m_data.v->size()+1); m_data.v->back().set_T( x )`. -/
def backArgF (ip : Nat → Nat → Bool) (x : Arg) (n : Nat) (d : Loc) (m : Mem) : Run Unit :=
  match m.read d with
  | some (.box .VECTOR a) =>
    match m.blk a with
    | some (.vec cs) =>
      (resizeF ip (freeF n) (fromF ip n) a (cs.length + 1) m).bind fun m _ => setArgF n ⟨a, .idx cs.length⟩ x m
    | _ => .ub
  | _ => .ub

/-- `m_data.v_s->emplace_back( s )` (cc:1239), `m_data.v_c->emplace_back( c )` (cc:1225): the new element is made before the
old ones are moved, so the argument may be one of them. -/
def appendArgF (x : Arg) (n : Nat) (d : Loc) (m : Mem) : Run Unit :=
  match (match x with | .val g => some g | .ref _ r => r.read m) with
  | some (.string s) => editF (push_string s) n d m
  | some (.complex c) => editF (push_complex c) n d m
  | _ => .ub

/-- cc:1219-1227, `push_complex( complex_type & )`. -/
def pushComplexF (ip : Nat → Nat → Bool) (x : Arg) : Nat → Loc → Mem → Run Unit :=
  tagF fun t => match t with
    | .VECTOR => backArgF ip x
    | .VEC_COMPLEX => appendArgF x
    | _ => seqF (promF howVecComplex) (appendArgF x)

/-- cc:1236-1244, `push_string( string_view )`. -/
def pushStringF (ip : Nat → Nat → Bool) (x : Arg) : Nat → Loc → Mem → Run Unit :=
  tagF fun t => match t with
    | .VEC_STRING => appendArgF x
    | _ => seqF (promVecF ip) (backArgF ip x)

/-- The call that takes this argument. -/
def pushArgF (ip : Nat → Nat → Bool) : Arg → Nat → Loc → Mem → Run Unit
  | .ref .COMPLEX r => pushComplexF ip (.ref .COMPLEX r)
  | a => pushStringF ip a

/-- The payload of the container at a place, or an element of the payload, as an argument; `none` if there is none. -/
def St.arg (s : St) (y : Place) (part : Option Nat) : Option Arg :=
  match s.loc y with
  | none => none
  | some l =>
    match s.mem.read l with
    | some (.box _ a) =>
      match (Ref.mk a part).read s.mem with
      | some (.string []) => some (.val (string []))
      | some g => some (.ref g.ty ⟨a, part⟩)
      | none => none
    | _ => none

/-- `x.set_T( y.get_T() )`, or with an element of `y.get_vec_T()`; both places are found before the call. -/
def St.setFrom (n : Nat) (s : St) (x y : Place) (part : Option Nat) : Run (Nat → Option Addr) :=
  match s.arg y part with
  | none => .throw s.mem
  | some a => s.at x fun d => setArgF n d a

/-- `x.push_T( y.get_T() )`, or with an element of `y.get_vec_T()`. -/
def St.pushFrom (ip : Nat → Nat → Bool) (n : Nat) (s : St) (x y : Place) (part : Option Nat) : Run (Nat → Option Addr) :=
  match s.arg y part with
  | none => .throw s.mem
  | some a => s.at x (pushArgF ip a n)

end Heap
end GCV
