import Verif.Model.CopyDest
import Verif.Model.Json

/-!
# copyto_vec_*, copyto_mat_* whose destination is inside of the container (src/GenericContainerPromote.cc, `pr` below)

`x.copyto_vec_int( x.get_vec_int() )`, `x.copyto_mat_real( x[2].get_mat_real() )`: the functions are `const`, their destination
is a reference, and `get_vec_*`, `get_mat_*` return one to the vector or matrix that a container holds.  The destination is at
the path `p` of the container `g`; with `w` in it the container is `modAt p (fun _ => mk w) g`, and everything that is read is
read from there.
-/

namespace GCV
namespace GC

/-- The container after the call, from what the destination holds after it. -/
def _root_.GCV.Loop.into {σ : Type} (f : σ → GC) : Loop σ → Loop GC
  | .ok w => .ok (f w)
  | .throw w => .throw (f w)
  | .ub => .ub
  | .diverge => .diverge

/-- The `switch` inside of the loop, e.g. pr:71-181: `sc` converts one stored number, `el` one element of a VECTOR. -/
def readNum {α : Type} (sc el : GC → Out α) (g : GC) (i : Nat) : Out α :=
  match g with
  | bool b => sc (bool b)
  | int n => sc (int n)
  | long l => sc (long l)
  | real r => sc (real r)
  | complex c => sc (complex c)
  | vecBool v => (getL v i).bind fun b => sc (bool b)
  | vecInt v => (getL v i).bind fun b => sc (int b)
  | vecLong v => (getL v i).bind fun b => sc (long b)
  | vecReal v => (getL v i).bind fun b => sc (real b)
  | vecComplex v => (getL v i).bind fun b => sc (complex b)
  | matInt m => (getL m.data i).bind fun b => sc (int b)
  | matLong m => (getL m.data i).bind fun b => sc (long b)
  | matReal m => (getL m.data i).bind fun b => sc (real b)
  | matComplex m => (getL m.data i).bind fun b => sc (complex b)
  | vector v => (getL v i).bind el
  | notype | pointer _ | string _ | vecPointer _ | vecString _ | map _ => .throw

/-- The loop `for i < ne { val = …; v.emplace_back(val); }`, `n` turns from `i` on, `w` being in the destination. -/
def loopAt {α : Type} (read : GC → Nat → Out α) (at_ : List α → GC) : Nat → Nat → List α → Loop (List α)
  | 0, _, w => .ok w
  | n + 1, i, w =>
    match read (at_ w) i with
    | .ok y => loopAt read at_ n (i + 1) (w ++ [y])
    | .throw => .throw w
    | .ub => .ub
    | .diverge => .diverge

/-- The part shared by `copyto_vec_int`, `_long`, `_real` and `_complex` (e.g. pr:60-183): `v.clear()`, then the elements of the
container are counted, then the loop. -/
def vecAt {α : Type} (sc el : GC → Out α) (mk : List α → GC) (p : List Sel) (g : GC) : Loop GC :=
  let at_ := fun w => modAt p (fun _ => mk w) g
  (loopAt (readNum sc el) at_ (at_ []).get_num_elements 0 []).into at_

/-- pr:60-183 -/
def copyto_vec_int_at : List Sel → GC → Loop GC := vecAt copyInt get_as_int vecInt

/-- pr:335-439 -/
def copyto_vec_long_at : List Sel → GC → Loop GC := vecAt copyLong get_as_long vecLong

/-- pr:592-655 -/
def copyto_vec_real_at : List Sel → GC → Loop GC := vecAt copyReal get_number vecReal

/-- pr:661-698 -/
def copyto_vec_complex_at : List Sel → GC → Loop GC := vecAt copyComplex get_complex_c vecComplex

/-- `get_gc_at(i).get_string()`, pr:716-717. -/
def readText (g : GC) (i : Nat) : Out Bytes :=
  match g with
  | vector v => (getL v i).bind get_string_c
  | _ => .throw

/-- pr:700-743.  A VEC_STRING has no parts: the destination is its own vector, `v.resize(ne)` changes it, and `std::copy` of it
to itself is undefined unless it is empty (its result must not be in the range it copies). -/
def copyto_vec_string_at (p : List Sel) (g : GC) : Loop GC :=
  let at_ := fun w => modAt p (fun _ => vecString w) g
  match at_ [] with
  | string s => .ok (at_ [s])
  | vecString w =>
    match resizeL [] (u32 w.length) w with
    | [] => .ok (at_ [])
    | _ :: _ => .ub
  | vector v =>
    (loopAt readText at_ (u32 v.length) 0 []).into at_
  | _ => .throw (at_ [])

/-! ## Matrices -/

/-- `for j < nc: v[j].copyto_vec_T(vj); …` (e.g. pr:793-798), `n` columns from `j` on, `m` being in the destination; `vj` is a
vector of the function. -/
def colsAt {β : Type} (conv : GC → Out (List β)) (at_ : Mat β → GC) (nr : Nat) : Nat → Nat → Mat β → Loop (Mat β)
  | 0, _, m => .ok m
  | n + 1, j, m =>
    match at_ m with
    | vector v =>
      match v[j]? with
      | some x =>
        match conv x with
        | .ok vj =>
          match fillColInto m j vj 0 nr with
          | .ok m' => colsAt conv at_ nr n (j + 1) m'
          | .throw m' => .throw m'
          | .ub => .ub
          | .diverge => .diverge
        | .throw => .throw m
        | .ub => .ub
        | .diverge => .diverge
      | none => .ub
    | _ => .ub

/-- The VECTOR case, e.g. pr:779-801: `v` is what the container holds after `m.clear()`. -/
def columnsAt {β : Type} (d : β) (conv : GC → Out (List β)) (at_ : Mat β → GC) (v : List GC) (m : Mat β) : Loop (Mat β) :=
  match v.take (u32 v.length) with
  | [] => .throw m
  | x :: r =>
    if r.all fun y => y.get_num_elements == x.get_num_elements then
      colsAt conv at_ x.get_num_elements (r.length + 1) 0 (m.resize d x.get_num_elements (r.length + 1))
    else .throw m

/-- The part the four functions share (e.g. pr:748-818), `m` being in the destination before.  `m.clear()` leaves the sizes.
`own` says that the matrix is one of the types that are copied: then `m.resize( m.num_rows(), m.num_cols() )` and `copy_n` of the
matrix to itself (e.g. pr:773-777); MAT_COMPLEX is refused (pr:1106).  Of the other types only VECTOR and MAP have parts. -/
def matAt {β : Type} (d : β) (conv : GC → Out (List β)) (mk : Mat β → GC) (own : Bool) (p : List Sel) (g : GC) (m : Mat β) :
    Loop GC :=
  let at_ := fun m => modAt p (fun _ => mk m) g
  let m := m.cleared
  match at_ m with
  | vector v => (columnsAt d conv at_ v m).into at_
  | map _ => .throw (at_ m)
  | _ =>
    if own then
      let m := m.resize d m.nr m.nc
      match copyN m.data (u32 (m.nr * m.nc)) m with
      | .ok m => .ok (at_ m)
      | .throw => .throw (at_ m)
      | .ub => .ub
      | .diverge => .diverge
    else .throw (at_ m)

/-- pr:748-818 -/
def copyto_mat_int_at : List Sel → GC → Mat I32 → Loop GC := matAt 0 copyto_vec_int matInt true

/-- pr:823-905 -/
def copyto_mat_long_at : List Sel → GC → Mat I64 → Loop GC := matAt 0 copyto_vec_long matLong true

/-- pr:910-1004 -/
def copyto_mat_real_at : List Sel → GC → Mat F64 → Loop GC := matAt .zero copyto_vec_real matReal true

/-- pr:1009-1110 -/
def copyto_mat_complex_at : List Sel → GC → Mat Cplx → Loop GC := matAt .zero copyto_vec_complex matComplex false

end GC
end GCV
