import Verif.Model.CopyTo

/-!
# collapse (src/GenericContainerCollapse.cc, `co` below)
-/

namespace GCV

/-- Outcome of a loop over the components of a container, with what it leaves in them. -/
inductive Loop (σ : Type) where
  | ok (s : σ)
  | throw (s : σ)
  | ub
  | diverge
  deriving DecidableEq, Repr

/-- Position in `enum class GC_type` (hh:481-509), which is what `<` compares. -/
def Ty.rank : Ty → Nat
  | .NOTYPE => 0 | .POINTER => 1 | .BOOL => 2 | .INTEGER => 3 | .LONG => 4 | .REAL => 5
  | .COMPLEX => 6 | .STRING => 7 | .VEC_POINTER => 8 | .VEC_BOOL => 9 | .VEC_INTEGER => 10
  | .VEC_LONG => 11 | .VEC_REAL => 12 | .VEC_COMPLEX => 13 | .VEC_STRING => 14
  | .MAT_INTEGER => 15 | .MAT_LONG => 16 | .MAT_REAL => 17 | .MAT_COMPLEX => 18
  | .VECTOR => 19 | .MAP => 20

namespace GC

/-- `if ( max_sub_type < ti ) max_sub_type = ti` over the elements, co:66. -/
def maxType : Ty → List GC → Ty
  | t, [] => t
  | t, x :: r => maxType (if t.rank < x.ty.rank then x.ty else t) r

/-- `last_nelem` and `can_collapse` over the elements, co:67-71: the number of elements is
converted to `int_type`, and compared with the previous one when that is not negative. -/
def sameCount : I32 → Bool → List GC → I32 × Bool
  | last, can, [] => (last, can)
  | last, can, x :: r =>
    let ne : I32 := BitVec.ofNat 32 x.get_num_elements
    sameCount ne (if 0 ≤ last.toInt ∧ can then last == ne else can) r

/-- Assigns the packed data to `*this` (which holds the vector `v`), or leaves `*this` alone
when computing it throws. -/
def assignPacked {α : Type} (v : List GC) (c : Out α) (set : α → GC → Out GC) : Res Unit :=
  match c.bind fun x => set x (vector v) with
  | .ok g => .ok g ()
  | .throw => .throw (vector v)
  | .ub => .ub
  | .diverge => .diverge

/-- The matrix of co:93-102 and the three alike: NR x NC, column `j` from `v[j].copyto_vec_T`. -/
def packColumns {α : Type} (d : α) (conv : GC → Out (List α)) (nr : Nat) (v : List GC) : Out (Mat α) :=
  fillCols conv nr (.make d nr (u32 v.length)) 0 (v.take (u32 v.length))

/-- co:73-139, what follows the loop over the elements; `v` are the elements, already collapsed.
`get_bool()` (co:85) is the one for mutable containers: it differs from the const one only on an
empty container, which has not the number of elements of a BOOL. -/
def pack (v : List GC) : Res Unit :=
  let (last, can) := sameCount (-1) true v
  if ¬ can then .ok (vector v) ()
  else if v.all (fun x => x.ty = .STRING) then
    assignPacked v (convLoop get_string_c v) set_vec_string
  else match maxType .NOTYPE v with
    | .BOOL => assignPacked v (convLoop get_bool_c v) set_vec_bool
    | .INTEGER => assignPacked v (copyto_vec_int (vector v)) set_vec_int
    | .LONG => assignPacked v (copyto_vec_long (vector v)) set_vec_long
    | .REAL => assignPacked v (copyto_vec_real (vector v)) set_vec_real
    | .COMPLEX => assignPacked v (copyto_vec_complex (vector v)) set_vec_complex
    | .VEC_INTEGER => assignPacked v (packColumns 0 copyto_vec_int last.toNat v) set_mat_int
    | .VEC_LONG => assignPacked v (packColumns 0 copyto_vec_long last.toNat v) set_mat_long
    | .VEC_REAL => assignPacked v (packColumns .zero copyto_vec_real last.toNat v) set_mat_real
    | .VEC_COMPLEX =>
      assignPacked v (packColumns .zero copyto_vec_complex last.toNat v) set_mat_complex
    | _ => .ok (vector v) ()

mutual

/-- co:45-145, `collapse()`. -/
def collapse : GC → Res Unit
  | map m =>
    match collapseM m with
    | .ok m' => .ok (map m') ()
    | .throw m' => .throw (map m')
    | .ub => .ub
    | .diverge => .diverge
  | vector v =>
    if v = [] then .ok (vector v) ()
    else match collapseL v with
      | .ok v' => pack v'
      | .throw v' => .throw (vector v')
      | .ub => .ub
      | .diverge => .diverge
  | g => .ok g ()
termination_by structural g => g

/-- `vi.collapse()` in the loop co:61-72; an exception leaves the following elements untouched.
The rest of the loop body does not change anything and is in `maxType`, `sameCount`. -/
def collapseL : List GC → Loop (List GC)
  | [] => .ok []
  | x :: r =>
    match collapse x with
    | .ok x' _ =>
      match collapseL r with
      | .ok r' => .ok (x' :: r')
      | .throw r' => .throw (x' :: r')
      | .ub => .ub
      | .diverge => .diverge
    | .throw x' => .throw (x' :: r)
    | .ub => .ub
    | .diverge => .diverge
termination_by structural l => l

/-- co:50, the loop over the values of a map. -/
def collapseM : Entries → Loop Entries
  | [] => .ok []
  | (k, x) :: r =>
    match collapse x with
    | .ok x' _ =>
      match collapseM r with
      | .ok r' => .ok ((k, x') :: r')
      | .throw r' => .throw ((k, x') :: r')
      | .ub => .ub
      | .diverge => .diverge
    | .throw x' => .throw ((k, x') :: r)
    | .ub => .ub
    | .diverge => .diverge
termination_by structural l => l

end

end GC
end GCV
