import Verif.Model.Convert
import Verif.Model.Support

/-!
# The MATLAB interface: src_matlab_interface/GenericContainerInterface_matlab.cc (`ml`)

The library of MATLAB is not modelled: a MATLAB value is what its functions tell about it.  Their calls are
taken to succeed.  A number of class `single` is given by the double with its value.  Texts are given by the
bytes `mxArrayToString` and `mxGetString` produce.
-/

namespace GCV

/-- The integer classes of MATLAB. -/
inductive IntCls where
  | i8 | u8 | i16 | u16 | i32 | u32 | i64 | u64
  deriving DecidableEq, Repr

/-- The 64 bit classes, which are stored as `long_type`. -/
def IntCls.isLong : IntCls → Bool | i64 | u64 => true | _ => false

/-- The elements of a numeric or logical array, column after column. -/
inductive MxNum where
  | logical (l : List Bool)
  | ints (c : IntCls) (l : List Int)
  | single (l : List F64)
  | double (l : List F64)
  | cints (c : IntCls) (l : List (Int × Int))
  | csingle (l : List Cplx)
  | cdouble (l : List Cplx)
  deriving DecidableEq, Repr

/-- The values of a sparse matrix. -/
inductive SpNum where
  | double (l : List F64)
  | cdouble (l : List Cplx)
  | logical (l : List Bool)
  deriving DecidableEq, Repr

/-- A MATLAB value (`mxArray const *`). -/
inductive Mx where
  /-- the null pointer: a cell or field without value -/
  | null
  | cell (dims : List Nat) (l : List Mx)
  /-- structure array: for each field its values, column after column -/
  | struct (nr nc : Nat) (fields : List (Bytes × List Mx))
  | char (s : Bytes)
  /-- sparse matrix with `nc` columns: `mxGetJc`, `mxGetIr` and the values -/
  | sparse (nc : Nat) (jc ir : List Nat) (v : SpNum)
  /-- object of class `string`: number of columns and bytes of the corresponding char array -/
  | text (n : Nat) (s : Bytes)
  | num (dims : List Nat) (d : MxNum)
  /-- function handles, objects and whatever else -/
  | other
  deriving Repr

namespace GC

/-! ## mxArray_to_GenericContainer -/

/-- ml:29-40, `mx_to_vec_bool`. -/
def mx_to_vec_bool (l : List Bool) : Out GC :=
  match l with
  | [b] => .ok (bool b)
  | l => if l.length < 2 ^ 32 then .ok (vector (l.map bool)) else .ub

/-- ml:42-77, 79-114, 118-152, 156-193: `mx_to_vec_int`, `mx_to_vec_long`, `mx_to_vec_real`,
`mx_to_vec_complex`, which are alike.  `l` are the converted elements.  The container has been cleared.  The
vectors and matrices are created with 32 bit sizes: with 2^32 elements or more the loops write outside of
them. -/
def mx_to_vec {α : Type} (dims : List Nat) (l : List α) (sc : α → GC) (ve : List α → GC) (ma : Mat α → GC) :
    Out GC :=
  match l with
  | [x] => .ok (sc x)
  | l =>
    match dims with
    | [_] => if l.length < 2 ^ 32 then .ok (ve l) else .ub
    | [r, c] =>
      if r = 1 then if l.length < 2 ^ 32 then .ok (ve l) else .ub
      else if r < 2 ^ 32 ∧ c < 2 ^ 32 ∧ r * c < 2 ^ 32 then .ok (ma ⟨r, c, l⟩) else .ub
    | _ => .ok notype

/-- ml:300-332, the two `switch`; the conversions `int_type(*pr)`, `long_type(*pr)`, `real_type(*pr)`. -/
def fromNum (dims : List Nat) : MxNum → Out GC
  | .logical l => mx_to_vec_bool l
  | .ints c l =>
    if c.isLong then mx_to_vec dims (l.map (BitVec.ofInt 64)) long vecLong matLong
    else mx_to_vec dims (l.map (BitVec.ofInt 32)) int vecInt matInt
  | .single l => mx_to_vec dims l real vecReal matReal
  | .double l => mx_to_vec dims l real vecReal matReal
  | .cints _ l =>
    mx_to_vec dims (l.map fun p => Cplx.mk (F64.ofInt p.1) (F64.ofInt p.2)) complex vecComplex matComplex
  | .csingle l => mx_to_vec dims l complex vecComplex matComplex
  | .cdouble l => mx_to_vec dims l complex vecComplex matComplex

/-- ml:237-262, `mxSparse_to_GenericContainer`.  The values of a sparse logical matrix are one byte each and
are read as doubles. -/
def fromSparse (nc : Nat) (jc ir : List Nat) (v : SpNum) (g : GC) : Out GC :=
  (getL jc nc).bind fun nnz =>
    if nc + 1 < 2 ^ 32 ∧ nnz < 2 ^ 32 ∧ nnz ≤ ir.length then
      let m := mset (str "jc") (vecInt ((jc.take (nc + 1)).map (BitVec.ofNat 32))) g.oldMap
      let m := mset (str "ir") (vecInt ((ir.take nnz).map (BitVec.ofNat 32))) m
      match v with
      | .double l =>
        if nnz ≤ l.length then .ok (map (mset (str "values") (vecReal (l.take nnz)) m)) else .ub
      | .cdouble l =>
        if nnz ≤ l.length then .ok (map (mset (str "values") (vecComplex (l.take nnz)) m)) else .ub
      | .logical _ => if nnz = 0 then .ok (map (mset (str "values") (vecReal []) m)) else .ub
    else .ub

mutual

/-- ml:266-334, `mxArray_to_GenericContainer`. -/
def fromMx : Mx → GC → Out GC
  | .null, g => .ok (clear g)
  | .cell _ l, g =>
    (fromCells l (u32 l.length) (set_vector (u32 l.length) (clear g)).oldVector).bind fun v => .ok (vector v)
  | .struct nr nc fs, g => (fromFields nr nc fs (set_map (clear g)).oldMap).bind fun m => .ok (map m)
  | .char s, g => .ok (set_string (cstr s) (clear g))
  | .sparse nc jc ir v, g => fromSparse nc jc ir v (clear g)
  | .text n s, g => .ok (set_string (cstr (s.take (n * 2))) (clear g))
  | .num dims d, _ => fromNum dims d
  | .other, g => .ok (clear g)
termination_by structural mx => mx

/-- ml:201-206, 225-229: the first `n` cells into the elements of a vector. -/
def fromCells : List Mx → Nat → List GC → Out (List GC)
  | _, 0, v => .ok v
  | [], _ + 1, _ => .ub
  | x :: l, n + 1, v =>
    (fromMx x (v.headD notype)).bind fun y => (fromCells l n v.tail).bind fun w => .ok (y :: w)
termination_by structural l => l

/-- ml:213-232, `mx_to_map`: field after field. -/
def fromFields (nr nc : Nat) : List (Bytes × List Mx) → Entries → Out Entries
  | [], m => .ok m
  | (k, l) :: fs, m =>
    let old := (mfind (cstr k) m).getD notype
    (if u32 nc = 1 ∧ u32 nr = 1 then
        (fromCells l 1 [old]).bind fun w => .ok (w.headD notype)
      else
        (fromCells l (u32 (u32 nr * u32 nc)) (set_vector (u32 (u32 nr * u32 nc)) old).oldVector).bind fun w =>
          .ok (vector w)).bind fun y => fromFields nr nc fs (mset (cstr k) y m)
termination_by structural fs => fs

end

/-! ## GenericContainer_to_mxArray -/

/-- `f(i,j)` for all positions, column after column. -/
def collect2 {α : Type} (f : Nat → Nat → Out α) (nr nc : Nat) : Out (List α) :=
  (collect (fun j => collect (fun i => f i j) 0 nr) 0 nc).bind fun cols => .ok cols.flatten

/-- `mxCreateString( s.data() )` -/
def mxString (s : Bytes) : Mx := .char (cstr s)

mutual

/-- ml:480-653, `GenericContainer_to_mxArray`.  For an empty map `&fieldnames.front()` refers to the first
element of an empty vector.  A map has less than 2^31 entries. -/
def toMx : GC → Out Mx
  | notype => .ok (.num [0, 0] (.double []))
  | pointer _ => .ok (.num [0, 0] (.double []))
  | vecPointer _ => .ok (.num [0, 0] (.double []))
  | bool b => .ok (.num [1, 1] (.logical [b]))
  | int i => .ok (.num [1, 1] (.ints .i64 [i.toInt]))
  | long l => .ok (.num [1, 1] (.ints .i64 [l.toInt]))
  | real r => .ok (.num [1, 1] (.double [r]))
  | complex c => .ok (.num [1, 1] (.cdouble [c]))
  | string s => .ok (mxString s)
  | vecBool v =>
    (collect (fun i => get_bool_at_c i (vecBool v)) 0 (vecBool v).get_num_elements).bind fun l =>
      .ok (.num [1, (vecBool v).get_num_elements] (.logical l))
  | vecInt v =>
    (collect (fun i => get_int_at_c i (vecInt v)) 0 (vecInt v).get_num_elements).bind fun l =>
      .ok (.num [1, (vecInt v).get_num_elements] (.ints .i64 (l.map BitVec.toInt)))
  | vecLong v =>
    (collect (fun i => get_long_at_c i (vecLong v)) 0 (vecLong v).get_num_elements).bind fun l =>
      .ok (.num [1, (vecLong v).get_num_elements] (.ints .i64 (l.map BitVec.toInt)))
  | vecReal v =>
    (collect (fun i => get_real_at_c i (vecReal v)) 0 (vecReal v).get_num_elements).bind fun l =>
      .ok (.num [1, (vecReal v).get_num_elements] (.double l))
  | vecComplex v =>
    (collect (fun i => get_complex_number_at i (vecComplex v)) 0 (vecComplex v).get_num_elements).bind fun l =>
      .ok (.num [1, (vecComplex v).get_num_elements] (.cdouble l))
  | vecString v =>
    (collect (fun i => get_string_at_c i (vecString v)) 0 (vecString v).get_num_elements).bind fun l =>
      .ok (.cell [1, (vecString v).get_num_elements] (l.map mxString))
  | matInt m =>
    (collect2 (fun i j => get_int_at2_c i j (matInt m)) (matInt m).num_rows (matInt m).num_cols).bind fun l =>
      .ok (.num [(matInt m).num_rows, (matInt m).num_cols] (.ints .i32 (l.map BitVec.toInt)))
  | matLong m =>
    (collect2 (fun i j => get_long_at2_c i j (matLong m)) (matLong m).num_rows (matLong m).num_cols).bind fun l =>
      .ok (.num [(matLong m).num_rows, (matLong m).num_cols] (.ints .i64 (l.map BitVec.toInt)))
  | matReal m =>
    (collect2 (fun i j => get_real_at2_c i j (matReal m)) (matReal m).num_rows (matReal m).num_cols).bind fun l =>
      .ok (.num [(matReal m).num_rows, (matReal m).num_cols] (.double l))
  | matComplex m =>
    (collect2 (fun i j => get_complex_at2_c i j (matComplex m)) (matComplex m).num_rows
        (matComplex m).num_cols).bind fun l =>
      .ok (.num [(matComplex m).num_rows, (matComplex m).num_cols] (.cdouble l))
  | vector v => (toCells (vector v).get_num_elements v).bind fun l => .ok (.cell [1, (vector v).get_num_elements] l)
  | map [] => .ub
  | map ((k, x) :: m) => (toMx x).bind fun y => (toFields m).bind fun fs => .ok (.struct 1 1 ((cstr k, [y]) :: fs))
termination_by structural g => g

/-- ml:620-624 -/
def toCells : Nat → List GC → Out (List Mx)
  | 0, _ => .ok []
  | _ + 1, [] => .throw
  | n + 1, x :: v => (toMx x).bind fun y => (toCells n v).bind fun l => .ok (y :: l)
termination_by structural _ v => v

/-- ml:632-649 -/
def toFields : Entries → Out (List (Bytes × List Mx))
  | [] => .ok []
  | (k, x) :: m => (toMx x).bind fun y => (toFields m).bind fun fs => .ok ((cstr k, [y]) :: fs)
termination_by structural m => m

end

/-! ## to_mxArray -/

/-- ml:336-340 -/
def to_mxArray_bool (b : Bool) : Mx := .num [1, 1] (.logical [b])
/-- ml:342-347: sign extended to the 64 bits of `mwSize`. -/
def to_mxArray_int (i : I32) : Mx := .num [1, 1] (.ints .i64 [(i.signExtend 64).toInt])
/-- ml:349-354 -/
def to_mxArray_long (l : I64) : Mx := .num [1, 1] (.ints .i64 [l.toInt])
/-- ml:356-359 -/
def to_mxArray_real (r : F64) : Mx := .num [1, 1] (.double [r])
/-- ml:361-367 -/
def to_mxArray_complex (c : Cplx) : Mx := .num [1, 1] (.cdouble [c])
/-- ml:369-372: a `string_view` is followed by other bytes or by a NUL; taken as that of a whole `std::string`. -/
def to_mxArray_string (s : Bytes) : Mx := mxString s
/-- ml:374-380 -/
def to_mxArray_vec_bool (v : List Bool) : Mx := .num [v.length, 1] (.logical v)
/-- ml:382-389: it also writes a line on the standard output. -/
def to_mxArray_vec_int (v : List I32) : Mx := .num [v.length, 1] (.ints .i32 (v.map BitVec.toInt))
/-- ml:391-397 -/
def to_mxArray_vec_long (v : List I64) : Mx := .num [v.length, 1] (.ints .i64 (v.map BitVec.toInt))
/-- ml:399-405 -/
def to_mxArray_vec_real (v : List F64) : Mx := .num [v.length, 1] (.double v)
/-- ml:407-417 -/
def to_mxArray_vec_complex (v : List Cplx) : Mx := .num [v.length, 1] (.cdouble v)
/-- ml:419-425 -/
def to_mxArray_vec_string (v : List Bytes) : Mx := .cell [v.length, 1] (v.map mxString)
/-- ml:427-436 -/
def to_mxArray_mat_int (m : Mat I32) : Out Mx :=
  (collect2 m.get m.nr m.nc).bind fun l => .ok (.num [m.nr, m.nc] (.ints .i32 (l.map BitVec.toInt)))
/-- ml:438-447 -/
def to_mxArray_mat_long (m : Mat I64) : Out Mx :=
  (collect2 m.get m.nr m.nc).bind fun l => .ok (.num [m.nr, m.nc] (.ints .i64 (l.map BitVec.toInt)))
/-- ml:449-458 -/
def to_mxArray_mat_real (m : Mat F64) : Out Mx :=
  (collect2 m.get m.nr m.nc).bind fun l => .ok (.num [m.nr, m.nc] (.double l))
/-- ml:460-475 -/
def to_mxArray_mat_complex (m : Mat Cplx) : Out Mx :=
  (collect2 m.get m.nr m.nc).bind fun l => .ok (.num [m.nr, m.nc] (.cdouble l))

/-- The versions of `to_mxArray` (ml:336-475), chosen by the type of the argument; there is none for the other
types. -/
def to_mxArray : GC → Out Mx
  | bool b => .ok (to_mxArray_bool b)
  | int i => .ok (to_mxArray_int i)
  | long l => .ok (to_mxArray_long l)
  | real r => .ok (to_mxArray_real r)
  | complex c => .ok (to_mxArray_complex c)
  | string s => .ok (to_mxArray_string s)
  | vecBool v => .ok (to_mxArray_vec_bool v)
  | vecInt v => .ok (to_mxArray_vec_int v)
  | vecLong v => .ok (to_mxArray_vec_long v)
  | vecReal v => .ok (to_mxArray_vec_real v)
  | vecComplex v => .ok (to_mxArray_vec_complex v)
  | vecString v => .ok (to_mxArray_vec_string v)
  | matInt m => to_mxArray_mat_int m
  | matLong m => to_mxArray_mat_long m
  | matReal m => to_mxArray_mat_real m
  | matComplex m => to_mxArray_mat_complex m
  | _ => .throw

end GC
end GCV
