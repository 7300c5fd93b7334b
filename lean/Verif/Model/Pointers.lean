import Verif.Model.At
import Verif.Model.Convert

/-!
# Pointers to the data, results in arrays of the caller, indices of other integer types

A pointer handed out by the container is modelled by what is read or written through it right away.
-/

namespace GCV

namespace Mat

/-- Writing the values `l` one after another from the start of an array. -/
def store {α : Type} (l buf : List α) : Out (List α) :=
  if l.length ≤ buf.length then .ok (l ++ buf.drop l.length) else .ub

/-- cc:171-180, `get_column(nc,C)`; `buf` is the array `C`.  It is written element by element: when an element cannot
be read, what has been written is not represented. -/
def getColumnTo {α : Type} (m : Mat α) (c : Nat) (buf : List α) : Out (List α) :=
  if c < m.nc then (collect (fun i => m.get i c) m.nr).bind fun l => store l buf else .throw

/-- cc:196-205, `get_row(nr,R)`. -/
def getRowTo {α : Type} (m : Mat α) (r : Nat) (buf : List α) : Out (List α) :=
  if r < m.nr then (collect (fun j => m.get r j) m.nc).bind fun l => store l buf else .throw

end Mat

namespace GC

/-! ## get_*_pointer

`rd` is what can be read at the pointer, `wr i x` is `p[i] = x`; only elements of the data may be accessed. -/

/-- `p[i] = x` for a pointer to the elements `l`. -/
def putAt {α : Type} (l : List α) (i : Nat) (x : α) (up : List α → GC) : Out GC :=
  if i < l.length then .ok (up (l.set i x)) else .ub

/-- cc:1266-1299, 1301-1334, `get_int_pointer()`. -/
def get_int_pointer : GC → Out (List I32)
  | int i => .ok [i]
  | vecInt v => .ok v
  | matInt m => .ok m.data
  | _ => .throw
/-- cc:1301-1334, `get_int_pointer()[i] = x`. -/
def put_int (i : Nat) (x : I32) : GC → Out GC
  | int a => putAt [a] i x fun l => int (l.headD a)
  | vecInt v => putAt v i x vecInt
  | matInt m => putAt m.data i x fun l => matInt { m with data := l }
  | _ => .throw

/-- cc:1336-1369, 1371-1404, `get_long_pointer()`. -/
def get_long_pointer : GC → Out (List I64)
  | long i => .ok [i]
  | vecLong v => .ok v
  | matLong m => .ok m.data
  | _ => .throw
/-- cc:1371-1404, `get_long_pointer()[i] = x`. -/
def put_long (i : Nat) (x : I64) : GC → Out GC
  | long a => putAt [a] i x fun l => long (l.headD a)
  | vecLong v => putAt v i x vecLong
  | matLong m => putAt m.data i x fun l => matLong { m with data := l }
  | _ => .throw

/-- cc:1406-1439, 1441-1474, `get_real_pointer()`. -/
def get_real_pointer : GC → Out (List F64)
  | real i => .ok [i]
  | vecReal v => .ok v
  | matReal m => .ok m.data
  | _ => .throw
/-- cc:1441-1474, `get_real_pointer()[i] = x`. -/
def put_real (i : Nat) (x : F64) : GC → Out GC
  | real a => putAt [a] i x fun l => real (l.headD a)
  | vecReal v => putAt v i x vecReal
  | matReal m => putAt m.data i x fun l => matReal { m with data := l }
  | _ => .throw

/-- cc:1476-1509, 1511-1544, `get_complex_pointer()`. -/
def get_complex_pointer : GC → Out (List Cplx)
  | complex i => .ok [i]
  | vecComplex v => .ok v
  | matComplex m => .ok m.data
  | _ => .throw
/-- cc:1511-1544, `get_complex_pointer()[i] = x`. -/
def put_complex (i : Nat) (x : Cplx) : GC → Out GC
  | complex a => putAt [a] i x fun l => complex (l.headD a)
  | vecComplex v => putAt v i x vecComplex
  | matComplex m => putAt m.data i x fun l => matComplex { m with data := l }
  | _ => .throw

/-- cc:1260-1264, `*get_ppvoid() = p`; also hh:1722-1724, `get_pointer<T>() = p`.  The result is the pointer before. -/
def put_pointer (p : Ptr) : GC → Res Ptr
  | pointer q => .ok (pointer p) q
  | g => .throw g

/-- hh:2726-2728, `get_pointer_at<T>(i) = p`. -/
def put_pointer_at (i : Nat) (p : Ptr) (g : GC) : Res Ptr := withIdx i (put_pointer p) g

/-- hh:2742-2744, `get_pointer_at<T>(i) const`. -/
def get_pointer_at (i : Nat) (g : GC) : Out Ptr := (idx_c i g).bind get_pvoid

/-! ## Complex numbers in two variables -/

/-- cc:1934-1939, `get_complex_number(re,im)`. -/
def get_complex_number2 (g : GC) : Out (F64 × F64) := (get_complex_number g).bind fun c => .ok (c.re, c.im)

/-- cc:2005-2010, `get_complex_number_at(i,re,im)`. -/
def get_complex_number_at2 (i : Nat) (g : GC) : Out (F64 × F64) :=
  (get_complex_number_at i g).bind fun c => .ok (c.re, c.im)

/-! ## Indices of other integer types -/

/-- `static_cast<unsigned>(i)` in hh:2762-2763, 2795-2796, 2828-2829, 2861-2862, 2894-2895, 3051-3052, 3084-3085. -/
def castIndex (i : Int) : Nat := (i % 2 ^ 32).toNat

/-- hh:2795-2796, `get_int_at(T i)`. -/
def get_int_at_T (i : Int) := get_int_at (castIndex i)
/-- hh:2762-2763, `get_bool_at(T i)`. -/
def get_bool_at_T (i : Int) := get_bool_at (castIndex i)
/-- hh:2828-2829, `get_long_at(T i)`. -/
def get_long_at_T (i : Int) := get_long_at (castIndex i)
/-- hh:2861-2862, `get_real_at(T i)`. -/
def get_real_at_T (i : Int) := get_real_at (castIndex i)
/-- hh:2894-2895, `get_complex_at(T i)`. -/
def get_complex_at_T (i : Int) := get_complex_at (castIndex i)
/-- hh:3051-3052, `get_string_at(T i)`. -/
def get_string_at_T (i : Int) := get_string_at (castIndex i)
/-- hh:3084-3085, `get_gc_at(T i)`. -/
def get_gc_at_T {α : Type} (i : Int) (f : GC → Res α) := get_gc_at (castIndex i) f

end GC
end GCV
