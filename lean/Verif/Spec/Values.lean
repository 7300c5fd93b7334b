import Verif.Spec.Tree

/-!
# Specification vocabulary: the values a container can hold
-/

namespace GCV

/-- A value of one of the twenty types a container can hold. -/
inductive Val where
  | pointer (p : Ptr) | bool (b : Bool) | int (i : I32) | long (l : I64) | real (r : F64)
  | complex (c : Cplx) | string (s : Bytes)
  | vecPointer (v : List Ptr) | vecBool (v : List Bool) | vecInt (v : List I32)
  | vecLong (v : List I64) | vecReal (v : List F64) | vecComplex (v : List Cplx)
  | vecString (v : List Bytes)
  | matInt (m : Mat I32) | matLong (m : Mat I64) | matReal (m : Mat F64) | matComplex (m : Mat Cplx)
  | vector (v : List GC) | map (m : Entries)

namespace Val

/-- The type of a value. -/
def ty : Val → Ty
  | pointer _ => .POINTER | bool _ => .BOOL | int _ => .INTEGER | long _ => .LONG
  | real _ => .REAL | complex _ => .COMPLEX | string _ => .STRING
  | vecPointer _ => .VEC_POINTER | vecBool _ => .VEC_BOOL | vecInt _ => .VEC_INTEGER
  | vecLong _ => .VEC_LONG | vecReal _ => .VEC_REAL | vecComplex _ => .VEC_COMPLEX
  | vecString _ => .VEC_STRING | matInt _ => .MAT_INTEGER | matLong _ => .MAT_LONG
  | matReal _ => .MAT_REAL | matComplex _ => .MAT_COMPLEX
  | vector _ => .VECTOR | map _ => .MAP

/-- A vector without elements. -/
def isEmptyVec : Val → Bool
  | vecPointer v => v.isEmpty | vecBool v => v.isEmpty | vecInt v => v.isEmpty
  | vecLong v => v.isEmpty | vecReal v => v.isEmpty | vecComplex v => v.isEmpty
  | vecString v => v.isEmpty
  | _ => false

/-- Values that can be given to a setter: vectors of less than 2^32 elements, matrices with
rows x cols elements; sub-vectors and maps are not set by value. -/
def settable : Val → Bool
  | vecPointer v => decide (v.length < 2 ^ 32)
  | vecBool v => decide (v.length < 2 ^ 32)
  | vecInt v => decide (v.length < 2 ^ 32)
  | vecLong v => decide (v.length < 2 ^ 32)
  | vecReal v => decide (v.length < 2 ^ 32)
  | vecComplex v => decide (v.length < 2 ^ 32)
  | vecString v => decide (v.length < 2 ^ 32)
  | matInt m => m.wf | matLong m => m.wf | matReal m => m.wf | matComplex m => m.wf
  | vector _ => false
  | map _ => false
  | _ => true

/-- Number of elements the value has: 1 for scalars. -/
def count : Val → Nat
  | vecPointer v => v.length | vecBool v => v.length | vecInt v => v.length
  | vecLong v => v.length | vecReal v => v.length | vecComplex v => v.length
  | vecString v => v.length
  | matInt m => m.nr * m.nc | matLong m => m.nr * m.nc | matReal m => m.nr * m.nc
  | matComplex m => m.nr * m.nc
  | vector v => v.length | map m => m.length
  | _ => 1

/-- Rows and columns: matrices have theirs, everything else is one row. -/
def rows : Val → Nat
  | matInt m => m.nr | matLong m => m.nr | matReal m => m.nr | matComplex m => m.nr
  | _ => 1
def cols : Val → Nat
  | matInt m => m.nc | matLong m => m.nc | matReal m => m.nc | matComplex m => m.nc
  | v => v.count

end Val

/-- The container holds the value. -/
inductive Holds : GC → Val → Prop
  | pointer p : Holds (.pointer p) (.pointer p)
  | bool p : Holds (.bool p) (.bool p)
  | int p : Holds (.int p) (.int p)
  | long p : Holds (.long p) (.long p)
  | real p : Holds (.real p) (.real p)
  | complex p : Holds (.complex p) (.complex p)
  | string p : Holds (.string p) (.string p)
  | vecPointer p : Holds (.vecPointer p) (.vecPointer p)
  | vecBool p : Holds (.vecBool p) (.vecBool p)
  | vecInt p : Holds (.vecInt p) (.vecInt p)
  | vecLong p : Holds (.vecLong p) (.vecLong p)
  | vecReal p : Holds (.vecReal p) (.vecReal p)
  | vecComplex p : Holds (.vecComplex p) (.vecComplex p)
  | vecString p : Holds (.vecString p) (.vecString p)
  | matInt p : Holds (.matInt p) (.matInt p)
  | matLong p : Holds (.matLong p) (.matLong p)
  | matReal p : Holds (.matReal p) (.matReal p)
  | matComplex p : Holds (.matComplex p) (.matComplex p)
  | vector p : Holds (.vector p) (.vector p)
  | map p : Holds (.map p) (.map p)

end GCV
