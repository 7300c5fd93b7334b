import Verif.Model.Matlab
import Verif.Spec.View

/-!
# Specification: MATLAB values and containers

`MxHolds mx g` says that the container `g` has the data of the MATLAB value `mx`, `Shown g mx` that the MATLAB
value `mx` has the data of the container `g`.
-/

namespace GCV

/-! ## MATLAB values -/

def IntCls.bits : IntCls → Nat | i8 | u8 => 8 | i16 | u16 => 16 | i32 | u32 => 32 | i64 | u64 => 64
def IntCls.signed : IntCls → Bool | i8 | i16 | i32 | i64 => true | _ => false

/-- The integers of a class. -/
def IntCls.has (c : IntCls) (x : Int) : Prop :=
  if c.signed then -2 ^ (c.bits - 1) ≤ x ∧ x < 2 ^ (c.bits - 1) else 0 ≤ x ∧ x < 2 ^ c.bits

/-- An integer as an element of a container: up to 32 bits an int, else a long; an unsigned number that is too
large loses 2^32 or 2^64. -/
def IntCls.stored (c : IntCls) (x : Int) : GC :=
  if c.bits = 64 then .long (BitVec.ofInt 64 x) else .int (BitVec.ofInt 32 x)

/-- The classes of numeric and logical arrays. -/
inductive MxCls where
  | logical | int (c : IntCls) | single | double | cint (c : IntCls) | csingle | cdouble
  deriving DecidableEq

namespace MxNum

def cls : MxNum → MxCls
  | logical _ => .logical | ints c _ => .int c | single _ => .single | double _ => .double
  | cints c _ => .cint c | csingle _ => .csingle | cdouble _ => .cdouble

/-- The elements, each as a container. -/
def values : MxNum → List GC
  | logical l => l.map .bool
  | ints c l => l.map c.stored
  | single l => l.map .real
  | double l => l.map .real
  | cints _ l => l.map fun p => .complex ⟨F64.ofInt p.1, F64.ofInt p.2⟩
  | csingle l => l.map .complex
  | cdouble l => l.map .complex

/-- The integers are integers of the class. -/
def inRange : MxNum → Prop
  | ints c l => ∀ x ∈ l, c.has x
  | cints c l => ∀ p ∈ l, c.has p.1 ∧ c.has p.2
  | _ => True

end MxNum

/-- Types of the vectors and matrices of a class. -/
def MxCls.vecTy : MxCls → Ty
  | .logical => .VECTOR
  | .int c => if c.bits = 64 then .VEC_LONG else .VEC_INTEGER
  | .single | .double => .VEC_REAL
  | .cint _ | .csingle | .cdouble => .VEC_COMPLEX
def MxCls.matTy : MxCls → Ty
  | .logical => .VECTOR
  | .int c => if c.bits = 64 then .MAT_LONG else .MAT_INTEGER
  | .single | .double => .MAT_REAL
  | .cint _ | .csingle | .cdouble => .MAT_COMPLEX

def SpNum.values : SpNum → List GC
  | .double l => l.map .real | .cdouble l => l.map .complex | .logical l => l.map .bool

/-- The text up to a NUL. -/
def cut (s : Bytes) : Bytes := s.takeWhile (· ≠ 0)

namespace Mx

mutual
/-- What MATLAB guarantees: as many elements as the dimensions say, the integers of a class in its range, texts without
NUL, field names without NUL and different, `jc` of a sparse matrix complete; and every array has less than 2^32
elements.  Sparse logical matrices with elements are excluded: reading them is undefined behaviour (`C76_sparse_negation`). -/
def Legal : Mx → Prop
  | .null => True
  | .cell dims l => l.length = dims.prod ∧ l.length < 2 ^ 32 ∧ LegalL l
  | .struct nr nc fs => nr < 2 ^ 32 ∧ nc < 2 ^ 32 ∧ nr * nc < 2 ^ 32 ∧ (fs.map Prod.fst).Nodup ∧ LegalF (nr * nc) fs
  | .char s => (0 : Byte) ∉ s
  | .sparse nc jc ir v =>
    nc + 1 < 2 ^ 32 ∧ jc.length = nc + 1 ∧ jc[nc]? = some ir.length ∧ ir.length < 2 ^ 32 ∧
      v.values.length = ir.length ∧ ∀ l, v = .logical l → l = []
  | .text _ s => (0 : Byte) ∉ s
  | .num dims d => d.values.length = dims.prod ∧ 0 < dims.length ∧ d.values.length < 2 ^ 32 ∧ d.inRange ∧
      ∀ n ∈ dims, n < 2 ^ 32
  | .other => True
def LegalL : List Mx → Prop
  | [] => True
  | x :: l => Legal x ∧ LegalL l
/-- Every field has `n` values. -/
def LegalF (n : Nat) : List (Bytes × List Mx) → Prop
  | [] => True
  | (k, l) :: fs => (0 : Byte) ∉ k ∧ l.length = n ∧ LegalL l ∧ LegalF n fs
end

end Mx

/-! ## From MATLAB -/

/-- A numeric or logical array: one element is a scalar, a row a vector, another array of two dimensions a matrix; logical
arrays are vectors of containers whatever their dimensions; with three dimensions or more nothing is stored. -/
def NumHolds (dims : List Nat) (d : MxNum) (g : GC) : Prop :=
  if d.values.length = 1 then d.values = [g]
  else if d.cls = .logical then g = .vector d.values
  else
    match dims with
    | [_] => elems g = d.values ∧ g.ty = d.cls.vecTy
    | [r, c] =>
      elems g = d.values ∧
        if r = 1 then g.ty = d.cls.vecTy else g.ty = d.cls.matTy ∧ g.num_rows = r ∧ g.num_cols = c
    | _ => g = .notype

mutual
/-- The container has the data of the MATLAB value. -/
def MxHolds : Mx → GC → Prop
  | .null, g => g = .notype
  | .other, g => g = .notype
  | .cell _ l, g => ∃ v, g = .vector v ∧ MxHoldsL l v
  | .struct nr nc fs, g =>
    ∃ m, g = .map m ∧ KeysSorted m ∧ (m.map Prod.fst).Perm (fs.map Prod.fst) ∧ MxHoldsF (nr = 1 ∧ nc = 1) fs m
  | .char s, g => g = .string s
  | .text n s, g => g = .string (s.take (2 * n))
  | .sparse _ jc ir v, g =>
    ∃ w, elems w = v.values ∧ (w.ty = .VEC_COMPLEX ∨ w.ty = .VEC_REAL) ∧ ((∃ l, v = .cdouble l) ↔ w.ty = .VEC_COMPLEX) ∧
      g = .map [(str "ir", .vecInt (ir.map (BitVec.ofNat 32))), (str "jc", .vecInt (jc.map (BitVec.ofNat 32))),
        (str "values", w)]
  | .num dims d, g => NumHolds dims d g
def MxHoldsL : List Mx → List GC → Prop
  | [], v => v = []
  | x :: l, v => ∃ y w, v = y :: w ∧ MxHolds x y ∧ MxHoldsL l w
/-- Every field is an entry; the fields of a structure array are vectors, of a single structure the values. -/
def MxHoldsF (single : Prop) : List (Bytes × List Mx) → Entries → Prop
  | [], _ => True
  | (k, l) :: fs, m =>
    (∃ y, (k, y) ∈ m ∧ ((single ∧ MxHoldsL l [y]) ∨ (¬ single ∧ ∃ w, y = .vector w ∧ MxHoldsL l w))) ∧ MxHoldsF single fs m
end

/-! ## To MATLAB -/

namespace GC

/-- A vector of less than 2^32 elements, or a full matrix of less than 2^32 elements. -/
def full (g : GC) : Bool := sizeOk g && decide (g.num_rows * g.num_cols < 2 ^ 32)

/-- Not an empty map. -/
def notEmptyMap : GC → Bool | map [] => false | _ => true

/-- The keys of a map have no NUL. -/
def cleanKeys : GC → Bool | map m => m.all fun e => noNul e.1 | _ => true

/-- The class of array that numbers become. -/
def mxCls : GC → MxCls
  | bool _ | vecBool _ => .logical
  | matInt _ => .int .i32
  | real _ | vecReal _ | matReal _ => .double
  | complex _ | vecComplex _ | matComplex _ => .cdouble
  | _ => .int .i64

/-- Rows and columns. -/
def mxDims : GC → List Nat
  | matInt m => [m.nr, m.nc]
  | matLong m => [m.nr, m.nc]
  | matReal m => [m.nr, m.nc]
  | matComplex m => [m.nr, m.nc]
  | g => [1, (elems g).length]

end GC

mutual
/-- The MATLAB value has the data of the container. -/
def Shown : GC → Mx → Prop
  | .notype, mx => mx = .num [0, 0] (.double [])
  | .pointer _, mx => mx = .num [0, 0] (.double [])
  | .vecPointer _, mx => mx = .num [0, 0] (.double [])
  | .string s, mx => mx = .char (cut s)
  | .vecString v, mx => mx = .cell [1, v.length] (v.map fun s => .char (cut s))
  | .vector v, mx => ∃ l, mx = .cell [1, v.length] l ∧ ShownL v l
  | .map m, mx => ∃ fs, mx = .struct 1 1 fs ∧ ShownM m fs
  | g, mx => ∃ d, mx = .num g.mxDims d ∧ d.cls = g.mxCls ∧ SameElems (elems g) d.values
termination_by structural g => g
def ShownL : List GC → List Mx → Prop
  | [], l => l = []
  | x :: v, l => ∃ y w, l = y :: w ∧ Shown x y ∧ ShownL v w
termination_by structural v => v
def ShownM : Entries → List (Bytes × List Mx) → Prop
  | [], fs => fs = []
  | (k, x) :: m, fs => ∃ y gs, fs = (cut k, [y]) :: gs ∧ Shown x y ∧ ShownM m gs
termination_by structural m => m
end

/-! ## There and back -/

namespace GC

/-- An array of longs as MATLAB gives it back: one element as a scalar, a row as a vector. -/
def rowForm {α : Type} (sc : α → GC) (ve : List α → GC) : List α → GC
  | [x] => sc x
  | v => ve v
def matForm {α : Type} (sc : α → GC) (ve : List α → GC) (ma : Mat α → GC) (m : Mat α) : GC :=
  if m.nr = 1 then rowForm sc ve m.data
  else match m.data with
    | [x] => sc x
    | _ => ma m

mutual
/-- What comes back from MATLAB. -/
def mxForm : GC → GC
  | notype => matReal ⟨0, 0, []⟩
  | pointer _ => matReal ⟨0, 0, []⟩
  | vecPointer _ => matReal ⟨0, 0, []⟩
  | int i => long (BitVec.ofInt 64 i.toInt)
  | string s => string (cut s)
  | vecBool v => rowForm bool (fun v => vector (v.map bool)) v
  | vecInt v => rowForm long vecLong (v.map fun i => BitVec.ofInt 64 i.toInt)
  | vecLong v => rowForm long vecLong v
  | vecReal v => rowForm real vecReal v
  | vecComplex v => rowForm complex vecComplex v
  | vecString v => vector (v.map fun s => string (cut s))
  | matInt m => matForm int vecInt matInt m
  | matLong m => matForm long vecLong matLong m
  | matReal m => matForm real vecReal matReal m
  | matComplex m => matForm complex vecComplex matComplex m
  | vector v => vector (mxFormL v)
  | map m => map (mxFormM m)
  | g => g
termination_by structural g => g
def mxFormL : List GC → List GC
  | [] => []
  | x :: v => mxForm x :: mxFormL v
termination_by structural v => v
def mxFormM : Entries → Entries
  | [] => []
  | (k, x) :: m => (k, mxForm x) :: mxFormM m
termination_by structural m => m
end

/-- A container that comes back the same, as far as its outermost level is concerned: not empty, no pointer, no int, no
vector of bools, ints or strings, no vector of one element, no matrix of one row or one element, no NUL in a string. -/
def mxNormal : GC → Bool
  | notype | pointer _ | vecPointer _ | int _ | vecBool _ | vecInt _ | vecString _ => false
  | bool _ | long _ | real _ | complex _ | vector _ | map _ => true
  | string s => noNul s
  | vecLong v => v.length ≠ 1
  | vecReal v => v.length ≠ 1
  | vecComplex v => v.length ≠ 1
  | matInt m => m.nr ≠ 1 ∧ m.data.length ≠ 1
  | matLong m => m.nr ≠ 1 ∧ m.data.length ≠ 1
  | matReal m => m.nr ≠ 1 ∧ m.data.length ≠ 1
  | matComplex m => m.nr ≠ 1 ∧ m.data.length ≠ 1

/-- Bool, int, long, real or complex numbers: one, a vector or a matrix. -/
def numeric (g : GC) : Bool := (width g.ty).isSome

end GC

mutual
/-- The MATLAB values that come back the same: doubles, int64 and logical scalars; char rows; int32 matrices of more
than one row or without elements; cell rows; single structures with at least one field and the fields in the order of
their names. -/
def MxKept : Mx → Prop
  | .char _ => True
  | .num dims d =>
    match dims with
    | [r, _] =>
      (d.cls = .logical ∧ d.values.length = 1) ∨ (d.cls = .int .i32 ∧ d.values.length ≠ 1 ∧ r ≠ 1) ∨
        d.cls = .int .i64 ∨ d.cls = .double ∨ d.cls = .cdouble
    | _ => False
  | .cell dims l => dims = [1, l.length] ∧ MxKeptL l
  | .struct nr nc fs => nr = 1 ∧ nc = 1 ∧ fs ≠ [] ∧ List.Pairwise (fun a b => strLT a.1 b.1) fs ∧ MxKeptF fs
  | _ => False
def MxKeptL : List Mx → Prop
  | [] => True
  | x :: l => MxKept x ∧ MxKeptL l
def MxKeptF : List (Bytes × List Mx) → Prop
  | [] => True
  | (_, l) :: fs => MxKeptL l ∧ MxKeptF fs
end

end GCV
