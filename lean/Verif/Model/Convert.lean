import Verif.Model.Access

/-!
# Numeric conversions: `get_value`, `get_as_*`, `get_number*`, `get_complex_number*`,
`get_if_exists`
-/

namespace GCV
namespace GC

/-- cc:1548-1608, `get_value<uint_type>`; `get_as_uint` cc:2055-2060. -/
def get_as_uint : GC → Out (BitVec 32)
  | bool b => .ok (I32.ofBool b)
  | int i => if 0 ≤ i.toInt then .ok i else .throw
  | long l => if 0 ≤ l.toInt then .ok (l.setWidth 32) else .throw
  | real r => if r.geZero ∧ r.isUnsigned then r.toUnsigned 32 else .throw
  | complex c => if c.im.isZero0 ∧ c.re.isUnsigned then c.re.toUnsigned 32 else .throw
  | _ => .throw

/-- cc:1610-1660, `get_value<int_type>`; `get_as_int` cc:2048-2053. -/
def get_as_int : GC → Out I32
  | bool b => .ok (I32.ofBool b)
  | int i => .ok i
  | long l => .ok l.toI32
  | real r => if r.isInteger then r.toSigned 32 else .throw
  | complex c => if c.im.isZero0 ∧ c.re.isInteger then c.re.toSigned 32 else .throw
  | _ => .throw

/-- cc:1662-1723, `get_value<ulong_type>`; `get_as_ulong` cc:2069-2074. -/
def get_as_ulong : GC → Out (BitVec 64)
  | bool b => .ok (I64.ofBool b)
  | int i => if 0 ≤ i.toInt then .ok i.toI64 else .throw
  | long l => if 0 ≤ l.toInt then .ok l else .throw
  | real r => if r.geZero ∧ r.isUnsigned then r.toUnsigned 64 else .throw
  | complex c => if c.im.isZero0 ∧ c.re.isUnsigned then c.re.toUnsigned 64 else .throw
  | _ => .throw

/-- cc:1725-1775, `get_value<long_type>`; `get_as_long` cc:2062-2067. -/
def get_as_long : GC → Out I64
  | bool b => .ok (I64.ofBool b)
  | int i => .ok i.toI64
  | long l => .ok l
  | real r => if r.isInteger then r.toSigned 64 else .throw
  | complex c => if c.im.isZero0 ∧ c.re.isInteger then c.re.toSigned 64 else .throw
  | _ => .throw

/-- cc:1824-1869, `get_value<double>`. -/
def get_value_double : GC → Out F64
  | bool b => .ok (F64.ofBool b)
  | int i => .ok (F64.ofI32 i)
  | long l => .ok (F64.ofI64 l)
  | real r => .ok r
  | complex c => if c.im.isZero0 then .ok c.re else .throw
  | _ => .throw

/-- cc:1873-1903, `get_number`. -/
def get_number : GC → Out F64
  | bool b => .ok (F64.ofBool b)
  | int i => .ok (F64.ofI32 i)
  | long l => .ok (F64.ofI64 l)
  | real r => .ok r
  | _ => .throw

/-- cc:1905-1932, `get_complex_number`. -/
def get_complex_number : GC → Out Cplx
  | bool b => .ok (.ofReal (F64.ofBool b))
  | int i => .ok (.ofReal (F64.ofI32 i))
  | long l => .ok (.ofReal (F64.ofI64 l))
  | real r => .ok (.ofReal r)
  | complex c => .ok c
  | _ => .throw

/-- cc:1941-1971, `get_number_at`; elements are read with unchecked `[i]`. -/
def get_number_at (i : Nat) : GC → Out F64
  | vecBool v => (getL v i).bind fun b => .ok (F64.ofBool b)
  | vecInt v => (getL v i).bind fun x => .ok (F64.ofI32 x)
  | vecLong v => (getL v i).bind fun x => .ok (F64.ofI64 x)
  | vecReal v => getL v i
  | matInt m => (getL m.data i).bind fun x => .ok (F64.ofI32 x)
  | matLong m => (getL m.data i).bind fun x => .ok (F64.ofI64 x)
  | matReal m => getL m.data i
  | vector v => (getL v i).bind get_number
  | _ => .throw

/-- cc:1973-2003, `get_complex_number_at`. -/
def get_complex_number_at (i : Nat) : GC → Out Cplx
  | vecBool v => (getL v i).bind fun b => .ok (.ofReal (F64.ofBool b))
  | vecInt v => (getL v i).bind fun x => .ok (.ofReal (F64.ofI32 x))
  | vecLong v => (getL v i).bind fun x => .ok (.ofReal (F64.ofI64 x))
  | vecReal v => (getL v i).bind fun x => .ok (.ofReal x)
  | vecComplex v => getL v i
  | matInt m => (getL m.data i).bind fun x => .ok (.ofReal (F64.ofI32 x))
  | matLong m => (getL m.data i).bind fun x => .ok (.ofReal (F64.ofI64 x))
  | matReal m => (getL m.data i).bind fun x => .ok (.ofReal x)
  | matComplex m => getL m.data i
  | vector v => (getL v i).bind get_complex_number
  | _ => .throw

/-! ## get_if_exists

`some v`: returned true and stored `v`; `none`: returned false, `value` untouched. -/

/-- The lookup shared by all versions (e.g. cc:2580-2582). -/
def lookupField (field : Bytes) : GC → Option GC
  | map m => mfind (cstr field) m
  | _ => none

/-- cc:2578-2586 -/
def get_if_exists_bool (field : Bytes) (g : GC) : Out (Option Bool) :=
  match lookupField field g with
  | some (bool b) => .ok (some b)
  | _ => .ok none

/-- cc:2588-2602.  The test is `m_data_type != GC_type::BOOL`, so the `bool` member of the
union is read exactly when another member is the active one: undefined. -/
def get_if_exists_bool_list (fields : List Bytes) : GC → Out (Option Bool)
  | map m => go m fields
  | _ => .ok none
where
  go (m : Entries) : List Bytes → Out (Option Bool)
    | [] => .ok none
    | f :: r =>
      match mfind f m with
      | none => go m r
      | some (bool _) => go m r
      | some _ => .ub

/-- cc:2606-2652 -/
def get_if_exists_int (field : Bytes) (g : GC) : Out (Option I32) :=
  match lookupField field g with
  | some (bool b) => .ok (some (I32.ofBool b))
  | some (int i) => .ok (some i)
  | some (long l) => .ok (some l.toI32)
  | some (real r) =>
    if r.isInteger then (r.toSigned 32).bind fun x => .ok (some x) else .ok none
  | some (complex c) =>
    if c.re.isInteger ∧ c.im.isZero0 then (c.re.toSigned 32).bind fun x => .ok (some x)
    else .ok none
  | _ => .ok none

/-- cc:2656-2704 -/
def get_if_exists_uint (field : Bytes) (g : GC) : Out (Option (BitVec 32)) :=
  match lookupField field g with
  | some (bool b) => .ok (some (I32.ofBool b))
  | some (int i) => if i.toInt < 0 then .ok none else .ok (some i)
  | some (long l) => if l.toInt < 0 then .ok none else .ok (some (l.setWidth 32))
  | some (real r) =>
    if r.isUnsigned then (r.toUnsigned 32).bind fun x => .ok (some x) else .ok none
  | some (complex c) =>
    if c.re.isUnsigned ∧ c.im.isZero0 then (c.re.toUnsigned 32).bind fun x => .ok (some x)
    else .ok none
  | _ => .ok none

/-- cc:2708-2754 -/
def get_if_exists_long (field : Bytes) (g : GC) : Out (Option I64) :=
  match lookupField field g with
  | some (bool b) => .ok (some (I64.ofBool b))
  | some (int i) => .ok (some i.toI64)
  | some (long l) => .ok (some l)
  | some (real r) =>
    if r.isInteger then (r.toSigned 64).bind fun x => .ok (some x) else .ok none
  | some (complex c) =>
    if c.re.isInteger ∧ c.im.isZero0 then (c.re.toSigned 64).bind fun x => .ok (some x)
    else .ok none
  | _ => .ok none

/-- cc:2758-2806 -/
def get_if_exists_ulong (field : Bytes) (g : GC) : Out (Option (BitVec 64)) :=
  match lookupField field g with
  | some (bool b) => .ok (some (I64.ofBool b))
  | some (int i) => if i.toInt < 0 then .ok none else .ok (some i.toI64)
  | some (long l) => if l.toInt < 0 then .ok none else .ok (some l)
  | some (real r) =>
    if r.isUnsigned then (r.toUnsigned 64).bind fun x => .ok (some x) else .ok none
  | some (complex c) =>
    if c.re.isUnsigned ∧ c.im.isZero0 then (c.re.toUnsigned 64).bind fun x => .ok (some x)
    else .ok none
  | _ => .ok none

/-- cc:2810-2854 -/
def get_if_exists_real (field : Bytes) (g : GC) : Out (Option F64) :=
  match lookupField field g with
  | some (bool b) => .ok (some (F64.ofBool b))
  | some (int i) => .ok (some (F64.ofI32 i))
  | some (long l) => .ok (some (F64.ofI64 l))
  | some (real r) => .ok (some r)
  | some (complex c) => if c.im.isZero0 then .ok (some c.re) else .ok none
  | _ => .ok none

/-- cc:2858-2901 -/
def get_if_exists_complex (field : Bytes) (g : GC) : Out (Option Cplx) :=
  match lookupField field g with
  | some (bool b) => .ok (some (.ofReal (F64.ofBool b)))
  | some (int i) => .ok (some (.ofReal (F64.ofI32 i)))
  | some (long l) => .ok (some (.ofReal (F64.ofI64 l)))
  | some (real r) => .ok (some (.ofReal r))
  | some (complex c) => .ok (some c)
  | _ => .ok none

/-- cc:2905-2916 -/
def get_if_exists_string (field : Bytes) (g : GC) : Out (Option Bytes) :=
  match lookupField field g with
  | some (string s) => .ok (some s)
  | _ => .ok none

/-- hh:3982-3989, the template over a list of fields: first field for which the single
field version returns true. -/
def get_if_exists_list {α : Type} (one : Bytes → GC → Out (Option α)) (g : GC) :
    List Bytes → Out (Option α)
  | [] => .ok none
  | f :: r =>
    (one f g).bind fun
      | some v => .ok (some v)
      | none => get_if_exists_list one g r

end GC
end GCV
