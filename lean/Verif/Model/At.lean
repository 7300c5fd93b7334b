import Verif.Model.Promote
import Verif.Model.Access

/-!
# Positional access on a mutable container, mutable vector and matrix getters, push_*

A returned reference `T &` is modelled by the update `upd : T → T` made through it; the
result is the value found there before the update.
-/

namespace GCV
namespace GC

/-- `CHECK_RESIZE(v,i); return (*v)[i];` with the update made through the reference. -/
def refAt {α : Type} (d : α) (up : List α → GC) (v : List α) (i : Nat) (upd : α → α) : Res α :=
  let w := checkResize d i v
  match w[i]? with
  | some x => .ok (up (w.set i (upd x))) x
  | none => .ub

/-- `if ( m_data_type != VECTOR ) promote_to_vector(); CHECK_RESIZE(m_data.v,i);
return (*m_data.v)[i].set_T(z);` — element `i` is overwritten with `z` before the reference to
its content is handed out. -/
def refAtVector {α : Type} (mk : α → GC) (z : α) (i : Nat) (upd : α → α) (g : GC) : Res α :=
  (promote_to_vector g).bind fun g' _ =>
    match g' with
    | vector v =>
      let w := checkResize notype i v
      match w[i]? with
      | some _ => .ok (vector (w.set i (mk (upd z)))) z
      | none => .ub
    | g' => .throw g'

/-- cc:2919-2929; returns by value. -/
def get_bool_at (i : Nat) : GC → Res Bool
  | notype => refAt false vecBool [] i id
  | vecBool v => refAt false vecBool v i id
  | g => refAtVector bool false i id g

/-- cc:2941-2954 -/
def get_int_at (i : Nat) (upd : I32 → I32) : GC → Res I32
  | notype => refAt 0 vecInt [] i upd
  | vecInt v => refAt 0 vecInt v i upd
  | bool b => (promote_to_vec_int (bool b)).bind after
  | int k => (promote_to_vec_int (int k)).bind after
  | vecBool v => (promote_to_vec_int (vecBool v)).bind after
  | g => refAtVector int 0 i upd g
where
  after (g : GC) (_ : Unit) : Res I32 :=
    match g with
    | vecInt v => refAt 0 vecInt v i upd
    | g => refAtVector int 0 i upd g

/-- cc:2990-3005 -/
def get_long_at (i : Nat) (upd : I64 → I64) : GC → Res I64
  | notype => refAt 0 vecLong [] i upd
  | vecLong v => refAt 0 vecLong v i upd
  | bool b => (promote_to_vec_long (bool b)).bind after
  | int k => (promote_to_vec_long (int k)).bind after
  | long k => (promote_to_vec_long (long k)).bind after
  | vecBool v => (promote_to_vec_long (vecBool v)).bind after
  | vecInt v => (promote_to_vec_long (vecInt v)).bind after
  | g => refAtVector long 0 i upd g
where
  after (g : GC) (_ : Unit) : Res I64 :=
    match g with
    | vecLong v => refAt 0 vecLong v i upd
    | g => refAtVector long 0 i upd g

/-- cc:3042-3055 -/
def get_real_at (i : Nat) (upd : F64 → F64) : GC → Res F64
  | notype => refAt .zero vecReal [] i upd
  | vecReal v => refAt .zero vecReal v i upd
  | vecBool v => (promote_to_vec_real (vecBool v)).bind after
  | vecInt v => (promote_to_vec_real (vecInt v)).bind after
  | vecLong v => (promote_to_vec_real (vecLong v)).bind after
  | g => refAtVector real .zero i upd g
where
  after (g : GC) (_ : Unit) : Res F64 :=
    match g with
    | vecReal v => refAt .zero vecReal v i upd
    | g => refAtVector real .zero i upd g

/-- cc:3093-3107 -/
def get_complex_at (i : Nat) (upd : Cplx → Cplx) : GC → Res Cplx
  | notype => refAt .zero vecComplex [] i upd
  | vecComplex v => refAt .zero vecComplex v i upd
  | vecBool v => (promote_to_vec_complex (vecBool v)).bind after
  | vecInt v => (promote_to_vec_complex (vecInt v)).bind after
  | vecLong v => (promote_to_vec_complex (vecLong v)).bind after
  | vecReal v => (promote_to_vec_complex (vecReal v)).bind after
  | g => refAtVector complex .zero i upd g
where
  after (g : GC) (_ : Unit) : Res Cplx :=
    match g with
    | vecComplex v => refAt .zero vecComplex v i upd
    | g => refAtVector complex .zero i upd g

/-- cc:3143-3152 -/
def get_string_at (i : Nat) (upd : Bytes → Bytes) : GC → Res Bytes
  | notype => refAt [] vecString [] i upd
  | vecString v => refAt [] vecString v i upd
  | g => refAtVector string [] i upd g

/-- cc:3164-3166, `get_gc_at(i)`. -/
def get_gc_at {α : Type} (i : Nat) (f : GC → Res α) (g : GC) : Res α := withIdx i f g

/-! ## (i,j) access -/

/-- `return (*m)(i,j)` with the update made through the reference. -/
def refAt2 {α : Type} (up : Mat α → GC) (m : Mat α) (i j : Nat) (upd : α → α) : Res α :=
  match m.get i j with
  | .ok x =>
    match m.set i j (upd x) with
    | .ok m' => .ok (up m') x
    | _ => .throw (up m)
  | _ => .throw (up m)

/-- cc:2966-2978; an empty container becomes a MAT_REAL (cc:2967) and the call throws. -/
def get_int_at2 (i j : Nat) (upd : I32 → I32) : GC → Res I32
  | notype => .throw (set_mat_real_n i j notype)
  | vecBool v => (promote_to_mat_int (vecBool v)).bind after
  | vecInt v => (promote_to_mat_int (vecInt v)).bind after
  | matInt m => refAt2 matInt m i j upd
  | g => .throw g
where
  after (g : GC) (_ : Unit) : Res I32 :=
    match g with
    | matInt m => refAt2 matInt m i j upd
    | g => .throw g

/-- cc:3017-3030 -/
def get_long_at2 (i j : Nat) (upd : I64 → I64) : GC → Res I64
  | notype => .throw (set_mat_real_n i j notype)
  | vecBool v => (promote_to_mat_long (vecBool v)).bind after
  | vecInt v => (promote_to_mat_long (vecInt v)).bind after
  | vecLong v => (promote_to_mat_long (vecLong v)).bind after
  | matLong m => refAt2 matLong m i j upd
  | g => .throw g
where
  after (g : GC) (_ : Unit) : Res I64 :=
    match g with
    | matLong m => refAt2 matLong m i j upd
    | g => .throw g

/-- cc:3067-3081; an empty container becomes an i x j matrix, in which (i,j) does not exist. -/
def get_real_at2 (i j : Nat) (upd : F64 → F64) : GC → Res F64
  | notype => after (set_mat_real_n i j notype) ()
  | vecBool v => (promote_to_mat_real (vecBool v)).bind after
  | vecInt v => (promote_to_mat_real (vecInt v)).bind after
  | vecLong v => (promote_to_mat_real (vecLong v)).bind after
  | vecReal v => (promote_to_mat_real (vecReal v)).bind after
  | matReal m => refAt2 matReal m i j upd
  | g => .throw g
where
  after (g : GC) (_ : Unit) : Res F64 :=
    match g with
    | matReal m => refAt2 matReal m i j upd
    | g => .throw g

/-- cc:3119-3135 -/
def get_complex_at2 (i j : Nat) (upd : Cplx → Cplx) : GC → Res Cplx
  | notype => after (set_mat_complex_n i j notype) ()
  | vecBool v => (promote_to_mat_complex (vecBool v)).bind after
  | vecInt v => (promote_to_mat_complex (vecInt v)).bind after
  | vecLong v => (promote_to_mat_complex (vecLong v)).bind after
  | vecReal v => (promote_to_mat_complex (vecReal v)).bind after
  | vecComplex v => (promote_to_mat_complex (vecComplex v)).bind after
  | matReal m => (promote_to_mat_complex (matReal m)).bind after
  | matComplex m => refAt2 matComplex m i j upd
  | g => .throw g
where
  after (g : GC) (_ : Unit) : Res Cplx :=
    match g with
    | matComplex m => refAt2 matComplex m i j upd
    | g => .throw g

/-! ## Mutable vector and matrix getters: result the content found, `upd` made through the
reference -/

/-- cc:2160-2166 -/
def get_vec_int (upd : List I32 → List I32) : GC → Res (List I32)
  | notype => .ok (vecInt (upd [])) []
  | vecInt v => .ok (vecInt (upd v)) v
  | vecBool v => (promote_to_vec_int (vecBool v)).bind fun g _ =>
    match g with | vecInt w => .ok (vecInt (upd w)) w | g => .throw g
  | g => .throw g

/-- cc:2174-2181 -/
def get_vec_long (upd : List I64 → List I64) : GC → Res (List I64)
  | notype => .ok (vecLong (upd [])) []
  | vecLong v => .ok (vecLong (upd v)) v
  | vecBool v => (promote_to_vec_long (vecBool v)).bind after
  | vecInt v => (promote_to_vec_long (vecInt v)).bind after
  | g => .throw g
where
  after (g : GC) (_ : Unit) : Res (List I64) :=
    match g with | vecLong w => .ok (vecLong (upd w)) w | g => .throw g

/-- cc:2189-2197 -/
def get_vec_real (upd : List F64 → List F64) : GC → Res (List F64)
  | notype => .ok (vecReal (upd [])) []
  | vecReal v => .ok (vecReal (upd v)) v
  | vecBool v => (promote_to_vec_real (vecBool v)).bind after
  | vecInt v => (promote_to_vec_real (vecInt v)).bind after
  | vecLong v => (promote_to_vec_real (vecLong v)).bind after
  | g => .throw g
where
  after (g : GC) (_ : Unit) : Res (List F64) :=
    match g with | vecReal w => .ok (vecReal (upd w)) w | g => .throw g

/-- cc:2205-2214 -/
def get_vec_complex (upd : List Cplx → List Cplx) : GC → Res (List Cplx)
  | notype => .ok (vecComplex (upd [])) []
  | vecComplex v => .ok (vecComplex (upd v)) v
  | vecBool v => (promote_to_vec_complex (vecBool v)).bind after
  | vecInt v => (promote_to_vec_complex (vecInt v)).bind after
  | vecLong v => (promote_to_vec_complex (vecLong v)).bind after
  | vecReal v => (promote_to_vec_complex (vecReal v)).bind after
  | g => .throw g
where
  after (g : GC) (_ : Unit) : Res (List Cplx) :=
    match g with | vecComplex w => .ok (vecComplex (upd w)) w | g => .throw g

/-- cc:2222-2231; `set_mat_int()` on an empty container makes a 0 x 0 matrix. -/
def get_mat_int (upd : Mat I32 → Mat I32) : GC → Res (Mat I32)
  | notype => .ok (matInt (upd (.make 0 0 0))) (.make 0 0 0)
  | matInt m => .ok (matInt (upd m)) m
  | vecBool v => (promote_to_mat_int (vecBool v)).bind after
  | vecInt v => (promote_to_mat_int (vecInt v)).bind after
  | vecLong v => (promote_to_mat_int (vecLong v)).bind after
  | vecReal v => (promote_to_mat_int (vecReal v)).bind after
  | g => .throw g
where
  after (g : GC) (_ : Unit) : Res (Mat I32) :=
    match g with | matInt m => .ok (matInt (upd m)) m | g => .throw g

/-- cc:2239-2249 -/
def get_mat_long (upd : Mat I64 → Mat I64) : GC → Res (Mat I64)
  | notype => .ok (matLong (upd (.make 0 0 0))) (.make 0 0 0)
  | matLong m => .ok (matLong (upd m)) m
  | vecBool v => (promote_to_mat_long (vecBool v)).bind after
  | vecInt v => (promote_to_mat_long (vecInt v)).bind after
  | vecLong v => (promote_to_mat_long (vecLong v)).bind after
  | vecReal v => (promote_to_mat_long (vecReal v)).bind after
  | matInt m => (promote_to_mat_long (matInt m)).bind after
  | g => .throw g
where
  after (g : GC) (_ : Unit) : Res (Mat I64) :=
    match g with | matLong m => .ok (matLong (upd m)) m | g => .throw g

/-- cc:2257-2268 -/
def get_mat_real (upd : Mat F64 → Mat F64) : GC → Res (Mat F64)
  | notype => .ok (matReal (upd (.make .zero 0 0))) (.make .zero 0 0)
  | matReal m => .ok (matReal (upd m)) m
  | vecBool v => (promote_to_mat_real (vecBool v)).bind after
  | vecInt v => (promote_to_mat_real (vecInt v)).bind after
  | vecLong v => (promote_to_mat_real (vecLong v)).bind after
  | vecReal v => (promote_to_mat_real (vecReal v)).bind after
  | matInt m => (promote_to_mat_real (matInt m)).bind after
  | matLong m => (promote_to_mat_real (matLong m)).bind after
  | g => .throw g
where
  after (g : GC) (_ : Unit) : Res (Mat F64) :=
    match g with | matReal m => .ok (matReal (upd m)) m | g => .throw g

/-- cc:2276-2287 -/
def get_mat_complex (upd : Mat Cplx → Mat Cplx) : GC → Res (Mat Cplx)
  | notype => .ok (matComplex (upd (.make .zero 0 0))) (.make .zero 0 0)
  | matComplex m => .ok (matComplex (upd m)) m
  | vecBool v => (promote_to_mat_complex (vecBool v)).bind after
  | vecInt v => (promote_to_mat_complex (vecInt v)).bind after
  | vecLong v => (promote_to_mat_complex (vecLong v)).bind after
  | vecReal v => (promote_to_mat_complex (vecReal v)).bind after
  | matReal m => (promote_to_mat_complex (matReal m)).bind after
  | vecComplex v => (promote_to_mat_complex (vecComplex v)).bind after
  | g => .throw g
where
  after (g : GC) (_ : Unit) : Res (Mat Cplx) :=
    match g with | matComplex m => .ok (matComplex (upd m)) m | g => .throw g

/-! ## push_* (cc:1147-1244) -/

/-- cc:1147-1166 -/
def push_bool (b : Bool) : GC → Res Unit
  | vecBool v => .ok (vecBool (v ++ [b])) ()
  | vecInt v => .ok (vecInt (v ++ [I32.ofBool b])) ()
  | vecLong v => .ok (vecLong (v ++ [I64.ofBool b])) ()
  | vecReal v => .ok (vecReal (v ++ [F64.ofBool b])) ()
  | vecComplex v => .ok (vecComplex (v ++ [.ofReal (F64.ofBool b)])) ()
  | vector v => .ok (vector (v ++ [bool b])) ()
  | g => .throw g

/-- cc:1168-1185 -/
def push_int (i : I32) : GC → Res Unit
  | vecInt v => .ok (vecInt (v ++ [i])) ()
  | vecLong v => .ok (vecLong (v ++ [i.toI64])) ()
  | vecReal v => .ok (vecReal (v ++ [F64.ofI32 i])) ()
  | vecComplex v => .ok (vecComplex (v ++ [.ofReal (F64.ofI32 i)])) ()
  | vector v => .ok (vector (v ++ [int i])) ()
  | g => (promote_to_vec_int g).bind fun g' _ =>
    match g' with | vecInt v => .ok (vecInt (v ++ [i])) () | _ => .ub

/-- cc:1187-1202 -/
def push_long (l : I64) : GC → Res Unit
  | vecLong v => .ok (vecLong (v ++ [l])) ()
  | vecReal v => .ok (vecReal (v ++ [F64.ofI64 l])) ()
  | vecComplex v => .ok (vecComplex (v ++ [.ofReal (F64.ofI64 l)])) ()
  | vector v => .ok (vector (v ++ [long l])) ()
  | g => (promote_to_vec_long g).bind fun g' _ =>
    match g' with | vecLong v => .ok (vecLong (v ++ [l])) () | _ => .ub

/-- cc:1204-1217 -/
def push_real (r : F64) : GC → Res Unit
  | vecReal v => .ok (vecReal (v ++ [r])) ()
  | vecComplex v => .ok (vecComplex (v ++ [.ofReal r])) ()
  | vector v => .ok (vector (v ++ [real r])) ()
  | g => (promote_to_vec_real g).bind fun g' _ =>
    match g' with | vecReal v => .ok (vecReal (v ++ [r])) () | _ => .ub

/-- cc:1219-1234 -/
def push_complex (c : Cplx) : GC → Res Unit
  | vector v => .ok (vector (v ++ [complex c])) ()
  | vecComplex v => .ok (vecComplex (v ++ [c])) ()
  | g => (promote_to_vec_complex g).bind fun g' _ =>
    match g' with | vecComplex v => .ok (vecComplex (v ++ [c])) () | _ => .ub

/-- cc:1236-1245 -/
def push_string (s : Bytes) : GC → Res Unit
  | vecString v => .ok (vecString (v ++ [s])) ()
  | g => (promote_to_vector g).bind fun g' _ =>
    match g' with | vector v => .ok (vector (v ++ [string s])) () | _ => .ub

end GC
end GCV
