import Verif.Model.Core

/-!
# Element access: `operator[]`, `operator()`, `exists`, `must_exists`, const `get_*_at`

A reference obtained from the container is modelled by the call `f` made through it.
-/

namespace GCV
namespace GC

/-- cc:3263-3271, `(*this)[i]`, followed by `f` on the element. -/
def withIdx {α : Type} (i : Nat) (f : GC → Res α) (g : GC) : Res α :=
  let v := checkResize notype i g.oldVector
  match v[i]? with
  | none => .ub
  | some x => (f x).mapState fun y => vector (v.set i y)

/-- cc:3273-3286, `(*this)[i] const`. -/
def idx_c (i : Nat) : GC → Out GC
  | vector v => match v[i]? with | some x => .ok x | none => .throw
  | _ => .throw

/-- cc:3298-3306, `(*this)(i)` on a mutable container, followed by `f` on the element. -/
def withIdxChecked {α : Type} (i : Nat) (f : GC → Res α) : GC → Res α
  | vector v =>
    match v[i]? with
    | some x => (f x).mapState fun y => vector (v.set i y)
    | none => .throw (vector v)
  | g => .throw g

/-- cc:3308-3316, `(*this)(i) const`; also cc:3168-3171 `get_gc_at(i,where) const`. -/
def call_idx_c (i : Nat) : GC → Out GC
  | vector v => match v[i]? with | some x => .ok x | none => .throw
  | _ => .throw

/-- cc:3397-3401, `(*this)[s]`, followed by `f` on the element. -/
def withKey {α : Type} (s : Bytes) (f : GC → Res α) (g : GC) : Res α :=
  let m := g.oldMap
  let k := cstr s
  (f ((mfind k m).getD notype)).mapState fun y => map (mset k y m)

/-- cc:3403-3412, `(*this)[s]` on a const container: `(*m_data.m)[s.data()]` is the
inserting `operator[]` of `std::map`, so the container may change although it is const. -/
def key_c (s : Bytes) : GC → Res GC
  | map m =>
    let x := (mfind (cstr s) m).getD notype
    .ok (map (mset (cstr s) x m)) x
  | g => .throw g

/-- cc:3318-3334, `(*this)(s)` on a mutable container, followed by `f`. -/
def withKeyChecked {α : Type} (s : Bytes) (f : GC → Res α) : GC → Res α
  | map m =>
    match mfind (cstr s) m with
    | some x => (f x).mapState fun y => map (mset (cstr s) y m)
    | none => .throw (map m)
  | g => .throw g

/-- cc:3336-3352, `(*this)(s) const`. -/
def call_key_c (s : Bytes) : GC → Out GC
  | map m => match mfind (cstr s) m with | some x => .ok x | none => .throw
  | _ => .throw

/-- First of the strings that is a key; keys are passed as whole `string`s. -/
def firstKey (m : Entries) : List Bytes → Option Bytes
  | [] => none
  | s :: r => if (mfind s m).isSome then some s else firstKey m r

/-- cc:3356-3370, `(*this)(vs)` on a mutable container, followed by `f`. -/
def withKeysChecked {α : Type} (vs : List Bytes) (f : GC → Res α) : GC → Res α
  | map m =>
    match firstKey m vs with
    | some s => (f ((mfind s m).getD notype)).mapState fun y => map (mset s y m)
    | none => .throw (map m)
  | g => .throw g

/-- cc:3372-3386, `(*this)(vs) const`. -/
def call_keys_c (vs : List Bytes) : GC → Out GC
  | map m =>
    match firstKey m vs with
    | some s => match mfind s m with | some x => .ok x | none => .throw
    | none => .throw
  | _ => .throw

/-- cc:2548-2553, `exists(s)`. -/
def «exists» (s : Bytes) : GC → Bool
  | map m => (mfind (cstr s) m).isSome
  | _ => false

/-- cc:2555-2561, `exists(vs)`; each `string` goes through `s.data()`. -/
def existsAny (vs : List Bytes) : GC → Bool
  | map m => vs.any fun s => (mfind (cstr s) m).isSome
  | _ => false

/-- cc:2562-2574, `must_exists(vs,where)`. -/
def must_exists (vs : List Bytes) : GC → Out Bytes
  | map m => match firstKey m vs with | some s => .ok s | none => .throw
  | _ => .throw

/-! ## get_map_* with one key (cc:2322-2544)

`exists(key)`, then `m->at(key.data())` (a missing key makes `at` throw
`std::out_of_range`), then the getter `get`. -/

/-- cc:2348-2354 and the other single-key versions, with the getter they end with. -/
def get_map_key {α : Type} (get : GC → Out α) (key : Bytes) (g : GC) : Out α :=
  if g.exists key then
    match g with
    | map m => match mfind (cstr key) m with | some x => get x | none => .throw
    | _ => .throw
  else .throw

/-- cc:2322-2329, `get_map_bool(key)`: here `at(string(key))`, the whole key. -/
def get_map_bool (key : Bytes) (g : GC) : Out Bool :=
  if g.exists key then
    match g with
    | map m => match mfind key m with | some x => get_bool_c x | none => .throw
    | _ => .throw
  else .throw

/-- cc:2331-2343 and the other `initializer_list` versions: walk down a path of keys. -/
def get_map_path {α : Type} (get : GC → Out α) : List Bytes → GC → Out α
  | [], g => get g
  | k :: ks, g =>
    if g.exists k then (call_key_c k g).bind (get_map_path get ks) else .throw

/-- cc:2345-2352 and the other `vec_string_type` versions: first existing key. -/
def get_map_keys {α : Type} (get : GC → Out α) (ks : List Bytes) (g : GC) : Out α :=
  (must_exists ks g).bind fun who =>
    match g with
    | map m => match mfind who m with | some x => get x | none => .throw
    | _ => .throw

/-! ## Const positional access -/

/-- `v[i]` after `GC_ASSERT( i < v.size() )`. -/
def checkedAt {α : Type} (v : List α) (i : Nat) : Out α :=
  match v[i]? with | some a => .ok a | none => .throw

/-- cc:2931-2939 -/
def get_bool_at_c (i : Nat) : GC → Out Bool | vecBool v => checkedAt v i | _ => .throw
/-- cc:2956-2964 -/
def get_int_at_c (i : Nat) : GC → Out I32 | vecInt v => checkedAt v i | _ => .throw
/-- cc:3007-3015 -/
def get_long_at_c (i : Nat) : GC → Out I64 | vecLong v => checkedAt v i | _ => .throw
/-- cc:3057-3065 -/
def get_real_at_c (i : Nat) : GC → Out F64 | vecReal v => checkedAt v i | _ => .throw
/-- cc:3109-3117 -/
def get_complex_at_c (i : Nat) : GC → Out Cplx | vecComplex v => checkedAt v i | _ => .throw
/-- cc:3154-3162 -/
def get_string_at_c (i : Nat) : GC → Out Bytes | vecString v => checkedAt v i | _ => .throw

/-- cc:2980-2988 -/
def get_int_at2_c (i j : Nat) : GC → Out I32
  | matInt m => if i < m.nr ∧ j < m.nc then m.get i j else .throw
  | _ => .throw
/-- cc:3032-3040 -/
def get_long_at2_c (i j : Nat) : GC → Out I64
  | matLong m => if i < m.nr ∧ j < m.nc then m.get i j else .throw
  | _ => .throw
/-- cc:3083-3091: the check is `i < m_data.v_r->size()`, where `v_r` aliases the matrix
pointer; `mat_type` derives from `vector`, so this is the number of stored elements.
(Strictly, reading an inactive union member; both are pointers to the same object.) -/
def get_real_at2_c (i j : Nat) : GC → Out F64
  | matReal m => if i < m.data.length then m.get i j else .throw
  | _ => .throw
/-- cc:3137-3141: no check besides the one of `operator()`. -/
def get_complex_at2_c (i j : Nat) : GC → Out Cplx
  | matComplex m => m.get i j
  | _ => .throw

end GC
end GCV
