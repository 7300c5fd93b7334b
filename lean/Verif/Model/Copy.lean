import Verif.Model.Core

/-!
# Copying and merging: `from_gc`, `to_gc`, `operator=`, copy constructor, `merge`

Source and destination are two different objects (no aliasing).
-/

namespace GCV
namespace GC

mutual

/-- cc:3774-3855, `this->from_gc(gc)`: first argument `gc`, second the previous content of
`*this`.  Also `operator=(GenericContainer const&)` hh:3688-3689 and `load` hh:3699. -/
def from_gc : GC → GC → Out GC
  | notype, d => .ok (clear d)
  | bool b, d => .ok (set_bool b d)
  | int i, d => .ok (set_int i d)
  | long l, d => .ok (set_long l d)
  | real r, d => .ok (set_real r d)
  | complex c, d => .ok (set_complex c d)
  | string s, d => .ok (set_string s d)
  | vecBool v, d => set_vec_bool v d
  | vecInt v, d => set_vec_int v d
  | vecLong v, d => set_vec_long v d
  | vecReal v, d => set_vec_real v d
  | vecString v, d => set_vec_string v d
  | vector v, d =>
    -- set_vector(); vv = set_vector(v.size()); vv[i].from_gc(v[i])
    (from_gcL v (allocL notype (u32 v.length) d.oldVector)).bind fun w => .ok (vector w)
  | map m, d =>
    -- set_map(); (*this)[fst].from_gc(snd)
    (from_gcM m d.oldMap).bind fun w => .ok (map w)
  | matInt m, d => set_mat_int m d
  | matLong m, d => set_mat_long m d
  | matReal m, d => set_mat_real m d
  | vecComplex v, d => set_vec_complex v d
  | matComplex m, d => set_mat_complex m d
  | pointer p, d => .ok (set_pointer p d)
  | vecPointer v, d =>
    -- vv = set_vec_pointer(v.size()); vv[i] = v[i]
    set_vec_pointer v d
termination_by structural a => a

/-- cc:3818-3819, the loop over the elements of a VECTOR; `vv[i]` is unchecked. -/
def from_gcL : List GC → List GC → Out (List GC)
  | [], w => .ok w
  | _ :: _, [] => .ub
  | x :: xs, y :: ys =>
    (from_gc x y).bind fun y' => (from_gcL xs ys).bind fun ys' => .ok (y' :: ys')
termination_by structural a => a

/-- cc:3825-3826, the loop over the entries of a MAP; the key goes through
`operator[](string_view)`, hence through `s.data()`. -/
def from_gcM : Entries → Entries → Out Entries
  | [], w => .ok w
  | (k, x) :: xs, w =>
    (from_gc x ((mfind (cstr k) w).getD notype)).bind fun y =>
      from_gcM xs (mset (cstr k) y w)
termination_by structural a => a

end

mutual

/-- cc:3718-3763, `this->to_gc(gc)`: first argument `*this`, second the previous `gc`. -/
def to_gc : GC → GC → Out GC
  | notype, d => .ok (clear d)
  | bool b, d => .ok (set_bool b d)
  | int i, d => .ok (set_int i d)
  | long l, d => .ok (set_long l d)
  | real r, d => .ok (set_real r d)
  | complex c, d => .ok (set_complex c d)
  | string s, d => .ok (set_string s d)
  | vecBool v, d => set_vec_bool v d
  | vecInt v, d => set_vec_int v d
  | vecLong v, d => set_vec_long v d
  | vecReal v, d => set_vec_real v d
  | vecString v, d => set_vec_string v d
  | vector v, d =>
    (to_gcL v (allocL notype (u32 v.length) d.oldVector)).bind fun w => .ok (vector w)
  | map m, d => (to_gcM m d.oldMap).bind fun w => .ok (map w)
  | matInt m, d => set_mat_int m d
  | matLong m, d => set_mat_long m d
  | matReal m, d => set_mat_real m d
  | vecComplex v, d => set_vec_complex v d
  | matComplex m, d => set_mat_complex m d
  | pointer p, d => .ok (set_pointer p d)
  | vecPointer v, d => set_vec_pointer v d
termination_by structural a => a

/-- cc:3738-3739 -/
def to_gcL : List GC → List GC → Out (List GC)
  | [], w => .ok w
  | _ :: _, [] => .ub
  | x :: xs, y :: ys =>
    (to_gc x y).bind fun y' => (to_gcL xs ys).bind fun ys' => .ok (y' :: ys')
termination_by structural a => a

/-- cc:3745-3746 -/
def to_gcM : Entries → Entries → Out Entries
  | [], w => .ok w
  | (k, x) :: xs, w =>
    (to_gc x ((mfind (cstr k) w).getD notype)).bind fun y =>
      to_gcM xs (mset (cstr k) y w)
termination_by structural a => a

end

/-- hh:3880-3881, copy constructor: `from_gc` into an empty container. -/
def copy (g : GC) : Out GC := from_gc g notype

/-- cc:3861-3876, `this->merge(gc,where)`; first argument `gc`. -/
def merge : GC → GC → Res Unit
  | notype, d => .ok d ()
  | map m, d =>
    let d1 := if d = notype then set_map d else d
    match d1 with
    | map w =>
      match from_gcM m w with
      | .ok w' => .ok (map w') ()
      | .throw => .throw d1
      | .ub => .ub
      | .diverge => .diverge
    | _ => .throw d1
  | _, d => .throw d

end GC
end GCV
