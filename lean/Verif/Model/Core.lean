import Verif.Model.Num

/-!
# Core of the container: storage, setters, plain getters, counts

Paths: `hh` = include/GenericContainer/GenericContainer.hh, `cc` = src/GenericContainer.cc.
-/

namespace GCV

/-! ## Outcomes -/

namespace Out

/-- Sequencing of queries. -/
def bind {α β : Type} : Out α → (α → Out β) → Out β
  | .ok a, f => f a
  | .throw, _ => .throw
  | .ub, _ => .ub
  | .diverge, _ => .diverge

instance : Monad Out where
  pure := Out.ok
  bind := Out.bind

/-- A query run on a container that it does not modify. -/
def onState {α : Type} (s : GC) : Out α → Res α
  | .ok a => .ok s a
  | .throw => .throw s
  | .ub => .ub
  | .diverge => .diverge

end Out

namespace Res

/-- Sequencing of calls on the same container. -/
def bind {α β : Type} : Res α → (GC → α → Res β) → Res β
  | .ok s a, f => f s a
  | .throw s, _ => .throw s
  | .ub, _ => .ub
  | .diverge, _ => .diverge

/-- Rebuilds the enclosing container after a call on a component. -/
def mapState {α : Type} (up : GC → GC) : Res α → Res α
  | .ok s a => .ok (up s) a
  | .throw s => .throw (up s)
  | .ub => .ub
  | .diverge => .diverge

/-- The container left behind, when there is one. -/
def state? {α : Type} : Res α → Option GC
  | .ok s _ => some s
  | .throw s => some s
  | _ => none

end Res

/-! ## `std::vector` -/

/-- `std::vector::resize(n)`: keep the first `n`, fill with value-initialised elements. -/
def resizeL {α : Type} (d : α) (n : Nat) (l : List α) : List α :=
  l.take n ++ List.replicate (n - l.length) d

/-- The tail of every `allocate_vec_*` (e.g. cc:781): `if ( sz > 0 ) v->resize( sz )`. -/
def allocL {α : Type} (d : α) (sz : Nat) (l : List α) : List α :=
  if 0 < sz then resizeL d sz l else l

/-- `std::copy( v.begin(), v.end(), w.begin() )`: undefined when `w` is shorter. -/
def copyL {α : Type} (v w : List α) : Out (List α) :=
  if v.length ≤ w.length then .ok (v ++ w.drop v.length) else .ub

/-- `v[i]` on a `std::vector`: undefined out of range. -/
def getL {α : Type} (v : List α) (i : Nat) : Out α :=
  match v[i]? with
  | some a => .ok a
  | none => .ub

/-- `CHECK_RESIZE(pV,I)` (cc:43): `if ( pV->size() <= I ) pV->resize( I+1 )`, where `I+1`
is computed in 32 bits. -/
def checkResize {α : Type} (d : α) (i : Nat) (l : List α) : List α :=
  if l.length ≤ i then resizeL d (u32 (i + 1)) l else l

/-! ## `std::map<std::string,GenericContainer>` -/

/-- `std::string` order: lexicographic on bytes read as `unsigned char`. -/
def blt : Bytes → Bytes → Bool
  | [], [] => false
  | [], _ :: _ => true
  | _ :: _, [] => false
  | x :: xs, y :: ys => x.ult y || (x == y && blt xs ys)

/-- `map::find`. -/
def mfind (k : Bytes) : Entries → Option GC
  | [] => none
  | (k', v) :: r => if k = k' then some v else mfind k r

/-- Insertion or replacement, in key order. -/
def mset (k : Bytes) (v : GC) : Entries → Entries
  | [] => [(k, v)]
  | (k', v') :: r =>
    if k = k' then (k, v) :: r
    else if blt k k' then (k, v) :: (k', v') :: r
    else (k', v') :: mset k v r

/-- `map::erase(key)`. -/
def merase (k : Bytes) : Entries → Entries
  | [] => []
  | (k', v) :: r => if k = k' then r else (k', v) :: merase k r

/-- `std::string( s.data() )` for a `string_view s` over NUL terminated storage, which is
how keys are passed to the map in many places (e.g. cc:2551): cut at the first NUL. -/
def cstr (s : Bytes) : Bytes := s.takeWhile (· ≠ 0)

/-! ## `mat_type` -/

namespace Mat

/-- hh:189-192, constructor; `nr*nc` is a 32 bit product. -/
def make {α : Type} (d : α) (nr nc : Nat) : Mat α := ⟨nr, nc, List.replicate (u32 (nr * nc)) d⟩

/-- hh:206-211, `resize`. -/
def resize {α : Type} (d : α) (nr nc : Nat) (m : Mat α) : Mat α :=
  ⟨nr, nc, resizeL d (u32 (nr * nc)) m.data⟩

/-- `i+j*m_num_rows` (cc:137,149), 32 bit. -/
def index {α : Type} (m : Mat α) (i j : Nat) : Nat := u32 (i + j * m.nr)

/-- cc:134-144, `operator()(i,j) const`: only the flat index is range checked. -/
def get {α : Type} (m : Mat α) (i j : Nat) : Out α :=
  match m.data[m.index i j]? with
  | some a => .ok a
  | none => .throw

/-- cc:146-156, `operator()(i,j)` used as `m(i,j) = x`. -/
def set {α : Type} (m : Mat α) (i j : Nat) (x : α) : Out (Mat α) :=
  if m.index i j < m.data.length then .ok { m with data := m.data.set (m.index i j) x }
  else .throw

/-- Loop of get_column/get_row: collect `f 0 .. f (n-1)`. -/
def collect {α : Type} (f : Nat → Out α) : Nat → Out (List α)
  | 0 => .ok []
  | n + 1 => (collect f n).bind fun l => (f n).bind fun a => .ok (l ++ [a])

/-- cc:158-168, `get_column`. -/
def getColumn {α : Type} (m : Mat α) (c : Nat) : Out (List α) :=
  if c < m.nc then collect (fun i => m.get i c) m.nr else .throw

/-- cc:182-192, `get_row`. -/
def getRow {α : Type} (m : Mat α) (r : Nat) : Out (List α) :=
  if r < m.nr then collect (fun j => m.get r j) m.nc else .throw

end Mat

namespace GC

/-! ## Data already stored under a given tag, empty otherwise

The two branches of every `allocate_*`: keep the object when the tag matches, otherwise
`clear()` and start from a default constructed one. -/

def oldVecPointer : GC → List Ptr | vecPointer v => v | _ => []
def oldVecBool : GC → List Bool | vecBool v => v | _ => []
def oldVecInt : GC → List I32 | vecInt v => v | _ => []
def oldVecLong : GC → List I64 | vecLong v => v | _ => []
def oldVecReal : GC → List F64 | vecReal v => v | _ => []
def oldVecComplex : GC → List Cplx | vecComplex v => v | _ => []
def oldVecString : GC → List Bytes | vecString v => v | _ => []
def oldVector : GC → List GC | vector v => v | _ => []
def oldMap : GC → Entries | map m => m | _ => []

/-! ## Construction, destruction, clearing -/

/-- hh:725, the empty container. -/
def empty : GC := notype

/-- cc:586-624, `clear()`: the payload is freed (see Model/Heap.lean for the frees) and
the tag becomes NOTYPE, whatever was stored. -/
def clear (_ : GC) : GC := notype

/-- cc:784-796, `free_pointer()`. -/
def free_pointer : GC → Res Unit
  | pointer _ => .ok notype ()
  | notype => .ok notype ()
  | g => .throw g

/-- cc:626-635, `erase(name)`; the key is passed as a full `string(name)`. -/
def erase (name : Bytes) : GC → Res Unit
  | map m => .ok (map (merase name m)) ()
  | g => .throw g

/-! ## allocate_* (cc:756-919) -/

/-- cc:756-763 -/
def allocate_string : GC → GC | string s => string s | _ => string []
/-- cc:765-772 -/
def allocate_complex : GC → GC | complex c => complex c | _ => complex .zero
/-- cc:774-782 -/
def allocate_vec_pointer (sz : Nat) (g : GC) : GC := vecPointer (allocL 0 sz g.oldVecPointer)
/-- cc:798-806 -/
def allocate_vec_bool (sz : Nat) (g : GC) : GC := vecBool (allocL false sz g.oldVecBool)
/-- cc:808-816 -/
def allocate_vec_int (sz : Nat) (g : GC) : GC := vecInt (allocL 0 sz g.oldVecInt)
/-- cc:818-826 -/
def allocate_vec_long (sz : Nat) (g : GC) : GC := vecLong (allocL 0 sz g.oldVecLong)
/-- cc:828-836 -/
def allocate_vec_real (sz : Nat) (g : GC) : GC := vecReal (allocL .zero sz g.oldVecReal)
/-- cc:838-846 -/
def allocate_vec_complex (sz : Nat) (g : GC) : GC :=
  vecComplex (allocL .zero sz g.oldVecComplex)
/-- cc:848-857 -/
def allocate_mat_int (nr nc : Nat) : GC → GC
  | matInt m => matInt (m.resize 0 nr nc)
  | _ => matInt (.make 0 nr nc)
/-- cc:859-868 -/
def allocate_mat_long (nr nc : Nat) : GC → GC
  | matLong m => matLong (m.resize 0 nr nc)
  | _ => matLong (.make 0 nr nc)
/-- cc:870-879 -/
def allocate_mat_real (nr nc : Nat) : GC → GC
  | matReal m => matReal (m.resize .zero nr nc)
  | _ => matReal (.make .zero nr nc)
/-- cc:881-890 -/
def allocate_mat_complex (nr nc : Nat) : GC → GC
  | matComplex m => matComplex (m.resize .zero nr nc)
  | _ => matComplex (.make .zero nr nc)
/-- cc:892-900 -/
def allocate_vec_string (sz : Nat) (g : GC) : GC := vecString (allocL [] sz g.oldVecString)
/-- cc:902-910.  `vector<GenericContainer>::resize` may relocate elements by copying them
with the copy constructor (`from_gc` into an empty container); the model keeps them. -/
def allocate_vector (sz : Nat) (g : GC) : GC := vector (allocL notype sz g.oldVector)
/-- cc:912-919 -/
def allocate_map (g : GC) : GC := map g.oldMap

/-! ## set_* (cc:929-1138) -/

/-- cc:929-934 -/
def set_pointer (p : Ptr) (_ : GC) : GC := pointer p
/-- cc:936-941 -/
def set_bool (b : Bool) (_ : GC) : GC := bool b
/-- cc:943-948 -/
def set_int (i : I32) (_ : GC) : GC := int i
/-- cc:950-955 -/
def set_long (l : I64) (_ : GC) : GC := long l
/-- cc:957-962 -/
def set_real (r : F64) (_ : GC) : GC := real r
/-- cc:964-970 and cc:972-978 -/
def set_complex (c : Cplx) (_ : GC) : GC := complex c
/-- cc:980-984; `*m_data.s = value` assigns the whole view. -/
def set_string (s : Bytes) (g : GC) : GC :=
  match allocate_string g with
  | string _ => string s
  | g => g

/-- cc:986-990 -/
def set_vec_pointer_n (sz : Nat) (g : GC) : GC := allocate_vec_pointer sz g
/-- cc:999-1002 -/
def set_vec_bool_n (sz : Nat) (g : GC) : GC := allocate_vec_bool sz g
/-- cc:1011-1015 -/
def set_vec_int_n (sz : Nat) (g : GC) : GC := allocate_vec_int sz g
/-- cc:1024-1028 -/
def set_vec_long_n (sz : Nat) (g : GC) : GC := allocate_vec_long sz g
/-- cc:1037-1041 -/
def set_vec_real_n (sz : Nat) (g : GC) : GC := allocate_vec_real sz g
/-- cc:1050-1054 -/
def set_vec_complex_n (sz : Nat) (g : GC) : GC := allocate_vec_complex sz g
/-- cc:1115-1119 -/
def set_vec_string_n (sz : Nat) (g : GC) : GC := allocate_vec_string sz g
/-- cc:1063-1067 -/
def set_mat_int_n (nr nc : Nat) (g : GC) : GC := allocate_mat_int nr nc g
/-- cc:1076-1080 -/
def set_mat_long_n (nr nc : Nat) (g : GC) : GC := allocate_mat_long nr nc g
/-- cc:1089-1093 -/
def set_mat_real_n (nr nc : Nat) (g : GC) : GC := allocate_mat_real nr nc g
/-- cc:1102-1106 -/
def set_mat_complex_n (nr nc : Nat) (g : GC) : GC := allocate_mat_complex nr nc g
/-- cc:1128-1132 -/
def set_vector (sz : Nat) (g : GC) : GC := allocate_vector sz g
/-- cc:1134-1138 -/
def set_map (g : GC) : GC := allocate_map g

/-- cc:992-997: `v.size()` is converted to `unsigned`, then all of `v` is copied. -/
def set_vec_pointer (v : List Ptr) (g : GC) : Out GC :=
  (copyL v (allocL 0 (u32 v.length) g.oldVecPointer)).bind fun w => .ok (vecPointer w)
/-- cc:1004-1009 and operator= cc:338-343 -/
def set_vec_bool (v : List Bool) (g : GC) : Out GC :=
  (copyL v (allocL false (u32 v.length) g.oldVecBool)).bind fun w => .ok (vecBool w)
/-- cc:1017-1022 and operator= cc:345-350 -/
def set_vec_int (v : List I32) (g : GC) : Out GC :=
  (copyL v (allocL 0 (u32 v.length) g.oldVecInt)).bind fun w => .ok (vecInt w)
/-- cc:1030-1035 and operator= cc:352-357 -/
def set_vec_long (v : List I64) (g : GC) : Out GC :=
  (copyL v (allocL 0 (u32 v.length) g.oldVecLong)).bind fun w => .ok (vecLong w)
/-- cc:1043-1048 and operator= cc:359-364 -/
def set_vec_real (v : List F64) (g : GC) : Out GC :=
  (copyL v (allocL .zero (u32 v.length) g.oldVecReal)).bind fun w => .ok (vecReal w)
/-- cc:1056-1061 and operator= cc:366-371 -/
def set_vec_complex (v : List Cplx) (g : GC) : Out GC :=
  (copyL v (allocL .zero (u32 v.length) g.oldVecComplex)).bind fun w => .ok (vecComplex w)
/-- cc:1121-1126 and operator= cc:373-378 -/
def set_vec_string (v : List Bytes) (g : GC) : Out GC :=
  (copyL v (allocL [] (u32 v.length) g.oldVecString)).bind fun w => .ok (vecString w)

/-- cc:1069-1074 and operator= cc:380-384 -/
def set_mat_int (m : Mat I32) (g : GC) : Out GC :=
  match allocate_mat_int m.nr m.nc g with
  | matInt w => (copyL m.data w.data).bind fun d => .ok (matInt { w with data := d })
  | g => .ok g
/-- cc:1082-1087 and operator= cc:386-390 -/
def set_mat_long (m : Mat I64) (g : GC) : Out GC :=
  match allocate_mat_long m.nr m.nc g with
  | matLong w => (copyL m.data w.data).bind fun d => .ok (matLong { w with data := d })
  | g => .ok g
/-- cc:1095-1100 and operator= cc:392-396 -/
def set_mat_real (m : Mat F64) (g : GC) : Out GC :=
  match allocate_mat_real m.nr m.nc g with
  | matReal w => (copyL m.data w.data).bind fun d => .ok (matReal { w with data := d })
  | g => .ok g
/-- cc:1108-1113 and operator= cc:398-402 -/
def set_mat_complex (m : Mat Cplx) (g : GC) : Out GC :=
  match allocate_mat_complex m.nr m.nc g with
  | matComplex w => (copyL m.data w.data).bind fun d => .ok (matComplex { w with data := d })
  | g => .ok g

/-- hh:3525-3526, `operator=(uint_type)`: stored as `int_type`. -/
def assign_uint (a : BitVec 32) (_ : GC) : GC := int a
/-- hh:3541-3542, `operator=(ulong_type)`: stored as `long_type`. -/
def assign_ulong (a : BitVec 64) (_ : GC) : GC := long a

/-! ## Type and counts -/

/-- cc:637-666, `get_num_elements()`. -/
def get_num_elements : GC → Nat
  | pointer _ | bool _ | int _ | long _ | real _ | complex _ | string _ => 1
  | vecPointer v => u32 v.length
  | vecBool v => u32 v.length
  | vecInt v => u32 v.length
  | vecLong v => u32 v.length
  | vecReal v => u32 v.length
  | vecComplex v => u32 v.length
  | vecString v => u32 v.length
  | matInt m => u32 m.data.length
  | matLong m => u32 m.data.length
  | matReal m => u32 m.data.length
  | matComplex m => u32 m.data.length
  | vector v => u32 v.length
  | map m => u32 m.length
  | notype => 0

/-- cc:668-694, `num_rows()`. -/
def num_rows : GC → Nat
  | matInt m => m.nr
  | matLong m => m.nr
  | matReal m => m.nr
  | matComplex m => m.nr
  | notype => 0
  | _ => 1

/-- cc:696-724, `num_cols()`. -/
def num_cols : GC → Nat
  | pointer _ | bool _ | int _ | long _ | real _ | complex _ | string _ => 1
  | vecPointer v => u32 v.length
  | vecBool v => u32 v.length
  | vecInt v => u32 v.length
  | vecLong v => u32 v.length
  | vecReal v => u32 v.length
  | vecComplex v => u32 v.length
  | vecString v => u32 v.length
  | matInt m => m.nc
  | matLong m => m.nc
  | matReal m => m.nc
  | matComplex m => m.nc
  | vector v => u32 v.length
  | map m => u32 m.length
  | notype => 0

/-- cc:319-326, `get_keys(vec_string_type&)`. -/
def get_keys : GC → List Bytes
  | map m => m.map Prod.fst
  | _ => []

/-- cc:328-336, `get_keys()` joined with `", "`. -/
def get_keys_string : GC → Bytes
  | map m =>
    let res := (m.map fun e => e.1 ++ str ", ").flatten
    if m.isEmpty then res else res.dropLast.dropLast
  | _ => []

/-- cc:726-731, `ck(tp)`. -/
def ck (tp : Ty) (g : GC) : Nat :=
  if tp = g.ty then 0 else if tp = .NOTYPE then 1 else 2

/-! ## Const getters: `ck(where,tp)` (cc:733-741) then read -/

/-- hh:1722-1733 `get_pointer() const`, and cc:1254-1258 `get_pvoid` -/
def get_pvoid : GC → Out Ptr | pointer p => .ok p | _ => .throw
/-- cc:2018-2022 -/
def get_bool_c : GC → Out Bool | bool b => .ok b | _ => .throw
/-- cc:2030-2034 -/
def get_int_c : GC → Out I32 | int i => .ok i | _ => .throw
/-- cc:2042-2046 -/
def get_long_c : GC → Out I64 | long l => .ok l | _ => .throw
/-- cc:2082-2086 -/
def get_real_c : GC → Out F64 | real r => .ok r | _ => .throw
/-- cc:2100-2104 -/
def get_complex_c : GC → Out Cplx | complex c => .ok c | _ => .throw
/-- cc:2118-2122 -/
def get_string_c : GC → Out Bytes | string s => .ok s | _ => .throw
/-- cc:2124-2134 -/
def get_vector : GC → Out (List GC) | vector v => .ok v | _ => .throw
/-- cc:2136-2146 -/
def get_vec_pointer : GC → Out (List Ptr) | vecPointer v => .ok v | _ => .throw
/-- cc:2148-2158 -/
def get_vec_bool : GC → Out (List Bool) | vecBool v => .ok v | _ => .throw
/-- cc:2168-2172 -/
def get_vec_int_c : GC → Out (List I32) | vecInt v => .ok v | _ => .throw
/-- cc:2183-2187 -/
def get_vec_long_c : GC → Out (List I64) | vecLong v => .ok v | _ => .throw
/-- cc:2199-2203 -/
def get_vec_real_c : GC → Out (List F64) | vecReal v => .ok v | _ => .throw
/-- cc:2216-2220 -/
def get_vec_complex_c : GC → Out (List Cplx) | vecComplex v => .ok v | _ => .throw
/-- cc:2233-2237 -/
def get_mat_int_c : GC → Out (Mat I32) | matInt m => .ok m | _ => .throw
/-- cc:2251-2255 -/
def get_mat_long_c : GC → Out (Mat I64) | matLong m => .ok m | _ => .throw
/-- cc:2270-2274 -/
def get_mat_real_c : GC → Out (Mat F64) | matReal m => .ok m | _ => .throw
/-- cc:2289-2293 -/
def get_mat_complex_c : GC → Out (Mat Cplx) | matComplex m => .ok m | _ => .throw
/-- cc:2295-2305 -/
def get_vec_string : GC → Out (List Bytes) | vecString v => .ok v | _ => .throw
/-- cc:2307-2317 -/
def get_map : GC → Out Entries | map m => .ok m | _ => .throw

/-! ## Scalar getters on a mutable container

`ck_or_set` (cc:743-747) only sets the tag of an empty container, so the value found
afterwards is whatever the union holds: it is the parameter `junk`. -/

/-- cc:2012-2016 -/
def get_bool (junk : Bool) : GC → Res Bool
  | notype => .ok (bool junk) junk | bool b => .ok (bool b) b | g => .throw g
/-- cc:2024-2028 -/
def get_int (junk : I32) : GC → Res I32
  | notype => .ok (int junk) junk | int i => .ok (int i) i | g => .throw g
/-- cc:2036-2040 -/
def get_long (junk : I64) : GC → Res I64
  | notype => .ok (long junk) junk | long l => .ok (long l) l | g => .throw g
/-- cc:2076-2080 -/
def get_real (junk : F64) : GC → Res F64
  | notype => .ok (real junk) junk | real r => .ok (real r) r | g => .throw g
/-- cc:2088-2098; `new complex_type` is (0,0). -/
def get_complex : GC → Res Cplx
  | notype => .ok (complex .zero) .zero | complex c => .ok (complex c) c | g => .throw g
/-- cc:2106-2116 -/
def get_string : GC → Res Bytes
  | notype => .ok (string []) [] | string s => .ok (string s) s | g => .throw g

end GC

end GCV
