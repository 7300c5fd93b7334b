import Verif.Model.Core
import Verif.Model.Access
import Verif.Spec.Values

/-!
# The const typed accessors and the setters, listed by type

Only names the functions of Model/Core.lean; no further modelling.
-/

namespace GCV
namespace GC

/-- The const accessor of a type (`get_int() const` for INTEGER, …). -/
def readC : Ty → GC → Out Val
  | .NOTYPE, _ => .throw
  | .POINTER, g => (get_pvoid g).bind fun x => .ok (.pointer x)
  | .BOOL, g => (get_bool_c g).bind fun x => .ok (.bool x)
  | .INTEGER, g => (get_int_c g).bind fun x => .ok (.int x)
  | .LONG, g => (get_long_c g).bind fun x => .ok (.long x)
  | .REAL, g => (get_real_c g).bind fun x => .ok (.real x)
  | .COMPLEX, g => (get_complex_c g).bind fun x => .ok (.complex x)
  | .STRING, g => (get_string_c g).bind fun x => .ok (.string x)
  | .VEC_POINTER, g => (get_vec_pointer g).bind fun x => .ok (.vecPointer x)
  | .VEC_BOOL, g => (get_vec_bool g).bind fun x => .ok (.vecBool x)
  | .VEC_INTEGER, g => (get_vec_int_c g).bind fun x => .ok (.vecInt x)
  | .VEC_LONG, g => (get_vec_long_c g).bind fun x => .ok (.vecLong x)
  | .VEC_REAL, g => (get_vec_real_c g).bind fun x => .ok (.vecReal x)
  | .VEC_COMPLEX, g => (get_vec_complex_c g).bind fun x => .ok (.vecComplex x)
  | .VEC_STRING, g => (get_vec_string g).bind fun x => .ok (.vecString x)
  | .MAT_INTEGER, g => (get_mat_int_c g).bind fun x => .ok (.matInt x)
  | .MAT_LONG, g => (get_mat_long_c g).bind fun x => .ok (.matLong x)
  | .MAT_REAL, g => (get_mat_real_c g).bind fun x => .ok (.matReal x)
  | .MAT_COMPLEX, g => (get_mat_complex_c g).bind fun x => .ok (.matComplex x)
  | .VECTOR, g => (get_vector g).bind fun x => .ok (.vector x)
  | .MAP, g => (get_map g).bind fun x => .ok (.map x)

/-- The setter for a value (`set_int(v)`, …, `set_mat_complex(m)`, also `operator=`).
`vector` and `map` have no setter taking a value. -/
def writeV : Val → GC → Out GC
  | .pointer p, g => .ok (set_pointer p g)
  | .bool p, g => .ok (set_bool p g)
  | .int p, g => .ok (set_int p g)
  | .long p, g => .ok (set_long p g)
  | .real p, g => .ok (set_real p g)
  | .complex p, g => .ok (set_complex p g)
  | .string p, g => .ok (set_string p g)
  | .vecPointer p, g => set_vec_pointer p g
  | .vecBool p, g => set_vec_bool p g
  | .vecInt p, g => set_vec_int p g
  | .vecLong p, g => set_vec_long p g
  | .vecReal p, g => set_vec_real p g
  | .vecComplex p, g => set_vec_complex p g
  | .vecString p, g => set_vec_string p g
  | .matInt p, g => set_mat_int p g
  | .matLong p, g => set_mat_long p g
  | .matReal p, g => set_mat_real p g
  | .matComplex p, g => set_mat_complex p g
  | .vector _, _ => .throw
  | .map _, _ => .throw

end GC
end GCV
