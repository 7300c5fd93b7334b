import Verif.Model.Serialize

/-! # Type names and classes -/

namespace GCV

/-- cc:280-306, `to_string(GC_type)`. -/
def Ty.name : Ty → Bytes
  | .NOTYPE => str "NOTYPE"
  | .POINTER => str "pointer"
  | .BOOL => str "bool_type"
  | .INTEGER => str "int_type"
  | .LONG => str "long_type"
  | .REAL => str "real_type"
  | .COMPLEX => str "complex_type"
  | .STRING => str "string_type"
  | .VEC_POINTER => str "vec_pointer_type"
  | .VEC_BOOL => str "vec_bool_type"
  | .VEC_INTEGER => str "vec_int_type"
  | .VEC_LONG => str "vec_long_type"
  | .VEC_REAL => str "vec_real_type"
  | .VEC_COMPLEX => str "vec_complex_type"
  | .VEC_STRING => str "vec_string_type"
  | .MAT_INTEGER => str "mat_int_type"
  | .MAT_LONG => str "mat_long_type"
  | .MAT_REAL => str "mat_real_type"
  | .MAT_COMPLEX => str "mat_complex_type"
  | .VECTOR => str "vector_type"
  | .MAP => str "map_type"

namespace GC

/-- hh:1534, `get_type_name()`. -/
def get_type_name (g : GC) : Bytes := g.ty.name

/-- hh:701, `simple_data()`: `m_data_type <= GC_type::STRING`. -/
def simple_data (g : GC) : Bool := decide (g.ty.code ≤ Ty.code .STRING)

/-- hh:708, `simple_vec_data()`: `m_data_type < GC_type::VEC_STRING`. -/
def simple_vec_data (g : GC) : Bool := decide (g.ty.code < Ty.code .VEC_STRING)

end GC
end GCV
