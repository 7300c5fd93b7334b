import Verif.Model.Access
import Verif.Model.Collapse

/-!
# YAML and TOML documents

Paths: `fy` = src_yaml_interface/from_yaml.cc, `ft` = src_toml_interface/from_toml.cc,
`tt` = src_toml_interface/to_toml.cc.

The third-party parsers and the TOML printer are not modelled: a document is the tree of nodes the parser
delivers, or the printer is given.
-/

namespace GCV

/-- The nodes of fkYAML (`fkyaml::node_type`).  The entries of a mapping come in the order in which the parser
delivers them; a key is a node, of which only the text matters, `none` for a key that is not a string. -/
inductive Yaml
  | null
  | bool (b : Bool)
  | int (n : I64)
  | float (r : F64)
  | str (s : Bytes)
  | seq (l : List Yaml)
  | mapping (m : List (Option Bytes × Yaml))

/-- The nodes of toml++ (`toml::node_type`).  Dates and times are given by the text that `operator<<` prints. -/
inductive Toml
  | str (s : Bytes)
  | int (n : I64)
  | float (r : F64)
  | bool (b : Bool)
  | date (s : Bytes)
  | time (s : Bytes)
  | date_time (s : Bytes)
  | table (m : List (Bytes × Toml))
  | arr (l : List Toml)

namespace GC

/-- fy:77-83 and ft:85-90: `set_int` when the number is within the limits of `int32_t`, `set_long` otherwise. -/
def setWhole (n : I64) (g : GC) : GC :=
  if -2147483648 ≤ n.toInt ∧ n.toInt ≤ 2147483647 then set_int (n.setWidth 32) g else set_long n g

mutual

/-- fy:62-112, `YAML_to_GC(node,gc)`.  `ok` is true on every path and left out.  `set_vector` takes an
`unsigned`, and `V[i]` is not checked. -/
def YAML_to_GC : Yaml → GC → Res Unit
  | .null, g => .ok (clear g) ()
  | .bool b, g => .ok (set_bool b g) ()
  | .int n, g => .ok (setWhole n g) ()
  | .float r, g => .ok (set_real r g) ()
  | .str s, g => .ok (set_string s g) ()
  | .seq l, g =>
    match yamlElems l (set_vector (u32 l.length) g).oldVector with
    | .ok v => .ok (vector v) ()
    | .throw v => .throw (vector v)
    | .ub => .ub
    | .diverge => .diverge
  | .mapping m, g =>
    match yamlEntries m (set_map g).oldMap with
    | .ok e => .ok (map e) ()
    | .throw e => .throw (map e)
    | .ub => .ub
    | .diverge => .diverge
termination_by structural d => d

/-- fy:96-97: `for ( i < N ) YAML_to_GC( node[i], V[i] )`, on the nodes and elements from `i` on. -/
def yamlElems : List Yaml → List GC → Loop (List GC)
  | [], v => .ok v
  | _ :: _, [] => .ub
  | d :: l, x :: v =>
    match YAML_to_GC d x with
    | .ok x' _ =>
      match yamlElems l v with
      | .ok v' => .ok (x' :: v')
      | .throw v' => .throw (x' :: v')
      | .ub => .ub
      | .diverge => .diverge
    | .throw x' => .throw (x' :: v)
    | .ub => .ub
    | .diverge => .diverge
termination_by structural l => l

/-- fy:103-107: `YAML_to_GC( it.second, M[it.first.get_value<string>()] )`; `get_value` throws when the key is
not a string. -/
def yamlEntries : List (Option Bytes × Yaml) → Entries → Loop Entries
  | [], e => .ok e
  | (none, _) :: _, e => .throw e
  | (some k, d) :: l, e =>
    match YAML_to_GC d ((mfind k e).getD notype) with
    | .ok x _ => yamlEntries l (mset k x e)
    | .throw x => .throw (mset k x e)
    | .ub => .ub
    | .diverge => .diverge
termination_by structural l => l

end

/-- fy:114-132 and ft:187-204, what surrounds the conversion: every exception is caught and the answer is then
`false`; `collapse()` when the conversion went well. -/
def importDoc (conv : GC → Res Unit) (g : GC) : Res Bool :=
  match (conv g).bind fun g' _ => collapse g' with
  | .ok g' _ => .ok g' true
  | .throw g' => .ok g' false
  | .ub => .ub
  | .diverge => .diverge

/-- fy:114-132, `from_yaml(stream)`; `none` when fkYAML throws. -/
def from_yaml (d : Option Yaml) (g : GC) : Res Bool :=
  match d with
  | some d => importDoc (YAML_to_GC d) g
  | none => .ok g false

end GC

namespace Toml

def isStr : Toml → Bool | str _ => true | _ => false
def isInt : Toml → Bool | int _ => true | _ => false
def isFloat : Toml → Bool | float _ => true | _ => false
def isTable : Toml → Bool | table _ => true | _ => false

/-- `as_string()->get()` on the nodes of an array of strings. -/
def strOf : Toml → Bytes | str s => s | _ => []
/-- `as_integer()->get()` on the nodes of an array of integers. -/
def intOf : Toml → I64 | int n => n | _ => 0
/-- `as_floating_point()->get()` on the nodes of an array of floating point numbers. -/
def floatOf : Toml → F64 | float r => r | _ => .zero

/-- toml++ array.hpp:459, `is_array_of_tables()`: homogeneous, and so not empty. -/
def areTables (l : List Toml) : Bool := !l.isEmpty && l.all isTable

end Toml

namespace GC

mutual

/-- ft:73-185, `TOML_to_GC(node,gc)`.  `ok` is false only for a node of no kind, which toml++ does not make, and is
left out.  `V.emplace_back( int64_t )` on a vector of `int_type` (ft:159) keeps the low 32 bits. -/
def TOML_to_GC : Toml → GC → Res Unit
  | .str s, g => .ok (set_string s g) ()
  | .int n, g => .ok (setWhole n g) ()
  | .float r, g => .ok (set_real r g) ()
  | .bool b, g => .ok (set_bool b g) ()
  | .date s, g => withKey (GCV.str "$date") (fun x => .ok (set_string s x) ()) g
  | .time s, g => withKey (GCV.str "$time") (fun x => .ok (set_string s x) ()) g
  | .date_time s, g => withKey (GCV.str "$date_time") (fun x => .ok (set_string s x) ()) g
  | .table m, g =>
    match tomlEntries m (set_map g).oldMap with
    | .ok e => .ok (map e) ()
    | .throw e => .throw (map e)
    | .ub => .ub
    | .diverge => .diverge
  | .arr l, g =>
    if Toml.areTables l then tomlElems l 0 (set_vector 0 g)
    else if l.all Toml.isStr then .ok (vecString ((set_vec_string_n 0 g).oldVecString ++ l.map Toml.strOf)) ()
    else if l.all Toml.isInt then
      .ok (vecInt ((set_vec_int_n 0 g).oldVecInt ++ l.map fun d => d.intOf.setWidth 32)) ()
    else if l.all Toml.isFloat then .ok (vecReal ((set_vec_real_n 0 g).oldVecReal ++ l.map Toml.floatOf)) ()
    else tomlElems l 0 (set_vector 0 g)
termination_by structural d => d

/-- ft:130-134 and ft:170-174: `TOML_to_GC( value, gc[i++] )`; `i` is converted to `unsigned`. -/
def tomlElems : List Toml → Nat → GC → Res Unit
  | [], _, g => .ok g ()
  | d :: l, i, g => (withIdx (u32 i) (TOML_to_GC d) g).bind fun g' _ => tomlElems l (i + 1) g'
termination_by structural l => l

/-- ft:121-125: `TOML_to_GC( value, gc_map[key] )`. -/
def tomlEntries : List (Bytes × Toml) → Entries → Loop Entries
  | [], e => .ok e
  | (k, d) :: l, e =>
    match TOML_to_GC d ((mfind k e).getD notype) with
    | .ok x _ => tomlEntries l (mset k x e)
    | .throw x => .throw (mset k x e)
    | .ub => .ub
    | .diverge => .diverge
termination_by structural l => l

end

/-- ft:187-204, `from_toml(stream)`; `none` when toml++ throws. -/
def from_toml (d : Option Toml) (g : GC) : Res Bool :=
  match d with
  | some d => importDoc (TOML_to_GC d) g
  | none => .ok g false

/-! ## Writing TOML -/

/-- The table of tt:121-171: number of rows and columns, and the data. -/
def tomlMat {α : Type} (name : Bytes) (m : Mat α) (data : List (Bytes × Toml)) : Toml :=
  .table [(name, .table (data ++ [(GCV.str "$ncols", .int (BitVec.ofNat 64 m.nc)),
    (GCV.str "$nrows", .int (BitVec.ofNat 64 m.nr))]))]

/-- tt:100-101, a complex number: `toml::array{re,im}`. -/
def tomlComplex (c : Cplx) : Toml := .arr [.float c.re, .float c.im]

mutual

/-- tt:60-189, `GC_to_TOML(gc)`; `none` is the null pointer that is returned for NOTYPE.  Tables list their entries
in key order.  `hex` is how `operator<<` prints an address. -/
def GC_to_TOML (hex : Ptr → Bytes) : GC → Out (Option Toml)
  | notype => .ok none
  | bool b => .ok (some (.bool b))
  | int i => .ok (some (.int (i.signExtend 64)))
  | long l => .ok (some (.int l))
  | real r => .ok (some (.float r))
  | complex c => .ok (some (tomlComplex c))
  | string s => .ok (some (.str s))
  | vecBool v => .ok (some (.arr (v.map .bool)))
  | vecInt v => .ok (some (.arr (v.map fun i => .int (i.signExtend 64))))
  | vecLong v => .ok (some (.arr (v.map .int)))
  | vecReal v => .ok (some (.arr (v.map .float)))
  | vecComplex v => .ok (some (.arr (v.map tomlComplex)))
  | vecString v => .ok (some (.arr (v.map .str)))
  | vector v => (toTomlL hex v).bind fun l => .ok (some (.arr l))
  | map m => (toTomlM hex m).bind fun l => .ok (some (.table l))
  | matInt m => .ok (some (tomlMat (GCV.str "$mat_integer") m
      [(GCV.str "$data", .arr (m.data.map fun i => .int (i.signExtend 64)))]))
  | matLong m => .ok (some (tomlMat (GCV.str "$mat_long") m [(GCV.str "$data", .arr (m.data.map .int))]))
  | matReal m => .ok (some (tomlMat (GCV.str "$mat_long") m [(GCV.str "$data", .arr (m.data.map .float))]))
  | matComplex m => .ok (some (tomlMat (GCV.str "$mat_long") m
      [(GCV.str "$data_imag", .arr (m.data.map fun c => .float c.im)),
       (GCV.str "$data_real", .arr (m.data.map fun c => .float c.re))]))
  | pointer p => .ok (some (.str (hex p)))
  | vecPointer v => .ok (some (.arr (v.map fun p => .str (hex p))))
termination_by structural g => g

/-- tt:111, `push_back( std::move( *GC_to_TOML( vi ) ) )`: undefined for a null pointer. -/
def toTomlL (hex : Ptr → Bytes) : List GC → Out (List Toml)
  | [] => .ok []
  | x :: r => (GC_to_TOML hex x).bind fun d =>
    match d with
    | none => .ub
    | some d => (toTomlL hex r).bind fun l => .ok (d :: l)
termination_by structural l => l

/-- tt:116-118, `insert( im.first, std::move( *GC_to_TOML( im.second ) ) )`. -/
def toTomlM (hex : Ptr → Bytes) : Entries → Out (List (Bytes × Toml))
  | [] => .ok []
  | (k, x) :: r => (GC_to_TOML hex x).bind fun d =>
    match d with
    | none => .ub
    | some d => (toTomlM hex r).bind fun l => .ok ((k, d) :: l)
termination_by structural l => l

end

/-- tt:191-208, `to_toml(stream)`: the document handed to the printer; `*root` is undefined for a null pointer. -/
def to_toml (hex : Ptr → Bytes) (g : GC) : Out Toml :=
  (GC_to_TOML hex g).bind fun d =>
    match d with
    | none => .ub
    | some d => .ok d

end GC
end GCV
