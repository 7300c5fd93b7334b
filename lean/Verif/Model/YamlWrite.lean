import Verif.Model.Print

/-!
# Writing YAML: src_yaml_interface/to_yaml.cc (`ty`)

As in Model/Writer: the decimal form of a `double` is a parameter, and the state of the stream is whether it writes
integers in base 16.  The text written before a throw is not modelled.
-/

namespace GCV

/-- ty:76-90, 111-118: a vector of numbers, booleans or strings; without elements the opening bracket is missing. -/
def yamlVec (es : List Bytes) : Bytes := sepText (str "[ ") (str ", ") es ++ str " ]\n"

/-- ty:147-157, `GC_PRINT_MATRIX`: one line for each column, of which an empty one has no opening bracket. -/
def yamlMat {α : Type} (pre : Bytes) (txt : α → Bytes) (m : Mat α) : Out Bytes :=
  m.readCols.bind fun cols =>
    .ok (10 :: cols.flatMap fun c => pre ++ sepText (str "- [ ") (str ", ") (c.map txt) ++ str " ]\n")

namespace GC

mutual
/-- ty:48-203, `to_yaml( stream, prefix )`: the text and the state of the stream afterwards. -/
def toYaml (f : Fmt) (pre : Bytes) : GC → Bool → Out (Bytes × Bool)
  | notype, h => .ok (str "null\n", h)
  | bool b, h => .ok (boolOut b ++ [10], h)
  | int i, h => .ok (intOut h i ++ [10], h)
  | long l, h => .ok (intOut h l ++ [10], h)
  | real r, h => .ok (f.real r ++ [10], h)
  | complex c, h => .ok (cplxOut f c ++ [10], h)
  | string s, h => .ok (string_escape s ++ [10], h)
  | vecBool v, h => .ok (yamlVec (v.map boolOut), h)
  | vecInt v, h => .ok (yamlVec (v.map (intOut h)), h)
  | vecLong v, h => .ok (yamlVec (v.map (intOut h)), h)
  | vecReal v, h => .ok (yamlVec (v.map f.real), h)
  | vecComplex v, h => .ok (yamlVec (v.map (pairText f)), h)
  | vecString v, h => .ok (yamlVec (v.map string_escape), h)
  | vector v, h =>
    if v.isEmpty then .ok (str "null\n", h)
    else (toYamlElems f pre v h).bind fun (t, h') => .ok (10 :: t, h')
  | map m, h =>
    if m.isEmpty then .ok (str "null\n", h)
    else (toYamlEntries f pre m h).bind fun (t, h') => .ok (10 :: t, h')
  | matInt m, h => (yamlMat pre (intOut h) m).bind fun t => .ok (t, h)
  | matLong m, h => (yamlMat pre (intOut h) m).bind fun t => .ok (t, h)
  | matReal m, h => (yamlMat pre f.real m).bind fun t => .ok (t, h)
  | matComplex m, h => (yamlMat pre (pairText f) m).bind fun t => .ok (t, h)
  | pointer p, _ => .ok (natOut true p.toNat ++ [10], true)
  | vecPointer v, h => .ok (10 :: v.flatMap (fun p => pre ++ str "- " ++ natOut true p.toNat ++ [10]), h || !v.isEmpty)
/-- ty:126-129 -/
def toYamlElems (f : Fmt) (pre : Bytes) : List GC → Bool → Out (Bytes × Bool)
  | [], h => .ok ([], h)
  | x :: r, h => (toYaml f (pre ++ str "  ") x h).bind fun (t, h') =>
      (toYamlElems f pre r h').bind fun (u, h'') => .ok (pre ++ str "- " ++ t ++ u, h'')
/-- ty:140-143; the keys are written as they are. -/
def toYamlEntries (f : Fmt) (pre : Bytes) : Entries → Bool → Out (Bytes × Bool)
  | [], h => .ok ([], h)
  | (k, x) :: r, h => (toYaml f (pre ++ str "  ") x h).bind fun (t, h') =>
      (toYamlEntries f pre r h').bind fun (u, h'') => .ok (pre ++ k ++ str ": " ++ t ++ u, h'')
end

/-- The text of `to_yaml( stream, prefix )` for a stream that writes integers in decimal. -/
def to_yaml (f : Fmt) (pre : Bytes) (g : GC) : Out Bytes := (toYaml f pre g false).bind fun (t, _) => .ok t

end GC
end GCV
