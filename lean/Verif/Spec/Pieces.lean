import Verif.Spec.Listing

/-!
# Specification vocabulary: the text written for a container, piece by piece

A pointer is written in base 16 and leaves the stream so: the whole numbers after it are written in base 16, too.
-/

namespace GCV

/-- A piece of the text: fixed, a whole number (with its bit pattern), a whole number right justified in 8 places, or an
address. -/
inductive Piece where
  | lit (t : Bytes)
  | num (n : Int) (bits : Nat)
  | cell (n : Int) (bits : Nat)
  | addr (n : Nat)
  deriving DecidableEq

/-- A number in base 16, with `0x` unless it is zero. -/
def hexadecimal (n : Nat) : Bytes :=
  if n = 0 then str "0" else str "0x" ++ (Nat.toDigits 16 n).map fun c => BitVec.ofNat 8 c.toNat

/-- The text: `hex` says whether the stream writes whole numbers in base 16. -/
def spell : Bool → List Piece → Bytes
  | _, [] => []
  | hex, .lit t :: r => t ++ spell hex r
  | hex, .num n b :: r => (if hex then hexadecimal b else decimal n) ++ spell hex r
  | hex, .cell n b :: r => padded 8 (if hex then hexadecimal b else decimal n) ++ spell hex r
  | _, .addr n :: r => hexadecimal n ++ spell true r

/-- The piece is an address. -/
def Piece.isAddr : Piece → Bool
  | .addr _ => true
  | _ => false

/-- Whether the stream writes whole numbers in base 16 afterwards. -/
def hexAfter (hex : Bool) (ps : List Piece) : Bool := hex || ps.any Piece.isAddr

/-- The pieces before the first address. -/
def beforeAddress (ps : List Piece) : List Piece := ps.takeWhile fun p => !p.isAddr

/-- The piece is a whole number that is not zero. -/
def Piece.nonzero : Piece → Prop
  | .num n _ => n ≠ 0
  | .cell n _ => n ≠ 0
  | _ => False

/-- With a separator in between. -/
def joined (sep : Bytes) : List (List Piece) → List Piece
  | [] => []
  | a :: r => a ++ r.flatMap fun b => .lit sep :: b

/-- Between brackets, with commas; the opening bracket is missing when there is nothing. -/
def bracketed (es : List (List Piece)) : List Piece :=
  if es = [] then [.lit (str " ]")] else .lit (str "[ ") :: joined (str ", ") es ++ [.lit (str " ]")]

/-- The columns of a matrix with the given elements. -/
def columnsIn (nr nc : Nat) (es : List GC) : List (List GC) :=
  (List.range nc).map fun j => (List.range nr).map fun i => es[i + j * nr]?.getD .notype

/-- The rows of a matrix with the given elements. -/
def rowsIn (nr nc : Nat) (es : List GC) : List (List GC) :=
  (List.range nr).map fun i => (List.range nc).map fun j => es[i + j * nr]?.getD .notype

namespace GC

/-- A value; `c` says how complex numbers, `s` how strings are written. -/
def valuePieces (f : Fmt) (c : Cplx → Bytes) (s : Bytes → Bytes) : GC → List Piece
  | notype => [.lit (str "null")]
  | bool b => [.lit (if b then str "true" else str "false")]
  | int i => [.num i.toInt i.toNat]
  | long i => [.num i.toInt i.toNat]
  | real r => [.lit (f.real r)]
  | complex z => [.lit (c z)]
  | string t => [.lit (s t)]
  | pointer p => [.addr p.toNat]
  | _ => []

/-- A value in JSON: complex numbers are written by `to_string` between quotes. -/
def jsonValue (f : Fmt) : GC → List Piece := valuePieces f (fun z => str "\"" ++ cplxOut f z ++ str "\"") string_escape

/-- A value in a matrix in JSON: complex numbers are between single quotes. -/
def jsonCell (f : Fmt) : GC → List Piece := valuePieces f (fun z => str "'" ++ cplxOut f z ++ str "'") string_escape

/-- A matrix in JSON: the array of the columns; without elements only the end of a column is written. -/
def jsonMatrix (f : Fmt) (pre : Bytes) (nr nc : Nat) (es : List GC) : List Piece :=
  if nr = 0 ∨ nc = 0 then [.lit (str "[\n ]\n" ++ pre ++ str "]")]
  else .lit (str "[\n") ::
    joined (str ",\n") ((columnsIn nr nc es).map fun c => .lit (pre ++ str "  ") :: bracketed (c.map (jsonCell f))) ++
    [.lit (str "\n" ++ pre ++ str "]")]

mutual
/-- The text of `to_json`. -/
def jsonPieces (f : Fmt) (pre : Bytes) : GC → List Piece
  | vector v =>
    if v = [] then []
    else .lit (str "\n" ++ pre ++ str "[\n") :: joined (str ",\n") (jsonItems f pre v) ++ [.lit (str "\n" ++ pre ++ str "]")]
  | map m =>
    if m = [] then []
    else .lit (str "\n" ++ pre ++ str "{\n") :: joined (str ",\n") (jsonMembers f pre m) ++ [.lit (str "\n" ++ pre ++ str "}")]
  | g =>
    match matDims g with
    | some (nr, nc) => jsonMatrix f pre nr nc (elems g)
    | none => if shape g.ty = 1 then bracketed ((elems g).map (jsonValue f)) else jsonValue f g
/-- The elements of a vector, two blanks deeper. -/
def jsonItems (f : Fmt) (pre : Bytes) : List GC → List (List Piece)
  | [] => []
  | x :: r => (.lit (pre ++ str "  ") :: jsonPieces f (pre ++ str "  ") x) :: jsonItems f pre r
/-- The entries of a map, two blanks deeper; the keys as they are. -/
def jsonMembers (f : Fmt) (pre : Bytes) : Entries → List (List Piece)
  | [] => []
  | (k, x) :: r =>
    (.lit (pre ++ str "  \"" ++ k ++ str "\": ") :: jsonPieces f (pre ++ str "  ") x) :: jsonMembers f pre r
end

/-- A value in YAML. -/
def yamlValue (f : Fmt) : GC → List Piece := valuePieces f (cplxOut f) string_escape

/-- A value in a vector or matrix in YAML: complex numbers are pairs. -/
def yamlCell (f : Fmt) : GC → List Piece := valuePieces f (pairText f) string_escape

/-- A column of a matrix in YAML; without elements the dash is missing, too. -/
def yamlColumn (f : Fmt) (pre : Bytes) (c : List GC) : List Piece :=
  if c = [] then [.lit (pre ++ str " ]\n")]
  else .lit (pre ++ str "- ") :: bracketed (c.map (yamlCell f)) ++ [.lit (str "\n")]

mutual
/-- The text of `to_yaml`. -/
def yamlPieces (f : Fmt) (pre : Bytes) : GC → List Piece
  | vector v => if v = [] then [.lit (str "null\n")] else .lit (str "\n") :: yamlItems f pre v
  | map m => if m = [] then [.lit (str "null\n")] else .lit (str "\n") :: yamlMembers f pre m
  | vecPointer v => .lit (str "\n") :: v.flatMap fun p => [.lit (pre ++ str "- "), .addr p.toNat, .lit (str "\n")]
  | g =>
    match matDims g with
    | some (nr, nc) => .lit (str "\n") :: (columnsIn nr nc (elems g)).flatMap (yamlColumn f pre)
    | none => (if shape g.ty = 1 then bracketed ((elems g).map (yamlCell f)) else yamlValue f g) ++ [.lit (str "\n")]
/-- The elements of a vector. -/
def yamlItems (f : Fmt) (pre : Bytes) : List GC → List Piece
  | [] => []
  | x :: r => .lit (pre ++ str "- ") :: yamlPieces f (pre ++ str "  ") x ++ yamlItems f pre r
/-- The entries of a map. -/
def yamlMembers (f : Fmt) (pre : Bytes) : Entries → List Piece
  | [] => []
  | (k, x) :: r => .lit (pre ++ k ++ str ": ") :: yamlPieces f (pre ++ str "  ") x ++ yamlMembers f pre r
end

/-- A value in a listing. -/
def listValue (f : Fmt) : GC → List Piece := valuePieces f (cplxOut f) fun s => str "\"" ++ s ++ str "\""

/-- The element in column `j` of a row of a matrix in a listing: right justified in 8 places (12 for complex numbers); the
complex numbers of the first column as pairs. -/
def listCell (f : Fmt) (j : Nat) : GC → Piece
  | int i => .cell i.toInt i.toNat
  | long i => .cell i.toInt i.toNat
  | real r => .lit (padded 8 (f.real r))
  | complex z => .lit (if j = 0 then padded 8 (pairText f z) else padded 12 (cplxOut f z))
  | _ => .lit []

/-- A matrix in a listing. -/
def listMatrix (f : Fmt) (nr nc : Nat) (es : List GC) : List Piece :=
  if nr = 0 ∨ nc = 0 then [.num nr nr, .lit (str " by "), .num nc nc, .lit (str " matrix\n")]
  else (rowsIn nr nc es).flatMap fun r => joined (str " ") (r.mapIdx fun j x => [listCell f j x]) ++ [.lit (str "\n")]

/-- Shown on the line of its index: a scalar, or a vector of at most ten pointers, booleans or numbers. -/
def shortItem (g : GC) : Prop := single g.ty = true ∨ (shape g.ty = 1 ∧ g.ty ≠ .VEC_STRING ∧ (elems g).length ≤ 10)

instance (g : GC) : Decidable (shortItem g) := by unfold shortItem; infer_instance

mutual
/-- The text of `print`. -/
def listPieces (f : Fmt) (pre ind : Bytes) : GC → List Piece
  | vector v => listItems f pre (pre ++ ind) 0 v
  | map m => listMembers f pre (pre ++ ind) m
  | vecPointer v => v.zipIdx.flatMap fun pi =>
      [.lit (pre ++ str "vec_pointer("), .num pi.2 pi.2, .lit (str "): "), .addr pi.1.toNat, .lit (str "\n")]
  | vecString v => v.zipIdx.flatMap fun si => [.lit pre, .num si.2 si.2, .lit (str ": \"" ++ si.1 ++ str "\"\n")]
  | g =>
    match matDims g with
    | some (nr, nc) => listMatrix f nr nc (elems g)
    | none =>
      if shape g.ty = 1 then
        .lit (pre ++ str "[") :: (elems g).flatMap (fun x => .lit (str " ") :: listValue f x) ++ [.lit (str " ]\n")]
      else .lit pre :: listValue f g ++ [.lit (str "\n")]
/-- The elements of a vector, numbered; below the first level the indent is four blanks. -/
def listItems (f : Fmt) (pre pre2 : Bytes) (i : Nat) : List GC → List Piece
  | [] => []
  | x :: r =>
    (if shortItem x then .lit pre :: .num i i :: .lit (str ": ") :: listPieces f [] (str "    ") x
     else .lit pre :: .num i i :: .lit (str ":\n") :: listPieces f pre2 (str "    ") x) ++ listItems f pre pre2 (i + 1) r
/-- The values of a map under their keys. -/
def listMembers (f : Fmt) (pre pre2 : Bytes) : Entries → List Piece
  | [] => []
  | (k, x) :: r =>
    (match heading k with
     | none => if shortValue x then .lit (pre ++ k ++ str ": ") :: listPieces f [] (str "    ") x
         else .lit (pre ++ k ++ str ":\n") :: listPieces f pre2 (str "    ") x
     | some (s, u, h) => if shortValue x then .lit (pre ++ h ++ str ": ") :: listPieces f [] (str "    ") x
         else .lit ((headOutline s u h).flatMap (Line.text pre [] [])) :: listPieces f pre2 (str "    ") x) ++
    listMembers f pre pre2 r
end

end GC
end GCV
