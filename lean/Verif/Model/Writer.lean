import Verif.Model.Json

/-!
# Writing JSON and YAML: src_json_interface/to_json.cc (`tj`), src_yaml_interface/to_yaml.cc (`ty`)

The text is what is sent to the stream.  The decimal form of a `double` is a parameter.  `std::hex << std::showbase`,
used for pointers, stays in force for whatever the stream gets later: the state of the stream is that flag.  A throwing
call (an index of a matrix out of range) leaves the text written so far in the stream; that text is not modelled.
-/

namespace GCV

/-- How a `double` is written: by the stream given to the call (`real`), and with `stream_number_precision` digits by
`to_string` (`real12`). -/
structure Fmt where
  real : F64 → Bytes
  real12 : F64 → Bytes

/-- The digits of a number in base `b`; the first argument bounds the number of digits. -/
def natText (b : Nat) : Nat → Nat → Bytes
  | 0, _ => []
  | fuel + 1, n => if n < b then [digit n] else natText b fuel (n / b) ++ [digit (n % b)]
where
  digit (d : Nat) : Byte := if d < 10 then BitVec.ofNat 8 (48 + d) else BitVec.ofNat 8 (87 + d)

/-- `stream << n` for an unsigned integer. -/
def natOut (hex : Bool) (n : Nat) : Bytes :=
  if hex then (if n = 0 then [48] else 48 :: 120 :: natText 16 (n + 1) n) else natText 10 (n + 1) n

/-- `stream << i` for an integer of `w` bits: in base 16 the bit pattern is written. -/
def intOut {w : Nat} (hex : Bool) (i : BitVec w) : Bytes :=
  if hex then natOut true i.toNat
  else if i.msb then 45 :: natOut false i.toInt.natAbs else natOut false i.toInt.natAbs

/-- `-x` -/
def F64.neg (x : F64) : F64 := ⟨x.bits ^^^ BitVec.ofNat 64 (2 ^ 63)⟩

/-- cc:73-81, `to_string` of a complex number. -/
def cplxOut (f : Fmt) (c : Cplx) : Bytes :=
  f.real12 c.re ++ (if c.im.gtZero then 43 :: f.real12 c.im ++ [105] else []) ++
    (if c.im.ltZero then 45 :: f.real12 c.im.neg ++ [105] else [])

/-- `stream << (b?"true":"false")` -/
def boolOut (b : Bool) : Bytes := if b then str "true" else str "false"

/-- `pre = first; for ( x : v ) { stream << pre << x; pre = sep; }` -/
def sepText (first sep : Bytes) : List Bytes → Bytes
  | [] => []
  | x :: r => first ++ x ++ sepText sep sep r

/-- The elements of a matrix, column by column, as read by `M(i,j)`. -/
def Mat.readCols {α : Type} (m : Mat α) : Out (List (List α)) :=
  Mat.collect (fun j => Mat.collect (fun i => m.get i j) m.nr) m.nc

/-- tj:154-159: the loop over the columns. -/
def colsText (first next : Bytes) : List (List Bytes) → Bytes
  | [] => []
  | c :: cs => sepText first (str ", ") c ++ colsText next next cs

/-- tj:149-160, `GC_PRINT_MATRIX`. -/
def jsonMat {α : Type} (pre : Bytes) (txt : α → Bytes) (m : Mat α) : Out Bytes :=
  m.readCols.bind fun cols =>
    .ok (str "[\n" ++ colsText (pre ++ str "  [ ") (str " ],\n" ++ pre ++ str "  [ ") (cols.map (·.map txt)) ++
      str " ]\n" ++ pre ++ str "]")

/-- tj:77-119: a vector of numbers or strings. -/
def jsonVec (es : List Bytes) : Bytes := sepText (str "[ ") (str ", ") es ++ str " ]"

namespace GC

mutual
/-- tj:48-196, `to_json( stream, prefix )`: the text and the state of the stream afterwards. -/
def toJson (f : Fmt) (pre : Bytes) : GC → Bool → Out (Bytes × Bool)
  | notype, h => .ok (str "null", h)
  | bool b, h => .ok (boolOut b, h)
  | int i, h => .ok (intOut h i, h)
  | long l, h => .ok (intOut h l, h)
  | real r, h => .ok (f.real r, h)
  | complex c, h => .ok (34 :: cplxOut f c ++ [34], h)
  | string s, h => .ok (string_escape s, h)
  | vecBool v, h => .ok (jsonVec (v.map boolOut), h)
  | vecInt v, h => .ok (jsonVec (v.map (intOut h)), h)
  | vecLong v, h => .ok (jsonVec (v.map (intOut h)), h)
  | vecReal v, h => .ok (jsonVec (v.map f.real), h)
  | vecComplex v, h => .ok (jsonVec (v.map fun c => 34 :: cplxOut f c ++ [34]), h)
  | vecString v, h => .ok (jsonVec (v.map string_escape), h)
  | vector v, h =>
    if v.isEmpty then .ok ([], h)
    else (toJsonElems f pre (str "[\n") v h).bind fun (t, h') => .ok (10 :: pre ++ t ++ 10 :: pre ++ str "]", h')
  | map m, h =>
    if m.isEmpty then .ok ([], h)
    else (toJsonEntries f pre (str "{\n") m h).bind fun (t, h') => .ok (10 :: pre ++ t ++ 10 :: pre ++ str "}", h')
  | matInt m, h => (jsonMat pre (intOut h) m).bind fun t => .ok (t, h)
  | matLong m, h => (jsonMat pre (intOut h) m).bind fun t => .ok (t, h)
  | matReal m, h => (jsonMat pre f.real m).bind fun t => .ok (t, h)
  | matComplex m, h => (jsonMat pre (fun c => 39 :: cplxOut f c ++ [39]) m).bind fun t => .ok (t, h)
  | pointer p, _ => .ok (natOut true p.toNat, true)
  | vecPointer v, h => .ok (jsonVec (v.map fun p => natOut true p.toNat), h || !v.isEmpty)
/-- tj:126-130 -/
def toJsonElems (f : Fmt) (pre sep : Bytes) : List GC → Bool → Out (Bytes × Bool)
  | [], h => .ok ([], h)
  | x :: r, h => (toJson f (pre ++ str "  ") x h).bind fun (t, h') =>
      (toJsonElems f pre (str ",\n") r h').bind fun (u, h'') => .ok (sep ++ (pre ++ str "  ") ++ t ++ u, h'')
/-- tj:140-144; the keys are written as they are. -/
def toJsonEntries (f : Fmt) (pre sep : Bytes) : Entries → Bool → Out (Bytes × Bool)
  | [], h => .ok ([], h)
  | (k, x) :: r, h => (toJson f (pre ++ str "  ") x h).bind fun (t, h') =>
      (toJsonEntries f pre (str ",\n") r h').bind fun (u, h'') =>
        .ok (sep ++ pre ++ str "  " ++ (34 :: k ++ [34]) ++ str ": " ++ t ++ u, h'')
end

/-- The text of `to_json( stream, prefix )` for a stream that writes integers in decimal. -/
def to_json (f : Fmt) (pre : Bytes) (g : GC) : Out Bytes := (toJson f pre g false).bind fun (t, _) => .ok t

end GC
end GCV
