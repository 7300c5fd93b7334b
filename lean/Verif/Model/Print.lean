import Verif.Model.Writer
import Verif.Model.Names

/-!
# Listings: `info`, `dump` / `print`, `print_content_types` (src/GenericContainer.cc)

As in Verif/Model/Writer.lean the text is what is sent to the stream, the decimal form of a `double` is a parameter, and
the state of the stream is whether it writes integers in base 16.  Not modelled: a field width or fill character set by
the caller, and the text left in the stream by a throwing call.  The recursion of `std::regex` on very long keys is not
bounded here.
-/

namespace GCV

/-- cc:260, the regular expression `^\s*\d+\s*(##?)(-|=|~|_|)\s*(.*)$`, matched against the whole key; the three groups.
The greedy match is the one found: taking less for an earlier part leaves more for `.*`, which fails for the same line
break; `\s` and `\d` are those of the C locale; `.` is anything but LF and CR. -/
def heading (k : Bytes) : Option (Bytes × Bytes × Bytes) :=
  let a := k.dropWhile Json.isSpace
  let b := a.dropWhile Json.isDigit
  if b.length = a.length then none
  else match b.dropWhile Json.isSpace with
    | [] => none
    | c :: r =>
      if c ≠ 35 then none
      else
        let (s, r) : Bytes × Bytes := if r.head? = some 35 then ([35, 35], r.drop 1) else ([35], r)
        let (u, r) : Bytes × Bytes := match r with
          | [] => ([], [])
          | d :: r' => if d = 45 ∨ d = 61 ∨ d = 126 ∨ d = 95 then ([d], r') else ([], d :: r')
        let h := r.dropWhile Json.isSpace
        if h.all fun d => d ≠ 10 ∧ d ≠ 13 then some (s, u, h) else none

/-- `std::setw(n) << x` -/
def padded (n : Nat) (t : Bytes) : Bytes := List.replicate (n - t.length) 32 ++ t

/-- `mat(i,j)` row by row. -/
def Mat.readRows {α : Type} (m : Mat α) : Out (List (List α)) :=
  Mat.collect (fun i => Mat.collect (fun j => m.get i j) m.nc) m.nr

/-- cc:222-225: a row. -/
def rowText {α : Type} (w : Nat) (first next : α → Bytes) : List α → Bytes
  | [] => [10]
  | x :: r => padded 8 (first x) ++ r.flatMap (fun y => 32 :: padded w (next y)) ++ [10]

/-- cc:216-250, `operator << ( stream, mat )`. -/
def matText {α : Type} (hex : Bool) (w : Nat) (first next : α → Bytes) (m : Mat α) : Out Bytes :=
  if 0 < m.nr ∧ 0 < m.nc then m.readRows.bind fun rows => .ok (rows.flatMap (rowText w first next))
  else .ok (natOut hex m.nr ++ str " by " ++ natOut hex m.nc ++ str " matrix\n")

/-- `stream << z` of the standard library for a complex number. -/
def pairText (f : Fmt) (c : Cplx) : Bytes := 40 :: f.real c.re ++ 44 :: f.real c.im ++ [41]

/-- cc:100-124, `operator << ( stream, vector )`. -/
def vecText (es : List Bytes) : Bytes := 91 :: es.flatMap (fun t => 32 :: t) ++ str " ]"

/-- cc:3498-3502: one line for each element, numbered. -/
def numbered (hex : Bool) (pre a b c : Bytes) : Nat → List Bytes → Bytes
  | _, [] => []
  | i, t :: r => pre ++ a ++ natOut hex i ++ b ++ t ++ c ++ [10] ++ numbered hex pre a b c (i + 1) r

/-- cc:3455-3460: as `numbered`, the stream is in base 16 after the first element. -/
def pointers (hex : Bool) (pre : Bytes) : Nat → List Ptr → Bytes
  | _, [] => []
  | i, p :: r => pre ++ str "vec_pointer(" ++ natOut hex i ++ str "): " ++ natOut true p.toNat ++ [10] ++
      pointers true pre (i + 1) r

/-- cc:3535-3546, cc:3676-3686: the lines of a heading of the form `1##-text`. -/
def headLines (pre s u h : Bytes) : Bytes :=
  (if s.length > 1 then [10] else []) ++ pre ++ h ++
    (match u with
     | [] => [58]
     | c :: _ => 10 :: pre ++ List.replicate h.length c) ++ [10]

namespace GC

/-- hh:4020, hh:4057: the default `indent`. -/
def indent4 : Bytes := str "    "

mutual
/-- cc:3423-3567, `dump( stream, prefix, indent )`, and `print( stream, prefix, indent )` (hh:4054-4061). -/
def dump (f : Fmt) (pre ind : Bytes) : GC → Bool → Out (Bytes × Bool)
  | notype, h => .ok (pre ++ str "null\n", h)
  | pointer p, _ => .ok (pre ++ natOut true p.toNat ++ [10], true)
  | bool b, h => .ok (pre ++ boolOut b ++ [10], h)
  | int i, h => .ok (pre ++ intOut h i ++ [10], h)
  | long i, h => .ok (pre ++ intOut h i ++ [10], h)
  | real r, h => .ok (pre ++ f.real r ++ [10], h)
  | complex c, h => .ok (pre ++ cplxOut f c ++ [10], h)
  | string s, h => .ok (pre ++ 34 :: s ++ str "\"\n", h)
  | vecPointer v, h => .ok (pointers h pre 0 v, h || !v.isEmpty)
  | vecBool v, h => .ok (pre ++ vecText (v.map boolOut) ++ [10], h)
  | vecInt v, h => .ok (pre ++ vecText (v.map (intOut h)) ++ [10], h)
  | vecLong v, h => .ok (pre ++ vecText (v.map (intOut h)) ++ [10], h)
  | vecReal v, h => .ok (pre ++ vecText (v.map f.real) ++ [10], h)
  | vecComplex v, h => .ok (pre ++ vecText (v.map (cplxOut f)) ++ [10], h)
  | matInt m, h => (matText h 8 (intOut h) (intOut h) m).bind fun t => .ok (t, h)
  | matLong m, h => (matText h 8 (intOut h) (intOut h) m).bind fun t => .ok (t, h)
  | matReal m, h => (matText h 8 f.real f.real m).bind fun t => .ok (t, h)
  | matComplex m, h => (matText h 12 (pairText f) (cplxOut f) m).bind fun t => .ok (t, h)
  | vecString v, h => .ok (numbered h pre [] (str ": \"") (str "\"") 0 v, h)
  | vector v, h => dumpElems f pre (pre ++ ind) 0 v h
  | map m, h => dumpEntries f pre (pre ++ ind) m h
/-- cc:3505-3518 -/
def dumpElems (f : Fmt) (pre pre2 : Bytes) (i : Nat) : List GC → Bool → Out (Bytes × Bool)
  | [], h => .ok ([], h)
  | x :: r, h =>
    (if x.simple_data || (x.simple_vec_data && x.get_num_elements ≤ 10) then
      (dump f [] indent4 x h).bind fun (t, h') => .ok (pre ++ natOut h i ++ str ": " ++ t, h')
    else
      (dump f pre2 indent4 x h).bind fun (t, h') => .ok (pre ++ natOut h i ++ str ":\n" ++ t, h')).bind fun (t, h') =>
    (dumpElems f pre pre2 (i + 1) r h').bind fun (u, h'') => .ok (t ++ u, h'')
/-- cc:3520-3560 -/
def dumpEntries (f : Fmt) (pre pre2 : Bytes) : Entries → Bool → Out (Bytes × Bool)
  | [], h => .ok ([], h)
  | (k, x) :: r, h =>
    (match heading k with
     | some (s, u, hd) =>
       if x.simple_data then (dump f [] indent4 x h).bind fun (t, h') => .ok (pre ++ hd ++ str ": " ++ t, h')
       else (dump f pre2 indent4 x h).bind fun (t, h') => .ok (headLines pre s u hd ++ t, h')
     | none =>
       if x.simple_data then (dump f [] indent4 x h).bind fun (t, h') => .ok (pre ++ k ++ str ": " ++ t, h')
       else (dump f pre2 indent4 x h).bind fun (t, h') => .ok (pre ++ k ++ str ":\n" ++ t, h')).bind fun (t, h') =>
    (dumpEntries f pre pre2 r h').bind fun (u, h'') => .ok (t ++ u, h'')
end

/-- cc:3602-3604 and the like: `[n]` -/
def sizeText (hex : Bool) (n : Nat) : Bytes := 91 :: natOut hex n ++ str "]\n"

/-- cc:3626-3628 and the like: `[rows,cols]` -/
def dimsText (hex : Bool) (r c : Nat) : Bytes := 91 :: natOut hex r ++ 44 :: natOut hex c ++ str "]\n"

mutual
/-- cc:3570-3707, `print_content_types( stream, prefix, indent )`; it does not change the stream. -/
def printTypes (hex : Bool) (pre ind : Bytes) : GC → Bytes
  | notype => pre ++ str "Empty!\n"
  | pointer _ => pre ++ str "(*void)\n"
  | bool _ => pre ++ str "bool\n"
  | int _ => pre ++ str "int\n"
  | long _ => pre ++ str "long int\n"
  | real _ => pre ++ str "double\n"
  | complex _ => pre ++ str "complex\n"
  | string _ => pre ++ str "string\n"
  | vecPointer v => str "vector of pointer" ++ sizeText hex v.length
  | vecBool v => str "vector of bool" ++ sizeText hex v.length
  | vecInt v => str "vector of int" ++ sizeText hex v.length
  | vecLong v => str "vector of long" ++ sizeText hex v.length
  | vecReal v => str "vector of double" ++ sizeText hex v.length
  | vecComplex v => str "vector of complex" ++ sizeText hex v.length
  | matInt m => str "matrix of int" ++ dimsText hex m.nr m.nc
  | matLong m => str "matrix of long" ++ dimsText hex m.nr m.nc
  | matReal m => str "matrix of double" ++ dimsText hex m.nr m.nc
  | matComplex m => str "matrix of complex" ++ dimsText hex m.nr m.nc
  | vecString v => str "vector of string" ++ sizeText hex v.length
  | vector v => printTypesElems hex pre ind 0 v
  | map m => printTypesEntries hex pre ind m
/-- cc:3646-3659 -/
def printTypesElems (hex : Bool) (pre ind : Bytes) (i : Nat) : List GC → Bytes
  | [] => []
  | x :: r =>
    (if x.simple_data || x.simple_vec_data then pre ++ natOut hex i ++ str ": " ++ printTypes hex [] indent4 x
     else pre ++ natOut hex i ++ str ":\n" ++ printTypes hex (pre ++ ind) ind x) ++
    printTypesElems hex pre ind (i + 1) r
/-- cc:3661-3700 -/
def printTypesEntries (hex : Bool) (pre ind : Bytes) : Entries → Bytes
  | [] => []
  | (k, x) :: r =>
    (match heading k with
     | some (s, u, hd) =>
       if x.simple_data || x.simple_vec_data then pre ++ hd ++ str ": " ++ printTypes hex [] indent4 x
       else headLines pre s u hd ++ printTypes hex (pre ++ ind) ind x
     | none =>
       if x.simple_data || x.simple_vec_data then pre ++ k ++ str ": " ++ printTypes hex [] indent4 x
       else pre ++ k ++ str ":\n" ++ printTypes hex (pre ++ ind) ind x) ++
    printTypesEntries hex pre ind r
end

/-- cc:207-214, `mat_type::info`. -/
def matInfo (hex : Bool) {α : Type} (m : Mat α) : Bytes :=
  str "Matrix of floating point number of size " ++ natOut hex m.nr ++ str " x " ++ natOut hex m.nc ++ [10]

/-- cc:3181-3252, `info( stream )`; a pointer is written by `stream << p`, which leaves the stream as it is. -/
def info (f : Fmt) (hex : Bool) : GC → Bytes
  | notype => str "GenericContainer: No data stored\n"
  | pointer p => str "Generic pointer: " ++ natOut true p.toNat ++ [10]
  | bool b => str "Boolean: " ++ boolOut b ++ [10]
  | int i => str "Integer: " ++ intOut hex i ++ [10]
  | long i => str "Long: " ++ intOut hex i ++ [10]
  | real r => str "Floating Point: " ++ f.real r ++ [10]
  | complex c => str "Complex Floating Point: " ++ cplxOut f c ++ [10]
  | string s => str "String: " ++ cstr s ++ [10]
  | vecPointer v => str "Vector of generic pointer of size " ++ natOut hex v.length ++ [10]
  | vecBool v => str "Vector of boolean of size " ++ natOut hex v.length ++ [10]
  | vecInt v => str "Vector of integer of size " ++ natOut hex v.length ++ [10]
  | vecLong v => str "Vector of long integer of size " ++ natOut hex v.length ++ [10]
  | vecReal v => str "Vector of floating point number of size " ++ natOut hex v.length ++ [10]
  | vecComplex v => str "Vector of complex floating point number of size " ++ natOut hex v.length ++ [10]
  | vecString v => str "Vector of string of size " ++ natOut hex v.length ++ [10]
  | matInt m => matInfo hex m
  | matLong m => matInfo hex m
  | matReal m => matInfo hex m
  | matComplex m => matInfo hex m
  | vector v => str "Vector of generic data type of size " ++ natOut hex v.length ++ [10]
  | map _ => str "Map\n"

end GC
end GCV
