import Verif.Model.Docs

/-!
# Reading JSON with RapidJSON

Paths: `rd` = src_json_interface/rapidjson/reader.h, `dc` = src_json_interface/rapidjson/document.h,
`en` = src_json_interface/rapidjson/encodings.h, `is` = src_json_interface/rapidjson/istreamwrapper.h,
`fj` = src_json_interface/from_json.cc.

The reader is modelled as it is instantiated by `document.ParseStream( isw )`: UTF-8 to UTF-8, no flags.  A stream is
the list of the bytes not yet taken; behind the last one `Peek()` is 0 for ever (is:76-77, is:95-109).  The values that
the handler of `Document` puts on its stack (dc:2821-2862) are returned instead.  Offsets and codes of errors are left
out.  Recursion as deep as the text is nested is taken to succeed.
-/

namespace GCV

namespace Rapid

/-- dc:720-832, the values that a handler makes (a number by the event it comes from). -/
inductive Val
  | null
  | bool (b : Bool)
  | int (i : I32)
  | uint (u : BitVec 32)
  | int64 (i : I64)
  | uint64 (u : BitVec 64)
  | double (r : F64)
  | str (s : Bytes)
  | arr (l : List Val)
  | obj (m : List (Bytes × Val))

/-- dc:1119 with the flags of dc:792-832 -/
def Val.isInt : Val → Bool
  | int _ => true
  | uint u => u.toNat < 2 ^ 31
  | int64 i => -2 ^ 31 ≤ i.toInt ∧ i.toInt < 2 ^ 31
  | uint64 u => u.toNat < 2 ^ 31
  | _ => false

/-- dc:1120 -/
def Val.isUint : Val → Bool
  | int i => 0 ≤ i.toInt
  | uint _ => true
  | int64 i => 0 ≤ i.toInt ∧ i.toInt < 2 ^ 32
  | uint64 u => u.toNat < 2 ^ 32
  | _ => false

/-- dc:1121 -/
def Val.isInt64 : Val → Bool
  | int _ | uint _ | int64 _ => true
  | uint64 u => u.toNat < 2 ^ 63
  | _ => false

/-- dc:792-832, `data_.n`: 64 bits, of which `GetInt()` and `GetUint()` (dc:1817-1818) read the low half. -/
def Val.bits : Val → BitVec 64
  | int i => i.signExtend 64
  | uint u => u.setWidth 64
  | int64 i => i
  | uint64 u => u
  | _ => 0

/-- The next byte (is:76) -/
def peek : Bytes → Byte
  | [] => 0
  | c :: _ => c

/-- rd:894-902, `Consume(is,expect)`: the rest of the stream if the byte was there (`expect` is never 0). -/
def consume (c : Byte) : Bytes → Option Bytes
  | [] => none
  | d :: r => if d = c then some r else none

/-- rd:258-267 -/
def blank (c : Byte) : Bool := c == 32 || c == 10 || c == 13 || c == 9

/-- rd:258-267, `SkipWhitespace(is)` -/
def skip : Bytes → Bytes
  | [] => []
  | c :: r => if blank c then skip r else c :: r

/-- rd:911-922: the value of a hexadecimal digit. -/
def hexDigit (c : Byte) : Option Nat :=
  if 48 ≤ c.toNat ∧ c.toNat ≤ 57 then some (c.toNat - 48)
  else if 65 ≤ c.toNat ∧ c.toNat ≤ 70 then some (c.toNat - 65 + 10)
  else if 97 ≤ c.toNat ∧ c.toNat ≤ 102 then some (c.toNat - 97 + 10)
  else none

/-- rd:905-926, `ParseHex4` -/
def hex4 (a b c d : Byte) : Option Nat :=
  match hexDigit a, hexDigit b, hexDigit c, hexDigit d with
  | some a, some b, some c, some d => some (((a * 16 + b) * 16 + c) * 16 + d)
  | _, _, _, _ => none

/-- en:102-122, `UTF8<>::Encode` -/
def encode (u : Nat) : Bytes :=
  let p := BitVec.ofNat 32 u
  let put (x : BitVec 32) : Byte := x.setWidth 8
  if u ≤ 0x7F then [put (p &&& 0xFF)]
  else if u ≤ 0x7FF then [put ((0xC0 : BitVec 32) ||| ((p >>> 6) &&& 0xFF)), put ((0x80 : BitVec 32) ||| (p &&& 0x3F))]
  else if u ≤ 0xFFFF then
    [put ((0xE0 : BitVec 32) ||| ((p >>> 12) &&& 0xFF)), put ((0x80 : BitVec 32) ||| ((p >>> 6) &&& 0x3F)), put ((0x80 : BitVec 32) ||| (p &&& 0x3F))]
  else [put ((0xF0 : BitVec 32) ||| ((p >>> 18) &&& 0xFF)), put ((0x80 : BitVec 32) ||| ((p >>> 12) &&& 0x3F)),
    put ((0x80 : BitVec 32) ||| ((p >>> 6) &&& 0x3F)), put ((0x80 : BitVec 32) ||| (p &&& 0x3F))]

/-- rd:993-1003, the table `escape`: 0 where there is nothing. -/
def escape (e : Byte) : Byte :=
  if e = 34 then 34
  else if e = 47 then 47
  else if e = 92 then 92
  else if e = 98 then 8
  else if e = 102 then 12
  else if e = 110 then 10
  else if e = 114 then 13
  else if e = 116 then 9
  else 0

/-- What is put in front of the rest of the text. -/
def puts (s : Bytes) : Option (Bytes × Bytes) → Option (Bytes × Bytes)
  | some (t, r) => some (s ++ t, r)
  | none => none

/-- rd:989-1070, `ParseStringToStream(is,os)`: the text and what follows the closing quote; none for an error.
A byte is copied as it is (en:693-696). -/
def string : Bytes → Option (Bytes × Bytes)
  | [] => none
  | c :: r =>
    if c = 92 then
      match r with
      | [] => none
      | e :: r =>
        if escape e ≠ 0 then puts [escape e] (string r)
        else if e = 117 then
          match r with
          | a :: b :: c :: d :: r =>
            match hex4 a b c d with
            | none => none
            | some u =>
              if 0xD800 ≤ u ∧ u ≤ 0xDFFF then
                if u ≤ 0xDBFF then
                  match r with
                  | x :: y :: a :: b :: c :: d :: r =>
                    if x = 92 ∧ y = 117 then
                      match hex4 a b c d with
                      | none => none
                      | some v =>
                        if v < 0xDC00 ∨ v > 0xDFFF then none
                        else puts (encode ((((u - 0xD800) <<< 10) ||| (v - 0xDC00)) + 0x10000)) (string r)
                    else none
                  | _ => none
                else none
              else puts (encode u) (string r)
          | _ => none
        else none
    else if c = 34 then some ([], r)
    else if c.toNat < 0x20 then none
    else puts [c] (string r)
termination_by structural t => t

/-! ## Numbers -/

def isDigit (c : Byte) : Bool := 48 ≤ c.toNat && c.toNat ≤ 57

/-- rd:1497-1518 and rd:1546-1569: the loop over the digits of an integer of `w` bits; `lim` and `last` tell when another
digit would be too much.  The number, whether the loop was left for that reason, and the rest. -/
def digits (w lim : Nat) (last : Byte) : Nat → Bytes → Nat × Bool × Bytes
  | i, [] => (i, false, [])
  | i, c :: r =>
    if isDigit c then
      if lim ≤ i ∧ (i ≠ lim ∨ last.toNat < c.toNat) then (i, true, c :: r)
      else digits w lim last ((i * 10 + (c.toNat - 48)) % 2 ^ w) r
    else (i, false, c :: r)

/-- The rest behind the digits. -/
def skipDigits : Bytes → Bytes
  | [] => []
  | c :: r => if isDigit c then skipDigits r else c :: r

/-- At least one digit: the rest behind the digits. -/
def someDigits : Bytes → Option Bytes
  | [] => none
  | c :: r => if isDigit c then some (skipDigits r) else none

/-- rd:1487-1570: the integer part, behind the sign: the number, `use64bit`, `useDouble` and the rest. -/
def intPart (minus : Bool) : Bytes → Option (Nat × Bool × Bool × Bytes)
  | [] => none
  | c :: r =>
    if c = 48 then some (0, false, false, r)
    else if 49 ≤ c.toNat ∧ c.toNat ≤ 57 then
      let (i, use64, r) := if minus then digits 32 214748364 56 (c.toNat - 48) r
        else digits 32 429496729 53 (c.toNat - 48) r
      if use64 then
        let (i, useDouble, r) := if minus then digits 64 0x0CCCCCCCCCCCCCCC 56 i r
          else digits 64 0x1999999999999999 53 i r
        some (i, true, useDouble, r)
      else some (i, false, false, r)
    else none

/-- rd:1572-1625: the fraction; the rest and whether there was one. -/
def fraction (t : Bytes) : Option (Bool × Bytes) :=
  match consume 46 t with
  | some r => (someDigits r).map fun r => (true, r)
  | none => some (false, t)

/-- rd:1640-1644: a plus or a minus in front of the digits of the exponent. -/
def expSign (t : Bytes) : Bytes :=
  match consume 43 t with
  | some r => r
  | none => (consume 45 t).getD t

/-- rd:1632-1678: the exponent; the rest and whether there was one. -/
def exponent (t : Bytes) : Option (Bool × Bytes) :=
  match (consume 101 t).or (consume 69 t) with
  | some r => (someDigits (expSign r)).map fun r => (true, r)
  | none => some (false, t)

/-- rd:1467-1749, `ParseNumber`.  A `double` is computed from the digits, the point and the exponent (rd:1535, rd:1566,
rd:1574, rd:1589-1621, rd:1638-1672, rd:1708-1721), that is, from the text of the number: `conv` is that computation,
`none` when the number is too big. -/
def number (conv : Bytes → Option F64) (t : Bytes) : Option (Val × Bytes) :=
  let minus := (consume 45 t).isSome
  match intPart minus ((consume 45 t).getD t) with
  | none => none
  | some (i, use64, useDouble, r1) =>
    match fraction (if useDouble then skipDigits r1 else r1) with
    | none => none
    | some (f, r2) =>
      match exponent r2 with
      | none => none
      | some (e, r3) =>
        if useDouble ∨ f ∨ e then
          match conv (t.take (t.length - r3.length)) with
          | none => none
          | some d => some (.double d, r3)
        else if use64 then
          if minus then some (.int64 (~~~ (BitVec.ofNat 64 i) + 1), r3) else some (.uint64 (BitVec.ofNat 64 i), r3)
        else if minus then some (.int (~~~ (BitVec.ofNat 32 i) + 1), r3)
        else some (.uint (BitVec.ofNat 32 i), r3)

/-! ## Values -/

/-- rd:855-892, `ParseNull`, `ParseTrue` and `ParseFalse` behind the first letter. -/
def word : Bytes → Bytes → Option Bytes
  | [], t => some t
  | c :: w, t =>
    match consume c t with
    | some r => word w r
    | none => none

/-- An error does not come back. -/
def andThen {α β : Type} (x : Out (Option (α × Bytes))) (f : α → Bytes → Out (Option (β × Bytes))) :
    Out (Option (β × Bytes)) :=
  x.bind fun
    | none => .ok none
    | some (a, r) => f a r

mutual

/-- rd:1750-1766, `ParseValue`: the value and the rest of the stream; none for an error.  The first argument bounds
the number of calls. -/
def value (conv : Bytes → Option F64) : Nat → Bytes → Out (Option (Val × Bytes))
  | 0, _ => .diverge
  | n + 1, t =>
    if peek t = 110 then .ok ((word (str "ull") t.tail).map fun r => (.null, r))
    else if peek t = 116 then .ok ((word (str "rue") t.tail).map fun r => (.bool true, r))
    else if peek t = 102 then .ok ((word (str "alse") t.tail).map fun r => (.bool false, r))
    else if peek t = 34 then .ok ((string t.tail).map fun (s, r) => (.str s, r))
    else if peek t = 123 then
      let t := skip t.tail
      match consume 125 t with
      | some r => .ok (some (.obj [], r))
      | none => andThen (members conv n t) fun m r => .ok (some (.obj m, r))
    else if peek t = 91 then
      let t := skip t.tail
      match consume 93 t with
      | some r => .ok (some (.arr [], r))
      | none => andThen (elements conv n t) fun l r => .ok (some (.arr l, r))
    else .ok (number conv t)

/-- rd:824-852, the loop of `ParseArray`: the elements from here on. -/
def elements (conv : Bytes → Option F64) : Nat → Bytes → Out (Option (List Val × Bytes))
  | 0, _ => .diverge
  | n + 1, t =>
    andThen (value conv n t) fun v r =>
      let r := skip r
      match consume 44 r with
      | some r => andThen (elements conv n (skip r)) fun l r => .ok (some (v :: l, r))
      | none =>
        match consume 93 r with
        | some r => .ok (some ([v], r))
        | none => .ok none

/-- rd:756-803, the loop of `ParseObject`: the members from here on. -/
def members (conv : Bytes → Option F64) : Nat → Bytes → Out (Option (List (Bytes × Val) × Bytes))
  | 0, _ => .diverge
  | n + 1, t =>
    if peek t ≠ 34 then .ok none
    else
      match string t.tail with
      | none => .ok none
      | some (k, r) =>
        match consume 58 (skip r) with
        | none => .ok none
        | some r =>
          andThen (value conv n (skip r)) fun v r =>
            let r := skip r
            match consume 44 r with
            | some r => andThen (members conv n (skip r)) fun m r => .ok (some ((k, v) :: m, r))
            | none =>
              match consume 125 r with
              | some r => .ok (some ([(k, v)], r))
              | none => .ok none

end

/-- rd:557-590, `Parse` (dc:2643-2654): the document, none for an error. -/
def parse (conv : Bytes → Option F64) (t : Bytes) : Out (Option Val) :=
  let t := skip t
  if peek t = 0 then .ok none
  else
    (value conv (2 * t.length + 1) t).bind fun
      | none => .ok none
      | some (v, r) => if peek (skip r) ≠ 0 then .ok none else .ok (some v)

end Rapid

namespace GC

open Rapid

mutual

/-- fj:53-93, `decode_json(gc,value)`.  `ok` is true on every path and left out: there is no other kind of value.
`GetString()` is taken as a C string (hh:3659, fj:85).  `V[i]` is not checked. -/
def decode_json : Val → GC → Res Unit
  | .null, g => .ok (clear g) ()
  | .bool b, g => .ok (set_bool b g) ()
  | .double r, g => .ok (set_real r g) ()
  | .str s, g => .ok (set_string (cstr s) g) ()
  | .arr l, g =>
    match decodeElems l (set_vector (u32 l.length) g).oldVector with
    | .ok v => .ok (vector v) ()
    | .throw v => .throw (vector v)
    | .ub => .ub
    | .diverge => .diverge
  | .obj m, g =>
    match decodeMembers m (set_map g).oldMap with
    | .ok e => .ok (map e) ()
    | .throw e => .throw (map e)
    | .ub => .ub
    | .diverge => .diverge
  | v, g =>
    if v.isInt then .ok (set_int (v.bits.setWidth 32) g) ()
    else if v.isUint then .ok (set_int (v.bits.setWidth 32) g) ()
    else if v.isInt64 then .ok (set_long v.bits g) ()
    else .ok (set_long v.bits g) ()
termination_by structural v => v

/-- fj:79-80 -/
def decodeElems : List Val → List GC → Loop (List GC)
  | [], v => .ok v
  | _ :: _, [] => .ub
  | d :: l, x :: v =>
    match decode_json d x with
    | .ok x' _ =>
      match decodeElems l v with
      | .ok v' => .ok (x' :: v')
      | .throw v' => .throw (x' :: v')
      | .ub => .ub
      | .diverge => .diverge
    | .throw x' => .throw (x' :: v)
    | .ub => .ub
    | .diverge => .diverge
termination_by structural l => l

/-- fj:84-87 -/
def decodeMembers : List (Bytes × Val) → Entries → Loop Entries
  | [], e => .ok e
  | (k, d) :: l, e =>
    match decode_json d ((mfind (cstr k) e).getD notype) with
    | .ok x _ => decodeMembers l (mset (cstr k) x e)
    | .throw x => .throw (mset (cstr k) x e)
    | .ub => .ub
    | .diverge => .diverge
termination_by structural l => l

end

/-- fj:95-120, `from_json(stream)`; what `collapse()` throws is not caught. -/
def from_json (conv : Bytes → Option F64) (text : Bytes) (g : GC) : Res Bool :=
  match parse conv text with
  | .ok none => .ok g false
  | .ok (some v) => ((decode_json v g).bind fun g' _ => collapse g').bind fun g' _ => .ok g' true
  | .throw => .throw g
  | .ub => .ub
  | .diverge => .diverge

end GC
end GCV
