import Verif.Model.Compare
import Verif.Model.Print

/-!
# The text that compare_content returns

The decimal form of a `double` is a parameter, as in Verif/Model/Writer.lean, and so is the form in which the standard
library writes a pointer (`stream << p`), which is left to the implementation.  All streams are local and start in base
ten; the only one that is put into base 16 (cc:483) writes nothing but pointers.
-/

namespace GCV

/-- `stream << b`, without `boolalpha`. -/
def bitOut (b : Bool) : Bytes := if b then [49] else [48]

namespace GC

/-- cc:414-417, cc:440-441: the end of a line. -/
def diffText {α : Type} (shw : α → Bytes) (x y : α) : Bytes := shw x ++ str " <> " ++ shw y ++ [10]

/-- cc:407-426, `compare_vector`.  The loop increments `i` but not the iterators: it compares the first elements, and
goes on for ever when they are equal; the message has `i = 0`. -/
def compareVecText {α : Type} (who : Bytes) (shw : α → Bytes) (eq : α → α → Bool) (a b : List α) : Out Bytes :=
  if a.length = b.length then
    match a, b with
    | x :: _, y :: _ =>
      if eq x y then .diverge else .ok (who ++ str " at " ++ natOut false 0 ++ str " values " ++ diffText shw x y)
    | _, _ => .ok []
  else .ok (who ++ str " size: " ++ diffText (natOut false) a.length b.length)

/-- Inner loop of cc:435-443, row `i` from column `j` on, `n` columns to go. -/
def compareRowText {α : Type} (who : Bytes) (shw : α → Bytes) (eq : α → α → Bool) (a b : Mat α) (i : Nat) :
    Nat → Nat → Out Bytes
  | _, 0 => .ok []
  | j, n + 1 =>
    (a.get i j).bind fun x => (b.get i j).bind fun y =>
      if eq x y then compareRowText who shw eq a b i (j + 1) n
      else .ok (who ++ str " at (" ++ natOut false i ++ str "," ++ natOut false j ++ str ") values " ++ diffText shw x y)

/-- Outer loop of cc:434-444; the `break` of the inner loop does not end it. -/
def compareRowsText {α : Type} (who : Bytes) (shw : α → Bytes) (eq : α → α → Bool) (a b : Mat α) :
    Nat → Nat → Out Bytes
  | _, 0 => .ok []
  | i, n + 1 =>
    (compareRowText who shw eq a b i 0 a.nc).bind fun s =>
      (compareRowsText who shw eq a b (i + 1) n).bind fun t => .ok (s ++ t)

/-- cc:431-451, `compare_matrix`. -/
def compareMatText {α : Type} (who : Bytes) (shw : α → Bytes) (eq : α → α → Bool) (a b : Mat α) : Out Bytes :=
  if a.nr = b.nr ∧ a.nc = b.nc then compareRowsText who shw eq a b 0 a.nr
  else .ok (who ++ str " size: " ++ natOut false a.nr ++ str " x " ++ natOut false a.nc ++ str " <> " ++
    natOut false b.nr ++ str " x " ++ natOut false b.nc ++ [10])

/-- cc:496-498 and the like: `if ( !tmp.empty() ) data << from << tmp`. -/
def withFrom (pre : Bytes) (tmp : Out Bytes) : Out Bytes :=
  tmp.bind fun t => if t.isEmpty then .ok [] else .ok (pre ++ t)

/-- cc:470-472 and the like: a message if the values differ. -/
def unlessEq (eq : Bool) (t : Bytes) : Out Bytes := if eq then .ok [] else .ok t

mutual

/-- cc:453-584, `compare_content( gc, from )`.  The REAL case (cc:478-480) has no `break` and continues with the POINTER
case, which reads the pointer member of the union while the real one is active: undefined. -/
def compareText (f : Fmt) (ptr : Ptr → Bytes) (pre : Bytes) : GC → GC → Out Bytes
  | notype, notype => .ok []
  | bool a, bool b => unlessEq (a == b) (pre ++ str "boolean: different\n")
  | int a, int b => unlessEq (a == b) (pre ++ str "integer: " ++ diffText (intOut false) a b)
  | long a, long b => unlessEq (a == b) (pre ++ str "long: " ++ diffText (intOut false) a b)
  | real _, real _ => .ub
  | pointer a, pointer b => unlessEq (a == b) (pre ++ str "pointer: 0x" ++ ptr a ++ str " <> 0x" ++ ptr b ++ [10])
  | string a, string b => unlessEq (a == b) (pre ++ str "string: \"" ++ a ++ str "\" <> \"" ++ b ++ str "\"\n")
  | complex a, complex b => unlessEq (a.feq b) (pre ++ str "complex: " ++ diffText (pairText f) a b)
  | vecPointer a, vecPointer b => withFrom pre (compareVecText (str "vector of pointer") ptr (· == ·) a b)
  | vecBool a, vecBool b => withFrom pre (compareVecText (str "vector of boolean") bitOut (· == ·) a b)
  | vecInt a, vecInt b => withFrom pre (compareVecText (str "vector of integer") (intOut false) (· == ·) a b)
  | vecLong a, vecLong b => withFrom pre (compareVecText (str "vector of long") (intOut false) (· == ·) a b)
  | vecReal a, vecReal b => withFrom pre (compareVecText (str "vector of double") f.real F64.feq a b)
  | vecComplex a, vecComplex b => withFrom pre (compareVecText (str "vector of complex") (pairText f) Cplx.feq a b)
  | matInt a, matInt b => withFrom pre (compareMatText (str "mat of integer") (intOut false) (· == ·) a b)
  | matLong a, matLong b => withFrom pre (compareMatText (str "mat of long") (intOut false) (· == ·) a b)
  | matReal a, matReal b => withFrom pre (compareMatText (str "mat of double") f.real F64.feq a b)
  | matComplex a, matComplex b => withFrom pre (compareMatText (str "mat of complex") (pairText f) Cplx.feq a b)
  | vecString a, vecString b => withFrom pre (compareVecText (str "vector of string") id (· == ·) a b)
  | vector a, vector b =>
    if a.length = b.length then compareTextL f ptr pre 0 a b
    else .ok (pre ++ str "vector of GC size do not match: " ++ diffText (natOut false) a.length b.length)
  | map a, map b =>
    if a.length = b.length then compareTextM f ptr pre a b
    else .ok (pre ++ str "map of GC size do not match: " ++ diffText (natOut false) a.length b.length)
  | a, b => .ok (pre ++ str "different type: " ++ diffText Ty.name a.ty b.ty)
termination_by structural a => a

/-- cc:538-549, from position `i` on. -/
def compareTextL (f : Fmt) (ptr : Ptr → Bytes) (pre : Bytes) : Nat → List GC → List GC → Out Bytes
  | _, [], _ => .ok []
  | _, _ :: _, [] => .ub
  | i, x :: r, y :: s =>
    (compareText f ptr (str "> ") x y).bind fun res =>
      if res.isEmpty then compareTextL f ptr pre (i + 1) r s
      else .ok (pre ++ str "position: " ++ natOut false i ++ [10] ++ res)
termination_by structural _ a => a

/-- cc:558-574 -/
def compareTextM (f : Fmt) (ptr : Ptr → Bytes) (pre : Bytes) : Entries → Entries → Out Bytes
  | [], _ => .ok []
  | _ :: _, [] => .ub
  | (k, x) :: r, (l, y) :: s =>
    if k = l then
      (compareText f ptr (str "> ") x y).bind fun res =>
        if res.isEmpty then compareTextM f ptr pre r s
        else .ok (pre ++ str "key: '" ++ k ++ str "'\n" ++ res)
    else .ok (pre ++ str "map of GC keys do not match: " ++ diffText id k l)
termination_by structural a => a

end

end GC
end GCV
