import Verif.Model.Core

/-!
# compare_content

Simplification: only whether the returned string is empty (`true`: no difference reported) is
represented; every difference adds a text with fixed non empty parts.
-/

namespace GCV
namespace GC

/-- cc:407-426, `compare_vector`: the loop increments `i` but not the iterators, so it goes on for ever
on the first pair when that is equal. -/
def compareVec {α : Type} (eq : α → α → Bool) (a b : List α) : Out Bool :=
  if a.length = b.length then
    match a, b with
    | x :: _, y :: _ => if eq x y then .diverge else .ok false
    | _, _ => .ok true
  else .ok false

/-- Inner loop of cc:435-443, row `i` from column `j` on, `n` columns to go. -/
def compareRow {α : Type} (eq : α → α → Bool) (a b : Mat α) (i : Nat) : Nat → Nat → Out Bool
  | _, 0 => .ok true
  | j, n + 1 =>
    (a.get i j).bind fun x => (b.get i j).bind fun y =>
      if eq x y then compareRow eq a b i (j + 1) n else .ok false

/-- Outer loop of cc:434-444; the `break` of the inner loop does not end it. -/
def compareRows {α : Type} (eq : α → α → Bool) (a b : Mat α) : Nat → Nat → Out Bool
  | _, 0 => .ok true
  | i, n + 1 =>
    (compareRow eq a b i 0 a.nc).bind fun s => (compareRows eq a b (i + 1) n).bind fun t => .ok (s && t)

/-- cc:431-451, `compare_matrix`. -/
def compareMat {α : Type} (eq : α → α → Bool) (a b : Mat α) : Out Bool :=
  if a.nr = b.nr ∧ a.nc = b.nc then compareRows eq a b 0 a.nr else .ok false

mutual

/-- cc:453-584, `compare_content`.  The REAL case (cc:478-480) has no `break` and continues with the
POINTER case, which reads the pointer member of the union while the real one is active: undefined. -/
def compare_content : GC → GC → Out Bool
  | notype, notype => .ok true
  | bool a, bool b => .ok (a == b)
  | int a, int b => .ok (a == b)
  | long a, long b => .ok (a == b)
  | real _, real _ => .ub
  | pointer a, pointer b => .ok (a == b)
  | string a, string b => .ok (a == b)
  | complex a, complex b => .ok (a.feq b)
  | vecPointer a, vecPointer b => compareVec (· == ·) a b
  | vecBool a, vecBool b => compareVec (· == ·) a b
  | vecInt a, vecInt b => compareVec (· == ·) a b
  | vecLong a, vecLong b => compareVec (· == ·) a b
  | vecReal a, vecReal b => compareVec F64.feq a b
  | vecComplex a, vecComplex b => compareVec Cplx.feq a b
  | matInt a, matInt b => compareMat (· == ·) a b
  | matLong a, matLong b => compareMat (· == ·) a b
  | matReal a, matReal b => compareMat F64.feq a b
  | matComplex a, matComplex b => compareMat Cplx.feq a b
  | vecString a, vecString b => compareVec (· == ·) a b
  | vector a, vector b => if a.length = b.length then compareL a b else .ok false
  | map a, map b => if a.length = b.length then compareM a b else .ok false
  | _, _ => .ok false
termination_by structural a => a

/-- cc:543-549 -/
def compareL : List GC → List GC → Out Bool
  | [], _ => .ok true
  | _ :: _, [] => .ub
  | x :: r, y :: s => (compare_content x y).bind fun e => if e then compareL r s else .ok false
termination_by structural a => a

/-- cc:561-574 -/
def compareM : Entries → Entries → Out Bool
  | [], _ => .ok true
  | _ :: _, [] => .ub
  | (k, x) :: r, (l, y) :: s =>
    if k = l then (compare_content x y).bind fun e => if e then compareM r s else .ok false
    else .ok false
termination_by structural a => a

end

end GC
end GCV
