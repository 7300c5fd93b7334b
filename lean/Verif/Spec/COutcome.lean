import Verif.Spec.Cursor
import Verif.Spec.AnyKey
import Verif.Spec.MatrixRef

/-!
# Specification vocabulary: how a call of the C interface ends

A table over the type under the cursor and the arguments.
-/

namespace GCV
namespace CApi
open GC

/-- A call returns to C, ends with a C++ exception leaving the C function, or has no defined behaviour. -/
inductive Outcome where
  | returns
  | exception
  | undefined
  deriving DecidableEq, Repr

/-- How a call has ended. -/
def Step.Ends {σ α : Type} : Step σ α → Outcome → Prop
  | .ok _ _, o => o = .returns
  | .throw _, o => o = .exception
  | .ub, o => o = .undefined
  | .diverge, _ => False

/-- A single value. -/
def single : Ty → Bool
  | .POINTER | .BOOL | .INTEGER | .LONG | .REAL | .COMPLEX | .STRING => true
  | _ => false

/-- Matrices and maps. -/
def fixed : Ty → Bool
  | .MAT_INTEGER | .MAT_LONG | .MAT_REAL | .MAT_COMPLEX | .MAP => true
  | _ => false

/-- `GC_get_bool_at_pos` and the like, which make room for the position; `own`: single values that the call turns into a vector. -/
def growing (t : Ty) (own : Bool) (pos : I32) : Outcome :=
  if fixed t then .exception
  else if pos = -1 then .undefined
  else if single t && !own then .undefined
  else .returns

/-- `GC_get_real_at_pos` and `GC_get_complex_at_pos`: `listed` if the container has several values that may be numbers of
the kind, `num` tells which are. -/
def counting (g : GC) (listed : Bool) (num : GC → Bool) (pos : I32) : Outcome :=
  if listed then
    match (elems g)[pos.toNat]? with
    | some x => if num x then .returns else .exception
    | none => .undefined
  else .exception

/-- `GC_get_*_at_coor`: `rows` and `count` of the matrix looked at; the position is computed modulo 2^32. -/
def coordinate (rows count : Nat) (i j : I32) : Outcome :=
  if (i.toNat + j.toNat * rows) % 2 ^ 32 < count then .returns else .exception

/-- The same for a container of any type: an empty one becomes an i x j matrix; a vector of numbers is one column. -/
def coordinates (g : GC) (t : Ty) (i j : I32) : Outcome :=
  if g.ty = .NOTYPE then coordinate i.toNat (i.toNat * j.toNat % 2 ^ 32) i j
  else if cellAccepts g.ty t then
    if wrongMember t g then .undefined else coordinate (tall g) (elems g).length i j
  else .exception

/-- How the call ends if the cursor points to the container `g`. -/
def atContainer (g : GC) : Call → Outcome
  | .getBool _ => if g.ty = .NOTYPE ∨ g.ty = .BOOL then .returns else .exception
  | .getInt _ => if g.ty = .NOTYPE ∨ g.ty = .INTEGER then .returns else .exception
  | .getLong _ => if g.ty = .NOTYPE ∨ g.ty = .LONG then .returns else .exception
  | .getReal _ => if g.ty = .NOTYPE ∨ g.ty = .REAL then .returns else .exception
  | .getComplex | .getComplexRe | .getComplexIm => if g.ty = .NOTYPE ∨ g.ty = .COMPLEX then .returns else .exception
  | .getString => if g.ty = .NOTYPE ∨ g.ty = .STRING then .returns else .exception
  | .getBoolAt pos => growing g.ty false pos
  | .getIntAt pos => growing g.ty (g.ty = .BOOL || g.ty = .INTEGER) pos
  | .getStringAt pos => growing g.ty false pos
  | .getRealAt pos => counting g (g.ty = .VECTOR || severalNumbers 3 g.ty) isRealNumber pos
  | .getComplexAt pos | .getComplexReAt pos | .getComplexImAt pos =>
    counting g (g.ty = .VECTOR || severalNumbers 4 g.ty) isNumber pos
  | .getRealCoor i j => coordinates g .MAT_REAL i j
  | .getComplexCoor i j | .getComplexReCoor i j | .getComplexImCoor i j => coordinates g .MAT_COMPLEX i j
  | .pushString _ => if single g.ty then .undefined else .returns
  | .pushVectorPosition pos => if g.ty = .VECTOR ∧ pos = -1 then .undefined else .returns
  | _ => .returns

/-- The calls through which an exception goes: the getters, and `GC_set_vector_of_*`. -/
def Call.open : Call → Bool
  | .getType | .getTypeName | .getBool _ | .getInt _ | .getLong _ | .getReal _ | .getComplex | .getComplexRe
  | .getComplexIm | .getString | .getBoolAt _ | .getIntAt _ | .getRealAt _ | .getComplexAt _ | .getComplexReAt _
  | .getComplexImAt _ | .getStringAt _ | .getRealCoor _ _ | .getComplexCoor _ _ | .getComplexReCoor _ _
  | .getComplexImCoor _ _ | .getVectorSize | .getNumRows | .getNumCols | .setVecBool _ | .setVecInt _
  | .setVecReal _ | .setVecComplex _ | .setVecString _ => true
  | _ => false

/-- How a call ends on the state of the library. -/
def outcome (c : Call) (l : Lib) : Outcome :=
  match l.current with
  | none => .returns
  | some e =>
    match c, l.top with
    | .getNextKey, _ => match e.iter with | .at _ _ => .returns | _ => .undefined
    | .new _, _ | .select _, _ | .memPtr _, _ | .delete _, _ => .returns
    | c, none => if c.open then .exception else .returns
    | c, some g => atContainer g c

end CApi
end GCV
