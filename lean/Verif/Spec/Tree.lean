import Verif.Model.Basic

/-!
# Specification vocabulary: predicates on container trees

Nothing here refers to the code; these are the words the theorems are stated with.
-/

namespace GCV

/-- Byte-wise lexicographic order of strings, as a specification: `a` is a proper prefix of
`b`, or at the first difference the byte of `a` is the smaller one. -/
def strLT (a b : Bytes) : Prop :=
  (∃ c t, b = a ++ c :: t) ∨
  ∃ p x y s t, a = p ++ x :: s ∧ b = p ++ y :: t ∧ x.toNat < y.toNat

/-- No NUL byte. -/
def noNul (s : Bytes) : Bool := s.all (· ≠ 0)

namespace GC

mutual

/-- `p` holds for a tree and all the trees inside it. -/
def every (p : GC → Bool) : GC → Bool
  | vector v => p (vector v) && everyL p v
  | map m => p (map m) && everyM p m
  | g => p g
termination_by structural g => g

/-- `every p` for the elements of a VECTOR. -/
def everyL (p : GC → Bool) : List GC → Bool
  | [] => true
  | x :: r => every p x && everyL p r
termination_by structural l => l

/-- `every p` for the values of a MAP. -/
def everyM (p : GC → Bool) : Entries → Bool
  | [] => true
  | (_, x) :: r => every p x && everyM p r
termination_by structural l => l

end

mutual

/-- Nesting depth. -/
def depth : GC → Nat
  | vector v => depthL v + 1
  | map m => depthM m + 1
  | _ => 0
termination_by structural g => g

def depthL : List GC → Nat
  | [] => 0
  | x :: r => max (depth x) (depthL r)
termination_by structural l => l

def depthM : Entries → Nat
  | [] => 0
  | (_, x) :: r => max (depth x) (depthM r)
termination_by structural l => l

end

end GC

/-- Keys strictly increasing. -/
def KeysSorted (m : Entries) : Prop := List.Pairwise (fun a b => strLT a.1 b.1) m

/-- Dimensions are `unsigned` and the matrix stores rows x cols elements; the product is the
32 bit one, so for matrices with fewer than 2^32 cells it is the true product. -/
def Mat.wf {α : Type} (m : Mat α) : Bool :=
  decide (m.nr < 2 ^ 32) && decide (m.nc < 2 ^ 32) &&
    decide (m.data.length = (m.nr * m.nc) % 2 ^ 32)

namespace GC

mutual

/-- Well-formed trees: increasing keys in every map, full matrices, at every level. -/
def WF : GC → Prop
  | vector v => WFL v
  | map m => KeysSorted m ∧ WFM m
  | matInt m => m.wf
  | matLong m => m.wf
  | matReal m => m.wf
  | matComplex m => m.wf
  | _ => True
termination_by structural g => g

def WFL : List GC → Prop
  | [] => True
  | x :: r => WF x ∧ WFL r
termination_by structural l => l

def WFM : Entries → Prop
  | [] => True
  | (_, x) :: r => WF x ∧ WFM r
termination_by structural l => l

end

end GC
end GCV
