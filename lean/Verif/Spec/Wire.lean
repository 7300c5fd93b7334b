import Verif.Spec.Tree
import Verif.Model.Core

/-!
# Specification vocabulary for serialization
-/

namespace GCV
namespace GC

mutual

/-- Size of the binary form: a 4 byte tag, 4 byte counts and string lengths, strings with a
terminating NUL, 1/4/8/8/16 bytes per bool/int/long/real/complex. -/
def wireSize : GC → Nat
  | notype => 4
  | pointer _ => 4 + 8
  | bool _ => 4 + 1
  | int _ => 4 + 4
  | long _ => 4 + 8
  | real _ => 4 + 8
  | complex _ => 4 + 16
  | string s => 4 + (4 + s.length + 1)
  | vecPointer v => 4 + 4 + 8 * v.length
  | vecBool v => 4 + 4 + v.length
  | vecInt v => 4 + 4 + 4 * v.length
  | vecLong v => 4 + 4 + 8 * v.length
  | vecReal v => 4 + 4 + 8 * v.length
  | vecComplex v => 4 + 4 + 16 * v.length
  | vecString v => 4 + 4 + (v.map fun s => 4 + s.length + 1).sum
  | matInt m => 4 + 4 + 4 + 4 * m.data.length
  | matLong m => 4 + 4 + 4 + 8 * m.data.length
  | matReal m => 4 + 4 + 4 + 8 * m.data.length
  | matComplex m => 4 + 4 + 4 + 16 * m.data.length
  | vector v => 4 + 4 + wireSizeL v
  | map m => 4 + 4 + wireSizeM m
termination_by structural g => g

def wireSizeL : List GC → Nat
  | [] => 0
  | x :: r => wireSize x + wireSizeL r
termination_by structural g => g

def wireSizeM : Entries → Nat
  | [] => 0
  | (k, x) :: r => (4 + k.length + 1) + wireSize x + wireSizeM r
termination_by structural g => g

end

/-- One node without complex matrix and without string or key of 2^31-1 bytes or more. -/
def writableNode : GC → Bool
  | matComplex _ => false
  | string s => decide (s.length + 1 < 2 ^ 31)
  | vecString v => v.all fun s => decide (s.length + 1 < 2 ^ 31)
  | map m => m.all fun e => decide (e.1.length + 1 < 2 ^ 31)
  | _ => true

/-- No complex matrix anywhere, no gigantic string. -/
def Writable (g : GC) : Prop := every writableNode g = true

instance (g : GC) : Decidable (Writable g) := inferInstanceAs (Decidable (_ = _))

/-- Not a complex matrix. -/
def notMatC : GC → Bool
  | matComplex _ => false
  | _ => true

/-- No complex matrix anywhere. -/
def NoComplexMatrix (g : GC) : Prop := every notMatC g = true

instance (g : GC) : Decidable (NoComplexMatrix g) := inferInstanceAs (Decidable (_ = _))

/-- One node without pointer and without complex matrix, whose strings and keys contain no
NUL. -/
def storableNode : GC → Bool
  | pointer _ => false
  | vecPointer _ => false
  | matComplex _ => false
  | string s => noNul s
  | vecString v => v.all noNul
  | map m => m.all fun e => noNul e.1
  | _ => true

/-- No pointer and no complex matrix anywhere, no NUL in strings and keys. -/
def Storable (g : GC) : Prop := every storableNode g = true

instance (g : GC) : Decidable (Storable g) := inferInstanceAs (Decidable (_ = _))

/-- Neither a pointer, nor a vector of pointers, nor a complex matrix. -/
def bytesNode : GC → Bool
  | pointer _ => false
  | vecPointer _ => false
  | matComplex _ => false
  | _ => true

/-- No pointer and no complex matrix anywhere. -/
def NoPtrNoMatC (g : GC) : Prop := every bytesNode g = true

instance (g : GC) : Decidable (NoPtrNoMatC g) := inferInstanceAs (Decidable (_ = _))

/-- The text before the first NUL. -/
def beforeNul (s : Bytes) : Bytes := s.takeWhile (· ≠ 0)

mutual

/-- The container with its strings and keys cut at their first NUL; entries of a map whose keys become equal are stored one
over the other. -/
def cutNul : GC → GC
  | string s => string (beforeNul s)
  | vecString v => vecString (v.map beforeNul)
  | vector v => vector (cutNulL v)
  | map m => map ((cutNulM m).foldl (fun m e => GCV.mset e.1 e.2 m) [])
  | g => g
termination_by structural g => g

def cutNulL : List GC → List GC
  | [] => []
  | x :: r => cutNul x :: cutNulL r
termination_by structural g => g

def cutNulM : Entries → Entries
  | [] => []
  | (k, x) :: r => (beforeNul k, cutNul x) :: cutNulM r
termination_by structural g => g

end

end GC
end GCV
