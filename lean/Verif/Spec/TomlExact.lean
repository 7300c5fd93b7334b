import Verif.Spec.DocsExact
import Verif.Spec.Elems
import Verif.Spec.Tree

/-!
# Specification vocabulary: what a container is after to_toml and from_toml
-/

namespace GCV
namespace GC

/-- The low 32 bits of a long. -/
def low (l : I64) : I32 := BitVec.ofInt 32 l.toInt

/-- All are strings, or pointers, whose text is the address. -/
def allTexts (hex : Ptr → Bytes) : List GC → Option (List Bytes)
  | [] => some []
  | string s :: r => (allTexts hex r).map (s :: ·)
  | pointer p :: r => (allTexts hex r).map (hex p :: ·)
  | _ => none

/-- All are whole numbers; of a long the low 32 bits. -/
def allWholes : List GC → Option (List I32)
  | [] => some []
  | int i :: r => (allWholes r).map (i :: ·)
  | long l :: r => (allWholes r).map (low l :: ·)
  | _ => none

/-- All are reals. -/
def allReals : List GC → Option (List F64)
  | [] => some []
  | real x :: r => (allReals r).map (x :: ·)
  | _ => none

/-- A list of strings, of whole numbers or of reals is packed, the empty list as strings; `items` otherwise. -/
def packedBack (hex : Ptr → Bytes) (v items : List GC) : GC :=
  match allTexts hex v, allWholes v, allReals v with
  | some s, _, _ => vecString s
  | _, some n, _ => vecInt n
  | _, _, some x => vecReal x
  | _, _, _ => vector items

/-- A list without elements is a vector of strings. -/
def orEmpty {α : Type} (v : List α) (g : GC) : GC := if v = [] then vecString [] else g

/-- A matrix is a map with one entry. -/
def matBack {α : Type} (name : Bytes) (m : Mat α) (data : Entries) : GC :=
  map [(name, map (data ++ [(str "$ncols", whole (BitVec.ofNat 64 m.nc)), (str "$nrows", whole (BitVec.ofNat 64 m.nr))]))]

mutual

/-- What the container is after to_toml and from_toml, before its lists are packed by `collapse`. -/
def tomlBack (hex : Ptr → Bytes) : GC → GC
  | notype => notype
  | bool b => bool b
  | int i => int i
  | long l => whole l
  | real r => real r
  | complex c => vecReal [c.re, c.im]
  | string s => string s
  | pointer p => string (hex p)
  | vecBool v => orEmpty v (vector (v.map bool))
  | vecInt v => orEmpty v (vecInt v)
  | vecLong v => orEmpty v (vecInt (v.map low))
  | vecReal v => orEmpty v (vecReal v)
  | vecComplex v => orEmpty v (vector (v.map fun c => vecReal [c.re, c.im]))
  | vecString v => vecString v
  | vecPointer v => vecString (v.map hex)
  | vector v => packedBack hex v (tomlBacks hex v)
  | map m => map (tomlBackMembers hex m)
  | matInt m => matBack (str "$mat_integer") m [(str "$data", orEmpty m.data (vecInt m.data))]
  | matLong m => matBack (str "$mat_long") m [(str "$data", orEmpty m.data (vecInt (m.data.map low)))]
  | matReal m => matBack (str "$mat_long") m [(str "$data", orEmpty m.data (vecReal m.data))]
  | matComplex m => matBack (str "$mat_long") m
      [(str "$data_imag", orEmpty m.data (vecReal (m.data.map fun c => c.im))),
       (str "$data_real", orEmpty m.data (vecReal (m.data.map fun c => c.re)))]
termination_by structural g => g

def tomlBacks (hex : Ptr → Bytes) : List GC → List GC
  | [] => []
  | x :: r => tomlBack hex x :: tomlBacks hex r
termination_by structural v => v

def tomlBackMembers (hex : Ptr → Bytes) : Entries → Entries
  | [] => []
  | (k, x) :: r => (k, tomlBack hex x) :: tomlBackMembers hex r
termination_by structural m => m

end

end GC
end GCV
