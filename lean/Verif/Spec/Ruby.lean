import Verif.Model.Ruby

/-!
# Specification vocabulary for the Ruby interface

What a Ruby object becomes in a container, and what a container is in Ruby.
-/

namespace GCV
namespace Ruby
open GC CApi

/-- A string or a symbol. -/
def Rb.isText : Rb → Bool
  | .str _ => true
  | .sym _ => true
  | _ => false

/-- A boolean, a number, a string or a symbol. -/
def Rb.isScalar : Rb → Bool
  | .tru => true
  | .fals => true
  | .int _ => true
  | .float _ => true
  | .str _ => true
  | .sym _ => true
  | _ => false

/-- Integers of 32 bits, strings without NUL. -/
def Rb.fits : Rb → Bool
  | .int n => decide (-2 ^ 31 ≤ n ∧ n < 2 ^ 31)
  | .str s => decide ((0 : Byte) ∉ s)
  | .sym s => decide ((0 : Byte) ∉ s)
  | _ => true

/-- The container of a scalar that fits. -/
def Rb.single : Rb → GC
  | .tru => GC.bool true
  | .fals => GC.bool false
  | .int n => GC.int (BitVec.ofInt 32 n)
  | .float r => GC.real r
  | .str s => GC.string s
  | .sym s => GC.string s
  | _ => notype

/-- The element in row `i` and column `j` of a matrix, which is stored by columns. -/
def entry {α : Type} (z : α) (m : Mat α) (i j : Nat) : α := m.data.getD (j * m.nr + i) z

/-- The numeric types, from the narrowest to the widest. -/
inductive Width where
  | bool
  | int
  | real

/-- The wider one. -/
def Width.max : Width → Width → Width
  | .real, _ => .real
  | _, .real => .real
  | .int, _ => .int
  | _, .int => .int
  | .bool, .bool => .bool

/-- The type of one number. -/
def Rb.width : Rb → Width
  | .int _ => .int
  | .float _ => .real
  | _ => .bool

/-- The widest type among some numbers. -/
def widest : List Rb → Width
  | [] => .bool
  | x :: xs => x.width.max (widest xs)

def Rb.asBool : Rb → Bool
  | .tru => true
  | _ => false
def Rb.asInt : Rb → I32
  | .tru => 1
  | .int n => BitVec.ofInt 32 n
  | _ => 0
def Rb.asReal : Rb → F64
  | .tru => F64.ofInt 1
  | .int n => F64.ofInt n
  | .float r => r
  | _ => F64.ofInt 0
def Rb.asText : Rb → Bytes
  | .str s => s
  | .sym s => s
  | _ => []

/-- The vector of some numbers in one type. -/
def packed : Width → List Rb → GC
  | .bool, l => vecBool (l.map Rb.asBool)
  | .int, l => vecInt (l.map Rb.asInt)
  | .real, l => vecReal (l.map Rb.asReal)

/-- One number in a type. -/
def Rb.as : Width → Rb → GC
  | .bool, x => GC.bool x.asBool
  | .int, x => GC.int x.asInt
  | .real, x => GC.real x.asReal

/-- The leading numbers of an array. -/
def numbers (l : List Rb) : List Rb := l.takeWhile fun x => !x.isText
/-- The rest, which starts with a string or a symbol. -/
def afterNumbers (l : List Rb) : List Rb := l.dropWhile fun x => !x.isText

/-- An array of scalars that fit.  Only strings: a vector of strings.  Only numbers: a vector of the widest type.
First numbers, then a string: a vector of containers, with the leading numbers in the widest type among them.
First a string, later a number: an exception. -/
def scalars (l : List Rb) : Option GC :=
  if l = [] then some (vecBool [])
  else if l.all Rb.isText then some (vecString (l.map Rb.asText))
  else if numbers l = [] then none
  else if afterNumbers l = [] then some (packed (widest l) l)
  else some (vector ((numbers l).map (Rb.as (widest (numbers l))) ++ (afterNumbers l).map Rb.single))

/-- The scalars before the first other element. -/
def leading (l : List Rb) : List Rb := l.takeWhile Rb.isScalar

mutual
/-- What an object becomes; `none`: an exception. -/
def image : Rb → Option GC
  | .arr l =>
    if l.all Rb.isScalar then (if l.all Rb.fits then scalars l else none)
    else if (leading l).head?.any Rb.isText && (leading l).any (fun x => !x.isText) then none
    else (images l).map vector
  | .hash m => (imageEntries m).map fun es => map (es.foldl (fun acc e => mset e.1 e.2 acc) [])
  | v => if v.fits then some v.single else none
/-- Element by element. -/
def images : List Rb → Option (List GC)
  | [] => some []
  | v :: l => (image v).bind fun g => (images l).bind fun gs => some (g :: gs)
/-- Entry by entry; a key has no NUL. -/
def imageEntries : List (Bytes × Rb) → Option (List (Bytes × GC))
  | [] => some []
  | (k, v) :: m =>
    if (0 : Byte) ∈ k then none
    else (image v).bind fun g => (imageEntries m).bind fun gs => some ((k, g) :: gs)
end

mutual
/-- Arrays with less than 2^31 elements, hashes with different keys. -/
def Rb.Proper : Rb → Prop
  | .arr l => l.length < 2 ^ 31 ∧ ProperList l
  | .hash m => (m.map Prod.fst).Nodup ∧ ProperEntries m
  | _ => True
def ProperList : List Rb → Prop
  | [] => True
  | v :: l => v.Proper ∧ ProperList l
def ProperEntries : List (Bytes × Rb) → Prop
  | [] => True
  | (_, v) :: m => v.Proper ∧ ProperEntries m
end

/-- A container that no array and no hash is added to. -/
def plain : GC → Bool
  | vecBool _ => false
  | vecInt _ => false
  | vecReal _ => false
  | vecString _ => false
  | vector _ => false
  | map _ => false
  | _ => true

/-- `nil` and objects that are not handled. -/
def Rb.isVoid : Rb → Bool
  | .nil => true
  | .other => true
  | _ => false

/-- Where an object is stored as in an empty container. -/
def Base (v : Rb) (g : GC) : Prop := g = notype ∨ (plain g = true ∧ v.isVoid = false)

/-- The cursor that is at `p`, with `r` for the way back, and then goes on along `q`: the way back to `p ++ q`. -/
def below (p : List Sel) (r : List (Option (List Sel))) : List Sel → List (Option (List Sel))
  | [] => r
  | s :: q => below (p ++ [s]) (some p :: r) q

mutual
/-- What a container is in Ruby; `none`: reading it does not end. -/
def value : GC → Option Rb
  | GC.bool b => some (.int (if b then 1 else 0))
  | int i => some (.int i.toInt)
  | long i => some (.int i.toInt)
  | real r => some (.float r)
  | string s => some (.str (cstr s))
  | vecBool v => some (.arr (v.map fun b => .int (if b then 1 else 0)))
  | vecInt v => some (.arr (v.map fun i => .int i.toInt))
  | vecReal v => some (.arr (v.map .float))
  | vecString v => some (.arr (v.map fun s => .str (cstr s)))
  | vecComplex v => some (.arr (v.map fun c => .arr [.float c.re, .float c.im]))
  | matReal m => some (.arr ((List.range m.nr).map fun i => .arr ((List.range m.nc).map fun j => .float (entry .zero m i j))))
  | matComplex m => some (.arr ((List.range m.nr).map fun i => .arr ((List.range m.nc).map fun j =>
      .arr [.float (entry .zero m i j).re, .float (entry .zero m i j).im])))
  | vector v => (values v).map .arr
  | map _ => none
  | _ => some .nil
def values : List GC → Option (List Rb)
  | [] => some []
  | g :: l => (value g).bind fun x => (values l).bind fun xs => some (x :: xs)
end

/-- A map is the container, or is in a vector of containers, to any depth. -/
inductive HoldsMap : GC → Prop
  | map (m : Entries) : HoldsMap (map m)
  | elem (v : List GC) (g : GC) (h : g ∈ v) (hg : HoldsMap g) : HoldsMap (vector v)

def Rb.isInt : Rb → Bool
  | .int _ => true
  | _ => false
def Rb.isFloat : Rb → Bool
  | .float _ => true
  | _ => false

mutual
/-- Objects that come back as they are: `nil`, integers of 32 bits, floats, strings without NUL, and arrays of these.  The
scalars at the front of an array are all strings, or the first one is a number; in an array of scalars the numbers before the
first string are all integers or all floats. -/
def Rb.Back : Rb → Prop
  | .nil => True
  | .int n => -2 ^ 31 ≤ n ∧ n < 2 ^ 31
  | .float _ => True
  | .str s => (0 : Byte) ∉ s
  | .arr l => BackList l ∧
      ((∀ x ∈ leading l, x.isText = true) ∨
        (numbers (leading l) ≠ [] ∧
          (leading l = l → (∀ x ∈ numbers l, x.isInt = true) ∨ ∀ x ∈ numbers l, x.isFloat = true)))
  | _ => False
def BackList : List Rb → Prop
  | [] => True
  | v :: l => v.Back ∧ BackList l
end

mutual
/-- Vectors with less than 2^31 elements, matrices with less than 2^31 rows and columns and less than 2^32 elements. -/
def Small : GC → Prop
  | vecBool v => v.length < 2 ^ 31
  | vecInt v => v.length < 2 ^ 31
  | vecReal v => v.length < 2 ^ 31
  | vecString v => v.length < 2 ^ 31
  | vecComplex v => v.length < 2 ^ 31
  | matReal m => m.nr < 2 ^ 31 ∧ m.nc < 2 ^ 31 ∧ m.nr * m.nc < 2 ^ 32
  | matComplex m => m.nr < 2 ^ 31 ∧ m.nc < 2 ^ 31 ∧ m.nr * m.nc < 2 ^ 32
  | vector v => v.length < 2 ^ 31 ∧ SmallList v
  | _ => True
def SmallList : List GC → Prop
  | [] => True
  | g :: l => Small g ∧ SmallList l
end

mutual
/-- How deep containers are nested. -/
def depth : GC → Nat
  | vector v => depths v + 1
  | _ => 1
def depths : List GC → Nat
  | [] => 0
  | g :: l => max (depth g) (depths l)
end

end Ruby
end GCV
