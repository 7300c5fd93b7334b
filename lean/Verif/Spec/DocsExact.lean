import Verif.Model.Docs
import Verif.Spec.Rapid

/-!
# Specification vocabulary: a YAML or TOML document stored over what a container has
-/

namespace GCV

mutual

/-- All keys of all mappings are strings. -/
def Yaml.keyed : Yaml → Bool
  | .seq l => Yaml.keyedL l
  | .mapping m => Yaml.keyedM m
  | _ => true
termination_by structural d => d

def Yaml.keyedL : List Yaml → Bool
  | [] => true
  | d :: r => Yaml.keyed d && Yaml.keyedL r
termination_by structural l => l

def Yaml.keyedM : List (Option Bytes × Yaml) → Bool
  | [] => true
  | (none, _) :: _ => false
  | (some _, d) :: r => Yaml.keyed d && Yaml.keyedM r
termination_by structural l => l

end

mutual

/-- All sequences have fewer than 2^32 elements. -/
def Yaml.sized : Yaml → Bool
  | .seq l => decide (l.length < 2 ^ 32) && Yaml.sizedL l
  | .mapping m => Yaml.sizedM m
  | _ => true
termination_by structural d => d

def Yaml.sizedL : List Yaml → Bool
  | [] => true
  | d :: r => Yaml.sized d && Yaml.sizedL r
termination_by structural l => l

def Yaml.sizedM : List (Option Bytes × Yaml) → Bool
  | [] => true
  | (_, d) :: r => Yaml.sized d && Yaml.sizedM r
termination_by structural l => l

end

mutual

/-- All arrays have fewer than 2^32 elements. -/
def Toml.sized : Toml → Bool
  | .arr l => decide (l.length < 2 ^ 32) && Toml.sizedL l
  | .table m => Toml.sizedM m
  | _ => true
termination_by structural d => d

def Toml.sizedL : List Toml → Bool
  | [] => true
  | d :: r => Toml.sized d && Toml.sizedL r
termination_by structural l => l

def Toml.sizedM : List (Bytes × Toml) → Bool
  | [] => true
  | (_, d) :: r => Toml.sized d && Toml.sizedM r
termination_by structural l => l

end

namespace GC

/-- A whole number: INTEGER if it has 32 bits, LONG otherwise. -/
def whole (n : I64) : GC :=
  if -2 ^ 31 ≤ n.toInt ∧ n.toInt < 2 ^ 31 then int (BitVec.ofInt 32 n.toInt) else long n

mutual

/-- The YAML document stored over what the container has before: scalars replace it, the elements of a sequence are stored
over the elements of the vector there (an empty sequence leaves them), those of a mapping over the entries of the map. -/
def yamlOver : Yaml → GC → GC
  | .null, _ => notype
  | .bool b, _ => bool b
  | .int n, _ => whole n
  | .float r, _ => real r
  | .str s, _ => string s
  | .seq [], g => vector (itemsOf g)
  | .seq (d :: l), g => vector (yamlOver d ((itemsOf g).headD notype) :: yamlOvers l (itemsOf g).tail)
  | .mapping m, g => map (yamlOverMembers m (entriesOf g))
termination_by structural d => d

def yamlOvers : List Yaml → List GC → List GC
  | [], _ => []
  | d :: l, v => yamlOver d (v.headD notype) :: yamlOvers l v.tail
termination_by structural l => l

def yamlOverMembers : List (Option Bytes × Yaml) → Entries → Entries
  | [], e => e
  | (k, d) :: m, e => yamlOverMembers m (mset (k.getD []) (yamlOver d ((mfind (k.getD []) e).getD notype)) e)
termination_by structural m => m

end

/-- The strings of a vector of strings. -/
def stringsOf : GC → List Bytes | vecString v => v | _ => []
/-- The numbers of a vector of int. -/
def intsOf : GC → List I32 | vecInt v => v | _ => []
/-- The numbers of a vector of real. -/
def realsOf : GC → List F64 | vecReal v => v | _ => []

/-- All are strings. -/
def tomlStrings : List Toml → Option (List Bytes)
  | [] => some []
  | .str s :: r => (tomlStrings r).map (s :: ·)
  | _ => none

/-- All are whole numbers. -/
def tomlInts : List Toml → Option (List I64)
  | [] => some []
  | .int n :: r => (tomlInts r).map (n :: ·)
  | _ => none

/-- All are floating point numbers. -/
def tomlFloats : List Toml → Option (List F64)
  | [] => some []
  | .float x :: r => (tomlFloats r).map (x :: ·)
  | _ => none

/-- The rule for an array, the elements one by one being `v`: strings, whole numbers (the low 32 bits of each) and floating
point numbers are appended to a vector of their kind that is there. -/
def tomlArray (l : List Toml) (v : List GC) (g : GC) : GC :=
  match tomlStrings l, tomlInts l, tomlFloats l with
  | some s, _, _ => vecString (stringsOf g ++ s)
  | _, some n, _ => vecInt (intsOf g ++ n.map fun n => BitVec.ofInt 32 n.toInt)
  | _, _, some x => vecReal (realsOf g ++ x)
  | _, _, _ => vector v

mutual

/-- The TOML document stored over what the container has before.  Dates and times are entries of a map. -/
def tomlOver : Toml → GC → GC
  | .str s, _ => string s
  | .int n, _ => whole n
  | .float r, _ => real r
  | .bool b, _ => bool b
  | .date s, g => map (mset (GCV.str "$date") (string s) (entriesOf g))
  | .time s, g => map (mset (GCV.str "$time") (string s) (entriesOf g))
  | .date_time s, g => map (mset (GCV.str "$date_time") (string s) (entriesOf g))
  | .table m, g => map (tomlOverMembers m (entriesOf g))
  | .arr l, g => tomlArray l (tomlOvers l (itemsOf g)) g
termination_by structural d => d

/-- Elements that have nothing stored over them stay. -/
def tomlOvers : List Toml → List GC → List GC
  | [], v => v
  | d :: l, v => tomlOver d (v.headD notype) :: tomlOvers l v.tail
termination_by structural l => l

def tomlOverMembers : List (Bytes × Toml) → Entries → Entries
  | [], e => e
  | (k, d) :: m, e => tomlOverMembers m (mset k (tomlOver d ((mfind k e).getD notype)) e)
termination_by structural m => m

end

/-- What is answered after the data have been stored: packed by `collapse`, true if that does not throw. -/
def answered (r : Res Unit) : Res Bool :=
  match r with
  | .ok g _ => .ok g true
  | .throw g => .ok g false
  | .ub => .ub
  | .diverge => .diverge

end GC
end GCV
