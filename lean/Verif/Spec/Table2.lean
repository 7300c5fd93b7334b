import Verif.Spec.Table
import Verif.Model.Access

/-! # Specification of tables with parameters (`read_formatted_data2`) -/

namespace GCV

/-- The lines of a text as the reader gets them: what stands between newlines.  What follows the last
newline is a line too, and it is handed out twice when it is not empty. -/
def textLines (text : Bytes) : List Bytes :=
  let ls := pieces (fun c => c == 10) text
  if ls.getLastD [] = [] then ls else ls ++ [ls.getLastD []]

/-- The fields of a line: the words, without a last one that starts with a carriage return. -/
def cells (ds l : Bytes) : List Bytes :=
  let ws := words (fun c => ds.contains c) l
  if (ws.getLastD []).head? = some 13 then ws.dropLast else ws

/-- A line that counts: not empty, and without a comment character. -/
def countsLine (cs l : Bytes) : Bool := !l.isEmpty && !l.any fun c => cs.contains c

/-- Space or tabulator. -/
def isBlank (c : Byte) : Bool := c == 32 || c == 9

/-- The text without blanks at both ends; a text of blanks only is left as it is. -/
def trimmed (s : Bytes) : Bytes :=
  if s.all isBlank then s else ((s.dropWhile isBlank).reverse.dropWhile isBlank).reverse

/-- The parameter named in a line that does not count, with its value: the second character is `!`, what
follows has at least two texts separated by `=`.  The first one is the name, the second one the value: a
number when it starts with one, a string otherwise.  C texts end at the first NUL. -/
def parOf (strtod : Bytes → Option F64) (l : Bytes) : Option (Bytes × GC) :=
  if 2 < l.length ∧ l[1]? = some 33 then
    match words (fun c => c == 61) (l.drop 2) with
    | lhs :: rhs :: more =>
      if more = [] ∧ rhs.head? = some 13 then none
      else some ((trimmed lhs).takeWhile (· ≠ 0),
        match strtod ((trimmed rhs).takeWhile (· ≠ 0)) with
        | some x => .real x
        | none => .string (trimmed rhs))
    | _ => none
  else none

/-- The parameters named in some lines, in order. -/
def parsOf (strtod : Bytes → Option F64) (cs : Bytes) (ls : List Bytes) : List (Bytes × GC) :=
  ls.filterMap fun l => if countsLine cs l then none else parOf strtod l

/-- A list up to and including the first element with a property. -/
def upTo {α : Type} (stop : α → Bool) : List α → List α
  | [] => []
  | x :: r => x :: if stop x then [] else upTo stop r

/-- The lines that are looked at: those before the first one that counts (the headers), this one, and the
following ones up to and including the first one that counts and has the property `stop`. -/
def linesRead (counts stop : Bytes → Bool) (ls : List Bytes) : List Bytes :=
  ls.takeWhile (fun l => !counts l) ++
    match ls.dropWhile (fun l => !counts l) with
    | [] => []
    | h :: r => h :: upTo (fun l => counts l && stop l) r

namespace GC

/-- What `(*this)(k)` finds. -/
def entry (k : Bytes) (g : GC) : Option GC := match call_key_c k g with | .ok x => some x | _ => none

/-- The numbers that a row adds to the column named `k`, when the headers are `hs`. -/
def rowAt (atof : Bytes → F64) (hs : List Bytes) (k : Bytes) (row : List Bytes) : List F64 :=
  ((hs.zip row).filter fun p => p.1.takeWhile (· ≠ 0) == k).map fun p => atof (p.2.takeWhile (· ≠ 0))

/-- The numbers of a vector of reals. -/
def reals : Option GC → List F64 | some (vecReal v) => v | _ => []

end GC
end GCV
