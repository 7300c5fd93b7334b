import Verif.Spec.Table
import Verif.Spec.Access

/-! # Specification: what reading a text table stores, for every text and every container -/

namespace GCV

/-- The lines of a text as they are delivered: a last line without newline comes twice. -/
def tableLines (text : Bytes) : List Bytes :=
  let ps := pieces (· == 10) text
  if ps.getLastD [] = [] then ps else ps ++ [ps.getLastD []]

/-- The words of a line; a last word that starts with a newline or a carriage return does not count. -/
def tableWords (ds line : Bytes) : List Bytes :=
  let ws := words (fun c => ds.contains c) line
  if ws.getLast?.any (fun w => w.head? == some 10 || w.head? == some 13) then ws.dropLast else ws

namespace GC

/-- The vector under `data`, if there is one. -/
def columnsThere (g : GC) : List GC :=
  match field g (str "data") with
  | some (vector v) => v
  | _ => []

/-- The numbers of column `i` that were there before. -/
def numbersThere (g : GC) (i : Nat) : List F64 :=
  match (columnsThere g)[i]? with
  | some (vecReal v) => v
  | _ => []

/-- What is stored of a table. -/
structure Table where
  headers : List Bytes
  /-- the rows up to the first without words -/
  rows : List (List Bytes)

/-- The table in a text with comment characters `cs` and delimiters `ds`: lines with a comment character do not count,
unless there are no others, when the last line gives the headers. -/
def tableIn (text cs ds : Bytes) : Table :=
  let kept := (tableLines text).filter fun l => !l.any fun c => cs.contains c
  ⟨tableWords ds (kept.headD ((tableLines text).getLastD [])),
   (kept.tail.map (tableWords ds)).takeWhile (· ≠ [])⟩

/-- The rows before the first that does not have a word for each header. -/
def Table.good (t : Table) : List (List Bytes) := t.rows.takeWhile fun r => decide (r.length = t.headers.length)

/-- The columns: the numbers go behind those that are there; without headers nothing is changed. -/
def Table.columns (atof : Bytes → F64) (t : Table) (g : GC) : List GC :=
  if t.headers = [] then columnsThere g
  else (List.range t.headers.length).map fun i =>
    vecReal (numbersThere g i ++ (column [] i t.good).map fun w => atof (w.takeWhile (· ≠ 0)))

end GC
end GCV
