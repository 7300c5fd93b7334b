import Verif.Spec.Table
import Verif.Model.TableStream

/-!
# Specification vocabulary: a table written cell by cell
-/

namespace GCV
namespace GC

/-- The cells before cell (i,j), row by row, can be shown: `rows` are the texts of the rows before row `i`, `part` those of
the first `j` cells of row `i`. -/
structure ReadUpTo (cell : Nat → Nat → Out Bytes) (ncol i j : Nat) (rows : List (List Bytes)) (part : List Bytes) : Prop where
  height : rows.length = i
  length : part.length = j
  above : ∀ r row, rows[r]? = some row → row.length = ncol ∧ ∀ c t, row[c]? = some t → cell r c = .ok t
  before : ∀ c t, part[c]? = some t → cell i c = .ok t

/-- Fields of (at least) `w` characters with `delim` between them. -/
def tableLine (delim : Byte) (w : Nat) (fields : List Bytes) : Bytes := [delim].intercalate (fields.map (setw w))

/-- Complete lines, and the beginning of a further one: each field is followed by `delim`. -/
def textUpTo (delim : Byte) (w : Nat) (rows : List (List Bytes)) (part : List Bytes) : Bytes :=
  unlines (rows.map (tableLine delim w)) ++ (part.map fun t => setw w t ++ [delim]).flatten

/-- A cell of a table given by columns: the number in position `i` of column `j`. -/
def shownColumn (fmt : F64 → Bytes) (data : List GC) (i j : Nat) : Out Bytes :=
  match data[j]? with
  | none => .ub
  | some c =>
    match get_number_at i c with
    | .ok x => .ok (fmt x)
    | .throw => .throw
    | _ => .ub

/-- A cell of a matrix; only the position of the cell in the list of all cells is checked. -/
def shownCell (fmt : F64 → Bytes) (m : Mat F64) (i j : Nat) : Out Bytes :=
  match m.data[(i + j * m.nr) % 2 ^ 32]? with
  | some x => .ok (fmt x)
  | none => .throw

/-- The outcome of writing `nrow` lines of `ncol` cells on a stream that holds `t`, with `tail` at the end: either all cells
can be shown, or the first one that cannot decides, and when it throws the stream holds what comes before it, and the next
thing written will be padded to `w` characters. -/
def WritesRows (delim : Byte) (w : Nat) (cell : Nat → Nat → Out Bytes) (nrow ncol : Nat) (t tail : Bytes)
    (r : Loop TStream) : Prop :=
  (∃ rows, ReadUpTo cell ncol nrow 0 rows [] ∧ r = .ok ⟨t ++ textUpTo delim w rows [] ++ tail, 0⟩) ∨
  (∃ i j rows part, i < nrow ∧ j < ncol ∧ ReadUpTo cell ncol i j rows part ∧
    ((cell i j = .throw ∧ r = .throw ⟨t ++ textUpTo delim w rows part, w⟩) ∨ (cell i j = .ub ∧ r = .ub)))

end GC
end GCV
