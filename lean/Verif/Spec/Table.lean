import Verif.Model.Core

/-! # Specification of the text tables: pieces of a text, words, lines -/

namespace GCV

/-- The pieces between separators: a text with n separators has n + 1 pieces. -/
def pieces (d : Byte → Bool) : Bytes → List Bytes
  | [] => [[]]
  | c :: r =>
    if d c then [] :: pieces d r
    else match pieces d r with
      | p :: ps => (c :: p) :: ps
      | [] => [[c]]

/-- The non empty pieces. -/
def words (d : Byte → Bool) (s : Bytes) : List Bytes := (pieces d s).filter (· ≠ [])

/-- `ts` are the maximal non empty runs of characters of `s` that are not separators: separators `g`,
then a run `t` that ends where the text ends or a separator follows, and so on. -/
inductive Runs (d : Byte → Bool) : Bytes → List Bytes → Prop
  | none {g : Bytes} : (∀ c ∈ g, d c = true) → Runs d g []
  | run {g t r : Bytes} {ts : List Bytes} : (∀ c ∈ g, d c = true) → t ≠ [] → (∀ c ∈ t, d c = false) →
      (∀ c, r.head? = some c → d c = true) → Runs d r ts → Runs d (g ++ t ++ r) (t :: ts)

/-- A text made of complete lines. -/
def unlines (ls : List Bytes) : Bytes := (ls.map (· ++ [10])).flatten

/-- Column `i` of a table given by rows. -/
def column {α : Type} (d : α) (i : Nat) (rows : List (List α)) : List α := rows.map fun r => r.getD i d

/-- The columns of numbers of a table given by rows of texts; C texts end at the first NUL. -/
def GC.tableCols (atof : Bytes → F64) (ncol : Nat) (rows : List (List Bytes)) : List GC :=
  (List.range ncol).map fun i => .vecReal ((column [] i rows).map fun t => atof (t.takeWhile (· ≠ 0)))

end GCV
