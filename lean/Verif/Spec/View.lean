import Verif.Spec.Elems

/-!
# Specification vocabulary: the data of a container, however it is packed

A packed vector is the list of its elements and a matrix the list of its columns, as if they
were stored in vectors of containers.
-/

namespace GCV

/-- Scalars, lists and dictionaries. -/
inductive Tree where
  | leaf (g : GC)
  | list (l : List Tree)
  | dict (m : List (Bytes × Tree))

/-- The columns of a matrix. -/
def Mat.columns {α : Type} (m : Mat α) : List (List α) :=
  (List.range m.nc).map fun j => (m.data.drop (j * m.nr)).take m.nr

namespace GC

/-- A list of scalars. -/
def leaves1 {α : Type} (up : α → GC) (v : List α) : Tree := .list (v.map fun x => .leaf (up x))

/-- A matrix, column by column. -/
def leaves2 {α : Type} (up : α → GC) (m : Mat α) : Tree := .list (m.columns.map (leaves1 up))

mutual

/-- The data of a container. -/
def view : GC → Tree
  | vecPointer v => leaves1 pointer v
  | vecBool v => leaves1 bool v
  | vecInt v => leaves1 int v
  | vecLong v => leaves1 long v
  | vecReal v => leaves1 real v
  | vecComplex v => leaves1 complex v
  | vecString v => leaves1 string v
  | matInt m => leaves2 int m
  | matLong m => leaves2 long m
  | matReal m => leaves2 real m
  | matComplex m => leaves2 complex m
  | vector v => .list (viewL v)
  | map m => .dict (viewM m)
  | g => .leaf g
termination_by structural g => g

def viewL : List GC → List Tree
  | [] => []
  | x :: r => view x :: viewL r
termination_by structural l => l

def viewM : Entries → List (Bytes × Tree)
  | [] => []
  | (k, x) :: r => (k, view x) :: viewM r
termination_by structural l => l

end

end GC

/-- The same lists and dictionaries, with the same numbers and other scalars in the same places
(the numeric type may differ). -/
inductive SameTree : Tree → Tree → Prop
  | leaf {a b : GC} : SameNumber a b → SameTree (.leaf a) (.leaf b)
  | list {l l' : List Tree} : l.length = l'.length →
      (∀ (i : Nat) t t', l[i]? = some t → l'[i]? = some t' → SameTree t t') →
      SameTree (.list l) (.list l')
  | dict {m m' : List (Bytes × Tree)} : m.map Prod.fst = m'.map Prod.fst →
      (∀ (i : Nat) k t k' t', m[i]? = some (k, t) → m'[i]? = some (k', t') → SameTree t t') →
      SameTree (.dict m) (.dict m')

/-- `Inside y g`: `y` is `g` or a container inside of it. -/
inductive Inside (y : GC) : GC → Prop
  | self : Inside y y
  | elem {x : GC} {v : List GC} : x ∈ v → Inside y x → Inside y (.vector v)
  | value {k : Bytes} {x : GC} {m : Entries} : (k, x) ∈ m → Inside y x → Inside y (.map m)

end GCV
