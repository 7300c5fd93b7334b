import Verif.Spec.CopyTo

/-! # Specification vocabulary: references to matrices and to their cells -/

namespace GCV
namespace GC

/-- What the getters of matrices accept besides the type itself: vectors of numbers at most as wide, and narrower
matrices; not VEC_COMPLEX, and integer matrices not as complex. -/
def matAccepts (s t : Ty) : Bool :=
  s == t || (widens s t && (shape s == 1 && s != .VEC_COMPLEX ||
    shape s == 2 && !(t == .MAT_COMPLEX && (s == .MAT_INTEGER || s == .MAT_LONG))))

/-- What `get_T_at(i,j)` accepts: the matrix itself, vectors of numbers at most as wide, and real matrices as complex. -/
def cellAccepts (s t : Ty) : Bool :=
  s == t || (widens s t && (shape s == 1 && s != .VEC_COMPLEX || s == .MAT_REAL))

/-- A matrix of zeros, of `nr * nc` cells modulo 2^32. -/
def zeros {α : Type} (z : α) (nr nc : Nat) : Mat α := ⟨nr, nc, List.replicate (nr * nc % 2 ^ 32) z⟩

/-- `use` on the content as a matrix of type `t`.  Undefined when the matrix is written through the wrong member; an exception
when the promotion does not end in `t` (with the content promoted) and for all contents that are not accepted. -/
def throughMatrix {α β : Type} (t : Ty) (accepts : Ty → Ty → Bool) (conv : GC → β) (use : Mat β → Res α) (g : GC) : Res α :=
  if accepts g.ty t then
    if wrongMember t g then .ub
    else if landing g.ty t = t then use (matrixOf conv g)
    else .throw (inType (landing g.ty t) g)
  else .throw g

/-- An update of the cell at position `i + j * rows` (modulo 2^32) of the matrix. -/
def atCell {α : Type} (up : Mat α → GC) (i j : Nat) (upd : α → α) (m : Mat α) : Res α :=
  match m.data[(i + j * m.nr) % 2 ^ 32]? with
  | some x => .ok (up { m with data := m.data.set ((i + j * m.nr) % 2 ^ 32) (upd x) }) x
  | none => .throw (up m)

end GC
end GCV
