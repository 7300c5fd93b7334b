import Mathlib.Data.List.Forall2
import Verif.Spec.AnyKey
import Verif.Spec.MatrixRef
import Verif.Spec.Rapid
import Verif.Spec.View
import Verif.Model.History

/-! # Specification vocabulary: what is left after a call that throws -/

namespace GCV
namespace GC

/-- What `collapse()` leaves when it throws: elements that are collapsed, up to the first one that fails; or all the elements
collapsed, when only packing them fails. -/
inductive CollapseLeft : GC → GC → Prop
  | packing {v v' : List GC} : v ≠ [] → List.Forall₂ (fun x y => collapse x = .ok y ()) v v' →
      CollapseLeft (vector v) (vector v')
  | element {a a' : List GC} {x x' : GC} {b : List GC} : List.Forall₂ (fun x y => collapse x = .ok y ()) a a' →
      CollapseLeft x x' → CollapseLeft (vector (a ++ x :: b)) (vector (a' ++ x' :: b))
  | value {a a' : Entries} {k : Bytes} {x x' : GC} {b : Entries} :
      List.Forall₂ (fun x y => y.1 = x.1 ∧ collapse x.2 = .ok y.2 ()) a a' →
      CollapseLeft x x' → CollapseLeft (map (a ++ (k, x) :: b)) (map (a' ++ (k, x') :: b))

/-- What `get_T_at(i,j)` leaves: a content it accepts has become a matrix. -/
def cellLeft (t : Ty) (g : GC) : GC := if cellAccepts g.ty t then inType (landing g.ty t) g else g

/-- `s` is what the call `op` leaves of `g` when it throws: in general `g` itself. -/
def Left : Op → GC → GC → Prop
  | .collapse, g, s => CollapseLeft g s
  | .intAt2 i j _, g, s =>
    s = if g.ty = .NOTYPE then matReal (zeros .zero i.toNat j.toNat) else cellLeft .MAT_INTEGER g
  | .longAt2 i j _, g, s =>
    s = if g.ty = .NOTYPE then matReal (zeros .zero i.toNat j.toNat) else cellLeft .MAT_LONG g
  | .realAt2 i j _, g, s =>
    s = if g.ty = .NOTYPE then matReal (zeros .zero i.toNat j.toNat) else cellLeft .MAT_REAL g
  | .complexAt2 i j _, g, s =>
    s = if g.ty = .NOTYPE then matComplex (zeros .zero i.toNat j.toNat) else cellLeft .MAT_COMPLEX g
  | .getMatLong _, g, s => s = if g.ty = .VEC_BOOL then inType .MAT_REAL g else g
  | .idx i op, g, s =>
    ∃ x y, (grown notype (itemsOf g) i.toNat)[i.toNat]? = some x ∧
      s = vector ((grown notype (itemsOf g) i.toNat).set i.toNat y) ∧ Left op x y
  | .call i op, g, s =>
    match (itemsOf g)[i.toNat]? with
    | none => s = g
    | some x => ∃ y, s = vector ((itemsOf g).set i.toNat y) ∧ Left op x y
  | .key k op, g, s => ∃ y, Stored g (beforeNul k) y s ∧ Left op ((field g (beforeNul k)).getD notype) y
  | .callKey k op, g, s =>
    match field g (beforeNul k) with
    | none => s = g
    | some x => ∃ y, Stored g (beforeNul k) y s ∧ Left op x y
  | .callKeys ks op, g, s =>
    match ks.find? fun k => (field g k).isSome with
    | none => s = g
    | some k => ∃ x y, field g k = some x ∧ Stored g k y s ∧ Left op x y
  | _, g, s => s = g

end GC
end GCV
