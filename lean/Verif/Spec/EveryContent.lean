import Verif.Spec.Elems
import Verif.Model.Basic

/-!
# Specification vocabulary: conversion tables

The numbers a wider type gets, and containers written element by element.
-/

namespace GCV
namespace GC

/-- The boolean stored. -/
def asBool : GC → Bool
  | bool b => b
  | _ => false

/-- The string stored. -/
def asText : GC → Bytes
  | string s => s
  | _ => []

/-- The int a boolean or an int is converted to. -/
def asInt : GC → I32
  | bool b => I32.ofBool b
  | int i => i
  | _ => 0

/-- The long a boolean, an int or a long is converted to. -/
def asLong : GC → I64
  | bool b => I64.ofBool b
  | int i => i.toI64
  | long l => l
  | _ => 0

/-- The double a number is converted to (the nearest one for a long). -/
def asReal : GC → F64
  | bool b => F64.ofBool b
  | int i => F64.ofI32 i
  | long l => F64.ofI64 l
  | real r => r
  | _ => .zero

/-- The complex number a number is converted to. -/
def asComplex : GC → Cplx
  | complex c => c
  | g => ⟨asReal g, .zero⟩

/-- The elements, an empty container counting as the number zero. -/
def cells : GC → List GC
  | notype => [int 0]
  | g => elems g

/-- Rows: a vector is a column, a scalar is 1 x 1. -/
def tall : GC → Nat
  | matInt m => m.nr
  | matLong m => m.nr
  | matReal m => m.nr
  | matComplex m => m.nr
  | g => (cells g).length

/-- Columns. -/
def wide : GC → Nat
  | matInt m => m.nc
  | matLong m => m.nc
  | matReal m => m.nc
  | matComplex m => m.nc
  | _ => 1

/-- The numbers of a container in the type `t`. -/
def inType (t : Ty) (g : GC) : GC :=
  match t with
  | .INTEGER => int (asInt ((cells g).headD notype))
  | .LONG => long (asLong ((cells g).headD notype))
  | .REAL => real (asReal ((cells g).headD notype))
  | .COMPLEX => complex (asComplex ((cells g).headD notype))
  | .VEC_INTEGER => vecInt ((cells g).map asInt)
  | .VEC_LONG => vecLong ((cells g).map asLong)
  | .VEC_REAL => vecReal ((cells g).map asReal)
  | .VEC_COMPLEX => vecComplex ((cells g).map asComplex)
  | .MAT_INTEGER => matInt ⟨tall g, wide g, (cells g).map asInt⟩
  | .MAT_LONG => matLong ⟨tall g, wide g, (cells g).map asLong⟩
  | .MAT_REAL => matReal ⟨tall g, wide g, (cells g).map asReal⟩
  | .MAT_COMPLEX => matComplex ⟨tall g, wide g, (cells g).map asComplex⟩
  | _ => notype

/-- A vector with `x` behind its elements, in the type of the vector. -/
def appended (x : GC) : GC → GC
  | vecBool v => vecBool (v ++ [asBool x])
  | vecInt v => vecInt (v ++ [asInt x])
  | vecLong v => vecLong (v ++ [asLong x])
  | vecReal v => vecReal (v ++ [asReal x])
  | vecComplex v => vecComplex (v ++ [asComplex x])
  | vecString v => vecString (v ++ [asText x])
  | vector v => vector (v ++ [x])
  | g => g

/-- The new matrix is written through the member for real matrices. -/
def wrongMember (t : Ty) (g : GC) : Bool :=
  (match t, g.ty with
   | .MAT_INTEGER, .VEC_BOOL | .MAT_INTEGER, .VEC_INTEGER
   | .MAT_COMPLEX, .VEC_BOOL | .MAT_COMPLEX, .VEC_INTEGER | .MAT_COMPLEX, .VEC_LONG
   | .MAT_COMPLEX, .VEC_REAL => true
   | _, _ => false) && !(elems g).isEmpty

/-- Vectors that `promote_to_complex` takes. -/
def vectorForComplex (s t : Ty) : Bool :=
  match t, s with
  | .COMPLEX, .VEC_BOOL | .COMPLEX, .VEC_INTEGER | .COMPLEX, .VEC_LONG | .COMPLEX, .VEC_REAL => true
  | _, _ => false

/-- The type the container has after `promote_to_t` on the type `s`: not always the one asked for. -/
def landing (s t : Ty) : Ty :=
  if vectorForComplex s t then .VEC_COMPLEX
  else if s = .VEC_BOOL ∧ t = .MAT_LONG then .MAT_REAL
  else t

/-- The promotions that are carried out. -/
def accepted (s t : Ty) : Bool :=
  s == .NOTYPE || vectorForComplex s t || (widens s t && !refused s t)

/-- The vector type of a number. -/
def vecOf : Ty → Ty
  | .INTEGER => .VEC_INTEGER
  | .LONG => .VEC_LONG
  | .REAL => .VEC_REAL
  | .COMPLEX => .VEC_COMPLEX
  | t => t

/-- `x` is a number. -/
def number (x : GC) : Bool := shape x.ty == 0 && (width x.ty).isSome

/-- The elements, filled up with `d` until there is an element `i`. -/
def grown {α : Type} (d : α) (v : List α) (i : Nat) : List α :=
  v ++ List.replicate (i + 1 - v.length) d

/-- Access to element `i` of the vector `v`: it is found as it is (or as `d` if it is new), and is as the caller
left it afterwards. -/
def onVector {α : Type} (d : α) (up : List α → GC) (v : List α) (i : Nat) (upd : α → α) : Res α :=
  .ok (up ((grown d v i).set i (upd ((v[i]?).getD d)))) ((v[i]?).getD d)

/-- Access to element `i` where every element may be of another type: the vector becomes a vector of containers, and
element `i` is replaced by the zero of the type asked for. -/
def onContainers {α : Type} (mk : α → GC) (z : α) (i : Nat) (upd : α → α) (g : GC) : Res α :=
  if shape g.ty = 1 ∨ g.ty = .VECTOR then .ok (vector ((grown notype (elems g) i).set i (mk (upd z)))) z
  else if shape g.ty = 2 ∨ g.ty = .MAP then .throw g
  else .ub

end GC
end GCV
