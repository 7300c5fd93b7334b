/-!
# Values and outcomes

The data a `GenericContainer` object denotes, and the four possible outcomes of a call.
All paths are relative to /repo.  `hh` = include/GenericContainer/GenericContainer.hh,
`cc` = src/GenericContainer.cc.
-/

namespace GCV

/-- A `char`/`uint8_t`. -/
abbrev Byte := BitVec 8

/-- `std::string` (hh:135,143): any finite sequence of bytes, NUL included. -/
abbrev Bytes := List Byte

/-- Bytes of an ASCII literal; used only to write examples and constant texts. -/
def str (s : String) : Bytes := s.toList.map fun c => BitVec.ofNat 8 c.toNat

/-- `real_type = double` (hh:141), kept as its IEEE-754 binary64 bit pattern. -/
structure F64 where
  bits : BitVec 64
  deriving DecidableEq, Repr

/-- `complex_type = complex<double>` (hh:142). -/
structure Cplx where
  re : F64
  im : F64
  deriving DecidableEq, Repr

/-- `pointer_type = void*` (hh:133), an opaque 64 bit pattern. -/
abbrev Ptr := BitVec 64

/-- `int_type = int32_t` (hh:137), two's complement. -/
abbrev I32 := BitVec 32

/-- `long_type = int64_t` (hh:138), two's complement. -/
abbrev I64 := BitVec 64

/-- `unsigned` (32 bit); sizes, indices and matrix dimensions of the API.  Kept as `Nat`
where the code never lets it wrap and reduced with `u32` where it can. -/
def u32 (n : Nat) : Nat := n % 2 ^ 32

/-- `mat_type<TYPE>` (hh:168-423): a `vector<TYPE>` (column major) plus the dimensions. -/
structure Mat (α : Type) where
  nr : Nat
  nc : Nat
  data : List α
  deriving DecidableEq, Repr

/-- `enum class GC_type` (hh:481-509), in declaration order. -/
inductive Ty where
  | NOTYPE | POINTER | BOOL | INTEGER | LONG | REAL | COMPLEX | STRING
  | VEC_POINTER | VEC_BOOL | VEC_INTEGER | VEC_LONG | VEC_REAL | VEC_COMPLEX | VEC_STRING
  | MAT_INTEGER | MAT_LONG | MAT_REAL | MAT_COMPLEX
  | VECTOR | MAP
  deriving DecidableEq, Repr

/-- A `GenericContainer`: the tag `m_data_type` together with the member of the union
`m_data` it selects (hh:614-641).  Simplification: heap addresses are not represented,
the constructor carries the pointed-to data (see Verif/Model/Heap.lean for ownership).
`map` lists the `std::map` entries in iteration order. -/
inductive GC where
  | notype
  | pointer (p : Ptr)
  | bool (b : Bool)
  | int (i : I32)
  | long (l : I64)
  | real (r : F64)
  | complex (c : Cplx)
  | string (s : Bytes)
  | vecPointer (v : List Ptr)
  | vecBool (v : List Bool)
  | vecInt (v : List I32)
  | vecLong (v : List I64)
  | vecReal (v : List F64)
  | vecComplex (v : List Cplx)
  | vecString (v : List Bytes)
  | matInt (m : Mat I32)
  | matLong (m : Mat I64)
  | matReal (m : Mat F64)
  | matComplex (m : Mat Cplx)
  | vector (v : List GC)
  | map (m : List (Bytes × GC))
  deriving Repr

/-- Entries of a `map_type` (hh:152). -/
abbrev Entries := List (Bytes × GC)

namespace GC

/-- `get_type()` (hh:1523). -/
def ty : GC → Ty
  | notype => .NOTYPE | pointer _ => .POINTER | bool _ => .BOOL | int _ => .INTEGER
  | long _ => .LONG | real _ => .REAL | complex _ => .COMPLEX | string _ => .STRING
  | vecPointer _ => .VEC_POINTER | vecBool _ => .VEC_BOOL | vecInt _ => .VEC_INTEGER
  | vecLong _ => .VEC_LONG | vecReal _ => .VEC_REAL | vecComplex _ => .VEC_COMPLEX
  | vecString _ => .VEC_STRING | matInt _ => .MAT_INTEGER | matLong _ => .MAT_LONG
  | matReal _ => .MAT_REAL | matComplex _ => .MAT_COMPLEX | vector _ => .VECTOR
  | map _ => .MAP

/-! Decidable equality of trees (not part of the code; used by concrete witnesses). -/

mutual
def beq : GC → GC → Bool
  | notype, notype => true
  | pointer a, pointer b => a == b
  | bool a, bool b => a == b
  | int a, int b => a == b
  | long a, long b => a == b
  | real a, real b => a == b
  | complex a, complex b => a == b
  | string a, string b => a == b
  | vecPointer a, vecPointer b => a == b
  | vecBool a, vecBool b => a == b
  | vecInt a, vecInt b => a == b
  | vecLong a, vecLong b => a == b
  | vecReal a, vecReal b => a == b
  | vecComplex a, vecComplex b => a == b
  | vecString a, vecString b => a == b
  | matInt a, matInt b => a == b
  | matLong a, matLong b => a == b
  | matReal a, matReal b => a == b
  | matComplex a, matComplex b => a == b
  | vector a, vector b => beqL a b
  | map a, map b => beqM a b
  | _, _ => false
termination_by structural a => a
def beqL : List GC → List GC → Bool
  | [], [] => true
  | x :: xs, y :: ys => beq x y && beqL xs ys
  | _, _ => false
termination_by structural a => a
def beqM : Entries → Entries → Bool
  | [], [] => true
  | (k, x) :: xs, (l, y) :: ys => k == l && beq x y && beqM xs ys
  | _, _ => false
termination_by structural a => a
end

mutual
theorem beq_iff : ∀ a b : GC, beq a b = true ↔ a = b
  | a, b => by
    cases a <;> cases b <;> simp [beq, beqL_iff, beqM_iff]
theorem beqL_iff : ∀ a b : List GC, beqL a b = true ↔ a = b
  | [], b => by cases b <;> simp [beqL]
  | x :: xs, b => by
    cases b <;> simp [beqL, beq_iff x, beqL_iff xs]
theorem beqM_iff : ∀ a b : Entries, beqM a b = true ↔ a = b
  | [], b => by cases b <;> simp [beqM]
  | (k, x) :: xs, b => by
    cases b <;> simp [beqM, beq_iff x, beqM_iff xs, Prod.ext_iff]
end

instance : DecidableEq GC := fun a b => decidable_of_iff _ (beq_iff a b)

/-- Induction over trees with lists of subtrees. -/
theorem induct {P : GC → Prop} {PL : List GC → Prop} {PM : Entries → Prop}
    (leaf : ∀ g, (∀ v, g ≠ vector v) → (∀ m, g ≠ map m) → P g)
    (vec : ∀ v, PL v → P (vector v)) (mp : ∀ m, PM m → P (map m))
    (nilL : PL []) (consL : ∀ x xs, P x → PL xs → PL (x :: xs))
    (nilM : PM []) (consM : ∀ k x xs, P x → PM xs → PM ((k, x) :: xs)) :
    (∀ g, P g) ∧ (∀ v, PL v) ∧ (∀ m, PM m) := by
  have h : ∀ g, P g := by
    intro g
    refine GC.rec (motive_1 := P) (motive_2 := PL) (motive_3 := PM) (motive_4 := fun kx => P kx.2)
      ?_ ?_ ?_ ?_ ?_ ?_ ?_ ?_ ?_ ?_ ?_ ?_ ?_ ?_ ?_ ?_ ?_ ?_ ?_ vec mp nilL consL nilM
      (fun kx xs h1 h2 => consM kx.1 kx.2 xs h1 h2) (fun _ _ h => h) g
    all_goals intros; apply leaf <;> intros <;> simp
  refine ⟨h, ?_, ?_⟩
  · intro v; induction v with
    | nil => exact nilL
    | cons x xs ih => exact consL x xs (h x) ih
  · intro m; induction m with
    | nil => exact nilM
    | cons x xs ih => exact consM x.1 x.2 xs (h x.2) ih

end GC

/-- Outcome of a query. -/
inductive Out (α : Type) where
  /-- returned -/
  | ok (a : α)
  /-- threw `std::runtime_error` (`GenericContainer::exception`) -/
  | throw
  /-- undefined behaviour -/
  | ub
  /-- does not terminate -/
  | diverge
  deriving DecidableEq, Repr

/-- Outcome of a call that may modify the container: on return and on throw the object
is left in some state, undefined behaviour and divergence leave none. -/
inductive Res (α : Type) where
  | ok (s : GC) (a : α)
  | throw (s : GC)
  | ub
  | diverge
  deriving DecidableEq, Repr

end GCV
