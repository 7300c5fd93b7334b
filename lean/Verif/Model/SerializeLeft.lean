import Verif.Model.Serialize

/-!
# What a throwing de_serialize leaves behind

`ser` = src/GenericContainerSerialize.cc.  Only meaningful when `de_ser` is `.throw` for the same
arguments.
-/

namespace GCV
namespace GC

/-- ser:530-535, the loop over the elements of a VECTOR of `n` empty containers (ser:529): elements
already read, then the one whose call threw, then the untouched ones. -/
def leftL (de : Int → Int → Out (GC × Int)) (left : Int → Int → GC) (dim : Int) : Nat → Rd → List GC
  | 0, _ => []
  | n + 1, r =>
    match de (dim - r.nbyte) r.pos with
    | .ok (x, sz) =>
      match addI32 r.nbyte sz with
      | .ok nb => x :: leftL de left dim n ⟨r.pos + sz, nb⟩
      | _ => [x]
    | _ => left (dim - r.nbyte) r.pos :: List.replicate n notype

/-- ser:541-551, the loop over the entries of a MAP: entries already stored, then the one whose call
threw. -/
def leftM (buf : Bytes) (de : Int → Int → Out (GC × Int)) (left : Int → Int → GC) (dim : Int) :
    Nat → Rd → Entries → Entries
  | 0, _, m => m
  | n + 1, r, m =>
    match r.getStr buf with
    | .ok (k, r) =>
      match de (dim - r.nbyte) r.pos with
      | .ok (x, sz) =>
        match addI32 r.nbyte sz with
        | .ok nb => leftM buf de left dim n ⟨r.pos + sz, nb⟩ (mset k x m)
        | _ => m
      | _ => mset k (left (dim - r.nbyte) r.pos) m
    | _ => m

/-- ser:374-565.  For types without components the only exceptions are the final check (ser:556-559),
which comes after the data has been stored, and `reserve` (ser:434) on a VEC_BOOL just made empty: the
data is the one read when there is no limit. -/
def de_left (buf : Bytes) : Nat → Int → Int → GC
  | 0, _, _ => notype
  | fuel + 1, dim, pos =>
    match Rd.get buf 4 ⟨pos, 0⟩ with
    | .ok (tag, r) =>
      match Ty.ofCode tag with
      | some .VECTOR =>
        match r.get buf 4 with
        | .ok (n, r) => vector (leftL (de_ser buf fuel) (de_left buf fuel) dim n r)
        | _ => notype
      | some .MAP =>
        match r.get buf 4 with
        | .ok (n, r) => map (leftM buf (de_ser buf fuel) (de_left buf fuel) dim (toI32 n).toNat r [])
        | _ => notype
      | _ =>
        match de_ser buf 1 (2 ^ 100) pos with
        | .ok (g, _) => g
        | _ => vecBool []
    | _ => notype

end GC
end GCV
