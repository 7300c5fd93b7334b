import Verif.Spec.Wire
import Verif.Spec.Access

/-!
# The binary format as it is read

`Record buf lim p o`: the record at offset `p` of the bytes `buf`, where nothing may end after offset `lim`, is read with
outcome `o`: a container and the offset at which the record ends, an error (`throw`), or an access outside of the bytes or an
overflow of the byte count (`ub`).  Lengths of texts are signed: a record may end before it begins.  There are bytes without
outcome: then the call never ends.
-/

namespace GCV
namespace GC

/-- The `n` bytes at offset `p`, if they are there. -/
def piece (buf : Bytes) (p : Int) (n : Nat) : Option Bytes :=
  if 0 ≤ p ∧ p.toNat + n ≤ buf.length then some ((buf.drop p.toNat).take n) else none

/-- The number in some bytes, least significant first. -/
def leNum (b : Bytes) : Nat := b.foldr (fun x n => x.toNat + 256 * n) 0

/-- The number in the four bytes at offset `p`, least significant first. -/
def wordAt (buf : Bytes) (p : Int) : Option Nat := (piece buf p 4).map leNum

/-- A number of four bytes as a signed number. -/
def signed (n : Nat) : Int := if n < 2 ^ 31 then n else n - 2 ^ 32

/-- A byte count that an `int32_t` holds. -/
def inCount (x : Int) : Prop := -2 ^ 31 ≤ x ∧ x < 2 ^ 31

instance (x : Int) : Decidable (inCount x) := inferInstanceAs (Decidable (_ ∧ _))

/-- `n` chunks of `k` bytes, one after the other. -/
def chunks (buf : Bytes) (k : Nat) : Nat → Int → Option (List Bytes)
  | 0, _ => some []
  | n + 1, p =>
    match piece buf p k, chunks buf k n (p + k) with
    | some b, some bs => some (b :: bs)
    | _, _ => none

/-- The text at offset `p`, up to the first NUL at or after it. -/
def textAt (buf : Bytes) (p : Int) : Option Bytes :=
  if 0 ≤ p ∧ (0 : Byte) ∈ buf.drop p.toNat then some (beforeNul (buf.drop p.toNat)) else none

/-- A length and a text at offset `p`, in a record that starts at offset `s`.  The text may be longer than the length says;
what follows is as many bytes after the text starts as the length says. -/
def lenText (buf : Bytes) (s p : Int) : Out (Bytes × Int) :=
  match wordAt buf p, textAt buf (p + 4) with
  | some n, some t => if inCount (p + 4 + signed n - s) then .ok (t, p + 4 + signed n) else .ub
  | _, _ => .ub

/-- What is read, changed. -/
def changed {α β : Type} (f : α → β) : Out (α × Int) → Out (β × Int)
  | .ok (x, q) => .ok (f x, q)
  | .throw => .throw
  | .ub => .ub
  | .diverge => .diverge

/-- `n` texts with their lengths. -/
def lenTexts (buf : Bytes) (s : Int) : Nat → Int → Out (List Bytes × Int)
  | 0, p => .ok ([], p)
  | n + 1, p =>
    match lenText buf s p with
    | .ok (t, q) => changed (t :: ·) (lenTexts buf s n q)
    | _ => .ub

/-- Values from their bytes. -/
def boolOf (b : Bytes) : Bool := decide (leNum b ≠ 0)
def intOf (b : Bytes) : I32 := BitVec.ofNat 32 (leNum b)
def longOf (b : Bytes) : I64 := BitVec.ofNat 64 (leNum b)
def realOf (b : Bytes) : F64 := ⟨BitVec.ofNat 64 (leNum b)⟩
def complexOf (b : Bytes) : Cplx := ⟨realOf (b.take 8), realOf (b.drop 8)⟩

/-- A value of `k` bytes after the tag. -/
def oneValue (buf : Bytes) (p : Int) (k : Nat) (f : Bytes → GC) : Out (GC × Int) :=
  match piece buf (p + 4) k with
  | some b => .ok (f b, p + 4 + k)
  | none => .ub

/-- A count and so many values of `k` bytes after the tag. -/
def manyValues (buf : Bytes) (p : Int) (k : Nat) (f : List Bytes → GC) : Out (GC × Int) :=
  match wordAt buf (p + 4) with
  | none => .ub
  | some n =>
    match chunks buf k n (p + 8) with
    | some bs => .ok (f bs, p + 8 + k * n)
    | none => .ub

/-- Rows, columns and the cells after the tag; the number of cells is taken modulo 2^32. -/
def cellValues {α : Type} (buf : Bytes) (p : Int) (k : Nat) (f : Nat → Nat → List Bytes → α) : Out (α × Int) :=
  match wordAt buf (p + 4), wordAt buf (p + 8) with
  | some nr, some nc =>
    match chunks buf k (nr * nc % 2 ^ 32) (p + 12) with
    | some bs => .ok (f nr nc bs, p + 12 + k * (nr * nc % 2 ^ 32 : Nat))
    | none => .ub
  | _, _ => .ub

/-- A count at offset `p` and so many texts. -/
def manyTexts (buf : Bytes) (s p : Int) : Out (GC × Int) :=
  match wordAt buf p with
  | none => .ub
  | some n => changed vecString (lenTexts buf s n (p + 4))

/-- The record at offset `p` with tag `t`, for the tags that hold no containers.  Tags 0, 1, 8 and those above 20 are an empty
container and nothing follows them.  Tag 18 is followed by the cells of a complex matrix and then by texts, and only the texts
are kept. -/
def flatRecord (buf : Bytes) (p : Int) : Nat → Out (GC × Int)
  | 2 => oneValue buf p 1 fun b => bool (boolOf b)
  | 3 => oneValue buf p 4 fun b => int (intOf b)
  | 4 => oneValue buf p 8 fun b => long (longOf b)
  | 5 => oneValue buf p 8 fun b => real (realOf b)
  | 6 => oneValue buf p 16 fun b => complex (complexOf b)
  | 7 => changed string (lenText buf p (p + 4))
  | 9 =>
    match wordAt buf (p + 4) with
    | some n => if 2 ^ 31 ≤ n then .throw else manyValues buf p 1 fun b => vecBool (b.map boolOf)
    | none => .ub
  | 10 => manyValues buf p 4 fun b => vecInt (b.map intOf)
  | 11 => manyValues buf p 8 fun b => vecLong (b.map longOf)
  | 12 => manyValues buf p 8 fun b => vecReal (b.map realOf)
  | 13 => manyValues buf p 16 fun b => vecComplex (b.map complexOf)
  | 14 => manyTexts buf p (p + 4)
  | 15 => cellValues buf p 4 fun nr nc b => matInt ⟨nr, nc, b.map intOf⟩
  | 16 => cellValues buf p 8 fun nr nc b => matLong ⟨nr, nc, b.map longOf⟩
  | 17 => cellValues buf p 8 fun nr nc b => matReal ⟨nr, nc, b.map realOf⟩
  | 18 =>
    match cellValues buf p 16 fun _ _ _ => () with
    | .ok (_, q) => manyTexts buf p q
    | _ => .ub
  | _ => .ok (notype, p + 4)

/-- A record that ends after the limit is an error. -/
def limited (lim : Int) : Out (GC × Int) → Out (GC × Int)
  | .ok (g, q) => if q ≤ lim then .ok (g, q) else .throw
  | o => o

/-- The last value given for the key. -/
def lastValue (kv : Entries) (k : Bytes) : Option GC := (kv.reverse.find? fun e => decide (e.1 = k)).map Prod.snd

/-- The map with these entries: of two entries with the same key the later one counts. -/
def MapOf (kv m : Entries) : Prop := KeysSorted m ∧ ∀ k, field (map m) k = lastValue kv k

mutual

/-- See above. -/
inductive Record (buf : Bytes) (lim : Int) : Int → Out (GC × Int) → Prop
  | noTag {p} : wordAt buf p = none → Record buf lim p .ub
  | flat {p t} : wordAt buf p = some t → t ≠ 19 → t ≠ 20 → Record buf lim p (limited lim (flatRecord buf p t))
  | noCount {p t} : wordAt buf p = some t → (t = 19 ∨ t = 20) → wordAt buf (p + 4) = none → Record buf lim p .ub
  | vector {p n o} : wordAt buf p = some 19 → wordAt buf (p + 4) = some n → Records buf lim p n (p + 8) o →
      Record buf lim p (limited lim (changed vector o))
  | map {p n kv q m} : wordAt buf p = some 20 → wordAt buf (p + 4) = some n →
      KeyRecords buf lim p (signed n).toNat (p + 8) (.ok (kv, q)) → MapOf kv m → Record buf lim p (limited lim (.ok (map m, q)))
  | mapThrow {p n} : wordAt buf p = some 20 → wordAt buf (p + 4) = some n →
      KeyRecords buf lim p (signed n).toNat (p + 8) .throw → Record buf lim p .throw
  | mapUb {p n} : wordAt buf p = some 20 → wordAt buf (p + 4) = some n →
      KeyRecords buf lim p (signed n).toNat (p + 8) .ub → Record buf lim p .ub

/-- `n` records one after the other from offset `p`, in a record that starts at offset `s`. -/
inductive Records (buf : Bytes) (lim : Int) : Int → Nat → Int → Out (List GC × Int) → Prop
  | nil {s p} : Records buf lim s 0 p (.ok ([], p))
  | throw {s n p} : Record buf lim p .throw → Records buf lim s (n + 1) p .throw
  | ub {s n p} : Record buf lim p .ub → Records buf lim s (n + 1) p .ub
  | over {s n p x q} : Record buf lim p (.ok (x, q)) → ¬ inCount (q - s) → Records buf lim s (n + 1) p .ub
  | cons {s n p x q o} : Record buf lim p (.ok (x, q)) → inCount (q - s) → Records buf lim s n q o →
      Records buf lim s (n + 1) p (changed (x :: ·) o)

/-- `n` keys with their records. -/
inductive KeyRecords (buf : Bytes) (lim : Int) : Int → Nat → Int → Out (Entries × Int) → Prop
  | nil {s p} : KeyRecords buf lim s 0 p (.ok ([], p))
  | noKey {s n p} : lenText buf s p = .ub → KeyRecords buf lim s (n + 1) p .ub
  | throw {s n p k q} : lenText buf s p = .ok (k, q) → Record buf lim q .throw → KeyRecords buf lim s (n + 1) p .throw
  | ub {s n p k q} : lenText buf s p = .ok (k, q) → Record buf lim q .ub → KeyRecords buf lim s (n + 1) p .ub
  | over {s n p k q x r} : lenText buf s p = .ok (k, q) → Record buf lim q (.ok (x, r)) → ¬ inCount (r - s) →
      KeyRecords buf lim s (n + 1) p .ub
  | cons {s n p k q x r o} : lenText buf s p = .ok (k, q) → Record buf lim q (.ok (x, r)) → inCount (r - s) →
      KeyRecords buf lim s n r o → KeyRecords buf lim s (n + 1) p (changed ((k, x) :: ·) o)

end

end GC
end GCV
