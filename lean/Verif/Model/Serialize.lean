import Verif.Model.Copy

/-!
# Binary serialization: src/GenericContainerSerialize.cc (`ser` below)

The buffer is a list of bytes.  Every read or write outside of it is undefined behaviour.
Sizes are `int32_t` in the code; they are kept as `Int` and converted where the code
converts.

Assumptions: `&s.front()` of an empty `std::string` is the address of its terminating NUL
(as in libstdc++ and libc++); moving a pointer outside of the buffer without accessing
memory through it is not reported.
-/

namespace GCV

/-- `n` bytes of `x`, least significant first. -/
def leBytes : Nat → Nat → Bytes
  | 0, _ => []
  | n + 1, x => BitVec.ofNat 8 x :: leBytes n (x / 256)

/-- Value of bytes, least significant first. -/
def leValue : Bytes → Nat
  | [] => 0
  | b :: r => b.toNat + 256 * leValue r

/-- Position of an enumerator in `GC_type` (hh:481-509): `static_cast<int32_t>(m_data_type)`. -/
def Ty.code : Ty → Nat
  | .NOTYPE => 0 | .POINTER => 1 | .BOOL => 2 | .INTEGER => 3 | .LONG => 4 | .REAL => 5
  | .COMPLEX => 6 | .STRING => 7 | .VEC_POINTER => 8 | .VEC_BOOL => 9 | .VEC_INTEGER => 10
  | .VEC_LONG => 11 | .VEC_REAL => 12 | .VEC_COMPLEX => 13 | .VEC_STRING => 14
  | .MAT_INTEGER => 15 | .MAT_LONG => 16 | .MAT_REAL => 17 | .MAT_COMPLEX => 18
  | .VECTOR => 19 | .MAP => 20

/-- `static_cast<TypeAllowed>(i32)` as used by the `switch` of ser:386: enumerator with that
code, if any. -/
def Ty.ofCode (n : Nat) : Option Ty :=
  [Ty.NOTYPE, .POINTER, .BOOL, .INTEGER, .LONG, .REAL, .COMPLEX, .STRING, .VEC_POINTER,
   .VEC_BOOL, .VEC_INTEGER, .VEC_LONG, .VEC_REAL, .VEC_COMPLEX, .VEC_STRING, .MAT_INTEGER,
   .MAT_LONG, .MAT_REAL, .MAT_COMPLEX, .VECTOR, .MAP][n]?

/-- Conversion of a `size_t` or `unsigned` to `int32_t`. -/
def toI32 (n : Nat) : Int := (BitVec.ofNat 32 n).toInt

/-- Signed 32 bit addition: overflow is undefined. -/
def addI32 (a b : Int) : Out Int :=
  if -(2 ^ 31 : Int) ≤ a + b ∧ a + b < 2 ^ 31 then .ok (a + b) else .ub

namespace GC

/-! ## mem_size -/

/-- ser:170-173, the loop over a VEC_STRING. -/
def mem_sizeS : List Bytes → Int → Out Int
  | [], res => .ok res
  | s :: r, res => (addI32 res (toI32 (4 + s.length + 1))).bind (mem_sizeS r)

mutual

/-- ser:145-185, `mem_size()`. -/
def mem_size : GC → Out Int
  | notype => .ok 4
  | bool _ => .ok (toI32 (4 + 1))
  | int _ => .ok (toI32 (4 + 4))
  | long _ => .ok (toI32 (4 + 8))
  | real _ => .ok (toI32 (4 + 8))
  | pointer _ => .ok (toI32 (4 + 8))
  | string s => .ok (toI32 (4 + s.length + 5))
  | complex _ => .ok (toI32 (4 + 16))
  | vecPointer v => .ok (toI32 (4 + 4 + 8 * v.length))
  | vecBool v => .ok (toI32 (4 + 4 + v.length))
  | vecInt v => .ok (toI32 (4 + 4 + 4 * v.length))
  | vecLong v => .ok (toI32 (4 + 4 + 8 * v.length))
  | vecReal v => .ok (toI32 (4 + 4 + 8 * v.length))
  | vecComplex v => .ok (toI32 (4 + 4 + 16 * v.length))
  | matInt m => .ok (toI32 (4 + 2 * 4 + 4 * m.data.length))
  | matLong m => .ok (toI32 (4 + 2 * 4 + 8 * m.data.length))
  | matReal m => .ok (toI32 (4 + 2 * 4 + 8 * m.data.length))
  | matComplex m => .ok (toI32 (4 + 2 * 4 + 16 * m.data.length))
  | vecString v => mem_sizeS v 8
  | vector v => mem_sizeL v 8
  | map m => mem_sizeM m 8
termination_by structural a => a

/-- ser:174-177, `res += S.mem_size()`. -/
def mem_sizeL : List GC → Int → Out Int
  | [], res => .ok res
  | x :: r, res => (mem_size x).bind fun n => (addI32 res n).bind (mem_sizeL r)
termination_by structural a => a

/-- ser:178-182; the summand is computed as a `size_t` (64 bit) and cast to `int32_t`. -/
def mem_sizeM : Entries → Int → Out Int
  | [], res => .ok res
  | (k, x) :: r, res =>
    (mem_size x).bind fun n =>
      (addI32 res (BitVec.ofInt 32 (4 + k.length + 1 + n)).toInt).bind (mem_sizeM r)
termination_by structural a => a

end

end GC

/-! ## Writing -/

/-- The output buffer while writing: memory, current offset, and `available`. -/
structure Wr where
  buf : Bytes
  pos : Nat
  avail : Int
  deriving DecidableEq, Repr

namespace Wr

/-- Storing bytes at the current position and moving on. -/
def store (bs : Bytes) (w : Wr) : Out Wr :=
  if w.pos + bs.length ≤ w.buf.length then
    .ok ⟨w.buf.take w.pos ++ bs ++ w.buf.drop (w.pos + bs.length), w.pos + bs.length,
         w.avail - bs.length⟩
  else .ub

/-- ser:34-87, `int8_to_buffer` … `double_to_buffer`: `available` is passed as `uint32_t`,
`GC_ASSERT( available >= n )`, then `n` stores. -/
def put (bs : Bytes) (w : Wr) : Out Wr :=
  if (bs.length : Int) ≤ w.avail % 2 ^ 32 then w.store bs else .throw

def put32 (x : Nat) (w : Wr) : Out Wr := w.put (leBytes 4 x)
def put64 (x : Nat) (w : Wr) : Out Wr := w.put (leBytes 8 x)

/-- A length prefixed string (ser:225-232, 333-340, 353-359): `sz = length+1` as `int32_t`,
`GC_ASSERT( sz <= available )`, `memcpy` of `sz` bytes (NUL included).  A negative `sz`
becomes a huge `size_t`: undefined. -/
def putStr (s : Bytes) (w : Wr) : Out Wr :=
  (w.put32 (s.length + 1)).bind fun w =>
    let sz := toI32 (s.length + 1)
    if w.avail < sz then .throw
    else if sz < 0 then .ub
    else w.store ((s ++ [0]).take sz.toNat)

/-- A loop writing the elements of a vector. -/
def each {α : Type} (f : α → Wr → Out Wr) : List α → Wr → Out Wr
  | [], w => .ok w
  | x :: r, w => (f x w).bind (each f r)

end Wr

namespace GC

mutual

/-- ser:193-366, `serialize(buffer_dim,buffer)` seen as moving `buffer`/`available`. -/
def ser : GC → Wr → Out Wr
  | notype, w => w.put32 (Ty.code .NOTYPE)
  | bool b, w => (w.put32 (Ty.code .BOOL)).bind (·.put [if b then 1 else 0])
  | int i, w => (w.put32 (Ty.code .INTEGER)).bind (·.put32 i.toNat)
  | long l, w => (w.put32 (Ty.code .LONG)).bind (·.put64 l.toNat)
  | real r, w => (w.put32 (Ty.code .REAL)).bind (·.put64 r.bits.toNat)
  | pointer p, w => (w.put32 (Ty.code .POINTER)).bind (·.put64 p.toNat)
  | string s, w => (w.put32 (Ty.code .STRING)).bind (·.putStr s)
  | complex c, w =>
    (w.put32 (Ty.code .COMPLEX)).bind fun w =>
      (w.put64 c.re.bits.toNat).bind (·.put64 c.im.bits.toNat)
  | vecPointer v, w =>
    (w.put32 (Ty.code .VEC_POINTER)).bind fun w => (w.put32 v.length).bind
      (Wr.each (fun p w => w.put64 p.toNat) v)
  | vecBool v, w =>
    (w.put32 (Ty.code .VEC_BOOL)).bind fun w => (w.put32 v.length).bind
      (Wr.each (fun b w => w.put [if b then 1 else 0]) v)
  | vecInt v, w =>
    (w.put32 (Ty.code .VEC_INTEGER)).bind fun w => (w.put32 v.length).bind
      (Wr.each (fun i w => w.put32 i.toNat) v)
  | vecLong v, w =>
    (w.put32 (Ty.code .VEC_LONG)).bind fun w => (w.put32 v.length).bind
      (Wr.each (fun i w => w.put64 i.toNat) v)
  | vecReal v, w =>
    (w.put32 (Ty.code .VEC_REAL)).bind fun w => (w.put32 v.length).bind
      (Wr.each (fun r w => w.put64 r.bits.toNat) v)
  | vecComplex v, w =>
    (w.put32 (Ty.code .VEC_COMPLEX)).bind fun w => (w.put32 v.length).bind
      (Wr.each (fun c w => (w.put64 c.re.bits.toNat).bind (·.put64 c.im.bits.toNat)) v)
  | matInt m, w =>
    (w.put32 (Ty.code .MAT_INTEGER)).bind fun w => (w.put32 m.nr).bind fun w =>
      (w.put32 m.nc).bind (Wr.each (fun i w => w.put32 i.toNat) m.data)
  | matLong m, w =>
    (w.put32 (Ty.code .MAT_LONG)).bind fun w => (w.put32 m.nr).bind fun w =>
      (w.put32 m.nc).bind (Wr.each (fun i w => w.put64 i.toNat) m.data)
  | matReal m, w =>
    (w.put32 (Ty.code .MAT_REAL)).bind fun w => (w.put32 m.nr).bind fun w =>
      (w.put32 m.nc).bind (Wr.each (fun r w => w.put64 r.bits.toNat) m.data)
  | matComplex m, w =>
    -- ser:319-330, no `break`: control falls into VEC_STRING, which reads the union
    -- member `v_s` while `m_c` is the active one: undefined
    ((w.put32 (Ty.code .MAT_COMPLEX)).bind fun w => (w.put32 m.nr).bind fun w =>
      (w.put32 m.nc).bind (Wr.each
        (fun c w => (w.put64 c.re.bits.toNat).bind (·.put64 c.im.bits.toNat)) m.data)).bind
      fun _ => .ub
  | vecString v, w =>
    (w.put32 (Ty.code .VEC_STRING)).bind fun w => (w.put32 v.length).bind
      (Wr.each (fun s w => w.putStr s) v)
  | vector v, w =>
    (w.put32 (Ty.code .VECTOR)).bind fun w => (w.put32 v.length).bind (serL v)
  | map m, w =>
    (w.put32 (Ty.code .MAP)).bind fun w => (w.put32 m.length).bind (serM m)
termination_by structural a => a

/-- ser:345-348 -/
def serL : List GC → Wr → Out Wr
  | [], w => .ok w
  | x :: r, w => (ser x w).bind (serL r)
termination_by structural a => a

/-- ser:353-362 -/
def serM : Entries → Wr → Out Wr
  | [], w => .ok w
  | (k, x) :: r, w => (w.putStr k).bind fun w => (ser x w).bind (serM r)
termination_by structural a => a

end

/-- ser:193-366, `serialize( buffer_dim, buffer )`: new contents of the buffer and the
returned number of bytes. -/
def serialize (dim : Int) (buf : Bytes) (g : GC) : Out (Bytes × Int) :=
  (ser g ⟨buf, 0, dim⟩).bind fun w => .ok (w.buf, dim - w.avail)

/-- ser:187-191, `serialize( vector<uint8_t>& )`. -/
def serialize_vec (buf : Bytes) (g : GC) : Out (Bytes × Int) :=
  serialize (toI32 buf.length) buf g

end GC

/-! ## Reading -/

/-- Position in the input buffer and `nbyte`. -/
structure Rd where
  pos : Int
  nbyte : Int
  deriving DecidableEq, Repr

namespace Rd

/-- `buffer[0]` at an absolute offset. -/
def byteAt (buf : Bytes) (p : Int) : Out Byte :=
  if 0 ≤ p then
    match buf[p.toNat]? with
    | some b => .ok b
    | none => .ub
  else .ub

/-- `n` consecutive bytes. -/
def bytesAt (buf : Bytes) : Nat → Int → Out Bytes
  | 0, _ => .ok []
  | n + 1, p => (byteAt buf p).bind fun b => (bytesAt buf n (p + 1)).bind fun r => .ok (b :: r)

/-- ser:91-143, `buffer_to_uint8/32/64`: unchecked reads, little endian. -/
def get (buf : Bytes) (n : Nat) (r : Rd) : Out (Nat × Rd) :=
  (bytesAt buf n r.pos).bind fun bs => .ok (leValue bs, ⟨r.pos + n, r.nbyte + n⟩)

/-- Bytes up to (not including) the first NUL at or after an offset; undefined when the
buffer has none. -/
def cstrAt (buf : Bytes) (p : Int) : Out Bytes :=
  if 0 ≤ p then
    let rest := buf.drop p.toNat
    if (0 : Byte) ∈ rest then .ok (rest.takeWhile (· ≠ 0)) else .ub
  else .ub

/-- A length prefixed string (ser:414-420, 529-534, 550-554): read `i32`, construct the
string from the C string at the current position, advance by `i32` (which may be
negative). -/
def getStr (buf : Bytes) (r : Rd) : Out (Bytes × Rd) :=
  (r.get buf 4).bind fun (n, r) =>
    (cstrAt buf r.pos).bind fun s =>
      (addI32 r.nbyte (toI32 n)).bind fun nb => .ok (s, ⟨r.pos + toI32 n, nb⟩)

/-- A loop reading `n` elements into a vector. -/
def each {α : Type} (f : Rd → Out (α × Rd)) : Nat → Rd → Out (List α × Rd)
  | 0, r => .ok ([], r)
  | n + 1, r => (f r).bind fun (x, r) => (each f n r).bind fun (xs, r) => .ok (x :: xs, r)

def getF64 (buf : Bytes) (r : Rd) : Out (F64 × Rd) :=
  (r.get buf 8).bind fun (n, r) => .ok (⟨BitVec.ofNat 64 n⟩, r)

def getCplx (buf : Bytes) (r : Rd) : Out (Cplx × Rd) :=
  (r.getF64 buf).bind fun (x, r) => (r.getF64 buf).bind fun (y, r) => .ok (⟨x, y⟩, r)

end Rd

namespace GC

/-- ser:374-565, `de_serialize( buffer_dim, buffer )` on a cleared container: the result and
the returned `nbyte`.  `pos` is the offset of `buffer` in the memory `buf`.  The previous
content plays no role since `clear()` comes first (ser:380).  `fuel` bounds the nesting of
recursive calls; `diverge` is returned when it runs out, so a call that recurses for ever
is `diverge` for every `fuel`.

`allocate_vec_*(i32)` followed by a loop filling every element is modelled by reading that
many elements; `i32` is converted to `unsigned`. -/
def de_ser (buf : Bytes) : Nat → Int → Int → Out (GC × Int)
  | 0, _, _ => .diverge
  | fuel + 1, dim, pos =>
    let finish : GC × Rd → Out (GC × Int) := fun (g, r) =>
      -- ser:560-563
      if r.nbyte ≤ dim then .ok (g, r.nbyte) else .throw
    (Rd.get buf 4 ⟨pos, 0⟩).bind fun (tag, r) =>
    match Ty.ofCode tag with
    | none => finish (notype, r)
    | some .NOTYPE => finish (notype, r)
    | some .POINTER => finish (notype, r)
    | some .VEC_POINTER => finish (notype, r)
    | some .BOOL => (r.get buf 1).bind fun (b, r) => finish (bool (decide (0 < b)), r)
    | some .INTEGER => (r.get buf 4).bind fun (n, r) => finish (int (BitVec.ofNat 32 n), r)
    | some .LONG => (r.get buf 8).bind fun (n, r) => finish (long (BitVec.ofNat 64 n), r)
    | some .REAL => (r.getF64 buf).bind fun (x, r) => finish (real x, r)
    | some .STRING => (r.getStr buf).bind fun (s, r) => finish (string s, r)
    | some .COMPLEX => (r.getCplx buf).bind fun (c, r) => finish (complex c, r)
    | some .VEC_BOOL =>
      (r.get buf 4).bind fun (n, r) =>
        -- `reserve(i32)` with a negative argument throws std::length_error
        if toI32 n < 0 then .throw
        else
          (Rd.each (fun r => (r.get buf 1).bind fun (b, r) => .ok (decide (0 < b), r)) n r).bind
            fun (v, r) => finish (vecBool v, r)
    | some .VEC_INTEGER =>
      (r.get buf 4).bind fun (n, r) =>
        (Rd.each (fun r => (r.get buf 4).bind fun (x, r) => .ok (BitVec.ofNat 32 x, r)) n r).bind
          fun (v, r) => finish (vecInt v, r)
    | some .VEC_LONG =>
      (r.get buf 4).bind fun (n, r) =>
        (Rd.each (fun r => (r.get buf 8).bind fun (x, r) => .ok (BitVec.ofNat 64 x, r)) n r).bind
          fun (v, r) => finish (vecLong v, r)
    | some .VEC_REAL =>
      (r.get buf 4).bind fun (n, r) =>
        (Rd.each (fun r => r.getF64 buf) n r).bind fun (v, r) => finish (vecReal v, r)
    | some .VEC_COMPLEX =>
      (r.get buf 4).bind fun (n, r) =>
        (Rd.each (fun r => r.getCplx buf) n r).bind fun (v, r) => finish (vecComplex v, r)
    | some .MAT_INTEGER =>
      (r.get buf 4).bind fun (nr, r) => (r.get buf 4).bind fun (nc, r) =>
        (Rd.each (fun r => (r.get buf 4).bind fun (x, r) => .ok (BitVec.ofNat 32 x, r))
          (u32 (nr * nc)) r).bind fun (v, r) => finish (matInt ⟨nr, nc, v⟩, r)
    | some .MAT_LONG =>
      (r.get buf 4).bind fun (nr, r) => (r.get buf 4).bind fun (nc, r) =>
        (Rd.each (fun r => (r.get buf 8).bind fun (x, r) => .ok (BitVec.ofNat 64 x, r))
          (u32 (nr * nc)) r).bind fun (v, r) => finish (matLong ⟨nr, nc, v⟩, r)
    | some .MAT_REAL =>
      (r.get buf 4).bind fun (nr, r) => (r.get buf 4).bind fun (nc, r) =>
        (Rd.each (fun r => r.getF64 buf) (u32 (nr * nc)) r).bind
          fun (v, r) => finish (matReal ⟨nr, nc, v⟩, r)
    | some .MAT_COMPLEX =>
      -- no `break` (ser:513-525): the matrix is read, then a VEC_STRING replaces it
      (r.get buf 4).bind fun (nr, r) => (r.get buf 4).bind fun (nc, r) =>
        (Rd.each (fun r => r.getCplx buf) (u32 (nr * nc)) r).bind fun (_, r) =>
          (r.get buf 4).bind fun (n, r) =>
            (Rd.each (fun r => r.getStr buf) n r).bind fun (v, r) => finish (vecString v, r)
    | some .VEC_STRING =>
      (r.get buf 4).bind fun (n, r) =>
        (Rd.each (fun r => r.getStr buf) n r).bind fun (v, r) => finish (vecString v, r)
    | some .VECTOR =>
      (r.get buf 4).bind fun (n, r) =>
        (Rd.each (fun r =>
          (de_ser buf fuel (dim - r.nbyte) r.pos).bind fun (x, sz) =>
            (addI32 r.nbyte sz).bind fun nb => .ok (x, ⟨r.pos + sz, nb⟩)) n r).bind
          fun (v, r) => finish (vector v, r)
    | some .MAP =>
      (r.get buf 4).bind fun (n, r) =>
        -- `for ( int32_t i = 0; i < nr; ++i )`: no iteration when `nr` is negative
        (Rd.each (fun r =>
          (r.getStr buf).bind fun (k, r) =>
            (de_ser buf fuel (dim - r.nbyte) r.pos).bind fun (x, sz) =>
              (addI32 r.nbyte sz).bind fun nb => .ok ((k, x), (⟨r.pos + sz, nb⟩ : Rd)))
          (toI32 n).toNat r).bind
          fun (kv, r) => finish (map (kv.foldl (fun m e => mset e.1 e.2 m) []), r)

/-- ser:374-565, `de_serialize( buffer_dim, buffer )`. -/
def de_serialize (fuel : Nat) (dim : Int) (buf : Bytes) (_ : GC) : Out (GC × Int) :=
  de_ser buf fuel dim 0

/-- ser:368-372, `de_serialize( vector<uint8_t> const& )`. -/
def de_serialize_vec (fuel : Nat) (buf : Bytes) (g : GC) : Out (GC × Int) :=
  de_serialize fuel (toI32 buf.length) buf g

end GC
end GCV
