import Verif.Model.Support
import Verif.Model.Collapse

/-!
# write_table on a stream (src/GenericContainerTables.cc, `tab` below)

As in `Model/Support`, with the stream as a state, so that what has been written when an exception is thrown can be stated.
A stream is the text written so far and its width: `setw(n)` sets the width, every `<<` of a text pads it on the left with
blanks up to the width and resets the width to 0 (the fill character and the alignment are the default ones).  The code is
C++17, where in `stream << a << b` the text `a` is written before `b` is computed.
-/

namespace GCV
namespace GC

/-- The text and the width of a stream. -/
structure TStream where
  text : Bytes
  width : Nat
  deriving DecidableEq, Repr

/-- `stream << f` -/
def TStream.put (f : Bytes) (s : TStream) : TStream := ⟨s.text ++ setw s.width f, 0⟩

/-- `stream << setw(n)` -/
def TStream.setWidth : Option Nat → TStream → TStream
  | none, s => s
  | some n, s => { s with width := n }

/-- tab:45-46, 51-52, 69-70, 75-76, 106-107, 112-113, 144-145, 150-151: `stream << sep << field(icol)` from column `i` on;
`wd` is the `setw` in front of a field. -/
def putCells (sep : Byte) (wd : Option Nat) (field : Nat → Out Bytes) : Nat → Nat → TStream → Loop TStream
  | _, 0, s => .ok s
  | i, n + 1, s =>
    let s := (s.put [sep]).setWidth wd
    match field i with
    | .ok f => putCells sep wd field (i + 1) n (s.put f)
    | .throw => .throw s
    | .ub => .ub
    | .diverge => .diverge

/-- tab:44-47, 50-53, 68-71, 74-77, 105-108, 111-114, 143-146, 149-152: one line; column 0 is read even when there is no
column. -/
def putRow (sep : Byte) (wd : Option Nat) (ncol : Nat) (field : Nat → Out Bytes) (s : TStream) : Loop TStream :=
  let s := s.setWidth wd
  match field 0 with
  | .ok f =>
    match putCells sep wd field 1 (ncol - 1) (s.put f) with
    | .ok s => .ok (s.put [10])
    | .throw s => .throw s
    | .ub => .ub
    | .diverge => .diverge
  | .throw => .throw s
  | .ub => .ub
  | .diverge => .diverge

/-- tab:49-54, 73-78, 110-115, 148-153: the rows from row `i` on. -/
def putRows (sep : Byte) (wd : Option Nat) (ncol : Nat) (cell : Nat → Nat → Out Bytes) : Nat → Nat → TStream → Loop TStream
  | _, 0, s => .ok s
  | i, n + 1, s =>
    match putRow sep wd ncol (cell i) s with
    | .ok s => putRows sep wd ncol cell (i + 1) n s
    | .throw s => .throw s
    | .ub => .ub
    | .diverge => .diverge

/-- `data[icol].get_number_at(row)` as it is printed. -/
def columnCell (fmt : F64 → Bytes) (data : List GC) (row icol : Nat) : Out Bytes :=
  (getL data icol).bind fun c => (get_number_at row c).bind fun x => .ok (fmt x)

/-- `data(row,icol)` as it is printed. -/
def matrixCell (fmt : F64 → Bytes) (m : Mat F64) (row icol : Nat) : Out Bytes :=
  (m.get row icol).bind fun x => .ok (fmt x)

/-- tab:33-55 -/
def write_table_to (fmt : F64 → Bytes) (headers : List Bytes) (data : List GC) (delim : Byte) (s : TStream) :
    Loop TStream :=
  let ncol := u32 headers.length
  match getL data 0 with
  | .ok d0 =>
    match putRow delim none ncol (getL headers) s with
    | .ok s => putRows delim none ncol (columnCell fmt data) 0 d0.get_num_elements s
    | .throw s => .throw s
    | .ub => .ub
    | .diverge => .diverge
  | .throw => .throw s
  | .ub => .ub
  | .diverge => .diverge

/-- tab:57-79 -/
def write_table_mat_to (fmt : F64 → Bytes) (headers : List Bytes) (m : Mat F64) (delim : Byte) (s : TStream) :
    Loop TStream :=
  match putRow delim none m.nc (getL headers) s with
  | .ok s => putRows delim none m.nc (matrixCell fmt m) 0 m.nr s
  | .throw s => .throw s
  | .ub => .ub
  | .diverge => .diverge

/-- tab:102-116, 140-154: the heading, a ruler, the rows, a ruler; all the headers are written, as C strings. -/
def writeFormattedTo (headers : List Bytes) (ncol nrow : Nat) (cell : Nat → Nat → Out Bytes) (s : TStream) :
    Loop TStream :=
  let ml := widthOf headers
  match putRow 32 (some ml) headers.length (fun i => (getL headers i).bind fun h => .ok (cstr h)) s with
  | .ok s =>
    match putRows 32 (some ml) ncol cell 0 nrow (s.put (ruler ncol ml)) with
    | .ok s => .ok (s.put (ruler ncol ml))
    | .throw s => .throw s
    | .ub => .ub
    | .diverge => .diverge
  | .throw s => .throw s
  | .ub => .ub
  | .diverge => .diverge

/-- tab:81-117 -/
def write_table_formatted_to (fmt : F64 → Bytes) (headers : List Bytes) (data : List GC) (s : TStream) : Loop TStream :=
  let ncol := u32 headers.length
  match getL data 0 with
  | .ok d0 =>
    if ncol = 0 then .ok s else writeFormattedTo headers ncol d0.get_num_elements (columnCell fmt data) s
  | .throw => .throw s
  | .ub => .ub
  | .diverge => .diverge

/-- tab:119-155 -/
def write_table_formatted_mat_to (fmt : F64 → Bytes) (headers : List Bytes) (m : Mat F64) (s : TStream) : Loop TStream :=
  if m.nc = 0 then .ok s else writeFormattedTo headers m.nc m.nr (matrixCell fmt m) s

/-- sup:145-165, `write_formatted_data` on a stream. -/
def write_formatted_data_to (fmt : F64 → Bytes) (delim : Byte) (g : GC) (s : TStream) : Loop TStream :=
  if g.exists (str "headers") then
    if g.exists (str "data") then
      match (call_key_c (str "data") g).bind fun data =>
          (call_key_c (str "headers") g).bind fun h => (get_vec_string h).bind fun headers => .ok (data, headers) with
      | .ok (matReal m, headers) => write_table_mat_to fmt headers m delim s
      | .ok (data, headers) =>
        match get_vector data with
        | .ok v => write_table_to fmt headers v delim s
        | .throw => .throw s
        | .ub => .ub
        | .diverge => .diverge
      | .throw => .throw s
      | .ub => .ub
      | .diverge => .diverge
    else .throw s
  else .throw s

end GC
end GCV
