import Verif.Model.Collapse

/-!
# Text tables: src/GenericContainerSupport.cc (`sup`), src/GenericContainerTables.cc (`tab`)

The conversions of the C library (`atof`, `strtod`) and the decimal form of a number written to a
stream are arguments of the model.  A `char const[]` argument is the list of its characters.
-/

namespace GCV

/-- `find_first_of`, `find_first_not_of` of `std::string_view` with a start position; `none` is `npos`,
both as position and as result. -/
def findFrom (p : Byte → Bool) (s : Bytes) : Option Nat → Option Nat
  | none => none
  | some i => ((s.drop i).findIdx? p).map (· + i)

/-- sup:64-71, the loop of `tokenizeString`; `d` tells the delimiters.  `substr(npos,…)` would throw. -/
def tokLoop (d : Byte → Bool) (s : Bytes) : Nat → Option Nat → Option Nat → Out (List Bytes)
  | 0, _, _ => .diverge
  | _ + 1, none, none => .ok []
  | _ + 1, none, some _ => .throw
  | fuel + 1, some l, pos =>
    let tok := match pos with
      | none => s.drop l
      | some p => (s.drop l).take (p - l)
    let last' := findFrom (fun c => !d c) s pos
    (tokLoop d s fuel last' (findFrom d s last')).bind fun ts => .ok (tok :: ts)

/-- sup:72-75: the last token is removed when it starts with an end of line character. -/
def dropEol (ts : List Bytes) : List Bytes :=
  match ts.getLast? with
  | some (c :: _) => if c = 10 ∨ c = 13 then ts.dropLast else ts
  | _ => ts

/-- sup:49-76 -/
def tokenize (ds s : Bytes) : Out (List Bytes) :=
  let d := fun c => ds.contains c
  let last := findFrom (fun c => !d c) s (some 0)
  (tokLoop d s (s.length + 2) last (findFrom d s last)).bind fun ts => .ok (dropEol ts)

/-- An input stream: what is still to be read, `eofbit`, `failbit`. -/
structure Stream where
  rest : Bytes
  eof : Bool
  fail : Bool
  deriving DecidableEq, Repr

/-- A stream over a text, nothing read yet. -/
def Stream.ofText (t : Bytes) : Stream := ⟨t, false, false⟩

/-- `std::getline( stream, line )`: on a stream that is not good only `failbit` is set and `line` keeps
its content; otherwise the characters up to the next newline (which is removed) or to the end
(`eofbit`; `failbit` too when there was no character left). -/
def Stream.getline (s : Stream) (line : Bytes) : Stream × Bytes :=
  if s.eof ∨ s.fail then ({ s with fail := true }, line)
  else
    let l := s.rest.takeWhile (· ≠ 10)
    match s.rest.drop l.length with
    | _ :: r => (⟨r, false, false⟩, l)
    | [] => (⟨[], true, l.isEmpty⟩, l)

/-- `line.find_first_of(commentchars) != npos` -/
def hasAny (cs line : Bytes) : Bool := line.any fun c => cs.contains c

/-- sup:86-100; `n` is `nl` so far. -/
def skipComments (cs : Bytes) : Nat → Nat → Stream → Bytes → Out (Nat × Stream × Bytes)
  | 0, _, _, _ => .diverge
  | fuel + 1, n, s, line =>
    if s.fail then .ok (0, s, line)
    else
      let (s', line') := s.getline line
      if hasAny cs line' then skipComments cs fuel (u32 (n + 1)) s' line'
      else .ok (u32 (n + 1), s', line')

namespace GC

/-- sup:207-208: `data[icol].get_vec_real().push_back( atof( tokens[icol].data() ) )` for
`icol < ncol`. -/
def pushRow (atof : Bytes → F64) : Nat → List Bytes → List GC → Out (List GC)
  | 0, _, xs => .ok xs
  | n + 1, t :: ts, vecReal v :: xs =>
    (pushRow atof n ts xs).bind fun ys => .ok (vecReal (v ++ [atof (cstr t)]) :: ys)
  | _ + 1, _, _ => .ub

/-- sup:190-209: the data lines; `xs` are the columns. -/
def readRows (atof : Bytes → F64) (cs ds : Bytes) (ncol : Nat) :
    Nat → Stream → Bytes → List GC → Loop (List GC)
  | 0, _, _, _ => .diverge
  | fuel + 1, s, line, xs =>
    match skipComments cs (s.rest.length + 3) 0 s line with
    | .ok (nread, s', line') =>
      if nread = 0 then .ok xs
      else match tokenize ds line' with
        | .ok tokens =>
          if tokens = [] then .ok xs
          else if u32 tokens.length ≠ ncol then .throw xs
          else match pushRow atof ncol tokens xs with
            | .ok ys => readRows atof cs ds ncol fuel s' line' ys
            | .throw => .throw xs
            | .ub => .ub
            | .diverge => .diverge
        | .throw => .throw xs
        | .ub => .ub
        | .diverge => .diverge
    | .throw => .throw xs
    | .ub => .ub
    | .diverge => .diverge

/-- The container after sup:178-180 and the header line, with data columns `xs`. -/
def tableOf (m : Entries) (headers : List Bytes) (xs : List GC) : GC :=
  map (mset (str "data") (vector xs) (mset (str "headers") (vecString headers) m))

/-- sup:169-211, `read_formatted_data(stream,commentChars,delimiters)`; the version with a file name
(sup:266-278) is this one on the content of the file. -/
def read_formatted_data (atof : Bytes → F64) (text cs ds : Bytes) (g : GC) : Res Unit :=
  let m := g.oldMap
  match skipComments cs (text.length + 3) 0 (.ofText text) [] with
  | .ok (_, s, line) =>
    match tokenize ds line with
    | .ok headers =>
      let ncol := u32 headers.length
      let old := ((mfind (str "data") m).getD notype).oldVector
      let v := allocL notype ncol old
      let xs := (v.take ncol).map (set_vec_real_n 0) ++ v.drop ncol
      match readRows atof cs ds ncol (text.length + 3) s line xs with
      | .ok ys => .ok (tableOf m headers ys) ()
      | .throw ys => .throw (tableOf m headers ys)
      | .ub => .ub
      | .diverge => .diverge
    | .throw => .throw g
    | .ub => .ub
    | .diverge => .diverge
  | .throw => .throw g
  | .ub => .ub
  | .diverge => .diverge

/-! ## write_table -/

/-- tab:44-46 and the like: fields separated by the delimiter. -/
def joinFields (delim : Byte) : List Bytes → Bytes
  | [] => []
  | [x] => x
  | x :: r => x ++ delim :: joinFields delim r

/-- `f 0, f 1, …, f (n-1)`, each of which may fail. -/
def collect {α : Type} (f : Nat → Out α) : Nat → Nat → Out (List α)
  | _, 0 => .ok []
  | i, n + 1 => (f i).bind fun x => (collect f (i + 1) n).bind fun xs => .ok (x :: xs)

/-- tab:44-47: column 0 is read even when there is no column. -/
def writeLine (delim : Byte) (ncol : Nat) (field : Nat → Out Bytes) : Out Bytes :=
  (collect field 0 (max ncol 1)).bind fun fs => .ok (joinFields delim fs ++ [10])

/-- tab:33-55.  The text written when no call fails; what has been written before a failure is in
Model/TableStream. -/
def write_table (fmt : F64 → Bytes) (headers : List Bytes) (data : List GC) (delim : Byte) : Out Bytes :=
  let ncol := u32 headers.length
  (getL data 0).bind fun d0 =>
    (writeLine delim ncol (getL headers)).bind fun h =>
      (collect (fun row => writeLine delim ncol fun icol =>
          (getL data icol).bind fun c => (get_number_at row c).bind fun x => .ok (fmt x))
        0 d0.get_num_elements).bind fun rows => .ok (h ++ rows.flatten)

/-- tab:57-79 -/
def write_table_mat (fmt : F64 → Bytes) (headers : List Bytes) (m : Mat F64) (delim : Byte) : Out Bytes :=
  (writeLine delim m.nc (getL headers)).bind fun h =>
    (collect (fun row => writeLine delim m.nc fun icol => (m.get row icol).bind fun x => .ok (fmt x))
      0 m.nr).bind fun rows => .ok (h ++ rows.flatten)

/-- `setw(ml)` in front of a field: blanks on the left up to `ml` characters. -/
def setw (ml : Nat) (f : Bytes) : Bytes := List.replicate (ml - f.length) 32 ++ f

/-- tab:94-100, 132-138: the width of a column; the length of a header is compared as `size_t` and
stored as `unsigned`. -/
def widthOf (headers : List Bytes) : Nat :=
  let ml := headers.foldl (fun ml h => if ml < h.length then u32 h.length else ml) 0
  if ml < 8 then 8 else if 20 < ml then 20 else ml

/-- tab:102, 140: `string( ncol*(ml+1)-1, '-' )`, in `unsigned` arithmetic; `ncol` is not 0 here. -/
def ruler (ncol ml : Nat) : Bytes := List.replicate (u32 (ncol * (ml + 1) - 1)) 45 ++ [10]

/-- tab:104-108, 142-146: all the headers, as C strings. -/
def headLine (ml : Nat) (headers : List Bytes) : Out Bytes :=
  match headers with
  | [] => .ub
  | hs => .ok (joinFields 32 (hs.map fun h => setw ml (cstr h)) ++ [10])

/-- tab:81-117 -/
def write_table_formatted (fmt : F64 → Bytes) (headers : List Bytes) (data : List GC) : Out Bytes :=
  let ncol := u32 headers.length
  (getL data 0).bind fun d0 =>
    if ncol = 0 then .ok []
    else
      let ml := widthOf headers
      (headLine ml headers).bind fun h =>
        (collect (fun row => writeLine 32 ncol fun icol =>
            (getL data icol).bind fun c => (get_number_at row c).bind fun x => .ok (setw ml (fmt x)))
          0 d0.get_num_elements).bind fun rows =>
            .ok (h ++ ruler ncol ml ++ rows.flatten ++ ruler ncol ml)

/-- tab:119-155 -/
def write_table_formatted_mat (fmt : F64 → Bytes) (headers : List Bytes) (m : Mat F64) : Out Bytes :=
  if m.nc = 0 then .ok []
  else
    let ml := widthOf headers
    (headLine ml headers).bind fun h =>
      (collect (fun row => writeLine 32 m.nc fun icol => (m.get row icol).bind fun x => .ok (setw ml (fmt x)))
        0 m.nr).bind fun rows => .ok (h ++ ruler m.nc ml ++ rows.flatten ++ ruler m.nc ml)

/-- sup:145-165 -/
def write_formatted_data (fmt : F64 → Bytes) (delim : Byte) (g : GC) : Out Bytes :=
  if g.exists (str "headers") then
    if g.exists (str "data") then
      (call_key_c (str "data") g).bind fun data =>
        (call_key_c (str "headers") g).bind fun h =>
          (get_vec_string h).bind fun headers =>
            match data with
            | matReal m => write_table_mat fmt headers m delim
            | data => (get_vector data).bind fun v => write_table fmt headers v delim
    else .throw
  else .throw

end GC
end GCV
