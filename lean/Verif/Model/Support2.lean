import Verif.Model.Support

/-!
# `read_formatted_data2` of src/GenericContainerSupport.cc (`sup`)

The table is read into a map of columns, and lines `#! name = value` are stored in a second container.
The model takes this container (`none` is the null pointer) to be different from the one that is filled
and from its parts.  `strtod` of the C library is an argument: `none` when no character was converted.
-/

namespace GCV

/-- `find_last_not_of(" \t")` of `std::string`; `none` is `npos`. -/
def lastNotBlank (s : Bytes) : Option Nat :=
  (s.reverse.findIdx? fun c => !(c == 32 || c == 9)).map fun i => s.length - 1 - i

/-- `find_first_not_of(" \t")` of `std::string`. -/
def firstNotBlank (s : Bytes) : Option Nat := s.findIdx? fun c => !(c == 32 || c == 9)

/-- sup:128-132: blanks at the end and then those at the start are removed, unless there is nothing
else. -/
def trimBlanks (s : Bytes) : Bytes :=
  let s := match lastNotBlank s with | some e => s.take (e + 1) | none => s
  match firstNotBlank s with | some b => s.drop b | none => s

namespace GC

/-- sup:119-137: what a line that does not count does to the parameters. -/
def parLine (strtod : Bytes → Option F64) (line : Bytes) (pars : Option GC) : Out (Option GC) :=
  match pars with
  | none => .ok none
  | some p =>
    if line.length > 2 ∧ line[1]? = some 33 then
      (tokenize [61] (line.drop 2)).bind fun ts =>
        match ts with
        | lhs :: rhs :: _ =>
          let lhs := trimBlanks lhs
          let rhs := trimBlanks rhs
          match strtod (cstr rhs) with
          | some x => .ok (some (map (mset (cstr lhs) (real x) p.oldMap)))
          | none => .ok (some (map (mset (cstr lhs) (string rhs) p.oldMap)))
        | _ => .ok (some p)
    else .ok (some p)

/-- sup:102-141, `get_line_and_skip_comments2`; `n` is `nl` so far.  The result holds the lines counted,
the stream, the line and the parameters. -/
def skipComments2 (strtod : Bytes → Option F64) (cs : Bytes) : Nat → Nat → Stream → Bytes → Option GC →
    Out (Nat × Stream × Bytes × Option GC)
  | 0, _, _, _, _ => .diverge
  | fuel + 1, n, s, line, pars =>
    if s.fail then .ok (0, s, line, pars)
    else
      let (s', line') := s.getline line
      if line'.isEmpty || hasAny cs line' then
        (parLine strtod line' pars).bind fun pars' =>
          skipComments2 strtod cs fuel (u32 (n + 1)) s' line' pars'
      else .ok (u32 (n + 1), s', line', pars)

/-- sup:236-240: the columns, one map entry for each header; an entry that is a vector of reals already
is kept with its elements. -/
def columns2 : List Bytes → Entries → Entries
  | [], d => d
  | h :: hs, d => columns2 hs (mset (cstr h) (set_vec_real_n 0 ((mfind (cstr h) d).getD notype)) d)

/-- sup:259-260: `pcolumns[icol]->push_back( atof( tokens[icol].data() ) )`; the pointer of a column is
represented by the key of its entry (a `std::map` does not move its entries). -/
def pushRow2 (atof : Bytes → F64) : List Bytes → List Bytes → Entries → Out Entries
  | [], _, d => .ok d
  | h :: hs, t :: ts, d =>
    match mfind (cstr h) d with
    | some (vecReal v) => pushRow2 atof hs ts (mset (cstr h) (vecReal (v ++ [atof (cstr t)])) d)
    | _ => .ub
  | _ :: _, [], _ => .ub

/-- sup:243-261: the data lines; `d` are the entries that hold the columns. -/
def readRows2 (atof : Bytes → F64) (strtod : Bytes → Option F64) (cs ds : Bytes) (headers : List Bytes) :
    Nat → Stream → Bytes → Option GC → Entries → Loop (Entries × Option GC)
  | 0, _, _, _, _ => .diverge
  | fuel + 1, s, line, pars, d =>
    match skipComments2 strtod cs (s.rest.length + 3) 0 s line pars with
    | .ok (nread, s', line', pars') =>
      if nread = 0 then .ok (d, pars')
      else match tokenize ds line' with
        | .ok tokens =>
          if tokens = [] then .ok (d, pars')
          else if u32 tokens.length ≠ u32 headers.length then .throw (d, pars')
          else match pushRow2 atof (headers.take (u32 headers.length)) tokens d with
            | .ok d' => readRows2 atof strtod cs ds headers fuel s' line' pars' d'
            | .throw => .throw (d, pars')
            | .ub => .ub
            | .diverge => .diverge
        | .throw => .throw (d, pars')
        | .ub => .ub
        | .diverge => .diverge
    | .throw => .throw (d, pars)
    | .ub => .ub
    | .diverge => .diverge

/-- The container with headers and columns: sup:223-225, 235.  Without headers the entry `data` is only
created, with columns it becomes a map. -/
def tableOf2 (m : Entries) (headers : List Bytes) (d : Entries) : GC :=
  let old := (mfind (str "data") m).getD notype
  map (mset (str "data") (if u32 headers.length = 0 then old else map d)
    (mset (str "headers") (vecString headers) m))

/-- sup:213-264, `read_formatted_data2(stream,commentChars,delimiters,ptr_pars)`; the version with a file
name (sup:280-293) is this one on the content of the file.  The result holds the container and the
parameters. -/
def read_formatted_data2 (atof : Bytes → F64) (strtod : Bytes → Option F64) (text cs ds : Bytes)
    (pars : Option GC) (g : GC) : Loop (GC × Option GC) :=
  let m := g.oldMap
  match skipComments2 strtod cs (text.length + 3) 0 (.ofText text) [] pars with
  | .ok (_, s, line, pars) =>
    match tokenize ds line with
    | .ok headers =>
      let d := columns2 (headers.take (u32 headers.length)) ((mfind (str "data") m).getD notype).oldMap
      match readRows2 atof strtod cs ds headers (text.length + 3) s line pars d with
      | .ok (d, pars) => .ok (tableOf2 m headers d, pars)
      | .throw (d, pars) => .throw (tableOf2 m headers d, pars)
      | .ub => .ub
      | .diverge => .diverge
    | .throw => .throw (g, pars)
    | .ub => .ub
    | .diverge => .diverge
  | .throw => .throw (g, pars)
  | .ub => .ub
  | .diverge => .diverge

end GC
end GCV
