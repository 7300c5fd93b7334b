import Verif.Model.Collapse

/-!
# JSON: src/GenericContainer.cc `string_escape`, src_json_interface/jsonLexer.cc (`lex`),
jsonParser.tab.cc (`tab`), jsonParser.yy (`yy`), from_json2.cc

The lexer, the table driven parser generated by Bison and the semantic actions are modelled one by one.
The actions do not influence the parser: the parser collects them and they are executed in that order.
Locations (line and column numbers) are left out.
-/

namespace GCV

/-- cc:83-98, `string_escape` -/
def escapeByte (c : Byte) : Bytes :=
  if c = 34 then [92, 34]
  else if c = 10 then [92, 110]
  else if c = 13 then [92, 114]
  else if c = 9 then [92, 116]
  else if c = 11 then [92, 118]
  else if c = 8 then [92, 98]
  else if c = 7 then [92, 97]
  else if c = 92 then [92, 92]
  else [c]

/-- cc:83-98 -/
def string_escape (s : Bytes) : Bytes := 34 :: (s.map escapeByte).flatten ++ [34]

namespace Json

/-! ## The lexer -/

/-- `isspace` in the C locale (bytes from 0x80 on are not spaces). -/
def isSpace (c : Byte) : Bool := c == 32 || (9 ≤ c.toNat && c.toNat ≤ 13)

/-- `isdigit` -/
def isDigit (c : Byte) : Bool := 48 ≤ c.toNat && c.toNat ≤ 57

/-- lex:11 -/
def unicode1 (c : Byte) : Bool := c &&& 0x80 == 0
/-- lex:17 -/
def min3 (c : Byte) : Bool := c &&& 0xE0 == 0xE0
/-- lex:18 -/
def min4 (c : Byte) : Bool := c &&& 0xF0 == 0xF0
/-- lex:20 -/
def okUnicode (c : Byte) : Bool := c &&& 0xC0 == 0x80

/-- The codes returned by `yylex` (jsonParser.tab.hh:317-336). -/
def LEFT_CURLY : Int := 258
def RIGHT_CURLY : Int := 259
def LEFT_BRACE : Int := 260
def RIGHT_BRACE : Int := 261
def COMMA : Int := 262
def COLON : Int := 263
def VTRUE : Int := 264
def VFALSE : Int := 265
def VNULL : Int := 266
def STRING : Int := 267
def FLOAT : Int := 268
def INTEGER : Int := 269
def ERROR : Int := 270

/-- How the scanning of a string or a number ends: a token with its text and what follows; `return 0`
(or `return false`); the code left at ERROR, so that the position is restored. -/
inductive Scan
  | tok (code : Int) (lexeme rest : Bytes)
  | zero
  | fail
  deriving DecidableEq, Repr

/-- lex:81-92: what is added to the text for `\` followed by `c`. -/
def unescape (c : Byte) : Bytes :=
  if c = 110 then [10]
  else if c = 116 then [9]
  else if c = 92 then [92]
  else if c = 34 then [34]
  else if c = 114 then [13]
  else if c = 98 then [8]
  else if c = 102 then [12]
  else [92, c]

/-- lex:70-116: the loop over a string; `acc` is `m_lexeme`, the list starts behind the cursor. -/
def lexStr (acc : Bytes) : Bytes → Scan
  | [] => .fail
  | c :: r =>
    if c = 34 then .tok STRING acc r
    else if unicode1 c then
      if c = 92 then
        match r with
        | [] => .zero
        | d :: r => lexStr (acc ++ unescape d) r
      else lexStr (acc ++ [c]) r
    else
      match r with
      | [] => .zero
      | d :: r =>
        if !okUnicode d then .fail
        else if min3 c then
          match r with
          | [] => .zero
          | e :: r =>
            if !okUnicode e then .fail
            else if min4 c then
              match r with
              | [] => .zero
              | f :: r => if !okUnicode f then .fail else lexStr (acc ++ [c, d, e, f]) r
            else lexStr (acc ++ [c, d, e]) r
        else lexStr (acc ++ [c, d]) r

/-- lex:130-152: the loop over a number; the states are those of the code. -/
def lexNum : Nat → Bytes → Bytes → Scan
  | _, _, [] => .fail
  | st, acc, c :: r =>
    if isDigit c then lexNum (if st = 0 then 1 else if st = 3 then 4 else st) (acc ++ [c]) r
    else if c = 46 then (if st > 1 then .fail else lexNum 2 (acc ++ [c]) r)
    else if c = 101 ∨ c = 69 then (if st > 2 ∨ st = 0 then .fail else lexNum 3 (acc ++ [c]) r)
    else if c = 43 ∨ c = 45 then (if st ≠ 3 then .zero else lexNum 4 (acc ++ [c]) r)
    else if st = 1 then .tok INTEGER acc (c :: r)
    else if st = 4 ∨ st = 2 then .tok FLOAT acc (c :: r)
    else .fail

/-- lex:58-69: `true`, `false`, `null`, by `strncmp` (the text is followed by a NUL). -/
def lexWord (w : Bytes) (code : Int) (inp : Bytes) : Scan :=
  if inp.take w.length = w then .tok code w (inp.drop w.length) else .fail

/-- lex:51-154, the `switch`. -/
def scan (c : Byte) (r : Bytes) : Scan :=
  if c = 123 then .tok LEFT_CURLY [c] r
  else if c = 125 then .tok RIGHT_CURLY [c] r
  else if c = 91 then .tok LEFT_BRACE [c] r
  else if c = 93 then .tok RIGHT_BRACE [c] r
  else if c = 44 then .tok COMMA [c] r
  else if c = 58 then .tok COLON [c] r
  else if c = 116 then lexWord (str "true") VTRUE (c :: r)
  else if c = 102 then lexWord (str "false") VFALSE (c :: r)
  else if c = 110 then lexWord (str "null") VNULL (c :: r)
  else if c = 34 then lexStr [] r
  else if c = 43 ∨ c = 45 then lexNum 0 [c] r
  else if isDigit c then lexNum 1 [c] r
  else .fail

/-- lex:24-173, one call of `yylex`: the code, `*yylval` (when it is set) and the input that follows.  When
blanks are followed by the end of the input, `*m_cursor` dereferences `end()`. -/
def yylex (inp : Bytes) : Out (Int × Bytes × Bytes) :=
  match inp with
  | [] => .ok (0, [], [])
  | _ =>
    match inp.dropWhile isSpace with
    | [] => .ub
    | c :: r =>
      if !unicode1 c then .ok (ERROR, [], c :: r)
      else match scan c r with
        | .tok code lexeme rest => .ok (code, lexeme, rest)
        | .zero => .ok (0, [], [])
        | .fail => .ok (-1, [], c :: r)

/-! ## The parser -/

/-- tab:1117-1165, `yytranslate_` -/
def translate (t : Int) : Nat :=
  if t ≤ 0 then 0 else if t = 256 then 1 else if 258 ≤ t ∧ t ≤ 270 then (t - 255).toNat else 2

/-- tab:1009-1016 -/
def yypact : List Int :=
  [-2, -15, -15, -15, -15, -15, -15, -15, -15, 2, -15, -15, -15, -8, -2, -15, -15, 1, -1, -15,
   -15, 9, 10, 8, -15, -8, -15, -2, -2, -15, -15, -15]
/-- tab:1018-1025 -/
def yydefact : List Nat :=
  [2, 12, 20, 9, 10, 11, 6, 8, 7, 0, 3, 4, 5, 14, 22, 1, 18, 0, 15, 16, 24, 0, 23, 0, 13, 0, 21, 0, 0, 17, 25, 19]
/-- tab:1027-1032 -/
def yypgoto : List Int := [-15, -15, -14, -15, -15, -15, -15, -7, -15, -15, -15, -15, -15]
/-- tab:1034-1039 -/
def yydefgoto : List Nat := [0, 9, 10, 11, 13, 17, 18, 19, 23, 12, 14, 21, 22]
/-- tab:1041-1046; there is no entry ≤ 0, so a table entry is always a shift. -/
def yytable : List Nat := [20, 1, 15, 2, 16, 24, 25, 3, 4, 5, 6, 7, 8, 30, 31, 26, 28, 27, 29]
/-- tab:1048-1053 -/
def yycheck : List Nat := [14, 3, 0, 5, 12, 4, 7, 9, 10, 11, 12, 13, 14, 27, 28, 6, 8, 7, 25]
/-- tab:1064-1070 -/
def yyr1 : List Nat :=
  [0, 16, 17, 17, 18, 18, 18, 18, 18, 18, 18, 18, 20, 19, 21, 21, 22, 22, 24, 23, 26, 25, 27, 27, 28, 28]
/-- tab:1072-1078 -/
def yyr2 : List Nat := [0, 2, 0, 1, 1, 1, 1, 1, 1, 1, 1, 1, 0, 4, 0, 1, 1, 3, 0, 4, 0, 4, 0, 1, 1, 3]

/-- Entry of `yytable` at `i` when `yycheck` has `want` there (tab:429, 544). -/
def lookup (i : Int) (want : Nat) : Option Nat :=
  if i < 0 ∨ 18 < i then none
  else if yycheck.getD i.toNat 0 = want then some (yytable.getD i.toNat 0) else none

/-- tab:425-433, `yy_lr_goto_state_` -/
def gotoState (s sym : Nat) : Nat :=
  (lookup (yypgoto.getD (sym - 16) 0 + s) s).getD (yydefgoto.getD (sym - 16) 0)

/-- The calls made by the semantic actions (yy:118-145). -/
inductive Act
  | setString (s : Bytes) | setInteger (s : Bytes) | setFloat (s : Bytes)
  | setTrue | setFalse | setNull
  | openMap | closeMap | openVector | closeVector
  | setKey (s : Bytes) | pop
  deriving DecidableEq, Repr

/-- tab:612-684: the action of rule `n`; `v` is `yystack_[0].value`. -/
def ruleAct (n : Nat) (v : Bytes) : List Act :=
  match n with
  | 6 => [.setString v]
  | 7 => [.setInteger v]
  | 8 => [.setFloat v]
  | 9 => [.setTrue]
  | 10 => [.setFalse]
  | 11 => [.setNull]
  | 12 => [.openMap]
  | 13 => [.closeMap]
  | 18 => [.setKey v]
  | 19 => [.pop]
  | 20 => [.openVector]
  | 21 => [.closeVector]
  | _ => []

/-- The parser stack (states with their values, top first) and the input.  The lookahead token is not part
of it: it is obtained again from the input each time, and the input advances when it is shifted. -/
structure Cfg where
  stack : List (Nat × Bytes)
  input : Bytes
  deriving DecidableEq, Repr

/-- One turn of the loop of `parse`. -/
inductive Turn
  | go (acts : List Act) (c : Cfg)
  | accept
  | error
  | ub
  deriving DecidableEq, Repr

/-- tab:586-708, `yyreduce` -/
def reduce (n : Nat) (c : Cfg) : Turn :=
  let len := yyr2.getD n 0
  match c.stack, c.stack.drop len with
  | (_, v) :: _, (s, _) :: _ =>
    let val := if len = 0 then v else ((c.stack.drop (len - 1)).headD (0, [])).2
    .go (ruleAct n v) ⟨(gotoState s (yyr1.getD n 0), val) :: c.stack.drop len, c.input⟩
  | _, _ => .ub

/-- tab:580-584, `yydefault`; `yyerrlab` calls `error`, which throws (yy:150-161). -/
def default (s : Nat) (c : Cfg) : Turn :=
  let n := yydefact.getD s 0
  if n = 0 then .error else reduce n c

/-- tab:490-577, from `yynewstate` to the next one. -/
def turn (c : Cfg) : Turn :=
  match c.stack with
  | [] => .ub
  | (s, _) :: _ =>
    if s = 15 then .accept
    else
      let n := yypact.getD s 0
      if n = -15 then default s c
      else match yylex c.input with
        | .ok (code, val, rest) =>
          let kind := translate code
          if kind = 1 then .error
          else match lookup (n + kind) kind with
            | none => default s c
            | some s' => .go [] ⟨(s', val) :: c.stack, rest⟩
        | _ => .ub

/-- How a run of the parser ends, with the actions executed so far. -/
inductive Run
  | accept (acts : List Act)
  | error (acts : List Act)
  | ub
  | diverge
  deriving DecidableEq, Repr

/-- tab:448-840, `parse` (without error recovery: `error` throws). -/
def run : Nat → List Act → Cfg → Run
  | 0, _, _ => .diverge
  | fuel + 1, acts, c =>
    match turn c with
    | .go a c' => run fuel (acts ++ a) c'
    | .accept => .accept acts
    | .error => .error acts
    | .ub => .ub

/-- tab:448: the parser on a text. -/
def parse (inp : Bytes) : Run := run (20 * inp.length + 20) [] ⟨[(0, [])], inp⟩

end Json

/-! ## The semantic actions: `GenericContainerWrapper` (yy:17-86) -/

/-- A step into a container. -/
inductive Sel
  | key (k : Bytes)
  | idx (i : Nat)
  deriving DecidableEq, Repr

namespace GC

/-- What a path leads to. -/
def getAt : List Sel → GC → Option GC
  | [], g => some g
  | .key k :: p, map m => (mfind k m).bind (getAt p)
  | .idx i :: p, vector v => (v[i]?).bind (getAt p)
  | _ :: _, _ => none

/-- Change what a path leads to. -/
def modAt : List Sel → (GC → GC) → GC → GC
  | [], f, g => f g
  | .key k :: p, f, map m =>
    match mfind k m with
    | some x => map (mset k (modAt p f x) m)
    | none => map m
  | .idx i :: p, f, vector v =>
    match v[i]? with
    | some x => vector (v.set i (modAt p f x))
    | none => vector v
  | _ :: _, _, g => g

end GC

namespace Json
open GC

/-- `m_data` and `m_stack` (yy:20-21); a pointer is the path from the root to what it points to (top of
the stack first).  Only the container on top of the stack grows, and the other pointers do not point into
its elements, so reallocation leaves them valid. -/
structure Wrapper where
  root : GC
  stack : List (List Sel)
  deriving Repr

/-- yy:35-44, `get_gc()` -/
def Wrapper.get_gc (w : Wrapper) : Out (Wrapper × List Sel) :=
  match w.stack with
  | [] => .ub
  | p :: _ =>
    match getAt p w.root with
    | none => .ub
    | some (vector v) =>
      .ok ({ w with root := modAt p (fun _ => vector (v ++ [notype])) w.root }, p ++ [.idx v.length])
    | some _ => .ok (w, p)

/-- A setter called on what `get_gc()` returns. -/
def Wrapper.set (f : GC → GC) (w : Wrapper) : Out Wrapper :=
  (w.get_gc).bind fun (w', p) => .ok { w' with root := modAt p f w'.root }

/-- The sign in front of a number. -/
def splitSign : Bytes → Bool × Bytes
  | 45 :: r => (true, r)
  | 43 :: r => (false, r)
  | r => (false, r)

/-- `strtoll( s, &end, 10 )` for a text that starts with a sign or a digit: the value, limited to 64 bits,
and whether the whole text was used. -/
def strtoll (s : Bytes) : Int × Bool :=
  let r := (splitSign s).2
  let ds := r.takeWhile isDigit
  let n : Nat := ds.foldl (fun a c => 10 * a + (c.toNat - 48)) 0
  let v : Int := if (splitSign s).1 then -(n : Int) else n
  (if v < -2 ^ 63 then -2 ^ 63 else if 2 ^ 63 - 1 < v then 2 ^ 63 - 1 else v,
    (r.drop ds.length).isEmpty && !ds.isEmpty)

/-- yy:58-71, what `set_integer` does to the container. -/
def setInteger (s : Bytes) (g : GC) : GC :=
  let (res, all) := strtoll (cstr s)
  if all then
    if res ≤ 2 ^ 31 - 1 ∧ -2 ^ 31 ≤ res then set_int (BitVec.ofInt 32 res) g else set_long (BitVec.ofInt 64 res) g
  else g

/-- yy:50-56, `set_float`; `strtod` gives the number when it uses the whole text. -/
def setFloat (strtod : Bytes → Option F64) (s : Bytes) (g : GC) : GC :=
  match strtod (cstr s) with
  | some x => set_real x g
  | none => g

/-- yy:46-85: one action. -/
def Wrapper.act (strtod : Bytes → Option F64) (w : Wrapper) : Act → Out Wrapper
  | .setString s => w.set (set_string s)
  | .setInteger s => w.set (setInteger s)
  | .setFloat s => w.set (setFloat strtod s)
  | .setTrue => w.set (set_bool true)
  | .setFalse => w.set (set_bool false)
  | .setNull => w.set clear
  | .openMap => (w.get_gc).bind fun (w', p) =>
      .ok { root := modAt p set_map w'.root, stack := p :: w'.stack }
  | .closeMap => match w.stack with | [] => .ub | _ :: r => .ok { w with stack := r }
  | .openVector => w.set (set_vector 0)
  | .closeVector => .ok w
  | .setKey s => (w.get_gc).bind fun (w', p) =>
      .ok { root := modAt p (fun g => map (mset s ((mfind s g.oldMap).getD notype) g.oldMap)) w'.root,
            stack := (p ++ [.key s]) :: w'.stack }
  | .pop => match w.stack with | [] => .ub | _ :: r => .ok { w with stack := r }

/-- The actions one after the other. -/
def Wrapper.acts (strtod : Bytes → Option F64) (w : Wrapper) : List Act → Out Wrapper
  | [] => .ok w
  | a :: r => (w.act strtod a).bind fun w' => w'.acts strtod r

end Json

namespace GC
open Json

/-- from_json2.cc:15-29, up to `collapse`: the container the parser leaves; `true` when the text was accepted
(otherwise the call throws). -/
def json2_tree (strtod : Bytes → Option F64) (text : Bytes) (g : GC) : Out (GC × Bool) :=
  match parse text with
  | .accept a => (Wrapper.acts strtod ⟨g, [[]]⟩ a).bind fun w => .ok (w.root, true)
  | .error a => (Wrapper.acts strtod ⟨g, [[]]⟩ a).bind fun w => .ok (w.root, false)
  | .ub => .ub
  | .diverge => .diverge

/-- from_json2.cc:15-29 -/
def from_json2 (strtod : Bytes → Option F64) (text : Bytes) (g : GC) : Res Bool :=
  match json2_tree strtod text g with
  | .ok (t, true) => (collapse t).bind fun g' _ => .ok g' true
  | .ok (t, false) => .throw t
  | .throw => .throw g
  | .ub => .ub
  | .diverge => .diverge

end GC
end GCV
