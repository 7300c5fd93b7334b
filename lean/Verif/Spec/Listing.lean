import Verif.Spec.Writer
import Verif.Model.Print

/-! # Specification: the listing of a container, line by line -/

namespace GCV

/-- A whole number in base ten. -/
def decimal (n : Int) : Bytes := str (toString n)

/-- A line of a listing: its text and its depth, `none` for a line that starts at the margin of the page. -/
abbrev Line := Option Nat × Bytes

/-- The line one level deeper. -/
def Line.deeper : Line → Line
  | (some d, t) => (some (d + 1), t)
  | (none, t) => (none, t)

/-- The text of a line: `pre`, then `ind` for the first level and `rest` for each further one. -/
def Line.text (pre ind rest : Bytes) : Line → Bytes
  | (some 0, t) => pre ++ t ++ [10]
  | (some (d + 1), t) => pre ++ ind ++ (List.replicate d rest).flatten ++ t ++ [10]
  | (none, t) => t ++ [10]

/-- White space. -/
def Blank (c : Byte) : Prop := c = 32 ∨ (9 ≤ c.toNat ∧ c.toNat ≤ 13)

/-- An underline character. -/
def Mark (c : Byte) : Prop := c = 45 ∨ c = 61 ∨ c = 126 ∨ c = 95

/-- The keys `1#text`, `02##=text`, ... of a map: blanks, digits, blanks, one or two `#`, an underline character or none,
blanks, and a text without line breaks. -/
structure Numbered (k w1 d w2 s u w3 h : Bytes) : Prop where
  eq : k = w1 ++ (d ++ (w2 ++ (s ++ (u ++ (w3 ++ h)))))
  blanks : (∀ c ∈ w1, Blank c) ∧ (∀ c ∈ w2, Blank c) ∧ (∀ c ∈ w3, Blank c)
  digits : d ≠ [] ∧ ∀ c ∈ d, 48 ≤ c.toNat ∧ c.toNat ≤ 57
  sharp : s = str "#" ∨ s = str "##"
  mark : u = [] ∨ ∃ c, Mark c ∧ u = [c]
  text : (10 : Byte) ∉ h ∧ (13 : Byte) ∉ h

/-- As much as possible goes to the earlier parts. -/
structure Greedy (s u w3 h : Bytes) : Prop where
  sharp : s = str "#" → (u ++ (w3 ++ h)).head? ≠ some 35
  mark : u = [] → ∀ c, (w3 ++ h).head? = some c → ¬ Mark c
  text : ∀ c, h.head? = some c → ¬ Blank c

namespace GC

/-- What is shown of one value. -/
def showScalar (f : Fmt) : GC → Bytes
  | notype => str "null"
  | bool b => if b then str "true" else str "false"
  | int i => decimal i.toInt
  | long i => decimal i.toInt
  | real r => f.real r
  | complex c => cplxOut f c
  | string s => 34 :: s ++ [34]
  | _ => []

/-- Values in brackets. -/
def showVec (f : Fmt) (es : List GC) : Bytes := str "[" ++ es.flatMap (fun x => 32 :: showScalar f x) ++ str " ]"

/-- The element in column `j` of a row of a matrix: right justified in 8 places (12 for complex numbers); the complex
numbers of the first column as pairs. -/
def showCell (f : Fmt) (j : Nat) : GC → Bytes
  | complex c => if j = 0 then padded 8 (pairText f c) else padded 12 (cplxOut f c)
  | x => padded 8 (showScalar f x)

/-- The lines of a matrix. -/
def matLines (f : Fmt) (nr nc : Nat) (es : List GC) : List Line :=
  if 0 < nr ∧ 0 < nc then
    (List.range nr).map fun i => (none, (str " ").intercalate
      ((List.range nc).map fun j => showCell f j (es[i + j * nr]?.getD notype)))
  else [(none, decimal nr ++ str " by " ++ decimal nc ++ str " matrix")]

/-- Nothing, or one value. -/
def single : Ty → Bool
  | .NOTYPE | .POINTER | .BOOL | .INTEGER | .LONG | .REAL | .COMPLEX | .STRING => true
  | _ => false

/-- Shown on the line of its label, as an element of a vector: a scalar, or a vector of at most ten booleans or
numbers. -/
def shortElem (g : GC) : Prop :=
  single g.ty = true ∨
    (g.ty = .VEC_BOOL ∨ g.ty = .VEC_INTEGER ∨ g.ty = .VEC_LONG ∨ g.ty = .VEC_REAL ∨ g.ty = .VEC_COMPLEX) ∧
      (elems g).length ≤ 10

instance (g : GC) : Decidable (shortElem g) := by unfold shortElem; infer_instance

/-- Shown on the line of its key, as a value of a map: a scalar. -/
def shortValue (g : GC) : Prop := single g.ty = true

instance (g : GC) : Decidable (shortValue g) := by unfold shortValue; infer_instance

/-- The scalar or vector on one line. -/
def showLine (f : Fmt) (g : GC) : Bytes :=
  match shape g.ty with
  | 1 => showVec f (elems g)
  | _ => showScalar f g

/-- The lines above the value of a key such as `1##-text`: an empty line for `##`, the text, and a line of underline
characters or else a colon. -/
def headOutline (s u h : Bytes) : List Line :=
  (if s = str "##" then [(none, [])] else []) ++
    (match u with
     | [] => [(some 0, h ++ str ":")]
     | c :: _ => [(some 0, h), (some 0, List.replicate h.length c)])

mutual
/-- The listing of a container without pointers. -/
def outline (f : Fmt) : GC → List Line
  | vecString v => v.zipIdx.map fun si => (some 0, decimal si.2 ++ str ": \"" ++ si.1 ++ str "\"")
  | matInt m => matLines f m.nr m.nc (elems (matInt m))
  | matLong m => matLines f m.nr m.nc (elems (matLong m))
  | matReal m => matLines f m.nr m.nc (elems (matReal m))
  | matComplex m => matLines f m.nr m.nc (elems (matComplex m))
  | vector v => outlineL f 0 v
  | map m => outlineM f m
  | g => [(some 0, showLine f g)]
/-- The elements of a vector, numbered. -/
def outlineL (f : Fmt) (i : Nat) : List GC → List Line
  | [] => []
  | x :: r =>
    (if shortElem x then [(some 0, decimal i ++ str ": " ++ showLine f x)]
     else (some 0, decimal i ++ str ":") :: (outline f x).map Line.deeper) ++ outlineL f (i + 1) r
/-- The values of a map under their keys. -/
def outlineM (f : Fmt) : Entries → List Line
  | [] => []
  | (k, x) :: r =>
    (match heading k with
     | none => if shortValue x then [(some 0, k ++ str ": " ++ showLine f x)]
         else (some 0, k ++ str ":") :: (outline f x).map Line.deeper
     | some (s, u, h) => if shortValue x then [(some 0, h ++ str ": " ++ showLine f x)]
         else headOutline s u h ++ (outline f x).map Line.deeper) ++ outlineM f r
end

/-- There is a pointer in the container. -/
def HasPointer (g : GC) : Prop := ∃ x, Inside x g ∧ ∃ p, pointer p ∈ elems x

/-- What `print_content_types` calls a type. -/
def typeTitle : Ty → Bytes
  | .NOTYPE => str "Empty!"
  | .POINTER => str "(*void)"
  | .BOOL => str "bool"
  | .INTEGER => str "int"
  | .LONG => str "long int"
  | .REAL => str "double"
  | .COMPLEX => str "complex"
  | .STRING => str "string"
  | .VEC_POINTER => str "vector of pointer"
  | .VEC_BOOL => str "vector of bool"
  | .VEC_INTEGER => str "vector of int"
  | .VEC_LONG => str "vector of long"
  | .VEC_REAL => str "vector of double"
  | .VEC_COMPLEX => str "vector of complex"
  | .VEC_STRING => str "vector of string"
  | .MAT_INTEGER => str "matrix of int"
  | .MAT_LONG => str "matrix of long"
  | .MAT_REAL => str "matrix of double"
  | .MAT_COMPLEX => str "matrix of complex"
  | .VECTOR | .MAP => []

/-- The type of a scalar, vector or matrix, with its size. -/
def typeLine (g : GC) : Bytes :=
  typeTitle g.ty ++
    match matDims g with
    | some (nr, nc) => str "[" ++ decimal nr ++ str "," ++ decimal nc ++ str "]"
    | none => if shape g.ty = 1 then str "[" ++ decimal (elems g).length ++ str "]" else []

/-- The type is shown on the line of its label: scalars, and vectors other than those of strings. -/
def shortType (g : GC) : Prop :=
  single g.ty = true ∨ (shape g.ty = 1 ∧ g.ty ≠ .VEC_STRING)

instance (g : GC) : Decidable (shortType g) := by unfold shortType; infer_instance

mutual
/-- The listing of the types in a container; vectors and matrices at the margin of the page. -/
def typeOutline : GC → List Line
  | vector v => typeOutlineL 0 v
  | map m => typeOutlineM m
  | g => [(if shape g.ty = 1 ∨ shape g.ty = 2 then none else some 0, typeLine g)]
def typeOutlineL (i : Nat) : List GC → List Line
  | [] => []
  | x :: r =>
    (if shortType x then [(some 0, decimal i ++ str ": " ++ typeLine x)]
     else (some 0, decimal i ++ str ":") :: (typeOutline x).map Line.deeper) ++ typeOutlineL (i + 1) r
def typeOutlineM : Entries → List Line
  | [] => []
  | (k, x) :: r =>
    (match heading k with
     | none => if shortType x then [(some 0, k ++ str ": " ++ typeLine x)]
         else (some 0, k ++ str ":") :: (typeOutline x).map Line.deeper
     | some (s, u, h) => if shortType x then [(some 0, h ++ str ": " ++ typeLine x)]
         else headOutline s u h ++ (typeOutline x).map Line.deeper) ++ typeOutlineM r
end

/-- The same types throughout: the same type, the same number of elements, rows and columns, the same keys, and so on
for what is inside. -/
inductive SameTypes : GC → GC → Prop
  | leaf {a b : GC} : a.ty = b.ty → a.ty ≠ .VECTOR → a.ty ≠ .MAP → (elems a).length = (elems b).length →
      matDims a = matDims b → SameTypes a b
  | vec {v w : List GC} : v.length = w.length →
      (∀ (i : Nat) x y, v[i]? = some x → w[i]? = some y → SameTypes x y) → SameTypes (vector v) (vector w)
  | map {m n : Entries} : m.map Prod.fst = n.map Prod.fst →
      (∀ (i : Nat) k x l y, m[i]? = some (k, x) → n[i]? = some (l, y) → SameTypes x y) → SameTypes (map m) (map n)

end GC
end GCV
