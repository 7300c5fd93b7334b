import Verif.Model.CInterface

/-!
# The Ruby interface (src_ruby_interface/GenericContainer_ffi.rb, here `rb`)

Ruby code on top of the C interface of Model/CInterface.

Simplifications: a Ruby object is `nil`, `true`, `false`, an integer, a float, a string, a symbol, an array, a hash or
something else that has neither `to_hash` nor `[]`; a key of a hash is its `to_s`; the constant `Fixnum` is `Integer` (Ruby
2.4 to 3.1; from 3.2 on it does not exist and every call with it raises); what is written by `puts` is left out.
The ffi library: an `:int` argument outside of 32 bits raises `RangeError`, a `:string` argument with a NUL byte raises
`ArgumentError`; a `:string` result is a copy of the text before the NUL, or `nil` for a null pointer; a C++ exception that
leaves a C function ends the program.
-/

namespace GCV
namespace Ruby
open GC CApi

/-- Ruby objects. -/
inductive Rb where
  | nil
  | tru
  | fals
  | int (n : Int)
  | float (r : F64)
  | str (s : Bytes)
  | sym (s : Bytes)
  | arr (l : List Rb)
  | hash (m : List (Bytes × Rb))
  | other

/-- How Ruby code ends: with a value, with an exception that can be rescued, with the end of the program; `deep`: the
recursion is deeper than the stack that is given. -/
inductive RbOut (α : Type) where
  | ok (l : Lib) (a : α)
  | raise (l : Lib)
  | crash
  | ub
  | diverge
  | deep

/-- One statement after another. -/
def RbOut.bind {α β : Type} : RbOut α → (Lib → α → RbOut β) → RbOut β
  | .ok l a, f => f l a
  | .raise l, _ => .raise l
  | .crash, _ => .crash
  | .ub, _ => .ub
  | .diverge, _ => .diverge
  | .deep, _ => .deep

/-- A call of a C function through ffi. -/
def call (c : Call) (l : Lib) : RbOut Value :=
  match c.run l with
  | .ok l' v => .ok l' v
  | .throw _ => .crash
  | .ub => .ub
  | .diverge => .diverge

/-- `ok = self.GC_…; raise RuntimeError, @error_messages[ok] unless ok == 0` -/
def check (c : Call) (l : Lib) : RbOut Unit :=
  (call c l).bind fun l v => if v = .code 0 then .ok l () else .raise l

/-- An `:int` argument. -/
def ffiInt (n : Int) : Option I32 := if -2 ^ 31 ≤ n ∧ n < 2 ^ 31 then some (BitVec.ofInt 32 n) else none

/-- A `:string` argument. -/
def ffiString (s : Bytes) : Option Bytes := if (0 : Byte) ∈ s then none else some s

/-- What an object leads to in a chain of `kind_of?`: a C call, an exception of ffi, the next branch. -/
inductive Arg where
  | call (c : Call)
  | refused
  | none

/-- The argument of the call, if ffi takes it. -/
def Arg.of {α : Type} (f : α → Call) : Option α → Arg
  | some a => .call (f a)
  | .none => .refused

/-- rb:362-379, the calls of `GC_from_hash` for objects that are not arrays or hashes -/
def setArg : Rb → Arg
  | .tru => .call (.setBool 1)
  | .fals => .call (.setBool 0)
  | .int n => .of .setInt (ffiInt n)
  | .float r => .call (.setReal r)
  | .str s => .of .setString (ffiString s)
  | .sym s => .of .setString (ffiString s)
  | _ => .none

/-- rb:292-310, the first part of `addToVector`: which empty vector is made -/
def emptyCall : Rb → Option Call
  | .tru => some .setEmptyVecBool
  | .fals => some .setEmptyVecBool
  | .int _ => some .setEmptyVecInt
  | .float _ => some .setEmptyVecReal
  | .str _ => some .setEmptyVecString
  | .sym _ => some .setEmptyVecString
  | _ => none

/-- rb:313-330, the calls of `addToVector` for one element -/
def pushArg : Rb → Arg
  | .tru => .call (.pushBool 1)
  | .fals => .call (.pushBool 0)
  | .int n => .of .pushInt (ffiInt n)
  | .float r => .call (.pushReal r)
  | .str s => .of .pushString (ffiString s)
  | .sym s => .of .pushString (ffiString s)
  | _ => .none

/-- rb:312-335, the second part of `addToVector`; `rest` is `self.fromVector vec`, after which it returns -/
def pushAll (rest : Lib → RbOut Unit) : List Rb → Lib → RbOut Unit
  | [], l => .ok l ()
  | x :: xs, l =>
    match pushArg x with
    | .call c => (check c l).bind fun l _ => pushAll rest xs l
    | .refused => .raise l
    | .none => rest l

/-- A call with an argument, if ffi takes it. -/
def withArg {α : Type} (f : α → Lib → RbOut Unit) : Option α → Lib → RbOut Unit
  | none, l => .raise l
  | some a, l => f a l

/-- rb:338-340, the head of `fromVector`: `GC_set_vector`, whose answer is not looked at -/
def fromVector (n : Nat) (loop : Lib → RbOut Unit) (l : Lib) : RbOut Unit :=
  withArg (fun k l => (call (.setVector k) l).bind fun l _ => loop l) (ffiInt n) l

mutual
/-- rb:361-396, `GC_from_hash`; `addToVector` rb:290-336 -/
def fromHash : Rb → Lib → RbOut Unit
  | .arr [], l => check .setEmptyVecBool l
  | .arr (x :: xs), l =>
    match emptyCall x with
    | none => fromVector (xs.length + 1) (fromElems (x :: xs) 0) l
    | some c => (check c l).bind fun l _ => pushAll (fromVector (xs.length + 1) (fromElems (x :: xs) 0)) (x :: xs) l
  | .hash m, l => (call .setMap l).bind fun l _ => fromEntries m l
  | v, l =>
    match setArg v with
    | .call c => check c l
    | .refused => .raise l
    | .none => .ok l ()
/-- rb:341-347, the loop of `fromVector`, from position `i` on -/
def fromElems : List Rb → Nat → Lib → RbOut Unit
  | [], _, l => .ok l ()
  | x :: xs, i, l =>
    (check (.pushVectorPosition (BitVec.ofNat 32 i)) l).bind fun l _ =>
    (fromHash x l).bind fun l _ =>
    (check .popHead l).bind fun l _ => fromElems xs (i + 1) l
/-- rb:352-358, the loop of `fromMixedHash` -/
def fromEntries : List (Bytes × Rb) → Lib → RbOut Unit
  | [], l => .ok l ()
  | (k, v) :: m, l =>
    match ffiString k with
    | none => .raise l
    | some k =>
      (check (.pushMapPosition k) l).bind fun l _ =>
      (fromHash v l).bind fun l _ =>
      (check .popHead l).bind fun l _ => fromEntries m l
end

/-! ## Reading -/

/-- `(0..n-1).each` from position `i` on, with the results. -/
def each {α : Type} (f : Nat → Lib → RbOut α) : Nat → Nat → Lib → RbOut (List α)
  | 0, _, l => .ok l []
  | k + 1, i, l => (f i l).bind fun l a => (each f k (i + 1) l).bind fun l r => .ok l (a :: r)

/-- The Ruby object for what a C function returns. -/
def toRb : Value → Rb
  | .code c => .int c
  | .bool b => .int (if b then 1 else 0)
  | .int i => .int i.toInt
  | .long i => .int i.toInt
  | .real r => .float r
  | .text (some s) => .str s
  | _ => .nil

/-- A call that gives an object. -/
def get (c : Call) (l : Lib) : RbOut Rb := (call c l).bind fun l v => .ok l (toRb v)

/-- A call that gives a size, as the bound of a loop: none for a negative one. -/
def size (c : Call) (l : Lib) : RbOut Nat :=
  (call c l).bind fun l v => .ok l (match v with | .int i => i.toInt.toNat | _ => 0)

/-- rb:150-169, 178-183 `toBoolVector`, `toIntVector`, `toRealVector`, `toStringVector` -/
def toList (c : I32 → Call) (l : Lib) : RbOut Rb :=
  (size .getVectorSize l).bind fun l n =>
  (each (fun i l => get (c (BitVec.ofNat 32 i)) l) n 0 l).bind fun l r => .ok l (.arr r)

/-- rb:171-176 `toComplexVector` -/
def toComplexVector (l : Lib) : RbOut Rb :=
  (size .getVectorSize l).bind fun l n =>
  (each (fun i l => (get (.getComplexReAt (BitVec.ofNat 32 i)) l).bind fun l a =>
    (get (.getComplexImAt (BitVec.ofNat 32 i)) l).bind fun l b => .ok l (.arr [a, b])) n 0 l).bind fun l r => .ok l (.arr r)

/-- rb:198-210 `toRealMatrix` -/
def toRealMatrix (l : Lib) : RbOut Rb :=
  (size .getNumRows l).bind fun l nr =>
  (size .getNumCols l).bind fun l nc =>
  (each (fun i l => (each (fun j l => get (.getRealCoor (BitVec.ofNat 32 i) (BitVec.ofNat 32 j)) l) nc 0 l).bind
    fun l r => .ok l (.arr r)) nr 0 l).bind fun l r => .ok l (.arr r)

/-- rb:212-224 `toComplexMatrix` -/
def toComplexMatrix (l : Lib) : RbOut Rb :=
  (size .getNumRows l).bind fun l nr =>
  (size .getNumCols l).bind fun l nc =>
  (each (fun i l => (each (fun j l =>
      (get (.getComplexReCoor (BitVec.ofNat 32 i) (BitVec.ofNat 32 j)) l).bind fun l a =>
      (get (.getComplexImCoor (BitVec.ofNat 32 i) (BitVec.ofNat 32 j)) l).bind fun l b => .ok l (.arr [a, b])) nc 0 l).bind
    fun l r => .ok l (.arr r)) nr 0 l).bind fun l r => .ok l (.arr r)

/-- rb:231 `while (key = self.GC_get_next_key) do keys << key end`, with at most `n` rounds (`none`: it is not over by
then); everything but `nil` and `false` is true in Ruby. -/
def keysLoop : Nat → List Bytes → Lib → Option (RbOut (List Bytes))
  | 0, _, _ => none
  | n + 1, ks, l =>
    match call .getNextKey l with
    | .ok l (.text (some k)) => keysLoop n (ks ++ [k]) l
    | .ok l _ => some (.ok l ks)
    | .raise l => some (.raise l)
    | .crash => some .crash
    | .ub => some .ub
    | .diverge => some .diverge
    | .deep => some .deep

open Classical in
/-- The loop as a whole. -/
noncomputable def keys (l : Lib) : RbOut (List Bytes) :=
  if h : ∃ n r, keysLoop n [] l = some r then h.choose_spec.choose else .diverge

/-- The loops of `toVector` (rb:188-194) and `toMixedHash` (rb:233-239): go to an element, read it, come back. -/
def visit (c : Call) (read : Lib → RbOut Rb) (l : Lib) : RbOut Rb :=
  (check c l).bind fun l _ => (read l).bind fun l r => (check .popHead l).bind fun l _ => .ok l r

/-- The loop of `toMixedHash` (rb:233-239). -/
def eachKey (read : Lib → RbOut Rb) : List Bytes → Lib → RbOut (List (Bytes × Rb))
  | [], l => .ok l []
  | k :: ks, l => (visit (.pushMapPosition k) read l).bind fun l r => (eachKey read ks l).bind fun l m => .ok l ((k, r) :: m)

/-- rb:243-281 `GC_to_hash`, with `toVector` (rb:185-196) and `toMixedHash` (rb:226-241); the argument bounds the depth of the
recursion. -/
noncomputable def toHash : Nat → Lib → RbOut Rb
  | 0, _ => .deep
  | n + 1, l =>
    (call .getTypeName l).bind fun l type =>
    if type = .text (some (str "bool_type")) then get (.getBool false) l
    else if type = .text (some (str "int_type")) then get (.getInt 0) l
    else if type = .text (some (str "long_type")) then get (.getLong 0) l
    else if type = .text (some (str "real_type")) then get (.getReal .zero) l
    else if type = .text (some (str "string_type")) then get .getString l
    else if type = .text (some (str "vec_bool_type")) then toList .getBoolAt l
    else if type = .text (some (str "vec_int_type")) then toList .getIntAt l
    else if type = .text (some (str "vec_real_type")) then toList .getRealAt l
    else if type = .text (some (str "vec_string_type")) then toList .getStringAt l
    else if type = .text (some (str "vec_complex_type")) then toComplexVector l
    else if type = .text (some (str "mat_real_type")) then toRealMatrix l
    else if type = .text (some (str "mat_complex_type")) then toComplexMatrix l
    else if type = .text (some (str "vector_type")) then
      (size .getVectorSize l).bind fun l k =>
      (each (fun i l => visit (.pushVectorPosition (BitVec.ofNat 32 i)) (toHash n) l) k 0 l).bind fun l r => .ok l (.arr r)
    else if type = .text (some (str "map_type")) then
      (check .initMapKey l).bind fun l _ =>
      (keys l).bind fun l ks =>
      (eachKey (toHash n) ks l).bind fun l m => .ok l (.hash m)
    else .ok l .nil

/-- rb:412-416, `load` of the class `GenericContainer`, whose `@id` is `id` -/
def load (id : Bytes) (data : Rb) (l : Lib) : RbOut Unit := (check (.select id) l).bind fun l _ => fromHash data l

/-- rb:422-426, `get_data` -/
noncomputable def get_data (n : Nat) (id : Bytes) (l : Lib) : RbOut Rb := (check (.select id) l).bind fun l _ => toHash n l

end Ruby
end GCV
