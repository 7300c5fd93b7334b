import Verif.Model.HeapOps
import Verif.Spec.Copy
import Verif.Spec.Tree

/-!
# What it means for memory to hold a container

`Rep m g c F`: the container object `c` in memory `m` holds the tree `g`, and its payloads, those of its elements, and so
on, are exactly the blocks at the addresses in `F`, each of them used once.  The keys of a `std::map` are in order.
-/

namespace GCV
namespace Heap
open GC

/-- The tags whose payload is in the object itself. -/
def immediate : GC → Bool
  | .notype | .bool _ | .int _ | .long _ | .real _ | .pointer _ => true
  | _ => false

mutual

def Rep (m : Mem) : GC → Cell → (Addr → Prop) → Prop
  | .vector v, c, F =>
    ∃ a cs G, c = .box .VECTOR a ∧ m.blk a = some (.vec cs) ∧ RepL m v cs G ∧ ¬ G a ∧ ∀ b, F b ↔ (b = a ∨ G b)
  | .map e, c, F =>
    ∃ a es G, c = .box .MAP a ∧ m.blk a = some (.map es) ∧ RepM m e es G ∧ KeysSorted e ∧ ¬ G a ∧
      ∀ b, F b ↔ (b = a ∨ G b)
  | g, c, F =>
    if immediate g then c = .imm g ∧ ∀ b, ¬ F b
    else ∃ a, c = .box g.ty a ∧ m.blk a = some (.leaf g) ∧ ∀ b, F b ↔ b = a
termination_by structural g => g

/-- The elements of a VECTOR, one after the other. -/
def RepL (m : Mem) : List GC → List Cell → (Addr → Prop) → Prop
  | [], cs, F => cs = [] ∧ ∀ b, ¬ F b
  | x :: xs, cs, F =>
    ∃ c cs' G H, cs = c :: cs' ∧ Rep m x c G ∧ RepL m xs cs' H ∧ (∀ b, G b → ¬ H b) ∧ ∀ b, F b ↔ (G b ∨ H b)
termination_by structural l => l

/-- The entries of a MAP, one after the other. -/
def RepM (m : Mem) : Entries → List (Bytes × Cell) → (Addr → Prop) → Prop
  | [], es, F => es = [] ∧ ∀ b, ¬ F b
  | (k, x) :: xs, es, F =>
    ∃ c es' G H, es = (k, c) :: es' ∧ Rep m x c G ∧ RepM m xs es' H ∧ (∀ b, G b → ¬ H b) ∧ ∀ b, F b ↔ (G b ∨ H b)
termination_by structural l => l

end

/-! ## Programs on values -/

/-- The values of the variables of a program; `none` for a name that is not in scope. -/
abbrev Vals := Nat → Option GC

/-- The value at a place. -/
def Vals.get (E : Vals) (x : Place) : Option GC := (E x.var).bind (getAt x.path)

/-- The value at a place replaced. -/
def Vals.put (E : Vals) (x : Place) (g : GC) : Vals :=
  fun y => if y = x.var then (E y).map (modAt x.path fun _ => g) else E y

/-- A call at a place, on values; nothing changes when the place does not exist or the call throws. -/
def Vals.at (E : Vals) (x : Place) (f : GC → Option GC) : Vals :=
  match E.get x with
  | some g => match f g with
    | some g' => E.put x g'
    | none => E
  | none => E

/-- The result of a call that succeeds. -/
def result : Out GC → Option GC
  | .ok g => some g
  | _ => none

/-- What a step of a program does to the values of its variables. -/
def Vals.step (E : Vals) : POp → Vals
  | .construct x => match E x with
    | some _ => E
    | none => fun y => if y = x then some notype else E y
  | .copyConstruct x y => match E x, E.get y with
    | none, some g => fun z => if z = x then result (copy g) else E z
    | _, _ => E
  | .destroy x => fun y => if y = x then none else E y
  | .clear x => E.at x fun _ => some notype
  | .set x g => E.at x fun old => result (from_gc g old)
  | .setVector x n => E.at x fun old => some (set_vector n old)
  | .setMap x => E.at x fun old => some (set_map old)
  | .idx x i => E.at x fun old => some (vector (checkResize notype i old.oldVector))
  | .key x k => E.at x fun old => some (map (mset (cstr k) ((mfind (cstr k) old.oldMap).getD notype) old.oldMap))
  | .erase x k => E.at x fun old => match old with
    | map e => some (map (merase k e))
    | _ => none
  | .assign x y => match E.get y with
    | some g => E.at x fun old => result (from_gc g old)
    | none => E

/-- Neither of two places is inside the other. -/
def Apart (x y : Place) : Prop := x.var = y.var → ¬ x.path <+: y.path ∧ ¬ y.path <+: x.path

/-- Steps with arguments the functions are made for: sizes and indices that fit in `unsigned`, and an assignment between
places of which neither is inside the other. -/
def POp.Ok : POp → Prop
  | .set _ g => (∀ v, g ≠ vector v) ∧ (∀ e, g ≠ map e) ∧ WF g ∧ Fits g
  | .setVector _ n => n < 2 ^ 32
  | .idx _ i => i + 1 < 2 ^ 32
  | .assign x y => Apart x y
  | _ => True

/-! ## What memory has to look like -/

/-- Nothing is allocated at addresses that have not been used. -/
def Wf (m : Mem) : Prop := ∀ b, m.next ≤ b → m.blk b = none

/-- Memory holds the variables `E`, each in blocks of its own, and nothing else.  `A x` are the addresses that belong to
`x`: the variable itself and the payloads reached from it. -/
def Holds (s : St) (E : Vals) : Prop :=
  Wf s.mem ∧ ∃ A : Nat → Addr → Prop,
    (∀ x, match E x with
      | none => s.env x = none ∧ ∀ b, ¬ A x b
      | some g => ∃ a c F, s.env x = some a ∧ s.mem.blk a = some (.var c) ∧ Rep s.mem g c F ∧ ¬ F a ∧
          ∀ b, A x b ↔ (b = a ∨ F b)) ∧
    (∀ x y b, x ≠ y → A x b → ¬ A y b) ∧
    (∀ b, s.mem.blk b ≠ none → ∃ x, A x b)

end Heap
end GCV
