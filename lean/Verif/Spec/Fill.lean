import Verif.Spec.Cursor

/-!
# Specification vocabulary: what `GC_fill_for_test` leaves

Stated by what can be read back: element by element, and key by key. `old` is what the container held before. Parts of `old`
that already have the type asked for are kept: the call adds to the lists it finds.
-/

namespace GCV
namespace CApi
open GC

/-- Element `i` of a VECTOR; an empty container where there is none. -/
def before (old : GC) (i : Nat) : GC :=
  match old with
  | vector v => match v[i]? with | some x => x | none => notype
  | _ => notype

/-- The value of a key of a MAP. -/
def under (old : GC) (k : Bytes) : Option GC := match old with | map m => mfind k m | _ => none

/-- Entry `i` of a list, `z` where there is none. -/
def orElse {α : Type} (z : α) (l : List α) (i : Nat) : α := match l[i]? with | some x => x | none => z

def textsOf : GC → List Bytes | vecString v => v | _ => []
def intsOf : GC → List I32 | vecInt v => v | _ => []
def realsOf : GC → List F64 | vecReal v => v | _ => []
def complexesOf : GC → List Cplx | vecComplex v => v | _ => []
def realEntriesOf : GC → List F64 | matReal m => m.data | _ => []
def complexEntriesOf : GC → List Cplx | matComplex m => m.data | _ => []

/-- `new` is `old` filled for the tests; `fl` gives the double of each constant in the code. -/
def Filled (fl : String → F64) (old new : GC) : Prop :=
  ∃ (r : List F64) (m n : Entries),
    new = vector
      [int 1,
       vecReal r,
       map m,
       vecString (textsOf (before old 3) ++ [str "string1", str "string2", str "string3", str "string4"]),
       real (fl "1.3"),
       string (str "pippo"),
       map n,
       vector [int 123, real (fl "3.14"), string (str "nonna papera"),
         vecComplex (complexesOf (before (before old 7) 3) ++
           [⟨fl "1", fl "0"⟩, ⟨fl "2", fl "0"⟩, ⟨fl "3", fl "0"⟩, ⟨fl "-12", fl "2"⟩])],
       matReal ⟨2, 2, [orElse .zero (realEntriesOf (before old 8)) 0, orElse .zero (realEntriesOf (before old 8)) 1,
         fl "3", fl "2"]⟩,
       matComplex ⟨2, 2, [orElse .zero (complexEntriesOf (before old 9)) 0, orElse .zero (complexEntriesOf (before old 9)) 1,
         ⟨fl "1", fl "-1"⟩, ⟨fl "2", fl "2"⟩]⟩,
       bool true] ∧
    r.length = 10 ∧ r[2]? = some (fl "123") ∧
    (∀ i : Nat, i < 10 → i ≠ 2 → r[i]? = some (orElse .zero (realsOf (before old 1)) i)) ∧
    (∀ k, mfind k m =
      if k = str "pippo" then some (int 13) else if k = str "pluto" then some (int 1)
      else if k = str "paperino" then some (int 3) else if k = str "aaa" then some (string (str "stringa1"))
      else if k = str "bbb" then some (string (str "stringa2")) else under (before old 2) k) ∧
    (∀ k, mfind k n =
      if k = str "aaa" then some (int 123) else if k = str "bbb" then some (real (fl "3.4"))
      else if k = str "vector" then
        some (vecInt ((match under (before old 6) (str "vector") with | some x => intsOf x | none => []) ++ [12, 10, 1]))
      else under (before old 6) k)

end CApi
end GCV
