import Verif.Model.Serialize
import Verif.Spec.Wire
import Verif.Lemmas.Map

/-! # Lemmas about serialization -/

namespace GCV

theorem length_leBytes (n x : Nat) : (leBytes n x).length = n := by
  induction n generalizing x with
  | zero => rfl
  | succ n ih => simp [leBytes, ih]

theorem leValue_leBytes (n x : Nat) : leValue (leBytes n x) = x % 256 ^ n := by
  induction n generalizing x with
  | zero => simp [leBytes, leValue, Nat.mod_one]
  | succ n ih =>
    simp only [leBytes, leValue, ih, BitVec.toNat_ofNat]
    rw [show 256 ^ (n + 1) = 256 * 256 ^ n from Nat.pow_succ', Nat.mod_mul]

theorem leValue_le_of_lt {n x : Nat} (h : x < 256 ^ n) : leValue (leBytes n x) = x := by
  rw [leValue_leBytes, Nat.mod_eq_of_lt h]

theorem Out.bind_ok {α β : Type} (a : α) (f : α → Out β) : (Out.ok a).bind f = f a := by
  rw [Out.bind]

/-! ## The encoding -/

def encStr (s : Bytes) : Bytes := leBytes 4 (s.length + 1) ++ (s ++ [0])
def encBool (b : Bool) : Bytes := [if b then 1 else 0]
def encCplx (c : Cplx) : Bytes := leBytes 8 c.re.bits.toNat ++ leBytes 8 c.im.bits.toNat

namespace GC

mutual
/-- The bytes `serialize` writes. -/
def enc : GC → Bytes
  | notype => leBytes 4 (Ty.code .NOTYPE)
  | pointer p => leBytes 4 (Ty.code .POINTER) ++ leBytes 8 p.toNat
  | bool b => leBytes 4 (Ty.code .BOOL) ++ encBool b
  | int i => leBytes 4 (Ty.code .INTEGER) ++ leBytes 4 i.toNat
  | long i => leBytes 4 (Ty.code .LONG) ++ leBytes 8 i.toNat
  | real r => leBytes 4 (Ty.code .REAL) ++ leBytes 8 r.bits.toNat
  | complex c => leBytes 4 (Ty.code .COMPLEX) ++ encCplx c
  | string s => leBytes 4 (Ty.code .STRING) ++ encStr s
  | vecPointer v => leBytes 4 (Ty.code .VEC_POINTER) ++ (leBytes 4 v.length ++
      v.flatMap fun p => leBytes 8 p.toNat)
  | vecBool v => leBytes 4 (Ty.code .VEC_BOOL) ++ (leBytes 4 v.length ++ v.flatMap encBool)
  | vecInt v => leBytes 4 (Ty.code .VEC_INTEGER) ++ (leBytes 4 v.length ++
      v.flatMap fun p => leBytes 4 p.toNat)
  | vecLong v => leBytes 4 (Ty.code .VEC_LONG) ++ (leBytes 4 v.length ++
      v.flatMap fun p => leBytes 8 p.toNat)
  | vecReal v => leBytes 4 (Ty.code .VEC_REAL) ++ (leBytes 4 v.length ++
      v.flatMap fun p => leBytes 8 p.bits.toNat)
  | vecComplex v => leBytes 4 (Ty.code .VEC_COMPLEX) ++ (leBytes 4 v.length ++
      v.flatMap encCplx)
  | vecString v => leBytes 4 (Ty.code .VEC_STRING) ++ (leBytes 4 v.length ++
      v.flatMap encStr)
  | matInt m => leBytes 4 (Ty.code .MAT_INTEGER) ++ (leBytes 4 m.nr ++ (leBytes 4 m.nc ++
      m.data.flatMap fun p => leBytes 4 p.toNat))
  | matLong m => leBytes 4 (Ty.code .MAT_LONG) ++ (leBytes 4 m.nr ++ (leBytes 4 m.nc ++
      m.data.flatMap fun p => leBytes 8 p.toNat))
  | matReal m => leBytes 4 (Ty.code .MAT_REAL) ++ (leBytes 4 m.nr ++ (leBytes 4 m.nc ++
      m.data.flatMap fun p => leBytes 8 p.bits.toNat))
  | matComplex m => leBytes 4 (Ty.code .MAT_COMPLEX) ++ (leBytes 4 m.nr ++ (leBytes 4 m.nc ++
      m.data.flatMap encCplx))
  | vector v => leBytes 4 (Ty.code .VECTOR) ++ (leBytes 4 v.length ++ encL v)
  | map m => leBytes 4 (Ty.code .MAP) ++ (leBytes 4 m.length ++ encM m)
termination_by structural g => g

def encL : List GC → Bytes
  | [] => []
  | x :: r => enc x ++ encL r
termination_by structural g => g

def encM : Entries → Bytes
  | [] => []
  | (k, x) :: r => (encStr k ++ enc x) ++ encM r
termination_by structural g => g
end

end GC

theorem length_encStr (s : Bytes) : (encStr s).length = 4 + s.length + 1 := by
  simp [encStr, length_leBytes]; omega

theorem length_flatMap_const {α : Type} (e : α → Bytes) (n : Nat) (h : ∀ x, (e x).length = n) :
    ∀ v : List α, (v.flatMap e).length = n * v.length
  | [] => by simp
  | x :: r => by simp [h, length_flatMap_const e n h r, Nat.mul_add]; omega

theorem length_flatMap_encStr : ∀ v : List Bytes,
    (v.flatMap encStr).length = (v.map fun s => 4 + s.length + 1).sum
  | [] => by simp
  | x :: r => by
    simp only [List.flatMap_cons, List.length_append, length_encStr, length_flatMap_encStr r,
      List.map_cons, List.sum_cons]

theorem encL_flatMap : ∀ v : List GC, GC.encL v = v.flatMap GC.enc
  | [] => rfl
  | x :: r => by simp [GC.encL, encL_flatMap r]

theorem encM_flatMap : ∀ m : Entries, GC.encM m = m.flatMap fun e => encStr e.1 ++ GC.enc e.2
  | [] => rfl
  | (k, x) :: r => by simp [GC.encM, encM_flatMap r]

theorem length_enc : (∀ g, (GC.enc g).length = GC.wireSize g) ∧
    (∀ v, (GC.encL v).length = GC.wireSizeL v) ∧
    (∀ m, (GC.encM m).length = GC.wireSizeM m) := by
  apply GC.induct
  · intro g hv hm
    cases g with
    | vector v => exact absurd rfl (hv v)
    | map m => exact absurd rfl (hm m)
    | vecString v => simp only [GC.enc, GC.wireSize, List.length_append, length_leBytes,
        length_flatMap_encStr]; omega
    | vecBool v => simp only [GC.enc, GC.wireSize, List.length_append, length_leBytes,
        length_flatMap_const encBool 1 (fun _ => rfl)]; omega
    | vecComplex v => simp only [GC.enc, GC.wireSize, List.length_append, length_leBytes,
        length_flatMap_const encCplx 16 (fun _ => by simp [encCplx, length_leBytes])]; omega
    | matComplex v => simp only [GC.enc, GC.wireSize, List.length_append, length_leBytes,
        length_flatMap_const encCplx 16 (fun _ => by simp [encCplx, length_leBytes])]; omega
    | vecPointer v => simp only [GC.enc, GC.wireSize, List.length_append, length_leBytes,
        length_flatMap_const _ 8 (fun _ => length_leBytes _ _)]; omega
    | vecInt v => simp only [GC.enc, GC.wireSize, List.length_append, length_leBytes,
        length_flatMap_const _ 4 (fun _ => length_leBytes _ _)]; omega
    | vecLong v => simp only [GC.enc, GC.wireSize, List.length_append, length_leBytes,
        length_flatMap_const _ 8 (fun _ => length_leBytes _ _)]; omega
    | vecReal v => simp only [GC.enc, GC.wireSize, List.length_append, length_leBytes,
        length_flatMap_const _ 8 (fun _ => length_leBytes _ _)]; omega
    | matInt v => simp only [GC.enc, GC.wireSize, List.length_append, length_leBytes,
        length_flatMap_const _ 4 (fun _ => length_leBytes _ _)]; omega
    | matLong v => simp only [GC.enc, GC.wireSize, List.length_append, length_leBytes,
        length_flatMap_const _ 8 (fun _ => length_leBytes _ _)]; omega
    | matReal v => simp only [GC.enc, GC.wireSize, List.length_append, length_leBytes,
        length_flatMap_const _ 8 (fun _ => length_leBytes _ _)]; omega
    | string s => simp only [GC.enc, GC.wireSize, List.length_append, length_leBytes,
        length_encStr]
    | _ => simp [GC.enc, GC.wireSize, length_leBytes, encBool, encCplx]
  · intro v ih
    simp only [GC.enc, GC.wireSize, List.length_append, length_leBytes, ih]; omega
  · intro v ih
    simp only [GC.enc, GC.wireSize, List.length_append, length_leBytes, ih]; omega
  · rfl
  · intro x xs h1 h2
    simp only [GC.encL, GC.wireSizeL, List.length_append, h1, h2]
  · rfl
  · intro k x xs h1 h2
    simp only [GC.encM, GC.wireSizeM, List.length_append, h1, h2, length_encStr]

/-! ## mem_size -/

theorem toI32_of_lt {n : Nat} (h : n < 2 ^ 31) : toI32 n = n := by
  unfold toI32
  rw [BitVec.toInt_eq_toNat_cond, BitVec.toNat_ofNat, Nat.mod_eq_of_lt (by omega), if_pos (by omega)]

theorem ofInt32_of_lt {n : Int} (h0 : 0 ≤ n) (h : n < 2 ^ 31) : (BitVec.ofInt 32 n).toInt = n := by
  rw [BitVec.toInt_ofInt, Int.bmod_def]
  omega

theorem addI32_of_lt {a b : Nat} (h : a + b < 2 ^ 31) : addI32 a b = .ok (a + b : Nat) := by
  unfold addI32
  rw [if_pos (by omega)]
  simp

theorem mem_sizeS_eq : ∀ (v : List Bytes) (r : Nat),
    r + (v.map fun s => 4 + s.length + 1).sum < 2 ^ 31 →
    GC.mem_sizeS v r = .ok (r + (v.map fun s => 4 + s.length + 1).sum : Nat)
  | [], r, _ => by simp [GC.mem_sizeS]
  | s :: v, r, h => by
    simp only [List.map_cons, List.sum_cons] at h ⊢
    rw [GC.mem_sizeS, toI32_of_lt (by omega), addI32_of_lt (by omega), Out.bind_ok, mem_sizeS_eq v _ (by omega)]
    congr 2; omega

theorem mem_size_eq :
    (∀ g, GC.wireSize g < 2 ^ 31 → GC.mem_size g = .ok (GC.wireSize g : Nat)) ∧
    (∀ v (r : Nat), r + GC.wireSizeL v < 2 ^ 31 →
      GC.mem_sizeL v r = .ok (r + GC.wireSizeL v : Nat)) ∧
    (∀ m (r : Nat), r + GC.wireSizeM m < 2 ^ 31 →
      GC.mem_sizeM m r = .ok (r + GC.wireSizeM m : Nat)) := by
  apply GC.induct
  · intro g hv hm h
    cases g with
    | vector v => exact absurd rfl (hv v)
    | map m => exact absurd rfl (hm m)
    | vecString v =>
      simp only [GC.wireSize] at h ⊢
      rw [GC.mem_size, show (8 : Int) = ((8 : Nat) : Int) from rfl, mem_sizeS_eq v 8 (by omega)]
    | notype => rfl
    | string s =>
      simp only [GC.wireSize] at h ⊢
      rw [GC.mem_size, toI32_of_lt (by omega)]
      congr 2; omega
    | _ =>
      simp only [GC.wireSize] at h ⊢
      rw [GC.mem_size, toI32_of_lt (by omega)]
  · intro v ih h
    simp only [GC.wireSize] at h ⊢
    rw [GC.mem_size, show (8 : Int) = ((8 : Nat) : Int) from rfl, ih 8 (by omega)]
  · intro v ih h
    simp only [GC.wireSize] at h ⊢
    rw [GC.mem_size, show (8 : Int) = ((8 : Nat) : Int) from rfl, ih 8 (by omega)]
  · intro r _; rfl
  · intro x xs h1 h2 r h
    simp only [GC.wireSizeL] at h ⊢
    rw [GC.mem_sizeL, h1 (by omega), Out.bind_ok, addI32_of_lt (by omega), Out.bind_ok, h2 _ (by omega), Nat.add_assoc]
  · intro r _; rfl
  · intro k x xs h1 h2 r h
    simp only [GC.wireSizeM] at h ⊢
    rw [GC.mem_sizeM, h1 (by omega)]
    rw [Out.bind_ok, ofInt32_of_lt (by omega) (by omega),
      show (4 + (k.length : Int) + 1 + (GC.wireSize x : Nat)) =
        ((4 + k.length + 1 + GC.wireSize x : Nat) : Int) by omega, addI32_of_lt (by omega), Out.bind_ok, h2 _ (by omega)]
    congr 2; omega

/-! ## Writing -/

namespace Wr

/-- The space announced by `available` exists. -/
def Good (w : Wr) : Prop :=
  0 ≤ w.avail ∧ w.avail < 2 ^ 31 ∧ (w.pos : Int) + w.avail ≤ w.buf.length

def write (bs : Bytes) (w : Wr) : Wr :=
  ⟨w.buf.take w.pos ++ bs ++ w.buf.drop (w.pos + bs.length), w.pos + bs.length,
    w.avail - bs.length⟩

/-- Writes when it fits, throws otherwise. -/
def tryPut (bs : Bytes) (w : Wr) : Out Wr :=
  if (bs.length : Int) ≤ w.avail then .ok (w.write bs) else .throw

theorem good_write {w : Wr} {bs : Bytes} (h : w.Good) (hb : (bs.length : Int) ≤ w.avail) :
    (w.write bs).Good := by
  unfold Good write at *
  simp only [List.length_append, List.length_take, List.length_drop]
  omega

theorem tryPut_nil {w : Wr} (h : w.Good) : w.tryPut [] = .ok w := by
  unfold tryPut write Good at *
  rw [if_pos (by simp; omega)]
  simp

theorem tryPut_append {w : Wr} (h : w.Good) (a b : Bytes) :
    (w.tryPut a).bind (tryPut b) = w.tryPut (a ++ b) := by
  unfold tryPut
  by_cases ha : (a.length : Int) ≤ w.avail
  · rw [if_pos ha]
    simp only [Out.bind, List.length_append]
    have : (w.write a).avail = w.avail - a.length := rfl
    rw [this]
    by_cases hb : (b.length : Int) ≤ w.avail - a.length
    · rw [if_pos hb, if_pos (by omega)]
      congr 1
      unfold write Good at *
      simp only [Wr.mk.injEq]
      have hl : (w.buf.take w.pos ++ a).length = w.pos + a.length := by simp; omega
      refine ⟨?_, by simp; omega, by simp; omega⟩
      simp only [List.length_append]
      rw [List.take_append_of_le_length (by omega), List.take_of_length_le (by omega),
        List.drop_append, List.drop_eq_nil_of_le (as := List.take w.pos w.buf ++ a) (by omega),
        List.drop_drop, hl, List.nil_append]
      simp only [List.append_assoc]
      congr 4; omega
    · rw [if_neg hb, if_neg (by omega)]
  · rw [if_neg ha, if_neg (by simp; omega)]; rfl

theorem bind_tryPut {w : Wr} (h : w.Good) (a b : Bytes) {f : Wr → Out Wr}
    (hf : ∀ w', w'.Good → f w' = w'.tryPut b) : (w.tryPut a).bind f = w.tryPut (a ++ b) := by
  rw [← tryPut_append h]
  unfold tryPut
  by_cases ha : (a.length : Int) ≤ w.avail
  · rw [if_pos ha]; exact hf _ (good_write h ha)
  · rw [if_neg ha]; rfl

theorem put_eq {w : Wr} (h : w.Good) (bs : Bytes) : w.put bs = w.tryPut bs := by
  unfold put tryPut store Good at *
  rw [Int.emod_eq_of_lt h.1 (by omega)]
  by_cases hb : (bs.length : Int) ≤ w.avail
  · rw [if_pos hb, if_pos hb, if_pos (by omega)]; rfl
  · rw [if_neg hb, if_neg hb]

theorem putStr_eq {w : Wr} (h : w.Good) (s : Bytes) (hs : s.length + 1 < 2 ^ 31) :
    w.putStr s = w.tryPut (encStr s) := by
  unfold putStr put32 encStr
  rw [put_eq h]
  apply bind_tryPut h
  intro w' h'
  simp only [toI32_of_lt hs]
  unfold tryPut
  simp only [List.length_append, List.length_cons, List.length_nil]
  by_cases hc : w'.avail < ((s.length + 1 : Nat) : Int)
  · rw [if_pos hc, if_neg (by omega)]
  · rw [if_neg hc, if_neg (by omega), if_pos (by omega)]
    have : (s ++ [(0 : Byte)]).take (((s.length + 1 : Nat) : Int)).toNat = s ++ [0] := by
      apply List.take_of_length_le; simp
    rw [this]
    unfold store Good at *
    rw [if_pos (by simp; omega)]; rfl

theorem each_eq {α : Type} {f : α → Wr → Out Wr} {e : α → Bytes} : ∀ (v : List α),
    (∀ x ∈ v, ∀ w : Wr, w.Good → f x w = w.tryPut (e x)) → ∀ w : Wr, w.Good →
    each f v w = w.tryPut (v.flatMap e)
  | [], _, w, h => by simp [each, tryPut_nil h]
  | x :: r, hf, w, h => by
    rw [each, hf x (by simp) w h, List.flatMap_cons]
    exact bind_tryPut h _ _ (each_eq r fun y hy => hf y (.tail _ hy))

end Wr

open Wr in
theorem ser_eq :
    (∀ g, GC.Writable g → ∀ w : Wr, w.Good → GC.ser g w = w.tryPut (GC.enc g)) ∧
    (∀ v, GC.everyL GC.writableNode v = true → ∀ w : Wr, w.Good →
      GC.serL v w = w.tryPut (GC.encL v)) ∧
    (∀ m, GC.everyM GC.writableNode m = true → (∀ e ∈ m, e.1.length + 1 < 2 ^ 31) →
      ∀ w : Wr, w.Good → GC.serM m w = w.tryPut (GC.encM m)) := by
  apply GC.induct
  · intro g hv hm hg w h
    have hg : GC.writableNode g = true := by
      cases g <;> simp [GC.Writable, GC.every] at hg <;> try exact hg
      · exact absurd rfl (hv _)
      · exact absurd rfl (hm _)
    have h32 : ∀ x (w : Wr), w.Good → w.put32 x = w.tryPut (leBytes 4 x) :=
      fun x w h => put_eq h _
    have h64 : ∀ x (w : Wr), w.Good → w.put64 x = w.tryPut (leBytes 8 x) :=
      fun x w h => put_eq h _
    have hc : ∀ c (w : Wr), w.Good → ((w.put64 c.re.bits.toNat).bind
        fun w => w.put64 c.im.bits.toNat) = w.tryPut (encCplx c) := by
      intro c w h
      rw [h64 _ _ h]; exact bind_tryPut h _ _ fun w h => h64 _ _ h
    cases g with
    | vector v => exact absurd rfl (hv v)
    | map m => exact absurd rfl (hm m)
    | matComplex m => simp [GC.writableNode] at hg
    | notype => exact h32 _ _ h
    | pointer p => rw [GC.ser, h32 _ _ h]; exact bind_tryPut h _ _ (h64 _)
    | bool b => rw [GC.ser, h32 _ _ h]; exact bind_tryPut h _ _ fun w h => put_eq h _
    | int b => rw [GC.ser, h32 _ _ h]; exact bind_tryPut h _ _ (h32 _)
    | long b => rw [GC.ser, h32 _ _ h]; exact bind_tryPut h _ _ (h64 _)
    | real b => rw [GC.ser, h32 _ _ h]; exact bind_tryPut h _ _ (h64 _)
    | complex c => rw [GC.ser, h32 _ _ h]; exact bind_tryPut h _ _ (hc c)
    | string s =>
      simp [GC.writableNode] at hg
      rw [GC.ser, h32 _ _ h]; exact bind_tryPut h _ _ fun w h => putStr_eq h s hg
    | vecPointer v =>
      rw [GC.ser, h32 _ _ h]
      refine bind_tryPut h _ _ fun w h => ?_
      rw [h32 _ _ h]
      exact bind_tryPut h _ _ (each_eq v fun x _ => h64 _)
    | vecBool v =>
      rw [GC.ser, h32 _ _ h]
      refine bind_tryPut h _ _ fun w h => ?_
      rw [h32 _ _ h]
      exact bind_tryPut h _ _ (each_eq v fun x _ w h => put_eq h _)
    | vecInt v =>
      rw [GC.ser, h32 _ _ h]
      refine bind_tryPut h _ _ fun w h => ?_
      rw [h32 _ _ h]
      exact bind_tryPut h _ _ (each_eq v fun x _ => h32 _)
    | vecLong v =>
      rw [GC.ser, h32 _ _ h]
      refine bind_tryPut h _ _ fun w h => ?_
      rw [h32 _ _ h]
      exact bind_tryPut h _ _ (each_eq v fun x _ => h64 _)
    | vecReal v =>
      rw [GC.ser, h32 _ _ h]
      refine bind_tryPut h _ _ fun w h => ?_
      rw [h32 _ _ h]
      exact bind_tryPut h _ _ (each_eq v fun x _ => h64 _)
    | vecComplex v =>
      rw [GC.ser, h32 _ _ h]
      refine bind_tryPut h _ _ fun w h => ?_
      rw [h32 _ _ h]
      exact bind_tryPut h _ _ (each_eq v fun x _ => hc x)
    | vecString v =>
      simp [GC.writableNode] at hg
      rw [GC.ser, h32 _ _ h]
      refine bind_tryPut h _ _ fun w h => ?_
      rw [h32 _ _ h]
      exact bind_tryPut h _ _ (each_eq v fun x hx w h => putStr_eq h x (hg x hx))
    | matInt m =>
      rw [GC.ser, h32 _ _ h]
      refine bind_tryPut h _ _ fun w h => ?_
      rw [h32 _ _ h]
      refine bind_tryPut h _ _ fun w h => ?_
      rw [h32 _ _ h]
      exact bind_tryPut h _ _ (each_eq m.data fun x _ => h32 _)
    | matLong m =>
      rw [GC.ser, h32 _ _ h]
      refine bind_tryPut h _ _ fun w h => ?_
      rw [h32 _ _ h]
      refine bind_tryPut h _ _ fun w h => ?_
      rw [h32 _ _ h]
      exact bind_tryPut h _ _ (each_eq m.data fun x _ => h64 _)
    | matReal m =>
      rw [GC.ser, h32 _ _ h]
      refine bind_tryPut h _ _ fun w h => ?_
      rw [h32 _ _ h]
      refine bind_tryPut h _ _ fun w h => ?_
      rw [h32 _ _ h]
      exact bind_tryPut h _ _ (each_eq m.data fun x _ => h64 _)
  · intro v ih hg w h
    have hg : GC.everyL GC.writableNode v = true := by
      simpa [GC.Writable, GC.every, GC.writableNode] using hg
    rw [GC.ser, put32, put_eq h]
    refine bind_tryPut h _ _ fun w h => ?_
    rw [put32, put_eq h]
    exact bind_tryPut h _ _ (ih hg)
  · intro m ih hg w h
    have hg : (∀ e ∈ m, e.1.length + 1 < 2 ^ 31) ∧ GC.everyM GC.writableNode m = true := by
      simpa [GC.Writable, GC.every, GC.writableNode] using hg
    rw [GC.ser, put32, put_eq h]
    refine bind_tryPut h _ _ fun w h => ?_
    rw [put32, put_eq h]
    exact bind_tryPut h _ _ (ih hg.2 hg.1)
  · intro _ w h; exact (tryPut_nil h).symm
  · intro x xs h1 h2 hg w h
    simp only [GC.everyL, Bool.and_eq_true] at hg
    rw [GC.serL, h1 hg.1 w h]
    exact bind_tryPut h _ _ (h2 hg.2)
  · intro _ _ w h; exact (tryPut_nil h).symm
  · intro k x xs h1 h2 hg hk w h
    simp only [GC.everyM, Bool.and_eq_true] at hg
    rw [GC.serM, putStr_eq h k (hk _ (.head _)), GC.encM, List.append_assoc]
    refine bind_tryPut h _ _ fun w h => ?_
    rw [h1 hg.1 w h]
    exact bind_tryPut h _ _ (h2 hg.2 fun e he => hk e (.tail _ he))

end GCV
