import Verif.Lemmas.HeapPromote

/-! # Every call that does not go through elements, in memory -/

namespace GCV
namespace Heap
open GC

variable {m m' m1 m2 : Mem} {g g' x y r : GC} {c c' : Cell} {F F' G H : Addr → Prop} {d s l : Loc} {a b : Addr}
  {ip : Nat → Nat → Bool}

theorem copyL_throw {α : Type} {v w : List α} {k : List α → GC} : (copyL v w).bind (fun w => .ok (k w)) ≠ .throw := by
  unfold copyL
  split <;> simp [Out.bind]

theorem from_leafy (h : leafy x = true) : from_gc x g ≠ .throw := by
  cases x <;> first
    | (simp [leafy] at h; done)
    | exact copyL_throw
    | (cases g <;> exact copyL_throw)
    | (intro e; cases e; done)

theorem CallOk.set {r : Res Unit} (h : leafy x = true) (hr : keep g (from_gc x g) = r) :
    CallOk (fun n d => setF n d x) g r := by
  subst hr
  have hx1 : ∀ v, x ≠ vector v := by rintro v rfl; simp [leafy] at h
  have hx2 : ∀ v, x ≠ map v := by rintro v rfl; simp [leafy] at h
  cases hf : from_gc x g with
  | ok g' => exact CallOk.of (sizeOf g) fun n hn => opOk_set hn hx1 hx2 hf
  | ub => exact .ub
  | diverge => exact .diverge
  | throw => exact absurd hf (from_leafy h)

def boxedTy : Ty → Bool
  | .NOTYPE | .POINTER | .BOOL | .INTEGER | .LONG | .REAL | .VECTOR | .MAP => false
  | _ => true

theorem boxed_eq : boxed g = boxedTy g.ty := by cases g <;> rfl

theorem CallOk.erase {k : Bytes} : CallOk (fun n d => eraseF n d k) g (GC.erase k g) := by
  by_cases h : ∃ e, g = map e
  · obtain ⟨e, rfl⟩ := h
    exact CallOk.of (sizeOf (map e)) fun n hn => opOk_erase hn
  · have hv : GC.erase k g = .throw g := by
      cases g <;> first | rfl | exact absurd ⟨_, rfl⟩ h
    rw [hv]
    exact ⟨0, fun n _ m d c F hw hr hg hd => ⟨m, c, F, eraseF_throw hr hg fun e he => h ⟨e, he⟩, Upd.refl hw hr, hg⟩⟩

/-- `allocate_T()` -/
theorem CallOk.alloc {e : GC} (he : boxed e = true) :
    CallOk (fun n d m => (allocBox n e.ty (.leaf e) d m).bind fun m _ => .ok m ()) g
      (.ok (if g.ty = e.ty then g else e) ()) := by
  refine ⟨sizeOf g, fun n hn m d c F hw hr hg hd => ?_⟩
  by_cases ht : g.ty = e.ty
  · have hb : boxed g = true := by rw [boxed_eq, ht, ← boxed_eq]; exact he
    obtain ⟨a, rfl, hb', hF⟩ := (rep_boxed hb).1 hg
    rw [if_pos ht]
    exact ⟨m, _, F, by dsimp only; rw [allocBox_keep (by rw [← ht]; exact hr)]; rfl, Upd.refl hw hr, hg⟩
  · rw [if_neg ht]
    obtain ⟨m', a, h1, h2, h3⟩ := allocBox_new (n := n) (t := e.ty) (B := .leaf e) hw hr hg hn hd (by
      rintro a rfl
      exact ht (rep_ty hg).symm)
    exact ⟨m', _, _, by dsimp only; rw [h1]; rfl, h2, (rep_boxed he).2 ⟨a, rfl, h3, fun _ => Iff.rfl⟩⟩

theorem CallOk.size {e : GC} {f : GC → Res Unit} {h : GC → GC} (he : boxed e = true) (hf : ∀ g, f g = .ok (h g) ())
    (h1 : ∀ g, boxed (h g) = true ∧ (h g).ty = e.ty) (h2 : g.ty ≠ e.ty → h e = h g) :
    CallOk (sizeF e f) g (.ok (h g) ()) := by
  have key : CallOk (sizeF e f) g ((Res.ok (if g.ty = e.ty then g else e) () : Res Unit).bind fun g' _ => f g') := by
    refine CallOk.seq (CallOk.alloc he) fun g' _ hg' => ?_
    injection hg' with hg' _
    have hb : boxed g' = true ∧ g'.ty = e.ty := by
      rw [← hg']
      split
      · rename_i ht
        exact ⟨by rw [boxed_eq, ht, ← boxed_eq]; exact he, ht⟩
      · exact ⟨he, rfl⟩
    refine CallOk.edit hb.1 (fun g'' h => ?_) (fun g'' h => ?_)
    · rw [hf] at h
      injection h with h _
      rw [← h, (h1 g').2, hb.2]
      exact ⟨(h1 g').1, rfl⟩
    · rw [hf] at h; cases h
  have hv : ((Res.ok (if g.ty = e.ty then g else e) () : Res Unit).bind fun g' _ => f g') = .ok (h g) () := by
    show f _ = _
    rw [hf]
    by_cases ht : g.ty = e.ty
    · rw [if_pos ht]
    · rw [if_neg ht, h2 ht]
  rwa [hv] at key

theorem CallOk.sizeMat {e : GC} {f : GC → Res Unit} {h : GC → GC} (he : boxed e = true) (hf : ∀ g, f g = .ok (h g) ())
    (h1 : ∀ g, boxed (h g) = true ∧ (h g).ty = e.ty) (h2 : g.ty ≠ e.ty → h g = e) :
    CallOk (sizeMatF e f) g (.ok (h g) ()) := by
  apply CallOk.tag
  by_cases ht : g.ty = e.ty
  · simp only [ht, if_true]
    rw [← hf]
    refine CallOk.edit ?_ (fun g'' h => ?_) (fun g'' h => ?_)
    · rw [boxed_eq, ht, ← boxed_eq]; exact he
    · rw [hf] at h
      injection h with h _
      rw [← h, (h1 g).2, ht]
      exact ⟨(h1 g).1, rfl⟩
    · rw [hf] at h; cases h
  · simp only [ht, if_false]
    have := CallOk.alloc (g := g) he
    rw [if_neg ht] at this
    rw [h2 ht]
    exact this

theorem CallOk.ckGet {empty : GC} {promoted : Ty → Bool} {how : Ty → How} {t : Ty} {f : GC → Res Unit} {r : Res Unit}
    (h0 : leafy empty = true) (h1 : from_gc empty notype = .ok empty) (h : HowOk how g)
    (hf : ∀ g', g'.ty = t → CallOk (editF f) g' (f g'))
    (hr : (readyVal empty promoted how g).bind (fun g' _ => if g'.ty = t then f g' else .throw g') = r) :
    CallOk (seqF (readyF empty promoted how) (ckF t f)) g r := by
  rw [← hr]
  exact CallOk.seq (k := fun g' => if g'.ty = t then f g' else .throw g') (CallOk.ready h0 h1 h)
    fun g' _ _ => CallOk.ck (hf g')

theorem CallOk.atGet {empty : GC} {promoted : Ty → Bool} {how : Ty → How} {t : Ty} {f : GC → Res Unit} {i : Nat}
    {r : Res Unit} (h0 : leafy empty = true) (h1 : from_gc empty notype = .ok empty) (h : HowOk how g)
    (hgood : ∀ g', readyVal empty promoted how g = .ok g' () → WF g' ∧ Fits g')
    (hx1 : leafy x = true) (hx : ∀ y, from_gc x y = .ok x)
    (hf : ∀ g', g'.ty = t → CallOk (editF f) g' (f g'))
    (hr : (readyVal empty promoted how g).bind (fun g' _ => atVal t f i x g') = r) :
    CallOk (atF ip (readyF empty promoted how) t f i x) g r := by
  rw [← hr]
  exact CallOk.seq (k := fun g' => atVal t f i x g') (CallOk.ready h0 h1 h)
    fun g' _ hg' => CallOk.at' (hgood g' hg').1 (hgood g' hg').2 hx1 hx (hf g')

theorem howGood_vecInt (hw : WF g) (hf : Fits g) (h : howVal howVecInt g = .ok g' ()) : WF g' ∧ Fits g' := by
  rw [howVal_vecInt] at h
  cases g <;> simp only [promote_to_vec_int, reduceCtorEq, Res.ok.injEq, and_true] at h <;> first
    | (subst h; exact ⟨hw, hf⟩)
    | (rename_i v
       have hl : v.length < 2 ^ 32 := by simpa [Fits, every, fitsNode] using hf
       rw [become_refill' _ _ _ hl] at h
       injection h with h _
       subst h
       exact ⟨trivial, by simpa [Fits, every, fitsNode] using hl⟩)

theorem howGood_vecLong (hw : WF g) (hf : Fits g) (h : howVal howVecLong g = .ok g' ()) : WF g' ∧ Fits g' := by
  rw [howVal_vecLong] at h
  cases g <;> simp only [promote_to_vec_long, reduceCtorEq, Res.ok.injEq, and_true] at h <;> first
    | (subst h; exact ⟨hw, hf⟩)
    | (rename_i v
       have hl : v.length < 2 ^ 32 := by simpa [Fits, every, fitsNode] using hf
       rw [become_refill' _ _ _ hl] at h
       injection h with h _
       subst h
       exact ⟨trivial, by simpa [Fits, every, fitsNode] using hl⟩)

theorem howGood_vecReal (hw : WF g) (hf : Fits g) (h : howVal howVecReal g = .ok g' ()) : WF g' ∧ Fits g' := by
  rw [howVal_vecReal] at h
  cases g <;> simp only [promote_to_vec_real, reduceCtorEq, Res.ok.injEq, and_true] at h <;> first
    | (subst h; exact ⟨hw, hf⟩)
    | (rename_i v
       have hl : v.length < 2 ^ 32 := by simpa [Fits, every, fitsNode] using hf
       rw [become_refill' _ _ _ hl] at h
       injection h with h _
       subst h
       exact ⟨trivial, by simpa [Fits, every, fitsNode] using hl⟩)

theorem howGood_vecComplex (hw : WF g) (hf : Fits g) (h : howVal howVecComplex g = .ok g' ()) : WF g' ∧ Fits g' := by
  rw [howVal_vecComplex] at h
  cases g <;> simp only [promote_to_vec_complex, reduceCtorEq, Res.ok.injEq, and_true] at h <;> first
    | (subst h; exact ⟨hw, hf⟩)
    | (rename_i v
       have hl : v.length < 2 ^ 32 := by simpa [Fits, every, fitsNode] using hf
       rw [become_refill' _ _ _ hl] at h
       injection h with h _
       subst h
       exact ⟨trivial, by simpa [Fits, every, fitsNode] using hl⟩)

theorem readyGood {empty : GC} {promoted : Ty → Bool} {how : Ty → How} (hw : WF g) (hf : Fits g) (h0 : WF empty ∧ Fits empty)
    (hh : ∀ g', howVal how g = .ok g' () → WF g' ∧ Fits g') :
    ∀ g', readyVal empty promoted how g = .ok g' () → WF g' ∧ Fits g' := by
  intro g' h
  unfold readyVal at h
  split at h
  · injection h with h _; rw [← h]; exact h0
  · split at h
    · exact hh g' h
    · injection h with h _; rw [← h]; exact ⟨hw, hf⟩

theorem howKeep {how : Ty → How} (hh : how = howInt) (hw : WF g) (hf : Fits g) :
    ∀ g', howVal how g = .ok g' () → WF g' ∧ Fits g' := by
  subst hh
  intro g' h
  rw [howVal_int] at h
  cases g <;> simp only [promote_to_int, reduceCtorEq, Res.ok.injEq, and_true] at h <;>
    (subst h; exact ⟨hw, hf⟩)

/-- `upd` made through the reference that a getter returns. -/
theorem edit_at {α : Type} {up : α → GC} {v : α} {w : α} {f : GC → Res Unit} (hf : f (up v) = .ok (up w) ())
    (h1 : ∀ w, boxed (up w) = true) (h2 : ∀ w w', (up w).ty = (up w').ty) : CallOk (editF f) (up v) (f (up v)) := by
  refine CallOk.edit (h1 v) (fun g' h => ?_) (fun g' h => ?_)
  · rw [hf] at h; injection h with h _; rw [← h]; exact ⟨h1 _, h2 _ _⟩
  · rw [hf] at h; cases h

theorem val_at {P : Res Unit} {k1 : GC → Unit → Res Unit} {α : Type} {k2 : GC → Unit → Res α}
    (h : ∀ g', k1 g' () = drop (k2 g' ())) : P.bind k1 = drop (P.bind k2) := by
  rw [drop_bind]
  congr 1
  funext g' _
  exact h g'

theorem callOk_boolAt {i : BitVec 32} (hw : WF g) (hf : Fits g) : CallOk (callF ip (.boolAt i)) g (step (.boolAt i) g) := by
  refine CallOk.atGet (r := step (.boolAt i) g) rfl rfl howOk_int (readyGood hw hf ⟨trivial, rfl⟩ (howKeep rfl hw hf)) rfl
    (fun y => from_scalar trivial) (fun g' ht => ?_) ?_
  · cases g' <;> simp only [GC.ty, reduceCtorEq] at ht
    exact edit_refAt (up := vecBool) rfl (fun _ => rfl) (fun _ _ => rfl)
  · cases g <;> first
      | rfl
      | exact (drop_refAtVector (mk := bool) (z := false) (i := i.toNat) (upd := id)).symm
      | exact (drop_refAtVector (mk := bool) (z := false) (i := i.toNat) (g := notype) (upd := id)).symm
      | exact (drop_refAtVector (mk := bool) (z := false) (i := i.toNat) (g := vector _) (upd := id)).symm

theorem callOk_intAt {i : BitVec 32} {upd : I32 → I32} (hw : WF g) (hf : Fits g) : CallOk (callF ip (.intAt i upd)) g (step (.intAt i upd) g) := by
  refine CallOk.atGet (r := step (.intAt i upd) g) rfl rfl (howOk_vecInt hf) (readyGood hw hf ⟨trivial, rfl⟩ (fun _ h => howGood_vecInt hw hf h)) rfl
    (fun y => from_scalar trivial) (fun g' ht => ?_) ?_
  · cases g' <;> simp only [GC.ty, reduceCtorEq] at ht
    exact edit_refAt (up := vecInt) rfl (fun _ => rfl) (fun _ _ => rfl)
  · cases g <;> first
      | rfl
      | exact (drop_refAtVector (mk := int) (z := 0) (i := i.toNat) (upd := upd)).symm
      | exact (drop_refAtVector (mk := int) (z := 0) (i := i.toNat) (g := notype) (upd := upd)).symm
      | exact (drop_refAtVector (mk := int) (z := 0) (i := i.toNat) (g := vector _) (upd := upd)).symm
      | exact val_at (k2 := get_int_at.after i.toNat upd) fun g' => by
          cases g' <;> first
            | rfl
            | exact (drop_refAtVector (mk := int) (z := 0) (i := i.toNat) (upd := upd)).symm
            | exact (drop_refAtVector (mk := int) (z := 0) (i := i.toNat) (g := notype) (upd := upd)).symm
            | exact (drop_refAtVector (mk := int) (z := 0) (i := i.toNat) (g := vector _) (upd := upd)).symm

theorem callOk_longAt {i : BitVec 32} {upd : I64 → I64} (hw : WF g) (hf : Fits g) : CallOk (callF ip (.longAt i upd)) g (step (.longAt i upd) g) := by
  refine CallOk.atGet (r := step (.longAt i upd) g) rfl rfl (howOk_vecLong hf) (readyGood hw hf ⟨trivial, rfl⟩ (fun _ h => howGood_vecLong hw hf h)) rfl
    (fun y => from_scalar trivial) (fun g' ht => ?_) ?_
  · cases g' <;> simp only [GC.ty, reduceCtorEq] at ht
    exact edit_refAt (up := vecLong) rfl (fun _ => rfl) (fun _ _ => rfl)
  · cases g <;> first
      | rfl
      | exact (drop_refAtVector (mk := long) (z := 0) (i := i.toNat) (upd := upd)).symm
      | exact (drop_refAtVector (mk := long) (z := 0) (i := i.toNat) (g := notype) (upd := upd)).symm
      | exact (drop_refAtVector (mk := long) (z := 0) (i := i.toNat) (g := vector _) (upd := upd)).symm
      | exact val_at (k2 := get_long_at.after i.toNat upd) fun g' => by
          cases g' <;> first
            | rfl
            | exact (drop_refAtVector (mk := long) (z := 0) (i := i.toNat) (upd := upd)).symm
            | exact (drop_refAtVector (mk := long) (z := 0) (i := i.toNat) (g := notype) (upd := upd)).symm
            | exact (drop_refAtVector (mk := long) (z := 0) (i := i.toNat) (g := vector _) (upd := upd)).symm

theorem callOk_realAt {i : BitVec 32} {upd : F64 → F64} (hw : WF g) (hf : Fits g) : CallOk (callF ip (.realAt i upd)) g (step (.realAt i upd) g) := by
  refine CallOk.atGet (r := step (.realAt i upd) g) rfl rfl (howOk_vecReal hf) (readyGood hw hf ⟨trivial, rfl⟩ (fun _ h => howGood_vecReal hw hf h)) rfl
    (fun y => from_scalar trivial) (fun g' ht => ?_) ?_
  · cases g' <;> simp only [GC.ty, reduceCtorEq] at ht
    exact edit_refAt (up := vecReal) rfl (fun _ => rfl) (fun _ _ => rfl)
  · cases g <;> first
      | rfl
      | exact (drop_refAtVector (mk := real) (z := .zero) (i := i.toNat) (upd := upd)).symm
      | exact (drop_refAtVector (mk := real) (z := .zero) (i := i.toNat) (g := notype) (upd := upd)).symm
      | exact (drop_refAtVector (mk := real) (z := .zero) (i := i.toNat) (g := vector _) (upd := upd)).symm
      | exact val_at (k2 := get_real_at.after i.toNat upd) fun g' => by
          cases g' <;> first
            | rfl
            | exact (drop_refAtVector (mk := real) (z := .zero) (i := i.toNat) (upd := upd)).symm
            | exact (drop_refAtVector (mk := real) (z := .zero) (i := i.toNat) (g := notype) (upd := upd)).symm
            | exact (drop_refAtVector (mk := real) (z := .zero) (i := i.toNat) (g := vector _) (upd := upd)).symm

theorem callOk_complexAt {i : BitVec 32} {upd : Cplx → Cplx} (hw : WF g) (hf : Fits g) : CallOk (callF ip (.complexAt i upd)) g (step (.complexAt i upd) g) := by
  refine CallOk.atGet (r := step (.complexAt i upd) g) rfl rfl (howOk_vecComplex hf) (readyGood hw hf ⟨trivial, rfl⟩ (fun _ h => howGood_vecComplex hw hf h)) rfl
    (fun y => from_scalar trivial) (fun g' ht => ?_) ?_
  · cases g' <;> simp only [GC.ty, reduceCtorEq] at ht
    exact edit_refAt (up := vecComplex) rfl (fun _ => rfl) (fun _ _ => rfl)
  · cases g <;> first
      | rfl
      | exact (drop_refAtVector (mk := complex) (z := .zero) (i := i.toNat) (upd := upd)).symm
      | exact (drop_refAtVector (mk := complex) (z := .zero) (i := i.toNat) (g := notype) (upd := upd)).symm
      | exact (drop_refAtVector (mk := complex) (z := .zero) (i := i.toNat) (g := vector _) (upd := upd)).symm
      | exact val_at (k2 := get_complex_at.after i.toNat upd) fun g' => by
          cases g' <;> first
            | rfl
            | exact (drop_refAtVector (mk := complex) (z := .zero) (i := i.toNat) (upd := upd)).symm
            | exact (drop_refAtVector (mk := complex) (z := .zero) (i := i.toNat) (g := notype) (upd := upd)).symm
            | exact (drop_refAtVector (mk := complex) (z := .zero) (i := i.toNat) (g := vector _) (upd := upd)).symm

theorem callOk_stringAt {i : BitVec 32} {upd : Bytes → Bytes} (hw : WF g) (hf : Fits g) : CallOk (callF ip (.stringAt i upd)) g (step (.stringAt i upd) g) := by
  refine CallOk.atGet (r := step (.stringAt i upd) g) rfl rfl howOk_int (readyGood hw hf ⟨trivial, rfl⟩ (howKeep rfl hw hf)) rfl
    (fun y => from_scalar trivial) (fun g' ht => ?_) ?_
  · cases g' <;> simp only [GC.ty, reduceCtorEq] at ht
    exact edit_refAt (up := vecString) rfl (fun _ => rfl) (fun _ _ => rfl)
  · cases g <;> first
      | rfl
      | exact (drop_refAtVector (mk := string) (z := []) (i := i.toNat) (upd := upd)).symm
      | exact (drop_refAtVector (mk := string) (z := []) (i := i.toNat) (g := notype) (upd := upd)).symm
      | exact (drop_refAtVector (mk := string) (z := []) (i := i.toNat) (g := vector _) (upd := upd)).symm

theorem callOk_getVecInt {upd : List I32 → List I32} (hw : WF g) (hf : Fits g) :
    CallOk (callF ip (.getVecInt upd)) g (step (.getVecInt upd) g) := by
  refine CallOk.ckGet (r := step (.getVecInt upd) g) rfl (copy_ok (by trivial) rfl) (howOk_vecInt hf) (fun g' ht => ?_) ?_
  · cases g' <;> simp only [GC.ty, reduceCtorEq] at ht
    exact edit_at (up := vecInt) rfl (fun _ => rfl) (fun _ _ => rfl)
  · cases g <;> first
      | rfl
      | exact val_at (k2 := fun g _ => match g with | vecInt w => .ok (vecInt (upd w)) w | g => .throw g) fun g' => by cases g' <;> rfl

theorem callOk_getVecLong {upd : List I64 → List I64} (hw : WF g) (hf : Fits g) :
    CallOk (callF ip (.getVecLong upd)) g (step (.getVecLong upd) g) := by
  refine CallOk.ckGet (r := step (.getVecLong upd) g) rfl (copy_ok (by trivial) rfl) (howOk_vecLong hf) (fun g' ht => ?_) ?_
  · cases g' <;> simp only [GC.ty, reduceCtorEq] at ht
    exact edit_at (up := vecLong) rfl (fun _ => rfl) (fun _ _ => rfl)
  · cases g <;> first
      | rfl
      | exact val_at (k2 := get_vec_long.after upd) fun g' => by cases g' <;> rfl

theorem callOk_getVecReal {upd : List F64 → List F64} (hw : WF g) (hf : Fits g) :
    CallOk (callF ip (.getVecReal upd)) g (step (.getVecReal upd) g) := by
  refine CallOk.ckGet (r := step (.getVecReal upd) g) rfl (copy_ok (by trivial) rfl) (howOk_vecReal hf) (fun g' ht => ?_) ?_
  · cases g' <;> simp only [GC.ty, reduceCtorEq] at ht
    exact edit_at (up := vecReal) rfl (fun _ => rfl) (fun _ _ => rfl)
  · cases g <;> first
      | rfl
      | exact val_at (k2 := get_vec_real.after upd) fun g' => by cases g' <;> rfl

theorem callOk_getVecComplex {upd : List Cplx → List Cplx} (hw : WF g) (hf : Fits g) :
    CallOk (callF ip (.getVecComplex upd)) g (step (.getVecComplex upd) g) := by
  refine CallOk.ckGet (r := step (.getVecComplex upd) g) rfl (copy_ok (by trivial) rfl) (howOk_vecComplex hf) (fun g' ht => ?_) ?_
  · cases g' <;> simp only [GC.ty, reduceCtorEq] at ht
    exact edit_at (up := vecComplex) rfl (fun _ => rfl) (fun _ _ => rfl)
  · cases g <;> first
      | rfl
      | exact val_at (k2 := get_vec_complex.after upd) fun g' => by cases g' <;> rfl

theorem callOk_getMatInt {upd : Mat I32 → Mat I32} (hw : WF g) (hf : Fits g) :
    CallOk (callF ip (.getMatInt upd)) g (step (.getMatInt upd) g) := by
  refine CallOk.ckGet (r := step (.getMatInt upd) g) rfl (copy_ok (by trivial) rfl) howOk_matInt (fun g' ht => ?_) ?_
  · cases g' <;> simp only [GC.ty, reduceCtorEq] at ht
    exact edit_at (up := matInt) rfl (fun _ => rfl) (fun _ _ => rfl)
  · cases g <;> first
      | rfl
      | exact val_at (k2 := get_mat_int.after upd) fun g' => by cases g' <;> rfl

theorem callOk_getMatLong {upd : Mat I64 → Mat I64} (hw : WF g) (hf : Fits g) :
    CallOk (callF ip (.getMatLong upd)) g (step (.getMatLong upd) g) := by
  refine CallOk.ckGet (r := step (.getMatLong upd) g) rfl (copy_ok (by trivial) rfl) (howOk_matLong hw hf) (fun g' ht => ?_) ?_
  · cases g' <;> simp only [GC.ty, reduceCtorEq] at ht
    exact edit_at (up := matLong) rfl (fun _ => rfl) (fun _ _ => rfl)
  · cases g <;> first
      | rfl
      | exact val_at (k2 := get_mat_long.after upd) fun g' => by cases g' <;> rfl

theorem callOk_getMatReal {upd : Mat F64 → Mat F64} (hw : WF g) (hf : Fits g) :
    CallOk (callF ip (.getMatReal upd)) g (step (.getMatReal upd) g) := by
  refine CallOk.ckGet (r := step (.getMatReal upd) g) rfl (copy_ok (by trivial) rfl) (howOk_matReal hw hf) (fun g' ht => ?_) ?_
  · cases g' <;> simp only [GC.ty, reduceCtorEq] at ht
    exact edit_at (up := matReal) rfl (fun _ => rfl) (fun _ _ => rfl)
  · cases g <;> first
      | rfl
      | exact val_at (k2 := get_mat_real.after upd) fun g' => by cases g' <;> rfl

theorem callOk_getMatComplex {upd : Mat Cplx → Mat Cplx} (hw : WF g) (hf : Fits g) :
    CallOk (callF ip (.getMatComplex upd)) g (step (.getMatComplex upd) g) := by
  refine CallOk.ckGet (r := step (.getMatComplex upd) g) rfl (copy_ok (by trivial) rfl) (howOk_matComplex hw) (fun g' ht => ?_) ?_
  · cases g' <;> simp only [GC.ty, reduceCtorEq] at ht
    exact edit_at (up := matComplex) rfl (fun _ => rfl) (fun _ _ => rfl)
  · cases g <;> first
      | rfl
      | exact val_at (k2 := get_mat_complex.after upd) fun g' => by cases g' <;> rfl

theorem callOk_intAt2 {i j : BitVec 32} {upd : I32 → I32} (hw : WF g) (hf : Fits g) :
    CallOk (callF ip (.intAt2 i j upd)) g (step (.intAt2 i j upd) g) := by
  refine CallOk.ckGet (r := step (.intAt2 i j upd) g) rfl (copy_ok (wf_make _ i.isLt j.isLt) rfl) howOk_matInt (fun g' ht => ?_) ?_
  · cases g' <;> simp only [GC.ty, reduceCtorEq] at ht
    exact edit_refAt2 (up := matInt) rfl (fun _ => rfl) (fun _ _ => rfl)
  · cases g <;> first
      | rfl
      | exact val_at (k2 := get_int_at2.after i.toNat j.toNat upd) fun g' => by cases g' <;> rfl

theorem callOk_longAt2 {i j : BitVec 32} {upd : I64 → I64} (hw : WF g) (hf : Fits g) :
    CallOk (callF ip (.longAt2 i j upd)) g (step (.longAt2 i j upd) g) := by
  refine CallOk.ckGet (r := step (.longAt2 i j upd) g) rfl (copy_ok (wf_make _ i.isLt j.isLt) rfl) (howOk_matLong hw hf) (fun g' ht => ?_) ?_
  · cases g' <;> simp only [GC.ty, reduceCtorEq] at ht
    exact edit_refAt2 (up := matLong) rfl (fun _ => rfl) (fun _ _ => rfl)
  · cases g <;> first
      | rfl
      | exact val_at (k2 := get_long_at2.after i.toNat j.toNat upd) fun g' => by cases g' <;> rfl

theorem callOk_realAt2 {i j : BitVec 32} {upd : F64 → F64} (hw : WF g) (hf : Fits g) :
    CallOk (callF ip (.realAt2 i j upd)) g (step (.realAt2 i j upd) g) := by
  refine CallOk.ckGet (r := step (.realAt2 i j upd) g) rfl (copy_ok (wf_make _ i.isLt j.isLt) rfl) (howOk_matReal hw hf) (fun g' ht => ?_) ?_
  · cases g' <;> simp only [GC.ty, reduceCtorEq] at ht
    exact edit_refAt2 (up := matReal) rfl (fun _ => rfl) (fun _ _ => rfl)
  · cases g <;> first
      | rfl
      | exact val_at (k2 := get_real_at2.after i.toNat j.toNat upd) fun g' => by cases g' <;> rfl

theorem callOk_complexAt2 {i j : BitVec 32} {upd : Cplx → Cplx} (hw : WF g) (hf : Fits g) :
    CallOk (callF ip (.complexAt2 i j upd)) g (step (.complexAt2 i j upd) g) := by
  refine CallOk.ckGet (r := step (.complexAt2 i j upd) g) rfl (copy_ok (wf_make _ i.isLt j.isLt) rfl) (howOk_matComplex hw) (fun g' ht => ?_) ?_
  · cases g' <;> simp only [GC.ty, reduceCtorEq] at ht
    exact edit_refAt2 (up := matComplex) rfl (fun _ => rfl) (fun _ _ => rfl)
  · cases g <;> first
      | rfl
      | exact val_at (k2 := get_complex_at2.after i.toNat j.toNat upd) fun g' => by cases g' <;> rfl

theorem callOk_pushInt {x : I32} (hw : WF g) (hf : Fits g) : CallOk (callF ip (.pushInt x)) g (step (.pushInt x) g) := by
  have key : ∀ g : GC, Fits g → CallOk (seqF (promF howVecInt) (editF (push_int x))) g
      ((promote_to_vec_int g).bind fun g' _ => match g' with | vecInt v => .ok (vecInt (v ++ [x])) () | _ => .ub) := by
    intro g hf
    rw [← howVal_vecInt]
    refine CallOk.seq (k := fun g' => match g' with | vecInt v => .ok (vecInt (v ++ [x])) () | _ => .ub)
      (CallOk.prom (howOk_vecInt hf)) fun g' _ _ => ?_
    cases g' <;> first
      | exact .ub
      | exact edit_at (f := push_int x) (up := vecInt) rfl (fun _ => rfl) (fun _ _ => rfl)
  unfold callF
  apply CallOk.tag
  cases g <;> first
    | exact key _ hf
    | exact edit_at (f := push_int x) (up := vecInt) rfl (fun _ => rfl) (fun _ _ => rfl)
    | exact edit_at (f := push_int x) (up := vecLong) rfl (fun _ => rfl) (fun _ _ => rfl)
    | exact edit_at (f := push_int x) (up := vecReal) rfl (fun _ => rfl) (fun _ _ => rfl)
    | exact edit_at (f := push_int x) (up := vecComplex) rfl (fun _ => rfl) (fun _ _ => rfl)
    | exact CallOk.back hw hf rfl fun y => from_scalar trivial

theorem callOk_pushLong {x : I64} (hw : WF g) (hf : Fits g) : CallOk (callF ip (.pushLong x)) g (step (.pushLong x) g) := by
  have key : ∀ g : GC, Fits g → CallOk (seqF (promF howVecLong) (editF (push_long x))) g
      ((promote_to_vec_long g).bind fun g' _ => match g' with | vecLong v => .ok (vecLong (v ++ [x])) () | _ => .ub) := by
    intro g hf
    rw [← howVal_vecLong]
    refine CallOk.seq (k := fun g' => match g' with | vecLong v => .ok (vecLong (v ++ [x])) () | _ => .ub)
      (CallOk.prom (howOk_vecLong hf)) fun g' _ _ => ?_
    cases g' <;> first
      | exact .ub
      | exact edit_at (f := push_long x) (up := vecLong) rfl (fun _ => rfl) (fun _ _ => rfl)
  unfold callF
  apply CallOk.tag
  cases g <;> first
    | exact key _ hf
    | exact edit_at (f := push_long x) (up := vecInt) rfl (fun _ => rfl) (fun _ _ => rfl)
    | exact edit_at (f := push_long x) (up := vecLong) rfl (fun _ => rfl) (fun _ _ => rfl)
    | exact edit_at (f := push_long x) (up := vecReal) rfl (fun _ => rfl) (fun _ _ => rfl)
    | exact edit_at (f := push_long x) (up := vecComplex) rfl (fun _ => rfl) (fun _ _ => rfl)
    | exact CallOk.back hw hf rfl fun y => from_scalar trivial

theorem callOk_pushReal {x : F64} (hw : WF g) (hf : Fits g) : CallOk (callF ip (.pushReal x)) g (step (.pushReal x) g) := by
  have key : ∀ g : GC, Fits g → CallOk (seqF (promF howVecReal) (editF (push_real x))) g
      ((promote_to_vec_real g).bind fun g' _ => match g' with | vecReal v => .ok (vecReal (v ++ [x])) () | _ => .ub) := by
    intro g hf
    rw [← howVal_vecReal]
    refine CallOk.seq (k := fun g' => match g' with | vecReal v => .ok (vecReal (v ++ [x])) () | _ => .ub)
      (CallOk.prom (howOk_vecReal hf)) fun g' _ _ => ?_
    cases g' <;> first
      | exact .ub
      | exact edit_at (f := push_real x) (up := vecReal) rfl (fun _ => rfl) (fun _ _ => rfl)
  unfold callF
  apply CallOk.tag
  cases g <;> first
    | exact key _ hf
    | exact edit_at (f := push_real x) (up := vecInt) rfl (fun _ => rfl) (fun _ _ => rfl)
    | exact edit_at (f := push_real x) (up := vecLong) rfl (fun _ => rfl) (fun _ _ => rfl)
    | exact edit_at (f := push_real x) (up := vecReal) rfl (fun _ => rfl) (fun _ _ => rfl)
    | exact edit_at (f := push_real x) (up := vecComplex) rfl (fun _ => rfl) (fun _ _ => rfl)
    | exact CallOk.back hw hf rfl fun y => from_scalar trivial

theorem callOk_pushComplex {x : Cplx} (hw : WF g) (hf : Fits g) : CallOk (callF ip (.pushComplex x)) g (step (.pushComplex x) g) := by
  have key : ∀ g : GC, Fits g → CallOk (seqF (promF howVecComplex) (editF (push_complex x))) g
      ((promote_to_vec_complex g).bind fun g' _ => match g' with | vecComplex v => .ok (vecComplex (v ++ [x])) () | _ => .ub) := by
    intro g hf
    rw [← howVal_vecComplex]
    refine CallOk.seq (k := fun g' => match g' with | vecComplex v => .ok (vecComplex (v ++ [x])) () | _ => .ub)
      (CallOk.prom (howOk_vecComplex hf)) fun g' _ _ => ?_
    cases g' <;> first
      | exact .ub
      | exact edit_at (f := push_complex x) (up := vecComplex) rfl (fun _ => rfl) (fun _ _ => rfl)
  unfold callF
  apply CallOk.tag
  cases g <;> first
    | exact key _ hf
    | exact edit_at (f := push_complex x) (up := vecInt) rfl (fun _ => rfl) (fun _ _ => rfl)
    | exact edit_at (f := push_complex x) (up := vecLong) rfl (fun _ => rfl) (fun _ _ => rfl)
    | exact edit_at (f := push_complex x) (up := vecReal) rfl (fun _ => rfl) (fun _ _ => rfl)
    | exact edit_at (f := push_complex x) (up := vecComplex) rfl (fun _ => rfl) (fun _ _ => rfl)
    | exact CallOk.back hw hf rfl fun y => from_scalar trivial

theorem callOk_pushBool {x : Bool} (hw : WF g) (hf : Fits g) : CallOk (callF ip (.pushBool x)) g (step (.pushBool x) g) := by
  unfold callF
  apply CallOk.tag
  cases g <;> first
    | exact .throw
    | exact edit_at (f := push_bool x) (up := vecBool) rfl (fun _ => rfl) (fun _ _ => rfl)
    | exact edit_at (f := push_bool x) (up := vecInt) rfl (fun _ => rfl) (fun _ _ => rfl)
    | exact edit_at (f := push_bool x) (up := vecLong) rfl (fun _ => rfl) (fun _ _ => rfl)
    | exact edit_at (f := push_bool x) (up := vecReal) rfl (fun _ => rfl) (fun _ _ => rfl)
    | exact edit_at (f := push_bool x) (up := vecComplex) rfl (fun _ => rfl) (fun _ _ => rfl)
    | exact CallOk.back hw hf rfl fun y => from_scalar trivial

theorem callOk_pushString {x : Bytes} (hw : WF g) (hf : Fits g) :
    CallOk (callF ip (.pushString x)) g (step (.pushString x) g) := by
  have key : ∀ g : GC, WF g → Fits g → CallOk (seqF (promVecF ip) (backF ip (string x))) g
      ((promote_to_vector g).bind fun g' _ => match g' with | vector v => .ok (vector (v ++ [string x])) () | _ => .ub) := by
    intro g hw hf
    refine CallOk.seq (k := fun g' => match g' with | vector v => .ok (vector (v ++ [string x])) () | _ => .ub)
      (CallOk.promVec hw hf) fun g' _ hg' => ?_
    obtain ⟨v, rfl⟩ := promote_vector hg'
    obtain ⟨hw', hf'⟩ := promote_good hw hf hg'
    exact CallOk.back hw' hf' rfl fun y => from_scalar trivial
  unfold callF
  apply CallOk.tag
  cases g <;> first
    | exact key _ hw hf
    | exact edit_at (f := push_string x) (up := vecString) rfl (fun _ => rfl) (fun _ _ => rfl)

theorem callOk_freePointer : CallOk (callF ip .freePointer) g (step .freePointer g) := by
  have hv : howVal (fun t => match t with | .NOTYPE | .POINTER => .set fun _ => .ok notype () | _ => .no) g =
      free_pointer g := by cases g <;> rfl
  show CallOk _ g (free_pointer g)
  rw [← hv]
  refine CallOk.prom ?_
  cases g <;> first
    | trivial
    | exact set_ok (f := fun _ => .ok notype ()) rfl rfl rfl rfl

theorem callOk_getBool {j x : Bool} : CallOk (callF ip (.getBool j x)) g (step (.getBool j x) g) := by
  unfold callF
  apply CallOk.tag
  cases g <;> first | exact .throw | exact CallOk.set rfl rfl

theorem callOk_getInt {j x : I32} : CallOk (callF ip (.getInt j x)) g (step (.getInt j x) g) := by
  unfold callF
  apply CallOk.tag
  cases g <;> first | exact .throw | exact CallOk.set rfl rfl

theorem callOk_getLong {j x : I64} : CallOk (callF ip (.getLong j x)) g (step (.getLong j x) g) := by
  unfold callF
  apply CallOk.tag
  cases g <;> first | exact .throw | exact CallOk.set rfl rfl

theorem callOk_getReal {j x : F64} : CallOk (callF ip (.getReal j x)) g (step (.getReal j x) g) := by
  unfold callF
  apply CallOk.tag
  cases g <;> first | exact .throw | exact CallOk.set rfl rfl

theorem callOk_getComplex {x : Cplx} : CallOk (callF ip (.getComplex x)) g (step (.getComplex x) g) := by
  refine CallOk.ckGet (r := step (.getComplex x) g) rfl rfl howOk_int (fun g' ht => ?_) ?_
  · cases g' <;> simp only [GC.ty, reduceCtorEq] at ht
    exact edit_at (f := fun _ => .ok (complex x) ()) (up := complex) rfl (fun _ => rfl) (fun _ _ => rfl)
  · cases g <;> rfl

theorem callOk_getString {x : Bytes} : CallOk (callF ip (.getString x)) g (step (.getString x) g) := by
  refine CallOk.ckGet (r := step (.getString x) g) rfl rfl howOk_int (fun g' ht => ?_) ?_
  · cases g' <;> simp only [GC.ty, reduceCtorEq] at ht
    exact edit_at (f := fun _ => .ok (string x) ()) (up := string) rfl (fun _ => rfl) (fun _ _ => rfl)
  · cases g <;> rfl

theorem callOk_sizeVecPointer {k : BitVec 32} : CallOk (callF ip (.sizeVecPointer k)) g (step (.sizeVecPointer k) g) :=
  CallOk.size (h := set_vec_pointer_n k.toNat) rfl (fun _ => rfl) (fun _ => ⟨rfl, rfl⟩)
    fun ht => by cases g <;> first | rfl | exact absurd rfl ht

theorem callOk_sizeVecBool {k : BitVec 32} : CallOk (callF ip (.sizeVecBool k)) g (step (.sizeVecBool k) g) :=
  CallOk.size (h := set_vec_bool_n k.toNat) rfl (fun _ => rfl) (fun _ => ⟨rfl, rfl⟩)
    fun ht => by cases g <;> first | rfl | exact absurd rfl ht

theorem callOk_sizeVecInt {k : BitVec 32} : CallOk (callF ip (.sizeVecInt k)) g (step (.sizeVecInt k) g) :=
  CallOk.size (h := set_vec_int_n k.toNat) rfl (fun _ => rfl) (fun _ => ⟨rfl, rfl⟩)
    fun ht => by cases g <;> first | rfl | exact absurd rfl ht

theorem callOk_sizeVecLong {k : BitVec 32} : CallOk (callF ip (.sizeVecLong k)) g (step (.sizeVecLong k) g) :=
  CallOk.size (h := set_vec_long_n k.toNat) rfl (fun _ => rfl) (fun _ => ⟨rfl, rfl⟩)
    fun ht => by cases g <;> first | rfl | exact absurd rfl ht

theorem callOk_sizeVecReal {k : BitVec 32} : CallOk (callF ip (.sizeVecReal k)) g (step (.sizeVecReal k) g) :=
  CallOk.size (h := set_vec_real_n k.toNat) rfl (fun _ => rfl) (fun _ => ⟨rfl, rfl⟩)
    fun ht => by cases g <;> first | rfl | exact absurd rfl ht

theorem callOk_sizeVecComplex {k : BitVec 32} : CallOk (callF ip (.sizeVecComplex k)) g (step (.sizeVecComplex k) g) :=
  CallOk.size (h := set_vec_complex_n k.toNat) rfl (fun _ => rfl) (fun _ => ⟨rfl, rfl⟩)
    fun ht => by cases g <;> first | rfl | exact absurd rfl ht

theorem callOk_sizeVecString {k : BitVec 32} : CallOk (callF ip (.sizeVecString k)) g (step (.sizeVecString k) g) :=
  CallOk.size (h := set_vec_string_n k.toNat) rfl (fun _ => rfl) (fun _ => ⟨rfl, rfl⟩)
    fun ht => by cases g <;> first | rfl | exact absurd rfl ht

theorem callOk_sizeMatInt {i j : BitVec 32} : CallOk (callF ip (.sizeMatInt i j)) g (step (.sizeMatInt i j) g) :=
  CallOk.sizeMat (h := set_mat_int_n i.toNat j.toNat) rfl (fun _ => rfl) (fun g => by cases g <;> exact ⟨rfl, rfl⟩)
    fun ht => by cases g <;> first | rfl | exact absurd rfl ht

theorem callOk_sizeMatLong {i j : BitVec 32} : CallOk (callF ip (.sizeMatLong i j)) g (step (.sizeMatLong i j) g) :=
  CallOk.sizeMat (h := set_mat_long_n i.toNat j.toNat) rfl (fun _ => rfl) (fun g => by cases g <;> exact ⟨rfl, rfl⟩)
    fun ht => by cases g <;> first | rfl | exact absurd rfl ht

theorem callOk_sizeMatReal {i j : BitVec 32} : CallOk (callF ip (.sizeMatReal i j)) g (step (.sizeMatReal i j) g) :=
  CallOk.sizeMat (h := set_mat_real_n i.toNat j.toNat) rfl (fun _ => rfl) (fun g => by cases g <;> exact ⟨rfl, rfl⟩)
    fun ht => by cases g <;> first | rfl | exact absurd rfl ht

theorem callOk_sizeMatComplex {i j : BitVec 32} : CallOk (callF ip (.sizeMatComplex i j)) g (step (.sizeMatComplex i j) g) :=
  CallOk.sizeMat (h := set_mat_complex_n i.toNat j.toNat) rfl (fun _ => rfl) (fun g => by cases g <;> exact ⟨rfl, rfl⟩)
    fun ht => by cases g <;> first | rfl | exact absurd rfl ht

theorem CallOk.promAs {how : Ty → How} {r : Res Unit} (h : HowOk how g) (hv : howVal how g = r) : CallOk (promF how) g r :=
  hv ▸ CallOk.prom h

/-- Every call of `callF` but `collapse`. -/
theorem callOk_most {op : Op} (h : inMemory op = true) (hc : op ≠ .collapse) (hw : WF g) (hf : Fits g) :
    CallOk (callF ip op) g (step op g) := by
  cases op with
  | assign | dump | merge | constKey | idx | call | key | callKey | callKeys => simp [inMemory] at h
  | collapse => exact absurd rfl hc
  | clear => exact CallOk.of (sizeOf g) fun n hn => opOk_clear hn
  | freePointer => exact callOk_freePointer
  | erase k => exact CallOk.erase
  | setPointer v => exact CallOk.set (x := pointer v) rfl rfl
  | setBool v => exact CallOk.set (x := bool v) rfl rfl
  | setInt v => exact CallOk.set (x := int v) rfl rfl
  | setLong v => exact CallOk.set (x := long v) rfl rfl
  | setReal v => exact CallOk.set (x := real v) rfl rfl
  | setComplex v => exact CallOk.set (x := complex v) rfl rfl
  | setUint v => exact CallOk.set (x := int v) rfl rfl
  | setUlong v => exact CallOk.set (x := long v) rfl rfl
  | setVecPointer v => exact CallOk.set (x := vecPointer v) rfl rfl
  | setVecBool v => exact CallOk.set (x := vecBool v) rfl rfl
  | setVecInt v => exact CallOk.set (x := vecInt v) rfl rfl
  | setVecLong v => exact CallOk.set (x := vecLong v) rfl rfl
  | setVecReal v => exact CallOk.set (x := vecReal v) rfl rfl
  | setVecComplex v => exact CallOk.set (x := vecComplex v) rfl rfl
  | setVecString v => exact CallOk.set (x := vecString v) rfl rfl
  | setMatInt v => exact CallOk.set (x := matInt v) rfl rfl
  | setMatLong v => exact CallOk.set (x := matLong v) rfl rfl
  | setMatReal v => exact CallOk.set (x := matReal v) rfl rfl
  | setMatComplex v => exact CallOk.set (x := matComplex v) rfl rfl
  | setString v => exact CallOk.set (x := string v) rfl (by cases g <;> rfl)
  | setVector k => exact CallOk.of (sizeOf g + 2) fun n hn => opOk_setVector hn hw hf
  | setMap => exact CallOk.of (sizeOf g) fun n hn => opOk_setMap hn
  | promoteInt => exact CallOk.promAs howOk_int howVal_int
  | promoteLong => exact CallOk.promAs howOk_long howVal_long
  | promoteReal => exact CallOk.promAs howOk_real howVal_real
  | promoteComplex => exact CallOk.promAs (howOk_complex hf) howVal_complex
  | promoteVecInt => exact CallOk.promAs (howOk_vecInt hf) howVal_vecInt
  | promoteVecLong => exact CallOk.promAs (howOk_vecLong hf) howVal_vecLong
  | promoteVecReal => exact CallOk.promAs (howOk_vecReal hf) howVal_vecReal
  | promoteVecComplex => exact CallOk.promAs (howOk_vecComplex hf) howVal_vecComplex
  | promoteMatInt => exact CallOk.promAs howOk_matInt howVal_matInt
  | promoteMatLong => exact CallOk.promAs (howOk_matLong hw hf) howVal_matLong
  | promoteMatReal => exact CallOk.promAs (howOk_matReal hw hf) howVal_matReal
  | promoteMatComplex => exact CallOk.promAs (howOk_matComplex hw) howVal_matComplex
  | promoteVector => exact CallOk.promVec hw hf
  | pushBool => exact callOk_pushBool hw hf
  | pushInt => exact callOk_pushInt hw hf
  | pushLong => exact callOk_pushLong hw hf
  | pushReal => exact callOk_pushReal hw hf
  | pushComplex => exact callOk_pushComplex hw hf
  | pushString => exact callOk_pushString hw hf
  | boolAt => exact callOk_boolAt hw hf
  | intAt => exact callOk_intAt hw hf
  | longAt => exact callOk_longAt hw hf
  | realAt => exact callOk_realAt hw hf
  | complexAt => exact callOk_complexAt hw hf
  | stringAt => exact callOk_stringAt hw hf
  | intAt2 => exact callOk_intAt2 hw hf
  | longAt2 => exact callOk_longAt2 hw hf
  | realAt2 => exact callOk_realAt2 hw hf
  | complexAt2 => exact callOk_complexAt2 hw hf
  | getVecInt => exact callOk_getVecInt hw hf
  | getVecLong => exact callOk_getVecLong hw hf
  | getVecReal => exact callOk_getVecReal hw hf
  | getVecComplex => exact callOk_getVecComplex hw hf
  | getMatInt => exact callOk_getMatInt hw hf
  | getMatLong => exact callOk_getMatLong hw hf
  | getMatReal => exact callOk_getMatReal hw hf
  | getMatComplex => exact callOk_getMatComplex hw hf
  | getBool => exact callOk_getBool
  | getInt => exact callOk_getInt
  | getLong => exact callOk_getLong
  | getReal => exact callOk_getReal
  | getComplex => exact callOk_getComplex
  | getString => exact callOk_getString
  | sizeVecPointer => exact callOk_sizeVecPointer
  | sizeVecBool => exact callOk_sizeVecBool
  | sizeVecInt => exact callOk_sizeVecInt
  | sizeVecLong => exact callOk_sizeVecLong
  | sizeVecReal => exact callOk_sizeVecReal
  | sizeVecComplex => exact callOk_sizeVecComplex
  | sizeVecString => exact callOk_sizeVecString
  | sizeMatInt => exact callOk_sizeMatInt
  | sizeMatLong => exact callOk_sizeMatLong
  | sizeMatReal => exact callOk_sizeMatReal
  | sizeMatComplex => exact callOk_sizeMatComplex

end Heap
end GCV
