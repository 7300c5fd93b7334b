import Verif.Lemmas.SerializeCut

/-! # Lemmas: the binary form determines the container -/

namespace GCV

theorem leBytes_inj {n x y : Nat} {a b : Bytes} (hx : x < 256 ^ n) (hy : y < 256 ^ n)
    (h : leBytes n x ++ a = leBytes n y ++ b) : x = y ∧ a = b := by
  obtain ⟨h1, h2⟩ := List.append_inj h (by rw [length_leBytes, length_leBytes])
  refine ⟨?_, h2⟩
  have := congrArg leValue h1
  rwa [leValue_le_of_lt hx, leValue_le_of_lt hy] at this

/-- The encoding `e` of the elements satisfying `P` can be cut off a longer sequence in one way. -/
def Inj {α : Type} (P : α → Prop) (e : α → Bytes) : Prop :=
  ∀ x y a b, P x → P y → e x ++ a = e y ++ b → x = y ∧ a = b

theorem Inj.list {α : Type} {P : α → Prop} {e : α → Bytes} (h : Inj P e) :
    ∀ (v w : List α) (a b : Bytes), v.length = w.length → (∀ x ∈ v, P x) → (∀ x ∈ w, P x) →
      v.flatMap e ++ a = w.flatMap e ++ b → v = w ∧ a = b
  | [], [], a, b, _, _, _, he => ⟨rfl, he⟩
  | x :: r, y :: s, a, b, hl, hv, hw, he => by
    simp only [List.flatMap_cons, List.append_assoc] at he
    obtain ⟨h1, h2⟩ := h x y _ _ (hv x (by simp)) (hw y (by simp)) he
    obtain ⟨h3, h4⟩ := Inj.list h r s a b (by simpa using hl) (fun z hz => hv z (by simp [hz]))
      (fun z hz => hw z (by simp [hz])) h2
    exact ⟨by rw [h1, h3], h4⟩
  | [], _ :: _, _, _, hl, _, _, _ => by simp at hl
  | _ :: _, [], _, _, hl, _, _, _ => by simp at hl

theorem inj_str : Inj (fun s : Bytes => s.length + 1 < 2 ^ 32) encStr := by
  intro x y a b hx hy h
  simp only [encStr, List.append_assoc] at h
  obtain ⟨h1, h2⟩ := leBytes_inj (by omega) (by omega) h
  obtain ⟨h3, h4⟩ := List.append_inj h2 (by omega)
  exact ⟨h3, List.append_cancel_left h4⟩

theorem inj_bool : Inj (fun _ : Bool => True) encBool := by
  intro x y a b _ _ h
  simp only [encBool, List.cons_append, List.nil_append, List.cons.injEq] at h
  refine ⟨?_, h.2⟩
  have := h.1
  cases x <;> cases y <;> simp_all

theorem inj_i32 : Inj (fun _ : I32 => True) (fun x => leBytes 4 x.toNat) := by
  intro x y a b _ _ h
  obtain ⟨h1, h2⟩ := leBytes_inj x.isLt y.isLt h
  exact ⟨BitVec.eq_of_toNat_eq h1, h2⟩

theorem inj_i64 : Inj (fun _ : I64 => True) (fun x => leBytes 8 x.toNat) := by
  intro x y a b _ _ h
  obtain ⟨h1, h2⟩ := leBytes_inj x.isLt y.isLt h
  exact ⟨BitVec.eq_of_toNat_eq h1, h2⟩

theorem inj_f64 : Inj (fun _ : F64 => True) (fun x => leBytes 8 x.bits.toNat) := by
  intro x y a b _ _ h
  obtain ⟨h1, h2⟩ := leBytes_inj x.bits.isLt y.bits.isLt h
  refine ⟨?_, h2⟩
  cases x; cases y
  simpa using BitVec.eq_of_toNat_eq h1

theorem inj_cplx : Inj (fun _ : Cplx => True) encCplx := by
  intro x y a b _ _ h
  simp only [encCplx, List.append_assoc] at h
  obtain ⟨h1, h2⟩ := inj_f64 _ _ _ _ trivial trivial h
  obtain ⟨h3, h4⟩ := inj_f64 _ _ _ _ trivial trivial h2
  refine ⟨?_, h4⟩
  cases x; cases y; simp_all

namespace GC

/-- The tag at the front of the binary form. -/
theorem enc_tag (g : GC) : ∃ t, enc g = leBytes 4 (Ty.code g.ty) ++ t := by
  cases g <;> first
    | exact ⟨_, rfl⟩
    | exact ⟨[], by simp [enc, ty]⟩

theorem code_inj {s t : Ty} (h : s.code = t.code) : s = t := by
  have := ofCode_code s
  rw [h, ofCode_code] at this
  exact (Option.some.inj this).symm

/-- Reading the binary form of `g` off a longer sequence. -/
def EncInj (g : GC) : Prop :=
  ∀ g' a b, WF g → WF g' → wireSize g < 2 ^ 31 → wireSize g' < 2 ^ 31 →
    enc g ++ a = enc g' ++ b → g = g' ∧ a = b

theorem wireSizeL_mem {x : GC} : ∀ {v : List GC}, x ∈ v → wireSize x ≤ wireSizeL v
  | y :: r, h => by
    rw [wireSizeL]
    rcases List.mem_cons.1 h with rfl | h
    · omega
    · have := wireSizeL_mem h; omega

theorem wireSizeM_mem {e : Bytes × GC} : ∀ {m : Entries}, e ∈ m →
    4 + e.1.length + 1 + wireSize e.2 ≤ wireSizeM m
  | (k, y) :: r, h => by
    rw [wireSizeM]
    rcases List.mem_cons.1 h with rfl | h
    · simp only; omega
    · have := wireSizeM_mem h; omega

theorem length_le_wireSizeL : ∀ v : List GC, v.length ≤ wireSizeL v
  | [] => by simp
  | x :: r => by
    have := length_le_wireSizeL r
    have h := enc_pos x
    rw [length_enc.1] at h
    rw [wireSizeL, List.length_cons]; omega

theorem length_le_wireSizeM : ∀ m : Entries, m.length ≤ wireSizeM m
  | [] => by simp
  | (k, x) :: r => by
    have := length_le_wireSizeM r
    rw [wireSizeM, List.length_cons]; omega

theorem str_le_sum {s : Bytes} : ∀ {v : List Bytes}, s ∈ v →
    4 + s.length + 1 ≤ (v.map fun s => 4 + s.length + 1).sum
  | y :: r, h => by
    rw [List.map_cons, List.sum_cons]
    rcases List.mem_cons.1 h with rfl | h
    · omega
    · have := str_le_sum h; omega

theorem length_le_sum : ∀ v : List Bytes, v.length ≤ (v.map fun s => 4 + s.length + 1).sum
  | [] => by simp
  | x :: r => by
    have := length_le_sum r
    rw [List.map_cons, List.sum_cons, List.length_cons]; omega

theorem enc_inj : ∀ g, EncInj g := by
  refine (GC.induct (P := EncInj) (PL := fun v => ∀ x ∈ v, EncInj x)
    (PM := fun m => ∀ e ∈ m, EncInj e.2) ?_ ?_ ?_ ?_ ?_ ?_ ?_).1
  · intro g hv hm g' a b hw hw' hs hs' h
    have hty : g.ty = g'.ty := by
      obtain ⟨t, ht⟩ := enc_tag g
      obtain ⟨t', ht'⟩ := enc_tag g'
      rw [ht, ht', List.append_assoc, List.append_assoc] at h
      exact code_inj (leBytes_inj (code_lt _) (code_lt _) h).1
    cases g <;> cases g' <;> simp only [ty, reduceCtorEq] at hty
    case vector v w => exact absurd rfl (hv v)
    case map v w => exact absurd rfl (hm v)
    all_goals
      simp only [enc, List.append_assoc] at h
      replace h := List.append_cancel_left h
    case notype => exact ⟨rfl, h⟩
    case bool x y => obtain ⟨h1, h2⟩ := inj_bool _ _ _ _ trivial trivial h; exact ⟨by rw [h1], h2⟩
    case int x y => obtain ⟨h1, h2⟩ := inj_i32 _ _ _ _ trivial trivial h; exact ⟨by rw [h1], h2⟩
    case long x y => obtain ⟨h1, h2⟩ := inj_i64 _ _ _ _ trivial trivial h; exact ⟨by rw [h1], h2⟩
    case pointer x y => obtain ⟨h1, h2⟩ := inj_i64 _ _ _ _ trivial trivial h; exact ⟨by rw [h1], h2⟩
    case real x y => obtain ⟨h1, h2⟩ := inj_f64 _ _ _ _ trivial trivial h; exact ⟨by rw [h1], h2⟩
    case complex x y => obtain ⟨h1, h2⟩ := inj_cplx _ _ _ _ trivial trivial h; exact ⟨by rw [h1], h2⟩
    case string x y =>
      simp only [wireSize] at hs hs'
      obtain ⟨h1, h2⟩ := inj_str _ _ _ _ (by omega) (by omega) h
      exact ⟨by rw [h1], h2⟩
    case vecString x y =>
      simp only [wireSize] at hs hs'
      have l1 := length_le_sum x
      have l2 := length_le_sum y
      obtain ⟨h1, h2⟩ := leBytes_inj (by omega) (by omega) h
      obtain ⟨h3, h4⟩ := inj_str.list _ _ _ _ h1
        (fun s hx => by have := str_le_sum hx; omega) (fun s hx => by have := str_le_sum hx; omega) h2
      exact ⟨by rw [h3], h4⟩
    case vecBool x y =>
      simp only [wireSize] at hs hs'
      obtain ⟨h1, h2⟩ := leBytes_inj (by omega) (by omega) h
      obtain ⟨h3, h4⟩ := inj_bool.list _ _ _ _ h1 (fun _ _ => trivial) (fun _ _ => trivial) h2
      exact ⟨by rw [h3], h4⟩
    case vecPointer x y =>
      simp only [wireSize] at hs hs'
      obtain ⟨h1, h2⟩ := leBytes_inj (by omega) (by omega) h
      obtain ⟨h3, h4⟩ := inj_i64.list _ _ _ _ h1 (fun _ _ => trivial) (fun _ _ => trivial) h2
      exact ⟨by rw [h3], h4⟩
    case vecInt x y =>
      simp only [wireSize] at hs hs'
      obtain ⟨h1, h2⟩ := leBytes_inj (by omega) (by omega) h
      obtain ⟨h3, h4⟩ := inj_i32.list _ _ _ _ h1 (fun _ _ => trivial) (fun _ _ => trivial) h2
      exact ⟨by rw [h3], h4⟩
    case vecLong x y =>
      simp only [wireSize] at hs hs'
      obtain ⟨h1, h2⟩ := leBytes_inj (by omega) (by omega) h
      obtain ⟨h3, h4⟩ := inj_i64.list _ _ _ _ h1 (fun _ _ => trivial) (fun _ _ => trivial) h2
      exact ⟨by rw [h3], h4⟩
    case vecReal x y =>
      simp only [wireSize] at hs hs'
      obtain ⟨h1, h2⟩ := leBytes_inj (by omega) (by omega) h
      obtain ⟨h3, h4⟩ := inj_f64.list _ _ _ _ h1 (fun _ _ => trivial) (fun _ _ => trivial) h2
      exact ⟨by rw [h3], h4⟩
    case vecComplex x y =>
      simp only [wireSize] at hs hs'
      obtain ⟨h1, h2⟩ := leBytes_inj (by omega) (by omega) h
      obtain ⟨h3, h4⟩ := inj_cplx.list _ _ _ _ h1 (fun _ _ => trivial) (fun _ _ => trivial) h2
      exact ⟨by rw [h3], h4⟩
    all_goals
      rename_i x y
      simp [WF, Mat.wf] at hw hw'
      obtain ⟨h1, h2⟩ := leBytes_inj (by omega) (by omega) h
      obtain ⟨h3, h4⟩ := leBytes_inj (by omega) (by omega) h2
      have hl : x.data.length = y.data.length := by rw [hw.2, hw'.2, h1, h3]
    case matInt =>
      obtain ⟨h5, h6⟩ := inj_i32.list _ _ _ _ hl (fun _ _ => trivial) (fun _ _ => trivial) h4
      cases x; cases y; simp_all
    case matLong =>
      obtain ⟨h5, h6⟩ := inj_i64.list _ _ _ _ hl (fun _ _ => trivial) (fun _ _ => trivial) h4
      cases x; cases y; simp_all
    case matReal =>
      obtain ⟨h5, h6⟩ := inj_f64.list _ _ _ _ hl (fun _ _ => trivial) (fun _ _ => trivial) h4
      cases x; cases y; simp_all
    case matComplex =>
      obtain ⟨h5, h6⟩ := inj_cplx.list _ _ _ _ hl (fun _ _ => trivial) (fun _ _ => trivial) h4
      cases x; cases y; simp_all
  · intro v ih g' a b hw hw' hs hs' h
    have hty : (vector v).ty = g'.ty := by
      obtain ⟨t, ht⟩ := enc_tag (vector v)
      obtain ⟨t', ht'⟩ := enc_tag g'
      rw [ht, ht', List.append_assoc, List.append_assoc] at h
      exact code_inj (leBytes_inj (code_lt _) (code_lt _) h).1
    cases g' <;> simp only [ty, reduceCtorEq] at hty
    rename_i w
    simp only [enc, List.append_assoc, encL_flatMap] at h
    replace h := List.append_cancel_left h
    simp only [wireSize] at hs hs'
    have l1 := length_le_wireSizeL v
    have l2 := length_le_wireSizeL w
    obtain ⟨h1, h2⟩ := leBytes_inj (by omega) (by omega) h
    have key : ∀ (v w : List GC) (a b : Bytes), v.length = w.length →
        (∀ x ∈ v, EncInj x ∧ WF x ∧ wireSize x < 2 ^ 31) → (∀ x ∈ w, WF x ∧ wireSize x < 2 ^ 31) →
        v.flatMap enc ++ a = w.flatMap enc ++ b → v = w ∧ a = b := by
      intro v
      induction v with
      | nil => intro w a b hl _ _ he; cases w with
        | nil => exact ⟨rfl, he⟩
        | cons _ _ => simp at hl
      | cons x r ihr =>
        intro w a b hl hv hw he
        cases w with
        | nil => simp at hl
        | cons y s =>
          simp only [List.flatMap_cons, List.append_assoc] at he
          obtain ⟨p1, p2⟩ := (hv x (by simp)).1 y _ _ (hv x (by simp)).2.1 (hw y (by simp)).1
            (hv x (by simp)).2.2 (hw y (by simp)).2 he
          obtain ⟨p3, p4⟩ := ihr s a b (by simpa using hl) (fun z hz => hv z (by simp [hz]))
            (fun z hz => hw z (by simp [hz])) p2
          exact ⟨by rw [p1, p3], p4⟩
    obtain ⟨h3, h4⟩ := key v w a b h1
      (fun x hx => ⟨ih x hx, WFL_iff.1 hw x hx, by have := wireSizeL_mem hx; omega⟩)
      (fun x hx => ⟨WFL_iff.1 hw' x hx, by have := wireSizeL_mem hx; omega⟩) h2
    exact ⟨by rw [h3], h4⟩
  · intro v ih g' a b hw hw' hs hs' h
    have hty : (map v).ty = g'.ty := by
      obtain ⟨t, ht⟩ := enc_tag (map v)
      obtain ⟨t', ht'⟩ := enc_tag g'
      rw [ht, ht', List.append_assoc, List.append_assoc] at h
      exact code_inj (leBytes_inj (code_lt _) (code_lt _) h).1
    cases g' <;> simp only [ty, reduceCtorEq] at hty
    rename_i w
    simp only [enc, List.append_assoc, encM_flatMap] at h
    replace h := List.append_cancel_left h
    simp only [wireSize] at hs hs'
    have l1 := length_le_wireSizeM v
    have l2 := length_le_wireSizeM w
    obtain ⟨h1, h2⟩ := leBytes_inj (by omega) (by omega) h
    have key : ∀ (v w : Entries) (a b : Bytes), v.length = w.length →
        (∀ e ∈ v, EncInj e.2 ∧ WF e.2 ∧ 4 + e.1.length + 1 + wireSize e.2 < 2 ^ 31) →
        (∀ e ∈ w, WF e.2 ∧ 4 + e.1.length + 1 + wireSize e.2 < 2 ^ 31) →
        (v.flatMap fun e => encStr e.1 ++ enc e.2) ++ a =
          (w.flatMap fun e => encStr e.1 ++ enc e.2) ++ b → v = w ∧ a = b := by
      intro v
      induction v with
      | nil => intro w a b hl _ _ he; cases w with
        | nil => exact ⟨rfl, he⟩
        | cons _ _ => simp at hl
      | cons x r ihr =>
        intro w a b hl hv hw he
        cases w with
        | nil => simp at hl
        | cons y s =>
          simp only [List.flatMap_cons, List.append_assoc] at he
          have q1 := hv x (by simp)
          have q2 := hw y (by simp)
          obtain ⟨p5, p6⟩ := inj_str _ _ _ _ (by omega) (by omega) he
          obtain ⟨p1, p2⟩ := q1.1 y.2 _ _ q1.2.1 q2.1 (by omega) (by omega) p6
          obtain ⟨p3, p4⟩ := ihr s a b (by simpa using hl) (fun z hz => hv z (by simp [hz]))
            (fun z hz => hw z (by simp [hz])) p2
          refine ⟨?_, p4⟩
          rw [p3, show x = y from Prod.ext p5 p1]
    obtain ⟨h3, h4⟩ := key v w a b h1
      (fun x hx => ⟨ih x hx, WFM_iff.1 hw.2 x hx, by have := wireSizeM_mem hx; omega⟩)
      (fun x hx => ⟨WFM_iff.1 hw'.2 x hx, by have := wireSizeM_mem hx; omega⟩) h2
    exact ⟨by rw [h3], h4⟩
  · simp
  · intro x r hx hr y hy
    rcases List.mem_cons.1 hy with rfl | hy
    · exact hx
    · exact hr y hy
  · simp
  · intro k x r hx hr y hy
    rcases List.mem_cons.1 hy with rfl | hy
    · exact hx
    · exact hr y hy

/-! ## Which containers `serialize` accepts -/

theorem no_matC_of_ser :
    (∀ g w w', ser g w = .ok w' → every notMatC g = true) ∧
    (∀ v w w', serL v w = .ok w' → everyL notMatC v = true) ∧
    (∀ m w w', serM m w = .ok w' → everyM notMatC m = true) := by
  apply GC.induct
  · intro g hv hm w w' h
    cases g <;> first | rfl | skip
    · obtain ⟨w1, -, h⟩ := out_bind_ok h
      simp at h
    · exact absurd rfl (hv _)
    · exact absurd rfl (hm _)
  · intro v ih w w' h
    rw [ser] at h
    obtain ⟨w1, -, h⟩ := out_bind_ok h
    obtain ⟨w2, -, h⟩ := out_bind_ok h
    simp [every, notMatC, ih _ _ h]
  · intro m ih w w' h
    rw [ser] at h
    obtain ⟨w1, -, h⟩ := out_bind_ok h
    obtain ⟨w2, -, h⟩ := out_bind_ok h
    simp [every, notMatC, ih _ _ h]
  · intros; rfl
  · intro x r hx hr w w' h
    rw [serL] at h
    obtain ⟨w1, h1, h⟩ := out_bind_ok h
    simp [everyL, hx _ _ h1, hr _ _ h]
  · intros; rfl
  · intro k x r hx hr w w' h
    rw [serM] at h
    obtain ⟨w0, -, h⟩ := out_bind_ok h
    obtain ⟨w1, h1, h⟩ := out_bind_ok h
    simp [everyM, hx _ _ h1, hr _ _ h]

theorem writable_of_size :
    (∀ g, every notMatC g = true → wireSize g < 2 ^ 31 → Writable g) ∧
    (∀ v, everyL notMatC v = true → wireSizeL v < 2 ^ 31 → everyL writableNode v = true) ∧
    (∀ m, everyM notMatC m = true → wireSizeM m < 2 ^ 31 → everyM writableNode m = true) := by
  apply GC.induct
  · intro g hv hm h hs
    cases g <;> first | rfl | skip
    · simp only [Writable, every, writableNode, decide_eq_true_eq]; simp only [wireSize] at hs; omega
    · simp only [Writable, every, writableNode, decide_eq_true_eq, List.all_eq_true]
      simp only [wireSize] at hs
      intro s hx
      have := str_le_sum hx; omega
    · simp [every, notMatC] at h
    · exact absurd rfl (hv _)
    · exact absurd rfl (hm _)
  · intro v ih h hs
    simp only [every, notMatC, Bool.true_and] at h
    simp only [wireSize] at hs
    simp [Writable, every, writableNode, ih h (by omega)]
  · intro m ih h hs
    simp only [every, notMatC, Bool.true_and] at h
    simp only [wireSize] at hs
    simp only [Writable, every, Bool.and_eq_true]
    refine ⟨?_, ih h (by omega)⟩
    simp only [writableNode, List.all_eq_true, decide_eq_true_eq]
    intro e he
    have := wireSizeM_mem he; omega
  · intros; rfl
  · intro x r hx hr h hs
    simp only [everyL, Bool.and_eq_true] at h ⊢
    simp only [wireSizeL] at hs
    exact ⟨hx h.1 (by omega), hr h.2 (by omega)⟩
  · intros; rfl
  · intro k x r hx hr h hs
    simp only [everyM, Bool.and_eq_true] at h ⊢
    simp only [wireSizeM] at hs
    exact ⟨hx h.1 (by omega), hr h.2 (by omega)⟩

theorem writable_of_serialize {g : GC} {n : Int} {buf : Bytes} {r : Bytes × Int}
    (hs : wireSize g < 2 ^ 31) (h : serialize n buf g = .ok r) : Writable g := by
  obtain ⟨w, hw, -⟩ := out_bind_ok h
  exact writable_of_size.1 g (no_matC_of_ser.1 g _ _ hw) hs

theorem every_mono {p q : GC → Bool} (hpq : ∀ g, p g = true → q g = true) :
    (∀ g, every p g = true → every q g = true) ∧
    (∀ v, everyL p v = true → everyL q v = true) ∧
    (∀ m, everyM p m = true → everyM q m = true) := by
  apply GC.induct
  · intro g hv hm h
    cases g <;> first | exact hpq _ h | skip
    · exact absurd rfl (hv _)
    · exact absurd rfl (hm _)
  · intro v ih h
    simp only [every, Bool.and_eq_true] at h ⊢
    exact ⟨hpq _ h.1, ih h.2⟩
  · intro m ih h
    simp only [every, Bool.and_eq_true] at h ⊢
    exact ⟨hpq _ h.1, ih h.2⟩
  · intros; rfl
  · intro x r hx hr h
    simp only [everyL, Bool.and_eq_true] at h ⊢
    exact ⟨hx h.1, hr h.2⟩
  · intros; rfl
  · intro k x r hx hr h
    simp only [everyM, Bool.and_eq_true] at h ⊢
    exact ⟨hx h.1, hr h.2⟩

theorem Storable.writable {g : GC} (h : Storable g) (hs : wireSize g < 2 ^ 31) : Writable g :=
  writable_of_size.1 g ((every_mono (by intro g hg; cases g <;> first | rfl | simp [storableNode] at hg)).1 g h) hs

end GC
end GCV
