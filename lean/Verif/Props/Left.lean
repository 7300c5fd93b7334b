import Verif.Spec.Left
import Verif.Props.Unchanged
import Verif.Props.AnyKey
import Verif.Props.MatrixRef
import Verif.Props.CollapseExact

/-! # C112: exactly what a call that throws leaves -/

namespace GCV
namespace GC

theorem collapseL_forall : ∀ (v v' : List GC), collapseL v = .ok v' → List.Forall₂ (fun x y => collapse x = .ok y ()) v v'
  | [], v', h => by cases h; exact .nil
  | x :: r, v', h => by
    rw [collapseL] at h
    split at h
    · rename_i x' u hx
      split at h
      · rename_i r' hr
        cases h
        exact .cons hx (collapseL_forall r r' hr)
      all_goals cases h
    all_goals cases h

theorem assignPacked_left {α : Type} (v : List GC) (c : Out α) (set : α → GC → Out GC) (s : GC)
    (h : assignPacked v c set = .throw s) : s = vector v := by
  unfold assignPacked at h
  split at h <;> cases h
  rfl

theorem pack_left (v : List GC) (s : GC) (h : pack v = .throw s) : s = vector v := by
  unfold pack at h
  simp only at h
  split at h
  · cases h
  · split at h
    · exact assignPacked_left _ _ _ _ h
    · split at h <;> first | exact assignPacked_left _ _ _ _ h | cases h

mutual

theorem collapse_left : ∀ (g s : GC), collapse g = .throw s → CollapseLeft g s
  | vector v, s => by
    intro h
    rw [collapse_vector] at h
    split at h
    · cases h
    · rename_i hv
      split at h
      · rename_i v' he
        have hf := collapseL_forall v v' he
        have : s = vector v' := pack_left v' s h
        subst this
        exact .packing hv hf
      · rename_i v' he
        cases h
        obtain ⟨a, a', x, x', b, rfl, rfl, hf, hx⟩ := collapseL_left v v' he
        exact .element hf hx
      · cases h
      · cases h
  | map m, s => by
    intro h
    rw [collapse] at h
    split at h
    · cases h
    · rename_i m' he
      cases h
      obtain ⟨a, a', k, x, x', b, rfl, rfl, hf, hx⟩ := collapseM_left m m' he
      exact .value hf hx
    · cases h
    · cases h
  | notype, s => by intro h; cases h
  | pointer x, s => by intro h; cases h
  | bool x, s => by intro h; cases h
  | int x, s => by intro h; cases h
  | long x, s => by intro h; cases h
  | real x, s => by intro h; cases h
  | complex x, s => by intro h; cases h
  | string x, s => by intro h; cases h
  | vecPointer x, s => by intro h; cases h
  | vecBool x, s => by intro h; cases h
  | vecInt x, s => by intro h; cases h
  | vecLong x, s => by intro h; cases h
  | vecReal x, s => by intro h; cases h
  | vecComplex x, s => by intro h; cases h
  | vecString x, s => by intro h; cases h
  | matInt x, s => by intro h; cases h
  | matLong x, s => by intro h; cases h
  | matReal x, s => by intro h; cases h
  | matComplex x, s => by intro h; cases h
termination_by structural g => g

theorem collapseL_left : ∀ (v s : List GC), collapseL v = .throw s →
    ∃ a a' x x' b, v = a ++ x :: b ∧ s = a' ++ x' :: b ∧ List.Forall₂ (fun x y => collapse x = .ok y ()) a a' ∧
      CollapseLeft x x'
  | [], s => by intro h; cases h
  | x :: r, s => by
    intro h
    rw [collapseL] at h
    split at h
    · rename_i x' u hx
      split at h
      · cases h
      · rename_i r' hr
        cases h
        obtain ⟨a, a', z, z', b, rfl, rfl, hf, hz⟩ := collapseL_left r r' hr
        exact ⟨x :: a, x' :: a', z, z', b, rfl, rfl, .cons hx hf, hz⟩
      · cases h
      · cases h
    · rename_i x' hx
      cases h
      exact ⟨[], [], x, x', r, rfl, rfl, .nil, collapse_left x x' hx⟩
    · cases h
    · cases h
termination_by structural v => v

theorem collapseM_left : ∀ (v s : Entries), collapseM v = .throw s →
    ∃ a a' k x x' b, v = a ++ (k, x) :: b ∧ s = a' ++ (k, x') :: b ∧
      List.Forall₂ (fun x y => y.1 = x.1 ∧ collapse x.2 = .ok y.2 ()) a a' ∧ CollapseLeft x x'
  | [], s => by intro h; cases h
  | (k, x) :: r, s => by
    intro h
    rw [collapseM] at h
    split at h
    · rename_i x' u hx
      split at h
      · cases h
      · rename_i r' hr
        cases h
        obtain ⟨a, a', k', z, z', b, rfl, rfl, hf, hz⟩ := collapseM_left r r' hr
        exact ⟨(k, x) :: a, (k, x') :: a', k', z, z', b, rfl, rfl, .cons ⟨rfl, hx⟩ hf, hz⟩
      · cases h
      · cases h
    · rename_i x' hx
      cases h
      exact ⟨[], [], k, x, x', r, rfl, rfl, .nil, collapse_left x x' hx⟩
    · cases h
    · cases h
termination_by structural v => v

end

theorem drop_throw {α : Type} {r : Res α} {s : GC} (h : drop r = .throw s) : r = .throw s := by
  cases r <;> simp [drop] at h ⊢
  exact h

theorem atCell_throw {α : Type} {up : Mat α → GC} {i j : Nat} {upd : α → α} {m : Mat α} {s : GC}
    (h : atCell up i j upd m = .throw s) : s = up m := by
  unfold atCell at h
  split at h <;> cases h
  rfl

theorem through_throw {α β : Type} {t : Ty} {accepts : Ty → Ty → Bool} {conv : GC → β} {use : Mat β → Res α} {g s : GC}
    {up : Mat β → GC} (hu : ∀ m s, use m = .throw s → s = up m) (ht : up (matrixOf conv g) = inType t g)
    (h : throughMatrix t accepts conv use g = .throw s) :
    s = if accepts g.ty t then inType (landing g.ty t) g else g := by
  unfold throughMatrix at h
  split at h
  · rename_i ha
    rw [if_pos ha]
    split at h
    · cases h
    · split at h
      · rename_i hl
        rw [hl, ← ht]
        exact hu _ _ h
      · cases h; rfl
  · rename_i ha
    rw [if_neg ha]
    cases h; rfl

theorem mapState_throw {α : Type} {r : Res α} {f : GC → GC} {s : GC} (h : r.mapState f = .throw s) :
    ∃ y, r = .throw y ∧ s = f y := by
  cases r <;> simp [Res.mapState] at h ⊢
  exact h.symm

theorem field_mem {g x : GC} {k : Bytes} (h : field g k = some x) : ∃ m, g = map m ∧ (k, x) ∈ m := by
  cases g with
  | map m => exact ⟨m, rfl, mem_of_mfind (by rw [mfind_eq_field]; exact h)⟩
  | _ => simp [field] at h

/-- **C112.** Exactly what a call that throws leaves, whatever the call (also on elements of elements), for every container whose
sizes fit their types. -/
theorem C112_left (op : Op) : ∀ (g s : GC), WF g → (∀ x, Inside x g → sizeOk x = true) → step op g = .throw s →
    Left op g s := by
  have quiet : ∀ (op : Op) (g s : GC), WF g → op.quiet g → step op g = .throw s → s = g :=
    fun op g s => C26_unchanged_partial op g s
  induction op with
  | collapse => intro g s _ _ h; exact collapse_left g s h
  | intAt2 i j u =>
    intro g s _ hz h
    have h := drop_throw h
    rw [((C98_cell g (hz g .self) _ _).1 u)] at h
    show s = _
    split at h
    · rename_i hn; rw [if_pos hn]; cases h; rfl
    · rename_i hn
      rw [if_neg hn]
      exact through_throw (up := matInt) (fun _ _ => atCell_throw) rfl h
  | longAt2 i j u =>
    intro g s _ hz h
    have h := drop_throw h
    rw [((C98_cell g (hz g .self) _ _).2.1 u)] at h
    show s = _
    split at h
    · rename_i hn; rw [if_pos hn]; cases h; rfl
    · rename_i hn
      rw [if_neg hn]
      exact through_throw (up := matLong) (fun _ _ => atCell_throw) rfl h
  | realAt2 i j u =>
    intro g s _ hz h
    have h := drop_throw h
    rw [((C98_cell g (hz g .self) _ _).2.2.1 u)] at h
    show s = _
    split at h
    · rename_i hn; rw [if_pos hn]; exact atCell_throw h
    · rename_i hn
      rw [if_neg hn]
      exact through_throw (up := matReal) (fun _ _ => atCell_throw) rfl h
  | complexAt2 i j u =>
    intro g s _ hz h
    have h := drop_throw h
    rw [((C98_cell g (hz g .self) _ _).2.2.2 u)] at h
    show s = _
    split at h
    · rename_i hn; rw [if_pos hn]; exact atCell_throw h
    · rename_i hn
      rw [if_neg hn]
      exact through_throw (up := matComplex) (fun _ _ => atCell_throw) rfl h
  | getMatLong u =>
    intro g s hw hz h
    show s = _
    by_cases hb : g.ty = .VEC_BOOL
    · rw [if_pos hb]
      have h := drop_throw h
      rw [((C98_reference g (hz g .self)).2.1 u), if_neg (by rw [hb]; simp)] at h
      have := through_throw (up := matLong) (fun _ _ h => by cases h) rfl h
      rw [this, hb]; rfl
    · rw [if_neg hb]
      refine quiet _ _ _ hw ?_ h
      exact ⟨by have := hz g .self; cases g <;> simp_all [size1, sizeOk], hb⟩
  | getMatReal u =>
    intro g s hw hz h
    refine quiet _ _ _ hw ?_ h
    have := hz g .self; cases g <;> simp_all [Op.quiet, size1, sizeOk]
  | promoteMatLong =>
    intro g s hw hz h
    refine quiet _ _ _ hw ?_ h
    have := hz g .self; cases g <;> simp_all [Op.quiet, size1, sizeOk]
  | promoteMatReal =>
    intro g s hw hz h
    refine quiet _ _ _ hw ?_ h
    have := hz g .self; cases g <;> simp_all [Op.quiet, size1, sizeOk]
  | idx i op ih =>
    intro g s hw hz h
    have hi := i.isLt
    simp only [step, withIdx] at h
    split at h
    · cases h
    · rename_i x hx
      obtain ⟨y, hy, rfl⟩ := mapState_throw h
      have hg : checkResize notype i.toNat g.oldVector = grown notype (itemsOf g) i.toNat := by
        have hlen := (List.getElem?_eq_some_iff.1 hx).1
        have e : g.oldVector = itemsOf g := by cases g <;> rfl
        rw [e] at hlen ⊢
        unfold checkResize grown at *
        split at hlen
        · rename_i hle
          rw [if_pos hle]
          have : i.toNat + 1 < 2 ^ 32 := by
            apply Nat.lt_of_le_of_ne (by omega)
            intro hc
            rw [hc] at hlen
            simp [u32, resizeL] at hlen
          rw [u32, Nat.mod_eq_of_lt this]
          simp [resizeL, List.take_of_length_le (by omega : (itemsOf g).length ≤ i.toNat + 1)]
        · rename_i hle
          rw [if_neg hle, show i.toNat + 1 - (itemsOf g).length = 0 by omega]
          simp
      rw [hg] at hx ⊢
      refine ⟨x, y, hx, rfl, ?_⟩
      have hx' : x = notype ∨ ∃ v, g = vector v ∧ x ∈ v := by
        rcases List.mem_append.1 (List.mem_of_getElem? hx) with hm | hm
        · right
          cases g with
          | vector v => exact ⟨v, rfl, hm⟩
          | _ => simp [itemsOf] at hm
        · exact .inl (List.eq_of_mem_replicate hm)
      refine ih x y ?_ ?_ hy
      · rcases hx' with rfl | ⟨v, rfl, hm⟩
        · trivial
        · obtain ⟨n, hn⟩ := List.mem_iff_getElem?.1 hm
          exact WFL_get hw hn
      · rcases hx' with rfl | ⟨v, rfl, hm⟩
        · intro z hz'
          cases hz'; rfl
        · exact fun z hz' => hz z (.elem hm hz')
  | call i op ih =>
    intro g s hw hz h
    simp only [step] at h
    simp only [Left]
    cases g with
    | vector v =>
      simp only [withIdxChecked] at h
      simp only [itemsOf]
      cases hx : v[i.toNat]? with
      | none => rw [hx] at h; cases h; rfl
      | some x =>
        rw [hx] at h
        obtain ⟨y, hy, rfl⟩ := mapState_throw h
        exact ⟨y, rfl, ih x y (WFL_get hw hx) (fun z hz' => hz z (.elem (List.mem_of_getElem? hx) hz')) hy⟩
    | _ => cases h; rfl
  | key k op ih =>
    intro g s hw hz h
    simp only [step] at h
    have hs : KeysSorted g.oldMap := by
      cases g <;> first | exact hw.1 | exact List.Pairwise.nil
    have := C96_writes g hs k (step op)
    cases hf : step op ((field g (beforeNul k)).getD notype) with
    | throw y =>
      rw [hf] at this
      obtain ⟨g', he, hst⟩ := this
      rw [he] at h
      cases h
      refine ⟨y, hst, ih _ y ?_ ?_ hf⟩
      · cases hx : field g (beforeNul k) with
        | none => trivial
        | some x =>
          obtain ⟨m, rfl, hm⟩ := field_mem hx
          rw [← mfind_eq_field] at hx
          exact WFM_find hw.2 hx
      · cases hx : field g (beforeNul k) with
        | none => intro z hz'; cases hz'; rfl
        | some x =>
          obtain ⟨m, rfl, hm⟩ := field_mem hx
          exact fun z hz' => hz z (.value hm hz')
    | ok y a => rw [hf] at this; obtain ⟨g', he, -⟩ := this; rw [he] at h; cases h
    | ub => rw [hf] at this; simp only at this; rw [this] at h; cases h
    | diverge => rw [hf] at this; simp only at this; rw [this] at h; cases h
  | callKey k op ih =>
    intro g s hw hz h
    simp only [step] at h
    simp only [Left]
    have hs : KeysSorted g.oldMap := by
      cases g <;> first | exact hw.1 | exact List.Pairwise.nil
    have := C96_checked g hs k (step op)
    cases hx : field g (beforeNul k) with
    | none => rw [hx] at this; simp only [Option.map_none] at this; rw [this] at h; cases h; rfl
    | some x =>
      rw [hx] at this
      simp only [Option.map_some] at this
      cases hf : step op x with
      | throw y =>
        rw [hf] at this
        obtain ⟨g', he, hst⟩ := this
        rw [he] at h
        cases h
        obtain ⟨m, rfl, hm⟩ := field_mem hx
        rw [← mfind_eq_field] at hx
        exact ⟨y, hst, ih _ y (WFM_find hw.2 hx) (fun z hz' => hz z (.value hm hz')) hf⟩
      | ok y a => rw [hf] at this; obtain ⟨g', he, -⟩ := this; rw [he] at h; cases h
      | ub => rw [hf] at this; simp only at this; rw [this] at h; cases h
      | diverge => rw [hf] at this; simp only at this; rw [this] at h; cases h
  | callKeys ks op ih =>
    intro g s hw hz h
    simp only [step] at h
    simp only [Left]
    by_cases hmap : g.ty = .MAP
    · cases g with
      | map m =>
        have := C96_checked_keys m hw.1 ks (step op)
        cases hk : ks.find? fun k => (field (map m) k).isSome with
        | none => rw [hk] at this; simp only at this; rw [this] at h; cases h; rfl
        | some k =>
          rw [hk] at this
          simp only at this
          have hsome := List.find?_some hk
          obtain ⟨x, hx⟩ := Option.isSome_iff_exists.1 hsome
          rw [hx, Option.getD_some] at this
          cases hf : step op x with
          | throw y =>
            rw [hf] at this
            obtain ⟨g', he, hst⟩ := this
            rw [he] at h
            cases h
            obtain ⟨m', hm', hm⟩ := field_mem hx
            cases hm'
            have hx' := hx
            rw [← mfind_eq_field] at hx'
            exact ⟨x, y, hx, hst, ih _ y (WFM_find hw.2 hx') (fun z hz' => hz z (.value hm hz')) hf⟩
          | ok y a => rw [hf] at this; obtain ⟨g', he, -⟩ := this; rw [he] at h; cases h
          | ub => rw [hf] at this; simp only at this; rw [this] at h; cases h
          | diverge => rw [hf] at this; simp only at this; rw [this] at h; cases h
      | _ => simp [GC.ty] at hmap
    · have hn : (ks.find? fun k => (field g k).isSome) = none := by
        rw [List.find?_eq_none]
        intro k _
        cases g <;> first | exact absurd rfl hmap | simp [field]
      rw [hn]
      have := (C96_no_map g hmap [] ks (fun _ => .ok ()) (step op)).2.2.2.2
      rw [this] at h; cases h; rfl
  | _ => intro g s hw _ h; refine quiet _ g s hw ?_ h; trivial

/-- Four calls that throw: on an element of an element made by the call, on a cell outside of a vector, a read of a matrix
of longs, and collapse. -/
example :
    step (.key [97] (.idx 1 (.erase [98]))) (int 5) = .throw (map [([97], vector [notype, notype])]) ∧
    Left (.idx 1 (.erase [98])) notype (vector [notype, notype]) ∧
    (∀ x, step (.realAt2 5 5 id) (vecReal [x]) = .throw (cellLeft .MAT_REAL (vecReal [x])) ∧
      cellLeft .MAT_REAL (vecReal [x]) = matReal ⟨1, 1, [x]⟩) ∧
    (∀ u, step (.getMatLong u) (vecBool [true]) = .throw (inType .MAT_REAL (vecBool [true]))) ∧
    CollapseLeft (map [([97], vector [int 1]), ([98], vector [pointer 0, int 1])])
      (map [([97], vecInt [1]), ([98], vector [pointer 0, int 1])]) ∧
    WF (map [([97], vector [int 1]), ([98], vector [pointer 0, int 1])]) := by
  refine ⟨by decide +kernel, ⟨notype, notype, rfl, rfl, rfl⟩, fun x => ⟨rfl, rfl⟩, fun u => rfl, ?_, ?_⟩
  · exact .value (a := [([97], vector [int 1])]) (a' := [([97], vecInt [1])]) (b := [])
      (.cons ⟨rfl, by decide +kernel⟩ .nil) (.packing (by simp) (.cons rfl (.cons rfl .nil)))
  · refine ⟨?_, ?_⟩
    · simp [KeysSorted]; exact (blt_iff _ _).1 (by decide +kernel)
    · simp [WFM, WFL, WF]

end GC
end GCV
