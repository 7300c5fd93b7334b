import Verif.Spec.Lua
import Verif.Lemmas.Map
import Verif.Lemmas.Copy

/-! # Pushing containers to Lua -/

namespace GCV

open LuaV

theorem lget_filter {k k' : LKey} : ∀ t : List (LKey × LuaV),
    LuaV.get k (t.filter fun e => e.1 ≠ k') = if k = k' then .nil else LuaV.get k t
  | [] => by simp [LuaV.get]
  | (j, v) :: r => by
    have ih := lget_filter (k := k) (k' := k') r
    rw [List.filter_cons]
    by_cases hj : j = k'
    · subst hj
      simp only [ne_eq, not_true_eq_false, decide_false, Bool.false_eq_true, if_false]
      rw [ih, LuaV.get]
      by_cases hk : k = j
      · simp [hk]
      · simp [hk]
    · simp only [ne_eq, hj, not_false_eq_true, decide_true, if_true]
      rw [LuaV.get, ih, LuaV.get]
      by_cases hk : k = j
      · subst hk; simp [hj]
      · simp [hk]

theorem lget_set (k k' : LKey) (v : LuaV) (t : List (LKey × LuaV)) :
    LuaV.get k (LuaV.set k' v t) = if k = k' then v else LuaV.get k t := by
  cases v <;> simp only [LuaV.set, LuaV.get, lget_filter] <;> split <;> simp_all

theorem luaIndex_eq {i : Nat} (h : i + 1 < 2 ^ 31) : luaIndex i = i + 1 := by
  unfold luaIndex
  rw [BitVec.toInt_eq_toNat_of_lt (by simp; omega)]; simp; omega

theorem pushItems_ok : ∀ (xs : List LuaV) (i : Nat) (t : List (LKey × LuaV)) (st : LuaStack),
    i + xs.length < 2 ^ 31 →
    ∃ t', pushItems i xs (.table t :: st) = .ok (.table t' :: st) ∧
      (∀ n : Nat, n < xs.length → some (LuaV.get (.int (i + n + 1)) t') = xs[n]?) ∧
      ∀ k, (∀ n : Nat, n < xs.length → k ≠ .int (i + n + 1)) → LuaV.get k t' = LuaV.get k t
  | [], i, t, st, _ => ⟨t, rfl, by simp, fun _ _ => rfl⟩
  | x :: r, i, t, st, h => by
    simp only [List.length_cons] at h
    have hi := luaIndex_eq (i := i) (by omega)
    obtain ⟨t', h1, h2, h3⟩ := pushItems_ok r (i + 1) (LuaV.set (.int (i + 1)) x t) st (by omega)
    refine ⟨t', ?_, ?_, ?_⟩
    · rw [pushItems, rawseti, hi]; exact h1
    · intro n hn
      cases n with
      | zero =>
        rw [h3]
        · rw [lget_set]; simp
        · intro m _; simp; omega
      | succ n =>
        have := h2 n (by simpa using hn)
        rw [List.getElem?_cons_succ, ← this]
        congr 3
        omega
    · intro k hk
      rw [h3, lget_set, if_neg]
      · have := hk 0 (by simp); simpa using this
      · intro n hn
        have := hk (n + 1) (by simp; omega)
        intro e; apply this; rw [e]; congr 1; omega

theorem pushItemTable_ok (xs : List LuaV) (st : LuaStack) (h : xs.length < 2 ^ 31) :
    ∃ t, pushItemTable xs st = .ok (.table t :: st) ∧ IsArray xs t := by
  obtain ⟨t, h1, h2, h3⟩ := pushItems_ok xs 0 [] st (by omega)
  refine ⟨t, h1, ?_, ?_⟩
  · intro n hn; have := h2 n hn; simpa using this
  · intro k hk
    rw [h3 k (by intro n hn; have := hk n hn; simpa using this)]; rfl

theorem map_cstr : ∀ {v : List Bytes}, v.all noNul = true →
    (v.map fun s => LuaV.str (cstr s)) = v.map .str
  | [], _ => rfl
  | s :: r, h => by
    simp only [List.all_cons, Bool.and_eq_true] at h
    rw [List.map_cons, List.map_cons, map_cstr h.2, cstr_of_noNul h.1]

theorem showsL_congr : ∀ {v : List GC} {i : Nat} {t t' : List (LKey × LuaV)},
    (∀ n : Nat, n < v.length → LuaV.get (.int (i + n + 1)) t' = LuaV.get (.int (i + n + 1)) t) →
    ShowsL i v t → ShowsL i v t'
  | [], _, _, _, _, _ => trivial
  | x :: r, i, t, t', h, hs => by
    rw [ShowsL] at hs ⊢
    refine ⟨?_, showsL_congr (fun n hn => ?_) hs.2⟩
    · have := h 0 (by simp)
      simp only [Int.natCast_zero, Int.add_zero] at this
      rw [this]; exact hs.1
    · have := h (n + 1) (by simp; omega)
      have e : ((i : Int) + ((n + 1 : Nat) : Int) + 1) = ((i + 1 : Nat) : Int) + n + 1 := by
        omega
      rwa [e] at this

theorem showsM_congr : ∀ {m : Entries} {t t' : List (LKey × LuaV)},
    (∀ s ∈ m.map Prod.fst, LuaV.get (.str s) t' = LuaV.get (.str s) t) →
    ShowsM m t → ShowsM m t'
  | [], _, _, _, _ => trivial
  | (k, x) :: r, t, t', h, hs => by
    rw [ShowsM] at hs ⊢
    refine ⟨?_, showsM_congr (fun s hs' => h s (by simp at hs' ⊢; exact .inr hs')) hs.2⟩
    rw [h k (by simp)]; exact hs.1

/-- What the property asks of a push. -/
def Pushes (g : GC) : Prop :=
  ∀ st, ∃ v, GC_to_lua g st = .ok (v :: st) ∧ Shows g v

theorem push_all :
    (∀ g : GC, g.every luaReady → g.every (fun x => !isVecBool x) → g.WF → Pushes g) ∧
    (∀ v : List GC, GC.everyL luaReady v → GC.everyL (fun x => !isVecBool x) v → GC.WFL v →
      ∀ i t st, i + v.length < 2 ^ 31 →
        ∃ t', pushElems i v (.table t :: st) = .ok (.table t' :: st) ∧ ShowsL i v t' ∧
          ∀ k, (∀ n : Nat, n < v.length → k ≠ .int (i + n + 1)) → LuaV.get k t' = LuaV.get k t) ∧
    (∀ m : Entries, GC.everyM luaReady m → GC.everyM (fun x => !isVecBool x) m → GC.WFM m →
      KeysSorted m → m.all (fun e => noNul e.1) →
      ∀ t st, ∃ t', pushEntries m (.table t :: st) = .ok (.table t' :: st) ∧ ShowsM m t' ∧
          ∀ k, (∀ s ∈ m.map Prod.fst, k ≠ .str s) → LuaV.get k t' = LuaV.get k t) := by
  apply GC.induct
  · intro g hv hm h1 h2 hw st
    cases g <;> simp only [GC.every, luaReady, isVecBool, Bool.and_eq_true, decide_eq_true_eq, Bool.not_true, Bool.false_eq_true] at h1 h2 <;>
      first
      | exact ⟨_, rfl, rfl⟩
      | exact absurd rfl (hv _)
      | exact absurd rfl (hm _)
      | skip
    · exact ⟨_, rfl, by rw [Shows, cstr_of_noNul h1]⟩
    · rename_i v
      obtain ⟨t, e, ha⟩ := pushItemTable_ok (v.map (fun i => .num (F64.ofI32 i))) st (by simpa using h1)
      exact ⟨_, e, t, rfl, ha⟩
    · rename_i v
      obtain ⟨t, e, ha⟩ := pushItemTable_ok (v.map (fun i => .num (F64.ofI64 i))) st (by simpa using h1)
      exact ⟨_, e, t, rfl, ha⟩
    · rename_i v
      obtain ⟨t, e, ha⟩ := pushItemTable_ok (v.map .num) st (by simpa using h1)
      exact ⟨_, e, t, rfl, ha⟩
    · rename_i v
      obtain ⟨t, e, ha⟩ := pushItemTable_ok (v.map fun s => .str (cstr s)) st (by simpa using h1.1)
      refine ⟨_, e, t, rfl, ?_⟩
      rw [map_cstr (by simpa using h1.2)] at ha
      exact ha
  · intro v ih h1 h2 hw st
    simp only [GC.every, luaReady, Bool.and_eq_true, decide_eq_true_eq] at h1 h2
    rw [GC.WF] at hw
    obtain ⟨t, e, hs, hf⟩ := ih h1.2 h2.2 hw 0 [] st (by omega)
    refine ⟨_, e, t, rfl, hs, ?_⟩
    intro k hk
    rw [hf k (by intro n hn; have := hk n hn; simpa using this)]; rfl
  · intro m ih h1 h2 hw st
    simp only [GC.every, luaReady, Bool.and_eq_true] at h1 h2
    rw [GC.WF] at hw
    obtain ⟨t, e, hs, hf⟩ := ih h1.2 h2.2 hw.2 hw.1 h1.1 [] st
    refine ⟨_, e, t, rfl, hs, ?_⟩
    intro k hk
    rw [hf k hk]; rfl
  · intro _ _ _ i t st _
    exact ⟨t, rfl, trivial, fun _ _ => rfl⟩
  · intro x xs ihx ih h1 h2 hw i t st hi
    simp only [GC.everyL, Bool.and_eq_true] at h1 h2
    rw [GC.WFL] at hw
    simp only [List.length_cons] at hi
    obtain ⟨v, e, hs⟩ := ihx h1.1 h2.1 hw.1 (.table t :: st)
    obtain ⟨t', e', hs', hf⟩ := ih h1.2 h2.2 hw.2 (i + 1) (LuaV.set (.int (i + 1)) v t) st (by omega)
    refine ⟨t', ?_, ?_, ?_⟩
    · rw [pushElems, e]; simp only [Out.bind, rawseti]; rw [luaIndex_eq (by omega)]; exact e'
    · rw [ShowsL]
      refine ⟨?_, hs'⟩
      rw [hf]
      · rw [lget_set]; simpa using hs
      · intro n _; simp; omega
    · intro k hk
      rw [hf, lget_set, if_neg]
      · have := hk 0 (by simp); simpa using this
      · intro n hn
        have := hk (n + 1) (by simp; omega)
        intro e; apply this; rw [e]; congr 1; omega
  · intro _ _ _ _ _ t st
    exact ⟨t, rfl, trivial, fun _ _ => rfl⟩
  · intro key x xs ihx ih h1 h2 hw hk0 hn t st
    simp only [GC.everyM, Bool.and_eq_true] at h1 h2
    rw [GC.WFM] at hw
    rw [KeysSorted, List.pairwise_cons] at hk0
    simp only [List.all_cons, Bool.and_eq_true] at hn
    obtain ⟨v, e, hs⟩ := ihx h1.1 h2.1 hw.1 (.str (cstr key) :: .table t :: st)
    obtain ⟨t', e', hs', hf⟩ := ih h1.2 h2.2 hw.2 hk0.2 hn.2 (LuaV.set (.str key) v t) st
    refine ⟨t', ?_, ?_, ?_⟩
    · rw [pushEntries, e, cstr_of_noNul hn.1]; simp only [Out.bind, settable]; exact e'
    · rw [ShowsM]
      refine ⟨?_, hs'⟩
      rw [hf]
      · rw [lget_set]; simpa using hs
      · intro s hs1 he
        simp only [LKey.str.injEq] at he
        subst he
        obtain ⟨y, hy, hy'⟩ := List.mem_map.mp hs1
        have := hk0.1 y hy
        rw [hy'] at this
        exact strLT_irrefl _ this
    · intro k hk
      rw [hf, lget_set, if_neg]
      · exact hk key (by simp)
      · intro s hs1; exact hk s (by simp at hs1 ⊢; exact .inr hs1)

end GCV
