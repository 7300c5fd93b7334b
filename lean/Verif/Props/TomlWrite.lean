import Verif.Props.Docs

/-!
# C50: writing TOML and reading it back
-/

namespace GCV
namespace GC

/-- `y` is one of the elements of a container inside `g`. -/
def Holds (y g : GC) : Prop := ∃ x, Inside x g ∧ y ∈ elems x

/-- What is shown of the document written for a container. -/
structure Written (g : GC) (d : Toml) : Prop where
  ok : TomlOk d
  small : TomlSmall d
  same : ∀ g2, TomlSays d g2 → SameTree (view g) (view g2)
  apart : ∀ l, TInside (.arr l) d → (∀ x ∈ l, ∃ s, x = .arr s) ∨ ∀ x ∈ l, ∀ s, x ≠ .arr s
  cells : ∀ l, TInside (.arr l) d → ∀ s, .arr s ∈ l → s.length * l.length < 2 ^ 32
  ints : ∀ n, TInside (.int n) d → Holds (long n) g ∨ ∃ i : I32, Holds (int i) g ∧ n.toInt = i.toInt
  floats : ∀ r, TInside (.float r) d → Holds (real r) g
  list : (∃ l, d = .arr l) ↔ listLike g
  len : ∀ l, d = .arr l → l.length = (elems g).length
  whole : (∃ n, d = .int n) ↔ g.ty = .INTEGER ∨ g.ty = .LONG

theorem toInt_signExtend64 (i : I32) : (i.signExtend 64).toInt = i.toInt := BitVec.toInt_signExtend_of_le (by decide)

theorem whole_same {n : I64} {x : GC} (h : Whole n x) : SameNumber (long n) x := by
  rcases whole_cases h with ⟨i, rfl, hi⟩ | rfl
  · exact .inr (.inl ⟨_, rfl, by rw [numValue, hi]⟩)
  · exact .inl rfl

/-- The document of a scalar. -/
def scalarDoc : GC → Option Toml
  | bool b => some (.bool b)
  | int i => some (.int (i.signExtend 64))
  | long l => some (.int l)
  | real r => some (.float r)
  | string s => some (.str s)
  | _ => none

theorem written_scalar {g : GC} {d : Toml} (h : scalarDoc g = some d) : Written g d := by
  have hs : view g = .leaf g ∧ elems g = [g] ∧ ¬ listLike g := by
    cases g <;> simp [scalarDoc] at h <;> simp [view, elems, listLike, shape, ty]
  have hd : ∀ y, TInside y d → y = d := by
    intro y hy
    cases g <;> simp [scalarDoc] at h <;> subst h <;> cases hy <;> rfl
  have ha : ∀ l, d ≠ .arr l := by
    intro l hl; subst hl
    cases g <;> simp [scalarDoc] at h
  refine ⟨?_, ?_, ?_, ?_, ?_, ?_, ?_, ?_, ?_, ?_⟩
  · cases g <;> simp [scalarDoc] at h <;> subst h <;> constructor
  · cases g <;> simp [scalarDoc] at h <;> subst h <;> constructor
  · intro g2 h2
    have : SameNumber g g2 ∧ view g2 = .leaf g2 := by
      cases g <;> simp [scalarDoc] at h <;> subst h <;> cases h2
      · exact ⟨.inl rfl, rfl⟩
      · rename_i hw
        refine ⟨?_, by rcases whole_cases hw with ⟨i, rfl, -⟩ | rfl <;> rfl⟩
        refine SameNumber.trans (.inr (.inl ⟨_, rfl, ?_⟩)) (whole_same hw)
        rw [numValue, toInt_signExtend64]
      · rename_i hw
        exact ⟨whole_same hw, by rcases whole_cases hw with ⟨i, rfl, -⟩ | rfl <;> rfl⟩
      · exact ⟨.inl rfl, rfl⟩
      · exact ⟨.inl rfl, rfl⟩
    rw [hs.1, this.2]
    exact .leaf this.1
  · intro l hl; exact absurd (hd _ hl).symm (ha l)
  · intro l hl; exact absurd (hd _ hl).symm (ha l)
  · intro n hn
    have hn := (hd _ hn).symm
    cases g <;> simp [scalarDoc] at h <;> subst h <;> simp at hn <;> subst hn
    · exact .inr ⟨_, ⟨_, .self, by simp [elems]⟩, toInt_signExtend64 _⟩
    · exact .inl ⟨_, .self, by simp [elems]⟩
  · intro r hr
    have hr := (hd _ hr).symm
    cases g <;> simp [scalarDoc] at h <;> subst h <;> simp at hr
    subst hr
    exact ⟨_, .self, by simp [elems]⟩
  · exact ⟨fun ⟨l, hl⟩ => absurd hl (ha l), fun h => absurd h hs.2.2⟩
  · intro l hl; exact absurd hl (ha l)
  · cases g <;> simp [scalarDoc] at h <;> subst h <;> simp [ty]

theorem view_list {g : GC} (h : listLike g) : view g = .list ((elems g).map view) := by
  rcases h with h | h
  · rw [view_shape1 h]
    congr 1
    apply List.map_congr_left
    intro y hy
    cases g <;> simp [shape, ty] at h <;> (unfold elems at hy; obtain ⟨a, -, rfl⟩ := List.mem_map.1 hy; rfl)
  · cases g <;> simp [ty] at h
    rw [view, viewL_eq]; rfl

theorem tomlAble_elem {v : List GC} (h : TomlAble (vector v)) {x : GC} (hx : x ∈ v) : TomlAble x := by
  have up : ∀ {y}, Inside y x → Inside y (vector v) := fun hy => .elem hx hy
  exact ⟨fun y hy => h.kind y (up hy), fun m hm => h.keys m (up hm), fun y hy => h.size y (up hy),
    fun y hy => h.small y (up hy), fun w hw => h.apart w (up hw), fun w hw => h.cells w (up hw),
    h.nums.imp (fun hn y hy => hn y (up hy)) (fun hn y hy => hn y (up hy))⟩

theorem tomlAble_value {m : Entries} (h : TomlAble (map m)) {k : Bytes} {x : GC} (hx : (k, x) ∈ m) : TomlAble x := by
  have up : ∀ {y}, Inside y x → Inside y (map m) := fun hy => .value hx hy
  exact ⟨fun y hy => h.kind y (up hy), fun m hm => h.keys m (up hm), fun y hy => h.size y (up hy),
    fun y hy => h.small y (up hy), fun w hw => h.apart w (up hw), fun w hw => h.cells w (up hw),
    h.nums.imp (fun hn y hy => hn y (up hy)) (fun hn y hy => hn y (up hy))⟩

theorem written_list {g : GC} {l : List Toml} (hg : listLike g) (hl : l.length = (elems g).length)
    (hsz : (elems g).length < 2 ^ 32)
    (h : ∀ (i : Nat) y d, (elems g)[i]? = some y → l[i]? = some d → Written y d)
    (hup : ∀ y ∈ elems g, ∀ z, Holds z y → Holds z g)
    (hsmall : (∀ y ∈ elems g, y.ty = .INTEGER ∨ y.ty = .LONG) → ∀ n, long n ∈ elems g → -2 ^ 31 ≤ n.toInt ∧ n.toInt < 2 ^ 31)
    (hap : (∀ x ∈ elems g, listLike x) ∨ ∀ x ∈ elems g, ¬ listLike x)
    (hc : ∀ x ∈ elems g, listLike x → (elems x).length * (elems g).length < 2 ^ 32) : Written g (.arr l) := by
  have mem : ∀ d ∈ l, ∃ y ∈ elems g, Written y d := by
    intro d hd
    obtain ⟨i, hi, rfl⟩ := List.mem_iff_getElem.1 hd
    have hi' : i < (elems g).length := hl ▸ hi
    exact ⟨_, List.getElem_mem hi', h i _ _ (List.getElem?_eq_getElem hi') (List.getElem?_eq_getElem hi)⟩
  have mem' : ∀ y ∈ elems g, ∃ d ∈ l, Written y d := by
    intro d hd
    obtain ⟨i, hi, rfl⟩ := List.mem_iff_getElem.1 hd
    have hi' : i < l.length := hl ▸ hi
    exact ⟨_, List.getElem_mem hi', h i _ _ (List.getElem?_eq_getElem hi) (List.getElem?_eq_getElem hi')⟩
  refine ⟨.arr (hl ▸ hsz) fun d hd => ?_, .arr ?_ fun d hd => ?_, ?_, ?_, ?_, ?_, ?_, ?_, ?_, ?_⟩
  · obtain ⟨y, -, hy⟩ := mem d hd; exact hy.ok
  · intro hall n hn
    have h1 : ∀ y ∈ elems g, y.ty = .INTEGER ∨ y.ty = .LONG := by
      intro y hy
      obtain ⟨d, hd, hw⟩ := mem' y hy
      exact hw.whole.1 (hall d hd)
    obtain ⟨y, hy, hw⟩ := mem _ hn
    have h2 : (∃ i : I32, y = int i ∧ n.toInt = i.toInt) ∨ y = long n := by
      rcases hw.ints n .self with ⟨x, hx, hx'⟩ | ⟨i, ⟨x, hx, hx'⟩, hi⟩
      · rcases h1 y hy with h1 | h1 <;> cases y <;> simp [ty] at h1 <;> cases hx <;> simp [elems] at hx'
        rw [hx']; exact .inr rfl
      · rcases h1 y hy with h1 | h1 <;> cases y <;> simp [ty] at h1 <;> cases hx <;> simp [elems] at hx'
        exact .inl ⟨i, by rw [hx'], hi⟩
    rcases h2 with ⟨i, rfl, hi⟩ | rfl
    · rw [hi]
      exact ⟨i.le_toInt, i.toInt_lt⟩
    · exact hsmall h1 n hy
  · obtain ⟨y, -, hy⟩ := mem d hd; exact hy.small
  · intro g2 h2
    have h3 : listLike g2 ∧ l.length = (elems g2).length ∧
        ∀ (i : Nat) d x, l[i]? = some d → (elems g2)[i]? = some x → TomlSays d x := by
      cases h2 with | arr h3 h4 h5 => exact ⟨h3, h4, h5⟩
    obtain ⟨h3, h4, h5⟩ := h3
    rw [view_list hg, view_list h3]
    refine .list (by simp [← hl, h4]) ?_
    intro i t t' ht ht'
    rw [List.getElem?_map] at ht ht'
    cases hy : (elems g)[i]? with
    | none => rw [hy] at ht; simp at ht
    | some y =>
      cases hx : (elems g2)[i]? with
      | none => rw [hx] at ht'; simp at ht'
      | some x =>
        rw [hy] at ht; rw [hx] at ht'
        simp at ht ht'
        subst ht; subst ht'
        have hi : i < l.length := by rw [hl]; exact (List.getElem?_eq_some_iff.1 hy).1
        exact (h i y l[i] hy (List.getElem?_eq_getElem hi)).same x (h5 i _ x (List.getElem?_eq_getElem hi) hx)
  · intro s hs
    cases hs with
    | self =>
      rcases hap with hap | hap
      · left; intro d hd
        obtain ⟨y, hy, hw⟩ := mem d hd
        exact hw.list.2 (hap y hy)
      · right; intro d hd s hds
        obtain ⟨y, hy, hw⟩ := mem d hd
        exact hap y hy (hw.list.1 ⟨s, hds⟩)
    | elem hd hs =>
      obtain ⟨y, hy, hw⟩ := mem _ hd
      exact hw.apart s hs
  · intro s hs
    cases hs with
    | self =>
      intro t ht
      obtain ⟨y, hy, hw⟩ := mem _ ht
      have := hc y hy (hw.list.1 ⟨t, rfl⟩)
      rw [hw.len t rfl, hl]; exact this
    | elem hd hs =>
      obtain ⟨y, hy, hw⟩ := mem _ hd
      exact hw.cells s hs
  · intro n hn
    cases hn with
    | elem hd hn =>
      obtain ⟨y, hy, hw⟩ := mem _ hd
      rcases hw.ints n hn with h1 | ⟨i, h1, h2⟩
      · exact .inl (hup y hy _ h1)
      · exact .inr ⟨i, hup y hy _ h1, h2⟩
  · intro r hr
    cases hr with
    | elem hd hr =>
      obtain ⟨y, hy, hw⟩ := mem _ hd
      exact hup y hy _ (hw.floats r hr)
  · exact ⟨fun _ => hg, fun _ => ⟨l, rfl⟩⟩
  · rintro _ ⟨⟩; exact hl
  · constructor
    · rintro ⟨n, h⟩; simp at h
    · intro h; rcases hg with hg | hg <;> rcases h with h | h <;> rw [h] at hg <;> simp [shape] at hg

theorem written_packed {g : GC} {f : GC → Toml} (hs : shape g.ty = 1) (hg : TomlAble g)
    (h : ∀ y ∈ elems g, scalarDoc y = some (f y)) : Written g (.arr ((elems g).map f)) := by
  have leaf : ∀ y ∈ elems g, ¬ listLike y ∧ elems y = [y] ∧ ∀ z, Inside z y → z = y := by
    intro y hy
    have := h y hy
    cases y <;> simp [scalarDoc] at this <;>
      exact ⟨by simp [listLike, shape, ty], rfl, fun z hz => by cases hz; rfl⟩
  have hsz : (elems g).length < 2 ^ 32 := by
    have := hg.size g .self
    cases g <;> simp [shape, ty] at hs <;> simpa [sizeOk, elems] using this
  refine written_list (.inl hs) (by simp) hsz ?_ ?_ (hg.small g .self (.inl hs)) (.inr fun y hy => (leaf y hy).1)
    fun y hy hl => absurd hl (leaf y hy).1
  · intro i y d hy hd
    rw [List.getElem?_map, hy] at hd
    simp at hd; subst hd
    exact written_scalar (h y (List.mem_of_getElem? hy))
  · rintro y hy z ⟨x, hx, hz⟩
    rw [(leaf y hy).2.2 x hx, (leaf y hy).2.1] at hz
    simp at hz; subst hz
    exact ⟨g, .self, hy⟩

theorem nodup_of_sorted {m : Entries} (h : KeysSorted m) : (m.map Prod.fst).Nodup := by
  rw [List.Nodup, List.pairwise_map]
  exact List.Pairwise.imp (fun {a b} hab (he : a.1 = b.1) => strLT_irrefl a.1 (by rw [← he] at hab; exact hab)) h

/-- Sorted lists of entries with the same keys list them in the same order. -/
theorem sorted_keys {m n : Entries} (hm : KeysSorted m) (hn : KeysSorted n)
    (h : ∀ k, k ∈ m.map Prod.fst ↔ k ∈ n.map Prod.fst) : m.map Prod.fst = n.map Prod.fst := by
  induction m generalizing n with
  | nil =>
    cases n with
    | nil => rfl
    | cons e n => exact absurd ((h e.1).2 (by simp)) (by simp)
  | cons a m ih =>
    cases n with
    | nil => exact absurd ((h a.1).1 (by simp)) (by simp)
    | cons b n =>
      unfold KeysSorted at hm hn
      rw [List.pairwise_cons] at hm hn
      have below : ∀ {c : Bytes × GC} {r : Entries} {k : Bytes}, (∀ e ∈ r, strLT c.1 e.1) → k ∈ r.map Prod.fst → strLT c.1 k := by
        intro c r k hr hk
        obtain ⟨e, he, rfl⟩ := List.mem_map.1 hk
        exact hr e he
      have hab : a.1 = b.1 := by
        have h1 := (h a.1).1 (by simp)
        have h2 := (h b.1).2 (by simp)
        rw [List.map_cons, List.mem_cons] at h1 h2
        rcases h1 with h1 | h1
        · exact h1
        · rcases h2 with h2 | h2
          · exact h2.symm
          · exact absurd (strLT_trans (below hn.1 h1) (below hm.1 h2)) (strLT_irrefl _)
      have : m.map Prod.fst = n.map Prod.fst := by
        refine ih hm.2 hn.2 fun k => ?_
        constructor
        · intro hk
          have := (h k).1 (by rw [List.map_cons]; exact .tail _ hk)
          rw [List.map_cons, List.mem_cons] at this
          rcases this with h1 | h1
          · exact absurd (below hm.1 hk) (by rw [hab, h1]; exact strLT_irrefl _)
          · exact h1
        · intro hk
          have := (h k).2 (by rw [List.map_cons]; exact .tail _ hk)
          rw [List.map_cons, List.mem_cons] at this
          rcases this with h1 | h1
          · exact absurd (below hn.1 hk) (by rw [← hab, h1]; exact strLT_irrefl _)
          · exact h1
      simp [hab, this]

theorem written_map {e : Entries} {m : List (Bytes × Toml)} (hk : KeysSorted e) (hl : m.map Prod.fst = e.map Prod.fst)
    (h : ∀ k d x, (k, d) ∈ m → (k, x) ∈ e → Written x d) : Written (map e) (.table m) := by
  have mem : ∀ {k d}, (k, d) ∈ m → ∃ x, (k, x) ∈ e ∧ Written x d := by
    intro k d hd
    have : k ∈ e.map Prod.fst := hl ▸ List.mem_map.2 ⟨_, hd, rfl⟩
    obtain ⟨⟨k', x⟩, hx, rfl⟩ := List.mem_map.1 this
    exact ⟨x, hx, h _ d x hd hx⟩
  have hup : ∀ {k x}, (k, x) ∈ e → ∀ {z}, Holds z x → Holds z (map e) := by
    rintro k x hx z ⟨y, hy, hz⟩
    exact ⟨y, .value hx hy, hz⟩
  refine ⟨.table (hl ▸ nodup_of_sorted hk) ?_, .table ?_, ?_, ?_, ?_, ?_, ?_, ?_, ?_, ?_⟩
  · rintro ⟨k, d⟩ hd; obtain ⟨x, -, hw⟩ := mem hd; exact hw.ok
  · rintro ⟨k, d⟩ hd; obtain ⟨x, -, hw⟩ := mem hd; exact hw.small
  · intro g2 h2
    obtain ⟨e2, rfl, hs2, h3, h4⟩ : ∃ e2, g2 = map e2 ∧ KeysSorted e2 ∧ (∀ k, (∃ d, (k, d) ∈ m) ↔ ∃ x, (k, x) ∈ e2) ∧
        (∀ k d x, (k, d) ∈ m → (k, x) ∈ e2 → TomlSays d x) := by
      cases h2 with | table a b c => exact ⟨_, rfl, a, b, c⟩
    have hkeys : e.map Prod.fst = e2.map Prod.fst := by
      refine sorted_keys hk hs2 fun k => ?_
      rw [← hl]
      constructor
      · intro hm
        obtain ⟨⟨k', d⟩, hd, rfl⟩ := List.mem_map.1 hm
        obtain ⟨x, hx⟩ := (h3 k').1 ⟨d, hd⟩
        exact List.mem_map.2 ⟨_, hx, rfl⟩
      · intro hm
        obtain ⟨⟨k', x⟩, hx, rfl⟩ := List.mem_map.1 hm
        obtain ⟨d, hd⟩ := (h3 k').2 ⟨x, hx⟩
        exact List.mem_map.2 ⟨_, hd, rfl⟩
    rw [view, view, viewM_eq, viewM_eq]
    refine .dict (by simpa [Function.comp_def] using hkeys) ?_
    intro i k t k' t' ht ht'
    rw [List.getElem?_map] at ht ht'
    cases hx : e[i]? with
    | none => rw [hx] at ht; simp at ht
    | some a =>
      cases hy : e2[i]? with
      | none => rw [hy] at ht'; simp at ht'
      | some b =>
        rw [hx] at ht; rw [hy] at ht'
        simp at ht ht'
        obtain ⟨-, rfl⟩ := ht
        obtain ⟨-, rfl⟩ := ht'
        have hab : a.1 = b.1 := by
          have := congrArg (fun l => l[i]?) hkeys
          simpa [hx, hy] using this
        have : a.1 ∈ m.map Prod.fst := hl ▸ List.mem_map.2 ⟨a, List.mem_of_getElem? hx, rfl⟩
        obtain ⟨⟨k0, d⟩, hd, hk0⟩ := List.mem_map.1 this
        simp at hk0; subst hk0
        exact (h _ d a.2 hd (List.mem_of_getElem? hx)).same _ (h4 _ d b.2 hd (by rw [hab]; exact List.mem_of_getElem? hy))
  · intro l hl
    cases hl with
    | value hd hl => obtain ⟨x, -, hw⟩ := mem hd; exact hw.apart l hl
  · intro l hl
    cases hl with
    | value hd hl => obtain ⟨x, -, hw⟩ := mem hd; exact hw.cells l hl
  · intro n hn
    cases hn with
    | value hd hn =>
      obtain ⟨x, hx, hw⟩ := mem hd
      rcases hw.ints n hn with h1 | ⟨i, h1, h2⟩
      · exact .inl (hup hx h1)
      · exact .inr ⟨i, hup hx h1, h2⟩
  · intro r hr
    cases hr with
    | value hd hr => obtain ⟨x, hx, hw⟩ := mem hd; exact hup hx (hw.floats r hr)
  · simp [listLike, shape, ty]
  · intro l hl; simp at hl
  · simp [ty]

theorem toml_written (hex : Ptr → Bytes) (g : GC) : TomlAble g →
    ∃ d, GC_to_TOML hex g = .ok (some d) ∧ Written g d := by
  refine (GC.induct (P := fun g => TomlAble g → ∃ d, GC_to_TOML hex g = .ok (some d) ∧ Written g d)
    (PL := fun v => (∀ x ∈ v, TomlAble x) → ∃ l, toTomlL hex v = .ok l ∧ l.length = v.length ∧
      ∀ (i : Nat) y d, v[i]? = some y → l[i]? = some d → Written y d)
    (PM := fun m => (∀ p ∈ m, TomlAble p.2) → ∃ l, toTomlM hex m = .ok l ∧ l.map Prod.fst = m.map Prod.fst ∧
      ∀ (i : Nat) k x k' d, m[i]? = some (k, x) → l[i]? = some (k', d) → Written x d) ?_ ?_ ?_ ?_ ?_ ?_ ?_).1 g
  · intro g hv hm hg
    have hk := hg.kind g .self
    cases g <;> simp [ty] at hk
    · exact ⟨_, rfl, written_scalar rfl⟩
    · exact ⟨_, rfl, written_scalar rfl⟩
    · exact ⟨_, rfl, written_scalar rfl⟩
    · exact ⟨_, rfl, written_scalar rfl⟩
    · exact ⟨_, rfl, written_scalar rfl⟩
    · rename_i v
      refine ⟨_, rfl, ?_⟩
      have := written_packed (f := fun y => (scalarDoc y).getD (.bool true)) rfl hg (by
        intro y hy; obtain ⟨a, -, rfl⟩ := List.mem_map.1 hy; rfl)
      simpa [elems, Function.comp_def, scalarDoc] using this
    · rename_i v
      refine ⟨_, rfl, ?_⟩
      have := written_packed (f := fun y => (scalarDoc y).getD (.bool true)) rfl hg (by
        intro y hy; obtain ⟨a, -, rfl⟩ := List.mem_map.1 hy; rfl)
      simpa [elems, Function.comp_def, scalarDoc] using this
    · rename_i v
      refine ⟨_, rfl, ?_⟩
      have := written_packed (f := fun y => (scalarDoc y).getD (.bool true)) rfl hg (by
        intro y hy; obtain ⟨a, -, rfl⟩ := List.mem_map.1 hy; rfl)
      simpa [elems, Function.comp_def, scalarDoc] using this
    · rename_i v
      refine ⟨_, rfl, ?_⟩
      have := written_packed (f := fun y => (scalarDoc y).getD (.bool true)) rfl hg (by
        intro y hy; obtain ⟨a, -, rfl⟩ := List.mem_map.1 hy; rfl)
      simpa [elems, Function.comp_def, scalarDoc] using this
    · rename_i v
      refine ⟨_, rfl, ?_⟩
      have := written_packed (f := fun y => (scalarDoc y).getD (.bool true)) rfl hg (by
        intro y hy; obtain ⟨a, -, rfl⟩ := List.mem_map.1 hy; rfl)
      simpa [elems, Function.comp_def, scalarDoc] using this
    · exact absurd rfl (hv _)
    · exact absurd rfl (hm _)
  · intro v ih hg
    obtain ⟨l, h1, h2, h3⟩ := ih fun x hx => tomlAble_elem hg hx
    refine ⟨.arr l, by rw [GC_to_TOML, h1]; rfl, ?_⟩
    refine written_list (.inr rfl) h2 (by simpa [sizeOk, elems] using hg.size _ .self) h3 ?_
      (hg.small _ .self (.inr rfl)) (hg.apart v .self) (hg.cells v .self)
    rintro y hy z ⟨x, hx, hz⟩
    exact ⟨x, .elem hy hx, hz⟩
  · intro m ih hg
    obtain ⟨l, h1, h2, h3⟩ := ih fun p hp => tomlAble_value hg (k := p.1) hp
    refine ⟨.table l, by rw [GC_to_TOML, h1]; rfl, ?_⟩
    have hk := hg.keys m .self
    refine written_map hk h2 ?_
    intro k d x hd hx
    obtain ⟨i, hi, hdi⟩ := List.mem_iff_getElem.1 hd
    have hi' : i < m.length := by
      have := congrArg List.length h2
      simp at this; omega
    have hki : m[i].1 = k := by
      have := congrArg (fun l => l[i]?) h2
      simp [hi, hi', hdi] at this
      exact this.symm
    have : m[i] = (k, x) := by
      have h4 := mfind_of_mem hk hx
      have h5 := mfind_of_mem (k := m[i].1) (v := m[i].2) hk (List.getElem_mem hi')
      rw [hki, h4] at h5
      have : x = m[i].2 := by simpa using h5
      rw [this, ← hki]
    exact h3 i k x k d (by rw [List.getElem?_eq_getElem hi', this]) (by rw [List.getElem?_eq_getElem hi, hdi])
  · intro _; exact ⟨[], rfl, rfl, by simp⟩
  · intro x r ihx ihr h
    obtain ⟨d, h1, h2⟩ := ihx (h x (.head _))
    obtain ⟨l, h3, h4, h5⟩ := ihr fun y hy => h y (.tail _ hy)
    refine ⟨d :: l, by rw [toTomlL, h1]; simp only [Out.bind, h3], by simp [h4], ?_⟩
    intro i y d' hy hd
    cases i with
    | zero => simp at hy hd; subst hy; subst hd; exact h2
    | succ i => simp at hy hd; exact h5 i y d' hy hd
  · intro _; exact ⟨[], rfl, rfl, by simp⟩
  · intro k x r ihx ihr h
    obtain ⟨d, h1, h2⟩ := ihx (h _ (.head _))
    obtain ⟨l, h3, h4, h5⟩ := ihr fun y hy => h y (.tail _ hy)
    refine ⟨(k, d) :: l, by rw [toTomlM, h1]; simp only [Out.bind, h3], by simp [h4], ?_⟩
    intro i k1 y k2 d' hy hd
    cases i with
    | zero => simp at hy hd; rw [← hy.2, ← hd.2]; exact h2
    | succ i => simp at hy hd; exact h5 i k1 y k2 d' hy hd

/-- **C50**: what to_toml writes, from_toml reads back as the same data.  Partial: maps (TOML documents are tables; the
text of anything else is none) as in `TomlAble`; the text between is not modelled, the document is handed over as it is. -/
theorem C50_round_trip_partial (hex : Ptr → Bytes) (m : Entries) (h : TomlAble (map m)) :
    ∃ d g', to_toml hex (map m) = .ok d ∧ from_toml (some d) notype = .ok g' true ∧ SameTree (view (map m)) (view g') := by
  obtain ⟨d, h1, hw⟩ := toml_written hex _ h
  have hf : TomlFlat d := by
    refine ⟨hw.apart, hw.cells, ?_⟩
    rcases h.nums with hn | hn
    · left
      intro n hi
      rcases hw.ints n hi with ⟨x, hx, hl⟩ | ⟨i, -, hi⟩
      · exact hn x hx n hl
      · have := i.toInt_lt
        have := i.le_toInt
        omega
    · right
      intro r hr
      obtain ⟨x, hx, hl⟩ := hw.floats r hr
      exact hn x hx r hl
  obtain ⟨g2, h2, h3⟩ := toml_read hw.ok hw.small
  obtain ⟨g', h4, h5⟩ := toml_collapse hw.ok hf h3
  exact ⟨d, g', by rw [to_toml, h1]; rfl, by rw [from_toml, importDoc, h2, Res.bind, h4], (hw.same g2 h3).trans h5⟩

example : TomlAble (map [(str "a", vecReal [.zero]), (str "b", vector [bool true, string (str "x")])]) := by
  have hin : ∀ x, Inside x (map [(str "a", vecReal [.zero]), (str "b", vector [bool true, string (str "x")])]) →
      x = map [(str "a", vecReal [.zero]), (str "b", vector [bool true, string (str "x")])] ∨ x = vecReal [.zero] ∨
      x = vector [bool true, string (str "x")] ∨ x = bool true ∨ x = string (str "x") := by
    intro x hx
    cases hx with
    | self => exact .inl rfl
    | value hm hx =>
      simp at hm
      rcases hm with ⟨-, rfl⟩ | ⟨-, rfl⟩
      · cases hx; simp
      · cases hx with
        | self => simp
        | elem hm hx => simp at hm; rcases hm with rfl | rfl <;> cases hx <;> simp
  refine ⟨?_, ?_, ?_, ?_, ?_, ?_, .inl ?_⟩
  · intro x hx; rcases hin x hx with rfl | rfl | rfl | rfl | rfl <;> simp [ty]
  · intro m hm; rcases hin _ hm with h | h | h | h | h <;> simp at h
    subst h
    exact List.pairwise_pair.2 (.inr ⟨[], 97, 98, [], [], rfl, rfl, by decide⟩)
  · intro x hx; rcases hin x hx with rfl | rfl | rfl | rfl | rfl <;> simp [sizeOk]
  · intro x hx hl hw l hm; rcases hin x hx with rfl | rfl | rfl | rfl | rfl <;> simp [elems] at hm
  · intro v hv; rcases hin _ hv with h | h | h | h | h <;> simp at h
    subst h; right; simp [shape, ty]
  · intro v hv; rcases hin _ hv with h | h | h | h | h <;> simp at h
    subst h; simp [shape, ty]
  · intro x hx l hl; rcases hin x hx with rfl | rfl | rfl | rfl | rfl <;> simp [elems] at hl

/-- **C50** fails for an empty container anywhere in the tree, for every such tree and no other: to_toml follows a null
pointer.  Otherwise it returns a document. -/
theorem C50_empty_negation (hex : Ptr → Bytes) (g : GC) :
    (Inside notype g → to_toml hex g = .ub) ∧ (¬ Inside notype g → ∃ d, to_toml hex g = .ok d) := by
  have key : (Inside notype g → GC_to_TOML hex g = .ok none ∨ GC_to_TOML hex g = .ub) ∧
      (¬ Inside notype g → ∃ d, GC_to_TOML hex g = .ok (some d)) := by
    refine (GC.induct (P := fun g => (Inside notype g → GC_to_TOML hex g = .ok none ∨ GC_to_TOML hex g = .ub) ∧
        (¬ Inside notype g → ∃ d, GC_to_TOML hex g = .ok (some d)))
      (PL := fun v => ((∃ x ∈ v, Inside notype x) → toTomlL hex v = .ub) ∧
        (¬ (∃ x ∈ v, Inside notype x) → ∃ l, toTomlL hex v = .ok l))
      (PM := fun m => ((∃ p ∈ m, Inside notype p.2) → toTomlM hex m = .ub) ∧
        (¬ (∃ p ∈ m, Inside notype p.2) → ∃ l, toTomlM hex m = .ok l)) ?_ ?_ ?_ ?_ ?_ ?_ ?_).1 g
    · intro g hv hm
      refine ⟨fun h => ?_, fun h => ?_⟩
      · cases h with
        | self => exact .inl rfl
        | elem => exact absurd rfl (hv _)
        | value => exact absurd rfl (hm _)
      · cases g <;> first
          | exact absurd .self h
          | exact absurd rfl (hv _)
          | exact absurd rfl (hm _)
          | exact ⟨_, rfl⟩
    · intro v ih
      refine ⟨fun h => ?_, fun h => ?_⟩
      · cases h with
        | elem hx h => right; rw [GC_to_TOML, ih.1 ⟨_, hx, h⟩]; rfl
      · obtain ⟨l, hl⟩ := ih.2 fun ⟨x, hx, hi⟩ => h (.elem hx hi)
        exact ⟨_, by rw [GC_to_TOML, hl]; rfl⟩
    · intro m ih
      refine ⟨fun h => ?_, fun h => ?_⟩
      · cases h with
        | value hx h => right; rw [GC_to_TOML, ih.1 ⟨_, hx, h⟩]; rfl
      · obtain ⟨l, hl⟩ := ih.2 fun ⟨p, hx, hi⟩ => h (.value (k := p.1) hx hi)
        exact ⟨_, by rw [GC_to_TOML, hl]; rfl⟩
    · exact ⟨by simp, fun _ => ⟨_, rfl⟩⟩
    · intro x r ihx ihr
      by_cases hx : Inside notype x
      · refine ⟨fun _ => ?_, fun h => absurd ⟨x, .head _, hx⟩ h⟩
        rw [toTomlL]
        rcases ihx.1 hx with h | h <;> rw [h] <;> rfl
      · obtain ⟨d, hd⟩ := ihx.2 hx
        refine ⟨?_, fun h => ?_⟩
        · rintro ⟨y, hy, hi⟩
          rcases List.mem_cons.1 hy with rfl | hy
          · exact absurd hi hx
          · rw [toTomlL, hd]; simp only [Out.bind, ihr.1 ⟨y, hy, hi⟩]
        · obtain ⟨l, hl⟩ := ihr.2 fun ⟨y, hy, hi⟩ => h ⟨y, .tail _ hy, hi⟩
          exact ⟨_, by rw [toTomlL, hd]; simp only [Out.bind, hl]; rfl⟩
    · exact ⟨by simp, fun _ => ⟨_, rfl⟩⟩
    · intro k x r ihx ihr
      by_cases hx : Inside notype x
      · refine ⟨fun _ => ?_, fun h => absurd ⟨(k, x), .head _, hx⟩ h⟩
        rw [toTomlM]
        rcases ihx.1 hx with h | h <;> rw [h] <;> rfl
      · obtain ⟨d, hd⟩ := ihx.2 hx
        refine ⟨?_, fun h => ?_⟩
        · rintro ⟨y, hy, hi⟩
          rcases List.mem_cons.1 hy with rfl | hy
          · exact absurd hi hx
          · rw [toTomlM, hd]; simp only [Out.bind, ihr.1 ⟨y, hy, hi⟩]
        · obtain ⟨l, hl⟩ := ihr.2 fun ⟨y, hy, hi⟩ => h ⟨y, .tail _ hy, hi⟩
          exact ⟨_, by rw [toTomlM, hd]; simp only [Out.bind, hl]; rfl⟩
  refine ⟨fun h => ?_, fun h => ?_⟩
  · rw [to_toml]
    rcases key.1 h with h | h <;> rw [h] <;> rfl
  · obtain ⟨d, hd⟩ := key.2 h
    exact ⟨d, by rw [to_toml, hd]; rfl⟩

example : Inside notype (map [(str "a", notype)]) := .value (.head _) .self

/-- **C50** fails for every vector of long with a number that does not fit 32 bits: it comes back as a vector of int with
another number in its place. -/
theorem C50_long_negation (hex : Ptr → Bytes) (k : Bytes) (ns : List I64) (n : I64) (hn : n ∈ ns)
    (hf : ¬ (-2 ^ 31 ≤ n.toInt ∧ n.toInt < 2 ^ 31)) :
    ∃ d, to_toml hex (map [(k, vecLong ns)]) = .ok d ∧
      ∃ w : List I32, from_toml (some d) notype = .ok (map [(k, vecInt w)]) true ∧
        ∀ i : Nat, ns[i]? = some n → ∃ m : I32, w[i]? = some m ∧ m.toInt ≠ n.toInt :=
  ⟨_, rfl, C42_toml_array_negation k ns n hn hf⟩

/-- **C50** fails for complex numbers, which come back as vectors of two reals, and for matrices, which come back as
maps; those of real and of complex numbers are written under the name of the matrices of long. -/
theorem C50_complex_negation (hex : Ptr → Bytes) (k : Bytes) (c : Cplx) (x : F64) :
    (∃ d, to_toml hex (map [(k, complex c)]) = .ok d ∧
      from_toml (some d) notype = .ok (map [(k, vecReal [c.re, c.im])]) true) ∧
    (∃ d, to_toml hex (matReal ⟨1, 1, [x]⟩) = .ok d ∧ from_toml (some d) notype = .ok (map [(str "$mat_long",
      map [(str "$data", vecReal [x]), (str "$ncols", int 1), (str "$nrows", int 1)])]) true) ∧
    to_toml hex (matReal ⟨0, 0, []⟩) = to_toml hex (matLong ⟨0, 0, []⟩) :=
  ⟨⟨_, rfl, rfl⟩, ⟨_, rfl, rfl⟩, rfl⟩

end GC
end GCV
