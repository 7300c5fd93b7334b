import Verif.Lemmas.YamlText
import Verif.Lemmas.YamlWrite
import Verif.Props.TomlWrite

/-! # Lemmas about reading YAML texts back -/

namespace GCV
namespace YamlText
open Json GC

/-- `Describes` for the data of a container. -/
inductive TreeDoc (f : Fmt) : Tree → Doc → Prop
  | leaf {g : GC} {d : Doc} : Describes f g d → (∀ ds, d ≠ .arr ds) → (∀ ms, d ≠ .obj ms) → TreeDoc f (.leaf g) d
  | list {l : List Tree} {ds : List Doc} : l.length = ds.length →
      (∀ (i : Nat) t d, l[i]? = some t → ds[i]? = some d → TreeDoc f t d) → TreeDoc f (.list l) (.arr ds)
  | dict {m : List (Bytes × Tree)} {ms : List (Bytes × Doc)} : m.map Prod.fst = ms.map Prod.fst →
      (∀ (i : Nat) p q, m[i]? = some p → ms[i]? = some q → TreeDoc f p.2 q.2) → TreeDoc f (.dict m) (.obj ms)

theorem view_leaf_of {f : Fmt} {g : GC} {d : Doc} (h : Describes f g d) (h1 : ∀ ds, d ≠ .arr ds) (h2 : ∀ ms, d ≠ .obj ms) :
    view g = .leaf g := by
  cases h with
  | vec => exact absurd rfl (h1 _)
  | mat => exact absurd rfl (h1 _)
  | map => exact absurd rfl (h2 _)
  | _ => rfl

theorem tree_leaf {f : Fmt} {g : GC} {d : Doc} (h : Describes f g d) (h1 : ∀ ds, d ≠ .arr ds) (h2 : ∀ ms, d ≠ .obj ms) :
    TreeDoc f (view g) d := by
  rw [view_leaf_of h h1 h2]; exact .leaf h h1 h2

theorem tree_mat {f : Fmt} {α : Type} {up : α → GC} {m : Mat α} {cols : List (List Doc)} (hlen : m.data.length = m.nr * m.nc)
    (hc : cols.length = m.nc) (hr : ∀ c ∈ cols, c.length = m.nr)
    (hd : ∀ (i j : Nat) c x d, i < m.nr → cols[j]? = some c → m.data[i + j * m.nr]? = some x → c[i]? = some d →
      TreeDoc f (.leaf (up x)) d) : TreeDoc f (leaves2 up m) (.arr (cols.map .arr)) := by
  refine .list (by simp [Mat.columns, hc]) ?_
  intro j t d ht hd'
  simp only [Mat.columns, List.map_map, List.getElem?_map, Option.map_eq_some_iff] at ht hd'
  obtain ⟨c, hcj, rfl⟩ := hd'
  obtain ⟨j', hj', rfl⟩ := ht
  have hj : j' = j ∧ j < m.nc := by
    rw [List.getElem?_eq_some_iff] at hj'
    obtain ⟨h, e⟩ := hj'
    simp at h e
    exact ⟨e.symm, h⟩
  obtain ⟨rfl, hj⟩ := hj
  have hcl := hr c (List.mem_of_getElem? hcj)
  have hge : m.nr ≤ m.data.length - j' * m.nr := by
    have h3 : (j' + 1) * m.nr ≤ m.nc * m.nr := Nat.mul_le_mul_right _ hj
    rw [Nat.add_mul, Nat.one_mul, Nat.mul_comm m.nc] at h3
    omega
  refine .list ?_ ?_
  · simp only [List.length_map, List.length_take, List.length_drop, hcl]
    omega
  · intro i t d ht hd'
    simp only [List.getElem?_map, Option.map_eq_some_iff, List.getElem?_take, List.getElem?_drop] at ht
    obtain ⟨x, hx, rfl⟩ := ht
    split at hx
    · next hi => exact hd i j' c x d hi hcj (by rw [Nat.add_comm]; exact hx) hd'
    · cases hx

theorem tree_doc {f : Fmt} {g : GC} {d : Doc} (h : Describes f g d) :
    (∀ x nr nc, Inside x g → matDims x = some (nr, nc) → (elems x).length = nr * nc) → TreeDoc f (view g) d := by
  induction h with
  | @vec g ds hv hl hd ih =>
    intro hb
    rw [view_list hv]
    refine .list (by simp [hl]) ?_
    intro i t d ht hd'
    rw [List.getElem?_map, Option.map_eq_some_iff] at ht
    obtain ⟨y, hy, rfl⟩ := ht
    refine ih i y d hy hd' fun x nr nc hx hm => ?_
    rcases hv with hs | hs
    · have : y.ty ≠ .VECTOR ∧ y.ty ≠ .MAP ∧ matDims y = none := by
        have hy' := List.mem_of_getElem? hy
        cases g <;> simp [shape, ty] at hs <;> (unfold elems at hy'; obtain ⟨a, -, rfl⟩ := List.mem_map.1 hy') <;>
          exact ⟨by simp [ty], by simp [ty], rfl⟩
      cases hx with
      | self => rw [this.2.2] at hm; cases hm
      | elem => exact absurd rfl this.1
      | value => exact absurd rfl this.2.1
    · cases g <;> simp [ty] at hs
      exact hb x nr nc (.elem (List.mem_of_getElem? hy) hx) hm
  | @mat g nr nc cols hm hc hr hd ih =>
    intro hb
    have hlen := hb g nr nc .self hm
    cases g <;> simp only [matDims, Option.some.injEq, Prod.mk.injEq] at hm <;> (try cases hm; done) <;> obtain ⟨rfl, rfl⟩ := hm <;>
      simp only [elems, List.length_map] at hlen <;> rw [view] <;>
      refine tree_mat hlen hc hr fun i j c x d hi hj hx hd' => ?_
    all_goals
      refine (fun e => ih i j c _ d hi hj e hd' ?_) (by simp only [elems, List.getElem?_map, hx, Option.map_some]; rfl)
      intro x nr nc hx hm
      cases hx
      simp [matDims] at hm
  | @map e ms hk hd ih =>
    intro hb
    rw [view, viewM_eq]
    refine .dict (by simpa [Function.comp_def] using hk.symm) ?_
    intro i p q hp hq
    rw [List.getElem?_map, Option.map_eq_some_iff] at hp
    obtain ⟨y, hy, rfl⟩ := hp
    exact ih i y.1 y.2 q.1 q.2 hy hq fun z nr nc hz => hb z nr nc (.value (List.mem_of_getElem? hy) hz)
  | null => exact fun _ => tree_leaf .null (by simp) (by simp)
  | bool => exact fun _ => tree_leaf .bool (by simp) (by simp)
  | int h1 h2 => exact fun _ => tree_leaf (.int h1 h2) (by simp) (by simp)
  | long h1 h2 => exact fun _ => tree_leaf (.long h1 h2) (by simp) (by simp)
  | whole h1 => exact fun _ => tree_leaf (.whole h1) (by simp) (by simp)
  | real h1 => exact fun _ => tree_leaf (.real h1) (by simp) (by simp)
  | complex => exact fun _ => tree_leaf .complex (by simp) (by simp)
  | string => exact fun _ => tree_leaf .string (by simp) (by simp)

/-- The nodes that stand for the data of a container. -/
inductive TreeNode (m : Bool) : Tree → Yaml → Prop
  | null : TreeNode m (.leaf notype) .null
  | bool {b : Bool} : TreeNode m (.leaf (GC.bool b)) (.bool b)
  | string {s : Bytes} : TreeNode m (.leaf (GC.string s)) (.str s)
  | int {g : GC} {n : I64} : view g = .leaf g → SameNumber g (GC.long n) → (m = true → n.toInt.natAbs ≤ 2 ^ 53) →
      TreeNode m (.leaf g) (.int n)
  | real {r : F64} : m = true → TreeNode m (.leaf (GC.real r)) (.float r)
  | list {l : List Tree} {ys : List Yaml} : l.length = ys.length →
      (∀ (i : Nat) t y, l[i]? = some t → ys[i]? = some y → TreeNode m t y) → TreeNode m (.list l) (.seq ys)
  | dict {d : List (Bytes × Tree)} {ys : List (Option Bytes × Yaml)} : d.map (fun p => some p.1) = ys.map Prod.fst →
      (∀ (i : Nat) p q, d[i]? = some p → ys[i]? = some q → TreeNode m p.2 q.2) → TreeNode m (.dict d) (.mapping ys)

/-- What is asked of the leaves. -/
structure LeavesOk (f : Fmt) (strtod : Bytes → Option F64) (m : Bool) (t : Tree) : Prop where
  reals : ∀ r, Part (.leaf (real r)) t → ReadsBack strtod (f.real r) r ∧ m = true
  plain : ∀ c, ¬ Part (.leaf (complex c)) t
  longs : m = true → ∀ l, Part (.leaf (long l)) t → l.toInt.natAbs ≤ 2 ^ 53

/-- One from each place. -/
theorem choose_list {α β : Type} {P : Nat → α → β → Prop} : ∀ (l : List α), (∀ (i : Nat) a, l[i]? = some a → ∃ b, P i a b) →
    ∃ bs : List β, l.length = bs.length ∧ ∀ (i : Nat) a b, l[i]? = some a → bs[i]? = some b → P i a b
  | [], _ => ⟨[], rfl, by simp⟩
  | a :: l, h => by
    obtain ⟨b, hb⟩ := h 0 a rfl
    obtain ⟨bs, h1, h2⟩ := choose_list (P := fun i => P (i + 1)) l fun i a ha => h (i + 1) a (by simpa using ha)
    refine ⟨b :: bs, by simp [h1], fun i a' b' ha hb' => ?_⟩
    cases i with
    | zero => simp at ha hb'; subst ha hb'; exact hb
    | succ i => exact h2 i a' b' (by simpa using ha) (by simpa using hb')

theorem node_leaf {f : Fmt} {strtod : Bytes → Option F64} {m : Bool} {g : GC} {d : Doc} (h : Describes f g d)
    (h1 : ∀ ds, d ≠ .arr ds) (h2 : ∀ ms, d ≠ .obj ms) (hl : LeavesOk f strtod m (.leaf g)) :
    ∃ y, NodesOf strtod d y ∧ TreeNode m (.leaf g) y := by
  have whole : ∀ {l : Bytes}, IntLit l → -2 ^ 63 ≤ intValue l → intValue l < 2 ^ 63 → view g = .leaf g →
      numValue g = some (intValue l * F64.unit) → (m = true → (intValue l).natAbs ≤ 2 ^ 53) →
      ∃ y, NodesOf strtod (.int l) y ∧ TreeNode m (.leaf g) y := by
    intro l _ h3 h4 hv hn hm
    have h64 : (BitVec.ofInt 64 (intValue l)).toInt = intValue l := by
      rw [BitVec.toInt_ofInt, Int.bmod_eq_of_le] <;> omega
    refine ⟨.int (BitVec.ofInt 64 (intValue l)), .int h64.symm, .int hv (.inr (.inl ⟨_, hn, by rw [numValue, h64]⟩)) ?_⟩
    rw [h64]; exact hm
  cases h with
  | null => exact ⟨_, .null, .null⟩
  | bool => exact ⟨_, .bool, .bool⟩
  | string => exact ⟨_, .string, .string⟩
  | complex => exact absurd .self (hl.plain _)
  | @int i l h3 h4 =>
    have := i.toInt_lt
    have := i.le_toInt
    exact whole h3 (by omega) (by omega) rfl (by rw [numValue, h4]) (by omega)
  | @long i l h3 h4 =>
    have := i.toInt_lt
    have := i.le_toInt
    refine whole h3 (by omega) (by omega) rfl (by rw [numValue, h4]) fun hm => ?_
    rw [h4]; exact hl.longs hm i .self
  | @whole r h3 =>
    obtain ⟨⟨-, h4⟩, -⟩ := hl.reals r .self
    obtain ⟨h5, h6⟩ := h4 h3
    exact whole h3 (by omega) (by omega) rfl (by rw [numValue]; exact h6) (fun _ => h5)
  | @real r h3 =>
    obtain ⟨⟨h4, -⟩, hm⟩ := hl.reals r .self
    exact ⟨_, .num (h4 h3), .real hm⟩
  | vec => exact absurd rfl (h1 _)
  | mat => exact absurd rfl (h1 _)
  | map => exact absurd rfl (h2 _)

theorem tree_nodes {f : Fmt} {strtod : Bytes → Option F64} {m : Bool} {t : Tree} {d : Doc} (h : TreeDoc f t d) :
    LeavesOk f strtod m t → ∃ y, NodesOf strtod d y ∧ TreeNode m t y := by
  induction h with
  | leaf h h1 h2 => exact fun hl => node_leaf h h1 h2 hl
  | @list l ds hlen hd ih =>
    intro hl
    have up : ∀ t ∈ l, LeavesOk f strtod m t := fun t ht =>
      ⟨fun r hr => hl.reals r (.elem ht hr), fun c hc => hl.plain c (.elem ht hc), fun hm n hn => hl.longs hm n (.elem ht hn)⟩
    obtain ⟨ys, h1, h2⟩ := choose_list (P := fun i t y => ∀ d, ds[i]? = some d → NodesOf strtod d y ∧ TreeNode m t y) l (by
      intro i t ht
      cases hd' : ds[i]? with
      | none =>
        have := (List.getElem?_eq_some_iff.1 ht).1
        rw [List.getElem?_eq_none_iff] at hd'
        omega
      | some d =>
        obtain ⟨y, hy⟩ := ih i t d ht hd' (up t (List.mem_of_getElem? ht))
        exact ⟨y, fun d' hd'' => by cases hd''; exact hy⟩)
    refine ⟨.seq ys, .arr (hlen ▸ h1) fun i d y hd' hy => ?_, .list h1 fun i t y ht hy => ?_⟩
    · cases ht : l[i]? with
      | none =>
        have := (List.getElem?_eq_some_iff.1 hd').1
        rw [List.getElem?_eq_none_iff] at ht
        omega
      | some t => exact (h2 i t y ht hy d hd').1
    · cases hd' : ds[i]? with
      | none =>
        have := (List.getElem?_eq_some_iff.1 ht).1
        rw [List.getElem?_eq_none_iff] at hd'
        omega
      | some d => exact (h2 i t y ht hy d hd').2
  | @dict e ms hk hd ih =>
    intro hl
    have hlen : e.length = ms.length := by simpa using congrArg List.length hk
    have up : ∀ p ∈ e, LeavesOk f strtod m p.2 := fun p hp =>
      ⟨fun r hr => hl.reals r (.value hp hr), fun c hc => hl.plain c (.value hp hc), fun hm n hn => hl.longs hm n (.value hp hn)⟩
    obtain ⟨ys, h1, h2⟩ := choose_list (P := fun i p (q : Option Bytes × Yaml) => q.1 = some p.1 ∧
        ∀ r, ms[i]? = some r → NodesOf strtod r.2 q.2 ∧ TreeNode m p.2 q.2) e (by
      intro i t ht
      cases hd' : ms[i]? with
      | none =>
        have := (List.getElem?_eq_some_iff.1 ht).1
        rw [List.getElem?_eq_none_iff] at hd'
        omega
      | some d =>
        obtain ⟨y, hy⟩ := ih i t d ht hd' (up t (List.mem_of_getElem? ht))
        exact ⟨(some t.1, y), rfl, fun d' hd'' => by cases hd''; exact hy⟩)
    have hkeys : e.map (fun p => some p.1) = ys.map Prod.fst := by
      apply List.ext_getElem?
      intro i
      rw [List.getElem?_map, List.getElem?_map]
      cases he : e[i]? with
      | none =>
        rw [List.getElem?_eq_none_iff] at he
        rw [List.getElem?_eq_none_iff.2 (by omega)]; rfl
      | some p =>
        have := (List.getElem?_eq_some_iff.1 he).1
        have hy := List.getElem?_eq_getElem (l := ys) (i := i) (by omega)
        rw [hy]
        simp only [Option.map_some, (h2 i p _ he hy).1]
    refine ⟨.mapping ys, .obj ?_ fun i d y hd' hy => ?_, .dict hkeys fun i t y ht hy => ?_⟩
    · rw [← hkeys, show (fun p : Bytes × Doc => some p.1) = some ∘ Prod.fst from rfl, ← List.map_map, ← hk, List.map_map]; rfl
    · cases ht : e[i]? with
      | none =>
        have := (List.getElem?_eq_some_iff.1 hd').1
        rw [List.getElem?_eq_none_iff] at ht
        omega
      | some t => exact ((h2 i t y ht hy).2 d hd').1
    · cases hd' : ms[i]? with
      | none =>
        have := (List.getElem?_eq_some_iff.1 ht).1
        rw [List.getElem?_eq_none_iff] at hd'
        omega
      | some d => exact ((h2 i t y ht hy).2 d hd').2

theorem get_of_lt {α β : Type} {l : List α} {l' : List β} (h : l.length = l'.length) {i : Nat} {b : β} (hb : l'[i]? = some b) :
    ∃ a, l[i]? = some a := by
  have := (List.getElem?_eq_some_iff.1 hb).1
  exact ⟨_, List.getElem?_eq_getElem (by omega)⟩

/-- The parts of the nodes come from parts of the data. -/
theorem node_parts {m : Bool} {t : Tree} {y : Yaml} (h : TreeNode m t y) : ∀ {z}, YInside z y → ∃ s, Part s t ∧ TreeNode m s z := by
  induction h with
  | @list l ys hlen hd ih =>
    intro z hz
    cases hz with
    | self => exact ⟨_, .self, .list hlen hd⟩
    | @elem x _ hx hi =>
      obtain ⟨i, hi', rfl⟩ := List.mem_iff_getElem.1 hx
      obtain ⟨a, ha⟩ := get_of_lt hlen (List.getElem?_eq_getElem hi')
      obtain ⟨s, h1, h2⟩ := ih i a _ ha (List.getElem?_eq_getElem hi') hi
      exact ⟨s, .elem (List.mem_of_getElem? ha) h1, h2⟩
  | @dict e ys hk hd ih =>
    intro z hz
    cases hz with
    | self => exact ⟨_, .self, .dict hk hd⟩
    | @value k x _ hx hi =>
      obtain ⟨i, hi', hx'⟩ := List.mem_iff_getElem.1 hx
      obtain ⟨a, ha⟩ := get_of_lt (l := e) (l' := ys) (by simpa using congrArg List.length hk) (List.getElem?_eq_getElem hi')
      obtain ⟨s, h1, h2⟩ := ih i a _ ha (List.getElem?_eq_getElem hi') (by rw [hx']; exact hi)
      exact ⟨s, .value (k := a.1) (List.mem_of_getElem? ha) h1, h2⟩
  | null => intro z hz; cases hz; exact ⟨_, .self, .null⟩
  | bool => intro z hz; cases hz; exact ⟨_, .self, .bool⟩
  | string => intro z hz; cases hz; exact ⟨_, .self, .string⟩
  | int h1 h2 h3 => intro z hz; cases hz; exact ⟨_, .self, .int h1 h2 h3⟩
  | real h1 => intro z hz; cases hz; exact ⟨_, .self, .real h1⟩

theorem nodes_flat {m : Bool} {t : Tree} {y : Yaml} (h : TreeNode m t y)
    (ha : ∀ l, Part (.list l) t → (∀ x ∈ l, ∃ s, x = .list s) ∨ ∀ x ∈ l, ∀ s, x ≠ .list s)
    (hc : ∀ l, Part (.list l) t → ∀ s, .list s ∈ l → s.length * l.length < 2 ^ 32) : YamlFlat y := by
  have back : ∀ {l : List Tree} {ys : List Yaml}, l.length = ys.length → (∀ (i : Nat) t y, l[i]? = some t → ys[i]? = some y → TreeNode m t y) →
      ∀ z ∈ ys, ∃ s ∈ l, TreeNode m s z := by
    intro l ys hlen hd z hz
    obtain ⟨i, hi', rfl⟩ := List.mem_iff_getElem.1 hz
    obtain ⟨a, ha⟩ := get_of_lt hlen (List.getElem?_eq_getElem hi')
    exact ⟨a, List.mem_of_getElem? ha, hd i a _ ha (List.getElem?_eq_getElem hi')⟩
  refine ⟨fun l hl => ?_, fun l hl s hs => ?_, ?_⟩
  · obtain ⟨s, hs, hn⟩ := node_parts h hl
    cases hn with
    | @list ls _ hlen hd =>
      rcases ha ls hs with h1 | h1
      · refine .inl fun z hz => ?_
        obtain ⟨a, ha', hn⟩ := back hlen hd z hz
        obtain ⟨s, rfl⟩ := h1 a ha'
        cases hn
        exact ⟨_, rfl⟩
      · refine .inr fun z hz s hzs => ?_
        obtain ⟨a, ha', hn⟩ := back hlen hd z hz
        subst hzs
        cases hn
        exact h1 _ ha' _ rfl
  · obtain ⟨t', ht, hn⟩ := node_parts h hl
    cases hn with
    | @list ls _ hlen hd =>
      obtain ⟨a, ha', hn⟩ := back hlen hd _ hs
      cases hn with
      | @list l' _ hlen' _ =>
        have := hc ls ht l' ha'
        rw [← hlen, ← hlen']; exact this
  · cases m with
    | true =>
      refine .inl fun n hn => ?_
      obtain ⟨s, -, hn⟩ := node_parts h hn
      cases hn with
      | int _ _ h3 => exact h3 rfl
    | false =>
      refine .inr fun r hr => ?_
      obtain ⟨s, -, hn⟩ := node_parts h hr
      cases hn with
      | real h => cases h

theorem nodup_keys {e : List (Bytes × Tree)} (h : e.Pairwise fun a b => strLT a.1 b.1) : (e.map Prod.fst).Nodup := by
  have h' : KeysSorted (e.map fun p => (p.1, notype)) := by
    unfold KeysSorted
    rw [List.pairwise_map]; exact h
  have := nodup_of_sorted h'
  rwa [List.map_map] at this

theorem nodes_ok {m : Bool} {t : Tree} {y : Yaml} (h : TreeNode m t y) :
    (∀ e, Part (.dict e) t → e.Pairwise fun a b => strLT a.1 b.1) → (∀ l, Part (.list l) t → l.length < 2 ^ 32) → YamlOk y := by
  induction h with
  | @list l ys hlen hd ih =>
    intro hk hs
    refine .seq (hlen ▸ hs l .self) fun z hz => ?_
    obtain ⟨i, hi', rfl⟩ := List.mem_iff_getElem.1 hz
    obtain ⟨a, ha⟩ := get_of_lt hlen (List.getElem?_eq_getElem hi')
    have ha' := List.mem_of_getElem? ha
    exact ih i a _ ha (List.getElem?_eq_getElem hi') (fun e he => hk e (.elem ha' he)) (fun l hl => hs l (.elem ha' hl))
  | @dict e ys hk' hd ih =>
    intro hk hs
    have hnd := nodup_keys (hk e .self)
    have hlen : e.length = ys.length := by simpa using congrArg List.length hk'
    have e1 : e.map (fun p => some p.1) = (e.map Prod.fst).map some := by rw [List.map_map]; rfl
    refine .mapping ?_ ?_ fun q hq => ?_
    · rw [← hk', e1]
      exact List.Pairwise.map _ (fun a b h h' => h (Option.some.inj h')) hnd
    · rw [← hk']; simp
    · obtain ⟨i, hi', rfl⟩ := List.mem_iff_getElem.1 hq
      obtain ⟨a, ha⟩ := get_of_lt hlen (List.getElem?_eq_getElem hi')
      have ha' := List.mem_of_getElem? ha
      exact ih i a _ ha (List.getElem?_eq_getElem hi') (fun e he => hk e (.value (k := a.1) ha' he))
        (fun l hl => hs l (.value (k := a.1) ha' hl))
  | null => exact fun _ _ => .null
  | bool => exact fun _ _ => .bool
  | string => exact fun _ _ => .str
  | int => exact fun _ _ => .int
  | real => exact fun _ _ => .float

/-- Sorted lists with the same members are the same. -/
theorem sorted_keys_eq : ∀ {a b : List Bytes}, a.Pairwise strLT → b.Pairwise strLT → (∀ k, k ∈ a ↔ k ∈ b) → a = b
  | [], [], _, _, _ => rfl
  | [], y :: b, _, _, h => absurd ((h y).2 (.head _)) List.not_mem_nil
  | x :: a, [], _, _, h => absurd ((h x).1 (.head _)) List.not_mem_nil
  | x :: a, y :: b, ha, hb, h => by
    rw [List.pairwise_cons] at ha hb
    have irr : ∀ {u v : Bytes}, strLT u v → strLT v u → False := fun h1 h2 => by
      have := strLT_trans h1 h2
      exact strLT_irrefl _ this
    have e : x = y := by
      rcases List.mem_cons.1 ((h x).1 (.head _)) with rfl | hx
      · rfl
      · rcases List.mem_cons.1 ((h y).2 (.head _)) with rfl | hy
        · rfl
        · exact (irr (hb.1 x hx) (ha.1 y hy)).elim
    subst e
    rw [sorted_keys_eq ha.2 hb.2]
    intro k
    constructor
    · intro hk
      rcases List.mem_cons.1 ((h k).1 (.tail _ hk)) with rfl | h'
      · exact absurd (ha.1 _ hk) (strLT_irrefl _)
      · exact h'
    · intro hk
      rcases List.mem_cons.1 ((h k).2 (.tail _ hk)) with rfl | h'
      · exact absurd (hb.1 _ hk) (strLT_irrefl _)
      · exact h'

theorem nodes_same {m : Bool} {t : Tree} {y : Yaml} (h : TreeNode m t y) :
    (∀ e, Part (.dict e) t → e.Pairwise fun a b => strLT a.1 b.1) → ∀ g, YamlSays y g → SameTree t (view g) := by
  induction h with
  | null => intro _ g hg; cases hg; exact .leaf (.inl rfl)
  | bool => intro _ g hg; cases hg; exact .leaf (.inl rfl)
  | string => intro _ g hg; cases hg; exact .leaf (.inl rfl)
  | real => intro _ g hg; cases hg; exact .leaf (.inl rfl)
  | @int g' n h1 h2 h3 =>
    intro _ g hg
    cases hg with
    | int hw =>
      have : view g = .leaf g := by rcases whole_cases hw with ⟨i, rfl, -⟩ | rfl <;> rfl
      rw [this]
      exact .leaf (SameNumber.trans h2 (whole_same hw))
  | @list l ys hlen hd ih =>
    intro hk g hg
    cases hg with
    | @seq _ v hlen' hv =>
      rw [view, viewL_eq]
      refine .list (by simp [hlen, hlen']) fun i t t' ht ht' => ?_
      rw [List.getElem?_map, Option.map_eq_some_iff] at ht'
      obtain ⟨x, hx, rfl⟩ := ht'
      obtain ⟨y, hy⟩ := get_of_lt (l := ys) hlen.symm ht
      exact ih i t y ht hy (fun e he => hk e (.elem (List.mem_of_getElem? ht) he)) x (hv i y x hy hx)
  | @dict d ys hk' hd ih =>
    intro hk g hg
    cases hg with
    | @mapping _ e hs hkeys hv =>
      have hsd := hk d .self
      have hlen : d.length = ys.length := by simpa using congrArg List.length hk'
      have hke : d.map Prod.fst = e.map Prod.fst := by
        refine sorted_keys_eq ?_ ?_ fun k => ?_
        · rw [List.pairwise_map]; exact hsd
        · rw [List.pairwise_map]; exact hs
        · have h1 : k ∈ d.map Prod.fst ↔ ∃ y, (some k, y) ∈ ys := by
            have e1 : d.map (fun p => some p.1) = (d.map Prod.fst).map some := by rw [List.map_map]; rfl
            rw [e1] at hk'
            have : some k ∈ ys.map Prod.fst ↔ k ∈ d.map Prod.fst := by rw [← hk']; simp
            rw [← this]; simp
          rw [h1, hkeys]; simp
      rw [view, viewM_eq]
      refine .dict (by simpa [Function.comp_def] using hke) fun i k t k' t' ht ht' => ?_
      rw [List.getElem?_map, Option.map_eq_some_iff] at ht'
      obtain ⟨⟨k2, x⟩, hx, hx'⟩ := ht'
      simp only [Prod.mk.injEq] at hx'
      obtain ⟨rfl, rfl⟩ := hx'
      obtain ⟨⟨ko, y⟩, hy⟩ := get_of_lt (l := ys) hlen.symm ht
      have hkk : k = k2 := by
        have := congrArg (fun l => l[i]?) hke
        simp [List.getElem?_map, ht, hx] at this
        exact this
      have hko : ko = some k := by
        have := congrArg (fun l => l[i]?) hk'
        simp [List.getElem?_map, ht, hy] at this
        exact this.symm
      subst hkk hko
      refine ih i _ _ ht hy (fun e he => hk e (.value (List.mem_of_getElem? ht) he)) x ?_
      exact hv k y x (List.mem_of_getElem? hy) (List.mem_of_getElem? hx)

end YamlText
end GCV
