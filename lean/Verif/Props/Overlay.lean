import Verif.Lemmas.Overlay
import Verif.Props.Copy

/-!
# C56, C57: exactly what copying, assigning and merging give

`from_gc b a` is the outcome of `a = b`, `copy b` the copy constructor, `merge b a` the outcome of
`a.merge(b)`.
-/

namespace GCV
namespace GC

/-! ## C56 Exactly what is left after an assignment -/

/-- After `a = b` the container holds `b` laid over the old `a`, in the sense of `Overlaid`
(Spec/Overlay), and this determines what it holds. -/
theorem C56_assign (a b : GC) (ha : WF a) (hb : WF b) (hf : Fits b) :
    ∃ r, from_gc b a = .ok r ∧ WF r ∧ Overlaid b a r ∧ ∀ r', WF r' → Overlaid b a r' → r' = r := by
  obtain ⟨r, hr⟩ := from_gc_ok b hf hb a
  have hw := WF_from_gc b a hb ha r hr
  have ho := overlaid_of b hf hb a r ha hr
  exact ⟨r, hr, hw, ho, fun r' hw' ho' => overlaid_unique b a r' r hw' hw ho' ho⟩

/-- The same for `b.to_gc(a)`. -/
theorem C56_to_gc (a b : GC) (ha : WF a) (hb : WF b) (hf : Fits b) :
    ∃ r, to_gc b a = .ok r ∧ WF r ∧ Overlaid b a r := by
  obtain ⟨r, h1, h2, h3, -⟩ := C56_assign a b ha hb hf
  exact ⟨r, by rw [to_gc_eq]; exact h1, h2, h3⟩

/-- Merging a map into a map, or into an empty container, lays it over it; merging an empty
container changes nothing; every other combination throws and changes nothing. -/
theorem C56_merge (a b : GC) (ha : WF a) (hb : WF b) (hf : Fits b) :
    (b = notype ∧ merge b a = .ok a ()) ∨
    (b.ty = .MAP ∧ (a.ty = .MAP ∨ a = notype) ∧
      ∃ r, merge b a = .ok r () ∧ WF r ∧ Overlaid b a r) ∨
    (b ≠ notype ∧ ¬(b.ty = .MAP ∧ (a.ty = .MAP ∨ a = notype)) ∧ merge b a = .throw a) := by
  by_cases h0 : b = notype
  · left; subst h0; exact ⟨rfl, rfl⟩
  · right
    by_cases h1 : b.ty = .MAP ∧ (a.ty = .MAP ∨ a = notype)
    · left
      refine ⟨h1.1, h1.2, ?_⟩
      obtain ⟨r, hr, hw, ho, -⟩ := C56_assign a b ha hb hf
      refine ⟨r, ?_, hw, ho⟩
      obtain ⟨hb1, ha1⟩ := h1
      cases b <;> simp only [ty, reduceCtorEq] at hb1
      rename_i m
      rw [from_gc] at hr
      obtain ⟨w, hw', hr⟩ := out_bind_ok hr
      injection hr with hr; subst hr
      rcases ha1 with ha1 | rfl
      · cases a <;> simp only [ty, reduceCtorEq] at ha1
        simp only [oldMap] at hw'
        simp [merge, hw']
      · simp only [oldMap] at hw'
        simp [merge, set_map, allocate_map, oldMap, hw']
    · right
      refine ⟨h0, h1, ?_⟩
      cases b <;> first
        | exact absurd rfl h0
        | rfl
        | (cases a <;> first
            | exact absurd ⟨rfl, .inl rfl⟩ h1
            | exact absurd ⟨rfl, .inr rfl⟩ h1
            | rfl)

/-- `{k:[], l:{}, v:[[],7]}` laid over `{k:[1], l:{x:1}, v:[[1,2],{}], z:5}`. -/
example : Overlaid
    (map [(str "k", vecInt []), (str "l", map []), (str "v", vector [vecInt [], int 7])])
    (map [(str "k", vecInt [1]), (str "l", map [(str "x", int 1)]),
      (str "v", vector [vecInt [1, 2], map []]), (str "z", int 5)])
    (map [(str "k", vecInt [1]), (str "l", map [(str "x", int 1)]),
      (str "v", vector [vecInt [1, 2], int 7]), (str "z", int 5)]) :=
  overlaid_of _ (by decide +kernel) (by decide +kernel) _ _ (by decide +kernel) (by decide +kernel)

/-- The overlay is not always the upper container. -/
example : ¬ Overlaid (vecInt []) (vecInt [1]) (vecInt []) := by simp [Overlaid, isEmptyVec, ty]

example : WF sample ∧ Fits sample := by decide +kernel

/-! ## C57 Exactly which containers are copied faithfully -/

theorem noNul_cstr (s : Bytes) : noNul (cstr s) = true := by
  unfold cstr
  induction s with
  | nil => rfl
  | cons x r ih =>
    rw [List.takeWhile_cons]
    split
    · rename_i h
      simp only [noNul, List.all_cons, Bool.and_eq_true]
      exact ⟨by simpa using h, ih⟩
    · rfl

theorem PlainKeys_mset {k : Bytes} {x : GC} {m : Entries} (hk : noNul k = true) (hx : PlainKeys x)
    (hm : PlainKeys (map m)) : PlainKeys (map (mset k x m)) := by
  simp only [PlainKeys, every, plainKeysNode, Bool.and_eq_true, List.all_eq_true] at hm ⊢
  constructor
  · intro e he
    rcases mem_mset he with rfl | he
    · exact hk
    · exact hm.1 e he
  · rw [everyM_iff] at hm ⊢
    intro e he
    rcases mem_mset he with rfl | he
    · exact hx
    · exact hm.2 e he

theorem PlainKeys_find {k : Bytes} {m : Entries} (hm : PlainKeys (map m)) :
    PlainKeys ((mfind k m).getD notype) := by
  simp only [PlainKeys, every, Bool.and_eq_true, everyM_iff] at hm
  cases h : mfind k m with
  | none => rfl
  | some x => exact hm.2 _ (mem_of_mfind h)

theorem PlainKeys_from_gc :
    (∀ b d r, PlainKeys d → from_gc b d = .ok r → PlainKeys r) ∧
    (∀ v w r, everyL plainKeysNode w = true → from_gcL v w = .ok r → everyL plainKeysNode r = true) ∧
    (∀ m w r, PlainKeys (map w) → from_gcM m w = .ok r → PlainKeys (map r)) := by
  apply GC.induct
  · intro g hv hm d r hd h
    cases g <;> first
      | exact absurd rfl (hv _)
      | exact absurd rfl (hm _)
      | (injection h with h; subst h; first | rfl | (cases d <;> rfl))
      | (obtain ⟨w, -, h⟩ := out_bind_ok h; injection h with h; subst h; rfl)
      | (cases d <;> (obtain ⟨w, -, h⟩ := out_bind_ok h; injection h with h; subst h; rfl))
  · intro v ih d r hd h
    rw [from_gc] at h
    obtain ⟨w, hw, h⟩ := out_bind_ok h
    injection h with h; subst h
    simp only [PlainKeys, every, plainKeysNode, Bool.true_and]
    refine ih _ _ ?_ hw
    rw [everyL_iff]
    intro x hx
    have hold : ∀ x ∈ d.oldVector, every plainKeysNode x = true := by
      cases d <;> simp [oldVector]
      simp only [PlainKeys, every, plainKeysNode, Bool.true_and, everyL_iff] at hd
      exact hd
    unfold allocL at hx
    split at hx
    · unfold resizeL at hx
      rcases List.mem_append.1 hx with h | h
      · exact hold x (List.mem_of_mem_take h)
      · rw [(List.mem_replicate.1 h).2]; rfl
    · exact hold x hx
  · intro m ih d r hd h
    rw [from_gc] at h
    obtain ⟨w, hw, h⟩ := out_bind_ok h
    injection h with h; subst h
    refine ih _ _ ?_ hw
    cases d <;> first | rfl | exact hd
  · intro w r hw h
    injection h with h; exact h ▸ hw
  · intro x xs hx hxs w r hw h
    cases w with
    | nil => simp [from_gcL] at h
    | cons y ys =>
      rw [from_gcL] at h
      obtain ⟨y', h1, h⟩ := out_bind_ok h
      obtain ⟨ys', h2, h⟩ := out_bind_ok h
      injection h with h; subst h
      simp only [everyL, Bool.and_eq_true] at hw ⊢
      exact ⟨hx _ _ hw.1 h1, hxs _ _ hw.2 h2⟩
  · intro w r hw h
    injection h with h; exact h ▸ hw
  · intro k x xs hx hxs w r hw h
    rw [from_gcM] at h
    obtain ⟨y, h1, h⟩ := out_bind_ok h
    exact hxs _ _ (PlainKeys_mset (noNul_cstr k) (hx _ _ (PlainKeys_find hw) h1) hw) h

theorem Fits_of_short : (∀ g, ShortVectors g → PlainKeys g → Fits g) ∧
    (∀ v, everyL shortNode v = true → everyL plainKeysNode v = true → everyL fitsNode v = true) ∧
    (∀ m, everyM shortNode m = true → everyM plainKeysNode m = true → everyM fitsNode m = true) := by
  apply GC.induct
  · intro g hv hm h1 h2
    cases g <;> first
      | exact absurd rfl (hv _)
      | exact absurd rfl (hm _)
      | exact h1
  · intro v ih h1 h2
    simp only [ShortVectors, PlainKeys, Fits, every, Bool.and_eq_true] at h1 h2 ⊢
    exact ⟨h1.1, ih h1.2 h2.2⟩
  · intro m ih h1 h2
    simp only [ShortVectors, PlainKeys, Fits, every, Bool.and_eq_true] at h1 h2 ⊢
    exact ⟨h2.1, ih h1.2 h2.2⟩
  · intros; rfl
  · intro x r hx hr h1 h2
    simp only [everyL, Bool.and_eq_true] at h1 h2 ⊢
    exact ⟨hx h1.1 h2.1, hr h1.2 h2.2⟩
  · intros; rfl
  · intro k x r hx hr h1 h2
    simp only [everyM, Bool.and_eq_true] at h1 h2 ⊢
    exact ⟨hx h1.1 h2.1, hr h1.2 h2.2⟩

/-- The copy of a container (with vectors of less than 2^32 elements) is equal to it if and only if
no key in it contains a NUL byte. -/
theorem C57_copy_iff (b : GC) (hw : WF b) (hs : ShortVectors b) :
    copy b = .ok b ↔ PlainKeys b :=
  ⟨fun h => PlainKeys_from_gc.1 b notype b rfl h,
    fun h => C06_copy_faithful_partial b hw (Fits_of_short.1 b hs h)⟩

/-- Whatever is copied, the copy has no NUL in its keys. -/
theorem C57_copy_plain (b r : GC) (h : copy b = .ok r) : PlainKeys r :=
  PlainKeys_from_gc.1 b notype r rfl h

example : WF sample ∧ ShortVectors sample ∧ PlainKeys sample ∧
    ¬ PlainKeys (map [([120, 0, 121], int 1)]) := by decide +kernel

end GC
end GCV
