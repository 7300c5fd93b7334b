import Verif.Lemmas.JsonParse
import Verif.Lemmas.Map

/-! # Lemmas about the semantic actions of the JSON parser -/

namespace GCV
namespace GC

/-! ## Paths -/

theorem mset_mset (k : Bytes) (x y : GC) : ∀ m : Entries, mset k x (mset k y m) = mset k x m
  | [] => by simp [mset]
  | (k', v') :: r => by
    simp only [mset]
    by_cases h : k = k'
    · simp [h, mset]
    · rw [if_neg h, if_neg h]
      by_cases hb : blt k k' = true
      · rw [if_pos hb, if_pos hb]; simp [mset]
      · rw [if_neg hb, if_neg hb]
        simp only [mset]
        rw [if_neg h, if_neg hb, mset_mset k x y r]

theorem modAt_append (f : GC → GC) (q : List Sel) : ∀ (p : List Sel) (g : GC),
    modAt (p ++ q) f g = modAt p (modAt q f) g
  | [], g => by simp [modAt]
  | s :: p, g => by
    have ih := modAt_append f q p
    cases s <;> cases g <;> simp [modAt, ih]

theorem getAt_append (q : List Sel) : ∀ (p : List Sel) (g : GC), getAt (p ++ q) g = (getAt p g).bind (getAt q)
  | [], g => by simp [getAt]
  | s :: p, g => by
    have ih := getAt_append q p
    cases s <;> cases g <;> simp only [List.cons_append, getAt, Option.bind_none, Option.bind_assoc]
    · congr 1; exact funext ih
    · congr 1; exact funext ih

theorem getAt_modAt (f : GC → GC) : ∀ (p : List Sel) {g x : GC}, getAt p g = some x →
    getAt p (modAt p f g) = some (f x)
  | [], g, x, h => by simp only [getAt, Option.some.injEq] at h; subst h; rfl
  | s :: p, g, x, h => by
    cases s with
    | key k =>
      cases g with
      | map m =>
        simp only [getAt] at h
        cases hk : mfind k m with
        | none => simp [hk] at h
        | some y =>
          simp only [hk, Option.bind_some] at h
          simp only [modAt, hk, getAt, mfind_mset_same, Option.bind_some]
          exact getAt_modAt f p h
      | _ => simp [getAt] at h
    | idx i =>
      cases g with
      | vector v =>
        simp only [getAt] at h
        cases hk : v[i]? with
        | none => simp [hk] at h
        | some y =>
          simp only [hk, Option.bind_some] at h
          have hi : i < v.length := (List.getElem?_eq_some_iff.1 hk).1
          simp only [modAt, hk, getAt, List.getElem?_set_self hi, Option.bind_some]
          exact getAt_modAt f p h
      | _ => simp [getAt] at h

theorem modAt_modAt (f h : GC → GC) : ∀ (p : List Sel) (g : GC), (getAt p g).isSome →
    modAt p f (modAt p h g) = modAt p (fun x => f (h x)) g
  | [], g, _ => rfl
  | s :: p, g, hg => by
    cases s with
    | key k =>
      cases g with
      | map m =>
        simp only [getAt] at hg
        cases hk : mfind k m with
        | none => simp [hk] at hg
        | some y =>
          simp only [hk, Option.bind_some] at hg
          simp only [modAt, hk, mfind_mset_same, mset_mset, modAt_modAt f h p y hg]
      | _ => simp [getAt] at hg
    | idx i =>
      cases g with
      | vector v =>
        simp only [getAt] at hg
        cases hk : v[i]? with
        | none => simp [hk] at hg
        | some y =>
          simp only [hk, Option.bind_some] at hg
          have hi : i < v.length := (List.getElem?_eq_some_iff.1 hk).1
          simp only [modAt, hk, List.getElem?_set_self hi, List.set_set, modAt_modAt f h p y hg]
      | _ => simp [getAt] at hg

theorem modAt_congr {f h : GC → GC} : ∀ (p : List Sel) {g x : GC}, getAt p g = some x → f x = h x →
    modAt p f g = modAt p h g
  | [], g, x, hg, e => by simp only [getAt, Option.some.injEq] at hg; subst hg; exact e
  | s :: p, g, x, hg, e => by
    cases s with
    | key k =>
      cases g with
      | map m =>
        simp only [getAt] at hg
        cases hk : mfind k m with
        | none => simp [hk] at hg
        | some y =>
          simp only [hk, Option.bind_some] at hg
          simp only [modAt, hk, modAt_congr p hg e]
      | _ => rfl
    | idx i =>
      cases g with
      | vector v =>
        simp only [getAt] at hg
        cases hk : v[i]? with
        | none => simp [hk] at hg
        | some y =>
          simp only [hk, Option.bind_some] at hg
          simp only [modAt, hk, modAt_congr p hg e]
      | _ => rfl

end GC

namespace Json
open GC

/-! ## What a document does to a container -/

/-- A setter through `get_gc()`. -/
def into (f : GC → GC) : GC → GC
  | vector v => vector (v ++ [f notype])
  | g => f g

/-- The value under a key of a map, if there is one. -/
def oldAt (k : Bytes) (g : GC) : GC := (mfind k g.oldMap).getD notype

mutual
/-- What a document does to the container on top of the stack. -/
def put (strtod : Bytes → Option F64) : Doc → GC → GC
  | .null => into clear
  | .bool b => into (set_bool b)
  | .string s => into (set_string s)
  | .int l => into (setInteger l)
  | .num l => into (setFloat strtod l)
  | .arr ds => fun g => puts strtod ds (into (set_vector 0) g)
  | .obj ms => into (fun x => putMembers strtod ms (set_map x))
def puts (strtod : Bytes → Option F64) : List Doc → GC → GC
  | [] => id
  | d :: ds => fun g => puts strtod ds (put strtod d g)
def putMembers (strtod : Bytes → Option F64) : List (Bytes × Doc) → GC → GC
  | [] => id
  | (k, d) :: ms => fun g => putMembers strtod ms (map (mset k (put strtod d (oldAt k g)) g.oldMap))
end

variable (strtod : Bytes → Option F64)

theorem set_spec {root : GC} {p : List Sel} {ps : List (List Sel)} {g : GC} (hg : getAt p root = some g) (f : GC → GC) :
    Wrapper.set f ⟨root, p :: ps⟩ = .ok ⟨modAt p (into f) root, p :: ps⟩ := by
  unfold Wrapper.set Wrapper.get_gc
  simp only [hg]
  cases g with
  | vector v =>
    simp only [Out.bind]
    rw [modAt_append, modAt_modAt _ _ p root (by rw [hg]; rfl)]
    congr 2
    apply modAt_congr p hg
    simp [modAt, into]
  | _ => simp only [Out.bind]; congr 2; exact modAt_congr p hg rfl

theorem acts_append (w : Wrapper) : ∀ (a b : List Act),
    w.acts strtod (a ++ b) = (w.acts strtod a).bind fun w' => w'.acts strtod b := by
  intro a
  induction a generalizing w with
  | nil => intro b; simp [Wrapper.acts, Out.bind]
  | cons x a ih =>
    intro b
    simp only [List.cons_append, Wrapper.acts]
    cases h : w.act strtod x with
    | ok w' => simp only [Out.bind]; rw [ih]; rfl
    | _ => rfl

theorem acts_one (w w' : Wrapper) (a : Act) (h : w.act strtod a = .ok w') : w.acts strtod [a] = .ok w' := by
  simp [Wrapper.acts, h, Out.bind]

mutual
theorem acts_doc : ∀ (d : Doc) {root : GC} {p : List Sel} {ps : List (List Sel)}, (getAt p root).isSome →
    Wrapper.acts strtod ⟨root, p :: ps⟩ (docActs d) = .ok ⟨modAt p (put strtod d) root, p :: ps⟩
  | .null, root, p, ps, h => by
    obtain ⟨g, hg⟩ := Option.isSome_iff_exists.1 h
    rw [docActs, put]; exact acts_one strtod _ _ _ (set_spec hg clear)
  | .bool true, root, p, ps, h => by
    obtain ⟨g, hg⟩ := Option.isSome_iff_exists.1 h
    rw [docActs, put]; exact acts_one strtod _ _ _ (set_spec hg _)
  | .bool false, root, p, ps, h => by
    obtain ⟨g, hg⟩ := Option.isSome_iff_exists.1 h
    rw [docActs, put]; exact acts_one strtod _ _ _ (set_spec hg _)
  | .string s, root, p, ps, h => by
    obtain ⟨g, hg⟩ := Option.isSome_iff_exists.1 h
    rw [docActs, put]; exact acts_one strtod _ _ _ (set_spec hg _)
  | .int l, root, p, ps, h => by
    obtain ⟨g, hg⟩ := Option.isSome_iff_exists.1 h
    rw [docActs, put]; exact acts_one strtod _ _ _ (set_spec hg _)
  | .num l, root, p, ps, h => by
    obtain ⟨g, hg⟩ := Option.isSome_iff_exists.1 h
    rw [docActs, put]; exact acts_one strtod _ _ _ (set_spec hg _)
  | .arr ds, root, p, ps, h => by
    obtain ⟨g, hg⟩ := Option.isSome_iff_exists.1 h
    rw [docActs, Wrapper.acts]
    have h1 : Wrapper.act strtod ⟨root, p :: ps⟩ .openVector = .ok ⟨modAt p (into (set_vector 0)) root, p :: ps⟩ :=
      set_spec hg _
    rw [h1]; simp only [Out.bind]
    rw [acts_append, acts_docs ds _ h]
    simp only [Out.bind, Wrapper.acts, Wrapper.act]
    rw [put]
  | .obj ms, root, p, ps, h => by
    obtain ⟨g, hg⟩ := Option.isSome_iff_exists.1 h
    rw [docActs, Wrapper.acts, put]
    -- the container that becomes a map is reached by `p ++ q`
    have key : ∃ (q : List Sel) (root0 x : GC) (m : Entries), Wrapper.act strtod ⟨root, p :: ps⟩ .openMap =
          .ok ⟨modAt (p ++ q) set_map root0, (p ++ q) :: p :: ps⟩ ∧ getAt (p ++ q) root0 = some x ∧ set_map x = map m ∧
          modAt (p ++ q) (fun x => putMembers strtod ms (set_map x)) root0 =
            modAt p (into (fun x => putMembers strtod ms (set_map x))) root := by
      have hmap : ∀ x : GC, set_map x = map x.oldMap := by intro x; cases x <;> rfl
      by_cases hv : ∃ v, g = vector v
      · obtain ⟨v, rfl⟩ := hv
        refine ⟨[.idx v.length], modAt p (fun _ => vector (v ++ [notype])) root, notype, [], ?_, ?_, rfl, ?_⟩
        · simp only [Wrapper.act, Wrapper.get_gc, hg, Out.bind]
        · rw [getAt_append, getAt_modAt _ p hg]; simp [getAt]
        · rw [modAt_append, modAt_modAt _ _ p root h]
          apply modAt_congr p hg
          simp [modAt, into]
      · refine ⟨[], root, g, g.oldMap, ?_, by rw [List.append_nil]; exact hg, hmap g, ?_⟩
        · simp only [Wrapper.act, Wrapper.get_gc, hg, List.append_nil]
          cases g with
          | vector v => exact absurd ⟨v, rfl⟩ hv
          | _ => rfl
        · rw [List.append_nil]
          apply modAt_congr p hg
          cases g with
          | vector v => exact absurd ⟨v, rfl⟩ hv
          | _ => rfl
    obtain ⟨q, root0, x, m, h1, h2, h3, h4⟩ := key
    rw [h1]; simp only [Out.bind]
    rw [acts_append, acts_members ms h2 h3]
    simp only [Out.bind, Wrapper.acts, Wrapper.act]
    rw [h4]
theorem acts_docs : ∀ (ds : List Doc) (f : GC → GC) {root : GC} {p : List Sel} {ps : List (List Sel)}, (getAt p root).isSome →
    Wrapper.acts strtod ⟨modAt p f root, p :: ps⟩ (docsActs ds) = .ok ⟨modAt p (fun g => puts strtod ds (f g)) root, p :: ps⟩
  | [], f, root, p, ps, h => by
    rw [docsActs, Wrapper.acts, puts]; rfl
  | d :: ds, f, root, p, ps, h => by
    obtain ⟨g, hg⟩ := Option.isSome_iff_exists.1 h
    rw [docsActs, acts_append, acts_doc d (by rw [getAt_modAt _ p hg]; rfl)]
    simp only [Out.bind]
    rw [modAt_modAt _ _ p root h, acts_docs ds _ h, puts]
theorem acts_members : ∀ (ms : List (Bytes × Doc)) {f : GC → GC} {root g : GC} {p : List Sel} {ps : List (List Sel)} {m : Entries},
    getAt p root = some g → f g = map m →
    Wrapper.acts strtod ⟨modAt p f root, p :: ps⟩ (membersActs ms) =
      .ok ⟨modAt p (fun g => putMembers strtod ms (f g)) root, p :: ps⟩
  | [], f, root, g, p, ps, m, h, hf => by
    rw [membersActs, Wrapper.acts, putMembers]; rfl
  | (k, d) :: ms, f, root, g, p, ps, m, h, hf => by
    have hs : (getAt p root).isSome := by rw [h]; rfl
    have h1 : getAt p (modAt p f root) = some (map m) := by rw [getAt_modAt f p h, hf]
    have hk : Wrapper.act strtod ⟨modAt p f root, p :: ps⟩ (.setKey k) =
        .ok ⟨modAt p (fun g => map (mset k (oldAt k g) g.oldMap)) (modAt p f root), (p ++ [.key k]) :: p :: ps⟩ := by
      simp only [Wrapper.act, Wrapper.get_gc, h1, Out.bind, oldAt]
    have h2 : getAt (p ++ [.key k]) (modAt p (fun g => map (mset k (oldAt k g) g.oldMap)) (modAt p f root)) =
        some (oldAt k (map m)) := by
      rw [getAt_append, getAt_modAt _ p h1]
      simp [getAt, mfind_mset_same]
    rw [membersActs, List.cons_append, Wrapper.acts, hk]
    simp only [Out.bind]
    rw [List.append_assoc, acts_append, acts_doc d (by rw [h2]; rfl)]
    simp only [Out.bind, List.singleton_append, Wrapper.acts, Wrapper.act]
    rw [modAt_append, modAt_modAt _ _ p _ (by rw [h1]; rfl), modAt_modAt _ _ p _ hs]
    have e : modAt p (fun x => modAt [.key k] (put strtod d) (map (mset k (oldAt k (f x)) (f x).oldMap))) root =
        modAt p (fun x => map (mset k (put strtod d (oldAt k (f x))) (f x).oldMap)) root := by
      apply modAt_congr p h
      simp [modAt, mfind_mset_same, mset_mset]
    rw [e, acts_members ms h rfl, putMembers]
end

/-! ## Numbers -/

theorem takeWhile_all {p : Byte → Bool} : ∀ {l : Bytes}, (∀ c ∈ l, p c = true) → l.takeWhile p = l
  | [], _ => rfl
  | c :: l, h => by
    rw [List.takeWhile_cons, if_pos (h c (by simp)), takeWhile_all fun d hd => h d (.tail _ hd)]

theorem cstr_digits {a b : Bytes} (ha : Sign a) (hb : Digits b) : cstr (a ++ b) = a ++ b := by
  apply takeWhile_all
  intro c hc
  rw [List.mem_append] at hc
  have : c ≠ 0 := by
    rcases hc with hc | hc
    · rcases ha with rfl | rfl | rfl
      · cases hc
      · simp at hc; subst hc; decide
      · simp at hc; subst hc; decide
    · have := (hb.2 c hc).1
      rintro rfl; exact absurd this (by decide)
  simpa using this

theorem digits_fold : ∀ (ds : Bytes) (a : Nat), (∀ c ∈ ds, 48 ≤ c.toNat ∧ c.toNat ≤ 57) →
    ((ds.foldl (fun a c => 10 * a + (c.toNat - 48)) a : Nat) : Int) =
      ds.foldl (fun a c => 10 * a + ((c.toNat : Int) - 48)) (a : Int)
  | [], a, _ => rfl
  | c :: ds, a, h => by
    have hc := h c (by simp)
    rw [List.foldl_cons, List.foldl_cons, digits_fold ds _ fun d hd => h d (.tail _ hd)]
    congr 1
    omega

/-- `strtoll` on an integer literal: its value, limited to 64 bits. -/
theorem strtoll_lit {l : Bytes} (h : IntLit l) :
    strtoll (cstr l) = (if intValue l < -2 ^ 63 then -2 ^ 63 else if 2 ^ 63 - 1 < intValue l then 2 ^ 63 - 1 else intValue l,
      true) := by
  obtain ⟨a, b, rfl, ha, hb⟩ := h
  rw [cstr_digits ha hb]
  have hd : ∀ c ∈ b, isDigit c = true := fun c hc => (isDigit_iff c).2 (hb.2 c hc)
  have ht := takeWhile_all hd
  have hf := digits_fold b 0 hb.2
  have hne : b.isEmpty = false := by simpa using hb.1
  have key : ∀ s : Bytes, (splitSign s).2 = b →
      intValue s = (if (splitSign s).1 then -(b.foldl (fun a c => 10 * a + ((c.toNat : Int) - 48)) 0)
        else b.foldl (fun a c => 10 * a + ((c.toNat : Int) - 48)) 0) →
      strtoll s = (if intValue s < -2 ^ 63 then -2 ^ 63 else if 2 ^ 63 - 1 < intValue s then 2 ^ 63 - 1 else intValue s,
        true) := by
    intro s h1 h2
    have h3 : intValue s = if (splitSign s).1 then -((b.foldl (fun a c => 10 * a + (c.toNat - 48)) 0 : Nat) : Int)
        else ((b.foldl (fun a c => 10 * a + (c.toNat - 48)) 0 : Nat) : Int) := by
      rw [h2, hf]; rfl
    rw [h3]
    simp only [strtoll, h1, ht, hne, List.drop_length]
    rfl
  rcases ha with rfl | rfl | rfl
  · cases b with
    | nil => exact absurd rfl hb.1
    | cons c b =>
      have hc := hb.2 c (by simp)
      have h45 : c ≠ 45 := by rintro rfl; exact absurd hc.1 (by decide)
      have h43 : c ≠ 43 := by rintro rfl; exact absurd hc.1 (by decide)
      have e : splitSign (c :: b) = (false, c :: b) := by
        unfold splitSign
        split
        · next h => cases h; exact absurd rfl h45
        · next h => cases h; exact absurd rfl h43
        · rfl
      have e1 : intValue (c :: b) = (c :: b).foldl (fun a c => 10 * a + ((c.toNat : Int) - 48)) 0 := by
        simp only [intValue]
        split
        · next h => cases h; exact absurd rfl h45
        · next h => cases h; exact absurd rfl h43
        · rfl
      exact key _ (by rw [List.nil_append, e]) (by rw [List.nil_append, e, e1]; rfl)
  · exact key _ rfl rfl
  · exact key _ rfl rfl

theorem setInteger_lit {l : Bytes} (h : IntLit l) (h1 : -2 ^ 63 ≤ intValue l) (h2 : intValue l < 2 ^ 63) (g : GC) :
    setInteger l g = intTree l := by
  have e := strtoll_lit h
  rw [if_neg (by omega), if_neg (by omega)] at e
  simp only [setInteger, e, intTree, set_int, set_long, if_true]
  by_cases hc : -2 ^ 31 ≤ intValue l ∧ intValue l < 2 ^ 31
  · rw [if_pos hc, if_pos ⟨by omega, hc.1⟩]
  · rw [if_neg hc, if_neg]
    rintro ⟨a, b⟩
    exact hc ⟨b, by omega⟩

theorem cstr_float {l : Bytes} (h : FloatLit l) : cstr l = l := by
  obtain ⟨a, b, f, e, rfl, ha, hb, hf, he, _⟩ := h
  apply takeWhile_all
  have dig : ∀ {d : Bytes}, Digits d → ∀ c ∈ d, c ≠ 0 := by
    rintro d hd c hc rfl
    exact absurd (hd.2 _ hc).1 (by decide)
  have sgn : ∀ {a : Bytes}, Sign a → ∀ c ∈ a, c ≠ 0 := by
    rintro a (rfl | rfl | rfl) c hc
    · cases hc
    · simp at hc; subst hc; decide
    · simp at hc; subst hc; decide
  intro c hc
  have : c ≠ 0 := by
    simp only [List.mem_append] at hc
    rcases hc with ((hc | hc) | hc) | hc
    · exact sgn ha c hc
    · exact dig hb c hc
    · rcases hf with rfl | ⟨d, rfl, hd⟩
      · cases hc
      · rcases List.mem_cons.1 hc with rfl | hc
        · decide
        · exact dig hd c hc
    · rcases he with rfl | ⟨x, y, d, rfl, hx, hy, hd⟩
      · cases hc
      · rw [List.cons_append] at hc
        rcases List.mem_cons.1 hc with rfl | hc
        · rcases hx with rfl | rfl <;> decide
        · rcases List.mem_append.1 hc with hc | hc
          · exact sgn hy c hc
          · exact dig hd c hc
  simpa using this

/-! ## The tree of a usual document -/

theorem setFloat_lit {l : Bytes} (h : FloatLit l) : setFloat strtod l notype = numTree strtod l := by
  simp only [setFloat, cstr_float h, numTree]
  cases strtod l <;> rfl

theorem into_notype (f : GC → GC) : into f notype = f notype := rfl

mutual
theorem put_notype : ∀ (d : Doc), d.Usual → put strtod d notype = docTree strtod d
  | .null, _ => by rw [put, docTree]; rfl
  | .bool b, _ => by rw [put, docTree]; rfl
  | .string s, _ => by rw [put, docTree]; rfl
  | .int l, h => by
    rw [Doc.Usual] at h
    rw [put, docTree, into_notype, setInteger_lit h.1 h.2.1 h.2.2]
  | .num l, h => by
    rw [Doc.Usual] at h
    rw [put, docTree, into_notype, setFloat_lit strtod h]
  | .arr ds, h => by
    rw [Doc.Usual] at h
    rw [put, docTree]
    dsimp only
    rw [into_notype]
    have : set_vector 0 notype = vector [] := rfl
    rw [this, puts_vector ds h]; rfl
  | .obj ms, h => by
    rw [Doc.Usual] at h
    rw [put, docTree, into_notype]
    have : set_map notype = map [] := rfl
    rw [this, putMembers_map ms [] h.2 h.1 (by simp [mfind])]
theorem puts_vector : ∀ (ds : List Doc), UsualElems ds → ∀ {v : List GC},
    puts strtod ds (vector v) = vector (v ++ docTrees strtod ds)
  | [], _, v => by rw [puts, docTrees]; simp
  | d :: ds, h, v => by
    rw [UsualElems] at h
    obtain ⟨h1, h2, h3⟩ := h
    have e : put strtod d (vector v) = vector (v ++ [put strtod d notype]) := by
      cases d with
      | arr ds => cases h1
      | _ => simp only [put, into]
    rw [puts]
    dsimp only
    rw [e, put_notype d h2, puts_vector ds h3, docTrees]; simp
theorem putMembers_map : ∀ (ms : List (Bytes × Doc)) (m : Entries), UsualMembers ms → (ms.map Prod.fst).Nodup →
    (∀ k ∈ ms.map Prod.fst, mfind k m = none) → putMembers strtod ms (map m) = map (docEntries strtod m ms)
  | [], m, _, _, _ => by rw [putMembers, docEntries]; rfl
  | (k, d) :: ms, m, h, hn, hm => by
    rw [UsualMembers] at h
    simp only [List.map_cons, List.nodup_cons] at hn
    have hk : oldAt k (map m) = notype := by
      simp [oldAt, oldMap, hm k (by simp)]
    rw [putMembers, docEntries]
    dsimp only
    rw [hk, put_notype d h.1]
    have : (map m).oldMap = m := rfl
    rw [this]
    refine putMembers_map ms _ h.2 hn.2 fun l hl => ?_
    have : l ≠ k := by rintro rfl; exact hn.1 hl
    rw [mfind_mset_other this]
    exact hm l (by simp [hl])
end

end Json
end GCV
