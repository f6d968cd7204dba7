import Verif.SaveLoad.Model
import Verif.References.InitProps

/-! # C28 -/

namespace Verif.SaveLoad

open Verif.References

variable {Arch P G Arr V W K : Type}

/-! ### Success of `initialize` does not depend on the random states -/

theorem evalOne_isSome (sys : Sys G Arr) (ok : Nat → Shape → Bool) (hok : ∀ k sh g, (sys.draw k sh g).1.isSome = ok k sh) :
    ∀ (i : Init) (sh : Shape) (seed : Option Nat) (st : Store G), (evalOne sys i sh seed st).1.isSome = accepts sys ok (describeInit i) sh
  | .number x, sh, seed, st => rfl
  | .object id k, sh, seed, st => by simp [evalOne, describeInit, accepts, hok]
  | .sparse id k sub, sh, seed, st => by
    simp only [evalOne, describeInit, accepts]
    have ih := fun st => evalOne_isSome sys ok hok sub sh none st
    split
    · rename_i h
      rw [h, Bool.true_and, ← ih (st.reseed sys id seed)]
      split
      · rename_i e; rw [e]
      · rename_i e; rw [e]; rfl
    · rename_i h; simp [h]
  | .lstmOpt id a b c d, sh, seed, st => by
    simp only [evalOne, describeInit, accepts]
    have key : ∀ (i : Init) (q : Shape) (s : Option Nat) (st : Store G) (r : Option Arr × Store G),
        (evalOne sys i q s st).1.isSome = accepts sys ok (describeInit i) q →
        evalOne sys i q s st = r → accepts sys ok (describeInit i) q = r.1.isSome := by
      intro i q s st r h e
      rw [← h, e]
    have iha := fun q s st r => key a q s st r (evalOne_isSome sys ok hok a q s st)
    have ihb := fun q s st r => key b q s st r (evalOne_isSome sys ok hok b q s st)
    have ihc := fun q s st r => key c q s st r (evalOne_isSome sys ok hok c q s st)
    have ihd := fun q s st r => key d q s st r (evalOne_isSome sys ok hok d q s st)
    cases hq : sys.quarter sh with
    | none => rfl
    | some q =>
      simp only
      split
      · rename_i h; simp [iha q _ _ _ h]
      · rename_i h; have ha := iha q _ _ _ h
        split
        · rename_i h; simp [ihb q _ _ _ h]
        · rename_i h; have hb := ihb q _ _ _ h
          split
          · rename_i h; simp [ihc q _ _ _ h]
          · rename_i h; have hc := ihc q _ _ _ h
            split
            · rename_i h; simp [ihd q _ _ _ h]
            · rename_i h; have hd := ihd q _ _ _ h
              simp [ha, hb, hc, hd]

/-- Whether an initializer or its fallback accepts a shape. -/
def acceptsAt (sys : Sys G Arr) (ok : Nat → Shape → Bool) (i : Init) (fb : Option Init) (sh : Shape) : Bool :=
  accepts sys ok (describeInit i) sh || match fb with
    | none => false
    | some f => accepts sys ok (describeInit f) sh

theorem evaluate_isSome (sys : Sys G Arr) (ok : Nat → Shape → Bool) (hok : ∀ k sh g, (sys.draw k sh g).1.isSome = ok k sh)
    (i : Init) (sh : Shape) (fb : Option Init) (s : Nat) (st : Store G) :
    (evaluate sys i sh fb s st).1.isSome = acceptsAt sys ok i fb sh := by
  unfold evaluate acceptsAt
  rw [← evalOne_isSome sys ok hok i sh (some s) st]
  split
  · rename_i h; simp [h]
  · rename_i h
    cases fb with
    | none => simp [h]
    | some f => simp [h, evalOne_isSome sys ok hok]

/-- What `initialize` needs for each view. -/
def Fine (sys : Sys G Arr) (ok : Nat → Shape → Bool) (vals fbs : Tree (List Init)) (x : Name × Name × Shape) : Prop :=
  ∃ i, (vals.at [x.1, x.2.1]).getD [] = [i] ∧ ((fbs.at [x.1, x.2.1]).getD []).length ≤ 1 ∧
    acceptsAt sys ok i ((fbs.at [x.1, x.2.1]).getD []).head? x.2.2 = true

theorem initLoop_ok (sys : Sys G Arr) (ok : Nat → Shape → Bool) (hok : ∀ k sh g, (sys.draw k sh g).1.isSome = ok k sh)
    (vals fbs : Tree (List Init)) : ∀ (L : List (Name × Name × Shape)) (g : G) (st : Store G),
    (initLoop sys vals fbs L g st).err = none ↔ ∀ x ∈ L, Fine sys ok vals fbs x
  | [], g, st => by simp [initLoop]
  | (l, v, sh) :: L, g, st => by
    have ih := initLoop_ok sys ok hok vals fbs L
    simp only [initLoop, List.mem_cons, forall_eq_or_imp]
    split
    · rename_i h
      constructor
      · intro h; cases h
      · rintro ⟨⟨i, h1, -⟩, -⟩
        simp only at h1
        rw [h1] at h; simp at h
    · rename_i h
      constructor
      · intro h; cases h
      · rintro ⟨⟨i, h1, -⟩, -⟩
        simp only at h1
        rw [h1] at h; simp at h
    · rename_i h h'
      constructor
      · intro h; cases h
      · rintro ⟨⟨i, -, h2, -⟩, -⟩
        simp only at h2
        rw [h'] at h2; simp at h2
    · rename_i _ _ i h1 h3
      have hlen : ((fbs.at [l, v]).getD []).length ≤ 1 := by
        cases hf : (fbs.at [l, v]).getD [] with
        | nil => simp
        | cons a r =>
          cases r with
          | nil => simp
          | cons b r => exact absurd hf (fun e => h3 _ _ _ e)
      have hev := evaluate_isSome sys ok hok i sh ((fbs.at [l, v]).getD []).head? (sys.generateSeed g).1 st
      split
      · rename_i he
        constructor
        · intro h; cases h
        · rintro ⟨⟨i', c1, c2, c3⟩, -⟩
          simp only at c1 c2 c3
          rw [h1] at c1
          cases c1
          rw [he, c3] at hev
          simp at hev
      · rename_i he
        rw [he] at hev
        rw [ih]
        constructor
        · intro h
          exact ⟨⟨i, h1, hlen, by simpa using hev.symm⟩, h⟩
        · exact fun h => h.2

/-! ### Comparing two dictionaries of initializers -/

mutual
theorem allVals_map (f : V → W) : ∀ r : Ref V, allVals (r.map f) = (allVals r).map f
  | .val v => by simp [Ref.map, allVals]
  | .dict es => by simp [Ref.map, allVals, allValsList_map f es]
theorem allValsList_map (f : V → W) : ∀ es : List (Name × Ref V), allValsList (Ref.mapList f es) = (allValsList es).map f
  | [] => by simp [Ref.mapList, allValsList]
  | (k, r) :: es => by simp [Ref.mapList, allValsList, allVals_map f r, allValsList_map f es]
end

mutual
/-- References of the same form can be combined. -/
theorem exists_zip (f : V → K) (g : W → K) (R : V → W → Prop) : ∀ (r : Ref V) (r' : Ref W), r.map f = r'.map g →
    (∀ (i : Nat) (x : V) (y : W), (allVals r)[i]? = some x → (allVals r')[i]? = some y → R x y) →
    ∃ rr : Ref {p : V × W // R p.1 p.2}, rr.map (fun p => p.1.1) = r ∧ rr.map (fun p => p.1.2) = r'
  | .val v, .val w, _, hR => ⟨.val ⟨(v, w), hR 0 v w (by simp [allVals]) (by simp [allVals])⟩, by simp [Ref.map], by simp [Ref.map]⟩
  | .val v, .dict es', h, _ => by simp [Ref.map] at h
  | .dict es, .val w, h, _ => by simp [Ref.map] at h
  | .dict es, .dict es', h, hR => by
    simp only [Ref.map, Ref.dict.injEq] at h
    obtain ⟨rs, h1, h2⟩ := exists_zipList f g R es es' h (by simpa only [allVals] using hR)
    exact ⟨.dict rs, by simp [Ref.map, h1], by simp [Ref.map, h2]⟩
theorem exists_zipList (f : V → K) (g : W → K) (R : V → W → Prop) : ∀ (es : List (Name × Ref V)) (es' : List (Name × Ref W)),
    Ref.mapList f es = Ref.mapList g es' →
    (∀ (i : Nat) (x : V) (y : W), (allValsList es)[i]? = some x → (allValsList es')[i]? = some y → R x y) →
    ∃ rs : List (Name × Ref {p : V × W // R p.1 p.2}), Ref.mapList (fun p => p.1.1) rs = es ∧ Ref.mapList (fun p => p.1.2) rs = es'
  | [], [], _, _ => ⟨[], by simp [Ref.mapList], by simp [Ref.mapList]⟩
  | [], (k, r) :: es', h, _ => by simp [Ref.mapList] at h
  | (k, r) :: es, [], h, _ => by simp [Ref.mapList] at h
  | (k, r) :: es, (k', r') :: es', h, hR => by
    simp only [Ref.mapList, List.cons.injEq, Prod.mk.injEq] at h
    obtain ⟨⟨rfl, hr⟩, hes⟩ := h
    have hlen : (allVals r).length = (allVals r').length := by
      have := congrArg (fun r => (allVals r).length) hr
      simpa [allVals_map] using this
    simp only [allValsList] at hR
    obtain ⟨rr, h1, h2⟩ := exists_zip f g R r r' hr (fun i x y hx hy => by
      have hi : i < (allVals r).length := by
        obtain ⟨h', -⟩ := List.getElem?_eq_some_iff.1 hx
        exact h'
      exact hR i x y (by rw [List.getElem?_append_left hi]; exact hx) (by rw [List.getElem?_append_left (by omega)]; exact hy))
    obtain ⟨rs, h3, h4⟩ := exists_zipList f g R es es' hes (fun i x y hx hy =>
      hR ((allVals r).length + i) x y (by rw [List.getElem?_append_right (by omega)]; simpa using hx)
        (by rw [List.getElem?_append_right (by omega), hlen]; simpa using hy))
    exact ⟨(k, rr) :: rs, by simp [Ref.mapList, h1, h3], by simp [Ref.mapList, h2, h4]⟩
end

/-- Two initializers at the same place of two dictionaries. -/
def Twins (refs refs' : Ref Init) (x y : Init) : Prop := ∃ i : Nat, (allVals refs)[i]? = some x ∧ (allVals refs')[i]? = some y

/-- Both dictionaries resolve in the same way, up to the identity of the objects. -/
theorem resolve_related {A : Type} (refs refs' : Ref Init) (hd : refs.map describeInit = refs'.map describeInit) (hu : Unshared refs)
    (hu' : Unshared refs') (t : Tree A) :
    (∃ e, resolve t refs = .error e ∧ resolve t refs' = .error e) ∨
    ∃ vals fbs : Tree (List {p : Init × Init // Twins refs refs' p.1 p.2 ∧ describeInit p.1 = describeInit p.2}),
      resolve t refs = .ok (vals.map (List.map (fun p => p.1.1)), fbs.map (List.map (fun p => p.1.1))) ∧
      resolve t refs' = .ok (vals.map (List.map (fun p => p.1.2)), fbs.map (List.map (fun p => p.1.2))) := by
  have hv : (allVals refs).map describeInit = (allVals refs').map describeInit := by
    rw [← allVals_map, ← allVals_map, hd]
  have hdesc : ∀ x y, Twins refs refs' x y → describeInit x = describeInit y := by
    rintro x y ⟨i, hx, hy⟩
    have := congrArg (fun l => l[i]?) hv
    simp only [List.getElem?_map, hx, hy, Option.map_some, Option.some.injEq] at this
    exact this
  obtain ⟨rr, h1, h2⟩ := exists_zip describeInit describeInit (fun x y => Twins refs refs' x y ∧ describeInit x = describeInit y) refs refs' hd
    (fun i x y hx hy => ⟨⟨i, hx, hy⟩, hdesc x y ⟨i, hx, hy⟩⟩)
  have hnum : ∀ (x : Init) (n : Int), describeInit x = .number n → x = .number n := by
    intro x n h
    cases x <;> simp [describeInit] at h
    rw [h]
  have hf : ∀ a b : {p : Init × Init // Twins refs refs' p.1 p.2 ∧ describeInit p.1 = describeInit p.2}, a.1.1 = b.1.1 → a = b := by
    rintro ⟨⟨x, y⟩, hxy⟩ ⟨⟨x', y'⟩, hxy'⟩ h
    simp only at h
    subst h
    obtain ⟨⟨i, a1, a2⟩, e1⟩ := hxy
    obtain ⟨⟨j, b1, b2⟩, e2⟩ := hxy'
    rcases hu i j x a1 b1 with e | ⟨n, e⟩
    · subst e
      rw [a2] at b2
      cases b2
      rfl
    · subst e
      have := hnum y n e1.symm
      have := hnum y' n e2.symm
      subst y; subst y'; rfl
  have hg : ∀ a b : {p : Init × Init // Twins refs refs' p.1 p.2 ∧ describeInit p.1 = describeInit p.2}, a.1.2 = b.1.2 → a = b := by
    rintro ⟨⟨x, y⟩, hxy⟩ ⟨⟨x', y'⟩, hxy'⟩ h
    simp only at h
    subst h
    obtain ⟨⟨i, a1, a2⟩, e1⟩ := hxy
    obtain ⟨⟨j, b1, b2⟩, e2⟩ := hxy'
    rcases hu' i j y a2 b2 with e | ⟨n, e⟩
    · subst e
      rw [a1] at b1
      cases b1
      rfl
    · subst e
      have := hnum x n e1
      have := hnum x' n e2
      subst x; subst x'; rfl
  have r1 := resolve_map (fun p : {p : Init × Init // Twins refs refs' p.1 p.2 ∧ describeInit p.1 = describeInit p.2} => p.1.1) hf t rr
  have r2 := resolve_map (fun p : {p : Init × Init // Twins refs refs' p.1 p.2 ∧ describeInit p.1 = describeInit p.2} => p.1.2) hg t rr
  rw [h1] at r1
  rw [h2] at r2
  cases hr : resolve t rr with
  | error e =>
    rw [hr] at r1 r2
    exact Or.inl ⟨e, r1, r2⟩
  | ok p =>
    obtain ⟨vals, fbs⟩ := p
    rw [hr] at r1 r2
    exact Or.inr ⟨vals, fbs, r1, r2⟩

/-! ### Creating initializers -/

theorem describe_create : ∀ (d : InitDesc) (n : Nat), describeInit (createInit n d).1 = d
  | .number x, n => rfl
  | .object k, n => rfl
  | .sparse k sub, n => by simp [createInit, describeInit, describe_create sub]
  | .lstmOpt a b c d, n => by simp [createInit, describeInit, describe_create]

mutual
theorem describe_createRefs : ∀ (r : Ref InitDesc) (n : Nat), (createRefs n r).1.map describeInit = r
  | .val d, n => by simp [createRefs, Ref.map, describe_create]
  | .dict es, n => by simp [createRefs, Ref.map, describe_createEntries es n]
theorem describe_createEntries : ∀ (es : List (Name × Ref InitDesc)) (n : Nat), Ref.mapList describeInit (createEntries n es).1 = es
  | [], n => by simp [createEntries, Ref.mapList]
  | (k, r) :: es, n => by simp [createEntries, Ref.mapList, describe_createRefs r, describe_createEntries es]
end

/-- The identity of an initializer object. -/
def topId : Init → Option Nat
  | .number _ => none
  | .object id _ => some id
  | .sparse id _ _ => some id
  | .lstmOpt id _ _ _ _ => some id

theorem createInit_le : ∀ (d : InitDesc) (n : Nat), n ≤ (createInit n d).2
  | .number x, n => Nat.le_refl _
  | .object k, n => Nat.le_succ _
  | .sparse k sub, n => by have := createInit_le sub (n + 1); simp only [createInit]; omega
  | .lstmOpt a b c d, n => by
    have h1 := createInit_le a (n + 1)
    have h2 := createInit_le b (createInit (n + 1) a).2
    have h3 := createInit_le c (createInit (createInit (n + 1) a).2 b).2
    have h4 := createInit_le d (createInit (createInit (createInit (n + 1) a).2 b).2 c).2
    simp only [createInit]; omega

theorem createInit_topId (d : InitDesc) (n k : Nat) (h : topId (createInit n d).1 = some k) : n ≤ k ∧ k < (createInit n d).2 := by
  cases d with
  | number x => simp [createInit, topId] at h
  | object k => simp [createInit, topId] at h ⊢; omega
  | sparse k sub =>
    have := createInit_le sub (n + 1)
    simp [createInit, topId] at h ⊢; omega
  | lstmOpt a b c d =>
    have h1 := createInit_le a (n + 1)
    have h2 := createInit_le b (createInit (n + 1) a).2
    have h3 := createInit_le c (createInit (createInit (n + 1) a).2 b).2
    have h4 := createInit_le d (createInit (createInit (createInit (n + 1) a).2 b).2 c).2
    simp [createInit, topId] at h ⊢; omega

/-- A list of initializers with distinct identities between `n` and `m`. -/
def Within (l : List Init) (n m : Nat) : Prop :=
  n ≤ m ∧ (∀ x ∈ l, ∀ k, topId x = some k → n ≤ k ∧ k < m) ∧ l.Pairwise (fun a b => ∀ k, topId a = some k → topId b ≠ some k)

mutual
theorem createRefs_within : ∀ (r : Ref InitDesc) (n : Nat), Within (allVals (createRefs n r).1) n (createRefs n r).2
  | .val d, n => by
    simp only [createRefs, allVals]
    refine ⟨createInit_le d n, ?_, by simp⟩
    intro x hx k hk
    simp at hx
    subst hx
    exact createInit_topId d n k hk
  | .dict es, n => by
    simp only [createRefs, allVals]
    exact createEntries_within es n
theorem createEntries_within : ∀ (es : List (Name × Ref InitDesc)) (n : Nat), Within (allValsList (createEntries n es).1) n (createEntries n es).2
  | [], n => by simp [createEntries, allValsList, Within]
  | (k, r) :: es, n => by
    obtain ⟨a1, a2, a3⟩ := createRefs_within r n
    obtain ⟨b1, b2, b3⟩ := createEntries_within es (createRefs n r).2
    simp only [createEntries, allValsList]
    refine ⟨by omega, ?_, ?_⟩
    · intro x hx k hk
      rcases List.mem_append.1 hx with h | h
      · have := a2 x h k hk; omega
      · have := b2 x h k hk; omega
    · rw [List.pairwise_append]
      refine ⟨a3, b3, ?_⟩
      intro x hx y hy k hk hk'
      have := a2 x hx k hk
      have := b2 y hy k hk'
      omega
end

theorem unshared_create (r : Ref InitDesc) (n : Nat) : Unshared (createRefs n r).1 := by
  obtain ⟨-, -, h⟩ := createRefs_within r n
  intro i j x hi hj
  cases hk : topId x with
  | none =>
    cases x with
    | number m => exact Or.inr ⟨m, rfl⟩
    | object _ _ => simp [topId] at hk
    | sparse _ _ _ => simp [topId] at hk
    | lstmOpt _ _ _ _ _ => simp [topId] at hk
  | some k =>
    left
    obtain ⟨hi', ei⟩ := List.getElem?_eq_some_iff.1 hi
    obtain ⟨hj', ej⟩ := List.getElem?_eq_some_iff.1 hj
    rw [List.pairwise_iff_getElem] at h
    rcases Nat.lt_trichotomy i j with hlt | heq | hgt
    · exact absurd (by rw [ej]; exact hk) (h i j hi' hj' hlt k (by rw [ei]; exact hk))
    · exact heq
    · exact absurd (by rw [ei]; exact hk) (h j i hj' hi' hgt k (by rw [ej]; exact hk))

/-! ### The theorems -/

/-- Initializers without `Uniform` do not raise. -/
theorem crashes_false (sys : Sys G Arr) (ok : Nat → Shape → Bool) (uniform : Nat → Bool) : ∀ (i : Init) (sh : Shape),
    hasUniform uniform i = false → crashes sys ok uniform (describeInit i) sh = false
  | .number x, sh, _ => rfl
  | .object id k, sh, h => by simpa [hasUniform, describeInit, crashes] using h
  | .sparse id k sub, sh, h => by
    simp only [hasUniform] at h
    simp [describeInit, crashes, crashes_false sys ok uniform sub sh h]
  | .lstmOpt id a b c d, sh, h => by
    simp only [hasUniform, Bool.or_eq_false_iff] at h
    simp only [describeInit, crashes]
    split
    · rfl
    · rename_i q _
      simp [crashes_false sys ok uniform a q h.1.1.1, crashes_false sys ok uniform b q h.1.1.2,
        crashes_false sys ok uniform c q h.1.2, crashes_false sys ok uniform d q h.2]

/-- **C28** (round trip): a network that was initialised (successfully, with initializers none of
which is `Uniform` and no object of which is mentioned twice) and then trained to any parameters is
loaded with the same architecture, initializers and parameters, whatever the random states are when
it is loaded. -/
theorem C28_roundtrip (sys : Sys G Arr) (ok : Nat → Shape → Bool) (hok : ∀ k sh g, (sys.draw k sh g).1.isSome = ok k sh)
    (uniform : Nat → Bool) (views : Arch → Params) (arch : Arch) (params : P) (refs : Ref Init)
    (seed : Option Nat) (rnd₀ : G) (st₀ : Store G) (hinit : (initNetwork sys (views arch) refs seed rnd₀ st₀).err = none)
    (hu : Unshared refs) (hun : ∀ i ∈ allVals refs, hasUniform uniform i = false) (rnd : G) (st : Store G) :
    load sys ok uniform views (save ⟨arch, refs.map describeInit, params⟩) rnd st = some ⟨arch, refs.map describeInit, params⟩ := by
  have hd := describe_createRefs (refs.map describeInit) 0
  have hu' := unshared_create (refs.map describeInit) 0
  simp only [load, save, hd]
  generalize (createRefs 0 (refs.map describeInit)).1 = refs' at hd hu'
  rw [if_pos]
  unfold initializesAgain initNetwork
  unfold initNetwork at hinit
  rcases resolve_related refs refs' hd.symm hu hu' (views arch).tree with ⟨e, h1, -⟩ | ⟨vals, fbs, h1, h2⟩
  · rw [h1] at hinit; simp at hinit
  · rw [h1] at hinit
    rw [h2]
    simp only at hinit ⊢
    rw [initLoop_ok sys ok hok] at hinit
    rw [Bool.and_eq_true, decide_eq_true_eq, initLoop_ok sys ok hok]
    have hgetD : ∀ (f : {p : Init × Init // Twins refs refs' p.1 p.2 ∧ describeInit p.1 = describeInit p.2} → Init)
        (t : Tree (List {p : Init × Init // Twins refs refs' p.1 p.2 ∧ describeInit p.1 = describeInit p.2})) (path : List Name),
        ((t.map (List.map f)).at path).getD [] = ((t.at path).getD []).map f := by
      intro f t path
      rw [at_map]
      cases t.at path <;> rfl
    have hall : ∀ x ∈ (views arch).visit, ∃ p : {p : Init × Init // Twins refs refs' p.1 p.2 ∧ describeInit p.1 = describeInit p.2},
        (vals.at [x.1, x.2.1]).getD [] = [p] ∧ ((fbs.at [x.1, x.2.1]).getD []).length ≤ 1 ∧
        acceptsAt sys ok p.1.1 (((fbs.at [x.1, x.2.1]).getD []).head?.map (fun p => p.1.1)) x.2.2 = true := by
      intro x hx
      obtain ⟨i, c1, c2, c3⟩ := hinit x hx
      rw [hgetD] at c1 c2 c3
      rw [List.map_eq_singleton_iff] at c1
      obtain ⟨p, c4, rfl⟩ := c1
      exact ⟨p, c4, by simpa using c2, by rw [← List.head?_map]; exact c3⟩
    constructor
    · intro x hx
      obtain ⟨p, c1, c2, c3⟩ := hall x hx
      refine ⟨p.1.2, by rw [hgetD, c1]; rfl, by rw [hgetD]; simpa using c2, ?_⟩
      rw [hgetD, List.head?_map]
      rw [← c3]
      unfold acceptsAt
      rw [p.2.2]
      cases ((fbs.at [x.1, x.2.1]).getD []).head? with
      | none => rfl
      | some q => simp only [Option.map_some, q.2.2]
    · rw [Bool.not_eq_true', List.any_eq_false]
      intro x hx
      obtain ⟨p, c1, c2, c3⟩ := hall x hx
      rw [hgetD, hgetD, c1]
      have hno : ∀ q : {p : Init × Init // Twins refs refs' p.1 p.2 ∧ describeInit p.1 = describeInit p.2}, ∀ sh,
          crashes sys ok uniform (describeInit q.1.2) sh = false := by
        intro q sh
        rw [← q.2.2]
        obtain ⟨i, hi, -⟩ := q.2.1
        exact crashes_false sys ok uniform _ sh (hun _ (List.mem_of_getElem? hi))
      simp only [List.map_cons, List.map_nil, crashesAt, hno, Bool.false_or, List.head?_map]
      cases ((fbs.at [x.1, x.2.1]).getD []).head? with
      | none => simp
      | some q => simp [hno]

/-- **C28** (never initialised): a network with a parameter that was saved without ever calling
`initialize` cannot be loaded. -/
theorem C28_never_initialized (sys : Sys G Arr) (ok : Nat → Shape → Bool) (uniform : Nat → Bool) (views : Arch → Params) (arch : Arch)
    (params : P) (hd : (views arch).Distinct) (x : Name × Name × Shape) (hx : (views arch).HasView x) (rnd : G) (st : Store G) :
    load sys ok uniform views (save ⟨arch, .dict [], params⟩) rnd st = none := by
  have hrej := C26_rejects sys (views arch) hd (.dict []) (sys.generateSeed rnd).1 rnd st x hx (Or.inl (by
    intro i hi
    rcases (hi i).2 rfl with h | ⟨-, h⟩
    · cases h with
      | entry _ _ _ sub _ h1 _ =>
        cases h1 with
        | pattern r _ _ _ h => simp at h
        | default _ _ h => simp at h
    · cases h with
      | entry _ _ _ _ sub _ h1 _ =>
        cases h1 with
        | pattern r _ _ _ h => simp at h
        | default _ _ h => simp at h
      | missing _ _ _ _ _ _ h => simp at h))
  have e : initNetwork sys (views arch) (.dict []) none rnd st = initNetwork sys (views arch) (.dict []) (some (sys.generateSeed rnd).1) rnd st := rfl
  simp only [load, save, createRefs, createEntries]
  rw [if_neg]
  unfold initializesAgain
  rw [e]
  split
  · simp
  · simp [hrej]

/-- **C28** (`Uniform`): a network one of whose views was initialised with a `Uniform` object cannot
be loaded, although it was initialised without error. -/
theorem C28_uniform (sys : Sys G Arr) (ok : Nat → Shape → Bool) (hok : ∀ k sh g, (sys.draw k sh g).1.isSome = ok k sh)
    (uniform : Nat → Bool) (views : Arch → Params) (arch : Arch) (params : P) (refs : Ref Init)
    (seed : Option Nat) (rnd₀ : G) (st₀ : Store G) (hinit : (initNetwork sys (views arch) refs seed rnd₀ st₀).err = none) (hu : Unshared refs)
    (x : Name × Name × Shape) (hd : (views arch).Distinct) (hx : (views arch).HasView x) (id k : Nat) (hk : uniform k = true)
    (hr : ResolvesTo refs [x.1, x.2.1] (.object id k)) (rnd : G) (st : Store G) :
    load sys ok uniform views (save ⟨arch, refs.map describeInit, params⟩) rnd st = none := by
  have hdc := describe_createRefs (refs.map describeInit) 0
  have hu' := unshared_create (refs.map describeInit) 0
  simp only [load, save, hdc]
  generalize (createRefs 0 (refs.map describeInit)).1 = refs' at hdc hu'
  rw [if_neg]
  unfold initializesAgain
  unfold initNetwork at hinit
  rcases resolve_related refs refs' hdc.symm hu hu' (views arch).tree with ⟨e, h1, -⟩ | ⟨vals, fbs, h1, h2⟩
  · rw [h1] at hinit; simp at hinit
  · rw [h1] at hinit
    rw [h2]
    simp only at hinit ⊢
    rw [initLoop_ok sys ok hok] at hinit
    have hv := (mem_visit (views arch) x).2 hx
    obtain ⟨i, c1, -, -⟩ := hinit x hv
    have hat : (views arch).tree.at [x.1, x.2.1] = some x.2.2 := at_tree _ hd x hx
    obtain ⟨vs, fs, d1, -, d3, -⟩ := C24_values _ refs _ _ h1 [x.1, x.2.1] x.2.2 hat
    rw [d1] at c1
    simp only [Option.getD_some] at c1
    have hi : i = .object id k := (hr i).1 ((d3 i).1 (by simp [c1]))
    subst hi
    rw [at_map, Option.map_eq_some_iff] at d1
    obtain ⟨ps, d5, d6⟩ := d1
    rw [c1, List.map_eq_singleton_iff] at d6
    obtain ⟨p, rfl, d7⟩ := d6
    rw [Bool.and_eq_true, Bool.not_eq_true', List.any_eq_false]
    intro hc
    have := hc.2 x hv
    simp only [at_map, d5, Option.map_some, Option.getD_some, List.map_cons, crashesAt] at this
    rw [← p.2.2, d7] at this
    simp [describeInit, crashes, hk] at this

theorem load_none (sys : Sys G Arr) (ok : Nat → Shape → Bool) (uniform : Nat → Bool) (views : Arch → Params) (file : File Arch P) (rnd : G)
    (st : Store G) (h : initializesAgain sys ok uniform (views file.arch) (createRefs 0 file.initializers).1 rnd st = false) :
    load sys ok uniform views file rnd st = none := by
  simp only [load, h]
  rfl

/-! ### Examples -/

/-- The classes of the example system: class 5 is `Uniform`. -/
def demoOk : Nat → Shape → Bool := fun k sh => (demoSys.draw k sh 0).1.isSome

/-- Two layers. -/
def demoViews : Unit → Params := fun _ => [(str "Fc", [(str "W", [4, 3]), (str "b", [4])]), (str "Out", [(str "W", [2, 4])])]

/-- Different initializers for the views. -/
def demoRefs : Ref Init := .dict [(str "default", .val (.object 1 2)), (str "F*", .dict [(str "b", .val (.number 0)), (str "default", .val (.object 3 2))])]

example : (initNetwork demoSys (demoViews ()) demoRefs (some 4) 99 (fun _ => 0)).err = none := by decide +kernel

example : (load demoSys demoOk (fun k => k = 5) demoViews (save ⟨(), demoRefs.map describeInit, 17⟩) 5 (fun _ => 1)).map (fun n => n.params) = some 17 := by
  decide +kernel

example : ∀ k sh g, (demoSys.draw k sh g).1.isSome = demoOk k sh := by
  intro k sh g
  simp only [demoOk, demoSys]
  split <;> rfl

example : Unshared demoRefs := by
  intro i j x hi hj
  have h : allVals demoRefs = [.object 1 2, .number 0, .object 3 2] := by decide +kernel
  rw [h] at hi hj
  rcases i with _ | _ | _ | i <;> rcases j with _ | _ | _ | j <;> simp at hi hj <;> subst hi <;> simp_all

/-- **C28** fails if one object is mentioned twice for a view: it counts once when the network is
initialised, but two objects are created from the description. -/
theorem C28_shared_object : ∃ refs : Ref Init,
    (initNetwork demoSys (demoViews ()) refs (some 4) 99 (fun _ => 0)).err = none ∧ (∀ i ∈ allVals refs, hasUniform (fun k => k = 5) i = false) ∧
    ∀ params : Nat, load demoSys demoOk (fun k => k = 5) demoViews (save ⟨(), refs.map describeInit, params⟩) 5 (fun _ => 1) = none := by
  refine ⟨.dict [(str "default", .val (.number 1)), (str "F*", .val (.object 3 2)), (str "Fc", .val (.object 3 2))], by decide +kernel, by decide +kernel, ?_⟩
  intro params
  apply load_none
  show initializesAgain demoSys demoOk (fun k => k = 5) (demoViews ()) (createRefs 0 ((Ref.dict [(str "default", .val (.number 1)),
      (str "F*", .val (.object 3 2)), (str "Fc", .val (.object 3 2))]).map describeInit)).1 5 (fun _ => 1) = false
  decide +kernel

end Verif.SaveLoad
