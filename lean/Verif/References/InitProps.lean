import Verif.References.Initialize

/-! # C26: `initialize` -/

namespace Verif.References

variable {G Arr : Type}

/-! ### Order of the visits -/

theorem nameLe_refl (a : Name) : nameLe a a = true := nameLe_linear.refl a

theorem nameLt_trans {a b c : Name} (h1 : nameLt a b) (h2 : nameLt b c) : nameLt a c := by
  refine ⟨nameLe_linear.trans _ _ _ h1.1 h2.1, ?_⟩
  intro h
  subst h
  exact h1.2 (nameLe_linear.antisymm _ _ h1.1 h2.1)

theorem nameLt_irrefl (a : Name) : ¬ nameLt a a := fun h => h.2 rfl

theorem viewLt_asymm {a b : Name × Name × Shape} (h1 : ViewLt a b) (h2 : ViewLt b a) : False := by
  rcases h1 with h1 | ⟨h1, h1'⟩ <;> rcases h2 with h2 | ⟨h2, h2'⟩
  · exact nameLt_irrefl _ (nameLt_trans h1 h2)
  · exact h1.2 h2.symm
  · exact h2.2 h1.symm
  · exact nameLt_irrefl _ (nameLt_trans h1' h2')

/-- Strictly ordered lists with the same elements are equal. -/
theorem eq_of_strict {α : Type} {R : α → α → Prop} (has : ∀ a b, R a b → R b a → False) :
    ∀ (l₁ l₂ : List α), l₁.Pairwise R → l₂.Pairwise R → (∀ x, x ∈ l₁ ↔ x ∈ l₂) → l₁ = l₂ := by
  intro l₁
  induction l₁ with
  | nil =>
    intro l₂ _ _ h
    cases l₂ with
    | nil => rfl
    | cons b l₂ => exact absurd ((h b).2 List.mem_cons_self) (by simp)
  | cons a l₁ ih =>
    intro l₂ h1 h2 h
    cases l₂ with
    | nil => exact absurd ((h a).1 List.mem_cons_self) (by simp)
    | cons b l₂ =>
      rw [List.pairwise_cons] at h1 h2
      have hab : a = b := by
        rcases List.mem_cons.1 ((h a).1 List.mem_cons_self) with e | e
        · exact e
        · rcases List.mem_cons.1 ((h b).2 List.mem_cons_self) with e' | e'
          · exact e'.symm
          · exact (has _ _ (h1.1 b e') (h2.1 a e)).elim
      subst hab
      rw [ih l₂ h1.2 h2.2]
      intro x
      have ne1 : x ∈ l₁ → x ≠ a := fun hx e => has _ _ (e ▸ h1.1 x hx) (e ▸ h1.1 x hx)
      have ne2 : x ∈ l₂ → x ≠ a := fun hx e => has _ _ (e ▸ h2.1 x hx) (e ▸ h2.1 x hx)
      have := h x
      simp only [List.mem_cons] at this
      constructor
      · intro hx
        rcases this.1 (Or.inr hx) with e | e
        · exact absurd e (ne1 hx)
        · exact e
      · intro hx
        rcases this.2 (Or.inr hx) with e | e
        · exact absurd e (ne2 hx)
        · exact e

/-- Sorting a dictionary by its keys orders the keys strictly. -/
theorem sorted_strict {X : Type} (l : List (Name × X)) (hn : (l.map Prod.fst).Nodup) :
    (sortBy (fun a b : Name × X => nameLe a.1 b.1) l).Pairwise (fun a b => nameLt a.1 b.1) := by
  have h1 := sortBy_sorted (le := fun a b : Name × X => nameLe a.1 b.1) (fun a b => nameLe_linear.total _ _)
    (fun a b c => nameLe_linear.trans _ _ _) l
  have h2 : ((sortBy (fun a b : Name × X => nameLe a.1 b.1) l).map Prod.fst).Nodup :=
    ((sortBy_perm _ l).map Prod.fst).nodup_iff.2 hn
  rw [List.Nodup, List.pairwise_map] at h2
  exact h1.imp₂ (fun a b x y => ⟨x, y⟩) h2

theorem visit_sorted (ps : Params) (hd : ps.Distinct) : ps.visit.Pairwise ViewLt := by
  unfold Params.visit
  rw [List.pairwise_flatMap]
  constructor
  · intro p hp
    rw [List.pairwise_map]
    exact (sorted_strict p.2 (hd.2 p (mem_sortBy.1 hp))).imp (fun h => Or.inr ⟨rfl, h⟩)
  · refine (sorted_strict ps hd.1).imp ?_
    intro a b hab x hx y hy
    simp only [List.mem_map] at hx hy
    obtain ⟨v, -, rfl⟩ := hx
    obtain ⟨w, -, rfl⟩ := hy
    exact Or.inl hab

theorem mem_visit (ps : Params) (x : Name × Name × Shape) : x ∈ ps.visit ↔ ps.HasView x := by
  obtain ⟨l, v, sh⟩ := x
  unfold Params.visit Params.HasView
  simp only [List.mem_flatMap, List.mem_map, mem_sortBy]
  constructor
  · rintro ⟨⟨l', vs⟩, hp, ⟨v', sh'⟩, hv, he⟩
    simp only [Prod.mk.injEq] at he
    obtain ⟨rfl, rfl, rfl⟩ := he
    exact ⟨vs, hp, hv⟩
  · rintro ⟨vs, hp, hv⟩
    exact ⟨(l, vs), hp, (v, sh), hv, rfl⟩

/-! ### The loop -/

/-- What the loop did when it ended without error. -/
theorem initLoop_spec (sys : Sys G Arr) (vals fbs : Tree (List Init)) : ∀ (L : List (Name × Name × Shape)) (g : G) (st : Store G)
    (_ : (initLoop sys vals fbs L g st).err = none),
    ((initLoop sys vals fbs L g st).writes.map Prod.fst = L.map (fun x => (x.1, x.2.1))) ∧
    ∀ (n : Nat) (x : Name × Name × Shape), L[n]? = some x → ∃ (i : Init) (fb : List Init) (stn : Store G) (w : Arr),
      (vals.at [x.1, x.2.1]).getD [] = [i] ∧ (fbs.at [x.1, x.2.1]).getD [] = fb ∧ fb.length ≤ 1 ∧
      (evaluate sys i x.2.2 fb.head? (seedNo sys g n) stn).1 = some w ∧
      (initLoop sys vals fbs L g st).writes[n]? = some ((x.1, x.2.1), w) := by
  intro L
  induction L with
  | nil =>
    intro g st _
    simp [initLoop]
  | cons a L ih =>
    obtain ⟨l, v, sh⟩ := a
    intro g st h
    simp only [initLoop] at h ⊢
    split at h
    · simp at h
    · simp at h
    · simp at h
    · rename_i _ _ i h1 h3
      split at h
      · simp at h
      · rename_i x st' hx
        have hfb : ((fbs.at [l, v]).getD []).length ≤ 1 := by
          rcases hh : (fbs.at [l, v]).getD [] with _ | ⟨a, _ | ⟨b, c⟩⟩
          · simp
          · simp
          · exact (h3 _ _ _ hh).elim
        have ih' := ih _ _ h
        simp only [hx]
        refine ⟨by simp [ih'.1], ?_⟩
        intro n y hy
        cases n with
        | zero =>
          simp only [List.getElem?_cons_zero, Option.some.injEq] at hy
          subst hy
          exact ⟨i, _, st, x, by simpa using h1, rfl, hfb, by simp [seedNo, hx], by simp⟩
        | succ n =>
          rw [List.getElem?_cons_succ] at hy
          obtain ⟨i', fb', stn, w, a1, a2, a3, a4, a5⟩ := ih'.2 n y hy
          exact ⟨i', fb', stn, w, a1, a2, a3, a4, by simpa using a5⟩

theorem at_tree (ps : Params) (hd : ps.Distinct) (x : Name × Name × Shape) (h : ps.HasView x) :
    ps.tree.at [x.1, x.2.1] = some x.2.2 := by
  obtain ⟨vs, h1, h2⟩ := h
  have hk : ∀ {X Y : Type} (f : X → Y) (l : List (Name × X)) (k : Name), Dict.get? (l.map (fun p => (p.1, f p.2))) k = (Dict.get? l k).map f := by
    intro X Y f l k
    induction l with
    | nil => rfl
    | cons p l ih =>
      obtain ⟨k', y⟩ := p
      simp only [List.map_cons, Dict.get?_cons]
      split
      · rfl
      · exact ih
  have e1 : Dict.get? ps x.1 = some vs := Dict.get?_of_mem hd.1 h1
  have e2 : Dict.get? vs x.2.1 = some x.2.2 := Dict.get?_of_mem (hd.2 _ h1) h2
  simp only [Params.tree, Tree.at]
  have k1 := hk (fun vs : List (Name × Shape) => (Tree.node (vs.map (fun v => (v.1, Tree.leaf v.2))) : Tree Shape)) ps x.1
  have k2 := hk (fun s : Shape => (Tree.leaf s : Tree Shape)) vs x.2.1
  rw [k1, e1]
  simp only [Option.map_some, Tree.at]
  rw [k2, e2]
  rfl

theorem resolvesTo_of (refs : Ref Init) (path : List Name) (vs : List Init) (i : Init) (h : vs = [i])
    (hv : ∀ v, v ∈ vs ↔ Gives refs path v ∨ ((∀ w, ¬ Gives refs path w) ∧ Inherits (str "default") refs none path v)) :
    ResolvesTo refs path i := by
  subst h
  intro w
  rw [← hv]
  simp

/-- **C26** (all views set): if `initialize` returns, the parameter views were visited in the
order of their layer and view names, each was written once, with the value its single initializer
(or fallback) gives for its shape and its own seed, the seeds being drawn one after the other. -/
theorem C26_set_once (sys : Sys G Arr) (ps : Params) (hd : ps.Distinct) (refs : Ref Init) (seed : Nat) (rnd : G) (st : Store G)
    (h : (initNetwork sys ps refs (some seed) rnd st).err = none) :
    ∃ L : List (Name × Name × Shape), L.Pairwise ViewLt ∧ (∀ x, x ∈ L ↔ ps.HasView x) ∧
      ((initNetwork sys ps refs (some seed) rnd st).writes.map Prod.fst = L.map (fun x => (x.1, x.2.1))) ∧
      ∀ (n : Nat) (x : Name × Name × Shape), L[n]? = some x → ∃ (i : Init) (fb : Option Init) (stn : Store G) (w : Arr),
        ResolvesTo refs [x.1, x.2.1] i ∧ FallsBackTo refs [x.1, x.2.1] fb ∧
        (evaluate sys i x.2.2 fb (seedNo sys (sys.ofSeed seed) n) stn).1 = some w ∧
        (initNetwork sys ps refs (some seed) rnd st).writes[n]? = some ((x.1, x.2.1), w) := by
  refine ⟨ps.visit, visit_sorted ps hd, mem_visit ps, ?_, ?_⟩
  · unfold initNetwork at h ⊢
    cases hr : resolve ps.tree refs with
    | error e => rw [hr] at h; simp at h
    | ok p =>
      rw [hr] at h
      obtain ⟨vals, fbs⟩ := p
      exact (initLoop_spec sys vals fbs ps.visit _ st h).1
  · intro n x hx
    unfold initNetwork at h ⊢
    cases hr : resolve ps.tree refs with
    | error e => rw [hr] at h; simp at h
    | ok p =>
      rw [hr] at h
      obtain ⟨vals, fbs⟩ := p
      obtain ⟨i, fb, stn, w, h1, h2, h3, h4, h5⟩ := (initLoop_spec sys vals fbs ps.visit _ st h).2 n x hx
      have hview : ps.HasView x := (mem_visit ps x).1 (List.mem_of_getElem? hx)
      obtain ⟨vs, fs, g1, g2, g3, g4⟩ := C24_values ps.tree refs vals fbs hr _ _ (at_tree ps hd x hview)
      rw [g1] at h1
      rw [g2] at h2
      simp only [Option.getD_some] at h1 h2
      refine ⟨i, fb.head?, stn, w, resolvesTo_of refs _ vs i h1 g3, ?_, h4, h5⟩
      intro y
      rw [← g4]
      subst h2
      rcases fs with _ | ⟨a, _ | ⟨b, c⟩⟩
      · simp
      · simp [eq_comm]
      · simp at h3

/-! ### Independence of everything else -/

theorem evalOne_agree (sys : Sys G Arr) : ∀ (i : Init), i.reseeded = true → ∀ (sh : Shape) (s : Nat) (st₁ st₂ : Store G),
    (evalOne sys i sh (some s) st₁).1 = (evalOne sys i sh (some s) st₂).1 ∧
    ∀ j, st₁ j = st₂ j → (evalOne sys i sh (some s) st₁).2 j = (evalOne sys i sh (some s) st₂).2 j := by
  intro i
  have hput : ∀ (st₁ st₂ : Store G) (id : Nat) (g : G) (j : Nat), st₁ j = st₂ j → (st₁.put id g) j = (st₂.put id g) j := by
    intro st₁ st₂ id g j h
    simp only [Store.put]
    split
    · rfl
    · exact h
  have hself : ∀ (st : Store G) (id : Nat) (g : G), (st.put id g) id = g := by
    intro st id g; simp [Store.put]
  induction i with
  | number x =>
    intro _ sh s st₁ st₂
    simp only [evalOne]
    exact ⟨trivial, fun _ h => h⟩
  | object id k =>
    intro _ sh s st₁ st₂
    simp only [evalOne, Store.reseed, hself]
    exact ⟨by trivial, fun j h => hput _ _ _ _ _ (hput _ _ _ _ _ h)⟩
  | sparse id k sub ih =>
    intro hr sh s st₁ st₂
    cases sub with
    | number x =>
      simp only [evalOne, Store.reseed, hself]
      split
      · exact ⟨rfl, fun j h => hput _ _ _ _ _ (hput _ _ _ _ _ h)⟩
      · exact ⟨rfl, fun j h => hput _ _ _ _ _ h⟩
    | object => simp [Init.reseeded] at hr
    | sparse => simp [Init.reseeded] at hr
    | lstmOpt => simp [Init.reseeded] at hr
  | lstmOpt id a b c d iha ihb ihc ihd =>
    intro hr sh s st₁ st₂
    simp only [Init.reseeded, Bool.and_eq_true] at hr
    obtain ⟨⟨⟨ha, hb⟩, hc⟩, hdd⟩ := hr
    have key : ∀ (i : Init) (_ : ∀ (sh : Shape) (s : Nat) (st₁ st₂ : Store G),
        (evalOne sys i sh (some s) st₁).1 = (evalOne sys i sh (some s) st₂).1 ∧
        ∀ j, st₁ j = st₂ j → (evalOne sys i sh (some s) st₁).2 j = (evalOne sys i sh (some s) st₂).2 j)
        (q : Shape) (x₁ x₂ : Store G), x₁ id = x₂ id → (∀ j, st₁ j = st₂ j → x₁ j = x₂ j) →
        ∃ (o : Option Arr) (y₁ y₂ : Store G),
          evalOne sys i q (some (sys.generateSeed (x₁ id)).1) (x₁.put id (sys.generateSeed (x₁ id)).2) = (o, y₁) ∧
          evalOne sys i q (some (sys.generateSeed (x₂ id)).1) (x₂.put id (sys.generateSeed (x₂ id)).2) = (o, y₂) ∧
          y₁ id = y₂ id ∧ (∀ j, st₁ j = st₂ j → y₁ j = y₂ j) := by
      intro i hi q x₁ x₂ hid hall
      rw [hid]
      have := hi q (sys.generateSeed (x₂ id)).1 (x₁.put id (sys.generateSeed (x₂ id)).2) (x₂.put id (sys.generateSeed (x₂ id)).2)
      refine ⟨_, _, _, rfl, ?_, this.2 id (by rw [hself, hself]), fun j hj => this.2 j (hput _ _ _ _ _ (hall j hj))⟩
      rw [Prod.ext_iff]
      exact ⟨this.1.symm, rfl⟩
    simp only [evalOne, Store.reseed]
    cases sys.quarter sh with
    | none => exact ⟨rfl, fun j h => hput _ _ _ _ _ h⟩
    | some q =>
      simp only
      obtain ⟨o, y₁, y₂, e1, e2, e3, e4⟩ := key a (iha ha) q (st₁.put id (sys.ofSeed s)) (st₂.put id (sys.ofSeed s))
        (by rw [hself, hself]) (fun j h => hput _ _ _ _ _ h)
      rw [e1, e2]
      cases o with
      | none => exact ⟨rfl, e4⟩
      | some xa =>
        simp only
        obtain ⟨o, z₁, z₂, f1, f2, f3, f4⟩ := key b (ihb hb) q y₁ y₂ e3 e4
        rw [f1, f2]
        cases o with
        | none => exact ⟨rfl, f4⟩
        | some xb =>
          simp only
          obtain ⟨o, u₁, u₂, g1, g2, g3, g4⟩ := key c (ihc hc) q z₁ z₂ f3 f4
          rw [g1, g2]
          cases o with
          | none => exact ⟨rfl, g4⟩
          | some xc =>
            simp only
            obtain ⟨o, v₁, v₂, h1, h2, h3, h4⟩ := key d (ihd hdd) q u₁ u₂ g3 g4
            rw [h1, h2]
            cases o with
            | none => exact ⟨rfl, h4⟩
            | some xd => exact ⟨rfl, h4⟩

theorem evaluate_agree (sys : Sys G Arr) (i : Init) (hi : i.reseeded = true) (fb : Option Init)
    (hf : ∀ f, fb = some f → f.reseeded = true) (sh : Shape) (s : Nat) (st₁ st₂ : Store G) :
    (evaluate sys i sh fb s st₁).1 = (evaluate sys i sh fb s st₂).1 := by
  unfold evaluate
  have h := (evalOne_agree sys i hi sh s st₁ st₂).1
  rcases h1 : evalOne sys i sh (some s) st₁ with ⟨o, y₁⟩
  rcases h2 : evalOne sys i sh (some s) st₂ with ⟨o', y₂⟩
  rw [h1, h2] at h
  simp only at h
  subst h
  cases o with
  | some x => rfl
  | none =>
    cases fb with
    | none => rfl
    | some f => exact (evalOne_agree sys f (hf f rfl) sh s y₁ y₂).1

theorem Ref.Same.symm {V : Type} {r r' : Ref V} (h : r.Same r') : r'.Same r := by
  induction h with
  | val v => exact .val v
  | dict es es' h1 h2 ih => exact .dict es' es (fun k => (h1 k).symm) (fun k r r' a b => ih k r' r b a)

theorem Applies.same {V : Type} [DecidableEq V] {es es' : List (Name × Ref V)} {key : Name} {sub : Ref V} (h : Applies es key sub)
    (h1 : ∀ k, Dict.get? es k = none ↔ Dict.get? es' k = none) (h2 : ∀ k r r', Dict.get? es k = some r → Dict.get? es' k = some r' → r.Same r') :
    ∃ k sub', Applies es' key sub' ∧ Dict.get? es k = some sub ∧ Dict.get? es' k = some sub' := by
  have hex : ∀ k r, Dict.get? es k = some r → ∃ r', Dict.get? es' k = some r' := by
    intro k r hk
    cases hk' : Dict.get? es' k with
    | none => rw [(h1 k).2 hk'] at hk; simp at hk
    | some r' => exact ⟨r', rfl⟩
  cases h with
  | pattern r sub a b c =>
    obtain ⟨r', hr'⟩ := hex r _ c
    exact ⟨r, r', .pattern r r' a b hr', c, hr'⟩
  | default sub a b =>
    obtain ⟨r', hr'⟩ := hex _ _ b
    refine ⟨_, r', .default r' ?_ hr', b, hr'⟩
    intro k hk
    apply a
    rw [Dict.mem_keys_iff] at hk ⊢
    rw [← Option.ne_none_iff_isSome] at hk ⊢
    exact fun hn => hk ((h1 k).1 hn)

theorem Gives.same {V : Type} [DecidableEq V] {r : Ref V} {path : List Name} {v : V} (h : Gives r path v) :
    ∀ {r' : Ref V}, r.Same r' → Gives r' path v := by
  induction h with
  | val v path =>
    intro r' hs
    cases hs
    exact .val v path
  | entry es key path sub v ha hg ih =>
    intro r' hs
    cases hs with
    | dict _ es' h1 h2 =>
      obtain ⟨k, sub', a, b, c⟩ := ha.same h1 h2
      exact .entry es' key path sub' v a (ih (h2 k sub sub' b c))

/-- The same for something possibly inherited. -/
def SameOpt {V : Type} (o o' : Option (Ref V)) : Prop :=
  (o = none ↔ o' = none) ∧ ∀ r r', o = some r → o' = some r' → r.Same r'

theorem Inherits.same {V : Type} [DecidableEq V] {sp : Name} {r : Ref V} {inh : Option (Ref V)} {path : List Name} {v : V} (h : Inherits sp r inh path v) :
    ∀ {r' : Ref V} {inh' : Option (Ref V)}, r.Same r' → SameOpt inh inh' → Inherits sp r' inh' path v := by
  have hor : ∀ (es es' : List (Name × Ref V)) (inh inh' : Option (Ref V)) (_ : ∀ k, Dict.get? es k = none ↔ Dict.get? es' k = none)
      (_ : ∀ k r r', Dict.get? es k = some r → Dict.get? es' k = some r' → r.Same r') (_ : SameOpt inh inh'),
      SameOpt ((Dict.get? es sp).or inh) ((Dict.get? es' sp).or inh') := by
    intro es es' inh inh' h1 h2 h3
    cases ha : Dict.get? es sp with
    | none =>
      rw [(h1 sp).1 ha]
      simpa using h3
    | some x =>
      cases hb : Dict.get? es' sp with
      | none => rw [(h1 sp).2 hb] at ha; simp at ha
      | some y =>
        refine ⟨by simp, ?_⟩
        intro r r' e1 e2
        simp only [Option.some_or, Option.some.injEq] at e1 e2
        subst e1 e2
        exact h2 sp _ _ ha hb
  induction h with
  | val w v path =>
    intro r' inh' hs hi
    cases hs
    cases inh' with
    | none => exact absurd (hi.1.2 rfl) (by simp)
    | some x =>
      have := hi.2 _ _ rfl rfl
      cases this
      exact .val w v path
  | entry es inh key path sub v ha hg ih =>
    intro r' inh' hs hi
    cases hs with
    | dict _ es' h1 h2 =>
      obtain ⟨k, sub', a, b, c⟩ := ha.same h1 h2
      exact .entry es' inh' key path sub' v a (ih (h2 k sub sub' b c) (hor es es' inh inh' h1 h2 hi))
  | missing es inh key path v hno hv =>
    intro r' inh' hs hi
    cases hs with
    | dict _ es' h1 h2 =>
      refine .missing es' inh' key path v ?_ ?_
      · intro sub ha
        obtain ⟨k, sub', a, -, -⟩ := ha.same (fun k => (h1 k).symm) (fun k r r' x y => (h2 k r' r y x).symm)
        exact hno sub' a
      · have := hor es es' inh inh' h1 h2 hi
        rw [hv] at this
        cases hx : (Dict.get? es' sp).or inh' with
        | none => exact absurd (this.1.2 hx) (by simp)
        | some x =>
          have := this.2 _ _ rfl hx
          cases this
          rfl

/-- **C26** (reproducibility): two calls with the same seed, the same parameter shapes and the same
initializers, in whatever order the dictionaries are, and whatever the random states of the network
and of the initializers are before, write the same values.  The initializers must not be sparse
initializers with a random sub-initializer (see `C26_sub_initializer_not_reseeded`). -/
theorem C26_reproducible (sys : Sys G Arr) (ps ps' : Params) (hd : ps.Distinct) (hd' : ps'.Distinct)
    (hps : ∀ x, ps.HasView x ↔ ps'.HasView x) (refs refs' : Ref Init) (hrefs : refs.Same refs')
    (hre : ∀ x, ps.HasView x → (∀ i, ResolvesTo refs [x.1, x.2.1] i → i.reseeded = true) ∧
      (∀ f, FallsBackTo refs [x.1, x.2.1] (some f) → f.reseeded = true))
    (seed : Nat) (rnd rnd' : G) (st st' : Store G)
    (h : (initNetwork sys ps refs (some seed) rnd st).err = none)
    (h' : (initNetwork sys ps' refs' (some seed) rnd' st').err = none) :
    (initNetwork sys ps refs (some seed) rnd st).writes = (initNetwork sys ps' refs' (some seed) rnd' st').writes := by
  obtain ⟨L, a1, a2, a3, a4⟩ := C26_set_once sys ps hd refs seed rnd st h
  obtain ⟨L', b1, b2, b3, b4⟩ := C26_set_once sys ps' hd' refs' seed rnd' st' h'
  have hL : L = L' := eq_of_strict (fun _ _ => viewLt_asymm) L L' a1 b1 (fun x => by rw [a2, b2, hps])
  subst hL
  have hlen : (initNetwork sys ps refs (some seed) rnd st).writes.length = L.length := by simpa using congrArg List.length a3
  have hlen' : (initNetwork sys ps' refs' (some seed) rnd' st').writes.length = L.length := by simpa using congrArg List.length b3
  apply List.ext_getElem?
  intro n
  cases hx : L[n]? with
  | none =>
    rw [List.getElem?_eq_none_iff] at hx
    rw [List.getElem?_eq_none (by omega), List.getElem?_eq_none (by omega)]
  | some x =>
    obtain ⟨i, fb, stn, w, c1, c2, c3, c4⟩ := a4 n x hx
    obtain ⟨i', fb', stn', w', d1, d2, d3, d4⟩ := b4 n x hx
    have hv : ps.HasView x := (a2 x).1 (List.mem_of_getElem? hx)
    have hG : ∀ v, Gives refs [x.1, x.2.1] v ↔ Gives refs' [x.1, x.2.1] v :=
      fun v => ⟨fun h => h.same hrefs, fun h => h.same hrefs.symm⟩
    have hI : ∀ sp v, Inherits sp refs none [x.1, x.2.1] v ↔ Inherits sp refs' none [x.1, x.2.1] v :=
      fun sp v => ⟨fun h => h.same hrefs ⟨Iff.rfl, by simp⟩, fun h => h.same hrefs.symm ⟨Iff.rfl, by simp⟩⟩
    have ei : i = i' := by
      have := (c1 i).2 rfl
      rw [hG, hI] at this
      refine (d1 i).1 ?_
      rcases this with h | ⟨h, h''⟩
      · exact Or.inl h
      · exact Or.inr ⟨fun y hy => h y ((hG y).2 hy), h''⟩
    have ef : fb = fb' := by
      cases fb with
      | none =>
        cases fb' with
        | none => rfl
        | some f =>
          have := (c2 f).1 ((hI _ _).2 ((d2 f).2 rfl))
          simp at this
      | some f => exact ((d2 f).1 ((hI _ _).1 ((c2 f).2 rfl))).symm
    subst ei ef
    have := evaluate_agree sys i ((hre x hv).1 i c1) fb (fun f hf => (hre x hv).2 f (hf ▸ c2)) x.2.2
      (seedNo sys (sys.ofSeed seed) n) stn stn'
    rw [c3, d3] at this
    simp only [Option.some.injEq] at this
    subst this
    rw [c4, d4]

/-! ### Rejections -/

theorem initLoop_err (sys : Sys G Arr) (vals fbs : Tree (List Init)) : ∀ (L : List (Name × Name × Shape)) (g : G) (st : Store G)
    (e : IErr), (initLoop sys vals fbs L g st).err = some e → e.isValidation = true ∨
      (e = .init ∧ ∃ x ∈ L, ∃ i fb s stn, (vals.at [x.1, x.2.1]).getD [] = [i] ∧ (fbs.at [x.1, x.2.1]).getD [] = fb ∧
        (evaluate sys i x.2.2 fb.head? s stn).1 = none) := by
  intro L
  induction L with
  | nil => intro g st e h; simp [initLoop] at h
  | cons a L ih =>
    obtain ⟨l, v, sh⟩ := a
    intro g st e h
    simp only [initLoop] at h
    split at h
    · simp only [Option.some.injEq] at h; subst h; exact Or.inl rfl
    · simp only [Option.some.injEq] at h; subst h; exact Or.inl rfl
    · simp only [Option.some.injEq] at h; subst h; exact Or.inl rfl
    · rename_i _ _ i h1 h3
      split at h
      · rename_i st' hx
        simp only [Option.some.injEq] at h
        subst h
        exact Or.inr ⟨rfl, (l, v, sh), List.mem_cons_self, i, _, _, st, by simpa using h1, rfl, by rw [hx]⟩
      · rcases ih _ _ e h with h | ⟨h, x, hx, r⟩
        · exact Or.inl h
        · exact Or.inr ⟨h, x, List.mem_cons_of_mem _ hx, r⟩

/-- **C26** (rejection): if for some view there is no initializer, or there are several
initializers or fallbacks, `initialize` fails. -/
theorem C26_rejects (sys : Sys G Arr) (ps : Params) (hd : ps.Distinct) (refs : Ref Init) (seed : Nat) (rnd : G) (st : Store G)
    (x : Name × Name × Shape) (hx : ps.HasView x)
    (hbad : (∀ i, ¬ ResolvesTo refs [x.1, x.2.1] i) ∨ (∀ fb, ¬ FallsBackTo refs [x.1, x.2.1] fb)) :
    (initNetwork sys ps refs (some seed) rnd st).err ≠ none := by
  intro h
  obtain ⟨L, -, a2, -, a4⟩ := C26_set_once sys ps hd refs seed rnd st h
  obtain ⟨n, hn⟩ := List.getElem?_of_mem ((a2 x).2 hx)
  obtain ⟨i, fb, stn, w, c1, c2, -, -⟩ := a4 n x hn
  rcases hbad with hb | hb
  · exact hb i c1
  · exact hb fb c2

/-- If moreover the references themselves resolve and no initializer fails on its shape, the error
is a `NetworkValidationError`. -/
theorem C26_rejects_kind (sys : Sys G Arr) (ps : Params) (hd : ps.Distinct) (refs : Ref Init) (seed : Nat) (rnd : G) (st : Store G)
    (hres : ∀ e, resolve ps.tree refs ≠ .error e)
    (hok : ∀ (x : Name × Name × Shape) (i : Init) (fb : Option Init) (s : Nat) (stn : Store G), ps.HasView x →
      ResolvesTo refs [x.1, x.2.1] i → (evaluate sys i x.2.2 fb s stn).1 ≠ none) (e : IErr)
    (h : (initNetwork sys ps refs (some seed) rnd st).err = some e) : e.isValidation = true := by
  unfold initNetwork at h
  cases hr : resolve ps.tree refs with
  | error e' => exact absurd hr (hres e')
  | ok p =>
    rw [hr] at h
    obtain ⟨vals, fbs⟩ := p
    rcases initLoop_err sys vals fbs _ _ _ e h with h | ⟨-, x, hx, i, fb, s, stn, h1, h2, h3⟩
    · exact h
    · exfalso
      have hv := (mem_visit ps x).1 hx
      obtain ⟨vs, fs, g1, g2, g3, g4⟩ := C24_values ps.tree refs vals fbs hr _ _ (at_tree ps hd x hv)
      rw [g1] at h1
      simp only [Option.getD_some] at h1
      exact hok x i fb.head? s stn hv (resolvesTo_of refs _ vs i h1 g3) h3

/-! ### Examples -/

/-- A toy system: generators count, arrays are lists of numbers; kind 1 needs two dimensions. -/
def demoSys : Sys Nat (List Nat) where
  ofSeed := fun s => 10 * s
  generateSeed := fun g => (g + 1, g + 1)
  full := fun x sh => [x.toNat, sh.length]
  draw := fun k sh g => if k = 1 ∧ sh.length < 2 then (none, g) else (some [k, g], g + 1)
  sparseOk := fun _ sh => sh.length = 2
  mask := fun k _ a g => (a ++ [k, g], g + 1)
  quarter := fun sh => match sh with | n :: rest => if n % 4 = 0 then some (n / 4 :: rest) else none | [] => none
  stack := fun a b c d => a ++ b ++ c ++ d

def demoParams : Params := [(str "Rnn", [(str "bias", [3]), (str "W", [3, 2])]), (str "Fc", [(str "W", [4, 3])])]

/-- `{'default': 7, 'Rnn': {'*': Kind1(), 'fallback': 5}, 'Fc': LstmOptInit(Kind2(), 1, 2, 3)}`. -/
def demoInit : Ref Init := .dict [(str "default", .val (.number 7)),
  (str "Rnn", .dict [(str "*", .val (.object 1 1)), (str "fallback", .val (.number 5))]),
  (str "Fc", .val (.lstmOpt 2 (.object 3 2) (.number 1) (.number 2) (.number 3)))]

/-- The hypotheses of the theorems are met: `initialize` returns, having set three views. -/
example : (initNetwork demoSys demoParams demoInit (some 4) 99 (fun _ => 0)).err = none ∧
    (initNetwork demoSys demoParams demoInit (some 4) 99 (fun _ => 0)).writes =
      [((str "Fc", str "W"), [2, 4110, 1, 2, 2, 2, 3, 2]), ((str "Rnn", str "W"), [1, 420]), ((str "Rnn", str "bias"), [5, 1])] := by
  decide +kernel

example : demoParams.Distinct := by
  unfold Params.Distinct
  decide +kernel

/-- A missing initializer. -/
example : (initNetwork demoSys demoParams (.dict [(str "Rnn", .val (.number 1))]) (some 4) 99 (fun _ => 0)).err = some .missing := by
  decide +kernel

/-- Two initializers. -/
example : (initNetwork demoSys demoParams (.dict [(str "Rnn", .val (.number 1)), (str "*", .val (.number 2))]) (some 4) 99 (fun _ => 0)).err
    = some .multiple := by decide +kernel

/-- **C26** (exception found): with a sparse initializer around a random one, calling `initialize`
twice with the same seed gives different values: the sub-initializer is never reseeded
(initializers.py:334, 363). -/
theorem C26_sub_initializer_not_reseeded :
    ∃ (G Arr : Type) (sys : Sys G Arr) (ps : Params) (refs : Ref Init) (seed : Nat) (rnd : G) (st : Store G),
      (initNetwork sys ps refs (some seed) rnd st).err = none ∧
      (initNetwork sys ps refs (some seed) rnd (initNetwork sys ps refs (some seed) rnd st).store).err = none ∧
      (initNetwork sys ps refs (some seed) rnd st).writes ≠
        (initNetwork sys ps refs (some seed) rnd (initNetwork sys ps refs (some seed) rnd st).store).writes := by
  refine ⟨Nat, List Nat, demoSys, [(str "Fc", [(str "W", [4, 3])])], .val (.sparse 1 5 (.object 2 2)), 4, 99, fun _ => 0, ?_⟩
  decide +kernel

end Verif.References
