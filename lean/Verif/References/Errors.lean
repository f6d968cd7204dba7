import Verif.References.Props

/-! # C24: references that match nothing -/

namespace Verif.References

variable {A B V : Type} [DecidableEq V]

mutual
/-- The keys of a tree without its leaves. -/
def Tree.skel : Tree A → Tree Unit
  | .leaf _ => .leaf ()
  | .node es => .node (skelKids es)
def skelKids : List (Name × Tree A) → List (Name × Tree Unit)
  | [] => []
  | (k, t) :: rest => (k, t.skel) :: skelKids rest
end

theorem keys_skelKids : ∀ es : List (Name × Tree A), Dict.keys (skelKids es) = Dict.keys es
  | [] => rfl
  | (k, t) :: rest => by
    have := keys_skelKids rest
    simp only [Dict.keys, skelKids, List.map_cons] at this ⊢
    rw [this]

theorem get?_skelKids (k : Name) : ∀ es : List (Name × Tree A), Dict.get? (skelKids es) k = (Dict.get? es k).map Tree.skel
  | [] => rfl
  | (k', t) :: rest => by
    simp only [skelKids, Dict.get?_cons]
    split
    · rfl
    · exact get?_skelKids k rest

mutual
theorem skel_mapM (f : A → Except Err B) : ∀ (t : Tree A) (t' : Tree B), t.mapM f = .ok t' → t'.skel = t.skel
  | .leaf a, t', h => by
    simp only [Tree.mapM] at h
    cases hf : f a with
    | error e => rw [hf] at h; simp [Except.map] at h
    | ok b =>
      rw [hf] at h
      simp only [Except.map, Except.ok.injEq] at h
      subst h
      rfl
  | .node es, t', h => by
    simp only [Tree.mapM] at h
    cases hk : mapKidsM f es with
    | error e => rw [hk] at h; simp [Except.map] at h
    | ok es' =>
      rw [hk] at h
      simp only [Except.map, Except.ok.injEq] at h
      subst h
      simp only [Tree.skel]
      rw [skel_mapKidsM f es es' hk]
theorem skel_mapKidsM (f : A → Except Err B) : ∀ (es : List (Name × Tree A)) (es' : List (Name × Tree B)),
    mapKidsM f es = .ok es' → skelKids es' = skelKids es
  | [], es', h => by
    simp only [mapKidsM, Except.ok.injEq] at h
    subst h
    rfl
  | (k₀, t) :: rest, es', h => by
    simp only [mapKidsM] at h
    cases ht : t.mapM f with
    | error e => rw [ht] at h; simp at h
    | ok t' =>
      rw [ht] at h
      simp only at h
      cases hr : mapKidsM f rest with
      | error e => rw [hr] at h; simp [Except.map] at h
      | ok rest' =>
        rw [hr] at h
        simp only [Except.map, Except.ok.injEq] at h
        subst h
        simp only [skelKids]
        rw [skel_mapM f t t' ht, skel_mapKidsM f rest rest' hr]
end

theorem skel_mapEntries (g : Name → Tree A → Except Err (Tree A)) (hg : ∀ k t t', g k t = .ok t' → t'.skel = t.skel) :
    ∀ (es es' : List (Name × Tree A)), mapEntries g es = .ok es' → skelKids es' = skelKids es
  | [], es', h => by
    simp only [mapEntries, Except.ok.injEq] at h
    subst h
    rfl
  | (k₀, t) :: rest, es', h => by
    simp only [mapEntries] at h
    cases ht : g k₀ t with
    | error e => rw [ht] at h; simp at h
    | ok t' =>
      rw [ht] at h
      simp only at h
      cases hr : mapEntries g rest with
      | error e => rw [hr] at h; simp [Except.map] at h
      | ok rest' =>
        rw [hr] at h
        simp only [Except.map, Except.ok.injEq] at h
        subst h
        simp only [skelKids]
        rw [hg _ _ _ ht, skel_mapEntries g hg rest rest' hr]

theorem skel_foldRefs {R : Type} (f : R → Tree A → Except Err (Tree A)) (hf : ∀ r t t', f r t = .ok t' → t'.skel = t.skel) :
    ∀ (rs : List R) (t t' : Tree A), foldRefs f rs t = .ok t' → t'.skel = t.skel := by
  intro rs
  induction rs with
  | nil =>
    intro t t' h
    simp only [foldRefs, Except.ok.injEq] at h
    subst h; rfl
  | cons r rs ih =>
    intro t t' h
    simp only [foldRefs] at h
    cases h1 : f r t with
    | error e => rw [h1] at h; simp at h
    | ok t₁ =>
      rw [h1] at h
      exact (ih t₁ t' h).trans (hf r t t₁ h1)

theorem skel_applyRefs : ∀ (fuel : Nat) (t t' : Tree (Cell V)) (ref : Ref V) (pd pf : Option (Ref V)),
    applyRefs fuel t ref pd pf = .ok t' → t'.skel = t.skel := by
  intro fuel
  induction fuel with
  | zero => intro t t' ref pd pf h; simp [applyRefs] at h
  | succ fuel ih =>
    intro t t' ref pd pf h
    cases ref with
    | val v =>
      have h' : appendAll (some (.val v)) pd pf t = .ok t' := by
        cases t <;> simpa [applyRefs] using h
      exact skel_mapM _ _ _ h'
    | dict es =>
      cases t with
      | leaf c =>
        simp only [applyRefs, appendAll, Tree.mapM, addCell, addTo, Except.map] at h
        simp at h
      | node ks =>
        simp only [applyRefs] at h
        split at h
        · simp at h
        · cases hm : mapEntries _ ks with
          | error e => rw [hm] at h; simp [Except.map] at h
          | ok ks' =>
            rw [hm] at h
            simp only [Except.map, Except.ok.injEq] at h
            subst h
            simp only [Tree.skel]
            rw [skel_mapEntries _ ?_ ks ks' hm]
            intro k t t' hk
            split at hk
            · exact skel_mapM _ _ _ hk
            · refine skel_foldRefs _ ?_ _ _ _ hk
              intro r t t' hr
              split at hr
              · simp at hr
              · exact ih _ _ _ _ _ hr

theorem Dangling.congr {t : Tree A} {t' : Tree B} {ref : Ref V} (h : Dangling t ref) (hs : t.skel = t'.skel) : Dangling t' ref := by
  induction h generalizing t' with
  | here ks es r h1 h2 h3 =>
    cases t' with
    | leaf b => simp [Tree.skel] at hs
    | node ks' =>
      simp only [Tree.skel, Tree.node.injEq] at hs
      refine .here ks' es r h1 h2 ?_
      rw [← keys_skelKids, ← hs, keys_skelKids]
      exact h3
  | deeper ks es key t sub h1 h2 h3 ih =>
    cases t' with
    | leaf b => simp [Tree.skel] at hs
    | node ks' =>
      simp only [Tree.skel, Tree.node.injEq] at hs
      have := get?_skelKids key ks'
      rw [← hs, get?_skelKids, h1] at this
      cases hg : Dict.get? ks' key with
      | none => rw [hg] at this; simp at this
      | some t₁ =>
        rw [hg] at this
        simp only [Option.map_some, Option.some.injEq] at this
        exact .deeper ks' es key t₁ sub hg h2 (ih this)

theorem checkRefs_ok (keys : List Name) : ∀ (refs : List Name), checkRefs keys refs = .ok () →
    ∀ r ∈ refs, special r = false → ∃ k ∈ keys, refMatches r k = some true := by
  intro refs
  induction refs with
  | nil => simp
  | cons r rest ih =>
    intro h x hx hs
    simp only [checkRefs] at h
    split at h
    · rename_i hsp
      rcases List.mem_cons.1 hx with rfl | hx
      · rw [hsp] at hs; simp at hs
      · exact ih h x hx hs
    · split at h
      · simp at h
      · split at h
        · rename_i hany
          rcases List.mem_cons.1 hx with rfl | hx
          · obtain ⟨k, hk, hm⟩ := List.any_eq_true.1 hany
            exact ⟨k, hk, by simpa using hm⟩
          · exact ih h x hx hs
        · simp at h

theorem foldRefs_mem {R : Type} (f : R → Tree A → Except Err (Tree A)) (hf : ∀ r t t', f r t = .ok t' → t'.skel = t.skel) :
    ∀ (rs : List R) (t t' : Tree A), foldRefs f rs t = .ok t' → ∀ r ∈ rs, ∃ t₁ t₂, t₁.skel = t.skel ∧ f r t₁ = .ok t₂ := by
  intro rs
  induction rs with
  | nil => simp
  | cons r rs ih =>
    intro t t' h x hx
    simp only [foldRefs] at h
    cases h1 : f r t with
    | error e => rw [h1] at h; simp at h
    | ok t₁ =>
      rw [h1] at h
      rcases List.mem_cons.1 hx with rfl | hx
      · exact ⟨t, t₁, rfl, h1⟩
      · obtain ⟨t₂, t₃, h2, h3⟩ := ih t₁ t' h x hx
        exact ⟨t₂, t₃, h2.trans (hf r t t₁ h1), h3⟩

theorem not_dangling_of_ok : ∀ (fuel : Nat) (t t' : Tree (Cell V)) (ref : Ref V) (pd pf : Option (Ref V)),
    applyRefs fuel t ref pd pf = .ok t' → ¬ Dangling t ref := by
  intro fuel
  induction fuel with
  | zero => intro t t' ref pd pf h; simp [applyRefs] at h
  | succ fuel ih =>
    intro t t' ref pd pf h hd
    cases hd with
    | here ks es r h1 h2 h3 =>
      simp only [applyRefs] at h
      split at h
      · simp at h
      · rename_i hc
        obtain ⟨k, hk, hm⟩ := checkRefs_ok _ _ hc r h1 h2
        exact h3 k hk hm
    | deeper ks es key t sub h1 h2 h3 =>
      simp only [applyRefs] at h
      split at h
      · simp at h
      · cases hm : mapEntries _ ks with
        | error e => rw [hm] at h; simp [Except.map] at h
        | ok ks' =>
          obtain ⟨t₁, g1, -⟩ := (mapEntries_spec _ ks ks' hm key).1 t h1
          split at g1
          · rename_i hnil
            exact (refsOf_nil es key).1 hnil sub h2
          · obtain ⟨r, hr, hs⟩ := (refsOf_applies es key sub).2 h2
            obtain ⟨t₂, t₃, j1, j2⟩ := foldRefs_mem _ (by
              intro r t t' hr
              split at hr
              · simp at hr
              · exact skel_applyRefs _ _ _ _ _ _ hr) _ _ _ g1 r hr
            rw [hs] at j2
            exact ih _ _ _ _ _ j2 (h3.congr j1.symm)

/-- **C24** (no match): if some pattern that is met on the way to the parameters matches no key,
resolving fails. -/
theorem C24_no_match (t : Tree A) (refs : Ref V) (h : Dangling t refs) : ∃ e, resolve t refs = .error e := by
  cases hr : resolve t refs with
  | error e => exact ⟨e, rfl⟩
  | ok r =>
    exfalso
    unfold resolve at hr
    split at hr
    · simp at hr
    · rename_i t₀ h0
      split at hr
      · simp at hr
      · rename_i t₁ h1
        exact not_dangling_of_ok _ _ _ _ _ _ h1 (h.congr (skel_mapM _ _ _ h0).symm)

/-- The error at the outermost level is a `NetworkValidationError` if all patterns are well formed. -/
theorem C24_no_match_kind (ks : List (Name × Tree A)) (es : List (Name × Ref V)) (r : Name) (hr : r ∈ Dict.keys es)
    (hs : special r = false) (hno : ∀ k ∈ Dict.keys ks, refMatches r k ≠ some true)
    (hv : ∀ r ∈ Dict.keys es, special r = false → isValidLayerName (unstar r) = true) :
    resolve (Tree.node ks) (Ref.dict es) = .error .noMatch := by
  have hcheck : ∀ (refs : List Name), r ∈ refs → (∀ r ∈ refs, special r = false → isValidLayerName (unstar r) = true) →
      checkRefs (Dict.keys ks) refs = .error .noMatch := by
    intro refs
    induction refs with
    | nil => simp
    | cons x rest ih =>
      intro hm hv
      simp only [checkRefs]
      by_cases hsp : special x = true
      · rw [if_pos hsp]
        rcases List.mem_cons.1 hm with rfl | hm
        · rw [hsp] at hs; simp at hs
        · exact ih hm (fun r hr => hv r (List.mem_cons_of_mem _ hr))
      · have hsp' : special x = false := by simpa using hsp
        rw [if_neg hsp, if_neg (by simpa using hv x List.mem_cons_self hsp')]
        split
        · rename_i hany
          rcases List.mem_cons.1 hm with rfl | hm
          · obtain ⟨k, hk, hm⟩ := List.any_eq_true.1 hany
            exact absurd (by simpa using hm) (hno k hk)
          · exact ih hm (fun r hr => hv r (List.mem_cons_of_mem _ hr))
        · rfl
  unfold resolve
  have h0 : ∃ ks₀, emptyDict (V := V) (Tree.node ks) = .ok (.node ks₀) ∧ Dict.keys ks₀ = Dict.keys ks := by
    have hno : ∀ (es : List (Name × Tree A)), ∃ es', mapKidsM (fun _ => (.ok ⟨[], [], []⟩ : Except Err (Cell V))) es = .ok es' := by
      suffices (∀ t : Tree A, ∃ t', t.mapM (fun _ => (.ok ⟨[], [], []⟩ : Except Err (Cell V))) = .ok t') ∧
          ∀ (es : List (Name × Tree A)), ∃ es', mapKidsM (fun _ => (.ok ⟨[], [], []⟩ : Except Err (Cell V))) es = .ok es' from this.2
      exact ⟨total, totalKids⟩
    obtain ⟨ks₀, hk⟩ := hno ks
    refine ⟨ks₀, by simp [emptyDict, Tree.mapM, hk, Except.map], ?_⟩
    have := skel_mapKidsM _ _ _ hk
    rw [← keys_skelKids ks₀, this, keys_skelKids]
  obtain ⟨ks₀, h0, hk⟩ := h0
  rw [h0]
  simp only [Ref.depth, applyRefs, hk, hcheck _ hr hv]
where
  total : ∀ t : Tree A, ∃ t', t.mapM (fun _ => (.ok ⟨[], [], []⟩ : Except Err (Cell V))) = .ok t'
    | .leaf a => ⟨_, rfl⟩
    | .node es => by
      obtain ⟨es', h⟩ := totalKids es
      exact ⟨.node es', by simp [Tree.mapM, h, Except.map]⟩
  totalKids : ∀ (es : List (Name × Tree A)), ∃ es', mapKidsM (fun _ => (.ok ⟨[], [], []⟩ : Except Err (Cell V))) es = .ok es'
    | [] => ⟨[], rfl⟩
    | (k, t) :: rest => by
      obtain ⟨t', h1⟩ := total t
      obtain ⟨rest', h2⟩ := totalKids rest
      exact ⟨(k, t') :: rest', by simp [mapKidsM, h1, h2, Except.map]⟩

/-! ### The fuel suffices -/

theorem depth_le_of_get? (es : List (Name × Ref V)) (r : Name) (sub : Ref V) (h : Dict.get? es r = some sub) :
    sub.depth ≤ depthList es := by
  induction es with
  | nil => simp at h
  | cons e es ih =>
    obtain ⟨k, x⟩ := e
    simp only [depthList]
    rw [Dict.get?_cons] at h
    split at h
    · simp only [Option.some.injEq] at h
      subst h
      exact Nat.le_max_left _ _
    · exact Nat.le_trans (ih h) (Nat.le_max_right _ _)

mutual
theorem mapM_ne_fuel (f : A → Except Err B) (hf : ∀ a, f a ≠ .error .fuel) : ∀ (t : Tree A), t.mapM f ≠ .error .fuel
  | .leaf a => by
    simp only [Tree.mapM]
    have := hf a
    cases h : f a with
    | error e => rw [h] at this; simpa [Except.map] using this
    | ok b => simp [Except.map]
  | .node es => by
    simp only [Tree.mapM]
    have := mapKidsM_ne_fuel f hf es
    cases h : mapKidsM f es with
    | error e => rw [h] at this; simpa [Except.map] using this
    | ok b => simp [Except.map]
theorem mapKidsM_ne_fuel (f : A → Except Err B) (hf : ∀ a, f a ≠ .error .fuel) : ∀ (es : List (Name × Tree A)),
    mapKidsM f es ≠ .error .fuel
  | [] => by simp [mapKidsM]
  | (k, t) :: rest => by
    simp only [mapKidsM]
    have h1 := mapM_ne_fuel f hf t
    have h2 := mapKidsM_ne_fuel f hf rest
    cases h : t.mapM f with
    | error e => rw [h] at h1; simpa using h1
    | ok t' =>
      cases h' : mapKidsM f rest with
      | error e => rw [h'] at h2; simpa [Except.map] using h2
      | ok b => simp [Except.map]
end

theorem addTo_ne_fuel (r : Option (Ref V)) (s : List V) : addTo r s ≠ .error .fuel := by
  unfold addTo
  split <;> simp

theorem addCell_ne_fuel (r d f : Option (Ref V)) (c : Cell V) : addCell r d f c ≠ .error .fuel := by
  unfold addCell
  split
  · rename_i e he
    intro h
    simp only [Except.error.injEq] at h
    exact addTo_ne_fuel _ _ (h ▸ he)
  · split
    · rename_i e he
      intro h
      simp only [Except.error.injEq] at h
      exact addTo_ne_fuel _ _ (h ▸ he)
    · split
      · rename_i e he
        intro h
        simp only [Except.error.injEq] at h
        exact addTo_ne_fuel _ _ (h ▸ he)
      · simp

theorem mapEntries_ne_fuel (g : Name → Tree A → Except Err (Tree A)) (hg : ∀ k t, g k t ≠ .error .fuel) :
    ∀ es, mapEntries g es ≠ .error .fuel
  | [] => by simp [mapEntries]
  | (k, t) :: rest => by
    simp only [mapEntries]
    have h1 := hg k t
    have h2 := mapEntries_ne_fuel g hg rest
    cases h : g k t with
    | error e => rw [h] at h1; simpa using h1
    | ok t' =>
      cases h' : mapEntries g rest with
      | error e => rw [h'] at h2; simpa [Except.map] using h2
      | ok b => simp [Except.map]

theorem foldRefs_ne_fuel {R : Type} (f : R → Tree A → Except Err (Tree A)) :
    ∀ (rs : List R) (_ : ∀ r ∈ rs, ∀ t, f r t ≠ .error .fuel) (t : Tree A), foldRefs f rs t ≠ .error .fuel
  | [], _, t => by simp [foldRefs]
  | r :: rs, hf, t => by
    simp only [foldRefs]
    have h1 := hf r List.mem_cons_self t
    cases h : f r t with
    | error e => rw [h] at h1; simpa using h1
    | ok t' => exact foldRefs_ne_fuel f rs (fun r hr => hf r (List.mem_cons_of_mem _ hr)) t'

theorem checkRefs_ne_fuel (keys : List Name) : ∀ refs, checkRefs keys refs ≠ .error .fuel
  | [] => by simp [checkRefs]
  | r :: rest => by
    simp only [checkRefs]
    split
    · exact checkRefs_ne_fuel keys rest
    · split
      · simp
      · split
        · exact checkRefs_ne_fuel keys rest
        · simp

theorem map_ne_fuel {X Y : Type} (f : X → Y) {x : Except Err X} (h : x ≠ .error .fuel) : x.map f ≠ .error .fuel := by
  cases x with
  | error e => simpa [Except.map] using h
  | ok b => simp [Except.map]

/-- A fuel of at least the depth of the references is never used up. -/
theorem applyRefs_fuel : ∀ (fuel : Nat) (t : Tree (Cell V)) (ref : Ref V) (pd pf : Option (Ref V)), ref.depth ≤ fuel →
    applyRefs fuel t ref pd pf ≠ .error .fuel := by
  intro fuel
  induction fuel with
  | zero =>
    intro t ref pd pf h
    cases ref <;> simp [Ref.depth] at h
  | succ fuel ih =>
    intro t ref pd pf hd
    cases ref with
    | val v =>
      have : applyRefs (fuel + 1) t (.val v) pd pf = appendAll (some (.val v)) pd pf t := by
        cases t <;> simp [applyRefs]
      rw [this]
      exact mapM_ne_fuel _ (addCell_ne_fuel _ _ _) t
    | dict es =>
      cases t with
      | leaf c =>
        simp only [applyRefs]
        exact mapM_ne_fuel _ (addCell_ne_fuel _ _ _) _
      | node ks =>
        simp only [applyRefs]
        split
        · rename_i e he
          intro h
          simp only [Except.error.injEq] at h
          exact checkRefs_ne_fuel _ _ (h ▸ he)
        · refine map_ne_fuel _ (mapEntries_ne_fuel _ ?_ ks)
          intro k t
          split
          · exact mapM_ne_fuel _ (addCell_ne_fuel _ _ _) t
          · refine foldRefs_ne_fuel _ _ ?_ t
            intro r hr t
            split
            · rename_i hn
              obtain ⟨sub, hsub⟩ := get?_isSome_of_mem_keys es r (refsOf_mem_keys es k r hr)
              rw [hsub] at hn
              simp at hn
            · rename_i sub hsub
              apply ih
              have := depth_le_of_get? es r sub hsub
              simp only [Ref.depth] at hd
              omega

/-! ### Examples -/

/-- Two layers with two parameters each. -/
def demoTree : Tree Unit := .node [(str "Rnn", .node [(str "W", .leaf ()), (str "bias", .leaf ())]),
  (str "Out", .node [(str "W", .leaf ()), (str "bias", .leaf ())])]

/-- `{'default': 1, 'R*': {'W': 2, 'fallback': 9}, 'Out': {'default': 3, 'b*': 4}}`. -/
def demoRefs : Ref Nat := .dict [(str "default", .val 1), (str "R*", .dict [(str "W", .val 2), (str "fallback", .val 9)]),
  (str "Out", .dict [(str "default", .val 3), (str "b*", .val 4)])]

example : ((match resolve demoTree demoRefs with
    | .error _ => none
    | .ok (v, f) => some [v.at [str "Rnn", str "W"], v.at [str "Rnn", str "bias"], v.at [str "Out", str "W"],
        v.at [str "Out", str "bias"], f.at [str "Rnn", str "bias"], f.at [str "Out", str "W"]]) ==
    some [some [2], some [1], some [3], some [4], some [9], some []]) = true := by decide +kernel

example : Dangling demoTree (.dict [(str "Rnn", .dict [(str "V*", .val 1)])]) := by
  refine .deeper _ _ (str "Rnn") _ _ rfl (.pattern (str "Rnn") _ (by decide +kernel) (by decide +kernel) rfl) ?_
  exact .here _ _ (str "V*") (by decide +kernel) (by decide +kernel) (by decide +kernel)

end Verif.References
