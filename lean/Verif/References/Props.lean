import Verif.References.Model

/-! # C24: resolving references -/

namespace Verif.References

variable {A B V : Type} [DecidableEq V]

mutual
theorem at_mapM (f : A → Except Err B) : ∀ (t : Tree A) (t' : Tree B), t.mapM f = .ok t' → ∀ path,
    (∀ a, t.at path = some a → ∃ b, f a = .ok b ∧ t'.at path = some b) ∧ (t.at path = none → t'.at path = none)
  | .leaf a, t', h, path => by
    simp only [Tree.mapM] at h
    cases hf : f a with
    | error e => rw [hf] at h; simp [Except.map] at h
    | ok b =>
      rw [hf] at h
      simp only [Except.map, Except.ok.injEq] at h
      subst h
      cases path with
      | nil => simp [Tree.at, hf]
      | cons k p => simp [Tree.at]
  | .node es, t', h, path => by
    simp only [Tree.mapM] at h
    cases hk : mapKidsM f es with
    | error e => rw [hk] at h; simp [Except.map] at h
    | ok es' =>
      rw [hk] at h
      simp only [Except.map, Except.ok.injEq] at h
      subst h
      cases path with
      | nil => simp [Tree.at]
      | cons k p =>
        have := at_mapKidsM f es es' hk k
        simp only [Tree.at]
        cases hg : Dict.get? es k with
        | none =>
          rw [this.2 hg]
          simp
        | some t =>
          obtain ⟨t', ht', hg'⟩ := this.1 t hg
          rw [hg']
          exact ht' p
theorem at_mapKidsM (f : A → Except Err B) : ∀ (es : List (Name × Tree A)) (es' : List (Name × Tree B)),
    mapKidsM f es = .ok es' → ∀ k,
    (∀ t, Dict.get? es k = some t → ∃ t', (∀ path, (∀ a, t.at path = some a → ∃ b, f a = .ok b ∧ t'.at path = some b) ∧
      (t.at path = none → t'.at path = none)) ∧ Dict.get? es' k = some t') ∧
    (Dict.get? es k = none → Dict.get? es' k = none)
  | [], es', h, k => by
    simp only [mapKidsM, Except.ok.injEq] at h
    subst h
    simp
  | (k₀, t) :: rest, es', h, k => by
    simp only [mapKidsM] at h
    cases ht : t.mapM f with
    | error e => rw [ht] at h; simp at h
    | ok t' =>
      rw [ht] at h
      simp only at h
      cases hr : mapKidsM f rest with
      | error e => rw [hr] at h; simp [Except.map] at h
      | ok rest' =>
        rw [hr] at h
        simp only [Except.map, Except.ok.injEq] at h
        subst h
        simp only [Dict.get?_cons]
        by_cases hk : k₀ = k
        · simp only [hk, if_true, Option.some.injEq, forall_eq']
          exact ⟨⟨t', at_mapM f t t' ht, rfl⟩, by simp⟩
        · simp only [hk, if_false]
          exact at_mapKidsM f rest rest' hr k
end

/-- How the leaves of a tree change. -/
def Changes (t t' : Tree A) (R : List Name → A → A → Prop) : Prop :=
  ∀ path, (∀ a, t.at path = some a → ∃ b, R path a b ∧ t'.at path = some b) ∧ (t.at path = none → t'.at path = none)

theorem mapEntries_spec (g : Name → Tree A → Except Err (Tree A)) : ∀ (es es' : List (Name × Tree A)),
    mapEntries g es = .ok es' → ∀ k, (∀ t, Dict.get? es k = some t → ∃ t', g k t = .ok t' ∧ Dict.get? es' k = some t') ∧
      (Dict.get? es k = none → Dict.get? es' k = none)
  | [], es', h, k => by
    simp only [mapEntries, Except.ok.injEq] at h
    subst h
    simp
  | (k₀, t) :: rest, es', h, k => by
    simp only [mapEntries] at h
    cases ht : g k₀ t with
    | error e => rw [ht] at h; simp at h
    | ok t' =>
      rw [ht] at h
      simp only at h
      cases hr : mapEntries g rest with
      | error e => rw [hr] at h; simp [Except.map] at h
      | ok rest' =>
        rw [hr] at h
        simp only [Except.map, Except.ok.injEq] at h
        subst h
        simp only [Dict.get?_cons]
        by_cases hk : k₀ = k
        · subst hk
          simp only [if_true, Option.some.injEq, forall_eq']
          exact ⟨⟨t', ht, rfl⟩, by simp⟩
        · simp only [hk, if_false]
          exact mapEntries_spec g rest rest' hr k

theorem mapEntries_keys (g : Name → Tree A → Except Err (Tree A)) : ∀ (es es' : List (Name × Tree A)),
    mapEntries g es = .ok es' → Dict.keys es' = Dict.keys es
  | [], es', h => by
    simp only [mapEntries, Except.ok.injEq] at h
    subst h
    rfl
  | (k₀, t) :: rest, es', h => by
    simp only [mapEntries] at h
    cases ht : g k₀ t with
    | error e => rw [ht] at h; simp at h
    | ok t' =>
      rw [ht] at h
      simp only at h
      cases hr : mapEntries g rest with
      | error e => rw [hr] at h; simp [Except.map] at h
      | ok rest' =>
        rw [hr] at h
        simp only [Except.map, Except.ok.injEq] at h
        subst h
        have := mapEntries_keys g rest rest' hr
        simp only [Dict.keys, List.map_cons] at this ⊢
        rw [this]

/-- What a cell gains. -/
structure Gains (C D F : V → Prop) (c c' : Cell V) : Prop where
  content : ∀ v, v ∈ c'.content ↔ v ∈ c.content ∨ C v
  defaults : ∀ v, v ∈ c'.defaults ↔ v ∈ c.defaults ∨ D v
  fallback : ∀ v, v ∈ c'.fallback ↔ v ∈ c.fallback ∨ F v

theorem addTo_spec (r : Option (Ref V)) (s s' : List V) (h : addTo r s = .ok s') (v : V) :
    v ∈ s' ↔ v ∈ s ∨ r = some (.val v) := by
  unfold addTo at h
  split at h
  · simp only [Except.ok.injEq] at h
    subst h; simp
  · simp only [Except.ok.injEq] at h
    subst h
    rw [List.mem_insert_iff]
    simp only [Option.some.injEq, Ref.val.injEq]
    constructor
    · rintro (h | h)
      · exact .inr h.symm
      · exact .inl h
    · rintro (h | h)
      · exact .inr h
      · exact .inl h.symm
  · simp at h

theorem addCell_spec (r d f : Option (Ref V)) (c c' : Cell V) (h : addCell r d f c = .ok c') :
    Gains (fun v => r = some (.val v)) (fun v => d = some (.val v)) (fun v => f = some (.val v)) c c' := by
  unfold addCell at h
  cases h1 : addTo r c.content with
  | error e => rw [h1] at h; simp at h
  | ok cs =>
    rw [h1] at h
    simp only at h
    cases h2 : addTo d c.defaults with
    | error e => rw [h2] at h; simp at h
    | ok ds =>
      rw [h2] at h
      simp only at h
      cases h3 : addTo f c.fallback with
      | error e => rw [h3] at h; simp at h
      | ok fs =>
        rw [h3] at h
        simp only [Except.ok.injEq] at h
        subst h
        exact ⟨addTo_spec _ _ _ h1, addTo_spec _ _ _ h2, addTo_spec _ _ _ h3⟩

theorem appendAll_spec (r d f : Option (Ref V)) (t t' : Tree (Cell V)) (h : appendAll r d f t = .ok t') :
    Changes t t' (fun _ => Gains (fun v => r = some (.val v)) (fun v => d = some (.val v)) (fun v => f = some (.val v))) := by
  intro path
  have := at_mapM _ t t' h path
  refine ⟨fun a ha => ?_, this.2⟩
  obtain ⟨b, hb, hb'⟩ := this.1 a ha
  exact ⟨b, addCell_spec _ _ _ _ _ hb, hb'⟩

theorem get?_isSome_of_mem_keys (es : List (Name × Ref V)) (r : Name) (h : r ∈ Dict.keys es) : ∃ sub, Dict.get? es r = some sub := by
  cases hg : Dict.get? es r with
  | some sub => exact ⟨sub, rfl⟩
  | none => exact absurd h ((Dict.get?_eq_none_iff es r).1 hg)

theorem mem_keys_of_get? (es : List (Name × Ref V)) (r : Name) (sub : Ref V) (h : Dict.get? es r = some sub) : r ∈ Dict.keys es := by
  by_cases hm : r ∈ Dict.keys es
  · exact hm
  · rw [(Dict.get?_eq_none_iff es r).2 hm] at h; simp at h

theorem refsOf_applies (es : List (Name × Ref V)) (k : Name) (sub : Ref V) :
    (∃ r ∈ refsOf (Dict.keys es) k, Dict.get? es r = some sub) ↔ Applies es k sub := by
  unfold refsOf
  simp only
  constructor
  · rintro ⟨r, hr, hg⟩
    split at hr
    · rename_i hc
      simp only [List.mem_singleton] at hr
      subst hr
      refine .default sub ?_ hg
      intro r hr hs hm
      have := List.filter_eq_nil_iff.1 hc.1 r hr
      simp [hs, hm] at this
    · rw [List.mem_filter] at hr
      simp only [Bool.and_eq_true, Bool.not_eq_true', decide_eq_true_eq] at hr
      exact .pattern r sub hr.2.1 hr.2.2 hg
  · intro h
    cases h with
    | pattern r _ h1 h2 h3 =>
      have hm : r ∈ (Dict.keys es).filter (fun r => !special r && decide (refMatches r k = some true)) := by
        rw [List.mem_filter]
        exact ⟨mem_keys_of_get? es r sub h3, by simp [h1, h2]⟩
      rw [if_neg (fun hc => by rw [hc.1] at hm; simp at hm)]
      exact ⟨r, hm, h3⟩
    | default _ h1 h2 =>
      have hnil : (Dict.keys es).filter (fun r => !special r && decide (refMatches r k = some true)) = [] := by
        rw [List.filter_eq_nil_iff]
        intro r hr
        simp only [Bool.and_eq_true, Bool.not_eq_true', decide_eq_true_eq, not_and]
        intro hs hm
        exact h1 r hr hs hm
      rw [if_pos ⟨hnil, mem_keys_of_get? es _ sub h2⟩]
      exact ⟨_, List.mem_singleton.2 rfl, h2⟩

theorem refsOf_mem_keys (es : List (Name × Ref V)) (k r : Name) (h : r ∈ refsOf (Dict.keys es) k) : r ∈ Dict.keys es := by
  unfold refsOf at h
  simp only at h
  split at h
  · rename_i hc
    rw [List.mem_singleton.1 h]
    exact hc.2
  · exact (List.mem_filter.1 h).1

theorem refsOf_nil (es : List (Name × Ref V)) (k : Name) : refsOf (Dict.keys es) k = [] ↔ ∀ sub, ¬ Applies es k sub := by
  constructor
  · intro h sub ha
    obtain ⟨r, hr, -⟩ := (refsOf_applies es k sub).2 ha
    rw [h] at hr
    simp at hr
  · intro h
    cases hr : refsOf (Dict.keys es) k with
    | nil => rfl
    | cons r rs =>
      exfalso
      have hm : r ∈ refsOf (Dict.keys es) k := by rw [hr]; exact List.mem_cons_self
      obtain ⟨sub, hsub⟩ := get?_isSome_of_mem_keys es r (refsOf_mem_keys es k r hm)
      exact h sub ((refsOf_applies es k sub).1 ⟨r, hm, hsub⟩)

/-- Folding references over a tree collects what each of them gives. -/
theorem foldRefs_spec (f : Name → Tree (Cell V) → Except Err (Tree (Cell V)))
    (C D F : Name → List Name → V → Prop)
    (hf : ∀ r t t', f r t = .ok t' → Changes t t' (fun path => Gains (C r path) (D r path) (F r path))) :
    ∀ (rs : List Name) (t t' : Tree (Cell V)), foldRefs f rs t = .ok t' →
      Changes t t' (fun path => Gains (fun v => ∃ r ∈ rs, C r path v) (fun v => ∃ r ∈ rs, D r path v)
        (fun v => ∃ r ∈ rs, F r path v)) := by
  intro rs
  induction rs with
  | nil =>
    intro t t' h path
    simp only [foldRefs, Except.ok.injEq] at h
    subst h
    exact ⟨fun a ha => ⟨a, ⟨by simp, by simp, by simp⟩, ha⟩, id⟩
  | cons r rs ih =>
    intro t t' h path
    simp only [foldRefs] at h
    cases h1 : f r t with
    | error e => rw [h1] at h; simp at h
    | ok t₁ =>
      rw [h1] at h
      simp only at h
      have g1 := hf r t t₁ h1 path
      have g2 := ih t₁ t' h path
      refine ⟨fun a ha => ?_, fun ha => g2.2 (g1.2 ha)⟩
      obtain ⟨b, hb, hb'⟩ := g1.1 a ha
      obtain ⟨c, hc, hc'⟩ := g2.1 b hb'
      refine ⟨c, ⟨fun v => ?_, fun v => ?_, fun v => ?_⟩, hc'⟩
      · rw [hc.content, hb.content]; simp [or_assoc]
      · rw [hc.defaults, hb.defaults]; simp [or_assoc]
      · rw [hc.fallback, hb.fallback]; simp [or_assoc]

theorem gives_val (v w : V) (path : List Name) : Gives (.val v) path w ↔ v = w := by
  constructor
  · intro h; cases h; rfl
  · rintro rfl; exact .val v path

theorem inherits_val (sp : Name) (w v : V) (inh : Option (Ref V)) (path : List Name) :
    Inherits sp (.val w) inh path v ↔ inh = some (.val v) := by
  constructor
  · intro h; cases h; rfl
  · rintro rfl; exact .val w v path

theorem applyRefs_spec : ∀ (fuel : Nat) (t t' : Tree (Cell V)) (ref : Ref V) (pd pf : Option (Ref V)),
    applyRefs fuel t ref pd pf = .ok t' →
    Changes t t' (fun path => Gains (Gives ref path) (Inherits (str "default") ref pd path)
      (Inherits (str "fallback") ref pf path)) := by
  intro fuel
  induction fuel with
  | zero => intro t t' ref pd pf h; simp [applyRefs] at h
  | succ fuel ih =>
    intro t t' ref pd pf h
    cases ref with
    | val v =>
      have h' : appendAll (some (.val v)) pd pf t = .ok t' := by
        cases t <;> simpa [applyRefs] using h
      intro path
      have := appendAll_spec _ _ _ _ _ h' path
      refine ⟨fun a ha => ?_, this.2⟩
      obtain ⟨b, hb, hb'⟩ := this.1 a ha
      refine ⟨b, ⟨fun w => ?_, fun w => ?_, fun w => ?_⟩, hb'⟩
      · rw [hb.content, gives_val]; simp
      · rw [hb.defaults, inherits_val]
      · rw [hb.fallback, inherits_val]
    | dict es =>
      cases t with
      | leaf c =>
        simp only [applyRefs, appendAll, Tree.mapM, addCell, addTo, Except.map] at h
        simp at h
      | node ks =>
        simp only [applyRefs] at h
        split at h
        · simp at h
        · cases hm : mapEntries _ ks with
          | error e => rw [hm] at h; simp [Except.map] at h
          | ok ks' =>
            rw [hm] at h
            simp only [Except.map, Except.ok.injEq] at h
            subst h
            intro path
            cases path with
            | nil => simp [Tree.at]
            | cons k p =>
              have hsp := mapEntries_spec _ ks ks' hm k
              simp only [Tree.at]
              cases hg : Dict.get? ks k with
              | none => rw [hsp.2 hg]; simp
              | some t₁ =>
                obtain ⟨t₂, h1, h2⟩ := hsp.1 t₁ hg
                rw [h2]
                simp only
                split at h1
                · rename_i hnil
                  have hna := (refsOf_nil es k).1 hnil
                  have := appendAll_spec _ _ _ _ _ h1 p
                  refine ⟨fun a ha => ?_, this.2⟩
                  obtain ⟨b, hb, hb'⟩ := this.1 a ha
                  refine ⟨b, ⟨fun w => ?_, fun w => ?_, fun w => ?_⟩, hb'⟩
                  · rw [hb.content]
                    constructor
                    · rintro (h | h)
                      · exact .inl h
                      · simp at h
                    · rintro (h | h)
                      · exact .inl h
                      · cases h with
                        | entry _ _ _ sub _ ha _ => exact absurd ha (hna sub)
                  · rw [hb.defaults]
                    constructor
                    · rintro (h | h)
                      · exact .inl h
                      · exact .inr (.missing es pd k p w hna h)
                    · rintro (h | h)
                      · exact .inl h
                      · cases h with
                        | entry _ _ _ _ sub _ ha _ => exact absurd ha (hna sub)
                        | missing _ _ _ _ _ _ h => exact .inr h
                  · rw [hb.fallback]
                    constructor
                    · rintro (h | h)
                      · exact .inl h
                      · exact .inr (.missing es pf k p w hna h)
                    · rintro (h | h)
                      · exact .inl h
                      · cases h with
                        | entry _ _ _ _ sub _ ha _ => exact absurd ha (hna sub)
                        | missing _ _ _ _ _ _ h => exact .inr h
                · have := foldRefs_spec (V := V) _
                    (fun r path v => ∃ sub, Dict.get? es r = some sub ∧ Gives sub path v)
                    (fun r path v => ∃ sub, Dict.get? es r = some sub ∧
                      Inherits (str "default") sub ((Dict.get? es (str "default")).or pd) path v)
                    (fun r path v => ∃ sub, Dict.get? es r = some sub ∧
                      Inherits (str "fallback") sub ((Dict.get? es (str "fallback")).or pf) path v)
                    (by
                      intro r t t' hr
                      split at hr
                      · simp at hr
                      · rename_i sub hsub
                        have := ih _ _ _ _ _ hr
                        intro path
                        refine ⟨fun a ha => ?_, (this path).2⟩
                        obtain ⟨b, hb, hb'⟩ := (this path).1 a ha
                        refine ⟨b, ⟨fun w => ?_, fun w => ?_, fun w => ?_⟩, hb'⟩
                        · rw [hb.content]; simp [hsub]
                        · rw [hb.defaults]; simp [hsub]
                        · rw [hb.fallback]; simp [hsub]) _ _ _ h1 p
                  have hap : ∀ (P : Ref V → Prop), (∃ r ∈ refsOf (Dict.keys es) k, ∃ sub, Dict.get? es r = some sub ∧ P sub) ↔
                      ∃ sub, Applies es k sub ∧ P sub := by
                    intro P
                    constructor
                    · rintro ⟨r, hr, sub, hs, hp⟩
                      exact ⟨sub, (refsOf_applies es k sub).1 ⟨r, hr, hs⟩, hp⟩
                    · rintro ⟨sub, ha, hp⟩
                      obtain ⟨r, hr, hs⟩ := (refsOf_applies es k sub).2 ha
                      exact ⟨r, hr, sub, hs, hp⟩
                  rename_i hne
                  have hex : ¬ ∀ sub, ¬ Applies es k sub := fun h => hne ((refsOf_nil es k).2 h)
                  refine ⟨fun a ha => ?_, this.2⟩
                  obtain ⟨b, hb, hb'⟩ := this.1 a ha
                  refine ⟨b, ⟨fun w => ?_, fun w => ?_, fun w => ?_⟩, hb'⟩
                  · rw [hb.content, hap (fun sub => Gives sub p w)]
                    constructor
                    · rintro (h | ⟨sub, h1, h2⟩)
                      · exact .inl h
                      · exact .inr (.entry es k p sub w h1 h2)
                    · rintro (h | h)
                      · exact .inl h
                      · cases h with
                        | entry _ _ _ sub _ h1 h2 => exact .inr ⟨sub, h1, h2⟩
                  · rw [hb.defaults, hap (fun sub => Inherits (str "default") sub ((Dict.get? es (str "default")).or pd) p w)]
                    constructor
                    · rintro (h | ⟨sub, h1, h2⟩)
                      · exact .inl h
                      · exact .inr (.entry es pd k p sub w h1 h2)
                    · rintro (h | h)
                      · exact .inl h
                      · cases h with
                        | entry _ _ _ _ sub _ h1 h2 => exact .inr ⟨sub, h1, h2⟩
                        | missing _ _ _ _ _ h1 h2 => exact absurd h1 hex
                  · rw [hb.fallback, hap (fun sub => Inherits (str "fallback") sub ((Dict.get? es (str "fallback")).or pf) p w)]
                    constructor
                    · rintro (h | ⟨sub, h1, h2⟩)
                      · exact .inl h
                      · exact .inr (.entry es pf k p sub w h1 h2)
                    · rintro (h | h)
                      · exact .inl h
                      · cases h with
                        | entry _ _ _ _ sub _ h1 h2 => exact .inr ⟨sub, h1, h2⟩
                        | missing _ _ _ _ _ h1 h2 => exact absurd h1 hex

/-- **C24**: if resolving succeeds, then every leaf of the structure gets exactly the values that
the references give it; if they give none, it gets the default it inherits from the innermost
enclosing dictionary with a default, if there is one. -/
theorem C24_values (t : Tree A) (refs : Ref V) (vals fbs : Tree (List V)) (h : resolve t refs = .ok (vals, fbs))
    (path : List Name) (a : A) (ha : t.at path = some a) :
    ∃ vs fs, vals.at path = some vs ∧ fbs.at path = some fs ∧
      (∀ v, v ∈ vs ↔ Gives refs path v ∨ ((∀ w, ¬ Gives refs path w) ∧ Inherits (str "default") refs none path v)) ∧
      (∀ v, v ∈ fs ↔ Inherits (str "fallback") refs none path v) := by
  unfold resolve at h
  split at h
  · simp at h
  · rename_i t₀ h0
    split at h
    · simp at h
    · rename_i t₁ h1
      split at h
      · simp at h
      · rename_i vals' h2
        split at h
        · simp at h
        · rename_i fbs' h3
          simp only [Except.ok.injEq, Prod.mk.injEq] at h
          obtain ⟨rfl, rfl⟩ := h
          obtain ⟨c₀, hc₀, hat₀⟩ := (at_mapM _ t t₀ h0 path).1 a ha
          simp only [Except.ok.injEq] at hc₀
          subst hc₀
          obtain ⟨c₁, hc₁, hat₁⟩ := (applyRefs_spec _ _ _ _ _ _ h1 path).1 _ hat₀
          obtain ⟨vs, hvs, hatv⟩ := (at_mapM _ t₁ vals' h2 path).1 _ hat₁
          obtain ⟨fs, hfs, hatf⟩ := (at_mapM _ t₁ fbs' h3 path).1 _ hat₁
          refine ⟨vs, fs, hatv, hatf, ?_, ?_⟩
          · intro v
            unfold evalCell at hvs
            split at hvs
            · rename_i hnil
              have hno : ∀ w, ¬ Gives refs path w := fun w hw => by
                have := (hc₁.content w).2 (.inr hw)
                rw [hnil] at this
                simp at this
              split at hvs
              · simp only [Except.ok.injEq] at hvs
                subst hvs
                rw [hc₁.defaults]
                simp [hno]
              · simp at hvs
            · rename_i hne
              simp only [Except.ok.injEq] at hvs
              subst hvs
              rw [hc₁.content]
              constructor
              · rintro (h | h)
                · simp at h
                · exact .inl h
              · rintro (h | ⟨h, -⟩)
                · exact .inr h
                · exfalso
                  cases hcs : c₁.content with
                  | nil => exact hne hcs
                  | cons w ws =>
                    have := (hc₁.content w).1 (by rw [hcs]; exact List.mem_cons_self)
                    rcases this with h' | h'
                    · simp at h'
                    · exact h w h'
          · intro v
            simp only [Except.ok.injEq] at hfs
            subst hfs
            rw [hc₁.fallback]
            simp

/-- The result has leaves at no other paths. -/
theorem C24_paths (t : Tree A) (refs : Ref V) (vals fbs : Tree (List V)) (h : resolve t refs = .ok (vals, fbs))
    (path : List Name) (ha : t.at path = none) : vals.at path = none ∧ fbs.at path = none := by
  unfold resolve at h
  split at h
  · simp at h
  · rename_i t₀ h0
    split at h
    · simp at h
    · rename_i t₁ h1
      split at h
      · simp at h
      · rename_i vals' h2
        split at h
        · simp at h
        · rename_i fbs' h3
          simp only [Except.ok.injEq, Prod.mk.injEq] at h
          obtain ⟨rfl, rfl⟩ := h
          have n0 := (at_mapM _ t t₀ h0 path).2 ha
          have n1 := (applyRefs_spec _ _ _ _ _ _ h1 path).2 n0
          exact ⟨(at_mapM _ t₁ vals' h2 path).2 n1, (at_mapM _ t₁ fbs' h3 path).2 n1⟩

end Verif.References
