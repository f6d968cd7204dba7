import Verif.Describe.Spec

/-! # C27 -/

namespace Verif.Describe

/-- Descriptions as `describe` makes them. -/
inductive Canon (env : Env) : Desc → Prop
  | atom (a : Atom) : Canon env (.atom a)
  | list (l : List Desc) : (∀ x ∈ l, Canon env x) → Canon env (.list l)
  | dict (es : List (Name × Desc)) : (Dict.keys es).Nodup → Dict.get? es typeKey = none →
      (∀ k x, Dict.get? es k = some x → Canon env x) → Canon env (.dict es)
  | obj (es : List (Name × Desc)) (name : Name) (c : Class) : (Dict.keys es).Nodup → env.cls name = some c →
      Dict.get? es typeKey = some (.atom (.str name)) →
      (∀ k x, k ≠ typeKey → Dict.get? es k = some x → isUndescribed c k = false) →
      (∀ k a, k ≠ typeKey → Dict.get? es k = some (.atom a) → isDefault env c k (.atom a) = false) →
      (∀ k x, k ≠ typeKey → Dict.get? es k = some x → Canon env x) → Canon env (.dict es)

theorem canon_tolist (env : Env) : ∀ (shape : List Nat) (data : List Atom), Canon env (tolist shape data)
  | [], data => .atom _
  | n :: shape, data => by
    refine .list _ ?_
    intro x hx
    obtain ⟨i, -, rfl⟩ := List.mem_map.1 hx
    exact canon_tolist env shape _

/-! ### Lists and dictionaries -/

theorem describeList_some (env : Env) : ∀ (l : List Val) (ds : List Desc), describeList env l = some ds →
    l.length = ds.length ∧ ∀ (i : Nat) (v : Val) (d : Desc), l[i]? = some v → ds[i]? = some d → describe env v = some d
  | [], ds, h => by
    simp [describeList] at h; subst h; simp
  | v :: vs, ds, h => by
    simp only [describeList] at h
    split at h
    · rename_i d ds' h1 h2
      cases h
      obtain ⟨a, b⟩ := describeList_some env vs ds' h2
      refine ⟨by simp [a], ?_⟩
      intro i w e hw he
      cases i with
      | zero => simp at hw he; subst hw; subst he; exact h1
      | succ i => simp at hw he; exact b i w e hw he
    · cases h

theorem describeList_exists (env : Env) : ∀ (l : List Val), (∀ v ∈ l, ∃ d, describe env v = some d) → ∃ ds, describeList env l = some ds
  | [], _ => ⟨[], rfl⟩
  | v :: vs, h => by
    obtain ⟨d, hd⟩ := h v (by simp)
    obtain ⟨ds, hds⟩ := describeList_exists env vs (fun w hw => h w (by simp [hw]))
    exact ⟨d :: ds, by simp [describeList, hd, hds]⟩

theorem createList_some (env : Env) : ∀ (l : List Desc) (vs : List Val), createList env l = some vs →
    l.length = vs.length ∧ ∀ (i : Nat) (d : Desc) (v : Val), l[i]? = some d → vs[i]? = some v → create env d = some v
  | [], vs, h => by
    simp [createList] at h; subst h; simp
  | d :: ds, vs, h => by
    simp only [createList] at h
    split at h
    · rename_i v vs' h1 h2
      cases h
      obtain ⟨a, b⟩ := createList_some env ds vs' h2
      refine ⟨by simp [a], ?_⟩
      intro i w e hw he
      cases i with
      | zero => simp at hw he; subst hw; subst he; exact h1
      | succ i => simp at hw he; exact b i w e hw he
    · cases h

theorem createList_exists (env : Env) : ∀ (l : List Desc), (∀ d ∈ l, ∃ v, create env d = some v) → ∃ vs, createList env l = some vs
  | [], _ => ⟨[], rfl⟩
  | d :: ds, h => by
    obtain ⟨v, hv⟩ := h d (by simp)
    obtain ⟨vs, hvs⟩ := createList_exists env ds (fun w hw => h w (by simp [hw]))
    exact ⟨v :: vs, by simp [createList, hv, hvs]⟩

theorem describeDict_get (env : Env) : ∀ (es : List (Name × Val)) (ds : List (Name × Desc)), describeDict env es = some ds →
    Dict.keys ds = Dict.keys es ∧ ∀ k, Dict.get? ds k = (Dict.get? es k).bind (describe env)
  | [], ds, h => by
    simp [describeDict] at h; subst h; simp [Dict.keys]
  | (k', v) :: es, ds, h => by
    simp only [describeDict] at h
    split at h
    · rename_i d ds' h1 h2
      cases h
      obtain ⟨a, b⟩ := describeDict_get env es ds' h2
      refine ⟨by simpa [Dict.keys] using a, ?_⟩
      intro k
      rw [Dict.get?_cons, Dict.get?_cons]
      split
      · simp [h1]
      · exact b k
    · cases h

theorem describeDict_exists (env : Env) : ∀ (es : List (Name × Val)), (∀ p ∈ es, ∃ d, describe env p.2 = some d) →
    ∃ ds, describeDict env es = some ds
  | [], _ => ⟨[], rfl⟩
  | (k, v) :: es, h => by
    obtain ⟨d, hd⟩ := h (k, v) (by simp)
    obtain ⟨ds, hds⟩ := describeDict_exists env es (fun p hp => h p (by simp [hp]))
    simp only at hd
    exact ⟨(k, d) :: ds, by simp [describeDict, hd, hds]⟩

theorem createDict_get (env : Env) : ∀ (es : List (Name × Desc)) (vs : List (Name × Val)), createDict env es = some vs →
    Dict.keys vs = (Dict.keys es).filter (fun k => decide (k ≠ typeKey)) ∧
    ∀ k, Dict.get? vs k = if k = typeKey then none else (Dict.get? es k).bind (create env)
  | [], vs, h => by
    simp [createDict] at h; subst h; simp [Dict.keys]
  | (k', d) :: es, vs, h => by
    simp only [createDict] at h
    split at h
    · rename_i hk
      obtain ⟨a, b⟩ := createDict_get env es vs h
      refine ⟨by rw [a]; simp [Dict.keys, hk], ?_⟩
      intro k
      rw [b k, Dict.get?_cons]
      split
      · rfl
      · rename_i hne
        rw [if_neg (by rw [hk]; exact Ne.symm hne)]
    · rename_i hk
      split at h
      · rename_i v vs' h1 h2
        cases h
        obtain ⟨a, b⟩ := createDict_get env es vs' h2
        refine ⟨?_, ?_⟩
        · simp only [Dict.keys, List.map_cons] at a ⊢
          rw [List.filter_cons_of_pos (by simpa using hk), a]
        · intro k
          rw [Dict.get?_cons, Dict.get?_cons, b k]
          by_cases e : k' = k
          · subst e; simp [hk, h1]
          · simp [e]
      · cases h

theorem createDict_exists (env : Env) : ∀ (es : List (Name × Desc)), (∀ p ∈ es, p.1 ≠ typeKey → ∃ v, create env p.2 = some v) →
    ∃ vs, createDict env es = some vs
  | [], _ => ⟨[], rfl⟩
  | (k, d) :: es, h => by
    obtain ⟨vs, hvs⟩ := createDict_exists env es (fun p hp => h p (by simp [hp]))
    by_cases hk : k = typeKey
    · exact ⟨vs, by simp [createDict, hk, hvs]⟩
    · obtain ⟨v, hv⟩ := h (k, d) (by simp) hk
      simp only at hv
      exact ⟨(k, v) :: vs, by simp [createDict, hk, hv, hvs]⟩

/-- Which attributes are described, and how. -/
theorem describeMembers_get (env : Env) (c : Class) : ∀ (es : List (Name × Val)) (ds : List (Name × Desc)),
    (Dict.keys es).Nodup → describeMembers env c es = some ds →
    (Dict.keys ds).Nodup ∧ (∀ k, k ∈ Dict.keys ds → k ∈ Dict.keys es) ∧
    ∀ k, Dict.get? ds k = (Dict.get? es k).bind (fun v => if isUndescribed c k || isDefault env c k v then none else describe env v)
  | [], ds, _, h => by
    simp [describeMembers] at h; subst h; simp [Dict.keys]
  | (k', v) :: es, ds, hn, h => by
    simp only [Dict.keys, List.map_cons, List.nodup_cons] at hn
    simp only [describeMembers] at h
    split at h
    · rename_i hskip
      obtain ⟨a, b, d⟩ := describeMembers_get env c es ds hn.2 h
      refine ⟨a, fun k hk => ?_, ?_⟩
      · have := b k hk
        simp only [Dict.keys, List.map_cons, List.mem_cons] at this ⊢
        exact Or.inr this
      · intro k
        rw [d k, Dict.get?_cons]
        split
        · rename_i e
          subst e
          have : Dict.get? es k' = none := (Dict.get?_eq_none_iff es k').2 hn.1
          rw [this]
          simp only [Option.bind_none, Option.bind_some, hskip, if_true]
        · rfl
    · rename_i hskip
      split at h
      · rename_i d' ds' h1 h2
        cases h
        obtain ⟨a, b, d⟩ := describeMembers_get env c es ds' hn.2 h2
        refine ⟨?_, ?_, ?_⟩
        · simp only [Dict.keys, List.map_cons, List.nodup_cons]
          exact ⟨fun hm => hn.1 (b k' hm), a⟩
        · intro k hk
          simp only [Dict.keys, List.map_cons, List.mem_cons] at hk ⊢
          exact hk.imp id (b k)
        · intro k
          rw [Dict.get?_cons, Dict.get?_cons, d k]
          split
          · rename_i e
            subst e
            rw [Option.bind_some, if_neg hskip, h1]
          · rfl
      · cases h

theorem describeMembers_exists (env : Env) (c : Class) : ∀ (es : List (Name × Val)),
    (∀ p ∈ es, isUndescribed c p.1 = false → isDefault env c p.1 p.2 = false → ∃ d, describe env p.2 = some d) →
    ∃ ds, describeMembers env c es = some ds
  | [], _ => ⟨[], rfl⟩
  | (k, v) :: es, h => by
    obtain ⟨ds, hds⟩ := describeMembers_exists env c es (fun p hp => h p (by simp [hp]))
    by_cases hs : (isUndescribed c k || isDefault env c k v) = true
    · exact ⟨ds, by simp [describeMembers, hs, hds]⟩
    · have hs' : isUndescribed c k = false ∧ isDefault env c k v = false := by simpa using hs
      obtain ⟨d, hd⟩ := h (k, v) (by simp) hs'.1 hs'.2
      simp only at hd
      exact ⟨(k, d) :: ds, by simp [describeMembers, hs, hd, hds]⟩

theorem setAll_get (attrs : List (Name × Val)) : ∀ (es : List (Name × Val)), (Dict.keys es).Nodup → ∀ k,
    Dict.get? (setAll attrs es) k = match Dict.get? es k with | some v => some v | none => Dict.get? attrs k := by
  intro es
  induction es generalizing attrs with
  | nil => intro _ k; rfl
  | cons p es ih =>
    intro hn k
    obtain ⟨k', v⟩ := p
    simp only [Dict.keys, List.map_cons, List.nodup_cons] at hn
    show Dict.get? (setAll (Dict.set attrs k' v) es) k = _
    rw [ih _ hn.2 k, Dict.get?_cons]
    by_cases e : k' = k
    · subst e
      have : Dict.get? es k' = none := (Dict.get?_eq_none_iff es k').2 hn.1
      rw [this]
      simp [Dict.get?_set_self]
    · simp only [e, if_false]
      cases Dict.get? es k with
      | some w => rfl
      | none => exact Dict.get?_set_ne _ _ _ _ e

/-- The same, for attributes whose source may have repeated keys: the last one counts. -/
theorem setAll_nodup (es : List (Name × Val)) : ∀ (attrs : List (Name × Val)), (Dict.keys attrs).Nodup → (Dict.keys (setAll attrs es)).Nodup := by
  induction es with
  | nil => intro attrs h; exact h
  | cons p es ih => intro attrs h; exact ih _ (Dict.nodup_keys_set _ _ _ h)

theorem build_nodup (c : Class) (members : List (Name × Val)) : (Dict.keys (build c members)).Nodup :=
  setAll_nodup _ _ (setAll_nodup _ _ (setAll_nodup _ _ (by simp [Dict.keys])))

theorem setAll_get_of_not_mem (attrs : List (Name × Val)) : ∀ (es : List (Name × Val)) (k : Name), k ∉ Dict.keys es →
    Dict.get? (setAll attrs es) k = Dict.get? attrs k := by
  intro es
  induction es generalizing attrs with
  | nil => intro k _; rfl
  | cons p es ih =>
    intro k hk
    obtain ⟨k', v⟩ := p
    simp only [Dict.keys, List.map_cons, List.mem_cons, not_or] at hk
    show Dict.get? (setAll (Dict.set attrs k' v) es) k = _
    rw [ih _ k hk.2]
    exact Dict.get?_set_ne _ _ _ _ (Ne.symm hk.1)

theorem setAll_get_mem (attrs : List (Name × Val)) : ∀ (es : List (Name × Val)) (k : Name) (v : Val), Dict.get? (setAll attrs es) k = some v →
    (k, v) ∈ es ∨ (k ∉ Dict.keys es ∧ Dict.get? attrs k = some v) := by
  intro es
  induction es generalizing attrs with
  | nil => intro k v h; exact Or.inr ⟨by simp [Dict.keys], h⟩
  | cons p es ih =>
    intro k v h
    obtain ⟨k', v'⟩ := p
    rcases ih (Dict.set attrs k' v') k v h with h | ⟨h1, h2⟩
    · exact Or.inl (by simp [h])
    · by_cases e : k' = k
      · subst e
        rw [Dict.get?_set_self] at h2
        cases h2
        exact Or.inl (by simp)
      · rw [Dict.get?_set_ne _ _ _ _ e] at h2
        refine Or.inr ⟨?_, h2⟩
        simp only [Dict.keys, List.map_cons, List.mem_cons, not_or]
        exact ⟨Ne.symm e, h1⟩

/-- A description that is not an atom does not give a default value. -/
theorem isDefault_nonatom (env : Env) (c : Class) (k : Name) (d : Desc) (v : Val) (hd : ∀ a, d ≠ .atom a)
    (h : create env d = some v) : isDefault env c k v = false := by
  cases d with
  | atom a' => exact absurd rfl (hd a')
  | list l =>
    simp only [create, Option.map_eq_some_iff] at h
    obtain ⟨_, _, rfl⟩ := h
    rfl
  | dict es =>
    simp only [create] at h
    split at h
    · cases h
    · split at h
      · cases h; rfl
      · split at h
        · cases h
        · cases h; rfl
      · cases h

theorem same_trans {a b c : Desc} (h : Same a b) : Same b c → Same a c := by
  induction h generalizing c with
  | atom a => exact id
  | list l l' hl _ ih =>
    intro h'
    cases h' with
    | list _ l'' hl' h' =>
      refine .list _ _ (by omega) ?_
      intro i x z hx hz
      have hlt : i < l'.length := by
        obtain ⟨h', -⟩ := List.getElem?_eq_some_iff.1 hx
        omega
      exact ih i x l'[i] hx (List.getElem?_eq_getElem hlt) (h' i _ z (List.getElem?_eq_getElem hlt) hz)
  | dict es es' hn _ ih =>
    intro h'
    cases h' with
    | dict _ es'' hn' h' =>
      refine .dict _ _ (fun k => (hn k).trans (hn' k)) ?_
      intro k x z hx hz
      cases hy : Dict.get? es' k with
      | none => rw [← hn k] at hy; rw [hy] at hx; cases hx
      | some y => exact ih k x y hx hy (h' k y z hy hz)

theorem canon_list (env : Env) (l : List Val) (ds : List Desc) (h : describeList env l = some ds)
    (ih : ∀ v ∈ l, ∀ d, describe env v = some d → Canon env d) : Canon env (.list ds) := by
  obtain ⟨hl, hget⟩ := describeList_some env l ds h
  refine .list _ ?_
  intro x hx
  obtain ⟨i, hi⟩ := List.getElem?_of_mem hx
  have hlt : i < l.length := by
    obtain ⟨h', -⟩ := List.getElem?_eq_some_iff.1 hi
    omega
  exact ih l[i] (List.getElem_mem hlt) x (hget i _ x (List.getElem?_eq_getElem hlt) hi)

theorem isDefault_of_atom (env : Env) (c : Class) (k : Name) (v : Val) (hv : v.Wf) (a : Atom) (h : isDefault env c k v = false)
    (hd : describe env v = some (.atom a)) : isDefault env c k (.atom a) = false := by
  cases hv with
  | atom b => simp only [describe] at hd; cases hd; exact h
  | list l => simp [describe] at hd
  | tuple l => simp [describe] at hd
  | dict es => simp [describe] at hd
  | obj name attrs =>
    simp only [describe] at hd
    split at hd
    · cases hd
    · simp at hd
  | other id => simp [describe] at hd
  | arrayInit n shape data => simp [describe, tolist] at hd
  | array shape data =>
    cases shape with
    | nil =>
      simp only [describe, tolist] at hd
      cases hd
      exact h
    | cons n shape => simp [describe, tolist] at hd

/-- The round trip for descriptions. -/
theorem roundtrip (env : Env) (wf : env.Wf) (d : Desc) (h : Canon env d) :
    ∃ v, create env d = some v ∧ ∃ d', describe env v = some d' ∧ Same d d' := by
  induction h with
  | atom a => exact ⟨.atom a, rfl, .atom a, rfl, .atom a⟩
  | list l _ ih =>
    obtain ⟨vs, hvs⟩ := createList_exists env l (fun d hd => by obtain ⟨v, hv, -⟩ := ih d hd; exact ⟨v, hv⟩)
    obtain ⟨hl, hget⟩ := createList_some env l vs hvs
    have hdesc : ∀ v ∈ vs, ∃ d, describe env v = some d := by
      intro v hv
      obtain ⟨i, hi⟩ := List.getElem?_of_mem hv
      have hlt : i < l.length := by
        obtain ⟨h', -⟩ := List.getElem?_eq_some_iff.1 hi
        omega
      have := hget i l[i] v (List.getElem?_eq_getElem hlt) hi
      obtain ⟨v', h1, d', h2, -⟩ := ih l[i] (List.getElem_mem hlt)
      rw [this] at h1
      cases h1
      exact ⟨d', h2⟩
    obtain ⟨ds, hds⟩ := describeList_exists env vs hdesc
    obtain ⟨hl', hget'⟩ := describeList_some env vs ds hds
    refine ⟨.list vs, by simp [create, hvs], .list ds, by simp [describe, hds], .list _ _ (by omega) ?_⟩
    intro i x y hx hy
    have hlt : i < vs.length := by
      obtain ⟨h', -⟩ := List.getElem?_eq_some_iff.1 hy
      omega
    have h1 := hget i x vs[i] hx (List.getElem?_eq_getElem hlt)
    have h2 := hget' i vs[i] y (List.getElem?_eq_getElem hlt) hy
    obtain ⟨v', h3, d', h4, h5⟩ := ih x (List.mem_of_getElem? hx)
    rw [h1] at h3; cases h3
    rw [h2] at h4; cases h4
    exact h5
  | dict es hn hty _ ih =>
    obtain ⟨vs, hvs⟩ := createDict_exists env es (fun p hp _ => by
      obtain ⟨v, hv, -⟩ := ih p.1 p.2 (Dict.get?_of_mem hn hp)
      exact ⟨v, hv⟩)
    obtain ⟨hk, hget⟩ := createDict_get env es vs hvs
    have hvn : (Dict.keys vs).Nodup := by rw [hk]; exact hn.filter _
    have hdesc : ∀ p ∈ vs, ∃ d, describe env p.2 = some d := by
      intro p hp
      have h1 := Dict.get?_of_mem hvn hp
      rw [hget p.1] at h1
      split at h1
      · cases h1
      · obtain ⟨d, h2, h3⟩ := Option.bind_eq_some_iff.1 h1
        obtain ⟨v', h4, d', h5, -⟩ := ih _ _ h2
        rw [h3] at h4; cases h4
        exact ⟨d', h5⟩
    obtain ⟨ds, hds⟩ := describeDict_exists env vs hdesc
    obtain ⟨-, hget'⟩ := describeDict_get env vs ds hds
    have key : ∀ k, Dict.get? ds k = (Dict.get? es k).bind (fun d => (create env d).bind (describe env)) := by
      intro k
      rw [hget', hget]
      by_cases e : k = typeKey
      · subst e; simp [hty]
      · simp only [e, if_false]
        cases Dict.get? es k <;> rfl
    refine ⟨.dict vs, by simp [create, hvs, hty], .dict ds, by simp [describe, hds], .dict _ _ ?_ ?_⟩
    · intro k
      rw [key k]
      cases hk : Dict.get? es k with
      | none => simp
      | some d =>
        obtain ⟨v', h4, d', h5, -⟩ := ih _ _ hk
        simp [h4, h5]
    · intro k x y hx hy
      rw [key k, hx] at hy
      obtain ⟨v', h4, d', h5, h6⟩ := ih _ _ hx
      simp only [Option.bind_some, h4, h5] at hy
      cases hy
      exact h6
  | obj es name c hn hc hty hund hdef _ ih =>
    obtain ⟨vs, hvs⟩ := createDict_exists env es (fun p hp hpk => by
      obtain ⟨v, hv, -⟩ := ih p.1 p.2 hpk (Dict.get?_of_mem hn hp)
      exact ⟨v, hv⟩)
    obtain ⟨hk, hget⟩ := createDict_get env es vs hvs
    have hvn : (Dict.keys vs).Nodup := by rw [hk]; exact hn.filter _
    have hbn := build_nodup c vs
    have hin := wf.nodup name c _ hc hbn
    have hdn : (Dict.keys (c.defaults.map (fun p => (p.1, Val.atom p.2)))).Nodup := by
      have := wf.distinct name c hc
      simpa [Dict.keys, List.map_map, Function.comp_def] using this
    have hdget : ∀ k, Dict.get? (c.defaults.map (fun p => (p.1, Val.atom p.2))) k = (Dict.get? c.defaults k).map Val.atom := by
      intro k
      generalize c.defaults = l
      induction l with
      | nil => rfl
      | cons p l ihl =>
        obtain ⟨a, b⟩ := p
        simp only [List.map_cons, Dict.get?_cons, ihl]
        split <;> rfl
    -- the attributes of the new instance before `init`
    have hbget : ∀ k, isUndescribed c k = false → Dict.get? (build c vs) k =
        match Dict.get? vs k with
        | some v => some v
        | none => (Dict.get? c.defaults k).map Val.atom := by
      intro k hu
      unfold build
      rw [setAll_get _ _ hvn, setAll_get _ _ hdn, hdget]
      cases Dict.get? vs k with
      | some v => rfl
      | none =>
        simp only
        cases Dict.get? c.defaults k with
        | some d => rfl
        | none =>
          simp only [Option.map_none]
          rw [setAll_get_of_not_mem]
          · rfl
          · rw [Dict.mem_keys_iff]
            unfold isUndescribed Dict.has at hu
            simp [hu]
    -- what is known about a described member
    have hmem : ∀ k v, isUndescribed c k = false → Dict.get? (build c vs) k = some v → isDefault env c k v = false →
        ∃ d, Dict.get? es k = some d ∧ k ≠ typeKey ∧ create env d = some v := by
      intro k v hu hv hd
      rw [hbget k hu] at hv
      cases hvk : Dict.get? vs k with
      | some v' =>
        rw [hvk] at hv
        cases hv
        rw [hget k] at hvk
        split at hvk
        · cases hvk
        · rename_i hne
          obtain ⟨d, h1, h2⟩ := Option.bind_eq_some_iff.1 hvk
          exact ⟨d, h1, hne, h2⟩
      | none =>
        rw [hvk] at hv
        simp only [Option.map_eq_some_iff] at hv
        obtain ⟨d, h1, rfl⟩ := hv
        simp [isDefault, h1, wf.refl name c k d hc h1] at hd
    have hmem' : ∀ k d, Dict.get? es k = some d → k ≠ typeKey → ∃ v, create env d = some v ∧ Dict.get? (build c vs) k = some v ∧
        isDefault env c k v = false := by
      intro k d hd hne
      obtain ⟨v, hv, -⟩ := ih k d hne hd
      have hvk : Dict.get? vs k = some v := by rw [hget k]; simp [hne, hd, hv]
      refine ⟨v, hv, by rw [hbget k (hund k d hne hd), hvk], ?_⟩
      by_cases ha : ∃ a, d = .atom a
      · obtain ⟨a, rfl⟩ := ha
        simp only [create] at hv
        cases hv
        exact hdef k a hne hd
      · exact isDefault_nonatom env c k d v (fun a e => ha ⟨a, e⟩) hv
    have hdesc : ∀ p ∈ c.init (build c vs), isUndescribed c p.1 = false → isDefault env c p.1 p.2 = false → ∃ d, describe env p.2 = some d := by
      intro p hp hu hd
      have h1 := Dict.get?_of_mem hin hp
      have hk := wf.keeps name c _ p.1 hc hu hbn
      cases hb : Dict.get? (build c vs) p.1 with
      | none => rw [hk.none hb] at h1; cases h1
      | some v =>
        obtain ⟨v', h2, h3, h4⟩ := hk.some v hb
        rw [h1] at h2; cases h2
        rw [hd] at h4
        obtain ⟨d, h5, h6, h7⟩ := hmem p.1 v hu hb h4.symm
        obtain ⟨v'', h8, d', h9, -⟩ := ih p.1 d h6 h5
        rw [h7] at h8; cases h8
        obtain ⟨d'', h10, -⟩ := h3 d' h9
        exact ⟨d'', h10⟩
    obtain ⟨ds, hds⟩ := describeMembers_exists env c _ hdesc
    obtain ⟨hdsn, hsub, hget'⟩ := describeMembers_get env c _ ds hin hds
    refine ⟨.obj name (c.init (build c vs)), by simp [create, hvs, hty, hc], .dict (Dict.set ds typeKey (.atom (.str name))),
      by simp [describe, hc, hds], ?_⟩
    -- the members one by one
    have key : ∀ k, k ≠ typeKey → (Dict.get? es k = none → Dict.get? ds k = none) ∧
        ∀ x, Dict.get? es k = some x → ∃ y, Dict.get? ds k = some y ∧ Same x y := by
      intro k hne
      constructor
      · intro hno
        rw [hget' k]
        cases hi : Dict.get? (c.init (build c vs)) k with
        | none => rfl
        | some v' =>
          simp only [Option.bind_some]
          by_cases hu : isUndescribed c k = true
          · simp [hu]
          · have hu' : isUndescribed c k = false := by simpa using hu
            have hk := wf.keeps name c _ k hc hu' hbn
            cases hb : Dict.get? (build c vs) k with
            | none => rw [hk.none hb] at hi; cases hi
            | some v =>
              obtain ⟨v'', h2, -, h4⟩ := hk.some v hb
              rw [hi] at h2; cases h2
              have : isDefault env c k v = true := by
                cases hdv : isDefault env c k v with
                | true => rfl
                | false =>
                  obtain ⟨d, h5, -, -⟩ := hmem k v hu' hb hdv
                  rw [hno] at h5; cases h5
              simp [h4, this]
      · intro x hx
        have hu := hund k x hne hx
        obtain ⟨v, h1, h2, h3⟩ := hmem' k x hx hne
        obtain ⟨v', h4, h5, h6⟩ := (wf.keeps name c _ k hc hu hbn).some v h2
        obtain ⟨v'', h7, d', h8, h9⟩ := ih k x hne hx
        rw [h1] at h7; cases h7
        obtain ⟨d'', h10, h11⟩ := h5 d' h8
        refine ⟨d'', ?_, ?_⟩
        · rw [hget' k, h4]
          simp [hu, h6, h3, h10]
        · exact same_trans h9 h11
    refine .dict _ _ ?_ ?_
    · intro k
      rw [Dict.get?_set]
      split
      · rename_i e; subst e; simp [hty]
      · rename_i hne
        constructor
        · exact (key k (Ne.symm hne)).1
        · intro h
          cases hx : Dict.get? es k with
          | none => rfl
          | some x =>
            obtain ⟨y, h1, -⟩ := (key k (Ne.symm hne)).2 x hx
            rw [h] at h1; cases h1
    · intro k x y hx hy
      rw [Dict.get?_set] at hy
      split at hy
      · rename_i e; subst e
        rw [hty] at hx
        cases hx; cases hy
        exact .atom _
      · rename_i hne
        obtain ⟨y', h1, h2⟩ := (key k (Ne.symm hne)).2 x hx
        rw [h1] at hy; cases hy
        exact h2

/-- Descriptions are canonical. -/
theorem canon_of_describe (env : Env) (wf : env.Wf) (v : Val) (hv : v.Wf) : ∀ d, describe env v = some d → Canon env d := by
  induction hv with
  | atom a => intro d h; simp [describe] at h; subst h; exact .atom a
  | array shape data => intro d h; simp [describe] at h; subst h; exact canon_tolist env shape data
  | arrayInit n shape data => intro d h; simp [describe] at h; subst h; exact canon_tolist env (n :: shape) data
  | other id => intro d h; simp [describe] at h
  | list l _ ih =>
    intro d h
    simp only [describe, Option.map_eq_some_iff] at h
    obtain ⟨ds, h1, rfl⟩ := h
    exact canon_list env l ds h1 ih
  | tuple l _ ih =>
    intro d h
    simp only [describe, Option.map_eq_some_iff] at h
    obtain ⟨ds, h1, rfl⟩ := h
    exact canon_list env l ds h1 ih
  | dict es hn hty _ ih =>
    intro d h
    simp only [describe, Option.map_eq_some_iff] at h
    obtain ⟨ds, h1, rfl⟩ := h
    obtain ⟨hk, hget⟩ := describeDict_get env es ds h1
    refine .dict _ (by rw [hk]; exact hn) ?_ ?_
    · rw [Dict.get?_eq_none_iff, hk]; exact hty
    · intro k x hx
      rw [hget k] at hx
      obtain ⟨v, h2, h3⟩ := Option.bind_eq_some_iff.1 hx
      exact ih (k, v) (Dict.mem_of_get? h2) x h3
  | obj name attrs hn hty hw ih =>
    intro d h
    simp only [describe] at h
    split at h
    · cases h
    · rename_i c hc
      simp only [Option.map_eq_some_iff] at h
      obtain ⟨ds, h1, rfl⟩ := h
      obtain ⟨hdn, hsub, hget⟩ := describeMembers_get env c attrs ds hn h1
      have hmem : ∀ k x, k ≠ typeKey → Dict.get? (Dict.set ds typeKey (.atom (.str name))) k = some x →
          ∃ v, Dict.get? attrs k = some v ∧ isUndescribed c k = false ∧ isDefault env c k v = false ∧ describe env v = some x := by
        intro k x hne hx
        rw [Dict.get?_set_ne _ _ _ _ (Ne.symm hne), hget k] at hx
        obtain ⟨v, h2, h3⟩ := Option.bind_eq_some_iff.1 hx
        split at h3
        · cases h3
        · rename_i hs
          have hs' : isUndescribed c k = false ∧ isDefault env c k v = false := by simpa using hs
          exact ⟨v, h2, hs'.1, hs'.2, h3⟩
      refine .obj _ name c (Dict.nodup_keys_set _ _ _ hdn) hc (Dict.get?_set_self _ _ _) ?_ ?_ ?_
      · intro k x hne hx
        obtain ⟨v, -, h3, -⟩ := hmem k x hne hx
        exact h3
      · intro k a hne hx
        obtain ⟨v, h2, h3, h4, h5⟩ := hmem k _ hne hx
        exact isDefault_of_atom env c k v (hw (k, v) (Dict.mem_of_get? h2)) a h4 h5
      · intro k x hne hx
        obtain ⟨v, h2, -, -, h5⟩ := hmem k x hne hx
        exact ih (k, v) (Dict.mem_of_get? h2) x h5

/-- **C27**: creating a value from its description works and describing the new value again gives
the same description. -/
theorem C27_roundtrip (env : Env) (wf : env.Wf) (v : Val) (hv : v.Wf) (d : Desc) (h : describe env v = some d) :
    ∃ v', create env d = some v' ∧ ∃ d', describe env v' = some d' ∧ Same d d' :=
  roundtrip env wf d (canon_of_describe env wf v hv d h)

/-! ### Basic values -/

theorem nested_create (env : Env) : ∀ (shape : List Nat) (data : List Atom), create env (tolist shape data) = some (nested shape data)
  | [], data => rfl
  | n :: shape, data => by
    have key : ∀ l : List Nat, createList env (l.map (fun i => tolist shape (data.drop (i * shape.prod)))) =
        some (l.map (fun i => nested shape (data.drop (i * shape.prod)))) := by
      intro l
      induction l with
      | nil => rfl
      | cons i l ih => simp [createList, nested_create env shape, ih]
    simp [tolist, nested, create, key]

/-- **C27** (basic values): numbers, strings, booleans, `None`, lists and dictionaries without
`@type` come back equal; tuples and arrays come back as lists. -/
theorem C27_basic (env : Env) (v : Val) (h : v.Basic) : (describe env v).bind (create env) = some v.lists := by
  have hlist : ∀ l : List Val, (∀ v ∈ l, (describe env v).bind (create env) = some v.lists) →
      (describeList env l).bind (createList env) = some (listsList l) := by
    intro l
    induction l with
    | nil => intro _; rfl
    | cons v l ih =>
      intro hl
      obtain ⟨d, h1, h2⟩ := Option.bind_eq_some_iff.1 (hl v (by simp))
      obtain ⟨ds, h3, h4⟩ := Option.bind_eq_some_iff.1 (ih (fun w hw => hl w (by simp [hw])))
      simp [describeList, h1, h3, createList, h2, h4, listsList]
  induction h with
  | atom a => rfl
  | array shape data => simp [describe, nested_create, Val.lists]
  | list l _ ih =>
    obtain ⟨ds, h3, h4⟩ := Option.bind_eq_some_iff.1 (hlist l ih)
    simp [describe, h3, create, h4, Val.lists]
  | tuple l _ ih =>
    obtain ⟨ds, h3, h4⟩ := Option.bind_eq_some_iff.1 (hlist l ih)
    simp [describe, h3, create, h4, Val.lists]
  | dict es hn hty _ ih =>
    have hd : ∀ es : List (Name × Val), typeKey ∉ Dict.keys es → (∀ p ∈ es, (describe env p.2).bind (create env) = some p.2.lists) →
        ∃ ds, describeDict env es = some ds ∧ createDict env ds = some (listsDict es) := by
      intro es
      induction es with
      | nil => intro _ _; exact ⟨[], rfl, rfl⟩
      | cons p es ihe =>
        intro hty hp
        obtain ⟨k, v⟩ := p
        simp only [Dict.keys, List.map_cons, List.mem_cons, not_or] at hty
        obtain ⟨d, h1, h2⟩ := Option.bind_eq_some_iff.1 (hp (k, v) (by simp))
        obtain ⟨ds, h3, h4⟩ := ihe hty.2 (fun q hq => hp q (by simp [hq]))
        simp only at h1 h2
        exact ⟨(k, d) :: ds, by simp [describeDict, h1, h3], by simp [createDict, Ne.symm hty.1, h2, h4, listsDict]⟩
    obtain ⟨ds, h3, h4⟩ := hd es hty ih
    have hno : Dict.get? ds typeKey = none := by
      rw [Dict.get?_eq_none_iff, (describeDict_get env es ds h3).1]
      exact hty
    simp [describe, h3, create, h4, hno, Val.lists]

/-- A value without tuples and arrays comes back equal. -/
theorem C27_basic_equal (env : Env) (v : Val) (h : v.Basic) (hl : v.lists = v) : (describe env v).bind (create env) = some v := by
  rw [C27_basic env v h, hl]

/-- The restriction to dictionaries without `@type` is needed: such a dictionary comes back as an
object or not at all. -/
theorem C27_type_key (env : Env) (name : Name) (v : Val)
    (h : (describe env (.dict [(typeKey, .atom (.str name))])).bind (create env) = some v) : ∃ attrs, v = .obj name attrs := by
  simp [describe, describeDict, create, createDict, Dict.get?_cons] at h
  split at h
  · cases h
  · cases h; exact ⟨_, rfl⟩

/-! ### The classes of brainstorm

Two things `__init_from_description__` does: a new `rnd` for seedable objects (randomness.py:107-108)
and, for trainers, sorting the hooks by priority and telling them their names
(training/trainer.py:118-126). -/

/-- `Seedable.__init__(self)`. -/
def seedableInit (attrs : List (Name × Val)) : List (Name × Val) := Dict.set attrs (str "rnd") (.other 0)

/-- `mon.__name__ = name`, for hooks. -/
def named (isHook : Name → Bool) (k : Name) : Val → Val
  | .obj c a => if isHook c then .obj c (Dict.set a (str "__name__") (.atom (.str k))) else .obj c a
  | v => v

/-- `Trainer.__init_from_description__` (trainer.py:118-126); `sort` is the sorting by priority.  (A
list with repeated keys is no dictionary.) -/
def trainerInit (isHook : Name → Bool) (sort : List (Name × Val) → List (Name × Val)) (attrs : List (Name × Val)) : List (Name × Val) :=
  match Dict.get? attrs (str "hooks") with
  | some (.dict hs) =>
    if (Dict.keys hs).Nodup then Dict.set attrs (str "hooks") (.dict ((sort hs).map (fun p => (p.1, named isHook p.1 p.2)))) else attrs
  | _ => attrs

theorem same_refl : ∀ (n : Nat) (d : Desc), sizeOf d < n → Same d d := by
  intro n
  induction n with
  | zero => intro d h; omega
  | succ n ih =>
    intro d h
    cases d with
    | atom a => exact .atom a
    | list l =>
      refine .list l l rfl ?_
      intro i x y hx hy
      rw [hx] at hy; cases hy
      have := List.sizeOf_lt_of_mem (List.mem_of_getElem? hx)
      simp at h
      exact ih x (by omega)
    | dict es =>
      refine .dict es es (fun _ => Iff.rfl) ?_
      intro k x y hx hy
      rw [hx] at hy; cases hy
      have := List.sizeOf_lt_of_mem (Dict.mem_of_get? hx)
      simp at h this
      exact ih x (by omega)

theorem alike_refl (env : Env) (v : Val) : Alike env v v := fun d h => ⟨d, h, same_refl _ d (Nat.lt_succ_self _)⟩

theorem keeps_of_eq (env : Env) (c : Class) (k : Name) (attrs attrs' : List (Name × Val)) (h : Dict.get? attrs' k = Dict.get? attrs k) :
    Keeps env c k attrs attrs' :=
  ⟨fun e => by rw [h, e], fun v e => ⟨v, by rw [h, e], alike_refl env v, rfl⟩⟩

/-- Setting an undescribed attribute does not change the description. -/
theorem describeMembers_set (env : Env) (c : Class) (k : Name) (v : Val) (hu : isUndescribed c k = true) :
    ∀ attrs : List (Name × Val), describeMembers env c (Dict.set attrs k v) = describeMembers env c attrs
  | [] => by simp [Dict.set, describeMembers, hu]
  | (k', v') :: attrs => by
    by_cases e : k' = k
    · subst e; simp [Dict.set, describeMembers, hu]
    · simp [Dict.set, e, describeMembers, describeMembers_set env c k v hu attrs]

theorem describe_named (env : Env) (isHook : Name → Bool) (hh : ∀ n c, isHook n = true → env.cls n = some c → isUndescribed c (str "__name__") = true)
    (k : Name) (v : Val) : describe env (named isHook k v) = describe env v := by
  cases v with
  | obj n a =>
    by_cases hn : isHook n = true
    · simp only [named, hn, if_true, describe]
      cases hc : env.cls n with
      | none => rfl
      | some c => simp only [describeMembers_set env c _ _ (hh n c hn hc)]
    · simp [named, hn]
  | _ => rfl

/-- Sorting and naming the hooks keeps the description of a trainer. -/
theorem trainer_keeps (env : Env) (c : Class) (isHook : Name → Bool)
    (hh : ∀ n c, isHook n = true → env.cls n = some c → isUndescribed c (str "__name__") = true)
    (sort : List (Name × Val) → List (Name × Val)) (hs : ∀ l, (sort l).Perm l) (k : Name) (attrs : List (Name × Val)) :
    Keeps env c k attrs (trainerInit isHook sort attrs) := by
  unfold trainerInit
  split
  · rename_i hooks hg
    split
    · rename_i hnd
      by_cases e : str "hooks" = k
      · subst e
        refine ⟨fun h => absurd (hg.symm.trans h) (by simp), ?_⟩
        intro v hv
        rw [hg] at hv; cases hv
        refine ⟨_, Dict.get?_set_self _ _ _, ?_, rfl⟩
        intro d hd
        simp only [describe, Option.map_eq_some_iff] at hd
        obtain ⟨ds, h1, rfl⟩ := hd
        obtain ⟨hk, hget⟩ := describeDict_get env hooks ds h1
        have hp := hs hooks
        have hkeys : Dict.keys ((sort hooks).map (fun p => (p.1, named isHook p.1 p.2))) = Dict.keys (sort hooks) := by
          simp [Dict.keys, List.map_map, Function.comp_def]
        have hsn : (Dict.keys (sort hooks)).Nodup := (hp.map _).nodup_iff.2 hnd
        have hsget : ∀ k, Dict.get? (sort hooks) k = Dict.get? hooks k := by
          intro k
          cases hx : Dict.get? hooks k with
          | some x => exact Dict.get?_of_mem hsn (hp.mem_iff.2 (Dict.mem_of_get? hx))
          | none =>
            rw [Dict.get?_eq_none_iff] at hx ⊢
            exact fun hm => hx ((hp.map _).mem_iff.1 hm)
        have hnget : ∀ (l : List (Name × Val)) (k : Name), Dict.get? (l.map (fun p => (p.1, named isHook p.1 p.2))) k =
            (Dict.get? l k).map (named isHook k) := by
          intro l k
          induction l with
          | nil => rfl
          | cons p l ih =>
            obtain ⟨a, b⟩ := p
            simp only [List.map_cons, Dict.get?_cons, ih]
            split
            · rename_i e; subst e; rfl
            · rfl
        obtain ⟨ds', h2⟩ := describeDict_exists env ((sort hooks).map (fun p => (p.1, named isHook p.1 p.2))) (by
          intro p hp'
          obtain ⟨q, hq, rfl⟩ := List.mem_map.1 hp'
          simp only [describe_named env isHook hh]
          have h3 := hget q.1
          rw [Dict.get?_of_mem hnd (hp.mem_iff.1 hq)] at h3
          have h4 : q.1 ∈ Dict.keys ds := by rw [hk]; exact List.mem_map.2 ⟨q, hp.mem_iff.1 hq, rfl⟩
          rw [Dict.mem_keys_iff, h3] at h4
          simp only [Option.bind_some, Option.isSome_iff_exists] at h4
          exact h4)
        obtain ⟨-, hget'⟩ := describeDict_get env _ ds' h2
        have hsame : ∀ k, Dict.get? ds' k = Dict.get? ds k := by
          intro k
          rw [hget' k, hget k, hnget, hsget]
          cases Dict.get? hooks k with
          | none => rfl
          | some v => exact describe_named env isHook hh k v
        refine ⟨.dict ds', by simp [describe, h2], .dict _ _ (fun k => by rw [hsame k]) ?_⟩
        intro k x y hx hy
        rw [hsame k, hx] at hy
        cases hy
        exact same_refl _ x (Nat.lt_succ_self _)
      · exact keeps_of_eq env c k _ _ (Dict.get?_set_ne _ _ _ _ e)
    · exact keeps_of_eq env c k _ _ rfl
  · exact keeps_of_eq env c k _ _ rfl

/-! ### Examples -/

/-- Some classes of brainstorm: `Gaussian` (initializers.py:179-192), `SgdStepper`
(steppers.py:24-42), `StopAfterEpoch` (hooks.py:510-541) and `Trainer` (trainer.py:15-27). -/
def demo : Env where
  cls := fun n =>
    if n = str "Gaussian" then some ⟨[(str "rnd", .atom .none)], [(str "mean", .float 0)], seedableInit⟩
    else if n = str "SgdStepper" then some ⟨[(str "net", .atom .none)], [], id⟩
    else if n = str "StopAfterEpoch" then
      some ⟨[(str "__name__", .atom .none), (str "run_verbosity", .atom .none)],
        [(str "timescale", .str (str "epoch")), (str "interval", .int 1), (str "verbose", .none)], id⟩
    else if n = str "Trainer" then
      some ⟨[(str "current_epoch_nr", .atom (.int 0)), (str "logs", .dict [])], [(str "verbose", .bool true)],
        trainerInit (fun n => n = str "StopAfterEpoch") List.reverse⟩
    else none
  eq := fun a b => a = b

theorem demo_wf : demo.Wf := by
  have hcases : ∀ n c, demo.cls n = some c →
      c = ⟨[(str "rnd", .atom .none)], [(str "mean", .float 0)], seedableInit⟩ ∨
      c = ⟨[(str "net", .atom .none)], [], id⟩ ∨
      c = ⟨[(str "__name__", .atom .none), (str "run_verbosity", .atom .none)],
        [(str "timescale", .str (str "epoch")), (str "interval", .int 1), (str "verbose", .none)], id⟩ ∨
      c = ⟨[(str "current_epoch_nr", .atom (.int 0)), (str "logs", .dict [])], [(str "verbose", .bool true)],
        trainerInit (fun n => n = str "StopAfterEpoch") List.reverse⟩ := by
    intro n c h
    simp only [demo] at h
    split at h
    · cases h; exact Or.inl rfl
    · split at h
      · cases h; exact Or.inr (Or.inl rfl)
      · split at h
        · cases h; exact Or.inr (Or.inr (Or.inl rfl))
        · split at h
          · cases h; exact Or.inr (Or.inr (Or.inr rfl))
          · cases h
  have htr : ∀ attrs : List (Name × Val), (Dict.keys attrs).Nodup →
      (Dict.keys (trainerInit (fun n => n = str "StopAfterEpoch") List.reverse attrs)).Nodup := by
    intro attrs hn
    unfold trainerInit
    split
    · split
      · exact Dict.nodup_keys_set _ _ _ hn
      · exact hn
    · exact hn
  refine ⟨?_, ?_, ?_, ?_, ?_, ?_⟩
  · intro n c h; rcases hcases n c h with rfl | rfl | rfl | rfl <;> decide +kernel
  · intro n c h; rcases hcases n c h with rfl | rfl | rfl | rfl <;> decide +kernel
  · intro n c h; rcases hcases n c h with rfl | rfl | rfl | rfl <;> decide +kernel
  · intro n c k d h hd; simp [demo]
  · intro n c attrs h hn
    rcases hcases n c h with rfl | rfl | rfl | rfl
    · exact Dict.nodup_keys_set _ _ _ hn
    · exact hn
    · exact hn
    · exact htr attrs hn
  · intro n c attrs k h hu hn
    rcases hcases n c h with rfl | rfl | rfl | rfl
    · refine keeps_of_eq _ _ _ _ _ (Dict.get?_set_ne _ _ _ _ ?_)
      rintro rfl
      simp [isUndescribed, Dict.has, Dict.get?_cons] at hu
    · exact keeps_of_eq _ _ _ _ _ rfl
    · exact keeps_of_eq _ _ _ _ _ rfl
    · refine trainer_keeps demo _ _ ?_ _ List.reverse_perm k attrs
      intro m c hm hc
      have : m = str "StopAfterEpoch" := by simpa using hm
      subst this
      have e : demo.cls (str "StopAfterEpoch") = some ⟨[(str "__name__", .atom .none), (str "run_verbosity", .atom .none)],
        [(str "timescale", .str (str "epoch")), (str "interval", .int 1), (str "verbose", .none)], id⟩ := by
        have h1 : str "StopAfterEpoch" ≠ str "Gaussian" := by decide +kernel
        have h2 : str "StopAfterEpoch" ≠ str "SgdStepper" := by decide +kernel
        simp [demo, h1, h2]
      rw [e] at hc
      cases hc
      decide +kernel

/-- A trainer with two hooks. -/
def demoTrainer : Val := .obj (str "Trainer")
  [(str "stepper", .obj (str "SgdStepper") [(str "net", .other 3), (str "learning_rate", .atom (.float 5))]),
   (str "verbose", .atom (.bool true)), (str "logs", .other 4),
   (str "hooks", .dict [(str "a", .obj (str "StopAfterEpoch") [(str "interval", .atom (.int 1)), (str "max_epochs", .atom (.int 7))]),
     (str "b", .obj (str "StopAfterEpoch") [(str "interval", .atom (.int 3)), (str "max_epochs", .atom (.int 2))])])]

mutual
/-- Lean's derived equality does not cover nested types. -/
def Desc.beq : Desc → Desc → Bool
  | .atom a, .atom b => a = b
  | .list l, .list m => beqList l m
  | .dict l, .dict m => beqDict l m
  | _, _ => false
def beqList : List Desc → List Desc → Bool
  | [], [] => true
  | a :: l, b :: m => a.beq b && beqList l m
  | _, _ => false
def beqDict : List (Name × Desc) → List (Name × Desc) → Bool
  | [], [] => true
  | (j, a) :: l, (k, b) :: m => (j = k) && a.beq b && beqDict l m
  | _, _ => false
end

example : ((describe demo demoTrainer).getD (.atom .none)).beq (.dict
    [(str "stepper", .dict [(str "learning_rate", .atom (.float 5)), (str "@type", .atom (.str (str "SgdStepper")))]),
     (str "hooks", .dict
      [(str "a", .dict [(str "max_epochs", .atom (.int 7)), (str "@type", .atom (.str (str "StopAfterEpoch")))]),
       (str "b", .dict [(str "interval", .atom (.int 3)), (str "max_epochs", .atom (.int 2)), (str "@type", .atom (.str (str "StopAfterEpoch")))])]),
     (str "@type", .atom (.str (str "Trainer")))]) = true := by decide +kernel

/-- The trainer is created again, with its hooks in the new order. -/
example : ((((describe demo demoTrainer).bind (create demo)).bind (describe demo)).getD (.atom .none)).beq (.dict
    [(str "stepper", .dict [(str "learning_rate", .atom (.float 5)), (str "@type", .atom (.str (str "SgdStepper")))]),
     (str "hooks", .dict
      [(str "b", .dict [(str "interval", .atom (.int 3)), (str "max_epochs", .atom (.int 2)), (str "@type", .atom (.str (str "StopAfterEpoch")))]),
       (str "a", .dict [(str "max_epochs", .atom (.int 7)), (str "@type", .atom (.str (str "StopAfterEpoch")))])]),
     (str "@type", .atom (.str (str "Trainer")))]) = true := by decide +kernel

example : (Val.dict [(str "x", .list [.atom (.int 1), .tuple [.atom .none]]), (str "y", .array [1, 2] [.int 5, .int 6])]).Basic := by
  refine .dict _ (by decide +kernel) (by decide +kernel) ?_
  intro p hp
  simp at hp
  rcases hp with rfl | rfl
  · refine .list _ ?_
    intro v hv
    simp at hv
    rcases hv with rfl | rfl
    · exact .atom _
    · refine .tuple _ ?_
      intro v hv
      simp at hv
      subst hv
      exact .atom _
  · exact .array _ _

end Verif.Describe
