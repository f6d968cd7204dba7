import Verif.References.InitProps
import Verif.SaveLoad.Model
import Verif.SaveLoad.Naturality
import Verif.Modifiers.Install

/-!
# The arguments of `initialize`, `set_weight_modifiers` and `set_gradient_modifiers`
(network.py:162, 243-248, 276, 303-304, 318, 344-345, 544-566)
-/

namespace Verif.References

open Verif.SaveLoad

variable {V G Arr : Type}

/-- `references.update(ref_dict)`. -/
def updateAll (references kw : List (Name × Ref V)) : List (Name × Ref V) :=
  kw.foldl (fun d e => Dict.set d e.1 e.2) references

/-- The dictionary an argument stands for (network.py:545-550): nothing, a dictionary, or a default. -/
def asDict : Option (Ref V) → List (Name × Ref V)
  | none => []
  | some (.dict es) => es
  | some (.val v) => [(str "default", .val v)]

/-- `_update_references_with_dict` (network.py:544-558); `none` is the `TypeError` about conflicting values. -/
def updateReferences (given : Option (Ref V)) (kw : List (Name × Ref V)) : Option (List (Name × Ref V)) :=
  if (Dict.keys (asDict given)).any (fun k => k ∈ Dict.keys kw) then none else some (updateAll (asDict given) kw)

/-- What the argument holds after references have been stored in the dictionary it stands for: the code uses the
dictionary of the caller itself (network.py:548). -/
def heldAfter (given : Option (Ref V)) (references : List (Name × Ref V)) : Option (Ref V) := match given with
  | some (.dict _) => some (.dict references)
  | g => g

/-- What a user gives as an initializer: a number or an initializer object, or a list or array, where `kind` stands for
its contents. -/
inductive Raw
  | init (i : Init)
  | list (kind : Nat)
deriving DecidableEq, Repr

mutual
/-- `_replace_lists_with_array_initializers` (network.py:561-566): lists and arrays become `ArrayInitializer` objects,
numbered from `n` on.  The dictionaries are changed in place. -/
def replaceLists : Nat → Ref Raw → Ref Raw × Nat
  | n, .val (.list k) => (.val (.init (.object n k)), n + 1)
  | n, .val (.init i) => (.val (.init i), n)
  | n, .dict es => let r := replaceEntries n es; (.dict r.1, r.2)
/-- For the entries of a dictionary. -/
def replaceEntries : Nat → List (Name × Ref Raw) → List (Name × Ref Raw) × Nat
  | n, [] => ([], n)
  | n, (k, r) :: es =>
    let a := replaceLists n r
    let b := replaceEntries a.2 es
    ((k, a.1) :: b.1, b.2)
end

/-- The initializer that was given; after `replaceLists` there are no lists. -/
def Raw.toInit : Raw → Init
  | .init i => i
  | .list k => .object 0 k

/-- `get_description` (describable.py:161-203): an `ArrayInitializer` describes itself by its list
(initializers.py:55-56). -/
def describeRaw : Raw → InitDesc
  | .init i => describeInit i
  | .list k => .object k

/-- What a call of `initialize` does. -/
structure Called (G Arr : Type) where
  /-- what the first argument holds after the call -/
  held : Option (Ref Raw)
  /-- the number of the next new object -/
  next : Nat
  /-- `net.initializers`, if it was set -/
  initializers : Option (Ref InitDesc)
  /-- what `initNetwork` does, or `none` for the `TypeError` about conflicting values -/
  result : Option (InitResult G Arr)

/-- `net.initialize(given, seed, **kw)` (network.py:162, 243-274). -/
def initCall (sys : Sys G Arr) (ps : Params) (given : Option (Ref Raw)) (kw : List (Name × Ref Raw)) (seed : Option Nat)
    (rnd : G) (st : Store G) (next : Nat) : Called G Arr :=
  match updateReferences given kw with
  | none => ⟨given, next, none, none⟩
  | some refs =>
    let r := replaceEntries next refs
    ⟨heldAfter given r.1, r.2, some (Ref.dict refs |>.map describeRaw),
      some (initNetwork sys ps (Ref.dict r.1 |>.map Raw.toInit) seed rnd st)⟩

/-- `net.set_weight_modifiers(given, **kw)` (network.py:276, 303-315) and `set_gradient_modifiers` (318, 344-356): what the
first argument holds after the call, and the result, `none` for the `TypeError`. -/
def setModifiersCall {M : Type} (order : List Modifiers.Entry → List Modifiers.Entry) (ps : Params) (given : Option (Ref Modifiers.Entry))
    (kw : List (Name × Ref Modifiers.Entry)) (h : Modifiers.Heap M) :
    Option (Ref Modifiers.Entry) × Option (Except Modifiers.MErr (Modifiers.Heap M × Modifiers.Installed)) :=
  match updateReferences given kw with
  | none => (given, none)
  | some refs => (heldAfter given refs, some (Modifiers.setModifiers order ps (.dict refs) h))

/-! ### Lemmas -/

theorem set_new (d : List (Name × Ref V)) (k : Name) (v : Ref V) (h : k ∉ Dict.keys d) : Dict.set d k v = d ++ [(k, v)] := by
  induction d with
  | nil => rfl
  | cons e d ih =>
    obtain ⟨k', v'⟩ := e
    simp only [Dict.keys, List.map_cons, List.mem_cons, not_or] at h
    rw [Dict.set, if_neg (fun e => h.1 e.symm), ih h.2]
    rfl

theorem updateAll_new : ∀ (kw d : List (Name × Ref V)), (Dict.keys kw).Nodup → (∀ k ∈ Dict.keys d, k ∉ Dict.keys kw) →
    updateAll d kw = d ++ kw
  | [], d, _, _ => by simp [updateAll]
  | (k, v) :: kw, d, hn, h => by
    simp only [Dict.keys, List.map_cons, List.nodup_cons] at hn
    have hk : k ∉ Dict.keys d := fun hm => h k hm (by simp [Dict.keys])
    have : updateAll d ((k, v) :: kw) = updateAll (Dict.set d k v) kw := rfl
    rw [this, set_new d k v hk, updateAll_new kw _ hn.2]
    · simp
    · intro x hx hm
      simp only [Dict.keys, List.map_append, List.map_cons, List.map_nil, List.mem_append, List.mem_singleton] at hx
      rcases hx with hx | rfl
      · exact h x hx (by simp only [Dict.keys, List.map_cons, List.mem_cons]; exact Or.inr hm)
      · exact hn.1 hm

theorem updateReferences_some (given : Option (Ref V)) (kw : List (Name × Ref V)) (hn : (Dict.keys kw).Nodup)
    (h : ∀ k ∈ Dict.keys (asDict given), k ∉ Dict.keys kw) : updateReferences given kw = some (asDict given ++ kw) := by
  rw [updateReferences, if_neg, updateAll_new _ _ hn h]
  simpa using h

theorem updateReferences_none (given : Option (Ref V)) (kw : List (Name × Ref V)) (k : Name)
    (h : k ∈ Dict.keys (asDict given)) (h' : k ∈ Dict.keys kw) : updateReferences given kw = none := by
  rw [updateReferences, if_pos]
  simpa using ⟨k, h, h'⟩

theorem keys_replace : ∀ (n : Nat) (es : List (Name × Ref Raw)), Dict.keys (replaceEntries n es).1 = Dict.keys es
  | _, [] => rfl
  | n, (k, r) :: es => by
    have := keys_replace (replaceLists n r).2 es
    simp only [Dict.keys] at this ⊢
    simp [replaceEntries, this]

mutual
/-- No lists are left. -/
def Ref.noLists : Ref Raw → Bool
  | .val (.list _) => false
  | .val (.init _) => true
  | .dict es => noListsIn es
/-- For entries. -/
def noListsIn : List (Name × Ref Raw) → Bool
  | [] => true
  | (_, r) :: es => r.noLists && noListsIn es
end

mutual
theorem replaceLists_noLists : ∀ (n : Nat) (r : Ref Raw), (replaceLists n r).1.noLists = true
  | n, .val (.list k) => rfl
  | n, .val (.init i) => rfl
  | n, .dict es => by simpa [replaceLists, Ref.noLists] using replaceEntries_noLists n es
theorem replaceEntries_noLists : ∀ (n : Nat) (es : List (Name × Ref Raw)), noListsIn (replaceEntries n es).1 = true
  | _, [] => rfl
  | n, (k, r) :: es => by
    simp [replaceEntries, noListsIn, replaceLists_noLists n r, replaceEntries_noLists (replaceLists n r).2 es]
end

mutual
theorem replaceLists_id : ∀ (n : Nat) (r : Ref Raw), r.noLists = true → replaceLists n r = (r, n)
  | n, .val (.list k), h => by simp [Ref.noLists] at h
  | n, .val (.init i), _ => rfl
  | n, .dict es, h => by simp [replaceLists, replaceEntries_id n es (by simpa [Ref.noLists] using h)]
theorem replaceEntries_id : ∀ (n : Nat) (es : List (Name × Ref Raw)), noListsIn es = true → replaceEntries n es = (es, n)
  | _, [], _ => rfl
  | n, (k, r) :: es, h => by
    simp only [noListsIn, Bool.and_eq_true] at h
    simp [replaceEntries, replaceLists_id n r h.1, replaceEntries_id n es h.2]
end

mutual
theorem describe_replace : ∀ (n : Nat) (r : Ref Raw), (replaceLists n r).1.map describeRaw = r.map describeRaw
  | n, .val (.list k) => rfl
  | n, .val (.init i) => rfl
  | n, .dict es => by simp [replaceLists, Ref.map, describe_replaceEntries n es]
theorem describe_replaceEntries : ∀ (n : Nat) (es : List (Name × Ref Raw)),
    Ref.mapList describeRaw (replaceEntries n es).1 = Ref.mapList describeRaw es
  | _, [] => rfl
  | n, (k, r) :: es => by
    simp [replaceEntries, Ref.mapList, describe_replace n r, describe_replaceEntries (replaceLists n r).2 es]
end

/-- Two references are alike if they have the same patterns and related values. -/
inductive Ref.Alike {V W : Type} (R : V → W → Prop) : Ref V → Ref W → Prop
  | val (v : V) (w : W) : R v w → Alike R (.val v) (.val w)
  | dict (es : List (Name × Ref V)) (es' : List (Name × Ref W)) : Dict.keys es = Dict.keys es' →
      (∀ k r r', Dict.get? es k = some r → Dict.get? es' k = some r' → Alike R r r') → Alike R (.dict es) (.dict es')

/-- What a raw initializer becomes. -/
inductive Becomes : Raw → Init → Prop
  | init (i : Init) : Becomes (.init i) i
  | list (n k : Nat) : Becomes (.list k) (.object n k)

theorem get?_replace : ∀ (n : Nat) (es : List (Name × Ref Raw)) (k : Name) (r : Ref Raw), Dict.get? es k = some r →
    ∃ m, Dict.get? (replaceEntries n es).1 k = some (replaceLists m r).1
  | n, [], k, r, h => by simp at h
  | n, (k', r') :: es, k, r, h => by
    simp only [replaceEntries, Dict.get?_cons] at h ⊢
    split at h
    · rename_i e
      rw [if_pos e]
      cases h
      exact ⟨n, rfl⟩
    · rename_i e
      rw [if_neg e]
      exact get?_replace _ es k r h

mutual
theorem alike_replace : ∀ (n : Nat) (r : Ref Raw), r.Alike Becomes ((replaceLists n r).1.map Raw.toInit)
  | n, .val (.list k) => .val _ _ (.list n k)
  | n, .val (.init i) => .val _ _ (.init i)
  | n, .dict es => by
    refine .dict _ _ ?_ ?_
    · rw [keys_mapList, keys_replace]
    · intro k r r' h h'
      exact alike_replaceEntries n es k r r' h h'
theorem alike_replaceEntries : ∀ (n : Nat) (es : List (Name × Ref Raw)) (k : Name) (r : Ref Raw) (r' : Ref Init),
    Dict.get? es k = some r → Dict.get? (Ref.mapList Raw.toInit (replaceEntries n es).1) k = some r' → r.Alike Becomes r'
  | n, [], k, r, r', h, _ => by simp at h
  | n, (k', s) :: es, k, r, r', h, h' => by
    simp only [replaceEntries, Ref.mapList, Dict.get?_cons] at h h'
    split at h
    · rename_i e
      rw [if_pos e] at h'
      cases h
      cases h'
      exact alike_replace n s
    · rename_i e
      rw [if_neg e] at h'
      exact alike_replaceEntries _ es k r r' h h'
end

section
variable {W : Type} [DecidableEq V] [DecidableEq W] {R : V → W → Prop}

theorem get?_alike {es : List (Name × Ref V)} {es' : List (Name × Ref W)} (hk : Dict.keys es = Dict.keys es') {k : Name} {r : Ref V}
    (h : Dict.get? es k = some r) : ∃ r', Dict.get? es' k = some r' := by
  have : k ∈ Dict.keys es' := by rw [← hk, Dict.mem_keys_iff, h]; rfl
  rw [Dict.mem_keys_iff, Option.isSome_iff_exists] at this
  exact this

theorem Applies.alike {es : List (Name × Ref V)} {es' : List (Name × Ref W)} (hk : Dict.keys es = Dict.keys es')
    (hr : ∀ k r r', Dict.get? es k = some r → Dict.get? es' k = some r' → r.Alike R r') {key : Name} {sub : Ref V}
    (h : Applies es key sub) : ∃ sub', Applies es' key sub' ∧ sub.Alike R sub' := by
  cases h with
  | pattern r _ h1 h2 h3 =>
    obtain ⟨r', hr'⟩ := get?_alike hk h3
    exact ⟨r', .pattern r r' h1 h2 hr', hr _ _ _ h3 hr'⟩
  | default _ h1 h2 =>
    obtain ⟨r', hr'⟩ := get?_alike hk h2
    exact ⟨r', .default r' (by rw [← hk]; exact h1) hr', hr _ _ _ h2 hr'⟩

theorem Gives.alike {r : Ref V} {path : List Name} {v : V} (h : Gives r path v) :
    ∀ {r' : Ref W}, r.Alike R r' → ∃ w, Gives r' path w ∧ R v w := by
  induction h with
  | val v path =>
    intro r' ha
    cases ha with
    | val _ w hw => exact ⟨w, .val w path, hw⟩
  | entry es key path sub v ha hg ih =>
    intro r' hal
    cases hal with
    | dict _ es' h1 h2 =>
      obtain ⟨sub', a, b⟩ := ha.alike h1 h2
      obtain ⟨w, hw, hR⟩ := ih b
      exact ⟨w, .entry es' key path sub' w a hw, hR⟩

theorem Ref.Alike.symm {r : Ref V} {r' : Ref W} (h : r.Alike R r') : r'.Alike (fun w v => R v w) r := by
  induction h with
  | val v w h => exact .val w v h
  | dict es es' hk hr ih => exact .dict es' es hk.symm (fun k r r' a b => ih k r' r b a)

/-- The same for what is inherited. -/
def AlikeOpt (R : V → W → Prop) (o : Option (Ref V)) (o' : Option (Ref W)) : Prop :=
  (o = none ↔ o' = none) ∧ ∀ r r', o = some r → o' = some r' → r.Alike R r'

theorem Inherits.alike {sp : Name} {r : Ref V} {inh : Option (Ref V)} {path : List Name} {v : V} (h : Inherits sp r inh path v) :
    ∀ {r' : Ref W} {inh' : Option (Ref W)}, r.Alike R r' → AlikeOpt R inh inh' → ∃ w, Inherits sp r' inh' path w ∧ R v w := by
  have hor : ∀ (es : List (Name × Ref V)) (es' : List (Name × Ref W)) (inh : Option (Ref V)) (inh' : Option (Ref W))
      (_ : Dict.keys es = Dict.keys es')
      (_ : ∀ k r r', Dict.get? es k = some r → Dict.get? es' k = some r' → r.Alike R r') (_ : AlikeOpt R inh inh'),
      AlikeOpt R ((Dict.get? es sp).or inh) ((Dict.get? es' sp).or inh') := by
    intro es es' inh inh' h1 h2 h3
    cases ha : Dict.get? es sp with
    | none =>
      have hb : Dict.get? es' sp = none := by rw [Dict.get?_eq_none_iff, ← h1, ← Dict.get?_eq_none_iff]; exact ha
      rw [hb]
      simpa using h3
    | some x =>
      obtain ⟨y, hb⟩ := get?_alike h1 ha
      rw [hb]
      refine ⟨by simp, ?_⟩
      intro r r' e1 e2
      simp only [Option.some_or, Option.some.injEq] at e1 e2
      subst e1 e2
      exact h2 sp _ _ ha hb
  induction h with
  | val w v path =>
    intro r' inh' hs hi
    cases hs with
    | val _ w' hw' =>
      cases inh' with
      | none => exact absurd (hi.1.2 rfl) (by simp)
      | some x =>
        have := hi.2 _ _ rfl rfl
        cases this with
        | val _ y hy => exact ⟨y, .val w' y path, hy⟩
  | entry es inh key path sub v ha hg ih =>
    intro r' inh' hs hi
    cases hs with
    | dict _ es' h1 h2 =>
      obtain ⟨sub', a, b⟩ := ha.alike h1 h2
      obtain ⟨w, hw, hR⟩ := ih b (hor es es' inh inh' h1 h2 hi)
      exact ⟨w, .entry es' inh' key path sub' w a hw, hR⟩
  | missing es inh key path v hno hv =>
    intro r' inh' hs hi
    cases hs with
    | dict _ es' h1 h2 =>
      have hal := hor es es' inh inh' h1 h2 hi
      rw [hv] at hal
      cases hx : (Dict.get? es' sp).or inh' with
      | none => exact absurd (hal.1.2 hx) (by simp)
      | some x =>
        have := hal.2 _ _ rfl hx
        cases this with
        | val _ y hy =>
          refine ⟨y, .missing es' inh' key path y ?_ hx, hy⟩
          intro sub ha
          obtain ⟨sub', a, -⟩ := ha.alike (R := fun w v => R v w) h1.symm (fun k r r' x y => (h2 k r' r y x).symm)
          exact hno sub' a
end

mutual
theorem Ref.Same.refl : ∀ r : Ref V, r.Same r
  | .val v => .val v
  | .dict es => .dict es es (fun _ => Iff.rfl) (fun k r r' h h' => by
      rw [h] at h'
      cases h'
      exact Ref.Same.reflIn es k r h)
theorem Ref.Same.reflIn : ∀ (es : List (Name × Ref V)) (k : Name) (r : Ref V), Dict.get? es k = some r → r.Same r
  | [], k, r, h => by simp at h
  | (k', r') :: es, k, r, h => by
    rw [Dict.get?_cons] at h
    split at h
    · cases h
      exact Ref.Same.refl r'
    · exact Ref.Same.reflIn es k r h
end

/-! ### C73 -/

/-- **C73, equivalent forms.**  `initialize(x)`, `initialize({'default': x})` and `initialize(default=x)` do the same to
the network, and so do `initialize(d)` and `initialize(**d)`. -/
theorem C73_forms (sys : Sys G Arr) (ps : Params) (seed : Option Nat) (rnd : G) (st : Store G) (next : Nat) :
    (∀ v : Raw, let a := initCall sys ps (some (.val v)) [] seed rnd st next
      let b := initCall sys ps (some (.dict [(str "default", .val v)])) [] seed rnd st next
      let c := initCall sys ps none [(str "default", .val v)] seed rnd st next
      a.result.isSome ∧ a.result = b.result ∧ a.result = c.result ∧
        a.initializers = b.initializers ∧ a.initializers = c.initializers) ∧
    ∀ d : List (Name × Ref Raw), (Dict.keys d).Nodup →
      let a := initCall sys ps (some (.dict d)) [] seed rnd st next
      let b := initCall sys ps none d seed rnd st next
      a.result.isSome ∧ a.result = b.result ∧ a.initializers = b.initializers := by
  constructor
  · intro v
    refine ⟨rfl, rfl, rfl, rfl, rfl⟩
  · intro d hd a b
    have h1 : updateReferences (some (.dict d)) [] = some (d ++ []) := updateReferences_some _ _ (by simp [Dict.keys]) (by simp [Dict.keys])
    have h2 : updateReferences none d = some ([] ++ d) := updateReferences_some _ _ hd (by simp [asDict, Dict.keys])
    simp only [a, b, initCall, h1, h2, List.append_nil, List.nil_append]
    simp

/-- **C73, combined forms.**  A dictionary and keyword arguments without common patterns mean the dictionary of both. -/
theorem C73_combined (sys : Sys G Arr) (ps : Params) (seed : Option Nat) (rnd : G) (st : Store G) (next : Nat)
    (d kw : List (Name × Ref Raw)) (hk : (Dict.keys kw).Nodup) (h : ∀ k ∈ Dict.keys d, k ∉ Dict.keys kw) :
    let a := initCall sys ps (some (.dict d)) kw seed rnd st next
    let b := initCall sys ps (some (.dict (d ++ kw))) [] seed rnd st next
    a.result.isSome ∧ a.result = b.result ∧ a.initializers = b.initializers := by
  intro a b
  have h1 : updateReferences (some (.dict d)) kw = some (d ++ kw) := updateReferences_some _ _ hk h
  have h2 : updateReferences (some (.dict (d ++ kw))) [] = some ((d ++ kw) ++ []) :=
    updateReferences_some _ _ (by simp [Dict.keys]) (by simp [Dict.keys])
  simp only [a, b, initCall, h1, h2, List.append_nil]
  simp

/-- **C73, conflicts.**  If a pattern occurs in both, the call fails and changes nothing; in particular keyword arguments
do not take precedence, although the documentation says so. -/
theorem C73_conflict (sys : Sys G Arr) (ps : Params) (seed : Option Nat) (rnd : G) (st : Store G) (next : Nat)
    (given : Option (Ref Raw)) (kw : List (Name × Ref Raw)) (k : Name)
    (h : (∃ d, given = some (.dict d) ∧ k ∈ Dict.keys d) ∨ ((∃ v, given = some (.val v)) ∧ k = str "default"))
    (h' : k ∈ Dict.keys kw) : initCall sys ps given kw seed rnd st next = ⟨given, next, none, none⟩ := by
  have : k ∈ Dict.keys (asDict given) := by
    rcases h with ⟨d, rfl, hd⟩ | ⟨⟨v, rfl⟩, rfl⟩
    · exact hd
    · simp [asDict, Dict.keys]
  rw [initCall, updateReferences_none given kw k this h']

/-- **C73, the dictionary of the caller.**  A call that does not fail with a conflict leaves in the dictionary of the
caller all patterns of both, with lists replaced by initializers. -/
theorem C73_held (sys : Sys G Arr) (ps : Params) (seed : Option Nat) (rnd : G) (st : Store G) (next : Nat)
    (d kw : List (Name × Ref Raw)) (hk : (Dict.keys kw).Nodup) (h : ∀ k ∈ Dict.keys d, k ∉ Dict.keys kw) :
    ∃ d', (initCall sys ps (some (.dict d)) kw seed rnd st next).held = some (.dict d') ∧
      Dict.keys d' = Dict.keys d ++ Dict.keys kw ∧ noListsIn d' = true := by
  have h1 : updateReferences (some (.dict d)) kw = some (d ++ kw) := updateReferences_some _ _ hk h
  refine ⟨(replaceEntries next (d ++ kw)).1, ?_, ?_, replaceEntries_noLists _ _⟩
  · simp [initCall, h1, heldAfter]
  · rw [keys_replace]
    simp [Dict.keys]

/-- **C73, the same call again.**  So the same call with keyword arguments fails the second time. -/
theorem C73_twice_fails (sys : Sys G Arr) (ps : Params) (seed seed' : Option Nat) (rnd rnd' : G) (st st' : Store G)
    (next next' : Nat) (d kw : List (Name × Ref Raw)) (hk : (Dict.keys kw).Nodup) (h : ∀ k ∈ Dict.keys d, k ∉ Dict.keys kw)
    (hne : kw ≠ []) : ∀ given, (initCall sys ps (some (.dict d)) kw seed rnd st next).held = given →
      (initCall sys ps given kw seed' rnd' st' next').result = none := by
  rintro given rfl
  obtain ⟨d', e1, e2, -⟩ := C73_held sys ps seed rnd st next d kw hk h
  obtain ⟨⟨k, r⟩, rest, rfl⟩ := List.exists_cons_of_ne_nil hne
  rw [e1, C73_conflict sys ps seed' rnd' st' next' (some (.dict d')) ((k, r) :: rest) k (Or.inl ⟨d', rfl, ?_⟩) (by simp [Dict.keys])]
  rw [e2]
  simp [Dict.keys]

/-- **C73, the same call again without keyword arguments.**  It sets the same references again: the description of the
initializers is the same, and with the same seed so are the values that are written, if both calls succeed and the
initializers are reseeded (C26). -/
theorem C73_again (sys : Sys G Arr) (ps : Params) (hd : ps.Distinct) (seed : Nat) (rnd rnd' : G) (st st' : Store G)
    (next next' : Nat) (d : List (Name × Ref Raw)) (given : Option (Ref Raw)) (r r' : InitResult G Arr)
    (hg : (initCall sys ps (some (.dict d)) [] (some seed) rnd st next).held = given)
    (hr : (initCall sys ps (some (.dict d)) [] (some seed) rnd st next).result = some r) (he : r.err = none)
    (hr' : (initCall sys ps given [] (some seed) rnd' st' next').result = some r') (he' : r'.err = none)
    (hre : ∀ x, ps.HasView x → ∀ i, (Gives (.dict d) [x.1, x.2.1] i ∨ Inherits (str "default") (.dict d) none [x.1, x.2.1] i ∨
      Inherits (str "fallback") (.dict d) none [x.1, x.2.1] i) → i.toInit.reseeded = true) :
    (initCall sys ps given [] (some seed) rnd' st' next').initializers =
      (initCall sys ps (some (.dict d)) [] (some seed) rnd st next).initializers ∧
    (initCall sys ps given [] (some seed) rnd' st' next').held = given ∧ r.writes = r'.writes := by
  have h1 : ∀ d : List (Name × Ref Raw), updateReferences (some (.dict d)) [] = some d := fun d => by
    rw [updateReferences_some _ _ (by simp [Dict.keys]) (by simp [Dict.keys])]
    simp [asDict]
  simp only [initCall, h1, heldAfter] at hg hr
  subst hg
  have hid := replaceEntries_id next' _ (replaceEntries_noLists next d)
  simp only [initCall, h1, heldAfter, hid] at hr' ⊢
  refine ⟨by simp [Ref.map, describe_replaceEntries], trivial, ?_⟩
  injection hr with hr
  injection hr' with hr'
  subst hr hr'
  refine C26_reproducible sys ps ps hd hd (fun _ => Iff.rfl) _ _ ?_ ?_ seed rnd rnd' st st' he he'
  · exact Ref.Same.refl _
  · intro x hx
    have hal : (Ref.dict d).Alike Becomes (Ref.map Raw.toInit (.dict (replaceEntries next d).1)) := alike_replace next (.dict d)
    have hb : ∀ v i, Becomes v i → v.toInit.reseeded = true → i.reseeded = true := by
      intro v i h h'
      cases h
      · exact h'
      · rfl
    constructor
    · intro i hi
      rcases (hi i).2 rfl with h | ⟨-, h⟩
      · obtain ⟨v, h1, h2⟩ := h.alike hal.symm
        exact hb v i h2 (hre x hx v (Or.inl h1))
      · obtain ⟨v, h1, h2⟩ := h.alike hal.symm (inh' := none) ⟨by simp, by simp⟩
        exact hb v i h2 (hre x hx v (Or.inr (Or.inl h1)))
    · intro f hf
      obtain ⟨v, h1, h2⟩ := ((hf f).2 rfl).alike hal.symm (inh' := none) ⟨by simp, by simp⟩
      exact hb v f h2 (hre x hx v (Or.inr (Or.inr h1)))

/-- **C73, lists.**  A list or array given for a view, directly or as default, is what is written, if it has the shape
of the view.  `draw` on a list checks the shape and returns the array (initializers.py:47-53). -/
theorem C73_lists (sys : Sys G Arr) (ps : Params) (hd : ps.Distinct) (seed : Nat) (rnd : G) (st : Store G) (next : Nat)
    (given : Option (Ref Raw)) (kw refs : List (Name × Ref Raw)) (r : InitResult G Arr)
    (href : updateReferences given kw = some refs)
    (hr : (initCall sys ps given kw (some seed) rnd st next).result = some r) (he : r.err = none)
    (x : Name × Name × Shape) (hx : ps.HasView x) (k : Nat) (w : Arr) (hdraw : ∀ g, (sys.draw k x.2.2 g).1 = some w)
    (hv : Gives (.dict refs) [x.1, x.2.1] (.list k) ∨
      ((∀ u, ¬ Gives (.dict refs) [x.1, x.2.1] u) ∧ Inherits (str "default") (.dict refs) none [x.1, x.2.1] (.list k))) :
    ((x.1, x.2.1), w) ∈ r.writes := by
  simp only [initCall, href] at hr
  injection hr with hr
  subst hr
  obtain ⟨L, -, hL, -, hw⟩ := C26_set_once sys ps hd _ seed rnd st he
  obtain ⟨n, hn⟩ := List.mem_iff_getElem?.1 ((hL x).2 hx)
  obtain ⟨i, fb, stn, w', hres, -, hev, hwr⟩ := hw n x hn
  have hal : (Ref.dict refs).Alike Becomes (Ref.map Raw.toInit (.dict (replaceEntries next refs).1)) := alike_replace next (.dict refs)
  have hi : ∃ m, i = .object m k := by
    rcases hv with hv | ⟨hno, hv⟩
    · obtain ⟨w, h1, h2⟩ := hv.alike hal
      cases h2 with
      | list m _ => exact ⟨m, ((hres _).1 (Or.inl h1)).symm⟩
    · obtain ⟨w, h1, h2⟩ := hv.alike hal (inh' := none) ⟨by simp, by simp⟩
      cases h2 with
      | list m _ =>
        refine ⟨m, ((hres _).1 (Or.inr ⟨?_, h1⟩)).symm⟩
        intro u hu
        obtain ⟨u', hu', -⟩ := hu.alike hal.symm
        exact hno u' hu'
  obtain ⟨m, rfl⟩ := hi
  have : w' = w := by
    rw [evaluate] at hev
    simp only [evalOne, hdraw] at hev
    exact (Option.some.inj hev).symm
  subst this
  exact List.mem_of_getElem? hwr

/-- **C73, modifiers.**  The same for `set_weight_modifiers` and `set_gradient_modifiers`: the three forms are equivalent,
both together mean the dictionary of both, a common pattern makes the call fail, and the dictionary of the caller
gets the keyword arguments, so that the same call fails the second time. -/
theorem C73_modifiers {M : Type} (order : List Modifiers.Entry → List Modifiers.Entry) (ps : Params) (h : Modifiers.Heap M) :
    (∀ v, (setModifiersCall order ps (some (.val v)) [] h).2 = some (Modifiers.setModifiers order ps (.dict [(str "default", .val v)]) h)) ∧
    (∀ kw : List (Name × Ref Modifiers.Entry), (Dict.keys kw).Nodup →
      (setModifiersCall order ps none kw h).2 = some (Modifiers.setModifiers order ps (.dict kw) h)) ∧
    (∀ d kw : List (Name × Ref Modifiers.Entry), (Dict.keys kw).Nodup → (∀ k ∈ Dict.keys d, k ∉ Dict.keys kw) →
      setModifiersCall order ps (some (.dict d)) kw h = (some (.dict (d ++ kw)), some (Modifiers.setModifiers order ps (.dict (d ++ kw)) h)) ∧
      (kw ≠ [] → ∀ h' : Modifiers.Heap M, (setModifiersCall order ps (setModifiersCall order ps (some (.dict d)) kw h).1 kw h').2 = none)) ∧
    ∀ d kw : List (Name × Ref Modifiers.Entry), (∃ k ∈ Dict.keys d, k ∈ Dict.keys kw) →
      setModifiersCall order ps (some (.dict d)) kw h = (some (.dict d), none) := by
  have conf : ∀ (h : Modifiers.Heap M) (d kw : List (Name × Ref Modifiers.Entry)), (∃ k ∈ Dict.keys d, k ∈ Dict.keys kw) →
      setModifiersCall order ps (some (.dict d)) kw h = (some (.dict d), none) := by
    rintro h d kw ⟨k, h1, h2⟩
    rw [setModifiersCall, updateReferences_none (some (.dict d)) kw k h1 h2]
  refine ⟨fun v => rfl, ?_, ?_, conf h⟩
  · intro kw hk
    have h2 : updateReferences none kw = some ([] ++ kw) := updateReferences_some _ _ hk (by simp [asDict, Dict.keys])
    simp [setModifiersCall, h2]
  · intro d kw hk hdis
    have h1 : updateReferences (some (.dict d)) kw = some (d ++ kw) := updateReferences_some _ _ hk hdis
    have e : setModifiersCall order ps (some (.dict d)) kw h = (some (.dict (d ++ kw)), some (Modifiers.setModifiers order ps (.dict (d ++ kw)) h)) := by
      simp [setModifiersCall, h1, heldAfter]
    refine ⟨e, ?_⟩
    intro hne h'
    obtain ⟨⟨k, r⟩, rest, rfl⟩ := List.exists_cons_of_ne_nil hne
    rw [e, conf h' (d ++ (k, r) :: rest) _ ⟨k, by simp [Dict.keys], by simp [Dict.keys]⟩]

/-! ### Examples -/

/-- `{'default': [..], 'Rnn': {'bias': [..]}}` together with the keyword argument `Fc=3`: the first call succeeds, the
second one does not. -/
def demoGiven : List (Name × Ref Raw) := [(str "default", .val (.list 4)), (str "Rnn", .dict [(str "bias", .val (.list 6)), (str "W", .val (.init (.number 1)))])]

def demoKw : List (Name × Ref Raw) := [(str "Fc", .val (.init (.number 3)))]

example : (Dict.keys demoKw).Nodup ∧ (∀ k ∈ Dict.keys demoGiven, k ∉ Dict.keys demoKw) ∧ demoKw ≠ [] := by decide +kernel

example : ∃ r, (initCall demoSys demoParams (some (.dict demoGiven)) demoKw (some 4) 0 (fun _ => 0) 9).result = some r ∧ r.err = none ∧
    r.writes = [((str "Fc", str "W"), [3, 2]), ((str "Rnn", str "W"), [1, 2]), ((str "Rnn", str "bias"), [6, 430])] := ⟨_, rfl, by decide +kernel⟩

/-- Without keyword arguments both calls succeed. -/
example : ∃ r r', (initCall demoSys demoParams (some (.dict demoGiven)) [] (some 4) 0 (fun _ => 0) 9).result = some r ∧ r.err = none ∧
    (initCall demoSys demoParams (initCall demoSys demoParams (some (.dict demoGiven)) [] (some 4) 0 (fun _ => 0) 9).held [] (some 4) 0
      (fun _ => 0) 11).result = some r' ∧ r'.err = none := ⟨_, _, rfl, by decide +kernel, rfl, by decide +kernel⟩

end Verif.References
