import Verif.Architecture.Lemmas

/-!
# Properties C04, C05, C06, C07: architectures

Stated with `HasConnection`, `Feeds`, `Acyclic`, `Closed`, `Height`,
`WellFormed`, `Denotes` and `SameArch` from `Architecture/Spec.lean`.  Python
dictionaries have distinct keys: hypothesis `(Dict.keys a).Nodup`.
-/

namespace Verif.Architecture

/-- What the canonical order computes when every layer lists its connections. -/
theorem canonicalOrder_eval (a : Arch) (hk : (Dict.keys a).Nodup) (ho : HasOutgoing a) :
    ∃ cs r, collectAll a = .ok cs ∧ (∀ c, c ∈ cs ↔ HasConnection a c) ∧
      PeelInv (Dict.keys a) cs r ∧ newLayers (Dict.keys a) cs r = [] ∧
      (∀ fuel > (Dict.keys a).length, peel (Dict.keys a) cs fuel [] = some r) ∧
      ∀ fuel > (Dict.keys a).length, canonicalOrderFuel fuel a =
        some (if ∀ n ∈ Dict.keys a, n ∈ r then .ok r.reverse else .error .assertion) := by
  rcases collectAll_spec a with ⟨_, cs, hcs, hm⟩ | ⟨h, _⟩
  · obtain ⟨r, hr, hinv, hnew⟩ := peel_spec hk ((Dict.keys a).length + 1) [] (peelInv_nil _ cs)
      (by simp)
    refine ⟨cs, r, hcs, hm, hinv, hnew, fun fuel hf => peel_mono hf hr, fun fuel hf => ?_⟩
    simp only [canonicalOrderFuel, hcs, peel_mono hf hr]
    by_cases hall : ∀ n ∈ Dict.keys a, n ∈ r
    · have : (Dict.keys a).all (fun n => decide (n ∈ r)) = true := by simpa using hall
      rw [if_pos this, if_pos hall]
    · have : ¬ (Dict.keys a).all (fun n => decide (n ∈ r)) = true := by simpa using hall
      rw [if_neg this, if_neg hall]
  · exact absurd ho h

/-- **C04 (termination and failure).** The computation of the canonical order
always ends, within one round more than there are layers, in exactly one of two
ways: with an order, or with an `AssertionError`. -/
theorem C04_terminates (a : Arch) (hk : (Dict.keys a).Nodup) (ho : HasOutgoing a) :
    (∃ order, CanonicalOrder a (.ok order)) ∨ CanonicalOrder a (.error .assertion) := by
  obtain ⟨cs, r, _, _, _, _, _, h⟩ := canonicalOrder_eval a hk ho
  by_cases hall : ∀ n ∈ Dict.keys a, n ∈ r
  · left; exact ⟨r.reverse, (Dict.keys a).length + 1, fun f hf => by rw [h f hf, if_pos hall]⟩
  · right; exact ⟨(Dict.keys a).length + 1, fun f hf => by rw [h f hf, if_neg hall]⟩

/-- The result is unique. -/
theorem CanonicalOrder.unique {a : Arch} {r r' : Except ArchError (List Name)}
    (h : CanonicalOrder a r) (h' : CanonicalOrder a r') : r = r' := by
  obtain ⟨f, hf⟩ := h
  obtain ⟨f', hf'⟩ := h'
  have := (hf (max f f') (by omega)).symm.trans (hf' (max f f') (by omega))
  simpa using this

/-- **C04 (exists iff acyclic).** A canonical order is found exactly when every
connection ends at a layer of the architecture and no layer feeds itself. -/
theorem C04_exists_iff (a : Arch) (hk : (Dict.keys a).Nodup) (ho : HasOutgoing a) :
    (∃ order, CanonicalOrder a (.ok order)) ↔ Closed a ∧ Acyclic a := by
  obtain ⟨cs, r, _, hm, hinv, hnew, _, h⟩ := canonicalOrder_eval a hk ho
  rw [← all_mem_iff hm hinv hnew]
  constructor
  · rintro ⟨order, f, hf⟩
    have := hf (max f ((Dict.keys a).length + 1)) (by omega)
    rw [h _ (by omega)] at this
    by_cases hall : ∀ n ∈ Dict.keys a, n ∈ r
    · exact hall
    · rw [if_neg hall] at this; simp at this
  · intro hall
    exact ⟨r.reverse, (Dict.keys a).length + 1, fun f hf => by rw [h f hf, if_pos hall]⟩

theorem canonicalOrder_ok {a : Arch} (hk : (Dict.keys a).Nodup) {order : List Name}
    (h : CanonicalOrder a (.ok order)) :
    ∃ cs r, order = r.reverse ∧ (∀ c, c ∈ cs ↔ HasConnection a c) ∧ PeelInv (Dict.keys a) cs r ∧
      newLayers (Dict.keys a) cs r = [] ∧ (∀ n ∈ Dict.keys a, n ∈ r) ∧
      peel (Dict.keys a) cs ((Dict.keys a).length + 1) [] = some r := by
  have ho : HasOutgoing a := by
    rcases collectAll_spec a with ⟨h', _⟩ | ⟨_, h'⟩
    · exact h'
    · obtain ⟨f, hf⟩ := h
      have := hf f (Nat.le_refl _)
      simp [canonicalOrderFuel, h'] at this
  obtain ⟨cs, r, _, hm, hinv, hnew, hpeel, he⟩ := canonicalOrder_eval a hk ho
  by_cases hall : ∀ n ∈ Dict.keys a, n ∈ r
  · refine ⟨cs, r, ?_, hm, hinv, hnew, hall, hpeel _ (by omega)⟩
    have h2 : CanonicalOrder a (.ok r.reverse) :=
      ⟨(Dict.keys a).length + 1, fun f hf => by rw [he f hf, if_pos hall]⟩
    simpa using h.unique h2
  · have h2 : CanonicalOrder a (.error .assertion) :=
      ⟨(Dict.keys a).length + 1, fun f hf => by rw [he f hf, if_neg hall]⟩
    exact absurd (h.unique h2) (by simp)

/-- **C04 (permutation).** A canonical order lists every layer exactly once. -/
theorem C04_perm (a : Arch) (hk : (Dict.keys a).Nodup) (order : List Name)
    (h : CanonicalOrder a (.ok order)) : order.Perm (Dict.keys a) := by
  obtain ⟨cs, r, rfl, _, hinv, _, hall, _⟩ := canonicalOrder_ok hk h
  refine (List.reverse_perm r).trans ?_
  rw [List.perm_ext_iff_of_nodup hinv.nodup hk]
  exact fun x => ⟨hinv.sub x, hall x⟩

/-- **C04 (topological).** In a canonical order every layer comes before all
layers it feeds. -/
theorem C04_topological (a : Arch) (hk : (Dict.keys a).Nodup) (order : List Name)
    (h : CanonicalOrder a (.ok order)) (x y : Name) (hf : Feeds a x y) :
    ∃ l₁ l₂ l₃, order = l₁ ++ x :: l₂ ++ y :: l₃ := by
  obtain ⟨cs, r, rfl, hm, hinv, _, hall, _⟩ := canonicalOrder_ok hk h
  obtain ⟨c, hc, rfl, rfl⟩ := hf
  have hs := hall _ hc.start_mem
  obtain ⟨p, q, hpq⟩ := List.append_of_mem hs
  have ht := hinv.topo p.length c.startLayer (by rw [hpq]; simp) c ((hm c).2 hc) rfl
  rw [hpq, List.take_left] at ht
  obtain ⟨u, v, huv⟩ := List.append_of_mem ht
  refine ⟨q.reverse, v.reverse, u.reverse, ?_⟩
  rw [hpq, huv]
  simp

/-- **C04 (canonical).** The order is by decreasing height (length of the longest
chain of connections starting at the layer) and by name among layers of equal
height.  Together with `C04_perm` this determines the order. -/
theorem C04_sorted (a : Arch) (hk : (Dict.keys a).Nodup) (order : List Name)
    (h : CanonicalOrder a (.ok order)) :
    (∀ x ∈ order, ∃ k, Height a x k) ∧
    order.Pairwise (fun x y => ∀ k l, Height a x k → Height a y l →
      l < k ∨ (l = k ∧ nameLe x y = true)) := by
  have hcl : Closed a := by
    have ho : HasOutgoing a := by
      rcases collectAll_spec a with ⟨h', _⟩ | ⟨_, h'⟩
      · exact h'
      · obtain ⟨f, hf⟩ := h
        have := hf f (Nat.le_refl _)
        simp [canonicalOrderFuel, h'] at this
    exact ((C04_exists_iff a hk ho).1 ⟨order, h⟩).1
  obtain ⟨cs, r, rfl, hm, hinv, _, hall, hpeel⟩ := canonicalOrder_ok hk h
  obtain ⟨k, hk1, hk2⟩ := peel_rounds hm hcl _ [] r 0 (by simp [Chain]) .nil hpeel
  refine ⟨?_, ?_⟩
  · intro x hx
    rw [List.mem_reverse] at hx
    have hno := ((hk1 x).1 hx).2
    clear hpeel hk1 hk2
    induction k with
    | zero => exact absurd trivial hno
    | succ k ih =>
      by_cases hc : Chain a k x
      · exact ⟨k, hc, hno⟩
      · exact ih hc
  · rw [List.pairwise_reverse]
    refine hk2.imp ?_
    intro x y hxy k l h1 h2
    exact hxy l k h2 h1

/-- **C05 (connections).** Architectures that differ only in the order of
dictionary entries and connection lists have the same list of connections. -/
theorem C05_connections (a b : Arch) (h : SameArch a b) :
    ∃ cs, collectAll a = .ok cs ∧ collectAll b = .ok cs := h.collect

/-- **C05 (order).** ... and the same canonical order, or both none. -/
theorem C05_order (a b : Arch) (h : SameArch a b) (r : Except ArchError (List Name)) :
    CanonicalOrder a r ↔ CanonicalOrder b r := by
  obtain ⟨cs, h1, h2⟩ := h.collect
  have hp := h.keys
  have : ∀ f, canonicalOrderFuel f a = canonicalOrderFuel f b := by
    intro f
    simp only [canonicalOrderFuel, h1, h2, peel_congr hp]
    have : ∀ r : List Name, (Dict.keys a).all (fun n => decide (n ∈ r)) =
        (Dict.keys b).all (fun n => decide (n ∈ r)) := by
      intro r
      rw [Bool.eq_iff_iff, List.all_eq_true, List.all_eq_true]
      exact ⟨fun h x hx => h x (hp.mem_iff.2 hx), fun h x hx => h x (hp.mem_iff.1 hx)⟩
    simp only [this]
  simp only [CanonicalOrder, this]

/-- **C06 (decision).** An architecture is accepted exactly when it is
well-formed. -/
theorem C06_validate_iff (a : Arch) (hk : (Dict.keys a).Nodup) :
    validate a = .ok () ↔ WellFormed a := by
  have hschema : forAll (fun e => schemaCheck e.2) a = .ok () ↔
      ∀ n d, (n, d) ∈ a → (∃ t, d.type = .string t) ∧ d.outgoing ≠ .other := by
    rw [forAll_ok]
    constructor
    · intro h n d hd
      have := h _ hd
      revert this
      unfold schemaCheck
      cases d.type <;> cases d.outgoing <;> simp
    · rintro h ⟨n, d⟩ hd
      obtain ⟨⟨t, ht⟩, ho⟩ := h n d hd
      simp only [schemaCheck, ht]
  have hnames : forAll (fun n => if isValidLayerName n then .ok () else .error .invalidName)
      (Dict.keys a) = .ok () ↔ ∀ n ∈ Dict.keys a, isValidLayerName n = true := by
    rw [forAll_ok]
    constructor
    · intro h n hn
      have := h n hn
      by_cases hv : isValidLayerName n = true
      · exact hv
      · simp [hv] at this
    · intro h n hn
      simp [h n hn]
  have hany : ∀ cs : List Connection,
      ((cs.map (·.endLayer)).any (fun n => !(decide (n ∈ Dict.keys a))) = true) ↔
        ∃ c ∈ cs, c.endLayer ∉ Dict.keys a := by
    intro cs; simp
  constructor
  · intro h
    unfold validate at h
    cases h1 : forAll (fun e => schemaCheck e.2) a with
    | error e => simp [h1, bind, Except.bind] at h
    | ok u =>
      cases h2 : forAll (fun n => if isValidLayerName n then .ok () else .error .invalidName)
        (Dict.keys a) with
      | error e => simp [h1, h2, bind, Except.bind] at h
      | ok u =>
        rcases collectAll_spec a with ⟨ho, cs, hcs, hm⟩ | ⟨_, herr⟩
        · simp only [h1, h2, hcs, bind, Except.bind] at h
          split at h
          · simp at h
          · next hu =>
            rw [hany] at hu
            split at h
            · simp at h
            · next d hd =>
              split at h
              · simp at h
              · next ht =>
                split at h
                · simp at h
                · next hin =>
                  refine ⟨fun n d hd => ((hschema.1 h1) n d hd).1, ho, ?_, ?_, ?_, ?_⟩
                  · intro n hn
                    exact (isValidLayerName_iff n).1 ((hnames.1 h2) n hn)
                  · intro c hc
                    apply Classical.byContradiction
                    intro hno
                    exact hu ⟨c, (hm c).2 hc, hno⟩
                  · exact ⟨d, Dict.mem_of_get? hd, by simpa using ht⟩
                  · intro c hc he
                    apply hin
                    rw [List.mem_map]
                    exact ⟨c, (hm c).2 hc, he⟩
        · simp [h1, h2, herr, bind, Except.bind] at h
  · intro h
    have h1 : forAll (fun e => schemaCheck e.2) a = .ok () := by
      rw [hschema]
      intro n d hd
      refine ⟨h.types n d hd, ?_⟩
      rcases h.outgoing n d hd with ⟨l, hl⟩ | ⟨l, hl⟩ <;> simp [hl]
    have h2 : forAll (fun n => if isValidLayerName n then .ok () else .error .invalidName)
        (Dict.keys a) = .ok () := by
      rw [hnames]
      exact fun n hn => (isValidLayerName_iff n).2 (h.names n hn)
    rcases collectAll_spec a with ⟨_, cs, hcs, hm⟩ | ⟨ho, _⟩
    · unfold validate
      simp only [h1, h2, hcs, bind, Except.bind]
      rw [if_neg]
      · obtain ⟨d, hd, ht⟩ := h.input
        rw [Dict.get?_of_mem hk hd]
        simp only [ht, ne_eq, not_true_eq_false, if_false]
        rw [if_neg]
        rw [List.mem_map]
        rintro ⟨c, hc, he⟩
        exact h.noInputIncoming c ((hm c).1 hc) he
      · rw [hany]
        rintro ⟨c, hc, hno⟩
        exact hno (h.closed c ((hm c).1 hc))
    · exact absurd h.outgoing ho

/-- **C06 (missing connections).** The documented error type does not cover
layers without an `@outgoing_connections` entry: then a `KeyError` escapes
whenever the earlier checks pass. -/
theorem C06_missing_outgoing (a : Arch)
    (htypes : ∀ n d, (n, d) ∈ a → (∃ t, d.type = .string t) ∧ d.outgoing ≠ .other)
    (hnames : ∀ n ∈ Dict.keys a, isValidLayerName n = true)
    (n : Name) (d : LayerDesc) (hd : (n, d) ∈ a) (hmiss : d.outgoing = .missing) :
    validate a = .error .keyError := by
  have h1 : forAll (fun e => schemaCheck e.2) a = .ok () := by
    rw [forAll_ok]
    rintro ⟨n, d⟩ hd
    obtain ⟨⟨t, ht⟩, ho⟩ := htypes n d hd
    simp only [schemaCheck, ht]
  have h2 : forAll (fun n => if isValidLayerName n then .ok () else .error .invalidName)
      (Dict.keys a) = .ok () := by
    rw [forAll_ok]
    intro n hn
    simp [hnames n hn]
  unfold validate
  rcases collectAll_spec a with ⟨ho, _⟩ | ⟨_, herr⟩
  · rcases ho n d hd with ⟨l, hl⟩ | ⟨l, hl⟩ <;> simp [hmiss] at hl
  · simp [h1, h2, herr, bind, Except.bind]

/-- **C07 (notation).** A connection string denotes exactly one layer and input,
and the connections of an architecture are read off accordingly: the list form
stands for the output `default`, a bare layer name for the input `default`. -/
theorem C07_denotes (s : Name) : ∃ l inp, Denotes s l inp ∧
    ∀ l' inp', Denotes s l' inp' → l' = l ∧ inp' = inp := by
  refine ⟨_, _, (denotes_iff s _ _).2 ⟨rfl, rfl⟩, ?_⟩
  intro l' inp' h
  exact (denotes_iff s l' inp').1 h

/-- **C07 (collected connections).** The connections collected from an
architecture are exactly those it contains. -/
theorem C07_collect (a : Arch) (cs : List Connection) (h : collectAll a = .ok cs)
    (c : Connection) : c ∈ cs ↔ HasConnection a c := by
  rcases collectAll_spec a with ⟨_, cs', hcs, hm⟩ | ⟨_, herr⟩
  · rw [h] at hcs; cases hcs; exact hm c
  · rw [h] at herr; cases herr

/-- **C07 (round trip).** Writing a connection as `layer.input` under its output
name, as `generate_architecture` does, and reading it back gives the same
connection, for all layer names without a dot and all non-empty input names
(which may contain dots). -/
theorem C07_round_trip (c : Connection) (hl : '.' ∉ c.endLayer) (hi : c.inputName ≠ []) :
    mkConnection c.startLayer c.outputName (c.endLayer ++ '.' :: c.inputName) = c := by
  rw [mkConnection_iff]
  exact ⟨rfl, rfl, hl, .inl ⟨rfl, hi⟩⟩

/-- **C07 (short forms).** Replacing a list of connection strings by the
dictionary `{'default': list}`, and dropping the suffix `.default` from a string,
changes nothing. -/
theorem C07_short_forms (n : Name) (t : TypeEntry) (l : List Name) (o e : Name) (he : '.' ∉ e) :
    collectOutgoing ⟨t, .list l⟩ n = collectOutgoing ⟨t, .dict [(str "default", l)]⟩ n ∧
    mkConnection n o e = mkConnection n o (e ++ str ".default") := by
  refine ⟨by simp [collectOutgoing], ?_⟩
  have h : e ++ str ".default" = e ++ '.' :: str "default" := rfl
  rw [h]
  simp only [mkConnection, parseConnection, partitionDot_append _ _ he,
    partitionDot_of_not_mem _ he, if_true, ite_self]

/-! ### Non-vacuity -/

/-- Input feeding a hidden layer `H` and `Out`, `H` feeding `Out`, in mixed
notation. -/
def demoArch : Arch :=
  [(str "Out", ⟨.string (str "FullyConnected"), .list []⟩),
   (str "Input", ⟨.string (str "Input"),
      .dict [(str "default", [str "H", str "Out.default"]), (str "targets", [str "Out.targets"])]⟩),
   (str "H", ⟨.string (str "FullyConnected"), .list [str "Out."]⟩)]

example : (Dict.keys demoArch).Nodup := by decide
example : validate demoArch = .ok () := by decide
example : WellFormed demoArch := (C06_validate_iff demoArch (by decide)).1 (by decide)
example : canonicalOrderFuel 4 demoArch =
    some (.ok [str "Input", str "H", str "Out"]) := by decide

/-- An order exists, so `C04_perm`, `C04_topological` and `C04_sorted` apply. -/
example : ∃ order, CanonicalOrder demoArch (.ok order) := by
  obtain ⟨cs, r, _, _, _, _, _, h⟩ := canonicalOrder_eval demoArch (by decide)
    ((C06_validate_iff demoArch (by decide)).1 (by decide)).outgoing
  have h4 := h 4 (by decide)
  have : canonicalOrderFuel 4 demoArch = some (.ok [str "Input", str "H", str "Out"]) := by decide
  rw [this] at h4
  exact ⟨_, 4, fun f hf => by rw [h f (Nat.lt_of_lt_of_le (by decide) hf), ← h4]⟩

example : Feeds demoArch (str "H") (str "Out") := by
  obtain ⟨cs, hcs⟩ : ∃ cs, collectAll demoArch = .ok cs := ⟨_, rfl⟩
  exact ⟨⟨str "H", str "default", str "Out", str "default"⟩,
    (C07_collect demoArch cs hcs _).1 (by cases hcs; decide), rfl, rfl⟩

/-- A cyclic architecture passes `validate_architecture` and has no order. -/
def cyclicArch : Arch :=
  [(str "Input", ⟨.string (str "Input"), .list [str "A"]⟩),
   (str "A", ⟨.string (str "Noop"), .list [str "B"]⟩),
   (str "B", ⟨.string (str "Noop"), .list [str "A"]⟩)]

example : validate cyclicArch = .ok () ∧
    canonicalOrderFuel 4 cyclicArch = some (.error .assertion) := by decide

/-- The same architecture with entries and lists in another order. -/
example : SameArch demoArch
    [(str "H", ⟨.string (str "FullyConnected"), .list [str "Out."]⟩),
     (str "Input", ⟨.string (str "Input"),
      .dict [(str "targets", [str "Out.targets"]), (str "default", [str "Out.default", str "H"])]⟩),
     (str "Out", ⟨.string (str "FullyConnected"), .list []⟩)] := by
  refine ⟨demoArch.reverse, (List.reverse_perm _).symm, ?_⟩
  simp only [demoArch, List.reverse_cons, List.reverse_nil, List.nil_append, List.cons_append]
  refine .cons ⟨rfl, rfl, .list (.refl _)⟩ (.cons ⟨rfl, rfl, ?_⟩ (.cons ⟨rfl, rfl, .list (.refl _)⟩ .nil))
  exact .dict (.swap _ _ _) (.cons ⟨rfl, .refl _⟩ (.cons ⟨rfl, .swap _ _ _⟩ .nil))

/-- A layer without `@outgoing_connections` raises a `KeyError`. -/
example : validate [(str "Input", ⟨.string (str "Input"), .missing⟩)] = .error .keyError :=
  C06_missing_outgoing _ (by intro n d h; simp at h; obtain ⟨_, rfl⟩ := h; simp)
    (by decide) (str "Input") ⟨.string (str "Input"), .missing⟩ (by simp) rfl

end Verif.Architecture
