import Verif.Instantiate.Props

/-!
# Property C59, continued: which layers the constructor accepts
(`Layer.__init__`, brainstorm/layers/base_layer.py:65-83, 139-226)
-/

namespace Verif.Instantiate

open Verif.Architecture Verif.Structure Verif.Paths

variable {K : Type}

theorem has_iff {κ ν : Type} [DecidableEq κ] {d : Dict κ ν} {k : κ} : Dict.has d k = true ↔ k ∈ Dict.keys d := by
  rw [Dict.mem_keys_iff]; rfl

/-- An outgoing connection starts at something the layer has: an output, or a parameter or internal buffer written
`..parameters.p` or `..internals.p`. -/
def StartsAt (sh : Shapes) (o : Name) : Prop :=
  o ∈ Dict.keys sh.outs ∨ (∃ p ∈ Dict.keys sh.params, o = str "..parameters." ++ p) ∨
    ∃ p ∈ Dict.keys sh.internals, o = str "..internals." ++ p

theorem outgoingOk_iff {sh : Shapes} (hp : sh.Plain) (c : Connection) :
    outgoingOk sh c = true ↔ StartsAt sh c.outputName := by
  constructor
  · intro h
    unfold outgoingOk at h
    split at h
    · rename_i rest hrest
      have hpd := partitionDot_cases rest
      set p := partitionDot rest with hpdef
      have hsub : ∀ d, (d = sh.outs ∨ d = sh.params ∨ d = sh.internals) →
          Dict.has d p.2 = true → rest = p.1 ++ '.' :: p.2 := by
        intro d hd hh
        obtain ⟨q1, -, -⟩ := has_plain hp hd hh
        rcases hpd.2 with h' | ⟨_, h'⟩
        · exact h'
        · exact absurd h' q1
      simp only at h
      split_ifs at h with h1 h2
      · have q := hsub _ (.inr (.inl rfl)) h
        rw [h1] at q
        exact .inr (.inl ⟨p.2, has_iff.1 h, by rw [hrest, q]; rfl⟩)
      · have q := hsub _ (.inr (.inr rfl)) h
        rw [h2] at q
        exact .inr (.inr ⟨p.2, has_iff.1 h, by rw [hrest, q]; rfl⟩)
    · exact .inl (has_iff.1 h)
  · rintro (h | ⟨p, h, e⟩ | ⟨p, h, e⟩)
    · have hpl := has_plain hp (.inl rfl) (has_iff.2 h)
      unfold outgoingOk
      split
      · rename_i rest hrest
        rw [hrest] at hpl
        exact absurd (by simp) hpl.2.1
      · exact has_iff.2 h
    · unfold outgoingOk
      have e' : str "..parameters." ++ p = '.' :: '.' :: (str "parameters" ++ '.' :: p) := rfl
      rw [e, e']
      simp only [partitionDot_append _ _ (show '.' ∉ str "parameters" by decide), if_true]
      exact has_iff.2 h
    · unfold outgoingOk
      have e' : str "..internals." ++ p = '.' :: '.' :: (str "internals" ++ '.' :: p) := rfl
      rw [e, e']
      simp only [partitionDot_append _ _ (show '.' ∉ str "internals" by decide),
        if_neg (show ¬ str "internals" = str "parameters" by decide), if_true]
      exact has_iff.2 h

/-- What the constructor of a layer demands of its keyword arguments and input shapes: no unexpected keyword argument,
exactly the expected inputs, each with a shape its template matches. -/
structure Acceptable (cls : LayerClass K) (keys : K → List Name) (kw : K) (ins : Dict Name Struct) : Prop where
  kwargs : ∀ k ∈ keys kw, k ∈ cls.expectedKwargs
  inputs : ∀ i, i ∈ Dict.keys ins ↔ i ∈ Dict.keys cls.expectedInputs
  shapes : ∀ i s t, (i, s) ∈ ins → Dict.get? cls.expectedInputs i = some t → t.matches s = true

theorem construct_iff (cls : LayerClass K) (keys : K → List Name) (oi oo : List Connection → List Connection)
    (n : Name) (d : Dict Name Struct) (inc out : List Connection) (kw : K) (l : LayerObj K) :
    construct cls keys oi oo n d inc out kw = .ok l ↔
      Acceptable cls keys kw (sortShapes d) ∧ ∃ sh, cls.setup n kw (sortShapes d) = some sh ∧
        (∀ c ∈ oi inc, c.inputName ∈ Dict.keys (sortShapes d)) ∧ (∀ c ∈ oo out, outgoingOk sh c = true) ∧
        l = ⟨n, kw, sortShapes d, inc, out, sh⟩ := by
  unfold construct
  simp only
  constructor
  · intro h
    split at h
    · cases h
    rename_i h1
    split at h
    · cases h
    rename_i h2
    split at h
    · cases h
    rename_i h3
    split at h
    · cases h
    rename_i h4
    split at h
    · cases h
    rename_i sh hsh
    split_ifs at h with h5 h6
    cases h
    simp only [List.any_eq_true, Bool.not_eq_true', not_exists, not_and, decide_eq_false_iff_not, not_not,
      Bool.not_eq_false] at h1 h2 h3 h5 h6
    refine ⟨⟨h1, fun i => ⟨fun hi => has_iff.1 (h2 i hi), fun hi => has_iff.1 (h3 i hi)⟩, ?_⟩, sh, hsh,
      fun c hc => has_iff.1 (h5 c hc), h6, rfl⟩
    intro i s t hi ht
    simp only [List.any_eq_true, not_exists, not_and] at h4
    have := h4 _ hi
    simp only [ht] at this
    simpa using this
  · rintro ⟨⟨h1, h2, h3⟩, sh, hsh, h5, h6, rfl⟩
    rw [if_neg, if_neg, if_neg, if_neg, hsh]
    · simp only
      rw [if_neg, if_neg]
      · simp only [List.any_eq_true, Bool.not_eq_true', not_exists, not_and, Bool.not_eq_false]
        exact h6
      · simp only [List.any_eq_true, Bool.not_eq_true', not_exists, not_and, Bool.not_eq_false]
        exact fun c hc => has_iff.2 (h5 c hc)
    · simp only [List.any_eq_true, not_exists, not_and]
      intro e he
      have hk : e.1 ∈ Dict.keys cls.expectedInputs := (h2 e.1).1 (List.mem_map_of_mem (f := Prod.fst) he)
      obtain ⟨t, ht⟩ := Option.isSome_iff_exists.1 ((Dict.mem_keys_iff _ _).1 hk)
      simp only [ht]
      simp [h3 e.1 e.2 t he ht]
    · simp only [List.any_eq_true, Bool.not_eq_true', not_exists, not_and, Bool.not_eq_false]
      exact fun i hi => has_iff.2 ((h2 i).2 hi)
    · simp only [List.any_eq_true, Bool.not_eq_true', not_exists, not_and, Bool.not_eq_false]
      exact fun i hi => has_iff.2 ((h2 i).1 hi)
    · simp only [List.any_eq_true, Bool.not_eq_true', not_exists, not_and, decide_eq_false_iff_not, not_not]
      exact h1

/-- **C59 (what the constructor accepts).** A layer can be created from input shapes `ins` and connections exactly if its
keyword arguments are expected, its inputs are exactly the expected ones and match their templates, `setup` succeeds, every
incoming connection leads to one of the inputs, and every outgoing connection starts at an output, parameter or internal
buffer the layer has declared.  The layer then has these input shapes (in alphabetic order) and the declared structures. -/
theorem C59_constructor (cls : LayerClass K) (keys : K → List Name) (oi oo : List Connection → List Connection)
    (hi : ∀ x, (oi x).Perm x) (ho : ∀ x, (oo x).Perm x)
    (n : Name) (ins : Dict Name Struct) (incoming outgoing : List Connection) (kw : K)
    (hp : ∀ sh, cls.setup n kw (sortShapes ins) = some sh → sh.Plain) (l : LayerObj K) :
    construct cls keys oi oo n ins incoming outgoing kw = .ok l ↔
      Acceptable cls keys kw (sortShapes ins) ∧ ∃ sh, cls.setup n kw (sortShapes ins) = some sh ∧
        (∀ c ∈ incoming, c.inputName ∈ Dict.keys ins) ∧ (∀ c ∈ outgoing, StartsAt sh c.outputName) ∧
        l = ⟨n, kw, sortShapes ins, incoming, outgoing, sh⟩ := by
  rw [construct_iff]
  have hk : ∀ x, x ∈ Dict.keys (sortShapes ins) ↔ x ∈ Dict.keys ins := by
    intro x
    rw [keys_sortShapes]; exact (sortBy_perm _ _).mem_iff
  constructor
  · rintro ⟨h1, sh, h2, h3, h4, h5⟩
    exact ⟨h1, sh, h2, fun c hc => (hk _).1 (h3 c ((hi _).mem_iff.2 hc)),
      fun c hc => (outgoingOk_iff (hp sh h2) c).1 (h4 c ((ho _).mem_iff.2 hc)), h5⟩
  · rintro ⟨h1, sh, h2, h3, h4, h5⟩
    exact ⟨h1, sh, h2, fun c hc => (hk _).2 (h3 c ((hi _).mem_iff.1 hc)),
      fun c hc => (outgoingOk_iff (hp sh h2) c).2 (h4 c ((ho _).mem_iff.1 hc)), h5⟩

theorem instLayer_acceptable {env : Env K} {ord : Orders} {a : Arch} {cs : List Connection}
    {layers : Dict Name (LayerObj K)} {n : Name} {l : LayerObj K} (h : instLayer env ord a cs layers n = .ok l) :
    ∃ d t cls, Dict.get? a n = some d ∧ d.type = .string t ∧ env.classOf (t ++ str "LayerImpl") = some cls ∧
      Acceptable cls env.keys l.kwargs l.inShapes ∧ cls.setup n l.kwargs l.inShapes = some l.shapes := by
  unfold instLayer at h
  split at h
  · cases h
  · rename_i d hd
    split at h
    · rename_i t ht
      split at h
      · cases h
      · rename_i cls hcls
        simp only at h
        split at h
        · cases h
        · rename_i ins hins
          obtain ⟨h1, sh, h2, -, -, rfl⟩ := (construct_iff _ _ _ _ _ _ _ _ _ _).1 h
          exact ⟨d, t, cls, hd, ht, hcls, h1, h2⟩
    · cases h

/-- **C59 (no layer is created with wrong inputs).** In every instantiated network, each layer has only keyword arguments its
class expects, exactly the inputs its class expects, and each input has a shape the class's template matches. -/
theorem C59_acceptable (env : Env K) (a : Arch) (hk : (Dict.keys a).Nodup) (ord : Orders)
    (layers : Dict Name (LayerObj K)) (h : Instantiates env ord a (.ok layers)) (n : Name) (l : LayerObj K)
    (hl : Dict.get? layers n = some l) :
    ∃ d t cls, Dict.get? a n = some d ∧ d.type = .string t ∧ env.classOf (t ++ str "LayerImpl") = some cls ∧
      Acceptable cls env.keys l.kwargs l.inShapes ∧ cls.setup n l.kwargs l.inShapes = some l.shapes := by
  rcases instantiates_cases env ord a hk with ⟨e, h1, _⟩ | ⟨-, cs, order, hcs, hord, h1⟩
  · cases h.unique h1
  have h2 := (h.unique h1).symm
  obtain ⟨q1, -, q2⟩ := instLoop_spec order (by
    simpa [Dict.keys] using (C04_perm a hk order hord).nodup_iff.2 hk) h2
  have hn : n ∈ order := by
    have : n ∈ Dict.keys layers := by rw [Dict.mem_keys_iff, hl]; rfl
    rw [q1] at this; simpa [Dict.keys] using this
  obtain ⟨before, l2, w1, w2, -⟩ := q2 n hn
  rw [hl] at w1; cases w1
  exact instLayer_acceptable w2

/-! ### The assumptions are met -/

/-- A layer type with one input for sequences of vectors and one keyword argument. -/
def demoClass : LayerClass (List Name) where
  expectedKwargs := [str "size"]
  expectedInputs := [(str "default", ⟨[.T, .B, .dots], 0⟩)]
  setup _ _ _ := some ⟨[(str "default", ⟨[.T, .B, .n 3], 0, false⟩)], [(str "W", ⟨[.n 3, .n 4], 0, false⟩)], []⟩

/-- Whether a layer of this type can be created. -/
def demoCreated (kw : List Name) (ins : Dict Name Struct) (incoming outgoing : List Connection) : Bool :=
  match construct demoClass id id id (str "H") ins incoming outgoing kw with
  | .ok _ => true
  | .error _ => false

/-- It is accepted with the expected input, and with a connection starting at its parameter. -/
example : demoCreated [str "size"] [(str "default", ⟨[.T, .B, .n 4], 0, false⟩)]
    [⟨str "Input", str "default", str "H", str "default"⟩] [⟨str "H", str "..parameters.W", str "L2", str "default"⟩] = true := by
  decide +kernel

/-- Each of the demands is tested. -/
example : demoCreated [str "sise"] [(str "default", ⟨[.T, .B, .n 4], 0, false⟩)] [] [] = false ∧
    demoCreated [] [] [] [] = false ∧
    demoCreated [] [(str "default", ⟨[.T, .B, .n 4], 0, false⟩), (str "mask", ⟨[.T, .B, .n 1], 0, false⟩)] [] [] = false ∧
    demoCreated [] [(str "default", ⟨[.n 3, .n 4], 0, false⟩)] [] [] = false ∧
    demoCreated [] [(str "default", ⟨[.T, .B, .n 4], 0, false⟩)]
      [⟨str "Input", str "default", str "H", str "x"⟩] [] = false ∧
    demoCreated [] [(str "default", ⟨[.T, .B, .n 4], 0, false⟩)] []
      [⟨str "H", str "..parameters.V", str "L2", str "default"⟩] = false := by
  decide +kernel

end Verif.Instantiate
