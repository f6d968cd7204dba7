import Verif.NetSpec.Build
import Verif.Construction.GenerateProps

/-!
# Property C67: networks built with `get_in_out_layers`
-/

namespace Verif.NetSpec

open Verif.Construction Verif.Architecture

/-! ## What is expected -/

/-- The type of a layer: the name of its class without `LayerImpl`. -/
def Made.typeName (m : Made) : Name := m.cls.take (m.cls.length - 9)

/-- The name the layer was given: its type if none. -/
def Made.baseName (m : Made) : Name := m.name.getD m.typeName

/-- Type and name of the layer are legal. -/
def Made.Creatable (m : Made) : Prop := ∃ p, checkCreate m.cls m.name = .ok p

/-- Neighbours in a row. -/
def neighbours (l : List Nat) : List (Nat × Nat) := l.zip l.tail

/-- How many layers `get_in_out_layers` creates. -/
def Opts.parts (o : Opts) : Nat := if o.maskName = none then 4 else 5

/-- The connections of a network whose layers have the names `nm`: layer 0 is the projection layer, 1 the output layer, 2 the
input layer, then mask (if there is one) and loss, and from `o.parts` on `k` hidden layers in a row between input and
projection layer. -/
def expectedConnections (o : Opts) (k : Nat) (nm : Nat → Name) : List Connection :=
  (neighbours (2 :: (List.range' o.parts k ++ [0]))).map (fun p => ⟨nm p.1, str "default", nm p.2, str "default"⟩) ++
  [⟨nm 0, str "default", nm 1, str "default"⟩, ⟨nm 2, o.targetsName, nm 1, str "targets"⟩] ++
  match o.maskName with
  | none => [⟨nm 1, str "loss", nm 3, str "default"⟩]
  | some m => [⟨nm 1, str "loss", nm 3, str "default"⟩, ⟨nm 3, str "default", nm 4, str "default"⟩,
      ⟨nm 2, m, nm 3, str "mask"⟩]

/-! ## Lemmas -/

theorem checkCreate_ok {m : Made} {p : Name × Name} (h : checkCreate m.cls m.name = .ok p) :
    p = (m.baseName, m.typeName) ∧ isValidLayerName m.baseName = true := by
  unfold checkCreate at h
  cases hs : stripLayerImpl m.cls with
  | none => rw [hs] at h; simp at h
  | some t =>
    rw [hs] at h
    have ht : t = m.typeName := by
      unfold stripLayerImpl at hs
      split at hs
      · exact (Option.some.inj hs).symm
      · simp at hs
    simp only at h
    by_cases hv : isValidLayerName t = true
    · rw [if_pos hv] at h
      cases hn : m.name with
      | none =>
        rw [hn] at h
        simp only [Except.ok.injEq] at h
        simp [Made.baseName, hn, ← h, ← ht, hv]
      | some n =>
        rw [hn] at h
        simp only at h
        by_cases hv' : isValidLayerName n = true
        · rw [if_pos hv'] at h
          simp only [Except.ok.injEq] at h
          simp [Made.baseName, hn, ← h, ← ht, hv']
        · rw [if_neg hv'] at h; simp at h
    · rw [if_neg hv] at h; simp at h

theorem Made.Creatable.eq {m : Made} (h : m.Creatable) : checkCreate m.cls m.name = .ok (m.baseName, m.typeName) := by
  obtain ⟨p, hp⟩ := h
  rw [hp, (checkCreate_ok hp).1]

theorem created_op {m : Made} (h : m.Creatable) (ops : List Op) : created (m.op :: ops) = m.baseName :: created ops := by
  rw [Made.op, created, h.eq]

theorem createdTypes_op {m : Made} (h : m.Creatable) (ops : List Op) :
    createdTypes (m.op :: ops) = m.typeName :: createdTypes ops := by
  rw [Made.op, createdTypes, h.eq]

theorem wires_op {m : Made} (h : m.Creatable) (n : Nat) (ops : List Op) : wires n (m.op :: ops) = wires (n + 1) ops := by
  rw [Made.op, wires, h.eq]

theorem wires_conn {n a b : Nat} (o i : Name) (ha : a < n) (hb : b < n) (ops : List Op) :
    wires n (.connect a o i b :: ops) = ⟨a, o, i, b⟩ :: wires n ops := by
  rw [wires, if_pos ⟨ha, hb⟩]

/-- A wire from a default output to a default input. -/
def plainWire (p : Nat × Nat) : Wire := ⟨p.1, str "default", str "default", p.2⟩

theorem chain_created (proj : Nat) (hidden : List Made) (hok : ∀ m ∈ hidden, m.Creatable) (k cur : Nat) :
    created (chainOps proj k cur hidden) = hidden.map Made.baseName ∧
    createdTypes (chainOps proj k cur hidden) = hidden.map Made.typeName := by
  induction hidden generalizing k cur with
  | nil => exact ⟨rfl, rfl⟩
  | cons m r ih =>
    have := ih (fun x hx => hok x (by simp [hx])) (k + 1) k
    rw [chainOps, created_op (hok m (by simp)), createdTypes_op (hok m (by simp)), created, createdTypes, this.1, this.2]
    exact ⟨rfl, rfl⟩

theorem chain_wires (proj : Nat) (hidden : List Made) (hok : ∀ m ∈ hidden, m.Creatable) (k cur : Nat) (hp : proj < k)
    (hc : cur < k) :
    wires k (chainOps proj k cur hidden) =
      (neighbours (cur :: (List.range' k hidden.length ++ [proj]))).map plainWire := by
  induction hidden generalizing k cur with
  | nil => rw [chainOps, wires_conn _ _ hc hp]; rfl
  | cons m r ih =>
    rw [chainOps, wires_op (hok m (by simp)), wires_conn _ _ (by omega) (by omega),
      ih (fun x hx => hok x (by simp [hx])) (k + 1) k (by omega) (by omega)]
    rfl

/-- The wires of `get_in_out_layers`. -/
def headWires (n : Nat) (o : Opts) : List Wire :=
  [⟨n, str "default", str "default", n + 1⟩, ⟨n + 2, o.targetsName, str "targets", n + 1⟩] ++
  match o.maskName with
  | none => [⟨n + 1, str "loss", str "default", n + 3⟩]
  | some m => [⟨n + 1, str "loss", str "default", n + 3⟩, ⟨n + 3, str "default", str "default", n + 4⟩,
      ⟨n + 2, m, str "mask", n + 3⟩]

theorem head_facts {n : Nat} {o : Opts} {s : Script} (hs : getInOut n o = some s) (hok : ∀ m ∈ s.made, m.Creatable) :
    s.made.length = o.parts ∧ created s.ops = s.made.map Made.baseName ∧ createdTypes s.ops = s.made.map Made.typeName ∧
      wires n s.ops = headWires n o := by
  unfold getInOut at hs
  cases hp : o.projection with
  | none => rw [hp] at hs; simp at hs
  | some proj =>
    cases hc : outClass o.task with
    | none => rw [hp, hc] at hs; simp at hs
    | some cls =>
      rw [hp, hc] at hs
      cases hm : o.maskName with
      | none =>
        rw [hm] at hs
        simp only [Option.some.injEq] at hs
        subst hs
        simp only [List.mem_cons, List.not_mem_nil, or_false, forall_eq_or_imp, forall_eq] at hok
        obtain ⟨h0, h1, h2, h3⟩ := hok
        refine ⟨by simp [Opts.parts, hm], ?_, ?_, ?_⟩
        · rw [created_op h0, created_op h1, created, created_op h2, created, created_op h3]; rfl
        · rw [createdTypes_op h0, createdTypes_op h1, createdTypes, createdTypes_op h2, createdTypes, createdTypes_op h3]; rfl
        · rw [wires_op h0, wires_op h1, wires_conn _ _ (by omega) (by omega), wires_op h2,
            wires_conn _ _ (by omega) (by omega), wires_op h3, wires_conn _ _ (by omega) (by omega), headWires, hm]
          rfl
      | some m =>
        rw [hm] at hs
        simp only [Option.some.injEq] at hs
        subst hs
        simp only [List.mem_cons, List.not_mem_nil, or_false, forall_eq_or_imp, forall_eq] at hok
        obtain ⟨h0, h1, h2, h3, h4⟩ := hok
        refine ⟨by simp [Opts.parts, hm], ?_, ?_, ?_⟩
        · rw [created_op h0, created_op h1, created, created_op h2, created_op h3, created, created, created_op h4]; rfl
        · rw [createdTypes_op h0, createdTypes_op h1, createdTypes, createdTypes_op h2, createdTypes_op h3, createdTypes,
            createdTypes, createdTypes_op h4]; rfl
        · rw [wires_op h0, wires_op h1, wires_conn _ _ (by omega) (by omega), wires_op h2, wires_op h3,
            wires_conn _ _ (by omega) (by omega), wires_conn _ _ (by omega) (by omega), wires_op h4,
            wires_conn _ _ (by omega) (by omega), wires_conn _ _ (by omega) (by omega), headWires, hm]
          rfl

theorem stack_facts {n : Nat} {o : Opts} {hidden : List Made} {s : Script} (hs : stack n o hidden = some s)
    (hok : ∀ m ∈ s.made, m.Creatable) :
    s.made.length = o.parts + hidden.length ∧ created s.ops = s.made.map Made.baseName ∧
      createdTypes s.ops = s.made.map Made.typeName ∧
      wires n s.ops = headWires n o ++
        (neighbours ((n + 2) :: (List.range' (n + o.parts) hidden.length ++ [n]))).map plainWire := by
  unfold stack at hs
  cases hg : getInOut n o with
  | none => rw [hg] at hs; simp at hs
  | some t =>
    rw [hg] at hs
    simp only [Option.map_some, Option.some.injEq] at hs
    subst hs
    simp only at hok ⊢
    obtain ⟨h1, h2, h3, h4⟩ := head_facts hg (fun m hm => hok m (by simp [hm]))
    have hh : ∀ m ∈ hidden, m.Creatable := fun m hm => hok m (by simp [hm])
    have hpos : 4 ≤ o.parts := by unfold Opts.parts; split <;> omega
    obtain ⟨c1, c2⟩ := chain_created n hidden hh (n + t.made.length) (n + 2)
    have c3 := chain_wires n hidden hh (n + t.made.length) (n + 2) (by omega) (by omega)
    refine ⟨by rw [List.length_append, h1], ?_, ?_, ?_⟩
    · rw [created_append, h2, c1, List.map_append]
    · rw [createdTypes_append, h3, c2, List.map_append]
    · rw [wires_append, h4, h2, List.length_map, c3, h1]

end Verif.NetSpec
