import Verif.Buffers.State
import Mathlib.Data.List.Induction

/-! # C12, C15, C16, C17, C18: memory regions, resizing, clearing -/

namespace Verif.Buffers

open Verif.Structure Verif.Layout

/-! ### C12: regions -/

/-- **C12**: the regions of the hubs are consecutive, start at 0, end at the total
size, have the sizes of the hubs' shapes, and every address belongs to exactly one
hub. -/
theorem C12_regions (hubs : List HubInfo) (T B : Nat) :
    let r := totalSizeSlicesShapes hubs T B
    r.2.1.length = hubs.length ∧ r.2.2 = hubs.map (fun h => h.shape T B) ∧
    (∀ sl, r.2.1[0]? = some sl → sl.1 = 0) ∧
    (∀ k sl sl', r.2.1[k]? = some sl → r.2.1[k + 1]? = some sl' → sl'.1 = sl.2) ∧
    (∀ sl, r.2.1.getLast? = some sl → sl.2 = r.1) ∧
    (∀ (k : Nat) (h : HubInfo) (sl : Nat × Nat), hubs[k]? = some h → r.2.1[k]? = some sl → sl.2 = sl.1 + (h.shape T B).prod) ∧
    (∀ a < r.1, ∃ (k : Nat) (sl : Nat × Nat), r.2.1[k]? = some sl ∧ sl.1 ≤ a ∧ a < sl.2 ∧
      ∀ (k' : Nat) (sl' : Nat × Nat), r.2.1[k']? = some sl' → sl'.1 ≤ a → a < sl'.2 → k' = k) := by
  intro r
  have hget : ∀ k sl, r.2.1[k]? = some sl → k < hubs.length ∧ sl = (hubBase hubs T B k, hubBase hubs T B (k + 1)) := by
    intro k sl h
    by_cases hk : k < hubs.length
    · refine ⟨hk, ?_⟩
      rw [slices_eq hubs T B k hk] at h
      simpa using h.symm
    · rw [slices_none hubs T B k hk] at h; simp at h
  refine ⟨slices_length _ _ _, rfl, ?_, ?_, ?_, ?_, ?_⟩
  · intro sl h; rw [(hget _ _ h).2]; simp [hubBase, offset_zero]
  · intro k sl sl' h h'; rw [(hget _ _ h).2, (hget _ _ h').2]
  · intro sl h
    rw [List.getLast?_eq_getElem?] at h
    obtain ⟨hk, rfl⟩ := hget _ _ h
    rw [show r.1 = hubBase hubs T B hubs.length from total_eq _ _ _]
    have hlen : r.2.1.length = hubs.length := slices_length _ _ _
    rw [hlen] at hk ⊢
    simp only
    rw [Nat.sub_add_cancel (by omega)]
  · intro k h sl hk hsl
    obtain ⟨hk', rfl⟩ := hget _ _ hsl
    rw [List.getElem?_eq_getElem hk'] at hk
    simp only [Option.some.injEq] at hk
    subst hk
    exact hubBase_succ _ _ _ _ hk'
  · intro a ha
    rw [show r.1 = hubBase hubs T B hubs.length from total_eq _ _ _] at ha
    obtain ⟨i, -, hi, h1, h2⟩ := exists_offset (Nat.zero_le _) (by rw [offset_zero]; omega) ha
    refine ⟨i, _, slices_eq hubs T B i hi, h1, h2, ?_⟩
    intro k' sl' hk' g1 g2
    obtain ⟨-, rfl⟩ := hget _ _ hk'
    exact offset_unique ⟨g1, g2⟩ ⟨h1, h2⟩

/-- The feature position of a cell of an array that fits. -/
theorem fits_cell {hubs : List HubInfo} {e : ArrayEntry} (hf : Fits hubs e) {T B : Nat} {v : View}
    (hv : viewOf hubs T B e = some v) {c : Nat} (hc : c ∈ v.cells) :
    ∃ hk : e.hub < hubs.length, ∃ row f, c = hubBase hubs T B e.hub + row * hubs[e.hub].size + f ∧
      e.slice.1 ≤ f ∧ f < e.slice.2 ∧ f < hubs[e.hub].size := by
  have hf' := hf
  obtain ⟨hk, hor⟩ := hf'
  refine ⟨hk, ?_⟩
  obtain ⟨v', hv', -, h0, h1, h2⟩ := viewOf_fits hf T B
  rw [hv] at hv'
  cases hv'
  rcases hor with ⟨ht, hle, hlo, hhi, -, -⟩ | ⟨ht, hle, hlo, -⟩
  · obtain hb | hb | hb : e.struct.bufferType = 0 ∨ e.struct.bufferType = 1 ∨ e.struct.bufferType = 2 := by omega
    · rw [h0 hb] at hc
      simp only [List.mem_map, List.mem_range] at hc
      obtain ⟨f, hfl, rfl⟩ := hc
      exact ⟨0, e.slice.1 + f, by omega, by omega, by omega, by omega⟩
    · rw [h1 hk hb] at hc
      simp only [List.mem_flatMap, List.mem_map, List.mem_range] at hc
      obtain ⟨b, -, f, hfl, rfl⟩ := hc
      exact ⟨b, e.slice.1 + f, by omega, by omega, by omega, by omega⟩
    · rw [h2 hk hb] at hc
      simp only [List.mem_flatMap, List.mem_map, List.mem_range] at hc
      obtain ⟨t, -, b, -, f, hfl, rfl⟩ := hc
      exact ⟨t * B + b, e.slice.1 + f, by ring, by omega, by omega, by omega⟩
  · rw [h0 ht] at hc
    simp [hlo] at hc

/-- **C12**: two arrays that share a memory cell are parts of the same hub with
overlapping feature slices. -/
theorem C12_share (hubs : List HubInfo) (T B : Nat) (e e' : ArrayEntry) (hf : Fits hubs e) (hf' : Fits hubs e')
    (v v' : View) (hv : viewOf hubs T B e = some v) (hv' : viewOf hubs T B e' = some v')
    (c : Nat) (hc : c ∈ v.cells) (hc' : c ∈ v'.cells) :
    e.hub = e'.hub ∧ ∃ f, Inside f e.slice ∧ Inside f e'.slice := by
  have hh : e.hub = e'.hub := offset_unique (viewOf_bounds hv c hc) (viewOf_bounds hv' c hc')
  refine ⟨hh, ?_⟩
  obtain ⟨hk, r, f, h1, h2, h3, h4⟩ := fits_cell hf hv hc
  obtain ⟨hk', r', f', h1', h2', h3', h4'⟩ := fits_cell hf' hv' hc'
  have hsz : hubs[e'.hub].size = hubs[e.hub].size := by simp only [hh]
  have hbase : hubBase hubs T B e'.hub = hubBase hubs T B e.hub := by rw [hh]
  rw [h1, hbase, hsz] at h1'
  rw [hsz] at h4'
  have hrr : r = r' := mul_range h4 h4' (by omega)
  subst hrr
  have : f = f' := by omega
  subst this
  exact ⟨f, ⟨h2, h3⟩, ⟨h2', h3'⟩⟩

/-- **C12**: no address occurs twice in an array, and all addresses lie in the
allocated buffer. -/
theorem C12_inside (hubs : List HubInfo) (T B : Nat) (e : ArrayEntry) (v : View)
    (hv : viewOf hubs T B e = some v) :
    v.cells.Nodup ∧ ∀ c ∈ v.cells, c < (totalSizeSlicesShapes hubs T B).1 :=
  ⟨viewOf_nodup hv, viewOf_lt_total hv⟩

/-! ### Sequences of operations -/

section
variable {V : Type} [Zero V]

/-- Operations between which parameters have to survive. -/
inductive Op (V : Type)
  /-- `provide_external_data` with the given sizes and data. -/
  | provide (T B : Nat) (data : List (Name × List V))
  /-- `set_handler`. -/
  | handler
  /-- Assigning to an array. -/
  | write (n : Name) (vals : List V)
  /-- Arbitrary changes of memory outside the parameters (forward and backward
  passes, clearing). -/
  | scribble (g : Nat → V)

/-- Every cell of the current buffer that is not part of `parameters` gets a new value. -/
def scribble (st : State V) (g : Nat → V) : Option (State V) :=
  match st.views with
  | none => none
  | some (b, vs) => match Dict.get? vs (str "parameters") with
    | none => none
    | some v =>
      let m := (block st.heap b).mapIdx (fun c x => if c ∈ v.cells then x else g c)
      some { st with heap := st.heap.set b m }

/-- One operation. -/
def step (net : Net) (st : State V) : Op V → Option (State V)
  | .provide T B data => provideExternalData net st T B data
  | .handler => setHandler net st
  | .write n vals => st.write n vals
  | .scribble g => scribble st g

/-- A sequence of operations. -/
def run (net : Net) : State V → List (Op V) → Option (State V)
  | st, [] => some st
  | st, op :: ops => match step net st op with
    | none => none
    | some st' => run net st' ops

/-- The data written by an operation lies in other hubs than the parameters, and
nothing is assigned directly. -/
def Op.Keeps (net : Net) : Op V → Prop
  | .provide _ _ data => ∀ d ∈ data, ∀ e p, Dict.get? net.layout d.1 = some e →
      Dict.get? net.layout (str "parameters") = some p → e.hub ≠ p.hub
  | .handler => True
  | .write _ _ => False
  | .scribble _ => True

/-- The sizes an operation asks for. -/
def Op.request : Op V → Option (Nat × Nat)
  | .provide T B _ => some (T, B)
  | .handler => some (0, 0)
  | _ => none

/-- The last requested sizes; a new manager and a new handler start with (0, 0). -/
def lastRequest (ops : List (Op V)) : Nat × Nat := ops.foldl (fun acc op => op.request.getD acc) (0, 0)

/-- The largest size required since the last change of the handler. -/
def required (net : Net) (ops : List (Op V)) : Nat :=
  ops.foldl (fun acc op => match op with
    | .provide T B _ => max acc (totalSizeSlicesShapes net.hubs T B).1
    | .handler => (totalSizeSlicesShapes net.hubs 0 0).1
    | _ => acc) (totalSizeSlicesShapes net.hubs 0 0).1

theorem writeAll_inv {net : Net} {T B sz b : Nat} {vs : List (Name × View)} :
    ∀ {st st' : State V} {data : List (Name × List V)}, Inv net st T B sz b vs → writeAll st data = some st' →
      Inv net st' T B sz b vs
  | st, st', [], h, hs => by simp [writeAll] at hs; subst hs; exact h
  | st, st', (n, d) :: rest, h, hs => by
    simp only [writeAll] at hs
    split at hs
    · simp at hs
    · rename_i st₁ h₁
      exact writeAll_inv (h.write_inv h₁) hs

theorem scribble_inv {net : Net} {st st' : State V} {T B sz b : Nat} {vs : List (Name × View)}
    (h : Inv net st T B sz b vs) {g : Nat → V} (hs : scribble st g = some st') :
    Inv net st' T B sz b vs ∧ st'.read (str "parameters") = st.read (str "parameters") := by
  unfold scribble at hs
  split at hs
  · simp at hs
  · rename_i b' vs' hv
    rw [h.view] at hv
    cases hv
    split at hs
    · simp at hs
    · rename_i v hv
      simp only [Option.some.injEq] at hs
      subst hs
      refine ⟨h.withHeap (by simp [h.len]), ?_⟩
      simp only [State.read, h.view, hv, Option.map_some, block_set h.alloc]
      congr 1
      unfold readCells
      refine List.map_congr_left (fun c hc => ?_)
      simp only [List.getD, List.getElem?_mapIdx, hc, if_true]
      cases (block st.heap b)[c]? <;> simp

theorem step_inv {net : Net} (hw : WellLaid net) {st st' : State V} {T B sz b : Nat} {vs : List (Name × View)}
    (h : Inv net st T B sz b vs) {op : Op V} (hs : step net st op = some st') :
    ∃ b' vs', Inv net st' (op.request.getD (T, B)).1 (op.request.getD (T, B)).2
      (match op with
        | .provide T B _ => max sz (totalSizeSlicesShapes net.hubs T B).1
        | .handler => (totalSizeSlicesShapes net.hubs 0 0).1
        | _ => sz) b' vs' := by
  cases op with
  | provide T' B' data =>
    simp only [step, provideExternalData] at hs
    obtain ⟨st₁, b₁, vs₁, hr, hi, -⟩ := resize_inv hw h T' B'
    rw [hr] at hs
    exact ⟨b₁, vs₁, writeAll_inv hi hs⟩
  | handler =>
    obtain ⟨st₁, b₁, vs₁, hr, hi, -⟩ := setHandler_inv hw h
    simp only [step, hr, Option.some.injEq] at hs
    subst hs
    exact ⟨b₁, vs₁, hi⟩
  | write n vals => exact ⟨b, vs, h.write_inv hs⟩
  | scribble g => exact ⟨b, vs, (scribble_inv h hs).1⟩

theorem create_inv {net : Net} (hw : WellLaid net) :
    ∃ (st : State V) (b : Nat) (vs : List (Name × View)), create net = some st ∧
      Inv net st 0 0 (totalSizeSlicesShapes net.hubs 0 0).1 b vs := by
  obtain ⟨st, b, vs, h1, h2⟩ := resize_fresh hw (State.init : State V) rfl rfl rfl 0 0
  exact ⟨st, b, vs, h1, h2⟩

theorem run_append (net : Net) (st : State V) (ops ops' : List (Op V)) :
    run net st (ops ++ ops') = (run net st ops).bind (fun s => run net s ops') := by
  induction ops generalizing st with
  | nil => rfl
  | cons op ops ih =>
    simp only [List.cons_append, run]
    cases step net st op with
    | none => rfl
    | some s => exact ih s

theorem run_inv {net : Net} (hw : WellLaid net) {st₀ st : State V} (hc : create net = some st₀)
    {ops : List (Op V)} (hr : run net st₀ ops = some st) :
    ∃ b vs, Inv net st (lastRequest ops).1 (lastRequest ops).2 (required net ops) b vs := by
  induction ops using List.reverseRecOn generalizing st with
  | nil =>
    simp only [run, Option.some.injEq] at hr
    subst hr
    obtain ⟨st, b, vs, h1, h2⟩ := create_inv (V := V) hw
    rw [hc] at h1
    cases h1
    exact ⟨b, vs, h2⟩
  | append_singleton ops op ih =>
    rw [run_append] at hr
    obtain ⟨s, hs, hr⟩ := Option.bind_eq_some_iff.1 hr
    obtain ⟨b, vs, hi⟩ := ih hs
    simp only [run] at hr
    split at hr
    · simp at hr
    · rename_i s' hs'
      simp only [Option.some.injEq] at hr
      subst hr
      have := step_inv hw hi hs'
      simpa [lastRequest, required, List.foldl_append] using this

/-! ### C15 -/

theorem write_other_params {net : Net} {st st' : State V} {T B sz b : Nat}
    {vs : List (Name × View)} (h : Inv net st T B sz b vs) {n : Name} {vals : List V}
    (hs : st.write n vals = some st')
    (hk : ∀ e p, Dict.get? net.layout n = some e → Dict.get? net.layout (str "parameters") = some p → e.hub ≠ p.hub) :
    st'.read (str "parameters") = st.read (str "parameters") := by
  unfold State.write at hs
  split at hs
  · simp at hs
  · rename_i b' vs' hv
    rw [h.view] at hv
    cases hv
    split at hs
    · simp at hs
    · rename_i v hv
      split at hs
      · simp only [Option.some.injEq] at hs
        subst hs
        simp only [State.read, h.view, block_set h.alloc]
        cases hp : Dict.get? vs (str "parameters") with
        | none => rfl
        | some p =>
          simp only [Option.map_some]
          congr 1
          apply readCells_write_disjoint
          intro c hc hc'
          rw [get?_createViews h.created] at hv hp
          obtain ⟨e, he, hve⟩ := Option.bind_eq_some_iff.1 hv
          obtain ⟨q, hq, hvq⟩ := Option.bind_eq_some_iff.1 hp
          exact hk e q he hq (offset_unique (viewOf_bounds hve c hc') (viewOf_bounds hvq c hc))
      · simp at hs

theorem writeAll_params {net : Net} {T B sz b : Nat} {vs : List (Name × View)} :
    ∀ {st st' : State V} {data : List (Name × List V)}, Inv net st T B sz b vs → writeAll st data = some st' →
      (∀ d ∈ data, ∀ e p, Dict.get? net.layout d.1 = some e →
        Dict.get? net.layout (str "parameters") = some p → e.hub ≠ p.hub) →
      st'.read (str "parameters") = st.read (str "parameters")
  | st, st', [], h, hs, _ => by simp [writeAll] at hs; subst hs; rfl
  | st, st', (n, d) :: rest, h, hs, hk => by
    simp only [writeAll] at hs
    split at hs
    · simp at hs
    · rename_i st₁ h₁
      rw [writeAll_params (h.write_inv h₁) hs (fun d hd => hk d (by simp [hd]))]
      exact write_other_params h h₁ (hk _ (List.mem_cons_self))

/-- **C15**: whatever happened before (`before`), and whatever sequence of
`provide_external_data` calls of any sizes, handler changes and writes outside the
parameters follows (`after`), the parameters keep their values. -/
theorem C15_parameters_survive (net : Net) (hw : WellLaid net) (st₀ st st' : State V)
    (before after : List (Op V)) (hc : create net = some st₀) (h1 : run net st₀ before = some st)
    (h2 : run net st after = some st') (hk : ∀ op ∈ after, op.Keeps net) :
    st'.read (str "parameters") = st.read (str "parameters") := by
  induction after using List.reverseRecOn generalizing st' with
  | nil => simp only [run, Option.some.injEq] at h2; rw [h2]
  | append_singleton ops op ih =>
    rw [run_append] at h2
    obtain ⟨s, hs, h2⟩ := Option.bind_eq_some_iff.1 h2
    have e1 := ih s hs (fun o ho => hk o (by simp [ho]))
    have hrun : run net st₀ (before ++ ops) = some s := by
      rw [run_append, h1]; exact hs
    obtain ⟨b, vs, hi⟩ := run_inv hw hc hrun
    rw [← e1]
    simp only [run] at h2
    split at h2
    · simp at h2
    · rename_i s' hs'
      simp only [Option.some.injEq] at h2
      subst h2
      have hkeep := hk op (by simp)
      cases op with
      | provide T' B' data =>
        simp only [step, provideExternalData] at hs'
        obtain ⟨st₁, b₁, vs₁, hr, hi₁, hp⟩ := resize_inv hw hi T' B'
        rw [hr] at hs'
        rw [writeAll_params hi₁ hs' hkeep, hp]
      | handler =>
        obtain ⟨st₁, b₁, vs₁, hr, -, hp⟩ := setHandler_inv hw hi
        simp only [step, hr, Option.some.injEq] at hs'
        subst hs'
        exact hp
      | write n vals => exact hkeep.elim
      | scribble g => exact (scribble_inv hi hs').2

/-- **C15**: the values read are the ones that were set, and the array exists in
every reachable state. -/
theorem C15_parameters_readable (net : Net) (hw : WellLaid net) (st₀ st : State V)
    (ops : List (Op V)) (hc : create net = some st₀) (h1 : run net st₀ ops = some st) :
    (∃ ps, st.read (str "parameters") = some ps) ∧
    ∀ vals st', st.write (str "parameters") vals = some st' → st'.read (str "parameters") = some vals := by
  obtain ⟨b, vs, hi⟩ := run_inv hw hc h1
  obtain ⟨e, he, hpv⟩ := hw.paramView
  obtain ⟨v, hv, -, -⟩ := hpv _ _ _ hi.created
  refine ⟨⟨_, by simp only [State.read, hi.view, hv, Option.map_some]; rfl⟩, ?_⟩
  intro vals st' hs
  by_cases hl : v.cells.length = vals.length
  · obtain ⟨st'', h1, -, h3, -⟩ := hi.write hv hl
    rw [h1] at hs
    cases hs
    exact h3
  · simp [State.write, hi.view, hv, hl] at hs

/-- **C15**: resizing and changing the handler never fail. -/
theorem C15_total (net : Net) (hw : WellLaid net) :
    (∃ st₀ : State V, create net = some st₀) ∧
    ∀ (st₀ st : State V) (ops : List (Op V)), create net = some st₀ → run net st₀ ops = some st →
      (∀ T B, ∃ st', step net st (.provide T B []) = some st') ∧ (∃ st', step net st .handler = some st') ∧
      (∀ g, ∃ st', step net st (.scribble g) = some st') := by
  obtain ⟨st₀, b, vs, h, -⟩ := create_inv (V := V) hw
  refine ⟨⟨st₀, h⟩, ?_⟩
  intro st₀ st ops hc hr
  obtain ⟨b, vs, hi⟩ := run_inv hw hc hr
  refine ⟨fun T B => ?_, ?_, fun g => ?_⟩
  · obtain ⟨st₁, _, _, h1, -⟩ := resize_inv hw hi T B
    exact ⟨st₁, by simp [step, provideExternalData, h1, writeAll]⟩
  · obtain ⟨st₁, _, _, h1, -⟩ := setHandler_inv hw hi
    exact ⟨st₁, h1⟩
  · obtain ⟨e, he, hpv⟩ := hw.paramView
    obtain ⟨v, hv, -, -⟩ := hpv _ _ _ hi.created
    exact ⟨_, by simp only [step, scribble, hi.view, hv]; rfl⟩

/-! ### C16 -/

/-- **C16**: after any sequence of operations every array has exactly the shape of
the last requested sizes, lies in the current buffer, and the buffer has the
largest size required since the last handler change. -/
theorem C16_shapes (net : Net) (hw : WellLaid net) (st₀ st : State V) (ops : List (Op V))
    (hc : create net = some st₀) (hr : run net st₀ ops = some st) :
    ∃ b vs, st.views = some (b, vs) ∧ st.full = some b ∧
      (block st.heap b).length = required net ops ∧ st.size = some (required net ops) ∧
      ∀ n e, Dict.get? net.layout n = some e → ∃ v, Dict.get? vs n = some v ∧
        v.shape = structShape e.struct (lastRequest ops).1 (lastRequest ops).2 ∧
        ∀ c ∈ v.cells, c < required net ops := by
  obtain ⟨b, vs, hi⟩ := run_inv hw hc hr
  refine ⟨b, vs, hi.view, hi.full, hi.len, hi.size, ?_⟩
  intro n e he
  obtain ⟨v, hv, hs, -⟩ := viewOf_fits (hw.fits _ (Dict.mem_of_get? he)) (lastRequest ops).1 (lastRequest ops).2
  refine ⟨v, by rw [get?_createViews hi.created, he]; exact hv, hs, ?_⟩
  intro c hcm
  exact Nat.lt_of_lt_of_le (viewOf_lt_total hv c hcm) hi.enough

/-- **C16**: a repeated request changes nothing. -/
theorem C16_repeat (net : Net) (hw : WellLaid net) (st₀ st : State V) (ops : List (Op V))
    (hc : create net = some st₀) (hr : run net st₀ ops = some st) :
    resize net st (lastRequest ops).1 (lastRequest ops).2 = some st := by
  obtain ⟨b, vs, hi⟩ := run_inv hw hc hr
  rw [resize, if_pos ⟨hi.time, hi.batch⟩]

/-! ### C17 -/

theorem zeroFold {P : HubInfo × Nat → Prop} [DecidablePred P] {cs : HubInfo × Nat → List Nat}
    (l : List (HubInfo × Nat)) (m : List V) (c : Nat) :
    ((∃ x ∈ l, P x ∧ c ∈ cs x) →
      (l.foldl (fun m x => if P x then zeroCells m (cs x) else m) m).getD c 0 = 0) ∧
    ((¬ ∃ x ∈ l, P x ∧ c ∈ cs x) →
      (l.foldl (fun m x => if P x then zeroCells m (cs x) else m) m).getD c 0 = m.getD c 0) ∧
    (l.foldl (fun m x => if P x then zeroCells m (cs x) else m) m).length = m.length := by
  induction l using List.reverseRecOn with
  | nil => simp
  | append_singleton l x ih =>
    simp only [List.foldl_append, List.foldl_cons, List.foldl_nil]
    obtain ⟨i1, i2, i3⟩ := ih
    by_cases hP : P x
    · simp only [hP, if_true, getD_zeroCells, length_zeroCells]
      refine ⟨?_, ?_, i3⟩
      · rintro ⟨y, hy, hPy, hcy⟩
        by_cases hcx : c ∈ cs x
        · simp [hcx]
        · rw [if_neg hcx]
          apply i1
          rcases List.mem_append.1 hy with hy | hy
          · exact ⟨y, hy, hPy, hcy⟩
          · simp only [List.mem_singleton] at hy; subst hy; exact absurd hcy hcx
      · intro hne
        have hcx : c ∉ cs x := fun h => hne ⟨x, by simp, hP, h⟩
        rw [if_neg hcx]
        apply i2
        rintro ⟨y, hy, h⟩
        exact hne ⟨y, by simp [hy], h⟩
    · simp only [hP, if_false]
      refine ⟨?_, ?_, i3⟩
      · rintro ⟨y, hy, hPy, hcy⟩
        rcases List.mem_append.1 hy with hy | hy
        · exact i1 ⟨y, hy, hPy, hcy⟩
        · simp only [List.mem_singleton] at hy; subst hy; exact absurd hPy hP
      · intro hne
        apply i2
        rintro ⟨y, hy, h⟩
        exact hne ⟨y, by simp [hy], h⟩

theorem mem_zipIdx_hubs {hubs : List HubInfo} {x : HubInfo × Nat} :
    x ∈ hubs.zipIdx ↔ ∃ h : x.2 < hubs.length, hubs[x.2] = x.1 := by
  rw [show x = (x.1, x.2) from rfl, List.mk_mem_zipIdx_iff_getElem?]
  constructor
  · intro h
    obtain ⟨h1, h2⟩ := List.getElem?_eq_some_iff.1 h
    exact ⟨h1, h2⟩
  · rintro ⟨h1, h2⟩
    exact List.getElem?_eq_some_iff.2 ⟨h1, h2⟩

/-- **C17**: clearing the backward buffers sets every array of a backward-only hub
to zero and changes no array of another hub. -/
theorem C17_clear_backward (net : Net) (hw : WellLaid net) (st₀ st : State V) (ops : List (Op V))
    (hc : create net = some st₀) (hr : run net st₀ ops = some st) :
    ∃ st', clearBackward net st = some st' ∧
      ∀ n e (h : HubInfo), Dict.get? net.layout n = some e → net.hubs[e.hub]? = some h →
        (h.backwardOnly = true → ∃ old, st.read n = some old ∧ st'.read n = some (List.replicate old.length 0)) ∧
        (h.backwardOnly = false → st'.read n = st.read n) := by
  obtain ⟨b, vs, hi⟩ := run_inv hw hc hr
  set T := (lastRequest ops).1
  set B := (lastRequest ops).2
  unfold clearBackward State.onFull
  simp only [hi.full, hi.time, hi.batch]
  refine ⟨_, rfl, ?_⟩
  intro n e h he hh
  obtain ⟨hk, rfl⟩ := List.getElem?_eq_some_iff.1 hh
  obtain ⟨v, hv, -⟩ := viewOf_fits (hw.fits _ (Dict.mem_of_get? he)) T B
  have hvs : Dict.get? vs n = some v := by rw [get?_createViews hi.created, he]; exact hv
  have hcell : ∀ c ∈ v.cells, ∀ x ∈ net.hubs.zipIdx, c ∈ hubCells net T B x.2 [] → x.2 = e.hub := by
    intro c hcm x hx hcx
    obtain ⟨hx1, -⟩ := mem_zipIdx_hubs.1 hx
    rw [hubCells_eq net T B _ hx1, mem_cellsOf_all, ← hubBase_succ _ _ _ _ hx1] at hcx
    exact offset_unique hcx (viewOf_bounds hv c hcm)
  refine ⟨fun hbw => ⟨readCells (block st.heap b) v.cells,
    by simp only [State.read, hi.view, hvs, Option.map_some], ?_⟩, fun hbw => ?_⟩
  · rw [readCells, List.length_map]
    simp only [State.read, hi.view, hvs, Option.map_some, block_set hi.alloc]
    congr 1
    rw [readCells, ← List.map_const']
    refine List.map_congr_left (fun c hcm => ?_)
    refine (zeroFold (P := fun x => x.1.backwardOnly = true) (cs := fun x => hubCells net T B x.2 []) _ _ c).1 ?_
    refine ⟨(net.hubs[e.hub], e.hub), mem_zipIdx_hubs.2 ⟨hk, rfl⟩, hbw, ?_⟩
    rw [hubCells_eq net T B _ hk, mem_cellsOf_all, ← hubBase_succ _ _ _ _ hk]
    exact viewOf_bounds hv c hcm
  · simp only [State.read, hi.view, hvs, Option.map_some, block_set hi.alloc]
    congr 1
    refine List.map_congr_left (fun c hcm => ?_)
    refine (zeroFold (P := fun x => x.1.backwardOnly = true) (cs := fun x => hubCells net T B x.2 []) _ _ c).2.1 ?_
    rintro ⟨x, hx, hb, hcx⟩
    have hxe := hcell c hcm x hx hcx
    obtain ⟨hx1, hx2⟩ := mem_zipIdx_hubs.1 hx
    have : net.hubs[e.hub].backwardOnly = true := by
      simp only [← hxe, hx2]; exact hb
    rw [hbw] at this
    simp at this

end

end Verif.Buffers
