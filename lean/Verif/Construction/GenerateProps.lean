import Verif.Construction.GenerateLemmas
import Verif.Construction.Props
import Verif.Architecture.Props

/-!
# Property C03: the architecture does not depend on the starting layer

`Generates (run ops) enum i a`: after script `ops`, calling
`generate_architecture` on layer `i` returns `a`, when Python enumerates sets in
the order given by `enum`.
-/

namespace Verif.Construction

open Verif.Architecture

theorem names_inj (ops : List Op) {nm : Nat → Name}
    (hnm : ∀ k < (run ops).count, HasName (run ops) k (nm k)) {i : Nat} (hi : i < (run ops).count) :
    ∀ j k, Connected ops i j → Connected ops i k → nm j = nm k → j = k := by
  intro j k hj hk he
  have h := inv_run ops
  have lt : ∀ x, Connected ops i x → x < (run ops).count := by
    intro x hx
    refine (connected_closed (P := fun x => x < (run ops).count) ?_ hx).1 hi
    rintro a b _ (⟨w, hw, rfl, rfl⟩ | ⟨w, hw, rfl, rfl⟩)
    · exact (h.wires_lt w hw).2
    · exact (h.wires_lt w hw).1
  have hjk : Connected ops j k := .trans _ _ _ (.symm _ _ hj) hk
  apply Classical.byContradiction
  intro hne
  have := C01_names_distinct ops j k (by rw [← h.count]; exact lt j hj)
    (by rw [← h.count]; exact lt k hk) hne hjk _ _ (hnm j (lt j hj)) (hnm k (lt k hk))
  exact this he

theorem connected_lt (ops : List Op) {i k : Nat} (hi : i < (run ops).count)
    (hc : Connected ops i k) : k < (run ops).count := by
  have h := inv_run ops
  refine (connected_closed (P := fun x => x < (run ops).count) ?_ hc).1 hi
  rintro a b _ (⟨w, hw, rfl, rfl⟩ | ⟨w, hw, rfl, rfl⟩)
  · exact (h.wires_lt w hw).2
  · exact (h.wires_lt w hw).1

/-- **C03 (content).** After any script, `generate_architecture` called on any
layer returns an architecture with exactly one entry per connected layer, under
that layer's name.  The entry carries the layer's type and, for every output
name, the texts `end.input` of the connections made from it, in the order they
were made. -/
theorem C03_content (ops : List Op) (enum : List Nat → List Nat) (henum : ∀ l, (enum l).Perm l)
    (i : Nat) (hi : i < (created ops).length) :
    ∃ a, Generates (run ops) enum i a ∧ (Dict.keys a).Nodup ∧
      (∀ n, n ∈ Dict.keys a ↔ ∃ k, Connected ops i k ∧ HasName (run ops) k n) ∧
      ∀ k n, Connected ops i k → HasName (run ops) k n → ∃ m,
        Dict.get? a n = some ⟨.string ((createdTypes ops).getD k []), .dict m⟩ ∧
        (Dict.keys m).Nodup ∧
        ∀ o l, Dict.get? m o = some l ↔ l ≠ [] ∧
          List.Forall₂ (fun w t => ∃ e, HasName (run ops) w.dst e ∧ t = e ++ '.' :: w.inputName)
            ((wires 0 ops).filter (fun w => decide (w.src = k ∧ w.outputName = o))) l := by
  have h := inv_run ops
  rw [← h.count] at hi
  obtain ⟨nm, D, hnm, hD, hgen⟩ := generate_eval ops
  obtain ⟨a, h1, h2, h3, h4⟩ := hgen enum i henum hi (names_inj ops hnm hi)
  refine ⟨a, h1, h2, ?_, ?_⟩
  · intro n
    constructor
    · intro hn
      apply Classical.byContradiction
      intro hno
      have : Dict.get? a n = none := by
        apply h4
        rintro k hk rfl
        exact hno ⟨k, hk, hnm k (connected_lt ops hi hk)⟩
      rw [Dict.get?_eq_none_iff] at this
      exact this hn
    · rintro ⟨k, hk, hn⟩
      rw [hasName_unique hn (hnm k (connected_lt ops hi hk)), Dict.mem_keys_iff, h3 k hk]
      rfl
  · intro k n hk hn
    have hlt := connected_lt ops hi hk
    obtain ⟨m, hm1, hm2, hm3⟩ := hD k hlt
    refine ⟨m, ?_, hm2, ?_⟩
    · rw [hasName_unique hn (hnm k hlt), h3 k hk, hm1]
    · intro o l
      rw [hm3]
      have hf2 : ∀ (ws : List Wire), (∀ w ∈ ws, w ∈ wires 0 ops) → ∀ l,
          List.Forall₂ (fun w t => ∃ e, HasName (run ops) w.dst e ∧ t = e ++ '.' :: w.inputName)
            ws l ↔ l = ws.map (fun w => nm w.dst ++ '.' :: w.inputName) := by
        intro ws
        induction ws with
        | nil => intro _ l; simp
        | cons w ws ih =>
          intro hws l
          rw [List.forall₂_cons_left_iff]
          have hw := (h.wires_lt w (hws w (by simp))).2
          constructor
          · rintro ⟨t, l', ⟨e, he, rfl⟩, hl', rfl⟩
            rw [(ih (fun w' h' => hws w' (by simp [h'])) l').1 hl', hasName_unique he (hnm _ hw)]
            rfl
          · rintro rfl
            exact ⟨_, _, ⟨_, hnm _ hw, rfl⟩,
              (ih (fun w' h' => hws w' (by simp [h'])) _).2 rfl, rfl⟩
      rw [hf2 _ (fun w hw => (List.mem_filter.1 hw).1)]
      generalize ((wires 0 ops).filter (fun w => decide (w.src = k ∧ w.outputName = o))).map
        (fun w => nm w.dst ++ '.' :: w.inputName) = t
      cases t with
      | nil => simp
      | cons x t =>
        simp only [Option.some.injEq]
        constructor
        · rintro rfl; simp
        · rintro ⟨_, rfl⟩; rfl

/-- **C03 (independence).** Calling `generate_architecture` on any two connected
layers, with any enumeration of the sets, gives equal dictionaries: the same
entries, possibly in another order. -/
theorem C03_independent (ops : List Op) (enum enum' : List Nat → List Nat)
    (henum : ∀ l, (enum l).Perm l) (henum' : ∀ l, (enum' l).Perm l)
    (i j : Nat) (hi : i < (created ops).length) (hc : Connected ops i j) (a b : Arch)
    (ha : Generates (run ops) enum i a) (hb : Generates (run ops) enum' j b) :
    (∀ n, Dict.get? a n = Dict.get? b n) ∧ a.Perm b := by
  have h := inv_run ops
  rw [← h.count] at hi
  have hj := connected_lt ops hi hc
  obtain ⟨nm, D, hnm, _, hgen⟩ := generate_eval ops
  obtain ⟨a', h1, h2, h3, h4⟩ := hgen enum i henum hi (names_inj ops hnm hi)
  obtain ⟨b', g1, g2, g3, g4⟩ := hgen enum' j henum' hj (names_inj ops hnm hj)
  cases ha.unique h1
  cases hb.unique g1
  have hiff : ∀ k, Connected ops i k ↔ Connected ops j k := fun k =>
    ⟨fun hk => .trans _ _ _ (.symm _ _ hc) hk, fun hk => .trans _ _ _ hc hk⟩
  have hget : ∀ n, Dict.get? a n = Dict.get? b n := by
    intro n
    by_cases hex : ∃ k, Connected ops i k ∧ nm k = n
    · obtain ⟨k, hk, rfl⟩ := hex
      rw [h3 k hk, g3 k ((hiff k).1 hk)]
    · rw [h4 n (fun k hk he => hex ⟨k, hk, he⟩), g4 n (fun k hk he => hex ⟨k, (hiff k).2 hk, he⟩)]
  refine ⟨hget, ?_⟩
  rw [List.perm_ext_iff_of_nodup (List.Nodup.of_map _ h2) (List.Nodup.of_map _ g2)]
  rintro ⟨n, d⟩
  constructor
  · intro hm
    have := Dict.get?_of_mem h2 hm
    rw [hget] at this
    exact Dict.mem_of_get? this
  · intro hm
    have := Dict.get?_of_mem g2 hm
    rw [← hget] at this
    exact Dict.mem_of_get? this

/-- **C03 (connections).** The connections of the generated architecture are
exactly those made between the connected layers, with a missing input name read
as `default`. -/
theorem C03_connections (ops : List Op) (enum : List Nat → List Nat)
    (henum : ∀ l, (enum l).Perm l) (i : Nat) (hi : i < (created ops).length) (a : Arch)
    (ha : Generates (run ops) enum i a) (c : Connection) :
    HasConnection a c ↔ ∃ w ∈ wires 0 ops, Connected ops i w.src ∧
      HasName (run ops) w.src c.startLayer ∧ HasName (run ops) w.dst c.endLayer ∧
      c.outputName = w.outputName ∧
      c.inputName = (if w.inputName = [] then str "default" else w.inputName) := by
  have h := inv_run ops
  obtain ⟨a', h1, h2, h3, h4⟩ := C03_content ops enum henum i hi
  cases ha.unique h1
  rw [← h.count] at hi
  have hden : ∀ k < (run ops).count, ∀ n inp e inp', HasName (run ops) k n →
      (Denotes (n ++ '.' :: inp) e inp' ↔ e = n ∧
        inp' = if inp = [] then str "default" else inp) := by
    intro k hk n inp e inp' hn
    rw [denotes_iff, partitionDot_append _ _ (dot_not_mem_name ops hk hn)]
  have hmemf2 : ∀ (ws : List Wire) (l : List Name),
      List.Forall₂ (fun w t => ∃ e, HasName (run ops) w.dst e ∧ t = e ++ '.' :: w.inputName) ws l →
      ∀ t, t ∈ l ↔ ∃ w ∈ ws, ∃ e, HasName (run ops) w.dst e ∧ t = e ++ '.' :: w.inputName := by
    intro ws l hf
    induction hf with
    | nil => simp
    | @cons w t ws l hw _ ih =>
      obtain ⟨e, he, rfl⟩ := hw
      intro t
      rw [List.mem_cons, ih]
      constructor
      · rintro (rfl | ⟨w', hw', h'⟩)
        · exact ⟨w, by simp, e, he, rfl⟩
        · exact ⟨w', by simp [hw'], h'⟩
      · rintro ⟨w', hw', e', he', rfl⟩
        rcases List.mem_cons.1 hw' with rfl | hw'
        · left; rw [hasName_unique he he']
        · right; exact ⟨w', hw', e', he', rfl⟩
  constructor
  · rintro ⟨d, hd, hcase⟩
    have hkeys : c.startLayer ∈ Dict.keys a := List.mem_map.2 ⟨_, hd, rfl⟩
    obtain ⟨k, hk, hn⟩ := (h3 _).1 hkeys
    obtain ⟨m, hm1, hm2, hm3⟩ := h4 k _ hk hn
    have hdm := Dict.get?_of_mem h2 hd
    rw [hm1] at hdm
    simp at hdm
    subst hdm
    rcases hcase with ⟨l, hl, _⟩ | ⟨m', l, hm', hml, s, hs, hden'⟩
    · simp at hl
    · simp at hm'
      subst hm'
      have hg := Dict.get?_of_mem hm2 hml
      have hf := ((hm3 _ _).1 hg).2
      obtain ⟨w, hw, e, he, rfl⟩ := (hmemf2 _ _ hf s).1 hs
      rw [List.mem_filter, decide_eq_true_eq] at hw
      obtain ⟨hw, rfl, ho⟩ := hw
      have := (hden _ (h.wires_lt w hw).2 _ _ _ _ he).1 hden'
      refine ⟨w, hw, hk, hn, ?_, ho.symm, this.2⟩
      rw [this.1]; exact he
  · rintro ⟨w, hw, hk, hs, he, ho, hin⟩
    obtain ⟨m, hm1, hm2, hm3⟩ := h4 w.src _ hk hs
    refine ⟨_, Dict.mem_of_get? hm1, .inr ⟨m, ?_⟩⟩
    have hmem : w ∈ (wires 0 ops).filter
        (fun w' => decide (w'.src = w.src ∧ w'.outputName = w.outputName)) := by
      rw [List.mem_filter]; exact ⟨hw, by simp⟩
    cases hg : Dict.get? m w.outputName with
    | none =>
      exfalso
      -- every name exists, so the list of texts exists and is not empty
      have hex : ∀ ws : List Wire, (∀ w ∈ ws, w ∈ wires 0 ops) → ∃ l, List.Forall₂
          (fun w t => ∃ e, HasName (run ops) w.dst e ∧ t = e ++ '.' :: w.inputName) ws l := by
        intro ws
        induction ws with
        | nil => intro _; exact ⟨[], .nil⟩
        | cons w ws ih =>
          intro hws
          obtain ⟨l, hl⟩ := ih (fun w' h' => hws w' (by simp [h']))
          have hlt := (h.wires_lt w (hws w (by simp))).2
          rw [h.count] at hlt
          obtain ⟨n, hn, _⟩ := C01_name_returns ops w.dst hlt
          exact ⟨_ :: l, .cons ⟨n, hn, rfl⟩ hl⟩
      obtain ⟨l, hl⟩ := hex _ (fun w hw => (List.mem_filter.1 hw).1)
      have hne : l ≠ [] := by
        rintro rfl
        have := (hmemf2 _ _ hl (c.endLayer ++ '.' :: w.inputName)).2 ⟨w, hmem, _, he, rfl⟩
        simp at this
      have := (hm3 w.outputName l).2 ⟨hne, hl⟩
      rw [hg] at this
      simp at this
    | some l =>
      have hf := ((hm3 _ _).1 hg).2
      refine ⟨l, rfl, ?_, c.endLayer ++ '.' :: w.inputName,
        (hmemf2 _ _ hf _).2 ⟨w, hmem, _, he, rfl⟩, ?_⟩
      · rw [ho]; exact Dict.mem_of_get? hg
      · rw [hden _ (h.wires_lt w hw).2 _ _ _ _ he]
        exact ⟨rfl, hin⟩

/-! ### Non-vacuity: the four connected layers of `demoOps` -/

example : generateFuel 10 id (run demoOps) 0 = some
    [(str "F_2", ⟨.string (str "F"), .dict [(str "default", [str "F_1.default"])]⟩),
     (str "F_1", ⟨.string (str "G"), .dict []⟩),
     (str "F_4", ⟨.string (str "F"), .dict [(str "default", [str "F_1.default"])]⟩),
     (str "F_3", ⟨.string (str "F"), .dict [(str "default", [str "F_4.default"])]⟩)] := by
  decide

/-- The same from layer 1, in another order. -/
example : (generateFuel 10 List.reverse (run demoOps) 1).map Dict.keys = some
    [str "F_2", str "F_1", str "F_4", str "F_3"] := by
  decide

example : 0 < (created demoOps).length ∧ 1 < (created demoOps).length := by decide

example : Connected demoOps 0 1 :=
  .trans _ 2 _ (.rel _ _ ⟨⟨0, str "default", str "default", 2⟩, by decide, rfl, rfl⟩)
    (.trans _ 3 _ (.symm _ _ (.rel _ _ ⟨⟨3, str "default", str "default", 2⟩, by decide, rfl, rfl⟩))
      (.symm _ _ (.rel _ _ ⟨⟨1, str "default", str "default", 3⟩, by decide, rfl, rfl⟩)))

end Verif.Construction
