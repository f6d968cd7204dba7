import Verif.Construction.Generate
import Verif.Construction.Lemmas
import Verif.Architecture.Lemmas

/-! Helper lemmas about `generate_architecture`. -/

namespace Verif.Construction

open Verif.Architecture

theorem createdTypes_append (a b : List Op) :
    createdTypes (a ++ b) = createdTypes a ++ createdTypes b := by
  induction a with
  | nil => rfl
  | cons op a ih =>
    cases op with
    | create t n =>
      simp only [List.cons_append, createdTypes]
      cases hc : checkCreate t n with
      | error e => simp [ih]
      | ok r => simp [ih]
    | connect => simp [createdTypes, ih]

theorem createdTypes_length (ops : List Op) : (createdTypes ops).length = (created ops).length := by
  induction ops with
  | nil => rfl
  | cons op a ih =>
    cases op with
    | create t n =>
      simp only [createdTypes, created]
      cases hc : checkCreate t n with
      | error e => simp [ih]
      | ok r => simp [ih]
    | connect => simp [createdTypes, created, ih]

theorem layerType_run (ops : List Op) (i : Nat) :
    (run ops).layerType i = (createdTypes ops).getD i [] := by
  induction ops using List.reverseRecOn generalizing i with
  | nil => simp [run, State.init, createdTypes]
  | append_singleton ops op ih =>
    rw [run_append, createdTypes_append]
    cases op with
    | create t n =>
      simp only [step, createdTypes]
      cases hc : checkCreate t n with
      | error e => simp [ih]
      | ok r =>
        simp only [alloc, upd]
        have hl : (run ops).count = (createdTypes ops).length := by
          rw [createdTypes_length]; exact (inv_run ops).count
        rw [hl]
        by_cases hi : i = (createdTypes ops).length
        · subst hi; simp [List.getD]
        · simp only [hi, if_false, ih]
          rcases Nat.lt_or_ge i (createdTypes ops).length with h | h
          · simp [List.getD, List.getElem?_append_left h]
          · simp only [List.getD]
            rw [List.getElem?_eq_none h, List.getElem?_eq_none (by simp; omega)]
    | connect a o inp b =>
      simp only [createdTypes, List.append_nil, step]
      split
      · simp [mergeScopes, ih]
      · exact ih i

/-! ### Connected layers -/

theorem mem_neighbours {ops : List Op} {s : State} (h : Inv ops s) (k j : Nat) :
    j ∈ (s.outgoing k).map (·.layer) ++ (s.incoming k).map (·.layer) ↔
      Wired ops k j ∨ Wired ops j k := by
  rw [h.outgoing, h.incoming]
  simp only [List.map_map, List.mem_append, List.mem_map, List.mem_filter, decide_eq_true_eq,
    Function.comp, Wired]
  constructor
  · rintro (⟨w, ⟨h1, h2⟩, h3⟩ | ⟨w, ⟨h1, h2⟩, h3⟩)
    · exact .inl ⟨w, h1, h2, h3⟩
    · exact .inr ⟨w, h1, h3, h2⟩
  · rintro (⟨w, h1, h2, h3⟩ | ⟨w, h1, h2, h3⟩)
    · exact .inl ⟨w, ⟨h1, h2⟩, h3⟩
    · exact .inr ⟨w, ⟨h1, h3⟩, h2⟩

/-- State of the search for connected layers. -/
structure CollectInv (ops : List Op) (s : State) (i : Nat) (conn new : List Nat) : Prop where
  nodup : (conn ++ new).Nodup
  lt : ∀ k ∈ conn ++ new, k < s.count
  connected : ∀ k ∈ conn ++ new, Connected ops i k
  start : i ∈ conn ++ new
  closed : ∀ k ∈ conn, ∀ j, Wired ops k j ∨ Wired ops j k → j ∈ conn ++ new

theorem connected_closed {ops : List Op} {P : Nat → Prop}
    (h : ∀ k j, P k → (Wired ops k j ∨ Wired ops j k) → P j) {a b : Nat}
    (hc : Connected ops a b) : P a ↔ P b := by
  induction hc with
  | rel a b hr => exact ⟨fun ha => h _ _ ha (.inl hr), fun hb => h _ _ hb (.inr hr)⟩
  | refl a => rfl
  | symm a b _ ih => exact ih.symm
  | trans a b c _ _ ih1 ih2 => exact ih1.trans ih2

theorem collect_spec {ops : List Op} {s : State} (hs : Inv ops s) (i : Nat) :
    ∀ (fuel : Nat) (conn new : List Nat), CollectInv ops s i conn new →
      s.count < fuel + conn.length →
      ∃ r, collectFuel s fuel conn new = some r ∧ r.Nodup ∧ (∀ k, k ∈ r ↔ Connected ops i k) ∧
        ∀ k ∈ r, k < s.count := by
  intro fuel
  induction fuel with
  | zero =>
    intro conn new h hf
    have hnd : conn.Nodup := (List.nodup_append.1 h.nodup).1
    have hsub : conn ⊆ List.range s.count := by
      intro k hk; exact List.mem_range.2 (h.lt k (by simp [hk]))
    have := (hnd.subperm hsub).length_le
    simp at this
    omega
  | succ fuel ih =>
    intro conn new h hf
    by_cases hn : new = []
    · subst hn
      simp only [collectFuel, if_true]
      refine ⟨conn, rfl, by simpa using h.nodup, fun k => ⟨fun hk => h.connected k (by simp [hk]), ?_⟩,
        fun k hk => h.lt k (by simp [hk])⟩
      intro hc
      have := connected_closed (P := fun k => k ∈ conn)
        (fun k j hk hw => by simpa using h.closed k hk j hw) hc
      exact this.1 (by simpa using h.start)
    · simp only [collectFuel, hn, if_false]
      apply ih
      · have hnew : ∀ j, j ∈ ((new.flatMap (fun l =>
            (s.outgoing l).map (·.layer) ++ (s.incoming l).map (·.layer))).dedup.filter
            (fun l => !(decide (l ∈ conn ++ new)))) ↔
            (∃ k ∈ new, Wired ops k j ∨ Wired ops j k) ∧ j ∉ conn ++ new := by
          intro j
          rw [List.mem_filter, List.mem_dedup, List.mem_flatMap]
          simp only [mem_neighbours hs, Bool.not_eq_true', decide_eq_false_iff_not]
        refine ⟨?_, ?_, ?_, ?_, ?_⟩
        · rw [List.nodup_append]
          refine ⟨h.nodup, (List.nodup_dedup _).filter _, ?_⟩
          intro a ha b hb hab
          subst hab
          exact ((hnew a).1 hb).2 ha
        · intro k hk
          rcases List.mem_append.1 hk with hk | hk
          · exact h.lt k hk
          · obtain ⟨⟨l, _, (⟨w, hw, _, rfl⟩ | ⟨w, hw, rfl, _⟩)⟩, _⟩ := (hnew k).1 hk
            · exact (hs.wires_lt w hw).2
            · exact (hs.wires_lt w hw).1
        · intro k hk
          rcases List.mem_append.1 hk with hk | hk
          · exact h.connected k hk
          · obtain ⟨⟨l, hl, hw⟩, _⟩ := (hnew k).1 hk
            have hil := h.connected l (by simp [hl])
            rcases hw with hw | hw
            · exact .trans _ _ _ hil (.rel _ _ hw)
            · exact .trans _ _ _ hil (.symm _ _ (.rel _ _ hw))
        · exact List.mem_append_left _ h.start
        · intro k hk j hw
          by_cases hj : j ∈ conn ++ new
          · exact List.mem_append_left _ hj
          · rcases List.mem_append.1 hk with hk | hk
            · exact absurd (h.closed k hk j hw) hj
            · exact List.mem_append_right _ ((hnew j).2 ⟨⟨k, hk, hw⟩, hj⟩)
      · have : 0 < new.length := List.length_pos_iff.2 hn
        rw [List.length_append]
        omega

theorem collect_mono {s : State} : ∀ {fuel fuel' : Nat} {conn new r : List Nat}, fuel ≤ fuel' →
    collectFuel s fuel conn new = some r → collectFuel s fuel' conn new = some r := by
  intro fuel
  induction fuel with
  | zero => intro fuel' conn new r _ h; simp [collectFuel] at h
  | succ fuel ih =>
    intro fuel' conn new r hle h
    obtain ⟨f, rfl⟩ : ∃ f, fuel' = f + 1 := ⟨fuel' - 1, by omega⟩
    simp only [collectFuel] at h ⊢
    split at h
    · next hn => simp only [hn, if_true]; exact h
    · next hn => simp only [hn, if_false]; exact ih (by omega) h

/-! ### Names -/

theorem exists_names {s : State} (h : ∀ k < s.count, ∃ n, HasName s k n) :
    ∃ (nm : Nat → Name) (F : Nat), (∀ k < s.count, HasName s k (nm k)) ∧
      ∀ f ≥ F, ∀ k < s.count, nameFuel f s k = some (nm k) := by
  classical
  let nm : Nat → Name := fun k => if hk : k < s.count then (h k hk).choose else []
  have hnm : ∀ k < s.count, HasName s k (nm k) := by
    intro k hk
    simp only [nm, hk, dif_pos]
    exact (h k hk).choose_spec
  have : ∀ m ≤ s.count, ∃ F, ∀ f ≥ F, ∀ k < m, nameFuel f s k = some (nm k) := by
    intro m
    induction m with
    | zero => intro _; exact ⟨0, fun f _ k hk => by omega⟩
    | succ m ih =>
      intro hm
      obtain ⟨F, hF⟩ := ih (by omega)
      obtain ⟨G, hG⟩ := hnm m (by omega)
      refine ⟨max F G, fun f hf k hk => ?_⟩
      rcases Nat.lt_or_ge k m with hk' | hk'
      · exact hF f (by omega) k hk'
      · have : k = m := by omega
        subst this
        exact hG f (by omega)
  obtain ⟨F, hF⟩ := this s.count (Nat.le_refl _)
  exact ⟨nm, F, hnm, hF⟩

/-! ### Descriptions -/

/-- Text of an entry. -/
def textOf (nm : Nat → Name) (e : Out) : Name := nm e.layer ++ '.' :: e.inputName

theorem describeOutgoing_spec {name : Nat → Option Name} {nm : Nat → Name} :
    ∀ (l : List Out) (d : Dict Name (List Name)), (∀ e ∈ l, name e.layer = some (nm e.layer)) →
      (Dict.keys d).Nodup →
      ∃ r, describeOutgoing name l d = some r ∧ (Dict.keys r).Nodup ∧ ∀ o, Dict.get? r o =
        match Dict.get? d o, (l.filter (fun e => decide (e.outputName = o))).map (textOf nm) with
        | none, [] => none
        | none, t => some t
        | some p, t => some (p ++ t) := by
  intro l
  induction l with
  | nil =>
    intro d _ hd
    refine ⟨d, rfl, hd, fun o => ?_⟩
    cases Dict.get? d o <;> simp
  | cons e l ih =>
    intro d hn hd
    have he := hn e (by simp)
    have hl : ∀ e ∈ l, name e.layer = some (nm e.layer) := fun e' h' => hn e' (by simp [h'])
    simp only [describeOutgoing, he]
    cases hg : Dict.get? d e.outputName with
    | none =>
      obtain ⟨r, h1, h2, h3⟩ := ih _ hl (Dict.nodup_keys_set d e.outputName
        [nm e.layer ++ '.' :: e.inputName] hd)
      refine ⟨r, h1, h2, fun o => ?_⟩
      rw [h3, Dict.get?_set]
      by_cases ho : e.outputName = o
      · subst ho
        simp [hg, textOf]
      · simp [ho]
    | some p =>
      obtain ⟨r, h1, h2, h3⟩ := ih _ hl (Dict.nodup_keys_set d e.outputName
        (p ++ [nm e.layer ++ '.' :: e.inputName]) hd)
      refine ⟨r, h1, h2, fun o => ?_⟩
      rw [h3, Dict.get?_set]
      by_cases ho : e.outputName = o
      · subst ho
        simp [hg, textOf]
      · simp [ho]

theorem buildArch_spec {name : Nat → Option Name} {nm : Nat → Name} {s : State}
    {D : Nat → LayerDesc} : ∀ (l : List Nat) (a : Arch), l.Nodup →
      (∀ k ∈ l, name k = some (nm k)) → (∀ k ∈ l, describe name s k = some (D k)) →
      (∀ j ∈ l, ∀ k ∈ l, nm j = nm k → j = k) → (Dict.keys a).Nodup →
      (∀ k ∈ l, nm k ∉ Dict.keys a) →
      ∃ r, buildArch name s l a = some r ∧ (Dict.keys r).Nodup ∧
        (∀ k ∈ l, Dict.get? r (nm k) = some (D k)) ∧
        ∀ n, (∀ k ∈ l, nm k ≠ n) → Dict.get? r n = Dict.get? a n := by
  intro l
  induction l with
  | nil => intro a _ _ _ _ ha _; exact ⟨a, rfl, ha, by simp, fun _ _ => rfl⟩
  | cons k l ih =>
    intro a hnd hn hD hinj ha hfresh
    rw [List.nodup_cons] at hnd
    simp only [buildArch, hn k (by simp), hD k (by simp)]
    have hne : ∀ j ∈ l, nm j ≠ nm k := by
      intro j hj h
      have := hinj j (by simp [hj]) k (by simp) h
      subst this
      exact hnd.1 hj
    obtain ⟨r, h1, h2, h3, h4⟩ := ih (Dict.set a (nm k) (D k)) hnd.2
      (fun j hj => hn j (by simp [hj])) (fun j hj => hD j (by simp [hj]))
      (fun j hj j' hj' => hinj j (by simp [hj]) j' (by simp [hj']))
      (Dict.nodup_keys_set _ _ _ ha)
      (by
        intro j hj
        rw [Dict.keys_set]
        split
        · exact hfresh j (by simp [hj])
        · rw [List.mem_append, List.mem_singleton, not_or]
          exact ⟨hfresh j (by simp [hj]), hne j hj⟩)
    refine ⟨r, h1, h2, ?_, ?_⟩
    · intro j hj
      rcases List.mem_cons.1 hj with rfl | hj
      · rw [h4 _ hne, Dict.get?_set_self]
      · exact h3 j hj
    · intro n hno
      rw [h4 n (fun j hj => hno j (by simp [hj])), Dict.get?_set_ne _ _ _ _ (hno k (by simp))]

theorem textOf_map (nm : Nat → Name) (ops : List Op) (k : Nat) (o : Name) :
    ((((wires 0 ops).filter (fun w => decide (w.src = k))).map
      (fun w => (⟨w.outputName, w.inputName, w.dst⟩ : Out))).filter
        (fun e => decide (e.outputName = o))).map (textOf nm) =
    ((wires 0 ops).filter (fun w => decide (w.src = k ∧ w.outputName = o))).map
      (fun w => nm w.dst ++ '.' :: w.inputName) := by
  induction wires 0 ops with
  | nil => rfl
  | cons w l ih =>
    by_cases h1 : w.src = k
    · by_cases h2 : w.outputName = o
      · simpa [h1, h2, textOf] using ih
      · simpa [h1, h2, textOf] using ih
    · simpa [h1] using ih

theorem describeOutgoing_congr {name name' : Nat → Option Name} : ∀ (l : List Out)
    (d : Dict Name (List Name)), (∀ e ∈ l, name e.layer = name' e.layer) →
    describeOutgoing name l d = describeOutgoing name' l d := by
  intro l
  induction l with
  | nil => intro d _; rfl
  | cons e l ih =>
    intro d h
    simp only [describeOutgoing, h e (by simp)]
    have hl := fun d => ih d (fun e' h' => h e' (by simp [h']))
    simp only [hl]

/-- Names and descriptions, the same for every starting layer. -/
theorem generate_eval (ops : List Op) : ∃ (nm : Nat → Name) (D : Nat → LayerDesc),
    (∀ k < (run ops).count, HasName (run ops) k (nm k)) ∧
    (∀ k < (run ops).count, ∃ m, D k = ⟨.string ((createdTypes ops).getD k []), .dict m⟩ ∧
      (Dict.keys m).Nodup ∧ ∀ o, Dict.get? m o =
        match ((wires 0 ops).filter (fun w => decide (w.src = k ∧ w.outputName = o))).map
          (fun w => nm w.dst ++ '.' :: w.inputName) with
        | [] => none
        | t => some t) ∧
    ∀ (enum : List Nat → List Nat) (i : Nat), (∀ l, (enum l).Perm l) → i < (run ops).count →
      (∀ j k, Connected ops i j → Connected ops i k → nm j = nm k → j = k) →
      ∃ a, Generates (run ops) enum i a ∧ (Dict.keys a).Nodup ∧
        (∀ k, Connected ops i k → Dict.get? a (nm k) = some (D k)) ∧
        ∀ n, (∀ k, Connected ops i k → nm k ≠ n) → Dict.get? a n = none := by
  have h := inv_run ops
  obtain ⟨nm, F, hnm, hF⟩ := exists_names (s := run ops) (by
    intro k hk
    rcases h.hasName hk with ⟨_, h2⟩ | ⟨_, _, _, h2, _⟩
    · exact ⟨_, h2⟩
    · exact ⟨_, h2⟩)
  have hlt : ∀ k, ∀ e ∈ (run ops).outgoing k, e.layer < (run ops).count := by
    intro k e he
    rw [h.outgoing] at he
    obtain ⟨w, hw, rfl⟩ := List.mem_map.1 he
    exact (h.wires_lt w (List.mem_filter.1 hw).1).2
  have hdesc : ∀ k < (run ops).count, ∃ m, describe (nameFuel F (run ops)) (run ops) k =
      some ⟨.string ((createdTypes ops).getD k []), .dict m⟩ ∧ (Dict.keys m).Nodup ∧
      ∀ o, Dict.get? m o =
        match ((wires 0 ops).filter (fun w => decide (w.src = k ∧ w.outputName = o))).map
          (fun w => nm w.dst ++ '.' :: w.inputName) with
        | [] => none
        | t => some t := by
    intro k hk
    obtain ⟨m, h1, h2, h3⟩ := describeOutgoing_spec (name := nameFuel F (run ops)) (nm := nm)
      ((run ops).outgoing k) [] (fun e he => hF F (Nat.le_refl _) _ (hlt k e he)) (by simp [Dict.keys])
    refine ⟨m, by simp [describe, h1, layerType_run], h2, fun o => ?_⟩
    rw [h3, h.outgoing, textOf_map]
    simp only [Dict.get?_nil]
    generalize ((wires 0 ops).filter (fun w => decide (w.src = k ∧ w.outputName = o))).map
      (fun w => nm w.dst ++ '.' :: w.inputName) = t
    cases t <;> rfl
  let D : Nat → LayerDesc := fun k => (describe (nameFuel F (run ops)) (run ops) k).getD ⟨.missing, .missing⟩
  refine ⟨nm, D, hnm, ?_, ?_⟩
  · intro k hk
    obtain ⟨m, h1, h2, h3⟩ := hdesc k hk
    exact ⟨m, by simp [D, h1], h2, h3⟩
  · intro enum i henum hi hinj
    obtain ⟨r, hr, hrnd, hrm, hrlt⟩ := collect_spec h i ((run ops).count + 1) [] [i]
      ⟨by simp, by simpa using hi, (fun k hk => by
        have : k = i := by simpa using hk
        subst this; exact Relation.EqvGen.refl _), by simp, by simp⟩ (by simp)
    have hp := henum r
    have hmem : ∀ k, k ∈ enum r ↔ Connected ops i k := fun k => by rw [hp.mem_iff, hrm]
    have hlt' : ∀ k ∈ enum r, k < (run ops).count := fun k hk => hrlt k (hp.mem_iff.1 hk)
    have hD : ∀ f ≥ F, ∀ k ∈ enum r, describe (nameFuel f (run ops)) (run ops) k = some (D k) := by
      intro f hf k hk
      obtain ⟨m, h1, _, _⟩ := hdesc k (hlt' k hk)
      have : describe (nameFuel f (run ops)) (run ops) k =
          describe (nameFuel F (run ops)) (run ops) k := by
        unfold describe
        rw [describeOutgoing_congr (name' := nameFuel F (run ops))]
        intro e he
        rw [hF f hf _ (hlt k e he), hF F (Nat.le_refl _) _ (hlt k e he)]
      rw [this]
      simp [D, h1]
    have hb := fun f (hf : f ≥ F) => buildArch_spec (name := nameFuel f (run ops)) (nm := nm)
      (s := run ops) (D := D) (enum r) [] (hp.nodup_iff.2 hrnd)
      (fun k hk => hF f hf k (hlt' k hk)) (hD f hf)
      (fun j hj k hk => hinj j k ((hmem j).1 hj) ((hmem k).1 hk)) (by simp [Dict.keys])
      (by simp [Dict.keys])
    obtain ⟨a, ha1, ha2, ha3, ha4⟩ := hb F (Nat.le_refl _)
    have hsame : ∀ (l : List Nat), (∀ k ∈ l, k ∈ enum r) → ∀ (a : Arch) (f : Nat), f ≥ F →
        buildArch (nameFuel f (run ops)) (run ops) l a =
        buildArch (nameFuel F (run ops)) (run ops) l a := by
      intro l
      induction l with
      | nil => intro _ a f _; rfl
      | cons k l ih =>
        intro hl a f hf
        have hk := hl k (by simp)
        simp only [buildArch, hF f hf k (hlt' k hk), hF F (Nat.le_refl _) k (hlt' k hk),
          hD f hf k hk, hD F (Nat.le_refl _) k hk]
        exact ih (fun k' h' => hl k' (by simp [h'])) _ f hf
    refine ⟨a, ⟨max F ((run ops).count + 1), fun f hf => ?_⟩, ha2, ?_, ?_⟩
    · unfold generateFuel
      rw [collect_mono (by omega) hr]
      simp only
      rw [hsame (enum r) (fun _ h => h) [] f (by omega), ha1]
    · intro k hk
      exact ha3 k ((hmem k).2 hk)
    · intro n hn
      rw [ha4 n (fun k hk => hn k ((hmem k).1 hk))]
      rfl

theorem Generates.unique {s : State} {enum : List Nat → List Nat} {i : Nat} {a b : Arch}
    (ha : Generates s enum i a) (hb : Generates s enum i b) : a = b := by
  obtain ⟨f, hf⟩ := ha
  obtain ⟨g, hg⟩ := hb
  have := (hf (max f g) (by omega)).symm.trans (hg (max f g) (by omega))
  simpa using this

/-! ### Names contain no dot -/

theorem dot_not_mem_of_valid {n : Name} (h : isValidLayerName n = true) : '.' ∉ n := by
  have hid : ∀ m, IsIdentifier m → '.' ∉ m := by
    rintro m ⟨c, r, rfl, hc, hr⟩ hd
    rcases List.mem_cons.1 hd with h | h
    · subst h; revert hc; decide
    · have := hr _ h; revert this; decide
  obtain ⟨_, _, (h | ⟨m, hm, rfl⟩)⟩ := (isValidLayerName_iff n).1 h
  · exact hid n h
  · intro hd
    rcases List.mem_append.1 hd with h | h
    · exact hid m hm h
    · simp at h

theorem created_valid (ops : List Op) : ∀ n ∈ created ops, isValidLayerName n = true := by
  induction ops with
  | nil => simp [created]
  | cons op ops ih =>
    cases op with
    | create t nm =>
      simp only [created]
      cases hc : checkCreate t nm with
      | error e => exact ih
      | ok r =>
        intro n hn
        rcases List.mem_cons.1 hn with rfl | hn
        · unfold checkCreate at hc
          split at hc
          · simp at hc
          · split at hc
            · next hv =>
              split at hc
              · simp at hc; obtain ⟨rfl, rfl⟩ := hc; exact hv
              · split at hc
                · next hv' => simp at hc; obtain ⟨rfl, rfl⟩ := hc; exact hv'
                · simp at hc
            · simp at hc
        · exact ih n hn
    | connect => exact ih

theorem mem_decimal (n : Nat) : ∀ c ∈ decimal n, ∃ d < 10, c = digitChar d := by
  induction n using Nat.strongRecOn with
  | ind n ih =>
    intro c hc
    by_cases h : n < 10
    · rw [decimal_lt h] at hc
      exact ⟨n, h, by simpa using hc⟩
    · rw [decimal_ge h] at hc
      rcases List.mem_append.1 hc with hc | hc
      · exact ih (n / 10) (by omega) c hc
      · exact ⟨n % 10, by omega, by simpa using hc⟩

theorem dot_not_mem_decimal (n : Nat) : '.' ∉ decimal n := by
  intro h
  obtain ⟨d, hd, he⟩ := mem_decimal n _ h
  revert he
  have : ∀ d < 10, '.' ≠ digitChar d := by decide
  exact this d hd

theorem dot_not_mem_name (ops : List Op) {k : Nat} (hk : k < (run ops).count) {n : Name}
    (hn : HasName (run ops) k n) : '.' ∉ n := by
  have h := inv_run ops
  have hb : '.' ∉ (run ops).base k := by
    rw [h.base]
    apply dot_not_mem_of_valid
    apply created_valid ops
    rw [h.count] at hk
    simp [List.getD, hk]
  rcases h.hasName hk with ⟨_, h2⟩ | ⟨j, _, _, h2, _⟩
  · rw [hasName_unique hn h2]; exact hb
  · rw [hasName_unique hn h2]
    unfold indexed
    simp only [List.mem_append, List.mem_cons, not_or]
    exact ⟨hb, by decide, dot_not_mem_decimal j⟩

end Verif.Construction
