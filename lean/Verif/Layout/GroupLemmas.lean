import Mathlib.Logic.Relation
import Mathlib.Data.List.Perm.Subperm
import Verif.Layout.Group
import Verif.Layout.HubProps

namespace Verif.Layout

open Verif.Structure

theorem mem_startsOf {conns : List Conn} {sinks : List Item} {s : Item} :
    s ∈ startsOf conns sinks ↔ ∃ t ∈ sinks, (s, t) ∈ conns := by
  simp only [startsOf, List.mem_dedup, List.mem_map, List.mem_filter, decide_eq_true_eq, Prod.exists,
    exists_and_right, exists_eq_right]
  exact ⟨fun ⟨t, h1, h2⟩ => ⟨t, h2, h1⟩, fun ⟨t, h1, h2⟩ => ⟨t, h2, h1⟩⟩

theorem mem_endsOf {conns : List Conn} {sources : List Item} {t : Item} :
    t ∈ endsOf conns sources ↔ ∃ s ∈ sources, (s, t) ∈ conns := by
  simp only [endsOf, List.mem_dedup, List.mem_map, List.mem_filter, decide_eq_true_eq, Prod.exists,
    exists_eq_right]
  exact ⟨fun ⟨t, h1, h2⟩ => ⟨t, h2, h1⟩, fun ⟨t, h1, h2⟩ => ⟨t, h2, h1⟩⟩

theorem length_startsOf (conns : List Conn) (sinks : List Item) : (startsOf conns sinks).length ≤ conns.length := by
  unfold startsOf
  refine (List.dedup_sublist _).length_le.trans ?_
  simpa using List.length_filter_le _ _

theorem length_endsOf (conns : List Conn) (src : List Item) : (endsOf conns src).length ≤ conns.length := by
  unfold endsOf
  refine (List.dedup_sublist _).length_le.trans ?_
  simpa using List.length_filter_le _ _

theorem nodup_startsOf (conns : List Conn) (sinks : List Item) : (startsOf conns sinks).Nodup :=
  List.nodup_dedup _

theorem nodup_endsOf (conns : List Conn) (src : List Item) : (endsOf conns src).Nodup :=
  List.nodup_dedup _

/-- Two sources with a common sink. -/
def ShareSink (conns : List Conn) (a b : Item) : Prop := ∃ t, (a, t) ∈ conns ∧ (b, t) ∈ conns

/-- Loop invariant of `get_forward_closure`. -/
structure ClosureInv (conns : List Conn) (node : Item) (src snk : List Item) : Prop where
  nodupSrc : src.Nodup
  nodupSnk : snk.Nodup
  nodeMem : node ∈ src
  srcs : (∀ s ∈ src, s ∈ startsOf conns snk) ∨ (src = [node] ∧ snk = [] ∧ ∀ t, (node, t) ∉ conns)
  snks : ∀ t ∈ snk, t ∈ endsOf conns src
  linked : ∀ s ∈ src, Relation.EqvGen (ShareSink conns) node s

theorem closureInv_init (conns : List Conn) (node : Item) :
    ClosureInv conns node [node] (endsOf conns [node]) where
  nodupSrc := by simp
  nodupSnk := nodup_endsOf _ _
  nodeMem := by simp
  srcs := by
    by_cases h : ∃ t, (node, t) ∈ conns
    · left
      intro s hs
      obtain ⟨t, ht⟩ := h
      rw [List.mem_singleton] at hs
      subst hs
      exact mem_startsOf.2 ⟨t, mem_endsOf.2 ⟨s, by simp, ht⟩, ht⟩
    · right
      refine ⟨rfl, ?_, fun t ht => h ⟨t, ht⟩⟩
      rw [List.eq_nil_iff_forall_not_mem]
      intro t ht
      obtain ⟨s, hs, hc⟩ := mem_endsOf.1 ht
      rw [List.mem_singleton] at hs
      subst hs
      exact h ⟨t, hc⟩
  snks := fun t ht => ht
  linked := by intro s hs; rw [List.mem_singleton] at hs; subst hs; exact .refl _

theorem closureInv_step {conns : List Conn} {node : Item} {src snk : List Item}
    (h : ClosureInv conns node src snk)
    (hg : (startsOf conns snk).length > src.length ∨ (endsOf conns src).length > snk.length) :
    ClosureInv conns node (startsOf conns snk) (endsOf conns src) := by
  rcases h.srcs with hsrc | ⟨rfl, rfl, hno⟩
  · exact {
      nodupSrc := nodup_startsOf _ _
      nodupSnk := nodup_endsOf _ _
      nodeMem := hsrc _ h.nodeMem
      srcs := Or.inl fun s hs => by
        obtain ⟨t, ht, hc⟩ := mem_startsOf.1 hs
        exact mem_startsOf.2 ⟨t, h.snks t ht, hc⟩
      snks := fun t ht => by
        obtain ⟨s, hs, hc⟩ := mem_endsOf.1 ht
        exact mem_endsOf.2 ⟨s, hsrc s hs, hc⟩
      linked := fun s hs => by
        obtain ⟨t, ht, hc⟩ := mem_startsOf.1 hs
        obtain ⟨s', hs', hc'⟩ := mem_endsOf.1 (h.snks t ht)
        exact (h.linked s' hs').trans _ _ _ (.rel _ _ ⟨t, hc', hc⟩) }
  · exfalso
    have h1 : startsOf conns [] = [] := by
      rw [List.eq_nil_iff_forall_not_mem]; intro s hs
      obtain ⟨t, ht, -⟩ := mem_startsOf.1 hs
      simp at ht
    have h2 : endsOf conns [node] = [] := by
      rw [List.eq_nil_iff_forall_not_mem]; intro t ht
      obtain ⟨s, hs, hc⟩ := mem_endsOf.1 ht
      rw [List.mem_singleton] at hs; subst hs
      exact hno t hc
    rw [h1, h2] at hg
    simp at hg

/-- The invariant together with "nothing grows". -/
structure ClosureDone (conns : List Conn) (node : Item) (src snk : List Item) : Prop where
  nodupSrc : src.Nodup
  nodupSnk : snk.Nodup
  srcs : ∀ s, s ∈ src ↔ Relation.EqvGen (ShareSink conns) node s
  snks : ∀ t, t ∈ snk ↔ ∃ s ∈ src, (s, t) ∈ conns

theorem closure_done {conns : List Conn} {node : Item} {src snk : List Item}
    (h : ClosureInv conns node src snk)
    (hg : ¬ ((startsOf conns snk).length > src.length ∨ (endsOf conns src).length > snk.length)) :
    ClosureDone conns node src snk := by
  have hsnk : ∀ t, t ∈ snk ↔ ∃ s ∈ src, (s, t) ∈ conns := by
    intro t
    rw [← mem_endsOf]
    have hsp : snk.Subperm (endsOf conns src) := h.nodupSnk.subperm h.snks
    exact (hsp.perm_of_length_le (by omega)).mem_iff
  have hback : ∀ s ∈ src, ∀ s', ShareSink conns s s' → s' ∈ src := by
    rintro s hs s' ⟨t, h1, h2⟩
    have ht : t ∈ snk := (hsnk t).2 ⟨s, hs, h1⟩
    rcases h.srcs with hsrc | ⟨rfl, rfl, hno⟩
    · have hsp : src.Subperm (startsOf conns snk) := h.nodupSrc.subperm hsrc
      exact (hsp.perm_of_length_le (by omega)).mem_iff.2 (mem_startsOf.2 ⟨t, ht, h2⟩)
    · simp at ht
  refine ⟨h.nodupSrc, h.nodupSnk, fun s => ⟨h.linked s, ?_⟩, hsnk⟩
  have key : ∀ a b, Relation.EqvGen (ShareSink conns) a b → (a ∈ src ↔ b ∈ src) := by
    intro a b hab
    induction hab with
    | rel a b hr =>
      exact ⟨fun ha => hback a ha b hr, fun hb => hback b hb a ⟨hr.choose, hr.choose_spec.2, hr.choose_spec.1⟩⟩
    | refl a => rfl
    | symm a b _ ih => exact ih.symm
    | trans a b c _ _ ih1 ih2 => exact ih1.trans ih2
  intro hl
  exact (key _ _ hl).1 h.nodeMem

theorem closureFuel_spec {conns : List Conn} {node : Item} : ∀ (k : Nat) (src snk : List Item),
    ClosureInv conns node src snk → (conns.length - src.length) + (conns.length - snk.length) < k →
    ∃ r, closureFuel conns k src snk = some r ∧ ClosureDone conns node r.1 r.2 := by
  intro k
  induction k with
  | zero => intro src snk _ h; omega
  | succ k ih =>
    intro src snk hinv hk
    simp only [closureFuel]
    by_cases hg : (startsOf conns snk).length > src.length ∨ (endsOf conns src).length > snk.length
    · rw [if_pos hg]
      have hstep := closureInv_step hinv hg
      refine ih _ _ hstep ?_
      have h1 := length_startsOf conns snk
      have h2 := length_endsOf conns src
      have h3 : snk.length ≤ (endsOf conns src).length := (hinv.nodupSnk.subperm hinv.snks).length_le
      have h4 : src.length ≤ (startsOf conns snk).length := by
        rcases hinv.srcs with hsrc | ⟨rfl, rfl, hno⟩
        · exact (hinv.nodupSrc.subperm hsrc).length_le
        · exact List.length_pos_iff.2 (List.ne_nil_of_mem hstep.nodeMem)
      omega
    · rw [if_neg hg]
      exact ⟨_, rfl, closure_done hinv hg⟩

theorem closure_terminates (conns : List Conn) (node : Item) :
    ∃ r, forwardClosure conns (closureBound conns) node = some r ∧ ClosureDone conns node r.1 r.2 :=
  closureFuel_spec _ _ _ (closureInv_init conns node) (by simp [closureBound]; omega)

theorem removeSources_ok {rem : List Item} {src out : List Item} (h : removeSources rem src = .ok out) :
    (src ++ out).Perm rem := by
  induction src generalizing rem with
  | nil => simp [removeSources] at h; subst h; simp
  | cons s rest ih =>
    simp only [removeSources] at h
    split at h
    · rename_i hmem
      have := ih h
      exact (this.cons s).trans (List.perm_cons_erase hmem).symm
    · simp at h

theorem sinkNames_ok {l : List Item} {ns : List Name} (h : sinkNames l = .ok ns) : l = ns.map Item.one := by
  induction l generalizing ns with
  | nil => simp [sinkNames] at h; subst h; rfl
  | cons it rest ih =>
    cases it with
    | tup l => simp [sinkNames] at h
    | one p =>
      simp only [sinkNames] at h
      cases hr : sinkNames rest with
      | error e => simp [hr] at h
      | ok ps => simp [hr] at h; subst h; rw [ih hr]; rfl

/-- What a successful grouping looks like. -/
inductive Grouped (structOf : Name → Option Struct) (conns : List (Name × Name)) (mcons : List Conn) :
    List Item → List Group → Prop
  | nil : Grouped structOf conns mcons [] []
  | cons {remaining rest : List Item} {node : Item} {g : Group} {gs : List Group} :
      ClosureDone mcons node g.sources (g.sinks.map Item.one) →
      (g.sources ++ rest).Perm remaining → node ∈ remaining →
      Hub.create structOf conns g.sources g.sinks = .ok g.hub →
      Grouped structOf conns mcons rest gs →
      Grouped structOf conns mcons remaining (g :: gs)

theorem groupFuel_ok {structOf : Name → Option Struct} {conns : List (Name × Name)} {mcons : List Conn} :
    ∀ (k : Nat) (rem : List Item) (gs : List Group), rem.length ≤ k →
      groupFuel structOf conns mcons k rem = .ok gs → Grouped structOf conns mcons rem gs := by
  intro k
  induction k with
  | zero =>
    intro rem gs hk h
    have : rem = [] := List.length_eq_zero_iff.1 (by omega)
    subst this
    simp [groupFuel] at h
    subst h
    exact .nil
  | succ k ih =>
    intro rem gs hk h
    cases rem with
    | nil => simp [groupFuel] at h; subst h; exact .nil
    | cons node rest =>
      simp only [groupFuel] at h
      obtain ⟨⟨src, snk⟩, hr, hdone⟩ := closure_terminates mcons node
      simp only [hr] at h
      cases hrem : removeSources (node :: rest) src with
      | error e => simp [hrem] at h
      | ok remaining =>
        simp only [hrem] at h
        cases hsn : sinkNames snk with
        | error e => simp [hsn] at h
        | ok names =>
          simp only [hsn] at h
          cases hcr : Hub.create structOf conns src names with
          | error e => simp [hcr] at h
          | ok hub =>
            simp only [hcr] at h
            cases hg : groupFuel structOf conns mcons k remaining with
            | error e => simp [hg] at h
            | ok groups =>
              simp only [hg, Except.ok.injEq] at h
              subst h
              have hp := removeSources_ok hrem
              have hlen : remaining.length ≤ k := by
                have h1 := hp.length_eq
                have h2 : node ∈ src := (hdone.srcs node).2 (.refl _)
                have h3 := List.length_pos_iff.2 (List.ne_nil_of_mem h2)
                simp at h1 hk
                omega
              refine .cons (node := node) (rest := remaining) ?_ hp (by simp) hcr (ih _ _ hlen hg)
              simpa only [← sinkNames_ok hsn] using hdone

theorem groupIntoHubs_ok {structOf : Name → Option Struct} {conns : List (Name × Name)}
    {forced : List (List Name)} {sources : List Item} {gs : List Group}
    (h : groupIntoHubs structOf conns forced sources = .ok gs) :
    Grouped structOf conns (mergeConnections conns forced) sources gs :=
  groupFuel_ok _ _ _ le_rfl h

theorem Grouped.perm {structOf conns mcons} {rem : List Item} {gs : List Group}
    (h : Grouped structOf conns mcons rem gs) : (gs.flatMap Group.sources).Perm rem := by
  induction h with
  | nil => exact .refl _
  | cons _ hp _ _ _ ih => exact ((ih.append_left _).trans hp)

theorem Grouped.done {structOf conns mcons} {rem : List Item} {gs : List Group}
    (h : Grouped structOf conns mcons rem gs) : ∀ g ∈ gs, ∃ node ∈ rem,
      ClosureDone mcons node g.sources (g.sinks.map Item.one) ∧
      Hub.create structOf conns g.sources g.sinks = .ok g.hub := by
  induction h with
  | nil => simp
  | cons hd hp hn hc _ ih =>
    intro g hg
    rcases List.mem_cons.1 hg with rfl | hg
    · exact ⟨_, hn, hd, hc⟩
    · obtain ⟨node, h1, h2⟩ := ih g hg
      exact ⟨node, hp.subset (List.mem_append_right _ h1), h2⟩

end Verif.Layout
