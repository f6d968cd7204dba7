import Verif.Modifiers.Install
import Verif.Modifiers.Model
import Verif.References.InitProps
import Verif.References.Errors

/-!
# Modifiers act on the weights they are given for (C62)
-/

namespace Verif.Modifiers

open Verif.References

variable {M Val Seed G : Type}

/-! ### The sets of `resolve` have no duplicates -/

section nodup
variable {A V : Type} [DecidableEq V]

theorem applyRefs_pres (P : Cell V → Prop) (hP : ∀ r d f c c', addCell r d f c = .ok c' → P c → P c') :
    ∀ (fuel : Nat) (t t' : References.Tree (Cell V)) (ref : Ref V) (pd pf : Option (Ref V)), applyRefs fuel t ref pd pf = .ok t' →
      (∀ path c, t.at path = some c → P c) → ∀ path c, t'.at path = some c → P c := by
  have happ : ∀ r d f (t t' : References.Tree (Cell V)), appendAll r d f t = .ok t' → (∀ path c, t.at path = some c → P c) →
      ∀ path c, t'.at path = some c → P c := by
    intro r d f t t' h hp path c hc
    have := at_mapM _ t t' h path
    cases ha : t.at path with
    | none => rw [this.2 ha] at hc; simp at hc
    | some a =>
      obtain ⟨b, hb, hb'⟩ := this.1 a ha
      rw [hb'] at hc
      simp only [Option.some.injEq] at hc
      subst hc
      exact hP _ _ _ _ _ hb (hp path a ha)
  intro fuel
  induction fuel with
  | zero => intro t t' ref pd pf h; simp [applyRefs] at h
  | succ fuel ih =>
    intro t t' ref pd pf h hp
    cases ref with
    | val v =>
      have h' : appendAll (some (.val v)) pd pf t = .ok t' := by cases t <;> simpa [applyRefs] using h
      exact happ _ _ _ _ _ h' hp
    | dict es =>
      cases t with
      | leaf c =>
        simp only [applyRefs, appendAll, References.Tree.mapM, addCell, addTo, Except.map] at h
        simp at h
      | node ks =>
        simp only [applyRefs] at h
        split at h
        · simp at h
        · cases hm : mapEntries _ ks with
          | error e => rw [hm] at h; simp [Except.map] at h
          | ok ks' =>
            rw [hm] at h
            simp only [Except.map, Except.ok.injEq] at h
            subst h
            intro path
            cases path with
            | nil => intro c hc; simp [References.Tree.at] at hc
            | cons k p =>
              intro c hc
              have hsp := mapEntries_spec _ ks ks' hm k
              simp only [References.Tree.at] at hc
              cases hg : Dict.get? ks k with
              | none => rw [hsp.2 hg] at hc; simp at hc
              | some t₁ =>
                have hp₁ : ∀ path c, t₁.at path = some c → P c := by
                  intro path c h
                  refine hp (k :: path) c ?_
                  simp only [References.Tree.at, hg, h]
                obtain ⟨t₂, h1, h2⟩ := hsp.1 t₁ hg
                rw [h2] at hc
                simp only at hc
                split at h1
                · exact happ _ _ _ _ _ h1 hp₁ p c hc
                · have hfold : ∀ (rs : List Name) (t t' : References.Tree (Cell V)),
                      foldRefs (fun r t => match Dict.get? es r with
                        | none => .error .fuel
                        | some sub => applyRefs fuel t sub ((Dict.get? es (str "default")).or pd)
                          ((Dict.get? es (str "fallback")).or pf)) rs t = .ok t' →
                      (∀ path c, t.at path = some c → P c) → ∀ path c, t'.at path = some c → P c := by
                    intro rs
                    induction rs with
                    | nil => intro t t' h hp; simp only [foldRefs, Except.ok.injEq] at h; subst h; exact hp
                    | cons r rs ihr =>
                      intro t t' h hp
                      simp only [foldRefs] at h
                      split at h
                      · simp at h
                      · rename_i t'' ht''
                        refine ihr _ _ h ?_
                        split at ht''
                        · simp at ht''
                        · exact ih _ _ _ _ _ ht'' hp
                  exact hfold _ _ _ h1 hp₁ p c hc

theorem resolve_nodup (t : References.Tree A) (refs : Ref V) (vals fbs : References.Tree (List V)) (h : resolve t refs = .ok (vals, fbs))
    (path : List Name) (vs : List V) (hv : vals.at path = some vs) : vs.Nodup := by
  unfold resolve at h
  split at h
  · simp at h
  · rename_i t₀ h0
    split at h
    · simp at h
    · rename_i t₁ h1
      split at h
      · simp at h
      · rename_i vals' h2
        split at h
        · simp at h
        · simp only [Except.ok.injEq, Prod.mk.injEq] at h
          obtain ⟨rfl, _⟩ := h
          have hadd : ∀ (r : Option (Ref V)) (s s' : List V), addTo r s = .ok s' → s.Nodup → s'.Nodup := by
            intro r s s' h hs
            unfold addTo at h
            split at h
            · simp only [Except.ok.injEq] at h; subst h; exact hs
            · simp only [Except.ok.injEq] at h; subst h; exact hs.insert
            · simp at h
          have key := applyRefs_pres (fun c : Cell V => c.content.Nodup ∧ c.defaults.Nodup) (by
            intro r d f c c' h hc
            unfold addCell at h
            split at h
            · simp at h
            · rename_i cs hcs
              split at h
              · simp at h
              · rename_i ds hds
                split at h
                · simp at h
                · simp only [Except.ok.injEq] at h
                  subst h
                  exact ⟨hadd _ _ _ hcs hc.1, hadd _ _ _ hds hc.2⟩) _ _ _ _ _ _ h1 (by
            intro p c hc
            have := at_mapM _ t t₀ h0 p
            cases ha : t.at p with
            | none => rw [this.2 ha] at hc; simp at hc
            | some a =>
              obtain ⟨b, hb, hb'⟩ := this.1 a ha
              rw [hb'] at hc
              simp only [Except.ok.injEq, Option.some.injEq] at hb hc
              subst hc; subst hb
              simp)
          have := at_mapM _ t₁ vals' h2 path
          cases ha : t₁.at path with
          | none => rw [this.2 ha] at hv; simp at hv
          | some c =>
            obtain ⟨b, hb, hb'⟩ := this.1 c ha
            rw [hb'] at hv
            simp only [Option.some.injEq] at hv
            subst hv
            have hc := key path c ha
            unfold evalCell at hb
            split at hb
            · split at hb
              · simp only [Except.ok.injEq] at hb; subst hb; exact hc.2
              · simp at hb
            · simp only [Except.ok.injEq] at hb; subst hb; exact hc.1

end nodup

/-! ### Nested dictionaries of two levels -/

/-- The nested dictionary with the given entries. -/
def ofLevels {X : Type} (L : List (Name × List (Name × X))) : References.Tree X :=
  .node (L.map (fun p => (p.1, .node (p.2.map (fun v => (v.1, .leaf v.2))))))

/-- Only the keys. -/
def keys2 {X : Type} (L : List (Name × List (Name × X))) : List (Name × List Name) := L.map (fun p => (p.1, p.2.map Prod.fst))

theorem levels_ofLevels {X : Type} (L : List (Name × List (Name × X))) : levels (ofLevels L) = L := by
  simp only [levels, ofLevels, List.map_map]
  conv_rhs => rw [← List.map_id L]
  refine List.map_congr_left fun p _ => ?_
  simp only [Function.comp, id]
  rw [List.filterMap_map]
  have : ∀ l : List (Name × X), List.filterMap ((fun v : Name × References.Tree X => match v.2 with
      | .leaf x => some (v.1, x)
      | .node _ => none) ∘ fun v => (v.1, References.Tree.leaf v.2)) l = l := by
    intro l
    induction l with
    | nil => rfl
    | cons a l ih => simp [List.filterMap_cons, ih]
  exact Prod.ext rfl (this p.2)

theorem skel_leaves {X Y : Type} : ∀ (vs : List (Name × Y)) (es : List (Name × References.Tree X)),
    skelKids es = skelKids (vs.map (fun v => (v.1, (References.Tree.leaf v.2 : References.Tree Y)))) →
    ∃ L : List (Name × X), es = L.map (fun v => (v.1, .leaf v.2)) ∧ L.map Prod.fst = vs.map Prod.fst
  | [], es, h => by
    cases es with
    | nil => exact ⟨[], rfl, rfl⟩
    | cons e es => obtain ⟨k, t⟩ := e; simp [skelKids] at h
  | (k, y) :: vs, es, h => by
    cases es with
    | nil => simp [skelKids] at h
    | cons e es =>
      obtain ⟨k', t⟩ := e
      simp only [List.map_cons, skelKids, List.cons.injEq, Prod.mk.injEq] at h
      obtain ⟨⟨rfl, ht⟩, hr⟩ := h
      obtain ⟨L, rfl, hL⟩ := skel_leaves vs es hr
      cases t with
      | leaf x => exact ⟨(k', x) :: L, rfl, by simp [hL]⟩
      | node _ => simp [References.Tree.skel] at ht

theorem skel_levels {X Y : Type} : ∀ (ps : List (Name × List (Name × Y))) (t : References.Tree X), t.skel = (ofLevels ps).skel →
    ∃ L : List (Name × List (Name × X)), t = ofLevels L ∧ keys2 L = keys2 ps := by
  intro ps t h
  cases t with
  | leaf x => simp [ofLevels, References.Tree.skel] at h
  | node es =>
    simp only [ofLevels, References.Tree.skel, References.Tree.node.injEq] at h
    have : ∀ (ps : List (Name × List (Name × Y))) (es : List (Name × References.Tree X)),
        skelKids es = skelKids (ps.map (fun p => (p.1, (.node (p.2.map (fun v => (v.1, .leaf v.2))) : References.Tree Y)))) →
        ∃ L : List (Name × List (Name × X)), es = L.map (fun p => (p.1, .node (p.2.map (fun v => (v.1, .leaf v.2))))) ∧
          keys2 L = keys2 ps := by
      intro ps
      induction ps with
      | nil =>
        intro es h
        cases es with
        | nil => exact ⟨[], rfl, rfl⟩
        | cons e es => obtain ⟨k, t⟩ := e; simp [skelKids] at h
      | cons p ps ih =>
        intro es h
        cases es with
        | nil => simp [skelKids] at h
        | cons e es =>
          obtain ⟨k', t⟩ := e
          simp only [List.map_cons, skelKids, List.cons.injEq, Prod.mk.injEq] at h
          obtain ⟨⟨rfl, ht⟩, hr⟩ := h
          obtain ⟨L, rfl, hL⟩ := ih es hr
          cases t with
          | leaf x => simp [References.Tree.skel] at ht
          | node vs =>
            simp only [References.Tree.skel, References.Tree.node.injEq] at ht
            obtain ⟨L', rfl, hL'⟩ := skel_leaves p.2 vs ht
            refine ⟨(p.1, L') :: L, rfl, ?_⟩
            simp only [keys2, List.map_cons, hL'] at hL ⊢
            rw [hL]
    obtain ⟨L, rfl, hL⟩ := this ps es h
    exact ⟨L, rfl, hL⟩

theorem resolve_skel {A V : Type} [DecidableEq V] (t : References.Tree A) (refs : Ref V) (vals fbs : References.Tree (List V))
    (h : resolve t refs = .ok (vals, fbs)) : vals.skel = t.skel ∧ fbs.skel = t.skel := by
  unfold resolve at h
  split at h
  · simp at h
  · rename_i t₀ h0
    split at h
    · simp at h
    · rename_i t₁ h1
      split at h
      · simp at h
      · rename_i vals' h2
        split at h
        · simp at h
        · rename_i fbs' h3
          simp only [Except.ok.injEq, Prod.mk.injEq] at h
          obtain ⟨rfl, rfl⟩ := h
          have e0 := skel_mapM _ _ _ h0
          have e1 := skel_applyRefs _ _ _ _ _ _ h1
          have e2 := skel_mapM _ _ _ h2
          have e3 := skel_mapM _ _ _ h3
          exact ⟨by rw [e2, e1, e0], by rw [e3, e1, e0]⟩

/-- The value at `layer.view`. -/
def find2 {X : Type} (L : List (Name × List (Name × X))) (l v : Name) : Option X := Dict.get? ((Dict.get? L l).getD []) v

theorem get?_mapVals {X Y : Type} (f : X → Y) (l : List (Name × X)) (k : Name) :
    Dict.get? (l.map (fun p => (p.1, f p.2))) k = (Dict.get? l k).map f := by
  induction l with
  | nil => rfl
  | cons p l ih =>
    obtain ⟨k', y⟩ := p
    simp only [List.map_cons, Dict.get?_cons]
    split
    · rfl
    · exact ih

theorem at_ofLevels {X : Type} (L : List (Name × List (Name × X))) (l v : Name) : (ofLevels L).at [l, v] = find2 L l v := by
  simp only [ofLevels, References.Tree.at, find2]
  rw [get?_mapVals (fun vs : List (Name × X) => (References.Tree.node (vs.map (fun v => (v.1, References.Tree.leaf v.2))) : References.Tree X)) L l]
  cases Dict.get? L l with
  | none => simp
  | some vs =>
    simp only [Option.map_some, References.Tree.at, Option.getD_some]
    rw [get?_mapVals (fun x : X => (References.Tree.leaf x : References.Tree X)) vs v]
    cases Dict.get? vs v <;> simp [References.Tree.at]

/-- Distinct keys on both levels. -/
def Distinct2 {X : Type} (L : List (Name × List (Name × X))) : Prop :=
  (L.map Prod.fst).Nodup ∧ ∀ p ∈ L, (p.2.map Prod.fst).Nodup

theorem distinct2_iff {X : Type} (L : List (Name × List (Name × X))) :
    Distinct2 L ↔ ((keys2 L).map Prod.fst).Nodup ∧ ∀ p ∈ keys2 L, p.2.Nodup := by
  simp only [Distinct2, keys2, List.map_map, List.mem_map, forall_exists_index, and_imp, forall_apply_eq_imp_iff₂]
  rfl

theorem Distinct2.congr {X Y : Type} {L : List (Name × List (Name × X))} {L' : List (Name × List (Name × Y))}
    (h : Distinct2 L) (e : keys2 L' = keys2 L) : Distinct2 L' := by
  rw [distinct2_iff] at h ⊢
  rw [e]; exact h

theorem Distinct2.tail {X : Type} {p : Name × List (Name × X)} {L : List (Name × List (Name × X))} (h : Distinct2 (p :: L)) :
    Distinct2 L := ⟨(List.nodup_cons.1 h.1).2, fun q hq => h.2 q (List.mem_cons_of_mem _ hq)⟩

theorem prune_keys {V : Type} : ∀ (L : List (Name × List (Name × List V))), ((prune L).map Prod.fst).Sublist (L.map Prod.fst)
  | [] => by simp [prune]
  | (l, vs) :: rest => by
    simp only [prune]
    split
    · exact (prune_keys rest).cons _
    · exact (prune_keys rest).cons_cons _

theorem get?_none_of {X : Type} (L : List (Name × X)) (k : Name) (h : k ∉ L.map Prod.fst) : Dict.get? L k = none :=
  (Dict.get?_eq_none_iff L k).2 h

theorem get?_filter {V : Type} (p : Name × V → Bool) : ∀ (vs : List (Name × V)), (vs.map Prod.fst).Nodup → ∀ k,
    Dict.get? (vs.filter p) k = (Dict.get? vs k).bind (fun x => if p (k, x) then some x else none)
  | [], _, k => rfl
  | (k', x) :: vs, hn, k => by
    have hn' := List.nodup_cons.1 hn
    rw [List.filter_cons]
    by_cases hk : k' = k
    · subst hk
      have hnone : Dict.get? (vs.filter p) k' = none := by
        refine get?_none_of _ _ fun hm => hn'.1 ?_
        exact (List.filter_sublist.map Prod.fst).subset hm
      by_cases hp : p (k', x)
      · simp [hp, Dict.get?_cons]
      · simp [hp, Dict.get?_cons, hnone]
    · by_cases hp : p (k', x)
      · simp only [hp, if_true, Dict.get?_cons, hk, if_false]
        exact get?_filter p vs hn'.2 k
      · simp only [hp, Dict.get?_cons, hk, if_false]
        exact get?_filter p vs hn'.2 k

theorem prune_distinct {V : Type} : ∀ (L : List (Name × List (Name × List V))), Distinct2 L → Distinct2 (prune L)
  | [], h => h
  | (l, vs) :: rest, h => by
    have ih := prune_distinct rest h.tail
    refine ⟨(prune_keys _).nodup h.1, ?_⟩
    simp only [prune]
    split
    · exact ih.2
    · intro p hp
      rcases List.mem_cons.1 hp with rfl | hp
      · exact (List.filter_sublist.map Prod.fst).nodup (h.2 _ List.mem_cons_self)
      · exact ih.2 p hp

theorem find2_prune {V : Type} : ∀ (L : List (Name × List (Name × List V))), Distinct2 L → ∀ l v,
    (find2 (prune L) l v).getD [] = (find2 L l v).getD []
  | [], _, l, v => rfl
  | (l₀, vs) :: rest, h, l, v => by
    have ih := find2_prune rest h.tail l v
    have hvs := h.2 _ List.mem_cons_self
    have hf := get?_filter (fun v : Name × List V => !v.2.isEmpty) vs hvs v
    have hf' : (Dict.get? (vs.filter (fun v : Name × List V => !v.2.isEmpty)) v).getD [] = (Dict.get? vs v).getD [] := by
      rw [hf]
      cases Dict.get? vs v with
      | none => rfl
      | some x => cases x <;> simp
    simp only [prune]
    by_cases hl : l₀ = l
    · subst hl
      split
      · rename_i he
        have hnone : Dict.get? (prune rest) l₀ = none :=
          get?_none_of _ _ fun hm => (List.nodup_cons.1 h.1).1 ((prune_keys rest).subset hm)
        have he' : vs.filter (fun v : Name × List V => !v.2.isEmpty) = [] := by simpa using he
        rw [he'] at hf'
        simp only [find2, hnone, Dict.get?_cons, if_true, Option.getD_none, Option.getD_some, ← hf']
      · simp only [find2, Dict.get?_cons, if_true, Option.getD_some, hf']
    · split
      · simpa [find2, Dict.get?_cons, hl] using ih
      · simpa [find2, Dict.get?_cons, hl] using ih

theorem prune_nil {V : Type} : ∀ (L : List (Name × List (Name × List V))), Distinct2 L →
    (prune L = [] ↔ ∀ l v, (find2 L l v).getD [] = [])
  | [], _ => by simp [prune, find2]
  | (l₀, vs) :: rest, h => by
    constructor
    · intro hp l v
      rw [← find2_prune _ h, hp]
      rfl
    · intro hall
      have hrest : prune rest = [] := by
        rw [prune_nil rest h.tail]
        intro l v
        by_cases hl : l₀ = l
        · subst hl
          have hnone : Dict.get? rest l₀ = none := get?_none_of _ _ (List.nodup_cons.1 h.1).1
          simp [find2, hnone]
        · have := hall l v
          simpa [find2, Dict.get?_cons, hl] using this
      have hvs : vs.filter (fun v => !v.2.isEmpty) = [] := by
        rw [List.filter_eq_nil_iff]
        rintro ⟨v, x⟩ hx
        have e : Dict.get? vs v = some x := Dict.get?_of_mem (h.2 _ List.mem_cons_self) hx
        have := hall l₀ v
        simp only [find2, Dict.get?_cons, if_true, Option.getD_some, e] at this
        simp [this]
      simp [prune, hvs, hrest]

/-! ### Copies -/

/-- What copying the objects `as` for `layer.view` does. -/
structure Copies (h h' : Heap M) (l v : Name) (as bs : List Nat) : Prop where
  next : h'.next = h.next + as.length
  addrs : bs = List.range' h.next as.length
  old : ∀ i < h.next, h'.obj i = h.obj i
  new : (∀ a ∈ as, a < h.next) → bs.map h'.obj = as.map (fun a => ⟨(h.obj a).data, l, v⟩)

theorem Copies.nil (h : Heap M) (l v : Name) : Copies h h l v [] [] := ⟨rfl, rfl, fun _ _ => rfl, fun _ => rfl⟩

theorem Copies.append {h h₁ h₂ : Heap M} {l v : Name} {as as' bs bs' : List Nat} (c : Copies h h₁ l v as bs)
    (c' : Copies h₁ h₂ l v as' bs') : Copies h h₂ l v (as ++ as') (bs ++ bs') where
  next := by rw [c'.next, c.next, List.length_append, Nat.add_assoc]
  addrs := by
    rw [c.addrs, c'.addrs, c.next, List.length_append, ← List.range'_append_1]
  old := fun i hi => by rw [c'.old i (by rw [c.next]; omega), c.old i hi]
  new := fun hk => by
    rw [List.map_append, List.map_append]
    congr 1
    · rw [← c.new fun a ha => hk a (List.mem_append_left _ ha)]
      refine List.map_congr_left fun b hb => c'.old b ?_
      rw [c.addrs, List.mem_range'_1] at hb
      rw [c.next]; omega
    · rw [c'.new fun a ha => (hk a (List.mem_append_right _ ha)).trans_le (by rw [c.next]; omega)]
      refine List.map_congr_left fun a ha => ?_
      rw [c.old a (hk a (List.mem_append_right _ ha))]

theorem copyFor_copies (h : Heap M) (a : Nat) (l v : Name) : Copies h (copyFor h a l v).1 l v [a] [(copyFor h a l v).2] where
  next := rfl
  addrs := rfl
  old := fun i hi => by simp only [copyFor]; rw [if_neg (by omega)]
  new := fun _ => by simp [copyFor]

theorem copyAll_copies (l v : Name) : ∀ (as : List Nat) (h : Heap M), Copies h (copyAll h l v as).1 l v as (copyAll h l v as).2
  | [], h => .nil h l v
  | a :: as, h => (copyFor_copies h a l v).append (copyAll_copies l v as _)

theorem copyEntries_copies (l v : Name) : ∀ (es : List Entry) (h : Heap M),
    Copies h (copyEntries h l v es).1 l v (es.flatMap Entry.objs) (copyEntries h l v es).2
  | [], h => .nil h l v
  | .one a :: es, h => (copyFor_copies h a l v).append (copyEntries_copies l v es _)
  | .many as :: es, h => (copyAll_copies l v as h).append (copyEntries_copies l v es _)

/-- All addresses of a list of views. -/
def addrs1 (vs : List (Name × List Nat)) : List Nat := vs.flatMap (·.2)

/-- All addresses. -/
def addrs2 (inst : Installed) : List Nat := inst.flatMap (fun p => addrs1 p.2)

/-- `b` are copies of what the entries `es` name. -/
def CopyOf (h h' : Heap M) (l v : Name) (es : List Entry) (bs : List Nat) : Prop :=
  (∀ a ∈ es.flatMap Entry.objs, a < h.next) → bs.map h'.obj = (es.flatMap Entry.objs).map (fun a => ⟨(h.obj a).data, l, v⟩)

theorem copyViews_spec (order : List Entry → List Entry) (l : Name) : ∀ (vs : List (Name × List Entry)) (h : Heap M),
    h.next ≤ (copyViews order h l vs).1.next ∧
    addrs1 (copyViews order h l vs).2 = List.range' h.next ((copyViews order h l vs).1.next - h.next) ∧
    (∀ i < h.next, (copyViews order h l vs).1.obj i = h.obj i) ∧
    List.Forall₂ (fun p q => p.1 = q.1 ∧ CopyOf h (copyViews order h l vs).1 l p.1 (order p.2) q.2) vs (copyViews order h l vs).2
  | [], h => ⟨le_rfl, by simp [copyViews, addrs1], fun _ _ => rfl, .nil⟩
  | (v, es) :: rest, h => by
    have c := copyEntries_copies l v (order es) h
    obtain ⟨i1, i2, i3, i4⟩ := copyViews_spec order l rest (copyEntries h l v (order es)).1
    have hn : h.next ≤ (copyEntries h l v (order es)).1.next := by rw [c.next]; omega
    simp only [copyViews]
    refine ⟨hn.trans i1, ?_, fun i hi => by rw [i3 i (hi.trans_le hn), c.old i hi], .cons ⟨rfl, fun hk => ?_⟩ ?_⟩
    · simp only [addrs1, List.flatMap_cons]
      change _ ++ addrs1 _ = _
      rw [i2, c.addrs, c.next, List.range'_append_1]
      congr 1
      have := c.next
      omega
    · dsimp only
      rw [← c.new hk]
      refine List.map_congr_left fun b hb => i3 b ?_
      rw [c.addrs, List.mem_range'_1] at hb
      rw [c.next]; omega
    · refine i4.imp fun p q hpq => ⟨hpq.1, fun hk => ?_⟩
      rw [hpq.2 fun a ha => (hk a ha).trans_le hn]
      refine List.map_congr_left fun a ha => ?_
      rw [c.old a (hk a ha)]

theorem orderAndCopy_spec (order : List Entry → List Entry) : ∀ (L : List (Name × List (Name × List Entry))) (h : Heap M),
    h.next ≤ (orderAndCopy order h L).1.next ∧
    addrs2 (orderAndCopy order h L).2 = List.range' h.next ((orderAndCopy order h L).1.next - h.next) ∧
    (∀ i < h.next, (orderAndCopy order h L).1.obj i = h.obj i) ∧
    List.Forall₂ (fun p q => p.1 = q.1 ∧ List.Forall₂ (fun x y => x.1 = y.1 ∧
      CopyOf h (orderAndCopy order h L).1 p.1 x.1 (order x.2) y.2) p.2 q.2) L (orderAndCopy order h L).2
  | [], h => ⟨le_rfl, by simp [orderAndCopy, addrs2], fun _ _ => rfl, .nil⟩
  | (l, vs) :: rest, h => by
    obtain ⟨c1, c2, c3, c4⟩ := copyViews_spec order l vs h
    obtain ⟨i1, i2, i3, i4⟩ := orderAndCopy_spec order rest (copyViews order h l vs).1
    simp only [orderAndCopy]
    refine ⟨c1.trans i1, ?_, fun i hi => by rw [i3 i (hi.trans_le c1), c3 i hi], .cons ⟨rfl, ?_⟩ ?_⟩
    · simp only [addrs2, List.flatMap_cons]
      change _ ++ addrs2 _ = _
      rw [i2, c2]
      have e : (copyViews order h l vs).1.next = h.next + ((copyViews order h l vs).1.next - h.next) := by omega
      conv_lhs => rw [e]
      rw [Nat.add_sub_cancel_left, List.range'_append_1]
      congr 1
      omega
    · have hb : ∀ b ∈ addrs1 (copyViews order h l vs).2, b < (copyViews order h l vs).1.next := by
        intro b hb
        rw [c2, List.mem_range'_1] at hb
        omega
      have : ∀ (ps : List (Name × List Entry)) (qs : List (Name × List Nat)),
          (∀ b ∈ addrs1 qs, b < (copyViews order h l vs).1.next) →
          List.Forall₂ (fun p q => p.1 = q.1 ∧ CopyOf h (copyViews order h l vs).1 l p.1 (order p.2) q.2) ps qs →
          List.Forall₂ (fun x y => x.1 = y.1 ∧
            CopyOf h (orderAndCopy order (copyViews order h l vs).1 rest).1 l x.1 (order x.2) y.2) ps qs := by
        intro ps qs hq hf
        induction hf with
        | nil => exact .nil
        | cons hpq _ ih =>
          refine .cons ⟨hpq.1, fun hk => ?_⟩ (ih fun b hb => hq b ?_)
          · rw [← hpq.2 hk]
            refine List.map_congr_left fun b hb => i3 b (hq b ?_)
            simp only [addrs1, List.flatMap_cons, List.mem_append]
            exact .inl hb
          · simp only [addrs1, List.flatMap_cons, List.mem_append]
            exact .inr hb
      exact this _ _ hb c4
    · refine i4.imp fun p q hpq => ⟨hpq.1, hpq.2.imp fun x y hxy => ⟨hxy.1, fun hk => ?_⟩⟩
      rw [hxy.2 fun a ha => (hk a ha).trans_le c1]
      refine List.map_congr_left fun a ha => ?_
      rw [c3 a (hk a ha)]

theorem forall₂_get? {X Y : Type} {R : Name → X → Y → Prop} {L : List (Name × X)} {L' : List (Name × Y)}
    (h : List.Forall₂ (fun p q => p.1 = q.1 ∧ R p.1 p.2 q.2) L L') (k : Name) :
    (∀ y, Dict.get? L' k = some y → ∃ x, Dict.get? L k = some x ∧ R k x y) ∧ (Dict.get? L' k = none → Dict.get? L k = none) := by
  induction h with
  | nil => simp
  | @cons p q L L' hpq _ ih =>
    obtain ⟨k₁, x⟩ := p
    obtain ⟨k₂, y⟩ := q
    obtain ⟨rfl, hr⟩ := hpq
    simp only [Dict.get?_cons] at ih ⊢
    by_cases hk : k₁ = k
    · subst hk
      simp only [if_true, Option.some.injEq, reduceCtorEq, false_imp_iff, and_true]
      rintro _ rfl
      exact ⟨x, rfl, hr⟩
    · simp only [hk, if_false]
      exact ih

theorem forall₂_keys {X Y : Type} {R : Name × X → Name × Y → Prop} {L : List (Name × X)} {L' : List (Name × Y)}
    (h : List.Forall₂ (fun p q => p.1 = q.1 ∧ R p q) L L') : L'.map Prod.fst = L.map Prod.fst := by
  induction h with
  | nil => rfl
  | cons hpq _ ih => simp [ih, hpq.1]

/-- Every installed modifier is an object of its own. -/
def Installed.Own (inst : Installed) : Prop := Distinct2 inst ∧ (addrs2 inst).Nodup

theorem mem_addrs2 (inst : Installed) (l v : Name) (a : Nat) (h : a ∈ inst.at l v) : a ∈ addrs2 inst := by
  unfold Installed.at at h
  cases h1 : Dict.get? inst l with
  | none => simp [h1] at h
  | some vs =>
    rw [h1, Option.getD_some] at h
    cases h2 : Dict.get? vs v with
    | none => simp [h2] at h
    | some as =>
      rw [h2, Option.getD_some] at h
      refine List.mem_flatMap.2 ⟨(l, vs), Dict.mem_of_get? h1, List.mem_flatMap.2 ⟨(v, as), Dict.mem_of_get? h2, h⟩⟩

theorem setModifiers_spec (order : List Entry → List Entry) (ps : Params) (hd : ps.Distinct)
    (refs : Ref Entry) (h h' : Heap M) (inst : Installed) (hs : setModifiers order ps refs h = .ok (h', inst)) :
    inst.Own ∧ (∀ a ∈ addrs2 inst, h.next ≤ a) ∧ (∀ i < h.next, h'.obj i = h.obj i) ∧
    (∀ l v, (∀ sh, ¬ ps.HasView (l, v, sh)) → inst.at l v = []) ∧
    ∀ l v sh, ps.HasView (l, v, sh) → ∃ es : List Entry, es.Nodup ∧ (∀ e, e ∈ es ↔ Names refs l v e) ∧
      ((order [] = []) → CopyOf h h' l v (order es) (inst.at l v)) := by
  unfold setModifiers at hs
  split at hs
  · simp at hs
  · rename_i mods fallback hr
    split at hs
    · simp only [Except.ok.injEq] at hs
      have sk := resolve_skel _ _ _ _ hr
      obtain ⟨L, rfl, hL⟩ := skel_levels ps mods sk.1
      have hdL : Distinct2 L := Distinct2.congr (L := ps) hd hL
      rw [levels_ofLevels] at hs
      obtain ⟨s1, s2, s3, s4⟩ := orderAndCopy_spec order (prune L) h
      rw [hs] at s1 s2 s3 s4
      simp only at s1 s2 s3 s4
      have hdP := prune_distinct L hdL
      have hlook : ∀ l v, ((find2 (prune L) l v = none ∧ inst.at l v = []) ∨
          ∃ es, find2 (prune L) l v = some es ∧ CopyOf h h' l v (order es) (inst.at l v)) := by
        intro l v
        have g1 := forall₂_get? (R := fun l (x : List (Name × List Entry)) (y : List (Name × List Nat)) =>
          List.Forall₂ (fun x y => x.1 = y.1 ∧ CopyOf h h' l x.1 (order x.2) y.2) x y) s4 l
        unfold find2 Installed.at
        cases e1 : Dict.get? inst l with
        | none =>
          left
          rw [g1.2 e1]
          simp
        | some ys =>
          obtain ⟨xs, e2, hxy⟩ := g1.1 ys e1
          have g2 := forall₂_get? (R := fun v x y => CopyOf h h' l v (order x) y) hxy v
          rw [e2]
          simp only [Option.getD_some]
          cases e3 : Dict.get? ys v with
          | none => left; rw [g2.2 e3]; simp
          | some y =>
            obtain ⟨x, e4, hc⟩ := g2.1 y e3
            right
            exact ⟨x, e4, by simpa using hc⟩
      refine ⟨⟨⟨by rw [forall₂_keys s4]; exact hdP.1, ?_⟩, by rw [s2]; exact List.nodup_range'⟩, ?_, s3, ?_, ?_⟩
      · have : ∀ (L : List (Name × List (Name × List Entry))) (inst : Installed),
            List.Forall₂ (fun p q => p.1 = q.1 ∧ List.Forall₂ (fun x y => x.1 = y.1 ∧
              CopyOf h h' p.1 x.1 (order x.2) y.2) p.2 q.2) L inst → (∀ p ∈ L, (p.2.map Prod.fst).Nodup) →
            ∀ q ∈ inst, (q.2.map Prod.fst).Nodup := by
          intro L inst hf
          induction hf with
          | nil => intro _ q hq; simp at hq
          | cons hpq _ ih =>
            intro hp q hq
            rcases List.mem_cons.1 hq with rfl | hq
            · rw [forall₂_keys hpq.2]; exact hp _ List.mem_cons_self
            · exact ih (fun p h => hp p (List.mem_cons_of_mem _ h)) q hq
        exact this _ _ s4 hdP.2
      · intro a ha
        rw [s2, List.mem_range'_1] at ha
        exact ha.1
      · intro l v hno
        rcases hlook l v with ⟨_, h⟩ | ⟨es, he, _⟩
        · exact h
        · exfalso
          have h1 : (find2 L l v).getD [] = es := by rw [← find2_prune L hdL, he]; rfl
          -- `find2 (prune L)` only has entries of `L`
          have hex : ∃ vs, (l, vs) ∈ prune L ∧ (v, es) ∈ vs := by
            unfold find2 at he
            cases e1 : Dict.get? (prune L) l with
            | none => simp [e1] at he
            | some vs =>
              rw [e1, Option.getD_some] at he
              exact ⟨vs, Dict.mem_of_get? e1, Dict.mem_of_get? he⟩
          obtain ⟨vs, hvs, hv⟩ := hex
          have hsub : ∀ (L : List (Name × List (Name × List Entry))) (vs : List (Name × List Entry)), (l, vs) ∈ prune L →
              ∃ vs', (l, vs') ∈ L ∧ ∀ x ∈ vs, x ∈ vs' := by
            intro L
            induction L with
            | nil => intro vs h; simp [prune] at h
            | cons p L ih =>
              obtain ⟨l₀, vs₀⟩ := p
              intro vs h
              simp only [prune] at h
              split at h
              · obtain ⟨vs', h1, h2⟩ := ih vs h
                exact ⟨vs', List.mem_cons_of_mem _ h1, h2⟩
              · rcases List.mem_cons.1 h with h | h
                · simp only [Prod.mk.injEq] at h
                  obtain ⟨rfl, rfl⟩ := h
                  exact ⟨vs₀, List.mem_cons_self, fun x hx => (List.mem_filter.1 hx).1⟩
                · obtain ⟨vs', h1, h2⟩ := ih vs h
                  exact ⟨vs', List.mem_cons_of_mem _ h1, h2⟩
          obtain ⟨vs', h2, h3⟩ := hsub L vs hvs
          have hk2 : (l, vs'.map Prod.fst) ∈ keys2 L := List.mem_map.2 ⟨(l, vs'), h2, rfl⟩
          rw [hL] at hk2
          obtain ⟨⟨l', ws⟩, hw, he2⟩ := List.mem_map.1 hk2
          simp only [Prod.mk.injEq] at he2
          obtain ⟨rfl, he2⟩ := he2
          have : v ∈ vs'.map Prod.fst := List.mem_map.2 ⟨(v, es), h3 _ hv, rfl⟩
          rw [← he2] at this
          obtain ⟨⟨v', sh⟩, hv', rfl⟩ := List.mem_map.1 this
          exact hno sh ⟨ws, hw, hv'⟩
      · intro l v sh hv
        obtain ⟨vs, fs, g1, g2, g3, g4⟩ := C24_values ps.tree refs _ _ hr _ _ (at_tree ps hd (l, v, sh) hv)
        have hnd := resolve_nodup _ _ _ _ hr _ _ g1
        rw [at_ofLevels] at g1
        refine ⟨vs, hnd, g3, fun h0 => ?_⟩
        have hp := find2_prune L hdL l v
        rw [g1, Option.getD_some] at hp
        rcases hlook l v with ⟨hn, h⟩ | ⟨es, he, hc⟩
        · rw [hn] at hp
          simp only [Option.getD_none] at hp
          subst hp
          rw [h, h0]
          intro _
          rfl
        · rw [he, Option.getD_some] at hp
          subst hp
          exact hc
    · simp at hs

/-! ### Property theorems -/

/-- **C62**: the modifiers installed for a weight are copies, in order, of exactly the objects that the references name for it
(several references naming the same weight come in some order), and they carry its layer and view name. -/
theorem C62_install (order : List Entry → List Entry) (horder : ∀ es, (order es).Perm es) (ps : Params) (hd : ps.Distinct)
    (refs : Ref Entry) (h h' : Heap M) (hk : Known refs h) (inst : Installed)
    (hs : setModifiers order ps refs h = .ok (h', inst)) (l v : Name) (sh : Shape) (hv : ps.HasView (l, v, sh)) :
    ∃ es : List Entry, es.Nodup ∧ (∀ e, e ∈ es ↔ Names refs l v e) ∧
      (inst.at l v).map h'.obj = (es.flatMap Entry.objs).map (fun a => ⟨(h.obj a).data, l, v⟩) := by
  obtain ⟨es, h1, h2, h3⟩ := (setModifiers_spec order ps hd refs h h' inst hs).2.2.2.2 l v sh hv
  have hp := horder es
  refine ⟨order es, hp.nodup_iff.2 h1, fun e => by rw [hp.mem_iff, h2], ?_⟩
  refine h3 (List.perm_nil.1 (horder [])) fun a ha => ?_
  obtain ⟨e, he, hae⟩ := List.mem_flatMap.1 ha
  exact hk l v e ((h2 e).1 (hp.mem_iff.1 he)) a hae

/-- **C62**: if one list of modifiers is named for a weight, the installed modifiers are copies of them in the order of the list. -/
theorem C62_in_order (order : List Entry → List Entry) (horder : ∀ es, (order es).Perm es) (ps : Params) (hd : ps.Distinct)
    (refs : Ref Entry) (h h' : Heap M) (hk : Known refs h) (inst : Installed)
    (hs : setModifiers order ps refs h = .ok (h', inst)) (l v : Name) (sh : Shape) (hv : ps.HasView (l, v, sh))
    (as : List Nat) (hone : ∀ e, Names refs l v e ↔ e = .many as) :
    (inst.at l v).map h'.obj = as.map (fun a => ⟨(h.obj a).data, l, v⟩) := by
  obtain ⟨es, h1, h2, h3⟩ := C62_install order horder ps hd refs h h' hk inst hs l v sh hv
  have : es = [.many as] := by
    have hm : ∀ e, e ∈ es ↔ e = .many as := fun e => by rw [h2, hone]
    rcases es with _ | ⟨a, _ | ⟨b, c⟩⟩
    · exact absurd ((hm (.many as)).2 rfl) List.not_mem_nil
    · rw [(hm a).1 List.mem_cons_self]
    · have e1 := (hm a).1 List.mem_cons_self
      have e2 := (hm b).1 (List.mem_cons_of_mem _ List.mem_cons_self)
      subst e1
      subst e2
      simp at h1
  rw [h3, this]
  simp [Entry.objs]

/-- **C62**: nothing is installed for weights that do not exist or for which the references name nothing. -/
theorem C62_nowhere_else (order : List Entry → List Entry) (horder : ∀ es, (order es).Perm es) (ps : Params) (hd : ps.Distinct)
    (refs : Ref Entry) (h h' : Heap M) (hk : Known refs h) (inst : Installed)
    (hs : setModifiers order ps refs h = .ok (h', inst)) (l v : Name)
    (hno : (∀ sh, ¬ ps.HasView (l, v, sh)) ∨ ∀ e, ¬ Names refs l v e) : inst.at l v = [] := by
  by_cases hv : ∀ sh, ¬ ps.HasView (l, v, sh)
  · exact (setModifiers_spec order ps hd refs h h' inst hs).2.2.2.1 l v hv
  · push Not at hv
    obtain ⟨sh, hv⟩ := hv
    rcases hno with h0 | h0
    · exact absurd hv (h0 sh)
    · obtain ⟨es, h1, h2, h3⟩ := C62_install order horder ps hd refs h h' hk inst hs l v sh hv
      have : es = [] := List.eq_nil_iff_forall_not_mem.2 fun e he => h0 e ((h2 e).1 he)
      rw [this] at h3
      simpa using h3

/-- **C62**: all installed modifiers are new objects, no two of them the same; the objects given by the user do not change. -/
theorem C62_own (order : List Entry → List Entry) (ps : Params) (hd : ps.Distinct) (refs : Ref Entry) (h h' : Heap M)
    (inst : Installed) (hs : setModifiers order ps refs h = .ok (h', inst)) :
    inst.Own ∧ (∀ l v, ∀ a ∈ inst.at l v, h.next ≤ a) ∧ ∀ a < h.next, h'.obj a = h.obj a := by
  obtain ⟨h1, h2, h3, _, _⟩ := setModifiers_spec order ps hd refs h h' inst hs
  exact ⟨h1, fun l v a ha => h2 a (mem_addrs2 inst l v a ha), h3⟩

/-- **C62**: a fallback for some weight is rejected, by the assertion. -/
theorem C62_fallback (order : List Entry → List Entry) (ps : Params) (hd : ps.Distinct) (refs : Ref Entry) (h : Heap M)
    (r : References.Tree (List Entry) × References.Tree (List Entry)) (hr : resolve ps.tree refs = .ok r) :
    (setModifiers order ps refs h = .error .fallback ↔
      ∃ l v sh e, ps.HasView (l, v, sh) ∧ Inherits (str "fallback") refs none [l, v] e) ∧
    (setModifiers order ps refs h ≠ .error .fallback → ∃ q, setModifiers order ps refs h = .ok q) := by
  obtain ⟨mods, fallback⟩ := r
  have sk := resolve_skel _ _ _ _ hr
  obtain ⟨L, rfl, hL⟩ := skel_levels ps fallback sk.2
  have hdL : Distinct2 L := Distinct2.congr (L := ps) hd hL
  unfold setModifiers
  rw [hr]
  simp only [levels_ofLevels]
  constructor
  · have e : (prune L = [] ↔ ∀ l v sh e, ps.HasView (l, v, sh) → ¬ Inherits (str "fallback") refs none [l, v] e) := by
      rw [prune_nil L hdL]
      constructor
      · intro hall l v sh e hv hi
        obtain ⟨vs, fs, g1, g2, g3, g4⟩ := C24_values ps.tree refs _ _ hr _ _ (at_tree ps hd (l, v, sh) hv)
        rw [at_ofLevels] at g2
        have := hall l v
        rw [g2, Option.getD_some] at this
        have he := (g4 e).2 hi
        rw [this] at he
        simp at he
      · intro hall l v
        by_cases hv : ∃ sh, ps.HasView (l, v, sh)
        · obtain ⟨sh, hv⟩ := hv
          obtain ⟨vs, fs, g1, g2, g3, g4⟩ := C24_values ps.tree refs _ _ hr _ _ (at_tree ps hd (l, v, sh) hv)
          rw [at_ofLevels] at g2
          rw [g2, Option.getD_some]
          exact List.eq_nil_iff_forall_not_mem.2 fun e he => hall l v sh e hv ((g4 e).1 he)
        · cases hf : find2 L l v with
          | none => rfl
          | some x =>
            exfalso
            apply hv
            unfold find2 at hf
            cases e1 : Dict.get? L l with
            | none => simp [e1] at hf
            | some vs =>
              rw [e1, Option.getD_some] at hf
              have hk2 : (l, vs.map Prod.fst) ∈ keys2 L := List.mem_map.2 ⟨(l, vs), Dict.mem_of_get? e1, rfl⟩
              rw [hL] at hk2
              obtain ⟨⟨l', ws⟩, hw, he2⟩ := List.mem_map.1 hk2
              simp only [Prod.mk.injEq] at he2
              obtain ⟨rfl, he2⟩ := he2
              have : v ∈ vs.map Prod.fst := List.mem_map.2 ⟨(v, x), Dict.mem_of_get? hf, rfl⟩
              rw [← he2] at this
              obtain ⟨⟨v', sh⟩, hv', rfl⟩ := List.mem_map.1 this
              exact ⟨sh, ws, hw, hv'⟩
    by_cases hp : prune L = []
    · rw [if_pos hp]
      simp only [reduceCtorEq, false_iff, not_exists, not_and]
      exact e.1 hp
    · rw [if_neg hp]
      simp only [true_iff]
      have hne := mt e.2 hp
      push Not at hne
      exact hne
  · intro hne
    by_cases hp : prune L = []
    · rw [if_pos hp]; exact ⟨_, rfl⟩
    · rw [if_neg hp] at hne; simp at hne

/-! ### Applying -/

/-- The calls, in order: layer, view, address. -/
def calls1 (l : Name) (vs : List (Name × List Nat)) : List (Name × Name × Nat) := vs.flatMap (fun va => va.2.map (fun a => (l, va.1, a)))

/-- All calls. -/
def calls2 (inst : Installed) : List (Name × Name × Nat) := inst.flatMap (fun p => calls1 p.1 p.2)

theorem applyAll_eq (sys : Sys M Val Seed G) (call : Name → Name → M → Seed → Val → M × Val) (inst : Installed) (s : Net M Val G) :
    applyAll sys call inst s = (calls2 inst).foldl (fun s c => callOne sys (call c.1 c.2.1) c.1 c.2.1 s c.2.2) s := by
  unfold applyAll calls2
  induction inst generalizing s with
  | nil => rfl
  | cons p inst ih =>
    rw [List.foldl_cons, List.flatMap_cons, List.foldl_append, ← ih]
    congr 1
    obtain ⟨l, vs⟩ := p
    simp only [calls1]
    clear ih
    induction vs generalizing s with
    | nil => rfl
    | cons q vs ihv =>
      rw [List.foldl_cons, List.flatMap_cons, List.foldl_append, ← ihv]
      congr 1
      rw [List.foldl_map]

/-- The positions of the calls for `layer.view` in a list of calls, counted from `k`. -/
def posOf (l v : Name) : Nat → List (Name × Name × Nat) → List Nat
  | _, [] => []
  | k, c :: L => if c.1 = l ∧ c.2.1 = v then k :: posOf l v (k + 1) L else posOf l v (k + 1) L

theorem posOf_bounds (l v : Name) : ∀ (k : Nat) (L : List (Name × Name × Nat)), ∀ n ∈ posOf l v k L, k ≤ n ∧ n < k + L.length
  | _, [], _, h => absurd h List.not_mem_nil
  | k, c :: L, n, h => by
    unfold posOf at h
    have ih := posOf_bounds l v (k + 1) L n
    rw [List.length_cons]
    split at h
    · rcases List.mem_cons.1 h with rfl | h
      · omega
      · have := ih h; omega
    · have := ih h; omega

theorem posOf_nodup (l v : Name) : ∀ (k : Nat) (L : List (Name × Name × Nat)), (posOf l v k L).Nodup
  | _, [] => List.nodup_nil
  | k, c :: L => by
    unfold posOf
    have ih := posOf_nodup l v (k + 1) L
    split
    · refine List.nodup_cons.2 ⟨fun h => ?_, ih⟩
      have := posOf_bounds l v _ _ _ h
      omega
    · exact ih

theorem posOf_disjoint (l v l' v' : Name) : ∀ (k : Nat) (L : List (Name × Name × Nat)) (n : Nat), n ∈ posOf l v k L →
    n ∈ posOf l' v' k L → l = l' ∧ v = v'
  | _, [], _, h, _ => absurd h List.not_mem_nil
  | k, c :: L, n, h, h' => by
    unfold posOf at h h'
    have ih := posOf_disjoint l v l' v' (k + 1) L n
    have b1 := posOf_bounds l v (k + 1) L n
    have b2 := posOf_bounds l' v' (k + 1) L n
    split at h <;> split at h'
    · rename_i e1 e2
      exact ⟨e1.1.symm.trans e2.1, e1.2.symm.trans e2.2⟩
    · rcases List.mem_cons.1 h with rfl | h
      · have := b2 h'; omega
      · exact ih h h'
    · rcases List.mem_cons.1 h' with rfl | h'
      · have := b1 h; omega
      · exact ih h h'
    · exact ih h h'

theorem posOf_length (l v : Name) : ∀ (k : Nat) (L : List (Name × Name × Nat)),
    (posOf l v k L).length = (L.filter (fun c => c.1 = l ∧ c.2.1 = v)).length
  | _, [] => rfl
  | k, c :: L => by
    unfold posOf
    rw [List.filter_cons]
    split
    · rename_i h
      rw [if_pos (by simpa using h), List.length_cons, List.length_cons, posOf_length]
    · rename_i h
      rw [if_neg (by simpa using h), posOf_length]

theorem posOf_shift (l v : Name) (f : Nat → Seed) : ∀ (k : Nat) (L : List (Name × Name × Nat)),
    (posOf l v (k + 1) L).map f = (posOf l v k L).map (fun n => f (n + 1))
  | _, [] => rfl
  | k, c :: L => by
    unfold posOf
    split
    · rw [List.map_cons, List.map_cons, posOf_shift]
    · rw [posOf_shift]

theorem foldCalls_rnd (sys : Sys M Val Seed G) (call : Name → Name → M → Seed → Val → M × Val) :
    ∀ (L : List (Name × Name × Nat)) (s : Net M Val G) (n : Nat),
      sys.seedNo (L.foldl (fun s c => callOne sys (call c.1 c.2.1) c.1 c.2.1 s c.2.2) s).rnd n = sys.seedNo s.rnd (L.length + n)
  | [], s, n => by simp
  | c :: L, s, n => by
    rw [List.foldl_cons, foldCalls_rnd sys call L, List.length_cons, Nat.add_right_comm]
    rfl

theorem foldCalls_spec (sys : Sys M Val Seed G) (call : Name → Name → M → Seed → Val → M × Val) (l v : Name) :
    ∀ (L : List (Name × Name × Nat)) (s : Net M Val G), (L.map (fun c => c.2.2)).Nodup →
        (((L.filter (fun c => c.1 = l ∧ c.2.1 = v)).map (fun c =>
            ((L.foldl (fun s c => callOne sys (call c.1 c.2.1) c.1 c.2.1 s c.2.2) s).heap.obj c.2.2).data),
          (L.foldl (fun s c => callOne sys (call c.1 c.2.1) c.1 c.2.1 s c.2.2) s).view l v) =
        inTurn (call l v) ((L.filter (fun c => c.1 = l ∧ c.2.1 = v)).map (fun c => (s.heap.obj c.2.2).data))
          ((posOf l v 0 L).map (sys.seedNo s.rnd)) (s.view l v)) ∧
        ∀ a, a ∉ L.map (fun c => c.2.2) →
          (L.foldl (fun s c => callOne sys (call c.1 c.2.1) c.1 c.2.1 s c.2.2) s).heap.obj a = s.heap.obj a
  | [], s, _ => ⟨rfl, fun _ _ => rfl⟩
  | (l', v', a) :: L, s, hn => by
    rw [List.map_cons, List.nodup_cons] at hn
    simp only [List.foldl_cons]
    obtain ⟨h2, h3⟩ := foldCalls_spec sys call l v L (callOne sys (call l' v') l' v' s a) hn.2
    have hseed : (posOf l v 1 L).map (sys.seedNo s.rnd) =
        (posOf l v 0 L).map (sys.seedNo (callOne sys (call l' v') l' v' s a).rnd) := by
      rw [posOf_shift]
      rfl
    have hobj : ∀ b, b ≠ a → (callOne sys (call l' v') l' v' s a).heap.obj b = s.heap.obj b := by
      intro b hb
      simp only [callOne, Heap.put, if_neg hb]
    have hmap : (L.filter (fun c => c.1 = l ∧ c.2.1 = v)).map (fun c => ((callOne sys (call l' v') l' v' s a).heap.obj c.2.2).data) =
        (L.filter (fun c => c.1 = l ∧ c.2.1 = v)).map (fun c => (s.heap.obj c.2.2).data) := by
      refine List.map_congr_left fun c hc => ?_
      rw [hobj]
      intro he
      exact hn.1 (List.mem_map.2 ⟨c, (List.mem_filter.1 hc).1, he⟩)
    have hlast : ∀ b, b ∉ ((l', v', a) :: L).map (fun c => c.2.2) →
        (L.foldl (fun s c => callOne sys (call c.1 c.2.1) c.1 c.2.1 s c.2.2) (callOne sys (call l' v') l' v' s a)).heap.obj b =
          s.heap.obj b := by
      intro b hb
      rw [List.map_cons, List.mem_cons, not_or] at hb
      rw [h3 b hb.2, hobj b hb.1]
    by_cases hlv : l' = l ∧ v' = v
    · obtain ⟨rfl, rfl⟩ := hlv
      refine ⟨?_, hlast⟩
      · have hp : posOf l' v' 0 ((l', v', a) :: L) = 0 :: posOf l' v' 1 L := by simp [posOf]
        have hf : ((l', v', a) :: L).filter (fun c => c.1 = l' ∧ c.2.1 = v') =
            (l', v', a) :: L.filter (fun c => c.1 = l' ∧ c.2.1 = v') := by simp
        rw [hf, List.map_cons, List.map_cons, hp, List.map_cons, hseed]
        simp only [inTurn, Sys.seedNo]
        rw [hmap] at h2
        have hv : (callOne sys (call l' v') l' v' s a).view l' v' =
            (call l' v' (s.heap.obj a).data (sys.generateSeed s.rnd).1 (s.view l' v')).2 := by
          simp [callOne, setView]
        rw [hv] at h2
        rw [← h2]
        simp only [Prod.mk.injEq, List.cons.injEq, and_true]
        rw [h3 a hn.1]
        simp [callOne, Heap.put]
    · refine ⟨?_, hlast⟩
      · have hp : posOf l v 0 ((l', v', a) :: L) = posOf l v 1 L := by simp [posOf, hlv]
        have hf : ((l', v', a) :: L).filter (fun c => c.1 = l ∧ c.2.1 = v) = L.filter (fun c => c.1 = l ∧ c.2.1 = v) := by
          simp [hlv]
        rw [hf, h2, hmap, hp, hseed]
        have hv : (callOne sys (call l' v') l' v' s a).view l v = s.view l v := by
          simp only [callOne, setView]
          rw [if_neg]
          rintro ⟨rfl, rfl⟩
          exact hlv ⟨rfl, rfl⟩
        rw [hv]

theorem calls2_addrs (inst : Installed) : (calls2 inst).map (fun c => c.2.2) = addrs2 inst := by
  simp only [calls2, addrs2, List.map_flatMap]
  refine List.flatMap_congr fun p _ => ?_
  simp only [calls1, addrs1, List.map_flatMap]
  refine List.flatMap_congr fun q _ => ?_
  simp [List.map_map, Function.comp_def]

theorem calls2_at (l v : Name) : ∀ (inst : Installed), Distinct2 inst →
    ((calls2 inst).filter (fun c => c.1 = l ∧ c.2.1 = v)).map (fun c => c.2.2) = inst.at l v
  | [], _ => rfl
  | (l', vs) :: inst, h => by
    have ih := calls2_at l v inst h.tail
    rw [calls2, List.flatMap_cons, List.filter_append, List.map_append]
    change _ ++ ((calls2 inst).filter _).map _ = _
    rw [ih]
    have hvs := h.2 _ List.mem_cons_self
    by_cases hl : l' = l
    · subst hl
      have hnone : Dict.get? inst l' = none := get?_none_of _ _ (List.nodup_cons.1 h.1).1
      have e0 : Installed.at inst l' v = [] := by simp [Installed.at, hnone]
      rw [e0, List.append_nil]
      have : ∀ (vs : List (Name × List Nat)), (vs.map Prod.fst).Nodup →
          ((calls1 l' vs).filter (fun c => c.1 = l' ∧ c.2.1 = v)).map (fun c => c.2.2) = (Dict.get? vs v).getD [] := by
        intro vs
        induction vs with
        | nil => intro _; rfl
        | cons q vs ihv =>
          intro hq
          obtain ⟨v', as⟩ := q
          have hq' := List.nodup_cons.1 hq
          rw [calls1, List.flatMap_cons, List.filter_append, List.map_append]
          change _ ++ ((calls1 l' vs).filter _).map _ = _
          rw [ihv hq'.2]
          by_cases hv : v' = v
          · subst hv
            have : Dict.get? vs v' = none := get?_none_of _ _ hq'.1
            rw [this, Option.getD_none, List.append_nil, Dict.get?_cons, if_pos rfl, Option.getD_some]
            rw [List.filter_eq_self.2, List.map_map]
            · simp [Function.comp_def]
            · intro c hc
              obtain ⟨a, _, rfl⟩ := List.mem_map.1 hc
              simp
          · rw [Dict.get?_cons, if_neg hv, List.filter_eq_nil_iff.2]
            · rfl
            · intro c hc
              obtain ⟨a, _, rfl⟩ := List.mem_map.1 hc
              simp [hv]
      rw [this vs hvs]
      simp [Installed.at, Dict.get?_cons]
    · rw [List.filter_eq_nil_iff.2]
      · simp [Installed.at, Dict.get?_cons, hl]
      · intro c hc
        simp only [calls1, List.mem_flatMap, List.mem_map] at hc
        obtain ⟨q, _, a, _, rfl⟩ := hc
        simp [hl]

/-- What applying all installed modifiers does: every view is changed by its own modifiers in turn, call number `n` of the whole
pass gets the seed number `n` of the random state, and the random state moves on. -/
theorem applyAll_spec (sys : Sys M Val Seed G) (call : Name → Name → M → Seed → Val → M × Val) (inst : Installed) (ho : inst.Own)
    (s : Net M Val G) :
    (∃ (pos : Name → Name → List Nat) (total : Nat),
      (∀ l v, (pos l v).Nodup ∧ (pos l v).length = (inst.at l v).length ∧ ∀ n ∈ pos l v, n < total) ∧
      (∀ l v l' v' n, n ∈ pos l v → n ∈ pos l' v' → l = l' ∧ v = v') ∧
      (∀ n, sys.seedNo (applyAll sys call inst s).rnd n = sys.seedNo s.rnd (total + n)) ∧
      ∀ l v, ((inst.at l v).map (fun a => ((applyAll sys call inst s).heap.obj a).data), (applyAll sys call inst s).view l v) =
        inTurn (call l v) ((inst.at l v).map (fun a => (s.heap.obj a).data)) ((pos l v).map (sys.seedNo s.rnd)) (s.view l v)) ∧
    ∀ a, a ∉ addrs2 inst → (applyAll sys call inst s).heap.obj a = s.heap.obj a := by
  rw [applyAll_eq]
  have hnd : ((calls2 inst).map (fun c => c.2.2)).Nodup := by rw [calls2_addrs]; exact ho.2
  refine ⟨⟨fun l v => posOf l v 0 (calls2 inst), (calls2 inst).length, fun l v => ⟨posOf_nodup _ _ _ _, ?_, fun n hn => ?_⟩,
    fun l v l' v' n h h' => posOf_disjoint l v l' v' 0 _ n h h', foldCalls_rnd sys call _ s, fun l v => ?_⟩,
    fun a ha => (foldCalls_spec sys call [] [] (calls2 inst) s hnd).2 a (by rw [calls2_addrs]; exact ha)⟩
  · rw [posOf_length, ← calls2_at l v inst ho.1, List.length_map]
  · have := posOf_bounds l v 0 _ n hn
    omega
  · rw [← calls2_at l v inst ho.1, List.map_map, List.map_map]
    exact (foldCalls_spec sys call l v (calls2 inst) s hnd).1

/-- **C62**: `apply_weight_modifiers` changes every weight by its own modifiers, in turn, in the order of installation, each called
once; a weight without modifiers is unchanged; the objects the user passed are not touched.  Before each call the modifier is
seeded with a new seed of the network: no two calls share one, neither in this nor in later passes. -/
theorem C62_apply_weights (sys : Sys M Val Seed G) (inst : Installed) (ho : inst.Own) (s : Net M Val G) :
    (∃ (pos : Name → Name → List Nat) (total : Nat),
      (∀ l v, (pos l v).Nodup ∧ (pos l v).length = (inst.at l v).length ∧ ∀ n ∈ pos l v, n < total) ∧
      (∀ l v l' v' n, n ∈ pos l v → n ∈ pos l' v' → l = l' ∧ v = v') ∧
      (∀ n, sys.seedNo (applyWeights sys inst s).rnd n = sys.seedNo s.rnd (total + n)) ∧
      ∀ l v, ((inst.at l v).map (fun a => ((applyWeights sys inst s).heap.obj a).data), (applyWeights sys inst s).view l v) =
        inTurn sys.value ((inst.at l v).map (fun a => (s.heap.obj a).data)) ((pos l v).map (sys.seedNo s.rnd)) (s.view l v)) ∧
    (∀ l v, inst.at l v = [] → (applyWeights sys inst s).view l v = s.view l v) ∧
    ∀ a, (∀ l v, a ∉ inst.at l v) → (applyWeights sys inst s).heap.obj a = s.heap.obj a := by
  obtain ⟨h1, h2⟩ := applyAll_spec sys (fun _ _ => sys.value) inst ho s
  refine ⟨h1, fun l v hnil => ?_, fun a ha => h2 a fun hm => ?_⟩
  · obtain ⟨pos, total, _, _, _, h⟩ := h1
    have := congrArg Prod.snd (h l v)
    rw [hnil] at this
    simp only [List.map_nil, inTurn] at this
    exact this
  · rw [addrs2, List.mem_flatMap] at hm
    obtain ⟨⟨l', vs⟩, hp, hm⟩ := hm
    rw [addrs1, List.mem_flatMap] at hm
    obtain ⟨⟨v', as⟩, hq, hm⟩ := hm
    refine ha l' v' ?_
    rw [Installed.at, Dict.get?_of_mem ho.1.1 hp, Option.getD_some, Dict.get?_of_mem (ho.1.2 _ hp) hq, Option.getD_some]
    exact hm

/-- **C62**: the same for `apply_gradient_modifiers`; gradient modifiers also see the parameter. -/
theorem C62_apply_gradients (sys : Sys M Val Seed G) (inst : Installed) (ho : inst.Own) (params : Name → Name → Val)
    (s : Net M Val G) :
    (∃ (pos : Name → Name → List Nat) (total : Nat),
      (∀ l v, (pos l v).Nodup ∧ (pos l v).length = (inst.at l v).length ∧ ∀ n ∈ pos l v, n < total) ∧
      (∀ l v l' v' n, n ∈ pos l v → n ∈ pos l' v' → l = l' ∧ v = v') ∧
      (∀ n, sys.seedNo (applyGradients sys inst params s).rnd n = sys.seedNo s.rnd (total + n)) ∧
      ∀ l v, ((inst.at l v).map (fun a => ((applyGradients sys inst params s).heap.obj a).data),
          (applyGradients sys inst params s).view l v) =
        inTurn (fun m seed g => if sys.isGradient m then sys.gradient m seed (params l v) g else sys.value m seed g)
          ((inst.at l v).map (fun a => (s.heap.obj a).data)) ((pos l v).map (sys.seedNo s.rnd)) (s.view l v)) ∧
    (∀ l v, inst.at l v = [] → (applyGradients sys inst params s).view l v = s.view l v) := by
  obtain ⟨h1, _⟩ := applyAll_spec sys (gradCall sys params) inst ho s
  refine ⟨h1, fun l v hnil => ?_⟩
  obtain ⟨pos, total, _, _, _, h⟩ := h1
  have := congrArg Prod.snd (h l v)
  rw [hnil] at this
  simp only [List.map_nil, inTurn] at this
  exact this

/-! ### Freezing everything -/

/-- Rounds of training: all weights are overwritten with anything, then the modifiers are applied. -/
def rounds (sys : Sys M Val Seed G) (inst : Installed) : Net M Val G → List (Name → Name → Val) → Net M Val G
  | s, [] => s
  | s, w :: ws => rounds sys inst (applyWeights sys inst { s with view := w }) ws

/-- **C62**: one `FreezeValues` object given for all weights freezes each weight at its own value. -/
theorem C62_freeze {T ι : Type} [DecidableEq T] (t : T) (isGrad : FreezeState T ι → Bool)
    (grad : FreezeState T ι → Seed → (ι → ℝ) → (ι → ℝ) → FreezeState T ι × (ι → ℝ)) (gen : G → Seed × G)
    (inst : Installed) (ho : inst.Own) (s : Net (FreezeState T ι) (ι → ℝ) G) (l v : Name) (hne : inst.at l v ≠ [])
    (hnew : ∀ a ∈ inst.at l v, (s.heap.obj a).data = ⟨none, none⟩) (ws : List (Name → Name → ι → ℝ)) :
    let sys : Sys (FreezeState T ι) (ι → ℝ) Seed G := ⟨isGrad, fun m _ x => m.call t x, grad, gen⟩
    (rounds sys inst (applyWeights sys inst s) ws).view l v = s.view l v := by
  intro sys
  have key : ∀ (c : ι → ℝ) (ms : List (FreezeState T ι)) (ss : List Seed) (x : ι → ℝ), ss.length = ms.length →
      (∀ m ∈ ms, m = ⟨some c, some ⟨t, c⟩⟩ ∨ (m = ⟨none, none⟩ ∧ x = c)) → (ms ≠ [] ∨ x = c) →
      (∀ m ∈ (inTurn sys.value ms ss x).1, m = ⟨some c, some ⟨t, c⟩⟩) ∧ (inTurn sys.value ms ss x).2 = c := by
    intro c ms
    induction ms with
    | nil =>
      intro ss x _ _ hx
      cases ss <;> exact ⟨by simp [inTurn], hx.resolve_left (by simp)⟩
    | cons m ms ih =>
      intro ss x hlen hm _
      cases ss with
      | nil => simp at hlen
      | cons sd ss =>
        simp only [inTurn]
        have hc : sys.value m sd x = (⟨some c, some ⟨t, c⟩⟩, c) := by
          rcases hm m List.mem_cons_self with rfl | ⟨rfl, rfl⟩
          · simp [sys, FreezeState.call, cached]
          · simp [sys, FreezeState.call, cached]
        rw [hc]
        obtain ⟨i1, i2⟩ := ih ss c (by simpa using hlen) (fun m' h' => by
          rcases hm m' (List.mem_cons_of_mem _ h') with h | ⟨h, _⟩
          · exact .inl h
          · exact .inr ⟨h, rfl⟩) (.inr rfl)
        refine ⟨?_, i2⟩
        intro m' h'
        rcases List.mem_cons.1 h' with rfl | h'
        · rfl
        · exact i1 m' h'
  have step : ∀ (s₁ : Net (FreezeState T ι) (ι → ℝ) G),
      (∀ a ∈ inst.at l v, (s₁.heap.obj a).data = ⟨some (s.view l v), some ⟨t, s.view l v⟩⟩ ∨
        ((s₁.heap.obj a).data = ⟨none, none⟩ ∧ s₁.view l v = s.view l v)) →
      (∀ a ∈ inst.at l v, ((applyWeights sys inst s₁).heap.obj a).data = ⟨some (s.view l v), some ⟨t, s.view l v⟩⟩) ∧
      (applyWeights sys inst s₁).view l v = s.view l v := by
    intro s₁ h₁
    obtain ⟨⟨pos, total, hpos, -, -, h⟩, _⟩ := C62_apply_weights sys inst ho s₁
    have hlen := (hpos l v).2.1
    have h := h l v
    obtain ⟨k1, k2⟩ := key (s.view l v) ((inst.at l v).map (fun a => (s₁.heap.obj a).data)) ((pos l v).map (sys.seedNo s₁.rnd))
      (s₁.view l v) (by simpa using hlen) (by
      intro m hm
      obtain ⟨a, ha, rfl⟩ := List.mem_map.1 hm
      exact h₁ a ha) (.inl (by simpa using hne))
    rw [← h] at k1 k2
    exact ⟨fun a ha => k1 _ (List.mem_map.2 ⟨a, ha, rfl⟩), k2⟩
  have loop : ∀ (ws : List (Name → Name → ι → ℝ)) (s₁ : Net (FreezeState T ι) (ι → ℝ) G),
      (∀ a ∈ inst.at l v, (s₁.heap.obj a).data = ⟨some (s.view l v), some ⟨t, s.view l v⟩⟩) →
      s₁.view l v = s.view l v → (rounds sys inst s₁ ws).view l v = s.view l v := by
    intro ws
    induction ws with
    | nil => intro s₁ _ h; exact h
    | cons w ws ih =>
      intro s₁ h₁ _
      obtain ⟨k1, k2⟩ := step { s₁ with view := w } fun a ha => .inl (h₁ a ha)
      exact ih _ k1 k2
  obtain ⟨k1, k2⟩ := step s fun a ha => .inr ⟨hnew a ha, rfl⟩
  exact loop ws _ k1 k2

/-! ### A concrete case -/

/-- Two layers; the default is one object, `Fc.W` has a list of two. -/
def demoMods : Ref Entry := .dict [(str "default", .val (.one 0)), (str "Fc", .dict [(str "W", .val (.many [1, 0]))])]

/-- Two objects with data 10 and 11. -/
def demoHeap : Heap Nat := ⟨2, fun i => ⟨10 + i, [], []⟩⟩

example : ((setModifiers id demoParams demoMods demoHeap).toOption.map (fun r => r.2)) =
    some [(str "Rnn", [(str "bias", [2]), (str "W", [3])]), (str "Fc", [(str "W", [4, 5])])] := by decide +kernel

example : ((setModifiers id demoParams demoMods demoHeap).toOption.map (fun r => (List.range r.1.next).map (fun a =>
      ((r.1.obj a).data, (r.1.obj a).layerName ++ (r.1.obj a).viewName)))) =
    some [(10, []), (11, []), (10, str "Rnnbias"), (10, str "RnnW"), (11, str "FcW"), (10, str "FcW")] := by decide +kernel

/-- A fallback is rejected. -/
example : (match setModifiers id demoParams (.dict [(str "default", .val (.one 0)), (str "fallback", .val (.one 1))]) demoHeap with
    | .error e => some e
    | .ok _ => none) = some .fallback := by decide +kernel

end Verif.Modifiers
