import Verif.Access.Props
import Verif.Layout.ParamProps

/-!
# C70 for networks, and what goes wrong with other names
-/

namespace Verif.Access

open Verif.Paths Verif.Layout

variable {A E : Type}

/-! ### Layouts of networks -/

theorem find_ofList : ∀ (L : List (Name × LTree E)) (n : Name), (LForest.ofList L).find n = Dict.get? L n
  | [], n => rfl
  | (m, t) :: L, n => by rw [LForest.ofList, LForest.find, Dict.get?_cons, find_ofList L n]

theorem names_ofList : ∀ (L : List (Name × LTree E)), (LForest.ofList L).names = L.map Prod.fst
  | [] => rfl
  | (m, t) :: L => by rw [LForest.ofList, LForest.names, names_ofList L]; rfl

theorem free_ofList : ∀ (L : List (Name × LTree E)), (∀ e ∈ L, e.1 ∉ reserved ∧ '.' ∉ e.1 ∧ e.2.Free) → (LForest.ofList L).Free
  | [], _ => trivial
  | (m, t) :: L, h => by
    obtain ⟨h1, h2, h3⟩ := h (m, t) (by simp)
    exact ⟨h1, h2, h3, free_ofList L (fun e he => h e (List.mem_cons_of_mem _ he))⟩

/-- The names of layers and buffers can be used: they are not reserved, and names of buffers have no dot. -/
def UsableNames (layers : List LayerInfo) : Prop :=
  ∀ l ∈ layers, l.name ∉ reserved ∧ ∀ c ∈ layerCats l, ∀ e ∈ c.2.2, e.1 ∉ reserved ∧ '.' ∉ e.1

/-- The layout of a network without layers that hide the root arrays. -/
theorem netTree_eq {layers : List LayerInfo} (hroot : NoRootNames layers) :
    netTree layers = .view none (.ofList ((str "parameters", LTree.array (str "parameters")) ::
      (str "gradients", LTree.array (str "gradients")) :: layers.map (fun l => (l.name, .view none (layerTree l))))) := by
  have h1 : str "parameters" ∉ layers.map LayerInfo.name := by
    intro h
    obtain ⟨l, hl, e⟩ := List.mem_map.1 h
    exact (hroot l hl).1 e
  have h2 : str "gradients" ∉ layers.map LayerInfo.name := by
    intro h
    obtain ⟨l, hl, e⟩ := List.mem_map.1 h
    exact (hroot l hl).2 e
  unfold netTree
  rw [List.filter_cons_of_pos (by simpa using h1), List.filter_cons_of_pos (by simpa using h2), List.filter_nil]
  simp only [List.map_cons, List.map_nil, List.cons_append, List.nil_append]
  congr 4
  apply List.map_congr_left
  intro l hl
  rw [if_neg (fun h => h.elim (hroot l hl).1 (hroot l hl).2)]

theorem cats_free (l : LayerInfo) : ((layerCats l).map Prod.fst).Nodup ∧ ∀ c ∈ layerCats l, c.1 ∉ reserved ∧ '.' ∉ c.1 := by
  refine ⟨by simp only [layerCats, List.map_cons, List.map_nil]; decide, ?_⟩
  intro c hc
  have : c.1 ∈ (layerCats l).map Prod.fst := List.mem_map.2 ⟨c, hc, rfl⟩
  simp only [layerCats, List.map_cons, List.map_nil] at this
  exact (by decide : ∀ x ∈ [str "inputs", str "outputs", str "parameters", str "internals", str "input_deltas", str "output_deltas",
    str "gradients"], x ∉ reserved ∧ '.' ∉ x) _ this

theorem netTree_free {layers : List LayerInfo} (hw : WellFormedLayers layers) (hroot : NoRootNames layers) (hu : UsableNames layers) :
    (netTree layers).Free := by
  rw [netTree_eq hroot]
  refine ⟨?_, free_ofList _ ?_⟩
  · rw [names_ofList, List.map_cons, List.map_cons, List.map_map, List.nodup_cons, List.nodup_cons, List.mem_cons]
    have e : (Prod.fst ∘ fun l : LayerInfo => (l.name, LTree.view none (layerTree l))) = LayerInfo.name := rfl
    rw [e]
    refine ⟨fun h => ?_, fun h => ?_, hw.names⟩
    · rcases h with h | h
      · exact absurd h (by decide)
      · obtain ⟨l, hl, e⟩ := List.mem_map.1 h
        exact (hroot l hl).1 e
    · obtain ⟨l, hl, e⟩ := List.mem_map.1 h
      exact (hroot l hl).2 e
  · intro e he
    simp only [List.mem_cons, List.mem_map] at he
    rcases he with rfl | rfl | ⟨l, hl, rfl⟩
    · exact ⟨by decide, by decide, trivial⟩
    · exact ⟨by decide, by decide, trivial⟩
    · refine ⟨(hu l hl).1, hw.noDot l hl, ?_, free_ofList _ ?_⟩
      · rw [layerTree, names_ofList, List.map_map]
        exact (cats_free l).1
      · intro e he
        obtain ⟨c, hc, rfl⟩ := List.mem_map.1 he
        refine ⟨((cats_free l).2 c hc).1, ((cats_free l).2 c hc).2, ?_, free_ofList _ ?_⟩
        · rw [names_ofList, List.map_map]
          exact cat_shapes_nodup hw hl hc
        · intro e he
          obtain ⟨x, hx, rfl⟩ := List.mem_map.1 he
          exact ⟨((hu l hl).2 c hc x hx).1, ((hu l hl).2 c hc x hx).2, trivial⟩

theorem at_nil (t : LTree E) : t.at [] = some t := by cases t <;> rfl

/-- The paths of the arrays of a network. -/
def allPaths (layers : List LayerInfo) : List Name :=
  str "parameters" :: str "gradients" :: (networkArrays layers).map Prod.fst

theorem get_map_names {X Y : Type} (key : X → Name) (g : X → Y) : ∀ (l : List X) (n : Name) (y : Y),
    Dict.get? (l.map (fun x => (key x, g x))) n = some y → ∃ x ∈ l, key x = n ∧ g x = y := by
  intro l n y h
  obtain ⟨x, hx, e⟩ := List.mem_map.1 (Dict.mem_of_get? h)
  cases e
  exact ⟨x, hx, rfl, rfl⟩

theorem arrayAt_netTree {layers : List LayerInfo} (hw : WellFormedLayers layers) (hroot : NoRootNames layers) (hu : UsableNames layers)
    (mk : Name → A) (q : Name) : arrayAt mk (netTree layers) q = if q ∈ allPaths layers then some (mk q) else none := by
  have hf := netTree_free hw hroot hu
  rw [netTree_eq hroot] at hf
  rw [arrayAt, netTree_eq hroot]
  set L := (str "parameters", LTree.array (str "parameters")) :: (str "gradients", LTree.array (str "gradients")) ::
    layers.map (fun l => (l.name, LTree.view none (layerTree l))) with hL
  have hkeys : (Dict.keys L).Nodup := by
    have := hf.1
    rw [names_ofList] at this
    exact this
  by_cases hq : q ∈ allPaths layers
  · rw [if_pos hq]
    simp only [allPaths, List.mem_cons, mem_networkArrays] at hq
    rcases hq with rfl | rfl | ⟨l, hl, c, hc, b, hb, rfl⟩
    · rw [splitDot_plain _ (by decide), LTree.at, find_ofList, Dict.get?_of_mem hkeys (List.mem_cons_self ..)]; rfl
    · rw [splitDot_plain _ (by decide), LTree.at, find_ofList,
        Dict.get?_of_mem hkeys (List.mem_cons_of_mem _ (List.mem_cons_self ..))]; rfl
    · obtain ⟨e, he, rfl⟩ := List.mem_map.1 hb
      have hs : splitDot (path l.name c.1 e.1) = [l.name, c.1, e.1] := by
        rw [path, splitDot_append _ _ (hw.noDot l hl), splitDot_append _ _ ((cats_free l).2 c hc).2,
          splitDot_plain _ ((hu l hl).2 c hc e he).2]
      have h1 : Dict.get? L l.name = some (.view none (layerTree l)) :=
        Dict.get?_of_mem hkeys (List.mem_cons_of_mem _ (List.mem_cons_of_mem _ (List.mem_map.2 ⟨l, hl, rfl⟩)))
      have h2 : (layerTree l).find c.1 = some (.view none (.ofList (c.2.2.map (fun e => (e.1, .array (path l.name c.1 e.1)))))) := by
        rw [layerTree, find_ofList]
        refine Dict.get?_of_mem ?_ (List.mem_map.2 ⟨c, hc, rfl⟩)
        show (List.map Prod.fst (List.map _ _)).Nodup
        rw [List.map_map]
        exact (cats_free l).1
      have h3 : (LForest.ofList (c.2.2.map (fun e => (e.1, LTree.array (path l.name c.1 e.1))))).find e.1 =
          some (.array (path l.name c.1 e.1)) := by
        rw [find_ofList]
        refine Dict.get?_of_mem ?_ (List.mem_map.2 ⟨e, he, rfl⟩)
        show (List.map Prod.fst (List.map _ _)).Nodup
        rw [List.map_map]
        exact cat_shapes_nodup hw hl hc
      simp only [hs, LTree.at, find_ofList, h1, h2]
      rw [find_ofList] at h3
      simp only [h3]
  · rw [if_neg hq]
    cases hat : (LTree.view none (LForest.ofList L)).at (splitDot q) with
    | none => rfl
    | some t =>
      cases t with
      | view full ls => rfl
      | array e =>
        exfalso
        apply hq
        have hjoin := joinDot_split q
        cases hs : splitDot q with
        | nil => exact absurd hs (splitDot_ne_nil q)
        | cons n ns =>
          rw [hs] at hat hjoin
          rw [LTree.at, find_ofList] at hat
          cases hg : Dict.get? L n with
          | none => simp [hg] at hat
          | some t =>
            rw [hg] at hat
            have hm := Dict.mem_of_get? hg
            rw [hL] at hm
            simp only [List.mem_cons, List.mem_map, Prod.mk.injEq] at hm
            rcases hm with ⟨rfl, rfl⟩ | ⟨rfl, rfl⟩ | ⟨l, hl, rfl, rfl⟩
            · cases ns with
              | nil => exact hjoin ▸ (by simp [allPaths, joinDot])
              | cons m ms => simp [LTree.at] at hat
            · cases ns with
              | nil => exact hjoin ▸ (by simp [allPaths, joinDot])
              | cons m ms => simp [LTree.at] at hat
            · cases ns with
              | nil => simp [LTree.at] at hat
              | cons m ms =>
                simp only [LTree.at, layerTree, find_ofList] at hat
                cases hg2 : Dict.get? ((layerCats l).map (fun c => (c.1, LTree.view (E := Name) none
                    (.ofList (c.2.2.map (fun e => (e.1, .array (path l.name c.1 e.1)))))))) m with
                | none => simp [hg2] at hat
                | some t2 =>
                  rw [hg2] at hat
                  obtain ⟨c, hc, rfl, rfl⟩ := get_map_names _ _ _ _ _ hg2
                  cases ms with
                  | nil => simp [LTree.at] at hat
                  | cons k ks =>
                    simp only [LTree.at, find_ofList] at hat
                    cases hg3 : Dict.get? (c.2.2.map (fun e => (e.1, LTree.array (E := Name) (path l.name c.1 e.1)))) k with
                    | none => simp [hg3] at hat
                    | some t3 =>
                      rw [hg3] at hat
                      obtain ⟨x, hx, rfl, rfl⟩ := get_map_names _ _ _ _ _ hg3
                      cases ks with
                      | cons _ _ => simp [LTree.at] at hat
                      | nil =>
                        simp only [allPaths, List.mem_cons, mem_networkArrays]
                        refine .inr (.inr ⟨l, hl, c, hc, x.1, List.mem_map.2 ⟨x, hx, rfl⟩, ?_⟩)
                        rw [← hjoin]; rfl

/-- **C70 (networks).** The views of every network whose layers and buffers have usable names can be created and resized any
number of times.  Then `net.get('Layer.category.buffer')` gives the array of that buffer for the current sizes, as do
`net.get('parameters')` and `net.get('gradients')`; every other string raises an exception. -/
theorem C70_network (layers : List LayerInfo) (hw : WellFormedLayers layers) (hroot : NoRootNames layers) (hu : UsableNames layers)
    (mk : Name → A) (h : Heap A) (mks : List (Name → A)) :
    ∃ s s' root, mkNet mk h (netTree layers) = some (s, root) ∧ resizes (netTree layers) mks (s, root) = some (s', root) ∧
      ∀ q, netGet s' root q = if q = str "parameters" ∨ q = str "gradients" ∨
          (∃ l ∈ layers, ∃ c ∈ layerCats l, ∃ e ∈ c.2.2, q = path l.name c.1 e.1) then some ((mks.getLast?.getD mk) q) else none := by
  have hf := netTree_free hw hroot hu
  have he : (netTree layers).at [str "parameters"] = some (.array (str "parameters")) := by
    rw [netTree_eq hroot, LTree.at, find_ofList, Dict.get?_cons, if_pos rfl]
    rfl
  obtain ⟨s, s', root, h1, h2, h3, -⟩ := C70_access (netTree layers) hf _ he mk h mks
  refine ⟨s, s', root, h1, h2, fun q => ?_⟩
  rw [h3 q, arrayAt_netTree hw hroot hu]
  congr 1
  simp only [allPaths, List.mem_cons, mem_networkArrays, eq_iff_iff]
  constructor
  · rintro (h | h | ⟨l, hl, c, hc, b, hb, rfl⟩)
    · exact .inl h
    · exact .inr (.inl h)
    · obtain ⟨e, he, rfl⟩ := List.mem_map.1 hb
      exact .inr (.inr ⟨l, hl, c, hc, e, he, rfl⟩)
  · rintro (h | h | ⟨l, hl, c, hc, e, he, rfl⟩)
    · exact .inl h
    · exact .inr (.inl h)
    · exact .inr (.inr ⟨l, hl, c, hc, e.1, List.mem_map.2 ⟨e, he, rfl⟩, rfl⟩)

/-! ### Other names -/

theorem has_set (d : Dict Name (Val A)) (k n : Name) (v : Val A) (h : Dict.has d n = true) : Dict.has (Dict.set d k v) n = true := by
  rw [Dict.has, Dict.get?_set]
  by_cases e : k = n
  · rw [if_pos e]; rfl
  · rw [if_neg e]; exact h

theorem has_setAll : ∀ (ps : List (Name × Val A)) (d : Dict Name (Val A)) (n : Name),
    Dict.has d n = true ∨ n ∈ ps.map Prod.fst → Dict.has (setAll d ps) n = true
  | [], d, n, h => h.resolve_right (by simp)
  | (m, b) :: ps, d, n, h => by
    rw [setAll]
    apply has_setAll ps
    rw [List.map_cons, List.mem_cons] at h
    rcases h with h | rfl | h
    · exact .inl (has_set _ _ _ _ h)
    · exact .inl (by rw [Dict.has, Dict.get?_set_self]; rfl)
    · exact .inr h

/-- Attributes are never removed. -/
def Grows (h h' : Heap A) : Prop :=
  ∀ (p : Nat) (o : Obj A) (n : Name), h[p]? = some o → Dict.has o.attrs n = true → ∃ o', h'[p]? = some o' ∧ Dict.has o'.attrs n = true

theorem Grows.refl (h : Heap A) : Grows h h := fun _ o _ h1 h2 => ⟨o, h1, h2⟩

theorem Grows.trans {h h' h'' : Heap A} (a : Grows h h') (b : Grows h' h'') : Grows h h'' := fun p o n h1 h2 => by
  obtain ⟨o', h3, h4⟩ := a p o n h1 h2
  exact b p o' n h3 h4

theorem adjustLoop_grows : ∀ (ps : List (Name × Val A)) (i : Nat) (o o' : Obj A), adjustLoop i ps o = some o' →
    ∀ n, Dict.has o.attrs n = true → Dict.has o'.attrs n = true
  | [], i, o, o', h, n, hn => by rw [adjustLoop] at h; cases h; exact hn
  | (m, b) :: ps, i, o, o', h, n, hn => by
    rw [adjustLoop] at h
    by_cases hi : i < o.items.length
    · rw [if_pos hi] at h
      exact adjustLoop_grows ps _ _ _ h n (has_set _ _ _ _ hn)
    · rw [if_neg hi] at h; cases h

theorem adjust_grows {h h' : Heap A} {p : Nat} {ns : List Name} {vs : List (Val A)} {full : Val A} (ha : adjust h p ns vs full = some h') :
    Grows h h' := by
  rw [adjust] at ha
  cases hp : h[p]? with
  | none => simp [hp] at ha
  | some o =>
    rw [hp] at ha
    dsimp only at ha
    by_cases h1 : Dict.has o.attrs (str "adjust") = true
    · rw [if_pos h1] at ha; cases ha
    · rw [if_neg h1] at ha
      cases h2 : Dict.get? o.attrs namesName with
      | none => simp [h2] at ha
      | some v =>
        rw [h2] at ha
        cases v with
        | names ms =>
          dsimp only at ha
          by_cases h3 : ms = ns
          · rw [if_pos h3, Option.map_eq_some_iff] at ha
            obtain ⟨o', h4, rfl⟩ := ha
            intro q x n hq hx
            by_cases e : p = q
            · subst e
              rw [hp] at hq
              cases hq
              exact ⟨o', List.getElem?_set_self (List.getElem?_eq_some_iff.1 hp).1, adjustLoop_grows _ _ _ _ h4 n (has_set _ _ _ _ hx)⟩
            · exact ⟨x, by rw [List.getElem?_set_ne e]; exact hq, hx⟩
          · rw [if_neg h3] at ha; cases ha
        | arr a => cases ha
        | ref q => cases ha
        | none => cases ha

theorem append_grows (h ext : Heap A) : Grows h (h ++ ext) := fun p o n h1 h2 =>
  ⟨o, by rw [List.getElem?_append_left (List.getElem?_eq_some_iff.1 h1).1]; exact h1, h2⟩

mutual
theorem create_grows (mk : E → A) : ∀ (t : LTree E) (h : Heap A) (ex : Option (Val A)) (h' : Heap A) (v : Val A),
    create mk h t ex = some (h', v) → Grows h h'
  | .array e, h, ex, h', v, hc => by rw [create] at hc; cases hc; exact Grows.refl h
  | .view full ls, h, ex, h', v, hc => by
    rw [create] at hc
    cases h1 : existing h ex with
    | none => simp [h1] at hc
    | some q =>
      rw [h1] at hc
      cases q with
      | none =>
        dsimp only at hc
        cases h2 : createAll mk h ls none with
        | none => simp [h2] at hc
        | some r =>
          obtain ⟨h2', vs⟩ := r
          rw [h2] at hc
          dsimp only at hc
          cases h3 : mkView ls.names vs ((full.map (fun e => Val.arr (mk e))).getD .none) with
          | none => rw [h3] at hc; cases hc
          | some o =>
            rw [h3] at hc
            dsimp only at hc
            cases hc
            exact (createAll_grows mk ls h none h2' vs h2).trans (append_grows _ _)
      | some p =>
        dsimp only at hc
        cases h2 : createAll mk h ls (some p) with
        | none => simp [h2] at hc
        | some r =>
          obtain ⟨h2', vs⟩ := r
          rw [h2] at hc
          dsimp only at hc
          cases h3 : adjust h2' p ls.names vs ((full.map (fun e => Val.arr (mk e))).getD .none) with
          | none => rw [h3] at hc; cases hc
          | some h'' =>
            rw [h3] at hc
            dsimp only at hc
            cases hc
            exact (createAll_grows mk ls h (some p) h2' vs h2).trans (adjust_grows h3)
theorem createAll_grows (mk : E → A) : ∀ (ls : LForest E) (h : Heap A) (ex : Option Nat) (h' : Heap A) (vs : List (Val A)),
    createAll mk h ls ex = some (h', vs) → Grows h h'
  | .nil, h, ex, h', vs, hc => by rw [createAll] at hc; cases hc; exact Grows.refl h
  | .cons n t rest, h, none, h', vs, hc => by
    rw [createAll] at hc
    cases h1 : create mk h t none with
    | none => simp [h1] at hc
    | some r =>
      obtain ⟨h1', v⟩ := r
      rw [h1] at hc
      dsimp only at hc
      cases h2 : createAll mk h1' rest none with
      | none => simp [h2] at hc
      | some r2 =>
        obtain ⟨h2', ws⟩ := r2
        rw [h2] at hc
        dsimp only at hc
        cases hc
        exact (create_grows mk t h none h1' v h1).trans (createAll_grows mk rest h1' none _ ws h2)
  | .cons n t rest, h, some p, h', vs, hc => by
    rw [createAll] at hc
    cases h0 : (h[p]?).bind (fun o => contains h o n) with
    | none => simp [h0] at hc
    | some b =>
      rw [h0] at hc
      cases b with
      | false => cases hc
      | true =>
        dsimp only at hc
        cases hg : getItem h (.ref p) n with
        | none => simp [hg] at hc
        | some x =>
          rw [hg] at hc
          dsimp only at hc
          cases h1 : create mk h t (some x) with
          | none => simp [h1] at hc
          | some r =>
            obtain ⟨h1', v⟩ := r
            rw [h1] at hc
            dsimp only at hc
            cases h2 : createAll mk h1' rest (some p) with
            | none => simp [h2] at hc
            | some r2 =>
              obtain ⟨h2', ws⟩ := r2
              rw [h2] at hc
              dsimp only at hc
              cases hc
              exact (create_grows mk t h (some x) h1' v h1).trans (createAll_grows mk rest h1' (some p) _ ws h2)
end

/-- A new view has an attribute for each child. -/
theorem create_attrs {mk : E → A} {h h' : Heap A} {full : Option E} {ls : LForest E} {v : Val A}
    (hc : create mk h (.view full ls) none = some (h', v)) :
    ∃ p o, v = .ref p ∧ h'[p]? = some o ∧ o.items.length = ls.names.length ∧ ∀ n ∈ ls.names, Dict.has o.attrs n = true := by
  rw [create, existing] at hc
  dsimp only at hc
  cases h2 : createAll mk h ls none with
  | none => simp [h2] at hc
  | some r =>
    obtain ⟨h2', vs⟩ := r
    rw [h2] at hc
    dsimp only at hc
    cases h3 : mkView ls.names vs ((full.map (fun e => Val.arr (mk e))).getD .none) with
    | none => rw [h3] at hc; cases hc
    | some o =>
      rw [h3] at hc
      dsimp only at hc
      cases hc
      rw [mkView] at h3
      by_cases hl : vs.length = ls.names.length
      · rw [if_pos hl] at h3
        cases h3
        refine ⟨_, _, rfl, by rw [List.getElem?_append_right (Nat.le_refl _), Nat.sub_self]; rfl, hl,
          fun n hn => has_setAll _ _ _ (.inr ?_)⟩
        rw [List.map_fst_zip (by omega)]
        exact hn
      · rw [if_neg hl] at h3; cases h3

/-- What `mkNet` leaves. -/
theorem mkNet_attrs {mk : E → A} {h s : Heap A} {full : Option E} {ls : LForest E} {root : Val A}
    (hn : mkNet mk h (.view full ls) = some (s, root)) :
    ∃ p o, root = .ref p ∧ s[p]? = some o ∧ o.items.length = ls.names.length ∧ ∀ n ∈ ls.names, Dict.has o.attrs n = true := by
  rw [mkNet] at hn
  cases h1 : create mk h (.view full ls) none with
  | none => simp [h1] at hn
  | some r =>
    obtain ⟨h1', root1⟩ := r
    rw [h1] at hn
    dsimp only at hn
    cases h2 : parametersArray h1' root1 with
    | none => simp [h2] at hn
    | some a =>
      rw [h2] at hn
      dsimp only at hn
      cases h3 : create mk h1' (.view full ls) none with
      | none => simp [h3] at hn
      | some r =>
        obtain ⟨h3', root3⟩ := r
        rw [h3] at hn
        dsimp only at hn
        cases h4 : parametersArray h3' root3 with
        | none => simp [h4] at hn
        | some a =>
          rw [h4] at hn
          cases hn
          exact create_attrs h3

/-- **C70 (a layer called 'adjust').** A network with such a layer can be created, but it can never get data: the first change of
the sizes fails, because the layer hides the method. -/
theorem C70_adjust_hidden (mk mk' : E → A) (h s : Heap A) (full : Option E) (ls : LForest E) (root : Val A)
    (hn : mkNet mk h (.view full ls) = some (s, root)) (ha : str "adjust" ∈ ls.names) : resize mk' s (.view full ls) root = none := by
  obtain ⟨p, o, rfl, h1, h2, h3⟩ := mkNet_attrs hn
  rw [resize]
  cases hp : parametersArray s (.ref p) with
  | none => rfl
  | some a =>
    dsimp only
    have hne : o.items ≠ [] := by
      intro hc
      rw [hc] at h2
      have := List.length_eq_zero_iff.1 h2.symm
      rw [this] at ha
      simp at ha
    have hcr : create mk' s (.view full ls) (some (.ref p)) = none := by
      rw [create, existing, h1]
      dsimp only
      rw [if_neg hne]
      dsimp only
      cases hc : createAll mk' s ls (some p) with
      | none => rfl
      | some r =>
        obtain ⟨s', vs⟩ := r
        dsimp only
        obtain ⟨o', h4, h5⟩ := createAll_grows mk' ls s (some p) s' vs hc p o _ h1 (h3 _ ha)
        have : adjust s' p ls.names vs ((full.map (fun e => Val.arr (mk' e))).getD .none) = none := by
          rw [adjust, h4]
          dsimp only
          rw [if_pos h5]
        rw [this]
    rw [hcr]

/-- **C70 (a layer called 'items').** In a network with such a layer the views cannot be listed, which `initialize` and setting
modifiers ask for: at no time, whatever the sizes. -/
theorem C70_items_hidden (mk : E → A) (h s : Heap A) (full : Option E) (ls : LForest E) (root : Val A)
    (hn : mkNet mk h (.view full ls) = some (s, root)) (ha : str "items" ∈ ls.names) : items s root = none := by
  obtain ⟨p, o, rfl, h1, -, h3⟩ := mkNet_attrs hn
  rw [items, h1]
  dsimp only
  rw [h3 _ ha, Bool.true_or, if_pos rfl]

/-- A new view is an object. -/
theorem createAll_ref (mk : E → A) : ∀ (ls : LForest E) (h h' : Heap A) (vs : List (Val A)), createAll mk h ls none = some (h', vs) →
    ∀ (i : Nat) (n : Name) (full : Option E) (cs : LForest E), ls.names[i]? = some n → ls.names.Nodup → ls.find n = some (.view full cs) →
    ∃ p, vs[i]? = some (.ref p)
  | .nil, h, h', vs, hc, i, n, full, cs, hi, _, _ => by simp [LForest.names] at hi
  | .cons m t rest, h, h', vs, hc, i, n, full, cs, hi, hnd, hf => by
    rw [createAll] at hc
    cases h1 : create mk h t none with
    | none => simp [h1] at hc
    | some r =>
      obtain ⟨h1', v⟩ := r
      rw [h1] at hc
      dsimp only at hc
      cases h2 : createAll mk h1' rest none with
      | none => simp [h2] at hc
      | some r2 =>
        obtain ⟨h2', ws⟩ := r2
        rw [h2] at hc
        dsimp only at hc
        cases hc
        rw [LForest.names, List.nodup_cons] at hnd
        cases i with
        | zero =>
          rw [LForest.names] at hi
          cases hi
          rw [LForest.find, if_pos rfl] at hf
          cases hf
          obtain ⟨p, -, rfl, -⟩ := create_attrs h1
          exact ⟨p, rfl⟩
        | succ i =>
          rw [LForest.names] at hi
          have hi' : rest.names[i]? = some n := hi
          have hne : m ≠ n := fun e => hnd.1 (e ▸ (List.mem_of_getElem? hi'))
          rw [LForest.find, if_neg hne] at hf
          exact createAll_ref mk rest h1' _ ws h2 i n full cs hi' hnd.2 hf

/-- **C70 (a layer called 'parameters').** A network with such a layer cannot be created: the layer takes the place of the array
of all parameters. -/
theorem C70_parameters_hidden (mk : Name → A) (h : Heap A) (layers : List LayerInfo) (hnd : (layers.map LayerInfo.name).Nodup)
    (l : LayerInfo) (hl : l ∈ layers) (hp : l.name = str "parameters") : mkNet mk h (netTree layers) = none := by
  rw [mkNet]
  cases h1 : create mk h (netTree layers) none with
  | none => rfl
  | some r =>
    obtain ⟨h1', root⟩ := r
    dsimp only
    have : parametersArray h1' root = none := by
      unfold netTree at h1
      set L := (([str "parameters", str "gradients"].filter (fun n => decide (n ∉ layers.map LayerInfo.name))).map
        (fun n => (n, LTree.array (E := Name) n))) ++ layers.map (fun l => (l.name,
          LTree.view (if l.name = str "parameters" ∨ l.name = str "gradients" then some l.name else none) (layerTree l))) with hL
      have hkeys : (L.map Prod.fst).Nodup := by
        rw [hL, List.map_append, List.map_map, List.map_map]
        refine List.Nodup.append ?_ hnd ?_
        · rw [show (Prod.fst ∘ fun n : Name => (n, LTree.array (E := Name) n)) = id from rfl, List.map_id]
          exact List.Nodup.filter _ (by decide)
        · intro n hn hn'
          rw [show (Prod.fst ∘ fun n : Name => (n, LTree.array (E := Name) n)) = id from rfl, List.map_id, List.mem_filter] at hn
          exact (of_decide_eq_true hn.2) hn'
      have hmem : (str "parameters", LTree.view (E := Name) (some (str "parameters")) (layerTree l)) ∈ L := by
        rw [hL]
        refine List.mem_append_right _ (List.mem_map.2 ⟨l, hl, ?_⟩)
        rw [if_pos (.inl hp), hp]
      have hfind : (LForest.ofList L).find (str "parameters") = some (.view (some (str "parameters")) (layerTree l)) := by
        rw [find_ofList]; exact Dict.get?_of_mem hkeys hmem
      have hin : str "parameters" ∈ (LForest.ofList L).names := by
        rw [names_ofList]; exact List.mem_map.2 ⟨_, hmem, rfl⟩
      obtain ⟨i, hi, hie⟩ := List.getElem_of_mem hin
      rw [create, existing] at h1
      dsimp only at h1
      cases h2 : createAll mk h (.ofList L) none with
      | none => simp [h2] at h1
      | some r =>
        obtain ⟨h2', vs⟩ := r
        rw [h2] at h1
        dsimp only at h1
        obtain ⟨q, hq⟩ := createAll_ref mk _ h h2' vs h2 i _ _ _ (List.getElem?_eq_some_iff.2 ⟨hi, hie⟩)
          (by rw [names_ofList]; exact hkeys) hfind
        cases h3 : mkView (LForest.ofList L).names vs ((Option.map (fun e => Val.arr (mk e)) none).getD .none) with
        | none => rw [h3] at h1; cases h1
        | some o =>
          rw [h3] at h1
          dsimp only at h1
          cases h1
          rw [mkView] at h3
          by_cases hlen : vs.length = (LForest.ofList L).names.length
          · rw [if_pos hlen] at h3
            cases h3
            have hzip : (str "parameters", Val.ref q) ∈ (LForest.ofList L).names.zip vs := by
              rw [List.mem_iff_getElem?]
              exact ⟨i, by rw [List.getElem?_zip_eq_some]; exact ⟨List.getElem?_eq_some_iff.2 ⟨hi, hie⟩, hq⟩⟩
            have hfst : ((LForest.ofList L).names.zip vs).map Prod.fst = L.map Prod.fst := by
              rw [List.map_fst_zip (by omega), names_ofList]
            have hget : Dict.get? (setAll [(fullName, (Option.map (fun e => Val.arr (mk e)) none).getD .none),
                (namesName, .names (LForest.ofList L).names), (keysName, .names (LForest.ofList L).names)]
                ((LForest.ofList L).names.zip vs)) (str "parameters") = some (.ref q) := by
              rw [get_setAll _ _ _ (by rw [hfst]; exact hkeys), if_pos (List.mem_map.2 ⟨_, hzip, rfl⟩)]
              exact Dict.get?_of_mem (by show (List.map Prod.fst _).Nodup; rw [hfst]; exact hkeys) hzip
            rw [parametersArray, getAttr]
            simp only [List.getElem?_append_right (Nat.le_refl _), Nat.sub_self, List.getElem?_cons_zero, Option.bind_some, hget]
          · rw [if_neg hlen] at h3; cases h3
    rw [this]

/-! ### Concrete cases -/

/-- The names of the network of `Verif/Layout/ParamProps.lean` (well formed, no root names) are usable. -/
example : UsableNames demoLayers := by unfold UsableNames; decide +kernel

/-- After two resizes `net.get` finds the arrays of the last sizes; here an array is its path with the number of the resize. -/
example : ((mkNet (A := Name × Nat) (fun e => (e, 0)) [] (netTree demoLayers)).bind (fun s =>
      resizes (netTree demoLayers) [fun e => (e, 1), fun e => (e, 2)] s)).map
      (fun s => ["FC_1.parameters.W", "gradients", "FC_1.parameters", "FC_1.parameters.W.x"].map (fun q => netGet s.1 s.2 (str q))) =
    some [some (str "FC_1.parameters.W", 2), some (str "gradients", 2), none, none] := by decide +kernel

/-- A network with a layer of the given name. -/
def named (n : String) : List LayerInfo :=
  let tb (n : Nat) : Structure.Struct := ⟨[.T, .B, .n n], 0, false⟩
  [ ⟨str "Input", [], [(str "default", tb 3)], [], [], [⟨.outputs, str "default", str n, str "default"⟩]⟩,
    ⟨str n, [(str "default", tb 3)], [(str "default", tb 2)], [(str "W", ⟨[.n 2, .n 3], 0, false⟩)], [], []⟩ ]

/-- Whether the network can be created, its views listed and its sizes changed once, and twice. -/
def usable (n : String) : Bool × Bool × Bool × Bool :=
  let t := netTree (named n)
  let s := mkNet (A := Name) id [] t
  (s.isSome, (s.bind (fun s => items s.1 s.2)).isSome, (s.bind (fun s => resize id s.1 t s.2)).isSome,
    (s.bind (fun s => resizes t [id, id] s)).isSome)

example : usable "Fc" = (true, true, true, true) := by decide +kernel
example : usable "adjust" = (true, true, false, false) := by decide +kernel
example : usable "items" = (true, false, true, true) := by decide +kernel
example : usable "_asdict" = (true, false, true, true) := by decide +kernel
example : usable "_keys" = (true, true, false, false) := by decide +kernel
example : usable "_buffer_names" = (true, false, false, false) := by decide +kernel
example : usable "_full_buffer" = (true, true, true, true) := by decide +kernel
example : usable "parameters" = (false, false, false, false) := by decide +kernel

end Verif.Access
