import Verif.References.Model

/-!
# Resolving references does not look into the values

Renaming the values injectively commutes with `resolve`.
-/

namespace Verif.References

variable {A B C D V W : Type}

mutual
/-- Rename the values of references. -/
def Ref.map (f : V → W) : Ref V → Ref W
  | .val v => .val (f v)
  | .dict es => .dict (Ref.mapList f es)
/-- For the entries of a dictionary. -/
def Ref.mapList (f : V → W) : List (Name × Ref V) → List (Name × Ref W)
  | [] => []
  | (k, r) :: es => (k, r.map f) :: Ref.mapList f es
end

mutual
/-- Rename the leaves of a nested dictionary. -/
def Tree.map (f : A → B) : Tree A → Tree B
  | .leaf a => .leaf (f a)
  | .node es => .node (Tree.mapList f es)
/-- For the entries. -/
def Tree.mapList (f : A → B) : List (Name × Tree A) → List (Name × Tree B)
  | [] => []
  | (k, t) :: es => (k, t.map f) :: Tree.mapList f es
end

/-- Rename the contents of a node. -/
def Cell.map (f : V → W) (c : Cell V) : Cell W := ⟨c.content.map f, c.defaults.map f, c.fallback.map f⟩

theorem keys_mapList (f : V → W) : ∀ es : List (Name × Ref V), Dict.keys (Ref.mapList f es) = Dict.keys es
  | [] => by simp [Ref.mapList]; rfl
  | (k, r) :: es => by
    have := keys_mapList f es
    simp only [Dict.keys] at this ⊢
    simp [Ref.mapList, this]

theorem keys_tree_mapList (f : A → B) : ∀ es : List (Name × Tree A), Dict.keys (Tree.mapList f es) = Dict.keys es
  | [] => by simp [Tree.mapList]; rfl
  | (k, r) :: es => by
    have := keys_tree_mapList f es
    simp only [Dict.keys] at this ⊢
    simp [Tree.mapList, this]

theorem get?_mapList (f : V → W) (k : Name) : ∀ es : List (Name × Ref V), Dict.get? (Ref.mapList f es) k = (Dict.get? es k).map (Ref.map f)
  | [] => by simp [Ref.mapList]
  | (k', r) :: es => by
    simp only [Ref.mapList, Dict.get?_cons, get?_mapList f k es]
    split <;> rfl

theorem get?_tree_mapList (f : A → B) (k : Name) : ∀ es : List (Name × Tree A),
    Dict.get? (Tree.mapList f es) k = (Dict.get? es k).map (Tree.map f)
  | [] => by simp [Tree.mapList]
  | (k', r) :: es => by
    simp only [Tree.mapList, Dict.get?_cons, get?_tree_mapList f k es]
    split <;> rfl

theorem at_map (f : A → B) : ∀ (path : List Name) (t : Tree A), (t.map f).at path = (t.at path).map f
  | [], .leaf a => by simp [Tree.map, Tree.at]
  | [], .node es => by simp [Tree.map, Tree.at]
  | k :: p, .leaf a => by simp [Tree.map, Tree.at]
  | k :: p, .node es => by
    simp only [Tree.map, Tree.at, get?_tree_mapList]
    cases Dict.get? es k with
    | none => rfl
    | some t => exact at_map f p t

mutual
theorem mapM_map (m : A → B) (m' : C → D) (g : A → Except Err C) (g' : B → Except Err D) (h : ∀ a, g' (m a) = (g a).map m') :
    ∀ t : Tree A, (t.map m).mapM g' = (t.mapM g).map (Tree.map m')
  | .leaf a => by
    simp only [Tree.map, Tree.mapM, h]
    cases g a with
    | error e => rfl
    | ok b => simp [Except.map, Tree.map]
  | .node es => by
    simp only [Tree.map, Tree.mapM, mapKidsM_map m m' g g' h es]
    cases mapKidsM g es with
    | error e => rfl
    | ok b => simp [Except.map, Tree.map]
theorem mapKidsM_map (m : A → B) (m' : C → D) (g : A → Except Err C) (g' : B → Except Err D) (h : ∀ a, g' (m a) = (g a).map m') :
    ∀ es : List (Name × Tree A), mapKidsM g' (Tree.mapList m es) = (mapKidsM g es).map (Tree.mapList m')
  | [] => by simp [Tree.mapList, mapKidsM, Except.map]
  | (k, t) :: es => by
    simp only [Tree.mapList, mapKidsM, mapM_map m m' g g' h t]
    cases t.mapM g with
    | error e => rfl
    | ok t' =>
      simp only [Except.map, mapKidsM_map m m' g g' h es]
      cases mapKidsM g es with
      | error e => rfl
      | ok r => simp [Tree.mapList]
end

theorem mapEntries_map (m : A → B) (g : Name → Tree A → Except Err (Tree A)) (g' : Name → Tree B → Except Err (Tree B))
    (h : ∀ k t, g' k (t.map m) = (g k t).map (Tree.map m)) :
    ∀ es : List (Name × Tree A), mapEntries g' (Tree.mapList m es) = (mapEntries g es).map (Tree.mapList m)
  | [] => by simp [Tree.mapList, mapEntries, Except.map]
  | (k, t) :: es => by
    simp only [Tree.mapList, mapEntries, h]
    cases g k t with
    | error e => rfl
    | ok t' =>
      simp only [Except.map, mapEntries_map m g g' h es]
      cases mapEntries g es with
      | error e => rfl
      | ok r => simp [Tree.mapList]

theorem foldRefs_map {R : Type} (m : A → B) (f : R → Tree A → Except Err (Tree A)) (f' : R → Tree B → Except Err (Tree B))
    (h : ∀ r t, f' r (t.map m) = (f r t).map (Tree.map m)) :
    ∀ (rs : List R) (t : Tree A), foldRefs f' rs (t.map m) = (foldRefs f rs t).map (Tree.map m)
  | [], t => rfl
  | r :: rs, t => by
    simp only [foldRefs, h]
    cases f r t with
    | error e => rfl
    | ok t' => exact foldRefs_map m f f' h rs t'

variable [DecidableEq V] [DecidableEq W]

theorem insert_map (f : V → W) (hf : ∀ a b, f a = f b → a = b) (v : V) (s : List V) : (s.map f).insert (f v) = (s.insert v).map f := by
  have hmem : f v ∈ s.map f ↔ v ∈ s := by
    constructor
    · intro h
      obtain ⟨w, hw, e⟩ := List.mem_map.1 h
      rw [← hf _ _ e]; exact hw
    · exact List.mem_map_of_mem
  by_cases h : v ∈ s
  · rw [List.insert_of_mem h, List.insert_of_mem (hmem.2 h)]
  · rw [List.insert_of_not_mem h, List.insert_of_not_mem (fun h' => h (hmem.1 h'))]
    rfl

theorem addTo_map (f : V → W) (hf : ∀ a b, f a = f b → a = b) (r : Option (Ref V)) (s : List V) :
    addTo (r.map (Ref.map f)) (s.map f) = (addTo r s).map (List.map f) := by
  cases r with
  | none => rfl
  | some r =>
    cases r with
    | val v => simp [addTo, Ref.map, insert_map f hf, Except.map]
    | dict es => simp [addTo, Ref.map, Except.map]

theorem addCell_map (f : V → W) (hf : ∀ a b, f a = f b → a = b) (a b c : Option (Ref V)) (x : Cell V) :
    addCell (a.map (Ref.map f)) (b.map (Ref.map f)) (c.map (Ref.map f)) (x.map f) = (addCell a b c x).map (Cell.map f) := by
  simp only [addCell, Cell.map, addTo_map f hf]
  cases addTo a x.content with
  | error e => rfl
  | ok as =>
    simp only [Except.map]
    cases addTo b x.defaults with
    | error e => rfl
    | ok bs =>
      simp only
      cases addTo c x.fallback with
      | error e => rfl
      | ok cs => rfl

theorem appendAll_map (f : V → W) (hf : ∀ a b, f a = f b → a = b) (a b c : Option (Ref V)) (t : Tree (Cell V)) :
    appendAll (a.map (Ref.map f)) (b.map (Ref.map f)) (c.map (Ref.map f)) (t.map (Cell.map f)) =
      (appendAll a b c t).map (Tree.map (Cell.map f)) :=
  mapM_map _ _ _ _ (addCell_map f hf a b c) t

theorem or_map (f : V → W) (a b : Option (Ref V)) : (a.map (Ref.map f)).or (b.map (Ref.map f)) = (a.or b).map (Ref.map f) := by
  cases a <;> rfl

theorem applyRefs_map (f : V → W) (hf : ∀ a b, f a = f b → a = b) : ∀ (fuel : Nat) (t : Tree (Cell V)) (refs : Ref V) (d fb : Option (Ref V)),
    applyRefs fuel (t.map (Cell.map f)) (refs.map f) (d.map (Ref.map f)) (fb.map (Ref.map f)) =
      (applyRefs fuel t refs d fb).map (Tree.map (Cell.map f))
  | 0, t, refs, d, fb => by simp [applyRefs, Except.map]
  | fuel + 1, .leaf c, refs, d, fb => by
    have h := appendAll_map f hf (some refs) d fb (.leaf c)
    simp only [Tree.map, Option.map_some] at h ⊢
    simpa only [applyRefs] using h
  | fuel + 1, .node ks, .val v, d, fb => by
    have h := appendAll_map f hf (some (.val v)) d fb (.node ks)
    simp only [Tree.map, Ref.map, Option.map_some] at h ⊢
    simpa only [applyRefs] using h
  | fuel + 1, .node ks, .dict es, d, fb => by
    simp only [Tree.map, Ref.map, applyRefs, keys_mapList, keys_tree_mapList, get?_mapList, or_map]
    cases checkRefs (Dict.keys ks) (Dict.keys es) with
    | error e => rfl
    | ok u =>
      simp only
      rw [mapEntries_map (Cell.map f) (fun k t =>
        let refs := refsOf (Dict.keys es) k
        if refs = [] then appendAll none ((Dict.get? es (str "default")).or d) ((Dict.get? es (str "fallback")).or fb) t
        else foldRefs (fun r t => match Dict.get? es r with
          | none => .error .fuel
          | some sub => applyRefs fuel t sub ((Dict.get? es (str "default")).or d) ((Dict.get? es (str "fallback")).or fb)) refs t)]
      · generalize mapEntries _ ks = r
        cases r with
        | error e => rfl
        | ok r => simp [Except.map, Tree.map]
      · intro k t
        simp only
        split
        · exact appendAll_map f hf none _ _ t
        · apply foldRefs_map
          intro r t
          cases Dict.get? es r with
          | none => rfl
          | some sub => exact applyRefs_map f hf fuel t sub _ _

theorem evalCell_map (f : V → W) (c : Cell V) : evalCell (c.map f) = (evalCell c).map (List.map f) := by
  simp only [evalCell, Cell.map, List.map_eq_nil_iff, List.length_map]
  split
  · split <;> rfl
  · rfl

mutual
theorem depth_map (f : V → W) : ∀ r : Ref V, (r.map f).depth = r.depth
  | .val v => by simp [Ref.map, Ref.depth]
  | .dict es => by simp [Ref.map, Ref.depth, depthList_map f es]
theorem depthList_map (f : V → W) : ∀ es : List (Name × Ref V), depthList (Ref.mapList f es) = depthList es
  | [] => by simp [Ref.mapList, depthList]
  | (k, r) :: es => by simp [Ref.mapList, depthList, depth_map f r, depthList_map f es]
end

mutual
theorem tree_map_map (f : A → B) (g : B → C) : ∀ t : Tree A, (t.map f).map g = t.map (fun a => g (f a))
  | .leaf a => by simp [Tree.map]
  | .node es => by simp [Tree.map, tree_mapList_map f g es]
theorem tree_mapList_map (f : A → B) (g : B → C) : ∀ es : List (Name × Tree A),
    Tree.mapList g (Tree.mapList f es) = Tree.mapList (fun a => g (f a)) es
  | [] => by simp [Tree.mapList]
  | (k, t) :: es => by simp [Tree.mapList, tree_map_map f g t, tree_mapList_map f g es]
end

mutual
theorem tree_map_id (f : A → A) (h : ∀ a, f a = a) : ∀ t : Tree A, t.map f = t
  | .leaf a => by simp [Tree.map, h]
  | .node es => by simp [Tree.map, tree_mapList_id f h es]
theorem tree_mapList_id (f : A → A) (h : ∀ a, f a = a) : ∀ es : List (Name × Tree A), Tree.mapList f es = es
  | [] => by simp [Tree.mapList]
  | (k, t) :: es => by simp [Tree.mapList, tree_map_id f h t, tree_mapList_id f h es]
end

/-- Renaming the values injectively commutes with resolving. -/
theorem resolve_map (f : V → W) (hf : ∀ a b, f a = f b → a = b) (t : Tree A) (refs : Ref V) :
    resolve t (refs.map f) = (resolve t refs).map (fun p => (p.1.map (List.map f), p.2.map (List.map f))) := by
  have h0 : (emptyDict t : Except Err (Tree (Cell W))) = (emptyDict t : Except Err (Tree (Cell V))).map (Tree.map (Cell.map f)) := by
    have := mapM_map (A := A) (B := A) (fun a => a) (Cell.map f) (fun _ => .ok ⟨[], [], []⟩) (fun _ => .ok ⟨[], [], []⟩) (fun a => rfl) t
    rw [tree_map_id _ (fun _ => rfl)] at this
    exact this
  unfold resolve
  rw [h0, depth_map]
  cases (emptyDict t : Except Err (Tree (Cell V))) with
  | error e => rfl
  | ok t₀ =>
    simp only [Except.map]
    have h1 := applyRefs_map f hf refs.depth t₀ refs none none
    simp only [Option.map_none] at h1
    rw [h1]
    cases applyRefs refs.depth t₀ refs none none with
    | error e => rfl
    | ok t₁ =>
      simp only [Except.map]
      rw [mapM_map (Cell.map f) (List.map f) evalCell evalCell (evalCell_map f) t₁,
        mapM_map (Cell.map f) (List.map f) (fun c => .ok c.fallback) (fun c => .ok c.fallback) (fun c => rfl) t₁]
      cases t₁.mapM evalCell with
      | error e => rfl
      | ok vals =>
        simp only [Except.map]
        cases t₁.mapM (fun c => (.ok c.fallback : Except Err (List V))) with
        | error e => rfl
        | ok fbs => rfl

end Verif.References
