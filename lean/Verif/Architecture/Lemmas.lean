import Verif.Architecture.Spec
import Mathlib.Order.WellFounded
import Mathlib.Data.Fintype.Order
import Mathlib.Data.List.Perm.Subperm
import Mathlib.Data.Set.Finite.List

/-! Helper lemmas about architectures. -/

namespace Verif.Architecture

/-! ### Connection strings -/

theorem partitionDot_append (l r : Name) (h : '.' ∉ l) : partitionDot (l ++ '.' :: r) = (l, r) := by
  induction l with
  | nil => simp [partitionDot]
  | cons c l ih =>
    simp only [List.mem_cons, not_or] at h
    simp [partitionDot, Ne.symm h.1, ih h.2]

theorem partitionDot_of_not_mem (l : Name) (h : '.' ∉ l) : partitionDot l = (l, []) := by
  induction l with
  | nil => simp [partitionDot]
  | cons c l ih =>
    simp only [List.mem_cons, not_or] at h
    simp [partitionDot, Ne.symm h.1, ih h.2]

theorem partitionDot_cases (s : Name) :
    '.' ∉ (partitionDot s).1 ∧
    (s = (partitionDot s).1 ++ '.' :: (partitionDot s).2 ∨
     (s = (partitionDot s).1 ∧ (partitionDot s).2 = [])) := by
  induction s with
  | nil => simp [partitionDot]
  | cons c s ih =>
    by_cases hc : c = '.'
    · simp [partitionDot, hc]
    · simp only [partitionDot, hc, if_false]
      refine ⟨by simp [Ne.symm hc, ih.1], ?_⟩
      rcases ih.2 with h | h
      · left; rw [List.cons_append, ← h]
      · right; exact ⟨by rw [← h.1], h.2⟩

theorem denotes_iff (s l inp : Name) : Denotes s l inp ↔
    l = (partitionDot s).1 ∧
    inp = (if (partitionDot s).2 = [] then str "default" else (partitionDot s).2) := by
  constructor
  · rintro ⟨hl, (⟨h, hne⟩ | ⟨h | h, hd⟩)⟩
    · subst h; rw [partitionDot_append _ _ hl]; simp [hne]
    · subst h; rw [partitionDot_of_not_mem _ hl]; simp [hd]
    · subst h; rw [partitionDot_append _ _ hl]; simp [hd]
  · rintro ⟨rfl, rfl⟩
    obtain ⟨h1, h2⟩ := partitionDot_cases s
    refine ⟨h1, ?_⟩
    by_cases he : (partitionDot s).2 = []
    · right
      simp only [he, if_true, and_true]
      rcases h2 with h | h
      · right; rw [he] at h; exact h
      · left; exact h.1
    · left
      simp only [he, if_false]
      rcases h2 with h | h
      · exact ⟨h, he⟩
      · exact absurd h.2 he

theorem mkConnection_iff (n o s : Name) (c : Connection) :
    mkConnection n o s = c ↔ c.startLayer = n ∧ c.outputName = o ∧ Denotes s c.endLayer c.inputName := by
  rw [denotes_iff]
  obtain ⟨a, b, d, e⟩ := c
  simp only [mkConnection, parseConnection, Connection.mk.injEq]
  constructor
  · rintro ⟨rfl, rfl, rfl, rfl⟩; exact ⟨rfl, rfl, rfl, rfl⟩
  · rintro ⟨rfl, rfl, rfl, rfl⟩; exact ⟨rfl, rfl, rfl, rfl⟩

/-! ### Collecting connections -/

theorem collectUnsorted_spec (a : Arch) :
    (HasOutgoing a ∧ ∃ cs, collectUnsorted a = .ok cs ∧ ∀ c, c ∈ cs ↔ HasConnection a c) ∨
    (¬ HasOutgoing a ∧ collectUnsorted a = .error .keyError) := by
  induction a with
  | nil =>
    left
    refine ⟨by intro n d h; simp at h, [], rfl, ?_⟩
    intro c; simp [HasConnection]
  | cons e a ih =>
    obtain ⟨n, d⟩ := e
    have hone : ((∃ l, d.outgoing = .list l) ∨ (∃ m, d.outgoing = .dict m)) ∧
        (∃ cs, collectOutgoing d n = .ok cs ∧ ∀ c, c ∈ cs ↔ HasConnection [(n, d)] c) ∨
        (¬ ((∃ l, d.outgoing = .list l) ∨ (∃ m, d.outgoing = .dict m)) ∧
          collectOutgoing d n = .error .keyError) := by
      unfold collectOutgoing
      cases hd : d.outgoing with
      | missing => right; simp
      | other => right; simp
      | list l =>
        left
        refine ⟨.inl ⟨l, rfl⟩, _, rfl, fun c => ?_⟩
        simp only [List.mem_map, mkConnection_iff, HasConnection, List.mem_singleton, Prod.mk.injEq]
        constructor
        · rintro ⟨s, hs, rfl, ho, hdn⟩
          exact ⟨d, ⟨rfl, rfl⟩, .inl ⟨l, hd, ho, s, hs, hdn⟩⟩
        · rintro ⟨d', ⟨h1, rfl⟩, (⟨l', hl, ho, s, hs, hdn⟩ | ⟨m, l', hm, _⟩)⟩
          · rw [hd] at hl; cases hl
            exact ⟨s, hs, h1, ho, hdn⟩
          · rw [hd] at hm; cases hm
      | dict m =>
        left
        refine ⟨.inr ⟨m, rfl⟩, _, rfl, fun c => ?_⟩
        simp only [List.mem_flatMap, List.mem_map, mkConnection_iff, HasConnection,
          List.mem_singleton, Prod.mk.injEq]
        constructor
        · rintro ⟨⟨o, l⟩, he, s, hs, rfl, ho, hdn⟩
          exact ⟨d, ⟨rfl, rfl⟩, .inr ⟨m, l, hd, by rw [ho]; exact he, s, hs, hdn⟩⟩
        · rintro ⟨d', ⟨h1, rfl⟩, (⟨l', hl, _⟩ | ⟨m', l', hm, he, s, hs, hdn⟩)⟩
          · rw [hd] at hl; cases hl
          · rw [hd] at hm; cases hm
            exact ⟨_, he, s, hs, h1, rfl, hdn⟩
    have hcons : ∀ c, HasConnection ((n, d) :: a) c ↔ HasConnection [(n, d)] c ∨ HasConnection a c := by
      intro c
      simp only [HasConnection, List.mem_cons]
      constructor
      · rintro ⟨d', (h | h), h2⟩
        · exact .inl ⟨d', .inl h, h2⟩
        · exact .inr ⟨d', h, h2⟩
      · rintro (⟨d', (h | h), h2⟩ | ⟨d', h, h2⟩)
        · exact ⟨d', .inl h, h2⟩
        · simp at h
        · exact ⟨d', .inr h, h2⟩
    have hho : HasOutgoing ((n, d) :: a) ↔
        ((∃ l, d.outgoing = .list l) ∨ (∃ m, d.outgoing = .dict m)) ∧ HasOutgoing a := by
      constructor
      · intro h
        exact ⟨h n d (by simp), fun n' d' h' => h n' d' (by simp [h'])⟩
      · rintro ⟨h1, h2⟩ n' d' h'
        rcases List.mem_cons.1 h' with h' | h'
        · cases h'; exact h1
        · exact h2 _ _ h'
    simp only [collectUnsorted]
    rcases hone with ⟨h1, cs, hcs, hmem⟩ | ⟨h1, herr⟩
    · rw [hcs]
      rcases ih with ⟨h2, cs', hcs', hmem'⟩ | ⟨h2, herr⟩
      · left
        rw [hcs']
        refine ⟨hho.2 ⟨h1, h2⟩, _, rfl, fun c => ?_⟩
        rw [List.mem_append, hmem, hmem', hcons]
      · right
        rw [herr]
        exact ⟨fun h => h2 (hho.1 h).2, rfl⟩
    · right
      rw [herr]
      exact ⟨fun h => h1 (hho.1 h).1, rfl⟩

theorem collectAll_spec (a : Arch) :
    (HasOutgoing a ∧ ∃ cs, collectAll a = .ok cs ∧ ∀ c, c ∈ cs ↔ HasConnection a c) ∨
    (¬ HasOutgoing a ∧ collectAll a = .error .keyError) := by
  unfold collectAll
  rcases collectUnsorted_spec a with ⟨h1, cs, hcs, hm⟩ | ⟨h1, h2⟩
  · left
    rw [hcs]
    refine ⟨h1, _, rfl, fun c => ?_⟩
    rw [mem_sortBy, hm]
  · right; rw [h2]; exact ⟨h1, rfl⟩

theorem HasConnection.start_mem {a : Arch} {c : Connection} (h : HasConnection a c) :
    c.startLayer ∈ Dict.keys a := by
  obtain ⟨d, hd, _⟩ := h
  exact List.mem_map.2 ⟨_, hd, rfl⟩

/-! ### Names -/

theorem go_iff (n : Name) : matchesIdentifier.go n = true ↔
    (∀ d ∈ n, isIdentChar d = true) ∨ ∃ m, n = m ++ ['\n'] ∧ ∀ d ∈ m, isIdentChar d = true := by
  induction n with
  | nil => simp [matchesIdentifier.go]
  | cons c n ih =>
    by_cases hc : n = [] ∧ c = '\n'
    · obtain ⟨rfl, rfl⟩ := hc
      simp only [matchesIdentifier.go, true_iff]
      exact .inr ⟨[], rfl, by simp⟩
    · have : matchesIdentifier.go (c :: n) = (isIdentChar c && matchesIdentifier.go n) := by
        rw [matchesIdentifier.go.eq_3 c n (fun h1 h2 => hc ⟨h2, h1⟩)]
      rw [this, Bool.and_eq_true, ih]
      constructor
      · rintro ⟨h1, (h2 | ⟨m, rfl, h2⟩)⟩
        · left; intro d hd
          rcases List.mem_cons.1 hd with h | h
          · subst h; exact h1
          · exact h2 d h
        · right
          refine ⟨c :: m, rfl, ?_⟩
          intro d hd
          rcases List.mem_cons.1 hd with h | h
          · subst h; exact h1
          · exact h2 d h
      · rintro (h | ⟨m, hm, h⟩)
        · exact ⟨h c (by simp), .inl fun d hd => h d (by simp [hd])⟩
        · cases m with
          | nil =>
            simp at hm
            exact absurd ⟨hm.2, hm.1⟩ hc
          | cons c' m =>
            simp at hm
            obtain ⟨rfl, rfl⟩ := hm
            exact ⟨h c (by simp), .inr ⟨m, rfl, fun d hd => h d (by simp [hd])⟩⟩

theorem isValidLayerName_iff (n : Name) : isValidLayerName n = true ↔
    n ≠ str "default" ∧ n ≠ str "fallback" ∧
    (IsIdentifier n ∨ ∃ m, IsIdentifier m ∧ n = m ++ ['\n']) := by
  have hbl : n ∈ nameBlacklist ↔ n = str "default" ∨ n = str "fallback" := by
    simp [nameBlacklist]
  unfold isValidLayerName
  by_cases h : n ∈ nameBlacklist
  · simp only [h, if_true]
    rw [hbl] at h
    rcases h with h | h <;> simp [h]
  · simp only [h, if_false]
    rw [hbl, not_or] at h
    simp only [ne_eq, h, not_false_eq_true, true_and]
    cases n with
    | nil => simp [matchesIdentifier, IsIdentifier]
    | cons c r =>
      simp only [matchesIdentifier, Bool.and_eq_true, go_iff]
      constructor
      · rintro ⟨h1, (h2 | ⟨m, rfl, h2⟩)⟩
        · exact .inl ⟨c, r, rfl, h1, h2⟩
        · exact .inr ⟨c :: m, ⟨c, m, rfl, h1, h2⟩, rfl⟩
      · rintro (⟨c', r', h0, h1, h2⟩ | ⟨m, ⟨c', r', rfl, h1, h2⟩, h3⟩)
        · simp at h0; obtain ⟨rfl, rfl⟩ := h0
          exact ⟨h1, .inl h2⟩
        · simp at h3; obtain ⟨rfl, rfl⟩ := h3
          exact ⟨h1, .inr ⟨r', rfl, h2⟩⟩

/-! ### `forAll` -/

theorem forAll_ok {α : Type} {f : α → Except ArchError Unit} {l : List α} :
    forAll f l = .ok () ↔ ∀ x ∈ l, f x = .ok () := by
  induction l with
  | nil => simp [forAll]
  | cons x l ih =>
    simp only [forAll, List.mem_cons, forall_eq_or_imp]
    cases f x with
    | error e => simp
    | ok u => simp [ih]

/-! ### The peel loop -/

theorem mem_newLayers {names : List Name} {cs : List Connection} {order : List Name} {x : Name} :
    x ∈ newLayers names cs order ↔
      x ∈ names ∧ x ∉ order ∧ ∀ c ∈ cs, c.startLayer = x → c.endLayer ∈ order := by
  simp only [newLayers, List.mem_filter, List.all_eq_true, Bool.not_eq_true',
    decide_eq_false_iff_not, decide_eq_true_eq, and_imp]
  constructor
  · rintro ⟨⟨h1, h2⟩, h3⟩; exact ⟨h1, h2, h3⟩
  · rintro ⟨h1, h2, h3⟩; exact ⟨⟨h1, h2⟩, h3⟩

/-- State of the loop: no duplicates, only known layers, successors come first. -/
structure PeelInv (names : List Name) (cs : List Connection) (order : List Name) : Prop where
  nodup : order.Nodup
  sub : ∀ x ∈ order, x ∈ names
  topo : ∀ (i : Nat) (x : Name), order[i]? = some x → ∀ c ∈ cs, c.startLayer = x →
    c.endLayer ∈ order.take i

theorem PeelInv.step {names : List Name} {cs : List Connection} {order : List Name}
    (hn : names.Nodup) (h : PeelInv names cs order) :
    PeelInv names cs (order ++ sortBy (fun a b => nameLe b a) (newLayers names cs order)) := by
  refine ⟨?_, ?_, ?_⟩
  · rw [List.nodup_append]
    refine ⟨h.nodup, ?_, ?_⟩
    · rw [(sortBy_perm _ _).nodup_iff]
      exact (hn.filter _).filter _
    · intro x hx y hy hxy
      subst hxy
      rw [mem_sortBy, mem_newLayers] at hy
      exact hy.2.1 hx
  · intro x hx
    rcases List.mem_append.1 hx with hx | hx
    · exact h.sub x hx
    · rw [mem_sortBy, mem_newLayers] at hx; exact hx.1
  · intro i x hx c hc hcs
    rcases Nat.lt_or_ge i order.length with hi | hi
    · rw [List.getElem?_append_left hi] at hx
      have := h.topo i x hx c hc hcs
      rw [List.take_append_of_le_length (by omega)]
      exact this
    · rw [List.getElem?_append_right hi] at hx
      have hm := List.mem_of_getElem? hx
      rw [mem_sortBy, mem_newLayers] at hm
      rw [List.take_append, List.take_of_length_le hi]
      exact List.mem_append_left _ (hm.2.2 c hc hcs)

theorem peel_spec {names : List Name} {cs : List Connection} (hn : names.Nodup) :
    ∀ (fuel : Nat) (order : List Name), PeelInv names cs order → names.length < fuel + order.length →
      ∃ r, peel names cs fuel order = some r ∧ PeelInv names cs r ∧ newLayers names cs r = [] := by
  intro fuel
  induction fuel with
  | zero =>
    intro order h hf
    have := (h.nodup.subperm h.sub).length_le
    omega
  | succ fuel ih =>
    intro order h hf
    simp only [peel]
    by_cases hnew : newLayers names cs order = []
    · simp only [hnew, if_true]
      exact ⟨order, rfl, h, hnew⟩
    · simp only [hnew, if_false]
      apply ih _ (h.step hn)
      have : 0 < (newLayers names cs order).length := List.length_pos_iff.2 hnew
      rw [List.length_append, length_sortBy]
      omega

theorem peel_mono {names : List Name} {cs : List Connection} : ∀ {fuel fuel' : Nat}
    {order r : List Name}, fuel ≤ fuel' → peel names cs fuel order = some r →
    peel names cs fuel' order = some r := by
  intro fuel
  induction fuel with
  | zero => intro fuel' order r _ h; simp [peel] at h
  | succ fuel ih =>
    intro fuel' order r hle h
    obtain ⟨f, rfl⟩ : ∃ f, fuel' = f + 1 := ⟨fuel' - 1, by omega⟩
    simp only [peel] at h ⊢
    split at h
    · next hn => simp only [hn, if_true]; exact h
    · next hn => simp only [hn, if_false]; exact ih (by omega) h

theorem peelInv_nil (names : List Name) (cs : List Connection) : PeelInv names cs [] :=
  ⟨by simp, by simp, by simp⟩

/-- Successors have a smaller index. -/
theorem PeelInv.idx_lt {names : List Name} {cs : List Connection} {order : List Name}
    (h : PeelInv names cs order) {c : Connection} (hc : c ∈ cs) (hs : c.startLayer ∈ order) :
    c.endLayer ∈ order ∧ order.idxOf c.endLayer < order.idxOf c.startLayer := by
  have hi : order.idxOf c.startLayer < order.length := List.idxOf_lt_length_iff.2 hs
  have hx : order[order.idxOf c.startLayer]? = some c.startLayer := by
    rw [List.getElem?_eq_getElem hi, List.getElem_idxOf]
  have := h.topo _ _ hx c hc rfl
  refine ⟨List.mem_of_mem_take this, ?_⟩
  have h2 : (order.take (order.idxOf c.startLayer)).idxOf c.endLayer <
      (order.take (order.idxOf c.startLayer)).length := List.idxOf_lt_length_iff.2 this
  have h3 : order.idxOf c.endLayer = (order.take (order.idxOf c.startLayer)).idxOf c.endLayer := by
    conv_lhs => rw [← List.take_append_drop (order.idxOf c.startLayer) order]
    rw [List.idxOf_append_of_mem this]
  rw [h3]
  rw [List.length_take] at h2
  omega

/-- On a finite set, if every member has a successor in the set there is a cycle. -/
theorem exists_cycle {R : Name → Name → Prop} {l : List Name} (hne : l ≠ [])
    (h : ∀ x ∈ l, ∃ y ∈ l, R x y) : ∃ x, Relation.TransGen R x x := by
  apply Classical.byContradiction
  intro hno
  have hno : ∀ x, ¬ Relation.TransGen R x x := fun x hx => hno ⟨x, hx⟩
  let T := {x // x ∈ l}
  let r : T → T → Prop := fun a b => Relation.TransGen R b.1 a.1
  have : Finite T := List.finite_toSet l
  have : IsTrans T r := ⟨fun a b c h1 h2 => Relation.TransGen.trans h2 h1⟩
  have : Std.Irrefl r := ⟨fun a ha => hno _ ha⟩
  have wf : WellFounded r := Finite.wellFounded_of_trans_of_irrefl r
  obtain ⟨x0, hx0⟩ := List.exists_mem_of_ne_nil _ hne
  obtain ⟨m, _, hm⟩ := wf.has_min Set.univ ⟨⟨x0, hx0⟩, trivial⟩
  obtain ⟨y, hy, hR⟩ := h m.1 m.2
  exact hm ⟨y, hy⟩ trivial (.single hR)

theorem all_mem_iff {a : Arch} {cs : List Connection} {r : List Name}
    (hcs : ∀ c, c ∈ cs ↔ HasConnection a c) (h : PeelInv (Dict.keys a) cs r)
    (hnew : newLayers (Dict.keys a) cs r = []) :
    (∀ n ∈ Dict.keys a, n ∈ r) ↔ Closed a ∧ Acyclic a := by
  constructor
  · intro hall
    refine ⟨?_, ?_⟩
    · intro c hc
      exact h.sub _ (h.idx_lt ((hcs c).2 hc) (hall _ hc.start_mem)).1
    · intro x hx
      have key : ∀ y, Relation.TransGen (Feeds a) x y → r.idxOf y < r.idxOf x := by
        intro y hy
        induction hy with
        | single hf =>
          obtain ⟨c, hc, rfl, rfl⟩ := hf
          exact (h.idx_lt ((hcs c).2 hc) (hall _ hc.start_mem)).2
        | tail _ hf ih =>
          obtain ⟨c, hc, rfl, rfl⟩ := hf
          have := (h.idx_lt ((hcs c).2 hc) (hall _ hc.start_mem)).2
          omega
      exact absurd (key x hx) (Nat.lt_irrefl _)
  · rintro ⟨hcl, hac⟩
    apply Classical.byContradiction
    intro hno
    have hne : (Dict.keys a).filter (fun n => decide (n ∉ r)) ≠ [] := by
      intro he
      apply hno
      intro n hn
      apply Classical.byContradiction
      intro hr
      have : n ∈ (Dict.keys a).filter (fun n => decide (n ∉ r)) := by simp [hn, hr]
      rw [he] at this
      simp at this
    obtain ⟨x, hx⟩ := exists_cycle (R := Feeds a) hne (by
      intro x hx
      simp only [List.mem_filter, decide_eq_true_eq] at hx
      have : x ∉ newLayers (Dict.keys a) cs r := by rw [hnew]; simp
      rw [mem_newLayers] at this
      have : ¬ ∀ c ∈ cs, c.startLayer = x → c.endLayer ∈ r := fun h' => this ⟨hx.1, hx.2, h'⟩
      simp only [Classical.not_forall] at this
      obtain ⟨c, hc, h1, h2⟩ := this
      have hcon := (hcs c).1 hc
      exact ⟨c.endLayer, by simp [h2, hcl c hcon], c, hcon, h1, rfl⟩)
    exact hac x hx

/-! ### Rounds of the loop are heights -/

theorem nameGe_linear : IsLinear (fun a b => nameLe b a) where
  total := fun a b => nameLe_linear.total b a
  trans := fun a b c h1 h2 => nameLe_linear.trans c b a h2 h1
  antisymm := fun a b h1 h2 => nameLe_linear.antisymm a b h2 h1

theorem chain_pred {a : Arch} : ∀ {k : Nat} {x : Name}, Chain a (k + 1) x → Chain a k x
  | 0, _, _ => trivial
  | _ + 1, _, ⟨y, hf, hy⟩ => ⟨y, hf, chain_pred hy⟩

theorem chain_le {a : Arch} {k k' : Nat} {x : Name} (hle : k ≤ k') (h : Chain a k' x) :
    Chain a k x := by
  induction k' with
  | zero => have : k = 0 := by omega
            subst this; trivial
  | succ k' ih =>
    rcases Nat.eq_or_lt_of_le hle with h' | h'
    · subst h'; exact h
    · exact ih (by omega) (chain_pred h)

theorem height_unique {a : Arch} {x : Name} {h h' : Nat} (h1 : Height a x h) (h2 : Height a x h') :
    h = h' := by
  rcases Nat.lt_trichotomy h h' with hlt | he | hlt
  · exact absurd (chain_le hlt h2.1) h1.2
  · exact he
  · exact absurd (chain_le hlt h1.1) h2.2

/-- Order of two layers in the (not yet reversed) list. -/
def OrderRel (a : Arch) (x y : Name) : Prop :=
  ∀ h h', Height a x h → Height a y h' → h < h' ∨ (h = h' ∧ nameLe y x = true)

theorem peel_rounds {a : Arch} {cs : List Connection} (hcs : ∀ c, c ∈ cs ↔ HasConnection a c)
    (hcl : Closed a) : ∀ (fuel : Nat) (order r : List Name) (k : Nat),
    (∀ x, x ∈ order ↔ x ∈ Dict.keys a ∧ ¬ Chain a k x) → order.Pairwise (OrderRel a) →
    peel (Dict.keys a) cs fuel order = some r →
    ∃ k, (∀ x, x ∈ r ↔ x ∈ Dict.keys a ∧ ¬ Chain a k x) ∧ r.Pairwise (OrderRel a) := by
  intro fuel
  induction fuel with
  | zero => intro order r k _ _ h; simp [peel] at h
  | succ fuel ih =>
    intro order r k hm hp h
    simp only [peel] at h
    split at h
    · simp at h; subst h; exact ⟨k, hm, hp⟩
    · have hnew : ∀ x, x ∈ newLayers (Dict.keys a) cs order ↔
          x ∈ Dict.keys a ∧ Chain a k x ∧ ¬ Chain a (k + 1) x := by
        intro x
        rw [mem_newLayers, hm]
        constructor
        · rintro ⟨h1, h2, h3⟩
          refine ⟨h1, Classical.byContradiction fun h => h2 ⟨h1, h⟩, ?_⟩
          rintro ⟨y, ⟨c, hc, rfl, rfl⟩, hy⟩
          exact ((hm _).1 (h3 c ((hcs c).2 hc) rfl)).2 hy
        · rintro ⟨h1, h2, h3⟩
          refine ⟨h1, fun h => h.2 h2, ?_⟩
          rintro c hc rfl
          rw [hm]
          have hcon := (hcs c).1 hc
          exact ⟨hcl c hcon, fun hy => h3 ⟨_, ⟨c, hcon, rfl, rfl⟩, hy⟩⟩
      refine ih _ r (k + 1) ?_ ?_ h
      · intro x
        rw [List.mem_append, mem_sortBy, hm, hnew]
        constructor
        · rintro (⟨h1, h2⟩ | ⟨h1, _, h2⟩)
          · exact ⟨h1, fun h => h2 (chain_pred h)⟩
          · exact ⟨h1, h2⟩
        · rintro ⟨h1, h2⟩
          by_cases hk : Chain a k x
          · exact .inr ⟨h1, hk, h2⟩
          · exact .inl ⟨h1, hk⟩
      · rw [List.pairwise_append]
        refine ⟨hp, ?_, ?_⟩
        · have hs := sortBy_sorted nameGe_linear.total nameGe_linear.trans (newLayers (Dict.keys a) cs order)
          refine hs.imp_of_mem ?_
          intro x y hx hy hxy h h' hh hh'
          rw [mem_sortBy, hnew] at hx hy
          right
          exact ⟨(height_unique hh hx.2).trans (height_unique hh' hy.2).symm, hxy⟩
        · intro x hx y hy h h' hh hh'
          rw [hm] at hx
          rw [mem_sortBy, hnew] at hy
          left
          have := height_unique hh' hy.2
          subst this
          apply Classical.byContradiction
          intro hlt
          exact hx.2 (chain_le (by omega) hh.1)

/-! ### Independence of dictionary order -/

theorem newLayers_perm {names names' : List Name} (hp : names.Perm names') (cs : List Connection)
    (order : List Name) : (newLayers names cs order).Perm (newLayers names' cs order) :=
  (hp.filter _).filter _

theorem peel_congr {names names' : List Name} (hp : names.Perm names') (cs : List Connection) :
    ∀ (fuel : Nat) (order : List Name), peel names cs fuel order = peel names' cs fuel order := by
  intro fuel
  induction fuel with
  | zero => intro order; rfl
  | succ fuel ih =>
    intro order
    have hp' := newLayers_perm hp cs order
    have he : newLayers names cs order = [] ↔ newLayers names' cs order = [] :=
      ⟨fun h => by rw [h] at hp'; simpa using hp', fun h => by rw [h] at hp'; simpa using hp'⟩
    simp only [peel]
    rw [sortBy_congr nameGe_linear hp', ih]
    by_cases h : newLayers names cs order = []
    · simp [h, he.1 h]
    · have h2 : newLayers names' cs order ≠ [] := fun h' => h (he.2 h')
      simp [h, h2]

theorem collectOutgoing_same {d d' : LayerDesc} (n : Name) (h : SameOut d.outgoing d'.outgoing) :
    ∃ cs cs', collectOutgoing d n = .ok cs ∧ collectOutgoing d' n = .ok cs' ∧ cs.Perm cs' := by
  unfold collectOutgoing
  generalize d.outgoing = o at h
  generalize d'.outgoing = o' at h
  cases h with
  | list hp => exact ⟨_, _, rfl, rfl, hp.map _⟩
  | @dict d m d' hp hf =>
    refine ⟨_, _, rfl, rfl, (hp.flatMap_right _).trans ?_⟩
    clear hp
    induction hf with
    | nil => simp
    | cons h1 _ ih =>
      simp only [List.flatMap_cons]
      rw [h1.1]
      exact (h1.2.map _).append ih

theorem collectUnsorted_perm {a b : Arch} (hp : a.Perm b) {cs : List Connection}
    (h : collectUnsorted a = .ok cs) : ∃ cs', collectUnsorted b = .ok cs' ∧ cs.Perm cs' := by
  induction hp generalizing cs with
  | nil => exact ⟨cs, h, .refl _⟩
  | cons e _ ih =>
    simp only [collectUnsorted] at h ⊢
    split at h
    · simp at h
    · next c1 hc1 =>
      split at h
      · simp at h
      · next c2 hc2 =>
        simp at h; subst h
        obtain ⟨c3, h3, hp3⟩ := ih hc2
        rw [h3]
        exact ⟨_, rfl, hp3.append_left _⟩
  | swap e f l =>
    simp only [collectUnsorted] at h ⊢
    cases h1 : collectOutgoing f.2 f.1 with
    | error _ => simp [h1] at h
    | ok c1 =>
      cases h2 : collectOutgoing e.2 e.1 with
      | error _ => simp [h1, h2] at h
      | ok c2 =>
        cases h3 : collectUnsorted l with
        | error _ => simp [h1, h2, h3] at h
        | ok c3 =>
          simp [h1, h2, h3] at h
          subst h
          refine ⟨_, rfl, ?_⟩
          rw [← List.append_assoc, ← List.append_assoc]
          exact List.perm_append_comm.append_right _
  | trans _ _ ih1 ih2 =>
    obtain ⟨c1, h1, p1⟩ := ih1 h
    obtain ⟨c2, h2, p2⟩ := ih2 h1
    exact ⟨c2, h2, p1.trans p2⟩

theorem collectUnsorted_forall₂ {a b : Arch} (hf : List.Forall₂
    (fun x y => x.1 = y.1 ∧ x.2.type = y.2.type ∧ SameOut x.2.outgoing y.2.outgoing) a b) :
    ∃ cs cs', collectUnsorted a = .ok cs ∧ collectUnsorted b = .ok cs' ∧ cs.Perm cs' := by
  induction hf with
  | nil => exact ⟨[], [], rfl, rfl, .refl _⟩
  | @cons x y a b h1 _ ih =>
    obtain ⟨c1, c2, e1, e2, p⟩ := ih
    obtain ⟨c3, c4, e3, e4, p'⟩ := collectOutgoing_same x.1 h1.2.2
    rw [h1.1] at e4
    simp only [collectUnsorted, e1, e2, e3, e4]
    exact ⟨_, _, rfl, rfl, p'.append p⟩

theorem connLe_linear : IsLinear connLe where
  total := fun a b => nameLe_linear.lex.total _ _
  trans := fun a b c => nameLe_linear.lex.trans _ _ _
  antisymm := by
    intro a b h1 h2
    have := nameLe_linear.lex.antisymm _ _ h1 h2
    obtain ⟨a1, a2, a3, a4⟩ := a
    obtain ⟨b1, b2, b3, b4⟩ := b
    simpa [Connection.key] using this

theorem SameArch.collect {a b : Arch} (h : SameArch a b) :
    ∃ cs, collectAll a = .ok cs ∧ collectAll b = .ok cs := by
  obtain ⟨m, hp, hf⟩ := h
  obtain ⟨c1, c2, e1, e2, p⟩ := collectUnsorted_forall₂ hf
  obtain ⟨c3, e3, p'⟩ := collectUnsorted_perm hp.symm e1
  refine ⟨sortBy connLe c3, by simp [collectAll, e3, Except.map], ?_⟩
  rw [sortBy_congr connLe_linear (p'.symm.trans p)]
  simp [collectAll, e2, Except.map]

theorem SameArch.keys {a b : Arch} (h : SameArch a b) : (Dict.keys a).Perm (Dict.keys b) := by
  obtain ⟨m, hp, hf⟩ := h
  refine (hp.map _).trans ?_
  have : Dict.keys m = Dict.keys b := by
    clear hp
    unfold Dict.keys
    induction hf with
    | nil => rfl
    | cons h1 _ ih => simp [h1.1, ih]
  unfold Dict.keys at this
  rw [this]
  exact .refl _

end Verif.Architecture
