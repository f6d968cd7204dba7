import Mathlib.Data.List.Perm.Basic
import Mathlib.Data.List.Nodup
import Verif.Layout.Spec

namespace Verif.Layout

open Verif.Structure

section Perms
variable {α : Type}

theorem picks_perm {l : List α} : ∀ {e : α × List α}, e ∈ picks l → (e.1 :: e.2).Perm l := by
  induction l with
  | nil => intro e h; simp [picks] at h
  | cons x xs ih =>
    intro e h
    simp only [picks, List.mem_cons, List.mem_map] at h
    rcases h with rfl | ⟨e', he', rfl⟩
    · exact List.Perm.refl _
    · exact (List.Perm.swap _ _ _).trans ((ih he').cons x)

theorem exists_pick {l : List α} {x : α} (h : x ∈ l) : ∃ r, (x, r) ∈ picks l := by
  induction l with
  | nil => simp at h
  | cons y ys ih =>
    rcases List.mem_cons.1 h with rfl | h
    · exact ⟨ys, by simp [picks]⟩
    · obtain ⟨r, hr⟩ := ih h
      exact ⟨y :: r, by simp only [picks, List.mem_cons, List.mem_map]; exact Or.inr ⟨_, hr, rfl⟩⟩

theorem mem_permsN {k : Nat} : ∀ {l p : List α}, l.length = k → (p ∈ permsN k l ↔ p.Perm l) := by
  induction k with
  | zero =>
    intro l p hl
    have : l = [] := List.length_eq_zero_iff.1 hl
    subst this
    simp [permsN]
  | succ k ih =>
    intro l p hl
    simp only [permsN, List.mem_flatMap, List.mem_map]
    constructor
    · rintro ⟨e, he, q, hq, rfl⟩
      have hp := picks_perm he
      have hlen : e.2.length = k := by have := hp.length_eq; simp at this; omega
      exact (((ih hlen).1 hq).cons _).trans hp
    · intro hp
      cases p with
      | nil => have := hp.length_eq; simp [hl] at this
      | cons x q =>
        obtain ⟨r, hr⟩ := exists_pick (hp.subset (List.mem_cons_self ..))
        have hpr := picks_perm hr
        have hlen : r.length = k := by have := hpr.length_eq; simp at this; omega
        exact ⟨(x, r), hr, q, (ih hlen).2 ((hp.trans hpr.symm).cons_inv), rfl⟩

theorem mem_perms {l p : List α} : p ∈ perms l ↔ p.Perm l := mem_permsN rfl

theorem exists_perm_of_perm_map {β : Type} {f : α → β} : ∀ {l₁ : List β} {l₂ : List α},
    l₁.Perm (l₂.map f) → ∃ l : List α, l.Perm l₂ ∧ l.map f = l₁ := by
  intro l₁
  induction l₁ with
  | nil =>
    intro l₂ h
    have : l₂ = [] := by simpa using h.symm.eq_nil
    subst this
    exact ⟨[], .refl _, rfl⟩
  | cons a t ih =>
    intro l₂ h
    have ha : a ∈ l₂.map f := h.subset (List.mem_cons_self ..)
    obtain ⟨b, hb, rfl⟩ := List.mem_map.1 ha
    obtain ⟨s, u, rfl⟩ := List.append_of_mem hb
    have hp : (s ++ b :: u).Perm (b :: (s ++ u)) := List.perm_middle
    have h' := h.trans (hp.map f)
    rw [List.map_cons] at h'
    obtain ⟨l, hl, rfl⟩ := ih h'.cons_inv
    exact ⟨b :: l, (hl.cons b).trans hp.symm, rfl⟩

end Perms

theorem Consecutive.map_iff {α β : Type} {P : β → Prop} {f : α → β} {l : List α} :
    Consecutive P (l.map f) ↔ Consecutive (fun x => P (f x)) l := by
  constructor
  · rintro ⟨pre, mid, post, h, h1, h2⟩
    obtain ⟨l₁, post', rfl, hl1, rfl⟩ := List.map_eq_append_iff.1 h
    obtain ⟨pre', mid', rfl, rfl, rfl⟩ := List.map_eq_append_iff.1 hl1
    refine ⟨pre', mid', post', rfl, fun x hx => h1 _ (List.mem_map_of_mem hx), fun x hx => h2 _ ?_⟩
    rw [← List.map_append]
    exact List.mem_map_of_mem hx
  · rintro ⟨pre, mid, post, rfl, h1, h2⟩
    refine ⟨pre.map f, mid.map f, post.map f, by simp, ?_, ?_⟩
    · intro x hx
      obtain ⟨y, hy, rfl⟩ := List.mem_map.1 hx
      exact h1 y hy
    · intro x hx
      rw [← List.map_append] at hx
      obtain ⟨y, hy, rfl⟩ := List.mem_map.1 hx
      exact h2 y hy

theorem Consecutive.congr {α : Type} {P Q : α → Prop} {l : List α} (h : ∀ x ∈ l, (P x ↔ Q x)) :
    Consecutive P l ↔ Consecutive Q l := by
  constructor <;> rintro ⟨pre, mid, post, rfl, h1, h2⟩
  · exact ⟨pre, mid, post, rfl, fun x hx => (h x (by simp [hx])).1 (h1 x hx),
      fun x hx hq => h2 x hx ((h x (by simp at hx ⊢; tauto)).2 hq)⟩
  · exact ⟨pre, mid, post, rfl, fun x hx => (h x (by simp [hx])).2 (h1 x hx),
      fun x hx hq => h2 x hx ((h x (by simp at hx ⊢; tauto)).1 hq)⟩

/-! ### The contiguity test -/

theorem changes_none {l : List Bool} :
    changes (false :: l ++ [false]) = 0 ↔ ∀ x ∈ l, ¬ x = true := by
  induction l with
  | nil => simp [changes]
  | cons b l ih =>
    cases b
    · simpa [changes] using ih
    · simp [changes]

theorem changes_one (l : List Bool) : 1 ≤ changes (true :: l ++ [false]) := by
  induction l with
  | nil => simp [changes]
  | cons b l ih =>
    cases b
    · simp [changes]
    · simpa [changes] using ih

theorem changes_true {l : List Bool} :
    changes (true :: l ++ [false]) ≤ 1 ↔
      ∃ mid post, l = mid ++ post ∧ (∀ x ∈ mid, x = true) ∧ ∀ x ∈ post, ¬ x = true := by
  induction l with
  | nil => simp [changes]
  | cons b l ih =>
    cases b
    · have : changes (true :: (false :: l) ++ [false]) ≤ 1 ↔ changes (false :: l ++ [false]) = 0 := by
        simp [changes]; omega
      rw [this, changes_none]
      constructor
      · intro h; exact ⟨[], false :: l, rfl, by simp, by simpa using h⟩
      · rintro ⟨mid, post, h, h1, h2⟩
        cases mid with
        | nil => simp at h; subst h; simpa using h2
        | cons c mid => simp at h; have := h1 c (by simp); simp [h.1] at this
    · have : changes (true :: (true :: l) ++ [false]) = changes (true :: l ++ [false]) := by
        simp [changes]
      rw [this, ih]
      constructor
      · rintro ⟨mid, post, rfl, h1, h2⟩
        exact ⟨true :: mid, post, rfl, by simpa using h1, h2⟩
      · rintro ⟨mid, post, h, h1, h2⟩
        cases mid with
        | nil => simp at h; subst h; have := h2 true (by simp); simp at this
        | cons c mid => simp at h; exact ⟨mid, post, h.2, fun x hx => h1 x (by simp [hx]), h2⟩

theorem changes_false {l : List Bool} :
    changes (false :: l ++ [false]) ≤ 2 ↔ Consecutive (fun b => b = true) l := by
  induction l with
  | nil => simp [changes]; exact ⟨[], [], [], by simp⟩
  | cons b l ih =>
    cases b
    · have : changes (false :: (false :: l) ++ [false]) = changes (false :: l ++ [false]) := by
        simp [changes]
      rw [this, ih]
      constructor
      · rintro ⟨pre, mid, post, rfl, h1, h2⟩
        exact ⟨false :: pre, mid, post, rfl, h1, by simpa using h2⟩
      · rintro ⟨pre, mid, post, h, h1, h2⟩
        cases pre with
        | cons c pre =>
          simp at h
          exact ⟨pre, mid, post, by simp [h.2], h1, fun x hx => h2 x (by simp at hx ⊢; tauto)⟩
        | nil =>
          cases mid with
          | cons c mid => simp at h; have := h1 c (by simp); simp [h.1] at this
          | nil =>
            simp at h
            subst h
            exact ⟨l, [], [], by simp, by simp, fun x hx => h2 x (by simp at hx ⊢; tauto)⟩
    · have : changes (false :: (true :: l) ++ [false]) ≤ 2 ↔ changes (true :: l ++ [false]) ≤ 1 := by
        simp [changes]; omega
      rw [this, changes_true]
      constructor
      · rintro ⟨mid, post, rfl, h1, h2⟩
        exact ⟨[], true :: mid, post, rfl, by simpa using h1, by simpa using h2⟩
      · rintro ⟨pre, mid, post, h, h1, h2⟩
        cases pre with
        | cons c pre => simp at h; have := h2 c (by simp); simp [h.1] at this
        | nil =>
          cases mid with
          | cons c mid =>
            simp at h
            exact ⟨mid, post, h.2, fun x hx => h1 x (by simp [hx]), fun x hx => h2 x (by simpa using hx)⟩
          | nil => simp at h; subst h; have := h2 true (by simp); simp at this

theorem changes_map {α : Type} (f : α → Bool) (l : List α) :
    changes (false :: (l.map f) ++ [false]) ≤ 2 ↔ Consecutive (fun x => f x = true) l := by
  rw [changes_false, Consecutive.map_iff]

theorem singleBuffer_iff {t : Table} {m : Nat} {rows : List Nat} :
    singleBuffer t m rows = true ↔ ∀ j < m, Consecutive (fun i => t i j = true) rows := by
  simp only [singleBuffer, List.all_eq_true, List.mem_range, decide_eq_true_eq]
  constructor
  · intro h j hj; exact (changes_map _ _).1 (h j hj)
  · intro h j hj; exact (changes_map _ _).2 (h j hj)

/-! ### The connection table -/

theorem connTable_aux (flat sinks : List Name) (conns : List (Name × Name)) (t0 : Table) (i j : Nat) :
    (conns.foldl (fun t c =>
      if c.1 ∈ flat ∧ c.2 ∈ sinks then
        fun i j => if i = flat.idxOf c.1 ∧ j = sinks.idxOf c.2 then true else t i j
      else t) t0) i j = true ↔
    t0 i j = true ∨ ∃ c ∈ conns, (c.1 ∈ flat ∧ c.2 ∈ sinks) ∧ i = flat.idxOf c.1 ∧ j = sinks.idxOf c.2 := by
  induction conns generalizing t0 with
  | nil => simp
  | cons c cs ih =>
    rw [List.foldl_cons, ih]
    by_cases hc : c.1 ∈ flat ∧ c.2 ∈ sinks
    · rw [if_pos hc]
      by_cases hij : i = flat.idxOf c.1 ∧ j = sinks.idxOf c.2
      · rw [if_pos hij]
        simp only [true_or, true_iff]
        exact Or.inr ⟨c, by simp, hc, hij⟩
      · rw [if_neg hij]
        constructor
        · rintro (h | ⟨d, hd, h⟩)
          · exact Or.inl h
          · exact Or.inr ⟨d, by simp [hd], h⟩
        · rintro (h | ⟨d, hd, h⟩)
          · exact Or.inl h
          · rcases List.mem_cons.1 hd with rfl | hd
            · exact absurd h.2 hij
            · exact Or.inr ⟨d, hd, h⟩
    · rw [if_neg hc]
      constructor
      · rintro (h | ⟨d, hd, h⟩)
        · exact Or.inl h
        · exact Or.inr ⟨d, by simp [hd], h⟩
      · rintro (h | ⟨d, hd, h⟩)
        · exact Or.inl h
        · rcases List.mem_cons.1 hd with rfl | hd
          · exact absurd h.1 hc
          · exact Or.inr ⟨d, hd, h⟩

theorem getD_of_lt {α : Type} {l : List α} {i : Nat} {d : α} (h : i < l.length) : l.getD i d = l[i] := by
  simp [List.getD, h]

theorem connTable_iff {flat sinks : List Name} {conns : List (Name × Name)}
    (hf : flat.Nodup) (hs : sinks.Nodup) {i j : Nat} (hi : i < flat.length) (hj : j < sinks.length) :
    connTable flat sinks conns i j = true ↔ (flat[i], sinks[j]) ∈ conns := by
  unfold connTable
  rw [connTable_aux]
  simp only [Bool.false_eq_true, false_or]
  constructor
  · rintro ⟨⟨a, b⟩, hc, ⟨h1, h2⟩, rfl, rfl⟩
    simpa using hc
  · intro hc
    exact ⟨_, hc, ⟨List.getElem_mem _, List.getElem_mem _⟩, (hf.idxOf_getElem i hi).symm,
      (hs.idxOf_getElem j hj).symm⟩

/-! ### Nested indices -/

theorem nestedIndices_names (items : List Item) (pre post : List Name) :
    (nestedIndices pre.length items).map (fun g => g.map (fun i =>
      (pre ++ items.flatMap Item.flat ++ post).getD i [])) = items.map Item.flat := by
  induction items generalizing pre with
  | nil => rfl
  | cons it rest ih =>
    simp only [nestedIndices, List.map_cons, List.flatMap_cons]
    congr 1
    · apply List.ext_getElem
      · simp
      · intro n h1 h2
        simp only [List.getElem_map, List.getElem_range', Nat.one_mul]
        have h2' : n < it.flat.length := h2
        simp only [List.getD, List.append_assoc]
        rw [List.getElem?_append_right (by omega), Nat.add_sub_cancel_left,
          List.getElem?_append_left h2', List.getElem?_eq_getElem h2']
        rfl
    · have := ih (pre ++ it.flat)
      simp only [List.length_append, List.append_assoc] at this
      simpa only [List.append_assoc] using this

theorem nestedIndices_lt (items : List Item) (k : Nat) :
    ∀ g ∈ nestedIndices k items, ∀ i ∈ g, i < k + (items.flatMap Item.flat).length := by
  induction items generalizing k with
  | nil => simp [nestedIndices]
  | cons it rest ih =>
    intro g hg i hi
    simp only [nestedIndices, List.mem_cons] at hg
    simp only [List.flatMap_cons, List.length_append]
    rcases hg with rfl | hg
    · simp only [List.mem_range'_1] at hi; omega
    · have := ih _ g hg i hi; omega

theorem nestedIndices_flatten (items : List Item) (k : Nat) :
    (nestedIndices k items).flatten = List.range' k (items.flatMap Item.flat).length := by
  induction items generalizing k with
  | nil => simp [nestedIndices]
  | cons it rest ih =>
    simp only [nestedIndices, List.flatten_cons, ih, List.flatMap_cons, List.length_append]
    rw [List.range'_append_1]

/-! ### Offsets -/

theorem offset_zero (sizes : List Nat) : offset sizes 0 = 0 := by simp [offset]

theorem offset_length (sizes : List Nat) : offset sizes sizes.length = sizes.sum := by simp [offset]

theorem offset_succ {sizes : List Nat} {i : Nat} (h : i < sizes.length) :
    offset sizes (i + 1) = offset sizes i + sizes[i] := by
  simp only [offset]
  rw [List.take_succ_eq_append_getElem h, List.sum_append]
  simp

theorem offset_mono {sizes : List Nat} {i j : Nat} (h : i ≤ j) : offset sizes i ≤ offset sizes j := by
  obtain ⟨k, rfl⟩ := Nat.exists_eq_add_of_le h
  simp only [offset, List.take_add, List.sum_append]
  omega

/-- A position between two offsets lies in exactly one of the elementary slices
in between. -/
theorem exists_offset {sizes : List Nat} {a b f : Nat} (hab : a ≤ b) (h1 : offset sizes a ≤ f)
    (h2 : f < offset sizes b) : ∃ i, a ≤ i ∧ i < b ∧ offset sizes i ≤ f ∧ f < offset sizes (i + 1) := by
  obtain ⟨k, rfl⟩ := Nat.exists_eq_add_of_le hab
  clear hab
  induction k with
  | zero => simp at h2; omega
  | succ k ih =>
    by_cases h : f < offset sizes (a + k)
    · obtain ⟨i, hi⟩ := ih h
      exact ⟨i, hi.1, by omega, hi.2.2⟩
    · exact ⟨a + k, by omega, by omega, by omega, h2⟩

theorem offset_unique {sizes : List Nat} {i j f : Nat} (hi : offset sizes i ≤ f ∧ f < offset sizes (i + 1))
    (hj : offset sizes j ≤ f ∧ f < offset sizes (j + 1)) : i = j := by
  rcases Nat.lt_trichotomy i j with h | h | h
  · have := offset_mono (sizes := sizes) (show i + 1 ≤ j by omega); omega
  · exact h
  · have := offset_mono (sizes := sizes) (show j + 1 ≤ i by omega); omega

/-! ### argmax of a column -/

theorem argmax_block {pre mid post : List Bool} (h1 : ∀ x ∈ mid, x = true) (h2 : ∀ x ∈ pre ++ post, ¬ x = true)
    (hm : mid ≠ []) : argmax (pre ++ mid ++ post) = pre.length := by
  have htrue : true ∈ pre ++ mid ++ post := by
    obtain ⟨x, hx⟩ := List.exists_mem_of_ne_nil _ hm
    have := h1 x hx
    subst this
    simp [hx]
  unfold argmax
  rw [if_pos htrue, List.append_assoc, List.idxOf_append_of_notMem (fun h => h2 true (by simp [h]) rfl)]
  cases mid with
  | nil => exact absurd rfl hm
  | cons x mid =>
    have := h1 x (by simp)
    subst this
    simp

end Verif.Layout
