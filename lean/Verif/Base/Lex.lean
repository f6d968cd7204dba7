import Mathlib.Data.List.Sort

/-!
# Lexicographic order and sorting

`lexLe` is Python's `<=` on tuples/lists/strings; `sorted` is modelled by the
stable `List.insertionSort`.
-/

namespace Verif

/-- Python's `a <= b` for sequences, given `<=` on the elements. -/
def lexLe {α : Type} (le : α → α → Bool) : List α → List α → Bool
  | [], _ => true
  | _ :: _, [] => false
  | a :: as, b :: bs => if le a b then (if le b a then lexLe le as bs else true) else false

/-- A total order as a Boolean function. -/
structure IsLinear {α : Type} (le : α → α → Bool) : Prop where
  total : ∀ a b, le a b = true ∨ le b a = true
  trans : ∀ a b c, le a b = true → le b c = true → le a c = true
  antisymm : ∀ a b, le a b = true → le b a = true → a = b

theorem IsLinear.refl {α : Type} {le : α → α → Bool} (h : IsLinear le) (a : α) : le a a = true := by
  rcases h.total a a with h | h <;> exact h

theorem IsLinear.lex {α : Type} {le : α → α → Bool} (h : IsLinear le) : IsLinear (lexLe le) where
  total := by
    intro a
    induction a with
    | nil => intro b; simp [lexLe]
    | cons x a ih =>
      intro b
      cases b with
      | nil => simp [lexLe]
      | cons y b =>
        simp only [lexLe]
        rcases h.total x y with h1 | h1
        · by_cases h2 : le y x = true
          · simpa [h1, h2] using ih b
          · simp [h1, h2]
        · by_cases h2 : le x y = true
          · simpa [h1, h2] using ih b
          · simp [h1, h2]
  trans := by
    intro a
    induction a with
    | nil => intro b c _ _; simp [lexLe]
    | cons x a ih =>
      intro b c hab hbc
      cases b with
      | nil => simp [lexLe] at hab
      | cons y b =>
        cases c with
        | nil => simp [lexLe] at hbc
        | cons z c =>
          simp only [lexLe] at hab hbc ⊢
          by_cases hxy : le x y = true
          · by_cases hyz : le y z = true
            · have hxz := h.trans _ _ _ hxy hyz
              by_cases hzx : le z x = true
              · have e1 : x = y := h.antisymm _ _ hxy (h.trans _ _ _ hyz hzx)
                have e2 : y = z := h.antisymm _ _ hyz (h.trans _ _ _ hzx hxy)
                subst e1; subst e2
                simp only [hxy, if_true] at *
                exact ih _ _ hab hbc
              · simp [hxz, hzx]
            · simp [hyz] at hbc
          · simp [hxy] at hab
  antisymm := by
    intro a
    induction a with
    | nil => intro b _ hba; cases b with
      | nil => rfl
      | cons y b => simp [lexLe] at hba
    | cons x a ih =>
      intro b hab hba
      cases b with
      | nil => simp [lexLe] at hab
      | cons y b =>
        simp only [lexLe] at hab hba
        by_cases hxy : le x y = true
        · by_cases hyx : le y x = true
          · have e := h.antisymm _ _ hxy hyx
            subst e
            simp only [hxy, if_true] at *
            rw [ih _ hab hba]
          · simp [hyx] at hba
        · simp [hxy] at hab

/-- `sorted(l)` for elements ordered by `le`. -/
def sortBy {α : Type} (le : α → α → Bool) (l : List α) : List α :=
  l.insertionSort (fun a b => le a b = true)

theorem sortBy_perm {α : Type} (le : α → α → Bool) (l : List α) : (sortBy le l).Perm l :=
  List.perm_insertionSort _ _

theorem mem_sortBy {α : Type} {le : α → α → Bool} {l : List α} {x : α} :
    x ∈ sortBy le l ↔ x ∈ l := (sortBy_perm le l).mem_iff

theorem length_sortBy {α : Type} {le : α → α → Bool} {l : List α} :
    (sortBy le l).length = l.length := (sortBy_perm le l).length_eq

theorem sorted_insert {α : Type} {le : α → α → Bool} (htot : ∀ a b, le a b = true ∨ le b a = true)
    (htr : ∀ a b c, le a b = true → le b c = true → le a c = true) (x : α) :
    ∀ {l : List α}, l.Pairwise (fun a b => le a b = true) →
      (l.orderedInsert (fun a b => le a b = true) x).Pairwise (fun a b => le a b = true) := by
  intro l
  induction l with
  | nil => intro _; simp
  | cons y l ih =>
    intro hl
    rw [List.pairwise_cons] at hl
    simp only [List.orderedInsert]
    by_cases hxy : le x y = true
    · simp only [hxy, if_true]
      rw [List.pairwise_cons]
      refine ⟨?_, List.pairwise_cons.2 hl⟩
      intro z hz
      rcases List.mem_cons.1 hz with h | h
      · subst h; exact hxy
      · exact htr _ _ _ hxy (hl.1 z h)
    · rw [if_neg hxy, List.pairwise_cons]
      refine ⟨?_, ih hl.2⟩
      intro z hz
      rw [List.mem_orderedInsert] at hz
      rcases hz with h | h
      · subst h; rcases htot z y with h' | h'
        · exact absurd h' hxy
        · exact h'
      · exact hl.1 z h

/-- `sorted` sorts, for any total preorder on the keys. -/
theorem sortBy_sorted {α : Type} {le : α → α → Bool} (htot : ∀ a b, le a b = true ∨ le b a = true)
    (htr : ∀ a b c, le a b = true → le b c = true → le a c = true) (l : List α) :
    (sortBy le l).Pairwise (fun a b => le a b = true) := by
  induction l with
  | nil => simp [sortBy]
  | cons x l ih => exact sorted_insert htot htr x ih

/-- Two sorted permutations of each other are equal. -/
theorem eq_of_sorted_perm {α : Type} {le : α → α → Bool}
    (hanti : ∀ a b, le a b = true → le b a = true → a = b) :
    ∀ {l₁ l₂ : List α}, l₁.Pairwise (fun a b => le a b = true) →
      l₂.Pairwise (fun a b => le a b = true) → l₁.Perm l₂ → l₁ = l₂ := by
  intro l₁
  induction l₁ with
  | nil => intro l₂ _ _ hp; simpa using hp
  | cons a l₁ ih =>
    intro l₂ h₁ h₂ hp
    cases l₂ with
    | nil => simp at hp
    | cons b l₂ =>
      rw [List.pairwise_cons] at h₁ h₂
      have hab : a = b := by
        have ha := hp.mem_iff.1 (List.mem_cons_self (a := a) (l := l₁))
        have hb := hp.mem_iff.2 (List.mem_cons_self (a := b) (l := l₂))
        rcases List.mem_cons.1 ha with h' | h'
        · exact h'
        rcases List.mem_cons.1 hb with h'' | h''
        · exact h''.symm
        exact hanti _ _ (h₁.1 _ h'') (h₂.1 _ h')
      subst hab
      rw [ih h₁.2 h₂.2 (List.Perm.cons_inv hp)]

/-- `sorted` does not depend on the order of its input. -/
theorem sortBy_congr {α : Type} {le : α → α → Bool} (h : IsLinear le) {l₁ l₂ : List α}
    (hp : l₁.Perm l₂) : sortBy le l₁ = sortBy le l₂ :=
  eq_of_sorted_perm h.antisymm (sortBy_sorted h.total h.trans l₁) (sortBy_sorted h.total h.trans l₂)
    ((sortBy_perm le l₁).trans (hp.trans (sortBy_perm le l₂).symm))

end Verif
