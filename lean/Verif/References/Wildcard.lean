import Verif.Utils.Names

/-!
# Layer references with wildcards: `brainstorm/structure/view_references.py:13-24`

The regular expression built from an accepted reference consists of literal identifier
characters and `[_a-zA-Z0-9]*` for every `*`, between `^` and `$`; its matching is modelled
directly (backtracking decides whether some way of matching exists).
-/

namespace Verif.References

/-- `reference.replace('*', '_')`. -/
def unstar (ref : Name) : Name := ref.map (fun c => if c = '*' then '_' else c)

/-- `[_a-zA-Z0-9]*` followed by what `rest` matches. -/
def starMatch (rest : Name → Bool) : Name → Bool
  | [] => rest []
  | c :: s => rest (c :: s) || (isIdentChar c && starMatch rest s)

/-- Matching the expression built from a reference (view_references.py:24), with `$` also matching
before a final newline. -/
def regexMatch : Name → Name → Bool
  | [], s => s = [] || s = ['\n']
  | '*' :: p, s => starMatch (regexMatch p) s
  | a :: p, s => match s with
    | [] => false
    | c :: s' => a = c && regexMatch p s'

/-- Matching a literal reference (view_references.py:18-19). -/
def literalMatch (ref name : Name) : Bool := name = ref || name = ref ++ ['\n']

/-- `get_regex_for_reference(reference).match(name)` (view_references.py:13-24); `none` where the
assertion fails. -/
def refMatches (ref name : Name) : Option Bool :=
  if isValidLayerName ref then some (literalMatch ref name)
  else if isValidLayerName (unstar ref) then some (regexMatch ref name)
  else none

/-! ### Specification -/

/-- `name` arises from `ref` by replacing every `*` by a string of letters, digits and
underscores. -/
inductive Fills : Name → Name → Prop
  | nil : Fills [] []
  | star (p s w : Name) : (∀ c ∈ w, isIdentChar c = true) → Fills p s → Fills ('*' :: p) (w ++ s)
  | lit (a : Char) (p s : Name) : a ≠ '*' → Fills p s → Fills (a :: p) (a :: s)

/-! ### Proofs -/

theorem starMatch_iff (rest : Name → Bool) (s : Name) :
    starMatch rest s = true ↔ ∃ w t, s = w ++ t ∧ (∀ c ∈ w, isIdentChar c = true) ∧ rest t = true := by
  induction s with
  | nil =>
    simp only [starMatch]
    constructor
    · intro h; exact ⟨[], [], rfl, by simp, h⟩
    · rintro ⟨w, t, h, -, ht⟩
      have := List.append_eq_nil_iff.1 h.symm
      rw [this.2] at ht; exact ht
  | cons c s ih =>
    simp only [starMatch, Bool.or_eq_true, Bool.and_eq_true, ih]
    constructor
    · rintro (h | ⟨hc, w, t, rfl, hw, ht⟩)
      · exact ⟨[], c :: s, rfl, by simp, h⟩
      · refine ⟨c :: w, t, rfl, ?_, ht⟩
        intro x hx
        rcases List.mem_cons.1 hx with rfl | hx
        · exact hc
        · exact hw x hx
    · rintro ⟨w, t, h, hw, ht⟩
      cases w with
      | nil => left; rw [List.nil_append] at h; rw [h]; exact ht
      | cons d w =>
        rw [List.cons_append, List.cons.injEq] at h
        obtain ⟨rfl, rfl⟩ := h
        exact .inr ⟨hw c List.mem_cons_self, w, t, rfl, fun x hx => hw x (List.mem_cons_of_mem _ hx), ht⟩

theorem regexMatch_lit (a : Char) (ha : a ≠ '*') (p s : Name) :
    regexMatch (a :: p) s = match s with
      | [] => false
      | c :: s' => a = c && regexMatch p s' := by
  cases s with
  | nil => rw [regexMatch]; intro h; exact ha h
  | cons c s => rw [regexMatch]; intro h; exact ha h

theorem fills_cons (a : Char) (ha : a ≠ '*') (p s : Name) : Fills (a :: p) s ↔ ∃ t, s = a :: t ∧ Fills p t := by
  constructor
  · intro h
    cases h with
    | lit _ _ t _ h => exact ⟨t, rfl, h⟩
    | star _ _ _ _ _ => exact absurd rfl ha
  · rintro ⟨t, rfl, h⟩
    exact .lit a p t ha h

/-- The expression matches what the reference can be filled to, optionally followed by a newline. -/
theorem regexMatch_iff (p s : Name) : regexMatch p s = true ↔ Fills p s ∨ ∃ t, s = t ++ ['\n'] ∧ Fills p t := by
  induction p generalizing s with
  | nil =>
    simp only [regexMatch, Bool.or_eq_true, decide_eq_true_eq]
    constructor
    · rintro (rfl | rfl)
      · exact .inl .nil
      · exact .inr ⟨[], rfl, .nil⟩
    · rintro (h | ⟨t, rfl, h⟩)
      · cases h; exact .inl rfl
      · cases h; exact .inr rfl
  | cons a p ih =>
    by_cases ha : a = '*'
    · subst ha
      have : regexMatch ('*' :: p) s = starMatch (regexMatch p) s := by simp [regexMatch]
      rw [this, starMatch_iff]
      constructor
      · rintro ⟨w, t, rfl, hw, ht⟩
        rcases (ih t).1 ht with h | ⟨u, rfl, h⟩
        · exact .inl (.star p t w hw h)
        · exact .inr ⟨w ++ u, by simp, .star p u w hw h⟩
      · rintro (h | ⟨t, rfl, h⟩)
        · cases h with
          | star p s w hw h => exact ⟨w, s, rfl, hw, (ih s).2 (.inl h)⟩
          | lit _ _ _ h => exact absurd rfl h
        · cases h with
          | star p s w hw h => exact ⟨w, s ++ ['\n'], by simp, hw, (ih _).2 (.inr ⟨s, rfl, h⟩)⟩
          | lit _ _ _ h => exact absurd rfl h
    · rw [regexMatch_lit a ha]
      cases s with
      | nil =>
        simp only [Bool.false_eq_true, false_iff]
        rintro (h | ⟨t, h, -⟩)
        · rw [fills_cons a ha] at h
          obtain ⟨t, h, -⟩ := h
          simp at h
        · simp at h
      | cons c s =>
        simp only [Bool.and_eq_true, decide_eq_true_eq, ih, fills_cons a ha]
        constructor
        · rintro ⟨rfl, h | ⟨t, rfl, h⟩⟩
          · exact .inl ⟨s, rfl, h⟩
          · exact .inr ⟨a :: t, rfl, t, rfl, h⟩
        · rintro (⟨t, ht, h⟩ | ⟨t, ht, u, rfl, h⟩)
          · simp only [List.cons.injEq] at ht
            obtain ⟨rfl, rfl⟩ := ht
            exact ⟨rfl, .inl h⟩
          · simp only [List.cons_append, List.cons.injEq] at ht
            obtain ⟨rfl, rfl⟩ := ht
            exact ⟨rfl, .inr ⟨u, rfl, h⟩⟩

theorem matchesIdentifier_go_star (s : Name) (h : matchesIdentifier.go s = true) : '*' ∉ s := by
  induction s with
  | nil => simp
  | cons c s ih =>
    intro hmem
    cases s with
    | nil =>
      simp only [List.mem_singleton] at hmem
      subst hmem
      exact absurd h (by decide)
    | cons d s =>
      simp only [matchesIdentifier.go, Bool.and_eq_true] at h
      rcases List.mem_cons.1 hmem with rfl | hmem
      · exact absurd h.1 (by decide)
      · exact ih h.2 hmem

theorem no_star_of_valid (ref : Name) (h : isValidLayerName ref = true) : '*' ∉ ref := by
  unfold isValidLayerName at h
  split at h
  · simp at h
  · cases ref with
    | nil => simp
    | cons c s =>
      simp only [matchesIdentifier, Bool.and_eq_true] at h
      intro hmem
      rcases List.mem_cons.1 hmem with rfl | hmem
      · exact absurd h.1 (by decide)
      · exact matchesIdentifier_go_star s h.2 hmem

theorem fills_lit (p s : Name) (h : '*' ∉ p) : Fills p s ↔ s = p := by
  induction p generalizing s with
  | nil => exact ⟨fun h => by cases h; rfl, fun h => h ▸ .nil⟩
  | cons a p ih =>
    have ha : a ≠ '*' := fun e => h (e ▸ List.mem_cons_self)
    have hp : '*' ∉ p := fun e => h (List.mem_cons_of_mem _ e)
    constructor
    · intro hf
      cases hf with
      | lit _ _ t _ hf => rw [(ih t hp).1 hf]
      | star _ _ _ _ _ => exact absurd rfl ha
    · rintro rfl
      exact .lit a p p ha ((ih p hp).2 rfl)

/-- **C25**: a reference that the code accepts matches a name (without newline) if and only if the
name arises from it by replacing each `*` by a possibly empty string of letters, digits and
underscores. -/
theorem C25_wildcard (ref name : Name) (b : Bool) (hn : '\n' ∉ name) (h : refMatches ref name = some b) :
    b = true ↔ Fills ref name := by
  unfold refMatches at h
  split at h
  · rename_i hv
    simp only [Option.some.injEq] at h
    subst h
    rw [fills_lit ref name (no_star_of_valid ref hv)]
    simp only [literalMatch, Bool.or_eq_true, decide_eq_true_eq]
    constructor
    · rintro (h | rfl)
      · exact h
      · exact absurd (by simp) hn
    · exact .inl
  · split at h
    · simp only [Option.some.injEq] at h
      subst h
      rw [regexMatch_iff]
      constructor
      · rintro (h | ⟨t, rfl, -⟩)
        · exact h
        · exact absurd (by simp) hn
      · exact .inl
    · simp at h

/-- **C25** (literal references): a reference without `*` matches only itself. -/
theorem C25_literal (ref name : Name) (b : Bool) (hn : '\n' ∉ name) (hs : '*' ∉ ref) (h : refMatches ref name = some b) :
    b = true ↔ name = ref := by
  rw [C25_wildcard ref name b hn h, fills_lit ref name hs]

/-- **C25** (accepted references): exactly the references that are valid layer names once every `*`
is replaced by an underscore are accepted, whatever the name they are compared with. -/
theorem C25_accepted (ref name : Name) : (refMatches ref name).isSome = true ↔ isValidLayerName (unstar ref) = true := by
  unfold refMatches
  split
  · rename_i h
    have hs := no_star_of_valid ref h
    have : unstar ref = ref := by
      unfold unstar
      clear h
      induction ref with
      | nil => rfl
      | cons c ref ih =>
        have hc : c ≠ '*' := fun e => hs (e ▸ List.mem_cons_self)
        rw [List.map_cons, ih (fun e => hs (List.mem_cons_of_mem _ e)), if_neg hc]
    simp [this, h]
  · split <;> simp_all

/-- The newline quirk of `$`: a name with a trailing newline matches as well. -/
theorem C25_newline_quirk : refMatches (str "a*") (str "ab\n") = some true ∧ ¬ Fills (str "a*") (str "ab\n") := by
  refine ⟨by decide +kernel, ?_⟩
  intro h
  have h1 : str "a*" = ['a', '*'] := by decide
  have h2 : str "ab\n" = ['a', 'b', '\n'] := by decide
  rw [h1, h2] at h
  cases h with
  | lit _ _ _ _ h =>
    generalize hx : ['b', '\n'] = x at h
    cases h with
    | star _ s w hw h =>
      cases h
      rw [List.append_nil] at hx
      subst hx
      exact absurd (hw '\n' (by simp)) (by decide)
    | lit _ _ _ h => exact absurd rfl h

example : refMatches (str "I*_bias*") (str "In_bias_2") = some true ∧ refMatches (str "I*_bias") (str "In_bias_2") = some false ∧
    refMatches (str "1*") (str "1") = none := by decide +kernel

end Verif.References
