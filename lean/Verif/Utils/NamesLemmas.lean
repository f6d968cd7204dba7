import Verif.Utils.Names

/-! Helper lemmas about decimal numbers and indexed names. -/

namespace Verif

theorem digitChar_inj {a b : Nat} (ha : a < 10) (hb : b < 10) (h : digitChar a = digitChar b) :
    a = b := by
  have key : ∀ a < 10, ∀ b < 10, digitChar a = digitChar b → a = b := by decide
  exact key a ha b hb h

theorem digitChar_ne_underscore {a : Nat} (ha : a < 10) : digitChar a ≠ '_' := by
  revert a; decide

theorem decimalAux_lt {n : Nat} (h : n < 10) : ∀ fuel, decimalAux fuel n = [digitChar n] := by
  intro fuel; cases fuel <;> simp [decimalAux, h]

theorem decimalAux_eq : ∀ (f g n : Nat), n ≤ f → n ≤ g → decimalAux f n = decimalAux g n := by
  intro f
  induction f with
  | zero => intro g n hf hg; rw [decimalAux_lt (by omega), decimalAux_lt (by omega)]
  | succ f ih =>
    intro g n hf hg
    by_cases h : n < 10
    · rw [decimalAux_lt h, decimalAux_lt h]
    · obtain ⟨g, rfl⟩ : ∃ k, g = k + 1 := ⟨g - 1, by omega⟩
      simp only [decimalAux, h, if_false]
      rw [ih g (n / 10) (by omega) (by omega)]

theorem decimal_lt {n : Nat} (h : n < 10) : decimal n = [digitChar n] := decimalAux_lt h n

theorem decimal_ge {n : Nat} (h : ¬ n < 10) :
    decimal n = decimal (n / 10) ++ [digitChar (n % 10)] := by
  obtain ⟨m, rfl⟩ : ∃ k, n = k + 1 := ⟨n - 1, by omega⟩
  unfold decimal
  rw [decimalAux]
  simp only [h, if_false]
  rw [decimalAux_eq m ((m + 1) / 10) _ (by omega) (by omega)]

theorem decimal_ne_nil (n : Nat) : decimal n ≠ [] := by
  by_cases h : n < 10
  · rw [decimal_lt h]; simp
  · rw [decimal_ge h]; simp

theorem decimal_inj : ∀ {a b : Nat}, decimal a = decimal b → a = b := by
  intro a
  induction a using Nat.strongRecOn with
  | ind a ih =>
    intro b h
    by_cases ha : a < 10
    · by_cases hb : b < 10
      · rw [decimal_lt ha, decimal_lt hb] at h
        exact digitChar_inj ha hb (by simpa using h)
      · rw [decimal_lt ha, decimal_ge hb] at h
        have := congrArg List.length h
        have h2 := List.length_pos_iff.2 (decimal_ne_nil (b / 10))
        simp only [List.length_append, List.length_singleton] at this
        omega
    · by_cases hb : b < 10
      · rw [decimal_ge ha, decimal_lt hb] at h
        have := congrArg List.length h
        have h2 := List.length_pos_iff.2 (decimal_ne_nil (a / 10))
        simp only [List.length_append, List.length_singleton] at this
        omega
      · rw [decimal_ge ha, decimal_ge hb] at h
        have h' := List.append_inj' h rfl
        have e1 := ih (a / 10) (by omega) h'.1
        have e2 := digitChar_inj (Nat.mod_lt a (by decide)) (Nat.mod_lt b (by decide))
          (by simpa using h'.2)
        omega

theorem underscore_not_mem_decimal (n : Nat) : '_' ∉ decimal n := by
  induction n using Nat.strongRecOn with
  | ind n ih =>
    by_cases h : n < 10
    · rw [decimal_lt h]
      simpa using (digitChar_ne_underscore h).symm
    · rw [decimal_ge h]
      have := ih (n / 10) (by omega)
      have h2 := digitChar_ne_underscore (Nat.mod_lt n (show 0 < 10 by decide))
      simp [this, h2.symm]

/-- Splitting at the last occurrence of a separator is unique. -/
theorem append_sep_inj {α : Type} {sep : α} :
    ∀ {x y u v : List α}, sep ∉ u → sep ∉ v → x ++ sep :: u = y ++ sep :: v → x = y ∧ u = v := by
  intro x
  induction x with
  | nil =>
    intro y u v hu hv h
    cases y with
    | nil => simpa using h
    | cons c y =>
      simp at h
      exact absurd (by simp [h.2]) hu
  | cons c x ih =>
    intro y u v hu hv h
    cases y with
    | nil =>
      simp at h
      exact absurd (by simp [← h.2]) hv
    | cons d y =>
      simp at h
      obtain ⟨h1, h2⟩ := ih hu hv h.2
      exact ⟨by rw [h.1, h1], h2⟩

theorem indexed_inj {b c : Name} {i j : Nat} (h : indexed b i = indexed c j) : b = c ∧ i = j := by
  have := append_sep_inj (underscore_not_mem_decimal i) (underscore_not_mem_decimal j) h
  exact ⟨this.1, decimal_inj this.2⟩

end Verif
