import Verif.Construction.Lemmas

/-!
# Properties C01 and C02: layer names

Theorems about `Construction.run`, the state after any construction script,
stated with `created` (given names in creation order) and `Connected` (chains of
`>>`) from `Construction/Spec.lean`.
-/

namespace Verif.Construction

/-- **C01 (termination).** In every state reached by a script, asking an
existing layer for its name returns exactly one name: the loops end. -/
theorem C01_name_returns (ops : List Op) (i : Nat) (hi : i < (created ops).length) :
    ∃ n, HasName (run ops) i n ∧ ∀ m, HasName (run ops) i m → m = n := by
  have h := inv_run ops
  rw [← h.count] at hi
  rcases h.hasName hi with h1 | ⟨k, _, _, h1, _⟩
  · exact ⟨_, h1.2, fun m hm => hasName_unique hm h1.2⟩
  · exact ⟨_, h1, fun m hm => hasName_unique hm h1⟩

/-- **C01 (uniqueness).** After any script, two different layers that are
connected never report the same name. -/
theorem C01_names_distinct (ops : List Op) (i j : Nat)
    (hi : i < (created ops).length) (hj : j < (created ops).length)
    (hne : i ≠ j) (hc : Connected ops i j) (m n : Name)
    (hm : HasName (run ops) i m) (hn : HasName (run ops) j n) : m ≠ n := by
  have h := inv_run ops
  rw [← h.count] at hi hj
  have hp := h.ptr_eq_of_connected hc
  rintro rfl
  by_cases hb : (run ops).base i = (run ops).base j
  · rcases Nat.lt_or_gt_of_ne hne with hij | hij
    · obtain ⟨k, l, _, h2, h3, h4⟩ := h.hasName_order hij hj hp hb
      have e1 := hasName_unique hm h3
      have e2 := hasName_unique hn h4
      rw [e1] at e2
      have := (indexed_inj e2).2
      omega
    · obtain ⟨k, l, _, h2, h3, h4⟩ := h.hasName_order hij hi hp.symm hb.symm
      have e1 := hasName_unique hn h3
      have e2 := hasName_unique hm h4
      rw [e1] at e2
      have := (indexed_inj e2).2
      omega
  · rcases h.hasName hi with ⟨h1, h2⟩ | ⟨k, hk, hf, h2, _⟩ <;>
      rcases h.hasName hj with ⟨h1', h2'⟩ | ⟨k', hk', hf', h2', _⟩
    · exact hb ((hasName_unique hm h2).symm.trans (hasName_unique hn h2'))
    · have e := (hasName_unique hm h2).symm.trans (hasName_unique hn h2')
      apply hf' i
      rw [← e, ← hp, h.heap i hi, expected, h1]
      simp
    · have e := (hasName_unique hm h2).symm.trans (hasName_unique hn h2')
      apply hf j
      rw [e, hp, h.heap j hj, expected, h1']
      simp
    · have e := (hasName_unique hm h2).symm.trans (hasName_unique hn h2')
      exact hb (indexed_inj e).1

/-- **C02 (unshared name).** A layer whose given name is used by no other
connected layer is called exactly that. -/
theorem C02_sole_name (ops : List Op) (i : Nat) (b : Name) (hb : (created ops)[i]? = some b)
    (hsole : ∀ j, j ≠ i → Connected ops i j → (created ops)[j]? ≠ some b) :
    HasName (run ops) i b := by
  have h := inv_run ops
  have hi : i < (created ops).length := by
    rcases Nat.lt_or_ge i (created ops).length with h' | h'
    · exact h'
    · rw [List.getElem?_eq_none h'] at hb; simp at hb
  rw [← h.count] at hi
  have hbase : (run ops).base i = b := by rw [h.base]; simp [List.getD, hb]
  rcases h.hasName hi with ⟨_, h2⟩ | ⟨k, _, _, _, h2⟩
  · rwa [hbase] at h2
  · exfalso
    apply h2 i
    apply eq_of_sorted_nodup
    · exact (pairwise_lt_range _).filter _
    · simp
    · intro x
      rw [mem_members, List.mem_singleton]
      constructor
      · rintro ⟨hx, hp, hbx⟩
        apply Classical.byContradiction
        intro hne
        refine hsole x hne (h.ptr_conn i x hi hx hp.symm) ?_
        rw [h.base, hbase] at hbx
        have hlt : x < (created ops).length := by rw [← h.count]; exact hx
        simp [List.getD, List.getElem?_eq_getElem hlt] at hbx
        rw [List.getElem?_eq_getElem hlt, hbx]
      · rintro rfl; exact ⟨hi, rfl, rfl⟩

/-- **C02 (shared name).** If two connected layers were given the same name `b`,
they are called `b_k` and `b_l` with `1 ≤ k < l`, the one created first having
the smaller index. -/
theorem C02_shared_name (ops : List Op) (i j : Nat) (b : Name) (hij : i < j)
    (hi : (created ops)[i]? = some b) (hj : (created ops)[j]? = some b)
    (hc : Connected ops i j) :
    ∃ k l, 1 ≤ k ∧ k < l ∧ HasName (run ops) i (indexed b k) ∧
      HasName (run ops) j (indexed b l) := by
  have h := inv_run ops
  have lt : ∀ x, (created ops)[x]? = some b → x < (run ops).count ∧ (run ops).base x = b := by
    intro x hx
    rcases Nat.lt_or_ge x (created ops).length with h' | h'
    · exact ⟨by rw [h.count]; exact h', by rw [h.base]; simp [List.getD, hx]⟩
    · rw [List.getElem?_eq_none h'] at hx; simp at hx
  have h1 := lt i hi
  have h2 := lt j hj
  obtain ⟨k, l, a1, a2, a3, a4⟩ := h.hasName_order hij h2.1 (h.ptr_eq_of_connected hc)
    (h1.2.trans h2.2.symm)
  rw [h1.2] at a3 a4
  exact ⟨k, l, a1, a2, a3, a4⟩

/-! ### Non-vacuity: a script with a clash between a given name and an index -/

/-- Four layers called `F`, `F`, `F_1`, `F`, wired `0 >> 2`, `1 >> 3`, `3 >> 2`. -/
def demoOps : List Op :=
  [.create (str "FLayerImpl") none, .create (str "FLayerImpl") none,
   .create (str "GLayerImpl") (some (str "F_1")), .create (str "FLayerImpl") none,
   .connect 0 (str "default") (str "default") 2, .connect 1 (str "default") (str "default") 3,
   .connect 3 (str "default") (str "default") 2]

example : created demoOps = [str "F", str "F", str "F_1", str "F"] := by decide

/-- Layers 0 and 3 are connected (through 2), different and share a given name. -/
example : Connected demoOps 0 3 :=
  .trans _ 2 _ (.rel _ _ ⟨⟨0, str "default", str "default", 2⟩, by decide, rfl, rfl⟩)
    (.symm _ _ (.rel _ _ ⟨⟨3, str "default", str "default", 2⟩, by decide, rfl, rfl⟩))

/-- The names the model computes: `F_2`, `F_3`, `F_1`, `F_4`. -/
example : (List.range 4).map (nameFuel 10 (run demoOps)) =
    [some (str "F_2"), some (str "F_3"), some (str "F_1"), some (str "F_4")] := by decide

end Verif.Construction
