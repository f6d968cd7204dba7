import Verif.Base.Lex

/-!
# The order of hooks: `brainstorm/training/trainer.py:45-65, 118-126`

Hook objects are numbered and live in a heap that stores their `priority`, which is 0 when
a hook is created (hooks.py:35).  Several trainers may hold the same hook object.  A hook is
identified with its name (adding two hooks with one name to a trainer raises).
-/

namespace Verif.Training

/-- The priorities of the hook objects and the hooks of every trainer, in insertion order. -/
structure Hooks where
  prio : Nat → Nat
  trainers : Nat → List Nat

/-- No hook has been added. -/
def Hooks.empty : Hooks := ⟨fun _ => 0, fun _ => []⟩

/-- `max([...]) + 1` over a non-empty list of priorities. -/
def maxPlusOne (ps : List Nat) : Nat := ps.foldl Nat.max 0 + 1

/-- `Trainer.add_hook` (trainer.py:45-65): the new priority is one more than the maximum over the
trainer's hooks including the new one; a duplicate name raises and changes nothing. -/
def addHook (s : Hooks) (t h : Nat) : Hooks :=
  if h ∈ s.trainers t then s
  else
    let hooks := s.trainers t ++ [h]
    { prio := fun i => if i = h then maxPlusOne (hooks.map s.prio) else s.prio i
      trainers := fun t' => if t' = t then hooks else s.trainers t' }

/-- A history of `add_hook` calls. -/
def runAdds (adds : List (Nat × Nat)) : Hooks := adds.foldl (fun s x => addHook s x.1 x.2) Hooks.empty

/-- `__init_from_description__` (trainer.py:118-126): `items` are the hooks in the order in which
the description stores them; they are sorted by priority. -/
def reload (s : Hooks) (items : List Nat) : List Nat :=
  sortBy (fun a b => decide (s.prio a ≤ s.prio b)) items

theorem le_foldl_max (ps : List Nat) : ∀ (a : Nat), a ≤ ps.foldl Nat.max a ∧ ∀ p ∈ ps, p ≤ ps.foldl Nat.max a := by
  induction ps with
  | nil => intro a; simp
  | cons q ps ih =>
    intro a
    simp only [List.foldl_cons]
    obtain ⟨h1, h2⟩ := ih (Nat.max a q)
    refine ⟨Nat.le_trans (Nat.le_max_left a q) h1, ?_⟩
    intro p hp
    rcases List.mem_cons.1 hp with rfl | hp
    · exact Nat.le_trans (Nat.le_max_right a p) h1
    · exact h2 p hp

theorem lt_maxPlusOne (ps : List Nat) (p : Nat) (h : p ∈ ps) : p < maxPlusOne ps :=
  Nat.lt_succ_of_le ((le_foldl_max ps 0).2 p h)

/-- What holds after any history: hooks belong to the trainers they were added to, and within a
trainer priorities strictly increase. -/
structure Ordered (adds : List (Nat × Nat)) (s : Hooks) : Prop where
  mem : ∀ t h, h ∈ s.trainers t → (t, h) ∈ adds
  sorted : ∀ t, (s.trainers t).Pairwise (fun a b => s.prio a < s.prio b)

theorem ordered_run (adds : List (Nat × Nat))
    (hshare : ∀ t t' h, (t, h) ∈ adds → (t', h) ∈ adds → t = t') : Ordered adds (runAdds adds) := by
  unfold runAdds
  suffices ∀ (rest pre : List (Nat × Nat)) (s : Hooks), (∀ x ∈ pre ++ rest, x ∈ adds) → Ordered pre s →
      Ordered (pre ++ rest) (rest.foldl (fun s x => addHook s x.1 x.2) s) by
    simpa using this adds [] Hooks.empty (by simp) ⟨by simp [Hooks.empty], by simp [Hooks.empty]⟩
  intro rest
  induction rest with
  | nil => intro pre s _ h; simpa using h
  | cons x rest ih =>
    intro pre s hsub h
    obtain ⟨t, k⟩ := x
    rw [List.foldl_cons, show pre ++ (t, k) :: rest = (pre ++ [(t, k)]) ++ rest by simp]
    apply ih
    · intro x hx
      exact hsub x (by simpa using hx)
    · unfold addHook
      simp only
      split
      · exact ⟨fun t' h' hm => List.mem_append_left _ (h.mem t' h' hm), h.sorted⟩
      · rename_i hnot
        have hadd : (t, k) ∈ adds := hsub _ (by simp)
        have hother : ∀ t' , t' ≠ t → k ∉ s.trainers t' := fun t' hne hm =>
          hne (hshare t' t k (hsub _ (List.mem_append_left _ (h.mem t' k hm))) hadd)
        refine ⟨?_, ?_⟩
        · intro t' h' hm
          simp only at hm
          split at hm
          · rename_i ht
            subst ht
            rcases List.mem_append.1 hm with hm | hm
            · exact List.mem_append_left _ (h.mem t' h' hm)
            · simp only [List.mem_singleton] at hm
              subst hm
              simp
          · exact List.mem_append_left _ (h.mem t' h' hm)
        · intro t'
          simp only
          split
          · rename_i ht
            subst ht
            rw [List.pairwise_append]
            refine ⟨?_, by simp, ?_⟩
            · refine (h.sorted t').imp_of_mem ?_
              intro a b ha hb hab
              have h1 : a ≠ k := fun hh => hnot (hh ▸ ha)
              have h2 : b ≠ k := fun hh => hnot (hh ▸ hb)
              simpa [h1, h2] using hab
            · intro a ha b hb
              simp only [List.mem_singleton] at hb
              subst hb
              have h1 : a ≠ b := fun hh => hnot (hh ▸ ha)
              rw [if_neg h1, if_pos rfl]
              exact lt_maxPlusOne _ _ (List.mem_map.2 ⟨a, List.mem_append_left _ ha, rfl⟩)
          · rename_i ht
            refine (h.sorted t').imp_of_mem ?_
            intro a b ha hb hab
            have h1 : a ≠ k := fun hh => hother t' ht (hh ▸ ha)
            have h2 : b ≠ k := fun hh => hother t' ht (hh ▸ hb)
            simpa [h1, h2] using hab

theorem reload_of_sorted (s : Hooks) (l items : List Nat) (h : l.Pairwise (fun a b => s.prio a < s.prio b))
    (hp : items.Perm l) : reload s items = l := by
  have htot : ∀ a b, decide (s.prio a ≤ s.prio b) = true ∨ decide (s.prio b ≤ s.prio a) = true := by
    intro a b; simp only [decide_eq_true_eq]; omega
  have htr : ∀ a b c, decide (s.prio a ≤ s.prio b) = true → decide (s.prio b ≤ s.prio c) = true →
      decide (s.prio a ≤ s.prio c) = true := by
    intro a b c; simp only [decide_eq_true_eq]; omega
  have hs := sortBy_sorted (le := fun a b => decide (s.prio a ≤ s.prio b)) htot htr items
  have hperm := (sortBy_perm (fun a b => decide (s.prio a ≤ s.prio b)) items).trans hp
  unfold reload
  generalize sortBy (fun a b => decide (s.prio a ≤ s.prio b)) items = r at hs hperm
  clear hp htot htr
  induction l generalizing r with
  | nil => simpa using hperm
  | cons a l ih =>
    rw [List.pairwise_cons] at h
    cases r with
    | nil => simp at hperm
    | cons b r =>
      rw [List.pairwise_cons] at hs
      have hab : b = a := by
        have hb := hperm.mem_iff.1 (List.mem_cons_self (a := b) (l := r))
        have ha := hperm.mem_iff.2 (List.mem_cons_self (a := a) (l := l))
        rcases List.mem_cons.1 hb with h' | h'
        · exact h'
        rcases List.mem_cons.1 ha with h'' | h''
        · exact h''.symm
        have h1 := hs.1 a h''
        have h2 := h.1 b h'
        simp only [decide_eq_true_eq] at h1
        omega
      subst hab
      rw [ih h.2 r hs.2 (List.Perm.cons_inv hperm)]

/-- **C54**: after any history of `add_hook` calls in which no hook object is added to two
trainers, reloading a trainer from its description yields its hooks in the order in which they
were added, in whatever order the description stores them. -/
theorem C54_order (adds : List (Nat × Nat)) (hshare : ∀ t t' h, (t, h) ∈ adds → (t', h) ∈ adds → t = t')
    (t : Nat) (items : List Nat) (hp : items.Perm ((runAdds adds).trainers t)) :
    reload (runAdds adds) items = (runAdds adds).trainers t :=
  reload_of_sorted _ _ _ ((ordered_run adds hshare).sorted t) hp

/-- What "the order in which they were added" is: the hooks added to the trainer, without
repetitions (which raise). -/
theorem C54_added (adds : List (Nat × Nat)) (t : Nat) (hnd : adds.Nodup) :
    (runAdds adds).trainers t = (adds.filter (fun x => x.1 = t)).map Prod.snd := by
  unfold runAdds
  suffices ∀ (rest pre : List (Nat × Nat)) (s : Hooks), (pre ++ rest).Nodup →
      (∀ t, s.trainers t = (pre.filter (fun x => x.1 = t)).map Prod.snd) →
      (rest.foldl (fun s x => addHook s x.1 x.2) s).trainers t = ((pre ++ rest).filter (fun x => x.1 = t)).map Prod.snd by
    simpa using this adds [] Hooks.empty (by simpa using hnd) (by simp [Hooks.empty])
  intro rest
  induction rest with
  | nil => intro pre s _ h; simpa using h t
  | cons x rest ih =>
    intro pre s hn h
    obtain ⟨t₀, k⟩ := x
    rw [List.foldl_cons, show pre ++ (t₀, k) :: rest = (pre ++ [(t₀, k)]) ++ rest by simp]
    apply ih
    · simpa using hn
    · intro t'
      have hnot : k ∉ s.trainers t₀ := by
        rw [h t₀]
        intro hm
        obtain ⟨⟨a, b⟩, hab, rfl⟩ := List.mem_map.1 hm
        rw [List.mem_filter] at hab
        simp only [decide_eq_true_eq] at hab
        obtain ⟨hab, rfl⟩ := hab
        rw [List.nodup_append] at hn
        exact hn.2.2 _ hab _ List.mem_cons_self rfl
      unfold addHook
      rw [if_neg hnot]
      simp only [List.filter_append, List.map_append, h]
      by_cases ht : t' = t₀
      · subst ht; simp
      · have ht2 : ¬ t₀ = t' := fun e => ht e.symm
        simp [ht, ht2]

example : reload (runAdds [(0, 5), (1, 7), (0, 3), (0, 9)]) [9, 5, 3] = [5, 3, 9] := by decide +kernel

/-- **C54** (shared hooks): adding a hook of one trainer to another one can change the order in
which the first is reloaded. -/
theorem C54_shared_hook :
    (runAdds [(0, 5), (0, 3), (1, 7), (1, 8), (1, 5)]).trainers 0 = [5, 3] ∧
    reload (runAdds [(0, 5), (0, 3), (1, 7), (1, 8), (1, 5)]) [5, 3] = [3, 5] := by decide +kernel

end Verif.Training
