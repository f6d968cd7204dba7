/-!
# Python dictionaries as association lists

Trusted reading of Python's `dict` used by all models: an insertion-ordered
list of key/value pairs.  `set` overwrites in place or appends at the end
(Python >= 3.7 insertion order; where the order could matter the theorems are
quantified over it).
-/

namespace Verif

/-- A Python `dict`: list of (key, value) in insertion order. -/
abbrev Dict (κ ν : Type _) := List (κ × ν)

namespace Dict

variable {κ : Type u} {ν : Type v} [DecidableEq κ]

/-- `d[k]` / `d.get(k)`: `none` stands for a missing key (`KeyError` / `None`). -/
def get? (d : Dict κ ν) (k : κ) : Option ν :=
  match d with
  | [] => none
  | (k', v) :: d => if k' = k then some v else get? d k

/-- `k in d`. -/
def has (d : Dict κ ν) (k : κ) : Bool := (get? d k).isSome

/-- `d[k] = v`. -/
def set (d : Dict κ ν) (k : κ) (v : ν) : Dict κ ν :=
  match d with
  | [] => [(k, v)]
  | (k', v') :: d => if k' = k then (k, v) :: d else (k', v') :: set d k v

/-- `list(d.keys())`. -/
def keys (d : Dict κ ν) : List κ := d.map (·.1)

@[simp] theorem get?_nil (k : κ) : get? ([] : Dict κ ν) k = none := rfl

theorem get?_cons (k' : κ) (v : ν) (d : Dict κ ν) (k : κ) :
    get? ((k', v) :: d) k = if k' = k then some v else get? d k := rfl

theorem get?_set_self (d : Dict κ ν) (k : κ) (v : ν) : get? (set d k v) k = some v := by
  induction d with
  | nil => simp [set, get?]
  | cons p d ih =>
    obtain ⟨k', v'⟩ := p
    by_cases h : k' = k
    · simp [set, h, get?]
    · simp [set, h, get?, ih]

theorem get?_set_ne (d : Dict κ ν) (k k₂ : κ) (v : ν) (h : k ≠ k₂) :
    get? (set d k v) k₂ = get? d k₂ := by
  induction d with
  | nil => simp [set, get?, h]
  | cons p d ih =>
    obtain ⟨k', v'⟩ := p
    by_cases h' : k' = k
    · subst h'; simp [set, get?, h]
    · simp [set, h', get?, ih]

theorem get?_set (d : Dict κ ν) (k k₂ : κ) (v : ν) :
    get? (set d k v) k₂ = if k = k₂ then some v else get? d k₂ := by
  split
  · next h => subst h; exact get?_set_self ..
  · next h => exact get?_set_ne _ _ _ _ h

theorem mem_keys_iff (d : Dict κ ν) (k : κ) : k ∈ keys d ↔ (get? d k).isSome := by
  induction d with
  | nil => simp [keys]
  | cons p d ih =>
    obtain ⟨k', v'⟩ := p
    simp only [keys, List.map_cons, List.mem_cons, get?_cons] at *
    by_cases h : k' = k
    · simp [h]
    · simp [h, ih, Ne.symm h]

theorem get?_eq_none_iff (d : Dict κ ν) (k : κ) : get? d k = none ↔ k ∉ keys d := by
  rw [mem_keys_iff]; cases get? d k <;> simp

theorem mem_of_get? {d : Dict κ ν} {k : κ} {v : ν} (h : get? d k = some v) : (k, v) ∈ d := by
  induction d with
  | nil => simp at h
  | cons p d ih =>
    obtain ⟨k', v'⟩ := p
    rw [get?_cons] at h
    split at h
    · next h' => subst h'; simp at h; subst h; simp
    · exact List.mem_cons_of_mem _ (ih h)

theorem get?_of_mem {d : Dict κ ν} (hd : (keys d).Nodup) {k : κ} {v : ν} (h : (k, v) ∈ d) :
    get? d k = some v := by
  induction d with
  | nil => simp at h
  | cons p d ih =>
    obtain ⟨k', v'⟩ := p
    simp only [keys, List.map_cons, List.nodup_cons] at hd
    rw [get?_cons]
    rcases List.mem_cons.1 h with h | h
    · cases h; simp
    · have : k' ≠ k := by
        rintro rfl
        exact hd.1 (List.mem_map.2 ⟨_, h, rfl⟩)
      simp [this, ih hd.2 h]

theorem keys_set (d : Dict κ ν) (k : κ) (v : ν) :
    keys (set d k v) = if k ∈ keys d then keys d else keys d ++ [k] := by
  induction d with
  | nil => simp [set, keys]
  | cons p d ih =>
    obtain ⟨k', v'⟩ := p
    by_cases h : k' = k
    · subst h; simp [set, keys]
    · simp only [set, h, if_false]
      simp only [keys, List.map_cons, List.mem_cons, Ne.symm h, false_or] at *
      by_cases hk : k ∈ List.map (fun x => x.1) d <;> simp [ih, hk]

theorem nodup_keys_set (d : Dict κ ν) (k : κ) (v : ν) (h : (keys d).Nodup) :
    (keys (set d k v)).Nodup := by
  rw [keys_set]
  split
  · exact h
  · next hk =>
    rw [List.nodup_append]
    refine ⟨h, by simp, ?_⟩
    intro a ha b hb hab
    simp at hb
    subst hb; subst hab
    exact hk ha

end Dict

end Verif
