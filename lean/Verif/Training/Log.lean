import Verif.Base.Dict
import Verif.Utils.Names

/-!
# `Trainer._add_log`: `brainstorm/training/trainer.py:171-191`

A hook returns `None`, a value, or a (nested) dictionary of these; logs are nested
dictionaries whose leaves are lists of values.  Printing is left out.
-/

namespace Verif.Training

/-- What a hook returns. -/
inductive Val (V : Type)
  | none
  | leaf (v : V)
  | dict (entries : List (Name × Val V))

/-- An entry of the logs. -/
inductive Log (V : Type)
  | values (vs : List V)
  | dict (entries : List (Name × Log V))

/-- `trainer.logs`. -/
abbrev Logs (V : Type) := Dict Name (Log V)

variable {V : Type}

/-- `val is None`. -/
def Val.isNone : Val V → Bool
  | .none => true
  | _ => false

mutual
/-- `_add_log` (trainer.py:171-191).  Fails where the code raises because a list is
used as a dictionary or the other way round. -/
def addLog (name : Name) : Val V → Logs V → Option (Logs V)
  | .none, logs => some logs
  | .dict es, logs => match Dict.get? logs name with
    | none => (addEntries es []).map (fun sub => Dict.set logs name (.dict sub))
    | some (.dict sub) => (addEntries es sub).map (fun sub => Dict.set logs name (.dict sub))
    | some (.values _) => if es.all (fun e => e.2.isNone) then some logs else none
  | .leaf v, logs => match Dict.get? logs name with
    | none => some (Dict.set logs name (.values [v]))
    | some (.values vs) => some (Dict.set logs name (.values (vs ++ [v])))
    | some (.dict _) => none
/-- The loop over the entries of a dictionary (trainer.py:184-185). -/
def addEntries : List (Name × Val V) → Logs V → Option (Logs V)
  | [], logs => some logs
  | (k, v) :: rest, logs => match addLog k v logs with
    | none => none
    | some logs' => addEntries rest logs'
end

/-! ### Specification -/

/-- The values logged under a path. -/
def valuesAt : Logs V → List Name → List V
  | _, [] => []
  | logs, k :: path => match Dict.get? logs k with
    | none => []
    | some (.values vs) => if path = [] then vs else []
    | some (.dict sub) => valuesAt sub path

mutual
/-- The values a result contains, with their paths. -/
def leaves (name : Name) : Val V → List (List Name × V)
  | .none => []
  | .leaf v => [([name], v)]
  | .dict es => (leavesList es).map (fun p => (name :: p.1, p.2))
/-- The same for a list of entries. -/
def leavesList : List (Name × Val V) → List (List Name × V)
  | [] => []
  | (k, v) :: rest => leaves k v ++ leavesList rest
end

/-- The values of a result under a path. -/
def valuesOf (ls : List (List Name × V)) (path : List Name) : List V :=
  (ls.filter (fun p => p.1 == path)).map Prod.snd

theorem valuesAt_set_ne (logs : Logs V) (k name : Name) (l : Log V) (path : List Name) (h : name ≠ k) :
    valuesAt (Dict.set logs name l) (k :: path) = valuesAt logs (k :: path) := by
  simp only [valuesAt, Dict.get?_set_ne _ _ _ _ h]

theorem valuesOf_append (a b : List (List Name × V)) (path : List Name) :
    valuesOf (a ++ b) path = valuesOf a path ++ valuesOf b path := by
  simp [valuesOf]

theorem valuesOf_cons_map (ls : List (List Name × V)) (name k : Name) (path : List Name) :
    valuesOf (ls.map (fun p => (name :: p.1, p.2))) (k :: path) = if name = k then valuesOf ls path else [] := by
  induction ls with
  | nil => simp [valuesOf]
  | cons a ls ih =>
    simp only [valuesOf, List.map_cons, List.filter_cons] at ih ⊢
    by_cases h : name = k
    · subst h
      simp only [if_true] at ih ⊢
      by_cases h2 : a.1 = path
      · simp [h2, ih]
      · simp [h2, ih]
    · simp only [h, if_false] at ih ⊢
      simp [h, ih]

theorem valuesOf_cons_nil (ls : List (List Name × V)) (name : Name) :
    valuesOf (ls.map (fun p => (name :: p.1, p.2))) [] = [] := by
  unfold valuesOf
  rw [List.filter_eq_nil_iff.2, List.map_nil]
  intro p hp
  obtain ⟨q, -, rfl⟩ := List.mem_map.1 hp
  simp

theorem leavesList_none (es : List (Name × Val V)) (h : es.all (fun e => e.2.isNone) = true) :
    leavesList es = [] := by
  induction es with
  | nil => simp [leavesList]
  | cons e es ih =>
    obtain ⟨k, v⟩ := e
    simp only [List.all_cons, Bool.and_eq_true] at h
    cases v with
    | none => simp [leavesList, leaves, ih h.2]
    | leaf v => simp [Val.isNone] at h
    | dict es => simp [Val.isNone] at h

mutual
theorem addLog_spec (name : Name) : ∀ (v : Val V) (logs logs' : Logs V), addLog name v logs = some logs' →
    ∀ path, valuesAt logs' path = valuesAt logs path ++ valuesOf (leaves name v) path
  | .none, logs, logs', h, path => by
    simp only [addLog, Option.some.injEq] at h
    simp [h, leaves, valuesOf]
  | .leaf v, logs, logs', h, path => by
    cases path with
    | nil => simp [valuesAt, leaves, valuesOf]
    | cons k path =>
      simp only [addLog] at h
      have hv : valuesOf (leaves name (.leaf v)) (k :: path) = if name = k ∧ path = [] then [v] else [] := by
        simp only [leaves, valuesOf, List.filter_cons, List.filter_nil]
        by_cases h1 : name = k <;> by_cases h2 : path = []
        · simp [h1, h2]
        · simp [h1, Ne.symm h2, h2]
        · simp [h1]
        · simp [h1]
      rw [hv]
      split at h
      · rename_i hg
        simp only [Option.some.injEq] at h
        subst h
        by_cases hk : name = k
        · subst hk
          simp only [valuesAt, Dict.get?_set_self, hg, true_and]
          split <;> simp
        · rw [valuesAt_set_ne _ _ _ _ _ hk]; simp [hk]
      · rename_i vs hg
        simp only [Option.some.injEq] at h
        subst h
        by_cases hk : name = k
        · subst hk
          simp only [valuesAt, Dict.get?_set_self, hg, true_and]
          split <;> simp
        · rw [valuesAt_set_ne _ _ _ _ _ hk]; simp [hk]
      · simp at h
  | .dict es, logs, logs', h, path => by
    cases path with
    | nil => simp [valuesAt, leaves, valuesOf_cons_nil]
    | cons k path =>
      simp only [addLog] at h
      simp only [leaves, valuesOf_cons_map]
      split at h
      · rename_i hg
        obtain ⟨sub, hs, rfl⟩ := Option.map_eq_some_iff.1 h
        by_cases hk : name = k
        · subst hk
          have := addEntries_spec es [] sub hs path
          simp only [valuesAt, Dict.get?_set_self, hg, if_true, this]
          cases path <;> simp [valuesAt]
        · rw [valuesAt_set_ne _ _ _ _ _ hk]; simp [hk]
      · rename_i sub₀ hg
        obtain ⟨sub, hs, rfl⟩ := Option.map_eq_some_iff.1 h
        by_cases hk : name = k
        · subst hk
          have := addEntries_spec es sub₀ sub hs path
          simp only [valuesAt, Dict.get?_set_self, hg, if_true, this]
        · rw [valuesAt_set_ne _ _ _ _ _ hk]; simp [hk]
      · split at h
        · rename_i hall
          simp only [Option.some.injEq] at h
          subst h
          rw [leavesList_none es hall]
          simp [valuesOf]
        · simp at h
theorem addEntries_spec : ∀ (es : List (Name × Val V)) (logs logs' : Logs V), addEntries es logs = some logs' →
    ∀ path, valuesAt logs' path = valuesAt logs path ++ valuesOf (leavesList es) path
  | [], logs, logs', h, path => by
    simp only [addEntries, Option.some.injEq] at h
    simp [h, leavesList, valuesOf]
  | (k, v) :: rest, logs, logs', h, path => by
    simp only [addEntries] at h
    split at h
    · simp at h
    · rename_i logs₁ h₁
      rw [addEntries_spec rest logs₁ logs' h path, addLog_spec k v logs logs₁ h₁ path, leavesList, valuesOf_append,
        List.append_assoc]
end

/-- **C34** (logging): every value in the result of a hook is appended to the log
under its path, and no other log entry changes. -/
theorem C34_log_appends (name : Name) (v : Val V) (logs logs' : Logs V) (h : addLog name v logs = some logs')
    (path : List Name) : valuesAt logs' path = valuesAt logs path ++ valuesOf (leaves name v) path :=
  addLog_spec name v logs logs' h path

example : ((addLog (str "m") (.dict [(str "a", .leaf 1), (str "b", .none), (str "c", .dict [(str "d", .leaf 2)])]) []).bind
    (addLog (str "m") (.dict [(str "a", .leaf 3), (str "c", .dict [(str "d", .leaf 4)])]))).map (fun l =>
      (valuesAt l [str "m", str "a"], valuesAt l [str "m", str "c", str "d"], valuesAt l [str "m", str "b"])) =
    some ([1, 3], [2, 4], ([] : List Nat)) := by decide +kernel

end Verif.Training
