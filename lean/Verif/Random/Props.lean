/-!
# Random states: `brainstorm/randomness.py`

Numpy's generator is a parameter: `G` is its state, `ofSeed` its initialisation (`RandomState(seed)`
and `seed(seed)` for an integer seed), `draw` the drawing methods, with `seedDraw` for
`randint(0, 1000000000)`.
-/

namespace Verif.Random

/-- Numpy's generator. -/
structure Numpy (G D V : Type) where
  ofSeed : Nat → G
  draw : D → G → V × G
  seedDraw : G → Nat × G

variable {G D V : Type}

/-- `RandomState` (randomness.py:10-90): numpy's state and the remembered seed `_seed`. -/
structure RS (G : Type) where
  gen : G
  seed : Nat

/-- `RandomState(seed)` (randomness.py:18-22) for an integer seed. -/
def fresh (np : Numpy G D V) (seed : Nat) : RS G := ⟨np.ofSeed seed, seed⟩

/-- `set_seed`/`seed` (randomness.py:24-52). -/
def RS.setSeed (np : Numpy G D V) (_ : RS G) (seed : Nat) : RS G := ⟨np.ofSeed seed, seed⟩

/-- `reset` (randomness.py:54-58). -/
def RS.reset (np : Numpy G D V) (r : RS G) : RS G := r.setSeed np r.seed

/-- `generate_seed` (randomness.py:60-64). -/
def RS.generateSeed (np : Numpy G D V) (r : RS G) : Nat × RS G := ((np.seedDraw r.gen).1, ⟨(np.seedDraw r.gen).2, r.seed⟩)

/-- Any of numpy's drawing methods. -/
def RS.draw (np : Numpy G D V) (r : RS G) (d : D) : V × RS G := ((np.draw d r.gen).1, ⟨(np.draw d r.gen).2, r.seed⟩)

/-- What a program can do with random states.  Objects are numbered in the order of their creation. -/
inductive Op (D : Type)
  /-- draw from object `i` -/
  | draw (i : Nat) (d : D)
  | setSeed (i : Nat) (seed : Nat)
  | reset (i : Nat)
  /-- `RandomState(seed)` or a new `Seedable` (randomness.py:18-22, 104-105) -/
  | new (seed : Option Nat)
  /-- `create_random_state` of object `i` (randomness.py:66-80) -/
  | create (i : Nat) (seed : Option Nat)
  /-- pickling, unpickling and copying (randomness.py:82-90): state and seed are kept -/
  | copy (i : Nat)
  /-- draw from `global_rnd` -/
  | globalDraw (d : D)
  /-- `global_rnd.create_random_state` -/
  | globalCreate (seed : Option Nat)

/-- The state: `global_rnd` (randomness.py:111) and the objects. -/
structure World (G : Type) where
  glob : RS G
  objs : List (RS G)

/-- Replace object `i`. -/
def World.put (w : World G) (i : Nat) (r : RS G) : World G := ⟨w.glob, w.objs.set i r⟩

/-- One operation; drawing outputs a value.  Operations on objects that do not exist do nothing. -/
def step (np : Numpy G D V) (w : World G) : Op D → Option V × World G
  | .draw i d => match w.objs[i]? with
    | none => (none, w)
    | some r => (some (r.draw np d).1, w.put i (r.draw np d).2)
  | .setSeed i s => match w.objs[i]? with
    | none => (none, w)
    | some r => (none, w.put i (r.setSeed np s))
  | .reset i => match w.objs[i]? with
    | none => (none, w)
    | some r => (none, w.put i (r.reset np))
  | .new (some s) => (none, ⟨w.glob, w.objs ++ [fresh np s]⟩)
  | .new none => (none, ⟨(w.glob.generateSeed np).2, w.objs ++ [fresh np (w.glob.generateSeed np).1]⟩)
  | .create _ (some s) => (none, ⟨w.glob, w.objs ++ [fresh np s]⟩)
  | .create i none => match w.objs[i]? with
    | none => (none, w)
    | some r => (none, ⟨w.glob, w.objs.set i (r.generateSeed np).2 ++ [fresh np (r.generateSeed np).1]⟩)
  | .copy i => match w.objs[i]? with
    | none => (none, w)
    | some r => (none, ⟨w.glob, w.objs ++ [r]⟩)
  | .globalDraw d => (some (w.glob.draw np d).1, ⟨(w.glob.draw np d).2, w.objs⟩)
  | .globalCreate (some s) => (none, ⟨w.glob, w.objs ++ [fresh np s]⟩)
  | .globalCreate none => (none, ⟨(w.glob.generateSeed np).2, w.objs ++ [fresh np (w.glob.generateSeed np).1]⟩)

/-- A program. -/
def run (np : Numpy G D V) : World G → List (Op D) → List (Option V) × World G
  | w, [] => ([], w)
  | w, op :: ops => ((step np w op).1 :: (run np (step np w op).2 ops).1, (run np (step np w op).2 ops).2)

/-! ### Specification -/

/-- The values a generator in state `g` gives. -/
def values (np : Numpy G D V) : G → List D → List V
  | _, [] => []
  | g, d :: ds => (np.draw d g).1 :: values np (np.draw d g).2 ds

/-- The seeds a state generates one after the other. -/
def seeds (np : Numpy G D V) : Nat → RS G → List Nat
  | 0, _ => []
  | n + 1, r => (r.generateSeed np).1 :: seeds np n (r.generateSeed np).2

/-- The last seed given to object `i`, if its first one was `s`. -/
def lastSeed (i : Nat) : Nat → List (Op D) → Nat
  | s, [] => s
  | s, .setSeed j t :: ops => lastSeed i (if j = i then t else s) ops
  | s, _ :: ops => lastSeed i s ops

/-- The same operation `n` objects later. -/
def Op.shift (n : Nat) : Op D → Op D
  | .draw i d => .draw (n + i) d
  | .setSeed i s => .setSeed (n + i) s
  | .reset i => .reset (n + i)
  | .new s => .new s
  | .create i s => .create (n + i) s
  | .copy i => .copy (n + i)
  | .globalDraw d => .globalDraw d
  | .globalCreate s => .globalCreate s

/-! ### Proofs -/

theorem run_append (np : Numpy G D V) : ∀ (ops ops' : List (Op D)) (w : World G),
    (run np w (ops ++ ops')).1 = (run np w ops).1 ++ (run np (run np w ops).2 ops').1 ∧
    (run np w (ops ++ ops')).2 = (run np (run np w ops).2 ops').2
  | [], ops', w => ⟨rfl, rfl⟩
  | op :: ops, ops', w => by
    have ih := run_append np ops ops' (step np w op).2
    simp only [List.cons_append, run]
    exact ⟨by rw [ih.1], ih.2⟩

theorem step_length (np : Numpy G D V) (w : World G) (op : Op D) : w.objs.length ≤ (step np w op).2.objs.length := by
  cases op with
  | draw i d => simp only [step]; split <;> simp [World.put]
  | setSeed i s => simp only [step]; split <;> simp [World.put]
  | reset i => simp only [step]; split <;> simp [World.put]
  | new s => cases s <;> simp [step]
  | create i s =>
    cases s with
    | some s => simp [step]
    | none => simp only [step]; split <;> simp
  | copy i => simp only [step]; split <;> simp
  | globalDraw d => simp [step]
  | globalCreate s => cases s <;> simp [step]

theorem run_length (np : Numpy G D V) : ∀ (ops : List (Op D)) (w : World G), w.objs.length ≤ (run np w ops).2.objs.length
  | [], w => Nat.le_refl _
  | op :: ops, w => Nat.le_trans (step_length np w op) (run_length np ops _)

/-- Drawing from one object. -/
theorem run_draws (np : Numpy G D V) (i : Nat) : ∀ (ds : List D) (w : World G) (r : RS G), w.objs[i]? = some r →
    (run np w (ds.map (Op.draw i))).1 = (values np r.gen ds).map some
  | [], w, r, _ => rfl
  | d :: ds, w, r, h => by
    simp only [List.map_cons, run, step, h, values]
    congr 1
    have hi : i < w.objs.length := by
      obtain ⟨h', -⟩ := List.getElem?_eq_some_iff.1 h
      exact h'
    have h' : (w.put i (r.draw np d).2).objs[i]? = some (r.draw np d).2 := by
      simp [World.put, hi]
    rw [run_draws np i ds _ _ h']
    rfl

/-- **C29** (set_seed): after `set_seed(s)` an object draws the same values as a new random state
with seed `s`, whatever happened before. -/
theorem C29_set_seed (np : Numpy G D V) (w : World G) (history : List (Op D)) (i : Nat) (hi : i < w.objs.length) (s : Nat) (ds : List D) :
    (run np (run np w (history ++ [.setSeed i s])).2 (ds.map (Op.draw i))).1 = (values np (fresh np s).gen ds).map some := by
  rw [(run_append np history [.setSeed i s] w).2]
  have hlen := Nat.lt_of_lt_of_le hi (run_length np history w)
  generalize (run np w history).2 = w' at hlen
  apply run_draws
  simp [run, step, List.getElem?_eq_getElem hlen, World.put, RS.setSeed, fresh, hlen]

theorem seed_of_step (np : Numpy G D V) (w : World G) (op : Op D) (i : Nat) (r : RS G) (h : w.objs[i]? = some r) :
    ∃ r', (step np w op).2.objs[i]? = some r' ∧ r'.seed = lastSeed i r.seed [op] := by
  have hi : i < w.objs.length := by
    obtain ⟨h', -⟩ := List.getElem?_eq_some_iff.1 h
    exact h'
  have hg : w.objs[i] = r := by
    obtain ⟨_, h'⟩ := List.getElem?_eq_some_iff.1 h
    exact h'
  have hset : ∀ (j : Nat) (x : RS G), (w.objs.set j x)[i]? = some (if j = i then x else r) := by
    intro j x
    rw [List.getElem?_set]
    by_cases hj : j = i
    · subst hj; simp [hi]
    · simp [hj, h]
  cases op with
  | draw j d =>
    simp only [step]
    split
    · exact ⟨r, h, rfl⟩
    · rename_i r₀ h₀
      refine ⟨_, hset _ _, ?_⟩
      split
      · rename_i e; subst e; rw [h] at h₀; cases h₀; rfl
      · rfl
  | setSeed j s =>
    simp only [step]
    split
    · rename_i h₀
      refine ⟨r, h, ?_⟩
      simp only [lastSeed]
      split
      · rename_i e; subst e; rw [h] at h₀; simp at h₀
      · rfl
    · rename_i r₀ h₀
      refine ⟨_, hset _ _, ?_⟩
      simp only [lastSeed]
      split <;> rfl
  | reset j =>
    simp only [step]
    split
    · exact ⟨r, h, rfl⟩
    · rename_i r₀ h₀
      refine ⟨_, hset _ _, ?_⟩
      split
      · rename_i e; subst e; rw [h] at h₀; cases h₀; rfl
      · rfl
  | new s => cases s <;> exact ⟨r, by simp [step, List.getElem?_append, hi, hg], rfl⟩
  | create j s =>
    cases s with
    | some s => exact ⟨r, by simp [step, List.getElem?_append, hi, hg], rfl⟩
    | none =>
      simp only [step]
      split
      · exact ⟨r, h, rfl⟩
      · rename_i r₀ h₀
        refine ⟨_, by simp only [List.getElem?_append, List.length_set, hi, if_true]; exact hset _ _, ?_⟩
        split
        · rename_i e; subst e; rw [h] at h₀; cases h₀; rfl
        · rfl
  | copy j =>
    simp only [step]
    split
    · exact ⟨r, h, rfl⟩
    · exact ⟨r, by simp [List.getElem?_append, hi, hg], rfl⟩
  | globalDraw d => exact ⟨r, h, rfl⟩
  | globalCreate s => cases s <;> exact ⟨r, by simp [step, List.getElem?_append, hi, hg], rfl⟩

theorem lastSeed_cons (i s : Nat) (op : Op D) (ops : List (Op D)) : lastSeed i s (op :: ops) = lastSeed i (lastSeed i s [op]) ops := by
  cases op <;> rfl

theorem seed_of_run (np : Numpy G D V) (i : Nat) : ∀ (ops : List (Op D)) (w : World G) (r : RS G), w.objs[i]? = some r →
    ∃ r', (run np w ops).2.objs[i]? = some r' ∧ r'.seed = lastSeed i r.seed ops
  | [], w, r, h => ⟨r, h, rfl⟩
  | op :: ops, w, r, h => by
    obtain ⟨r₁, h1, h2⟩ := seed_of_step np w op i r h
    obtain ⟨r₂, h3, h4⟩ := seed_of_run np i ops _ r₁ h1
    refine ⟨r₂, h3, ?_⟩
    rw [h4, h2, ← lastSeed_cons]

/-- **C29** (reset): after `reset()` an object draws the same values as a new random state with the
seed it was last given. -/
theorem C29_reset (np : Numpy G D V) (w : World G) (history : List (Op D)) (i : Nat) (r : RS G) (h : w.objs[i]? = some r) (ds : List D) :
    (run np (run np w (history ++ [.reset i])).2 (ds.map (Op.draw i))).1 =
      (values np (fresh np (lastSeed i r.seed history)).gen ds).map some := by
  rw [(run_append np history [.reset i] w).2]
  obtain ⟨r', h1, h2⟩ := seed_of_run np i history w r h
  generalize (run np w history).2 = w' at h1
  have hi : i < w'.objs.length := by
    obtain ⟨h', -⟩ := List.getElem?_eq_some_iff.1 h1
    exact h'
  apply run_draws
  simp only [run, step, h1, World.put, RS.reset, RS.setSeed, h2]
  simp [hi, fresh]

/-- A copied or unpickled random state continues with the same values and keeps its seed. -/
theorem C29_copy (np : Numpy G D V) (w : World G) (i : Nat) (r : RS G) (h : w.objs[i]? = some r) (ds : List D) :
    (run np (step np w (.copy i)).2 (ds.map (Op.draw w.objs.length))).1 = (run np w (ds.map (Op.draw i))).1 := by
  rw [run_draws np i ds w r h]
  apply run_draws
  simp [step, h]

theorem step_shift (np : Numpy G D V) (old : List (RS G)) (w : World G) (op : Op D) :
    step np ⟨w.glob, old ++ w.objs⟩ (op.shift old.length) = ((step np w op).1, ⟨(step np w op).2.glob, old ++ (step np w op).2.objs⟩) := by
  have hget : ∀ i, (old ++ w.objs)[old.length + i]? = w.objs[i]? := by
    intro i
    rw [List.getElem?_append_right (by omega)]
    congr 1
    omega
  have hset : ∀ (i : Nat) (x : RS G), (old ++ w.objs).set (old.length + i) x = old ++ w.objs.set i x := by
    intro i x
    rw [List.set_append_right _ _ (by omega)]
    congr 2
    omega
  cases op with
  | draw i d =>
    simp only [Op.shift, step, hget]
    cases w.objs[i]? with
    | none => rfl
    | some r => simp only [World.put, hset]
  | setSeed i s =>
    simp only [Op.shift, step, hget]
    cases w.objs[i]? with
    | none => rfl
    | some r => simp only [World.put, hset]
  | reset i =>
    simp only [Op.shift, step, hget]
    cases w.objs[i]? with
    | none => rfl
    | some r => simp only [World.put, hset]
  | new s => cases s <;> simp [Op.shift, step]
  | create i s =>
    cases s with
    | some s => simp [Op.shift, step]
    | none =>
      simp only [Op.shift, step, hget]
      cases w.objs[i]? with
      | none => rfl
      | some r => simp only [hset, List.append_assoc]
  | copy i =>
    simp only [Op.shift, step, hget]
    cases w.objs[i]? with
    | none => rfl
    | some r => simp only [List.append_assoc]
  | globalDraw d => rfl
  | globalCreate s => cases s <;> simp [Op.shift, step]

theorem run_shift (np : Numpy G D V) (old : List (RS G)) : ∀ (ops : List (Op D)) (w : World G),
    (run np ⟨w.glob, old ++ w.objs⟩ (ops.map (Op.shift old.length))).1 = (run np w ops).1
  | [], w => rfl
  | op :: ops, w => by
    simp only [List.map_cons, run, step_shift]
    rw [run_shift np old ops (step np w op).2]

/-- **C29** (programs): after `global_rnd.set_seed(s)` a program that creates its own random states
(with or without explicit seeds, from `global_rnd` or from each other), draws, reseeds, resets and
copies them gives the same values as the same program started afresh with that seed, whatever random
states exist before and whatever was drawn from them or from `global_rnd`. -/
theorem C29_program (np : Numpy G D V) (before : World G) (s : Nat) (ops : List (Op D)) :
    (run np ⟨before.glob.setSeed np s, before.objs⟩ (ops.map (Op.shift before.objs.length))).1 = (run np ⟨fresh np s, []⟩ ops).1 := by
  have := run_shift np before.objs ops ⟨fresh np s, []⟩
  simp only [List.append_nil] at this
  exact this

/-- Two parents with the same seed give their children the same seeds if they create them in the
same order. -/
theorem C29_children (np : Numpy G D V) (n : Nat) (w : World G) (p q : Nat) (hpq : p ≠ q) (r : RS G) (hp : w.objs[p]? = some r)
    (hq : w.objs[q]? = some r) :
    (((run np w (List.replicate n (.create p none))).2.objs.drop w.objs.length).map RS.seed) =
    (((run np w (List.replicate n (.create q none))).2.objs.drop w.objs.length).map RS.seed) := by
  have key : ∀ (n : Nat) (i : Nat) (w : World G) (r : RS G), w.objs[i]? = some r →
      ∃ tail, (run np w (List.replicate n (.create i none))).2.objs.drop w.objs.length = tail ∧
        tail.map RS.seed = seeds np n r := by
    intro n
    induction n with
    | zero => intro i w r h; exact ⟨[], by simp [run], rfl⟩
    | succ n ih =>
      intro i w r h
      have hi : i < w.objs.length := by
        obtain ⟨h', -⟩ := List.getElem?_eq_some_iff.1 h
        exact h'
      rw [List.replicate_succ]
      simp only [run, step, h]
      have h' : (w.objs.set i (r.generateSeed np).2 ++ [fresh np (r.generateSeed np).1])[i]? = some (r.generateSeed np).2 := by
        simp [List.getElem?_append, hi]
      obtain ⟨tail, h1, h2⟩ := ih i ⟨w.glob, w.objs.set i (r.generateSeed np).2 ++ [fresh np (r.generateSeed np).1]⟩ _ h'
      simp only [List.length_append, List.length_set, List.length_cons, List.length_nil] at h1
      refine ⟨fresh np (r.generateSeed np).1 :: tail, ?_, by simp [seeds, h2, fresh]⟩
      have hkeep : ∀ (m : Nat) (w : World G) (k : Nat), k ≠ i → k < w.objs.length →
          (run np w (List.replicate m (.create i none))).2.objs[k]? = w.objs[k]? := by
        intro m
        induction m with
        | zero => intro w k _ _; rfl
        | succ m ihm =>
          intro w k hk hlt
          rw [List.replicate_succ]
          simp only [run, step]
          cases hw : w.objs[i]? with
          | none => simp only; exact ihm w k hk hlt
          | some r' =>
            simp only
            rw [ihm _ k hk (by simp; omega)]
            rw [List.getElem?_append_left (by simpa using hlt), List.getElem?_set]
            simp [Ne.symm hk]
      have hk := hkeep n ⟨w.glob, w.objs.set i (r.generateSeed np).2 ++ [fresh np (r.generateSeed np).1]⟩ w.objs.length (by omega) (by simp)
      have hlt := run_length np (List.replicate n (.create i none)) ⟨w.glob, w.objs.set i (r.generateSeed np).2 ++ [fresh np (r.generateSeed np).1]⟩
      simp only [List.length_append, List.length_set, List.length_cons, List.length_nil] at hlt
      rw [List.drop_eq_getElem_cons (by omega), h1]
      congr 1
      rw [List.getElem?_eq_getElem (by omega)] at hk
      simpa using hk
  obtain ⟨t1, a1, a2⟩ := key n p w r hp
  obtain ⟨t2, b1, b2⟩ := key n q w r hq
  rw [a1, a2, b1, b2]

/-- **C29**: random states created without a seed get the successive seeds of the global random state, which moves on; their
later use does not touch it. -/
theorem C29_unseeded (np : Numpy G D V) : ∀ (n : Nat) (w : World G),
    (run np w (List.replicate n (.new none))).2.objs = w.objs ++ (seeds np n w.glob).map (fresh np) ∧
    (run np w (List.replicate n (.new none))).2 = (run np w (List.replicate n (.globalCreate none))).2 ∧
    ∀ m, seeds np (n + m) w.glob = seeds np n w.glob ++ seeds np m (run np w (List.replicate n (.new none))).2.glob
  | 0, w => ⟨by simp [run, seeds], rfl, fun m => by simp [run, seeds]⟩
  | n + 1, w => by
    obtain ⟨h1, h2, h3⟩ := C29_unseeded np n ⟨(w.glob.generateSeed np).2, w.objs ++ [fresh np (w.glob.generateSeed np).1]⟩
    refine ⟨?_, ?_, fun m => ?_⟩
    · simp only [List.replicate_succ, run, step, h1, seeds, List.map_cons, List.append_assoc, List.singleton_append]
    · simp only [List.replicate_succ, run, step, h2]
    · rw [show n + 1 + m = (n + m) + 1 by omega]
      simp only [List.replicate_succ, run, step, seeds, List.cons_append, ← h3 m]

/-! ### Examples -/

/-- A toy generator. -/
def demo : Numpy Nat Nat Nat := ⟨fun s => s * 7, fun d g => (g % (d + 1), g + 3), fun g => (g * 5, g + 1)⟩

example : (run demo ⟨fresh demo 4, []⟩ [.new none, .draw 0 9, .create 0 none, .draw 1 9, .setSeed 0 2, .draw 0 9, .copy 0, .draw 2 9]).1 =
    [none, some 0, none, some 5, none, some 4, none, some 7] := by decide +kernel

example : ((run demo ⟨fresh demo 4, []⟩ [.new none, .new none, .globalCreate none]).2.objs.map RS.seed) = [140, 145, 150] := by
  decide +kernel

example : (run demo ⟨(⟨123, 5⟩ : RS Nat).setSeed demo 4, [⟨1, 1⟩, ⟨2, 2⟩]⟩
    ([.new none, .draw 0 9, .create 0 none, .draw 1 9, .setSeed 0 2, .draw 0 9, .copy 0, .draw 2 9].map (Op.shift 2))).1 =
    [none, some 0, none, some 5, none, some 4, none, some 7] := by decide +kernel

end Verif.Random
