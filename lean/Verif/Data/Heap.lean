import Verif.Data.Props
import Mathlib.Data.List.Induction
import Mathlib.Logic.Function.Iterate

/-!
# Aliasing in data iterators (C32): `brainstorm/data_iterators.py`

Arrays live in a heap; dictionaries hold references, which may be views
(`v[time_slice, batch_slice]`) of an array of the user.  A wrapper that handles
several names is a sequence of wrappers handling one name each.  Generators run
batch by batch: the base iterator yields a dictionary, every wrapper (innermost
first) changes it, then the consumer reads it (and does not write to it).
-/

namespace Verif.Data

/-- A reference to a heap array or to the view `[:stop, lo:hi]` of one. -/
structure Ref where
  base : Nat
  view : Option (Nat × Nat × Nat)
deriving DecidableEq, Repr

/-- The heap and the dictionary `self.data` of the base iterator. -/
structure Store (α : Type) where
  arrays : List (Arr α)
  own : Dict Name Ref

variable {α ρ : Type}

/-- The value of a reference. -/
def readRef (arrays : List (Arr α)) (r : Ref) : Arr α :=
  let a := arrays.getD r.base ⟨0, 0, []⟩
  match r.view with
  | none => a
  | some (stop, lo, hi) => a.slice stop lo hi

/-- The values of a dictionary. -/
def contents (arrays : List (Arr α)) (d : Dict Name Ref) : Dict Name (Arr α) :=
  d.map (fun e => (e.1, readRef arrays e.2))

/-- What a wrapper does to one name, given its random draws.
* `fresh`: `data[name] = new array` (AddGaussianNoise 82-87, AddSaltNPepper 132-140,
  OneHot 222-231, MultiHot 268-273, Pad 312-323, RandomCrop 361-376);
* `inPlace`: the chosen sequences are overwritten in the array itself (Flip 178-185). -/
inductive Wrap (α ρ : Type)
  | fresh (name : Name) (f : ρ → Arr α → Arr α)
  | inPlace (name : Name) (g : α → α) (chosen : ρ → Nat → Bool)

/-- Write into the sequences `lo + i`, `chosen i`, at all steps of a reference. -/
def writeThrough (g : α → α) (chosen : Nat → Bool) (r : Ref) (a : Arr α) : Arr α :=
  let (stop, lo, hi) := r.view.getD (a.times, 0, a.seqs)
  ⟨a.rank, a.seqs, a.rows.mapIdx (fun t row => if t < stop then
      row.mapIdx (fun i x => if lo ≤ i ∧ i < hi ∧ chosen (i - lo) then g x else x)
    else row)⟩

/-- The dictionary being yielded: the stored one, or one made for this batch. -/
inductive Target
  | own
  | temp (d : Dict Name Ref)

/-- The entries of the dictionary. -/
def Target.dict (s : Store α) : Target → Dict Name Ref
  | .own => s.own
  | .temp d => d

/-- Assigning an entry. -/
def Target.assign (s : Store α) (k : Name) (r : Ref) : Target → Store α × Target
  | .own => (⟨s.arrays, Dict.set s.own k r⟩, .own)
  | .temp d => (s, .temp (Dict.set d k r))

/-- One wrapper on one batch. -/
def Wrap.run (w : Wrap α ρ) (draw : ρ) (st : Store α × Target) : Option (Store α × Target) :=
  match w with
  | .fresh k f => match Dict.get? (st.2.dict st.1) k with
    | none => none
    | some r =>
      let new := f draw (readRef st.1.arrays r)
      some (Target.assign ⟨st.1.arrays ++ [new], st.1.own⟩ k ⟨st.1.arrays.length, none⟩ st.2)
  | .inPlace k g chosen => match Dict.get? (st.2.dict st.1) k with
    | none => none
    | some r => some (⟨st.1.arrays.modify r.base (writeThrough g (chosen draw) r), st.1.own⟩, st.2)

/-- All wrappers on one batch. -/
def runWraps : List (Wrap α ρ × ρ) → Store α × Target → Option (Store α × Target)
  | [], st => some st
  | (w, draw) :: rest, st => match w.run draw st with
    | none => none
    | some st' => runWraps rest st'

/-- The base iterators: `Undivided` (379-397) yields the stored dictionary,
`Minibatches` (454-466) a new dictionary of views. -/
inductive Base
  | undivided
  | minibatches (batchSize : Nat) (seqLens : List Nat)

/-- The dictionary yielded for batch `idx`. -/
def Base.yield (b : Base) (s : Store α) (idx : Nat) : Target :=
  match b with
  | .undivided => .own
  | .minibatches bs lens =>
    let lo := idx * bs
    let hi := (idx + 1) * bs
    let stop := maxOf ((lens.drop lo).take (hi - lo))
    .temp (s.own.map (fun e => (e.1, ⟨e.2.base, some (stop, lo, hi)⟩)))

/-- The batches of any number of passes: each with its index and the draws of the
wrappers.  Returns the store and what the consumer saw. -/
def iterate (b : Base) : List (Nat × List (Wrap α ρ × ρ)) → Store α →
    Option (Store α × List (Dict Name (Arr α)))
  | [], s => some (s, [])
  | (idx, ws) :: rest, s => match runWraps ws (s, b.yield s idx) with
    | none => none
    | some (s', tgt) =>
      let seen := contents s'.arrays (tgt.dict s')
      match iterate b rest s' with
      | none => none
      | some (s'', out) => some (s'', seen :: out)

/-! ### Specification: the wrappers as functions on values -/

/-- A wrapper as a function on a dictionary of values. -/
def Wrap.pure (w : Wrap α ρ) (draw : ρ) (d : Dict Name (Arr α)) : Option (Dict Name (Arr α)) :=
  match w with
  | .fresh k f => (Dict.get? d k).map (fun a => Dict.set d k (f draw a))
  | .inPlace k g chosen => (Dict.get? d k).map (fun a =>
      Dict.set d k ⟨a.rank, a.seqs, a.rows.map (fun row => row.mapIdx (fun i x => if chosen draw i then g x else x))⟩)

/-- All wrappers as functions. -/
def pureWraps (ws : List (Wrap α ρ × ρ)) (d : Dict Name (Arr α)) : Option (Dict Name (Arr α)) :=
  match ws with
  | [] => some d
  | (w, draw) :: rest => match w.pure draw d with
    | none => none
    | some d' => pureWraps rest d'

/-- The wrapper makes new arrays. -/
def Wrap.IsFresh : Wrap α ρ → Prop
  | .fresh _ _ => True
  | .inPlace _ _ _ => False

theorem get?_contents (arrays : List (Arr α)) (d : Dict Name Ref) (k : Name) :
    Dict.get? (contents arrays d) k = (Dict.get? d k).map (readRef arrays) := by
  induction d with
  | nil => rfl
  | cons e d ih =>
    obtain ⟨k', r⟩ := e
    simp only [contents, List.map_cons, Dict.get?] at ih ⊢
    split
    · rfl
    · exact ih

theorem contents_set (arrays : List (Arr α)) (d : Dict Name Ref) (k : Name) (r : Ref) :
    contents arrays (Dict.set d k r) = Dict.set (contents arrays d) k (readRef arrays r) := by
  induction d with
  | nil => rfl
  | cons e d ih =>
    obtain ⟨k', r'⟩ := e
    simp only [contents, List.map_cons, Dict.set] at ih ⊢
    split
    · rfl
    · rw [List.map_cons, ih]

/-- All references are into the heap. -/
def Bounded (n : Nat) (d : Dict Name Ref) : Prop := ∀ e ∈ d, e.2.base < n

theorem Bounded.set {n : Nat} {d : Dict Name Ref} (h : Bounded n d) {k : Name} {r : Ref} (hr : r.base < n) :
    Bounded n (Dict.set d k r) := by
  induction d with
  | nil => simp [Bounded, Dict.set, hr]
  | cons e d ih =>
    obtain ⟨k', r'⟩ := e
    simp only [Dict.set]
    split
    · intro e he
      rcases List.mem_cons.1 he with rfl | he
      · exact hr
      · exact h e (by simp [he])
    · intro e he
      rcases List.mem_cons.1 he with rfl | he
      · exact h _ (by simp)
      · exact ih (fun e he => h e (by simp [he])) e he

theorem readRef_append {arrays more : List (Arr α)} {r : Ref} (h : r.base < arrays.length) :
    readRef (arrays ++ more) r = readRef arrays r := by
  simp only [readRef, List.getD_eq_getElem?_getD, List.getElem?_append_left h]

theorem contents_append {arrays more : List (Arr α)} {d : Dict Name Ref} (h : Bounded arrays.length d) :
    contents (arrays ++ more) d = contents arrays d := by
  unfold contents
  apply List.map_congr_left
  intro e he
  rw [readRef_append (h e he)]

/-- Fresh wrappers on a temporary dictionary. -/
theorem runWraps_fresh (ws : List (Wrap α ρ × ρ)) (hws : ∀ w ∈ ws, w.1.IsFresh) :
    ∀ (s : Store α) (d : Dict Name Ref), Bounded s.arrays.length d →
      match pureWraps ws (contents s.arrays d) with
      | none => runWraps ws (s, .temp d) = none
      | some c => ∃ more d', runWraps ws (s, .temp d) = some (⟨s.arrays ++ more, s.own⟩, .temp d') ∧
          Bounded (s.arrays ++ more).length d' ∧ contents (s.arrays ++ more) d' = c := by
  induction ws with
  | nil =>
    intro s d hb
    simp only [pureWraps, runWraps]
    exact ⟨[], d, by simp, by simpa using hb, by simp⟩
  | cons wd ws ih =>
    obtain ⟨w, draw⟩ := wd
    intro s d hb
    have hw := hws (w, draw) (by simp)
    cases w with
    | inPlace k g ch => exact absurd hw (by simp [Wrap.IsFresh])
    | fresh k f =>
      simp only [pureWraps, Wrap.pure, runWraps, Wrap.run, Target.dict, get?_contents]
      cases hk : Dict.get? d k with
      | none => simp
      | some r =>
        simp only [Option.map_some, Target.assign]
        have hr : r.base < s.arrays.length := hb _ (Dict.mem_of_get? hk)
        have hb' : Bounded (s.arrays ++ [f draw (readRef s.arrays r)]).length (Dict.set d k ⟨s.arrays.length, none⟩) := by
          apply Bounded.set
          · intro e he; have := hb e he; simp; omega
          · simp
        have hc : contents (s.arrays ++ [f draw (readRef s.arrays r)]) (Dict.set d k ⟨s.arrays.length, none⟩) =
            Dict.set (contents s.arrays d) k (f draw (readRef s.arrays r)) := by
          rw [contents_set, contents_append hb]
          congr 1
          simp [readRef]
        have := ih (fun w hw => hws w (by simp [hw])) ⟨s.arrays ++ [f draw (readRef s.arrays r)], s.own⟩ _ hb'
        simp only [hc] at this
        revert this
        cases pureWraps ws (Dict.set (contents s.arrays d) k (f draw (readRef s.arrays r))) with
        | none => exact id
        | some c =>
          rintro ⟨more, d', h1, h2, h3⟩
          refine ⟨[f draw (readRef s.arrays r)] ++ more, d', ?_, ?_, ?_⟩
          · rw [h1, List.append_assoc]
          · rw [← List.append_assoc]; exact h2
          · rw [← List.append_assoc]; exact h3

/-- The batch of the original data. -/
def cleanBatch (bs : Nat) (lens : List Nat) (data : Dict Name (Arr α)) (idx : Nat) : Dict Name (Arr α) :=
  (⟨data, 0, false, bs, lens⟩ : Minibatches α).batch idx

/-- **C32** (Minibatches with wrappers that make new arrays): over any number of
passes the arrays and the stored dictionary of the user are unchanged, and every
batch seen is the wrappers applied to the batch of the original data. -/
theorem C32_minibatches_partial (bs : Nat) (lens : List Nat) (events : List (Nat × List (Wrap α ρ × ρ)))
    (hfresh : ∀ e ∈ events, ∀ w ∈ e.2, w.1.IsFresh) (s : Store α)
    (hown : ∀ e ∈ s.own, e.2.base < s.arrays.length ∧ e.2.view = none) :
    match events.mapM (fun e => pureWraps e.2 (cleanBatch bs lens (contents s.arrays s.own) e.1)) with
    | none => iterate (.minibatches bs lens) events s = none
    | some out => ∃ more, iterate (.minibatches bs lens) events s = some (⟨s.arrays ++ more, s.own⟩, out) := by
  induction events generalizing s with
  | nil => exact ⟨[], by simp [iterate]⟩
  | cons e events ih =>
    obtain ⟨idx, ws⟩ := e
    simp only [List.mapM_cons, iterate, Base.yield]
    set d := s.own.map (fun e => (e.1, (⟨e.2.base, some (maxOf ((lens.drop (idx * bs)).take ((idx + 1) * bs - idx * bs)),
      idx * bs, (idx + 1) * bs)⟩ : Ref))) with hd
    have hb : Bounded s.arrays.length d := by
      intro e he
      obtain ⟨e', he', rfl⟩ := List.mem_map.1 he
      exact (hown e' he').1
    have hcl : contents s.arrays d = cleanBatch bs lens (contents s.arrays s.own) idx := by
      simp only [hd, contents, cleanBatch, Minibatches.batch, List.map_map]
      apply List.map_congr_left
      intro e he
      have h2 := (hown e he).2
      simp [Function.comp, readRef, h2]
    have h1 := runWraps_fresh ws (fun w hw => hfresh (idx, ws) (by simp) w hw) s d hb
    rw [hcl] at h1
    revert h1
    cases hp : pureWraps ws (cleanBatch bs lens (contents s.arrays s.own) idx) with
    | none =>
      intro h1
      simp [h1]
    | some c =>
      rintro ⟨more, d', h1, h2, h3⟩
      have hown' : ∀ e ∈ s.own, e.2.base < (s.arrays ++ more).length ∧ e.2.view = none := by
        intro e he
        have := hown e he
        exact ⟨by simp; omega, this.2⟩
      have h4 := ih (fun e he => hfresh e (by simp [he])) ⟨s.arrays ++ more, s.own⟩ hown'
      have hbown : Bounded s.arrays.length s.own := fun e he => (hown e he).1
      simp only [contents_append hbown] at h4
      simp only [h1, Target.dict, h3]
      revert h4
      cases hq : events.mapM (fun e => pureWraps e.2 (cleanBatch bs lens (contents s.arrays s.own) e.1)) with
      | none =>
        intro h4
        simp [h4]
      | some out =>
        rintro ⟨more', h4⟩
        simp only [h4]
        exact ⟨more ++ more', by rw [List.append_assoc]⟩

/-- **C32** (a bare `Undivided`): any number of passes shows the stored data and
changes nothing. -/
theorem C32_undivided_bare_partial (n : Nat) (s : Store α) :
    iterate (ρ := ρ) .undivided (List.replicate n (0, [])) s =
      some (s, List.replicate n (contents s.arrays s.own)) := by
  induction n with
  | zero => rfl
  | succ n ih => simp [List.replicate_succ, iterate, Base.yield, runWraps, Target.dict, ih]

/-- The values seen for one name when an operation is applied again in each pass. -/
def applied (f : ρ → Arr α → Arr α) : List ρ → Arr α → List (Arr α)
  | [], _ => []
  | r :: rs, a => f r a :: applied f rs (f r a)

/-- **C32** is false for a wrapper around `Undivided`: the wrapper's operation
accumulates, pass after pass. -/
theorem C32_undivided_accumulates (k : Name) (f : ρ → Arr α → Arr α) (draws : List ρ) (s : Store α) (r : Ref)
    (hk : Dict.get? s.own k = some r) :
    ∃ s' out, iterate .undivided (draws.map (fun d => (0, [(Wrap.fresh k f, d)]))) s = some (s', out) ∧
      out.map (fun d => Dict.get? d k) = (applied f draws (readRef s.arrays r)).map some := by
  induction draws generalizing s r with
  | nil => exact ⟨s, [], rfl, rfl⟩
  | cons d ds ih =>
    obtain ⟨s', out, h1, h2⟩ := ih
      ⟨s.arrays ++ [f d (readRef s.arrays r)], Dict.set s.own k ⟨s.arrays.length, none⟩⟩ ⟨s.arrays.length, none⟩
      (Dict.get?_set_self _ _ _)
    refine ⟨s', contents (s.arrays ++ [f d (readRef s.arrays r)]) (Dict.set s.own k ⟨s.arrays.length, none⟩) :: out,
      ?_, ?_⟩
    · simp only [List.map_cons, iterate, Base.yield, runWraps, Wrap.run, Target.dict, hk, Target.assign, h1]
    · simp only [List.map_cons, applied, List.map_cons, get?_contents, Dict.get?_set_self, Option.map_some, h2]
      simp [readRef]

/-! ### Concrete cases -/

/-- Two steps of two sequences. -/
def heapDemo : Store Nat := ⟨[⟨3, 2, [[1, 2], [3, 4]]⟩], [(str "default", ⟨0, none⟩)]⟩

example : ∀ e ∈ heapDemo.own, e.2.base < heapDemo.arrays.length ∧ e.2.view = none := by decide

/-- Adding 10 to every entry. -/
def addTen : Wrap Nat Unit :=
  .fresh (str "default") (fun _ a => ⟨a.rank, a.seqs, a.rows.map (List.map (· + 10))⟩)

/-- **C32** is false: two passes of a wrapper around `Undivided` show different data. -/
theorem C32_undivided_differs :
    (iterate .undivided [(0, [(addTen, ())]), (0, [(addTen, ())])] heapDemo).map (fun r =>
      r.2.map (fun d => (Dict.get? d (str "default")).map Arr.rows)) =
    some [some [[11, 12], [13, 14]], some [[21, 22], [23, 24]]] := by
  decide +kernel

/-- The same around `Minibatches` shows the same data twice. -/
example : (iterate (.minibatches 2 [2, 2]) [(0, [(addTen, ())]), (0, [(addTen, ())])] heapDemo).map (fun r =>
      (r.2.map (fun d => (Dict.get? d (str "default")).map Arr.rows), r.1.arrays.head?.map Arr.rows)) =
    some ([some [[11, 12], [13, 14]], some [[11, 12], [13, 14]]], some [[1, 2], [3, 4]]) := by
  decide +kernel

/-- **C32** is false: `Flip` around `Minibatches` writes into the array of the user
(here the second sequence is chosen and its blocks are changed by `g`). -/
theorem C32_flip_changes_user_data :
    (iterate (.minibatches 2 [2, 2]) [(0, [(Wrap.inPlace (str "default") (fun x => 100 - x) (fun _ i => i == 1), ())])]
      heapDemo).map (fun r => r.1.arrays.head?.map Arr.rows) = some (some [[1, 98], [3, 96]]) := by
  decide +kernel

end Verif.Data
