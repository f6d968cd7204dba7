import Verif.Checkpoint.Spec

/-!
# Property C90: checkpoints and crashes
-/

namespace Verif.Checkpoint

open Verif.Training (Env Hook Val Logs Res Event St)

variable {D P W V : Type}

/-! ### Proofs -/

/-- What a call writes. -/
def Save.entries (s : Save D P) : List (Entry D P) :=
  .info :: .format :: match s.description with
    | none => []
    | some d => [.description d, .parameters s.parameters]

theorem ops_eq (s : Save D P) : s.ops = .openFile s.file :: (s.entries.map (Op.write s.file) ++ [.close s.file]) := by
  unfold Save.ops Save.entries
  cases s.description <;> rfl

theorem ops_pos (s : Save D P) : 0 < s.ops.length := by simp [ops_eq]

theorem writes (f : Name) : ∀ (es done : List (Entry D P)) (disk : Disk D P), disk f = some ⟨done, false⟩ →
    (es.map (Op.write f)).foldl Op.apply disk = Function.update disk f (some ⟨done ++ es, false⟩)
  | [], done, disk, h => by simp [← h]
  | e :: es, done, disk, h => by
    simp only [List.map_cons, List.foldl_cons, Op.apply]
    rw [writes f es (done ++ [e]) _ (by simp [h])]
    simp

theorem run_ops (s : Save D P) (disk : Disk D P) : s.ops.foldl Op.apply disk = Function.update disk s.file (some ⟨s.entries, true⟩) := by
  rw [ops_eq]
  simp only [List.foldl_cons, List.foldl_append, List.foldl_nil, Op.apply]
  rw [writes s.file s.entries [] _ (by simp)]
  simp

theorem run_part (s : Save D P) (disk : Disk D P) {j : Nat} (h0 : j ≠ 0) (hj : j < s.ops.length) :
    (s.ops.take j).foldl Op.apply disk = Function.update disk s.file (some ⟨s.entries.take (j - 1), false⟩) := by
  obtain ⟨i, rfl⟩ := Nat.exists_eq_succ_of_ne_zero h0
  rw [ops_eq] at hj ⊢
  simp only [List.length_cons, List.length_append, List.length_map, List.length_nil] at hj
  rw [List.take_succ_cons, List.take_append_of_le_length (by simp; omega), ← List.map_take]
  simp only [List.foldl_cons, Op.apply]
  rw [writes s.file _ [] _ (by simp)]
  simp

theorem lastTo_cons (f : Name) (s : Save D P) (ss : List (Save D P)) :
    lastTo f (s :: ss) = (lastTo f ss).or (if s.file = f then some s else none) := by
  unfold lastTo
  by_cases h : s.file = f
  · simp only [h, List.filter_cons, decide_true, if_true, List.getLast?_cons]
    cases (ss.filter fun s => decide (s.file = f)).getLast? <;> rfl
  · simp [h]

/-- The files after a crash. -/
theorem crash_file (f : Name) : ∀ (saves : List (Save D P)) (disk : Disk D P) (k : Nat),
    crash disk saves k f = match (progress saves k).2 with
      | some s => if s.file = f then some ⟨s.entries.take (k - ((progress saves k).1.flatMap Save.ops).length - 1), false⟩
          else ((lastTo f (progress saves k).1).map fun s => (⟨s.entries, true⟩ : Content D P)).or (disk f)
      | none => ((lastTo f (progress saves k).1).map fun s => (⟨s.entries, true⟩ : Content D P)).or (disk f)
  | [], disk, k => by simp [crash, progress, lastTo]
  | s :: ss, disk, k => by
    unfold crash
    rw [List.flatMap_cons, List.take_append, List.foldl_append]
    by_cases hk : k < s.ops.length
    · rw [Nat.sub_eq_zero_of_le (Nat.le_of_lt hk), List.take_zero, List.foldl_nil]
      by_cases h0 : k = 0
      · subst h0
        simp [progress, hk, lastTo]
      · rw [run_part s disk h0 hk]
        simp only [progress, hk, h0, if_true, if_false, List.flatMap_nil, List.length_nil, Nat.sub_zero]
        by_cases hf : s.file = f
        · subst hf
          simp
        · rw [Function.update_of_ne (Ne.symm hf), if_neg hf]
          simp [lastTo]
    · have ih := crash_file f ss (Function.update disk s.file (some ⟨s.entries, true⟩)) (k - s.ops.length)
      unfold crash at ih
      rw [List.take_of_length_le (by omega), run_ops, ih]
      simp only [progress, hk, if_false, List.flatMap_cons, List.length_append, lastTo_cons]
      have hor : ∀ ds : List (Save D P), ((lastTo f ds).map fun s => (⟨s.entries, true⟩ : Content D P)).or
          (Function.update disk s.file (some ⟨s.entries, true⟩) f) =
          (((lastTo f ds).or (if s.file = f then some s else none)).map fun s => (⟨s.entries, true⟩ : Content D P)).or (disk f) := by
        intro ds
        cases lastTo f ds with
        | some x => rfl
        | none =>
          by_cases hf : s.file = f
          · subst hf; simp
          · simp [Function.update_of_ne (Ne.symm hf), hf]
      cases (progress ss (k - s.ops.length)).2 with
      | none => exact hor _
      | some c =>
        simp only
        by_cases hc : c.file = f
        · rw [if_pos hc, if_pos hc, Nat.sub_sub k s.ops.length]
        · rw [if_neg hc, if_neg hc]
          exact hor _

theorem load_entries (s : Save D P) : load s.entries = s.content := by
  unfold Save.entries Save.content load
  cases s.description <;> rfl

theorem load_prefix (s : Save D P) {es : List (Entry D P)} (h : es <+: s.entries) : load es = none ∨ load es = s.content := by
  unfold Save.entries at h
  unfold Save.content
  cases hd : s.description with
  | none =>
    rw [hd] at h
    obtain ⟨k, rfl⟩ : ∃ k, es = List.take k [Entry.info, Entry.format] := ⟨_, (List.prefix_iff_eq_take.1 h)⟩
    rcases k with _ | _ | _ | k <;> exact Or.inl rfl
  | some d =>
    rw [hd] at h
    obtain ⟨k, rfl⟩ : ∃ k, es = List.take k [Entry.info, Entry.format, Entry.description d, Entry.parameters s.parameters] :=
      ⟨_, (List.prefix_iff_eq_take.1 h)⟩
    rcases k with _ | _ | _ | _ | _ | k
    · exact Or.inl rfl
    · exact Or.inl rfl
    · exact Or.inl rfl
    · exact Or.inl rfl
    · exact Or.inr rfl
    · exact Or.inr (by simp [load])

/-! ### The property -/

/-- **C90.**  The process dies at any point of any sequence of calls of `save_as_hdf5`, to any files (none of them existed before).  A file
that was not being written just then yields exactly the description and the parameters of the last network that was saved to it; a file that
was being written yields those of the network that was being saved, or nothing. -/
theorem C90_crash (saves : List (Save D P)) (k : Nat) (f : Name) (found : Option (List (Entry D P)))
    (hf : Found (crash (fun _ => none) saves k) f found) :
    ((∀ s, (progress saves k).2 = some s → s.file ≠ f) → found.bind load = (lastTo f (progress saves k).1).bind Save.content) ∧
    (∀ s, (progress saves k).2 = some s → s.file = f → found.bind load = none ∨ found.bind load = s.content) := by
  unfold Found at hf
  rw [crash_file] at hf
  constructor
  · intro hn
    have e : found = (lastTo f (progress saves k).1).map Save.entries := by
      cases hc : (progress saves k).2 with
      | none =>
        rw [hc] at hf
        cases hl : lastTo f (progress saves k).1 with
        | none => simpa [hl] using hf
        | some x => simpa [hl] using hf
      | some c =>
        rw [hc] at hf
        simp only [if_neg (hn c hc)] at hf
        cases hl : lastTo f (progress saves k).1 with
        | none => simpa [hl] using hf
        | some x => simpa [hl] using hf
    rw [e]
    cases lastTo f (progress saves k).1 with
    | none => rfl
    | some x => exact load_entries x
  · intro s hs hsf
    rw [hs] at hf
    simp only [if_pos hsf, Bool.false_eq_true, if_false] at hf
    rcases hf with rfl | ⟨es, h1, rfl⟩
    · exact Or.inl rfl
    · exact load_prefix s (h1.trans (List.take_prefix _ _))

theorem progress_mem : ∀ (saves : List (Save D P)) (k : Nat),
    (∀ s ∈ (progress saves k).1, s ∈ saves) ∧ ∀ s, (progress saves k).2 = some s → s ∈ saves
  | [], k => by simp [progress]
  | s :: ss, k => by
    unfold progress
    split_ifs with h1 h2
    · simp
    · simp
    · obtain ⟨a, b⟩ := progress_mem ss (k - s.ops.length)
      exact ⟨fun x hx => by
        rcases List.mem_cons.1 hx with rfl | hx
        · simp
        · exact List.mem_cons_of_mem _ (a x hx), fun x hx => List.mem_cons_of_mem _ (b x hx)⟩

theorem lastTo_mem {f : Name} {saves : List (Save D P)} {s : Save D P} (h : lastTo f saves = some s) : s ∈ saves ∧ s.file = f := by
  have := List.mem_of_getLast? h
  simpa using this

/-- **C90**: never a mixture.  Whatever `from_hdf5` gets from a file belongs to one single call of `save_as_hdf5` for this file. -/
theorem C90_one_save (saves : List (Save D P)) (k : Nat) (f : Name) (found : Option (List (Entry D P)))
    (hf : Found (crash (fun _ => none) saves k) f found) (d : D) (p : P) (h : found.bind load = some (d, p)) :
    ∃ s ∈ saves, s.file = f ∧ s.description = some d ∧ s.parameters = p := by
  have key : ∀ s : Save D P, s.content = some (d, p) → s.description = some d ∧ s.parameters = p := by
    intro s hs
    unfold Save.content at hs
    cases hd : s.description with
    | none => rw [hd] at hs; cases hs
    | some d' => rw [hd] at hs; cases hs; exact ⟨rfl, rfl⟩
  obtain ⟨c1, c2⟩ := C90_crash saves k f found hf
  obtain ⟨m1, m2⟩ := progress_mem saves k
  by_cases hn : ∀ s, (progress saves k).2 = some s → s.file ≠ f
  · rw [c1 hn] at h
    cases hl : lastTo f (progress saves k).1 with
    | none => rw [hl] at h; cases h
    | some s =>
      rw [hl] at h
      obtain ⟨l1, l2⟩ := lastTo_mem hl
      exact ⟨s, m1 s l1, l2, key s h⟩
  · push Not at hn
    obtain ⟨s, h1, h2⟩ := hn
    rcases c2 s h1 h2 with e | e
    · rw [e] at h; cases h
    · rw [e] at h
      exact ⟨s, m2 s h1, h2, key s h⟩

/-- **C90** (two files): if networks that can be described are saved to two files, and each has been completely saved once, then at every
point at which the process dies, at least one of the files can be loaded. -/
theorem C90_two_files (saves : List (Save D P)) (hd : ∀ s ∈ saves, s.description ≠ none) (k : Nat) (f g : Name) (hfg : f ≠ g)
    (h1 : ∃ s ∈ (progress saves k).1, s.file = f) (h2 : ∃ s ∈ (progress saves k).1, s.file = g) (found found' : Option (List (Entry D P)))
    (hf : Found (crash (fun _ => none) saves k) f found) (hg : Found (crash (fun _ => none) saves k) g found') :
    found.bind load ≠ none ∨ found'.bind load ≠ none := by
  have key : ∀ (f : Name) (found : Option (List (Entry D P))), (∃ s ∈ (progress saves k).1, s.file = f) →
      Found (crash (fun _ => none) saves k) f found → (∀ s, (progress saves k).2 = some s → s.file ≠ f) → found.bind load ≠ none := by
    intro f found ⟨s, hs, hsf⟩ hfd hn
    rw [(C90_crash saves k f found hfd).1 hn]
    cases hl : lastTo f (progress saves k).1 with
    | none =>
      have := List.getLast?_eq_none_iff.1 hl
      have hm : s ∈ (progress saves k).1.filter fun s => decide (s.file = f) := by simp [hs, hsf]
      rw [this] at hm
      cases hm
    | some x =>
      have hx := hd x ((progress_mem saves k).1 x (lastTo_mem hl).1)
      show x.description.map _ ≠ none
      simpa using hx
  by_cases hn : ∀ s, (progress saves k).2 = some s → s.file ≠ f
  · exact Or.inl (key f found h1 hf hn)
  · push Not at hn
    obtain ⟨s, e1, e2⟩ := hn
    refine Or.inr (key g found' h2 hg fun s' hs' e => hfg ?_)
    rw [e1] at hs'
    cases hs'
    exact e2.symm.trans e

theorem progress_append (before : List (Save D P)) (s : Save D P) (later : List (Save D P)) {j : Nat} (hj : j < s.ops.length) :
    progress (before ++ s :: later) ((before.flatMap Save.ops).length + j) = (before, if j = 0 then none else some s) := by
  induction before with
  | nil => simp [progress, hj]
  | cons b bs ih =>
    simp only [List.cons_append, List.flatMap_cons, List.length_append, progress]
    rw [if_neg (by omega), show b.ops.length + (bs.flatMap Save.ops).length + j - b.ops.length = (bs.flatMap Save.ops).length + j by omega, ih]

/-- With one file there is no such guarantee: whenever a network is saved, there is a point at which the process may die such that nothing can
be loaded any more, although the network saved before could be loaded until then. -/
theorem C90_one_file (before : List (Save D P)) (s : Save D P) (later : List (Save D P)) :
    ∃ k, (∀ found, Found (crash (fun _ => none) (before ++ s :: later) k) s.file found →
        found.bind load = (lastTo s.file before).bind Save.content) ∧
      ∀ found, Found (crash (fun _ => none) (before ++ s :: later) (k + 1)) s.file found → found.bind load = none := by
  have p0 := progress_append before s later (j := 0) (ops_pos s)
  have p1 := progress_append before s later (j := 1) (by simp [ops_eq])
  refine ⟨(before.flatMap Save.ops).length, fun found hf => ?_, fun found hf => ?_⟩
  · have := (C90_crash (before ++ s :: later) _ s.file found hf).1
    rw [Nat.add_zero] at p0
    rw [p0] at this
    exact this (by simp)
  · unfold Found at hf
    rw [crash_file, p1] at hf
    simp only [Nat.one_ne_zero, if_false, if_true, Nat.add_sub_cancel_left, Nat.sub_self, List.take_zero, Bool.false_eq_true] at hf
    rcases hf with rfl | ⟨es, h1, rfl⟩
    · rfl
    · rw [List.prefix_nil.1 h1]; rfl

/-- The description is made when the old file is gone already: if it fails, then the network saved before is lost. -/
theorem C90_undescribable (before : List (Save D P)) (s : Save D P) (h : s.description = none) (found : Option (List (Entry D P)))
    (hf : Found (crash (fun _ => none) (before ++ [s]) ((before ++ [s]).flatMap Save.ops).length) s.file found) : found.bind load = none := by
  have hp : ∀ (l : List (Save D P)), progress l (l.flatMap Save.ops).length = (l, none) := by
    intro l
    induction l with
    | nil => rfl
    | cons b bs ih =>
      simp only [List.flatMap_cons, List.length_append, progress]
      rw [if_neg (by omega), Nat.add_sub_cancel_left, ih]
  have := (C90_crash _ _ s.file found hf).1
  rw [hp] at this
  rw [this (by simp)]
  simp [lastTo, Save.content, h]

/-- **C90** (training): in every part of every training, `save_as_hdf5` is called at the calls of the `SaveNetwork` hooks, and with the network
as it is then. -/
theorem C90_training (env : Env W V) (describe : W → Option D) (params : W → P) (files : Dict Name Name) (hooks : List Hook)
    (s s' : St (W × List (Save D P)) V) (L : List (St (W × List (Save D P)) V × Event V))
    (h : Training.Run (withSaves env describe params files) hooks s L s') :
    s'.w.2 = s.w.2 ++ L.filterMap (savedAt describe params files) := by
  induction h with
  | nil s => simp
  | epoch s L s' _ ih => exact ih
  | cons s ev s₁ L s' h1 _ ih =>
    rw [ih, List.filterMap_cons]
    cases h1 with
    | batch => rfl
    | rolling => rfl
    | call hk w st v logs hm hc hl =>
      simp only [withSaves] at hc
      simp only [savedAt]
      cases hg : Dict.get? files hk.name with
      | none =>
        rw [hg] at hc
        simp only [Prod.mk.injEq] at hc
        rw [← hc.1]
        simp
      | some f =>
        rw [hg] at hc
        simp only [Prod.mk.injEq] at hc
        rw [← hc.1]
        simp

/-- **C90** (a training that is killed): a training with `SaveNetwork` hooks gets through some epochs, or is killed at any point before that.
Whatever can be loaded from a file afterwards is the description and the parameters that the network had when a hook with this file was
called. -/
theorem C90_killed (env : Env W V) (describe : W → Option D) (params : W → P) (files : Dict Name Name) (hooks : List Hook) (fuel : Nat)
    (s s' : St (W × List (Save D P)) V) (fin : Bool) (h0 : s.w.2 = []) (ht : s.trace = [])
    (h : Training.train (withSaves env describe params files) hooks fuel s = some (s', fin)) :
    ∃ L, Training.Run (withSaves env describe params files) hooks s L s' ∧ s'.trace = L.map Prod.snd ∧
      ∀ k f found d p, Found (crash (fun _ => none) s'.w.2 k) f found → found.bind load = some (d, p) →
        ∃ x ∈ L, ∃ sc nm e u st v, x.2 = .call sc nm e u st v ∧ Dict.get? files nm = some f ∧ describe x.1.w.1 = some d ∧ params x.1.w.1 = p := by
  obtain ⟨L, h1, h2⟩ := Training.train_run _ hooks fuel s s' fin h
  refine ⟨L, h1, by rw [h2, ht, List.nil_append], fun k f found d p hf hl => ?_⟩
  have e := C90_training env describe params files hooks s s' L h1
  rw [h0, List.nil_append] at e
  obtain ⟨q, q1, q2, q3, q4⟩ := C90_one_save s'.w.2 k f found hf d p hl
  rw [e, List.mem_filterMap] at q1
  obtain ⟨x, hx, hq⟩ := q1
  obtain ⟨y, ev⟩ := x
  refine ⟨_, hx, ?_⟩
  cases ev with
  | batch => simp [savedAt] at hq
  | rolling => simp [savedAt] at hq
  | call sc nm e u st v =>
    simp only [savedAt, Option.map_eq_some_iff] at hq
    obtain ⟨f', g1, rfl⟩ := hq
    exact ⟨sc, nm, e, u, st, v, rfl, by rw [g1, ← q2], q3, q4⟩

/-! ### A case -/

/-- Two networks saved to `a`, one to `b` in between. -/
def demoSaves : List (Save String Nat) := [⟨str "a", some "net", 1⟩, ⟨str "b", some "net", 2⟩, ⟨str "a", some "net", 3⟩]

/-- The process dies while the description is in the file but the parameters are not. -/
example : (progress demoSaves 16).1.map Save.parameters = [1, 2] ∧ (progress demoSaves 16).2 = some ⟨str "a", some "net", 3⟩ := by decide +kernel

example : (crash (fun _ => none) demoSaves 16 (str "a")).map Content.entries = some [.info, .format, .description "net"] ∧
    ((crash (fun _ => none) demoSaves 16 (str "b")).bind fun c => load c.entries) = some ("net", 2) ∧
    ((crash (fun _ => none) demoSaves 18 (str "a")).bind fun c => load c.entries) = some ("net", 3) ∧
    ((crash (fun _ => none) demoSaves 12 (str "a")).bind fun c => load c.entries) = some ("net", 1) := by decide +kernel

/-- All assumptions of `C90_two_files` are met. -/
example : (∀ s ∈ demoSaves, s.description ≠ none) ∧ (∃ s ∈ (progress demoSaves 16).1, s.file = str "a") ∧
    (∃ s ∈ (progress demoSaves 16).1, s.file = str "b") ∧ Found (crash (fun _ => none) demoSaves 16) (str "a") (some [.info]) := by
  refine ⟨by decide +kernel, by decide +kernel, by decide +kernel, ?_⟩
  unfold Found
  rw [show crash (fun _ => none) demoSaves 16 (str "a") = some ⟨[.info, .format, .description "net"], false⟩ by decide +kernel]
  exact Or.inr ⟨_, ⟨[.format, .description "net"], rfl⟩, rfl⟩

/-- A network is a number, which grows by one with each batch; there are two batches in an epoch, and training stops after the second epoch. -/
def demoEnv : Env Nat Nat where
  call _ e _ _ w := (w, if e < 2 then .value .none else .stop .none)
  step w := w + 1
  batches _ := 2
  rolling _ := .none

/-- The network is saved to `a` at every update, and to `b` at every epoch. -/
def demoHooks : List Hook := [⟨str "each", false, 1⟩, ⟨str "epochs", true, 1⟩, ⟨str "stop", true, 1⟩]

example : (Training.train (withSaves demoEnv (fun _ => some "net") (fun w => w) [(str "each", str "a"), (str "epochs", str "b")]) demoHooks 5
    ⟨(7, []), [], 0, 0, []⟩).map (fun r => (r.2, r.1.w.2.map fun s => (s.file, s.parameters))) =
    some (true, [(str "a", 7), (str "b", 7), (str "a", 8), (str "a", 9), (str "b", 9), (str "a", 10), (str "a", 11), (str "b", 11)]) := by
  decide +kernel

end Verif.Checkpoint
