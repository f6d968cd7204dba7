import Verif.References.Model
import Mathlib.Data.List.Nodup
import Mathlib.Data.List.Range

/-!
# Path helpers: `brainstorm/utils.py:70-197`
-/

namespace Verif.Paths

open Verif.References (Tree)

variable {A : Type}

/-! ### Model -/

/-- `s.split('.')`. -/
def splitDot : Name → List Name
  | [] => [[]]
  | c :: s => if c = '.' then [] :: splitDot s else match splitDot s with
    | [] => [[c]]
    | p :: ps => (c :: p) :: ps

/-- `'.'.join(parts)`. -/
def joinDot : List Name → Name
  | [] => []
  | [p] => p
  | p :: ps => p ++ '.' :: joinDot ps

/-- The loop of `get_by_path` (utils.py:121-130): `none` is the exception raised when a key is missing
or the value is not a dictionary. -/
def walk : Tree A → List Name → Option (Tree A)
  | t, [] => some t
  | .leaf _, _ :: _ => none
  | .node es, p :: ps => match Dict.get? es p with
    | none => none
    | some t => walk t ps

/-- `get_by_path` (utils.py:103-130). -/
def getByPath (d : Tree A) (path : Name) : Option (Tree A) := walk d (splitDot path)

mutual
/-- `flatten_keys` (utils.py:173-197). -/
def flattenKeys : Tree A → List Name
  | .leaf _ => []
  | .node es => flattenEntries es
/-- The keys listed for one entry (utils.py:192-196). -/
def flattenUnder : Name → Tree A → List Name
  | k, .leaf _ => [k]
  | k, .node es => (flattenEntries es).map (fun x => k ++ '.' :: x)
/-- The loop (utils.py:190-197). -/
def flattenEntries : List (Name × Tree A) → List Name
  | [] => []
  | (k, t) :: rest => flattenUnder k t ++ flattenEntries rest
end

/-- `a.replace('..', '@')` (utils.py:137). -/
def replaceDots : Name → Name
  | '.' :: '.' :: s => '@' :: replaceDots s
  | c :: s => c :: replaceDots s
  | [] => []

/-- The inner loop of `get_normalized_path` (utils.py:142-146) for one part: `none` is the
`IndexError` of `pop` on an empty list.  The list of parts is kept in reverse. -/
def pushPart : List Name → Name → Option (List Name)
  | stack, '@' :: p => match stack with
    | [] => none
    | _ :: rest => pushPart rest p
  | stack, p => some (p :: stack)

/-- The loop over all parts. -/
def pushParts : List Name → List Name → Option (List Name)
  | stack, [] => some stack
  | stack, p :: ps => match pushPart stack p with
    | none => none
    | some stack' => pushParts stack' ps

/-- `get_normalized_path` (utils.py:133-147); `none` is an exception. -/
def normalizedPath (args : List Name) : Option Name :=
  if args.any (fun a => a.contains '@') then none
  else
    let parts := args.flatMap (fun a => splitDot (replaceDots a))
    if parts.contains [] then none
    else (pushParts [] parts).map (fun stack => joinDot stack.reverse)

/-- Nested lists. -/
inductive Nest (A : Type)
  | leaf (a : A)
  | list (es : List (Nest A))

mutual
/-- `flatten` for one element (utils.py:73-77). -/
def Nest.flat : Nest A → List A
  | .leaf a => [a]
  | .list es => flatten es
/-- `flatten` (utils.py:70-77). -/
def flatten : List (Nest A) → List A
  | [] => []
  | e :: es => e.flat ++ flatten es
end

mutual
/-- One element of `convert_to_nested_indices` (utils.py:84-89) with the counter. -/
def Nest.indices : Nest A → Nat → Nest Nat × Nat
  | .leaf _, n => (.leaf n, n + 1)
  | .list es, n => (.list (nestedIndices es n).1, (nestedIndices es n).2)
/-- `convert_to_nested_indices` (utils.py:80-89) with the counter. -/
def nestedIndices : List (Nest A) → Nat → List (Nest Nat) × Nat
  | [], n => ([], n)
  | e :: es, n => ((e.indices n).1 :: (nestedIndices es (e.indices n).2).1, (nestedIndices es (e.indices n).2).2)
end

/-! ### Specification -/

mutual
/-- Dictionaries have distinct keys, and no key contains a dot. -/
def Plain : Tree A → Prop
  | .leaf _ => True
  | .node es => (Dict.keys es).Nodup ∧ PlainEntries es
def PlainEntries : List (Name × Tree A) → Prop
  | [] => True
  | (k, t) :: rest => '.' ∉ k ∧ Plain t ∧ PlainEntries rest
end

mutual
/-- The structure of a nested list: the leaves are forgotten. -/
def Nest.shape : Nest A → Nest Unit
  | .leaf _ => .leaf ()
  | .list es => .list (shapes es)
def shapes : List (Nest A) → List (Nest Unit)
  | [] => []
  | e :: es => e.shape :: shapes es
end

/-- An argument of `get_normalized_path` as a person reads it: go up some levels, then down. -/
structure Step where
  up : Nat
  parts : List Name

/-- Its text: two dots per level, then the parts separated by dots. -/
def Step.text (s : Step) : Name := List.replicate (2 * s.up) '.' ++ joinDot s.parts

/-- The parts are there, not empty, and contain neither dots nor `@`. -/
def Step.Ok (s : Step) : Prop := s.parts ≠ [] ∧ ∀ p ∈ s.parts, p ≠ [] ∧ '.' ∉ p ∧ '@' ∉ p

/-- Where the steps lead, starting at `here`; one cannot go up from the top. -/
def follow : List Name → List Step → Option (List Name)
  | here, [] => some here
  | here, s :: rest => if s.up ≤ here.length then follow (here.take (here.length - s.up) ++ s.parts) rest else none

/-! ### Proofs -/

theorem flattenEntries_leaf (k : Name) (v : A) (rest : List (Name × Tree A)) :
    flattenEntries ((k, .leaf v) :: rest) = k :: flattenEntries rest := by simp [flattenEntries, flattenUnder]

theorem flattenEntries_node (k : Name) (es rest : List (Name × Tree A)) :
    flattenEntries ((k, .node es) :: rest) = (flattenEntries es).map (fun x => k ++ '.' :: x) ++ flattenEntries rest := by
  simp [flattenEntries, flattenUnder]

theorem splitDot_ne_nil (s : Name) : splitDot s ≠ [] := by
  cases s with
  | nil => simp [splitDot]
  | cons c s =>
    simp only [splitDot]
    split
    · simp
    · split <;> simp

theorem splitDot_plain (p : Name) (h : '.' ∉ p) : splitDot p = [p] := by
  induction p with
  | nil => rfl
  | cons c p ih =>
    simp only [List.mem_cons, not_or] at h
    simp only [splitDot]
    rw [if_neg (Ne.symm h.1), ih h.2]

theorem splitDot_append (p s : Name) (h : '.' ∉ p) : splitDot (p ++ '.' :: s) = p :: splitDot s := by
  induction p with
  | nil => simp [splitDot]
  | cons c p ih =>
    simp only [List.mem_cons, not_or] at h
    simp only [List.cons_append, splitDot]
    rw [if_neg (Ne.symm h.1), ih h.2]

theorem splitDot_join : ∀ (parts : List Name), parts ≠ [] → (∀ p ∈ parts, '.' ∉ p) → splitDot (joinDot parts) = parts
  | [], h, _ => absurd rfl h
  | [p], _, h => splitDot_plain p (h p (by simp))
  | p :: q :: ps, _, h => by
    simp only [joinDot]
    rw [splitDot_append p _ (h p (by simp)), splitDot_join (q :: ps) (by simp) (fun x hx => h x (List.mem_cons_of_mem _ hx))]

theorem joinDot_split (s : Name) : joinDot (splitDot s) = s := by
  induction s with
  | nil => rfl
  | cons c s ih =>
    simp only [splitDot]
    cases hs : splitDot s with
    | nil => exact absurd hs (splitDot_ne_nil s)
    | cons p ps =>
      rw [hs] at ih
      split
      · rename_i hc
        subst hc
        simp only [joinDot, List.nil_append, List.cons.injEq, true_and]
        exact ih
      · cases ps with
        | nil => simp only [joinDot] at ih ⊢; rw [ih]
        | cons q ps => simp only [joinDot, List.cons_append] at ih ⊢; rw [ih]

theorem get?_flat_none (es : List (Name × Tree A)) (k : Name) (h : k ∉ Dict.keys es) : Dict.get? es k = none :=
  (Dict.get?_eq_none_iff _ _).2 h

mutual
/-- Leaves by list of keys. -/
theorem mem_flattenKeys : ∀ (t : Tree A), Plain t → ∀ x : Name, x ∈ flattenKeys t ↔
    ∃ es, t = .node es ∧ ∃ a, walk t (splitDot x) = some (.leaf a)
  | .leaf a, _, x => by simp [flattenKeys]
  | .node es, h, x => by
    simp only [flattenKeys, Tree.node.injEq, exists_eq_left']
    exact mem_flattenEntries es h.1 h.2 x
theorem mem_flattenEntries : ∀ (es : List (Name × Tree A)), (Dict.keys es).Nodup → PlainEntries es → ∀ x : Name,
    x ∈ flattenEntries es ↔ ∃ a, walk (.node es) (splitDot x) = some (.leaf a)
  | [], _, _, x => by
    simp only [flattenEntries, List.not_mem_nil, false_iff, not_exists]
    intro a
    cases hs : splitDot x with
    | nil => exact absurd hs (splitDot_ne_nil x)
    | cons p ps => simp [walk]
  | (k, .leaf v) :: rest, hn, hp, x => by
    have hn' : k ∉ Dict.keys rest ∧ (Dict.keys rest).Nodup := by
      simpa [Dict.keys] using hn
    have ih := mem_flattenEntries rest hn'.2 hp.2.2 x
    simp only [flattenEntries_leaf, List.mem_cons]
    rw [ih]
    cases hs : splitDot x with
    | nil => exact absurd hs (splitDot_ne_nil x)
    | cons p ps =>
      simp only [walk, Dict.get?_cons]
      by_cases hk : k = p
      · subst hk
        rw [if_pos rfl, (Dict.get?_eq_none_iff _ _).2 hn'.1]
        simp only [reduceCtorEq, exists_false, or_false]
        constructor
        · intro e
          subst e
          rw [splitDot_plain x hp.1] at hs
          simp only [List.cons.injEq, true_and] at hs
          subst hs
          exact ⟨v, rfl⟩
        · rintro ⟨a, ha⟩
          cases ps with
          | nil => rw [← joinDot_split x, hs]; rfl
          | cons q qs => simp [walk] at ha
      · rw [if_neg hk]
        constructor
        · rintro (e | h)
          · subst e
            rw [splitDot_plain x hp.1] at hs
            simp only [List.cons.injEq] at hs
            exact absurd hs.1 hk
          · exact h
        · exact Or.inr
  | (k, .node ks) :: rest, hn, hp, x => by
    have hn' : k ∉ Dict.keys rest ∧ (Dict.keys rest).Nodup := by
      simpa [Dict.keys] using hn
    have ih := mem_flattenEntries rest hn'.2 hp.2.2 x
    have ih' := mem_flattenEntries ks hp.2.1.1 hp.2.1.2
    simp only [flattenEntries_node, List.mem_append, List.mem_map]
    rw [ih]
    cases hs : splitDot x with
    | nil => exact absurd hs (splitDot_ne_nil x)
    | cons p ps =>
      simp only [walk, Dict.get?_cons]
      by_cases hk : k = p
      · subst hk
        rw [if_pos rfl, (Dict.get?_eq_none_iff _ _).2 hn'.1]
        simp only [reduceCtorEq, exists_false, or_false]
        constructor
        · rintro ⟨y, hy, e⟩
          subst e
          rw [splitDot_append k y hp.1] at hs
          simp only [List.cons.injEq, true_and] at hs
          subst hs
          exact (ih' y).1 hy
        · rintro ⟨a, ha⟩
          cases ps with
          | nil => simp [walk] at ha
          | cons q qs =>
            refine ⟨joinDot (q :: qs), (ih' _).2 ⟨a, ?_⟩, ?_⟩
            · have e : splitDot (joinDot (q :: qs)) = q :: qs := by
                have e0 : x = k ++ '.' :: joinDot (q :: qs) := by rw [← joinDot_split x, hs]; rfl
                rw [e0, splitDot_append k _ hp.1] at hs
                simpa using hs
              rw [e]
              exact ha
            · rw [← joinDot_split x, hs]; rfl
      · rw [if_neg hk]
        constructor
        · rintro (⟨y, -, e⟩ | h)
          · subst e
            rw [splitDot_append k y hp.1] at hs
            simp only [List.cons.injEq] at hs
            exact absurd hs.1 hk
          · exact h
        · exact Or.inr
end

/-- **C53** (keys): for a dictionary whose keys contain no dots, `flatten_keys` lists exactly the
paths at which `get_by_path` finds something that is not a dictionary. -/
theorem C53_flatten_keys (es : List (Name × Tree A)) (h : Plain (.node es)) (path : Name) :
    path ∈ flattenKeys (.node es) ↔ ∃ a, getByPath (.node es) path = some (.leaf a) := by
  rw [mem_flattenKeys _ h]
  simp [getByPath]

theorem append_dot_inj {k k' x y : Name} (hk : '.' ∉ k) (hk' : '.' ∉ k') (h : k ++ '.' :: x = k' ++ '.' :: y) : k = k' ∧ x = y := by
  have h1 := splitDot_append k x hk
  rw [h, splitDot_append k' y hk'] at h1
  simp only [List.cons.injEq] at h1
  refine ⟨h1.1.symm, ?_⟩
  rw [← joinDot_split x, ← joinDot_split y, h1.2]

/-- The first part of the paths listed is a key. -/
theorem flattenEntries_head : ∀ (es : List (Name × Tree A)), PlainEntries es → ∀ x ∈ flattenEntries es,
    ∃ k ∈ Dict.keys es, (splitDot x).head? = some k
  | [], _, x, hx => by simp [flattenEntries] at hx
  | (k, .leaf v) :: rest, hp, x, hx => by
    simp only [flattenEntries_leaf, List.mem_cons] at hx
    rcases hx with rfl | hx
    · exact ⟨x, by simp [Dict.keys], by rw [splitDot_plain x hp.1]; rfl⟩
    · obtain ⟨k', h1, h2⟩ := flattenEntries_head rest hp.2.2 x hx
      exact ⟨k', by simp only [Dict.keys, List.map_cons, List.mem_cons] at h1 ⊢; exact Or.inr h1, h2⟩
  | (k, .node ks) :: rest, hp, x, hx => by
    simp only [flattenEntries_node, List.mem_append, List.mem_map] at hx
    rcases hx with ⟨y, -, rfl⟩ | hx
    · exact ⟨k, by simp [Dict.keys], by rw [splitDot_append k y hp.1]; rfl⟩
    · obtain ⟨k', h1, h2⟩ := flattenEntries_head rest hp.2.2 x hx
      exact ⟨k', by simp only [Dict.keys, List.map_cons, List.mem_cons] at h1 ⊢; exact Or.inr h1, h2⟩

theorem nodup_flattenEntries : ∀ (es : List (Name × Tree A)), (Dict.keys es).Nodup → PlainEntries es → (flattenEntries es).Nodup
  | [], _, _ => by simp [flattenEntries]
  | (k, .leaf v) :: rest, hn, hp => by
    have hn' : k ∉ Dict.keys rest ∧ (Dict.keys rest).Nodup := by simpa [Dict.keys] using hn
    simp only [flattenEntries_leaf, List.nodup_cons]
    refine ⟨fun hx => ?_, nodup_flattenEntries rest hn'.2 hp.2.2⟩
    obtain ⟨k', h1, h2⟩ := flattenEntries_head rest hp.2.2 k hx
    rw [splitDot_plain k hp.1] at h2
    simp only [List.head?_cons, Option.some.injEq] at h2
    subst h2
    exact hn'.1 h1
  | (k, .node ks) :: rest, hn, hp => by
    have hn' : k ∉ Dict.keys rest ∧ (Dict.keys rest).Nodup := by simpa [Dict.keys] using hn
    rw [flattenEntries_node, List.nodup_append]
    refine ⟨?_, nodup_flattenEntries rest hn'.2 hp.2.2, ?_⟩
    · refine List.Nodup.map ?_ (nodup_flattenEntries ks hp.2.1.1 hp.2.1.2)
      intro x y hxy
      exact (append_dot_inj hp.1 hp.1 hxy).2
    · intro x hx y hy e
      subst e
      simp only [List.mem_map] at hx
      obtain ⟨z, -, rfl⟩ := hx
      obtain ⟨k', h1, h2⟩ := flattenEntries_head rest hp.2.2 _ hy
      rw [splitDot_append k z hp.1] at h2
      simp only [List.head?_cons, Option.some.injEq] at h2
      subst h2
      exact hn'.1 h1

/-- **C53** (keys): no path is listed twice. -/
theorem C53_flatten_keys_nodup (es : List (Name × Tree A)) (h : Plain (.node es)) : (flattenKeys (.node es)).Nodup :=
  nodup_flattenEntries es h.1 h.2

/-- Keys with dots are listed but cannot be accessed (why the hypothesis is needed). -/
theorem C53_dotted_key : ∃ (es : List (Name × Tree Nat)) (path : Name), path ∈ flattenKeys (.node es) ∧ getByPath (.node es) path = none := by
  refine ⟨[(str "a.b", .leaf 1)], str "a.b", ?_, ?_⟩
  · decide +kernel
  · rfl

theorem replaceDots_plain (p s : Name) (h : '.' ∉ p) : replaceDots (p ++ s) = p ++ replaceDots s := by
  induction p with
  | nil => rfl
  | cons c p ih =>
    simp only [List.mem_cons, not_or] at h
    have hc : c ≠ '.' := Ne.symm h.1
    rw [List.cons_append, replaceDots]
    · rw [ih h.2]; rfl
    · intro s' e
      exact absurd e hc

theorem replaceDots_ups (n : Nat) (s : Name) : replaceDots (List.replicate (2 * n) '.' ++ s) = List.replicate n '@' ++ replaceDots s := by
  induction n with
  | zero => simp
  | succ n ih =>
    rw [show 2 * (n + 1) = 2 * n + 1 + 1 from by omega, List.replicate_succ, List.replicate_succ, List.cons_append, List.cons_append,
      replaceDots, ih, List.replicate_succ, List.cons_append]

theorem replaceDots_join : ∀ (parts : List Name), (∀ p ∈ parts, p ≠ [] ∧ '.' ∉ p) → replaceDots (joinDot parts) = joinDot parts
  | [], _ => rfl
  | [p], h => by
    have := replaceDots_plain p [] (h p (by simp)).2
    simpa [joinDot, replaceDots] using this
  | p :: q :: ps, h => by
    simp only [joinDot]
    rw [replaceDots_plain p _ (h p (by simp)).2]
    congr 1
    have ih := replaceDots_join (q :: ps) (fun x hx => h x (List.mem_cons_of_mem _ hx))
    have hq := h q (by simp)
    cases q with
    | nil => exact absurd rfl hq.1
    | cons c q =>
      simp only [List.mem_cons, not_or] at hq
      have hc : c ≠ '.' := Ne.symm hq.2.1
      have hj : ∃ t, joinDot ((c :: q) :: ps) = c :: t := by
        cases ps with
        | nil => exact ⟨q, rfl⟩
        | cons r rs => exact ⟨q ++ '.' :: joinDot (r :: rs), by simp [joinDot]⟩
      obtain ⟨t, ht⟩ := hj
      rw [ht] at ih ⊢
      rw [replaceDots]
      · rw [ih]
      · intro s' e1 e2
        simp only [List.cons.injEq] at e2
        exact hc e2.1

theorem splitDot_ups (n : Nat) (parts : List Name) (hne : parts ≠ []) (h : ∀ p ∈ parts, p ≠ [] ∧ '.' ∉ p ∧ '@' ∉ p) :
    ∃ p ps, parts = p :: ps ∧ splitDot (List.replicate n '@' ++ joinDot parts) = (List.replicate n '@' ++ p) :: ps := by
  cases parts with
  | nil => exact absurd rfl hne
  | cons p ps =>
    refine ⟨p, ps, rfl, ?_⟩
    have hno : '.' ∉ List.replicate n '@' ++ p := by
      simp only [List.mem_append, List.mem_replicate, not_or, not_and]
      exact ⟨fun _ => by decide, (h p (by simp)).2.1⟩
    cases ps with
    | nil => exact splitDot_plain _ hno
    | cons q qs =>
      simp only [joinDot]
      rw [← List.append_assoc, splitDot_append _ _ hno]
      rw [splitDot_join (q :: qs) (by simp) (fun x hx => (h x (List.mem_cons_of_mem _ hx)).2.1)]

theorem pushPart_plain (stack : List Name) (p : Name) (h : '@' ∉ p) : pushPart stack p = some (p :: stack) := by
  cases p with
  | nil => simp [pushPart]
  | cons c p =>
    simp only [List.mem_cons, not_or] at h
    rw [pushPart]
    intro p' e
    simp only [List.cons.injEq] at e
    exact h.1 e.1.symm

theorem pushPart_ups (n : Nat) : ∀ (stack : List Name) (p : Name), '@' ∉ p →
    pushPart stack (List.replicate n '@' ++ p) = if n ≤ stack.length then some (p :: stack.drop n) else none := by
  induction n with
  | zero => intro stack p h; simp [pushPart_plain stack p h]
  | succ n ih =>
    intro stack p h
    rw [List.replicate_succ, List.cons_append]
    cases stack with
    | nil => simp [pushPart]
    | cons a stack =>
      simp only [pushPart, List.length_cons, Nat.add_le_add_iff_right, List.drop_succ_cons]
      exact ih stack p h

theorem pushParts_plain : ∀ (ps : List Name) (stack : List Name), (∀ p ∈ ps, '@' ∉ p) → pushParts stack ps = some (ps.reverse ++ stack)
  | [], stack, _ => rfl
  | p :: ps, stack, h => by
    simp only [pushParts, pushPart_plain stack p (h p (by simp))]
    rw [pushParts_plain ps (p :: stack) (fun q hq => h q (List.mem_cons_of_mem _ hq))]
    simp

theorem pushParts_append : ∀ (ps qs stack : List Name), pushParts stack (ps ++ qs) = (pushParts stack ps).bind (fun st => pushParts st qs)
  | [], qs, stack => rfl
  | p :: ps, qs, stack => by
    simp only [List.cons_append, pushParts]
    cases pushPart stack p with
    | none => rfl
    | some st => exact pushParts_append ps qs st

theorem take_reverse_drop (stack : List Name) (n : Nat) (_ : n ≤ stack.length) :
    stack.reverse.take (stack.length - n) = (stack.drop n).reverse := by
  rw [List.reverse_drop]

theorem pushParts_steps : ∀ (steps : List Step) (stack : List Name), (∀ s ∈ steps, s.Ok) →
    pushParts stack (steps.flatMap (fun s => splitDot (replaceDots s.text))) = (follow stack.reverse steps).map List.reverse
  | [], stack, _ => by simp [pushParts, follow]
  | s :: rest, stack, h => by
    obtain ⟨hne, hp⟩ := h s (by simp)
    have ht : replaceDots s.text = List.replicate s.up '@' ++ joinDot s.parts := by
      unfold Step.text
      rw [replaceDots_ups, replaceDots_join _ (fun p hp' => ⟨(hp p hp').1, (hp p hp').2.1⟩)]
    obtain ⟨p, ps, e1, e2⟩ := splitDot_ups s.up s.parts hne hp
    rw [List.flatMap_cons, ht, e2, pushParts_append]
    simp only [pushParts, follow, List.length_reverse]
    rw [pushPart_ups _ _ _ (hp p (by rw [e1]; simp)).2.2]
    by_cases hle : s.up ≤ stack.length
    · rw [if_pos hle, if_pos hle]
      simp only
      rw [pushParts_plain ps _ (fun q hq => (hp q (by rw [e1]; exact List.mem_cons_of_mem _ hq)).2.2)]
      simp only [Option.bind_some]
      rw [pushParts_steps rest _ (fun s' hs' => h s' (List.mem_cons_of_mem _ hs'))]
      congr 2
      rw [List.take_reverse, show stack.length - (stack.length - s.up) = s.up from by omega, e1]
      simp
    · rw [if_neg hle, if_neg hle]
      rfl

theorem step_no_at (s : Step) (h : s.Ok) : s.text.contains '@' = false := by
  have hj : ∀ parts : List Name, (∀ p ∈ parts, '@' ∉ p) → '@' ∉ joinDot parts := by
    intro parts
    induction parts with
    | nil => simp [joinDot]
    | cons p ps ih =>
      intro h
      cases ps with
      | nil => simpa [joinDot] using h p (by simp)
      | cons q qs =>
        simp only [joinDot, List.mem_append, List.mem_cons, not_or]
        exact ⟨h p (by simp), by decide, ih (fun x hx => h x (List.mem_cons_of_mem _ hx))⟩
  have : '@' ∉ s.text := by
    unfold Step.text
    simp only [List.mem_append, List.mem_replicate, not_or, not_and]
    exact ⟨fun _ => by decide, hj _ (fun p hp => (h.2 p hp).2.2)⟩
  simpa using this

/-- **C53** (normalised paths): dots at the beginning of an argument go up; the result is the path
reached by following the arguments, and an exception if that leads above the top. -/
theorem C53_normalized (steps : List Step) (h : ∀ s ∈ steps, s.Ok) :
    normalizedPath (steps.map Step.text) = (follow [] steps).map joinDot := by
  unfold normalizedPath
  rw [if_neg]
  swap
  · simp only [List.any_map, List.any_eq_true, not_exists, not_and, Function.comp]
    intro s hs
    rw [step_no_at s (h s hs)]
    simp
  simp only [List.flatMap_map]
  rw [if_neg]
  swap
  · intro hc
    rw [List.contains_iff_mem, List.mem_flatMap] at hc
    obtain ⟨s, hs, hm⟩ := hc
    obtain ⟨hne, hp⟩ := h s hs
    have ht : replaceDots s.text = List.replicate s.up '@' ++ joinDot s.parts := by
      unfold Step.text
      rw [replaceDots_ups, replaceDots_join _ (fun p hp' => ⟨(hp p hp').1, (hp p hp').2.1⟩)]
    obtain ⟨p, ps, e1, e2⟩ := splitDot_ups s.up s.parts hne hp
    rw [ht, e2] at hm
    simp only [List.mem_cons] at hm
    rcases hm with e | hm
    · have := (hp p (by rw [e1]; simp)).1
      have e' : List.replicate s.up '@' ++ p = [] := e.symm
      rw [List.append_eq_nil_iff] at e'
      exact this e'.2
    · exact (hp [] (by rw [e1]; exact List.mem_cons_of_mem _ hm)).1 rfl
  have := pushParts_steps steps [] h
  rw [List.reverse_nil] at this
  rw [this]
  cases follow [] steps with
  | none => rfl
  | some r => simp

/-- Dots in the middle of an argument do not go up: they turn into an `@` (so the claim is about
dots at the beginning only). -/
theorem C53_dots_in_the_middle (a b : Name) (ha : a ≠ [] ∧ '.' ∉ a ∧ '@' ∉ a) (hb : b ≠ [] ∧ '.' ∉ b ∧ '@' ∉ b) :
    normalizedPath [a ++ '.' :: '.' :: b] = some (a ++ '@' :: b) := by
  have h1 : replaceDots (a ++ '.' :: '.' :: b) = a ++ '@' :: b := by
    rw [replaceDots_plain a _ ha.2.1, replaceDots]
    have := replaceDots_plain b [] hb.2.1
    simp only [List.append_nil] at this
    rw [this]
    simp [replaceDots]
  have h2 : '.' ∉ a ++ '@' :: b := by
    simp only [List.mem_append, List.mem_cons, not_or]
    exact ⟨ha.2.1, by decide, hb.2.1⟩
  have h3 : pushPart [] (a ++ '@' :: b) = some [a ++ '@' :: b] := by
    cases a with
    | nil => exact absurd rfl ha.1
    | cons c a =>
      rw [List.cons_append, pushPart]
      intro p' e
      simp only [List.cons.injEq] at e
      have := ha.2.2
      simp only [List.mem_cons, not_or] at this
      exact this.1 e.1.symm
  unfold normalizedPath
  rw [if_neg]
  swap
  · have : '@' ∉ a ++ '.' :: '.' :: b := by
      simp only [List.mem_append, List.mem_cons, not_or]
      exact ⟨ha.2.2, by decide, by decide, hb.2.2⟩
    simpa using this
  simp only [List.flatMap_cons, List.flatMap_nil, List.append_nil, h1, splitDot_plain _ h2]
  rw [if_neg]
  swap
  · simp
  simp [pushParts, h3, joinDot]

mutual
theorem indices_spec : ∀ (e : Nest A) (n : Nat), (e.indices n).1.flat = List.range' n e.flat.length ∧ (e.indices n).2 = n + e.flat.length ∧
    (e.indices n).1.shape = e.shape
  | .leaf a, n => by simp [Nest.indices, Nest.flat, Nest.shape]
  | .list es, n => by
    obtain ⟨h1, h2, h3⟩ := nestedIndices_spec es n
    simp only [Nest.indices, Nest.flat, Nest.shape]
    exact ⟨h1, h2, by rw [h3]⟩
theorem nestedIndices_spec : ∀ (es : List (Nest A)) (n : Nat), flatten (nestedIndices es n).1 = List.range' n (flatten es).length ∧
    (nestedIndices es n).2 = n + (flatten es).length ∧ shapes (nestedIndices es n).1 = shapes es
  | [], n => by simp [nestedIndices, flatten, shapes]
  | e :: es, n => by
    obtain ⟨h1, h2, h3⟩ := indices_spec e n
    obtain ⟨g1, g2, g3⟩ := nestedIndices_spec es (e.indices n).2
    simp only [nestedIndices, flatten, shapes, List.length_append]
    refine ⟨?_, ?_, by rw [h3, g3]⟩
    · rw [h1, g1, h2]
      rw [← List.range'_append_1]
    · rw [g2, h2]; omega
end

/-- **C53** (indices): `convert_to_nested_indices` keeps the nesting and numbers the leaves
0, 1, 2, … in the order in which `flatten` lists them. -/
theorem C53_nested_indices (es : List (Nest A)) :
    shapes (nestedIndices es 0).1 = shapes es ∧ flatten (nestedIndices es 0).1 = List.range (flatten es).length := by
  obtain ⟨h1, -, h3⟩ := nestedIndices_spec es 0
  exact ⟨h3, by rw [h1, List.range_eq_range']⟩

/-! ### Examples -/

def demo : List (Name × Tree Nat) := [(str "a", .leaf 1), (str "b", .node [(str "x", .leaf 2), (str "y", .node [])])]

example : Plain (.node demo) := by
  simp only [demo, Plain, PlainEntries]
  decide +kernel

example : flattenKeys (.node demo) = [str "a", str "b.x"] := by decide +kernel

example : normalizedPath [str "Rnn", str "outputs", str "..parameters.W"] = some (str "Rnn.parameters.W") := by decide +kernel

example : ∀ s ∈ [(⟨0, [str "Rnn"]⟩ : Step), ⟨0, [str "outputs"]⟩, ⟨1, [str "parameters", str "W"]⟩], s.Ok := by
  unfold Step.Ok
  decide +kernel

example : flatten (nestedIndices [Nest.leaf 'a', .list [.leaf 'b', .list [], .leaf 'c'], .leaf 'd'] 0).1 = [0, 1, 2, 3] := by decide +kernel

end Verif.Paths
