import Verif.Construction.Spec
import Verif.Utils.NamesLemmas
import Mathlib.Data.List.Induction
import Mathlib.Data.List.Perm.Subperm

/-! Invariant of the construction state. -/

namespace Verif.Construction

open Dict

/-! ### `sortIds` -/

theorem mem_sortIds {l : List Nat} {x : Nat} : x ∈ sortIds l ↔ x ∈ l := by
  simp [sortIds]

theorem sorted_sortIds (l : List Nat) : (sortIds l).Pairwise (· ≤ ·) :=
  List.pairwise_insertionSort _ _

theorem nodup_sortIds (l : List Nat) : (sortIds l).Nodup :=
  ((List.perm_insertionSort _ _).nodup_iff).2 (List.nodup_dedup l)

/-- A sorted duplicate-free list is determined by its members. -/
theorem eq_of_sorted_nodup : ∀ {l₁ l₂ : List Nat}, l₁.Pairwise (· < ·) → l₂.Pairwise (· < ·) →
    (∀ x, x ∈ l₁ ↔ x ∈ l₂) → l₁ = l₂ := by
  intro l₁
  induction l₁ with
  | nil =>
    intro l₂ _ _ h
    cases l₂ with
    | nil => rfl
    | cons b l₂ => have := (h b).2 (by simp); simp at this
  | cons a l₁ ih =>
    intro l₂ h₁ h₂ h
    cases l₂ with
    | nil => have := (h a).1 (by simp); simp at this
    | cons b l₂ =>
      rw [List.pairwise_cons] at h₁ h₂
      have hab : a = b := by
        have ha := (h a).1 (by simp)
        have hb := (h b).2 (by simp)
        rcases List.mem_cons.1 ha with h' | h'
        · exact h'
        rcases List.mem_cons.1 hb with h'' | h''
        · exact h''.symm
        have := h₁.1 b h''
        have := h₂.1 a h'
        omega
      subst hab
      rw [ih h₁.2 h₂.2]
      intro x
      constructor
      · intro hx
        rcases List.mem_cons.1 ((h x).1 (List.mem_cons_of_mem _ hx)) with h' | h'
        · subst h'; have := h₁.1 x hx; omega
        · exact h'
      · intro hx
        rcases List.mem_cons.1 ((h x).2 (List.mem_cons_of_mem _ hx)) with h' | h'
        · subst h'; have := h₂.1 x hx; omega
        · exact h'

theorem pairwise_lt_range (n : Nat) : (List.range n).Pairwise (· < ·) := List.pairwise_lt_range

theorem sortIds_eq_filter {l : List Nat} {n : Nat} {P : Nat → Bool}
    (h : ∀ x, x ∈ l ↔ x < n ∧ P x) : sortIds l = (List.range n).filter P := by
  apply eq_of_sorted_nodup
  · have h1 := sorted_sortIds l
    have h2 := nodup_sortIds l
    refine (h1.and h2).imp ?_
    intro a b hab
    have := hab.1; have := hab.2; omega
  · exact (pairwise_lt_range n).filter _
  · intro x; rw [mem_sortIds, h, List.mem_filter, List.mem_range]

/-! ### `mergeDicts` -/

/-- Value of one key after merging. -/
def mergeVal : Option (List Nat) → Option (List Nat) → Option (List Nat)
  | x, none => x
  | x, some l => some (sortIds (x.getD [] ++ l))

theorem mergeDicts_cons (self : Scope) (p : Name × List Nat) (items : Scope) :
    mergeDicts self (p :: items) =
      mergeDicts (Dict.set (if Dict.has self p.1 then self else Dict.set self p.1 []) p.1
        (sortIds (((Dict.get? (if Dict.has self p.1 then self else Dict.set self p.1 []) p.1).getD [])
          ++ p.2))) items := rfl

theorem get?_mergeDicts : ∀ (items self : Scope), (Dict.keys items).Nodup → ∀ b,
    Dict.get? (mergeDicts self items) b = mergeVal (Dict.get? self b) (Dict.get? items b) := by
  intro items
  induction items with
  | nil => intro self _ b; simp [mergeDicts, mergeVal]
  | cons p items ih =>
    intro self hnd b
    obtain ⟨k, l⟩ := p
    simp only [Dict.keys, List.map_cons, List.nodup_cons] at hnd
    rw [mergeDicts_cons, ih _ hnd.2]
    have hk : Dict.get? items k = none := (Dict.get?_eq_none_iff items k).2 hnd.1
    simp only [Dict.get?_cons]
    by_cases hb : k = b
    · subst hb
      rw [Dict.get?_set_self, hk]
      simp only [mergeVal, if_true]
      by_cases hs : Dict.has self k
      · simp [hs]
      · have : Dict.get? self k = none := by
          simpa [Dict.has] using hs
        simp [hs, this, Dict.get?_set_self]
    · rw [Dict.get?_set_ne _ _ _ _ hb]
      simp only [hb, if_false]
      split
      · rfl
      · rw [Dict.get?_set_ne _ _ _ _ hb]

theorem nodup_mergeDicts : ∀ (items self : Scope), (Dict.keys self).Nodup →
    (Dict.keys (mergeDicts self items)).Nodup := by
  intro items
  induction items with
  | nil => intro self h; simpa [mergeDicts] using h
  | cons p items ih =>
    intro self h
    rw [mergeDicts_cons]
    apply ih
    apply Dict.nodup_keys_set
    split
    · exact h
    · exact Dict.nodup_keys_set _ _ _ h

/-! ### Histories -/

theorem run_append (ops : List Op) (op : Op) : run (ops ++ [op]) = step (run ops) op := by
  simp [run]

theorem created_append (a b : List Op) : created (a ++ b) = created a ++ created b := by
  induction a with
  | nil => rfl
  | cons op a ih =>
    cases op with
    | create t n =>
      simp only [List.cons_append, created]
      split <;> simp [ih]
    | connect => simp only [List.cons_append, created, ih]

theorem wires_append (a b : List Op) : ∀ n,
    wires n (a ++ b) = wires n a ++ wires (n + (created a).length) b := by
  induction a with
  | nil => intro n; simp [wires, created]
  | cons op a ih =>
    intro n
    cases op with
    | create t nm =>
      cases hc : checkCreate t nm with
      | ok r =>
        simp only [List.cons_append, wires, created, hc, ih, List.length_cons]
        congr 2; omega
      | error e => simp only [List.cons_append, wires, created, hc, ih]
    | connect =>
      simp only [List.cons_append, wires, created]
      split <;> simp [ih]

/-- Layers of scope `p` with base name `b`, by creation order. -/
def members (s : State) (p : Nat) (b : Name) : List Nat :=
  (List.range s.count).filter (fun j => decide (s.ptr j = p ∧ s.base j = b))

theorem mem_members {s : State} {p : Nat} {b : Name} {j : Nat} :
    j ∈ members s p b ↔ j < s.count ∧ s.ptr j = p ∧ s.base j = b := by
  simp [members]

/-- Contents expected under key `b` of scope `p`. -/
def expected (s : State) (p : Nat) (b : Name) : Option (List Nat) :=
  if members s p b = [] then none else some (members s p b)

structure Inv (ops : List Op) (s : State) : Prop where
  count : s.count = (created ops).length
  base : ∀ i, s.base i = (created ops).getD i []
  ptr_lt : ∀ i, i < s.count → s.ptr i < s.count
  nodup : ∀ i, i < s.count → (Dict.keys (s.heap (s.ptr i))).Nodup
  heap : ∀ i, i < s.count → ∀ b, Dict.get? (s.heap (s.ptr i)) b = expected s (s.ptr i) b
  conn_ptr : ∀ w ∈ wires 0 ops, s.ptr w.src = s.ptr w.dst
  ptr_conn : ∀ i j, i < s.count → j < s.count → s.ptr i = s.ptr j → Connected ops i j
  outgoing : ∀ a, s.outgoing a =
    ((wires 0 ops).filter (fun w => decide (w.src = a))).map (fun w => ⟨w.outputName, w.inputName, w.dst⟩)
  incoming : ∀ b, s.incoming b =
    ((wires 0 ops).filter (fun w => decide (w.dst = b))).map (fun w => ⟨w.src, w.outputName, w.inputName⟩)
  wires_lt : ∀ w ∈ wires 0 ops, w.src < s.count ∧ w.dst < s.count

theorem connected_mono {R S : Nat → Nat → Prop} (h : ∀ a b, R a b → S a b) {a b : Nat}
    (hab : Relation.EqvGen R a b) : Relation.EqvGen S a b := by
  induction hab with
  | rel a b hr => exact .rel _ _ (h _ _ hr)
  | refl a => exact .refl _
  | symm a b _ ih => exact .symm _ _ ih
  | trans a b c _ _ ih1 ih2 => exact .trans _ _ _ ih1 ih2

theorem inv_init : Inv [] State.init where
  count := rfl
  base := by intro i; simp [State.init, created]
  ptr_lt := by intro i h; simp [State.init] at h
  nodup := by intro i h; simp [State.init] at h
  heap := by intro i h; simp [State.init] at h
  conn_ptr := by intro w hw; simp [wires] at hw
  ptr_conn := by intro i j h; simp [State.init] at h
  outgoing := by intro a; simp [State.init, wires]
  incoming := by intro a; simp [State.init, wires]
  wires_lt := by intro w hw; simp [wires] at hw

theorem inv_alloc {ops : List Op} {s : State} (h : Inv ops s) (t : Name) (nm : Option Name)
    (base ty : Name) (hc : checkCreate t nm = .ok (base, ty)) :
    Inv (ops ++ [.create t nm]) (alloc s base ty) := by
  have hcr : created (ops ++ [.create t nm]) = created ops ++ [base] := by
    rw [created_append]; simp [created, hc]
  have hw : wires 0 (ops ++ [.create t nm]) = wires 0 ops := by
    rw [wires_append]; simp [wires, hc]
  have hmem : ∀ p b, p < s.count → members (alloc s base ty) p b = members s p b := by
    intro p b hp
    unfold members
    have : (alloc s base ty).count = s.count + 1 := rfl
    rw [this, List.range_succ, List.filter_append]
    have h1 : List.filter (fun j => decide ((alloc s base ty).ptr j = p ∧ (alloc s base ty).base j = b))
        [s.count] = [] := by
      simp [alloc, upd]; intro h; omega
    rw [h1, List.append_nil]
    apply List.filter_congr
    intro j hj
    have hj := List.mem_range.1 hj
    have : j ≠ s.count := by omega
    simp [alloc, upd, this]
  refine ⟨?_, ?_, ?_, ?_, ?_, ?_, ?_, ?_, ?_, ?_⟩
  · rw [hcr]; simp [alloc, h.count]
  · intro i
    rw [hcr]
    simp only [alloc, upd]
    by_cases hi : i = s.count
    · subst hi; simp [h.count]
    · simp only [hi, if_false, h.base]
      by_cases hlt : i < (created ops).length
      · simp [List.getD, List.getElem?_append_left hlt]
      · have : (created ops).length < i := by have := h.count; omega
        have h1 : (created ops)[i]? = none := by simp; omega
        have h2 : (created ops ++ [base])[i]? = none := by simp; omega
        simp [List.getD, h1, h2]
  · intro i hi
    simp only [alloc, upd] at *
    split
    · omega
    · have := h.ptr_lt i (by omega); omega
  · intro i hi
    simp only [alloc, upd] at *
    by_cases hi' : i = s.count
    · simp [hi', Dict.keys]
    · have h1 := h.ptr_lt i (by omega)
      simp only [hi', if_false]
      rw [if_neg (by omega)]
      exact h.nodup i (by omega)
  · intro i hi b
    by_cases hi' : i = s.count
    · subst hi'
      have hp : (alloc s base ty).ptr s.count = s.count := by simp [alloc, upd]
      have hm : members (alloc s base ty) s.count b = if base = b then [s.count] else [] := by
        unfold members
        have : (alloc s base ty).count = s.count + 1 := rfl
        rw [this, List.range_succ, List.filter_append]
        have h1 : List.filter (fun j => decide ((alloc s base ty).ptr j = s.count ∧
            (alloc s base ty).base j = b)) (List.range s.count) = [] := by
          rw [List.filter_eq_nil_iff]
          intro j hj
          have hj := List.mem_range.1 hj
          have h2 := h.ptr_lt j hj
          have : j ≠ s.count := by omega
          simp [alloc, upd, this]; intro h3; omega
        rw [h1]
        by_cases hb : base = b <;> simp [alloc, upd, hb]
      rw [hp, expected, hm]
      by_cases hb : base = b
      · simp [alloc, upd, hb, Dict.get?_cons]
      · simp [alloc, upd, hb, Dict.get?_cons]
    · have hi2 : i < s.count := by simp [alloc] at hi; omega
      have hp : (alloc s base ty).ptr i = s.ptr i := by simp [alloc, upd, hi']
      have h1 := h.ptr_lt i hi2
      rw [hp, expected, hmem _ _ h1]
      have hh : (alloc s base ty).heap (s.ptr i) = s.heap (s.ptr i) := by
        simp [alloc, upd]; intro h; omega
      rw [hh]
      exact h.heap i hi2 b
  · intro w hw'
    rw [hw] at hw'
    have := h.wires_lt w hw'
    have h1 : w.src ≠ s.count := by omega
    have h2 : w.dst ≠ s.count := by omega
    simp [alloc, upd, h1, h2, h.conn_ptr w hw']
  · intro i j hi hj hij
    simp only [alloc, upd] at hij hi hj
    unfold Connected Wired
    rw [hw]
    by_cases hi' : i = s.count <;> by_cases hj' : j = s.count
    · rw [hi', hj']; exact .refl _
    · have := h.ptr_lt j (by omega); simp [hi', hj'] at hij; omega
    · have := h.ptr_lt i (by omega); simp [hi', hj'] at hij; omega
    · simp [hi', hj'] at hij
      exact h.ptr_conn i j (by omega) (by omega) hij
  · intro a
    rw [hw]
    simp only [alloc, upd]
    split
    · next ha =>
      subst ha
      have : (wires 0 ops).filter (fun w => decide (w.src = s.count)) = [] := by
        rw [List.filter_eq_nil_iff]
        intro w hw'
        have := h.wires_lt w hw'
        simp; omega
      rw [this]; rfl
    · exact h.outgoing a
  · intro a
    rw [hw]
    simp only [alloc, upd]
    split
    · next ha =>
      subst ha
      have : (wires 0 ops).filter (fun w => decide (w.dst = s.count)) = [] := by
        rw [List.filter_eq_nil_iff]
        intro w hw'
        have := h.wires_lt w hw'
        simp; omega
      rw [this]; rfl
    · exact h.incoming a
  · intro w hw'
    rw [hw] at hw'
    have := h.wires_lt w hw'
    simp [alloc]; omega

/-- Membership in a well-formed scope. -/
theorem mem_scope {s : State} {d : Scope} {p : Nat} (hnd : (Dict.keys d).Nodup)
    (hd : ∀ b, Dict.get? d b = expected s p b) (j : Nat) :
    j ∈ d.flatMap (fun e => e.2) ↔ j < s.count ∧ s.ptr j = p := by
  rw [List.mem_flatMap]
  constructor
  · rintro ⟨⟨b, l⟩, he, hj⟩
    have h1 := Dict.get?_of_mem hnd he
    rw [hd] at h1
    unfold expected at h1
    split at h1
    · simp at h1
    · simp at h1; subst h1
      have := mem_members.1 hj
      exact ⟨this.1, this.2.1⟩
  · rintro ⟨hj, hp⟩
    have hm : j ∈ members s p (s.base j) := mem_members.2 ⟨hj, hp, rfl⟩
    have hne : members s p (s.base j) ≠ [] := List.ne_nil_of_mem hm
    have h1 : Dict.get? d (s.base j) = some (members s p (s.base j)) := by
      rw [hd]; simp [expected, hne]
    exact ⟨_, Dict.mem_of_get? h1, hm⟩

theorem inv_connect {ops : List Op} {s : State} (h : Inv ops s) (a : Nat) (o inp : Name) (b : Nat)
    (ha : a < s.count) (hb : b < s.count) :
    Inv (ops ++ [.connect a o inp b]) (step s (.connect a o inp b)) := by
  have hcr : created (ops ++ [.connect a o inp b]) = created ops := by
    rw [created_append]; simp [created]
  have hw : wires 0 (ops ++ [.connect a o inp b]) = wires 0 ops ++ [⟨a, o, inp, b⟩] := by
    rw [wires_append]
    have : 0 + (created ops).length = s.count := by rw [h.count]; simp
    rw [this]; simp [wires, ha, hb]
  generalize hs' : step s (.connect a o inp b) = s'
  have hcount : s'.count = s.count := by subst hs'; simp [step, ha, hb, mergeScopes]
  have hbase : s'.base = s.base := by subst hs'; simp [step, ha, hb, mergeScopes]
  have hout : s'.outgoing = upd s.outgoing a (s.outgoing a ++ [⟨o, inp, b⟩]) := by
    subst hs'; simp [step, ha, hb, mergeScopes]
  have hin : s'.incoming = upd s.incoming b (s.incoming b ++ [⟨a, o, inp⟩]) := by
    subst hs'; simp [step, ha, hb, mergeScopes]
  have hheap : s'.heap = upd s.heap (s.ptr a) (mergeDicts (s.heap (s.ptr a)) (s.heap (s.ptr b))) := by
    subst hs'; simp [step, ha, hb, mergeScopes]
  have hptr : ∀ j, s'.ptr j =
      if j ∈ (mergeDicts (s.heap (s.ptr a)) (s.heap (s.ptr b))).flatMap (fun e => e.2)
      then s.ptr a else s.ptr j := by
    subst hs'; intro j; simp [step, ha, hb, mergeScopes]
  generalize hnew : mergeDicts (s.heap (s.ptr a)) (s.heap (s.ptr b)) = new at hheap hptr
  have hnewnd : (Dict.keys new).Nodup := by
    rw [← hnew]; exact nodup_mergeDicts _ _ (h.nodup a ha)
  -- value of each key after the merge
  have hnewget : ∀ c, Dict.get? new c =
      (let l := (List.range s.count).filter
        (fun j => decide ((s.ptr j = s.ptr a ∨ s.ptr j = s.ptr b) ∧ s.base j = c))
       if l = [] then none else some l) := by
    intro c
    rw [← hnew, get?_mergeDicts _ _ (h.nodup b hb), h.heap a ha, h.heap b hb]
    have key : ∀ l : List Nat, (∀ x, x ∈ l ↔ x ∈ members s (s.ptr a) c ∨ x ∈ members s (s.ptr b) c) →
        sortIds l = (List.range s.count).filter
        (fun j => decide ((s.ptr j = s.ptr a ∨ s.ptr j = s.ptr b) ∧ s.base j = c)) := by
      intro l hl
      apply sortIds_eq_filter
      intro x
      rw [hl, mem_members, mem_members]
      simp only [decide_eq_true_eq]
      constructor
      · rintro (⟨h1, h2, h3⟩ | ⟨h1, h2, h3⟩)
        · exact ⟨h1, .inl h2, h3⟩
        · exact ⟨h1, .inr h2, h3⟩
      · rintro ⟨h1, h2 | h2, h3⟩
        · exact .inl ⟨h1, h2, h3⟩
        · exact .inr ⟨h1, h2, h3⟩
    have hmemf : ∀ x, x ∈ (List.range s.count).filter
        (fun j => decide ((s.ptr j = s.ptr a ∨ s.ptr j = s.ptr b) ∧ s.base j = c)) ↔
        x ∈ members s (s.ptr a) c ∨ x ∈ members s (s.ptr b) c := by
      intro x
      rw [← key (members s (s.ptr a) c ++ members s (s.ptr b) c) (by simp), mem_sortIds]
      simp
    unfold expected
    by_cases h2 : members s (s.ptr b) c = []
    · by_cases h1 : members s (s.ptr a) c = []
      · have : (List.range s.count).filter
          (fun j => decide ((s.ptr j = s.ptr a ∨ s.ptr j = s.ptr b) ∧ s.base j = c)) = [] := by
          rw [List.eq_nil_iff_forall_not_mem]
          intro x hx
          have := (hmemf x).1 hx
          simp [h1, h2] at this
        simp only [h1, h2, if_true, mergeVal, this]
      · have : (List.range s.count).filter
          (fun j => decide ((s.ptr j = s.ptr a ∨ s.ptr j = s.ptr b) ∧ s.base j = c))
          = members s (s.ptr a) c := by
          apply eq_of_sorted_nodup
          · exact (pairwise_lt_range _).filter _
          · exact (pairwise_lt_range _).filter _
          · intro x; rw [hmemf]; simp [h2]
        simp only [h1, h2, if_true, if_false, mergeVal, this]
    · have hne : (List.range s.count).filter
          (fun j => decide ((s.ptr j = s.ptr a ∨ s.ptr j = s.ptr b) ∧ s.base j = c)) ≠ [] := by
        obtain ⟨x, hx⟩ := List.exists_mem_of_ne_nil _ h2
        exact List.ne_nil_of_mem ((hmemf x).2 (.inr hx))
      simp only [h2, if_false, mergeVal, hne]
      congr 1
      apply key
      intro x
      by_cases h1 : members s (s.ptr a) c = [] <;> simp [h1]
  have hmem : ∀ j, j ∈ new.flatMap (fun e => e.2) ↔
      j < s.count ∧ (s.ptr j = s.ptr a ∨ s.ptr j = s.ptr b) := by
    intro j
    rw [List.mem_flatMap]
    constructor
    · rintro ⟨⟨c, l⟩, he, hj⟩
      have h1 := Dict.get?_of_mem hnewnd he
      rw [hnewget] at h1
      simp only at h1
      split at h1
      · simp at h1
      · simp only [Option.some.injEq] at h1
        rw [← h1] at hj
        simp only [List.mem_filter, List.mem_range, decide_eq_true_eq] at hj
        exact ⟨hj.1, hj.2.1⟩
    · rintro ⟨hj, hp⟩
      have hm : j ∈ (List.range s.count).filter
        (fun i => decide ((s.ptr i = s.ptr a ∨ s.ptr i = s.ptr b) ∧ s.base i = s.base j)) := by
        simp [hj, hp]
      have hne := List.ne_nil_of_mem hm
      have h1 := hnewget (s.base j)
      simp only [hne, if_false] at h1
      exact ⟨_, Dict.mem_of_get? h1, hm⟩
  have hptr' : ∀ j, s'.ptr j =
      if j < s.count ∧ (s.ptr j = s.ptr a ∨ s.ptr j = s.ptr b) then s.ptr a else s.ptr j := by
    intro j; rw [hptr]; simp only [hmem]
  have hptr_lt : ∀ j, j < s.count → s'.ptr j < s.count := by
    intro j hj
    rw [hptr']
    split
    · exact h.ptr_lt a ha
    · exact h.ptr_lt j hj
  have hpa : s'.ptr a = s.ptr a := by rw [hptr']; split <;> rfl
  have hpb : s'.ptr b = s.ptr a := by rw [hptr']; simp [hb]
  have hmono : ∀ i j, Connected ops i j → Connected (ops ++ [.connect a o inp b]) i j := by
    intro i j hc
    refine connected_mono ?_ hc
    rintro x y ⟨w, hw', h1⟩
    exact ⟨w, by rw [hw]; simp [hw'], h1⟩
  have hab : Connected (ops ++ [.connect a o inp b]) a b :=
    .rel _ _ ⟨⟨a, o, inp, b⟩, by rw [hw]; simp, rfl, rfl⟩
  refine ⟨?_, ?_, ?_, ?_, ?_, ?_, ?_, ?_, ?_, ?_⟩
  · rw [hcr, hcount, h.count]
  · rw [hcr, hbase]; exact h.base
  · intro i hi; rw [hcount] at *; exact hptr_lt i hi
  · intro i hi
    rw [hcount] at hi
    rw [hheap]; unfold upd
    split
    · exact hnewnd
    · next hne =>
      rw [hptr'] at hne ⊢
      split at hne
      · simp at hne
      · next h2 => rw [if_neg h2]; exact h.nodup i hi
  · intro i hi c
    rw [hcount] at hi
    by_cases hi' : s'.ptr i = s.ptr a
    · have h1 : s'.heap (s'.ptr i) = new := by rw [hheap, hi']; simp [upd]
      rw [h1, hnewget, hi']
      have : members s' (s.ptr a) c = (List.range s.count).filter
        (fun j => decide ((s.ptr j = s.ptr a ∨ s.ptr j = s.ptr b) ∧ s.base j = c)) := by
        unfold members
        rw [hcount, hbase]
        apply List.filter_congr
        intro j hj
        have hj := List.mem_range.1 hj
        simp only [decide_eq_decide]
        rw [hptr' j]
        by_cases hq : s.ptr j = s.ptr a ∨ s.ptr j = s.ptr b
        · simp [hj, hq]
        · have : s.ptr j ≠ s.ptr a := fun h => hq (.inl h)
          have : s.ptr j ≠ s.ptr b := fun h => hq (.inr h)
          simp [*]
      simp only [expected, this]
    · have hq : ¬ (s.ptr i = s.ptr a ∨ s.ptr i = s.ptr b) := by
        intro hq; apply hi'; rw [hptr']; simp [hi, hq]
      have h2 : s'.ptr i = s.ptr i := by rw [hptr']; simp [hq]
      have h1 : s'.heap (s'.ptr i) = s.heap (s.ptr i) := by
        rw [hheap, h2]; unfold upd; rw [if_neg (fun h => hq (.inl h))]
      rw [h1, h2, h.heap i hi]
      have : members s' (s.ptr i) c = members s (s.ptr i) c := by
        unfold members
        rw [hcount, hbase]
        apply List.filter_congr
        intro j hj
        have hj := List.mem_range.1 hj
        simp only [decide_eq_decide]
        rw [hptr' j]
        by_cases hq' : s.ptr j = s.ptr a ∨ s.ptr j = s.ptr b
        · have e1 : s.ptr j ≠ s.ptr i := by
            intro e; rw [e] at hq'; exact hq hq'
          have e2 : s.ptr a ≠ s.ptr i := fun e => hq (.inl e.symm)
          simp [hj, hq', e1, e2]
        · simp [hq']
      simp only [expected, this]
  · intro w hw'
    rw [hw] at hw'
    rcases List.mem_append.1 hw' with hw' | hw'
    · have h1 := h.conn_ptr w hw'
      have h2 := h.wires_lt w hw'
      rw [hptr', hptr', h1]
      simp [h2]
    · simp at hw'
      subst hw'
      simp [hpa, hpb]
  · intro i j hi hj hij
    rw [hcount] at hi hj
    have tr : ∀ x, x < s.count → (s.ptr x = s.ptr a ∨ s.ptr x = s.ptr b) →
        Connected (ops ++ [.connect a o inp b]) x a := by
      intro x hx hq
      rcases hq with hq | hq
      · exact hmono _ _ (h.ptr_conn x a hx ha hq)
      · exact .trans _ _ _ (hmono _ _ (h.ptr_conn x b hx hb hq)) (.symm _ _ hab)
    rw [hptr', hptr'] at hij
    by_cases hqi : s.ptr i = s.ptr a ∨ s.ptr i = s.ptr b <;>
      by_cases hqj : s.ptr j = s.ptr a ∨ s.ptr j = s.ptr b
    · exact .trans _ _ _ (tr i hi hqi) (.symm _ _ (tr j hj hqj))
    · simp [hi, hj, hqi, hqj] at hij
      exact absurd (.inl hij.symm) hqj
    · simp [hi, hj, hqi, hqj] at hij
      exact absurd (.inl hij) hqi
    · simp [hqi, hqj] at hij
      exact hmono _ _ (h.ptr_conn i j hi hj hij)
  · intro x
    rw [hout, hw, List.filter_append, List.map_append, ← h.outgoing x]
    unfold upd
    by_cases hx : x = a
    · subst hx; simp
    · simp [hx, Ne.symm hx]
  · intro x
    rw [hin, hw, List.filter_append, List.map_append, ← h.incoming x]
    unfold upd
    by_cases hx : x = b
    · subst hx; simp
    · simp [hx, Ne.symm hx]
  · intro w hw'
    rw [hw] at hw'
    rw [hcount]
    rcases List.mem_append.1 hw' with hw' | hw'
    · exact h.wires_lt w hw'
    · simp at hw'; subst hw'; exact ⟨ha, hb⟩

theorem inv_step {ops : List Op} {s : State} (h : Inv ops s) (op : Op) :
    Inv (ops ++ [op]) (step s op) := by
  cases op with
  | create t n =>
    simp only [step]
    cases hc : checkCreate t n with
    | error e =>
      have hcr : created (ops ++ [.create t n]) = created ops := by
        rw [created_append]; simp [created, hc]
      have hw : wires 0 (ops ++ [.create t n]) = wires 0 ops := by
        rw [wires_append]; simp [wires, hc]
      exact {
        count := by rw [hcr]; exact h.count
        base := by rw [hcr]; exact h.base
        ptr_lt := h.ptr_lt
        nodup := h.nodup
        heap := h.heap
        conn_ptr := by rw [hw]; exact h.conn_ptr
        ptr_conn := by unfold Connected Wired; rw [hw]; exact h.ptr_conn
        outgoing := by rw [hw]; exact h.outgoing
        incoming := by rw [hw]; exact h.incoming
        wires_lt := by rw [hw]; exact h.wires_lt }
    | ok r => exact inv_alloc h t n r.1 r.2 hc
  | connect a o i b =>
    by_cases hab : a < s.count ∧ b < s.count
    · exact inv_connect h a o i b hab.1 hab.2
    · have hst : step s (.connect a o i b) = s := by simp [step, hab]
      have hcr : created (ops ++ [.connect a o i b]) = created ops := by
        rw [created_append]; simp [created]
      have hw : wires 0 (ops ++ [.connect a o i b]) = wires 0 ops := by
        rw [wires_append]
        have : 0 + (created ops).length = s.count := by rw [h.count]; simp
        rw [this]; simp [wires, hab]
      rw [hst]
      exact {
        count := by rw [hcr]; exact h.count
        base := by rw [hcr]; exact h.base
        ptr_lt := h.ptr_lt
        nodup := h.nodup
        heap := h.heap
        conn_ptr := by rw [hw]; exact h.conn_ptr
        ptr_conn := by unfold Connected Wired; rw [hw]; exact h.ptr_conn
        outgoing := by rw [hw]; exact h.outgoing
        incoming := by rw [hw]; exact h.incoming
        wires_lt := by rw [hw]; exact h.wires_lt }

theorem inv_run (ops : List Op) : Inv ops (run ops) := by
  induction ops using List.reverseRecOn with
  | nil => exact inv_init
  | append_singleton ops op ih => rw [run_append]; exact inv_step ih op

/-- Connected layers share their scope dictionary. -/
theorem Inv.ptr_eq_of_connected {ops : List Op} {s : State} (h : Inv ops s) {i j : Nat}
    (hc : Connected ops i j) : s.ptr i = s.ptr j := by
  induction hc with
  | rel a b hr => obtain ⟨w, hw, rfl, rfl⟩ := hr; exact h.conn_ptr w hw
  | refl a => rfl
  | symm a b _ ih => exact ih.symm
  | trans a b c _ _ ih1 ih2 => exact ih1.trans ih2

/-! ### The search for a free index -/

/-- The derived name is not the (sole) base name of another object. -/
def Free (scope : Scope) (base : Name) (k : Nat) : Prop :=
  ∀ x, Dict.get? scope (indexed base k) ≠ some [x]

theorem nextFree_spec {scope : Scope} {base : Name} : ∀ {fuel i k : Nat},
    nextFree scope base fuel i = some k → i ≤ k ∧ Free scope base k := by
  intro fuel
  induction fuel with
  | zero => intro i k h; simp [nextFree] at h
  | succ fuel ih =>
    intro i k h
    simp only [nextFree] at h
    split at h
    · have := ih h; exact ⟨by omega, this.2⟩
    · next hne =>
      simp at h; subst h
      exact ⟨Nat.le_refl _, fun x hx => hne x hx⟩

theorem nextFree_mono {scope : Scope} {base : Name} : ∀ {fuel fuel' i k : Nat}, fuel ≤ fuel' →
    nextFree scope base fuel i = some k → nextFree scope base fuel' i = some k := by
  intro fuel
  induction fuel with
  | zero => intro fuel' i k _ h; simp [nextFree] at h
  | succ fuel ih =>
    intro fuel' i k hle h
    obtain ⟨f, rfl⟩ : ∃ f, fuel' = f + 1 := ⟨fuel' - 1, by omega⟩
    simp only [nextFree] at h ⊢
    split at h
    · exact ih (by omega) h
    · exact h

theorem nextFree_none {scope : Scope} {base : Name} : ∀ {fuel i : Nat},
    nextFree scope base fuel i = none → ∀ d < fuel, indexed base (i + d) ∈ Dict.keys scope := by
  intro fuel
  induction fuel with
  | zero => intro i _ d hd; omega
  | succ fuel ih =>
    intro i h d hd
    simp only [nextFree] at h
    split at h
    · next heq =>
      cases d with
      | zero => rw [Dict.mem_keys_iff]; simp [heq]
      | succ d =>
        have := ih h d (by omega)
        rw [show i + (d + 1) = i + 1 + d by omega]; exact this
    · simp at h

theorem nextFree_ends (scope : Scope) (base : Name) {fuel : Nat} (hf : scope.length < fuel)
    (i : Nat) : ∃ k, nextFree scope base fuel i = some k := by
  cases h : nextFree scope base fuel i with
  | some k => exact ⟨k, rfl⟩
  | none =>
    exfalso
    have h1 := nextFree_none h
    let l := (List.range fuel).map (fun d => indexed base (i + d))
    have hnd : l.Nodup := by
      refine List.Nodup.map ?_ List.nodup_range
      intro a b hab
      have := (indexed_inj hab).2
      omega
    have hsub : l ⊆ Dict.keys scope := by
      intro x hx
      obtain ⟨d, hd, rfl⟩ := List.mem_map.1 hx
      exact h1 d (List.mem_range.1 hd)
    have := (hnd.subperm hsub).length_le
    simp [l, Dict.keys] at this
    omega

theorem nameLoop_mem {scope : Scope} {base : Name} {fuel : Nat} (hf : scope.length < fuel)
    {self : Nat} : ∀ {l : List Nat} {i : Nat}, self ∈ l →
    ∃ k, i ≤ k ∧ Free scope base k ∧ nameLoop scope base self fuel l i = some (indexed base k) := by
  intro l
  induction l with
  | nil => intro i h; simp at h
  | cons un l ih =>
    intro i h
    obtain ⟨k, hk⟩ := nextFree_ends scope base hf i
    have hs := nextFree_spec hk
    simp only [nameLoop, hk]
    by_cases hu : un = self
    · exact ⟨k, hs.1, hs.2, by simp [hu]⟩
    · have hmem : self ∈ l := by
        rcases List.mem_cons.1 h with h | h
        · exact absurd h.symm hu
        · exact h
      obtain ⟨k', h1, h2, h3⟩ := ih (i := k + 1) hmem
      exact ⟨k', by omega, h2, by simp [hu, h3]⟩

theorem nameLoop_fuel {scope : Scope} {base : Name} {fuel fuel' : Nat} (hf : scope.length < fuel)
    (hf' : scope.length < fuel') {self : Nat} : ∀ (l : List Nat) (i : Nat),
    nameLoop scope base self fuel l i = nameLoop scope base self fuel' l i := by
  intro l
  induction l with
  | nil => intro i; rfl
  | cons un l ih =>
    intro i
    have hm : nextFree scope base fuel i = nextFree scope base fuel' i := by
      obtain ⟨k, hk⟩ := nextFree_ends scope base hf i
      obtain ⟨k', hk'⟩ := nextFree_ends scope base hf' i
      rcases Nat.le_total fuel fuel' with h | h
      · rw [nextFree_mono h hk, hk]
      · rw [nextFree_mono h hk', hk']
    simp only [nameLoop, hm, ih]

theorem nameLoop_order {scope : Scope} {base : Name} {fuel : Nat} (hf : scope.length < fuel)
    {x y : Nat} (hxy : x < y) : ∀ {l : List Nat} {i : Nat}, l.Pairwise (· < ·) → x ∈ l → y ∈ l →
    ∃ k k', i ≤ k ∧ k < k' ∧ nameLoop scope base x fuel l i = some (indexed base k) ∧
      nameLoop scope base y fuel l i = some (indexed base k') := by
  intro l
  induction l with
  | nil => intro i _ h; simp at h
  | cons un l ih =>
    intro i hp hx hy
    rw [List.pairwise_cons] at hp
    obtain ⟨k, hk⟩ := nextFree_ends scope base hf i
    have hs := nextFree_spec hk
    simp only [nameLoop, hk]
    by_cases hux : un = x
    · have huy : un ≠ y := by omega
      have hy' : y ∈ l := by
        rcases List.mem_cons.1 hy with h | h
        · exact absurd h.symm huy
        · exact h
      obtain ⟨k', h1, _, h3⟩ := nameLoop_mem hf (base := base) (i := k + 1) hy'
      exact ⟨k, k', hs.1, by omega, by simp [hux], by simp [huy, h3]⟩
    · have hx' : x ∈ l := by
        rcases List.mem_cons.1 hx with h | h
        · exact absurd h.symm hux
        · exact h
      have := hp.1 x hx'
      have huy : un ≠ y := by omega
      have hy' : y ∈ l := by
        rcases List.mem_cons.1 hy with h | h
        · exact absurd h.symm huy
        · exact h
      obtain ⟨k1, k2, h1, h2, h3, h4⟩ := ih (i := k + 1) hp.2 hx' hy'
      exact ⟨k1, k2, by omega, h2, by simp [hux, h3], by simp [huy, h4]⟩

theorem hasName_unique {s : State} {i : Nat} {a b : Name} (ha : HasName s i a) (hb : HasName s i b) :
    a = b := by
  obtain ⟨f, hf⟩ := ha
  obtain ⟨g, hg⟩ := hb
  have h1 := hf (max f g) (Nat.le_max_left ..)
  have h2 := hg (max f g) (Nat.le_max_right ..)
  rw [h1] at h2
  exact Option.some.inj h2

/-- What `name` returns, in terms of the members of the scope. -/
theorem Inv.hasName {ops : List Op} {s : State} (h : Inv ops s) {i : Nat} (hi : i < s.count) :
    (members s (s.ptr i) (s.base i) = [i] ∧ HasName s i (s.base i)) ∨
    (∃ k, 1 ≤ k ∧ Free (s.heap (s.ptr i)) (s.base i) k ∧ HasName s i (indexed (s.base i) k) ∧
      ∀ x, members s (s.ptr i) (s.base i) ≠ [x]) := by
  have hmem : i ∈ members s (s.ptr i) (s.base i) := mem_members.2 ⟨hi, rfl, rfl⟩
  have hne := List.ne_nil_of_mem hmem
  have hget : Dict.get? (s.heap (s.ptr i)) (s.base i) = some (members s (s.ptr i) (s.base i)) := by
    rw [h.heap i hi]; simp [expected, hne]
  by_cases h1 : ∃ x, members s (s.ptr i) (s.base i) = [x]
  · obtain ⟨x, hx⟩ := h1
    have : x = i := by rw [hx] at hmem; exact (List.mem_singleton.1 hmem).symm
    subst this
    refine .inl ⟨hx, 0, fun f _ => ?_⟩
    simp [nameFuel, hget, hx]
  · have hnx : ∀ x, members s (s.ptr i) (s.base i) ≠ [x] := fun x hx => h1 ⟨x, hx⟩
    right
    obtain ⟨k, hk1, hk2, hk3⟩ := nameLoop_mem (scope := s.heap (s.ptr i)) (base := s.base i)
      (Nat.lt_succ_self _) (i := 1) hmem
    refine ⟨k, hk1, hk2, ⟨(s.heap (s.ptr i)).length + 1, fun f hf => ?_⟩, hnx⟩
    unfold nameFuel
    simp only [hget]
    rw [← hk3]
    exact nameLoop_fuel (by omega) (by omega) _ _

/-- Two objects of one scope with the same base name. -/
theorem Inv.hasName_order {ops : List Op} {s : State} (h : Inv ops s) {i j : Nat} (hij : i < j)
    (hj : j < s.count) (hp : s.ptr i = s.ptr j) (hb : s.base i = s.base j) :
    ∃ k l, 1 ≤ k ∧ k < l ∧ HasName s i (indexed (s.base i) k) ∧ HasName s j (indexed (s.base i) l) := by
  have hi : i < s.count := by omega
  have hmi : i ∈ members s (s.ptr i) (s.base i) := mem_members.2 ⟨hi, rfl, rfl⟩
  have hmj : j ∈ members s (s.ptr i) (s.base i) := mem_members.2 ⟨hj, hp.symm, hb.symm⟩
  have hnx : ∀ x, members s (s.ptr i) (s.base i) ≠ [x] := by
    intro x hx; rw [hx] at hmi hmj; simp at hmi hmj; omega
  have hne := List.ne_nil_of_mem hmi
  have hget : Dict.get? (s.heap (s.ptr i)) (s.base i) = some (members s (s.ptr i) (s.base i)) := by
    rw [h.heap i hi]; simp [expected, hne]
  have hsorted : (members s (s.ptr i) (s.base i)).Pairwise (· < ·) :=
    (pairwise_lt_range _).filter _
  obtain ⟨k, l, h1, h2, h3, h4⟩ := nameLoop_order (scope := s.heap (s.ptr i)) (base := s.base i)
    (Nat.lt_succ_self _) hij (i := 1) hsorted hmi hmj
  refine ⟨k, l, h1, h2, ⟨(s.heap (s.ptr i)).length + 1, fun f hf => ?_⟩,
    ⟨(s.heap (s.ptr i)).length + 1, fun f hf => ?_⟩⟩
  · unfold nameFuel
    simp only [hget]
    rw [← h3]
    exact nameLoop_fuel (by omega) (by omega) _ _
  · unfold nameFuel
    rw [← hp, ← hb]
    simp only [hget]
    rw [← h4]
    exact nameLoop_fuel (by omega) (by omega) _ _

end Verif.Construction
