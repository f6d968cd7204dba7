import Verif.Instantiate.Model
import Verif.Architecture.Props
import Verif.Structure.Props
import Mathlib.Data.List.Dedup

/-!
# Property C59: instantiating layers
-/

namespace Verif.Instantiate

open Verif.Architecture Verif.Structure Verif.Paths

variable {K : Type}

/-! ### Specification -/

/-- Every enumeration of a set lists each of its elements exactly once. -/
structure Orders.Ok (o : Orders) : Prop where
  incoming : ∀ n l, (o.incoming n l).Perm l
  outgoing : ∀ n l, (o.outgoing n l).Perm l
  inputs : ∀ n l, (o.inputs n l).Perm l

/-- The structures a layer declares are legal: creating an illegal `BufferStructure`
raises an exception (`C13_structures`). -/
def Shapes.Valid (sh : Shapes) : Prop :=
  ∀ d, d = sh.outs ∨ d = sh.params ∨ d = sh.internals → ∀ e ∈ d, e.2.validate = .ok ()

/-- Names of outputs, parameters and internal buffers are not empty and contain neither
dots nor `@`. -/
def Shapes.Plain (sh : Shapes) : Prop :=
  ∀ d, d = sh.outs ∨ d = sh.params ∨ d = sh.internals → ∀ e ∈ d, e.1 ≠ [] ∧ '.' ∉ e.1 ∧ '@' ∉ e.1

/-- Every layer type declares legal structures. -/
def Env.Valid (env : Env K) : Prop :=
  ∀ t cls n kw ins sh, env.classOf t = some cls → cls.setup n kw ins = some sh → sh.Valid

/-- Every layer type uses plain names. -/
def Env.Plain (env : Env K) : Prop :=
  ∀ t cls n kw ins sh, env.classOf t = some cls → cls.setup n kw ins = some sh → sh.Plain

/-- The layer has, under the name `o` used in a connection, a buffer of structure `s`: an
output `o`, a parameter `..parameters.p` or an internal buffer `..internals.p`. -/
def Offers (l : LayerObj K) (o : Name) (s : Struct) : Prop :=
  Dict.get? l.shapes.outs o = some s ∨
  (∃ p, o = str "..parameters." ++ p ∧ Dict.get? l.shapes.params p = some s) ∨
  (∃ p, o = str "..internals." ++ p ∧ Dict.get? l.shapes.internals p = some s)

/-- `x` comes before `y` in the list. -/
def Before (l : List Name) (x y : Name) : Prop := ∃ l₁ l₂ l₃, l = l₁ ++ x :: l₂ ++ y :: l₃

/-! ### Lemmas -/

theorem sourceShapes_ok (layers : Dict Name (LayerObj K)) (l : List Connection) (ss : List Struct) :
    sourceShapes layers l = .ok ss ↔ List.Forall₂ (fun c s => sourceShape layers c = .ok s) l ss := by
  induction l generalizing ss with
  | nil =>
    simp only [sourceShapes, List.forall₂_nil_left_iff]
    constructor
    · intro h; cases h; rfl
    · rintro rfl; rfl
  | cons c cs ih =>
    rw [List.forall₂_cons_left_iff]
    simp only [sourceShapes]
    cases h : sourceShape layers c with
    | error e =>
      constructor
      · intro h'; cases h'
      · rintro ⟨_, _, h', _, _⟩; cases h'
    | ok s =>
      cases h2 : sourceShapes layers cs with
      | error e =>
        constructor
        · intro h'; cases h'
        · rintro ⟨s', ss', _, h', _⟩
          rw [(ih ss').2 h'] at h2; cases h2
      | ok ss1 =>
        constructor
        · intro h'; cases h'; exact ⟨s, ss1, rfl, (ih ss1).1 h2, rfl⟩
        · rintro ⟨s', ss', h3, h', rfl⟩
          cases h3
          rw [(ih ss').2 h'] at h2; cases h2; rfl

theorem forall₂_perm {α β : Type} {R : α → β → Prop} {l l' : List α} {m : List β}
    (hp : l.Perm l') (h : List.Forall₂ R l m) : ∃ m', m.Perm m' ∧ List.Forall₂ R l' m' := by
  induction hp generalizing m with
  | nil => exact ⟨m, .refl _, h⟩
  | cons x _ ih =>
    obtain ⟨y, m1, h1, h2, rfl⟩ := List.forall₂_cons_left_iff.1 h
    obtain ⟨m', hm, hf⟩ := ih h2
    exact ⟨y :: m', hm.cons y, .cons h1 hf⟩
  | swap x y l =>
    obtain ⟨a, m1, h1, h2, rfl⟩ := List.forall₂_cons_left_iff.1 h
    obtain ⟨b, m2, h3, h4, rfl⟩ := List.forall₂_cons_left_iff.1 h2
    exact ⟨b :: a :: m2, .swap _ _ _, .cons h3 (.cons h1 h4)⟩
  | trans _ _ ih1 ih2 =>
    obtain ⟨m1, hm1, hf1⟩ := ih1 h
    obtain ⟨m2, hm2, hf2⟩ := ih2 hf1
    exact ⟨m2, hm1.trans hm2, hf2⟩

/-- All structures of a layer object are legal. -/
def ObjValid (l : LayerObj K) : Prop := l.shapes.Valid ∧ ∀ e ∈ l.inShapes, e.2.validate = .ok ()

theorem combine_valid {l : List Struct} (h : ∀ s ∈ l, s.validate = .ok ()) {r : Struct}
    (hr : combine l = .ok r) : r.validate = .ok () := by
  cases hl : l with
  | nil => subst hl; simp only [combine] at hr; cases hr; decide
  | cons a l' =>
    obtain ⟨p, lead, hs⟩ := C14_reject l h r hr
    have hex : ∀ m : List Struct, (∀ s ∈ m, ∃ n, IsShape s p lead n) →
        ∃ k : List (Struct × Nat), k.map Prod.fst = m ∧ (∀ e ∈ k, IsShape e.1 p lead e.2) := by
      intro m
      induction m with
      | nil => intro _; exact ⟨[], rfl, by simp⟩
      | cons s m ih =>
        intro hm
        obtain ⟨k, hk1, hk2⟩ := ih (fun s' h' => hm s' (by simp [h']))
        obtain ⟨n, hn⟩ := hm s (by simp)
        refine ⟨(s, n) :: k, by simp [hk1], ?_⟩
        intro e he
        rcases List.mem_cons.1 he with rfl | he
        · exact hn
        · exact hk2 e he
    obtain ⟨k, hk1, hk2⟩ := hex l hs
    have hne : k ≠ [] := by rintro rfl; simp [hl] at hk1
    have := C14_combine k hne p lead hk2
    rw [hk1, hr] at this
    cases this
    exact (C13_structures _).2 ⟨p, lead ++ [(k.map Prod.snd).sum], by simp, rfl, by simp⟩

theorem getShape_valid {l : LayerObj K} (hl : ObjValid l) {p : Name} {s : Struct}
    (h : getShape l p = .ok s) : s.validate = .ok () := by
  unfold getShape at h
  simp only at h
  split at h
  · cases h
  · rename_i d hd
    split at h
    · rename_i k hk
      split at h
      · cases h
      · rename_i s' hs
        cases h
        have hm := Dict.mem_of_get? hs
        split_ifs at hd with h1 h2 h3 h4 <;> cases hd
        · exact hl.1 _ (.inr (.inl rfl)) _ hm
        · exact hl.1 _ (.inr (.inr rfl)) _ hm
        · exact hl.2 _ hm
        · exact hl.1 _ (.inl rfl) _ hm
    · cases h

/-- All layers built so far are legal. -/
def AllValid (layers : Dict Name (LayerObj K)) : Prop := ∀ n l, Dict.get? layers n = some l → ObjValid l

theorem sourceShape_valid {layers : Dict Name (LayerObj K)} (hv : AllValid layers) {c : Connection}
    {s : Struct} (h : sourceShape layers c = .ok s) : s.validate = .ok () := by
  unfold sourceShape at h
  split at h
  · cases h
  · rename_i l hl
    split at h
    · cases h
    · exact getShape_valid (hv _ _ hl) h

theorem sourceShapes_valid {layers : Dict Name (LayerObj K)} (hv : AllValid layers) {l : List Connection}
    {ss : List Struct} (h : List.Forall₂ (fun c s => sourceShape layers c = .ok s) l ss) :
    ∀ s ∈ ss, s.validate = .ok () := by
  induction h with
  | nil => simp
  | cons h1 _ ih =>
    intro s hs
    rcases List.mem_cons.1 hs with rfl | hs
    · exact sourceShape_valid hv h1
    · exact ih s hs

theorem inputShape_ok {layers : Dict Name (LayerObj K)} {l : List Connection} {i : Name} {s : Struct}
    (h : inputShape layers l i = .ok s) :
    ∃ ss, List.Forall₂ (fun c s => sourceShape layers c = .ok s)
        (l.filter (fun c => decide (c.inputName = i))) ss ∧ combine ss = .ok s := by
  unfold inputShape at h
  split at h
  · cases h
  · rename_i ss hss
    split at h
    · cases h
    · rename_i s' hs'
      cases h
      exact ⟨ss, (sourceShapes_ok _ _ _).1 hss, hs'⟩

theorem inputShape_perm {layers : Dict Name (LayerObj K)} (hv : AllValid layers) {l l' : List Connection}
    (hp : l.Perm l') {i : Name} {s : Struct} (h : inputShape layers l i = .ok s) :
    inputShape layers l' i = .ok s := by
  obtain ⟨ss, h1, h2⟩ := inputShape_ok h
  obtain ⟨ss', hp', h3⟩ := forall₂_perm (hp.filter _) h1
  unfold inputShape
  rw [(sourceShapes_ok _ _ _).2 h3]
  simp only [C14_order ss ss' hp' (sourceShapes_valid hv h1) s h2]

theorem inputShapes_ok (layers : Dict Name (LayerObj K)) (l : List Connection) (is : List Name)
    (d : Dict Name Struct) : inputShapes layers l is = .ok d ↔
      List.Forall₂ (fun i e => e.1 = i ∧ inputShape layers l i = .ok e.2) is d := by
  induction is generalizing d with
  | nil =>
    simp only [inputShapes, List.forall₂_nil_left_iff]
    constructor
    · intro h; cases h; rfl
    · rintro rfl; rfl
  | cons i is ih =>
    rw [List.forall₂_cons_left_iff]
    simp only [inputShapes]
    cases h : inputShape layers l i with
    | error e =>
      constructor
      · intro h'; cases h'
      · rintro ⟨_, _, ⟨_, h'⟩, _, _⟩; cases h'
    | ok s =>
      cases h2 : inputShapes layers l is with
      | error e =>
        constructor
        · intro h'; cases h'
        · rintro ⟨s', ss', _, h', _⟩
          rw [(ih ss').2 h'] at h2; cases h2
      | ok d1 =>
        constructor
        · intro h'; cases h'; exact ⟨(i, s), d1, ⟨rfl, rfl⟩, (ih d1).1 h2, rfl⟩
        · rintro ⟨⟨i', s'⟩, d', ⟨h3, h4⟩, h', rfl⟩
          simp only at h3 h4
          cases h4; subst h3
          rw [(ih d').2 h'] at h2; cases h2; rfl

theorem inputShapes_keys {layers : Dict Name (LayerObj K)} {l : List Connection} {is : List Name}
    {d : Dict Name Struct} (h : List.Forall₂ (fun i e => e.1 = i ∧ inputShape layers l i = .ok e.2) is d) :
    Dict.keys d = is := by
  induction h with
  | nil => rfl
  | cons h1 _ ih => simp only [Dict.keys, List.map_cons, h1.1] at ih ⊢; rw [ih]

theorem get?_perm {α : Type} {d d' : Dict Name α} (hk : (Dict.keys d).Nodup) (hp : d.Perm d') (k : Name) :
    Dict.get? d k = Dict.get? d' k := by
  have hk' : (Dict.keys d').Nodup := (hp.map _).nodup_iff.1 hk
  cases h : Dict.get? d k with
  | none =>
    rw [Dict.get?_eq_none_iff] at h
    symm
    rw [Dict.get?_eq_none_iff]
    exact fun hm => h ((hp.map Prod.fst).mem_iff.2 hm)
  | some v => exact (Dict.get?_of_mem hk' (hp.mem_iff.1 (Dict.mem_of_get? h))).symm

theorem sortShapes_perm {d d' : Dict Name Struct} (hk : (Dict.keys d).Nodup) (hp : d.Perm d') :
    sortShapes d = sortShapes d' := by
  unfold sortShapes
  rw [sortBy_congr nameLe_linear (show (Dict.keys d).Perm (Dict.keys d') from hp.map Prod.fst)]
  congr 1
  funext k
  rw [get?_perm hk hp]

theorem keys_sortShapes (d : Dict Name Struct) : Dict.keys (sortShapes d) = sortBy nameLe (Dict.keys d) := by
  have : ∀ l : List Name, (∀ k ∈ l, k ∈ Dict.keys d) →
      Dict.keys (l.filterMap (fun k => (Dict.get? d k).map (fun s => (k, s)))) = l := by
    intro l
    induction l with
    | nil => intro _; rfl
    | cons k l ih =>
      intro h
      obtain ⟨s, hs⟩ := Option.isSome_iff_exists.1 ((Dict.mem_keys_iff d k).1 (h k (by simp)))
      have := ih (fun k hk => h k (by simp [hk]))
      simp only [List.filterMap_cons, hs, Option.map_some]
      simp only [Dict.keys, List.map_cons] at this ⊢
      rw [this]
  exact this _ (fun k hk => mem_sortBy.1 hk)

theorem get?_sortShapes (d : Dict Name Struct) (k : Name) : Dict.get? (sortShapes d) k = Dict.get? d k := by
  have key : ∀ l : List Name, Dict.get? (l.filterMap (fun k => (Dict.get? d k).map (fun s => (k, s)))) k =
      if k ∈ l then Dict.get? d k else none := by
    intro l
    induction l with
    | nil => simp
    | cons k' l ih =>
      simp only [List.filterMap_cons]
      cases h : Dict.get? d k' with
      | none =>
        simp only [Option.map_none, ih, List.mem_cons]
        by_cases hk : k = k'
        · subst hk; simp [h]
        · simp [hk]
      | some s =>
        simp only [Option.map_some, Dict.get?_cons, ih, List.mem_cons]
        by_cases hk : k = k'
        · subst hk; simp [h]
        · simp [hk, Ne.symm hk]
  unfold sortShapes
  rw [key]
  simp only [mem_sortBy]
  split
  · rfl
  · next h => exact ((Dict.get?_eq_none_iff d k).2 h).symm

theorem any_perm {α : Type} {l l' : List α} (h : l.Perm l') (p : α → Bool) : l.any p = l'.any p := by
  rw [Bool.eq_iff_iff, List.any_eq_true, List.any_eq_true]
  simp only [h.mem_iff]

theorem construct_congr {cls : LayerClass K} {keys : K → List Name}
    {oi oi' oo oo' : List Connection → List Connection} (h1 : ∀ l, (oi l).Perm l) (h1' : ∀ l, (oi' l).Perm l)
    (h2 : ∀ l, (oo l).Perm l) (h2' : ∀ l, (oo' l).Perm l) (n : Name) {d d' : Dict Name Struct}
    (hd : sortShapes d = sortShapes d') (inc out : List Connection) (kw : K) :
    construct cls keys oi oo n d inc out kw = construct cls keys oi' oo' n d' inc out kw := by
  unfold construct
  simp only [hd, any_perm ((h1 inc).trans (h1' inc).symm), any_perm ((h2 out).trans (h2' out).symm)]

theorem map_dedup_perm {l l' : List Connection} (h : l.Perm l') :
    ((l.map (·.inputName)).dedup).Perm ((l'.map (·.inputName)).dedup) := (h.map _).dedup

theorem inputShapes_perm {layers : Dict Name (LayerObj K)} (hv : AllValid layers) {l l' : List Connection}
    (hp : l.Perm l') {is is' : List Name} (hi : is.Perm is') {d : Dict Name Struct}
    (h : inputShapes layers l is = .ok d) : ∃ d', d.Perm d' ∧ inputShapes layers l' is' = .ok d' := by
  rw [inputShapes_ok] at h
  obtain ⟨d', hd, hf⟩ := forall₂_perm hi h
  refine ⟨d', hd, ?_⟩
  rw [inputShapes_ok]
  exact hf.imp (fun i e ⟨he, hs⟩ => ⟨he, inputShape_perm hv hp hs⟩)

theorem instLayer_congr (env : Env K) {ord ord' : Orders} (ho : ord.Ok) (ho' : ord'.Ok) {a b : Arch}
    {n : Name} (hab : (Dict.get? a n).map (·.type) = (Dict.get? b n).map (·.type))
    (cs : List Connection) {layers : Dict Name (LayerObj K)} (hv : AllValid layers) {l : LayerObj K}
    (h : instLayer env ord a cs layers n = .ok l) : instLayer env ord' b cs layers n = .ok l := by
  unfold instLayer at h ⊢
  split at h
  · cases h
  · rename_i d hd
    rw [hd] at hab
    obtain ⟨d', hd', hdt⟩ : ∃ d', Dict.get? b n = some d' ∧ d'.type = d.type := by
      cases hb : Dict.get? b n with
      | none => rw [hb] at hab; simp at hab
      | some d' => rw [hb] at hab; exact ⟨d', rfl, by simpa using hab.symm⟩
    rw [hd']
    simp only [hdt]
    split at h
    · rename_i t ht
      split at h
      · cases h
      · rename_i cls hcls
        simp only [hcls] at h ⊢
        split at h
        · cases h
        · rename_i ins hins
          set inc := connSet cs (fun c => decide (c.endLayer = n)) with hinc
          have hp1 : (ord.incoming n inc).Perm (ord'.incoming n inc) :=
            (ho.incoming n inc).trans (ho'.incoming n inc).symm
          have hp2 : (ord.inputs n ((ord.incoming n inc).map (·.inputName)).dedup).Perm
              (ord'.inputs n ((ord'.incoming n inc).map (·.inputName)).dedup) :=
            (ho.inputs n _).trans ((map_dedup_perm hp1).trans (ho'.inputs n _).symm)
          obtain ⟨d2, hd2, h2⟩ := inputShapes_perm hv hp1 hp2 hins
          rw [h2]
          simp only
          have hkeys : (Dict.keys ins).Nodup := by
            rw [inputShapes_keys ((inputShapes_ok _ _ _ _).1 hins)]
            exact (ho.inputs n _).nodup_iff.2 (List.nodup_dedup _)
          rw [← h]
          exact construct_congr (ho'.incoming n) (ho.incoming n) (ho'.outgoing n) (ho.outgoing n) n
            (sortShapes_perm hkeys hd2).symm _ _ _
    · cases h

theorem construct_ok {cls : LayerClass K} {keys : K → List Name}
    {oi oo : List Connection → List Connection} {n : Name} {d : Dict Name Struct}
    {inc out : List Connection} {kw : K} {l : LayerObj K}
    (h : construct cls keys oi oo n d inc out kw = .ok l) :
    ∃ sh, l = ⟨n, kw, sortShapes d, inc, out, sh⟩ ∧ cls.setup n kw (sortShapes d) = some sh ∧
      ∀ c ∈ oo out, outgoingOk sh c = true := by
  unfold construct at h
  simp only at h
  split at h
  · cases h
  split at h
  · cases h
  split at h
  · cases h
  split at h
  · cases h
  split at h
  · cases h
  · rename_i sh hsh
    split_ifs at h with h1 h2
    cases h
    refine ⟨sh, rfl, hsh, ?_⟩
    intro c hc
    simp only [List.any_eq_true, not_exists, not_and, Bool.not_eq_true'] at h2
    simpa using h2 c hc

theorem instLayer_ok {env : Env K} {ord : Orders} {a : Arch} {cs : List Connection}
    {layers : Dict Name (LayerObj K)} {n : Name} {l : LayerObj K}
    (h : instLayer env ord a cs layers n = .ok l) :
    ∃ d t cls ins sh, Dict.get? a n = some d ∧ d.type = .string t ∧
      env.classOf (t ++ str "LayerImpl") = some cls ∧
      inputShapes layers (ord.incoming n (connSet cs (fun c => decide (c.endLayer = n))))
        (ord.inputs n ((ord.incoming n (connSet cs (fun c => decide (c.endLayer = n)))).map
          (·.inputName)).dedup) = .ok ins ∧
      cls.setup n (env.kwargs n) (sortShapes ins) = some sh ∧
      l = ⟨n, env.kwargs n, sortShapes ins, connSet cs (fun c => decide (c.endLayer = n)),
        connSet cs (fun c => decide (c.startLayer = n)), sh⟩ ∧
      ∀ c ∈ ord.outgoing n (connSet cs (fun c => decide (c.startLayer = n))), outgoingOk sh c = true := by
  unfold instLayer at h
  split at h
  · cases h
  · rename_i d hd
    split at h
    · rename_i t ht
      split at h
      · cases h
      · rename_i cls hcls
        simp only at h
        split at h
        · cases h
        · rename_i ins hins
          obtain ⟨sh, h1, h2, h3⟩ := construct_ok h
          exact ⟨d, t, cls, ins, sh, hd, ht, hcls, hins, h2, h1, h3⟩
    · cases h

theorem instLayer_valid {env : Env K} (hE : env.Valid) {ord : Orders} {a : Arch} {cs : List Connection}
    {layers : Dict Name (LayerObj K)} (hv : AllValid layers) {n : Name} {l : LayerObj K}
    (h : instLayer env ord a cs layers n = .ok l) : ObjValid l := by
  obtain ⟨d, t, cls, ins, sh, _, _, hcls, hins, hsh, rfl, _⟩ := instLayer_ok h
  refine ⟨hE _ _ _ _ _ _ hcls hsh, ?_⟩
  rintro ⟨k, s⟩ he
  have hm : (k, s) ∈ ins := by
    simp only [sortShapes, List.mem_filterMap, Option.map_eq_some_iff] at he
    obtain ⟨k', _, s', hs', heq⟩ := he
    cases heq
    exact Dict.mem_of_get? hs'
  rw [inputShapes_ok] at hins
  have : ∀ (is : List Name) (d : Dict Name Struct), List.Forall₂ (fun i e => e.1 = i ∧ inputShape layers
      (ord.incoming n (connSet cs (fun c => decide (c.endLayer = n)))) i = .ok e.2) is d →
      ∀ e ∈ d, e.2.validate = .ok () := by
    intro is d hf
    induction hf with
    | nil => simp
    | cons h1 _ ih =>
      intro e he
      rcases List.mem_cons.1 he with rfl | he
      · obtain ⟨ss, h2, h3⟩ := inputShape_ok h1.2
        exact combine_valid (sourceShapes_valid hv h2) h3
      · exact ih e he
  exact this _ _ hins _ hm

theorem AllValid.set {layers : Dict Name (LayerObj K)} (hv : AllValid layers) {n : Name} {l : LayerObj K}
    (hl : ObjValid l) : AllValid (Dict.set layers n l) := by
  intro m l' h
  rw [Dict.get?_set] at h
  split at h
  · cases h; exact hl
  · exact hv _ _ h

theorem instLoop_congr (env : Env K) (hE : env.Valid) {ord ord' : Orders} (ho : ord.Ok) (ho' : ord'.Ok)
    {a b : Arch} (hab : ∀ n, (Dict.get? a n).map (·.type) = (Dict.get? b n).map (·.type))
    (cs : List Connection) (ns : List Name) {layers r : Dict Name (LayerObj K)} (hv : AllValid layers)
    (h : instLoop env ord a cs layers ns = .ok r) : instLoop env ord' b cs layers ns = .ok r := by
  induction ns generalizing layers with
  | nil => exact h
  | cons n ns ih =>
    simp only [instLoop] at h ⊢
    split at h
    · cases h
    · rename_i l hl
      rw [instLayer_congr env ho ho' (hab n) cs hv hl]
      exact ih (hv.set (instLayer_valid hE hv hl)) h

/-! ### Same architecture -/

theorem SameOut.symm' {x y : OutEntry} (h : SameOut x y) :
    ((∃ l, x = .list l) ∨ ∃ m, x = .dict m) ∧ ((∃ l, y = .list l) ∨ ∃ m, y = .dict m) := by
  cases h with
  | list h => exact ⟨.inl ⟨_, rfl⟩, .inl ⟨_, rfl⟩⟩
  | dict _ h => exact ⟨.inr ⟨_, rfl⟩, .inr ⟨_, rfl⟩⟩

theorem sameArch_fwd {a b : Arch} (h : SameArch a b) : ∀ n d, (n, d) ∈ a → ∃ d', (n, d') ∈ b ∧ d'.type = d.type := by
  obtain ⟨m, hp, hf⟩ := h
  intro n d hd
  have hd' := hp.mem_iff.1 hd
  clear hp hd
  induction hf with
  | nil => simp at hd'
  | cons h1 _ ih =>
    rcases List.mem_cons.1 hd' with rfl | hd'
    · rename_i y l1 l2 _
      refine ⟨y.2, List.mem_cons.2 (.inl (Prod.ext h1.1 rfl)), h1.2.1.symm⟩
    · obtain ⟨d', h2, h3⟩ := ih hd'
      exact ⟨d', by simp [h2], h3⟩

theorem sameArch_bwd {a b : Arch} (h : SameArch a b) : ∀ n d, (n, d) ∈ b →
    ∃ d', (n, d') ∈ a ∧ d'.type = d.type ∧ ((∃ l, d.outgoing = .list l) ∨ ∃ m, d.outgoing = .dict m) := by
  obtain ⟨m, hp, hf⟩ := h
  intro n d hd
  have : ∃ d', (n, d') ∈ m ∧ d'.type = d.type ∧ ((∃ l, d.outgoing = .list l) ∨ ∃ m, d.outgoing = .dict m) := by
    clear hp
    induction hf with
    | nil => simp at hd
    | cons h1 _ ih =>
      rcases List.mem_cons.1 hd with rfl | hd
      · rename_i x l1 l2 _
        refine ⟨x.2, List.mem_cons.2 (.inl (Prod.ext h1.1.symm rfl)), h1.2.1, (SameOut.symm' h1.2.2).2⟩
      · obtain ⟨d', h2, h3⟩ := ih hd
        exact ⟨d', by simp [h2], h3⟩
  obtain ⟨d', h1, h2⟩ := this
  exact ⟨d', hp.mem_iff.2 h1, h2⟩

theorem sameArch_out {a b : Arch} (h : SameArch a b) : HasOutgoing a := by
  obtain ⟨m, hp, hf⟩ := h
  intro n d hd
  have hd' := hp.mem_iff.1 hd
  clear hp hd
  induction hf with
  | nil => simp at hd'
  | cons h1 _ ih =>
    rcases List.mem_cons.1 hd' with rfl | hd'
    · exact (SameOut.symm' h1.2.2).1
    · exact ih hd'

theorem sameArch_conn {a b : Arch} (h : SameArch a b) (c : Connection) : HasConnection a c ↔ HasConnection b c := by
  obtain ⟨cs, h1, h2⟩ := C05_connections a b h
  rw [← C07_collect a cs h1, ← C07_collect b cs h2]

theorem sameArch_wf {a b : Arch} (h : SameArch a b) : WellFormed a ↔ WellFormed b := by
  have hk := h.keys
  constructor
  · intro w
    refine ⟨?_, ?_, ?_, ?_, ?_, ?_⟩
    · intro n d hd
      obtain ⟨d', h1, h2, _⟩ := sameArch_bwd h n d hd
      rw [← h2]; exact w.types n d' h1
    · intro n d hd
      exact (sameArch_bwd h n d hd).choose_spec.2.2
    · intro n hn; exact w.names n (hk.mem_iff.2 hn)
    · intro c hc; exact hk.mem_iff.1 (w.closed c ((sameArch_conn h c).2 hc))
    · obtain ⟨d, hd, ht⟩ := w.input
      obtain ⟨d', h1, h2⟩ := sameArch_fwd h _ _ hd
      exact ⟨d', h1, h2.trans ht⟩
    · intro c hc; exact w.noInputIncoming c ((sameArch_conn h c).2 hc)
  · intro w
    refine ⟨?_, ?_, ?_, ?_, ?_, ?_⟩
    · intro n d hd
      obtain ⟨d', h1, h2⟩ := sameArch_fwd h n d hd
      rw [← h2]; exact w.types n d' h1
    · exact sameArch_out h
    · intro n hn; exact w.names n (hk.mem_iff.1 hn)
    · intro c hc; exact hk.mem_iff.2 (w.closed c ((sameArch_conn h c).1 hc))
    · obtain ⟨d, hd, ht⟩ := w.input
      obtain ⟨d', h1, h2, _⟩ := sameArch_bwd h _ _ hd
      exact ⟨d', h1, h2.trans ht⟩
    · intro c hc; exact w.noInputIncoming c ((sameArch_conn h c).1 hc)

theorem sameArch_type {a b : Arch} (h : SameArch a b) (hk : (Dict.keys a).Nodup) (n : Name) :
    (Dict.get? a n).map (·.type) = (Dict.get? b n).map (·.type) := by
  have hk' : (Dict.keys b).Nodup := h.keys.nodup_iff.1 hk
  cases ha : Dict.get? a n with
  | none =>
    rw [Dict.get?_eq_none_iff, h.keys.mem_iff, ← Dict.get?_eq_none_iff] at ha
    rw [ha]
  | some d =>
    obtain ⟨d', h1, h2⟩ := sameArch_fwd h n d (Dict.mem_of_get? ha)
    rw [Dict.get?_of_mem hk' h1]
    simp [h2]

/-! ### The properties -/

/-- What instantiation computes, depending on the canonical order. -/
theorem instantiates_cases (env : Env K) (ord : Orders) (a : Arch) (hk : (Dict.keys a).Nodup) :
    (∃ e, Instantiates env ord a (.error (.arch e)) ∧
      ((¬ WellFormed a) ∨ CanonicalOrder a (.error e))) ∨
    (WellFormed a ∧ ∃ cs order, collectAll a = .ok cs ∧ CanonicalOrder a (.ok order) ∧
      Instantiates env ord a (instLoop env ord a cs [] order)) := by
  cases hv : validate a with
  | error e =>
    left
    refine ⟨e, ⟨0, fun f _ => by simp [instantiateFuel, hv]⟩, .inl ?_⟩
    rw [← C06_validate_iff a hk, hv]
    exact fun h => by cases h
  | ok u =>
    have wf := (C06_validate_iff a hk).1 hv
    rcases collectAll_spec a with ⟨ho, cs, hcs, _⟩ | ⟨ho, _⟩
    swap
    · exact absurd wf.outgoing ho
    rcases C04_terminates a hk ho with ⟨order, hord⟩ | herr
    · right
      refine ⟨wf, cs, order, hcs, hord, ?_⟩
      obtain ⟨f, hf⟩ := hord
      exact ⟨f, fun f' h' => by simp [instantiateFuel, hv, hcs, hf f' h']⟩
    · left
      refine ⟨.assertion, ?_, .inr herr⟩
      obtain ⟨f, hf⟩ := herr
      exact ⟨f, fun f' h' => by simp [instantiateFuel, hv, hcs, hf f' h']⟩

theorem Instantiates.unique {env : Env K} {ord : Orders} {a : Arch}
    {r r' : Except Err (Dict Name (LayerObj K))} (h : Instantiates env ord a r)
    (h' : Instantiates env ord a r') : r = r' := by
  obtain ⟨f, hf⟩ := h
  obtain ⟨f', hf'⟩ := h'
  have := (hf (max f f') (by omega)).symm.trans (hf' (max f f') (by omega))
  simpa using this

/-- **C59 (termination).** Instantiation always ends, with a dictionary of layers or an
exception. -/
theorem C59_terminates (env : Env K) (ord : Orders) (a : Arch) (hk : (Dict.keys a).Nodup) :
    ∃ r, Instantiates env ord a r := by
  rcases instantiates_cases env ord a hk with ⟨e, h, _⟩ | ⟨_, cs, order, _, _, h⟩
  · exact ⟨_, h⟩
  · exact ⟨_, h⟩

/-- **C59 (independence of orders).** Two architectures that differ only in the order of
dictionary entries and connection lists give the same layers, whatever the order in which
sets of connections and of input names are enumerated: if one instantiation succeeds, so
does the other, and all layers (with their input, output, parameter and internal
structures, in the same order) are the same. -/
theorem C59_deterministic (env : Env K) (hE : env.Valid) (a b : Arch) (hk : (Dict.keys a).Nodup)
    (hab : SameArch a b) (ord ord' : Orders) (ho : ord.Ok) (ho' : ord'.Ok)
    (layers : Dict Name (LayerObj K)) (h : Instantiates env ord a (.ok layers)) :
    Instantiates env ord' b (.ok layers) := by
  have hk' : (Dict.keys b).Nodup := hab.keys.nodup_iff.1 hk
  rcases instantiates_cases env ord a hk with ⟨e, h1, _⟩ | ⟨wf, cs, order, hcs, hord, h1⟩
  · cases h.unique h1
  · have h2 := h.unique h1
    rcases instantiates_cases env ord' b hk' with ⟨e, _, h3 | h3⟩ | ⟨wf', cs', order', hcs', hord', h3⟩
    · exact absurd ((sameArch_wf hab).1 wf) h3
    · exact absurd (((C05_order a b hab _).1 hord).unique h3) (by simp)
    · have e1 : order' = order := by
        have := hord'.unique ((C05_order a b hab _).1 hord)
        simpa using this
      have e2 : cs' = cs := by
        obtain ⟨cs2, q1, q2⟩ := C05_connections a b hab
        rw [hcs] at q1; rw [hcs'] at q2
        cases q1; cases q2; rfl
      subst e1; subst e2
      rw [instLoop_congr env hE ho ho' (sameArch_type hab hk) cs' order'
        (by intro n l h; simp at h) h2.symm] at h3
      exact h3

/-! ### What the layers are made of -/

theorem mem_connSet {cs : List Connection} {p : Connection → Bool} {c : Connection} :
    c ∈ connSet cs p ↔ c ∈ cs ∧ p c = true := by
  simp [connSet, List.mem_dedup, List.mem_filter]

theorem keys_set_new {layers : Dict Name (LayerObj K)} {n : Name} {l : LayerObj K}
    (h : n ∉ Dict.keys layers) : Dict.keys (Dict.set layers n l) = Dict.keys layers ++ [n] := by
  rw [Dict.keys_set, if_neg h]

/-- The layers after the loop: each was built from the layers before it. -/
theorem instLoop_spec {env : Env K} {ord : Orders} {a : Arch} {cs : List Connection} (ns : List Name)
    {layers r : Dict Name (LayerObj K)} (hn : (Dict.keys layers ++ ns).Nodup)
    (h : instLoop env ord a cs layers ns = .ok r) :
    Dict.keys r = Dict.keys layers ++ ns ∧
    (∀ n ∈ Dict.keys layers, Dict.get? r n = Dict.get? layers n) ∧
    ∀ n ∈ ns, ∃ before l, Dict.get? r n = some l ∧ instLayer env ord a cs before n = .ok l ∧
      (∀ m l', Dict.get? before m = some l' → Dict.get? r m = some l') := by
  induction ns generalizing layers with
  | nil =>
    simp only [instLoop] at h
    cases h
    simp
  | cons n ns ih =>
    simp only [instLoop] at h
    split at h
    · cases h
    · rename_i l hl
      have hnew : n ∉ Dict.keys layers := by
        intro hm
        rw [List.nodup_append] at hn
        exact hn.2.2 n hm n (by simp) rfl
      have hks := keys_set_new (l := l) hnew
      obtain ⟨h1, h2, h3⟩ := ih (layers := Dict.set layers n l)
        (by rw [hks]; simpa using hn) h
      have hgn : Dict.get? r n = some l := by
        rw [h2 n (by rw [hks]; simp), Dict.get?_set_self]
      have hkeep : ∀ m ∈ Dict.keys layers, Dict.get? r m = Dict.get? layers m := by
        intro m hm
        rw [h2 m (by rw [hks]; simp [hm]), Dict.get?_set_ne]
        rintro rfl
        exact hnew hm
      refine ⟨by rw [h1, hks]; simp, hkeep, ?_⟩
      intro m hm
      rcases List.mem_cons.1 hm with rfl | hm
      · refine ⟨layers, l, hgn, hl, ?_⟩
        intro k l' hk
        rw [hkeep k (by rw [Dict.mem_keys_iff, hk]; rfl), hk]
      · exact h3 m hm

theorem plain_norm (o : Name) (h : o ≠ [] ∧ '.' ∉ o ∧ '@' ∉ o) :
    normalizedPath [str "outputs", o] = some (str "outputs." ++ o) := by
  have h1 := C53_normalized [⟨0, [str "outputs"]⟩, ⟨0, [o]⟩] (by
    intro s hs
    simp only [List.mem_cons, List.not_mem_nil, or_false] at hs
    rcases hs with rfl | rfl
    · exact ⟨by simp, by simp; decide⟩
    · exact ⟨by simp, by simpa using h⟩)
  simp only [List.map_cons, List.map_nil, Step.text, follow] at h1
  exact h1

theorem up_norm (cat p : Name) (hc : cat ≠ [] ∧ '.' ∉ cat ∧ '@' ∉ cat) (h : p ≠ [] ∧ '.' ∉ p ∧ '@' ∉ p) :
    normalizedPath [str "outputs", '.' :: '.' :: (cat ++ '.' :: p)] = some (cat ++ '.' :: p) := by
  have h1 := C53_normalized [⟨0, [str "outputs"]⟩, ⟨1, [cat, p]⟩] (by
    intro s hs
    simp only [List.mem_cons, List.not_mem_nil, or_false] at hs
    rcases hs with rfl | rfl
    · exact ⟨by simp, by simp; decide⟩
    · refine ⟨by simp, ?_⟩
      intro q hq
      simp only [List.mem_cons, List.not_mem_nil, or_false] at hq
      rcases hq with rfl | rfl
      · exact hc
      · exact h)
  simp only [List.map_cons, List.map_nil, Step.text, follow] at h1
  exact h1

theorem has_plain {sh : Shapes} (hp : sh.Plain) {d : Dict Name Struct}
    (hd : d = sh.outs ∨ d = sh.params ∨ d = sh.internals) {k : Name} (h : Dict.has d k = true) :
    k ≠ [] ∧ '.' ∉ k ∧ '@' ∉ k := by
  obtain ⟨s, hs⟩ := Option.isSome_iff_exists.1 h
  exact hp d hd _ (Dict.mem_of_get? hs)

/-- The shape found for a connection accepted by its source layer is the one of the
output, parameter or internal buffer named. -/
theorem offers_of_shape {layers : Dict Name (LayerObj K)} {c : Connection} {l : LayerObj K}
    (hl : Dict.get? layers c.startLayer = some l) (hp : l.shapes.Plain)
    (hok : outgoingOk l.shapes c = true) {s : Struct} (h : sourceShape layers c = .ok s) :
    Offers l c.outputName s := by
  unfold sourceShape at h
  simp only [hl] at h
  unfold outgoingOk at hok
  split at hok
  · rename_i rest hrest
    have hpd := partitionDot_cases rest
    set p := partitionDot rest with hpdef
    have hsub : ∀ d, (d = l.shapes.outs ∨ d = l.shapes.params ∨ d = l.shapes.internals) →
        Dict.has d p.2 = true → p.2 ≠ [] ∧ '.' ∉ p.2 ∧ '@' ∉ p.2 ∧ rest = p.1 ++ '.' :: p.2 := by
      intro d hd hh
      obtain ⟨q1, q2, q3⟩ := has_plain hp hd hh
      refine ⟨q1, q2, q3, ?_⟩
      rcases hpd.2 with h' | ⟨_, h'⟩
      · exact h'
      · exact absurd h' q1
    simp only at hok
    split_ifs at hok with h1 h2
    · obtain ⟨q1, q2, q3, q4⟩ := hsub _ (.inr (.inl rfl)) hok
      rw [h1] at q4
      rw [hrest, q4, up_norm _ _ (by decide) ⟨q1, q2, q3⟩] at h
      simp only [getShape, partitionDot_append _ _ (show '.' ∉ str "parameters" by decide), if_true,
        splitDot_plain _ q2] at h
      split at h
      · cases h
      · rename_i s' hs'
        cases h
        exact .inr (.inl ⟨p.2, by rw [hrest, q4]; rfl, hs'⟩)
    · obtain ⟨q1, q2, q3, q4⟩ := hsub _ (.inr (.inr rfl)) hok
      rw [h2] at q4
      rw [hrest, q4, up_norm _ _ (by decide) ⟨q1, q2, q3⟩] at h
      simp only [getShape, partitionDot_append _ _ (show '.' ∉ str "internals" by decide),
        if_neg (show ¬ str "internals" = str "parameters" by decide), if_true, splitDot_plain _ q2] at h
      split at h
      · cases h
      · rename_i s' hs'
        cases h
        exact .inr (.inr ⟨p.2, by rw [hrest, q4]; rfl, hs'⟩)
  · obtain ⟨q1, q2, q3⟩ := has_plain hp (.inl rfl) hok
    rw [plain_norm _ ⟨q1, q2, q3⟩] at h
    have e : str "outputs." ++ c.outputName = str "outputs" ++ '.' :: c.outputName := rfl
    simp only [getShape, e, partitionDot_append _ _ (show '.' ∉ str "outputs" by decide),
      if_neg (show ¬ str "outputs" = str "parameters" by decide),
      if_neg (show ¬ str "outputs" = str "internals" by decide),
      if_neg (show ¬ str "outputs" = str "inputs" by decide), if_true, splitDot_plain _ q2] at h
    split at h
    · cases h
    · rename_i s' hs'
      cases h
      exact .inl hs'

theorem forall₂_zip {α β : Type} {R : α → β → Prop} {l : List α} {m : List β} (h : List.Forall₂ R l m) :
    ∃ z : List (α × β), z.map Prod.fst = l ∧ z.map Prod.snd = m ∧ ∀ p ∈ z, R p.1 p.2 := by
  induction h with
  | nil => exact ⟨[], rfl, rfl, by simp⟩
  | cons h1 _ ih =>
    rename_i a b _ _ _
    obtain ⟨z, h2, h3, h4⟩ := ih
    refine ⟨(a, b) :: z, by simp [h2], by simp [h3], ?_⟩
    intro p hp
    rcases List.mem_cons.1 hp with rfl | hp
    · exact h1
    · exact h4 p hp

/-- **C59 (what is instantiated).** If instantiation succeeds, the result lists the layers in
canonical order, and every layer
* has the name, the class and the keyword arguments given by the architecture,
* knows exactly its incoming and outgoing connections,
* has exactly the inputs to which a connection leads, and the shape of each of them is the
  combination of the shapes of the buffers the connections come from, each counted once, all
  of which belong to layers that come earlier in the canonical order,
* has the output, parameter and internal structures its class computes from these. -/
theorem C59_layers (env : Env K) (hP : env.Plain) (a : Arch) (hk : (Dict.keys a).Nodup)
    (ord : Orders) (ho : ord.Ok) (layers : Dict Name (LayerObj K))
    (h : Instantiates env ord a (.ok layers)) :
    ∃ order, CanonicalOrder a (.ok order) ∧ Dict.keys layers = order ∧
    ∀ n l, Dict.get? layers n = some l →
      l.name = n ∧ l.kwargs = env.kwargs n ∧
      (∃ d t cls, (n, d) ∈ a ∧ d.type = .string t ∧ env.classOf (t ++ str "LayerImpl") = some cls ∧
        cls.setup n l.kwargs l.inShapes = some l.shapes) ∧
      (∀ c, c ∈ l.incoming ↔ HasConnection a c ∧ c.endLayer = n) ∧
      (∀ c, c ∈ l.outgoing ↔ HasConnection a c ∧ c.startLayer = n) ∧
      (∀ i, i ∈ Dict.keys l.inShapes ↔ ∃ c, HasConnection a c ∧ c.endLayer = n ∧ c.inputName = i) ∧
      (∀ i s, Dict.get? l.inShapes i = some s → ∃ srcs : List (Connection × Struct),
        (srcs.map Prod.fst).Nodup ∧
        (∀ c, c ∈ srcs.map Prod.fst ↔ HasConnection a c ∧ c.endLayer = n ∧ c.inputName = i) ∧
        (∀ c t, (c, t) ∈ srcs → Before order c.startLayer n ∧
          ∃ l', Dict.get? layers c.startLayer = some l' ∧ Offers l' c.outputName t) ∧
        combine (srcs.map Prod.snd) = .ok s) := by
  rcases instantiates_cases env ord a hk with ⟨e, h1, _⟩ | ⟨wf, cs, order, hcs, hord, h1⟩
  · cases h.unique h1
  have h2 := (h.unique h1).symm
  have hperm := C04_perm a hk order hord
  have hmem := C07_collect a cs hcs
  obtain ⟨hkeys, _, hl⟩ := instLoop_spec order (by simpa [Dict.keys] using hperm.nodup_iff.2 hk) h2
  have hkeys' : Dict.keys layers = order := by rw [hkeys]; rfl
  refine ⟨order, hord, hkeys', ?_⟩
  have hall : ∀ n l, Dict.get? layers n = some l → ∃ before, instLayer env ord a cs before n = .ok l ∧
      ∀ m l', Dict.get? before m = some l' → Dict.get? layers m = some l' := by
    intro n l hnl
    have hn : n ∈ order := by
      rw [← hkeys', Dict.mem_keys_iff, hnl]; rfl
    obtain ⟨before, l2, q1, q2, q3⟩ := hl n hn
    rw [hnl] at q1
    cases q1
    exact ⟨before, q2, q3⟩
  intro n l hnl
  obtain ⟨before, q2, q3⟩ := hall n l hnl
  obtain ⟨d, t, cls, ins, sh, hd, ht, hcls, hins, hsh, rfl, hout⟩ := instLayer_ok q2
  have hinsk := inputShapes_keys ((inputShapes_ok _ _ _ _).1 hins)
  have hinc : ∀ c, c ∈ ord.incoming n (connSet cs (fun c => decide (c.endLayer = n))) ↔
      HasConnection a c ∧ c.endLayer = n := by
    intro c
    rw [(ho.incoming n _).mem_iff, mem_connSet, hmem, decide_eq_true_iff]
  refine ⟨rfl, rfl, ⟨d, t, cls, Dict.mem_of_get? hd, ht, hcls, hsh⟩, ?_, ?_, ?_, ?_⟩
  · intro c; simp only [mem_connSet, hmem, decide_eq_true_iff]
  · intro c; simp only [mem_connSet, hmem, decide_eq_true_iff]
  · intro i
    simp only [keys_sortShapes, mem_sortBy, hinsk]
    rw [(ho.inputs n _).mem_iff, List.mem_dedup, List.mem_map]
    constructor
    · rintro ⟨c, hc, rfl⟩
      exact ⟨c, ((hinc c).1 hc).1, ((hinc c).1 hc).2, rfl⟩
    · rintro ⟨c, h1, h2, h3⟩
      exact ⟨c, (hinc c).2 ⟨h1, h2⟩, h3⟩
  · intro i s hs
    simp only [get?_sortShapes] at hs
    have hi : inputShape before (ord.incoming n (connSet cs (fun c => decide (c.endLayer = n)))) i = .ok s := by
      have hf := (inputShapes_ok _ _ _ _).1 hins
      have hm := Dict.mem_of_get? hs
      obtain ⟨z, hz1, hz2, hz3⟩ := forall₂_zip hf
      rw [← hz2, List.mem_map] at hm
      obtain ⟨p, hp, hp2⟩ := hm
      have := hz3 p hp
      rw [hp2] at this
      simp only at this
      rw [this.1]; exact this.2
    obtain ⟨ss, hf, hcomb⟩ := inputShape_ok hi
    obtain ⟨z, hz1, hz2, hz3⟩ := forall₂_zip hf
    refine ⟨z, ?_, ?_, ?_, by rw [hz2]; exact hcomb⟩
    · rw [hz1]
      refine List.Nodup.filter _ ((ho.incoming n _).nodup_iff.2 ?_)
      exact List.nodup_dedup _
    · intro c
      rw [hz1, List.mem_filter, hinc, decide_eq_true_iff, and_assoc]
    · intro c t' hct
      have hc : HasConnection a c ∧ c.endLayer = n := by
        have : c ∈ z.map Prod.fst := List.mem_map.2 ⟨_, hct, rfl⟩
        rw [hz1, List.mem_filter] at this
        exact (hinc c).1 this.1
      refine ⟨C04_topological a hk order hord c.startLayer n ⟨c, hc.1, rfl, hc.2⟩, ?_⟩
      have hsrc := hz3 _ hct
      simp only at hsrc
      have hsome : ∃ l', Dict.get? before c.startLayer = some l' := by
        unfold sourceShape at hsrc
        split at hsrc
        · cases hsrc
        · rename_i l' hl'; exact ⟨l', hl'⟩
      obtain ⟨l', hl'⟩ := hsome
      refine ⟨l', q3 _ _ hl', ?_⟩
      obtain ⟨before2, w2, _⟩ := hall _ l' (q3 _ _ hl')
      obtain ⟨d2, t2, cls2, ins2, sh2, _, _, hcls2, _, hsh2, rfl, hout2⟩ := instLayer_ok w2
      refine offers_of_shape hl' (hP _ _ _ _ _ _ hcls2 hsh2) ?_ hsrc
      refine hout2 c ?_
      rw [(ho.outgoing _ _).mem_iff, mem_connSet, hmem, decide_eq_true_iff]
      exact ⟨hc.1, rfl⟩

/-! ### A layer is never missing -/

theorem sourceShapes_missing {layers : Dict Name (LayerObj K)} {l : List Connection}
    (h : ∀ c ∈ l, (Dict.get? layers c.startLayer).isSome) : sourceShapes layers l ≠ .error .missingLayer := by
  induction l with
  | nil => simp [sourceShapes]
  | cons c cs ih =>
    have hc : sourceShape layers c ≠ .error .missingLayer := by
      obtain ⟨l', hl'⟩ := Option.isSome_iff_exists.1 (h c (by simp))
      simp only [sourceShape, hl']
      split
      · simp
      · simp only [getShape]
        split
        · simp
        · split
          · split <;> simp
          · simp
    have := ih (fun c hc => h c (by simp [hc]))
    simp only [sourceShapes]
    cases h1 : sourceShape layers c with
    | error e => rw [h1] at hc; simpa using hc
    | ok s =>
      cases h2 : sourceShapes layers cs with
      | error e => rw [h2] at this; simpa using this
      | ok _ => simp

theorem inputShapes_missing {layers : Dict Name (LayerObj K)} {l : List Connection}
    (h : ∀ c ∈ l, (Dict.get? layers c.startLayer).isSome) (is : List Name) :
    inputShapes layers l is ≠ .error .missingLayer := by
  induction is with
  | nil => simp [inputShapes]
  | cons i is ih =>
    have hi : inputShape layers l i ≠ .error .missingLayer := by
      have := sourceShapes_missing (layers := layers) (l := l.filter (fun c => decide (c.inputName = i)))
        (fun c hc => h c (List.mem_filter.1 hc).1)
      unfold inputShape
      split
      · rename_i e he; rw [he] at this; simpa using this
      · split <;> simp
    simp only [inputShapes]
    cases h1 : inputShape layers l i with
    | error e => rw [h1] at hi; simpa using hi
    | ok s =>
      cases h2 : inputShapes layers l is with
      | error e => rw [h2] at ih; simpa using ih
      | ok _ => simp

theorem construct_missing {cls : LayerClass K} {keys : K → List Name}
    {oi oo : List Connection → List Connection} {n : Name} {d : Dict Name Struct}
    {inc out : List Connection} {kw : K} :
    construct cls keys oi oo n d inc out kw ≠ .error .missingLayer := by
  unfold construct
  simp only
  split
  · simp
  split
  · simp
  split
  · simp
  split
  · simp
  split
  · simp
  split
  · simp
  split
  · simp
  · simp

/-- **C59 (order).** The loop never asks for the shape of a layer that has not been
instantiated yet: the `KeyError` of a missing source layer cannot occur. -/
theorem C59_sources_ready (env : Env K) (ord : Orders) (ho : ord.Ok) (a : Arch) (hk : (Dict.keys a).Nodup) :
    ¬ Instantiates env ord a (.error .missingLayer) := by
  intro h
  rcases instantiates_cases env ord a hk with ⟨e, h1, _⟩ | ⟨wf, cs, order, hcs, hord, h1⟩
  · have := h.unique h1; simp at this
  have h2 := (h.unique h1).symm
  have hperm := C04_perm a hk order hord
  have hmem := C07_collect a cs hcs
  have key : ∀ (ns done : List Name) (layers : Dict Name (LayerObj K)), order = done ++ ns →
      Dict.keys layers = done → instLoop env ord a cs layers ns ≠ .error .missingLayer := by
    intro ns
    induction ns with
    | nil => intro _ _ _ _; simp [instLoop]
    | cons n ns ih =>
      intro done layers hdone hkeys
      have hnd : order.Nodup := hperm.nodup_iff.2 hk
      have hlayer : instLayer env ord a cs layers n ≠ .error .missingLayer := by
        have hn : n ∈ Dict.keys a := hperm.mem_iff.1 (by rw [hdone]; simp)
        obtain ⟨d, hd⟩ := Option.isSome_iff_exists.1 ((Dict.mem_keys_iff a n).1 hn)
        obtain ⟨t, ht⟩ := wf.types n d (Dict.mem_of_get? hd)
        unfold instLayer
        simp only [hd, ht]
        split
        · simp
        · have := inputShapes_missing (layers := layers)
            (l := ord.incoming n (connSet cs (fun c => decide (c.endLayer = n)))) (by
              intro c hc
              rw [(ho.incoming n _).mem_iff, mem_connSet, hmem, decide_eq_true_iff] at hc
              obtain ⟨l₁, l₂, l₃, hl⟩ := C04_topological a hk order hord c.startLayer n
                ⟨c, hc.1, rfl, hc.2⟩
              rw [← Dict.mem_keys_iff, hkeys]
              have e : done = l₁ ++ c.startLayer :: l₂ := by
                have e1 : done ++ n :: ns = (l₁ ++ c.startLayer :: l₂) ++ n :: l₃ := by
                  rw [← hdone, hl]
                rw [hdone] at hnd
                have n1 : n ∉ done := by
                  intro hm
                  rw [List.nodup_append] at hnd
                  exact hnd.2.2 n hm n (by simp) rfl
                have n2 : n ∉ l₁ ++ c.startLayer :: l₂ := by
                  intro hm
                  rw [e1, List.nodup_append] at hnd
                  exact hnd.2.2 n hm n (by simp) rfl
                clear hl hdone hnd hkeys ih
                generalize l₁ ++ c.startLayer :: l₂ = q at e1 n2
                induction done generalizing q with
                | nil =>
                  cases q with
                  | nil => rfl
                  | cons x q => simp at e1; exact absurd (by simp [e1.1]) n2
                | cons x dn ih2 =>
                  cases q with
                  | nil => simp at e1; exact absurd (by simp [e1.1]) n1
                  | cons y q =>
                    simp only [List.cons_append, List.cons.injEq] at e1
                    rw [e1.1, ih2 (fun h => n1 (by simp [h])) q e1.2 (fun h => n2 (by simp [h]))]
              rw [e]; simp)
            (ord.inputs n ((ord.incoming n (connSet cs (fun c => decide (c.endLayer = n)))).map
              (·.inputName)).dedup)
          split
          · rename_i e he
            rw [he] at this
            simpa using this
          · exact construct_missing
      simp only [instLoop]
      cases hl : instLayer env ord a cs layers n with
      | error e => rw [hl] at hlayer; simpa using hlayer
      | ok l =>
        refine ih (done ++ [n]) _ (by rw [hdone]; simp) ?_
        rw [keys_set_new, hkeys]
        rw [hkeys]
        intro hm
        rw [hdone, List.nodup_append] at hnd
        exact hnd.2.2 n hm n (by simp) rfl
  exact key order [] [] (by simp) rfl h2

/-! ### Non-vacuity -/

/-- Two layer types: `Input` offers four features, `FullyConnected` has three units. -/
def demoEnv : Env Unit where
  classOf := fun t =>
    if t = str "InputLayerImpl" then
      some ⟨[], [], fun _ _ _ => some ⟨[(str "default", ⟨[.T, .B, .n 4], 0, false⟩)], [], []⟩⟩
    else if t = str "FullyConnectedLayerImpl" then
      some ⟨[], [(str "default", ⟨[.T, .B, .dots], 0⟩)], fun _ _ ins =>
        match Dict.get? ins (str "default") with
        | none => none
        | some s => some ⟨[(str "default", ⟨[.T, .B, .n 3], 0, false⟩)],
            [(str "W", ⟨[.n 3, .n (s.featureSize + 1)], 0, false⟩)], []⟩⟩
    else none
  kwargs := fun _ => ()
  keys := fun _ => []

/-- `Input` feeds `H` and `Out`, `H` feeds `Out`, which gets both side by side. -/
def demoNet : Arch :=
  [(str "Out", ⟨.string (str "FullyConnected"), .list []⟩),
   (str "Input", ⟨.string (str "Input"), .list [str "H", str "Out", str "H"]⟩),
   (str "H", ⟨.string (str "FullyConnected"), .list [str "Out."]⟩)]

/-- Every set is enumerated backwards, or as it is. -/
def demoOrders (rev : Bool) : Orders where
  incoming := fun _ l => if rev then l.reverse else l
  outgoing := fun _ l => if rev then l.reverse else l
  inputs := fun _ l => if rev then l.reverse else l

theorem demoOrders_ok (rev : Bool) : (demoOrders rev).Ok := by
  cases rev
  · exact ⟨fun _ _ => .refl _, fun _ _ => .refl _, fun _ _ => .refl _⟩
  · exact ⟨fun _ l => l.reverse_perm, fun _ l => l.reverse_perm, fun _ l => l.reverse_perm⟩

theorem demoEnv_setup (t : Name) (cls : LayerClass Unit) (n : Name) (kw : Unit) (ins : Dict Name Struct)
    (sh : Shapes) (h1 : demoEnv.classOf t = some cls) (h2 : cls.setup n kw ins = some sh) :
    sh = ⟨[(str "default", ⟨[.T, .B, .n 4], 0, false⟩)], [], []⟩ ∨
    ∃ k, sh = ⟨[(str "default", ⟨[.T, .B, .n 3], 0, false⟩)], [(str "W", ⟨[.n 3, .n k], 0, false⟩)], []⟩ := by
  simp only [demoEnv] at h1
  split_ifs at h1 with e1 e2
  · cases h1
    simp only at h2
    cases h2
    exact .inl rfl
  · cases h1
    simp only at h2
    split at h2
    · cases h2
    · cases h2; exact .inr ⟨_, rfl⟩

theorem demoEnv_valid : demoEnv.Valid := by
  intro t cls n kw ins sh h1 h2
  rcases demoEnv_setup t cls n kw ins sh h1 h2 with rfl | ⟨k, rfl⟩
  · intro d hd e he
    simp only at hd
    rcases hd with rfl | rfl | rfl <;> simp at he
    subst he; decide
  · intro d hd e he
    simp only at hd
    rcases hd with rfl | rfl | rfl <;> simp at he
    · subst he; decide
    · subst he; exact (C13_structures _).2 ⟨.none, [3, k], by simp, rfl, by simp⟩

theorem demoEnv_plain : demoEnv.Plain := by
  intro t cls n kw ins sh h1 h2
  rcases demoEnv_setup t cls n kw ins sh h1 h2 with rfl | ⟨k, rfl⟩
  · intro d hd e he
    simp only at hd
    rcases hd with rfl | rfl | rfl <;> simp at he
    subst he; decide
  · intro d hd e he
    simp only at hd
    rcases hd with rfl | rfl | rfl <;> simp at he
    · subst he; decide
    · subst he
      show str "W" ≠ [] ∧ '.' ∉ str "W" ∧ '@' ∉ str "W"
      decide

/-- Names, input shapes and parameter shapes of the layers. -/
def summary (r : Option (Except Err (Dict Name (LayerObj Unit)))) :
    List (Name × List (Name × Struct) × List (Name × Struct)) :=
  match r with
  | some (.ok ls) => ls.map (fun e => (e.1, e.2.inShapes, e.2.shapes.params))
  | _ => []

/-- The instantiation succeeds; `Out` gets 4 + 3 features, although `Input` lists its
connection to `H` twice. -/
example : summary (instantiateFuel 4 demoEnv (demoOrders true) demoNet) =
    [(str "Input", [], []),
      (str "H", [(str "default", ⟨[.T, .B, .n 4], 0, false⟩)], [(str "W", ⟨[.n 3, .n 5], 0, false⟩)]),
      (str "Out", [(str "default", ⟨[.T, .B, .n 7], 0, false⟩)], [(str "W", ⟨[.n 3, .n 8], 0, false⟩)])] := by
  decide +kernel

/-- ... so the hypotheses of `C59_deterministic` and `C59_layers` are met. -/
example : ∃ layers, Instantiates demoEnv (demoOrders true) demoNet (.ok layers) := by
  obtain ⟨r, f, hf⟩ := C59_terminates demoEnv (demoOrders true) demoNet (by decide)
  have hok : ∀ f, 4 ≤ f → ∃ layers, instantiateFuel f demoEnv (demoOrders true) demoNet = some (.ok layers) := by
    intro f h4
    have hv : validate demoNet = .ok () := by decide +kernel
    obtain ⟨cs, r, hcs, _, _, _, _, h⟩ := canonicalOrder_eval demoNet (by decide)
      ((C06_validate_iff demoNet (by decide)).1 hv).outgoing
    have e4 : instantiateFuel f demoEnv (demoOrders true) demoNet =
        instantiateFuel 4 demoEnv (demoOrders true) demoNet := by
      simp only [instantiateFuel, hv, hcs, h f (Nat.lt_of_lt_of_le (by decide) h4), h 4 (by decide)]
    rw [e4]
    have : (instantiateFuel 4 demoEnv (demoOrders true) demoNet).any (fun r => match r with
        | .ok _ => true | .error _ => false) = true := by decide +kernel
    cases hr : instantiateFuel 4 demoEnv (demoOrders true) demoNet with
    | none => rw [hr] at this; simp at this
    | some r => cases r with
      | error e => rw [hr] at this; simp at this
      | ok l => exact ⟨l, rfl⟩
  obtain ⟨layers, hl⟩ := hok (max f 4) (by omega)
  have := hf (max f 4) (by omega)
  rw [hl] at this
  cases this
  exact ⟨layers, f, hf⟩

end Verif.Instantiate
