import Verif.Instantiate.Checks

/-!
# Property C59: when instantiation succeeds
-/

namespace Verif.Instantiate

open Verif.Architecture Verif.Structure Verif.Paths

variable {K : Type}

/-! ### Specification -/

/-- The structures `sh` contain, under the name `o` used in a connection, a buffer of structure `s`. -/
def Shapes.Offer (sh : Shapes) (o : Name) (s : Struct) : Prop :=
  Dict.get? sh.outs o = some s ∨
  (∃ p, o = str "..parameters." ++ p ∧ Dict.get? sh.params p = some s) ∨
  (∃ p, o = str "..internals." ++ p ∧ Dict.get? sh.internals p = some s)

/-- Input shapes `ins` and declared structures `sh` for all layers fit together at layer `n`: the class of the layer accepts
its input shapes and keyword arguments and declares its structures; it has exactly the inputs to which connections lead, in
alphabetic order; the shape of every input is the combination of the shapes at the other ends of the connections that lead to
it; and every connection that leaves the layer starts at something it has. -/
structure Fits (env : Env K) (a : Arch) (ins : Name → Dict Name Struct) (sh : Name → Shapes) (n : Name) : Prop where
  accepted : ∃ d t cls, Dict.get? a n = some d ∧ d.type = .string t ∧ env.classOf (t ++ str "LayerImpl") = some cls ∧
    Acceptable cls env.keys (env.kwargs n) (ins n) ∧ cls.setup n (env.kwargs n) (ins n) = some (sh n)
  nodup : (Dict.keys (ins n)).Nodup
  sorted : sortShapes (ins n) = ins n
  inputs : ∀ i, i ∈ Dict.keys (ins n) ↔ ∃ c, HasConnection a c ∧ c.endLayer = n ∧ c.inputName = i
  sources : ∀ i s, Dict.get? (ins n) i = some s → ∃ srcs : List (Connection × Struct),
    (srcs.map Prod.fst).Nodup ∧
    (∀ c, c ∈ srcs.map Prod.fst ↔ HasConnection a c ∧ c.endLayer = n ∧ c.inputName = i) ∧
    (∀ e ∈ srcs, (sh e.1.startLayer).Offer e.1.outputName e.2) ∧ combine (srcs.map Prod.snd) = .ok s
  starts : ∀ c, HasConnection a c → c.startLayer = n → StartsAt (sh n) c.outputName

/-! ### Lemmas -/

theorem shape_of_offer {layers : Dict Name (LayerObj K)} {c : Connection} {l : LayerObj K}
    (hl : Dict.get? layers c.startLayer = some l) (hp : l.shapes.Plain) {s : Struct}
    (h : l.shapes.Offer c.outputName s) : sourceShape layers c = .ok s := by
  unfold sourceShape
  simp only [hl]
  rcases h with h | ⟨p, e, h⟩ | ⟨p, e, h⟩
  · obtain ⟨q1, q2, q3⟩ := has_plain hp (.inl rfl) (show Dict.has _ _ = true by rw [Dict.has, h]; rfl)
    rw [plain_norm _ ⟨q1, q2, q3⟩]
    have e : str "outputs." ++ c.outputName = str "outputs" ++ '.' :: c.outputName := rfl
    simp only [getShape, e, partitionDot_append _ _ (show '.' ∉ str "outputs" by decide),
      if_neg (show ¬ str "outputs" = str "parameters" by decide),
      if_neg (show ¬ str "outputs" = str "internals" by decide),
      if_neg (show ¬ str "outputs" = str "inputs" by decide), if_true, splitDot_plain _ q2, h]
  · obtain ⟨q1, q2, q3⟩ := has_plain hp (.inr (.inl rfl)) (show Dict.has _ _ = true by rw [Dict.has, h]; rfl)
    have e' : str "..parameters." ++ p = '.' :: '.' :: (str "parameters" ++ '.' :: p) := rfl
    rw [e, e', up_norm _ _ (by decide) ⟨q1, q2, q3⟩]
    simp only [getShape, partitionDot_append _ _ (show '.' ∉ str "parameters" by decide), if_true, splitDot_plain _ q2, h]
  · obtain ⟨q1, q2, q3⟩ := has_plain hp (.inr (.inr rfl)) (show Dict.has _ _ = true by rw [Dict.has, h]; rfl)
    have e' : str "..internals." ++ p = '.' :: '.' :: (str "internals" ++ '.' :: p) := rfl
    rw [e, e', up_norm _ _ (by decide) ⟨q1, q2, q3⟩]
    simp only [getShape, partitionDot_append _ _ (show '.' ∉ str "internals" by decide),
      if_neg (show ¬ str "internals" = str "parameters" by decide), if_true, splitDot_plain _ q2, h]

theorem dict_as_map (d : Dict Name Struct) (hk : (Dict.keys d).Nodup) :
    d = (Dict.keys d).map (fun k => (k, (Dict.get? d k).getD ⟨[], 0, false⟩)) := by
  rw [Dict.keys, List.map_map]
  conv_lhs => rw [← List.map_id d]
  refine List.map_congr_left ?_
  intro e he
  have : Dict.get? d e.1 = some e.2 := Dict.get?_of_mem hk he
  simp [this]

theorem forall₂_of_pairs {α β : Type} {R : α → β → Prop} (z : List (α × β)) (h : ∀ p ∈ z, R p.1 p.2) :
    List.Forall₂ R (z.map Prod.fst) (z.map Prod.snd) := by
  induction z with
  | nil => exact .nil
  | cons p z ih => exact .cons (h p (by simp)) (ih (fun q hq => h q (by simp [hq])))

theorem instLayer_fits {env : Env K} (hP : env.Plain) {ord : Orders} (ho : ord.Ok) {a : Arch} {cs : List Connection}
    (hcs : ∀ c, c ∈ cs ↔ HasConnection a c) {layers : Dict Name (LayerObj K)} (hv : AllValid layers)
    {ins : Name → Dict Name Struct} {sh : Name → Shapes} {n : Name} (hf : Fits env a ins sh n)
    (hsrc : ∀ c, HasConnection a c → c.endLayer = n → ∃ l, Dict.get? layers c.startLayer = some l ∧
      l.shapes = sh c.startLayer ∧ l.shapes.Plain) :
    ∃ l, instLayer env ord a cs layers n = .ok l ∧ l.inShapes = ins n ∧ l.shapes = sh n := by
  obtain ⟨d, t, cls, hd, ht, hcls, hacc, hset⟩ := hf.accepted
  unfold instLayer
  rw [hd]
  simp only
  rw [ht]
  simp only
  rw [hcls]
  simp only
  set inc := connSet cs (fun c => decide (c.endLayer = n)) with hinc
  set out := connSet cs (fun c => decide (c.startLayer = n)) with hout
  have hmi : ∀ c, c ∈ inc ↔ HasConnection a c ∧ c.endLayer = n := by
    intro c; rw [hinc, mem_connSet, hcs]; simp
  have hmo : ∀ c, c ∈ out ↔ HasConnection a c ∧ c.startLayer = n := by
    intro c; rw [hout, mem_connSet, hcs]; simp
  have hni : inc.Nodup := List.nodup_dedup _
  have hpi := ho.incoming n inc
  set is := ord.inputs n ((ord.incoming n inc).map (·.inputName)).dedup with his
  have hpis : is.Perm (Dict.keys (ins n)) := by
    refine (ho.inputs n _).trans ?_
    rw [List.perm_ext_iff_of_nodup (List.nodup_dedup _) hf.nodup]
    intro i
    rw [List.mem_dedup, List.mem_map, hf.inputs]
    constructor
    · rintro ⟨c, hc, rfl⟩
      have := (hmi c).1 (hpi.mem_iff.1 hc)
      exact ⟨c, this.1, this.2, rfl⟩
    · rintro ⟨c, h1, h2, h3⟩
      exact ⟨c, hpi.mem_iff.2 ((hmi c).2 ⟨h1, h2⟩), h3⟩
  have hshape : ∀ i s, Dict.get? (ins n) i = some s → inputShape layers (ord.incoming n inc) i = .ok s := by
    intro i s hs
    obtain ⟨srcs, h1, h2, h3, h4⟩ := hf.sources i s hs
    have hperm : (srcs.map Prod.fst).Perm ((ord.incoming n inc).filter (fun c => decide (c.inputName = i))) := by
      rw [List.perm_ext_iff_of_nodup h1 ((hpi.nodup_iff.2 hni).filter _)]
      intro c
      rw [h2, List.mem_filter, hpi.mem_iff, hmi]
      simp [and_assoc]
    have hall : List.Forall₂ (fun c s => sourceShape layers c = .ok s) (srcs.map Prod.fst) (srcs.map Prod.snd) := by
      refine forall₂_of_pairs _ ?_
      intro e he
      have hc := (h2 e.1).1 (List.mem_map_of_mem he)
      obtain ⟨l, hl, hls, hlp⟩ := hsrc e.1 hc.1 hc.2.1
      exact shape_of_offer hl hlp (by rw [hls]; exact h3 e he)
    obtain ⟨ss, hp', h5⟩ := forall₂_perm hperm hall
    unfold inputShape
    rw [(sourceShapes_ok _ _ _).2 h5]
    simp only [C14_order _ ss hp' (sourceShapes_valid hv hall) s h4]
  have hins : inputShapes layers (ord.incoming n inc) is =
      .ok (is.map (fun k => (k, (Dict.get? (ins n) k).getD ⟨[], 0, false⟩))) := by
    rw [inputShapes_ok, List.forall₂_map_right_iff, List.forall₂_same]
    intro i hi
    refine ⟨rfl, ?_⟩
    obtain ⟨s, hs⟩ := Option.isSome_iff_exists.1 ((Dict.mem_keys_iff _ _).1 (hpis.mem_iff.1 hi))
    rw [hshape i s hs, hs]
    rfl
  rw [hins]
  simp only
  have hpd : (is.map (fun k => (k, (Dict.get? (ins n) k).getD (⟨[], 0, false⟩ : Struct)))).Perm (ins n) := by
    conv_rhs => rw [dict_as_map (ins n) hf.nodup]
    exact hpis.map _
  have hsort : sortShapes (is.map (fun k => (k, (Dict.get? (ins n) k).getD (⟨[], 0, false⟩ : Struct)))) = ins n := by
    refine (sortShapes_perm ?_ hpd).trans hf.sorted
    exact (hpd.map Prod.fst).nodup_iff.2 hf.nodup
  refine ⟨⟨n, env.kwargs n, ins n, inc, out, sh n⟩, ?_, rfl, rfl⟩
  rw [construct_iff, hsort]
  refine ⟨hacc, sh n, hset, ?_, ?_, rfl⟩
  · intro c hc
    have := (hmi c).1 (hpi.mem_iff.1 hc)
    exact (hf.inputs _).2 ⟨c, this.1, this.2, rfl⟩
  · intro c hc
    have := (hmo c).1 ((ho.outgoing n out).mem_iff.1 hc)
    exact (outgoingOk_iff (hP _ _ _ _ _ _ hcls hset) c).2 (hf.starts c this.1 this.2)

/-- **C59 (completeness).** Whenever input shapes and declared structures that fit together exist for all layers of a
well-formed architecture without cycles, instantiation succeeds, in whatever order sets are enumerated, and gives every layer
exactly these input shapes and structures. -/
theorem C59_complete (env : Env K) (hE : env.Valid) (hP : env.Plain) (a : Arch) (hk : (Dict.keys a).Nodup)
    (wf : WellFormed a) (hac : Acyclic a) (ord : Orders) (ho : ord.Ok)
    (ins : Name → Dict Name Struct) (sh : Name → Shapes) (hf : ∀ n ∈ Dict.keys a, Fits env a ins sh n) :
    ∃ layers, Instantiates env ord a (.ok layers) ∧ (Dict.keys layers).Perm (Dict.keys a) ∧
      ∀ n ∈ Dict.keys a, ∃ l, Dict.get? layers n = some l ∧ l.inShapes = ins n ∧ l.shapes = sh n := by
  rcases instantiates_cases env ord a hk with ⟨e, -, h1 | h1⟩ | ⟨-, cs, order, hcs, hord, h1⟩
  · exact absurd wf h1
  · obtain ⟨order, h2⟩ := (C04_exists_iff a hk wf.outgoing).2 ⟨wf.closed, hac⟩
    have := h1.unique h2
    cases this
  have hperm := C04_perm a hk order hord
  have hmem := C07_collect a cs hcs
  have hnd : order.Nodup := hperm.nodup_iff.2 hk
  have key : ∀ (ns done : List Name) (layers : Dict Name (LayerObj K)), order = done ++ ns →
      Dict.keys layers = done → AllValid layers →
      (∀ n ∈ done, ∃ l, Dict.get? layers n = some l ∧ l.inShapes = ins n ∧ l.shapes = sh n ∧ l.shapes.Plain) →
      ∃ r, instLoop env ord a cs layers ns = .ok r ∧ Dict.keys r = order ∧
        ∀ n ∈ order, ∃ l, Dict.get? r n = some l ∧ l.inShapes = ins n ∧ l.shapes = sh n := by
    intro ns
    induction ns with
    | nil =>
      intro done layers hdone hkeys _ hl
      refine ⟨layers, rfl, by rw [hdone, hkeys]; simp, ?_⟩
      intro n hn
      rw [hdone, List.append_nil] at hn
      obtain ⟨l, q1, q2, q3, -⟩ := hl n hn
      exact ⟨l, q1, q2, q3⟩
    | cons n ns ih =>
      intro done layers hdone hkeys hv hl
      have hn : n ∈ Dict.keys a := hperm.mem_iff.1 (by rw [hdone]; simp)
      have hnew : n ∉ Dict.keys layers := by
        rw [hkeys]
        rw [hdone, List.nodup_append] at hnd
        exact fun hm => hnd.2.2 n hm n (by simp) rfl
      obtain ⟨l, hl1, hl2, hl3⟩ := instLayer_fits (env := env) hP ho hmem hv (hf n hn) (by
        intro c hc hce
        obtain ⟨l1, l2, l3, hb⟩ := C04_topological a hk order hord c.startLayer n ⟨c, hc, rfl, hce⟩
        have hcd : c.startLayer ∈ done := by
          have hsame : l1 ++ c.startLayer :: l2 = done := by
            have e1 : done ++ n :: ns = (l1 ++ c.startLayer :: l2) ++ n :: l3 := by rw [← hdone, hb]
            have hnd' := hnd
            rw [hdone] at hnd'
            exact ((List.append_inj' e1 (by
              have := List.nodup_append.1 hnd'
              have i1 : (done ++ n :: ns).idxOf n = done.length := by
                rw [List.idxOf_append_of_notMem (fun hm => this.2.2 n hm n (by simp) rfl)]; simp
              have i2 : ((l1 ++ c.startLayer :: l2) ++ n :: l3).idxOf n = (l1 ++ c.startLayer :: l2).length := by
                rw [e1] at hnd'
                have := List.nodup_append.1 hnd'
                rw [List.idxOf_append_of_notMem (fun hm => this.2.2 n hm n (by simp) rfl)]; simp
              rw [e1] at i1
              have i3 := i1.symm.trans i2
              have i4 := congrArg List.length e1
              simp only [List.length_append, List.length_cons] at i3 i4 ⊢
              omega)).1).symm
          rw [← hsame]; simp
        obtain ⟨l, q1, -, q3, q4⟩ := hl _ hcd
        exact ⟨l, q1, q3, q4⟩)
      have hok := instLayer_valid hE hv hl1
      obtain ⟨d, t, cls, -, -, w3, -, w5⟩ := instLayer_acceptable hl1
      have hplain : l.shapes.Plain := hP _ _ _ _ _ _ w3 w5
      obtain ⟨r, hr, hr2⟩ := ih (done ++ [n]) (Dict.set layers n l) (by rw [hdone]; simp)
        (by rw [keys_set_new hnew, hkeys]) (hv.set hok) (by
          intro m hm
          by_cases hmn : m = n
          · subst hmn
            exact ⟨l, Dict.get?_set_self _ _ _, hl2, hl3, hplain⟩
          · have hmd : m ∈ done := by simpa [hmn] using hm
            obtain ⟨l', q1, q2⟩ := hl m hmd
            exact ⟨l', by rw [Dict.get?_set_ne _ _ _ _ (fun e => hmn e.symm)]; exact q1, q2⟩)
      refine ⟨r, ?_, hr2⟩
      rw [instLoop, hl1]
      exact hr
  obtain ⟨r, hr, hkr, hall⟩ := key order [] [] rfl rfl (by intro n l h; simp [Dict.get?] at h) (by simp)
  refine ⟨r, by rw [← hr]; exact h1, by rw [hkr]; exact hperm, fun n hn => hall n (hperm.mem_iff.2 hn)⟩

end Verif.Instantiate
