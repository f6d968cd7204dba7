import Verif.SpecNet.Ready

/-!
# Networks from a spec line can be laid out and trained
-/

namespace Verif.SpecNet

open Verif.Architecture hiding demoArch
open Verif.Structure Verif.Layout Verif.Instantiate Verif.EndToEnd Verif.Construction
open Verif.NetSpec (Opts Doc Item Script stack stack_works flow headNames expectedConnections numConns mem_numConns numConns_uniq
  expected_named insOf row row_cases row_next row_zero outClass netFromSpec st two one LettersApart isSpace NumConn DataName stack_facts
  head_creatable doc_creatable getInOut orElse)
open Verif.Setup (Kwargs KVal libEnv infos toInfo)
open Verif.Shapes (Supported)
open Verif.Descent (FreePeriods IsPeriod)

/-- No output name contains a dot, and predictions and losses are not used further. -/
theorem conn_facts {o : Opts} (hn : o.NamesOk) {k : Nat} {q : NumConn} (hq : q ∈ numConns o k) :
    '.' ∉ q.out ∧ (q.inp = str "targets" ∨ q.inp = str "mask" → q.src = 2) ∧ (q.out = str "predictions" → q.src = 2) ∧
    q.src ≠ o.parts - 1 ∧ q.src < o.parts + k ∧ q.dst < o.parts + k := by
  have hd : '.' ∉ str "default" := by decide
  have hl : '.' ∉ str "loss" := by decide
  have n1 : ¬ (str "default" = str "targets" ∨ str "default" = str "mask") := by decide +kernel
  have n2 : str "default" ≠ str "predictions" := by decide +kernel
  have n3 : str "loss" ≠ str "predictions" := by decide +kernel
  have hparts : (o.maskName = none ∧ o.parts = 4) ∨ (o.maskName ≠ none ∧ o.parts = 5) := by
    unfold Opts.parts; by_cases h : o.maskName = none <;> simp [h]
  have h4 : 4 ≤ o.parts := by omega
  have hyes : ∀ m, o.maskName = some m → o.parts = 5 := by
    intro m h
    rcases hparts with h' | h'
    · rw [h] at h'; simp at h'
    · exact h'.2
  rcases (mem_numConns o k q).1 hq with ⟨j, hj, rfl⟩ | rfl | rfl | rfl | ⟨m, hm, rfl | rfl⟩ <;> dsimp only
  · have e1 := row_cases o.parts k j hj
    have e2 := row_next o.parts k j hj
    exact ⟨hd, fun h => absurd h n1, fun h => absurd h n2, by omega, by omega, by omega⟩
  · exact ⟨hd, fun h => absurd h n1, fun h => absurd h n2, by omega, by omega, by omega⟩
  · exact ⟨hn.targets.1.2.1, fun _ => rfl, fun _ => rfl, by omega, by omega, by omega⟩
  · exact ⟨hl, fun h => absurd h n1, fun h => absurd h n3, by omega, by omega, by omega⟩
  · have := hyes m hm
    exact ⟨hd, fun h => absurd h n1, fun h => absurd h n2, by omega, by omega, by omega⟩
  · have := hyes m hm
    exact ⟨(hn.mask m hm).1.2.1, fun _ => rfl, fun _ => rfl, by omega, by omega, by omega⟩

theorem conn_input {o : Opts} {k : Nat} {q : NumConn} (hq : q ∈ numConns o k) :
    q.inp = if q.src = 2 ∧ q.dst = 1 then str "targets" else if q.src = 2 ∧ q.dst = 3 then str "mask" else str "default" := by
  have h4 : 4 ≤ o.parts := by unfold Opts.parts; split <;> omega
  rcases (mem_numConns o k q).1 hq with ⟨j, hj, rfl⟩ | rfl | rfl | rfl | ⟨m, hm, rfl | rfl⟩ <;> dsimp only
  · have e1 := row_next o.parts k j hj
    rw [if_neg (by omega), if_neg (by omega)]
  · rw [if_neg (by omega), if_neg (by omega)]
  · rw [if_pos (by omega)]
  · rw [if_neg (by omega), if_neg (by omega)]
  · rw [if_neg (by omega), if_neg (by omega)]
  · rw [if_neg (by omega), if_pos (by omega)]

/-- Nothing is connected to two inputs of the same layer. -/
theorem conn_once {o : Opts} {k : Nat} {q q' : NumConn} (hq : q ∈ numConns o k) (hq' : q' ∈ numConns o k) (h1 : q.src = q'.src)
    (h2 : q.dst = q'.dst) : q.inp = q'.inp := by
  rw [conn_input hq, conn_input hq', h1, h2]

theorem no_dots {n p : Name} (h : '.' ∉ n) (hp : '.' ∈ p) : ¬ p <+: n := fun ⟨_, e⟩ => h (e ▸ List.mem_append_left _ hp)

theorem ready (pre : List Op) (o : Opts) (h1 : o.projectionName = none) (h2 : o.outlayerName = none)
    (hn : o.NamesOk) (hi' : o.inShape ≠ []) (ho : o.outShape ≠ []) (docs : List Doc) (g : List Nat)
    (hflow : flow o.inShape docs = some g) (hproj : o.Projects g) (s : Script)
    (hs : stack (created pre).length o (docs.map Doc.made) = some s)
    (enum : List Nat → List Nat) (henum : ∀ l, (enum l).Perm l) :
    ∃ (a : Arch) (nm : Nat → Name), Generates (run (pre ++ s.ops)) enum (created pre).length a ∧
      (List.range o.parts).map nm = headNames o ∧ s.made.drop o.parts = docs.map Doc.made ∧
      (∀ c, HasConnection a c ↔ c ∈ expectedConnections o docs.length nm) ∧
      (Doc.batchNorm ∉ docs → Trainable a) ∧ ((∀ p, Doc.dropout p ∉ docs) → ∀ n, ¬ HasType a n (str "Dropout")) ∧
      ∀ (kwargs : Name → Kwargs), (∀ i m, s.made[i]? = some m → kwargs (nm i) = m.kw) → ∀ (ord : Orders), ord.Ok →
      ∃ layers L, Made kwargs a ord layers L ∧ Numeric a kwargs ∧
        ((o.task = str "classification" → o.outShape.getLast? ≠ some 0) →
          ∀ n l t, Dict.get? layers n = some l → HasType a n t → Supported t l.kwargs l.inShapes) ∧
        FreePeriods (infos layers) ∧ ∀ i, ¬ IsPeriod (infos layers) L i := by
  obtain ⟨a, nm, F, proj, cls, ⟨q1, q3, q2⟩, q4, q5, q7, q6, ⟨hml, hpm, hcls, m0, m1, m2, m3, m4, mh⟩, f3, hall⟩ :=
    stack_works pre o h1 h2 hn hi' ho docs g hflow hproj s hs enum henum
  have hparts : (o.maskName = none ∧ o.parts = 4) ∨ (o.maskName ≠ none ∧ o.parts = 5) := by
    unfold Opts.parts; by_cases h : o.maskName = none <;> simp [h]
  have kinds : ∀ i < o.parts + docs.length, ∃ m, s.made[i]? = some m ∧ Kind o docs i m := by
    intro i hi
    by_cases h : o.parts ≤ i
    · obtain ⟨k, rfl⟩ := Nat.exists_eq_add_of_le h
      have hk : k < docs.length := by omega
      exact ⟨_, mh k docs[k] (List.getElem?_eq_getElem hk), .hidden k _ (List.getElem?_eq_getElem hk)⟩
    · by_cases e0 : i = 0
      · subst e0; exact ⟨_, m0, .projection _ hpm⟩
      by_cases e1 : i = 1
      · subst e1; exact ⟨_, m1, .cost _ hcls⟩
      by_cases e2 : i = 2
      · subst e2; exact ⟨_, m2, .input⟩
      by_cases e3 : i = o.parts - 1
      · subst e3; exact ⟨_, m3, .loss⟩
      · rcases hparts with ⟨h', h''⟩ | ⟨h', h''⟩
        · omega
        · obtain rfl : i = 3 := by omega
          exact ⟨_, m4 h', .mask h'⟩
  have hmem : ∀ n, n ∈ Dict.keys a ↔ ∃ i < o.parts + docs.length, nm i = n := by
    intro n
    rw [q2.mem_iff, List.mem_map]
    simp
  have hinj : ∀ i < o.parts + docs.length, ∀ j < o.parts + docs.length, nm i = nm j → i = j := by
    intro i hi j hj he
    exact List.inj_on_of_nodup_map (q2.nodup_iff.1 q3) (List.mem_range.2 hi) (List.mem_range.2 hj) he
  -- the types
  have htype : ∀ n t, HasType a n t → ∃ i < o.parts + docs.length, ∃ m, n = nm i ∧ s.made[i]? = some m ∧ Kind o docs i m ∧
      t = m.typeName := by
    rintro n t ⟨d, hd, ht⟩
    obtain ⟨i, hi, rfl⟩ := (hmem n).1 (List.mem_map.2 ⟨_, hd, rfl⟩)
    obtain ⟨m, hm, hk⟩ := kinds i hi
    obtain ⟨-, e, he, het⟩ := q6 i m hm
    rw [Dict.get?_of_mem q3 hd] at he
    cases he
    rw [ht] at het
    cases het
    exact ⟨i, hi, m, rfl, hm, hk, rfl⟩
  have hinput : HasType a (nm 2) (str "Input") := by
    obtain ⟨-, e, he, het⟩ := q6 2 _ m2
    exact ⟨e, Dict.mem_of_get? he, het⟩
  have hconn : ∀ c, HasConnection a c → ∃ q ∈ numConns o docs.length, c = q.named nm :=
    fun c hc => (expected_named o docs.length nm c).1 ((q7 c).1 hc)
  -- the names
  have hcreated : created (pre ++ s.ops) = created pre ++ s.made.map NetSpec.Made.baseName := by
    have hs' := hs
    obtain ⟨s0, hs0, rfl⟩ := Option.map_eq_some_iff.1 hs'
    have hcr0 := head_creatable hs0 (by simp only [Opts.outName, h2, orElse]; decide +kernel)
      (by simp only [Opts.projName, Opts.outName, h1, h2, orElse]; decide +kernel)
    have hcr : ∀ m ∈ s0.made ++ docs.map Doc.made, m.Creatable := by
      intro m hm
      rcases List.mem_append.1 hm with hm | hm
      · exact hcr0 m hm
      · obtain ⟨d, -, rfl⟩ := List.mem_map.1 hm
        exact doc_creatable d
    obtain ⟨-, e2, -, -⟩ := stack_facts hs hcr
    rw [created_append, e2]
  have hnames : ∀ n ∈ Dict.keys a, n ≠ str "parameters" ∧ n ≠ str "gradients" := by
    intro n hn'
    obtain ⟨i, hi, rfl⟩ := (hmem n).1 hn'
    obtain ⟨m, hm, hk⟩ := kinds i hi
    refine (hk.capital h1 h2).ne (name_head ?_ (q6 i m hm).1)
    rw [hcreated, List.getElem?_append_right (by omega), Nat.add_sub_cancel_left, List.getElem?_map, hm]
    rfl
  have hdrop : ∀ n, HasType a n (str "Dropout") → ∃ i m p, n = nm i ∧ s.made[i]? = some m ∧ .dropout p ∈ docs ∧ m = (Doc.dropout p).made := by
    intro n ht
    obtain ⟨i, hi, m, rfl, hm, hk, e⟩ := htype n _ ht
    obtain ⟨p, hp, rfl⟩ := hk.types.2.2.2.2.2 e.symm
    exact ⟨i, _, p, rfl, hm, hp, rfl⟩
  have tr : Doc.batchNorm ∉ docs → Trainable a := by
    intro hbn
    refine ⟨?_, ?_, ?_, hnames, ?_, ?_, ?_, ?_, ?_, ?_⟩
    · intro n m hn' hm'
      obtain ⟨i, hi, k, rfl, -, hk, e⟩ := htype n _ hn'
      obtain ⟨j, hj, k', rfl, -, hk', e'⟩ := htype m _ hm'
      rw [hk.types.1 e.symm, hk'.types.1 e'.symm]
    · intro n ht
      obtain ⟨i, hi, m, rfl, -, hk, e⟩ := htype n _ ht
      exact hk.types.2.2.1 hbn e.symm
    · intro n ht
      obtain ⟨i, hi, m, rfl, -, hk, e⟩ := htype n _ ht
      exact hk.types.2.2.2.1.1 e.symm
    · intro c hc
      obtain ⟨q, hq, rfl⟩ := hconn c hc
      exact no_dots (conn_facts hn hq).1 (by decide)
    · intro c c' hc hc' e1 e2 e3
      obtain ⟨q, hq, rfl⟩ := hconn c hc
      obtain ⟨q', hq', rfl⟩ := hconn c' hc'
      obtain ⟨-, -, -, -, b1, b2⟩ := conn_facts hn hq
      obtain ⟨-, -, -, -, b1', b2'⟩ := conn_facts hn hq'
      exact conn_once hq hq' (hinj _ b1 _ b1' e1) (hinj _ b2 _ b2' e3)
    · intro c hc e
      obtain ⟨q, hq, rfl⟩ := hconn c hc
      have : q.src = 2 := (conn_facts hn hq).2.1 e
      show HasType a (nm q.src) _
      rw [this]; exact hinput
    · intro c hc e
      obtain ⟨q, hq, rfl⟩ := hconn c hc
      have : q.src = 2 := (conn_facts hn hq).2.2.1 e
      show HasType a (nm q.src) _
      rw [this]; exact hinput
    · intro c hc ht
      obtain ⟨q, hq, rfl⟩ := hconn c hc
      obtain ⟨-, -, -, b0, b1, b2⟩ := conn_facts hn hq
      obtain ⟨i, hi, m, e, -, hk, e'⟩ := htype _ _ ht
      have := hinj _ b1 _ hi e
      exact b0 (this.trans (hk.types.2.1 e'.symm))
    · intro c hc _
      obtain ⟨q, hq, rfl⟩ := hconn c hc
      exact no_dots (conn_facts hn hq).1 (by decide)
  refine ⟨a, nm, q1, q4, q5, q7, tr, ?_, ?_⟩
  · intro hd n ht
    obtain ⟨-, -, p, -, -, hp, -⟩ := hdrop n ht
    exact hd p hp
  intro kwargs hkw ord hord
  obtain ⟨layers, w1, w2, w3⟩ := hall kwargs hkw ord hord
  have hout : ∀ c, HasConnection a c → ¬ str ".." <+: c.outputName := by
    intro c hc
    obtain ⟨q, hq, rfl⟩ := hconn c hc
    exact no_dots (conn_facts hn hq).1 (by decide)
  have hne : ∃ n l, Dict.get? layers n = some l ∧ l.shapes.outs ≠ [] := by
    obtain ⟨l, r1, -, r3⟩ := w3 1 (by omega)
    refine ⟨_, l, r1, fun e => ?_⟩
    have := (r3 rfl).1
    rw [e] at this
    cases this
  obtain ⟨L, hL⟩ := C10_chain kwargs a q3 ord hord layers w1 hne hout (by
    intro c c' hc hc' e1 e2
    obtain ⟨q, hq, rfl⟩ := hconn c hc
    obtain ⟨q', hq', rfl⟩ := hconn c' hc'
    obtain ⟨-, -, -, -, -, b2⟩ := conn_facts hn hq
    obtain ⟨-, -, -, -, -, b2'⟩ := conn_facts hn hq'
    rw [numConns_uniq o docs.length (by omega) (by
      intro m hm
      rcases hparts with h' | h'
      · rw [hm] at h'; simp at h'
      · exact h'.2) q hq q' hq' (hinj _ b2 _ b2' e1) e2])
  have M : Made kwargs a ord layers L := ⟨q3, hord, w1, hne, hL⟩
  have hnocw : ∀ n, ¬ HasType a n (str "Clockwork") ∧ ¬ HasType a n (str "ClockworkLstm") := by
    intro n
    refine ⟨fun ht => ?_, fun ht => ?_⟩ <;> obtain ⟨i, hi, m, rfl, -, hk, e⟩ := htype n _ ht
    · exact hk.types.2.2.2.1.2.1 e.symm
    · exact hk.types.2.2.2.1.2.2.1 e.symm
  refine ⟨layers, L, M, ⟨?_, ?_⟩, ?_, ?_, ?_⟩
  · intro n ht v hv
    obtain ⟨i, m, p, rfl, hm, -, rfl⟩ := hdrop n ht
    rw [hkw i _ hm] at hv
    exact .inr (Kind.dropProb hv)
  · intro n ht v hv
    obtain ⟨i, hi, m, rfl, hm, hk, e⟩ := htype n _ ht
    obtain rfl := hk.types.2.1 e.symm
    rw [m3] at hm
    cases hm
    rw [hkw _ _ m3] at hv
    exact .inr (Kind.importance hv)
  · intro hw n l t hl ht
    obtain ⟨i, hi, m, rfl, hm, hk, rfl⟩ := htype n _ ht
    refine ⟨?_, ?_, ?_⟩
    · intro v hv
      rw [M.kwargs_eq hl, hkw i m hm] at hv
      exact hk.activation v hv
    · intro e
      exact absurd e hk.types.2.2.2.1.2.2.2.2
    · rintro (e | e) j st' hj
      · exact absurd e hk.types.2.2.2.1.2.2.2.1
      · obtain ⟨rfl, ht'⟩ := hk.types.2.2.2.2.1 e
        obtain ⟨l', r1, r2, -⟩ := w3 1 (by omega)
        rw [hl] at r1
        cases r1
        rw [r2] at hj
        have hj' := Dict.mem_of_get? hj
        simp only [insOf, two, Nat.one_ne_zero, if_false, if_true, List.mem_cons, Prod.mk.injEq, List.not_mem_nil, or_false] at hj'
        have hlast : ∀ f : List Nat, f ≠ [] → (st f).shape.getLast? = f.getLast?.map Tok.n := by
          intro f hf
          show (.T :: .B :: f.map Tok.n : List Tok).getLast? = _
          rw [List.getLast?_cons_of_ne_nil (by simp), List.getLast?_cons_of_ne_nil (by simpa using hf), List.getLast?_map]
        rcases hj' with ⟨-, rfl⟩ | ⟨-, rfl⟩
        · rw [hlast _ ho]
          have := hw ht'
          cases hg : o.outShape.getLast? with
          | none => simp
          | some x => rw [hg] at this; simpa using this
        · rw [hlast _ (NetSpec.targetShape_ne ho), Opts.targetShape, if_pos ht']
          simp
  · intro l hl c hc hkind
    rw [(made_conn q3 hord w1 hout).1 l hl c hc] at hkind
    cases hkind
  · rintro i ⟨l, hl, sh, hsh, -⟩
    exact (M.low hl).2 hnocw (List.mem_map.2 ⟨_, hsh, rfl⟩)

end Verif.SpecNet
