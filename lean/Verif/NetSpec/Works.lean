import Verif.NetSpec.HeadAccept

/-!
# Property C68: networks from a spec line can be instantiated
-/

namespace Verif.NetSpec

open Verif.Structure Verif.Setup Verif.Instantiate Verif.Architecture Verif.Construction

/-! ## Lemmas -/

/-- The row of layers from the input layer to the projection layer. -/
def row (parts k j : Nat) : Nat := if j = 0 then 2 else if j ≤ k then parts + (j - 1) else 0

theorem row_get (parts k j : Nat) (hj : j ≤ k + 1) : (2 :: (List.range' parts k ++ [0]))[j]? = some (row parts k j) := by
  cases j with
  | zero => rfl
  | succ j =>
    rw [List.getElem?_cons_succ, row, if_neg (by omega)]
    by_cases h : j < k
    · rw [List.getElem?_append_left (by simpa using h), List.getElem?_range' h, if_pos (by omega)]
      simp
    · have : j = k := by omega
      subst this
      rw [if_neg (by omega), List.getElem?_append_right (by simp)]
      simp

theorem mem_row (parts k : Nat) (p : Nat × Nat) : p ∈ neighbours (2 :: (List.range' parts k ++ [0])) ↔
    ∃ j, j ≤ k ∧ p = (row parts k j, row parts k (j + 1)) := by
  have hl : (2 :: (List.range' parts k ++ [0])).length = k + 2 := by simp
  rw [neighbours, List.mem_iff_getElem?]
  constructor
  · rintro ⟨j, hj⟩
    rw [List.getElem?_zip_eq_some, List.getElem?_tail] at hj
    have hlt : j + 1 < k + 2 := by rw [← hl]; exact (List.getElem?_eq_some_iff.1 hj.2).1
    rw [row_get _ _ _ (by omega), row_get _ _ _ (by omega)] at hj
    refine ⟨j, by omega, ?_⟩
    obtain ⟨x, y⟩ := p
    simp only [Option.some.injEq] at hj
    rw [hj.1, hj.2]
  · rintro ⟨j, hj, rfl⟩
    refine ⟨j, ?_⟩
    rw [List.getElem?_zip_eq_some, List.getElem?_tail, row_get _ _ _ (by omega), row_get _ _ _ (by omega)]
    exact ⟨rfl, rfl⟩

/-- The connections by number. -/
def numConns (o : Opts) (k : Nat) : List NumConn :=
  (neighbours (2 :: (List.range' o.parts k ++ [0]))).map (fun p => ⟨p.1, str "default", p.2, str "default"⟩) ++
  [⟨0, str "default", 1, str "default"⟩, ⟨2, o.targetsName, 1, str "targets"⟩] ++
  match o.maskName with
  | none => [⟨1, str "loss", 3, str "default"⟩]
  | some m => [⟨1, str "loss", 3, str "default"⟩, ⟨3, str "default", 4, str "default"⟩, ⟨2, m, 3, str "mask"⟩]

theorem expected_named (o : Opts) (k : Nat) (nm : Nat → Name) (c : Connection) :
    c ∈ expectedConnections o k nm ↔ ∃ q ∈ numConns o k, c = q.named nm := by
  have : expectedConnections o k nm = (numConns o k).map (NumConn.named nm) := by
    unfold expectedConnections numConns
    cases o.maskName <;> simp [NumConn.named, Function.comp_def]
  rw [this, List.mem_map]
  exact exists_congr fun q => and_congr_right fun _ => eq_comm

theorem mem_numConns (o : Opts) (k : Nat) (q : NumConn) : q ∈ numConns o k ↔
    (∃ j, j ≤ k ∧ q = ⟨row o.parts k j, str "default", row o.parts k (j + 1), str "default"⟩) ∨
    q = ⟨0, str "default", 1, str "default"⟩ ∨ q = ⟨2, o.targetsName, 1, str "targets"⟩ ∨
    q = ⟨1, str "loss", 3, str "default"⟩ ∨
    ∃ m, o.maskName = some m ∧ (q = ⟨3, str "default", 4, str "default"⟩ ∨ q = ⟨2, m, 3, str "mask"⟩) := by
  unfold numConns
  rw [List.append_assoc, List.mem_append, List.mem_map]
  refine or_congr ?_ ?_
  · constructor
    · rintro ⟨p, hp, rfl⟩
      obtain ⟨j, hj, rfl⟩ := (mem_row _ _ _).1 hp
      exact ⟨j, hj, rfl⟩
    · rintro ⟨j, hj, rfl⟩
      exact ⟨_, (mem_row _ _ _).2 ⟨j, hj, rfl⟩, rfl⟩
  · cases o.maskName <;> simp

theorem row_zero (p k : Nat) : row p k 0 = 2 := rfl
theorem row_mid (p k j : Nat) (h : j < k) : row p k (j + 1) = p + j := by
  rw [row, if_neg (by omega), if_pos (by omega)]; rfl
theorem row_last (p k : Nat) : row p k (k + 1) = 0 := by rw [row, if_neg (by omega), if_neg (by omega)]

/-- What `row j` is, for case distinctions. -/
theorem row_cases (p k j : Nat) (h : j ≤ k) : (j = 0 ∧ row p k j = 2) ∨ (1 ≤ j ∧ row p k j = p + (j - 1)) := by
  cases j with
  | zero => exact .inl ⟨rfl, rfl⟩
  | succ j => exact .inr ⟨by omega, row_mid p k j (by omega)⟩

theorem row_next (p k j : Nat) (h : j ≤ k) : (j < k ∧ row p k (j + 1) = p + j) ∨ (j = k ∧ row p k (j + 1) = 0) := by
  rcases Nat.lt_or_ge j k with h' | h'
  · exact .inl ⟨h', row_mid p k j h'⟩
  · have : j = k := by omega
    subst this
    exact .inr ⟨rfl, row_last p j⟩

theorem flow_shapes : ∀ (docs : List Doc) (f g : List Nat), f ≠ [] → flow f docs = some g →
    ∃ F : Nat → List Nat, F 0 = f ∧ F docs.length = g ∧ (∀ k ≤ docs.length, F k ≠ [] ∧ flow f (docs.take k) = some (F k)) ∧
      ∀ k d, docs[k]? = some d → d.outShape (F k) = some (F (k + 1))
  | [], f, g, hf, h => by
    cases h
    exact ⟨fun _ => f, rfl, rfl, fun k _ => ⟨hf, by simp [flow]⟩, fun k d hk => by simp at hk⟩
  | d :: docs, f, g, hf, h => by
    rw [flow] at h
    obtain ⟨f', h1, h2⟩ := Option.bind_eq_some_iff.1 h
    obtain ⟨-, -, -, -, hf'⟩ := doc_accepts (fun _ => []) d f f' hf h1 []
    obtain ⟨F, q1, q2, q3, q4⟩ := flow_shapes docs f' g hf' h2
    refine ⟨fun k => match k with | 0 => f | k + 1 => F k, rfl, q2, ?_, ?_⟩
    · intro k hk
      cases k with
      | zero => exact ⟨hf, rfl⟩
      | succ k =>
        obtain ⟨r1, r2⟩ := q3 k (by simpa using hk)
        refine ⟨r1, ?_⟩
        rw [List.take_succ_cons, flow, h1]
        exact r2
    · intro k d' hk
      cases k with
      | zero =>
        cases hk
        simp only [q1]
        exact h1
      | succ k => exact q4 k d' hk

/-- Where the data of an input come from. -/
def sourceOf (o : Opts) (k d : Nat) (i : Name) : NumConn :=
  if d = 1 then (if i = str "targets" then ⟨2, o.targetsName, 1, i⟩ else ⟨0, str "default", 1, i⟩)
  else if d = 0 then ⟨row o.parts k k, str "default", 0, i⟩
  else if o.parts ≤ d then ⟨row o.parts k (d - o.parts), str "default", d, i⟩
  else if d = 4 then ⟨3, str "default", 4, i⟩
  else if i = str "mask" then ⟨2, o.maskName.getD [], 3, i⟩ else ⟨1, str "loss", 3, i⟩

theorem sourceOf_eq (o : Opts) (k : Nat) (hp : 4 ≤ o.parts) (hm5 : ∀ m, o.maskName = some m → o.parts = 5) :
    ∀ q ∈ numConns o k, q = sourceOf o k q.dst q.inp := by
  have hd1 : str "default" ≠ str "targets" := by decide +kernel
  have hd2 : str "default" ≠ str "mask" := by decide +kernel
  intro q hq
  rcases (mem_numConns o k q).1 hq with ⟨j, hj, rfl⟩ | rfl | rfl | rfl | ⟨m, hm, rfl | rfl⟩ <;> dsimp only [sourceOf]
  · rcases row_next o.parts k j hj with ⟨h1, h2⟩ | ⟨h1, h2⟩
    · rw [h2, if_neg (by omega), if_neg (by omega), if_pos (by omega), Nat.add_sub_cancel_left]
    · rw [h2, h1]; rfl
  · rw [if_pos rfl, if_neg hd1]
  · rw [if_pos rfl, if_pos rfl]
  · rw [if_neg (by omega), if_neg (by omega), if_neg (by omega), if_neg (by omega), if_neg hd2]
  · have := hm5 m hm
    rw [if_neg (by omega), if_neg (by omega), if_neg (by omega), if_pos rfl]
  · rw [if_neg (by omega), if_neg (by omega), if_neg (by omega), if_neg (by omega), if_pos rfl, hm]; rfl

theorem numConns_uniq (o : Opts) (k : Nat) (hp : 4 ≤ o.parts) (hm5 : ∀ m, o.maskName = some m → o.parts = 5) :
    ∀ q ∈ numConns o k, ∀ q' ∈ numConns o k, q.dst = q'.dst → q.inp = q'.inp → q = q' := by
  intro q hq q' hq' hd hi
  rw [sourceOf_eq o k hp hm5 q hq, hd, hi]
  exact (sourceOf_eq o k hp hm5 q' hq').symm

/-- The rank of a layer. -/
def rankOf (o : Opts) (k i : Nat) : Nat := if i = 2 then 0 else if o.parts ≤ i then i - o.parts + 1 else k + 1 + i

/-- The input shapes by number. -/
def insOf (o : Opts) (g : List Nat) (F : Nat → List Nat) (i : Nat) : Dict Name Struct :=
  if i = 0 then one g
  else if i = 1 then two o.outShape o.targetShape (str "targets")
  else if i = 2 then []
  else if i < o.parts then (if i + 1 = o.parts then one o.targetShape else two o.targetShape [1] (str "mask"))
  else one (F (i - o.parts))

/-- All about the network: its layers, their names and shapes. -/
theorem stack_works (pre : List Op) (o : Opts) (h1 : o.projectionName = none) (h2 : o.outlayerName = none)
    (hn : o.NamesOk) (hi' : o.inShape ≠ []) (ho : o.outShape ≠ []) (docs : List Doc) (g : List Nat)
    (hflow : flow o.inShape docs = some g) (hproj : o.Projects g) (s : Script)
    (hs : stack (created pre).length o (docs.map Doc.made) = some s)
    (enum : List Nat → List Nat) (henum : ∀ l, (enum l).Perm l) :
    ∃ (a : Arch) (nm : Nat → Name) (F : Nat → List Nat) (proj : Made) (cls : Name),
      (Generates (run (pre ++ s.ops)) enum (created pre).length a ∧ (Dict.keys a).Nodup ∧
        (Dict.keys a).Perm ((List.range (o.parts + docs.length)).map nm)) ∧
      (List.range o.parts).map nm = headNames o ∧ s.made.drop o.parts = docs.map Doc.made ∧
      (∀ c, HasConnection a c ↔ c ∈ expectedConnections o docs.length nm) ∧
      (∀ i m, s.made[i]? = some m → HasName (run (pre ++ s.ops)) ((created pre).length + i) (nm i) ∧
        ∃ e, Dict.get? a (nm i) = some e ∧ e.type = .string m.typeName) ∧
      (s.made.length = o.parts + docs.length ∧ o.projection = some proj ∧ outClass o.task = some cls ∧
        s.made[0]? = some proj ∧ s.made[1]? = some ⟨cls, some o.outName, []⟩ ∧
        s.made[2]? = some ⟨str "InputLayerImpl", none, [(str "out_shapes", .shapes o.inputs)]⟩ ∧
        s.made[o.parts - 1]? = some ⟨str "LossLayerImpl", none, [(str "importance", .num 1)]⟩ ∧
        (o.maskName ≠ none → s.made[3]? = some ⟨str "MaskLayerImpl", none, []⟩) ∧
        ∀ k d, docs[k]? = some d → s.made[o.parts + k]? = some d.made) ∧
      (∀ k ≤ docs.length, F k ≠ [] ∧ flow o.inShape (docs.take k) = some (F k)) ∧
      ∀ (kwargs : Name → Kwargs), (∀ i m, s.made[i]? = some m → kwargs (nm i) = m.kw) → ∀ (ord : Orders), ord.Ok →
      ∃ layers, Instantiates (libEnv kwargs) ord a (.ok layers) ∧ (Dict.keys layers).Perm (Dict.keys a) ∧
        ∀ i < o.parts + docs.length, ∃ l, Dict.get? layers (nm i) = some l ∧ l.inShapes = insOf o g F i ∧
          (i = 1 → Dict.get? l.shapes.outs (str "predictions") = some (st o.outShape) ∧
            Dict.get? l.shapes.outs (str "loss") = some (st o.targetShape)) := by
  obtain ⟨a, nm, q1, q2, q3, q4, q5, ⟨s0, hs0, hmade, hlen0⟩, q6, q7⟩ := stack_network pre o h1 h2 docs s hs enum henum
  obtain ⟨F, f1, f2, f3, f4⟩ := flow_shapes docs o.inShape g hi' hflow
  have hg : g ≠ [] := f2 ▸ (f3 docs.length (Nat.le_refl _)).1
  have ht : o.targetShape ≠ [] := targetShape_ne ho
  have hparts : (o.maskName = none ∧ o.parts = 4) ∨ (o.maskName ≠ none ∧ o.parts = 5) := by
    unfold Opts.parts; by_cases h : o.maskName = none <;> simp [h]
  -- the layers
  obtain ⟨proj, cls, hpm, hcls, m0, m1, m2, m3, m4⟩ : ∃ proj cls, o.projection = some proj ∧ outClass o.task = some cls ∧
      s.made[0]? = some proj ∧ s.made[1]? = some ⟨cls, some o.outName, []⟩ ∧
      s.made[2]? = some ⟨str "InputLayerImpl", none, [(str "out_shapes", .shapes o.inputs)]⟩ ∧
      s.made[o.parts - 1]? = some ⟨str "LossLayerImpl", none, [(str "importance", .num 1)]⟩ ∧
      (o.maskName ≠ none → s.made[3]? = some ⟨str "MaskLayerImpl", none, []⟩) := by
    rw [hmade]
    clear * - hs0 hparts
    unfold getInOut at hs0
    cases hp : o.projection with
    | none => rw [hp] at hs0; cases hs0
    | some proj =>
      cases hc : outClass o.task with
      | none => rw [hp, hc] at hs0; cases hs0
      | some cls =>
        rw [hp, hc] at hs0
        cases hm : o.maskName with
        | none =>
          simp only [hm, Option.some.injEq] at hs0
          subst hs0
          have : o.parts = 4 := by rcases hparts with h | h; exacts [h.2, absurd hm h.1]
          exact ⟨proj, cls, rfl, rfl, rfl, rfl, rfl, by rw [this]; rfl, fun h => absurd rfl h⟩
        | some mk =>
          simp only [hm, Option.some.injEq] at hs0
          subst hs0
          have : o.parts = 5 := by rcases hparts with h | h; exacts [absurd (hm.symm.trans h.1) (by simp), h.2]
          exact ⟨proj, cls, rfl, rfl, rfl, rfl, rfl, by rw [this]; rfl, fun _ => rfl⟩
  have mh : ∀ k d, docs[k]? = some d → s.made[o.parts + k]? = some d.made := by
    intro k d hk
    rw [← List.getElem?_drop, q5, List.getElem?_map, hk]; rfl
  have hml : s.made.length = o.parts + docs.length := by rw [hmade, List.length_append, hlen0, List.length_map]
  refine ⟨a, nm, F, proj, cls, ⟨q1, q3, q2⟩, q4, q5, q7, q6, ⟨hml, hpm, hcls, m0, m1, m2, m3, m4, mh⟩, f3, ?_⟩
  intro kwargs hkw ord hord
  -- their names
  have hnm : ∀ i, i < o.parts → (headNames o)[i]? = some (nm i) := by
    intro i hi
    rw [← q4, List.getElem?_map, List.getElem?_range hi]; rfl
  have n1 : nm 1 = str "Output" := by
    have := hnm 1 (by omega)
    simpa [headNames] using this.symm
  have nl : nm (o.parts - 1) ≠ str "total_loss" := by
    have := hnm (o.parts - 1) (by omega)
    unfold headNames at this
    rcases hparts with ⟨h, h'⟩ | ⟨h, h'⟩
    · rw [h', if_pos h] at this
      rw [h', ← Option.some.inj this]; decide +kernel
    · rw [h', if_neg h] at this
      rw [h', ← Option.some.inj this]; decide +kernel
  have hwf : WellFormed a := by
    refine C68_legal pre o h1 h2 docs s hs enum henum a q1 ?_
    have := (q6 2 _ m2).1
    have h3 := hnm 2 (by omega)
    rw [show nm 2 = str "Input" by simpa [headNames] using h3.symm] at this
    exact this
  -- shapes of inputs
  have i0 : insOf o g F 0 = one g := rfl
  have i1 : insOf o g F 1 = two o.outShape o.targetShape (str "targets") := rfl
  have i2 : insOf o g F 2 = [] := rfl
  have il : insOf o g F (o.parts - 1) = one o.targetShape := by
    unfold insOf
    rw [if_neg (by omega), if_neg (by omega), if_neg (by omega), if_pos (by omega), if_pos (by omega)]
  have im : o.maskName ≠ none → insOf o g F 3 = two o.targetShape [1] (str "mask") := by
    intro h
    have : o.parts = 5 := by rcases hparts with h' | h'; exacts [absurd h'.1 h, h'.2]
    unfold insOf
    rw [if_neg (by omega), if_neg (by omega), if_neg (by omega), if_pos (by omega), if_neg (by omega)]
  have i3 : Dict.get? (insOf o g F 3) (str "default") = some (st o.targetShape) := by
    by_cases h : o.maskName = none
    · have : o.parts = 4 := by rcases hparts with h' | h'; exacts [h'.2, absurd h h'.1]
      rw [this] at il
      rw [il]; rfl
    · rw [im h]; rfl
  have ih : ∀ k, insOf o g F (o.parts + k) = one (F k) := by
    intro k
    unfold insOf
    rw [if_neg (by omega), if_neg (by omega), if_neg (by omega), if_neg (by omega), Nat.add_sub_cancel_left]
  have irow : ∀ j ≤ docs.length, insOf o g F (row o.parts docs.length (j + 1)) = one (F j) := by
    intro j hj
    rcases row_next o.parts docs.length j hj with ⟨-, h⟩ | ⟨rfl, h⟩
    · rw [h, ih]
    · rw [h, i0, f2]
  -- kinds of layers
  have kinds : ∀ i < o.parts + docs.length, i = 0 ∨ i = 1 ∨ i = 2 ∨ i = o.parts - 1 ∨ (o.maskName ≠ none ∧ i = 3) ∨
      ∃ k d, docs[k]? = some d ∧ i = o.parts + k := by
    intro i hi
    by_cases h : o.parts ≤ i
    · obtain ⟨k, rfl⟩ := Nat.exists_eq_add_of_le h
      have hk : k < docs.length := by omega
      exact .inr (.inr (.inr (.inr (.inr ⟨k, docs[k], List.getElem?_eq_getElem hk, rfl⟩))))
    · rcases hparts with ⟨h', h''⟩ | ⟨h', h''⟩
      · omega
      · by_cases h3 : i = 3
        · exact .inr (.inr (.inr (.inr (.inl ⟨h', h3⟩))))
        · omega
  have hno : o.maskName = none → o.parts = 4 := by
    intro h; rcases hparts with h' | h'; exacts [h'.2, absurd h h'.1]
  have hyes : ∀ m, o.maskName = some m → o.maskName ≠ none ∧ o.parts = 5 := by
    intro m h
    have h0 : o.maskName ≠ none := by rw [h]; simp
    rcases hparts with h' | h'; exacts [absurd h'.1 h0, h']
  have hd1 : str "default" ≠ str "targets" := by decide +kernel
  have hd2 : str "default" ≠ str "mask" := by decide +kernel
  have g1 : ∀ q ∈ numConns o docs.length, q.src < o.parts + docs.length ∧ q.dst < o.parts + docs.length := by
    intro q hq
    rcases (mem_numConns o docs.length q).1 hq with ⟨j, hj, rfl⟩ | rfl | rfl | rfl | ⟨m, hm, rfl | rfl⟩
    · have e1 := row_cases o.parts docs.length j hj
      have e2 := row_next o.parts docs.length j hj
      dsimp only
      omega
    · dsimp only; omega
    · dsimp only; omega
    · dsimp only; omega
    · have := (hyes m hm).2
      dsimp only; omega
    · have := (hyes m hm).2
      dsimp only; omega
  have g3 : ∀ q ∈ numConns o docs.length, rankOf o docs.length q.src < rankOf o docs.length q.dst := by
    intro q hq
    unfold rankOf
    rcases (mem_numConns o docs.length q).1 hq with ⟨j, hj, rfl⟩ | rfl | rfl | rfl | ⟨m, hm, rfl | rfl⟩
    · have e1 := row_cases o.parts docs.length j hj
      have e2 := row_next o.parts docs.length j hj
      dsimp only
      split_ifs <;> omega
    · dsimp only; split_ifs <;> omega
    · dsimp only; split_ifs <;> omega
    · dsimp only; split_ifs <;> omega
    · have := (hyes m hm).2
      dsimp only; split_ifs <;> omega
    · have := (hyes m hm).2
      dsimp only; split_ifs <;> omega
  have g2 : ∀ q ∈ numConns o docs.length, ∀ q' ∈ numConns o docs.length, q.dst = q'.dst → q.inp = q'.inp → q = q' :=
    numConns_uniq o docs.length (by omega) (fun m hm => (hyes m hm).2)
  have g4 : ∀ i < o.parts + docs.length, ∃ e, Dict.get? a (nm i) = some e ∧
      e.type = .string ((s.made[i]?).getD ⟨[], none, []⟩).typeName := by
    intro i hi
    have hm : s.made[i]? = some s.made[i] := List.getElem?_eq_getElem (by omega)
    rw [hm]
    exact (q6 i _ hm).2
  have gn : ∀ i < o.parts + docs.length, (Dict.keys (insOf o g F i)).Nodup ∧ sortShapes (insOf o g F i) = insOf o g F i := by
    have hone : ∀ f, (Dict.keys (one f)).Nodup ∧ sortShapes (one f) = one f := by
      intro f
      exact ⟨by simp [one, Dict.keys], rfl⟩
    intro i hi
    rcases kinds i hi with rfl | rfl | rfl | rfl | ⟨h, rfl⟩ | ⟨k, d, hk, rfl⟩
    · rw [i0]; exact hone g
    · rw [i1]; exact ⟨by simp only [two, Dict.keys, List.map_cons, List.map_nil]; decide +kernel, rfl⟩
    · rw [i2]; exact ⟨by simp [Dict.keys], rfl⟩
    · rw [il]; exact hone _
    · rw [im h]; exact ⟨by simp only [two, Dict.keys, List.map_cons, List.map_nil]; decide +kernel, rfl⟩
    · rw [ih]; exact hone _
  have g7 : ∀ i < o.parts + docs.length, ∀ k, k ∈ Dict.keys (insOf o g F i) ↔
      ∃ q ∈ numConns o docs.length, q.dst = i ∧ q.inp = k := by
    have kone : ∀ f k, k ∈ Dict.keys (one f) ↔ k = str "default" := by intro f k; simp [one, Dict.keys]
    have ktwo : ∀ f f' x k, k ∈ Dict.keys (two f f' x) ↔ k = str "default" ∨ k = x := by
      intro f f' x k; simp [two, Dict.keys]
    have mem := mem_numConns o docs.length
    intro i hi k
    constructor
    · intro hk
      rcases kinds i hi with rfl | rfl | rfl | rfl | ⟨h, rfl⟩ | ⟨j, d, hj, rfl⟩
      · rw [i0, kone] at hk
        subst hk
        exact ⟨_, (mem _).2 (.inl ⟨docs.length, Nat.le_refl _, rfl⟩), row_last _ _, rfl⟩
      · rw [i1, ktwo] at hk
        rcases hk with rfl | rfl
        · exact ⟨_, (mem _).2 (.inr (.inl rfl)), rfl, rfl⟩
        · exact ⟨_, (mem _).2 (.inr (.inr (.inl rfl))), rfl, rfl⟩
      · rw [i2] at hk; simp [Dict.keys] at hk
      · rw [il, kone] at hk
        subst hk
        cases hm : o.maskName with
        | none => exact ⟨_, (mem _).2 (.inr (.inr (.inr (.inl rfl)))), by rw [hno hm], rfl⟩
        | some m =>
          exact ⟨_, (mem _).2 (.inr (.inr (.inr (.inr ⟨m, hm, .inl rfl⟩)))), by rw [(hyes m hm).2], rfl⟩
      · rw [im h, ktwo] at hk
        obtain ⟨m, hm⟩ := Option.ne_none_iff_exists'.1 h
        rcases hk with rfl | rfl
        · exact ⟨_, (mem _).2 (.inr (.inr (.inr (.inl rfl)))), rfl, rfl⟩
        · exact ⟨_, (mem _).2 (.inr (.inr (.inr (.inr ⟨m, hm, .inr rfl⟩)))), rfl, rfl⟩
      · rw [ih, kone] at hk
        subst hk
        have hj' : j < docs.length := (List.getElem?_eq_some_iff.1 hj).1
        exact ⟨_, (mem _).2 (.inl ⟨j, by omega, rfl⟩), row_mid _ _ _ hj', rfl⟩
    · rintro ⟨q, hq, rfl, rfl⟩
      rcases (mem q).1 hq with ⟨j, hj, rfl⟩ | rfl | rfl | rfl | ⟨m, hm, rfl | rfl⟩ <;> dsimp only
      · rw [irow j hj, kone]
      · rw [i1, ktwo]; exact .inl rfl
      · rw [i1, ktwo]; exact .inr rfl
      · exact (Dict.mem_keys_iff _ _).2 (by rw [i3]; rfl)
      · have : insOf o g F 4 = one o.targetShape := by rw [← il, (hyes m hm).2]
        rw [this, kone]
      · rw [im (hyes m hm).1, ktwo]; exact .inr rfl
  have g8 : ∀ i < o.parts + docs.length, ∃ sh, (i = 1 → Dict.get? sh.outs (str "predictions") = some (st o.outShape) ∧
      Dict.get? sh.outs (str "loss") = some (st o.targetShape)) ∧
      Accepts kwargs ((s.made[i]?).getD ⟨[], none, []⟩).typeName (nm i) (kwargs (nm i)) (insOf o g F i) sh ∧
      ∀ q ∈ numConns o docs.length, q.src = i → ∃ f c b, f ≠ [] ∧ Dict.get? sh.outs q.out = some ⟨tb f, c, b⟩ ∧
        Dict.get? (insOf o g F q.dst) q.inp = some (st f) := by
    have mem := mem_numConns o docs.length
    intro i hi
    rcases kinds i hi with rfl | rfl | rfl | rfl | ⟨h, rfl⟩ | ⟨k, d, hk, rfl⟩
    · obtain ⟨sh, r1, r2⟩ := proj_accepts kwargs hpm hg ho hproj (nm 0)
      refine ⟨sh, by omega, ?_, ?_⟩
      · rw [m0, i0, hkw 0 _ m0]; exact r1
      · intro q hq he
        rcases (mem q).1 hq with ⟨j, hj, rfl⟩ | rfl | rfl | rfl | ⟨m, hm, rfl | rfl⟩ <;> dsimp only at he ⊢
        · have := row_cases o.parts docs.length j hj; omega
        · exact ⟨o.outShape, 0, false, ho, r2, rfl⟩
        all_goals omega
    · obtain ⟨sh, r1, r2, r3⟩ := out_accepts kwargs hcls ho (some o.outName) (nm 1)
      refine ⟨sh, fun _ => ⟨r2, r3⟩, ?_, ?_⟩
      · rw [m1, i1, hkw 1 _ m1]; exact r1
      · intro q hq he
        rcases (mem q).1 hq with ⟨j, hj, rfl⟩ | rfl | rfl | rfl | ⟨m, hm, rfl | rfl⟩ <;> dsimp only at he ⊢
        · have := row_cases o.parts docs.length j hj; omega
        · omega
        · omega
        · exact ⟨o.targetShape, 0, false, ht, r3, i3⟩
        all_goals omega
    · obtain ⟨sh, r1, r2, r3, r4⟩ := input_accepts kwargs hn hi' ho (nm 2)
      refine ⟨sh, by omega, ?_, ?_⟩
      · rw [m2, i2, hkw 2 _ m2]; exact r1
      · intro q hq he
        rcases (mem q).1 hq with ⟨j, hj, rfl⟩ | rfl | rfl | rfl | ⟨m, hm, rfl | rfl⟩ <;> dsimp only at he ⊢
        · have hc := row_cases o.parts docs.length j hj
          have : j = 0 := by omega
          subst this
          refine ⟨o.inShape, 0, false, hi', r2, ?_⟩
          rw [irow 0 hj, f1]; rfl
        · omega
        · exact ⟨o.targetShape, 0, false, ht, r3, rfl⟩
        · omega
        · omega
        · exact ⟨[1], 0, false, by simp, r4 m hm, by rw [im (hyes m hm).1]; rfl⟩
    · obtain ⟨sh, r1⟩ := loss_accepts kwargs o.targetShape ht (nm (o.parts - 1)) nl
      refine ⟨sh, by omega, ?_, ?_⟩
      · rw [m3, il, hkw _ _ m3]; exact r1
      · intro q hq he
        rcases (mem q).1 hq with ⟨j, hj, rfl⟩ | rfl | rfl | rfl | ⟨m, hm, rfl | rfl⟩ <;> dsimp only at he ⊢
        · have := row_cases o.parts docs.length j hj; omega
        · omega
        · omega
        · omega
        · have := (hyes m hm).2; omega
        · omega
    · obtain ⟨sh, r1, r2⟩ := mask_accepts kwargs o.targetShape ht (nm 3)
      have h5 : o.parts = 5 := by rcases hparts with h' | h'; exacts [absurd h'.1 h, h'.2]
      refine ⟨sh, by omega, ?_, ?_⟩
      · rw [m4 h, im h, hkw 3 _ (m4 h)]; exact r1
      · intro q hq he
        rcases (mem q).1 hq with ⟨j, hj, rfl⟩ | rfl | rfl | rfl | ⟨m, hm, rfl | rfl⟩ <;> dsimp only at he ⊢
        · have := row_cases o.parts docs.length j hj; omega
        · omega
        · omega
        · omega
        · refine ⟨o.targetShape, 0, false, ht, r2, ?_⟩
          have : insOf o g F 4 = one o.targetShape := by rw [← il, h5]
          rw [this]; rfl
        · omega
    · have hk' : k < docs.length := (List.getElem?_eq_some_iff.1 hk).1
      obtain ⟨sh, c, r1, r2, r3⟩ := doc_accepts kwargs d (F k) (F (k + 1)) (f3 k (by omega)).1 (f4 k d hk) (nm (o.parts + k))
      refine ⟨sh, by omega, ?_, ?_⟩
      · rw [mh k d hk, ih, hkw _ _ (mh k d hk), ← (doc_baseName d).2] at *
        exact r1
      · intro q hq he
        rcases (mem q).1 hq with ⟨j, hj, rfl⟩ | rfl | rfl | rfl | ⟨m, hm, rfl | rfl⟩ <;> dsimp only at he ⊢
        · have hc := row_cases o.parts docs.length j hj
          have : j = k + 1 := by omega
          subst this
          exact ⟨F (k + 1), c, false, r3, r2, by rw [irow _ hj]; rfl⟩
        · omega
        · omega
        · omega
        · have := (hyes m hm).2; omega
        · omega
  exact instantiates_single kwargs a q3 hwf (o.parts + docs.length) nm q2 (numConns o docs.length)
    (fun c => (q7 c).trans (expected_named o docs.length nm c)) g1 g2 (rankOf o docs.length) g3
    (fun i => ((s.made[i]?).getD ⟨[], none, []⟩).typeName) g4 (insOf o g F) (fun i hi => (gn i hi).1)
    (fun i hi => (gn i hi).2) g7
    (fun i sh => i = 1 → Dict.get? sh.outs (str "predictions") = some (st o.outShape) ∧
      Dict.get? sh.outs (str "loss") = some (st o.targetShape)) g8 ord hord

/-- **C68 (the network works).** If the data can flow through the layers (every convolution and pooling layer gets a picture
into which its window fits), the projection layer turns what comes out into the wanted shape, and data, targets and mask have
proper names with the data called `default`, then the network can be instantiated, whatever the order in which sets are
enumerated: the hidden layers get the data in the shapes the flow has before them, and the output layer predicts in the wanted
shape, and gives losses in the shape of the targets. -/
theorem C68_works (pre : List Op) (o : Opts) (h1 : o.projectionName = none) (h2 : o.outlayerName = none)
    (hn : o.NamesOk) (hi' : o.inShape ≠ []) (ho : o.outShape ≠ []) (docs : List Doc) (g : List Nat)
    (hflow : flow o.inShape docs = some g) (hproj : o.Projects g) (s : Script)
    (hs : stack (created pre).length o (docs.map Doc.made) = some s)
    (enum : List Nat → List Nat) (henum : ∀ l, (enum l).Perm l) :
    ∃ (a : Arch) (nm : Nat → Name), Generates (run (pre ++ s.ops)) enum (created pre).length a ∧
      (List.range o.parts).map nm = headNames o ∧ s.made.drop o.parts = docs.map Doc.made ∧
      (∀ c, HasConnection a c ↔ c ∈ expectedConnections o docs.length nm) ∧
      ∀ (kwargs : Name → Kwargs), (∀ i m, s.made[i]? = some m → kwargs (nm i) = m.kw) → ∀ (ord : Orders), ord.Ok →
      ∃ layers, Instantiates (libEnv kwargs) ord a (.ok layers) ∧ (Dict.keys layers).Perm (Dict.keys a) ∧
        (∃ l, Dict.get? layers (str "Output") = some l ∧
          Dict.get? l.shapes.outs (str "predictions") = some (st o.outShape) ∧
          Dict.get? l.shapes.outs (str "loss") = some (st o.targetShape)) ∧
        ∀ k < docs.length, ∃ l f, Dict.get? layers (nm (o.parts + k)) = some l ∧ flow o.inShape (docs.take k) = some f ∧
          l.inShapes = [(str "default", st f)] := by
  obtain ⟨a, nm, F, proj, cls, ⟨q1, -, -⟩, q4, q5, q7, -, -, f3, hw⟩ :=
    stack_works pre o h1 h2 hn hi' ho docs g hflow hproj s hs enum henum
  refine ⟨a, nm, q1, q4, q5, q7, fun kwargs hkw ord hord => ?_⟩
  obtain ⟨layers, w1, w2, w3⟩ := hw kwargs hkw ord hord
  have hp : 4 ≤ o.parts := by unfold Opts.parts; split <;> omega
  refine ⟨layers, w1, w2, ?_, ?_⟩
  · obtain ⟨l, r1, -, r3⟩ := w3 1 (by omega)
    have n1 : nm 1 = str "Output" := by
      have : (headNames o)[1]? = some (nm 1) := by
        rw [← q4, List.getElem?_map, List.getElem?_range (by omega)]; rfl
      simpa [headNames] using this.symm
    rw [n1] at r1
    exact ⟨l, r1, (r3 rfl).1, (r3 rfl).2⟩
  · intro k hk
    obtain ⟨l, r1, r2, -⟩ := w3 (o.parts + k) (by omega)
    refine ⟨l, F k, r1, (f3 k (by omega)).2, ?_⟩
    rw [r2, insOf, if_neg (by omega), if_neg (by omega), if_neg (by omega), if_neg (by omega), Nat.add_sub_cancel_left]
    rfl

end Verif.NetSpec
