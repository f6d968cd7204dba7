import Verif.NetSpec.Stack

/-!
# Property C67: networks built with `get_in_out_layers`
-/

namespace Verif.NetSpec

open Verif.Construction Verif.Architecture

theorem neighbours_map (f : Nat → Nat) (l : List Nat) :
    neighbours (l.map f) = (neighbours l).map (fun p => (f p.1, f p.2)) := by
  unfold neighbours
  rw [← List.map_tail, List.zip_map]
  rfl

theorem neighbours_mem {l : List Nat} {p : Nat × Nat} (h : p ∈ neighbours l) : p.1 ∈ l ∧ p.2 ∈ l := by
  have := List.of_mem_zip (show (p.1, p.2) ∈ l.zip l.tail from h)
  exact ⟨this.1, List.mem_of_mem_tail this.2⟩

theorem row_shift (n m k : Nat) : (n + 2) :: (List.range' (n + m) k ++ [n]) = (2 :: (List.range' m k ++ [0])).map (n + ·) := by
  rw [List.map_cons, List.map_append, List.map_add_range']
  rfl

theorem row_connected {R : Nat → Nat → Prop} (l : List Nat) (x : Nat)
    (h : ∀ p ∈ neighbours (x :: l), R p.1 p.2) : ∀ y ∈ x :: l, Relation.EqvGen R x y := by
  induction l generalizing x with
  | nil => intro y hy; simp only [List.mem_singleton] at hy; subst hy; exact .refl _
  | cons z r ih =>
    intro y hy
    rcases List.mem_cons.1 hy with rfl | hy
    · exact .refl _
    · have hxz : R x z := h (x, z) (by simp [neighbours])
      refine .trans _ _ _ (.rel _ _ hxz) (ih z ?_ y hy)
      intro p hp
      apply h
      simp only [neighbours, List.tail_cons] at hp ⊢
      exact List.mem_cons_of_mem _ hp

/-- **C67 (the network).** Take the input and projection layer that `get_in_out_layers` returns, put any layers in a row
between them and create the network, at any point of a program that may have created and connected other layers before.  The
architecture has exactly the layers created here, each with its type and with a name of its own: the name it was given, if no
other one was given that name.  And its connections are exactly these: from the input layer through the row to the projection
layer, from there to the output layer, which also gets the targets, and from its loss to the loss layer, through the mask
layer if a mask is wanted, which gets the mask from the input layer. -/
theorem C67_network (pre : List Op) (o : Opts) (hidden : List Made) (s : Script)
    (hs : stack (created pre).length o hidden = some s) (hok : ∀ m ∈ s.made, m.Creatable)
    (enum : List Nat → List Nat) (henum : ∀ l, (enum l).Perm l) :
    ∃ (a : Arch) (nm : Nat → Name), Generates (run (pre ++ s.ops)) enum (created pre).length a ∧
      (Dict.keys a).Perm ((List.range s.made.length).map nm) ∧ (Dict.keys a).Nodup ∧
      (∀ i m, s.made[i]? = some m →
        HasName (run (pre ++ s.ops)) ((created pre).length + i) (nm i) ∧
        (∃ d, Dict.get? a (nm i) = some d ∧ d.type = .string m.typeName) ∧
        ((∀ j m', j ≠ i → s.made[j]? = some m' → m'.baseName ≠ m.baseName) → nm i = m.baseName)) ∧
      ∀ c, HasConnection a c ↔ c ∈ expectedConnections o hidden.length nm := by
  generalize hn : (created pre).length = n at hs
  obtain ⟨h1, h2, h3, h4⟩ := stack_facts hs hok
  have hpos : 4 ≤ o.parts := by unfold Opts.parts; split <;> omega
  generalize hops : pre ++ s.ops = ops
  have hcr : created ops = created pre ++ s.made.map Made.baseName := by rw [← hops, created_append, h2]
  have hty : createdTypes ops = createdTypes pre ++ s.made.map Made.typeName := by rw [← hops, createdTypes_append, h3]
  have hw : wires 0 ops = wires 0 pre ++ (headWires n o ++
      (neighbours ((n + 2) :: (List.range' (n + o.parts) hidden.length ++ [n]))).map plainWire) := by
    rw [← hops, wires_append, hn, Nat.zero_add, h4]
  have hlen : (created ops).length = n + s.made.length := by rw [hcr, List.length_append, hn, List.length_map]
  have hpre : ∀ w ∈ wires 0 pre, w.src < n ∧ w.dst < n := by
    intro w hw
    have := (inv_run pre).wires_lt w hw
    rw [(inv_run pre).count, hn] at this
    exact this
  have hnew : ∀ w ∈ headWires n o ++
      (neighbours ((n + 2) :: (List.range' (n + o.parts) hidden.length ++ [n]))).map plainWire,
      (n ≤ w.src ∧ w.src < n + s.made.length) ∧ (n ≤ w.dst ∧ w.dst < n + s.made.length) := by
    intro w hw
    rcases List.mem_append.1 hw with hw | hw
    · unfold headWires at hw
      cases hm : o.maskName with
      | none =>
        rw [hm] at hw
        simp only [List.cons_append, List.nil_append, List.mem_cons, List.not_mem_nil, or_false] at hw
        rcases hw with rfl | rfl | rfl <;> simp only <;> omega
      | some m =>
        have hp5 : o.parts = 5 := by simp [Opts.parts, hm]
        rw [hm] at hw
        simp only [List.cons_append, List.nil_append, List.mem_cons, List.not_mem_nil, or_false] at hw
        rcases hw with rfl | rfl | rfl | rfl | rfl <;> simp only <;> omega
    · obtain ⟨p, hp, rfl⟩ := List.mem_map.1 hw
      have key : ∀ x ∈ (n + 2) :: (List.range' (n + o.parts) hidden.length ++ [n]), n ≤ x ∧ x < n + s.made.length := by
        intro x hx
        simp only [List.mem_cons, List.mem_append, List.mem_range'_1, List.not_mem_nil, or_false] at hx
        omega
      exact ⟨key _ (neighbours_mem hp).1, key _ (neighbours_mem hp).2⟩
  -- which layers are connected
  have hconn_lt : ∀ j, Connected ops n j → n ≤ j ∧ j < n + s.made.length := by
    intro j hj
    refine (connected_closed (P := fun x => n ≤ x ∧ x < n + s.made.length) ?_ hj).1 ⟨Nat.le_refl _, by omega⟩
    rintro x y hx (⟨w, hw', rfl, rfl⟩ | ⟨w, hw', rfl, rfl⟩)
    · rw [hw] at hw'
      rcases List.mem_append.1 hw' with hw' | hw'
      · have := (hpre w hw').1; omega
      · exact (hnew w hw').2
    · rw [hw] at hw'
      rcases List.mem_append.1 hw' with hw' | hw'
      · have := (hpre w hw').2; omega
      · exact (hnew w hw').1
  have hwired : ∀ w, w ∈ headWires n o → Wired ops w.src w.dst := by
    intro w hw'
    exact ⟨w, by rw [hw]; exact List.mem_append_right _ (List.mem_append_left _ hw'), rfl, rfl⟩
  have c1 : Connected ops n (n + 1) := .rel _ _ (hwired ⟨n, str "default", str "default", n + 1⟩ (by simp [headWires]))
  have c2 : Connected ops n (n + 2) :=
    .trans _ _ _ c1 (.symm _ _ (.rel _ _ (hwired ⟨n + 2, o.targetsName, str "targets", n + 1⟩ (by simp [headWires]))))
  have c3 : Connected ops n (n + 3) := .trans _ _ _ c1 (.rel _ _ (hwired ⟨n + 1, str "loss", str "default", n + 3⟩
    (by unfold headWires; cases o.maskName <;> simp)))
  have crow : ∀ y ∈ (n + 2) :: (List.range' (n + o.parts) hidden.length ++ [n]), Connected ops n y := by
    intro y hy
    refine .trans _ _ _ c2 (row_connected (R := Wired ops) _ _ ?_ y hy)
    intro p hp
    exact ⟨plainWire p, by rw [hw]; exact List.mem_append_right _ (List.mem_append_right _ (List.mem_map_of_mem hp)), rfl, rfl⟩
  have hconn : ∀ i, i < s.made.length → Connected ops n (n + i) := by
    intro i hi
    by_cases hi' : o.parts ≤ i
    · apply crow
      simp only [List.mem_cons, List.mem_append, List.mem_range'_1]
      omega
    · by_cases hm : o.maskName = none
      · have : o.parts = 4 := by simp [Opts.parts, hm]
        have : i = 0 ∨ i = 1 ∨ i = 2 ∨ i = 3 := by omega
        rcases this with rfl | rfl | rfl | rfl
        · exact .refl _
        · exact c1
        · exact c2
        · exact c3
      · obtain ⟨m, hm'⟩ := Option.ne_none_iff_exists'.1 hm
        have : o.parts = 5 := by simp [Opts.parts, hm]
        have : i = 0 ∨ i = 1 ∨ i = 2 ∨ i = 3 ∨ i = 4 := by omega
        rcases this with rfl | rfl | rfl | rfl | rfl
        · exact .refl _
        · exact c1
        · exact c2
        · exact c3
        · exact .trans _ _ _ c3 (.rel _ _ (hwired ⟨n + 3, str "default", str "default", n + 4⟩
            (by unfold headWires; rw [hm']; simp)))
  -- the architecture
  have hlt : n < (created ops).length := by omega
  obtain ⟨a, ha, hnd, hkeys, hdesc⟩ := C03_content ops enum henum n hlt
  have hnames : ∀ i : Nat, ∃ x : Name, i < s.made.length → HasName (run ops) (n + i) x := by
    intro i
    by_cases hi : i < s.made.length
    · obtain ⟨x, hx, -⟩ := C01_name_returns ops (n + i) (by omega)
      exact ⟨x, fun _ => hx⟩
    · exact ⟨[], fun h => absurd h hi⟩
  obtain ⟨nm, hnm⟩ := Classical.axiom_of_choice hnames
  have hinj : ∀ i j, i < s.made.length → j < s.made.length → nm i = nm j → i = j := by
    intro i j hi hj he
    apply Classical.byContradiction
    intro hne
    refine C01_names_distinct ops (n + i) (n + j) (by omega) (by omega) (by omega)
      (.trans _ _ _ (.symm _ _ (hconn i hi)) (hconn j hj)) _ _ (hnm i hi) (hnm j hj) he
  refine ⟨a, nm, ha, ?_, hnd, ?_, ?_⟩
  · rw [List.perm_ext_iff_of_nodup hnd]
    · intro x
      rw [hkeys]
      constructor
      · rintro ⟨k, hk, hx⟩
        obtain ⟨hk1, hk2⟩ := hconn_lt k hk
        obtain ⟨i, rfl⟩ := Nat.exists_eq_add_of_le hk1
        exact List.mem_map.2 ⟨i, List.mem_range.2 (by omega), hasName_unique (hnm i (by omega)) hx⟩
      · intro hx
        obtain ⟨i, hi, rfl⟩ := List.mem_map.1 hx
        exact ⟨n + i, hconn i (List.mem_range.1 hi), hnm i (List.mem_range.1 hi)⟩
    · refine List.Nodup.map_on ?_ List.nodup_range
      intro x hx y hy he
      exact hinj x y (List.mem_range.1 hx) (List.mem_range.1 hy) he
  · intro i m hm
    have hi : i < s.made.length := (List.getElem?_eq_some_iff.1 hm).1
    refine ⟨hnm i hi, ?_, ?_⟩
    · obtain ⟨dm, hd, -⟩ := hdesc (n + i) (nm i) (hconn i hi) (hnm i hi)
      refine ⟨_, hd, ?_⟩
      have hpl : (createdTypes pre).length = n := by rw [createdTypes_length, hn]
      have : (createdTypes ops).getD (n + i) [] = m.typeName := by
        rw [hty, List.getD, List.getElem?_append_right (by omega), hpl, Nat.add_sub_cancel_left, List.getElem?_map, hm]
        rfl
      rw [this]
    · intro hsole
      have hbase : ∀ j : Nat, (created ops)[n + j]? = (s.made[j]?).map Made.baseName := by
        intro j
        rw [hcr, List.getElem?_append_right (by omega), hn, Nat.add_sub_cancel_left, List.getElem?_map]
      have := C02_sole_name ops (n + i) m.baseName (by rw [hbase, hm]; rfl) (by
        intro j hj hc hb
        obtain ⟨hj1, hj2⟩ := hconn_lt j (.trans _ _ _ (hconn i hi) hc)
        obtain ⟨k, rfl⟩ := Nat.exists_eq_add_of_le hj1
        rw [hbase] at hb
        cases hk : s.made[k]? with
        | none => rw [hk] at hb; simp at hb
        | some m' =>
          rw [hk] at hb
          exact hsole k m' (by omega) hk (by simpa using hb))
      exact hasName_unique (hnm i hi) this
  · intro c
    rw [C03_connections ops enum henum n hlt a ha c]
    have hhas : ∀ i x, i < s.made.length → (HasName (run ops) (n + i) x ↔ x = nm i) :=
      fun i x hi => ⟨fun h => hasName_unique h (hnm i hi), fun h => h ▸ hnm i hi⟩
    -- the wires of this network, by relative numbers
    have hrel : ∀ (i j : Nat) (oN iN : Name), i < s.made.length → j < s.made.length → iN ≠ [] →
        ((HasName (run ops) (n + i) c.startLayer ∧ HasName (run ops) (n + j) c.endLayer ∧ c.outputName = oN ∧
          c.inputName = (if iN = [] then str "default" else iN)) ↔ c = ⟨nm i, oN, nm j, iN⟩) := by
      intro i j oN iN hi hj hne
      rw [hhas i _ hi, hhas j _ hj, if_neg hne]
      obtain ⟨c1, c2, c3, c4⟩ := c
      simp only [Connection.mk.injEq]
      tauto
    have hrow : ∀ i ∈ 2 :: (List.range' o.parts hidden.length ++ [0]), i < s.made.length := by
      intro i hi
      simp only [List.mem_cons, List.mem_append, List.mem_range'_1, List.not_mem_nil, or_false] at hi
      omega
    have hd : str "default" ≠ [] := by decide
    have hset : (∃ w ∈ wires 0 ops, Connected ops n w.src ∧ HasName (run ops) w.src c.startLayer ∧
        HasName (run ops) w.dst c.endLayer ∧ c.outputName = w.outputName ∧
        c.inputName = (if w.inputName = [] then str "default" else w.inputName)) ↔
        ∃ w ∈ headWires n o ++ (neighbours ((n + 2) :: (List.range' (n + o.parts) hidden.length ++ [n]))).map plainWire,
          HasName (run ops) w.src c.startLayer ∧ HasName (run ops) w.dst c.endLayer ∧ c.outputName = w.outputName ∧
          c.inputName = (if w.inputName = [] then str "default" else w.inputName) := by
      constructor
      · rintro ⟨w, hw', hc, hrest⟩
        rw [hw] at hw'
        rcases List.mem_append.1 hw' with hw' | hw'
        · have := (hpre w hw').1; have := (hconn_lt _ hc).1; omega
        · exact ⟨w, hw', hrest⟩
      · rintro ⟨w, hw', hrest⟩
        refine ⟨w, by rw [hw]; exact List.mem_append_right _ hw', ?_, hrest⟩
        obtain ⟨⟨h5, h6⟩, -⟩ := hnew w hw'
        obtain ⟨i, hi⟩ := Nat.exists_eq_add_of_le h5
        rw [hi]
        exact hconn i (by omega)
    rw [hset, row_shift, neighbours_map]
    have hchain : (∃ w ∈ ((neighbours (2 :: (List.range' o.parts hidden.length ++ [0]))).map
          (fun p => (n + p.1, n + p.2))).map plainWire,
          HasName (run ops) w.src c.startLayer ∧ HasName (run ops) w.dst c.endLayer ∧ c.outputName = w.outputName ∧
          c.inputName = (if w.inputName = [] then str "default" else w.inputName)) ↔
        c ∈ (neighbours (2 :: (List.range' o.parts hidden.length ++ [0]))).map
          (fun p => ⟨nm p.1, str "default", nm p.2, str "default"⟩) := by
      constructor
      · rintro ⟨w, hw', hrest⟩
        rw [List.map_map] at hw'
        obtain ⟨p, hp, rfl⟩ := List.mem_map.1 hw'
        have hm := neighbours_mem hp
        exact List.mem_map.2 ⟨p, hp, ((hrel p.1 p.2 _ _ (hrow _ hm.1) (hrow _ hm.2) hd).1 hrest).symm⟩
      · intro hc
        obtain ⟨p, hp, rfl⟩ := List.mem_map.1 hc
        have hm := neighbours_mem hp
        refine ⟨plainWire (n + p.1, n + p.2), ?_, (hrel p.1 p.2 _ _ (hrow _ hm.1) (hrow _ hm.2) hd).2 rfl⟩
        rw [List.map_map]
        exact List.mem_map.2 ⟨p, hp, rfl⟩
    have hhead : (∃ w ∈ headWires n o,
          HasName (run ops) w.src c.startLayer ∧ HasName (run ops) w.dst c.endLayer ∧ c.outputName = w.outputName ∧
          c.inputName = (if w.inputName = [] then str "default" else w.inputName)) ↔
        c ∈ [⟨nm 0, str "default", nm 1, str "default"⟩, ⟨nm 2, o.targetsName, nm 1, str "targets"⟩] ++
          match o.maskName with
          | none => [⟨nm 1, str "loss", nm 3, str "default"⟩]
          | some m => [⟨nm 1, str "loss", nm 3, str "default"⟩, ⟨nm 3, str "default", nm 4, str "default"⟩,
              ⟨nm 2, m, nm 3, str "mask"⟩] := by
      have e1 := hrel 0 1 (str "default") (str "default") (by omega) (by omega) hd
      have e2 := hrel 2 1 o.targetsName (str "targets") (by omega) (by omega) (by decide)
      have e3 := hrel 1 3 (str "loss") (str "default") (by omega) (by omega) hd
      unfold headWires
      cases hm : o.maskName with
      | none =>
        simp only [List.cons_append, List.nil_append, List.mem_cons, List.not_mem_nil, or_false, or_and_right, exists_or,
          exists_eq_left]
        exact or_congr e1 (or_congr e2 e3)
      | some m =>
        have hp5 : o.parts = 5 := by simp [Opts.parts, hm]
        have e4 := hrel 3 4 (str "default") (str "default") (by omega) (by omega) hd
        have e5 := hrel 2 3 m (str "mask") (by omega) (by omega) (by decide)
        simp only [List.cons_append, List.nil_append, List.mem_cons, List.not_mem_nil, or_false, or_and_right, exists_or,
          exists_eq_left]
        exact or_congr e1 (or_congr e2 (or_congr e3 (or_congr e4 e5)))
    have hsplit : ∀ (A B : List Wire) (P : Wire → Prop), (∃ w ∈ A ++ B, P w) ↔ (∃ w ∈ A, P w) ∨ (∃ w ∈ B, P w) := by
      intro A B P
      simp only [List.mem_append, or_and_right, exists_or]
    rw [hsplit, hchain, hhead, expectedConnections, List.append_assoc, List.mem_append (s := List.map _ _)]
    exact or_comm

end Verif.NetSpec
