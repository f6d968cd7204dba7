import Verif.NetSpec.Props
import Verif.Construction.WellFormed

/-!
# Networks built with `get_in_out_layers` are legal architectures
-/

namespace Verif.NetSpec

open Verif.Construction Verif.Architecture

theorem stack_base (pre : List Op) (o : Opts) (hidden : List Made) (s : Script)
    (hs : stack (created pre).length o hidden = some s) (hok : ∀ m ∈ s.made, m.Creatable) :
    created (pre ++ s.ops) = created pre ++ s.made.map Made.baseName ∧
    createdTypes (pre ++ s.ops) = createdTypes pre ++ s.made.map Made.typeName ∧
    (∀ j, Connected (pre ++ s.ops) (created pre).length j →
      (created pre).length ≤ j ∧ j < (created pre).length + s.made.length) ∧
    (∀ i, i < s.made.length → Connected (pre ++ s.ops) (created pre).length ((created pre).length + i)) ∧
    (∀ w ∈ wires 0 (pre ++ s.ops), w.dst ≠ (created pre).length + 2) ∧ 4 ≤ o.parts ∧
    s.made.length = o.parts + hidden.length := by
  generalize hn : (created pre).length = n at hs
  obtain ⟨h1, h2, h3, h4⟩ := stack_facts hs hok
  have hpos : 4 ≤ o.parts := by unfold Opts.parts; split <;> omega
  generalize hops : pre ++ s.ops = ops
  have hcr : created ops = created pre ++ s.made.map Made.baseName := by rw [← hops, created_append, h2]
  have hty : createdTypes ops = createdTypes pre ++ s.made.map Made.typeName := by rw [← hops, createdTypes_append, h3]
  have hw : wires 0 ops = wires 0 pre ++ (headWires n o ++
      (neighbours ((n + 2) :: (List.range' (n + o.parts) hidden.length ++ [n]))).map plainWire) := by
    rw [← hops, wires_append, hn, Nat.zero_add, h4]
  have hlen : (created ops).length = n + s.made.length := by rw [hcr, List.length_append, hn, List.length_map]
  have hpre : ∀ w ∈ wires 0 pre, w.src < n ∧ w.dst < n := by
    intro w hw
    have := (inv_run pre).wires_lt w hw
    rw [(inv_run pre).count, hn] at this
    exact this
  have hnew : ∀ w ∈ headWires n o ++
      (neighbours ((n + 2) :: (List.range' (n + o.parts) hidden.length ++ [n]))).map plainWire,
      (n ≤ w.src ∧ w.src < n + s.made.length) ∧ (n ≤ w.dst ∧ w.dst < n + s.made.length) := by
    intro w hw
    rcases List.mem_append.1 hw with hw | hw
    · unfold headWires at hw
      cases hm : o.maskName with
      | none =>
        rw [hm] at hw
        simp only [List.cons_append, List.nil_append, List.mem_cons, List.not_mem_nil, or_false] at hw
        rcases hw with rfl | rfl | rfl <;> simp only <;> omega
      | some m =>
        have hp5 : o.parts = 5 := by simp [Opts.parts, hm]
        rw [hm] at hw
        simp only [List.cons_append, List.nil_append, List.mem_cons, List.not_mem_nil, or_false] at hw
        rcases hw with rfl | rfl | rfl | rfl | rfl <;> simp only <;> omega
    · obtain ⟨p, hp, rfl⟩ := List.mem_map.1 hw
      have key : ∀ x ∈ (n + 2) :: (List.range' (n + o.parts) hidden.length ++ [n]), n ≤ x ∧ x < n + s.made.length := by
        intro x hx
        simp only [List.mem_cons, List.mem_append, List.mem_range'_1, List.not_mem_nil, or_false] at hx
        omega
      exact ⟨key _ (neighbours_mem hp).1, key _ (neighbours_mem hp).2⟩
  -- which layers are connected
  have hconn_lt : ∀ j, Connected ops n j → n ≤ j ∧ j < n + s.made.length := by
    intro j hj
    refine (connected_closed (P := fun x => n ≤ x ∧ x < n + s.made.length) ?_ hj).1 ⟨Nat.le_refl _, by omega⟩
    rintro x y hx (⟨w, hw', rfl, rfl⟩ | ⟨w, hw', rfl, rfl⟩)
    · rw [hw] at hw'
      rcases List.mem_append.1 hw' with hw' | hw'
      · have := (hpre w hw').1; omega
      · exact (hnew w hw').2
    · rw [hw] at hw'
      rcases List.mem_append.1 hw' with hw' | hw'
      · have := (hpre w hw').2; omega
      · exact (hnew w hw').1
  have hwired : ∀ w, w ∈ headWires n o → Wired ops w.src w.dst := by
    intro w hw'
    exact ⟨w, by rw [hw]; exact List.mem_append_right _ (List.mem_append_left _ hw'), rfl, rfl⟩
  have c1 : Connected ops n (n + 1) := .rel _ _ (hwired ⟨n, str "default", str "default", n + 1⟩ (by simp [headWires]))
  have c2 : Connected ops n (n + 2) :=
    .trans _ _ _ c1 (.symm _ _ (.rel _ _ (hwired ⟨n + 2, o.targetsName, str "targets", n + 1⟩ (by simp [headWires]))))
  have c3 : Connected ops n (n + 3) := .trans _ _ _ c1 (.rel _ _ (hwired ⟨n + 1, str "loss", str "default", n + 3⟩
    (by unfold headWires; cases o.maskName <;> simp)))
  have crow : ∀ y ∈ (n + 2) :: (List.range' (n + o.parts) hidden.length ++ [n]), Connected ops n y := by
    intro y hy
    refine .trans _ _ _ c2 (row_connected (R := Wired ops) _ _ ?_ y hy)
    intro p hp
    exact ⟨plainWire p, by rw [hw]; exact List.mem_append_right _ (List.mem_append_right _ (List.mem_map_of_mem hp)), rfl, rfl⟩
  have hconn : ∀ i, i < s.made.length → Connected ops n (n + i) := by
    intro i hi
    by_cases hi' : o.parts ≤ i
    · apply crow
      simp only [List.mem_cons, List.mem_append, List.mem_range'_1]
      omega
    · by_cases hm : o.maskName = none
      · have : o.parts = 4 := by simp [Opts.parts, hm]
        have : i = 0 ∨ i = 1 ∨ i = 2 ∨ i = 3 := by omega
        rcases this with rfl | rfl | rfl | rfl
        · exact .refl _
        · exact c1
        · exact c2
        · exact c3
      · obtain ⟨m, hm'⟩ := Option.ne_none_iff_exists'.1 hm
        have : o.parts = 5 := by simp [Opts.parts, hm]
        have : i = 0 ∨ i = 1 ∨ i = 2 ∨ i = 3 ∨ i = 4 := by omega
        rcases this with rfl | rfl | rfl | rfl | rfl
        · exact .refl _
        · exact c1
        · exact c2
        · exact c3
        · exact .trans _ _ _ c3 (.rel _ _ (hwired ⟨n + 3, str "default", str "default", n + 4⟩
            (by unfold headWires; rw [hm']; simp)))
  refine ⟨hcr, hty, hconn_lt, hconn, ?_, hpos, h1⟩
  intro w hw'
  rw [hw] at hw'
  rcases List.mem_append.1 hw' with hw' | hw'
  · have := (hpre w hw').2; omega
  · rcases List.mem_append.1 hw' with hw' | hw'
    · unfold headWires at hw'
      cases hm : o.maskName with
      | none =>
        rw [hm] at hw'
        simp only [List.cons_append, List.nil_append, List.mem_cons, List.not_mem_nil, or_false] at hw'
        rcases hw' with rfl | rfl | rfl <;> simp only <;> omega
      | some m =>
        rw [hm] at hw'
        simp only [List.cons_append, List.nil_append, List.mem_cons, List.not_mem_nil, or_false] at hw'
        rcases hw' with rfl | rfl | rfl | rfl | rfl <;> simp only <;> omega
    · obtain ⟨p, hp, rfl⟩ := List.mem_map.1 hw'
      have : p.2 ∈ (List.range' (n + o.parts) hidden.length ++ [n]) := (List.of_mem_zip hp).2
      simp only [List.mem_append, List.mem_range'_1, List.mem_cons, List.not_mem_nil, or_false] at this
      show p.2 ≠ n + 2
      omega

theorem doc_names_plain (d : Doc) : '\n' ∉ d.made.baseName := by
  rw [(doc_baseName d).1]
  cases d <;> (simp only [Doc.typeName]; decide +kernel)

/-- **C68 (legal).** The architecture `create_net_from_spec` generates is legal. -/
theorem C68_legal (pre : List Op) (o : Opts) (h1 : o.projectionName = none) (h2 : o.outlayerName = none)
    (docs : List Doc) (s : Script) (hs : stack (created pre).length o (docs.map Doc.made) = some s)
    (enum : List Nat → List Nat) (henum : ∀ l, (enum l).Perm l) (a : Arch)
    (ha : Generates (run (pre ++ s.ops)) enum (created pre).length a)
    (hin : HasName (run (pre ++ s.ops)) ((created pre).length + 2) (str "Input")) : WellFormed a := by
  have hs' := hs
  obtain ⟨s0, hs0, rfl⟩ := Option.map_eq_some_iff.1 hs'
  have hcr0 := head_creatable hs0 (by simp only [Opts.outName, h2, orElse]; decide +kernel)
    (by simp only [Opts.projName, Opts.outName, h1, h2, orElse]; decide +kernel)
  have hnames := head_names hs0 h1 h2
  have hcr : ∀ m ∈ s0.made ++ docs.map Doc.made, m.Creatable := by
    intro m hm
    rcases List.mem_append.1 hm with hm | hm
    · exact hcr0 m hm
    · obtain ⟨d, -, rfl⟩ := List.mem_map.1 hm
      exact doc_creatable d
  obtain ⟨b1, b2, b3, b4, b5, b6, b7⟩ := stack_base pre o _ _ hs hcr
  simp only at b1 b2 b3 b4 b5 b7 ha hin ⊢
  generalize hops : pre ++ (s0.ops ++ chainOps (created pre).length ((created pre).length + s0.made.length)
    ((created pre).length + 2) (docs.map Doc.made)) = ops at *
  have hpos : 2 < (s0.made ++ docs.map Doc.made).length := by omega
  have hlen := congrArg List.length b1
  rw [List.length_append, List.length_map] at hlen
  have hpl : (createdTypes pre).length = (created pre).length := by
    clear * -
    induction pre with
    | nil => rfl
    | cons op ops ih =>
      cases op with
      | create t n =>
        simp only [created, createdTypes]
        cases checkCreate t n with
        | error e => exact ih
        | ok r => simp [ih]
      | connect => exact ih
  refine C03_legal ops enum henum _ (by omega) a ha ?_ _ (b4 2 hpos) hin ?_ b5
  · intro k b hk hb
    have hk' := (b3 k hk).1
    rw [b1, List.getElem?_append_right hk', List.getElem?_map] at hb
    obtain ⟨m, hm, rfl⟩ := Option.map_eq_some_iff.1 hb
    rcases List.mem_append.1 (List.mem_of_getElem? hm) with hm | hm
    · have : m.baseName ∈ headNames o := by rw [← hnames]; exact List.mem_map_of_mem hm
      unfold headNames at this
      split at this <;> simp only [List.cons_append, List.nil_append, List.mem_cons, List.not_mem_nil, or_false] at this
      · rcases this with h | h | h | h <;> rw [h] <;> decide +kernel
      · rcases this with h | h | h | h | h <;> rw [h] <;> decide +kernel
    · obtain ⟨d, -, rfl⟩ := List.mem_map.1 hm
      exact doc_names_plain d
  · rw [b2, List.getD, List.getElem?_append_right (by omega), List.getElem?_map, hpl, Nat.add_sub_cancel_left]
    have : (s0.made ++ docs.map Doc.made)[2]? = s0.made[2]? := by
      have hl : s0.made.length = o.parts := by
        simp only [List.length_append, List.length_map] at b7; omega
      rw [List.getElem?_append_left (by omega)]
    rw [this]
    unfold getInOut at hs0
    split at hs0
    · split at hs0 <;> cases hs0 <;> rfl
    · cases hs0

end Verif.NetSpec
