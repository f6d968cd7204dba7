import Verif.Descent.Motion
import Verif.Descent.Spec
import Verif.Constrained.Unique

/-!
# The periods of clockwork layers have no gradients
-/

namespace Verif.Descent

open Verif.Structure Verif.Layout Verif.Buffers Verif.Memory Verif.Session Verif.Determined

section
variable {layers : List LayerInfo} {L : Layout} {T B : ℕ} {data : LayerInfo} {rest : List LayerInfo}

/-- No layer of the library computes gradients of parameters called `timing`. -/
theorem in_names {l : LayerInfo} (q : LibLayer layers data l T B) (a : q.placed.I) :
    (q.placed.S.i a).cat = str "inputs" ∨ (q.placed.S.i a).array ≠ str "timing" := by
  cases q with
  | elementwise | noOp | l1Decay | l2Decay | loss | avgPooling2D | maxPooling2D | mask | maskFull | dropout
  | squaredError | sigmoidCE | softmaxCE | binomialCE => exact Or.inl rfl
  | squaredDifference | merge => rcases a with a | a <;> exact Or.inl rfl
  | highway => rcases a with a | a | a <;> exact Or.inl rfl
  | fullyConnected | convolution2D =>
    rcases a with a | a | a
    · exact Or.inl rfl
    all_goals exact Or.inr (by show str _ ≠ _; decide)
  | recurrent | clockwork =>
    rcases a with a | a | a | a
    · exact Or.inl rfl
    all_goals exact Or.inr (by show str _ ≠ _; decide)
  | lstm | clockworkLstm =>
    rcases a with a | ⟨c, a⟩ | ⟨c, a⟩ | ⟨c, a⟩ | a | a | a
    · exact Or.inl rfl
    · exact Or.inr (by show gateW c ≠ _; cases c <;> decide)
    · exact Or.inr (by show gateR c ≠ _; cases c <;> decide)
    · exact Or.inr (by show gateB c ≠ _; cases c <;> decide)
    all_goals exact Or.inr (by show str _ ≠ _; decide)

theorem period_not_in (F : Memory.Fits layers L data rest) (ps : ∀ l ∈ rest, LibLayer layers data l T B) (hfree : FreePeriods layers)
    {k : LayerInfo} (hk : k ∈ layers) {s : Struct} {p : ℕ} (h : Home layers L T B k .par (str "timing") s p) :
    ∀ m ∈ libNetwork F ps, ∀ c, c ∈ m.ins ∨ c ∈ m.outs → c ≠ p := by
  intro m hm c hc
  obtain ⟨l, hl, rfl⟩ := mem_network.1 hm
  rcases hc with hc | hc
  · rintro rfl
    obtain ⟨a, -, ha⟩ := (@Finset.mem_image _ _ (fun a b => Classical.propDecidable (a = b)) _ _ _).1 hc
    replace ha : ((ps l hl).placed.S.i a).addr (netOf layers L) T B l.name = c := ha
    rcases (ps l hl).placed.ok.ins a with ⟨h1, s', h2, h3⟩ | ⟨h1, s', h2, h3⟩
    · obtain ⟨k', hk', o, hok, -, -, ⟨-, s'', h6, -⟩ | ⟨h5, s'', h6⟩⟩ :=
        input_source F.laid F.ordered hl (List.mem_map.2 ⟨_, h2, rfl⟩) (addr_in F.laid F.ordered hl h1 h2 h3)
      · rw [ha] at h6
        exact absurd (Home.inj F.laid hk hk' h h6).2.1 (by simp)
      · rw [ha] at h6
        exact hfree k' hk' o hok h5 (Home.inj F.laid hk hk' h h6).2.2.symm
    · have hH := addr_par F.laid F.ordered hl h1 h2 h3
      rw [ha] at hH
      rcases in_names (ps l hl) a with h4 | h4
      · rw [h1] at h4; exact absurd h4 (by decide)
      · exact h4 (Home.inj F.laid hk (F.ordered.mem hl) h hH).2.2.symm
  · rintro rfl
    obtain ⟨l', hl', hsite⟩ := forall₂_right (network_site F fun l hl => (ps l hl).placed) hm
    obtain ⟨x, s', h', -⟩ := hsite.outs c hc
    exact absurd (Home.inj F.laid hk (F.ordered.mem hl') h h').2.1 (by simp)

/-- After a backward pass the gradients of the periods are zero. -/
theorem period_gradient (F : Memory.Fits layers L data rest) (ps : ∀ l ∈ rest, LibLayer layers data l T B) (hfree : FreePeriods layers)
    {k : LayerInfo} (hk : k ∈ layers) {s : Struct} {p : ℕ} (h : Home layers L T B k .par (str "timing") s p) (m : Mem) :
    backward (backCells (netOf layers L) T B) (libNetwork F ps) m (delta layers (netOf layers L) T B p) = 0 := by
  have hs := network_site F fun l hl => (ps l hl).placed
  have hA := apart F.laid F.ordered hs
  have hV : p ∈ values layers L T B data (libNetwork F ps) :=
    Finset.mem_union_left _ ((mem_given p).2 (Or.inl ⟨k, hk, _, _, h⟩))
  have key : ∀ ms : List MLayer, (∀ m ∈ ms, m ∈ libNetwork F ps) → ∀ m : Mem,
      ms.foldl (fun m l => l.bwd m) m (delta layers (netOf layers L) T B p) = m (delta layers (netOf layers L) T B p) := by
    intro ms hms
    induction ms with
    | nil => intro m; rfl
    | cons l ms ih =>
      intro m
      have hl := hms l (by simp)
      have hat := site_at F.laid F.ordered hs hl
      rw [List.foldl_cons, ih fun m hm => hms m (by simp [hm])]
      refine (network_honest F _ l hl).bwd_writes m _ (fun ho => hat.own _ ho p hV rfl) fun c hc he => ?_
      exact period_not_in F ps hfree hk h l hl c hc (hA.inj _ (hc.elim (fun h => hat.ins h) fun h => hat.outs h) p hV he.symm)
  unfold backward
  rw [key _ fun m hm => List.mem_reverse.1 hm]
  exact if_pos (hA.dual_back p hV)

theorem period_cell (hL : Laid layers L) {i p : ℕ} (hp : (cells (netOf layers L) T B (str "parameters"))[i]? = some p)
    (hi : IsPeriod layers L i) : ∃ l ∈ layers, ∃ s, (str "timing", s) ∈ l.paramShapes ∧
      p ∈ cells (netOf layers L) T B (path l.name (str "parameters") (str "timing")) := by
  obtain ⟨l, hl, s, hs, j, hj, rfl⟩ := hi
  refine ⟨l, hl, s, hs, ?_⟩
  have h1 := (Constrained.cells_part (c := .par) hL (Or.inl rfl) hl hs T B).1
  change cells (netOf layers L) T B (path l.name (str "parameters") (str "timing")) = ((cells (netOf layers L) T B (str "parameters")).drop _).take _ at h1
  rw [h1]
  refine List.mem_of_getElem? (i := j) ?_
  rw [List.getElem?_take_of_lt hj, List.getElem?_drop, hp]

theorem period_of_cell (hL : Laid layers L) {i p : ℕ} (hp : (cells (netOf layers L) T B (str "parameters"))[i]? = some p)
    {l : LayerInfo} (hl : l ∈ layers) (hx : str "timing" ∈ l.paramShapes.map Prod.fst)
    (ht : p ∈ cells (netOf layers L) T B (path l.name (str "parameters") (str "timing"))) : IsPeriod layers L i := by
  obtain ⟨s, hs⟩ := shape_of hx
  refine ⟨l, hl, s, hs, ?_⟩
  have h1 := (Constrained.cells_part (c := .par) hL (Or.inl rfl) hl hs T B).1
  change cells (netOf layers L) T B (path l.name (str "parameters") (str "timing")) = ((cells (netOf layers L) T B (str "parameters")).drop _).take _ at h1
  rw [h1] at ht
  obtain ⟨j, hj, he⟩ := List.mem_iff_getElem.1 ht
  rw [List.getElem_take, List.getElem_drop] at he
  refine ⟨j, lt_of_lt_of_le hj (by rw [List.length_take]; exact min_le_left _ _), ?_⟩
  obtain ⟨i1, i2⟩ := List.getElem?_eq_some_iff.1 hp
  exact ((List.Nodup.getElem_inj_iff params_nodup).1 (he.trans i2.symm)).symm

/-- The gradients that a new network computes for the periods are zero. -/
theorem period_gradD (F : Memory.Fits layers L data rest) (ps : ∀ T B, ∀ l ∈ rest, LibLayer layers data l T B) (hfree : FreePeriods layers)
    (h : Sited layers L data rest fun T B => libNetwork F (ps T B)) (hdet : Determines layers L data fun T B => libNetwork F (ps T B))
    {b : Batch} (hb : b.Good data) (θ : Fin (paramCount layers L) → ℝ) (i : Fin (paramCount layers L))
    (hi : IsPeriod layers L i) :
    gradD layers L data.name (fun T B => libNetwork F (ps T B)) b θ i = 0 := by
  obtain ⟨s, hs⟩ := exists_loaded h hb (θ := List.ofFn θ) (by simp)
  obtain ⟨g, hg⟩ : ∃ p, (cells (netOf layers L) b.T b.B (str "gradients"))[(i : ℕ)]? = some p :=
    ⟨_, List.getElem?_eq_getElem (by rw [gradCount_eq F.laid]; exact i.2)⟩
  have h1 := gradD_eq h hdet hb θ
  rw [gradOf_eq h hdet hb hs, Option.some.injEq] at h1
  have h2 := congrArg (fun l => l[(i : ℕ)]?) h1
  simp only [List.getElem?_map, hg, List.getElem?_ofFn] at h2
  rw [← Option.some.inj (h2.trans (dif_pos i.2))]
  obtain ⟨p, hp⟩ : ∃ p, (cells (netOf layers L) b.T b.B (str "parameters"))[(i : ℕ)]? = some p :=
    ⟨_, List.getElem?_eq_getElem (by rw [paramCount_eq F.laid]; exact i.2)⟩
  obtain ⟨l, hl, s', hs', ht⟩ := period_cell F.laid hp hi
  obtain ⟨k, hk, x, hx', hc⟩ := F.laid.root_cover (List.mem_of_getElem? hp)
  have hdc : DeltaCell layers (netOf layers L) b.T b.B p g := by
    refine ⟨_, _, i, Or.inr (Or.inr (Or.inr ⟨k, hk, fun h => ?_, rfl, rfl⟩)), hp, hg⟩
    simp [h] at hx'
  rw [← hdc.eq F.laid]
  exact period_gradient F (ps b.T b.B) hfree hl ⟨hs', ht⟩ _

end

end Verif.Descent
