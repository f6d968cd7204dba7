import Verif.Evaluate.Demo
import Verif.Data.Save

/-!
# Property C89: what `extract_and_save` writes

For accepted architectures, and all states that a network can be in.
-/

namespace Verif.Evaluate

open Verif.Architecture hiding demoArch
open Verif.Structure Verif.Layout Verif.Buffers Verif.Instantiate Verif.EndToEnd
open Verif.Memory hiding demoL
open Verif.Session Verif.Sequence
open Verif.Setup (Kwargs libEnv infos getLossValues)
open Verif.Shapes (Supported)

/-- `extract_and_save` (tools.py:124-176): the datasets of the file. -/
def extractAndSave (net : Net) (input : Name) (P : ℕ → ℕ → List MLayer) (arrays : List (Name × Struct)) (bs : List Batch) (st : State ℝ) :
    Option (Dict Name (Data.Arr (List ℝ))) :=
  (passes net input P bs st).bind fun sts =>
  ((bs.zip sts).mapM fun x => buffersOf arrays x.1 x.2).bind fun ds =>
  Data.extractAndSave (fun x => List.replicate (((Dict.get? arrays x).map Struct.featureSize).getD 0) 0) (arrays.map Prod.fst) ds

theorem saved_rows {net : Net} {input : Name} {P : ℕ → ℕ → List MLayer} {w : Batch} {bs : List Batch} {st wst : State ℝ}
    {sts : List (State ℝ)} (hs : passes net input P bs st = some sts) {R : Batch → State ℝ → Prop} (hR : List.Forall₂ R bs sts)
    (hne : bs ≠ []) (hpos : ∀ b ∈ bs, 0 < b.B) (hTpos : 0 < w.T) (hT : ∀ b ∈ bs, b.T = w.T) (hsum : (bs.map Batch.B).sum = w.B) {arrays : List (Name × Struct)} (ha : arrays ≠ [])
    (hnd : (arrays.map Prod.fst).Nodup)
    (h : ∀ x ∈ arrays, ∃ xs, wst.read x.1 = some xs ∧ ∀ done b later, bs = done ++ b :: later → ∀ st, R b st →
      ∃ xs', st.read x.1 = some xs' ∧ ∀ t < w.T, ∀ q < b.B,
        chunk x.2.featureSize xs' (t * b.B + q) = chunk x.2.featureSize xs (t * w.B + ((done.map Batch.B).sum + q))) :
    ∃ d, extractAndSave net input P arrays bs st = some d ∧ Dict.keys d = arrays.map Prod.fst ∧
      ∀ x ∈ arrays, ∃ A xs, Dict.get? d x.1 = some A ∧ wst.read x.1 = some xs ∧ A.seqs = w.B ∧ A.times = w.T + x.2.contextSize ∧
        ∀ t < w.T, A.rows[t]? = (table x.2 w.T w.B xs).rows[t]? := by
  have hread : ∀ x ∈ arrays, ∀ y ∈ bs.zip sts, y.2.read x.1 = some ((y.2.read x.1).getD []) := fun x hx y hy => by
    obtain ⟨done, later, e, r⟩ := zip_split hR y hy
    obtain ⟨xs, -, h2⟩ := h x hx
    obtain ⟨xs', h3, -⟩ := h2 done y.1 later e y.2 r
    rw [h3]
    rfl
  set D : Batch × State ℝ → Dict Name (Data.Arr (List ℝ)) := fun y =>
    arrays.map fun x => (x.1, table x.2 y.1.T y.1.B ((y.2.read x.1).getD [])) with hD
  have e1 : (bs.zip sts).mapM (fun x => buffersOf arrays x.1 x.2) = some ((bs.zip sts).map D) :=
    mapM_some fun y hy => mapM_some fun x hx => by rw [hread x hx y hy]; rfl
  have hlen := hR.length_eq
  have hz : bs.zip sts ≠ [] := by
    intro hz
    have := congrArg List.length hz
    rw [List.length_zip, ← hlen, min_self, List.length_nil, List.length_eq_zero_iff] at this
    exact hne this
  obtain ⟨d, g1, g2, g3⟩ := Data.C89_file (fun x => List.replicate (((Dict.get? arrays x).map Struct.featureSize).getD 0) (0 : ℝ))
    (arrays.map Prod.fst) hnd (by simpa using ha) (fun n => w.T + ((Dict.get? arrays n).map Struct.contextSize).getD 0)
    ((bs.zip sts).map fun y => (D y, y.1.B)) (by simpa using hz)
    (by
      intro p hp n hn
      obtain ⟨y, hy, rfl⟩ := List.mem_map.1 hp
      obtain ⟨x, hx, rfl⟩ := List.mem_map.1 hn
      refine ⟨_, get?_map hnd hx, table_regular _ _ _ _, ?_, rfl⟩
      obtain ⟨done, later, e, -⟩ := zip_split hR y hy
      simp only
      rw [Dict.get?_of_mem hnd (show (x.1, x.2) ∈ arrays from hx), ← hT y.1 (by rw [e]; simp)]
      simp [table, Data.Arr.times])
    (by
      intro p hp
      obtain ⟨y, hy, rfl⟩ := List.mem_map.1 hp
      obtain ⟨done, later, e, -⟩ := zip_split hR y hy
      exact hpos y.1 (by rw [e]; simp))
    (fun n _ => by omega)
  have hs' : (((bs.zip sts).map fun y => (D y, y.1.B)).map Prod.snd).sum = w.B := by
    rw [List.map_map, ← hsum]
    conv_rhs => rw [← zip_fst hR, List.map_map]
    rfl
  rw [hs'] at g3
  rw [List.map_map] at g1 g3
  refine ⟨d, ?_, g2, fun x hx => ?_⟩
  · unfold extractAndSave
    rw [hs, Option.bind_some, e1, Option.bind_some]
    exact g1
  · obtain ⟨A, a1, a2, a3⟩ := g3 x.1 (List.mem_map.2 ⟨x, hx, rfl⟩)
    obtain ⟨xs, h1, h2⟩ := h x hx
    rw [Dict.get?_of_mem hnd (show (x.1, x.2) ∈ arrays from hx)] at a3
    simp only [Option.map_some, Option.getD_some] at a3
    refine ⟨A, xs, a1, h1, a2, by simp [Data.Arr.times, a3], fun t ht => ?_⟩
    rw [a3, List.getElem?_map, List.getElem?_range (by omega), Option.map_some, table_row _ _ _ _ (by omega)]
    congr 1
    unfold Data.gluedRow
    rw [List.map_map]
    have := parts_row R (fun b st => (List.range b.B).map fun q => chunk x.2.featureSize ((st.read x.1).getD []) (t * b.B + q))
      (fun q => chunk x.2.featureSize xs (t * w.B + q)) bs sts 0 hR fun done b later e st r => by
        obtain ⟨xs', h3, h4⟩ := h2 done b later e st r
        rw [h3]
        refine List.map_congr_left fun q hq => ?_
        rw [Nat.zero_add]
        exact h4 t ht q (List.mem_range.1 hq)
    simp only [Nat.zero_add] at this
    rw [hsum] at this
    rw [← this]
    congr 1
    refine List.map_congr_left fun y hy => ?_
    obtain ⟨done, later, e, -⟩ := zip_split hR y hy
    have hy' := hT y.1 (by rw [e]; simp)
    simp only [Function.comp]
    rw [get?_map hnd hx, Option.map_some, Option.getD_some, Data.Arr.row, List.getD_eq_getElem?_getD, table_row _ _ _ _ (by omega)]
    rfl

section
variable (kwargs : Name → Kwargs) (a : Arch) (hk : (Dict.keys a).Nodup) (ord : Orders) (ho : ord.Ok)
  (layers : Dict Name (LayerObj Kwargs)) (h : Instantiates (libEnv kwargs) ord a (.ok layers))
  (hne : ∃ n l, Dict.get? layers n = some l ∧ l.shapes.outs ≠ []) (L : Layout) (hL : createLayout (infos layers) = .ok L)
  (tr : Trainable a) (num : Numeric a kwargs)
  (sup : ∀ n l t, Dict.get? layers n = some l → HasType a n t → Supported t l.kwargs l.inShapes)
include hk ho h hne hL tr num sup

/-- **C89 (networks).**  For data that are divided into batches, the file that `extract_and_save` writes holds for every requested output an
array with all sequences, with what the network holds at every time step after one forward pass over all data. -/
theorem C89_network :
    ∃ data rest, HasType a data.name (str "Input") ∧ ∃ F : Memory.Fits (infos layers) L data rest,
      ∃ ps : Mode → ∀ T B, ∀ l ∈ rest, LibLayer (infos layers) data l T B,
      (∀ M T B l (hl : l ∈ rest) t, HasType a l.name t → Describes M t (kwargs l.name) (ps M T B l hl)) ∧
      ∀ (M : Mode) (st st' : State ℝ) (w : Batch) (bs : List Batch) (θ : List ℝ), M.training = false →
        Reachable (netOf (infos layers) L) st → Reachable (netOf (infos layers) L) st' →
        st.read (str "parameters") = some θ → st'.read (str "parameters") = some θ →
        (∀ l ts, HasType a l (str "Clockwork") ∨ HasType a l (str "ClockworkLstm") →
          st'.read (path l (str "parameters") (str "timing")) = some ts → (0 : ℝ) ∉ ts) →
        Cut data w bs → 0 < w.T →
        ∀ arrays : List (Name × Struct), arrays ≠ [] → (arrays.map Prod.fst).Nodup → (∀ x ∈ arrays, Output a (infos layers) x.1 x.2) →
          ∃ st₁ st₂ d, provide (netOf (infos layers) L) data.name w st' = some st₁ ∧
            forwardPass (netOf (infos layers) L) (fun T B => libNetwork F (ps M T B)) w.rnd st₁ = some st₂ ∧
            extractAndSave (netOf (infos layers) L) data.name (fun T B => libNetwork F (ps M T B)) arrays bs st = some d ∧
            Dict.keys d = arrays.map Prod.fst ∧
            ∀ x ∈ arrays, ∃ A xs, Dict.get? d x.1 = some A ∧ st₂.read x.1 = some xs ∧ A.seqs = w.B ∧ A.times = w.T + x.2.contextSize ∧
              ∀ t < w.T, A.rows[t]? = (table x.2 w.T w.B xs).rows[t]? := by
  obtain ⟨data, rest, hdt, F, ps, hps, hboth⟩ := both kwargs a hk ord ho layers h hne L hL tr num sup
  refine ⟨data, rest, hdt, F, ps, hps, ?_⟩
  intro M st st' w bs θ hM hst hst' hθ hθ' hclock C hT arrays ha hnd harr
  obtain ⟨st₁, wst, sts, h1, h2, h3, h4, h5, -, -, -, hrows⟩ := hboth M st st' w bs θ hM hst hst' hθ hθ' hclock C
  obtain ⟨d, d1, d2, d3⟩ := saved_rows h4 h5 C.some.1 C.some.2 hT C.steps C.sum ha hnd fun x hx => hrows x.1 x.2 (harr x hx)
  exact ⟨st₁, wst, d, h1, h2, d1, d2, d3⟩

end

/-- All assumptions are met. -/
example (f g : ℕ → ℕ → ℕ → ℝ) (T : ℕ) (ns : List ℕ) (h0 : ∀ n ∈ ns, 0 < n) (hne : ns ≠ []) (M : Mode)
    (hM : M.training = false) (hT : 0 < T) :
    ∃ data rest, HasType chainArch data.name (str "Input") ∧ ∃ F : Memory.Fits (infos chainLayers) chainL data rest,
      ∃ ps : Mode → ∀ T B, ∀ l ∈ rest, LibLayer (infos chainLayers) data l T B, ∃ (st st₂ : State ℝ) (d : _) (A : _) (xs : _),
        extractAndSave (netOf (infos chainLayers) chainL) data.name (fun T B => libNetwork F (ps M T B))
          [(path (str "Out") (str "outputs") (str "default"), ⟨[.T, .B, .n 2], 0, false⟩)] (split f g T 0 ns) st = some d ∧
        Dict.get? d (path (str "Out") (str "outputs") (str "default")) = some A ∧
        st₂.read (path (str "Out") (str "outputs") (str "default")) = some xs ∧ A.seqs = ns.sum ∧
        ∀ t < T, A.rows[t]? = (table ⟨[.T, .B, .n 2], 0, false⟩ T ns.sum xs).rows[t]? := by
  obtain ⟨data, rest, hdt, F, ps, -, h⟩ := C89_network chainKwargs chainArch (by decide +kernel) (demoOrders true) (demoOrders_ok true)
    chainLayers chain_instantiates chain_outs chainL chain_layout chain_trainable chain_numeric chain_supported
  obtain ⟨st, θ, hst, hθ⟩ := chain_new
  obtain rfl := chain_data F hdt
  obtain ⟨st₁, st₂, d, -, -, g1, -, g2⟩ := h M st st (seqs f g T 0 ns.sum) (split f g T 0 ns) θ hM hst hst hθ hθ
    (fun l ts ht => (ht.elim (chain_types_not l).1 (chain_types_not l).2.1).elim) (demo_cut f g T ns h0 hne) hT
    [(path (str "Out") (str "outputs") (str "default"), ⟨[.T, .B, .n 2], 0, false⟩)] (by simp) (by simp)
    (by simpa using demo_output.1)
  obtain ⟨A, xs, a1, a2, a3, -, a4⟩ := g2 _ (List.mem_singleton.2 rfl)
  exact ⟨_, rest, hdt, F, ps, st, st₂, d, A, xs, g1, a1, a2, a3, a4⟩

end Verif.Evaluate
