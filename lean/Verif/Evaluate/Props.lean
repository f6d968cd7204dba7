import Verif.Evaluate.Results

/-!
# Property C79: evaluation and extraction do not depend on how the data are divided into batches

For accepted architectures, and all states that a network can be in.
-/

namespace Verif.Evaluate

open Verif.Architecture hiding demoArch
open Verif.Structure Verif.Layout Verif.Buffers Verif.Instantiate Verif.EndToEnd
open Verif.Memory hiding demoL
open Verif.Session Verif.Sequence
open Verif.Setup (Kwargs libEnv infos getLossValues)
open Verif.Shapes (Supported)

/-! ### Proofs -/

theorem get?_pairs {α : Type} [DecidableEq α] (names : List α) (v : α → ℝ) (rest : List (α × ℝ)) (key : α) (h : key ∉ rest.map Prod.fst) :
    Dict.get? (names.map (fun n => (n, v n)) ++ rest) key = if key ∈ names then some (v key) else none := by
  induction names with
  | nil =>
    simp only [List.map_nil, List.nil_append, List.not_mem_nil, if_false]
    induction rest with
    | nil => rfl
    | cons e rest ih =>
      rw [List.map_cons, List.mem_cons, not_or] at h
      obtain ⟨k', v'⟩ := e
      rw [Dict.get?_cons, if_neg fun e => h.1 e.symm]
      exact ih h.2
  | cons n names ih =>
    rw [List.map_cons, List.cons_append, Dict.get?_cons, ih]
    by_cases e : n = key
    · subst e; simp
    · rw [if_neg e]
      have : (key ∈ n :: names) = (key ∈ names) := propext (List.mem_cons.trans (or_iff_right fun h : key = n => e h.symm))
      simp only [this]

section
variable {kwargs : Name → Kwargs} {a : Arch} {ord : Orders} {layers : Dict Name (LayerObj Kwargs)} {L : Layout}

/-- What is reported under a name is a sum of losses, or nothing. -/
theorem loss_entries (m : Made kwargs a ord layers L) (key : Name) :
    (∀ v : Name → ℝ, Dict.get? (getLossValues a layers v) key = none) ∨
      ∃ names : List Name, (∀ n ∈ names, HasType a n (str "Loss")) ∧
        ∀ v : Name → ℝ, Dict.get? (getLossValues a layers v) key = some (names.map v).sum := by
  obtain ⟨N, n1, n2, n3, -⟩ := Setup.C23_network (K := ℝ) kwargs a m.keys ord m.orders layers m.made fun _ => 0
  have hval : ∀ v : Name → ℝ, ∃ N' : List Name, N'.Perm N ∧ getLossValues a layers v = if N'.length = 1 then [(str "total_loss", (N'.map v).sum)]
        else N'.map (fun n => (n, v n)) ++ [(str "total_loss", (N'.map v).sum)] := fun v => by
    obtain ⟨N', n1', n2', n3', n4'⟩ := Setup.C23_network (K := ℝ) kwargs a m.keys ord m.orders layers m.made v
    exact ⟨N', (List.perm_ext_iff_of_nodup n1' n1).2 fun n => (n2' n).trans (n2 n).symm, n4'⟩
  by_cases hk : key = str "total_loss"
  · subst hk
    refine Or.inr ⟨N, fun n hn => (n2 n).1 hn, fun v => ?_⟩
    obtain ⟨N', hp, e⟩ := hval v
    rw [e, ← (hp.map v).sum_eq]
    split
    · simp [Dict.get?]
    · exact get?_last _ _ _ (by simpa using fun h => n3 (hp.mem_iff.1 h))
  · by_cases hN : N.length = 1 ∨ key ∉ N
    · refine Or.inl fun v => ?_
      obtain ⟨N', hp, e⟩ := hval v
      rw [e]
      split
      · rw [Dict.get?_cons, if_neg fun h : str "total_loss" = key => hk h.symm]
        rfl
      · next h1 =>
        rw [get?_pairs _ _ _ _ (by simpa using hk), if_neg]
        rw [hp.mem_iff]
        rcases hN with hN | hN
        · exact absurd (hp.length_eq.trans hN) h1
        · exact hN
    · rw [not_or, not_not] at hN
      refine Or.inr ⟨[key], fun n hn => ?_, fun v => ?_⟩
      · rw [List.mem_singleton] at hn
        exact (n2 n).1 (hn ▸ hN.2)
      · obtain ⟨N', hp, e⟩ := hval v
        rw [e, if_neg (by rw [hp.length_eq]; exact hN.1), get?_pairs _ _ _ _ (by simpa using hk), if_pos (hp.mem_iff.2 hN.2)]
        simp

end

/-! ### The property -/

section
variable (kwargs : Name → Kwargs) (a : Arch) (hk : (Dict.keys a).Nodup) (ord : Orders) (ho : ord.Ok)
  (layers : Dict Name (LayerObj Kwargs)) (h : Instantiates (libEnv kwargs) ord a (.ok layers))
  (hne : ∃ n l, Dict.get? layers n = some l ∧ l.shapes.outs ≠ []) (L : Layout) (hL : createLayout (infos layers) = .ok L)
  (tr : Trainable a) (num : Numeric a kwargs)
  (sup : ∀ n l t, Dict.get? layers n = some l → HasType a n t → Supported t l.kwargs l.inShapes)
include hk ho h hne hL tr num sup

/-- What is known when the data have been processed in one batch and in several ones. -/
theorem both :
    ∃ data rest, HasType a data.name (str "Input") ∧ ∃ F : Memory.Fits (infos layers) L data rest,
      ∃ ps : Mode → ∀ T B, ∀ l ∈ rest, LibLayer (infos layers) data l T B,
      (∀ M T B l (hl : l ∈ rest) t, HasType a l.name t → Describes M t (kwargs l.name) (ps M T B l hl)) ∧
      ∀ (M : Mode) (st st' : State ℝ) (w : Batch) (bs : List Batch) (θ : List ℝ), M.training = false →
        Reachable (netOf (infos layers) L) st → Reachable (netOf (infos layers) L) st' →
        st.read (str "parameters") = some θ → st'.read (str "parameters") = some θ →
        (∀ l ts, HasType a l (str "Clockwork") ∨ HasType a l (str "ClockworkLstm") →
          st'.read (path l (str "parameters") (str "timing")) = some ts → (0 : ℝ) ∉ ts) →
        Cut data w bs →
        ∃ st₁ wst sts, provide (netOf (infos layers) L) data.name w st' = some st₁ ∧
          forwardPass (netOf (infos layers) L) (fun T B => libNetwork F (ps M T B)) w.rnd st₁ = some wst ∧
          passes (netOf (infos layers) L) data.name (fun T B => libNetwork F (ps M T B)) [w] st' = some [wst] ∧
          passes (netOf (infos layers) L) data.name (fun T B => libNetwork F (ps M T B)) bs st = some sts ∧
          List.Forall₂ (Ran (infos layers) L data (fun T B => libNetwork F (ps M T B)) θ) bs sts ∧
          (∀ bs' : List Batch, bs'.Perm bs → ∃ sts' sts, passes (netOf (infos layers) L) data.name (fun T B => libNetwork F (ps M T B)) bs' st = some sts' ∧
            bs'.length = sts'.length ∧ List.Forall₂ (Ran (infos layers) L data (fun T B => libNetwork F (ps M T B)) θ) bs sts ∧ (bs'.zip sts').Perm (bs.zip sts)) ∧
          (∀ sts, List.Forall₂ (Ran (infos layers) L data (fun T B => libNetwork F (ps M T B)) θ) bs sts →
            ∀ n, HasType a n (str "Loss") → ((bs.zip sts).map fun x => (x.1.B : ℝ) * lossV (netOf (infos layers) L) n x.1 x.2).sum =
            w.B * lossV (netOf (infos layers) L) n w wst) ∧
          (∀ out targets so sl mask, Output a (infos layers) out so → Output a (infos layers) targets sl →
            (∀ m ∈ mask, ∃ s, Output a (infos layers) m s ∧ s.featureSize = 1) →
            ∃ f : ℕ → ℕ → Scoring.Row ℝ, scored out targets so.featureSize sl.featureSize mask (w.T * w.B) wst = some (blk f w.T 0 w.B) ∧
              ∀ done b later, bs = done ++ b :: later →
                ∀ st, Ran (infos layers) L data (fun T B => libNetwork F (ps M T B)) θ b st →
                scored out targets so.featureSize sl.featureSize mask (b.T * b.B) st = some (blk f w.T (0 + (done.map Batch.B).sum) b.B)) ∧
          ∀ n sh, Output a (infos layers) n sh → ∃ xs, wst.read n = some xs ∧ ∀ done b later, bs = done ++ b :: later →
            ∀ st, Ran (infos layers) L data (fun T B => libNetwork F (ps M T B)) θ b st →
            ∃ xs', st.read n = some xs' ∧ ∀ t < w.T, ∀ q < b.B,
              chunk sh.featureSize xs' (t * b.B + q) = chunk sh.featureSize xs (t * w.B + ((done.map Batch.B).sum + q)) := by
  have m : Made kwargs a ord layers L := ⟨hk, ho, h, hne, hL⟩
  obtain ⟨data, rest, hdt, F, ps, hps⟩ := functions m tr num sup
  refine ⟨data, rest, hdt, F, ps, hps, ?_⟩
  intro M st st' w bs θ hM hst hst' hθ hθ' hclock C
  have S := sited m F (ps M)
  have hwl := netOf_wellLaid F.laid.wf F.laid.shaped F.laid.layout
  obtain ⟨_, _, _, _, _, i⟩ := hst.inv hwl
  obtain ⟨_, _, _, _, _, i'⟩ := hst'.inv hwl
  obtain ⟨st₁, wst, s, sz, k, vs, h1, h2, i2, m2, -, H⟩ := fresh S i' C.good.1 hθ'
  have hw : Ran (infos layers) L data (fun T B => libNetwork F (ps M T B)) θ w wst := ⟨s, sz, k, vs, i2, m2, H⟩
  obtain ⟨sts, g1, g2⟩ := passes_ran S bs st _ _ _ _ _ i hθ C.good.2
  have hty : ∀ l ∈ infos layers, HasType a l.name (typeIn a l) := fun l hl => typeIn_spec m hl
  have hps' : ∀ T B l hl, Describes M (typeIn a l) (kwargs l.name) (ps M T B l hl) := fun T B l hl => hps M T B l hl _ (hty l (F.ordered.mem hl))
  have hck : ∀ s, Found (infos layers) L data w.T w.B w.data θ (contextRows (netOf (infos layers) L) w.T w.B) s →
      ∀ l ∈ rest, typeIn a l = str "Clockwork" ∨ typeIn a l = str "ClockworkLstm" → ∀ n, (str "timing", vec n) ∈ l.paramShapes → ∀ j < n,
      value (netOf (infos layers) L) w.T w.B l.name (forward (libNetwork F (ps M w.T w.B)) s) ⟨str "parameters", str "timing", j⟩ ≠ 0 := by
    intro s H l hl e n hx j hj
    refine param_ne_zero S i' hθ' H (F.ordered.mem hl) hx (fun ts => hclock l.name ts ?_) (by rw [featureSize_vec]; exact hj)
    rcases e with e | e
    · exact Or.inl (e ▸ hty l (F.ordered.mem hl))
    · exact Or.inr (e ▸ hty l (F.ordered.mem hl))
  have hsh : ∀ n s, Output a (infos layers) n s → Shown (infos layers) (typeIn a) n s := by
    rintro n s ⟨l, hl, x, h1, h2⟩
    exact ⟨l, hl, x, fun e => h1 (e ▸ hty l hl), h2⟩
  refine ⟨st₁, wst, sts, h1, h2, by simp only [passes, h1, h2, Option.bind_some, Option.map_some], g1, g2, ?_, ?_, ?_, ?_⟩
  · intro bs' hp
    obtain ⟨sts', g3, g4⟩ := passes_ran S bs' st _ _ _ _ _ i hθ fun b hb => C.good.2 b (hp.mem_iff.1 hb)
    obtain ⟨sts, g5, g6⟩ := perm_zip hp g4
    exact ⟨sts', sts, g3, g4.length_eq, g5, g6⟩
  · intro sts g2 n hn
    have hka : n ∈ Dict.keys a := by
      obtain ⟨d, hd, -⟩ := hn
      exact List.mem_map.2 ⟨_, hd, rfl⟩
    rw [← m.mem_keys, ← m.names, F.ordered.all, List.mem_map] at hka
    obtain ⟨l, hl, rfl⟩ := hka
    rcases List.mem_cons.1 hl with rfl | hl
    · exact absurd (m.type_unique hn hdt) (by decide)
    · exact loss_sum F (ps M) hps' S m.ctx_le hM C hw hck hl (m.type_unique (hty l (F.ordered.mem hl)) hn) g2
  · intro out targets so sl mask h1 h2 h3
    exact scored_parts F (ps M) hps' S m.ctx_le hM C hw hck (hsh _ _ h1) (hsh _ _ h2) fun k hk => by
      obtain ⟨s, g1, g2⟩ := h3 k hk
      exact ⟨s, hsh _ _ g1, g2⟩
  · intro n sh hn
    exact rows_same F (ps M) hps' S m.ctx_le hM C hw hck (hsh _ _ hn)

/-- **C79 (losses).**  Every loss that `evaluate` returns is the same for data that are divided into batches, in whatever order these come, as for all data
in one batch, and for 'total_loss' it is the loss that the network reports after one forward pass over all data. -/
theorem C79_losses :
    ∃ data rest, HasType a data.name (str "Input") ∧ ∃ F : Memory.Fits (infos layers) L data rest,
      ∃ ps : Mode → ∀ T B, ∀ l ∈ rest, LibLayer (infos layers) data l T B,
      (∀ M T B l (hl : l ∈ rest) t, HasType a l.name t → Describes M t (kwargs l.name) (ps M T B l hl)) ∧
      ∀ (M : Mode) (st st' : State ℝ) (w : Batch) (bs : List Batch) (θ : List ℝ), M.training = false →
        Reachable (netOf (infos layers) L) st → Reachable (netOf (infos layers) L) st' →
        st.read (str "parameters") = some θ → st'.read (str "parameters") = some θ →
        (∀ l ts, HasType a l (str "Clockwork") ∨ HasType a l (str "ClockworkLstm") →
          st'.read (path l (str "parameters") (str "timing")) = some ts → (0 : ℝ) ∉ ts) →
        Cut data w bs → ∀ bs' : List Batch, bs'.Perm bs →
        (∀ key, evaluateLoss (netOf (infos layers) L) data.name (fun T B => libNetwork F (ps M T B))
            (fun T B m => Dict.get? (getLossValues a layers fun n => entry (netOf (infos layers) L) T B n m "outputs" "loss" 0) key) bs' st =
          evaluateLoss (netOf (infos layers) L) data.name (fun T B => libNetwork F (ps M T B))
            (fun T B m => Dict.get? (getLossValues a layers fun n => entry (netOf (infos layers) L) T B n m "outputs" "loss" 0) key) [w] st') ∧
        ∃ st₁ st₂ loss, provide (netOf (infos layers) L) data.name w st' = some st₁ ∧
          forwardPass (netOf (infos layers) L) (fun T B => libNetwork F (ps M T B)) w.rnd st₁ = some st₂ ∧
          reported a layers L w.T w.B (memOf st₂) = some loss ∧
          evaluateLoss (netOf (infos layers) L) data.name (fun T B => libNetwork F (ps M T B)) (reported a layers L) bs' st = some loss := by
  have m : Made kwargs a ord layers L := ⟨hk, ho, h, hne, hL⟩
  obtain ⟨data, rest, hdt, F, ps, hps, hboth⟩ := both kwargs a hk ord ho layers h hne L hL tr num sup
  refine ⟨data, rest, hdt, F, ps, hps, ?_⟩
  intro M st st' w bs θ hM hst hst' hθ hθ' hclock C bs' hp
  obtain ⟨st₁, wst, -, h1, h2, h3, -, -, hperm, hloss, -⟩ := hboth M st st' w bs θ hM hst hst' hθ hθ' hclock C
  obtain ⟨sts', sts, h4, hlen, h5, hz⟩ := hperm bs' hp
  have key : ∀ names : List Name, (∀ n ∈ names, HasType a n (str "Loss")) → ∀ loss : ℕ → ℕ → Mem → Option ℝ,
      (∀ T B m, loss T B m = some (names.map fun n => entry (netOf (infos layers) L) T B n m "outputs" "loss" 0).sum) → _ :=
    fun names hn loss hl => evaluate_losses h3 h4 hz h5.length_eq C.sum C.pos names (fun n hn' => hloss sts h5 n (hn n hn')) loss hl
  refine ⟨fun k => ?_, st₁, wst, ?_⟩
  · rcases loss_entries m k with hnone | ⟨names, hn, hsome⟩
    · have e1 : ∀ (bs : List Batch) (st : State ℝ) (sts : List (State ℝ)), bs.length = sts.length → bs ≠ [] →
          passes (netOf (infos layers) L) data.name (fun T B => libNetwork F (ps M T B)) bs st = some sts →
          evaluateLoss (netOf (infos layers) L) data.name (fun T B => libNetwork F (ps M T B))
            (fun T B m => Dict.get? (getLossValues a layers fun n => entry (netOf (infos layers) L) T B n m "outputs" "loss" 0) k) bs st = none := by
        intro bs st sts hlen hne hp
        unfold evaluateLoss
        rw [hp, Option.bind_some]
        cases bs with
        | nil => exact absurd rfl hne
        | cons b bs =>
          cases sts with
          | nil => simp at hlen
          | cons s sts =>
            simp only [List.zip_cons_cons, List.mapM_cons, hnone]
            rfl
      rw [e1 bs' st sts' hlen (fun e => C.some.1 (List.nil_perm.1 (e ▸ hp))) h4, e1 [w] st' [wst] rfl (by simp) h3]
    · exact (key names hn _ fun T B m => hsome _).1
  · rcases loss_entries m (str "total_loss") with hnone | ⟨names, hn, hsome⟩
    · exfalso
      have := reported_eq kwargs a hk ord ho layers h hne L hL hdt F (ps M 1 1) (hps M 1 1) fun _ => 0
      rw [reported, hnone] at this
      exact absurd this (by simp)
    · exact ⟨_, h1, h2, hsome _, (key names hn (reported a layers L) fun T B m => hsome _).2⟩

/-- **C79 (scores).**  Every score that `evaluate` returns is the same for data that are divided into batches, in whatever order these come, as for all data
in one batch, for all scorers of the library, with or without a mask. -/
theorem C79_scores :
    ∃ data rest, HasType a data.name (str "Input") ∧ ∃ F : Memory.Fits (infos layers) L data rest,
      ∃ ps : Mode → ∀ T B, ∀ l ∈ rest, LibLayer (infos layers) data l T B,
      (∀ M T B l (hl : l ∈ rest) t, HasType a l.name t → Describes M t (kwargs l.name) (ps M T B l hl)) ∧
      ∀ (M : Mode) (st st' : State ℝ) (w : Batch) (bs : List Batch) (θ : List ℝ), M.training = false →
        Reachable (netOf (infos layers) L) st → Reachable (netOf (infos layers) L) st' →
        st.read (str "parameters") = some θ → st'.read (str "parameters") = some θ →
        (∀ l ts, HasType a l (str "Clockwork") ∨ HasType a l (str "ClockworkLstm") →
          st'.read (path l (str "parameters") (str "timing")) = some ts → (0 : ℝ) ∉ ts) →
        Cut data w bs → ∀ bs' : List Batch, bs'.Perm bs →
        ∀ (out targets : Name) (so sl : Struct) (mask : Option Name) (score : List (Scoring.Row ℝ) → ℝ),
          Output a (infos layers) out so → Flat so → Output a (infos layers) targets sl → Flat sl →
          (∀ m ∈ mask, ∃ s, Output a (infos layers) m s ∧ Flat s ∧ s.featureSize = 1) → Scorer mask.isSome score →
          ∃ st₁ st₂ rows, provide (netOf (infos layers) L) data.name w st' = some st₁ ∧
            forwardPass (netOf (infos layers) L) (fun T B => libNetwork F (ps M T B)) w.rnd st₁ = some st₂ ∧
            scored out targets so.featureSize sl.featureSize mask (w.T * w.B) st₂ = some rows ∧
            evaluateScore (netOf (infos layers) L) data.name (fun T B => libNetwork F (ps M T B))
              (scored out targets so.featureSize sl.featureSize mask) mask.isSome score bs' st =
                some (score rows / Scoring.weight mask.isSome rows) ∧
            evaluateScore (netOf (infos layers) L) data.name (fun T B => libNetwork F (ps M T B))
              (scored out targets so.featureSize sl.featureSize mask) mask.isSome score [w] st' =
                some (score rows / Scoring.weight mask.isSome rows) := by
  obtain ⟨data, rest, hdt, F, ps, hps, hboth⟩ := both kwargs a hk ord ho layers h hne L hL tr num sup
  refine ⟨data, rest, hdt, F, ps, hps, ?_⟩
  intro M st st' w bs θ hM hst hst' hθ hθ' hclock C bs' hp out targets so sl mask score q1 _ q2 _ q3 hsc
  obtain ⟨st₁, wst, -, h1, h2, h3, -, -, hperm, -, hscored, -⟩ := hboth M st st' w bs θ hM hst hst' hθ hθ' hclock C
  obtain ⟨sts', sts, h4, hlen, h5, hz⟩ := hperm bs' hp
  obtain ⟨f, f1, f2⟩ := hscored out targets so sl mask q1 q2 fun k hk => by obtain ⟨s, g1, -, g2⟩ := q3 k hk; exact ⟨s, g1, g2⟩
  obtain ⟨g, hg⟩ : ∃ g : Scoring.Row ℝ → ℝ, ∀ rs, score rs = (rs.map g).sum := by
    rcases hsc with rfl | ⟨_, _, rfl⟩ | rfl
    · exact accuracy_sum _
    · exact hamming_sum _ _ _
    · exact squaredError_sum _
  have e := evaluate_scores h3 h4 hz h5 C.sum f1 f2 mask.isSome hg
  exact ⟨st₁, wst, _, h1, h2, f1, e.1.trans e.2, e.2⟩

/-- **C79 (extraction).**  For data that are divided into batches, `extract` returns for every requested output an array with all
sequences, which holds at every time step what the network holds after one forward pass over all data. -/
theorem C79_extract :
    ∃ data rest, HasType a data.name (str "Input") ∧ ∃ F : Memory.Fits (infos layers) L data rest,
      ∃ ps : Mode → ∀ T B, ∀ l ∈ rest, LibLayer (infos layers) data l T B,
      (∀ M T B l (hl : l ∈ rest) t, HasType a l.name t → Describes M t (kwargs l.name) (ps M T B l hl)) ∧
      ∀ (M : Mode) (st st' : State ℝ) (w : Batch) (bs : List Batch) (θ : List ℝ), M.training = false →
        Reachable (netOf (infos layers) L) st → Reachable (netOf (infos layers) L) st' →
        st.read (str "parameters") = some θ → st'.read (str "parameters") = some θ →
        (∀ l ts, HasType a l (str "Clockwork") ∨ HasType a l (str "ClockworkLstm") →
          st'.read (path l (str "parameters") (str "timing")) = some ts → (0 : ℝ) ∉ ts) →
        Cut data w bs →
        ∀ arrays : List (Name × Struct), arrays ≠ [] → (arrays.map Prod.fst).Nodup → (∀ x ∈ arrays, Output a (infos layers) x.1 x.2) →
          ∃ st₁ st₂ d, provide (netOf (infos layers) L) data.name w st' = some st₁ ∧
            forwardPass (netOf (infos layers) L) (fun T B => libNetwork F (ps M T B)) w.rnd st₁ = some st₂ ∧
            extract (netOf (infos layers) L) data.name (fun T B => libNetwork F (ps M T B)) arrays w.B bs st = some d ∧
            Dict.keys d = arrays.map Prod.fst ∧
            ∀ x ∈ arrays, ∃ A xs, Dict.get? d x.1 = some A ∧ st₂.read x.1 = some xs ∧ A.seqs = w.B ∧ A.times = w.T + x.2.contextSize ∧
              ∀ t < w.T, A.rows[t]? = (table x.2 w.T w.B xs).rows[t]? := by
  obtain ⟨data, rest, hdt, F, ps, hps, hboth⟩ := both kwargs a hk ord ho layers h hne L hL tr num sup
  refine ⟨data, rest, hdt, F, ps, hps, ?_⟩
  intro M st st' w bs θ hM hst hst' hθ hθ' hclock C arrays ha hnd harr
  obtain ⟨st₁, wst, sts, h1, h2, h3, h4, h5, -, -, -, hrows⟩ := hboth M st st' w bs θ hM hst hst' hθ hθ' hclock C
  obtain ⟨d, d1, d2, d3⟩ := extract_rows h4 h5 C.some.1 C.steps C.sum ha hnd fun x hx => hrows x.1 x.2 (harr x hx)
  exact ⟨st₁, wst, d, h1, h2, d1, d2, d3⟩

end

end Verif.Evaluate
