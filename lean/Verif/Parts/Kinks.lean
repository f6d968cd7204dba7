import Verif.Parts.Spec
import Verif.Parts.Loss

/-!
# Networks without kinks are differentiable at all parameters
-/

namespace Verif.Parts

open Verif.Architecture hiding demoArch
open Verif.Structure Verif.Layout Verif.Buffers Verif.Instantiate Verif.EndToEnd
open Verif.Memory hiding demoL
open Verif.Setup (Kwargs libEnv infos toInfo inp_some)
open Verif.Shapes (Supported)
open Verif.Session Verif.Determined Verif.Descent Verif.Sequence

section
variable {kwargs : Name → Kwargs} {a : Arch} {ord : Orders} {layers : Dict Name (LayerObj Kwargs)} {L : Layout} {data : LayerInfo}
  {rest : List LayerInfo}

/-- The rows before the first step of an array of a recurrent layer contain zeros. -/
theorem tail_zero {P : ℕ → ℕ → List MLayer} (S : Sited (infos layers) L data rest P) {T B : ℕ} {d : List (Name × List ℝ)} {θ : List ℝ} {s : Mem}
    (H : Found (infos layers) L data T B d θ (contextRows (netOf (infos layers) L) T B) s) {l : LayerInfo} (hl : l ∈ rest) {c : Src}
    (hc : c = .out ∨ c = .int) {x : Name} {n : ℕ} (hx : (x, rec1 n) ∈ c.shapes l) (q : Fin B × Fin n) :
    value (netOf (infos layers) L) T B l.name (forward (P T B) s) (tail c.str x (T * (B * n)) (mat B n) q) = 0 := by
  have := fresh_before S H hl hc hx (q := q.1) (k := q.2) q.1.2 q.2.2
  rw [← this]
  unfold value tail Slot.addr
  congr 2
  simp only [mat, finProdFinEquiv_apply_val]
  ring

theorem noKinks_regular (nk : NoKinks a kwargs) {M : Mode} {P : ℕ → ℕ → List MLayer} (S : Sited (infos layers) L data rest P) {T B : ℕ} (hT : 0 < T)
    {d : List (Name × List ℝ)} {θ : List ℝ} {s : Mem} (H : Found (infos layers) L data T B d θ (contextRows (netOf (infos layers) L) T B) s)
    {l : LayerInfo} (hl : l ∈ rest) (q : LibLayer (infos layers) data l T B) {t : Name} (ht : HasType a l.name t)
    (h : Describes M t (kwargs l.name) q)
    (h0 : ∀ n, (str "timing", vec n) ∈ l.paramShapes → ∀ j < n,
      value (netOf (infos layers) L) T B l.name (forward (P T B) s) ⟨str "parameters", str "timing", j⟩ ≠ 0) :
    q.Regular (valueOut (netOf (infos layers) L) T B l.name (forward (P T B) s)) := by
  have hty := nk.types _ _ ht
  cases q with
  | fullyConnected act x y has hx hy own =>
    obtain ⟨rfl, h2⟩ := h
    have : act ≠ .rel := fun e => nk.given _ (.inl ht) (e ▸ h2)
    exact fun _ _ e => absurd e this
  | elementwise act x has hx =>
    obtain ⟨rfl, h2⟩ := h
    have : act ≠ .rel := fun e => nk.given _ (.inr ht) (e ▸ h2)
    exact fun _ e => absurd e this
  | noOp | highway | merge | mask | maskFull | squaredDifference | squaredError | l2Decay | loss | avgPooling2D => trivial
  | dropout => rw [h.1] at hty; exact absurd hty (by decide)
  | sigmoidCE => rw [show t = _ from h] at hty; exact absurd hty (by decide)
  | softmaxCE => rw [h.1] at hty; exact absurd hty (by decide)
  | binomialCE => rw [show t = _ from h] at hty; exact absurd hty (by decide)
  | l1Decay => rw [show t = _ from h] at hty; exact absurd hty (by decide)
  | recurrent act n x has hx =>
    obtain ⟨rfl, h2⟩ := h
    have : act ≠ .rel := fun e => nk.notRel _ (.inl ht) (e ▸ h2)
    exact ⟨hT, fun _ _ _ _ e => absurd e this⟩
  | clockwork act n x has hx =>
    obtain ⟨rfl, h2⟩ := h
    have : act ≠ .rel := fun e => nk.notRel _ (.inr (.inl ht)) (e ▸ h2)
    exact ⟨hT, fun _ _ _ _ e => absurd e this⟩
  | lstm act n x has hx =>
    obtain ⟨rfl, h2⟩ := h
    have : act ≠ .rel := fun e => nk.notRel _ (.inr (.inr (.inl ht))) (e ▸ h2)
    refine ⟨hT, fun c => ?_, fun _ _ _ _ => ⟨fun e => absurd e this, fun e => absurd e this⟩⟩
    rcases c with c | c
    · exact tail_zero S H hl (c := .out) (Or.inl rfl) (x := str "default") (n := n) (by simp [Src.shapes, has.outs]) c
    · exact tail_zero S H hl (c := .int) (Or.inr rfl) (x := str "Ca") (n := n) (has.ints (str "Ca", rec1 n) (by simp [lstmInts])) c
  | clockworkLstm act n x has hx =>
    obtain ⟨rfl, h2⟩ := h
    have : act ≠ .rel := fun e => nk.notRel _ (.inr (.inr (.inr (.inl ht)))) (e ▸ h2)
    refine ⟨hT, fun c => ?_, fun j => h0 n (has.pars (str "timing", vec n) (by simp)) j j.2,
      fun _ _ _ _ _ => ⟨fun e => absurd e this, fun e => absurd e this⟩⟩
    rcases c with c | c
    · exact tail_zero S H hl (c := .out) (Or.inl rfl) (x := str "default") (n := n) (by simp [Src.shapes, has.outs]) c
    · exact tail_zero S H hl (c := .int) (Or.inr rfl) (x := str "Ca") (n := n) (has.ints (str "Ca", rec1 n) (by simp [lstmInts])) c
  | convolution2D act =>
    obtain ⟨rfl, h2, -⟩ := h
    have : act ≠ .rel := fun e => nk.notRel _ (.inr (.inr (.inr (.inr ht)))) (e ▸ h2)
    exact fun _ _ _ _ _ _ _ _ e => absurd e this
  | maxPooling2D =>
    obtain ⟨rfl, h2, -⟩ := h
    have := h2.kind
    rw [nk.average _ ht] at this
    cases this

/-- Networks without kinks are differentiable at all parameters. -/
theorem regularAt_of_noKinks (nk : NoKinks a kwargs) (m : Made kwargs a ord layers L) {M : Mode} (F : Memory.Fits (infos layers) L data rest)
    (ps : ∀ T B, ∀ l ∈ rest, LibLayer (infos layers) data l T B)
    (hps : ∀ T B l (hl : l ∈ rest) t, HasType a l.name t → Describes M t (kwargs l.name) (ps T B l hl)) {b : Batch} (hb : b.Good data) (hT : 0 < b.T)
    {st : State ℝ} {T B sz k : ℕ} {vs : List (Name × View)} (i : Inv (netOf (infos layers) L) st T B sz k vs)
    {θ : Fin (paramCount (infos layers) L) → ℝ} (hθ : st.read (str "parameters") = some (List.ofFn θ))
    (h0 : ∀ i : Fin (paramCount (infos layers) L), IsPeriod (infos layers) L i → θ i ≠ 0) : RegularAt F ps st b := by
  intro st₁ st₂ h1 h2 l hl
  have S := sited m F ps
  obtain ⟨st₁', h1', hr, r1⟩ := provide_ready S.laid S.data_mem i hb
  rw [h1] at h1'
  cases h1'
  obtain ⟨s, hs, hseen⟩ := after_forward S hb hr (r1.trans hθ) h2
  have H : Found (infos layers) L data b.T b.B b.data (List.ofFn θ) (contextRows (netOf (infos layers) L) b.T b.B) s :=
    ⟨hs.params, fun x hx i c hi _ hn => hs.data x hx i c hi hn, hs.context⟩
  rw [hseen]
  have ht := typeIn_spec m (F.ordered.mem hl)
  exact noKinks_regular nk S hT H hl _ ht (hps b.T b.B l hl _ ht) fun n hx j hj => period_value S i hθ h0 H (F.ordered.mem hl) hx hj

end

end Verif.Parts
