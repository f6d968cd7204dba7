import Verif.Constrained.Views

/-! # Proofs for C80: applying modifiers -/

namespace Verif.Constrained

open Verif.Structure Verif.Layout Verif.Buffers Verif.Memory Verif.Session

/-- Weight modifiers act on parameters, gradient modifiers on gradients. -/
inductive Kind : Src → Call → Bool → Prop
  | weights : Kind .par weightCall false
  | gradients : Kind .grad gradCall true

theorem Kind.cat {c : Src} {call : Call} {g : Bool} (h : Kind c call g) : Cat c := by
  cases h
  · exact Or.inl rfl
  · exact Or.inr rfl

/-- Modifiers that can be called. -/
def Callable (g : Bool) (shape : List ℕ) (m : Modifier) : Prop := m.Fits shape ∧ (m.isGradient = true → g = true)

theorem value_spec {shape : List ℕ} {x : List ℝ} (hx : x.length = shape.prod) {m : Modifier} (hm : m.Fits shape)
    (hg : m.isGradient = false) :
    ∃ m' y, m.value shape x = some (m', y) ∧ y.length = x.length ∧ m'.Fits shape ∧ m'.isGradient = false := by
  cases m with
  | clipValues low high => exact ⟨_, _, rfl, by simp, trivial, rfl⟩
  | constrainL2Norm limit big =>
    simp only [Modifier.value]
    split
    · exact ⟨_, _, rfl, rfl, hm, rfl⟩
    · rename_i h2
      have hr : 0 < shape.headD 0 := by
        rcases hm with h | h
        · exact absurd h h2
        · exact h
      rw [if_neg (by omega)]
      refine ⟨_, _, rfl, ?_, hm, rfl⟩
      obtain ⟨r, ds, rfl⟩ : ∃ r ds, shape = r :: ds := by
        cases shape with
        | nil => simp at hr
        | cons r ds => exact ⟨r, ds, rfl⟩
      simp only [List.headD_cons] at hr
      simp only [List.headD_cons, List.length_flatten, List.map_ofFn, Function.comp_def, List.length_ofFn, List.ofFn_const,
        List.sum_replicate, smul_eq_mul]
      rw [hx, List.prod_cons, Nat.mul_div_cancel_left _ hr]
  | maskValues mask =>
    have e : mask.length = x.length := by rw [hx]; exact hm
    exact ⟨_, _, by simp only [Modifier.value, if_pos e]; rfl, by simp [e], hm, rfl⟩
  | freezeValues weights =>
    have e : (weights.getD x).length = x.length := by
      cases weights with
      | none => rfl
      | some w => rw [hx]; exact hm w rfl
    refine ⟨_, _, by simp only [Modifier.value, if_pos e]; rfl, e, ?_, rfl⟩
    intro w hw
    rw [Option.some.injEq] at hw
    rw [← hw, e, hx]
  | l1Decay factor => simp [Modifier.isGradient] at hg
  | l2Decay factor => simp [Modifier.isGradient] at hg

theorem gradient_spec {shape : List ℕ} {p x : List ℝ} (hp : p.length = x.length) {m : Modifier}
    (hg : m.isGradient = true) :
    ∃ m' y, m.gradient p x = some (m', y) ∧ y.length = x.length ∧ m'.Fits shape ∧ m'.isGradient = true := by
  cases m with
  | l1Decay factor => exact ⟨_, _, rfl, by simp [hp], trivial, rfl⟩
  | l2Decay factor => exact ⟨_, _, rfl, by simp [hp], trivial, rfl⟩
  | clipValues low high => simp [Modifier.isGradient] at hg
  | constrainL2Norm limit big => simp [Modifier.isGradient] at hg
  | maskValues mask => simp [Modifier.isGradient] at hg
  | freezeValues weights => simp [Modifier.isGradient] at hg

/-- Calls of modifiers that fit succeed. -/
theorem call_spec {c : Src} {call : Call} {g : Bool} (hk : Kind c call g) {shape : List ℕ} {p x : List ℝ} (hx : x.length = shape.prod)
    (hp : p.length = x.length) {m : Modifier} (hm : Callable g shape m) :
    ∃ m' y, call shape p x m = some (m', y) ∧ y.length = x.length ∧ Callable g shape m' := by
  cases hk with
  | weights =>
    have hg : m.isGradient = false := by
      cases h : m.isGradient with
      | false => rfl
      | true => exact absurd (hm.2 h) (by decide)
    obtain ⟨m', y, h1, h2, h3, h4⟩ := value_spec hx hm.1 hg
    exact ⟨m', y, h1, h2, h3, by rw [h4]; simp⟩
  | gradients =>
    cases hg : m.isGradient with
    | false =>
      obtain ⟨m', y, h1, h2, h3, h4⟩ := value_spec hx hm.1 hg
      exact ⟨m', y, by simp [gradCall, hg, h1], h2, h3, by simp⟩
    | true =>
      obtain ⟨m', y, h1, h2, h3, h4⟩ := gradient_spec (shape := shape) hp hg
      exact ⟨m', y, by simp [gradCall, hg, h1], h2, h3, by simp⟩

theorem inTurn_weight (shape : List ℕ) (p p' : List ℝ) : ∀ (ms : List Modifier) (x : List ℝ),
    inTurn weightCall shape p ms x = inTurn weightCall shape p' ms x
  | [], _ => rfl
  | m :: ms, x => by
    simp only [inTurn]
    congr 1
    funext r
    rw [inTurn_weight shape p p' ms r.2]

section
variable {layers : List LayerInfo} {L : Layout} {T B sz b : ℕ} {vs : List (Name × View)} {st : State ℝ}

/-- The innermost loop. -/
theorem callAll_spec (hL : Laid layers L) {c : Src} {call : Call} {g : Bool} (hk : Kind c call g) {l : LayerInfo} (hl : l ∈ layers)
    {v : Name} {s : Struct} (hv : (v, s) ∈ l.paramShapes) : ∀ (ms : List Modifier), (∀ m ∈ ms, Callable g (shapeS s) m) →
    ∀ {st : State ℝ}, Inv (netOf layers L) st T B sz b vs → ∀ {p x : List ℝ}, st.read (path l.name (str "parameters") v) = some p →
    st.read (path l.name c.str v) = some x →
    ∃ ms' x' st', callAll call l.name c.str v ms st = some (ms', st') ∧ inTurn call (shapeS s) p ms x = some (ms', x') ∧
      Inv (netOf layers L) st' T B sz b vs ∧ st'.read (path l.name c.str v) = some x' ∧
      (∀ a, a ∉ cells (netOf layers L) T B (path l.name c.str v) → memOf st' a = memOf st a) ∧
      (∀ m ∈ ms', Callable g (shapeS s) m)
  | [], _, st, hi, p, x, _, hx => ⟨[], x, st, rfl, rfl, hi, hx, fun _ _ => rfl, by simp⟩
  | m :: ms, hm, st, hi, p, x, hp, hx => by
    obtain ⟨e, he, -⟩ := entry_of (T := T) (B := B) hL hk.cat hl hv
    obtain ⟨e', he', -⟩ := entry_of (T := T) (B := B) (c := .par) hL (Or.inl rfl) hl hv
    have hs : s.featureSize = (shapeS s).prod := featureSize_prod s
    have len : ∀ {c : Src}, Cat c → (cells (netOf layers L) T B (path l.name c.str v)).length = (shapeS s).prod := by
      intro c hc
      have := cells_part hL hc hl hv T B
      rw [this.1, ← hs]
      simp only [List.length_take, List.length_drop]
      omega
    have hxl : x.length = (shapeS s).prod := by
      have := hx
      rw [read_inv hL hi he, Option.some.injEq] at this
      rw [← this, List.length_map, len hk.cat]
    have hpl : p.length = x.length := by
      have := hp
      have e2 : path l.name (str "parameters") v = path l.name Src.par.str v := rfl
      rw [e2, read_inv hL hi he', Option.some.injEq] at this
      rw [← this, List.length_map, len (Or.inl rfl), hxl]
    obtain ⟨m', y, h1, h2, h3⟩ := call_spec hk hxl hpl (hm m List.mem_cons_self)
    obtain ⟨st₁, h4, i1, r1, o1⟩ := write_inv hL hi he (vals := y) (by rw [len hk.cat, h2, hxl])
    obtain ⟨p', hp', hturn⟩ : ∃ p', st₁.read (path l.name (str "parameters") v) = some p' ∧
        ∀ x, inTurn call (shapeS s) p' ms x = inTurn call (shapeS s) p ms x := by
      cases hk with
      | weights => exact ⟨y, r1, fun x => inTurn_weight _ _ _ _ _⟩
      | gradients =>
        refine ⟨p, ?_, fun _ => rfl⟩
        rw [← hp]
        have e2 : path l.name (str "parameters") v = path l.name Src.par.str v := rfl
        rw [e2, read_inv hL i1 he', read_inv hL hi he']
        congr 1
        refine List.map_congr_left fun a ha => o1 a fun ha' => ?_
        have := (cells_apart (c := .par) (c' := .grad) hL (Or.inl rfl) (Or.inr rfl) hl hl hv hv ha ha').2.1
        cases this
    obtain ⟨ms', x', st', g1, g2, g3, g4, g5, g6⟩ := callAll_spec hL hk hl hv ms (fun m hm' => hm m (List.mem_cons_of_mem _ hm')) i1 hp' r1
    refine ⟨m' :: ms', x', st', ?_, ?_, g3, g4, fun a ha => by rw [g5 a ha, o1 a ha], ?_⟩
    · simp only [callAll, shapeOf_inv hL hi hk.cat hl hv, hp, hx, h1, h4, g1, Option.bind_some, Option.map_some]
    · rw [hturn] at g2
      simp only [inTurn, h1, g2, Option.bind_some, Option.map_some]
    · intro m₀ hm₀
      rcases List.mem_cons.1 hm₀ with rfl | h
      · exact h3
      · exact g6 _ h

theorem inTurn_nil (call : Call) (shape : List ℕ) (p x : List ℝ) : inTurn call shape p [] x = some ([], x) := rfl

/-- The names of layers and parameters determine them. -/
theorem name_inj (hL : Laid layers L) {l l' : LayerInfo} (hl : l ∈ layers) (hl' : l' ∈ layers) (h : l.name = l'.name) : l = l' := by
  have := hL.wf.names
  exact List.inj_on_of_nodup_map this hl hl' h

/-- The outer loops. -/
theorem applyAll_spec (hL : Laid layers L) {c : Src} {call : Call} {g : Bool} (hk : Kind c call g) : ∀ (mods : Mods), mods.Good g layers →
    ∀ {st : State ℝ}, Inv (netOf layers L) st T B sz b vs →
    ∃ mods' st', applyAll call c.str mods st = some (mods', st') ∧ Inv (netOf layers L) st' T B sz b vs ∧
      Dict.keys mods' = Dict.keys mods ∧ mods'.Good g layers ∧
      (∀ a, (∀ l ∈ layers, ∀ v ∈ l.paramShapes, (l.name, v.1) ∈ Dict.keys mods →
        a ∉ cells (netOf layers L) T B (path l.name c.str v.1)) → memOf st' a = memOf st a) ∧
      ∀ l ∈ layers, ∀ v ∈ l.paramShapes, ∀ p x, st.read (path l.name (str "parameters") v.1) = some p →
        st.read (path l.name c.str v.1) = some x →
        ∃ x', st'.read (path l.name c.str v.1) = some x' ∧
          inTurn call (shapeS v.2) p (mods.at l.name v.1) x = some (mods'.at l.name v.1, x')
  | [], hg, st, hi => ⟨[], st, rfl, hi, rfl, hg, fun _ _ => rfl, fun l _ v _ p x _ hx => ⟨x, hx, by
      simp [Mods.at, inTurn]⟩⟩
  | (k, ms) :: rest, hg, st, hi => by
    obtain ⟨l, hl, ⟨v, s⟩, hv, rfl, hms⟩ := hg.views _ List.mem_cons_self
    have hms : ∀ m ∈ ms, Callable g (shapeS s) m := hms
    obtain ⟨e, he, -⟩ := entry_of (T := T) (B := B) hL hk.cat hl hv
    obtain ⟨e', he', -⟩ := entry_of (T := T) (B := B) (c := .par) hL (Or.inl rfl) hl hv
    have e2 : ∀ (l : LayerInfo) (v : Name), path l.name (str "parameters") v = path l.name Src.par.str v := fun _ _ => rfl
    obtain ⟨ms', x₀, st₁, h1, h2, i1, r1, o1, f1⟩ := callAll_spec hL hk hl hv ms hms hi
      (by rw [e2]; exact read_inv hL hi he') (read_inv hL hi he)
    have hnd := hg.keys
    simp only [Dict.keys, List.map_cons, List.nodup_cons] at hnd
    have hgr : Mods.Good rest g layers := ⟨hnd.2, fun e he => hg.views e (List.mem_cons_of_mem _ he)⟩
    obtain ⟨rest', st₂, h3, i2, k2, g2, o2, t2⟩ := applyAll_spec hL hk rest hgr i1
    have hother : ∀ k ∈ layers, ∀ w ∈ k.paramShapes, ∀ {c' : Src}, Cat c' → (c' = c → (k.name, w.1) ≠ (l.name, v)) →
        st₁.read (path k.name c'.str w.1) = st.read (path k.name c'.str w.1) := by
      intro k hkl w hw c' hc' hne
      obtain ⟨e₁, he₁, -⟩ := entry_of (T := T) (B := B) hL hc' hkl hw
      rw [read_inv hL i1 he₁, read_inv hL hi he₁]
      congr 1
      refine List.map_congr_left fun a ha => o1 a fun ha' => ?_
      obtain ⟨q1, q2, q3⟩ := cells_apart hL hc' hk.cat hkl hl hw hv ha ha'
      exact hne q2 (by rw [q1, q3])
    refine ⟨((l.name, v), ms') :: rest', st₂, ?_, i2, ?_, ⟨?_, ?_⟩, ?_, ?_⟩
    · simp only [applyAll, h1, h3, Option.bind_some, Option.map_some]
    · simp only [Dict.keys, List.map_cons] at k2 ⊢
      rw [k2]
    · simp only [Dict.keys, List.map_cons, List.nodup_cons] at k2 ⊢
      rw [k2]
      exact hnd
    · intro e₀ he₀
      rcases List.mem_cons.1 he₀ with rfl | h
      · exact ⟨l, hl, (v, s), hv, rfl, f1⟩
      · exact g2.views _ h
    · intro a ha
      rw [o2 a (fun k hk' w hw hkey => ha k hk' w hw (by simp only [Dict.keys, List.map_cons, List.mem_cons]; exact Or.inr hkey)),
        o1 a (ha l hl (v, s) hv (by simp [Dict.keys]))]
    · intro k hkl w hw p x hp hx
      by_cases hkey : (k.name, w.1) = (l.name, v)
      · obtain ⟨q1, q2⟩ := Prod.mk.inj hkey
        obtain rfl := name_inj hL hkl hl q1
        have hws : w.2 = s := by
          have hn := (hL.wf.paramNodup k hkl)
          have a1 := Dict.get?_of_mem hn hw
          have a2 := Dict.get?_of_mem hn hv
          rw [q2, a2] at a1
          exact (Option.some.inj a1).symm
        -- the later modifiers do not touch this array
        have hsame : st₂.read (path k.name c.str v) = st₁.read (path k.name c.str v) := by
          rw [read_inv hL i2 he, read_inv hL i1 he]
          congr 1
          refine List.map_congr_left fun a ha => o2 a fun k' hk' w' hw' hkey' ha' => ?_
          obtain ⟨q1, -, q3⟩ := cells_apart hL hk.cat hk.cat hkl hk' hv hw' ha ha'
          refine hnd.1 ?_
          rw [q1, q3]
          exact hkey'
        rw [q2] at hp hx ⊢
        refine ⟨x₀, by rw [hsame, r1], ?_⟩
        have hp' := hp
        rw [e2, read_inv hL hi he', Option.some.injEq] at hp'
        rw [read_inv hL hi he, Option.some.injEq] at hx
        have a1 : Mods.at (((k.name, v), ms) :: rest) k.name v = ms := by simp [Mods.at, Dict.get?]
        have a2 : Mods.at (((k.name, v), ms') :: rest') k.name v = ms' := by simp [Mods.at, Dict.get?]
        rw [a1, a2, hws, ← hp', ← hx]
        exact h2
      · have hx1 := (hother k hkl w hw hk.cat (fun _ => hkey)).trans hx
        have hp1 : st₁.read (path k.name (str "parameters") w.1) = some p :=
          (hother k hkl w hw (c' := .par) (Or.inl rfl) (fun _ => hkey)).trans hp
        obtain ⟨x', q1, q2⟩ := t2 k hkl w hw p x hp1 hx1
        have hne : ¬ (l.name, v) = (k.name, w.1) := fun h => hkey h.symm
        have a1 : Mods.at (((l.name, v), ms) :: rest) k.name w.1 = Mods.at rest k.name w.1 := by
          simp only [Mods.at, Dict.get?, if_neg hne]
        have a2 : Mods.at (((l.name, v), ms') :: rest') k.name w.1 = Mods.at rest' k.name w.1 := by
          simp only [Mods.at, Dict.get?, if_neg hne]
        exact ⟨x', q1, by rw [a1, a2]; exact q2⟩

end

end Verif.Constrained
