import Verif.Structure.Spec
import Mathlib.Data.List.Basic
import Mathlib.Tactic.Ring
import Mathlib.Algebra.BigOperators.Group.List.Basic
import Mathlib.Data.List.Perm.Basic

/-!
# Properties C13 and C14: shape templates and combined shapes
-/

namespace Verif.Structure

theorem isInt_iff (t : Tok) : t.isInt = true ↔ ∃ k, t = .n k := by cases t <;> simp [Tok.isInt]

theorem all_isInt_iff (l : List Tok) : l.all Tok.isInt = true ↔ ∃ fs : List Nat, l = fs.map .n := by
  induction l with
  | nil => simp
  | cons t l ih =>
    rw [List.all_cons, Bool.and_eq_true, ih, isInt_iff]
    constructor
    · rintro ⟨⟨k, rfl⟩, fs, rfl⟩; exact ⟨k :: fs, rfl⟩
    · rintro ⟨fs, h⟩
      cases fs with
      | nil => simp at h
      | cons k fs => simp at h; exact ⟨⟨k, h.1⟩, fs, h.2⟩

theorem map_n_inj {a b : List Nat} : a.map Tok.n = b.map Tok.n ↔ a = b := by
  constructor
  · intro h; exact List.map_injective_iff.2 (fun x y h => by cases h; rfl) h
  · rintro rfl; rfl

theorem not_mem_map_n {t : Tok} (h : t.isInt = false) (l : List Nat) : t ∉ l.map Tok.n := by
  intro hm
  obtain ⟨k, _, rfl⟩ := List.mem_map.1 hm
  simp [Tok.isInt] at h

/-- **C13 (legal structures).** Structures are exactly: scaling markers followed by
at least one feature size, with a context only if they scale with time. -/
theorem C13_structures (s : Struct) : s.validate = .ok () ↔
    ∃ p fs, fs ≠ [] ∧ s.shape = shapeOf p fs ∧ (s.contextSize ≠ 0 → p = .time) := by
  constructor
  · intro h
    unfold Struct.validate at h
    split_ifs at h with h1 h2 h3 h4 h5 h6
    have h5' : s.featureShape.all Tok.isInt = true := by simpa using h5
    obtain ⟨fs, hfs⟩ := (all_isInt_iff _).1 h5'
    have hlen : s.bufferType < s.shape.length := by omega
    have hne : fs ≠ [] := by
      rintro rfl
      simp only [Struct.featureShape, List.map_nil, List.drop_eq_nil_iff] at hfs
      omega
    have hshape : s.shape = s.shape.take s.bufferType ++ fs.map .n := by
      rw [← hfs, Struct.featureShape, List.take_append_drop]
    by_cases hT : Tok.T ∈ s.shape
    · have hb : s.bufferType = 2 := by simp [Struct.bufferType, typeOf, hT]
      have h2' : s.shape.take 2 = [.T, .B] := by
        apply Classical.byContradiction; intro hc; exact h2 ⟨hT, hc⟩
      refine ⟨.time, fs, hne, ?_, fun _ => rfl⟩
      rw [hshape, hb, h2']; rfl
    · have hc : s.contextSize = 0 := by
        apply Classical.byContradiction; intro hc; exact h6 ⟨hc, hT⟩
      by_cases hB : Tok.B ∈ s.shape
      · have hb : s.bufferType = 1 := by simp [Struct.bufferType, typeOf, hT, hB]
        have h3' : s.shape.take 1 = [.B] := by
          apply Classical.byContradiction; intro hc; exact h3 ⟨hT, hB, hc⟩
        refine ⟨.batch, fs, hne, ?_, fun h => absurd hc h⟩
        rw [hshape, hb, h3']; rfl
      · have hb : s.bufferType = 0 := by simp [Struct.bufferType, typeOf, hT, hB]
        refine ⟨.none, fs, hne, ?_, fun h => absurd hc h⟩
        rw [hshape, hb]; rfl
  · rintro ⟨p, fs, hne, hs, hctx⟩
    have hT := not_mem_map_n (t := .T) rfl fs
    have hB := not_mem_map_n (t := .B) rfl fs
    have hpos : 0 < fs.length := List.length_pos_iff.2 hne
    unfold Struct.validate
    cases p with
    | none =>
      have hs' : s.shape = fs.map .n := hs
      have hbt : s.bufferType = 0 := by simp [Struct.bufferType, typeOf, hs', hT, hB]
      have hc : s.contextSize = 0 := by
        apply Classical.byContradiction; intro hc; have := hctx hc; simp at this
      have : s.featureShape.all Tok.isInt = true := by
        rw [all_isInt_iff]; exact ⟨fs, by simp [Struct.featureShape, hbt, hs']⟩
      simp only [this, hbt, hc, hs']
      simp [hT, hB, hne]
    | batch =>
      have hs' : s.shape = .B :: fs.map .n := hs
      have hbt : s.bufferType = 1 := by simp [Struct.bufferType, typeOf, hs', hT]
      have hc : s.contextSize = 0 := by
        apply Classical.byContradiction; intro hc; have := hctx hc; simp at this
      have : s.featureShape.all Tok.isInt = true := by
        rw [all_isInt_iff]; exact ⟨fs, by simp [Struct.featureShape, hbt, hs']⟩
      simp only [this, hbt, hc, hs']
      simp [hT, hne]
    | time =>
      have hs' : s.shape = .T :: .B :: fs.map .n := hs
      have hbt : s.bufferType = 2 := by simp [Struct.bufferType, typeOf, hs']
      have : s.featureShape.all Tok.isInt = true := by
        rw [all_isInt_iff]; exact ⟨fs, by simp [Struct.featureShape, hbt, hs']⟩
      simp only [this, hbt, hs']
      simp [hne]

theorem all_F_iff (l : List Tok) : l.all (· = .F) = true ↔ l = List.replicate l.length .F := by
  rw [List.eq_replicate_iff]
  simp

theorem marks_typeOf (p : Scaling) (l : List Tok) (hT : .T ∉ l) (hB : .B ∉ l) :
    typeOf (p.marks ++ l) = p.marks.length := by
  cases p <;> simp [typeOf, Scaling.marks, hT, hB]

/-- **C13 (legal templates).** Templates are exactly: scaling markers followed by
sizes, by `'F'`s or by `'...'`. -/
theorem C13_templates (t : Template) : t.validate = .ok () ↔
    ∃ (p : Scaling) (f : Features), t.shape = p.marks ++ f.toks ∧ t.shape ≠ [] ∧ (t.contextSize ≠ 0 → p = .time) := by
  constructor
  · intro h
    unfold Template.validate at h
    split_ifs at h with h1 h2 h3 h4 h5 h6 h7 h8
    have hshape : t.shape = t.shape.take (typeOf t.shape) ++ t.featureShape := by
      rw [Template.featureShape, List.take_append_drop]
    have hp : ∃ p : Scaling, t.shape.take (typeOf t.shape) = p.marks ∧
        (t.contextSize ≠ 0 → p = .time) := by
      by_cases hT : Tok.T ∈ t.shape
      · have hb : typeOf t.shape = 2 := by simp [typeOf, hT]
        have h2' : t.shape.take 2 = [.T, .B] := by
          apply Classical.byContradiction; intro hc; exact h2 ⟨hT, hc⟩
        exact ⟨.time, by rw [hb, h2']; rfl, fun _ => rfl⟩
      · have hc : t.contextSize = 0 := by
          apply Classical.byContradiction; intro hc; exact h8 ⟨hc, hT⟩
        by_cases hB : Tok.B ∈ t.shape
        · have hb : typeOf t.shape = 1 := by simp [typeOf, hT, hB]
          have h3' : t.shape.take 1 = [.B] := by
            apply Classical.byContradiction; intro hc; exact h3 ⟨hT, hB, hc⟩
          exact ⟨.batch, by rw [hb, h3']; rfl, fun h => absurd hc h⟩
        · have hb : typeOf t.shape = 0 := by simp [typeOf, hT, hB]
          exact ⟨.none, by rw [hb]; rfl, fun h => absurd hc h⟩
    obtain ⟨p, hp, hctx⟩ := hp
    rw [hp] at hshape
    by_cases hd : Tok.dots ∈ t.shape
    · have : t.featureShape = [.dots] := by
        apply Classical.byContradiction; intro hc; exact h5 ⟨hd, hc⟩
      exact ⟨p, .wild, by rw [this] at hshape; exact hshape, h1, hctx⟩
    · by_cases hF : Tok.F ∈ t.shape
      · have : t.featureShape.all (· = .F) = true := by
          apply Classical.byContradiction; intro hc; exact h6 ⟨hd, hF, hc⟩
        refine ⟨p, .any t.featureShape.length, ?_, h1, hctx⟩
        rw [all_F_iff] at this
        rw [this] at hshape
        simpa [Features.toks] using hshape
      · have : t.featureShape.all Tok.isInt = true := by
          apply Classical.byContradiction; intro hc; exact h7 ⟨hd, hF, hc⟩
        obtain ⟨fs, hfs⟩ := (all_isInt_iff _).1 this
        exact ⟨p, .sizes fs, by rw [hfs] at hshape; exact hshape, h1, hctx⟩
  · rintro ⟨p, f, hs, hne, hctx⟩
    have hTB : Tok.T ∉ f.toks ∧ Tok.B ∉ f.toks := by
      cases f with
      | sizes l => exact ⟨not_mem_map_n rfl l, not_mem_map_n rfl l⟩
      | any k => simp [Features.toks, List.mem_replicate]
      | wild => simp [Features.toks]
    have hty : typeOf t.shape = p.marks.length := by
      rw [hs]; exact marks_typeOf p _ hTB.1 hTB.2
    have hfs : t.featureShape = f.toks := by
      rw [Template.featureShape, hty, hs, List.drop_left]
    have hlen : ¬ t.shape.length < typeOf t.shape := by
      rw [hty, hs, List.length_append]; omega
    have hT : Tok.T ∈ t.shape ↔ p = .time := by
      rw [hs, List.mem_append]
      constructor
      · rintro (h | h)
        · revert h; cases p <;> simp [Scaling.marks]
        · exact absurd h hTB.1
      · rintro rfl; simp [Scaling.marks]
    have hB : Tok.B ∈ t.shape ↔ p ≠ .none := by
      rw [hs, List.mem_append]
      constructor
      · rintro (h | h)
        · revert h; cases p <;> simp [Scaling.marks]
        · exact absurd h hTB.2
      · intro h; cases p <;> simp_all [Scaling.marks]
    have hdots : Tok.dots ∈ t.shape ↔ Tok.dots ∈ f.toks := by
      rw [hs, List.mem_append]; cases p <;> simp [Scaling.marks]
    have hF : Tok.F ∈ t.shape ↔ Tok.F ∈ f.toks := by
      rw [hs, List.mem_append]; cases p <;> simp [Scaling.marks]
    unfold Template.validate
    rw [if_neg hne, if_neg, if_neg, if_neg hlen, if_neg, if_neg, if_neg, if_neg]
    · rintro ⟨hc, hnT⟩; exact hnT (hT.2 (hctx hc))
    · rintro ⟨hd, hnF, hall⟩
      rw [hdots] at hd
      rw [hF] at hnF
      rw [hfs] at hall
      cases f with
      | sizes l => exact hall ((all_isInt_iff _).2 ⟨l, rfl⟩)
      | any k =>
        cases k with
        | zero => exact hall rfl
        | succ k => exact hnF (by simp [Features.toks])
      | wild => exact hd (by simp [Features.toks])
    · rintro ⟨hd, hnF, hall⟩
      rw [hdots] at hd
      rw [hF] at hnF
      rw [hfs] at hall
      cases f with
      | sizes l => exact absurd hnF (not_mem_map_n rfl l)
      | any k => exact hall (by rw [all_F_iff]; simp [Features.toks])
      | wild => exact hd (by simp [Features.toks])
    · rintro ⟨hd, hne'⟩
      rw [hdots] at hd
      rw [hfs] at hne'
      cases f with
      | sizes l => exact absurd hd (not_mem_map_n rfl l)
      | any k => simp [Features.toks, List.mem_replicate] at hd
      | wild => exact hne' rfl
    · rintro ⟨hnT, hb, htake⟩
      rw [hT] at hnT
      rw [hB] at hb
      apply htake
      cases p <;> simp_all [Scaling.marks]
    · rintro ⟨hTm, htake⟩
      rw [hT] at hTm
      subst hTm
      apply htake
      rw [hs]; rfl

/-- The comparison of one entry. -/
def tokMatch (s t : Tok) : Bool :=
  decide (t = s) || (decide (t = .F) && s.isInt) || decide (t = .dots)

theorem matches_eq (t : Template) (s : Struct) : t.matches s =
    if .dots ∉ t.shape ∧ s.shape.length ≠ t.shape.length then false
    else if .dots ∈ t.shape ∧ s.shape.length < t.shape.length then false
    else (s.shape.zip t.shape).all (fun p => tokMatch p.1 p.2) := rfl

theorem zip_sizes : ∀ (fs l : List Nat), fs.length = l.length →
    (((fs.map Tok.n).zip (l.map Tok.n)).all (fun p => tokMatch p.1 p.2) = true ↔ fs = l)
  | [], [], _ => by simp
  | a :: fs, b :: l, h => by
    have := zip_sizes fs l (by simpa using h)
    simp only [List.map_cons, List.zip_cons_cons, List.all_cons, Bool.and_eq_true, this]
    simp [tokMatch, eq_comm]
  | [], _ :: _, h => by simp at h
  | _ :: _, [], h => by simp at h

theorem zip_any : ∀ (fs : List Nat) (k : Nat),
    ((fs.map Tok.n).zip (List.replicate k Tok.F)).all (fun p => tokMatch p.1 p.2) = true
  | [], _ => by simp
  | _ :: _, 0 => by simp
  | _ :: fs, k + 1 => by
    simp only [List.map_cons, List.replicate_succ, List.zip_cons_cons, List.all_cons,
      zip_any fs k, Bool.and_true]
    simp [tokMatch, Tok.isInt]

/-- **C13 (matching).** A legal template matches a legal structure exactly when
the structure is one it stands for. -/
theorem C13_matches (pt ps : Scaling) (f : Features) (fs : List Nat) (hfs : fs ≠ [])
    (ct cs : Nat) (bwd : Bool) (hne : pt.marks ++ f.toks ≠ []) :
    (Template.mk (pt.marks ++ f.toks) ct).matches ⟨shapeOf ps fs, cs, bwd⟩ = true ↔
      Accepts pt f ps fs := by
  have hpos : 0 < fs.length := List.length_pos_iff.2 hfs
  obtain ⟨a, gs, rfl⟩ := List.exists_cons_of_ne_nil hfs
  rw [matches_eq]
  simp only [shapeOf]
  cases f with
  | sizes l =>
    have hd : Tok.dots ∉ l.map Tok.n := not_mem_map_n rfl l
    have hd2 : Tok.dots ∉ pt.marks ++ l.map Tok.n := by
      rw [List.mem_append, not_or]; exact ⟨by cases pt <;> simp [Scaling.marks], hd⟩
    simp only [Features.toks, hd2, not_false_eq_true, true_and, false_and, if_false]
    by_cases hlen : (ps.marks ++ (a :: gs).map Tok.n).length ≠ (pt.marks ++ l.map Tok.n).length
    · rw [if_pos hlen]
      simp only [Bool.false_eq_true, Accepts, Features.allows, false_iff]
      rintro (⟨rfl, rfl⟩ | ⟨_, h⟩)
      · exact hlen rfl
      · simp at h
    · rw [if_neg hlen]
      simp only [List.length_append, List.length_map, ne_eq, not_not, List.length_cons] at hlen
      by_cases hp : pt = ps
      · subst hp
        have hl : (a :: gs).length = l.length := by simp only [List.length_cons]; omega
        rw [List.zip_append rfl, List.all_append, Bool.and_eq_true, zip_sizes _ _ hl]
        have : (pt.marks.zip pt.marks).all (fun p => tokMatch p.1 p.2) = true := by
          cases pt <;> decide
        simp [this, Accepts, Features.allows]
      · simp only [Accepts, hp, false_and, false_or]
        constructor
        · intro h
          exfalso
          cases pt <;> cases ps <;> cases l <;>
            simp_all [Scaling.marks, tokMatch, Tok.isInt]
        · rintro ⟨_, h⟩; simp at h
  | any k =>
    have hd2 : Tok.dots ∉ pt.marks ++ List.replicate k Tok.F := by
      rw [List.mem_append, not_or]
      exact ⟨by cases pt <;> simp [Scaling.marks], by simp [List.mem_replicate]⟩
    simp only [Features.toks, hd2, not_false_eq_true, true_and, false_and, if_false]
    by_cases hlen : (ps.marks ++ (a :: gs).map Tok.n).length ≠ (pt.marks ++ List.replicate k Tok.F).length
    · rw [if_pos hlen]
      simp only [Bool.false_eq_true, Accepts, Features.allows, false_iff]
      rintro (⟨rfl, rfl⟩ | ⟨_, h⟩)
      · simp at hlen
      · simp at h
    · rw [if_neg hlen]
      simp only [List.length_append, List.length_map, ne_eq, not_not, List.length_cons,
        List.length_replicate] at hlen
      by_cases hp : pt = ps
      · subst hp
        rw [List.zip_append rfl, List.all_append, Bool.and_eq_true, zip_any]
        have : (pt.marks.zip pt.marks).all (fun p => tokMatch p.1 p.2) = true := by
          cases pt <;> decide
        simp only [this, Accepts, Features.allows]
        simp
        omega
      · simp only [Accepts, hp, false_and, false_or]
        constructor
        · intro h
          exfalso
          cases pt <;> cases ps <;> cases k <;>
            simp_all [Scaling.marks, tokMatch, Tok.isInt, List.replicate_succ]
        · rintro ⟨_, h⟩; simp at h
  | wild =>
    simp only [Features.toks]
    have hd2 : Tok.dots ∈ pt.marks ++ [Tok.dots] := by simp
    simp only [hd2, not_true_eq_false, true_and, false_and, if_false]
    cases pt <;> cases ps <;> cases gs <;>
      simp [Scaling.marks, tokMatch, Accepts, Features.allows]

/-! ### C14: combined shapes -/

/-- A legal structure with scaling `p`, leading feature sizes `lead` and last
feature size `n`. -/
def IsShape (s : Struct) (p : Scaling) (lead : List Nat) (n : Nat) : Prop :=
  s.shape = shapeOf p (lead ++ [n])

theorem isShape_of_valid {s : Struct} (h : s.validate = .ok ()) : ∃ p lead n, IsShape s p lead n := by
  obtain ⟨p, fs, hne, hs, _⟩ := (C13_structures s).1 h
  refine ⟨p, fs.dropLast, fs.getLast hne, ?_⟩
  unfold IsShape
  rw [hs, List.dropLast_append_getLast]

theorem shape_bufferType {s : Struct} {p : Scaling} {fs : List Nat} (h : s.shape = shapeOf p fs) :
    s.bufferType = p.marks.length := by
  rw [Struct.bufferType, h]
  exact marks_typeOf p _ (not_mem_map_n rfl fs) (not_mem_map_n rfl fs)

theorem shape_featureShape {s : Struct} {p : Scaling} {fs : List Nat} (h : s.shape = shapeOf p fs) :
    s.featureShape = fs.map .n ∧ s.scalingShape = p.marks := by
  have hb := shape_bufferType h
  constructor
  · rw [Struct.featureShape, hb, h, shapeOf, List.drop_left]
  · rw [Struct.scalingShape, hb, h, shapeOf, List.take_left]

theorem IsShape.facts {s : Struct} {p : Scaling} {lead : List Nat} {n : Nat}
    (h : IsShape s p lead n) : s.bufferType = p.marks.length ∧ s.scalingShape = p.marks ∧
      s.featureShape.dropLast = lead.map .n ∧ (s.featureShape.getLastD (.n 0)).size = n ∧
      s.shape.length = p.marks.length + lead.length + 1 := by
  have h1 := shape_bufferType h
  obtain ⟨h2, h3⟩ := shape_featureShape h
  refine ⟨h1, h3, ?_, ?_, ?_⟩
  · rw [h2]; simp
  · rw [h2]; simp [Tok.size]
  · rw [h, shapeOf]; simp; omega

theorem marks_length_inj {p q : Scaling} (h : p.marks.length = q.marks.length) : p = q := by
  cases p <;> cases q <;> simp_all [Scaling.marks]

/-- **C14 (shape).** Legal structures that agree on scaling and leading feature
sizes combine to the structure with the summed last feature size. -/
theorem C14_combine (l : List (Struct × Nat)) (hne : l ≠ []) (p : Scaling) (lead : List Nat)
    (h : ∀ e ∈ l, IsShape e.1 p lead e.2) :
    combine (l.map Prod.fst) = .ok ⟨shapeOf p (lead ++ [(l.map Prod.snd).sum]), 0, false⟩ := by
  obtain ⟨e, l', rfl⟩ := List.exists_cons_of_ne_nil hne
  have he := (h e (by simp)).facts
  have hsum : ((e :: l').map (fun e => (e.1.featureShape.getLastD (.n 0)).size)) =
      (e :: l').map Prod.snd := by
    apply List.map_congr_left
    intro x hx
    exact (h x hx).facts.2.2.2.1
  have hall : ∀ (P : Struct → Bool), (∀ x ∈ e :: l', P x.1 = true) →
      ((e :: l').map Prod.fst).all P = true := by
    intro P hP
    rw [List.all_eq_true]
    intro s hs
    obtain ⟨x, hx, rfl⟩ := List.mem_map.1 hs
    exact hP x hx
  simp only [List.map_cons, combine]
  rw [← List.map_cons (f := Prod.fst)]
  have a1 := hall (fun s => s.shape.length = e.1.shape.length) (fun x hx => by
    simp [(h x hx).facts.2.2.2.2, he.2.2.2.2])
  have a2 := hall (fun s => s.bufferType = e.1.bufferType) (fun x hx => by
    simp [(h x hx).facts.1, he.1])
  have a3 := hall (fun s => s.featureShape.dropLast = e.1.featureShape.dropLast) (fun x hx => by
    simp [(h x hx).facts.2.2.1, he.2.2.1])
  have hm : ((e :: l').map Prod.fst).map (fun s => (s.featureShape.getLastD (.n 0)).size) =
      (e :: l').map Prod.snd := by rw [List.map_map, ← hsum]; rfl
  rw [if_neg (by rw [a1]; simp), if_neg (by rw [a2]; simp), if_neg (by rw [a3]; simp)]
  have hm' := congrArg List.sum hm
  simp only [List.map_cons] at hm' ⊢
  rw [hm', he.2.1, he.2.2.1]
  simp [shapeOf]

/-- **C14 (rejection).** Combining legal structures that disagree on scaling or
leading feature sizes fails. -/
theorem C14_reject (l : List Struct) (hvalid : ∀ s ∈ l, s.validate = .ok ()) (r : Struct)
    (h : combine l = .ok r) :
    ∃ (p : Scaling) (lead : List Nat), ∀ s ∈ l, ∃ n, IsShape s p lead n := by
  cases l with
  | nil => exact ⟨.none, [], by simp⟩
  | cons e l' =>
    obtain ⟨p, lead, n, he⟩ := isShape_of_valid (hvalid e (by simp))
    refine ⟨p, lead, ?_⟩
    simp only [combine] at h
    split_ifs at h with h1 h2 h3
    have h2' : ((e :: l').all (fun s => s.bufferType = e.bufferType)) = true := by simpa using h2
    have h3' : ((e :: l').all (fun s => s.featureShape.dropLast = e.featureShape.dropLast)) = true := by
      simpa using h3
    rw [List.all_eq_true] at h2' h3'
    intro s hs
    obtain ⟨q, lead', n', hs'⟩ := isShape_of_valid (hvalid s hs)
    have e2 := h2' s hs
    have e3 := h3' s hs
    simp only [decide_eq_true_eq] at e2 e3
    rw [hs'.facts.1, he.facts.1] at e2
    rw [hs'.facts.2.2.1, he.facts.2.2.1, map_n_inj] at e3
    cases marks_length_inj e2
    subst e3
    exact ⟨n', hs'⟩

/-- **C14 (order).** The combined structure does not depend on the order of the
(legal) structures. -/
theorem C14_order (l l' : List Struct) (hp : l.Perm l') (hvalid : ∀ s ∈ l, s.validate = .ok ())
    (r : Struct) (h : combine l = .ok r) : combine l' = .ok r := by
  obtain ⟨p, lead, hs⟩ := C14_reject l hvalid r h
  have hex : ∀ m : List Struct, (∀ s ∈ m, ∃ n, IsShape s p lead n) →
      ∃ k : List (Struct × Nat), k.map Prod.fst = m ∧ (∀ e ∈ k, IsShape e.1 p lead e.2) ∧
        k.map Prod.snd = m.map (fun s => (s.featureShape.getLastD (.n 0)).size) := by
    intro m
    induction m with
    | nil => intro _; exact ⟨[], rfl, by simp, rfl⟩
    | cons s m ih =>
      intro hm
      obtain ⟨k, hk1, hk2, hk3⟩ := ih (fun s' h' => hm s' (by simp [h']))
      obtain ⟨n, hn⟩ := hm s (by simp)
      refine ⟨(s, n) :: k, by simp [hk1], ?_, by
        rw [List.map_cons, List.map_cons, hk3, hn.facts.2.2.2.1]⟩
      intro e he
      rcases List.mem_cons.1 he with rfl | he
      · exact hn
      · exact hk2 e he
  by_cases hne : l = []
  · subst hne
    have : l' = [] := by simpa using hp
    subst this
    exact h
  · have hne' : l' ≠ [] := by
      rintro rfl
      exact hne (by simpa using hp)
    obtain ⟨k, hk1, hk2, hk3⟩ := hex l hs
    obtain ⟨k', hk1', hk2', hk3'⟩ := hex l' (fun s h' => hs s (hp.mem_iff.2 h'))
    have r1 := C14_combine k (by rintro rfl; exact hne hk1.symm) p lead hk2
    have r2 := C14_combine k' (by rintro rfl; exact hne' hk1'.symm) p lead hk2'
    rw [hk1] at r1
    rw [hk1'] at r2
    rw [h] at r1
    rw [r2, r1]
    have : (k'.map Prod.snd).sum = (k.map Prod.snd).sum := by
      rw [hk3, hk3']
      exact (hp.symm.map _).sum_eq
    rw [this]

/-- **C14 (memory, flat features).** With a single leading position (plain
feature vectors) the combined view is the concatenation of the sources. -/
theorem C14_memory_vectors_partial {α : Type} (srcs : List (List (List α))) (w : Nat)
    (hone : ∀ s ∈ srcs, s.length = 1) (hw : (concatRow srcs 0).length = w) :
    viewRow (hubRow srcs) w 0 = concatRow srcs 0 := by
  have : hubRow srcs = concatRow srcs 0 := by
    unfold hubRow concatRow
    congr 1
    apply List.map_congr_left
    intro s hs
    obtain ⟨a, rfl⟩ := List.length_eq_one_iff.1 (hone s hs)
    simp
  rw [this, viewRow, ← hw]
  simp

/-- **C14 (memory, one source).** A single source is seen as it is. -/
theorem C14_memory_single_partial {α : Type} (s : List (List α)) (w : Nat) (hw : ∀ row ∈ s, row.length = w)
    (r : Nat) (hr : r < s.length) : viewRow (hubRow [s]) w r = concatRow [s] r := by
  have key : ∀ (s : List (List α)) (r : Nat), (∀ row ∈ s, row.length = w) → r < s.length →
      (s.flatten.drop (r * w)).take w = s.getD r [] := by
    intro s
    induction s with
    | nil => intro r _ h; simp at h
    | cons a s ih =>
      intro r hs hr
      have ha := hs a (by simp)
      cases r with
      | zero => simp [← ha]
      | succ r =>
        have := ih r (fun x hx => hs x (by simp [hx])) (by simpa using hr)
        rw [List.flatten_cons, List.drop_append, List.drop_eq_nil_of_le (by rw [ha, Nat.succ_mul]; omega), List.nil_append, ha,
          show (r + 1) * w - w = r * w by rw [Nat.succ_mul]; omega, this]
        simp
  simpa [hubRow, concatRow, viewRow] using key s r hw hr

/-- **C14 (memory, images: the promise fails).** As soon as there are two
sources with at least two leading positions, the first row of the combined view
is not the concatenation of the first rows: sources filled with different
constants show it, for all sizes. -/
theorem C14_memory_not_concat {α : Type} (x y : α) (hxy : x ≠ y) (L n₁ n₂ : Nat) (hL : 2 ≤ L)
    (h₁ : 1 ≤ n₁) (h₂ : 1 ≤ n₂) :
    let srcs := [List.replicate L (List.replicate n₁ x), List.replicate L (List.replicate n₂ y)]
    viewRow (hubRow srcs) (n₁ + n₂) 0 ≠ concatRow srcs 0 := by
  intro srcs h
  have e1 : (concatRow srcs 0)[n₁]? = some y := by
    simp only [srcs, concatRow, List.map_cons, List.map_nil, List.flatten_cons, List.flatten_nil,
      List.append_nil, List.getD_eq_getElem?_getD, List.getElem?_replicate]
    rw [if_pos (by omega), if_pos (by omega)]
    simp [show 0 < n₂ by omega]
  have e2 : (viewRow (hubRow srcs) (n₁ + n₂) 0)[n₁]? = some x := by
    have hf : ∀ (L n : Nat) (x : α), (List.replicate L (List.replicate n x)).flatten =
        List.replicate (L * n) x := by intro L n x; simp
    simp only [srcs, viewRow, hubRow, List.map_cons, List.map_nil, List.flatten_cons,
      List.flatten_nil, List.append_nil, hf, Nat.zero_mul, List.drop_zero]
    have hlt : n₁ < L * n₁ := by
      calc n₁ < 2 * n₁ := by omega
        _ ≤ L * n₁ := Nat.mul_le_mul_right _ hL
    rw [List.getElem?_take, if_pos (by omega), List.getElem?_append_left (by simpa using hlt),
      List.getElem?_replicate, if_pos hlt]
  rw [h, e1] at e2
  exact hxy (Option.some.inj e2).symm

/-! ### Non-vacuity -/

example : (Struct.mk [.T, .B, .n 4, .n 3] 1 false).validate = .ok () := by decide
example : (Template.mk [.T, .B, .F, .F] 0).validate = .ok () ∧
    (Template.mk [.T, .B, .F, .F] 0).matches ⟨[.T, .B, .n 4, .n 3], 1, false⟩ = true := by decide
example : (Template.mk [.dots] 0).matches ⟨[.T, .B, .n 4, .n 3], 1, false⟩ = true ∧
    (Template.mk [.B, .dots] 0).matches ⟨[.T, .B, .n 4, .n 3], 1, false⟩ = false := by decide
example : combine [⟨[.T, .B, .n 4, .n 3], 1, false⟩, ⟨[.T, .B, .n 4, .n 2], 0, false⟩] =
    .ok ⟨[.T, .B, .n 4, .n 5], 0, false⟩ := by decide
example : combine [⟨[.T, .B, .n 4, .n 3], 1, false⟩, ⟨[.B, .n 3], 0, false⟩] = .error .value ∧
    combine [⟨[.T, .B, .n 4], 1, false⟩, ⟨[.n 4, .n 5, .n 3], 0, false⟩] = .error .validation := by
  decide
/-- Two 2x1 images: memory `[0, 0, 1, 1]`, so the first row reads `[0, 0]`. -/
example : viewRow (hubRow [[[0], [0]], [[1], [1]]]) 2 0 = [0, 0] ∧
    concatRow [[[0], [0]], [[1], [1]]] 0 = [0, 1] := by decide

end Verif.Structure
