import Verif.NetSpec.Legal
import Verif.Instantiate.Complete
import Verif.Setup.Lemmas

/-!
# Shapes in networks from a spec line
-/

namespace Verif.NetSpec

open Verif.Structure Verif.Setup Verif.Instantiate Verif.Architecture Verif.Construction

/-! ## Specification -/

/-- Data of feature shape `f` for every time step and sequence. -/
def st (f : List Nat) : Struct := ⟨tb f, 0, false⟩

/-- How often a window of width `k` fits into `n` cells with `p` cells of padding on both sides, `s` cells apart. -/
def windows (n k p s : Nat) : Nat := (n + 2 * p - k) / s + 1

/-- The shape of what a layer makes of data of shape `f`, or none if it cannot be applied. -/
def Doc.outShape (d : Doc) (f : List Nat) : Option (List Nat) :=
  match d with
  | .fullyConnected _ n => some [n]
  | .recurrent _ n => some [n]
  | .lstm _ n => some [n]
  | .batchNorm => some f
  | .dropout _ => some f
  | .convolution _ filters k l => match f with
    | [h, w, _] => if strideOf l ≠ 0 ∧ k ≤ h + 2 * paddingOf l ∧ k ≤ w + 2 * paddingOf l then
        some [windows h k (paddingOf l) (strideOf l), windows w k (paddingOf l) (strideOf l), filters] else none
    | _ => none
  | .pooling _ k l => match f with
    | [h, w, c] => if strideOf l ≠ 0 ∧ k ≤ h + 2 * paddingOf l ∧ k ≤ w + 2 * paddingOf l then
        some [windows h k (paddingOf l) (strideOf l), windows w k (paddingOf l) (strideOf l), c] else none
    | _ => none

/-- The shape behind a row of layers. -/
def flow : List Nat → List Doc → Option (List Nat)
  | f, [] => some f
  | f, d :: ds => (d.outShape f).bind (fun g => flow g ds)

/-- The value of a keyword argument as the layer sees it. -/
def toK : Arg → KVal
  | .int z => if 0 ≤ z then .int z.toNat else .other
  | .pair a b => .ints [a.toNat, b.toNat]
  | .ints l => .ints l
  | .num q => .num q
  | .string s => .string s
  | .shapes l => if h : (l.map Prod.fst).Nodup ∧ ∀ e ∈ l, e.1 ≠ [] ∧ '.' ∉ e.1 ∧ '@' ∉ e.1 then .shapes ⟨l, h.1, h.2⟩ else .other

/-- The keyword arguments of a layer. -/
def Made.kw (m : Made) : Kwargs := m.kwargs.map (fun e => (e.1, toK e.2))

/-! ## Structures -/

theorem typeOf_tb (f : List Nat) : typeOf (tb f) = 2 := by simp [typeOf, tb]

theorem typeOf_ints (f : List Nat) : typeOf (f.map Tok.n) = 0 := typeOf_nums f

theorem all_isInt (f : List Nat) : (f.map Tok.n).all Tok.isInt = true := by
  induction f with
  | nil => rfl
  | cons a f ih => simp [Tok.isInt]

theorem validate_tb (f : List Nat) (hf : f ≠ []) (c : Nat) (b : Bool) : (⟨tb f, c, b⟩ : Struct).validate = .ok () := by
  have hl : 0 < f.length := List.length_pos_iff.2 hf
  unfold Struct.validate Struct.bufferType Struct.featureShape Struct.bufferType
  rw [typeOf_tb]
  have h1 : tb f ≠ [] := by simp [tb]
  have h2 : .T ∈ tb f := by simp [tb]
  have h3 : (tb f).take 2 = [.T, .B] := by simp [tb]
  have h4 : ¬ (tb f).length ≤ 2 := by simp only [tb, List.length_cons, List.length_map]; omega
  have h5 : ((tb f).drop 2).all Tok.isInt = true := all_isInt f
  simp [h1, h2, h3, h4, h5]

theorem validate_ints (f : List Nat) (hf : f ≠ []) (b : Bool) : (⟨f.map Tok.n, 0, b⟩ : Struct).validate = .ok () := by
  have hl : 0 < f.length := List.length_pos_iff.2 hf
  unfold Struct.validate Struct.bufferType Struct.featureShape Struct.bufferType
  rw [typeOf_ints]
  have h4 : ¬ (f.map Tok.n).length ≤ 0 := by rw [List.length_map]; omega
  have h5 : ((f.map Tok.n).drop 0).all Tok.isInt = true := all_isInt f
  have h6 : Tok.T ∉ f.map Tok.n := by simp
  have h7 : Tok.B ∉ f.map Tok.n := by simp
  have h8 : f.map Tok.n ≠ [] := by simpa using hf
  simp only [h8, h6, h7, h4, h5, if_false, false_and, and_false, not_true, ne_eq]

theorem tb?_ok (f : List Nat) (hf : f ≠ []) (c : Nat) (b : Bool) : tb? (f.map Tok.n) c b = some ⟨tb f, c, b⟩ := by
  have : (⟨.T :: .B :: f.map Tok.n, c, b⟩ : Struct).validate = .ok () := validate_tb f hf c b
  rw [tb?, mk?, this]
  rfl

theorem mk?_ok (f : List Nat) (hf : f ≠ []) (b : Bool) : mk? (f.map Tok.n) 0 b = some ⟨f.map Tok.n, 0, b⟩ := by
  rw [mk?, validate_ints f hf b]

theorem featureShape_st (f : List Nat) (c : Nat) (b : Bool) : (⟨tb f, c, b⟩ : Struct).featureShape = f.map Tok.n := by
  rw [Struct.featureShape, Struct.bufferType, typeOf_tb]
  rfl

theorem inp_st {ins : Dict Name Struct} {k : Name} {f : List Nat} (hf : f ≠ []) (h : Dict.get? ins k = some (st f)) :
    inp ins k = some (st f) := by
  rw [inp, h]
  simp only [st, validate_tb f hf]

theorem matches_st (f : List Nat) (hf : f ≠ []) : anyTB.matches (st f) = true := by
  obtain ⟨a, r, rfl⟩ := List.exists_cons_of_ne_nil hf
  simp [anyTB, Template.matches, st, tb]

theorem anything_matches (f : List Nat) : anything.matches (st f) = true := by
  simp [anything, Template.matches, st, tb]

theorem combine_single (f : List Nat) (hf : f ≠ []) (c : Nat) (b : Bool) : combine [⟨tb f, c, b⟩] = .ok (st f) := by
  have h : List.map (fun s : Struct => (s.featureShape.getLastD (.n 0)).size) [⟨tb f, c, b⟩] = [f.getLastD 0] := by
    simp only [List.map_cons, List.map_nil, featureShape_st]
    congr 1
    rw [List.getLastD_eq_getLast?, List.getLast?_map, List.getLastD_eq_getLast?]
    cases f.getLast? <;> rfl
  unfold combine
  simp only [List.all_cons, List.all_nil, decide_true, Bool.and_true, not_true, if_false, h]
  congr 2
  rw [featureShape_st, Struct.scalingShape, Struct.bufferType, typeOf_tb]
  have hl : f.dropLast ++ [f.getLastD 0] = f := by
    rw [List.getLastD_eq_getLast?, List.getLast?_eq_getLast_of_ne_nil hf]
    exact List.dropLast_append_getLast hf
  show [Tok.T, Tok.B] ++ (f.map Tok.n).dropLast ++ [Tok.n ([f.getLastD 0].sum)] = tb f
  conv_rhs => rw [← hl]
  simp [tb, List.map_dropLast]

end Verif.NetSpec
