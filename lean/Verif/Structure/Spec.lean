import Verif.Structure.Model

/-! # What shapes and templates mean -/

namespace Verif.Structure

/-- Whether a buffer scales with nothing, the batch size, or time and batch
size, as the markers at the start of its shape. -/
inductive Scaling
  | none | batch | time
deriving DecidableEq, Repr

/-- The markers. -/
def Scaling.marks : Scaling → List Tok
  | .none => []
  | .batch => [.B]
  | .time => [.T, .B]

/-- The shape with the given scaling and feature sizes. -/
def shapeOf (p : Scaling) (fs : List Nat) : List Tok := p.marks ++ fs.map .n

/-- What a template says about the features: exact sizes, any `k` sizes, or any
sizes at all. -/
inductive Features
  | sizes (l : List Nat)
  | any (k : Nat)
  | wild
deriving DecidableEq, Repr

/-- How it is written. -/
def Features.toks : Features → List Tok
  | .sizes l => l.map .n
  | .any k => List.replicate k .F
  | .wild => [.dots]

/-- Which feature sizes it allows. -/
def Features.allows : Features → List Nat → Prop
  | .sizes l, fs => fs = l
  | .any k, fs => fs.length = k
  | .wild, _ => True

/-- Which structures a template with scaling `pt` and features `f` stands for.
A template that is only `'...'` leaves the scaling open as well. -/
def Accepts (pt : Scaling) (f : Features) (ps : Scaling) (fs : List Nat) : Prop :=
  (pt = ps ∧ f.allows fs) ∨ (pt = .none ∧ f = .wild)

/-- The memory of one hub row (one time step and sequence) fed by `srcs`: the
sources one after the other, each as its rows in C order (numpy reshape of its
block, layout.py:122-126 and buffer_structure.py:232-245).  A source is a list
of rows: one row per position in the leading feature dimensions, each row as
long as the last feature dimension. -/
def hubRow {α : Type} (srcs : List (List (List α))) : List α := (srcs.map List.flatten).flatten

/-- Row `r` of the combined view of width `w` onto that memory. -/
def viewRow {α : Type} (mem : List α) (w r : Nat) : List α := (mem.drop (r * w)).take w

/-- Row `r` of the concatenation of the sources along the last feature
dimension. -/
def concatRow {α : Type} (srcs : List (List (List α))) (r : Nat) : List α :=
  (srcs.map (fun s => s.getD r [])).flatten

end Verif.Structure
