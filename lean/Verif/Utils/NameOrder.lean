import Verif.Utils.Names
import Verif.Base.Lex

/-! Order of Python strings: lexicographic by code point. -/

namespace Verif

/-- `<=` on code points. -/
def charLe (a b : Char) : Bool := decide (a.toNat ≤ b.toNat)

/-- Python's `<=` on `str`. -/
def nameLe : Name → Name → Bool := lexLe charLe

theorem charLe_linear : IsLinear charLe where
  total := by intro a b; simp only [charLe, decide_eq_true_eq]; omega
  trans := by intro a b c; simp only [charLe, decide_eq_true_eq]; omega
  antisymm := by
    intro a b h1 h2
    simp only [charLe, decide_eq_true_eq] at h1 h2
    exact Char.toNat_inj.1 (by omega)

theorem nameLe_linear : IsLinear nameLe := charLe_linear.lex

end Verif
