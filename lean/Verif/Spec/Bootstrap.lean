import Verif.Model.Bootstrap

/-!
# Specification vocabulary for the bootstrap helpers
-/

namespace Frm.Spec

set_option autoImplicit false

/-- A sort of the rows on an integer (date) column, in no particular order for equal dates. -/
def SortsOn {α : Type} (key : α → Int) (sort : List α → List α) : Prop :=
  ∀ l, (sort l).Perm l ∧ (sort l).Pairwise (fun a b => key a ≤ key b)

/-- `y` is the value at `x` of the broken line through the points `knots`, continued straight beyond its ends: there are
two consecutive points (in order of abscissa), enclosing `x` unless they are at the corresponding end, on whose line
`(x, y)` lies. -/
def OnBrokenLine (knots : List (ℝ × ℝ)) (x y : ℝ) : Prop :=
  ∃ pre p q post, (pre ++ p :: q :: post).Perm knots ∧ (pre ++ p :: q :: post).Pairwise (fun a b => a.1 ≤ b.1) ∧
    p.1 < q.1 ∧ (pre = [] ∨ p.1 < x) ∧ (post = [] ∨ x ≤ q.1) ∧ (y - p.2) * (q.1 - p.1) = (q.2 - p.2) * (x - p.1)

/-- Contracts bootstrapped one after the other on the known points `K` (time, discount factor): the factor at the
effective date lies on the broken line through the logarithms of the points known before, the contract's forward rate
connects it to the factor at maturity, and that point is known afterwards. -/
inductive FuturesChain : List (ℝ × ℝ) → List FuturesRow → Prop
  | nil (K : List (ℝ × ℝ)) : FuturesChain K []
  | cons (K : List (ℝ × ℝ)) (o : FuturesRow) (os : List FuturesRow) (u v : ℝ) (hu : 0 < u) (hv : 0 < v)
      (he : o.effectiveDf = some u) (hm : o.maturityDf = some v)
      (hline : OnBrokenLine (K.map (fun p => (p.1, Real.log p.2))) o.effectiveYears (Real.log u))
      (hrate : u / v = 1 + o.forwardRate * o.periodYears) (hrest : FuturesChain (K ++ [(o.maturityYears, v)]) os) :
      FuturesChain K (o :: os)

end Frm.Spec
