import Verif.Model.ZeroCurve

/-! # Specification of log-linear interpolation -/

namespace Frm.Spec

set_option autoImplicit false

/-- `p` and `q` are neighbouring pillars (time, discount factor) of the list. -/
def Neighbours (l : List (ℝ × ℝ)) (p q : ℝ × ℝ) : Prop := ∃ pre post, l = pre ++ p :: q :: post

/-- Pillars as the curve needs them: increasing times and positive discount factors. -/
def GoodPillars (l : List (ℝ × ℝ)) : Prop := l.Pairwise (fun p q => p.1 < q.1) ∧ ∀ p ∈ l, 0 < p.2

/-- `v` is the discount factor at time `t` on the straight line, in logarithms, between `p` and `q`. -/
def LogLinear (p q : ℝ × ℝ) (t v : ℝ) : Prop :=
  0 < v ∧ Real.log v = Real.log p.2 + (Real.log q.2 - Real.log p.2) / (q.1 - p.1) * (t - p.1)

/-- The curve's pillars as points (time, discount factor). -/
def points (z : ZeroCurve) : List (ℝ × ℝ) := z.pillars.map (fun r => (r.years, r.discountFactor))

end Frm.Spec
