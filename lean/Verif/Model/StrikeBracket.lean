import Verif.Model.GarmanKohlhagen

/-!
# The bracketed searches for premium-adjusted strikes

`garman_kohlhagen_solve_strike_from_delta` (`frm/pricing_engine/garman_kohlhagen.py:300-338`) hands each premium-adjusted quote to
`root_scalar` with a bracket.  `Verif.Model.GarmanKohlhagen` takes the outcome of that search as a parameter; here the brackets
are those of the code and only `root_scalar` is a parameter.
-/

namespace Frm

set_option autoImplicit false

/-- The outcome of `root_scalar(f, bracket=[a, b])`, for which scipy chooses Brent's method: `ValueError` (values of the same sign,
or not numbers, at the ends), or a solution with its `converged` flag and root (used at `garman_kohlhagen.py:309-331`). -/
inductive BracketRun
  | raised
  | stopped (converged : Bool) (root : ℝ)

/-- `solve_k_lower_bound(K)` (`garman_kohlhagen.py:316-319`): zero at the strike with the largest premium-adjusted call delta.  It is
computed from the spot rate and the two interest rates, not from the forward `F`. -/
noncomputable def lowerBoundError (m : StrikeMarket) (q : DeltaQuote) (K : ℝ) : ℝ :=
  let d1 := (Real.log (m.S0 / K) + (m.rd - m.rf + 0.5 * q.vol ^ 2) * m.tau) / (q.vol * Real.sqrt m.tau)
  let d2 := d1 - q.vol * Real.sqrt m.tau
  q.vol * Real.sqrt m.tau * normCdf d2 - normPdf d2

/-- The search for one premium-adjusted strike (`garman_kohlhagen.py:300-338`).  `K_max` is the strike of the regular convention with
the default at-the-money convention (lines 300-305); where it is not a finite number the search is taken to raise `ValueError`.
Puts are searched for in `[0.000001, K_max]` (308-309); a search that does not converge raises `ValueError` (335-338).  Calls are searched for in
`[K_min, K_max]`, where `K_min` is searched for in `[0.00001, K_max]` (312-333).  A `ValueError` in either search for a call meets
`except ValueError(…)` (323, 332), an instance and not a class, which makes it a `TypeError`. -/
noncomputable def bracketedStrike (brent : (ℝ → ℝ) → ℝ × ℝ → BracketRun) (m : StrikeMarket) (spot : Bool) (f : ℝ → ℝ) (q : DeltaQuote) :
    Except Err ℝ :=
  match regularStrike m spot .forward q with
  | none => if q.delta < 0 then .error .value else .error .type
  | some Kmax =>
    if q.delta < 0 then
      match brent f (0.000001, Kmax) with
      | .raised => .error .value
      | .stopped false _ => .error .value
      | .stopped true K => .ok K
    else
      match brent (lowerBoundError m q) (0.00001, Kmax) with
      | .raised => .error .type
      | .stopped false _ => .error .value
      | .stopped true Kmin =>
        match brent f (Kmin, Kmax) with
        | .raised => .error .type
        | .stopped false _ => .error .value
        | .stopped true K => .ok K

/-- `garman_kohlhagen_solve_strike_from_delta` (`garman_kohlhagen.py:197-344`), with the brackets of the code. -/
noncomputable def gkBracketedStrikes (brent : (ℝ → ℝ) → ℝ × ℝ → BracketRun) (m : StrikeMarket) (conv : DeltaConvention)
    (atm : AtmConvention) (quotes : List DeltaQuote) : Except Err (List (Option ℝ)) :=
  gkStrikeFromDelta (bracketedStrike brent m (conv == .adjustedSpot)) m conv atm quotes

end Frm
