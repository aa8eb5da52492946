import Verif.Model.Err
import Mathlib.Analysis.SpecialFunctions.Pow.Real
import Mathlib.Analysis.Complex.Basic

/-!
# `frm/pricing_engine/sabr.py`

Floats are exact reals; `none` is `nan`.  `np.roots` and `scipy.optimize.minimize` are parameters.
-/

namespace Frm
open Classical

set_option autoImplicit false

/-- The parameters of one smile and one strike (the columns of `calc_sln_vol_for_strike_from_sabr_params`, `sabr.py:13-21`). -/
structure SabrRow where
  tau : ℝ
  F : ℝ
  alpha : ℝ
  beta : ℝ
  rho : ℝ
  volvol : ℝ
  K : ℝ

/-- The time factor of (2.17) (`sabr.py:117-121`) for a shifted forward `F` and strike `K`. -/
noncomputable def sabrTimeFactor (tau F K a b r v : ℝ) : ℝ :=
  1 + ((1 - b) ^ 2 / 24 * (a ^ 2 / (F * K) ^ (1 - b)) + 0.25 * r * b * v * a / (F * K) ^ ((1 - b) / 2) + (2 - 3 * r ^ 2) * v ^ 2 / 24) * tau

/-- (2.18), at the money (`sabr.py:93-99`). -/
noncomputable def sabrAtm (tau F K a b r v : ℝ) : ℝ := 
  a / (F * K) ^ ((1 - b) / 2) *
    (1 + ((1 - b) ^ 2 / 24 * a ^ 2 / (F * K) ^ (1 - b) + 0.25 * r * b * v * a / (F * K) ^ ((1 - b) / 2) + (2 - 3 * r ^ 2) * v ^ 2 / 24) * tau)

/-- `z` of (2.17b) (`sabr.py:103`). -/
noncomputable def sabrZ (F K a b v : ℝ) : ℝ := v / a * (F * K) ^ ((1 - b) / 2) * Real.log (F / K)

/-- The argument of the logarithm in (2.17c) (`sabr.py:107`). -/
noncomputable def sabrXArg (r z : ℝ) : ℝ := (Real.sqrt (1 - 2 * r * z + z ^ 2) + z - r) / (1 - r)

/-- `z / x(z)` (`sabr.py:105-110`): `nan` when the square root or the logarithm is undefined or `x(z)` is zero together with `z`; a zero
argument makes `x(z)` minus infinity and the ratio zero.  A correlation of one divides by zero: a positive numerator makes `x(z)`
infinite and the ratio zero, zero over zero is `nan`. -/
noncomputable def sabrRatio (r z : ℝ) : Option ℝ :=
  if 1 - 2 * r * z + z ^ 2 < 0 then none
  else if r = 1 then (if 0 < Real.sqrt (1 - 2 * r * z + z ^ 2) + z - r then some 0 else none)
  else if sabrXArg r z < 0 then none
  else if sabrXArg r z = 0 then some 0
  else if Real.log (sabrXArg r z) = 0 then none
  else some (z / Real.log (sabrXArg r z))

/-- (2.17a) (`sabr.py:109-123`). -/
noncomputable def sabrOff (tau F K a b r v : ℝ) : Option ℝ :=
  if a = 0 then none
  else (sabrRatio r (sabrZ F K a b v)).map (fun q =>
    a * q / ((F * K) ^ ((1 - b) / 2) * (1 + (1 - b) ^ 2 / 24 * Real.log (F / K) ^ 2 + (1 - b) ^ 4 / 1920 * Real.log (F / K) ^ 4))
      * sabrTimeFactor tau F K a b r v)

/-- One element of `calc_sln_vol_for_strike_from_sabr_params` (`sabr.py:78-123`).  Where the shifted forward and strike are not of
one sign the logarithm is undefined or infinite and the result `nan`. -/
noncomputable def sabrVol (shift : ℝ) (x : SabrRow) : Option ℝ :=
  let F := x.F + shift
  let K := x.K + shift
  if 0 < F * K then
    if |Real.log (F / K)| < 1e-06 then some (sabrAtm x.tau F K x.alpha x.beta x.rho x.volvol)
    else sabrOff x.tau F K x.alpha x.beta x.rho x.volvol
  else none

/-- The parameters of one smile: tau, F, alpha, beta, rho, volvol (`sabr.py:13-19`). -/
abbrev SabrSmile := ℝ × ℝ × ℝ × ℝ × ℝ × ℝ

/-- A smile and a strike (`sabr.py:13-20`). -/
def sabrRow (s : SabrSmile) (K : ℝ) : SabrRow := ⟨s.1, s.2.1, s.2.2.1, s.2.2.2.1, s.2.2.2.2.1, s.2.2.2.2.2, K⟩

/-- `calc_sln_vol_for_strike_from_sabr_params` (`sabr.py:13-128`) with its shape checks (`sabr.py:60-75`).  The equal lengths of the six
parameter arrays are part of the type.  Strikes and smiles broadcast against each other (numpy).  Not modelled: that a result of size one
is returned as a scalar. -/
noncomputable def calcSabrVols (smiles : List SabrSmile) (strikes : List ℝ) (shift : ℝ) : Except Err (List (Option ℝ)) :=
  if 1 < strikes.length ∧ ¬ (smiles.length = strikes.length ∨ smiles.length = 1) then .error .assertion
  else if smiles.length = strikes.length then .ok (List.zipWith (fun s k => sabrVol shift (sabrRow s k)) smiles strikes)
  else match smiles, strikes with
    | _, [k] => .ok (smiles.map (fun s => sabrVol shift (sabrRow s k)))
    | [s], _ => .ok (strikes.map (fun k => sabrVol shift (sabrRow s k)))
    | _, _ => .error .value

/-- The cubic in alpha, highest power first (`sabr.py:174-178`), `F` being the shifted forward. -/
noncomputable def sabrCubic (tau F b r v vol : ℝ) : List ℝ :=
  [(1 / 24) * (1 - b) ^ 2 * tau / F ^ (2 - 2 * b), (1 / 4) * r * b * v * tau / F ^ (1 - b), 1 + (2 - 3 * r ^ 2) * v ^ 2 * tau / 24,
    -vol * F ^ (1 - b)]

/-- `xs[np.argmin(np.abs(xs - g))]` (`sabr.py:185-186`): the first of the closest elements; `none` when there is none. -/
noncomputable def nearestTo (g : ℝ) : List ℝ → Option ℝ
  | [] => none
  | x :: xs =>
    match nearestTo g xs with
    | none => some x
    | some y => if |y - g| < |x - g| then some y else some x

/-- `solve_alpha_from_sln_vol` (`sabr.py:131-186`).  `roots` is `np.roots`; `np.argmin` of an empty array raises `ValueError`.
The result means nothing for a shifted forward that is not positive, whose powers are complex numbers or `nan` in Python. -/
noncomputable def solveAlpha (roots : List ℝ → List ℂ) (tau F beta rho volvol vol shift : ℝ) : Except Err ℝ :=
  let real := ((roots (sabrCubic tau (F + shift) beta rho volvol vol)).filter (fun z => z.im = 0)).map Complex.re
  match nearestTo (vol * (F + shift) ^ (1 - beta)) real with
  | none => .error .value
  | some a => .ok a

/-- `np.isclose(K, F)` with its default tolerances (`sabr.py:237`). -/
noncomputable def isClose (a b : ℝ) : Bool := decide (|a - b| ≤ 1e-8 + 1e-5 * |b|)

/-- What `fit_sabr_params_to_sln_smile` returns: alpha, beta, rho, volvol (`sabr.py:252-254`). -/
structure SabrFit where
  alpha : ℝ
  beta : ℝ
  rho : ℝ
  volvol : ℝ

/-- `vol_sse` (`sabr.py:225-234`) for the parameters beta, rho, volvol; `none` is `nan`. -/
noncomputable def sabrSse (roots : List ℝ → List ℂ) (tau F : ℝ) (quotes : List (ℝ × ℝ)) (shift volAtm : ℝ) (b r v : ℝ) : Except Err (Option ℝ) :=
  match solveAlpha roots tau F b r v volAtm shift with
  | .error e => .error e
  | .ok a => .ok ((quotes.map (fun q => (sabrVol shift ⟨tau, F, a, b, r, v, q.1⟩).map (fun s => (q.2 - s) ^ 2))).foldr
      (fun t acc => match t, acc with | some t, some acc => some (t + acc) | _, _ => none) (some 0))

/-- `scipy.optimize.minimize(fun, x0, bounds=bounds)` (`sabr.py:249`, `frm/term_structures/optionlet.py:486-489`): from a starting point,
a lower and perhaps an upper bound for each parameter and a function it ends with a success flag and a point, or with an exception raised
by the function. -/
abbrev BoxMinimiser := List ℝ → List (ℝ × Option ℝ) → (List ℝ → Except Err (Option ℝ)) → Except Err (Bool × List ℝ)

/-- `x0` (`sabr.py:247`, `frm/term_structures/optionlet.py:484`). -/
def sabrStart (betaOverride : Option ℝ) : List ℝ := if betaOverride.isSome then [0.00, 0.10] else [0.0, 0.0, 0.1]

/-- `bounds` (`sabr.py:248`, `frm/term_structures/optionlet.py:485`). -/
def sabrBox (betaOverride : Option ℝ) : List (ℝ × Option ℝ) :=
  if betaOverride.isSome then [(-1.0, some 1.0), (0.0001, none)] else [(-1.0, some 1.0), (-1.0, some 1.0), (0.0001, none)]

/-- Beta, rho and volvol from `param` (`sabr.py:226-230`, 252, `frm/term_structures/optionlet.py:397-401`, 491); unpacking another number
of values raises `ValueError`. -/
def sabrUnpack (betaOverride : Option ℝ) (param : List ℝ) : Except Err (ℝ × ℝ × ℝ) :=
  match betaOverride, param with
  | none, [b, r, v] => .ok (b, r, v)
  | some b, [r, v] => .ok (b, r, v)
  | _, _ => .error .value

/-- `fit_sabr_params_to_sln_smile` (`sabr.py:189-257`).  `quotes` are the strikes with their volatilities. -/
noncomputable def fitSabr (roots : List ℝ → List ℂ) (minimise : BoxMinimiser) (tau F : ℝ) (quotes : List (ℝ × ℝ)) (shift : ℝ) (betaOverride : Option ℝ) : Except Err SabrFit :=
  match quotes.filter (fun q => isClose q.1 F) with
  | [q] =>
    match minimise (sabrStart betaOverride) (sabrBox betaOverride)
        (fun x => (sabrUnpack betaOverride x).bind (fun p => sabrSse roots tau F quotes shift q.2 p.1 p.2.1 p.2.2)) with
    | .error e => .error e
    | .ok (false, _) => .error .value
    | .ok (true, x) =>
      (sabrUnpack betaOverride x).bind (fun p =>
        (solveAlpha roots tau F p.1 p.2.1 p.2.2 q.2 shift).map (fun a => ⟨a, p.1, p.2.1, p.2.2⟩))
  | _ => .error .value

end Frm
