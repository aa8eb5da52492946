import Verif.Model.Sabr

/-!
# Calling the functions of `frm/pricing_engine/sabr.py`

The arguments are one-dimensional arrays; a number is an array of one element (`np.atleast_1d`, line 60).  The values of the elements
are those of `Verif.Model.Sabr`.
-/

namespace Frm
open Classical

set_option autoImplicit false

/-- The arguments of `calc_sln_vol_for_strike_from_sabr_params` after `np.atleast_1d` (`sabr.py:13-21`, 60).  `shift` is `none` when
`ln_shift` is `None`. -/
structure SabrArgs where
  tau : List ℝ
  F : List ℝ
  alpha : List ℝ
  beta : List ℝ
  rho : List ℝ
  volvol : List ℝ
  K : List ℝ
  shift : Option (List ℝ)

/-- The smiles of parameter arrays of equal length.  For `frm/pricing_engine/sabr.py:60-67`. -/
def SabrArgs.smiles (a : SabrArgs) : List SabrSmile :=
  a.tau.zip (a.F.zip (a.alpha.zip (a.beta.zip (a.rho.zip a.volvol))))

/-- What the function returns: a number when there is one element, otherwise an array (`sabr.py:125-128`).  `none` is `nan`. -/
inductive SabrOut where
  | number (x : Option ℝ)
  | array (l : List (Option ℝ))

/-- `σB.item()` or `σB` (`sabr.py:125-128`). -/
def sabrOut (l : List (Option ℝ)) : SabrOut :=
  match l with
  | [x] => .number x
  | l => .array l

/-- `calc_sln_vol_for_strike_from_sabr_params` (`sabr.py:13-128`): the assertions on the shapes (lines 66-75), then the volatilities. -/
noncomputable def sabrCall (a : SabrArgs) : Except Err SabrOut :=
  if ¬ (a.tau.length = a.F.length ∧ a.F.length = a.alpha.length ∧ a.alpha.length = a.beta.length ∧ a.beta.length = a.rho.length ∧
      a.rho.length = a.volvol.length) then .error .assertion
  else if 1 < a.K.length ∧ ¬ (a.tau.length = a.K.length ∨ a.tau.length = 1) then .error .assertion
  else match a.shift with
    | some [s] => (calcSabrVols a.smiles a.K s).map sabrOut
    | _ => .error .assertion

/-- `fit_sabr_params_to_sln_smile` (`sabr.py:189-257`) as it is called.  The mask `np.isclose(K, F)` must be as long as the volatilities
(line 237; numpy raises `IndexError`).  `ln_shift` is `None` unless it is given: `F + ln_shift` then raises `TypeError` (line 169), in the
function that is minimised and at its end. -/
noncomputable def fitSabrCall (roots : List ℝ → List ℂ) (minimise : BoxMinimiser) (tau F : ℝ) (K vols : List ℝ) (shift betaOverride : Option ℝ) :
    Except Err SabrFit :=
  if K.length ≠ vols.length then .error .index
  else match shift with
    | some s => fitSabr roots minimise tau F (K.zip vols) s betaOverride
    | none =>
      match (K.zip vols).filter (fun q => isClose q.1 F) with
      | [_] =>
        match minimise (sabrStart betaOverride) (sabrBox betaOverride)
            (fun x => (sabrUnpack betaOverride x).bind (fun _ => .error .type)) with
        | .error e => .error e
        | .ok (false, _) => .error .value
        | .ok (true, x) => (sabrUnpack betaOverride x).bind (fun _ => .error .type)
      | _ => .error .value

end Frm
