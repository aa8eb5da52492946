import Verif.Model.SplineCurve

/-!
# `frm/term_structures/zero_curve.py`: what the constructor does to the table it is given

`_process_pillar_df` adds columns to the caller's own `DataFrame` before it makes a copy (`sort_values`, line 86).
-/

namespace Frm

set_option autoImplicit false

/-- The columns `days` and `years` added to the caller's table from its dates (`zero_curve.py:64-67`). -/
noncomputable def addTimeColumns (basis : DayCountBasis) (curveDate : Int) (c : PillarColumns) (dates : List Int) : PillarColumns :=
  let c := { c with days := some (dates.map (fun d => d - curveDate)) }
  match yearFrac [curveDate] dates basis none with
  | .error _ => c
  | .ok ys => { c with years := some (ys.map (fun (y : Rat) => (y : ℝ))) }

/-- The caller's table after `ZeroCurve(pillar_df=...)` has returned or raised (`zero_curve.py:36-86`). -/
noncomputable def tableAfter (curveDate : Int) (c : PillarColumns) (freq : Option CompoundingFreq) (basis : DayCountBasis)
    (cal : BusCal) : PillarColumns :=
  if freq = none ∧ c.zeroRate.isSome then c
  else match chooseColumns c with
    | .error _ => c
    | .ok (x, _) =>
      match x with
      | .tenor l =>
        let c := { c with tenor := some (l.map cleanTenor) }
        match l.mapM (tenorPillarDate cal curveDate) with
        | .error _ => c
        | .ok dates => addTimeColumns basis curveDate { c with date := some dates } dates
      | .date dates => addTimeColumns basis curveDate c dates
      | .days _ => c
      | .years _ => c

/-- The methods of interpolation (`frm/enums/utils.py:12-15`). -/
inductive CurveMethod where
  | linear
  | spline (m : SplineMethod)
deriving DecidableEq, Repr

/-- A curve of any method.  For `frm/term_structures/zero_curve.py:16-42`. -/
inductive AnyCurve where
  | linear (z : ZeroCurve)
  | spline (z : SplineCurve)

/-- `ZeroCurve(...)` for any method (`zero_curve.py:33-42`). -/
noncomputable def makeCurve (spl : List (ℝ × ℝ) → ℝ → ℝ) (curveDate : Int) (c : PillarColumns) (freq : Option CompoundingFreq)
    (basis : DayCountBasis) (cal : BusCal) (m : CurveMethod) : Except Err AnyCurve :=
  match m with
  | .linear => (makeZeroCurve curveDate c freq basis cal).map .linear
  | .spline m => (makeSplineCurve spl curveDate c freq basis cal m).map .spline

end Frm
