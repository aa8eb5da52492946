import Verif.Model.Hw1f
import Verif.Model.PillarTable

/-!
# `frm/pricing_engine/hw1f.py`: making a model from a curve, and setting up its drift

The constructor, `setup_theta`, `get_thetas` on arrays, `calc_error_for_theta_fit` and `fit_theta`.  FITPACK is the parameter `spl` of
`Verif/Model/SplineCurve.lean`.  The printed tables are not modelled.
-/

namespace Frm
open Classical

set_option autoImplicit false

/-- A `HullWhite1Factor` object (`hw1f.py:26-36`).  `r0` is `none` for `nan`; `theta` is `none` before `setup_theta`. -/
structure HwState where
  curve : SplineCurve
  alpha : ℝ
  vol : ℝ
  dt : ℝ
  num : Int
  r0 : Option ℝ
  theta : Option (ℝ → ℝ)

/-- `HullWhite1Factor(...)` (`hw1f.py:26-44`).  Line 44 subscripts the `float` returned by `get_zero_rates`: `TypeError`. -/
noncomputable def makeHullWhite (z : AnyCurve) (alpha vol dt : ℝ) (num : Int) : Except Err HwState :=
  match z with
  | .linear _ => .error .assertion
  | .spline z =>
    match z.base.pillars.map (·.years) with
    | [] => .error .type
    | y :: ys =>
      if ys.foldl min y = 0 then .ok ⟨z, alpha, vol, dt, num, (z.rates.head?).join, none⟩ else .error .type

/-- The model as the pricing functions see it (`Verif/Model/Hw1f.lean`); a `nan` initial rate is left out here.
For `frm/pricing_engine/hw1f.py:38-45`. -/
noncomputable def HwState.model (s : HwState) : HullWhite where
  discount := s.curve.discountFactorAt
  forward := fun t => (s.curve.instantaneousForward t).getD 0
  alpha := s.alpha
  vol := s.vol
  r0 := s.r0.getD 0

/-- An array of times: floats or integers (numpy).  For `frm/pricing_engine/hw1f.py:120-145`. -/
inductive TimesArray where
  | floats (l : List ℝ)
  | ints (l : List Int)

/-- `get_thetas` (`hw1f.py:120-141`) on an array.  `np.full_like` (line 140) gives the initial rate the type of the times.
Simplification: a `nan` initial rate is an error here. -/
noncomputable def getThetas (s : HwState) (years : TimesArray) : Except Err (List ℝ) :=
  if s.alpha = 0 then .error .zeroDiv
  else match s.r0 with
    | none => .error .runtime
    | some r0 =>
      let drift (t f : ℝ) : ℝ := s.alpha * f + (s.vol ^ 2 / (2 * s.alpha)) * (1 - Real.exp (-2 * s.alpha * t))
      match years with
      | .floats l => .ok (l.map (fun t => drift t r0))
      | .ints l => .ok (l.map (fun (t : Int) => drift t (pyIntReal r0)))

/-- `np.linspace(a, b, num, endpoint=False)` (`hw1f.py:113`). -/
noncomputable def linspaceOpen (a b : ℝ) (num : Nat) : List ℝ :=
  (List.range num).map (fun (j : Nat) => (j : ℝ) * ((b - a) / num) + a)

/-- The times between consecutive pillars (`hw1f.py:113-114`). -/
noncomputable def thetaTimes (num : Nat) : List ℝ → List (List ℝ)
  | a :: b :: rest => linspaceOpen a b num :: thetaTimes num (b :: rest)
  | _ => []

/-- The grid of `setup_theta` (`hw1f.py:106-115`): `ValueError` for a negative number of times, or from `np.concatenate` of nothing. -/
noncomputable def thetaGrid (years : List ℝ) (num : Int) : Except Err (List ℝ) :=
  if years.length ≤ 1 then .error .value
  else if num < 0 then .error .value
  else .ok (thetaTimes num.toNat years).flatten

/-- `setup_theta` (`hw1f.py:102-117`). -/
noncomputable def setupTheta (spl : List (ℝ × ℝ) → ℝ → ℝ) (s : HwState) (grid : Option (List ℝ)) (num : Option Int) :
    Except Err HwState := do
  let grid ← (match grid with
    | some g => .ok g
    | none => thetaGrid (s.curve.base.pillars.map (·.years)) (num.getD s.num))
  let thetas ← getThetas s (.floats grid)
  let theta ← splrep spl (grid.zip thetas)
  pure { s with theta := some theta }

/-- `calc_discount_factor_by_solving_ode_1` (`hw1f.py:440-484`) of an object: `AttributeError` before `setup_theta`. -/
noncomputable def HwState.discount1 (s : HwState) (t1 t2 : ℝ) (r : Option ℝ) : Except Err ℝ :=
  match s.theta with
  | some theta => hwDiscount1 s.model theta t1 t2 r
  | none => match hwDiscount1 s.model (fun _ => 0) t1 t2 r with
    | .error e => .error e
    | .ok _ => .error .attribute

/-- The recalculated zero rates (`hw1f.py:83`). -/
noncomputable def recalculated (s : HwState) (years : List ℝ) : Except Err (List (Option ℝ)) :=
  years.mapM (fun yr => (s.discount1 0 yr none).map (fun p => if yr = 0 then none else some (-1 * Real.log p / yr)))

/-- `calc_error_for_theta_fit` (`hw1f.py:78-99`): root of the mean of the squared differences in basis points; `none` is `nan`. -/
noncomputable def calcThetaError (s : HwState) : Except Err (Option ℝ) := do
  let recalcs ← recalculated s (s.curve.base.pillars.map (·.years))
  match ((s.curve.rates.zip recalcs).mapM (fun p => p.1.bind (fun a => p.2.map (fun b => (1e4 * (a - b)) ^ 2)))) with
  | none => pure none
  | some sq => pure (some (Real.sqrt (sq.sum / sq.length)))

/-- The loop of `fit_theta` (`hw1f.py:50-56`): the object afterwards, and the results or the exception. -/
noncomputable def fitLoop (spl : List (ℝ × ℝ) → ℝ → ℝ) : HwState → List (ℝ × Int) →
    HwState × Except Err (List (ℝ × Int × Option ℝ))
  | s, [] => (s, .ok [])
  | s, (dt, num) :: rest =>
    let s := { s with dt := dt, num := num }
    match setupTheta spl s none none with
    | .error e => (s, .error e)
    | .ok s =>
      match calcThetaError s with
      | .error e => (s, .error e)
      | .ok err =>
        match fitLoop spl s rest with
        | (s, .error e) => (s, .error e)
        | (s, .ok results) => (s, .ok ((dt, num, err) :: results))

/-- The order of `sorted(results, key=...)` (`hw1f.py:59`): `nan` is not less than anything. -/
def errorLe : ℝ × Int × Option ℝ → ℝ × Int × Option ℝ → Prop
  | (_, _, some a), (_, _, some b) => a ≤ b
  | _, _ => True

/-- `fit_theta` (`hw1f.py:47-75`): the object afterwards, and whether it raised. -/
noncomputable def fitTheta (spl : List (ℝ × ℝ) → ℝ → ℝ) (s : HwState) (dts : List ℝ) (nums : List Int) : HwState × Except Err Unit :=
  match fitLoop spl s (dts.flatMap (fun dt => nums.map (fun num => (dt, num)))) with
  | (s, .error e) => (s, .error e)
  | (s, .ok results) =>
    match results.insertionSort errorLe with
    | [] => (s, .error .index)
    | (dt, num, _) :: _ => ({ s with dt := dt, num := num }, .ok ())

end Frm
