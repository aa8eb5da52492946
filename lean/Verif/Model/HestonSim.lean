import Verif.Model.Heston
import Verif.Model.NpReal

/-!
# Simulation of the Heston model

`heston_simulate_scalar` and `heston_simulate` (`frm/pricing_engine/heston.py:719-944`).  Numbers are exact; `none` is `nan` and the only
infinities are those met inside a step.  Parameters are Python floats, so that a division of one by another that is zero raises.
-/

namespace Frm

set_option autoImplicit false

/-- `method` (`heston.py:739-743`): any other name beginning with `euler` is `eulerPlain`. -/
inductive HestonMethod
  | quadraticExponential
  | eulerAbsorption
  | eulerReflection
  | eulerPlain
  | other

/-- A two-dimensional array of floats that may be `nan` (`heston.py:773`). -/
structure NanGrid where
  rows : Nat
  cols : Nat
  get : Nat → Nat → Option ℝ

/-- `np.sqrt` of a real number (numpy; used at `heston.py:796`, 808, 819). -/
noncomputable def npSqrtReal (x : ℝ) : Option ℝ := if x < 0 then none else some (Real.sqrt x)

/-- `m` (`heston.py:783`, 885). -/
noncomputable def qeMean (h : Heston) (dt v : ℝ) : ℝ := h.theta + (v - h.theta) * Real.exp (-h.kappa * dt)

/-- `s2` (`heston.py:784-785`, 886-887). -/
noncomputable def qeVariance (h : Heston) (dt v : ℝ) : ℝ :=
  v * h.vv ^ 2 * Real.exp (-h.kappa * dt) / h.kappa * (1 - Real.exp (-h.kappa * dt)) +
    h.theta * h.vv ^ 2 / (2 * h.kappa) * (1 - Real.exp (-h.kappa * dt)) ^ 2

/-- The next variance of the quadratic-exponential scheme (`heston.py:783-805`, 885-918).

* If the variance is `nan`, so is `phi`; no mask holds and the next variance keeps its initial value zero.
* If the mean is zero and `s2` is not negative, `phi` is `nan` or infinite, hence `p` is `nan` and the same happens.
* If the mean is zero and `s2` negative, `phi` is minus infinity, `b2` is minus one and `a` is zero divided by zero.
* If the mean is not zero and `s2` is, `2 / phi` and `b2` are infinite, `a` is zero and the product of the two is `nan`. -/
noncomputable def qeVarianceStep (h : Heston) (dt : ℝ) (v : Option ℝ) (z : ℝ) : Option ℝ :=
  match v with
  | none => some 0
  | some v =>
    let m := qeMean h dt v
    let phi := qeVariance h dt v / m ^ 2
    if m = 0 then (if qeVariance h dt v < 0 then none else some 0)
    else if phi ≤ 1.5 then
      if phi = 0 then none
      else
        (npSqrtReal (2 / phi * (2 / phi - 1))).bind (fun root =>
          let b2 := 2 / phi - 1 + root
          let a := m / (1 + b2)
          (npSqrtReal b2).map (fun b => a * (b + z) ^ 2))
    else
      let p := (phi - 1) / (phi + 1)
      let beta := (1 - p) / m
      if 0 ≤ normCdf z ∧ normCdf z ≤ p then some 0
      else if p < normCdf z ∧ normCdf z ≤ 1 then some (1 / beta * Real.log ((1 - p) / (1 - normCdf z)))
      else some 0

/-- What the quadratic-exponential scheme adds to the log spot (`heston.py:788-792`, 807-808), from the variances `v` and `w`. -/
noncomputable def qeLogStep (h : Heston) (mu dt : ℝ) (v w : Option ℝ) (z : ℝ) : Option ℝ :=
  let K0 := -h.rho * h.kappa * h.theta / h.vv * dt
  let K1 := 0.5 * dt * (h.kappa * h.rho / h.vv - 0.5) - h.rho / h.vv
  let K2 := 0.5 * dt * (h.kappa * h.rho / h.vv - 0.5) + h.rho / h.vv
  let K3 := 0.5 * dt * (1 - h.rho ^ 2)
  let K4 := 0.5 * dt * (1 - h.rho ^ 2)
  match v, w with
  | some v, some w => (npSqrtReal (K3 * v + K4 * w)).map (fun root => mu * dt + K0 + K1 * v + K2 * w + root * z)
  | _, _ => none

/-- One path of the quadratic-exponential scheme, as (log spot, variance) (`heston.py:779-808`, 878-921).  The logarithm of a zero spot is
minus infinity. -/
noncomputable def qePath (h : Heston) (S0 mu dt : ℝ) (z : Nat → Nat → ℝ) : Nat → Npf × Option ℝ
  | 0 => ((Npf.fin S0).log, some h.var0)
  | i + 1 =>
    let x := qePath h S0 mu dt z i
    let w := qeVarianceStep h dt x.2 (z i 1)
    (match qeLogStep h mu dt x.2 w (z i 0) with
      | some d => x.1.plus d
      | none => .nan, w)

/-- `np.exp` of a log spot (`heston.py:810`, 923). -/
noncomputable def npExpSpot : Npf → Option ℝ
  | .fin x => some (Real.exp x)
  | .negInf => some 0
  | .posInf => none
  | .nan => none

/-- What the Euler schemes do to a variance before using it (`heston.py:814-817`, 929-932): `nan` stays `nan`. -/
noncomputable def eulerFix (method : HestonMethod) (v : Option ℝ) : Option ℝ :=
  match method with
  | .eulerAbsorption => v.map (max 0)
  | .eulerReflection => v.map abs
  | _ => v

/-- One Euler step (`heston.py:819-820`, 934-937) from a spot and a variance that was already fixed, with the shocks `u`. -/
noncomputable def eulerStep (h : Heston) (mu dt : ℝ) (x : Option ℝ × Option ℝ) (u : Nat → Option ℝ) : Option ℝ × Option ℝ :=
  match x.2 with
  | none => (none, none)
  | some v =>
    match npSqrtReal v with
    | none => (none, none)
    | some root =>
      (match x.1, u 0 with
        | some S, some u0 => some (S + S * (mu * dt + root * u0))
        | _, _ => none,
       (u 1).map (fun u1 => v + h.kappa * (h.theta - v) * dt + h.vv * root * u1))

/-- The rows before they are fixed by the next step; `u` are the correlated shocks times `√dt` (`heston.py:811-820`). -/
noncomputable def eulerRow (method : HestonMethod) (h : Heston) (S0 mu dt : ℝ) (u : Nat → Nat → Option ℝ) : Nat → Option ℝ × Option ℝ
  | 0 => (some S0, some h.var0)
  | i + 1 =>
    let x := eulerRow method h S0 mu dt u i
    eulerStep h mu dt (x.1, eulerFix method x.2) (u i)

/-- The rows returned for one path of `n` steps (`heston.py:770-821`, 869-939): (spot, variance).  All rows but the last have been
fixed by the step that used them. -/
noncomputable def hestonRow (method : HestonMethod) (h : Heston) (S0 mu dt : ℝ) (n : Nat) (z : Nat → Nat → ℝ) (u : Nat → Nat → Option ℝ)
    (i : Nat) : Option ℝ × Option ℝ :=
  match method with
  | .quadraticExponential => (npExpSpot (qePath h S0 mu dt z i).1, (qePath h S0 mu dt z i).2)
  | .other => (some 0, some 0)
  | m =>
    let x := eulerRow m h S0 mu dt u i
    if i < n then (x.1, eulerFix m x.2) else x

/-- Whether lines 785-792 (887-894) of `heston.py` divide one Python float by another that is zero. -/
def HestonMethod.divides (method : HestonMethod) (h : Heston) : Prop :=
  match method with
  | .quadraticExponential => h.kappa = 0 ∨ h.vv = 0
  | _ => False

open Classical in
/-- `heston_simulate` (`heston.py:824-944`): shape (steps + 1, 2, simulations).  `chol` is `np.linalg.cholesky`, called by `normal_corr`
with the correlation matrix `[[1, rho], [rho, 1]]` even when the method does not use it (line 876). -/
noncomputable def hestonSimulate (chol : Matrix (Fin 2) (Fin 2) ℝ → Except Err (Matrix (Fin 2) (Fin 2) ℝ)) (method : HestonMethod)
    (h : Heston) (S0 mu tau : ℝ) (z : Cube) : Except Err NanCube :=
  if z.vars ≠ 2 then .error .assertion
  else if z.steps = 0 then .error .zeroDiv
  else
    match chol !![1, h.rho; h.rho, 1] with
    | .error e => .error e
    | .ok M =>
      if method.divides h then .error .zeroDiv
      else
        let dt := tau / z.steps
        let u := fun s i v => (npSqrtReal dt).map (fun root =>
          (M.transpose.mulVec (fun j : Fin 2 => z.get i j.val s)) (if v = 0 then 0 else 1) * root)
        .ok ⟨z.steps + 1, 2, z.sims, fun i v s =>
          let x := hestonRow method h S0 mu dt z.steps (fun i v => z.get i v s) (u s) i
          if v = 0 then x.1 else x.2⟩

open Classical in
/-- `heston_simulate_scalar` (`heston.py:719-821`): one path, shape (steps + 1, 2); `draws` has one row per step. -/
noncomputable def hestonSimulateScalar (chol : Matrix (Fin 2) (Fin 2) ℝ → Except Err (Matrix (Fin 2) (Fin 2) ℝ)) (method : HestonMethod)
    (h : Heston) (S0 mu tau : ℝ) (draws : Grid) : Except Err NanGrid :=
  if draws.cols ≠ 2 then .error .assertion
  else if draws.rows = 0 then .error .zeroDiv
  else
    match chol !![1, h.rho; h.rho, 1] with
    | .error e => .error e
    | .ok M =>
      if method.divides h then .error .zeroDiv
      else
        let dt := tau / draws.rows
        let u := fun i v => (npSqrtReal dt).map (fun root =>
          (M.transpose.mulVec (fun j : Fin 2 => draws.get i j.val)) (if v = 0 then 0 else 1) * root)
        .ok ⟨draws.rows + 1, 2, fun i v =>
          let x := hestonRow method h S0 mu dt draws.rows draws.get u i
          if v = 0 then x.1 else x.2⟩

end Frm
