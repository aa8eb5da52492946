import Verif.Model.Err
import Mathlib.Data.Matrix.Mul
import Mathlib.Analysis.SpecialFunctions.Log.Basic
import Mathlib.Analysis.SpecialFunctions.Sqrt

/-!
# Monte-Carlo modules

`frm/pricing_engine/monte_carlo_generic.py`, `geometric_brownian_motion.py` and `clewlow_strickland_1_factor.py`.  Arrays are functions of
their indices with a shape; only indices within the shape are meaningful.  numpy's generator is a parameter.
-/

namespace Frm

set_option autoImplicit false

/-- A three-dimensional array: shape (steps, variables, simulations) (`monte_carlo_generic.py:29`). -/
structure Cube where
  steps : Nat
  vars : Nat
  sims : Nat
  get : Nat → Nat → Nat → ℝ

/-- A two-dimensional array.  For `frm/pricing_engine/geometric_brownian_motion.py:81-87`. -/
structure Grid where
  rows : Nat
  cols : Nat
  get : Nat → Nat → ℝ

/-- `np.random.seed(seed)` followed by `np.random.normal(0, 1, (steps, vars, sims))` (`monte_carlo_generic.py:36`, 54, 62). -/
abbrev Generator := Nat → Nat → Nat → Nat → Nat → Nat → Nat → ℝ

/-- `MAX_SIMULATIONS_PER_LOOP` (`settings.py:50`). -/
def maxSimulationsPerLoop : Nat := 100000000

/-- `np.column_stack((np.arange(p), np.arange(p) + p)).flatten()` (`monte_carlo_generic.py:59`): position `j` of the result. -/
def pairIndex (p j : Nat) : Nat := if j % 2 = 0 then j / 2 else j / 2 + p

/-- `np.concatenate([a, b], axis=2)` (`monte_carlo_generic.py:56`), `n` being the third size of `a`. -/
def concatSims (n : Nat) (a b : Nat → Nat → Nat → ℝ) (i v s : Nat) : ℝ := if s < n then a i v s else b i v (s - n)

/-- `generate_rand_nbs` (`monte_carlo_generic.py:6-64`).  The type checks (lines 38-41) are part of the signature. -/
noncomputable def generateRandNbs (gen : Generator) (steps vars sims : Int) (antithetic : Bool) (seed : Nat) : Except Err Cube :=
  if ¬ 1 ≤ steps ∨ ¬ 1 ≤ vars ∨ ¬ 1 ≤ sims then .error .assertion
  else if (maxSimulationsPerLoop : Int) < steps * sims then .error .value
  else if antithetic = true ∧ sims = 1 then .error .value
  else if antithetic = true then
    let n := sims.toNat
    let p := n / 2
    let normal := gen seed steps.toNat vars.toNat (n - p)
    let variate := fun i v s => -1 * normal i v s
    let all := concatSims (n - p) normal variate
    .ok ⟨steps.toNat, vars.toNat, 2 * p, fun i v j => all i v (pairIndex p j)⟩
  else .ok ⟨steps.toNat, vars.toNat, sims.toNat, gen seed steps.toNat vars.toNat sims.toNat⟩

/-- `normal_corr` (`monte_carlo_generic.py:67-81`) on one vector of independent variates per simulation; `chol` is
`np.linalg.cholesky`. -/
def normalCorr {n : Nat} (chol : Matrix (Fin n) (Fin n) ℝ → Except Err (Matrix (Fin n) (Fin n) ℝ)) (C : Matrix (Fin n) (Fin n) ℝ)
    (draws : List (Fin n → ℝ)) : Except Err (List (Fin n → ℝ)) :=
  match chol C with
  | .error e => .error e
  | .ok L => .ok (draws.map (fun x => L.transpose.mulVec x))

/-- A three-dimensional array of floats that may be `nan` (`geometric_brownian_motion.py:76`, `heston.py:873`). -/
structure NanCube where
  steps : Nat
  vars : Nat
  sims : Nat
  get : Nat → Nat → Nat → Option ℝ

/-! ## Geometric Brownian motion -/

/-- `if a.shape[0] == 1: a = a.reshape(-1, 1)` (`geometric_brownian_motion.py:59-62`). -/
def columnOf (a : Grid) : Grid := if a.rows = 1 then ⟨a.cols, 1, fun i _ => a.get 0 i⟩ else a

/-- The index along the last axis of an array of size `m` broadcast to a larger size (numpy): always 0 when `m` is one.
For `frm/pricing_engine/geometric_brownian_motion.py:81-87`. -/
def bcastIndex (m s : Nat) : Nat := if m = 1 then 0 else s

/-- The paths of `simulate_gbm_path` (`geometric_brownian_motion.py:79-85`).  A one-dimensional row of parameters is broadcast along the
last axis, the simulations.  The root of a negative step length is `nan`, and so are all prices after it. -/
noncomputable def gbmPath (m : Nat) (initial : Nat → ℝ) (drift vol : Nat → Nat → ℝ) (dt : Nat → ℝ) (z : Nat → Nat → Nat → ℝ) :
    Nat → Nat → Nat → Option ℝ
  | 0, _, s => some (initial (bcastIndex m s))
  | i + 1, v, s =>
    if dt i < 0 then none
    else (gbmPath m initial drift vol dt z i v s).map (fun x => x *
      Real.exp ((drift i (bcastIndex m s) - 0.5 * vol i (bcastIndex m s) ^ 2) * dt i + vol i (bcastIndex m s) * Real.sqrt (dt i) * z i v s))

/-- `simulate_gbm_path` (`geometric_brownian_motion.py:12-87`).  The arguments are already two-dimensional (`np.atleast_2d` makes a
one-dimensional array a single row, lines 48-50).  Broadcasting `m` variables against the simulations is possible only when `m` is one or
the number of simulations (line 80). -/
noncomputable def simulateGbm (initial drift vol : Grid) (dt : List ℝ) (z : Cube) : Except Err NanCube :=
  let d := columnOf drift
  let w := columnOf vol
  if dt.length ≠ d.rows ∨ dt.length ≠ w.rows ∨ dt.length ≠ z.steps ∨ initial.rows ≠ 1 then .error .assertion
  else if initial.cols ≠ d.cols ∨ initial.cols ≠ w.cols ∨ initial.cols ≠ z.vars then .error .assertion
  else if initial.cols = 1 ∨ initial.cols = z.sims then
    .ok ⟨z.steps + 1, z.vars, z.sims, gbmPath initial.cols (initial.get 0) d.get w.get (fun i => dt.getD i 0) z.get⟩
  else .error .value

/-! ## Clewlow–Strickland -/

/-- The logarithm of the spot along one path (`clewlow_strickland_1_factor.py:74-87`): `lnF i` is the logarithm of the forward curve at
step `i`, `z i` the draw of step `i`. -/
noncomputable def csLogPath (lnF : Nat → ℝ) (dt a sigma : ℝ) (z : Nat → ℝ) : Nat → ℝ
  | 0 => lnF 0
  | i + 1 =>
    let x := csLogPath lnF dt a sigma z i
    x + ((lnF (i + 1) - lnF i) / dt + a * (lnF i - x) + -0.25 * sigma ^ 2 * (1 + Real.exp (-2 * a * (i * dt)))) * dt
      + z i * sigma * Real.sqrt dt

/-- The assignment `spot_px_result[:, start..end) = spot_px[...]` (`clewlow_strickland_1_factor.py:91-100`). -/
def writeColumns (out : Nat → Nat → ℝ) (start stop : Nat) (src : Nat → Nat → ℝ) (t c : Nat) : ℝ :=
  if start ≤ c ∧ c < stop then src t (c - start) else out t c

/-- One pass of the simulation loop (`clewlow_strickland_1_factor.py:82-100`): the draws of the generator seeded with the number of the
pass, the paths, and the columns written. -/
noncomputable def csPass (gen : Generator) (lnF : Nat → ℝ) (segments nbSteps perLoop sims : Nat) (a sigma : ℝ) (j : Nat)
    (out : Nat → Nat → ℝ) : Except Err (Nat → Nat → ℝ) :=
  match generateRandNbs gen nbSteps 1 perLoop false j with
  | .error e => .error e
  | .ok r =>
    let spot := fun t c => Real.exp (csLogPath lnF (1 / segments) a sigma (fun i => r.get i 0 c) (t * segments))
    .ok (writeColumns out (j * perLoop) (min ((j + 1) * perLoop) sims) spot)

/-- `for j in range(nb_loops)` from pass `j` on.  For `frm/pricing_engine/clewlow_strickland_1_factor.py:82-100`. -/
noncomputable def csLoop (gen : Generator) (lnF : Nat → ℝ) (segments nbSteps perLoop sims : Nat) (a sigma : ℝ) :
    Nat → Nat → (Nat → Nat → ℝ) → Except Err (Nat → Nat → ℝ)
  | 0, _, out => .ok out
  | k + 1, j, out =>
    match csPass gen lnF segments nbSteps perLoop sims a sigma j out with
    | .error e => .error e
    | .ok out' => csLoop gen lnF segments nbSteps perLoop sims a sigma k (j + 1) out'

/-- `clewlow_strickland_1_factor_simulate` (`clewlow_strickland_1_factor.py:7-102`).  `forward` is the interpolated forward curve at each
step (lines 62-65; interpolated in `Model/ForwardCurve.lean`); `horizon` is `T`, a whole number of days. -/
noncomputable def csSimulate (gen : Generator) (forward : Nat → ℝ) (sims segments horizon : Nat) (a sigma : ℝ) : Except Err Grid :=
  let nbSteps := horizon * segments
  if segments = 0 ∨ nbSteps = 0 then .error .zeroDiv
  else
    let perLoop := min sims (maxSimulationsPerLoop / nbSteps)
    if perLoop = 0 then .error .zeroDiv
    else
      let loops := (sims + perLoop - 1) / perLoop
      match csLoop gen (fun i => Real.log (forward i)) segments nbSteps perLoop sims a sigma loops 0 (fun _ _ => 0) with
      | .error e => .error e
      | .ok out => .ok ⟨horizon + 1, sims, out⟩

end Frm
