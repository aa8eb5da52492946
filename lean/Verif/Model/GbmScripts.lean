import Verif.Model.MonteCarlo
import Mathlib.Analysis.SpecialFunctions.Pow.Real
import Mathlib.Algebra.Order.Floor.Ring
import Mathlib.Algebra.Order.Archimedean.Real.Basic

/-!
# Scripts that simulate geometric Brownian motion

`frm/pricing_engine/in_progress/gbm_speed_exploration.py`, `frm/pricing_engine/in_progress/monte_carlo_multiprocessing.py` and
`frm/pricing_engine/option.py`.  Simplifications: floats are real numbers; the time step is not negative (for a negative one the code
works with `nan`s); numba's compiled functions do what their Python text says, and memory that is never written is a parameter.
-/

namespace Frm

set_option autoImplicit false

/-- Running totals: `np.cumsum` and `np.cumprod`.  For `gbm_speed_exploration.py:45`, 48. -/
def cumulate (op : ℝ → ℝ → ℝ) : ℝ → List ℝ → List ℝ
  | _, [] => []
  | acc, a :: l => op acc a :: cumulate op (op acc a) l

/-- The random numbers, and the check of their number (`gbm_speed_exploration.py:36-42`, 62-70, 107-113); `normal n` is
`np.random.normal(0, 1, n)`. -/
noncomputable def scriptDraws (normal : Nat → List ℝ) (T dt : ℝ) (rand : Option (List ℝ)) : Except Err (List ℝ) :=
  if dt = 0 then .error .zeroDiv
  else
    let steps := ⌈T / dt⌉
    match rand with
    | none => if steps < 0 then .error .value else
        let z := normal steps.toNat
        if (z.length : Int) ≠ steps then .error .value else .ok z
    | some z => if (z.length : Int) ≠ steps then .error .value else .ok z

/-- `simulate_gbm` (`gbm_speed_exploration.py:12-57`). -/
noncomputable def scriptGbm (normal : Nat → List ℝ) (x0 mu vol T dt : ℝ) (rand : Option (List ℝ)) (method : Int) :
    Except Err (List ℝ) := do
  let z ← scriptDraws normal T dt rand
  let x ← if method = 0 then
      .ok ((cumulate (· + ·) 0 (z.map (fun z => (mu - 0.5 * vol ^ 2) * dt + vol * Real.sqrt dt * z))).map (fun s => x0 * Real.exp s))
    else if method = 1 then .ok ((cumulate (· * ·) 1 (z.map (fun z => 1 + mu * dt + vol * Real.sqrt dt * z))).map (x0 * ·))
    else if method = 2 then
      .ok ((cumulate (· * ·) 1 (z.map (fun z => 1 + mu * dt + vol * Real.sqrt dt * z + 0.5 * vol ^ 2 * dt * (z ^ 2 - 1)))).map (x0 * ·))
    else if method = 3 then
      .ok ((cumulate (· * ·) 1 (z.map (fun z => 1 + mu * dt + vol * Real.sqrt dt * z + 0.5 * vol ^ 2 * dt * (z ^ 2 - 1) +
        mu * vol * z * dt ^ (1.5 : ℝ) + 0.5 * mu ^ 2 * dt ^ 2))).map (x0 * ·))
    else .error .name
  pure (x0 :: x)

/-- `simulate_gbm_numba_prange` (`gbm_speed_exploration.py:61-101`); `memory` is what `np.empty` returns (line 74). -/
noncomputable def scriptGbmPrange (normal : Nat → List ℝ) (memory : Nat → List ℝ) (x0 mu vol T dt : ℝ) (rand : Option (List ℝ))
    (method : Int) : Except Err (List ℝ) := do
  let z ← scriptDraws normal T dt rand
  let sqrtDt := Real.sqrt dt
  let x := if method = 0 then cumulate (· * ·) 1 (z.map (fun z => Real.exp ((mu - 0.5 * vol ^ 2) * dt + vol * sqrtDt * z)))
    else if method = 1 then cumulate (· * ·) 1 (z.map (fun z => 1 + mu * dt + vol * sqrtDt * z))
    else if method = 2 then
      cumulate (· * ·) 1 (z.map (fun z => 1 + mu * dt + vol * sqrtDt * z + 0.5 * vol ^ 2 * (dt * (z ^ 2 - 1))))
    else if method = 3 then
      cumulate (· * ·) 1 (z.map (fun z => 1 + mu * dt + vol * sqrtDt * z + 0.5 * vol ^ 2 * (dt * (z ^ 2 - 1)) +
        mu * vol * z * dt ^ (1.5 : ℝ) + 0.5 * mu ^ 2 * dt ^ 2))
    else memory z.length
  pure (x0 :: x.map (x0 * ·))

/-- `simulate_gbm_numba` (`gbm_speed_exploration.py:105-134`): each price from the one before. -/
noncomputable def scriptGbmNumba (normal : Nat → List ℝ) (memory : Nat → List ℝ) (x0 mu vol T dt : ℝ) (rand : Option (List ℝ))
    (method : Int) : Except Err (List ℝ) := do
  let z ← scriptDraws normal T dt rand
  let x := if method = 0 then cumulate (fun x z => x * Real.exp ((mu - 0.5 * vol ^ 2) * dt + vol * Real.sqrt dt * z)) x0 z
    else if method = 1 then cumulate (fun x z => x * (1 + mu * dt + vol * Real.sqrt dt * z)) x0 z
    else if method = 2 then
      cumulate (fun x z => x * (1 + mu * dt + vol * Real.sqrt dt * z + 0.5 * vol ^ 2 * dt * (z ^ 2 - 1))) x0 z
    else if method = 3 then
      cumulate (fun x z => x * (1 + mu * dt + vol * Real.sqrt dt * z + 0.5 * vol ^ 2 * dt * (z ^ 2 - 1) +
        mu * vol * z * dt ^ (1.5 : ℝ) + 0.5 * mu ^ 2 * dt ^ 2)) x0 z
    else memory z.length
  pure (x0 :: x)

/-- `np.cumprod(..., axis=1)`: along the second axis, that of the assets.  For `option.py:79`. -/
noncomputable def cumprodAssets (w : Nat → Nat → Nat → ℝ) (t a s : Nat) : ℝ := ∏ b ∈ Finset.range (a + 1), w t b s

/-- The prices of one set of draws (`option.py:73`, 79; `monte_carlo_multiprocessing.py:34`, 40). -/
noncomputable def brownianPrice (x0 dt drift speed : ℝ) (w : Nat → Nat → Nat → ℝ) (t a s : Nat) : ℝ :=
  x0 * cumprodAssets (fun t b s => Real.exp ((drift - 0.5 * speed ^ 2) * dt + speed * Real.sqrt dt * w t b s)) t a s

/-- `GeometricBrownian.helper` (`option.py:65-81`) and `gbm_helper` (`monte_carlo_multiprocessing.py:26-42`): `entropy` is the seed that
`np.random.seed()` takes from the system and `half` the number of draws that are mirrored. -/
noncomputable def brownianHelper (gen : Generator) (entropy : Nat) (controlVariates : Bool) (x0 dt drift speed : ℝ)
    (steps assets half iterations : Int) : Except Err Cube :=
  if steps < 0 ∨ assets < 0 then .error .value
  else if controlVariates = true then
    if half < 0 then .error .value
    else
      let w := gen entropy steps.toNat assets.toNat half.toNat
      .ok ⟨steps.toNat, assets.toNat, 2 * half.toNat, concatSims half.toNat (brownianPrice x0 dt drift speed w)
        (brownianPrice x0 dt drift speed (fun t a s => -w t a s))⟩
  else if iterations < 0 then .error .value
  else .ok ⟨steps.toNat, assets.toNat, iterations.toNat,
    brownianPrice x0 dt drift speed (gen entropy steps.toNat assets.toNat iterations.toNat)⟩

/-- `gbm_helper(start_iter, end_iter)` with the constants of its module (`monte_carlo_multiprocessing.py:11-42`). -/
noncomputable def gbmHelper (gen : Generator) (entropy : Nat) (start stop : Int) : Except Err Cube :=
  brownianHelper gen entropy true 10 (1 / 365) 0.05 0.3 10 1 ((stop - start) / 2) (stop - start)

/-- A function sent to a pool of processes is pickled by its name, which works only if it is defined at the level of a module
(`AttributeError: Can't pickle local object`).  For `option.py:92`. -/
def pickleFunction (nested : Bool) : Except Err Unit := if nested then .error .attribute else .ok ()

/-- `GeometricBrownian` (`option.py:16-103`), with the constants of its module (lines 10-12).  `parallel` is
`APPLY_PARALLEL_PROCESSING`; the arguments `W` and `correlation_matrix` are never read. -/
noncomputable def geometricBrownian (gen : Generator) (entropy : Nat → Nat) (parallel : Bool) (x0 dt drift speed : ℝ) :
    Except Err (List Cube) :=
  if parallel = true then
    (List.range 10).mapM (fun i => do
      pickleFunction true
      brownianHelper gen (entropy i) false x0 dt drift speed 365 1 50000 100000)
  else (brownianHelper gen (entropy 0) false x0 dt drift speed 365 1 50000 100000).map (fun c => [c])

end Frm
