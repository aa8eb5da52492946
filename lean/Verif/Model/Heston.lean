import Verif.Model.GarmanKohlhagen
import Verif.Model.MonteCarlo
import Mathlib.Analysis.SpecialFunctions.Pow.Complex
import Mathlib.MeasureTheory.Integral.IntervalIntegral.Basic

/-!
# The Heston model

`frm/pricing_engine/heston.py` and `frm/pricing_engine/cosine_method_generic.py`.  Numbers are exact.  `np.sqrt` and `np.log` of complex
numbers are the principal branches.  `scipy.integrate.quad` is the integral.  Division by zero inside the characteristic functions is not
modelled (the theorems show or assume that the denominators differ from zero).
-/

namespace Frm

set_option autoImplicit false

/-- The parameters of the model (`heston.py:89-95`), without the price of volatility risk. -/
structure Heston where
  var0 : ℝ
  vv : ℝ
  kappa : ℝ
  theta : ℝ
  rho : ℝ

/-- `np.sqrt` of a complex number (numpy; used at `heston.py:448`, 507). -/
noncomputable def csqrt (z : ℂ) : ℂ := z ^ (1 / 2 : ℂ)

/-! ## Characteristic functions -/

/-- `d` (`heston.py:448`). -/
noncomputable def chfRoot (h : Heston) (u : ℂ) : ℂ :=
  csqrt ((h.rho * h.vv * u * Complex.I - h.kappa) ^ 2 + (h.vv : ℂ) ^ 2 * (Complex.I * u + u ^ 2))

/-- `g2` (`heston.py:455-456`). -/
noncomputable def chfRatio (h : Heston) (u : ℂ) : ℂ :=
  (h.kappa - h.rho * h.vv * Complex.I * u - chfRoot h u) / (h.kappa - h.rho * h.vv * Complex.I * u + chfRoot h u)

/-- `chf_heston_albrecher2007` (`heston.py:420-467`). -/
noncomputable def chfAlbrecher (h : Heston) (logS0 tau r q : ℝ) (u : ℂ) : ℂ :=
  let k : ℂ := h.kappa
  let eta : ℂ := h.theta
  let lam : ℂ := h.vv
  let d := chfRoot h u
  let g2 := chfRatio h u
  let A := Complex.I * u * (logS0 + (r - q) * tau)
  let B := eta * k * (lam ^ 2)⁻¹ * ((k - h.rho * lam * Complex.I * u - d) * tau - 2 * Complex.log ((1 - g2 * Complex.exp (-d * tau)) / (1 - g2)))
  let C := ((Real.sqrt h.var0 : ℝ) : ℂ) ^ 2 * (lam ^ 2)⁻¹ * (k - h.rho * lam * Complex.I * u - d) * (1 - Complex.exp (-d * tau)) /
    (1 - g2 * Complex.exp (-d * tau))
  Complex.exp (A + B + C)

/-- `chf_heston_fang2008` (`heston.py:478-520`). -/
noncomputable def chfFang (h : Heston) (tau r q : ℝ) (u : ℂ) : ℂ :=
  let mu : ℂ := r - q
  let W : ℂ := h.kappa - Complex.I * h.rho * h.vv * u
  let D := csqrt (W ^ 2 + (u ^ 2 + Complex.I * u) * (h.vv : ℂ) ^ 2)
  let G2 := (W - D) / (W + D)
  let e := Complex.exp (-D * tau)
  let inner1 := Complex.I * u * mu * tau + (h.var0 / (h.vv : ℂ) ^ 2) * ((1 - e) / (1 - G2 * e)) * (W - D)
  let inner2 := (h.kappa * h.theta) / (h.vv : ℂ) ^ 2 * ((tau * (W - D)) - 2 * Complex.log ((1 - G2 * e) / (1 - G2)))
  Complex.exp (inner1 + inner2)

/-! ## Heston 1993 -/

/-- `u[m-1]` and `b[m-1]` (`heston.py:247-248`); `first` stands for `m = 1`. -/
noncomputable def heston1993Constants (h : Heston) (lambda : ℝ) (first : Bool) : ℝ × ℝ :=
  if first then (0.5, h.kappa + lambda - h.rho * h.vv) else (-0.5, h.kappa + lambda)

/-- `chf` inside `heston_1993_vanilla_european_integral` (`heston.py:241-268`). -/
noncomputable def heston1993Chf (h : Heston) (lambda : ℝ) (S0 tau r q : ℝ) (first : Bool) (phi : ℝ) : ℂ :=
  let c := heston1993Constants h lambda first
  let u : ℂ := c.1
  let b : ℂ := c.2
  let sigma : ℂ := h.vv
  let d := csqrt ((h.rho * sigma * phi * Complex.I - b) ^ 2 - sigma ^ 2 * (2 * u * phi * Complex.I - (phi : ℂ) ^ 2))
  let g2 := (b - h.rho * sigma * phi * Complex.I - d) / (b - h.rho * sigma * phi * Complex.I + d)
  let C := (r - q) * phi * Complex.I * tau + (h.kappa * h.theta) / sigma ^ 2 *
    ((b - h.rho * sigma * phi * Complex.I - d) * tau - 2 * Complex.log ((1 - g2 * Complex.exp (-d * tau)) / (1 - g2)))
  let D := (b - h.rho * sigma * phi * Complex.I - d) / sigma ^ 2 * ((1 - Complex.exp (-d * tau)) / (1 - g2 * Complex.exp (-d * tau)))
  Complex.exp (C + D * h.var0 + Complex.I * phi * Real.log S0)

/-- `heston_1993_vanilla_european_integral` (`heston.py:213-272`). -/
noncomputable def heston1993Integrand (h : Heston) (lambda S0 K tau r q : ℝ) (first : Bool) (phi : ℝ) : ℝ :=
  (Complex.exp (-Complex.I * phi * Real.log K) * heston1993Chf h lambda S0 tau r q first phi / (Complex.I * phi)).re

/-- `heston1993_price_vanilla_european` (`heston.py:275-316`). -/
noncomputable def heston1993Price (h : Heston) (lambda S0 tau r q cp K : ℝ) : ℝ :=
  let P1 := 0.5 + 1 / Real.pi * ∫ phi in Set.Ioi (0 : ℝ), heston1993Integrand h lambda S0 K tau r q true phi
  let P2 := 0.5 + 1 / Real.pi * ∫ phi in Set.Ioi (0 : ℝ), heston1993Integrand h lambda S0 K tau r q false phi
  let Pplus := (1 - cp) / 2 + cp * P1
  let Pminus := (1 - cp) / 2 + cp * P2
  cp * (S0 * Real.exp (-q * tau) * Pplus - K * Real.exp (-r * tau) * Pminus)

/-! ## Carr–Madan -/

/-- `heston_fft_vanilla_european_integral` (`heston.py:390-417`). -/
noncomputable def carrMadanIntegrand (h : Heston) (cp logS0 logK tau r q alpha v : ℝ) : ℝ :=
  let u : ℂ := v - (cp * alpha + 1) * Complex.I
  let F := chfAlbrecher h logS0 tau r q u * Real.exp (-r * tau) /
    (((alpha ^ 2 + cp * alpha - v ^ 2 : ℝ) : ℂ) + Complex.I * (cp * 2 * alpha + 1) * v)
  (Complex.exp (-Complex.I * v * logK) * F).re

/-- `heston_carr_madan_price_vanilla_european` with `integration_method=0` (`heston.py:320-359`). -/
noncomputable def carrMadanPrice (h : Heston) (S0 tau r q cp K : ℝ) : Except Err ℝ :=
  if cp ≠ 1 ∧ cp ≠ -1 then .error .value
  else
    let alpha : ℝ := if cp = 1 then 0.75 else 1.75
    .ok (Real.exp (-cp * Real.log K * alpha) *
      (∫ v in Set.Ioi (0 : ℝ), carrMadanIntegrand h cp (Real.log S0) (Real.log K) tau r q alpha v) / Real.pi)

/-- `get_simpson_weights` (`heston.py:383-386`), for at least two points. -/
noncomputable def simpsonWeights (n : Nat) : List ℝ :=
  (([1] ++ (List.replicate ((n - 2) / 2) [4, 2]).flatten ++ [1]) : List ℝ).map (fun w => w / 3)

/-- `np.interp` on the equidistant points `x0, x0 + step, …` (`n` of them) with values `y` (`heston.py:378`): linear inside, flat outside. -/
noncomputable def uniformInterp (x0 step : ℝ) (n : Nat) (y : Nat → ℝ) (x : ℝ) : ℝ :=
  if x ≤ x0 then y 0
  else if x0 + step * (n - 1 : Nat) ≤ x then y (n - 1)
  else
    let j := ⌊(x - x0) / step⌋₊
    y j + (y (j + 1) - y j) / step * (x - (x0 + step * j))

/-- `scipy.fft.fft` of a list of `n` values (scipy; used at `heston.py:375`). -/
noncomputable def dft (n : Nat) (x : Nat → ℂ) (j : Nat) : ℂ :=
  ∑ m ∈ Finset.range n, x m * Complex.exp (-(2 * Real.pi * Complex.I * j * m / n))

/-- `option_value` at grid point `j` (`heston.py:360-376`), with `N` points. -/
noncomputable def carrMadanGridValue (h : Heston) (S0 tau r q cp alpha : ℝ) (N : Nat) (j : Nat) : ℝ :=
  let eta : ℝ := 0.25
  let lam : ℝ := 2 * Real.pi / (N * eta)
  let b : ℝ := N * lam / 2
  let ku : ℝ := -b + lam * j
  let F := fun m : Nat =>
    let v : ℝ := m * eta
    chfAlbrecher h (Real.log S0) tau r q (v - (cp * alpha + 1) * Complex.I) * Real.exp (-r * tau) /
      (((alpha ^ 2 + cp * alpha - v ^ 2 : ℝ) : ℂ) + Complex.I * (cp * 2 * alpha + 1) * v)
  let fftFunc := fun m : Nat => Complex.exp (Complex.I * b * ((m * eta : ℝ) : ℂ)) * F m * eta * ((simpsonWeights N).getD m 0 : ℝ)
  Real.exp (-cp * ku * alpha) * (dft N fftFunc j).re / Real.pi

/-- `heston_carr_madan_price_vanilla_european` with `integration_method=1` (`heston.py:320-380`). -/
noncomputable def carrMadanFftPrice (h : Heston) (S0 tau r q cp K : ℝ) : Except Err ℝ :=
  if cp ≠ 1 ∧ cp ≠ -1 then .error .value
  else
    let alpha : ℝ := if cp = 1 then 0.75 else 1.75
    let N : Nat := 2 ^ 10
    let lam : ℝ := 2 * Real.pi / (N * 0.25)
    .ok (uniformInterp (-(N * lam / 2)) lam N (carrMadanGridValue h S0 tau r q cp alpha N) (Real.log K))

/-! ## Lewis–Lipton -/

/-- `heston_lipton_vanilla_european_integral` (`heston.py:687-716`). -/
noncomputable def liptonIntegrand (h : Heston) (S0 tau r q K v : ℝ) : ℝ :=
  let X : ℝ := Real.log (S0 / K) + (r - q) * tau
  let kh : ℝ := h.kappa - h.rho * h.vv / 2
  let zeta := csqrt (((v ^ 2 * h.vv ^ 2 * (1 - h.rho ^ 2) + kh ^ 2 + h.vv ^ 2 / 4 : ℝ) : ℂ) + 2 * Complex.I * v * h.vv * h.rho * kh)
  let plus := -(Complex.I * h.kappa * h.rho * h.vv + kh) + zeta
  let minus := (Complex.I * h.kappa * h.rho * h.vv + kh) + zeta
  let e := Complex.exp (-zeta * tau)
  let log := Complex.log ((minus + plus * e) / (2 * zeta))
  let alpha := -(h.kappa * h.theta : ℝ) / (h.vv : ℂ) ^ 2 * (plus * tau + 2 * log)
  let beta := (1 - e) / (minus + plus * e)
  let exponent := (-Complex.I * v + 0.5) * X + alpha - ((v ^ 2 + 0.25 : ℝ) : ℂ) * beta * h.var0
  (Complex.exp exponent).re / (v ^ 2 + 0.25)

/-- `heston_lipton_price_vanilla_european` (`heston.py:654-684`). -/
noncomputable def liptonPrice (h : Heston) (S0 tau r q cp K : ℝ) : ℝ :=
  let C := Real.exp (-q * tau) * S0 - Real.exp (-r * tau) * K / Real.pi * ∫ v in Set.Ioi (0 : ℝ), liptonIntegrand h S0 tau r q K v
  if cp = 1 then C else C - S0 * Real.exp (-q * tau) + K * Real.exp (-r * tau)

/-! ## The COS method -/

/-- The model argument of `get_cos_truncation_range` (`cosine_method_generic.py:101-139`). -/
inductive CosModel
  | gbm (mu sigma tau : ℝ)
  | heston (h : Heston) (mu tau : ℝ)
  | other

/-- The first two cumulants of Heston's log spot (`cosine_method_generic.py:121-129`). -/
noncomputable def hestonCumulants (h : Heston) (mu tau : ℝ) : ℝ × ℝ :=
  let lam := h.kappa
  let eta := h.vv
  let u0 := h.var0
  let ub := h.theta
  let rho := h.rho
  let c1 := mu * tau + (1 - Real.exp (-1 * lam * tau)) * (ub - u0) / (2 * lam) - 0.5 * ub * tau
  let c2 := (1 / (8 * lam ^ 3)) * (
    (eta * tau * lam * Real.exp (-lam * tau) * (u0 - ub) * (8 * lam * rho - 4 * eta))
    + lam * rho * eta * (1 - Real.exp (-lam * tau)) * (16 * ub - 8 * u0)
    + 2 * ub * lam * tau * (-4 * lam * rho * eta + eta ^ 2 + 4 * lam ^ 2)
    + eta ^ 2 * ((ub - 2 * u0) * Real.exp (-2 * lam * tau) + ub * (6 * Real.exp (-lam * tau) - 7) + 2 * u0)
    + 8 * lam ^ 2 * (u0 - ub) * (1 - Real.exp (-lam * tau)))
  (c1, c2)

/-- `get_cos_truncation_range` (`cosine_method_generic.py:76-144`).  For the models that are only named, the cumulants are unbound. -/
noncomputable def cosRange (m : CosModel) (L : ℝ) : Except Err (ℝ × ℝ) :=
  let range := fun c1 c2 : ℝ => (c1 - L * Real.sqrt (|c2| + Real.sqrt |(0 : ℝ)|), c1 + L * Real.sqrt (|c2| + Real.sqrt |(0 : ℝ)|))
  match m with
  | .gbm mu sigma tau => .ok (range (mu * tau) (sigma ^ 2 * tau))
  | .heston h mu tau => .ok (range (hestonCumulants h mu tau).1 (hestonCumulants h mu tau).2)
  | .other => .error .name

/-- `calc_chi` (`heston.py:540-549`). -/
noncomputable def cosChi (a b : ℝ) (k : Nat) (c d : ℝ) : ℝ :=
  let term1 := 1 / (1 + (k * Real.pi / (b - a)) ^ 2)
  let term2 := Real.cos (k * Real.pi * (d - a) / (b - a)) * Real.exp d
  let term3 := Real.cos (k * Real.pi * (c - a) / (b - a)) * Real.exp c
  let term4 := k * Real.pi / (b - a) * Real.sin (k * Real.pi * (d - a) / (b - a))
  let term5 := k * Real.pi / (b - a) * Real.sin (k * Real.pi * (c - a) / (b - a)) * Real.exp c
  term1 * (term2 - term3 + term4 - term5)

/-- `calc_psi` (`heston.py:551-556`), for the indices `0, 1, 2, …` in order. -/
noncomputable def cosPsi (a b : ℝ) (k : Nat) (c d : ℝ) : ℝ :=
  if k = 0 then d - c
  else (Real.sin (k * Real.pi * (d - a) / (b - a)) - Real.sin (k * Real.pi * (c - a) / (b - a))) * (b - a) / (k * Real.pi)

/-- `calculate_Uk_european_options` (`heston.py:523-569`); the call when `call`, else the put. -/
noncomputable def cosUk (call : Bool) (a b : ℝ) (k : Nat) : ℝ :=
  if call then (2 / (b - a)) * (cosChi a b k 0 b - cosPsi a b k 0 b)
  else (2 / (b - a)) * (-cosChi a b k a 0 + cosPsi a b k a 0)

/-- `Fk` (`heston.py:626-628`) for the strike with `x0 = log(S0 / K)`. -/
noncomputable def cosFk (h : Heston) (tau r q a b x0 : ℝ) (k : Nat) : ℝ :=
  (if k = 0 then 0.5 else 1) *
    (chfFang h tau r q ((k * Real.pi / (b - a) : ℝ) : ℂ) * Complex.exp (Complex.I * k * Real.pi * (x0 - a) / (b - a))).re

/-- The series of line 638, 642 or 644 of `heston.py`. -/
noncomputable def cosSum (h : Heston) (S0 tau r q K a b : ℝ) (N : Nat) (call : Bool) : ℝ :=
  K * (∑ k ∈ Finset.range N, cosFk h tau r q a b (Real.log (S0 / K)) k * cosUk call a b k) * Real.exp (-r * tau)

/-- `heston_cosine_price_vanilla_european` (`heston.py:572-651`), for at least one term.  The options are pairs of flag and strike; a list of
flags of another length is refused (line 602).  `none` is `nan`.  Without put-call parity a type of option that is absent leaves its
prices unbound (lines 641-648). -/
noncomputable def cosPrice (h : Heston) (S0 tau r q : ℝ) (cps Ks : List ℝ) (N : Nat := 160) (L : ℝ := 10) (parity : Bool := true) :
    Except Err (List (Option ℝ)) :=
  if cps.length ≠ Ks.length then .error .assertion
  else
    match cosRange (.heston h (r - q) tau) L with
    | .error e => .error e
    | .ok (a, b) =>
      if parity then
        .ok ((cps.zip Ks).map (fun x =>
          let put := cosSum h S0 tau r q x.2 a b N false
          if x.1 = 1 then some (put + S0 * Real.exp (-q * tau) - x.2 * Real.exp (-r * tau)) else if x.1 = -1 then some put else none))
      else if (1 : ℝ) ∉ cps ∨ (-1 : ℝ) ∉ cps then .error .name
      else
        .ok ((cps.zip Ks).map (fun x =>
          if x.1 = 1 then some (cosSum h S0 tau r q x.2 a b N true) else if x.1 = -1 then some (cosSum h S0 tau r q x.2 a b N false) else none))

/-- The names accepted by `heston_price_vanilla_european` (`heston.py:27-44`). -/
inductive HestonPricing
  | cosine
  | heston1993
  | carrMadanQuadrature
  | carrMadanFft
  | lipton
  | unknown

/-- `heston_price_vanilla_european` (`heston.py:26-44`) for one flag and one strike.  `none` is `nan`; the COS method returns an array of one. -/
noncomputable def hestonPrice (method : HestonPricing) (h : Heston) (lambda S0 tau r q cp K : ℝ) : Except Err (Option ℝ) :=
  match method with
  | .cosine => (cosPrice h S0 tau r q [cp] [K]).map (fun prices => prices.getD 0 none)
  | .heston1993 => .ok (some (heston1993Price h lambda S0 tau r q cp K))
  | .carrMadanQuadrature => (carrMadanPrice h S0 tau r q cp K).map some
  | .carrMadanFft => (carrMadanFftPrice h S0 tau r q cp K).map some
  | .lipton => .ok (some (liptonPrice h S0 tau r q cp K))
  | .unknown => .error .value

end Frm
