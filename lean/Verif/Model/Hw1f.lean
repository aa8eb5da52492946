import Verif.Model.GarmanKohlhagen
import Verif.Model.MonteCarlo
import Mathlib.MeasureTheory.Integral.IntervalIntegral.Basic

/-!
# `frm/pricing_engine/hw1f.py`

The Hull–White model.  The zero curve enters through its discount factors and instantaneous forward rates as functions of the time in
years (cubic splines, not modelled).  `scipy.integrate.quad` is the exact integral and `brentq` a parameter.
-/

namespace Frm
open Classical

set_option autoImplicit false

/-- A `HullWhite1Factor` (`hw1f.py:26-44`): the curve, the mean reversion, the volatility and the initial short rate (the first zero rate
of the curve; the curve's constructor always adds a pillar at zero years). -/
structure HullWhite where
  discount : ℝ → ℝ
  forward : ℝ → ℝ
  alpha : ℝ
  vol : ℝ
  r0 : ℝ

/-- `calc_b` (`hw1f.py:417-437`). -/
noncomputable def hwB (alpha t1 t2 : ℝ) : ℝ := if alpha < 1e-8 then t2 - t1 else (1 / alpha) * (1 - Real.exp (-alpha * (t2 - t1)))

/-- `σP` (`hw1f.py:356`), with `t0 = 0`; `none` is `nan`. -/
noncomputable def hwSigmaP (m : HullWhite) (T S : ℝ) : Option ℝ :=
  match (Npf.divide (1 - Real.exp (-2 * m.alpha * T)) (2 * m.alpha)).sqrt with
  | .fin s => some (m.vol * s * hwB m.alpha T S)
  | _ => none

/-- `h` (`hw1f.py:359`) for a positive `σP`. -/
noncomputable def hwH (m : HullWhite) (T S K s : ℝ) : Npf :=
  ((Npf.divide (m.discount S) (K * m.discount T)).log.over s).plus (0.5 * s)

/-- One element of `price_zero_coupon_bond_option` (`hw1f.py:356-371`). -/
noncomputable def hwBondOption (m : HullWhite) (T S K cp : ℝ) : Option ℝ :=
  if S < T then some 0
  else match hwSigmaP m T S with
    | none => none
    | some s =>
      if s ≤ 0 then some (max (cp * (m.discount S / m.discount T - K)) 0)
      else match npCdf ((hwH m T S K s).signed cp), npCdf (((hwH m T S K s).plus (-s)).signed cp) with
        | some n1, some n2 => some (cp * (m.discount S * n1 - K * m.discount T * n2))
        | _, _ => none

/-- Element `i` of an array of size one or more, broadcast (numpy).  For `frm/pricing_engine/hw1f.py:307-373`. -/
noncomputable def bcastAt (xs : List ℝ) (i : Nat) : ℝ := if xs.length = 1 then xs.getD 0 0 else xs.getD i 0

/-- `price_zero_coupon_bond_option` (`hw1f.py:307-373`) on one-dimensional arrays (`np.atleast_1d`).  The masks of lines 358-368 have the
size of the broadcast expiries and maturities, and index arrays of the largest size. -/
noncomputable def priceZeroCouponBondOption (m : HullWhite) (expiry maturity strike cp : List ℝ) (t0 : ℝ) : Except Err (List (Option ℝ)) :=
  let n := max (max expiry.length maturity.length) (max strike.length cp.length)
  if ∃ xs ∈ [expiry, maturity, strike, cp], ¬ (xs.length = 1 ∨ xs.length = n) then .error .assertion
  else if t0 ≠ 0 then .error .value
  else if max expiry.length maturity.length ≠ n then .error .index
  else .ok ((List.range n).map (fun i => hwBondOption m (bcastAt expiry i) (bcastAt maturity i) (bcastAt strike i) (bcastAt cp i)))

/-- The parameters of `price_zero_coupon_bond_option`, each with whether it has a default (`hw1f.py:307-312`). -/
def bondOptionParameters : List (String × Bool) :=
  [("option_expiry", false), ("bond_maturity", false), ("K", false), ("cp", false), ("t0", true)]

/-- The check of the keywords of a call (Python): a keyword that is no parameter, or a parameter without default and without argument,
raises `TypeError`.  For `frm/pricing_engine/hw1f.py:657-660`. -/
def checkKeywords (params : List (String × Bool)) (keywords : List String) : Except Err Unit :=
  if keywords.all (fun k => params.any (fun p => p.1 == k)) && params.all (fun p => p.2 || keywords.contains p.1) then .ok ()
  else .error .type

/-- The keywords used by `price_optionlet` (`hw1f.py:409-412`) and `price_swaption` (`hw1f.py:709-714`, 718-723). -/
def optionletKeywords : List String := ["expiry_years", "maturity_years", "K", "cp"]

/-- `price_optionlet` (`hw1f.py:376-414`), for scalars, if the call on lines 409-412 used the keywords `kws`. -/
noncomputable def priceOptionletKw (kws : List String) (m : HullWhite) (effective termination K cp : ℝ) : Except Err (List (Option ℝ)) :=
  if 1 + K * (termination - effective) = 0 then .error .zeroDiv
  else
    let k := 1 / (1 + K * (termination - effective))
    match checkKeywords bondOptionParameters kws with
    | .error e => .error e
    | .ok _ => (priceZeroCouponBondOption m [effective] [termination] [k] [-1 * cp] 0).map (fun ps => ps.map (fun p => p.map (· / k)))

/-- `price_optionlet` (`hw1f.py:376-414`), for scalars. -/
noncomputable def priceOptionlet (m : HullWhite) (effective termination K cp : ℝ) : Except Err (List (Option ℝ)) :=
  priceOptionletKw optionletKeywords m effective termination K cp

/-- `get_thetas` (`hw1f.py:120-145`), at one time.  The derivative of the forward rates is computed and not used. -/
noncomputable def hwTheta (m : HullWhite) (t : ℝ) : Except Err ℝ :=
  if m.alpha = 0 then .error .zeroDiv
  else .ok (m.alpha * m.r0 + (m.vol ^ 2 / (2 * m.alpha)) * (1 - Real.exp (-2 * m.alpha * t)))

/-- The short rate used by the discount factors (`hw1f.py:476-479`, 520-523). -/
noncomputable def hwShortRate (m : HullWhite) (t1 : ℝ) (r : Option ℝ) : Except Err ℝ :=
  if t1 = 0 then .ok m.r0 else match r with
    | some r => .ok r
    | none => .error .assertion

/-- `calc_discount_factor_by_solving_ode_1` (`hw1f.py:440-484`); `theta` is the spline of line 117. -/
noncomputable def hwDiscount1 (m : HullWhite) (theta : ℝ → ℝ) (t1 t2 : ℝ) (r : Option ℝ) : Except Err ℝ :=
  if ¬ t1 < t2 then .error .assertion
  else match hwShortRate m t1 r with
    | .error e => .error e
    | .ok r =>
      let a := 0.5 * m.vol ^ 2 * (∫ t in t1..t2, hwB m.alpha t t2 ^ 2) - ∫ t in t1..t2, theta t * hwB m.alpha t t2
      .ok (Real.exp (a - r * hwB m.alpha t1 t2))

/-- `calc_discount_factor_by_solving_ode_2` (`hw1f.py:487-528`). -/
noncomputable def hwDiscount2 (m : HullWhite) (t1 t2 : ℝ) (r : Option ℝ) : Except Err ℝ :=
  if ¬ t1 < t2 then .error .assertion
  else match hwShortRate m t1 r with
    | .error e => .error e
    | .ok r =>
      if m.alpha = 0 then .error .zeroDiv
      else
        let b := hwB m.alpha t1 t2
        .ok ((m.discount t2 / m.discount t1) *
          Real.exp (b * m.forward t1 - (m.vol ^ 2 / (4 * m.alpha)) * (1 - Real.exp (-2 * m.alpha * t1)) * b ^ 2) * Real.exp (-b * r))

/-! ## Swaptions -/

/-- `brentq` (scipy; `hw1f.py:637-638`): given the bracket and the function, which may raise, it returns a number or raises. -/
abbrev Brentq := ℝ × ℝ → (ℝ → Except Err ℝ) → Except Err ℝ

/-- The present values at the swaption's expiry of the fixed leg's coupons (`hw1f.py:616-619`). -/
noncomputable def hwCoupons (m : HullWhite) (theta : ℝ → ℝ) (expiry fixedRate r : ℝ) : List (ℝ × ℝ) → Except Err ℝ
  | [] => .ok 0
  | (T, dcf) :: rest =>
    match hwDiscount1 m theta expiry T (some r) with
    | .error e => .error e
    | .ok p => match hwCoupons m theta expiry fixedRate r rest with
      | .error e => .error e
      | .ok s => .ok (fixedRate * dcf * p + s)

/-- `_zero_function` (`hw1f.py:605-623`). -/
noncomputable def hwZero (m : HullWhite) (theta : ℝ → ℝ) (expiry notionalTime fixedRate : ℝ) (coupons : List (ℝ × ℝ)) (r : ℝ) : Except Err ℝ :=
  match hwDiscount1 m theta expiry notionalTime (some r) with
  | .error e => .error e
  | .ok p => match hwCoupons m theta expiry fixedRate r coupons with
    | .error e => .error e
    | .ok c => .ok (p + c - 1)

/-- `jamshidian_decomposition` (`hw1f.py:578-654`). -/
noncomputable def jamshidian (brentq : Brentq) (m : HullWhite) (theta : ℝ → ℝ) (expiry : ℝ) (times fractions : List ℝ) (notionalTime fixedRate : ℝ) :
    Except Err (List ℝ) :=
  if times.length ≠ fractions.length then .error .value
  else if ∃ p ∈ times.zip times.tail, ¬ p.1 < p.2 then .error .value
  else if times.length < 2 then .error .index
  else if notionalTime < times.getD (times.length - 2) 0 then .error .value
  else match brentq (-1, 1) (hwZero m theta expiry notionalTime fixedRate (times.zip fractions)) with
    | .error e => .error e
    | .ok r => match times.mapM (fun T => hwDiscount1 m theta expiry T (some r)) with
      | .error e => .error e
      | .ok strikes =>
        if notionalTime ≠ times.getLastD 0 then
          match hwDiscount1 m theta expiry notionalTime (some r) with
          | .error e => .error e
          | .ok k => .ok (strikes ++ [k])
        else .ok strikes

/-- The bond options of a swaption (`hw1f.py:708-723`), one after the other, if the calls used the keywords `kws`; the price of each is
the single element of the array. -/
noncomputable def hwBondOptions (kws : List String) (m : HullWhite) (expiry cp : ℝ) : List (ℝ × ℝ) → Except Err (List (Option ℝ))
  | [] => .ok []
  | (T, k) :: rest =>
    match checkKeywords bondOptionParameters kws with
    | .error e => .error e
    | .ok _ => match priceZeroCouponBondOption m [expiry] [T] [k] [cp] 0 with
      | .error e => .error e
      | .ok x => match hwBondOptions kws m expiry cp rest with
        | .error e => .error e
        | .ok xs => .ok (x.headD none :: xs)

/-- `price_swaption` (`hw1f.py:657-734`), if the calls of the bond-option pricer used the keywords `kws`: the only element of the array
returned.  The values of the coupons are arrays of size one, so line 727 multiplies a row of year fractions by a column of values: the sum
of the products is the product of the sums. -/
noncomputable def priceSwaptionKw (kws : List String) (brentq : Brentq) (m : HullWhite) (theta : ℝ → ℝ) (expiry : ℝ) (times fractions : List ℝ)
    (notionalTime fixedRate : ℝ) (isPayer : Bool) (notional : ℝ) : Except Err (Option ℝ) :=
  match jamshidian brentq m theta expiry times fractions notionalTime fixedRate with
  | .error e => .error e
  | .ok ks =>
    let cp : ℝ := if isPayer then -1 else 1
    match hwBondOptions kws m expiry cp (times.zip ks.dropLast) with
    | .error e => .error e
    | .ok cs => match hwBondOptions kws m expiry cp [(notionalTime, ks.getLastD 0)] with
      | .error e => .error e
      | .ok ns => .ok ((cs.mapM id).bind (fun vs => (ns.headD none).map (fun v =>
          notional * (fixedRate * (vs.map (fun x => (fractions.map (fun f => f * x)).sum)).sum + v))))

/-- `price_swaption` (`hw1f.py:657-734`). -/
noncomputable def priceSwaption (brentq : Brentq) (m : HullWhite) (theta : ℝ → ℝ) (expiry : ℝ) (times fractions : List ℝ)
    (notionalTime fixedRate : ℝ) (isPayer : Bool) (notional : ℝ) : Except Err (Option ℝ) :=
  priceSwaptionKw optionletKeywords brentq m theta expiry times fractions notionalTime fixedRate isPayer notional

/-! ## Simulation -/

/-- The argument `method` of `simulate` (`hw1f.py:159`): `other` is any string that is not recognised. -/
inductive HwMethod
  | euler
  | rk4
  | exact
  | other

/-- One step of the short rate (`hw1f.py:226-269`), from the rate `R` at step `i`; `th` are the thetas on the grid and `z` the draw.  The
integral of `np.interp` over a step is that of the line between the two grid points. -/
noncomputable def hwStep (method : HwMethod) (alpha sigma dt : ℝ) (th : Nat → ℝ) (i : Nat) (R z : ℝ) : ℝ :=
  match method with
  | .euler => R + (th i - alpha * R) * dt + sigma * Real.sqrt dt * z
  | .rk4 =>
    let k1 := dt * (th i - alpha * R)
    let k2 := dt * (th i - alpha * (R + 0.5 * k1))
    let k3 := dt * (th i - alpha * (R + 0.5 * k2))
    let k4 := dt * (th i - alpha * (R + k3))
    R + (k1 + 2 * k2 + 2 * k3 + k4) / 6 + sigma * Real.sqrt dt * z
  | .exact =>
    R * Real.exp (-alpha * dt) +
      (∫ s in (i * dt)..((i + 1) * dt), (th i + (th (i + 1) - th i) * ((s - i * dt) / dt)) * Real.exp (-alpha * ((i + 1) * dt - s))) +
      Real.sqrt ((sigma ^ 2 / (2 * alpha)) * (1 - Real.exp (-2 * alpha * dt))) * z
  | .other => 0

/-- The rates along one path (`hw1f.py:222-269`). -/
noncomputable def hwPath (method : HwMethod) (alpha sigma r0 dt : ℝ) (th : Nat → ℝ) (z : Nat → ℝ) : Nat → ℝ
  | 0 => r0
  | i + 1 => hwStep method alpha sigma dt th i (hwPath method alpha sigma r0 dt th z i) (z i)

/-- `cumulative_integrated_R` (`hw1f.py:276-290`): `scipy.integrate.simpson` on two points is the trapezium. -/
noncomputable def hwIntegral (R : Nat → ℝ) (dt : ℝ) : Nat → ℝ
  | 0 => 0
  | k + 1 => hwIntegral R dt k + dt * (R k + R (k + 1)) / 2

/-- What `simulate` returns (`hw1f.py:301-305`), without the averages; `none` is `nan`. -/
structure HwSimulation where
  steps : Nat
  sims : Nat
  years : Nat → ℝ
  rate : Nat → Nat → ℝ
  discount : Nat → Nat → ℝ
  zeroRate : Nat → Nat → Option ℝ

/-- `averages_df['discount_factor']` (`hw1f.py:297`). -/
noncomputable def HwSimulation.meanDiscount (x : HwSimulation) (k : Nat) : ℝ := (∑ s ∈ Finset.range x.sims, x.discount k s) / x.sims

/-- `averages_df['cczr']` (`hw1f.py:298`); `none` at time zero. -/
noncomputable def HwSimulation.meanZeroRate (x : HwSimulation) (k : Nat) : Option ℝ :=
  if x.years k = 0 then none else some (-1 * Real.log (x.meanDiscount k) / x.years k)

/-- `simulate` (`hw1f.py:153-305`), for a positive time.  An antithetic set of an odd number of simulations has one simulation less, which
cannot be added to the rates (line 228) except for an unrecognised method, which uses no draws.  A mean reversion of the
wrong sign is no error: the variance of the exact scheme is positive anyway. -/
noncomputable def hwSimulate (gen : Generator) (m : HullWhite) (tau : ℝ) (steps sims : Int) (antithetic : Bool) (seed : Nat) (method : HwMethod) :
    Except Err HwSimulation :=
  match generateRandNbs gen steps 1 sims antithetic seed with
  | .error e => .error e
  | .ok z =>
    if m.alpha = 0 then .error .zeroDiv
    else if z.sims ≠ sims.toNat ∧ method ≠ .other then .error .value
    else
      let dt := tau / steps
      let th := fun i : Nat => m.alpha * m.r0 + (m.vol ^ 2 / (2 * m.alpha)) * (1 - Real.exp (-2 * m.alpha * (i * dt)))
      let R := fun k s => hwPath method m.alpha m.vol m.r0 dt th (fun i => z.get i 0 s) k
      let D := fun k s => Real.exp (-hwIntegral (fun i => R i s) dt k)
      .ok ⟨steps.toNat, sims.toNat, fun k => k * dt, R, D,
        fun k s => if k * dt = 0 then none else some (-1 * Real.log (D k s) / (k * dt))⟩

end Frm
