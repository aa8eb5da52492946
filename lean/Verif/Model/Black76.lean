import Verif.Model.GarmanKohlhagen
import Verif.Model.NormalVolApprox

/-!
# `frm/pricing_engine/black76_bachelier.py`

Arguments are lists of rows, one per element of the broadcast arrays; the checks on shapes (lines 73-77 and 243-247), the broadcasting
and the numerical greeks are in `Verif.Model.Black76Calls`.  `none` stands for `nan`.
-/

namespace Frm
open Classical

set_option autoImplicit false

/-- One element of the arguments of `black76_price` (`black76_bachelier.py:14-24`). -/
structure B76Row where
  F : ℝ
  tau : ℝ
  cp : ℝ
  K : ℝ
  vol : ℝ
  shift : ℝ
  annuity : ℝ

/-- `d1` (`black76_bachelier.py:79-83`); the root of a negative time is `nan`. -/
noncomputable def b76D1 (x : B76Row) : Npf :=
  if x.tau < 0 then .nan else
  ((Npf.divide (x.F + x.shift) (x.K + x.shift)).log.plus (0.5 * x.vol ^ 2 * x.tau)).over (x.vol * Real.sqrt x.tau)

/-- `d2` (`black76_bachelier.py:84`). -/
noncomputable def b76D2 (x : B76Row) : Npf := (b76D1 x).plus (-(x.vol * Real.sqrt x.tau))

/-- The price of one element (`black76_bachelier.py:85`). -/
noncomputable def b76Price (x : B76Row) : Option ℝ :=
  match npCdf ((b76D1 x).signed x.cp), npCdf ((b76D2 x).signed x.cp) with
  | some n1, some n2 => some (x.annuity * x.cp * ((x.F + x.shift) * n1 - (x.K + x.shift) * n2))
  | _, _ => none

/-- The intrinsic value of one element (`black76_bachelier.py:91-93`); neither branch applies to a negative time. -/
noncomputable def b76Intrinsic (x : B76Row) : Option ℝ :=
  if 0 < x.tau then some (max 0 (x.cp * ((x.F + x.shift) - (x.K + x.shift)))) else if x.tau = 0 then b76Price x else none

/-- The values of one element, with `intrinsic_time_split=True` (`black76_bachelier.py:87-95`). -/
noncomputable def b76Value (x : B76Row) : GkValue where
  price := b76Price x
  intrinsic := b76Intrinsic x
  time := (b76Price x).bind (fun p => (b76Intrinsic x).map (fun i => p - i))

/-- `black76_price` (`black76_bachelier.py:14-128`), without greeks. -/
noncomputable def black76Price (rows : List B76Row) : List GkValue := rows.map b76Value

/-! ## Bachelier -/

/-- One element of the arguments of `bachelier_price` (`black76_bachelier.py:187-196`). -/
structure BachRow where
  F : ℝ
  tau : ℝ
  cp : ℝ
  K : ℝ
  vol : ℝ
  annuity : ℝ

/-- `d` (`black76_bachelier.py:250`); the root of a negative time is `nan`. -/
noncomputable def bachD (x : BachRow) : Npf := if x.tau < 0 then .nan else Npf.divide (x.F - x.K) (x.vol * Real.sqrt x.tau)

/-- The price of one element (`black76_bachelier.py:251`). -/
noncomputable def bachPrice (x : BachRow) : Option ℝ :=
  match npCdf ((bachD x).signed x.cp), npPdf (bachD x) with
  | some n, some p => some (x.annuity * (x.cp * (x.F - x.K) * n + x.vol * Real.sqrt x.tau * p))
  | _, _ => none

/-- The intrinsic value of one element (`black76_bachelier.py:257-259`). -/
noncomputable def bachIntrinsic (x : BachRow) : Option ℝ :=
  if 0 < x.tau then some (max 0 (x.cp * (x.F - x.K))) else if x.tau = 0 then bachPrice x else none

/-- The values of one element, with `intrinsic_time_split=True` (`black76_bachelier.py:253-261`). -/
noncomputable def bachValue (x : BachRow) : GkValue where
  price := bachPrice x
  intrinsic := bachIntrinsic x
  time := (bachPrice x).bind (fun p => (bachIntrinsic x).map (fun i => p - i))

/-- `bachelier_price` (`black76_bachelier.py:187-274`), without greeks. -/
noncomputable def bachelierPrice (rows : List BachRow) : List GkValue := rows.map bachValue

/-- Delta and vega.  For `frm/pricing_engine/black76_bachelier.py:97-104`. -/
structure B76Greeks where
  delta : Option ℝ
  vega : Option ℝ

/-- The analytical greeks of one element (`black76_bachelier.py:100-104`). -/
noncomputable def b76Greeks (x : B76Row) : B76Greeks where
  delta := (npCdf ((b76D1 x).signed x.cp)).map (fun n => x.cp * n * x.annuity)
  vega := (npPdf (b76D1 x)).map (fun p => 0.01 * ((x.F + x.shift) * Real.sqrt x.tau * p) * x.annuity)

/-- `black76_price(..., analytical_greeks=True)['analytical_greeks']` (`black76_bachelier.py:97-104`). -/
noncomputable def black76Greeks (rows : List B76Row) : List B76Greeks := rows.map b76Greeks

/-- Delta, vega and theta.  For `frm/pricing_engine/black76_bachelier.py:263-273`. -/
structure BachGreeks where
  delta : Option ℝ
  vega : Option ℝ
  theta : Option ℝ

/-- The analytical greeks of one element (`black76_bachelier.py:263-272`).  At expiry `d` is not finite and the quotient of theta is zero
over zero. -/
noncomputable def bachGreeks (x : BachRow) : BachGreeks where
  delta := (npCdf ((bachD x).signed x.cp)).map (fun n => x.cp * n * x.annuity)
  vega := (npPdf ((bachD x).signed x.cp)).map (fun p => Real.sqrt x.tau * p * x.annuity * 0.0001)
  theta := if x.tau = 0 then none
    else (npPdf (bachD x)).map (fun p => (-0.5 * p * x.vol / Real.sqrt x.tau) * x.annuity / (1 / 365.25))

/-- `bachelier_price(..., analytical_greeks=True)['analytical_greeks']` (`black76_bachelier.py:263-272`). -/
noncomputable def bachelierGreeks (rows : List BachRow) : List BachGreeks := rows.map bachGreeks

/-! ## Implied volatility -/

/-- A numerical method: it asks for values of the objective function and then returns a point, with a success flag and the value of
the function there, or raises.  (scipy's `root_scalar` and `minimize`; used at `black76_bachelier.py:163` and 177.) -/
inductive Search
  | ask (x : ℝ) (k : Npf → Search)
  | ret (x : ℝ) (success : Bool)
  | fail (e : Err)

/-- scipy's `root_scalar(..., x0, bracket, method='brentq')` or `minimize(..., x0, bounds=[bounds], method='L-BFGS-B')`: the method for a
starting point and bounds (`black76_bachelier.py:163`, 176, 308, 321, 425-429, 481-485). -/
abbrev Method := Npf → Npf × Npf → Search

/-- `VOL_SLN_BOUNDS` (`black76_bachelier.py:11`). -/
noncomputable def volSlnBounds : Npf × Npf := (.fin (0.1 / 100), .fin (1000 / 100))

/-- `VOL_N_BOUNDS` (`black76_bachelier.py:12`). -/
noncomputable def volNBounds : Npf × Npf := (.fin (0.01 / 100), .fin (100 / 100))

/-- What a run of a numerical method ends with: `error_function` raised `StopIteration` at a point, the method returned a point, or it
raised.  For `frm/pricing_engine/black76_bachelier.py:143-185`. -/
inductive SearchEnd
  | stopped (x : ℝ)
  | returned (x : ℝ) (success : Bool)
  | raised (e : Err)

/-- `abs(error) < tol` (`black76_bachelier.py:148`); false for `nan`. -/
noncomputable def within (tol : ℝ) : Npf → Prop
  | .fin e => |e| < tol
  | _ => False

/-- A run of the method on an error function that raises `StopIteration` within the tolerance (`black76_bachelier.py:143-150`). -/
noncomputable def Search.run (f : ℝ → Npf) (tol : ℝ) : Search → SearchEnd
  | .ask x k => if within tol (f x) then .stopped x else (k (f x)).run f tol
  | .ret x s => .returned x s
  | .fail e => .raised e

/-- `relative_error` (`black76_bachelier.py:146`, 291): the sum of the prices against `X`; `none` is `nan`. -/
noncomputable def relativeError (prices : List (Option ℝ)) (X : ℝ) : Npf :=
  match prices.mapM id with
  | some ps => Npf.divide (ps.sum - X) X
  | none => .nan

/-- `relative_error ** 2`.  For `frm/pricing_engine/black76_bachelier.py:147`. -/
noncomputable def npSquare : Npf → Npf
  | .fin x => .fin (x ^ 2)
  | .nan => .nan
  | _ => .posInf

/-- The body common to `black76_solve_implied_vol` and `bachelier_solve_implied_vol` (`black76_bachelier.py:152-184`, 297-329).
`err v` is the relative error at volatility `v`.  A `ValueError` of Brent's method is not caught. -/
noncomputable def solveVol (brent lbfgs : Search) (err : ℝ → Npf) : Except Err ℝ :=
  match brent.run err 0.00001 with
  | .stopped v => .ok v
  | .returned v _ => if within 0.00001 (err v) then .ok v else fallback
  | .raised .runtime => fallback
  | .raised e => .error e
where
  /-- The fallback (`black76_bachelier.py:171-184`). -/
  fallback : Except Err ℝ :=
    match lbfgs.run (fun v => npSquare (err v)) (0.00001 ^ 2) with
    | .stopped v => .ok v
    | .returned v success => if success ∨ within (0.00001 ^ 2) (npSquare (err v)) then .ok v else .error .value
    | .raised e => .error e

/-- `black76_solve_implied_vol` (`black76_bachelier.py:131-184`). -/
noncomputable def black76SolveImpliedVol (brent lbfgs : Method) (rows : List B76Row) (X : ℝ) (guess : Npf := .fin 0.1) : Except Err ℝ :=
  solveVol (brent guess volSlnBounds) (lbfgs guess volSlnBounds)
    (fun v => relativeError ((black76Price (rows.map (fun x => { x with vol := v }))).map (·.price)) X)

/-- `bachelier_solve_implied_vol` (`black76_bachelier.py:277-329`). -/
noncomputable def bachelierSolveImpliedVol (brent lbfgs : Method) (rows : List BachRow) (X : ℝ) (guess : Npf := .fin 0.01) :
    Except Err ℝ :=
  solveVol (brent guess volNBounds) (lbfgs guess volNBounds)
    (fun v => relativeError ((bachelierPrice (rows.map (fun x => { x with vol := v }))).map (·.price)) X)

/-! ## Volatility conversion -/

/-- `black76_sln_to_normal_vol` (`black76_bachelier.py:379-398`), for Python floats.  `brent` and `lbfgs` are the numerical methods of the
nested implied volatility solver, started from the analytical approximation (lines 333-376). -/
noncomputable def black76SlnToNormalVol (brent lbfgs : Method) (F tau K vol shift : ℝ) : Except Err Npf :=
  if |F - K| < 1e-10 then
    .ok (if tau < 0 then .nan else Npf.divide (2.0 * (F + shift) * normCdf ((vol * Real.sqrt tau) / 2.0) - (F + shift)) (Real.sqrt tau * normPdf 0))
  else
    (slnToNormalAnalytical F tau K vol shift).bind (fun guess =>
      match b76Price ⟨F, tau, 1, K, vol, shift, 1⟩ with
      | some px => (bachelierSolveImpliedVol brent lbfgs [⟨F, tau, 1, K, 0, 1⟩] px guess).map Npf.fin
      | none => (solveVol (brent guess volNBounds) (lbfgs guess volNBounds) (fun _ => .nan)).map Npf.fin)

/-- `normal_vol_atm_to_black76_sln_atm` (`black76_bachelier.py:447-453`).  The root of a negative time is `nan`; at a zero time an infinity
is multiplied by the quantile zero of one half; the quantile of an infinity or of `nan`, which a zero shifted forward leads to, is `nan`. -/
noncomputable def normalVolAtmToSlnAtm (F tau volN shift : ℝ) : Npf :=
  if tau ≤ 0 ∨ F + shift = 0 then .nan else
  match normPpf ((volN * Real.sqrt tau * normPdf 0 + (F + shift)) / (2.0 * (F + shift))) with
  | .fin z => .fin ((2.0 / Real.sqrt tau) * z)
  | other => other

/-- The minimisation common to `shift_black76_vol` and `normal_vol_to_black76_sln` (`black76_bachelier.py:424-444`, 480-500): no early
stop, the result accepted when L-BFGS-B reports success or the squared relative error is below `1e-5 ** 2`. -/
noncomputable def minimiseVol (lbfgs : Search) (sq : ℝ → Npf) : Except Err ℝ :=
  match lbfgs.run sq 0 with
  | .stopped v => .ok v
  | .returned v success => if success ∨ within (0.00001 ^ 2) (sq v) then .ok v else .error .value
  | .raised e => .error e

/-- `(p - q) / q` for prices that may be `nan` (`black76_bachelier.py:416`, 473 with the sign dropped by the square). -/
noncomputable def relativeGap (p q : Option ℝ) : Npf :=
  match p, q with
  | some p, some q => Npf.divide (p - q) q
  | _, _ => .nan

/-- `shift_black76_vol` (`black76_bachelier.py:401-444`), for one option and Python floats: the quotient of the starting point raises
`ZeroDivisionError` (line 426). -/
noncomputable def shiftBlack76Vol (lbfgs : Method) (F tau K vol fromShift toShift : ℝ) : Except Err ℝ :=
  if F + (toShift - fromShift) = 0 then .error .zeroDiv
  else minimiseVol (lbfgs (.fin (vol * (F / (F + (toShift - fromShift))))) volSlnBounds)
    (fun w => npSquare (relativeGap (b76Price ⟨F, tau, 1, K, w, toShift, 1⟩) (b76Price ⟨F, tau, 1, K, vol, fromShift, 1⟩)))

/-- `normal_vol_to_black76_sln` (`black76_bachelier.py:456-500`), for one option: the value computed at the money (lines 463-464) is not
returned and has no effect.  For Python floats: the quotient of the starting point raises `ZeroDivisionError` (line 482). -/
noncomputable def normalVolToBlack76Sln (lbfgs : Method) (F tau K volN shift : ℝ) : Except Err ℝ :=
  if F + shift = 0 then .error .zeroDiv
  else minimiseVol (lbfgs (.fin (volN / (F + shift))) volSlnBounds)
    (fun w => npSquare (relativeGap (b76Price ⟨F, tau, 1, K, w, shift, 1⟩) (bachPrice ⟨F, tau, 1, K, volN, 1⟩)))

end Frm
