import Verif.Model.NpReal
import Verif.Model.Normal
import Verif.Model.Err

/-!
# `frm/pricing_engine/garman_kohlhagen.py`

Arguments are lists of rows, one per element of the (broadcast) arrays.  `none` stands for `nan`.
-/

namespace Frm
open Classical

set_option autoImplicit false

/-- One element of the arguments of `garman_kohlhagen_price`.  `fwd` is the element of `F`, which is given for all elements or
for none (`garman_kohlhagen.py:11-23`). -/
structure GkRow where
  S0 : ℝ
  tau : ℝ
  rd : ℝ
  rf : ℝ
  cp : ℝ
  K : ℝ
  vol : ℝ
  fwd : Option ℝ

/-- `norm.cdf` (scipy; used at `garman_kohlhagen.py:98`); `none` is `nan`. -/
noncomputable def npCdf : Npf → Option ℝ
  | .fin x => some (normCdf x)
  | .posInf => some 1
  | .negInf => some 0
  | .nan => none

/-- The domestic rate (`garman_kohlhagen.py:84-93`).  With a forward and `tau = 0` numpy gets an infinity or `nan`, and `d1` and `d2` are
`nan`; the price is overwritten. -/
noncomputable def gkRate (x : GkRow) : ℝ :=
  match x.fwd with
  | some F => Real.log (F / x.S0) / x.tau + x.rf
  | none => x.rd

/-- `d1` (`garman_kohlhagen.py:95-96`).  At a zero time a forward gives `nan`, because the rate is not finite, and the denominator of a
negative volatility is a negative zero. -/
noncomputable def gkD1 (x : GkRow) : Npf :=
  if x.tau = 0 ∧ x.fwd ≠ none then .nan
  else if x.tau = 0 ∧ x.vol < 0 then ((Npf.divide x.S0 x.K).log.over 0).signed (-1)
  else ((Npf.divide x.S0 x.K).log.plus ((gkRate x - x.rf + 0.5 * x.vol ^ 2) * x.tau)).over (x.vol * Real.sqrt x.tau)

/-- `d2` (`garman_kohlhagen.py:97`). -/
noncomputable def gkD2 (x : GkRow) : Npf := (gkD1 x).plus (-(x.vol * Real.sqrt x.tau))

/-- The price of one element (`garman_kohlhagen.py:98-100`). -/
noncomputable def gkPrice (x : GkRow) : Option ℝ :=
  if x.tau = 0 then some (max 0 (x.cp * (x.S0 - x.K)))
  else
    match npCdf ((gkD1 x).signed x.cp), npCdf ((gkD2 x).signed x.cp) with
    | some n1, some n2 => some (x.cp * (x.S0 * Real.exp (-x.rf * x.tau) * n1 - x.K * Real.exp (-gkRate x * x.tau) * n2))
    | _, _ => none

/-- The intrinsic value of one element (`garman_kohlhagen.py:104-106`). -/
noncomputable def gkIntrinsic (x : GkRow) : Option ℝ :=
  if 0 < x.tau then some (max 0 (x.cp * (x.S0 * Real.exp (-x.rf * x.tau) - x.K * Real.exp (-gkRate x * x.tau)))) else gkPrice x

/-- The values of one element of the result (`garman_kohlhagen.py:101-108`). -/
structure GkValue where
  price : Option ℝ
  intrinsic : Option ℝ
  time : Option ℝ

/-- The values of one element, with `intrinsic_time_split=True` (`garman_kohlhagen.py:95-108`). -/
noncomputable def gkValue (x : GkRow) : GkValue where
  price := gkPrice x
  intrinsic := gkIntrinsic x
  time := (gkPrice x).bind (fun p => (gkIntrinsic x).map (fun i => p - i))

/-- The assertions (`garman_kohlhagen.py:78-82`, 87). -/
def gkValid (x : GkRow) : Prop :=
  0 < x.S0 ∧ 0 ≤ x.tau ∧ (x.cp = 1 ∨ x.cp = -1) ∧ ∀ F, x.fwd = some F → 0 < F

/-- `garman_kohlhagen_price` (`garman_kohlhagen.py:11-194`), without greeks.  With `numerical_greeks=True` line 163 reads a key
that was never created. -/
noncomputable def garmanKohlhagenPrice (rows : List GkRow) (numericalGreeks : Bool := false) : Except Err (List GkValue) :=
  if ∃ x ∈ rows, ¬ gkValid x then .error .assertion
  else if numericalGreeks then .error .key
  else .ok (rows.map gkValue)

/-- `norm.pdf` (scipy; used at `garman_kohlhagen.py:120`, 124, 131). -/
noncomputable def npPdf : Npf → Option ℝ
  | .fin x => some (normPdf x)
  | .posInf => some 0
  | .negInf => some 0
  | .nan => none

/-- The analytical greeks of one element (`garman_kohlhagen.py:115-137`); `none` is `nan`. -/
structure GkGreeks where
  spotDelta : Option ℝ
  forwardDelta : Option ℝ
  vega : Option ℝ
  theta : Option ℝ
  gamma : Option ℝ
  rho : Option ℝ

/-- The analytical greeks of one element (`garman_kohlhagen.py:110-137`).  At a zero time or volatility `d1` is not finite and its density
zero or `nan`: the quotients of theta, at a zero time, and of gamma are then `nan`. -/
noncomputable def gkGreeks (x : GkRow) : GkGreeks where
  spotDelta := (npCdf ((gkD1 x).signed x.cp)).map (fun n => x.cp * Real.exp (-x.rf * x.tau) * n)
  forwardDelta := (npCdf ((gkD1 x).signed x.cp)).map (fun n => x.cp * n)
  vega := (npPdf (gkD1 x)).map (fun p => x.S0 * Real.sqrt x.tau * p * Real.exp (-x.rf * x.tau) * 0.01)
  theta := if x.tau = 0 then none else
    (npPdf ((gkD1 x).signed x.cp)).bind (fun p => (npCdf ((gkD1 x).signed x.cp)).bind (fun n1 => (npCdf ((gkD2 x).signed x.cp)).map (fun n2 =>
      (-(x.S0 * Real.exp (-gkRate x * x.tau) * p * x.vol) / (2 * Real.sqrt x.tau)
        + x.rf * Real.exp (-x.rf * x.tau) * x.S0 * n1
        - gkRate x * Real.exp (-gkRate x * x.tau) * x.K * n2) * 1 / 365.25)))
  gamma := if x.tau = 0 ∨ x.vol = 0 then none else
    (npPdf (gkD1 x)).map (fun p => 0.01 * x.S0 * (Real.exp (-x.rf * x.tau) * p / (x.S0 * x.vol * Real.sqrt x.tau)))
  rho := (npCdf ((gkD2 x).signed x.cp)).map (fun n => x.K * x.tau * Real.exp (-x.rf * x.tau) * n * 0.01)

/-- `garman_kohlhagen_price(..., analytical_greeks=True)['analytical_greeks']` (`garman_kohlhagen.py:78-87`, 110-137). -/
noncomputable def garmanKohlhagenGreeks (rows : List GkRow) : Except Err (List GkGreeks) :=
  if ∃ x ∈ rows, ¬ gkValid x then .error .assertion else .ok (rows.map gkGreeks)

/-! ## Implied volatility -/

/-- A root finder: given a function (`none` where it is `nan`), it returns a number or raises (scipy;
used at `garman_kohlhagen.py:405`, 409). -/
abbrev RootFinder := (ℝ → Option ℝ) → Except Err ℝ

/-- The result of the implied-volatility solver (`garman_kohlhagen.py:405-411`). -/
inductive ImpliedVol
  | vol (x : ℝ)
  | inf

/-- `error_function` (`garman_kohlhagen.py:400-401`) at `vol`. -/
noncomputable def gkError (x : GkRow) (X vol : ℝ) : Option ℝ := (gkPrice { x with vol := vol, fwd := none }).map (fun p => p - X)

/-- `garman_kohlhagen_solve_implied_vol` (`garman_kohlhagen.py:347-411`) for one option.  `newton` is `scipy.optimize.newton` from
`vol_guess`, `brentq` is `root_scalar` on a bracket. -/
noncomputable def gkSolveImpliedVol (newton : RootFinder) (brentq : ℝ × ℝ → RootFinder) (x : GkRow) (X : ℝ) : Except Err ImpliedVol :=
  if ¬ gkValid { x with fwd := none } then .error .assertion
  else
    match newton (gkError x X) with
    | .ok v => .ok (.vol v)
    | .error .runtime =>
      match brentq (0.0001, 2) (gkError x X) with
      | .ok v => .ok (.vol v)
      | .error .value => .ok .inf
      | .error e => .error e
    | .error e => .error e

/-! ## Strike from delta -/

/-- `delta_convention` (`garman_kohlhagen.py:251-254`). -/
inductive DeltaConvention
  | regularSpot
  | regularForward
  | adjustedSpot
  | adjustedForward
deriving DecidableEq

/-- `atm_delta_convention` (`garman_kohlhagen.py:255-256`). -/
inductive AtmConvention
  | forward
  | perDeltaConvention
deriving DecidableEq

/-- `norm.ppf` (scipy; used at `garman_kohlhagen.py:272-274`). -/
noncomputable def normPpf (p : ℝ) : Npf :=
  if h : ∃ x, normCdf x = p then .fin h.choose else if p = 0 then .negInf else if p = 1 then .posInf else .nan

/-- `np.sign` (numpy; used at `garman_kohlhagen.py:250`). -/
noncomputable def npSign (x : ℝ) : ℝ := if 0 < x then 1 else if x < 0 then -1 else 0

/-- The market data of `garman_kohlhagen_solve_strike_from_delta` (scalars, `garman_kohlhagen.py:197-206`). -/
structure StrikeMarket where
  S0 : ℝ
  tau : ℝ
  rd : ℝ
  rf : ℝ
  fwd : Option ℝ

/-- `F` (`garman_kohlhagen.py:258-263`). -/
noncomputable def StrikeMarket.forward (m : StrikeMarket) : ℝ :=
  match m.fwd with
  | some F => F
  | none => m.S0 * Real.exp ((m.rd - m.rf) * m.tau)

/-- A quote: volatility and signed delta (`garman_kohlhagen.py:197-206`). -/
structure DeltaQuote where
  vol : ℝ
  delta : ℝ

/-- The strike for the regular conventions (`garman_kohlhagen.py:269-280`).  `none` where the quantile is not finite: the strike
is then `nan`, zero or infinite. -/
noncomputable def regularStrike (m : StrikeMarket) (spot : Bool) (atm : AtmConvention) (q : DeltaQuote) : Option ℝ :=
  let cp := npSign q.delta
  if |q.delta| = 0.5 ∧ atm = .forward then some (m.forward * Real.exp (0.5 * q.vol ^ 2 * m.tau))
  else
    match normPpf (if spot then cp * q.delta * Real.exp (m.rf * m.tau) else cp * q.delta) with
    | .fin z => some (m.forward * Real.exp (-cp * z * q.vol * Real.sqrt m.tau + 0.5 * q.vol ^ 2 * m.tau))
    | _ => none

/-- `solve_delta(K_)` (`garman_kohlhagen.py:293-298`): the premium-adjusted delta of the strike, less the delta asked for. -/
noncomputable def adjustedDeltaError (m : StrikeMarket) (spot : Bool) (q : DeltaQuote) (K : ℝ) : ℝ :=
  (if spot then Real.exp (-m.rf * m.tau) else 1) * (npSign q.delta * K / m.forward) *
    normCdf (npSign q.delta * (Real.log (m.forward / K) - 0.5 * q.vol ^ 2 * m.tau) / (q.vol * Real.sqrt m.tau)) - q.delta

/-- The loop over the quotes (`garman_kohlhagen.py:289-340`), which skips a delta of 0.5 but not one of -0.5.  `solve` stands
for the numerical solution of `solve_delta` in the bracket that the code computes: a converged root, or an exception.  For a
delta of 0 nothing is solved, and the last `solution` is used, if there is one. -/
noncomputable def adjustedLoop (solve : (ℝ → ℝ) → DeltaQuote → Except Err ℝ) (m : StrikeMarket) (spot : Bool) :
    Option ℝ → List DeltaQuote → Except Err (List (Option ℝ))
  | _, [] => .ok []
  | last, q :: qs =>
    if q.delta = 0.5 then do
      let rest ← adjustedLoop solve m spot last qs
      .ok (some (m.forward * Real.exp (-1 * 0.5 * q.vol ^ 2 * m.tau)) :: rest)
    else if q.delta = 0 then
      match last with
      | none => .error .name
      | some K => do
        let rest ← adjustedLoop solve m spot last qs
        .ok (some K :: rest)
    else do
      let K ← solve (adjustedDeltaError m spot q) q
      let rest ← adjustedLoop solve m spot (some K) qs
      .ok (some K :: rest)

/-- The strikes for the premium-adjusted conventions (`garman_kohlhagen.py:282-340`).  The loop runs when some quote is not at
the money. -/
noncomputable def adjustedStrikes (solve : (ℝ → ℝ) → DeltaQuote → Except Err ℝ) (m : StrikeMarket) (spot : Bool)
    (quotes : List DeltaQuote) : Except Err (List (Option ℝ)) :=
  if ∃ q ∈ quotes, |q.delta| ≠ 0.5 then adjustedLoop solve m spot none quotes
  else .ok (quotes.map (fun q => some (m.forward * Real.exp (-1 * 0.5 * q.vol ^ 2 * m.tau))))

/-- `garman_kohlhagen_solve_strike_from_delta` (`garman_kohlhagen.py:197-344`), for scalar market data and arrays of quotes. -/
noncomputable def gkStrikeFromDelta (solve : (ℝ → ℝ) → DeltaQuote → Except Err ℝ) (m : StrikeMarket) (conv : DeltaConvention)
    (atm : AtmConvention) (quotes : List DeltaQuote) : Except Err (List (Option ℝ)) :=
  if ¬ (0 < m.S0 ∧ 0 < m.tau ∧ ∀ F, m.fwd = some F → 0 < F) ∨ ∃ q ∈ quotes, ¬ (0 < q.vol ∧ -0.5 ≤ q.delta ∧ q.delta ≤ 0.5) then
    .error .assertion
  else
    match conv with
    | .regularSpot => .ok (quotes.map (regularStrike m true atm))
    | .regularForward => .ok (quotes.map (regularStrike m false atm))
    | .adjustedSpot => adjustedStrikes solve m true quotes
    | .adjustedForward => adjustedStrikes solve m false quotes

end Frm
