import Verif.Model.Optionlet
import Verif.Model.Sabr
import Verif.Model.ZeroCurve

/-!
# `frm/term_structures/optionlet.py`: pricing a strip of optionlets

The methods that use a bootstrapped term structure.  The constructor never returns (`makeOptionlet`), so the term structure is an
arbitrary table here.  Floats are real numbers and `none` stands for `nan`.
-/

namespace Frm
open Classical

set_option autoImplicit false

/-- What the pricing methods use of a row of `term_structure` (`optionlet.py:118`, 533). -/
structure StoredSmile where
  start : Int
  volN : ℝ
  beta : ℝ
  rho : ℝ
  volvol : ℝ

/-- What the pricing methods use of an `Optionlet` (`optionlet.py:27-47`). -/
structure OptionletCurve where
  curveDate : Int
  basis : DayCountBasis
  zero : ZeroCurve
  shift : ℝ
  pillars : List StoredSmile

/-- A row of the schedule of a strip (`schedule.df`, `frm/utils/schedule.py:41-95`). -/
structure StripRow where
  start : Int
  finish : Int
  payment : Int

/-- One interpolated column at a date (`optionlet.py:532-541`): `DataFrame.interpolate(method='index')` fills forward only, so a date
before the first row stays `nan`; the last value is held after the last row. -/
noncomputable def interpolatedColumn (pillars : List StoredSmile) (column : StoredSmile → ℝ) (d : Int) : Option ℝ :=
  match sortBy StoredSmile.start pillars with
  | [] => none
  | p :: rest =>
    if d < p.start then none else some (npInterp (d : ℝ) ((p :: rest).map (fun r => ((r.start : ℝ), column r))))

/-- A row of the table returned by `interpolate_sabr_term_structure` (`optionlet.py:544-571`). -/
structure SmileAt where
  start : Int
  expiryYears : ℝ
  F : ℝ
  volN : ℝ
  volSln : ℝ
  alpha : ℝ
  beta : ℝ
  rho : ℝ
  volvol : ℝ

/-- One row (`optionlet.py:546-559`).  A `nan` or an infinity among the coefficients makes `np.roots` raise `LinAlgError`, a
`ValueError`. -/
noncomputable def smileAt (roots : List ℝ → List ℂ) (o : OptionletCurve) (start : Int) (F : Option ℝ) (tau : ℝ) : Except Err SmileAt :=
  match F, interpolatedColumn o.pillars (·.volN) start, interpolatedColumn o.pillars (·.beta) start,
      interpolatedColumn o.pillars (·.rho) start, interpolatedColumn o.pillars (·.volvol) start with
  | some F, some n, some b, some r, some v =>
    match normalVolAtmToSlnAtm F tau n o.shift with
      | .fin s => (solveAlpha roots tau F b r v s o.shift).map (fun a => ⟨start, tau, F, n, s, a, b, r, v⟩)
      | _ => .error .value
  | _, _, _, _, _ => .error .value

/-- `interpolate_sabr_term_structure` (`optionlet.py:521-571`).  Repeated dates are dropped (line 544) and the columns assigned next no
longer fit: `ValueError`.  There is nothing to concatenate for an empty schedule (line 565): `ValueError`. -/
noncomputable def interpolateSabr (roots : List ℝ → List ℂ) (o : OptionletCurve) (rows : List StripRow) : Except Err (List SmileAt) := do
  let F ← o.zero.forwardRates (rows.map (·.start)) (rows.map (·.finish)) .simple
  let taus ← yearFrac [o.curveDate] (rows.map (·.start)) o.basis none
  if rows = [] ∨ ¬ (rows.map (·.start)).Nodup then .error .value
  else ((rows.map (·.start)).zip (F.zip taus)).mapM (fun p => smileAt roots o p.1 p.2.1 (p.2.2 : ℝ))

/-- The argument `K`: a number, a list or array, or anything else (`optionlet.py:576-580`). -/
inductive StrikeArg where
  | number (k : ℝ)
  | array (l : List ℝ)
  | other

/-- The argument `cp`: a Python `int`, a list or array, or anything else — a float or a numpy integer (`optionlet.py:583-588`). -/
inductive FlagArg where
  | int (n : Int)
  | array (l : List ℝ)
  | other

/-- `_validate_strike_and_option_type` (`optionlet.py:574-592`). -/
noncomputable def validateStrike (K : StrikeArg) (cp : FlagArg) (n : Nat) : Except Err Unit := do
  match K with
  | .array l => pyAssert (decide (l.length = n))
  | .number _ => pure ()
  | .other => .error .assertion
  match cp with
  | .array l =>
    pyAssert (decide (l.length = n))
    pyAssert (l.all (fun v => decide (v = -1 ∨ v = 1)))
  | .int i => pyAssert (decide (i = -1 ∨ i = 1))
  | .other => .error .assertion
  match K, cp with
  | .array _, .array _ => pure ()
  | .array _, _ => .error .assertion
  | _, .array _ => .error .assertion
  | _, _ => pure ()

/-- The column `K` (`optionlet.py:636`). -/
noncomputable def StrikeArg.column (n : Nat) : StrikeArg → List ℝ
  | .number k => List.replicate n k
  | .array l => l
  | .other => []

/-- The column `cp` (`optionlet.py:637`). -/
noncomputable def FlagArg.column (n : Nat) : FlagArg → List ℝ
  | .int i => List.replicate n (i : ℝ)
  | .array l => l
  | .other => []

/-- Which volatilities are used: `use_term_structure`, `vol_sln_override` or `vol_n_override` (`optionlet.py:595-603`): each is
set by one of the three public methods (`optionlet.py:704-745`). -/
inductive StripVol where
  | termStructure
  | sln (v : List ℝ)
  | normal (v : List ℝ)

/-- The column made from an override (`optionlet.py:627-634`): one value is repeated, otherwise there must be one for each row. -/
def overrideColumn (n : Nat) (v : List ℝ) : Except Err (List ℝ) :=
  match v with
  | [x] => .ok (List.replicate n x)
  | _ => if v.length = n then .ok v else .error .value

/-- The volatilities of the rows (`optionlet.py:615-634`). -/
noncomputable def stripVols (o : OptionletCurve) (smiles : List SmileAt) (strikes : List ℝ) : StripVol → Except Err (List (Option ℝ))
  | .termStructure =>
    calcSabrVols (smiles.map (fun s => (s.expiryYears, s.F, s.alpha, s.beta, s.rho, s.volvol))) strikes o.shift
  | .sln v => (overrideColumn smiles.length v).map (fun l => l.map some)
  | .normal v => (overrideColumn smiles.length v).map (fun l => l.map some)

/-- A row of the result (`optionlet.py:636-670`). -/
structure PricedOptionlet where
  smile : SmileAt
  K : ℝ
  cp : ℝ
  vol : Option ℝ
  annuity : Option ℝ
  value : GkValue
  delta : Option ℝ
  vega : Option ℝ
  forwardPrice : Option ℝ

/-- What the pricing formulas make of a `nan` volatility or annuity (`optionlet.py:644-664`): before expiry the intrinsic value needs
neither. -/
noncomputable def nanValue (s : SmileAt) (K cp : ℝ) : GkValue :=
  ⟨none, if 0 < s.expiryYears then some (max 0 (cp * (s.F - K))) else none, none⟩

/-- One row priced (`optionlet.py:638-670`). -/
noncomputable def priceOptionletRow (shift : ℝ) (normal : Bool) (s : SmileAt) (K cp : ℝ) (vol annuity : Option ℝ) : PricedOptionlet :=
  let value := match vol, annuity with
    | some v, some a =>
      if normal then bachValue ⟨s.F, s.expiryYears, cp, K, v, a⟩ else b76Value ⟨s.F, s.expiryYears, cp, K, v, shift, a⟩
    | _, _ => nanValue s K cp
  let greeks := match vol, annuity with
    | some v, some a =>
      if normal then ((bachGreeks ⟨s.F, s.expiryYears, cp, K, v, a⟩).delta, (bachGreeks ⟨s.F, s.expiryYears, cp, K, v, a⟩).vega)
      else ((b76Greeks ⟨s.F, s.expiryYears, cp, K, v, shift, a⟩).delta, (b76Greeks ⟨s.F, s.expiryYears, cp, K, v, shift, a⟩).vega)
    | _, _ => (none, none)
  ⟨s, K, cp, vol, annuity, value, greeks.1, greeks.2, annuity.bind (fun a => npDiv value.price a)⟩

/-- `_price_optionlets` (`optionlet.py:595-673`); the three public methods are its uses (704-745).  The schedule has
payment dates and `add_period_yearfrac` succeeds on it unless the year fractions themselves fail (`frm/utils/schedule.py:113-126`). -/
noncomputable def priceOptionlets (roots : List ℝ → List ℂ) (o : OptionletCurve) (rows : List StripRow) (K : StrikeArg) (cp : FlagArg)
    (basis : DayCountBasis) (vol : StripVol) : Except Err (List PricedOptionlet) := do
  let fractions ← yearFrac (rows.map (·.start)) (rows.map (·.finish)) basis none
  validateStrike K cp rows.length
  let smiles ← interpolateSabr roots o rows
  let strikes : List ℝ := match K, vol with
    | .number k, .termStructure => [k]
    | _, _ => K.column rows.length
  let vols ← stripVols o smiles strikes vol
  let dfs := o.zero.discountFactors (rows.map (·.payment))
  if dfs.length ≠ rows.length then .error .value
  else
    let annuities := (fractions.zip dfs).map (fun p => p.2.map (fun d => (p.1 : ℝ) * d))
    let normal := match vol with | .normal _ => true | _ => false
    pure (((smiles.zip ((K.column rows.length).zip (cp.column rows.length))).zip (vols.zip annuities)).map
      (fun p => priceOptionletRow o.shift normal p.1.1 p.1.2.1 p.1.2.2 p.2.1 p.2.2))

/-- `detail_df['price'].sum()` (`optionlet.py:675`): pandas leaves `nan` out. -/
noncomputable def stripTotal (out : List PricedOptionlet) : ℝ := (out.filterMap (fun p => p.value.price)).sum

/-- `Series.mean()`: pandas leaves `nan` out; the mean of nothing is `nan` (`optionlet.py:688`, 697). -/
noncomputable def seriesMean (l : List (Option ℝ)) : Npf := Npf.divide (l.filterMap id).sum (l.filterMap id).length

/-- The equivalent flat volatilities (`optionlet.py:674-700`), lognormal and normal. -/
noncomputable def equivalentFlatVols (brent lbfgs brentN lbfgsN : Method) (o : OptionletCurve) (out : List PricedOptionlet) :
    Except Err (ℝ × ℝ) :=
  let guess := seriesMean (out.map (·.vol))
  let guessN := seriesMean (out.map (fun p => some p.smile.volN))
  match out.mapM (·.annuity) with
  | none =>
    (solveVol (brent guess volSlnBounds) (lbfgs guess volSlnBounds) (fun _ => .nan)).bind
      (fun a => (solveVol (brentN guessN volNBounds) (lbfgsN guessN volNBounds) (fun _ => .nan)).map (fun b => (a, b)))
  | some annuities =>
    (black76SolveImpliedVol brent lbfgs
      ((out.zip annuities).map (fun p => ⟨p.1.smile.F, p.1.smile.expiryYears, p.1.cp, p.1.K, 0, o.shift, p.2⟩)) (stripTotal out)
      guess).bind
    (fun a => (bachelierSolveImpliedVol brentN lbfgsN
      ((out.zip annuities).map (fun p => ⟨p.1.smile.F, p.1.smile.expiryYears, p.1.cp, p.1.K, 0, p.2⟩)) (stripTotal out) guessN).map
      (fun b => (a, b)))

end Frm
