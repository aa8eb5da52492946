import Verif.Model.VolGeneric
import Verif.Model.GarmanKohlhagen
import Verif.Model.Heston

/-!
# `frm/term_structures/fx_volatility_surface.py` and the smile calibration of `frm/pricing_engine/heston.py`

The tables of the constructor that other helpers produce (column names, signed deltas, call/put flags, dates of the pillars) are given;
those helpers are modelled in `Verif/Model/FxHelpers.lean`.
-/

namespace Frm
open Classical

set_option autoImplicit false

/-! ## The daily table -/

/-- A row of `vol_smile_pillar_df` (`fx_volatility_surface.py:115-131`, 147): its expiry, the year fraction to it among those of the pillars, its
convention and quoted volatilities (`none`: `nan`). -/
structure SmilePillar where
  expiry : Int
  years : ℝ
  conv : DeltaConvention
  vols : List (Option ℝ)

/-- What `_add_fx_ir_to_df` and `year_frac` give for a day of the daily table (`fx_volatility_surface.py:104-112`, 140, 174): year fraction, forward
rate, domestic and foreign zero rate.  Missing rates (`nan`) are not modelled. -/
structure FxCurves where
  years : Int → ℝ
  fwd : Int → ℝ
  rd : Int → ℝ
  rf : Int → ℝ

/-- A row of `vol_smile_daily_df` (`fx_volatility_surface.py:174-178`). -/
structure SmileDay where
  expiry : Int
  years : ℝ
  fwd : ℝ
  rd : ℝ
  rf : ℝ
  conv : DeltaConvention
  vols : List Npf

/-- `merge_asof(…, direction='backward')` (`fx_volatility_surface.py:150-151`): the last pillar that is not later than `d`. -/
def lowerPillar (pillars : List SmilePillar) (d : Int) : Option SmilePillar := (pillars.filter (fun p => p.expiry ≤ d)).getLast?

/-- `merge_asof(…, direction='forward')` (`fx_volatility_surface.py:152-153`): the first pillar that is not earlier than `d`. -/
def upperPillar (pillars : List SmilePillar) (d : Int) : Option SmilePillar := pillars.find? (fun p => d ≤ p.expiry)

/-- The volatilities of two pillars as numbers (`fx_volatility_surface.py:165-166`).  When one of them is `nan`, so is the forward variance, which passes the
check of its sign (`volatility_generic.py:46`); two zeros pass it as well, and `smileVols` puts the `nan` back.  Between equal times the second is
not read (`volatility_generic.py:75-76`). -/
noncomputable def pairVols (t1 t2 : ℝ) : Option ℝ → Option ℝ → ℝ × ℝ
  | some v, some w => (v, w)
  | some v, none => if t1 = t2 then (v, 0) else (0, 0)
  | none, _ => (0, 0)

/-- The arguments of `flat_forward_interp` for one expiry (`fx_volatility_surface.py:159-172`). -/
noncomputable def smileInterpRows (curves : FxCurves) (lo hi : SmilePillar) (d : Int) : List InterpRow :=
  (lo.vols.zip hi.vols).map (fun v => ⟨⟨lo.years, (pairVols lo.years hi.years v.1 v.2).1, hi.years, (pairVols lo.years hi.years v.1 v.2).2⟩, curves.years d⟩)

/-- The volatilities of one day (`fx_volatility_surface.py:172`): `nan` where that of a neighbouring pillar is; that of the later pillar is not
read between equal times (`volatility_generic.py:75-76`). -/
noncomputable def smileVols (lo hi : SmilePillar) (out : List Npf) : List Npf :=
  List.zipWith (fun v x => if v.1.isSome ∧ (v.2.isSome ∨ lo.years = hi.years) then x else .nan) (lo.vols.zip hi.vols) out

/-- One row of the daily table (`fx_volatility_surface.py:140-178`).  The code calls `flat_forward_interp` once for all rows; its only
exception is `ValueError`, raised when some element is refused, so it may be called row by row.  A pillar is always found, because `d`
lies between the first and the last expiry (the row is never `IndexError`). -/
noncomputable def smileDay (curves : FxCurves) (pillars : List SmilePillar) (d : Int) : Except Err SmileDay :=
  match lowerPillar pillars d, upperPillar pillars d with
  | some lo, some hi =>
    match flatForwardInterp (smileInterpRows curves lo hi d) with
    | .ok vols => .ok ⟨d, curves.years d, curves.fwd d, curves.rd d, curves.rf d, hi.conv, smileVols lo hi vols⟩
    | .error e => .error e
  | _, _ => .error .index

/-- `pd.date_range(min, max, freq='d')` (`fx_volatility_surface.py:137`). -/
def daysBetween (lo hi : Int) : List Int := (List.range (hi + 1 - lo).toNat).map (fun (k : Nat) => lo + (k : Int))

/-- `_setup_vol_smile_daily_df` (`fx_volatility_surface.py:134-178`).  `merge_asof` refuses keys that are not in order (`ValueError`), and
so does `date_range` without a start. -/
noncomputable def smileDaily (curves : FxCurves) (pillars : List SmilePillar) : Except Err (List SmileDay) :=
  match pillars.map (·.expiry) with
  | [] => .error .value
  | e :: es =>
    if ¬ pillars.Pairwise (fun p q => p.expiry ≤ q.expiry) then .error .value
    else (daysBetween (es.foldl min e) (es.foldl max e)).mapM (smileDay curves pillars)

/-! ## Calibration of the Heston model to a smile (`heston.py:58-209`) -/

/-- The numerical routines of scipy: Newton's method from a guess and Brent's method on a bracket (`garman_kohlhagen.py:405`, 409), the solver for
premium-adjusted strikes (`garman_kohlhagen.py:289-340`), `scipy.optimize.minimize` with a starting point (`heston.py:192-194`),
`InterpolatedUnivariateSpline` of a degree and `CubicSpline` through points (`fx_volatility_surface.py:248`, 252). -/
structure FxSolvers where
  newton : ℝ → RootFinder
  brentq : ℝ × ℝ → RootFinder
  strike : (ℝ → ℝ) → DeltaQuote → Except Err ℝ
  minimize : (ℝ × ℝ × ℝ → Except Err (Option ℝ)) → ℝ × ℝ × ℝ → Except Err (ℝ × ℝ × ℝ)
  univariate : Nat → List ℝ → List ℝ → Except Err (ℝ → Option ℝ)
  cubic : List ℝ → List ℝ → Except Err (ℝ → Option ℝ)

/-- The smile that is calibrated to: spot, time, rates, flags, strikes and volatilities (`heston.py:58-67`, 171). -/
structure SmileMarket where
  S0 : ℝ
  tau : ℝ
  r : ℝ
  q : ℝ

/-- The vector `P` (`heston.py:131-141`).  The cosine method is given the flags and strikes together; the others price one strike after
another, and `cp[i]` raises `IndexError` when the flags run out (flags to spare are not read). -/
noncomputable def smilePrices (m : HestonPricing) (h : Heston) (x : SmileMarket) (cps Ks : List ℝ) : Except Err (List (Option ℝ)) :=
  match m with
  | .cosine => cosPrice h x.S0 x.tau x.r x.q cps Ks
  | m =>
    match (cps.zip Ks).mapM (fun o => hestonPrice m h 0 x.S0 x.tau x.r x.q o.1 o.2) with
    | .error e => .error e
    | .ok prices => if cps.length < Ks.length then .error .index else .ok prices

/-- The implied volatility of one price (`heston.py:143-147`; also `fx_volatility_surface.py:342-344`).  With a price that is `nan` Newton's
method does not converge and Brent's method raises `ValueError`, so the result is infinite. -/
noncomputable def smileImplied (sv : FxSolvers) (x : SmileMarket) (guess cp K : ℝ) (price : Option ℝ) : Except Err ImpliedVol :=
  match price with
  | none => .ok .inf
  | some X => gkSolveImpliedVol (sv.newton guess) sv.brentq ⟨x.S0, x.tau, x.r, x.q, cp, K, 0, none⟩ X

/-- One element of `IV` (`heston.py:143-147`). -/
noncomputable def smileIv (sv : FxSolvers) (x : SmileMarket) (guess cp K : ℝ) (price : Option ℝ) : Except Err ImpliedVol :=
  match price with
  | some X => if X < 0 then .ok (.vol (-1)) else smileImplied sv x guess cp K (some X)
  | none => smileImplied sv x guess cp K none

/-- One element of `volatility_quotes - IV`, squared (`heston.py:149`); `none` is infinite. -/
noncomputable def squaredError (quote : ℝ) : ImpliedVol → Option ℝ
  | .vol v => some ((quote - v) ^ 2)
  | .inf => none

/-- `SSE` (`heston.py:149`); `none` is infinite. -/
noncomputable def smileSse : List ℝ → List ImpliedVol → Option ℝ
  | q :: qs, v :: vs => (squaredError q v).bind (fun e => (smileSse qs vs).map (fun s => e + s))
  | _, _ => some 0

/-- `calibration_helper` with valid parameters (`heston.py:128-154`): implied volatilities and sum of squared errors. -/
noncomputable def smileFit (sv : FxSolvers) (m : HestonPricing) (x : SmileMarket) (cps Ks quotes : List ℝ) (h : Heston) :
    Except Err (List ImpliedVol × Option ℝ) :=
  match smilePrices m h x cps Ks with
  | .error e => .error e
  | .ok prices =>
    match ((quotes.zip (cps.zip Ks)).zip prices).mapM (fun o => smileIv sv x o.1.1 o.1.2.1 o.1.2.2 o.2) with
    | .error e => .error e
    | .ok ivs => .ok (ivs, smileSse quotes ivs)

/-- The result of the calibration (`heston.py:205-209`); `lambda_` is 0.  A fit with an infinite sum of squared errors (`none`) stands for
the `None` that is returned in place of it (line 207). -/
structure HestonFit where
  model : Heston
  ivs : List ImpliedVol
  sse : Option ℝ

/-- The parameters for which `calibration_helper` computes something (`heston.py:123-126`). -/
def validParam (p : ℝ × ℝ × ℝ) : Prop := 0 ≤ p.1 ∧ 0 ≤ p.2.1 ∧ |p.2.2| ≤ 1

/-- The parameters `vv`, `theta`, `rho` with those that are not solved for (`heston.py:176-188`). -/
noncomputable def fitModel (var0 : ℝ) (p : ℝ × ℝ × ℝ) : Heston := ⟨var0, p.1, 1.5, p.2.1, p.2.2⟩

/-- `heston_calibrate_vanilla_smile` (`heston.py:58-209`).  When the parameters returned by the optimiser are not valid the helper returns a
single number and line 203 raises `TypeError`.  Quotes and deltas of different lengths are refused when the strikes are solved
(`garman_kohlhagen.py:249`).  Strikes that are not finite are not modelled (`ValueError`).
Parameters with a volatility of variance of exactly zero are accepted by the code, whose pricers then divide by zero (`nan`, recorded as an
infinite volatility); the model's price for them means nothing. -/
noncomputable def hestonCalibrate (sv : FxSolvers) (m : HestonPricing) (x : SmileMarket) (conv : DeltaConvention) (cps deltas quotes : List ℝ) :
    Except Err HestonFit :=
  if ¬ (0 < x.S0 ∧ 0 < x.tau ∧ ∀ cp ∈ cps, cp = -1 ∨ cp = 1) then .error .value
  else
    match m with
    | .unknown => .error .value
    | m =>
      if deltas.length ≠ quotes.length then .error .assertion else
      match gkStrikeFromDelta sv.strike ⟨x.S0, x.tau, x.r, x.q, none⟩ conv .forward ((quotes.zip deltas).map (fun p => ⟨p.1, p.2⟩)) with
      | .error e => .error e
      | .ok strikes =>
        match strikes.mapM id with
        | none => .error .value
        | some Ks =>
          match quotes[Ks.length / 2]? with
          | none => .error .index
          | some mid =>
            let var0 := mid ^ 2
            match sv.minimize (fun p => if validParam p then (smileFit sv m x cps Ks quotes (fitModel var0 p)).map (·.2) else .ok none)
                (2 * Real.sqrt var0, 2 * var0, 0) with
            | .error e => .error e
            | .ok p =>
              if ¬ validParam p then .error .type
              else
                match smileFit sv m x cps Ks quotes (fitModel var0 p) with
                | .error e => .error e
                | .ok out => .ok ⟨fitModel var0 p, out.1, out.2⟩

/-! ## The surface -/

/-- `smile_interpolation_method` (`fx_volatility_surface.py:55`; `enums/term_structures.py:33-40`). -/
inductive SmileMethod
  | univariate
  | cubic
  | heston (m : HestonPricing)

/-- A value of `vol_smile_daily_func` (`fx_volatility_surface.py:248-280`): a spline, or a dictionary of Heston parameters. -/
inductive Smile
  | spline (f : ℝ → Option ℝ)
  | heston (fit : HestonFit)

/-- The attributes of the surface that queries read (`fx_volatility_surface.py:37-65`). -/
structure FxSurface where
  spot : ℝ
  deltas : List ℝ
  flags : List ℝ
  daily : List SmileDay
  method : SmileMethod

/-- A volatility as a number.  One that is `nan` or infinite becomes 0: both are refused by the assertions on volatility and time
(`garman_kohlhagen.py:246-248`). -/
noncomputable def volNumber : Npf → ℝ
  | .fin v => v
  | _ => 0

/-- `r_d_basis_adj` (`fx_volatility_surface.py:228`, 329). -/
noncomputable def basisRate (spot : ℝ) (day : SmileDay) : ℝ := Real.log (day.fwd / spot) / day.years + day.rf

/-- The market of one expiry, as the Heston functions get it (`fx_volatility_surface.py:218-233`, 320-334). -/
noncomputable def dayMarket (spot : ℝ) (day : SmileDay) : SmileMarket := ⟨spot, day.years, basisRate spot day, day.rf⟩

/-- The strikes of the quotes of one expiry (`fx_volatility_surface.py:242-243`). -/
noncomputable def dayStrikes (S : FxSurface) (sv : FxSolvers) (day : SmileDay) : Except Err (List (Option ℝ)) :=
  gkStrikeFromDelta sv.strike ⟨S.spot, day.years, day.rd, day.rf, some day.fwd⟩ day.conv .forward
    ((day.vols.zip S.deltas).map (fun p => ⟨volNumber p.1, p.2⟩))

/-- The smile of one row (`fx_volatility_surface.py:236-283`).  A spline through strikes that are not finite is refused (`ValueError`). -/
noncomputable def fitDay (S : FxSurface) (sv : FxSolvers) (day : SmileDay) : Except Err Smile :=
  match S.method with
  | .univariate =>
    match dayStrikes S sv day with
    | .error e => .error e
    | .ok strikes =>
      if day.vols.length < 3 then .error .value
      else
        match strikes.mapM id with
        | none => .error .value
        | some Ks => (sv.univariate (min 3 (max 2 (day.vols.length - 1))) Ks (day.vols.map volNumber)).map .spline
  | .cubic =>
    match dayStrikes S sv day with
    | .error e => .error e
    | .ok strikes =>
      if day.vols.length < 4 then .error .value
      else
        match strikes.mapM id with
        | none => .error .value
        | some Ks => (sv.cubic Ks (day.vols.map volNumber)).map .spline
  | .heston m =>
    match hestonCalibrate sv m (dayMarket S.spot day) day.conv S.flags S.deltas (day.vols.map volNumber) with
    | .error e => .error e
    | .ok fit =>
      match fit.sse with
      | none => .error .type
      | some s => if s < 0.001 then .ok (.heston fit) else .error .value

/-- The row of an expiry (`fx_volatility_surface.py:214-223`, 298-303): `.iloc[0]` raises `IndexError` when there is none. -/
def dayOf (S : FxSurface) (d : Int) : Option SmileDay := S.daily.find? (fun day => day.expiry = d)

/-- The smile of an expiry, computed afresh (`fx_volatility_surface.py:214-283`). -/
noncomputable def solveDay (S : FxSurface) (sv : FxSolvers) (d : Int) : Except Err Smile :=
  match dayOf S d with
  | none => .error .index
  | some day => fitDay S sv day

/-- `vol_smile_daily_func` (`fx_volatility_surface.py:61`, 70), with a record of the expiries for which lines 214-283 ran and whether they
stored a smile (the record is not part of the code). -/
structure SmileState where
  cache : List (Int × Smile)
  log : List (Int × Bool)

/-- A surface after its constructor (`fx_volatility_surface.py:70`). -/
def SmileState.fresh : SmileState := ⟨[], []⟩

/-- `self.vol_smile_daily_func[d]` (`fx_volatility_surface.py:212`, 309). -/
def SmileState.get (st : SmileState) (d : Int) : Option Smile := (st.cache.find? (fun e => e.1 = d)).map (·.2)

/-- `expiry_dates.unique()` (`fx_volatility_surface.py:211`). -/
def uniqueDates : List Int → List Int
  | [] => []
  | d :: ds => d :: (uniqueDates ds).filter (fun e => e ≠ d)

/-- The loop of `_solve_vol_daily_smile_func` (`fx_volatility_surface.py:211-283`): an exception leaves what was stored before it. -/
noncomputable def solveLoop (S : FxSurface) (sv : FxSolvers) (st : SmileState) : List Int → SmileState × Except Err Unit
  | [] => (st, .ok ())
  | d :: ds =>
    match st.get d with
    | some _ => solveLoop S sv st ds
    | none =>
      match solveDay S sv d with
      | .error e => (⟨st.cache, st.log ++ [(d, false)]⟩, .error e)
      | .ok smile => solveLoop S sv ⟨(d, smile) :: st.cache, st.log ++ [(d, true)]⟩ ds

/-- `_solve_vol_daily_smile_func` (`fx_volatility_surface.py:198-283`). -/
noncomputable def solveSmiles (S : FxSurface) (sv : FxSolvers) (st : SmileState) (ds : List Int) : SmileState × Except Err Unit :=
  solveLoop S sv st (uniqueDates ds)

/-- A row of the table returned by a query (`fx_volatility_surface.py:301-344`). -/
structure SurfacePoint where
  day : SmileDay
  K : ℝ
  cp : ℝ
  vol : Npf

/-- The volatility of one row (`fx_volatility_surface.py:309-344`).  A dictionary cannot be called and a spline has no items. -/
noncomputable def smileVol (S : FxSurface) (sv : FxSolvers) (smile : Smile) (day : SmileDay) (K cp : ℝ) : Except Err Npf :=
  match S.method, smile with
  | .univariate, .spline f | .cubic, .spline f =>
    match f K with
    | some v => .ok (.fin v)
    | none => .ok .nan
  | .heston m, .heston fit =>
    let x := dayMarket S.spot day
    match hestonPrice m fit.model 0 x.S0 x.tau x.r x.q cp K with
    | .error e => .error e
    | .ok price =>
      match smileImplied sv x (Real.sqrt fit.model.var0) cp K price with
      | .error e => .error e
      | .ok (.vol v) => .ok (.fin v)
      | .ok .inf => .ok .posInf
  | _, _ => .error .type

/-- One turn of the loop over the rows (`fx_volatility_surface.py:308-344`). -/
noncomputable def surfacePoint (S : FxSurface) (sv : FxSolvers) (st : SmileState) (d : Int) (K cp : ℝ) : Except Err SurfacePoint :=
  match dayOf S d, st.get d with
  | some day, some smile =>
    match smileVol S sv smile day K cp with
    | .error e => .error e
    | .ok v => .ok ⟨day, K, cp, v⟩
  | _, _ => .error .key

/-- `interp_vol_surface` (`fx_volatility_surface.py:286-345`). -/
noncomputable def interpVolSurface (S : FxSurface) (sv : FxSolvers) (st : SmileState) (ds : List Int) (Ks cps : List ℝ) :
    SmileState × Except Err (List SurfacePoint) :=
  if ds.length ≠ Ks.length ∨ ds.length ≠ cps.length then (st, .error .assertion)
  else
    match solveSmiles S sv st ds with
    | (st', .error e) => (st', .error e)
    | (st', .ok ()) => (st', (ds.zip (Ks.zip cps)).mapM (fun o => surfacePoint S sv st' o.1 o.2.1 o.2.2))

/-- The arguments of `garman_kohlhagen_price` for one row (`fx_volatility_surface.py:363-371`). -/
noncomputable def surfaceGkRow (S : FxSurface) (p : SurfacePoint) : GkRow :=
  ⟨S.spot, p.day.years, p.day.rd, p.day.rf, p.cp, p.K, volNumber p.vol, some p.day.fwd⟩

/-- `price_vanilla_european` (`fx_volatility_surface.py:349-382`), without greeks.  Prices at a volatility that is not finite are not
modelled (`none`); the assertions of the pricing function do not read the volatility. -/
noncomputable def priceVanilla (S : FxSurface) (sv : FxSolvers) (st : SmileState) (ds : List Int) (Ks cps : List ℝ) :
    SmileState × Except Err (List (Option GkValue)) :=
  match interpVolSurface S sv st ds Ks cps with
  | (st', .error e) => (st', .error e)
  | (st', .ok points) =>
    match garmanKohlhagenPrice (points.map (surfaceGkRow S)) with
    | .error e => (st', .error e)
    | .ok values => (st', .ok ((points.zip values).map (fun o => match o.1.vol with | .fin _ => some o.2 | _ => none)))

end Frm
