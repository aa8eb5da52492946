import Verif.Model.FxSurface
import Verif.Model.ZeroCurve

/-!
# The two plotting methods (`frm/term_structures/zero_curve.py:397-423`, `frm/term_structures/fx_volatility_surface.py:501-565`)

What is modelled is the points handed to matplotlib; titles, labels and colours are not.  A point whose coordinate is `nan` is not drawn.
-/

namespace Frm
open Classical

set_option autoImplicit false

/-! ## `ZeroCurve.plot` -/

/-- `date - offset` (dateutil).  For `zero_curve.py:411`. -/
def DateOffset.negated : DateOffset → DateOffset
  | .days n => .days (-n)
  | .weeks n => .weeks (-n)
  | .months n => .months (-n)
  | .years n => .years (-n)

/-- The two lines of the figure (`zero_curve.py:409`, 415), as years and per cent. -/
structure CurvePlot where
  zero : List (ℝ × Option ℝ)
  forward : List (ℝ × Option ℝ)

/-- `ax.plot(x, y)` of values in per cent (`zero_curve.py:404`, 414): matplotlib refuses columns of different lengths. -/
noncomputable def plotLine (years : List Rat) (rates : List (Option ℝ)) : Except Err (List (ℝ × Option ℝ)) :=
  if years.length ≠ rates.length then .error .value
  else .ok ((years.zip rates).map (fun p => ((p.1 : ℝ), p.2.map (fun r => r * 100))))

/-- `ZeroCurve.plot` (`zero_curve.py:397-423`).  The default term is three months.  With a single date `year_frac` returns a number, which
`min` refuses in line 422. -/
noncomputable def ZeroCurve.plot (z : ZeroCurve) (term : DateOffset := .months 3) : Except Err CurvePlot :=
  match z.daily.map (·.date) with
  | _ :: lo :: rest => do
    let hi := (lo :: rest).getLast (by simp)
    let dates := dateRange lo hi
    let years ← yearFrac [z.curveDate] dates z.basis none
    let zero ← plotLine years (z.zeroRates .continuous dates)
    let d1 := dateRange lo (term.negated.addTo hi)
    let d2 := dateRange (term.addTo lo) hi
    let yearsForward ← yearFrac [z.curveDate] d1 z.basis none
    let rates ← z.forwardRates d1 d2 .simple
    let forward ← plotLine yearsForward rates
    if dates.length = 1 then .error .type else .ok ⟨zero, forward⟩
  | _ => .error .index

/-! ## `FXVolatilitySurface.plot_smile` -/

/-- `np.linspace(a, b, n)` (numpy) for `n ≥ 2`.  For `fx_volatility_surface.py:522-523`. -/
noncomputable def npLinspace (a b : ℝ) (n : Nat) : List ℝ := (List.range n).map (fun (i : Nat) => a + i * ((b - a) / (n - 1)))

/-- The strikes of the fitted line (`fx_volatility_surface.py:520-524`): a hundred puts and a hundred calls. -/
noncomputable def plotStrikes (neutral : ℝ) (Ks : List ℝ) : List ℝ :=
  npLinspace (Ks.foldl min neutral) neutral 100 ++ npLinspace neutral (Ks.foldl max neutral) 100

/-- The flags of the options on the fitted line (`fx_volatility_surface.py:525`). -/
noncomputable def plotFlags : List ℝ := List.replicate 100 (-1) ++ List.replicate 100 1

/-- Where a delta is drawn (`fx_volatility_surface.py:543-548`, 551-552), in per cent: on the side of the puts or on that of the calls. -/
noncomputable def plotDelta (put : Bool) (delta : ℝ) : ℝ := 100 * if put then |delta| else 1 - delta

/-- The marks of the quotes (`fx_volatility_surface.py:541-544`, 551): the first half of them is drawn on the side of the puts. -/
noncomputable def plotMarks (deltas : List ℝ) (vols : List Npf) : List (ℝ × Npf) :=
  (deltas.zipIdx.map (fun p => plotDelta (decide (p.2 < deltas.length / 2)) p.1)).zip vols

/-- The delta that is drawn (`fx_volatility_surface.py:533-538`).  `delta_str` is not set for the premium-adjusted conventions
(`UnboundLocalError`, a `NameError`). -/
def plotGreek (conv : DeltaConvention) : Except Err (GkGreeks → Option ℝ) :=
  match conv with
  | .regularSpot => .ok GkGreeks.spotDelta
  | .regularForward => .ok GkGreeks.forwardDelta
  | _ => .error .name

/-- One point of the fitted line (`fx_volatility_surface.py:546-552`).  A volatility that is not finite has no delta. -/
noncomputable def plotPoint (delta : GkGreeks → Option ℝ) (put : Bool) (p : SurfacePoint) (g : GkGreeks) : Option ℝ × Npf :=
  (match p.vol with
    | .fin _ => (delta g).map (plotDelta put)
    | _ => none, p.vol)

/-- The marks and the fitted line of the figure (`fx_volatility_surface.py:551-552`). -/
structure SmilePlot where
  marks : List (ℝ × Npf)
  line : List (Option ℝ × Npf)

/-- The strike of the column `atm_delta_neutral` (`fx_volatility_surface.py:521`): `.item()` refuses none and several. -/
def neutralStrike (names : List Str) (Ks : List ℝ) : Except Err ℝ :=
  match (names.zip Ks).filter (fun p => p.1 = "atm_delta_neutral".toList) with
  | [p] => .ok p.2
  | _ => .error .value

/-- `plot_smile` (`fx_volatility_surface.py:501-565`).  `names` is `quotes_column_names`.  Strikes that are not finite do not occur:
a smile through them was refused before (`fitDay`). -/
noncomputable def plotSmile (S : FxSurface) (names : List Str) (sv : FxSolvers) (st : SmileState) (d : Int) :
    SmileState × Except Err SmilePlot :=
  match solveSmiles S sv st [d] with
  | (st, .error e) => (st, .error e)
  | (st, .ok ()) =>
    match dayOf S d with
    | none => (st, .error .index)
    | some day =>
      match dayStrikes S sv day with
      | .error e => (st, .error e)
      | .ok strikes =>
        match strikes.mapM id with
        | none => (st, .error .value)
        | some Ks =>
          match neutralStrike names Ks with
          | .error e => (st, .error e)
          | .ok neutral =>
            match interpVolSurface S sv st (List.replicate 200 d) (plotStrikes neutral Ks) plotFlags with
            | (st, .error e) => (st, .error e)
            | (st, .ok points) =>
              match garmanKohlhagenGreeks (points.map (surfaceGkRow S)) with
              | .error e => (st, .error e)
              | .ok greeks =>
                match plotGreek day.conv with
                | .error e => (st, .error e)
                | .ok delta =>
                  (st, .ok ⟨plotMarks S.deltas day.vols,
                    (points.zip greeks).zipIdx.map (fun p => plotPoint delta (decide (p.2 < 100)) p.1.1 p.1.2)⟩)

end Frm
