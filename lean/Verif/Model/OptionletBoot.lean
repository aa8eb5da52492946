import Verif.Model.Optionlet
import Verif.Model.Sabr
import Verif.Model.ZeroCurve

/-!
# `frm/term_structures/optionlet.py`: bootstrapping normal volatilities and SABR smiles

Lines 182-518.  The constructor never gets there (`makeOptionlet`), so this is what it would do.  Floats are real numbers; `none` stands
for `nan` and the infinities.  The quotes have finite strikes and prices.  Numerical methods are parameters.  The rows of
`term_structure` come in the order of their quote numbers (`C64_monotone`), so the rows before a quote's are a prefix of the table and
`optionlets.loc[N]` is the last of them.  Timings and prints are left out.
-/

namespace Frm
open Classical

set_option autoImplicit false

/-- What the bootstrap reads of a row of `term_structure` (`optionlet.py:115-119`). -/
structure BootRow where
  F : ℝ
  tau : ℝ
  annuity : ℝ

/-- What it writes (`optionlet.py:121`, 279, 373, 377, 515-518). -/
structure BootSmile where
  volN : ℝ
  volSln : ℝ
  alpha : ℝ
  beta : ℝ
  rho : ℝ
  volvol : ℝ

/-- The cells of one quote and one column: strike, flag and price (`optionlet.py:140-176`). -/
structure QuoteCell where
  K : ℝ
  cp : ℝ
  price : ℝ

/-- A quote: its columns, the cell of the column `atmf` if there is one with its equivalent normal volatility, and the column `beta`
(`optionlet.py:101-105`, 238-241). -/
structure BootQuote where
  cells : List QuoteCell
  atmf : Option (QuoteCell × ℝ)
  beta : Option ℝ

/-- The numerical methods used for one quote: Brent and L-BFGS-B in `black76_sln_to_normal_vol` (`optionlet.py:314`), L-BFGS-B for the
pillar (353-358), L-BFGS-B in `normal_vol_to_black76_sln` (377), `np.roots`, and the minimisation for the smile (486-489). -/
structure BootSolvers where
  brent : Method
  lbfgs : Method
  pillar : Method
  convert : Method
  roots : List ℝ → List ℂ
  sabr : BoxMinimiser

/-- The normal value of some optionlets, each at its own volatility (`optionlet.py:187-190`, 342-345). -/
noncomputable def normalValue (c : QuoteCell) (rows : List (BootRow × ℝ)) : Option ℝ :=
  npSum (rows.map (fun p => bachPrice ⟨p.1.F, p.1.tau, c.cp, c.K, p.2, p.1.annuity⟩))

/-- The starting point for a cell of `quote_vol_n` (`optionlet.py:209-214`), from the forward and the last expiry of the quote and the
quoted volatility; with numpy floats a zero strike plus shift gives `nan`. -/
noncomputable def quoteStart (F tau vol shift : ℝ) (c : QuoteCell) : Npf :=
  match slnToNormalAnalytical F tau c.K vol shift with
  | .ok g => g
  | .error _ => .nan

/-- A cell of `quote_vol_n` (`optionlet.py:182-228`), from the optionlets of the quote: within a fifth below and a quarter above the starting
point (line 219). -/
noncomputable def quoteNormalVol (lbfgs : Method) (F tau vol shift : ℝ) (rows : List BootRow) (c : QuoteCell) : Except Err ℝ :=
  minimiseVol (lbfgs (quoteStart F tau vol shift c) ((quoteStart F tau vol shift c).signed 0.8, (quoteStart F tau vol shift c).signed 1.25)) (fun v => npSquare (relativeGap (normalValue c (rows.map (fun o => (o, v)))) (some c.price)))

/-- The value of an optionlet on a SABR smile at the strike of a cell (`optionlet.py:295-311`, 426-434, 460-476). -/
noncomputable def smileValue (shift : ℝ) (o : BootRow) (alpha beta rho volvol : ℝ) (c : QuoteCell) : Option ℝ :=
  (sabrVol shift ⟨o.tau, o.F, alpha, beta, rho, volvol, c.K⟩).bind (fun s =>
    (b76Price ⟨o.F, o.tau, c.cp, c.K, s, shift, 1⟩).map (· * o.annuity))

/-- The value of the optionlets whose smiles are known (`optionlet.py:293-322`, 458-478). -/
noncomputable def solvedValue (shift : ℝ) (solved : List (BootRow × BootSmile)) (c : QuoteCell) : Option ℝ :=
  npSum (solved.map (fun p => smileValue shift p.1 p.2.alpha p.2.beta p.2.rho p.2.volvol c))

/-- `target` (`optionlet.py:322`, 455, 478): what the optionlets of this quote must be worth. -/
noncomputable def bootTarget (shift : ℝ) (solved : List (BootRow × BootSmile)) (c : QuoteCell) : Option ℝ :=
  (solvedValue shift solved c).map (fun v => c.price - v)

/-- `normal_vol_prior_pillar` (`optionlet.py:313-319`): the smile of the last known optionlet at the strike of this quote, as a normal
volatility. -/
noncomputable def priorPillarVol (sv : BootSolvers) (shift : ℝ) (last : BootRow × BootSmile) (c : QuoteCell) : Except Err Npf :=
  match sabrVol shift ⟨last.1.tau, last.1.F, last.2.alpha, last.2.beta, last.2.rho, last.2.volvol, c.K⟩ with
  | some s => black76SlnToNormalVol sv.brent sv.lbfgs last.1.F last.1.tau c.K s shift
  | none => if |last.1.F - c.K| < 1e-10 then .ok .nan
    else (solveVol (sv.brent .nan volNBounds) (sv.lbfgs .nan volNBounds) (fun _ => .nan)).map Npf.fin

/-- `np.interp(x, X, Y)` between two pillars for each row (`optionlet.py:338`, 369-373, 416-422, 504-509). -/
noncomputable def betweenPillars (t0 y0 t1 y1 : ℝ) (rows : List BootRow) : List ℝ :=
  rows.map (fun o => npInterp o.tau [(t0, y0), (t1, y1)])

/-- The expiry of the last row of the quote (`optionlet.py:275`, 326); of no consequence without rows. -/
noncomputable def pillarTime (last : BootRow × BootSmile) (rows : List BootRow) : ℝ := ((rows.getLast?).map (·.tau)).getD last.1.tau

/-- `vol_n_atm_obj_func` (`optionlet.py:334-345`).  `np.interp` reads a prior volatility that is `nan` only before the pillar; an infinite one
does not occur. -/
noncomputable def pillarError (target : Option ℝ) (t0 t1 : ℝ) (c : QuoteCell) (rows : List BootRow) (y0 : Npf) (v : ℝ) : Npf :=
  match y0 with
  | .fin y => npSquare (relativeGap (normalValue c (rows.zip (betweenPillars t0 y t1 v rows))) target)
  | _ => if ∀ o ∈ rows, t1 ≤ o.tau then npSquare (relativeGap (normalValue c (rows.map (fun o => (o, v)))) target) else .nan

/-- `vol_n_atm_pillar` of a later quote (`optionlet.py:293-365`): `KeyError` without earlier optionlets; with exactly one
`calc_sln_vol_for_strike_from_sabr_params` returns a float and `vol_sln[-1]` raises `TypeError`. -/
noncomputable def solvePillar (sv : BootSolvers) (shift : ℝ) (solved : List (BootRow × BootSmile)) (rows : List BootRow) (c : QuoteCell) :
    Except Err ℝ :=
  match solved.getLast? with
  | none => .error .key
  | some last =>
    if solved.length = 1 then .error .type
    else
      (priorPillarVol sv shift last c).bind (fun y0 =>
        minimiseVol (sv.pillar y0 volNBounds) (pillarError (bootTarget shift solved c) last.1.tau (pillarTime last rows) c rows y0))

/-- `vol_n_atm` of the rows of a quote (`optionlet.py:272-373`); the first quote is the one without predecessors. -/
noncomputable def quoteVolN (sv : BootSolvers) (shift : ℝ) (first : Bool) (solved : List (BootRow × BootSmile)) (rows : List BootRow)
    (q : BootQuote) : Except Err (List ℝ) :=
  match q.atmf with
  | none => .error .key
  | some (c, v) =>
    if first then .ok (rows.map (fun _ => v))
    else
      match solved.getLast? with
      | none => .error .key
      | some last => (solvePillar sv shift solved rows c).map (fun p => betweenPillars last.1.tau last.2.volN (pillarTime last rows) p rows)

/-- `_solve_vol_n_atm` (`optionlet.py:255-382`): normal and lognormal volatility of each row. -/
noncomputable def solveVolNAtm (sv : BootSolvers) (shift : ℝ) (first : Bool) (solved : List (BootRow × BootSmile)) (rows : List BootRow)
    (q : BootQuote) : Except Err (List (BootRow × ℝ × ℝ)) :=
  (quoteVolN sv shift first solved rows q).bind (fun vols => (rows.zip vols).mapM (fun p =>
    (normalVolToBlack76Sln sv.convert p.1.F p.1.tau p.1.F p.2 shift).map (fun s => (p.1, p.2, s))))

/-- The smile parameters of the rows given those of the pillar (`optionlet.py:406-422`, 496-509). -/
noncomputable def smileColumns (first : Bool) (solved : List (BootRow × BootSmile)) (rows : List BootRow) (beta rho volvol : ℝ) :
    List (ℝ × ℝ × ℝ) :=
  if first then rows.map (fun _ => (beta, rho, volvol))
  else
    match solved.getLast? with
    | none => []
    | some last =>
      (betweenPillars last.1.tau last.2.beta (pillarTime last rows) beta rows).zip
        ((betweenPillars last.1.tau last.2.rho (pillarTime last rows) rho rows).zip
          (betweenPillars last.1.tau last.2.volvol (pillarTime last rows) volvol rows))

/-- The smiles of the rows, with alpha from the other parameters (`optionlet.py:424-425`, 512-518). -/
noncomputable def rowSmiles (sv : BootSolvers) (shift : ℝ) (first : Bool) (solved : List (BootRow × BootSmile))
    (rows : List (BootRow × ℝ × ℝ)) (beta rho volvol : ℝ) : Except Err (List (BootRow × BootSmile)) :=
  (rows.zip (smileColumns first solved (rows.map (·.1)) beta rho volvol)).mapM (fun p =>
    (solveAlpha sv.roots p.1.1.tau p.1.1.F p.2.1 p.2.2.1 p.2.2.2 p.1.2.2 shift).map (fun a =>
      (p.1.1, ⟨p.1.2.1, p.1.2.2, a, p.2.1, p.2.2.1, p.2.2.2⟩)))

/-- The relative error of one column (`optionlet.py:436`). -/
noncomputable def columnError (shift : ℝ) (solved smiles : List (BootRow × BootSmile)) (c : QuoteCell) : Option ℝ :=
  match bootTarget shift solved c, solvedValue shift smiles c with
  | some t, some v => npDiv (some (t - v)) t
  | _, _ => none

/-- `sse_sabr_for_pillar_optionlet` (`optionlet.py:390-437`). -/
noncomputable def bootSse (sv : BootSolvers) (shift : ℝ) (first : Bool) (solved : List (BootRow × BootSmile))
    (rows : List (BootRow × ℝ × ℝ)) (q : BootQuote) (beta rho volvol : ℝ) : Except Err (Option ℝ) :=
  (rowSmiles sv shift first solved rows beta rho volvol).map (fun smiles =>
    npSum (q.cells.map (fun c => (columnError shift solved smiles c).map (fun e => e ^ 2 / q.cells.length))))

/-- `_solve_sabr_params` (`optionlet.py:385-518`). -/
noncomputable def solveSabrParams (sv : BootSolvers) (shift : ℝ) (first : Bool) (solved : List (BootRow × BootSmile))
    (rows : List (BootRow × ℝ × ℝ)) (q : BootQuote) : Except Err (List (BootRow × BootSmile)) :=
  match sv.sabr (sabrStart q.beta) (sabrBox q.beta)
      (fun x => (sabrUnpack q.beta x).bind (fun p => bootSse sv shift first solved rows q p.1 p.2.1 p.2.2)) with
  | .error e => .error e
  | .ok (false, _) => .error .value
  | .ok (true, x) => (sabrUnpack q.beta x).bind (fun p => rowSmiles sv shift first solved rows p.1 p.2.1 p.2.2)

/-- One turn of the loop over the quotes (`optionlet.py:236-246`), for a quote and the rows with its number. -/
noncomputable def bootStep (sv : BootSolvers) (shift : ℝ) (first : Bool) (solved : List (BootRow × BootSmile)) (rows : List BootRow)
    (q : BootQuote) : Except Err (List (BootRow × BootSmile)) :=
  (solveVolNAtm sv shift first solved rows q).bind (fun rs => solveSabrParams sv shift first solved rs q)

/-- The loop over the quotes (`optionlet.py:236-246`) after `n` of them; `solved` are the rows done. -/
noncomputable def bootFrom (sv : Nat → BootSolvers) (shift : ℝ) (n : Nat) (solved : List (BootRow × BootSmile)) :
    List (BootQuote × List BootRow) → Except Err (List (BootRow × BootSmile))
  | [] => .ok solved
  | q :: rest => (bootStep (sv n) shift (n == 0) solved q.2 q.1).bind (fun s => bootFrom sv shift (n + 1) (solved ++ s) rest)

/-- The bootstrap (`optionlet.py:236-246`): the table after it, for each quote with its rows. -/
noncomputable def bootOptionlets (sv : Nat → BootSolvers) (shift : ℝ) (quotes : List (BootQuote × List BootRow)) :
    Except Err (List (BootRow × BootSmile)) := bootFrom sv shift 0 [] quotes

end Frm
