import Verif.Model.Black76

/-!
# Calling `black76_price` and `bachelier_price` (`frm/pricing_engine/black76_bachelier.py`)

The arguments are one-dimensional arrays, none of them empty; a number is an array of one element (`np.atleast_1d`, lines 70 and 240).
The values of the elements are those of `Verif.Model.Black76`.
-/

namespace Frm
open Classical

set_option autoImplicit false

/-- The arguments of `black76_price` after `np.atleast_1d` (`black76_bachelier.py:14-24`, 70). -/
structure B76Args where
  F : List ℝ
  tau : List ℝ
  cp : List ℝ
  K : List ℝ
  vol : List ℝ
  shift : List ℝ
  annuity : List ℝ

/-- The lengths of the arguments.  For `frm/pricing_engine/black76_bachelier.py:74`. -/
def B76Args.lengths (a : B76Args) : List Nat :=
  [a.F.length, a.tau.length, a.cp.length, a.K.length, a.vol.length, a.shift.length, a.annuity.length]

/-- The lengths of the arguments other than `cp`, whose broadcast is the length of vega (`black76_bachelier.py:102-104`). -/
def B76Args.lengthsBesideCp (a : B76Args) : List Nat :=
  [a.F.length, a.tau.length, a.K.length, a.vol.length, a.shift.length, a.annuity.length]

/-- The checks on shapes (`black76_bachelier.py:73-77`, 243-247). -/
def checkShapes (F tau : Nat) (lengths : List Nat) : Except Err Unit :=
  if F ≠ tau then .error .assertion
  else if lengths.dedup.length ≠ 1 ∧ lengths.dedup.length ≠ 2 then .error .assertion
  else if lengths.dedup.length = 2 ∧ 1 ∉ lengths.dedup then .error .assertion
  else .ok ()

/-- The length that numpy broadcasts to, of lengths that passed `checkShapes`.  For `frm/pricing_engine/black76_bachelier.py:79-85`. -/
def broadcastLength (lengths : List Nat) : Nat := (lengths.find? (fun n => n ≠ 1)).getD 1

/-- The element of an array at a place of the broadcast result.  For `frm/pricing_engine/black76_bachelier.py:79-85`. -/
noncomputable def broadcastAt (l : List ℝ) (i : Nat) : ℝ := if l.length = 1 then l.getD 0 0 else l.getD i 0

/-- The elements of the broadcast arguments (`black76_bachelier.py:79-85`). -/
noncomputable def B76Args.rows (a : B76Args) : List B76Row :=
  (List.range (broadcastLength a.lengths)).map (fun i =>
    ⟨broadcastAt a.F i, broadcastAt a.tau i, broadcastAt a.cp i, broadcastAt a.K i, broadcastAt a.vol i, broadcastAt a.shift i,
      broadcastAt a.annuity i⟩)

/-- The sum of two arrays, one of which may have a single element (`black76_bachelier.py:79-80`). -/
noncomputable def broadcastAdd (l m : List ℝ) : List ℝ :=
  (List.range (broadcastLength [l.length, m.length])).map (fun i => broadcastAt l i + broadcastAt m i)

/-- The columns of the table of greeks must have the same length: vega (theta for Bachelier) does not depend on `cp`
(`black76_bachelier.py:98-104`, 264-272; pandas raises `ValueError`). -/
def greekColumns (lengths lengthsBesideCp : List Nat) : Except Err Unit :=
  if broadcastLength lengths ≠ broadcastLength lengthsBesideCp then .error .value else .ok ()

/-- The prices of `black76_price(..., analytical_greeks=True)`, as called for the numerical greeks (`black76_bachelier.py:112-115`,
122-125). -/
noncomputable def b76Bumped (a : B76Args) : Except Err (List (Option ℝ)) := do
  checkShapes a.F.length a.tau.length a.lengths
  greekColumns a.lengths a.lengthsBesideCp
  .ok (a.rows.map b76Price)

/-- Numerical delta and vega.  For `frm/pricing_engine/black76_bachelier.py:106-126`. -/
structure B76Numerical where
  delta : Npf
  vega : Npf

/-- `(p - q) / d` for prices that may be `nan` (`black76_bachelier.py:116`, 126). -/
noncomputable def priceQuotient (p q : Option ℝ) (d : ℝ) : Npf :=
  match p, q with
  | some p, some q => Npf.divide (p - q) d
  | _, _ => .nan

/-- The numerical greeks (`black76_bachelier.py:106-126`).  `F` and `K` have been shifted already (lines 79-80) and are handed on
together with the shift. -/
noncomputable def b76NumericalGreeks (a : B76Args) : Except Err (List B76Numerical) := do
  let s : B76Args := { a with F := broadcastAdd a.F a.shift, K := broadcastAdd a.K a.shift }
  let up ← b76Bumped { s with F := s.F.map (fun F => F * (1 + 0.01)) }
  let down ← b76Bumped { s with F := s.F.map (fun F => F * (1 - 0.01)) }
  let more ← b76Bumped { s with vol := s.vol.map (fun v => v + 0.01) }
  let less ← b76Bumped { s with vol := s.vol.map (fun v => v - 0.01) }
  .ok ((List.range (broadcastLength a.lengths)).map (fun i => {
    delta := priceQuotient (up.getD i none) (down.getD i none) (2 * broadcastAt s.F i * 0.01)
    vega := priceQuotient (more.getD i none) (less.getD i none) (2 * (0.01 / 0.01)) }))

/-- What `black76_price` returns: the entries of the dictionary (`black76_bachelier.py:87-128`). -/
structure B76Result where
  price : List (Option ℝ)
  /-- `results['intrinsic']` and `results['time']` -/
  split : Option (List (Option ℝ × Option ℝ))
  /-- `results['analytical_greeks']` -/
  analytical : Option (List B76Greeks)
  /-- `results['numerical_greeks']` -/
  numerical : Option (List B76Numerical)

/-- The mask `tau>0` must be as long as the prices (`black76_bachelier.py:92-93`, 258-259; numpy raises `IndexError`). -/
def splitMask (tau n : Nat) : Except Err Unit := if tau ≠ n then .error .index else .ok ()

/-- `black76_price` (`black76_bachelier.py:14-128`). -/
noncomputable def black76Call (a : B76Args) (split analytical numerical : Bool) : Except Err B76Result := do
  checkShapes a.F.length a.tau.length a.lengths
  if split then splitMask a.tau.length (broadcastLength a.lengths)
  if analytical then greekColumns a.lengths a.lengthsBesideCp
  let num ← if numerical then (b76NumericalGreeks a).map some else .ok none
  .ok {
    price := (black76Price a.rows).map (·.price)
    split := if split then some ((black76Price a.rows).map (fun v => (v.intrinsic, v.time))) else none
    analytical := if analytical then some (black76Greeks a.rows) else none
    numerical := num }

/-- The arguments of `bachelier_price` after `np.atleast_1d` (`black76_bachelier.py:187-196`, 240). -/
structure BachArgs where
  F : List ℝ
  tau : List ℝ
  cp : List ℝ
  K : List ℝ
  vol : List ℝ
  annuity : List ℝ

/-- The lengths of the arguments.  For `frm/pricing_engine/black76_bachelier.py:244`. -/
def BachArgs.lengths (a : BachArgs) : List Nat :=
  [a.F.length, a.tau.length, a.cp.length, a.K.length, a.vol.length, a.annuity.length]

/-- The lengths of the arguments other than `cp`, whose broadcast is the length of theta (`black76_bachelier.py:272`). -/
def BachArgs.lengthsBesideCp (a : BachArgs) : List Nat := [a.F.length, a.tau.length, a.K.length, a.vol.length, a.annuity.length]

/-- The elements of the broadcast arguments (`black76_bachelier.py:250-251`). -/
noncomputable def BachArgs.rows (a : BachArgs) : List BachRow :=
  (List.range (broadcastLength a.lengths)).map (fun i =>
    ⟨broadcastAt a.F i, broadcastAt a.tau i, broadcastAt a.cp i, broadcastAt a.K i, broadcastAt a.vol i, broadcastAt a.annuity i⟩)

/-- What `bachelier_price` returns: the entries of the dictionary (`black76_bachelier.py:253-274`). -/
structure BachResult where
  price : List (Option ℝ)
  /-- `results['intrinsic']` and `results['time']` -/
  split : Option (List (Option ℝ × Option ℝ))
  /-- `results['analytical_greeks']` -/
  analytical : Option (List BachGreeks)
  /-- `results['numerical_greeks']` -/
  numerical : Option (List B76Numerical)

/-- `bachelier_price` (`black76_bachelier.py:187-274`).  `numerical_greeks` is not read: there is no entry of that name. -/
noncomputable def bachelierCall (a : BachArgs) (split analytical _numerical : Bool) : Except Err BachResult := do
  checkShapes a.F.length a.tau.length a.lengths
  if split then splitMask a.tau.length (broadcastLength a.lengths)
  if analytical then greekColumns a.lengths a.lengthsBesideCp
  .ok {
    price := (bachelierPrice a.rows).map (·.price)
    split := if split then some ((bachelierPrice a.rows).map (fun v => (v.intrinsic, v.time))) else none
    analytical := if analytical then some (bachelierGreeks a.rows) else none
    numerical := none }

end Frm
