import Verif.Model.Black76Calls

/-!
# Calling `garman_kohlhagen_price` (`frm/pricing_engine/garman_kohlhagen.py`)

The arguments are one-dimensional arrays; a number is an array of one element (`np.atleast_1d`, line 75).  The values of the elements
are those of `Verif.Model.GarmanKohlhagen`.
-/

namespace Frm
open Classical

set_option autoImplicit false

/-- The arguments of `garman_kohlhagen_price` after `np.atleast_1d` (`garman_kohlhagen.py:11-23`, 75, 86). -/
structure GkArgs where
  S0 : List ℝ
  tau : List ℝ
  rd : List ℝ
  rf : List ℝ
  cp : List ℝ
  K : List ℝ
  vol : List ℝ
  fwd : Option (List ℝ)

/-- The lengths of the arrays that `d1` is computed from: the domestic rate is not used when a forward is given
(`garman_kohlhagen.py:84-98`). -/
def GkArgs.lengths (a : GkArgs) : List Nat :=
  [a.S0.length, a.tau.length, (a.fwd.getD a.rd).length, a.rf.length, a.cp.length, a.K.length, a.vol.length]

/-- The assertions (`garman_kohlhagen.py:78-82`, 87). -/
noncomputable def gkCheck (a : GkArgs) : Except Err Unit :=
  if ∃ s ∈ a.S0, ¬ 0 < s then .error .assertion
  else if ∃ t ∈ a.tau, ¬ 0 ≤ t then .error .assertion
  else if ∃ c ∈ a.cp, ¬ (c = 1 ∨ c = -1) then .error .assertion
  else if a.cp.length ≠ a.vol.length then .error .assertion
  else if a.cp.length ≠ a.K.length then .error .assertion
  else if ∃ F ∈ a.fwd.getD [], ¬ 0 < F then .error .assertion
  else .ok ()

/-- numpy's broadcasting raises `ValueError` for two lengths that differ and are not one (`garman_kohlhagen.py:88`, 95-98). -/
def broadcastCheck (lengths : List Nat) : Except Err Unit :=
  if 1 < (lengths.filter (fun n => n ≠ 1)).dedup.length then .error .value else .ok ()

/-- The elements of the broadcast arguments (`garman_kohlhagen.py:84-98`). -/
noncomputable def GkArgs.rows (a : GkArgs) : List GkRow :=
  (List.range (broadcastLength a.lengths)).map (fun i =>
    ⟨broadcastAt a.S0 i, broadcastAt a.tau i, broadcastAt a.rd i, broadcastAt a.rf i, broadcastAt a.cp i, broadcastAt a.K i,
      broadcastAt a.vol i, a.fwd.map (fun F => broadcastAt F i)⟩)

/-- What `garman_kohlhagen_price` returns: the entries of the dictionary (`garman_kohlhagen.py:101-137`). -/
structure GkResult where
  price : List (Option ℝ)
  /-- `results['intrinsic']` and `results['time']` -/
  split : Option (List (Option ℝ × Option ℝ))
  /-- `results['analytical_greeks']` -/
  analytical : Option (List GkGreeks)

/-- `garman_kohlhagen_price` (`garman_kohlhagen.py:11-194`).  The mask `tau==0` selects first from the payoffs, which have the length
of spot, strike and `cp`, and then from the prices (line 100); numpy raises `IndexError` when a mask has another length than the array.
With `numerical_greeks=True` line 163 reads a key that was never created. -/
noncomputable def gkCall (a : GkArgs) (split analytical numerical : Bool) : Except Err GkResult := do
  gkCheck a
  broadcastCheck a.lengths
  splitMask a.tau.length (broadcastLength [a.cp.length, a.S0.length, a.K.length])
  splitMask a.tau.length (broadcastLength a.lengths)
  if numerical then .error .key
  .ok {
    price := a.rows.map (fun x => (gkValue x).price)
    split := if split then some (a.rows.map (fun x => ((gkValue x).intrinsic, (gkValue x).time))) else none
    analytical := if analytical then some (a.rows.map gkGreeks) else none }

end Frm
