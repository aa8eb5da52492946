import Mathlib.Analysis.SpecialFunctions.Pow.Real

/-!
# Floating-point values with infinities

numpy's division and functions on floats, with exact real numbers in place of finite floats.  The sign of zero is not
modelled: a division by zero takes the sign of the dividend, as for a divisor `+0.0`.
-/

namespace Frm

set_option autoImplicit false

/-- A float: a finite number, an infinity or `nan`.  For `frm/pricing_engine/volatility_generic.py:45-49`. -/
inductive Npf
  | fin (x : ℝ)
  | posInf
  | negInf
  | nan

namespace Npf

/-- numpy's `x / y` for finite floats (not modelled code of frm: IEEE 754 division).
For `frm/pricing_engine/volatility_generic.py:45-49`. -/
noncomputable def divide (x y : ℝ) : Npf :=
  if y ≠ 0 then .fin (x / y) else if 0 < x then .posInf else if x < 0 then .negInf else .nan

/-- numpy's `x / y` for a finite divisor.  For `frm/pricing_engine/volatility_generic.py:45-49`. -/
noncomputable def over (x : Npf) (y : ℝ) : Npf :=
  match x with
  | .fin a => divide a y
  | .posInf => if y < 0 then .negInf else .posInf
  | .negInf => if y < 0 then .posInf else .negInf
  | .nan => .nan

/-- `np.sqrt`.  For `frm/pricing_engine/volatility_generic.py:45-49`. -/
noncomputable def sqrt : Npf → Npf
  | .fin x => if 0 ≤ x then .fin (Real.sqrt x) else .nan
  | .posInf => .posInf
  | .negInf => .nan
  | .nan => .nan

/-- `np.log`.  For `frm/pricing_engine/volatility_generic.py:45-49`. -/
noncomputable def log : Npf → Npf
  | .fin x => if 0 < x then .fin (Real.log x) else if x = 0 then .negInf else .nan
  | .posInf => .posInf
  | .negInf => .nan
  | .nan => .nan

/-- `x + c` for a finite `c`.  For `frm/pricing_engine/volatility_generic.py:45-49`. -/
noncomputable def plus (x : Npf) (c : ℝ) : Npf :=
  match x with
  | .fin a => .fin (a + c)
  | y => y

/-- `c * x` for a finite `c`: zero times an infinity is `nan`.
For `frm/pricing_engine/volatility_generic.py:45-49`. -/
noncomputable def signed (c : ℝ) : Npf → Npf
  | .fin a => .fin (c * a)
  | .posInf => if 0 < c then .posInf else if c < 0 then .negInf else .nan
  | .negInf => if 0 < c then .negInf else if c < 0 then .posInf else .nan
  | .nan => .nan

/-- `x < 0`; false for `nan`.  For `frm/pricing_engine/volatility_generic.py:45-49`. -/
def isNeg : Npf → Prop
  | .fin x => x < 0
  | .negInf => True
  | _ => False

end Npf
end Frm
