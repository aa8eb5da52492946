/-!
# Python exceptions as values
-/

namespace Frm

/-- The Python exception classes raised on the modelled paths.  For `frm/utils/custom_errors_and_warnings.py:3`. -/
inductive Err where
  | value      -- ValueError
  | assertion  -- AssertionError
  | type       -- TypeError
  | attribute  -- AttributeError
  | index      -- IndexError
  | key        -- KeyError
  | name       -- NameError / UnboundLocalError
  | zeroDiv    -- ZeroDivisionError
  | runtime    -- RuntimeError
  | marketData -- frm.utils.MarketDataNotAvailableError
deriving DecidableEq, Repr

deriving instance DecidableEq for Except

/-- `assert b` (Python).  For `frm/utils/custom_errors_and_warnings.py:3`. -/
def pyAssert (b : Bool) : Except Err Unit := if b then .ok () else .error .assertion

/-- The call returned normally.  For `frm/utils/custom_errors_and_warnings.py:3`. -/
def returns {α : Type _} (r : Except Err α) : Prop := ∃ a, r = .ok a

/-- The call raised.  For `frm/utils/custom_errors_and_warnings.py:3`. -/
def raises {α : Type _} (r : Except Err α) : Prop := ∃ e, r = .error e

end Frm
