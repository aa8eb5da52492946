import Verif.Model.Text

/-!
# Names of volatility quotes

What the column names of a table of FX volatility quotes mean.
-/

namespace Frm.Spec

set_option autoImplicit false

/-- A delta from 1 to 49: one digit, a zero and one digit, or two digits. -/
def DeltaText (d : Str) : Prop :=
  (∃ c ∈ "123456789".toList, d = [c] ∨ d = ['0', c]) ∨ ∃ c ∈ "1234".toList, ∃ e ∈ "0123456789".toList, d = [c, e]

/-- An optional separator. -/
def Separator (s : Str) : Prop := s = [] ∨ s = "_".toList ∨ s = " ".toList

/-- The word for delta. -/
def DeltaWord (s : Str) : Prop := s = "delta".toList ∨ s = "Δ".toList

/-- Nothing, or a line feed. -/
def LineEnd (s : Str) : Prop := s = [] ∨ s = "\n".toList

/-- `s` spells the `d` delta quote of one of the `kinds`. -/
def DeltaSpelling (kinds : List Str) (d s : Str) : Prop :=
  DeltaText d ∧ ∃ a w b k nl, Separator a ∧ DeltaWord w ∧ Separator b ∧ k ∈ kinds ∧ LineEnd nl ∧
    s = d ++ (a ++ (w ++ (b ++ (k ++ nl))))

/-- The words for a call. -/
def callWords : List Str := ["call".toList, "c".toList]

/-- The words for a put. -/
def putWords : List Str := ["put".toList, "p".toList]

/-- The words for a risk reversal. -/
def riskReversalWords : List Str :=
  ["riskreversal".toList, "risk_reversal".toList, "risk reversal".toList, "rr".toList]

/-- The words for a butterfly. -/
def butterflyWords : List Str := ["butterfly".toList, "bf".toList]

/-- `s` spells an at-the-money quote of one of the `kinds`. -/
def AtmSpelling (kinds : List Str) (s : Str) : Prop :=
  ∃ x a y b z c k nl, (x = "a".toList ∨ x = "at".toList) ∧ Separator a ∧ (y = "t".toList ∨ y = "the".toList) ∧
    Separator b ∧ (z = "m".toList ∨ z = "money".toList) ∧ Separator c ∧ k ∈ kinds ∧ LineEnd nl ∧
    s = x ++ (a ++ (y ++ (b ++ (z ++ (c ++ (k ++ nl))))))

/-- The words for delta neutral. -/
def deltaNeutralWords : List Str :=
  ["deltaneutral".toList, "delta_neutral".toList, "delta neutral".toList, "Δneutral".toList, "Δ_neutral".toList,
   "Δ neutral".toList]

/-- The words for forward. -/
def forwardWords : List Str := ["f".toList, "fwd".toList, "forward".toList]

/-- The names the library works with. -/
def CanonicalName (s : Str) : Prop :=
  (∃ d, DeltaText d ∧ (s = d ++ "_delta_call".toList ∨ s = d ++ "_delta_put".toList ∨
    s = d ++ "_delta_riskreversal".toList ∨ s = d ++ "_delta_butterfly".toList)) ∨
  s = "atm_delta_neutral".toList ∨ s = "atm_forward".toList

end Frm.Spec
