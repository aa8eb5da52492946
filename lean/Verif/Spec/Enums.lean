import Verif.Model.Enums
import Verif.Spec.Tenor

/-!
# Reading enumeration values
-/

namespace Frm.Spec

/-- White space: blank, tab, line feed, vertical tab, form feed, carriage return, and the four ASCII separators. -/
def White (c : Char) : Prop := c.toNat ∈ [32, 9, 10, 11, 12, 13, 28, 29, 30, 31]

/-- `core` is `s` without its leading and trailing white space. -/
def Trimmed (s core : Str) : Prop :=
  ∃ pre post, s = pre ++ core ++ post ∧ (∀ c ∈ pre, White c) ∧ (∀ c ∈ post, White c) ∧
    (∀ c, core.head? = some c → ¬ White c) ∧ (∀ c, core.getLast? = some c → ¬ White c)

/-- `w` is the canonical spelling of `s`: trimmed, in lower case, with underscores for blanks. -/
def Canonical (s w : Str) : Prop :=
  ∃ core, Trimmed s core ∧ w = core.map (fun c => if c = ' ' then '_' else c.toLower)

/-- `t` is `s` with the occurrences of `old`, found from left to right without overlap, replaced by `new`. -/
inductive Replaced (old new : Str) : Str → Str → Prop
  | nil : Replaced old new [] []
  | cut (s t : Str) : Replaced old new s t → Replaced old new (old ++ s) (new ++ t)
  | keep (c : Char) (s t : Str) : ¬ old <+: c :: s → Replaced old new s t → Replaced old new (c :: s) (c :: t)

/-- A string-valued enumeration whose member `m` is spelled `name m`: reading a string yields exactly the member whose
spelling is the string's canonical form, any other string raises `ValueError`, and the validity check agrees. -/
def ReadsNames {α : Type} (fromValue : EnumInput → Except Err α) (isValid : EnumInput → Bool) (name : α → String) :
    Prop :=
  ∀ s : Str, (∀ m, fromValue (.str s) = .ok m ↔ Canonical s (name m).toList) ∧
    ((∀ m, ¬ Canonical s (name m).toList) → fromValue (.str s) = .error .value) ∧
    (isValid (.str s) = true ↔ ∃ m, Canonical s (name m).toList)

def interpName : InterpMethod → String
  | .linearOnLnDiscount => "linear_on_ln_discount"
  | .cubicSplineOnLnDiscount => "cubic_spline_on_ln_discount"
  | .cubicSplineOnCczr => "cubic_spline_on_cczr"
def extrapName : ExtrapMethod → String
  | .none => "none"
  | .flat => "flat"
def payRcvName : PayRcv → String
  | .pay => "pay"
  | .rcv => "rcv"
def buySellName : BuySell → String
  | .buy => "buy"
  | .sell => "sell"
def compoundingName : CompoundingFreq → String
  | .simple => "simple"
  | .continuous => "continuous"
  | .daily => "daily"
  | .weekly => "weekly"
  | .monthly => "monthly"
  | .quarterly => "quarterly"
  | .semiannual => "semiannual"
  | .annual => "annual"
def rollName : RollConv → String
  | .unadjusted => "unadjusted"
  | .following => "following"
  | .preceding => "preceding"
  | .modifiedFollowing => "modifiedfollowing"
  | .modifiedPreceding => "modifiedpreceding"
def timingName : Timing → String
  | .inArrears => "in_arrears"
  | .inAdvance => "in_advance"
def stubName : Stub → String
  | .none => "none"
  | .short => "short"
  | .long => "long"
  | .default => "default"
  | .definedPerFirstPeriodEnd => "defined_per_first_period_end_date"
  | .definedPerLastPeriodStart => "defined_per_last_period_start_date"
def exchangeName : ExchangeNotionals → String
  | .start => "start"
  | .end_ => "end"
  | .both => "both"
  | .neither => "neither"
def basisName : DayCountBasis → String
  | .b30_360 => "30/360"
  | .b30E_360 => "30e/360"
  | .b30E_360_ISDA => "30e/360_isda"
  | .act_360 => "act/360"
  | .act_365 => "act/365"
  | .act_act => "act/act"
  | .act_366 => "act/366"

/-- All spellings of a payment frequency. -/
def periodNames : PeriodFreq → List String
  | .daily => ["daily", "d", "day", "days", "1d", "1day", "1days"]
  | .weekly => ["weekly", "w", "week", "weeks", "wk", "1w", "1wk", "1week", "1weeks"]
  | .days28 => ["28days", "28d", "28day"]
  | .monthly => ["monthly", "m", "month", "months", "mon", "1m", "1mo", "1month", "1months"]
  | .quarterly => ["quarterly", "q", "quarter", "quarters", "quart", "3m", "3mo", "3month", "3months"]
  | .semiannual => ["semiannual", "s", "sa", "semiannually", "semi", "6m", "6mo", "6month", "6months"]
  | .annual => ["annual", "a", "year", "years", "yrs", "yr", "annually", "1y", "1yr", "1year", "1years"]
  | .zeroCoupon => ["zerocoupon", "z", "zc", "zero"]

/-- The frequency a string is read as: slashes and underscores are ignored, "per" is removed, and what remains is one
of the spellings. -/
def PeriodSpelling (s : Str) (m : PeriodFreq) : Prop :=
  ∃ v w u, Canonical s v ∧ Replaced "per".toList [] (v.filter (fun c => c ≠ '/' ∧ c ≠ '_')) w ∧ Trimmed w u ∧
    ∃ n ∈ periodNames m, u = n.toList

/-- The day-count basis a string is read as: "actual" is abbreviated, "act/365fixed" is ACT/365, and the slash is
optional. -/
def BasisSpelling (s : Str) (m : DayCountBasis) : Prop :=
  ∃ v w, Canonical s v ∧ ¬ Digits v ∧ Replaced "actual".toList "act".toList v w ∧
    (w = (basisName m).toList ∨ w = (basisName m).toList.filter (fun c => c ≠ '/') ∨
      (m = .act_365 ∧ w = "act/365fixed".toList))

end Frm.Spec
