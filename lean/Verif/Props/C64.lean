import Verif.Props.C14
import Verif.Model.Optionlet
import Verif.Proofs.Sort
import Verif.Proofs.Workday
import Verif.Props.C13
import Verif.Props.C52
import Verif.Props.C67
import Mathlib.Algebra.Order.BigOperators.Group.List
import Mathlib.Tactic.Linarith

/-!
# C64: cap and floor quotes cover the optionlets up to their termination date
-/

namespace Frm
namespace Spec

set_option autoImplicit false

/-- The quote number `i` is the first one that terminates on or after the day `d`. -/
def FirstQuoteCovering (quotes : List CapQuote) (d : Int) (i : Nat) : Prop :=
  (∃ q, quotes[i]? = some q ∧ d ≤ q.termination) ∧ ∀ j q, j < i → quotes[j]? = some q → q.termination < d

/-- The optionlets of the periods that end by the day `d`. -/
def endingBy (os : List OptionletRow) (d : Int) : List OptionletRow := os.filter (fun o => decide (o.periodEnd ≤ d))

/-- `os` are the optionlets of the schedule generated for the quotes, one per period, in order. -/
def OptionletsOf (cal : BusCal) (freq : PeriodFreq) (quotes : List CapQuote) (os : List OptionletRow) : Prop :=
  ∃ q, quotes.getLast? = some q ∧
    makeSchedule (optionletSchedule cal freq q) = .ok (os.map (fun o => (o.periodStart, o.periodEnd)))

/-- The optionlet pays the simple forward rate of its period on the curve of discount factors `P`, at the period's end. -/
def OnCurve (P : Int → ℝ) (o : OptionletRow) : Prop :=
  ∃ years, years ≠ 0 ∧ P o.periodEnd ≠ 0 ∧ o.annuity = years * P o.periodEnd ∧
    o.forward = (P o.periodStart / P o.periodEnd - 1) / years

/-- The value of an optionlet under a flat volatility: `annuity` times the Black-76 price. -/
def OptionletValue (shift cp K vol : ℝ) (o : OptionletRow) (v : ℝ) : Prop :=
  B76Priced { F := o.forward, tau := o.expiryYears, cp := cp, K := K, vol := vol, shift := shift, annuity := o.annuity } v

end Spec

set_option autoImplicit false

open Spec

theorem quoteNumber_first (quotes : List CapQuote) (o : OptionletRow) (q : CapQuote) (hq : q ∈ quotes)
    (h : o.periodEnd ≤ q.termination) : FirstQuoteCovering quotes o.periodEnd (quoteNumber quotes o) := by
  unfold quoteNumber
  cases hf : quotes.findIdx? (fun q => decide (o.periodEnd ≤ q.termination)) with
  | none =>
    rw [List.findIdx?_eq_none_iff] at hf
    have := hf q hq
    simp at this
    omega
  | some i =>
    rw [List.findIdx?_eq_some_iff_getElem] at hf
    obtain ⟨hi, h1, h2⟩ := hf
    refine ⟨⟨quotes[i], by simp [hi], by simpa using h1⟩, ?_⟩
    intro j q' hj hq'
    have := h2 j hj
    have hjl : j < quotes.length := Nat.lt_trans hj hi
    rw [List.getElem?_eq_getElem hjl, Option.some.injEq] at hq'
    rw [hq'] at this
    simpa using this

theorem firstQuote_le_iff {quotes : List CapQuote} (hs : quotes.Pairwise (fun a b => a.termination ≤ b.termination))
    {d : Int} {i n : Nat} (h : FirstQuoteCovering quotes d i) {q : CapQuote} (hq : quotes[n]? = some q) :
    i ≤ n ↔ d ≤ q.termination := by
  obtain ⟨⟨q', hq', hd⟩, hlt⟩ := h
  constructor
  · intro hin
    rcases Nat.lt_or_ge i n with hlt' | hge
    · have hn : n < quotes.length := (List.getElem?_eq_some_iff.1 hq).1
      have := List.pairwise_iff_getElem.1 hs i n (by omega) hn hlt'
      rw [List.getElem?_eq_getElem (by omega), Option.some.injEq] at hq hq'
      rw [hq, hq'] at this
      omega
    · have : i = n := by omega
      subst this
      rw [hq] at hq'
      cases hq'
      exact hd
  · intro hdq
    by_contra hc
    have := hlt n q (by omega) hq
    omega

theorem tiles_ends {s e : Int} {ps : List (Int × Int)} (ht : Tiles s e ps) (ho : ∀ p ∈ ps, p.1 ≤ p.2) :
    (∀ p ∈ ps, s ≤ p.2 ∧ p.2 ≤ e) ∧ ps.Pairwise (fun a b => a.2 ≤ b.2) := by
  induction ps generalizing s with
  | nil => exact absurd ht (by simp [Tiles])
  | cons p ps ih =>
    cases ps with
    | nil =>
      obtain ⟨h1, h2⟩ := ht
      have := ho p (by simp)
      refine ⟨?_, by simp⟩
      intro x hx
      simp only [List.mem_singleton] at hx
      subst hx
      omega
    | cons p' ps =>
      obtain ⟨h1, h2⟩ := ht
      obtain ⟨i1, i2⟩ := ih h2 (fun x hx => ho x (by simp [hx]))
      have hp := ho p (by simp)
      have hp' := i1 p' (by simp)
      refine ⟨?_, ?_⟩
      · intro x hx
        rcases List.mem_cons.1 hx with rfl | hx
        · omega
        · have := i1 x hx
          omega
      · refine List.pairwise_cons.2 ⟨?_, i2⟩
        intro x hx
        exact (i1 x hx).1

/-- A list filtered by a property that fails from some point on is a prefix. -/
theorem filter_prefix {α : Type} {l : List α} {f : α → Int} (hs : l.Pairwise (fun a b => f a ≤ f b)) (d : Int) :
    ∃ k, l.filter (fun a => decide (f a ≤ d)) = l.take k ∧
      (l.zipIdx.filter (fun p => decide (f p.1 ≤ d))) = (l.zipIdx).take k := by
  have key : ∀ m, ∃ k, l.filter (fun a => decide (f a ≤ d)) = l.take k ∧
      ((l.zipIdx m).filter (fun p => decide (f p.1 ≤ d))) = (l.zipIdx m).take k := by
    induction l with
    | nil => intro m; exact ⟨0, by simp, by simp⟩
    | cons a l ih =>
      intro m
      have hc := List.pairwise_cons.1 hs
      by_cases ha : f a ≤ d
      · obtain ⟨k, h1, h2⟩ := ih hc.2 (m + 1)
        exact ⟨k + 1, by simp [ha, h1], by simp [List.zipIdx_cons, ha, h2]⟩
      · refine ⟨0, ?_, ?_⟩
        · simp only [List.take_zero, List.filter_eq_nil_iff]
          intro x hx
          rcases List.mem_cons.1 hx with rfl | hx
          · simpa using ha
          · have := hc.1 x hx
            simp; omega
        · simp only [List.take_zero, List.filter_eq_nil_iff]
          intro x hx
          have hx' : x.1 ∈ a :: l := by
            have := List.mem_zipIdx hx
            obtain ⟨_, _, h3⟩ := this
            rw [h3]
            exact List.getElem_mem _
          rcases List.mem_cons.1 hx' with h | h
          · rw [h]; simpa using ha
          · have := hc.1 _ h
            simp; omega
  exact key 0

theorem sum_weighted {os : List OptionletRow} (F : ℝ) :
    (os.map (fun o => o.annuity * (o.forward - F))).sum =
      (os.map (fun o => o.forward * o.annuity)).sum - F * (os.map (·.annuity)).sum := by
  induction os with
  | nil => simp
  | cons o os ih => simp only [List.map_cons, List.sum_cons, ih]; ring

theorem sum_annuity_pos {os : List OptionletRow} (h : ∀ o ∈ os, 0 < o.annuity) (hne : os ≠ []) :
    0 < (os.map (·.annuity)).sum := by
  induction os with
  | nil => exact absurd rfl hne
  | cons o os ih =>
    simp only [List.map_cons, List.sum_cons]
    have ho := h o (by simp)
    by_cases he : os = []
    · subst he; simpa using ho
    · have := ih (fun x hx => h x (by simp [hx])) he
      linarith

theorem sum_bounds {os : List OptionletRow} (h : ∀ o ∈ os, 0 < o.annuity) (lo hi : ℝ)
    (hb : ∀ o ∈ os, lo ≤ o.forward ∧ o.forward ≤ hi) :
    lo * (os.map (·.annuity)).sum ≤ (os.map (fun o => o.forward * o.annuity)).sum ∧
      (os.map (fun o => o.forward * o.annuity)).sum ≤ hi * (os.map (·.annuity)).sum := by
  induction os with
  | nil => simp
  | cons o os ih =>
    obtain ⟨i1, i2⟩ := ih (fun x hx => h x (by simp [hx])) (fun x hx => hb x (by simp [hx]))
    have ho := h o (by simp)
    obtain ⟨b1, b2⟩ := hb o (by simp)
    simp only [List.map_cons, List.sum_cons, mul_add]
    constructor
    · have := mul_le_mul_of_nonneg_right b1 ho.le
      linarith
    · have := mul_le_mul_of_nonneg_right b2 ho.le
      linarith

theorem telescope {P : Int → ℝ} {s e : Int} {os : List OptionletRow}
    (ht : Tiles s e (os.map (fun o => (o.periodStart, o.periodEnd)))) (hc : ∀ o ∈ os, OnCurve P o) :
    (os.map (fun o => o.forward * o.annuity)).sum = P s - P e := by
  induction os generalizing s with
  | nil => exact absurd ht (by simp [Tiles])
  | cons o os ih =>
    obtain ⟨y, hy, hP, ha, hf⟩ := hc o (by simp)
    have ho : o.forward * o.annuity = P o.periodStart - P o.periodEnd := by
      rw [ha, hf]; field_simp
    cases os with
    | nil =>
      obtain ⟨h1, h2⟩ := ht
      simp only at h1 h2
      simp only [List.map_cons, List.map_nil, List.sum_cons, List.sum_nil, add_zero]
      rw [ho, h1, h2]
    | cons o' os =>
      obtain ⟨h1, h2⟩ := ht
      simp only at h1
      have := ih h2 (fun x hx => hc x (by simp [hx]))
      rw [List.map_cons, List.sum_cons, this, ho, h1]
      ring

theorem npSum_some {α : Type} (f : α → Option ℝ) (g : α → ℝ) (l : List α) (h : ∀ a ∈ l, f a = some (g a)) :
    npSum (l.map f) = some (l.map g).sum := by
  induction l with
  | nil => rfl
  | cons a l ih =>
    simp only [List.map_cons, npSum, List.sum_cons]
    rw [h a (by simp), ih (fun x hx => h x (by simp [hx]))]
    rfl

theorem npSum_none {α : Type} (f : α → Option ℝ) (l : List α) : npSum (l.map f) = none ↔ ∃ a ∈ l, f a = none := by
  induction l with
  | nil => simp [npSum]
  | cons a l ih =>
    rw [List.map_cons, npSum]
    cases h : f a with
    | none => simp [h]
    | some x =>
      simp only [Option.bind_some, Option.map_eq_none_iff, ih, List.mem_cons, exists_eq_or_imp, h]
      simp

theorem b76Price_annuity (x : B76Row) (a : ℝ) :
    (b76Price { x with annuity := 1 }).map (· * a) = b76Price { x with annuity := a } := by
  unfold b76Price
  have h1 : b76D1 { x with annuity := 1 } = b76D1 { x with annuity := a } := rfl
  have h2 : b76D2 { x with annuity := 1 } = b76D2 { x with annuity := a } := rfl
  rw [h1, h2]
  simp only
  cases npCdf ((b76D1 { x with annuity := a }).signed x.cp) with
  | none => rfl
  | some n1 =>
    cases npCdf ((b76D2 { x with annuity := a }).signed x.cp) with
    | none => rfl
    | some n2 => simp only [Option.map_some, Option.some.injEq]; ring

end Frm

namespace Frm.Props
open Classical Spec

set_option autoImplicit false

/-- The table of quotes is ordered by termination date and holds one row per input; every quote starts on the first business day
on or after the settlement date plus one optionlet period, and terminates on the first business day on or after the settlement
date plus its tenor. -/
theorem C64_quotes (cal : BusCal) (hcal : cal.Ok) (freq : PeriodFreq) (basis : DayCountBasis) (cd : Int) (delay date : Option Int)
    (inputs : List CapQuoteInput) (quotes : List CapQuote)
    (h : capQuoteTable cal freq basis cd delay date inputs = .ok quotes) :
    quotes.Pairwise (fun a b => a.termination ≤ b.termination) ∧
    ∃ sd f rows, settles cal cd delay date sd ∧ freq.dateOffset = some f ∧ quotes.Perm rows ∧ rows.length = inputs.length ∧
      ∀ (i : Nat) (x : CapQuoteInput), inputs[i]? = some x → ∃ q o, rows[i]? = some q ∧
        tenorToDateOffset (cleanTenor x.tenor) = .ok o ∧ q.vols = x.vols ∧
        FirstOnOrAfter cal (f.addTo sd) q.effective ∧ FirstOnOrAfter cal (o.addTo sd) q.termination ∧
        FirstOnOrAfter cal (f.subFrom (o.addTo sd)) q.lastExpiry := by
  unfold capQuoteTable at h
  simp only [bind, Except.bind] at h
  cases hs : capSettlement cal cd delay date with
  | error e => rw [hs] at h; cases h
  | ok sd =>
  rw [hs] at h
  simp only at h
  cases hf : freq.dateOffset with
  | none => rw [hf] at h; cases h
  | some f =>
  rw [hf] at h
  simp only at h
  cases hm : inputs.mapM (capQuoteDates cal f sd (workday cal (f.addTo sd) 0)) with
  | error e => rw [hm] at h; cases h
  | ok rows =>
  rw [hm] at h
  simp only at h
  cases hy : yearFrac (rows.map (·.effective)) (rows.map (·.termination)) basis none with
  | error e => rw [hy] at h; cases h
  | ok _ =>
  rw [hy] at h
  simp only at h
  cases hz : yearFrac [cd] (rows.map (·.lastExpiry)) basis none with
  | error e => rw [hz] at h; cases h
  | ok _ =>
  rw [hz] at h
  simp only [pure, Except.pure, Except.ok.injEq] at h
  subst h
  obtain ⟨m1, m2⟩ := mapM_get hm
  refine ⟨sortBy_sorted _ _, sd, f, rows, ?_, rfl, sortBy_perm _ _, m1, ?_⟩
  · unfold capSettlement at hs
    cases date with
    | none =>
      cases delay with
      | none => cases hs
      | some n => cases hs; exact Or.inr ⟨rfl, n, rfl, rfl⟩
    | some d => cases hs; exact Or.inl rfl
  · intro i x hx
    obtain ⟨q, hq, hd⟩ := m2 i x hx
    unfold capQuoteDates at hd
    cases ho : tenorToDateOffset (cleanTenor x.tenor) with
    | error e => rw [ho] at hd; cases hd
    | ok o =>
      rw [ho] at hd
      simp only [Except.map, Except.ok.injEq] at hd
      subst hd
      have w : ∀ d, FirstOnOrAfter cal d (workday cal d 0) := fun d => by
        have : workday cal d 0 = following cal d := by simp [workday, stepBusDays, iter]
        rw [this]
        exact following_spec hcal d
      exact ⟨_, o, hq, rfl, rfl, w _, w _, w _⟩

/-- The quotes handed to the constructor, and the optionlets of its schedule: what the next theorems need of them. -/
theorem schedule_ends {cal : BusCal} (hcal : cal.Ok) (hg : NoYearLongClosure cal) {freq : PeriodFreq} {basis : DayCountBasis}
    {cd : Int} {delay date : Option Int} {inputs : List CapQuoteInput} {quotes : List CapQuote}
    (h : capQuoteTable cal freq basis cd delay date inputs = .ok quotes) {os : List OptionletRow}
    (ho : OptionletsOf cal freq quotes os) :
    ∃ q, quotes.getLast? = some q ∧ Tiles q.effective q.termination (os.map (fun o => (o.periodStart, o.periodEnd))) ∧
      os.Pairwise (fun a b => a.periodEnd ≤ b.periodEnd) ∧
      ∀ o ∈ os, q.effective ≤ o.periodEnd ∧ o.periodEnd ≤ q.termination := by
  obtain ⟨q, hq, hps⟩ := ho
  have hmem : q ∈ quotes := List.mem_of_getLast? hq
  obtain ⟨_, sd, f, rows, _, _, hperm, hlen, hrows⟩ := C64_quotes cal hcal freq basis cd delay date inputs quotes h
  obtain ⟨i, hi⟩ := List.mem_iff_getElem?.1 (hperm.subset hmem)
  have hil : i < inputs.length := by rw [← hlen]; exact (List.getElem?_eq_some_iff.1 hi).1
  obtain ⟨q', o, h1, _, _, h2, h3, _⟩ := hrows i inputs[i] (by simp [hil])
  rw [hi, Option.some.injEq] at h1
  subst h1
  have ht := C12_tiles (a := optionletSchedule cal freq q) hcal rfl hps
  have hord := C13_ordered (a := optionletSchedule cal freq q) hcal hg rfl rfl
    (by
      rintro d (rfl | hd) x hx
      · exact Int.le_of_eq ((C13_anchors hcal _ x hx).2.2 h2.2.1).symm
      · cases hd)
    (by
      rintro d (rfl | hd) x hx
      · exact Int.le_of_eq ((C13_anchors hcal _ x hx).2.2 h3.2.1)
      · cases hd) hps
  have hends := tiles_ends ht (fun p hp => (hord p hp).2.1)
  refine ⟨q, hq, ht, ?_, ?_⟩
  · have := hends.2
    rw [List.pairwise_map] at this
    exact this
  · intro o' ho'
    exact hends.1 (o'.periodStart, o'.periodEnd) (List.mem_map.2 ⟨o', ho', rfl⟩)

/-- Each optionlet gets the number of the first quote that terminates on or after the end of its period. -/
theorem C64_first_quote (cal : BusCal) (hcal : cal.Ok) (hg : NoYearLongClosure cal) (freq : PeriodFreq) (basis : DayCountBasis)
    (cd : Int) (delay date : Option Int) (inputs : List CapQuoteInput) (quotes : List CapQuote)
    (h : capQuoteTable cal freq basis cd delay date inputs = .ok quotes) (os : List OptionletRow)
    (ho : OptionletsOf cal freq quotes os) :
    ∀ o ∈ os, FirstQuoteCovering quotes o.periodEnd (quoteNumber quotes o) := by
  obtain ⟨q, hq, _, _, hcov⟩ := schedule_ends hcal hg h ho
  exact fun o hm => quoteNumber_first quotes o q (List.mem_of_getLast? hq) (hcov o hm).2

/-- Along the schedule the numbers never decrease. -/
theorem C64_monotone (cal : BusCal) (hcal : cal.Ok) (hg : NoYearLongClosure cal) (freq : PeriodFreq) (basis : DayCountBasis)
    (cd : Int) (delay date : Option Int) (inputs : List CapQuoteInput) (quotes : List CapQuote)
    (h : capQuoteTable cal freq basis cd delay date inputs = .ok quotes) (os : List OptionletRow)
    (ho : OptionletsOf cal freq quotes os) :
    os.Pairwise (fun a b => quoteNumber quotes a ≤ quoteNumber quotes b) := by
  have hs := (C64_quotes cal hcal freq basis cd delay date inputs quotes h).1
  have hf := C64_first_quote cal hcal hg freq basis cd delay date inputs quotes h os ho
  obtain ⟨_, _, _, hp, _⟩ := schedule_ends hcal hg h ho
  refine hp.imp_of_mem ?_
  intro a b ha hb hab
  obtain ⟨⟨q, hq, hd⟩, _⟩ := hf b hb
  rw [firstQuote_le_iff hs (hf a ha) hq]
  omega

/-- Outside the schedule this can fail: a period that ends after every quote is attributed to the first quote, not to the last. -/
theorem C64_uncovered (quotes : List CapQuote) (o : OptionletRow) (h : ∀ q ∈ quotes, q.termination < o.periodEnd) :
    quoteNumber quotes o = 0 := by
  unfold quoteNumber
  have : quotes.findIdx? (fun q => decide (o.periodEnd ≤ q.termination)) = none := by
    rw [List.findIdx?_eq_none_iff]
    intro q hq
    have := h q hq
    simp; omega
  rw [this]

/-- The forward rate of a quote is the average of the forward rates of the optionlets that end by its termination date, weighted with
their annuities: the rate at which the fixed and the floating payments are worth the same. -/
theorem C64_forward (os : List OptionletRow) (q : CapQuote) (ha : ∀ o ∈ os, 0 < o.annuity)
    (hne : endingBy os q.termination ≠ []) (F : ℝ) :
    quoteForward os q = some F ↔ ((endingBy os q.termination).map (fun o => o.annuity * (o.forward - F))).sum = 0 := by
  have hpos : 0 < ((endingBy os q.termination).map (·.annuity)).sum :=
    sum_annuity_pos (fun o ho => ha o (List.mem_of_mem_filter ho)) hne
  rw [sum_weighted]
  change npDiv (some ((endingBy os q.termination).map (fun o => o.forward * o.annuity)).sum)
    ((endingBy os q.termination).map (·.annuity)).sum = some F ↔ _
  unfold npDiv
  rw [if_neg hpos.ne', Option.map_some, Option.some.injEq, div_eq_iff hpos.ne', sub_eq_zero]

/-- It lies between the smallest and the largest of those rates. -/
theorem C64_forward_between (os : List OptionletRow) (q : CapQuote) (ha : ∀ o ∈ os, 0 < o.annuity)
    (hne : endingBy os q.termination ≠ []) (lo hi : ℝ)
    (hb : ∀ o ∈ endingBy os q.termination, lo ≤ o.forward ∧ o.forward ≤ hi) :
    ∃ F, quoteForward os q = some F ∧ lo ≤ F ∧ F ≤ hi := by
  have hpos : 0 < ((endingBy os q.termination).map (·.annuity)).sum :=
    sum_annuity_pos (fun o ho => ha o (List.mem_of_mem_filter ho)) hne
  refine ⟨((endingBy os q.termination).map (fun o => o.forward * o.annuity)).sum /
    ((endingBy os q.termination).map (·.annuity)).sum, ?_, ?_⟩
  · rw [C64_forward os q ha hne, sum_weighted, div_mul_cancel₀ _ hpos.ne', sub_self]
  · obtain ⟨b1, b2⟩ := sum_bounds (fun o ho => ha o (List.mem_of_mem_filter ho)) lo hi hb
    exact ⟨(le_div_iff₀ hpos).2 b1, (div_le_iff₀ hpos).2 b2⟩

/-- A quote that covers no optionlet has no forward rate. -/
theorem C64_forward_missing (os : List OptionletRow) (q : CapQuote) (hne : endingBy os q.termination = []) :
    quoteForward os q = none := by
  unfold quoteForward npDiv
  simp only
  rw [if_pos]
  change ((endingBy os q.termination).map (·.annuity)).sum = 0
  rw [hne]
  rfl

/-- For optionlets that pay the simple forward rates of a discount curve, the forward rate of a quote is the par swap rate over the
periods it covers. -/
theorem C64_par_swap_rate (P : Int → ℝ) (os : List OptionletRow) (q : CapQuote) (s e : Int) (ha : ∀ o ∈ os, 0 < o.annuity)
    (hc : ∀ o ∈ os, OnCurve P o)
    (ht : Tiles s e ((endingBy os q.termination).map (fun o => (o.periodStart, o.periodEnd)))) :
    quoteForward os q = some ((P s - P e) / ((endingBy os q.termination).map (·.annuity)).sum) := by
  have hne : endingBy os q.termination ≠ [] := by
    intro h; rw [h] at ht; exact ht
  have hpos : 0 < ((endingBy os q.termination).map (·.annuity)).sum :=
    sum_annuity_pos (fun o ho => ha o (List.mem_of_mem_filter ho)) hne
  rw [C64_forward os q ha hne, sum_weighted, div_mul_cancel₀ _ hpos.ne',
    telescope ht (fun o ho => hc o (List.mem_of_mem_filter ho)), sub_self]

/-- A quote's strike is its forward rate plus the column's offset; a positive offset is a cap, any other — the at-the-money column
included — a floor. -/
theorem C64_strike (F offset : ℝ) :
    quoteStrike (some F) offset = some (F + offset) ∧ (0 < offset → quoteFlag (some F) offset = 1) ∧
      (offset ≤ 0 → quoteFlag (some F) offset = -1) := by
  refine ⟨rfl, ?_, ?_⟩
  · intro h
    simp only [quoteFlag, quoteStrike, Option.map_some]
    rw [if_pos (by linarith)]
  · intro h
    simp only [quoteFlag, quoteStrike, Option.map_some]
    rw [if_neg (by linarith)]

/-- The rows that enter the price of a quote: exactly the optionlets that end by its termination date, at labels that exist. -/
theorem price_rows {cal : BusCal} (hcal : cal.Ok) (hg : NoYearLongClosure cal) {freq : PeriodFreq} {basis : DayCountBasis}
    {cd : Int} {delay date : Option Int} {inputs : List CapQuoteInput} {quotes : List CapQuote}
    (h : capQuoteTable cal freq basis cd delay date inputs = .ok quotes) {os : List OptionletRow}
    (ho : OptionletsOf cal freq quotes os) {n : Nat} {q : CapQuote} (hn : quotes[n]? = some q) (shift cp : ℝ) (K : Option ℝ) (vol : ℝ) :
    quotePrice quotes os shift n cp K vol = .ok (npSum ((endingBy os q.termination).map (fun o => K.bind (fun k =>
      b76Price { F := o.forward, tau := o.expiryYears, cp := cp, K := k, vol := vol, shift := shift, annuity := o.annuity })))) := by
  have hs := (C64_quotes cal hcal freq basis cd delay date inputs quotes h).1
  have hf := C64_first_quote cal hcal hg freq basis cd delay date inputs quotes h os ho
  obtain ⟨_, _, _, hp, _⟩ := schedule_ends hcal hg h ho
  have hmask : os.zipIdx.filter (fun p => decide (quoteNumber quotes p.1 ≤ n)) =
      os.zipIdx.filter (fun p => decide (p.1.periodEnd ≤ q.termination)) := by
    apply List.filter_congr
    intro p hpm
    obtain ⟨_, _, h3⟩ := List.mem_zipIdx hpm
    rw [decide_eq_decide]
    exact firstQuote_le_iff hs (hf p.1 (by rw [h3]; exact List.getElem_mem _)) hn
  obtain ⟨k, e1, e2⟩ := filter_prefix hp q.termination
  unfold quotePrice
  simp only
  rw [hmask, e2]
  rw [if_pos]
  · congr 2
    unfold endingBy
    rw [e1, show os.take k = (os.zipIdx.take k).map Prod.fst by rw [List.map_take, List.zipIdx_map_fst], List.map_map]
    apply List.map_congr_left
    intro p _
    simp only [Function.comp]
    congr 1
    funext k'
    exact b76Price_annuity { F := p.1.forward, tau := p.1.expiryYears, cp := cp, K := k', vol := vol, shift := shift, annuity := 1 } _
  · rw [List.all_eq_true]
    intro p hpm
    rw [List.mem_iff_getElem] at hpm
    obtain ⟨i, hi, rfl⟩ := hpm
    rw [List.getElem_take]
    have hil := hi
    simp only [List.length_take, List.length_zipIdx] at hil ⊢
    simp only [List.getElem_zipIdx, decide_eq_true_eq]
    omega

/-- Which quotes have no price: those with no strike, and those covering an optionlet that has none at this volatility. -/
theorem C64_price_missing (cal : BusCal) (hcal : cal.Ok) (hg : NoYearLongClosure cal) (freq : PeriodFreq) (basis : DayCountBasis)
    (cd : Int) (delay date : Option Int) (inputs : List CapQuoteInput) (quotes : List CapQuote)
    (h : capQuoteTable cal freq basis cd delay date inputs = .ok quotes) (os : List OptionletRow)
    (ho : OptionletsOf cal freq quotes os) (n : Nat) (q : CapQuote) (hn : quotes[n]? = some q)
    (shift cp vol : ℝ) (K : Option ℝ) :
    quotePrice quotes os shift n cp K vol = .ok none ↔
      ∃ o ∈ endingBy os q.termination, ∀ k v, K = some k → ¬ OptionletValue shift cp k vol o v := by
  rw [price_rows hcal hg h ho hn, Except.ok.injEq, npSum_none]
  refine exists_congr fun o => and_congr_right fun _ => ?_
  cases K with
  | none => simp
  | some k =>
    simp only [Option.bind_some, Option.some.injEq]
    unfold OptionletValue
    constructor
    · intro e k' v hk
      subst hk
      rw [b76Priced_iff, e]
      simp
    · intro e
      rw [Option.eq_none_iff_forall_ne_some]
      intro v hv
      exact e k v rfl ((b76Priced_iff _ _).2 hv)

/-- The optionlets are those of the schedule counted back from the end of the longest quote: the periods start at its effective date and end
at its termination date, and the dates between are the termination date less multiples of the period, rolled by modified following. -/
theorem C64_periods (cal : BusCal) (hcal : cal.Ok) (freq : PeriodFreq) (hf : freq ≠ .zeroCoupon) (quotes : List CapQuote)
    (os : List OptionletRow) :
    OptionletsOf cal freq quotes os ↔
      ∃ (q : CapQuote) (rev : List Int), quotes.getLast? = some q ∧ q.effective < q.termination ∧
        os.map (fun o => (o.periodStart, o.periodEnd)) = periodsOf q.effective q.termination rev.reverse ∧
        (∀ (i : Nat) (x : Int), rev[i]? = some x →
          RollsTo cal .modifiedFollowing (moved freq q.termination (-((i : Int) + 1))) x ∧ q.effective < x) ∧
        ∃ x, RollsTo cal .modifiedFollowing (moved freq q.termination (-((rev.length : Int) + 1))) x ∧ x ≤ q.effective := by
  unfold OptionletsOf
  constructor
  · rintro ⟨q, hq, hs⟩
    rw [C14_make_schedule_default (a := optionletSchedule cal freq q) hcal rfl hf rfl rfl rfl rfl] at hs
    obtain ⟨h1, _, rev, ⟨g1, g2⟩, h2⟩ := hs
    refine ⟨q, rev, hq, h1, h2, fun i x hx => ?_, ?_⟩
    · obtain ⟨⟨u, hu, hr⟩, hl⟩ := g1 i x hx
      cases hu
      exact ⟨hr, hl⟩
    · obtain ⟨x, ⟨u, hu, hr⟩, hl⟩ := g2
      cases hu
      exact ⟨x, hr, hl⟩
  · rintro ⟨q, rev, hq, h1, h2, g1, x, g2, g3⟩
    refine ⟨q, hq, ?_⟩
    rw [C14_make_schedule_default (a := optionletSchedule cal freq q) hcal rfl hf rfl rfl rfl rfl]
    exact ⟨h1, by simp [optionletSchedule], rev, ⟨fun i y hy => ⟨⟨_, rfl, (g1 i y hy).1⟩, (g1 i y hy).2⟩, x, ⟨_, rfl, g2⟩, g3⟩, h2⟩

/-- The price of a quote is the sum of the values, at its one volatility, of exactly the optionlets that end by its termination
date. -/
theorem C64_price (cal : BusCal) (hcal : cal.Ok) (hg : NoYearLongClosure cal) (freq : PeriodFreq) (basis : DayCountBasis)
    (cd : Int) (delay date : Option Int) (inputs : List CapQuoteInput) (quotes : List CapQuote)
    (h : capQuoteTable cal freq basis cd delay date inputs = .ok quotes) (os : List OptionletRow)
    (ho : OptionletsOf cal freq quotes os) (n : Nat) (q : CapQuote) (hn : quotes[n]? = some q)
    (shift cp K vol : ℝ) (value : OptionletRow → ℝ)
    (hv : ∀ o ∈ endingBy os q.termination, OptionletValue shift cp K vol o (value o)) :
    quotePrice quotes os shift n cp (some K) vol = .ok (some ((endingBy os q.termination).map value).sum) := by
  rw [price_rows hcal hg h ho hn, npSum_some _ value]
  intro o hm
  exact (b76Priced_iff _ _).1 (hv o hm)

/-- At the money, where caps and floors are both used for the quote, they are worth the same. -/
theorem C64_atm_cap_equals_floor (os : List OptionletRow) (q : CapQuote) (ha : ∀ o ∈ os, 0 < o.annuity)
    (hne : endingBy os q.termination ≠ []) (F shift vol : ℝ) (hF : quoteForward os q = some F) (hv : 0 < vol) (hK : 0 < F + shift)
    (hos : ∀ o ∈ endingBy os q.termination, 0 < o.forward + shift ∧ 0 < o.expiryYears) (cap floor : OptionletRow → ℝ)
    (hc : ∀ o ∈ endingBy os q.termination, OptionletValue shift 1 F vol o (cap o))
    (hf : ∀ o ∈ endingBy os q.termination, OptionletValue shift (-1) F vol o (floor o)) :
    ((endingBy os q.termination).map cap).sum = ((endingBy os q.termination).map floor).sum := by
  have hz := (C64_forward os q ha hne F).1 hF
  have key : ∀ l : List OptionletRow, (∀ o ∈ l, o ∈ endingBy os q.termination) →
      (l.map cap).sum - (l.map floor).sum = (l.map (fun o => o.annuity * (o.forward - F))).sum := by
    intro l
    induction l with
    | nil => intro _; simp
    | cons o l ih =>
      intro hm
      have ho := hm o (by simp)
      have hp := C52_parity { F := o.forward, tau := o.expiryYears, cp := 1, K := F, vol := vol, shift := shift, annuity := o.annuity }
        ⟨(hos o ho).1, hK, (hos o ho).2, hv, Or.inl rfl⟩ (cap o) (floor o) (hc o ho) (hf o ho)
      simp only at hp
      have := ih (fun x hx => hm x (by simp [hx]))
      simp only [List.map_cons, List.sum_cons]
      linarith
  have := key _ (fun _ h => h)
  rw [hz] at this
  linarith

/-- No optionlet term structure can be constructed: the call raises whatever its arguments. -/
theorem C64_never_constructed (cal : BusCal) (freq : PeriodFreq) (basis : DayCountBasis) (cd : Int) (delay date : Option Int)
    (inputs : List CapQuoteInput) (columns : Except Err (List (Str × ℝ))) :
    raises (makeOptionlet cal freq basis cd delay date inputs columns) ∧
    (∀ quotes cols, capQuoteTable cal freq basis cd delay date inputs = .ok quotes → quotes ≠ [] → columns = .ok cols →
      makeOptionlet cal freq basis cd delay date inputs columns = .error .attribute) ∧
    (∀ cols, capQuoteTable cal freq basis cd delay date inputs = .ok [] → columns = .ok cols →
      makeOptionlet cal freq basis cd delay date inputs columns = .error .key) ∧
    (delay = none → date = none → makeOptionlet cal freq basis cd delay date inputs columns = .error .value) := by
  refine ⟨?_, ?_, ?_, ?_⟩
  · unfold makeOptionlet raises
    simp only [bind, Except.bind]
    cases capQuoteTable cal freq basis cd delay date inputs with
    | error e => exact ⟨e, rfl⟩
    | ok rows =>
      simp only
      cases columns with
      | error e => exact ⟨e, rfl⟩
      | ok _ =>
        simp only
        cases rows.getLast? with
        | none => exact ⟨_, rfl⟩
        | some _ => exact ⟨_, rfl⟩
  · intro quotes cols hq hne hc
    unfold makeOptionlet
    rw [hq, hc]
    simp only [bind, Except.bind]
    cases hl : quotes.getLast? with
    | none => exact absurd (List.getLast?_eq_none_iff.1 hl) hne
    | some _ => rfl
  · intro cols hq hc
    unfold makeOptionlet
    rw [hq, hc]
    rfl
  · rintro rfl rfl
    rfl

/-! ## The hypotheses are met -/

/-- Two quotes, two years and one year, for a curve of Friday 1 March 2024. -/
noncomputable def sampleCaps : List CapQuoteInput := [⟨"2Y".toList, [0.21]⟩, ⟨"1Y".toList, [0.2]⟩]

/-- The rows of the table for these quotes. -/
noncomputable def sampleCapTable : List CapQuote :=
  [⟨mkDate 2024 9 4, mkDate 2024 9 4, mkDate 2025 3 4, [0.2]⟩, ⟨mkDate 2024 9 4, mkDate 2025 9 4, mkDate 2026 3 4, [0.21]⟩]

theorem sampleCapTable_ok : capQuoteTable weekdaysXmas .semiannual .act_365 (mkDate 2024 3 1) (some 1) none sampleCaps =
    .ok sampleCapTable := by
  have hw : workday weekdaysXmas (mkDate 2024 3 1) 1 = mkDate 2024 3 4 := by decide +kernel
  have he : workday weekdaysXmas ((DateOffset.months 6).addTo (mkDate 2024 3 4)) 0 = mkDate 2024 9 4 := by decide +kernel
  have t1 : tenorToDateOffset (cleanTenor "1Y".toList) = .ok (.years 1) := by decide +kernel
  have t2 : tenorToDateOffset (cleanTenor "2Y".toList) = .ok (.years 2) := by decide +kernel
  have d1 : workday weekdaysXmas ((DateOffset.years 1).addTo (mkDate 2024 3 4)) 0 = mkDate 2025 3 4 := by decide +kernel
  have d2 : workday weekdaysXmas ((DateOffset.years 2).addTo (mkDate 2024 3 4)) 0 = mkDate 2026 3 4 := by decide +kernel
  have x1 : workday weekdaysXmas ((DateOffset.months 6).subFrom ((DateOffset.years 1).addTo (mkDate 2024 3 4))) 0 = mkDate 2024 9 4 := by
    decide +kernel
  have x2 : workday weekdaysXmas ((DateOffset.months 6).subFrom ((DateOffset.years 2).addTo (mkDate 2024 3 4))) 0 = mkDate 2025 9 4 := by
    decide +kernel
  have y1 : ∃ r, yearFrac [mkDate 2024 9 4, mkDate 2024 9 4] [mkDate 2026 3 4, mkDate 2025 3 4] .act_365 none = .ok r := ⟨_, rfl⟩
  have y2 : ∃ r, yearFrac [mkDate 2024 3 1] [mkDate 2025 9 4, mkDate 2024 9 4] .act_365 none = .ok r := ⟨_, rfl⟩
  obtain ⟨r1, y1⟩ := y1
  obtain ⟨r2, y2⟩ := y2
  have lt : ¬ mkDate 2026 3 4 ≤ mkDate 2025 3 4 := by decide +kernel
  simp only [capQuoteTable, capSettlement, bind, Except.bind, hw, PeriodFreq.dateOffset, sampleCaps, List.mapM_cons, List.mapM_nil,
    capQuoteDates, t1, t2, Except.map, he, d1, d2, x1, x2, pure, Except.pure, List.map_cons, List.map_nil, y1, y2, sortBy, insertBy,
    lt, if_false, sampleCapTable]

/-- The three optionlets of the schedule. -/
noncomputable def sampleOptionlets : List OptionletRow :=
  [⟨mkDate 2024 9 4, mkDate 2025 3 4, 0.5, 0.03, 0.5⟩, ⟨mkDate 2025 3 4, mkDate 2025 9 4, 1, 0.032, 0.48⟩,
    ⟨mkDate 2025 9 4, mkDate 2026 3 4, 1.5, 0.035, 0.47⟩]

theorem sampleOptionlets_of : OptionletsOf weekdaysXmas .semiannual sampleCapTable sampleOptionlets := by
  refine ⟨_, rfl, ?_⟩
  have : makeSchedule (optionletSchedule weekdaysXmas .semiannual ⟨mkDate 2024 9 4, mkDate 2025 9 4, mkDate 2026 3 4, []⟩) =
      .ok [(mkDate 2024 9 4, mkDate 2025 3 4), (mkDate 2025 3 4, mkDate 2025 9 4), (mkDate 2025 9 4, mkDate 2026 3 4)] := by
    decide +kernel
  exact this

example : weekdaysXmas.Ok ∧ NoYearLongClosure weekdaysXmas := ⟨weekdaysXmas_ok, gap_of_everyMonth weekdaysXmas_everyMonth⟩

/-- The first optionlet belongs to the one-year quote, the other two to the two-year quote. -/
example : sampleOptionlets.map (quoteNumber sampleCapTable) = [0, 1, 1] := by
  have a : decide (mkDate 2025 3 4 ≤ mkDate 2025 3 4) = true := by decide +kernel
  have b : decide (mkDate 2025 9 4 ≤ mkDate 2025 3 4) = false := by decide +kernel
  have c : decide (mkDate 2025 9 4 ≤ mkDate 2026 3 4) = true := by decide +kernel
  have d : decide (mkDate 2026 3 4 ≤ mkDate 2025 3 4) = false := by decide +kernel
  have e : decide (mkDate 2026 3 4 ≤ mkDate 2026 3 4) = true := by decide +kernel
  simp [sampleOptionlets, quoteNumber, sampleCapTable, a, b, c, d, e, List.findIdx?_cons]

example : ∀ o ∈ sampleOptionlets, 0 < o.annuity := by
  intro o ho
  simp only [sampleOptionlets, List.mem_cons, List.not_mem_nil, or_false] at ho
  rcases ho with rfl | rfl | rfl <;> norm_num

/-- A flat curve of 3% for which an optionlet of half a year lies on the curve. -/
example : OnCurve (fun d => if d = 0 then 1 else 1 / 1.015) ⟨0, 182, 0, 0.03, 0.5 / 1.015⟩ :=
  ⟨0.5, by norm_num, by norm_num, by norm_num, by norm_num⟩

end Frm.Props
