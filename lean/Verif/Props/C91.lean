import Verif.Model.ExposureGrid

/-!
# C91: date grids for FX exposures
-/

namespace Frm.Props

set_option autoImplicit false

open Frm

theorem mem_insertDate (d x : Int) (l : List Int) : x ∈ insertDate d l ↔ x = d ∨ x ∈ l := by
  induction l with
  | nil => simp [insertDate]
  | cons e l ih =>
    unfold insertDate
    split
    · simp
    · split
      · next h => subst h; simp
      · simp only [List.mem_cons, ih]
        constructor
        · rintro (h | h | h) <;> simp [h]
        · rintro (h | h | h) <;> simp [h]

theorem insertDate_sorted (d : Int) (l : List Int) (h : l.Pairwise (· < ·)) : (insertDate d l).Pairwise (· < ·) := by
  induction l with
  | nil => simp [insertDate]
  | cons e l ih =>
    rw [List.pairwise_cons] at h
    unfold insertDate
    split
    · next hd =>
      refine List.pairwise_cons.2 ⟨?_, List.pairwise_cons.2 h⟩
      intro x hx
      rcases List.mem_cons.1 hx with rfl | hx
      · exact hd
      · have := h.1 x hx; omega
    · split
      · exact List.pairwise_cons.2 h
      · refine List.pairwise_cons.2 ⟨?_, ih h.2⟩
        intro x hx
        rcases (mem_insertDate d x l).1 hx with rfl | hx
        · omega
        · exact h.1 x hx

theorem sortedDates_spec (l : List Int) : (sortedDates l).Pairwise (· < ·) ∧ ∀ x, x ∈ sortedDates l ↔ x ∈ l := by
  induction l with
  | nil => simp [sortedDates]
  | cons d l ih =>
    have e : sortedDates (d :: l) = insertDate d (sortedDates l) := rfl
    rw [e]
    refine ⟨insertDate_sorted d _ ih.1, fun x => ?_⟩
    rw [mem_insertDate, ih.2, List.mem_cons]

/-- With dates of one's own and no days of value asked for, the grid is those dates, in order, once each. -/
theorem C91_own_dates_partial (curveDate : Int) {deliveryDates : List Int} (hd : deliveryDates ≠ []) (dates : List Int) (payments : Bool) :
    ∃ grid, createDateGrid curveDate deliveryDates none (some (.index dates)) payments false false = .ok grid ∧
      grid.Pairwise (· < ·) ∧ ∀ x, x ∈ grid ↔ x ∈ dates := by
  refine ⟨sortedDates dates, ?_, (sortedDates_spec dates).1, (sortedDates_spec dates).2⟩
  simp [createDateGrid, hd, exposureGridBase]

/-- The known sampling frequencies are refused, whatever the dates and flags: the calls put the unit of the frequency where the direction goes. -/
theorem C91_sampling_refused (curveDate : Int) (deliveryDates : List Int) (s : String) (hs : s ∈ ["1d", "1w", "1m", "3m", "6m", "12m"])
    (pillar : Option GridPillar) (payments lastDay dayAfter : Bool) :
    createDateGrid curveDate deliveryDates (some s) pillar payments lastDay dayAfter = .error .value := by
  have h : exposureGridBase (some s) pillar = .error .value := by
    simp only [List.mem_cons, List.not_mem_nil, or_false] at hs
    rcases hs with rfl | rfl | rfl | rfl | rfl | rfl <;> rfl
  unfold createDateGrid
  rw [h]
  split <;> rfl

/-- Any other sampling frequency raises `UnboundLocalError`. -/
theorem C91_unknown_sampling (curveDate : Int) {deliveryDates : List Int} (hd : deliveryDates ≠ []) (s : String)
    (hs : s ∉ ["1d", "1w", "1m", "3m", "6m", "12m"]) (pillar : Option GridPillar) (payments lastDay dayAfter : Bool) :
    createDateGrid curveDate deliveryDates (some s) pillar payments lastDay dayAfter = .error .name := by
  have h : exposureGridBase (some s) pillar = .error .name := by
    simp only [List.mem_cons, List.not_mem_nil, or_false, not_or] at hs
    simp [exposureGridBase, samplingCall, hs.1, hs.2.1, hs.2.2.1, hs.2.2.2.1, hs.2.2.2.2.1, hs.2.2.2.2.2]
  simp [createDateGrid, hd, h]

/-- The days of value can never be had: asking for the last day of value, or the day after it, raises `TypeError`. -/
theorem C91_days_of_value_refused (curveDate : Int) {deliveryDates : List Int} (hd : deliveryDates ≠ []) (dates : List Int)
    (payments lastDay dayAfter : Bool) (h : lastDay = true ∨ dayAfter = true) :
    createDateGrid curveDate deliveryDates none (some (.index dates)) payments lastDay dayAfter = .error .type := by
  rcases h with rfl | rfl
  · simp [createDateGrid, hd, exposureGridBase]
  · cases lastDay <;> simp [createDateGrid, hd, exposureGridBase]

/-- Exactly when a grid is returned. -/
theorem C91_returns_iff (curveDate : Int) (deliveryDates : List Int) (samplingFreq : Option String) (pillar : Option GridPillar)
    (payments lastDay dayAfter : Bool) :
    returns (createDateGrid curveDate deliveryDates samplingFreq pillar payments lastDay dayAfter) ↔
      deliveryDates ≠ [] ∧ samplingFreq = none ∧ (∃ dates, pillar = some (.index dates)) ∧ lastDay = false ∧ dayAfter = false := by
  constructor
  · rintro ⟨g, hg⟩
    by_cases hd : deliveryDates = []
    · simp [createDateGrid, hd] at hg
    · cases samplingFreq with
      | some s =>
        by_cases hs : s ∈ ["1d", "1w", "1m", "3m", "6m", "12m"]
        · rw [C91_sampling_refused _ _ _ hs] at hg; cases hg
        · rw [C91_unknown_sampling _ hd _ hs] at hg; cases hg
      | none =>
        cases pillar with
        | none => simp [createDateGrid, hd, exposureGridBase] at hg
        | some p =>
          cases p with
          | other => simp [createDateGrid, hd, exposureGridBase] at hg
          | index dates =>
            cases lastDay <;> cases dayAfter <;> simp [createDateGrid, hd, exposureGridBase] at hg ⊢
  · rintro ⟨hd, rfl, ⟨dates, rfl⟩, rfl, rfl⟩
    obtain ⟨g, hg, -⟩ := C91_own_dates_partial curveDate hd dates payments
    exact ⟨g, hg⟩

/-- What the refusals are, when neither a frequency nor a `DatetimeIndex` is given, or there are no delivery dates. -/
theorem C91_refusals (curveDate : Int) {deliveryDates : List Int} (payments lastDay dayAfter : Bool) (samplingFreq : Option String) (pillar : Option GridPillar) :
    createDateGrid curveDate [] samplingFreq pillar payments lastDay dayAfter = .error .value ∧
    (deliveryDates ≠ [] → createDateGrid curveDate deliveryDates none none payments lastDay dayAfter = .error .value ∧
      createDateGrid curveDate deliveryDates none (some .other) payments lastDay dayAfter = .error .assertion) := by
  refine ⟨by simp [createDateGrid], fun hd => ⟨?_, ?_⟩⟩ <;> simp [createDateGrid, hd, exposureGridBase]

/-- A grid with a repeated date, out of order. -/
example : createDateGrid 0 [40] none (some (.index [30, 10, 30, 20])) false false false = .ok [10, 20, 30] := by rfl

end Frm.Props
