import Verif.Props.C17

/-! # C18 — Notional exchanges -/

namespace Frm.Spec

/-- The exchange modes that pay at the start / at the end. -/
def HasStart (e : ExchangeNotionals) : Prop := e = .start ∨ e = .both
def HasEnd (e : ExchangeNotionals) : Prop := e = .end_ ∨ e = .both

/-- A row for the period `p`: notional `N`, payment `v`, and the payment date of its boundary. -/
def PeriodRow (cal : BusCal) (r : RollConv) (delay : Int) (t : Timing) (N v : Rat) (p : Int × Int)
    (row : NotionalRow) : Prop :=
  row.periodStart = some p.1 ∧ row.periodEnd = some p.2 ∧ row.notional = N ∧ row.notionalPayment = v ∧
  PaymentDate cal r delay (boundaryOf t (some p.1, some p.2)) row.notionalPaymentDate

/-- The row of an initial exchange. -/
def InitialRow (N : Rat) (d : Int) (row : NotionalRow) : Prop :=
  row.periodStart = none ∧ row.periodEnd = none ∧ row.notional = 0 ∧ row.notionalPayment = -N ∧
  row.notionalPaymentDate = some d

end Frm.Spec

namespace Frm
open Spec

theorem setLastPayment_snoc (v : Rat) (rows : List NotionalRow) (r : NotionalRow) :
    setLastPayment v (rows ++ [r]) = rows ++ [{ r with notionalPayment := v }] := by
  induction rows with
  | nil => rfl
  | cons a rows ih =>
    cases rows with
    | nil => rfl
    | cons b rows => simp only [List.cons_append] at ih ⊢; rw [setLastPayment, ih]; simp

theorem zip_map_self {α β : Type} (f : α → β) (l : List α) : l.zip (l.map f) = l.map (fun a => (a, f a)) := by
  induction l with
  | nil => rfl
  | cons a l ih => simp [ih]

/-- The row the code builds for a period, before exchanges. -/
def plainRow (cal : BusCal) (r : RollConv) (delay : Int) (t : Timing) (N : Rat) (p : Int × Int) : NotionalRow :=
  ⟨some p.1, some p.2, N, 0, (boundaryOf t (some p.1, some p.2)).map (fun d => stepBusDays cal (rollFn cal r d) delay)⟩

theorem plainRow_spec {cal : BusCal} (h : cal.Ok) {r : RollConv} (hr : r ≠ .unadjusted) (delay : Int) (t : Timing)
    (N v : Rat) (p : Int × Int) (row : NotionalRow) :
    PeriodRow cal r delay t N v p row ↔ row = { plainRow cal r delay t N p with notionalPayment := v } := by
  have key := Props.C17_payment_dates h hr delay t [(some p.1, some p.2)] [row.notionalPaymentDate]
  rw [addPaymentDates_eq hr, Except.ok.injEq] at key
  simp only [List.map_cons, List.map_nil, List.cons.injEq, and_true, List.forall₂_cons,
    List.forall₂_nil_left_iff] at key
  unfold PeriodRow
  rw [← key]
  cases row
  simp only [plainRow, NotionalRow.mk.injEq]
  constructor
  · rintro ⟨h1, h2, h3, h4, h5⟩; exact ⟨h1, h2, h3, h4, h5.symm⟩
  · rintro ⟨h1, h2, h3, h4, h5⟩; exact ⟨h1, h2, h3, h4, h5.symm⟩

theorem plainRow_sum (cal : BusCal) (r : RollConv) (delay : Int) (t : Timing) (N : Rat) (qs : List (Int × Int)) :
    (qs.map ((fun x : NotionalRow => x.notionalPayment) ∘ plainRow cal r delay t N)).sum = 0 := by
  induction qs with
  | nil => rfl
  | cons q qs ih =>
    rw [List.map_cons, List.sum_cons, ih]
    simp only [Function.comp, plainRow]
    grind

theorem addNotionalSchedule_eq {cal : BusCal} {r : RollConv} (hr : r ≠ .unadjusted) (N : Rat)
    (exch : ExchangeNotionals) (delay : Int) (t : Timing) (d0 : Option Int) (ps : List (Int × Int)) (p : Int × Int) :
    addNotionalSchedule cal r [N] exch delay t d0 (ps ++ [p]) =
      .ok ((if exch = .start ∨ exch = .both then
              [⟨none, none, 0, -N, some (d0.getD ((ps ++ [p]).headD p).1)⟩] else []) ++
           ps.map (plainRow cal r delay t N) ++
           [{ plainRow cal r delay t N p with
              notionalPayment := if exch = .end_ ∨ exch = .both then N else 0 }]) := by
  unfold addNotionalSchedule
  simp only [addPaymentDates_eq hr, bind, Except.bind]
  have hbody : (((ps ++ [p]).map (fun p => (some p.1, some p.2))).zip
      (((ps ++ [p]).map (fun p => (some p.1, some p.2))).map
        (fun row => (boundaryOf t row).map (fun d => stepBusDays cal (rollFn cal r d) delay)))).map
        (fun x => NotionalRow.mk x.1.1 x.1.2 N 0 x.2) = (ps ++ [p]).map (plainRow cal r delay t N) := by
    rw [zip_map_self, List.map_map, List.map_map]; rfl
  rw [hbody]
  have hinit : initialExchangeDate d0 ((ps ++ [p]).map (fun p => (some p.1, some p.2))) =
      .ok (some (d0.getD ((ps ++ [p]).headD p).1)) := by
    unfold initialExchangeDate
    cases d0 with
    | some d => rfl
    | none => cases ps <;> rfl
  simp only [hinit, Except.map, pure, Except.pure]
  rw [List.map_append, List.map_cons, List.map_nil]
  have hneg : (-1 * N : Rat) = -N := by grind
  rw [hneg]
  have hs : ∀ pre : List NotionalRow, setLastPayment N (pre ++ [plainRow cal r delay t N p]) =
      pre ++ [{ plainRow cal r delay t N p with notionalPayment := N }] := fun pre => setLastPayment_snoc _ _ _
  cases exch <;> simp only [reduceCtorEq, or_true, or_false, or_self, if_true, if_false, true_or]
  · rfl
  · rfl
  · exact congrArg Except.ok (hs _)
  · exact congrArg Except.ok (hs (_ :: _))

end Frm

namespace Frm.Props
open Spec

/-- The schedule built for a scalar notional `N`: an initial-exchange row if asked for, one row per period in order,
and the final exchange on the last row if asked for — nothing else is changed. -/
theorem C18_rows {cal : BusCal} (h : cal.Ok) {r : RollConv} (hr : r ≠ .unadjusted) (N : Rat)
    (exch : ExchangeNotionals) (delay : Int) (t : Timing) (d0 : Option Int) (ps : List (Int × Int)) (p : Int × Int) :
    ∃ rows, addNotionalSchedule cal r [N] exch delay t d0 (ps ++ [p]) = .ok rows ∧
      ∃ pre mid last, rows = pre ++ mid ++ [last] ∧
        (HasStart exch → ∃ row, pre = [row] ∧ InitialRow N (d0.getD ((ps ++ [p]).headD p).1) row) ∧
        (¬ HasStart exch → pre = []) ∧
        List.Forall₂ (fun q row => PeriodRow cal r delay t N 0 q row) ps mid ∧
        (HasEnd exch → PeriodRow cal r delay t N N p last) ∧
        (¬ HasEnd exch → PeriodRow cal r delay t N 0 p last) := by
  refine ⟨_, addNotionalSchedule_eq hr N exch delay t d0 ps p, _, _, _, rfl, ?_, ?_, ?_, ?_, ?_⟩
  · intro hh
    refine ⟨_, if_pos hh, rfl, rfl, rfl, rfl, rfl⟩
  · intro hh; exact if_neg hh
  · rw [List.forall₂_map_right_iff]
    exact List.forall₂_same.mpr (fun q _ => (plainRow_spec h hr delay t N 0 q _).mpr rfl)
  · intro hh
    rw [plainRow_spec h hr]
    simp only [NotionalRow.mk.injEq, true_and, and_true]
    exact if_pos hh
  · intro hh
    rw [plainRow_spec h hr]
    simp only [NotionalRow.mk.injEq, true_and, and_true]
    exact if_neg hh

/-- Sum of all exchanged notionals. -/
def exchanged (rows : List NotionalRow) : Rat := (rows.map (·.notionalPayment)).sum

/-- The exchanged notionals sum to `(N at the end, if exchanged) − (N at the start, if exchanged)`:
zero for "both" and for "neither". -/
theorem C18_net {cal : BusCal} {r : RollConv} (hr : r ≠ .unadjusted) (N : Rat) (exch : ExchangeNotionals)
    (delay : Int) (t : Timing) (d0 : Option Int) (ps : List (Int × Int)) (hps : ps ≠ []) {rows : List NotionalRow}
    (hrows : addNotionalSchedule cal r [N] exch delay t d0 ps = .ok rows) :
    exchanged rows = (match exch with | .both => 0 | .neither => 0 | .start => -N | .end_ => N) ∧
    (exch = .neither → ∀ row ∈ rows, row.notionalPayment = 0) := by
  obtain ⟨qs, p, rfl⟩ : ∃ qs p, ps = qs ++ [p] := ⟨_, _, (List.dropLast_append_getLast hps).symm⟩
  rw [addNotionalSchedule_eq hr, Except.ok.injEq] at hrows
  have hz := plainRow_sum cal r delay t N qs
  subst hrows
  refine ⟨?_, ?_⟩
  · unfold exchanged
    cases exch <;> simp [hz] <;> grind
  · rintro rfl row hrow
    simp only [reduceCtorEq, or_self, if_false, List.nil_append, List.mem_append, List.mem_map,
      List.mem_singleton] at hrow
    rcases hrow with ⟨q, _, rfl⟩ | rfl
    · rfl
    · rfl

/-- Defect: an array of per-period notionals is rejected whatever its length (other than one element), because the
code compares `notional_amount.shape` (a tuple) with an integer. -/
theorem C18_array_rejected (cal : BusCal) (r : RollConv) (ns : List Rat) (hns : ns.length ≠ 1)
    (exch : ExchangeNotionals) (delay : Int) (t : Timing) (d0 : Option Int) (ps : List (Int × Int)) :
    addNotionalSchedule cal r ns exch delay t d0 ps = .error .value := by
  match ns, hns with
  | [], _ => rfl
  | [_], h => exact absurd rfl h
  | _ :: _ :: _, _ => rfl

/-- Coupon schedules: every period row gets the coupon payment date of its boundary and the initial-exchange row gets
none; notional columns are those of the notional schedule. -/
theorem C18_coupon_dates {cal : BusCal} (h : cal.Ok) {r : RollConv} (hr : r ≠ .unadjusted) (ns : List Rat)
    (exch : ExchangeNotionals) (nd : Int) (nt : Timing) (d0 : Option Int) (cd : Int) (ct : Timing)
    (ps : List (Int × Int)) (out : List (NotionalRow × Option Int)) :
    couponSchedule cal r ns exch nd nt d0 cd ct ps = .ok out ↔
      addNotionalSchedule cal r ns exch nd nt d0 ps = .ok (out.map (·.1)) ∧
      ∀ x ∈ out, PaymentDate cal r cd (boundaryOf ct (x.1.periodStart, x.1.periodEnd)) x.2 := by
  unfold couponSchedule
  have hzip : ∀ (rows : List NotionalRow) (col : List (Option Int)),
      List.Forall₂ (fun row p => PaymentDate cal r cd (boundaryOf ct row) p)
        (rows.map (fun x => (x.periodStart, x.periodEnd))) col →
      (rows.zip col).map (·.1) = rows ∧
      ∀ x ∈ rows.zip col, PaymentDate cal r cd (boundaryOf ct (x.1.periodStart, x.1.periodEnd)) x.2 := by
    intro rows
    induction rows with
    | nil => intro col _; simp
    | cons row rows ih =>
      intro col hf
      cases hf with
      | cons h1 h2 =>
        obtain ⟨g1, g2⟩ := ih _ h2
        refine ⟨by simp [g1], ?_⟩
        intro x hx
        rw [List.zip_cons_cons, List.mem_cons] at hx
        rcases hx with rfl | hx
        · exact h1
        · exact g2 x hx
  constructor
  · intro ho
    simp only [bind_ok, pure, Except.pure, Except.ok.injEq] at ho
    obtain ⟨rows, h1, dates, h2, rfl⟩ := ho
    rw [C17_payment_dates h hr] at h2
    obtain ⟨g1, g2⟩ := hzip rows dates h2
    exact ⟨by rw [g1]; exact h1, g2⟩
  · rintro ⟨h1, h2⟩
    simp only [bind_ok, pure, Except.pure, Except.ok.injEq]
    refine ⟨_, h1, out.map (·.2), ?_, ?_⟩
    · rw [C17_payment_dates h hr, List.map_map, List.forall₂_map_left_iff, List.forall₂_map_right_iff]
      exact List.forall₂_same.mpr h2
    · clear h1 h2
      induction out with
      | nil => rfl
      | cons x out ih => simp [ih]

/-- The rows that accept a coupon parameter are exactly those that are not the initial exchange, and an array of
parameters must have one entry per such row (or one entry for all). -/
theorem C18_coupon_rows {cal : BusCal} {r : RollConv} (hr : r ≠ .unadjusted) (N : Rat)
    (exch : ExchangeNotionals) (delay : Int) (t : Timing) (d0 : Option Int) (ps : List (Int × Int)) (hps : ps ≠ [])
    {rows : List NotionalRow} (hrows : addNotionalSchedule cal r [N] exch delay t d0 ps = .ok rows) :
    (∀ i, i ∈ (validCouponShapes exch rows.length).1 ↔ ∃ row, rows[i]? = some row ∧ row.periodStart ≠ none) ∧
    (validCouponShapes exch rows.length).2 = [1, (ps.length : Int)] := by
  obtain ⟨qs, p, rfl⟩ : ∃ qs p, ps = qs ++ [p] := ⟨_, _, (List.dropLast_append_getLast hps).symm⟩
  rw [addNotionalSchedule_eq hr, Except.ok.injEq] at hrows
  have hall : ∀ row ∈ qs.map (plainRow cal r delay t N) ++ [{ plainRow cal r delay t N p with
              notionalPayment := if exch = .end_ ∨ exch = .both then N else 0 }], row.periodStart ≠ none := by
    intro row hrow
    rw [List.mem_append, List.mem_map, List.mem_singleton] at hrow
    rcases hrow with ⟨q, _, rfl⟩ | rfl <;> simp [plainRow]
  generalize hB : qs.map (plainRow cal r delay t N) ++ [{ plainRow cal r delay t N p with
              notionalPayment := if exch = .end_ ∨ exch = .both then N else 0 }] = B at hall
  have hlen : B.length = (qs ++ [p]).length := by rw [← hB]; simp
  rw [List.append_assoc, hB] at hrows
  subst hrows
  unfold validCouponShapes
  by_cases he : exch = .start ∨ exch = .both
  · simp only [if_pos he]
    refine ⟨?_, ?_⟩
    · intro i
      cases i with
      | zero => simp [List.mem_drop_iff_getElem]
      | succ i =>
        simp only [List.singleton_append, List.getElem?_cons_succ, List.length_cons, List.mem_drop_iff_getElem]
        constructor
        · rintro ⟨j, hj, hji⟩
          simp only [List.getElem_range, List.length_range] at hj hji
          have hi : i < B.length := by omega
          exact ⟨B[i], List.getElem?_eq_getElem hi, hall _ (List.getElem_mem hi)⟩
        · rintro ⟨row, h1, _⟩
          have hi := (List.getElem?_eq_some_iff.mp h1).1
          exact ⟨i, by simp; omega, by simp; omega⟩
    · simp only [List.singleton_append, List.length_cons, hlen]
      congr 2; omega
  · simp only [if_neg he, List.nil_append]
    refine ⟨?_, by rw [hlen]⟩
    intro i
    rw [List.mem_range]
    constructor
    · intro hi; exact ⟨B[i], List.getElem?_eq_getElem hi, hall _ (List.getElem_mem hi)⟩
    · rintro ⟨row, h1, _⟩; exact (List.getElem?_eq_some_iff.mp h1).1

example : addNotionalSchedule weekdaysXmas .modifiedFollowing [100] .both 0 .inArrears none
    [(mkDate 2024 9 23, mkDate 2024 12 23), (mkDate 2024 12 23, mkDate 2025 3 24)] =
    .ok [⟨none, none, 0, -100, some (mkDate 2024 9 23)⟩,
      ⟨some (mkDate 2024 9 23), some (mkDate 2024 12 23), 100, 0, some (mkDate 2024 12 23)⟩,
      ⟨some (mkDate 2024 12 23), some (mkDate 2025 3 24), 100, 100, some (mkDate 2025 3 24)⟩] := by decide +kernel

end Frm.Props
