import Verif.Proofs.ScheduleBuilt
import Verif.Proofs.Calendar
import Verif.Props.C12

/-! # C17 — Payment dates -/

namespace Frm.Spec

/-- The boundary a payment is attached to. -/
def boundaryOf (t : Timing) (row : Option Int × Option Int) : Option Int :=
  match t with
  | .inArrears => row.2
  | .inAdvance => row.1

/-- `y` is the business day `n` business days after (before, if negative) the business day `x`. -/
def BusDaysAfter (cal : BusCal) (x n y : Int) : Prop :=
  isBusDay cal y = true ∧
  ((0 ≤ n ∧ x ≤ y ∧ (busDaysBetween cal x y : Int) = n) ∨
   (n < 0 ∧ y ≤ x ∧ (busDaysBetween cal y x : Int) = -n))

/-- The payment date of a boundary: roll it, then count business days; missing stays missing. -/
def PaymentDate (cal : BusCal) (r : RollConv) (n : Int) (b : Option Int) (p : Option Int) : Prop :=
  match b, p with
  | none, none => True
  | some d, some y => ∃ x, RollsTo cal r d x ∧ BusDaysAfter cal x n y
  | _, _ => False

end Frm.Spec

namespace Frm
open Spec

theorem stepBusDays_spec {cal : BusCal} (h : cal.Ok) {x : Int} (hx : isBusDay cal x = true) (n y : Int) :
    stepBusDays cal x n = y ↔ BusDaysAfter cal x n y := by
  unfold BusDaysAfter
  constructor
  · intro hy
    subst hy
    refine ⟨stepBusDays_bus h hx n, ?_⟩
    unfold stepBusDays
    by_cases hn : 0 ≤ n
    · rw [if_pos hn]
      obtain ⟨_, h2, h3⟩ := iter_next_spec h n.toNat hx
      exact Or.inl ⟨hn, h2, by rw [h3]; omega⟩
    · rw [if_neg hn]
      obtain ⟨_, h2, h3⟩ := iter_prev_spec h (-n).toNat hx
      exact Or.inr ⟨by omega, h2, by rw [h3]; omega⟩
  · rintro ⟨hb, ⟨h1, h2, h3⟩ | ⟨h1, h2, h3⟩⟩
    · unfold stepBusDays
      rw [if_pos h1]
      obtain ⟨g1, g2, g3⟩ := iter_next_spec h n.toNat hx
      exact busDay_unique_fwd g1 hb g2 h2 (by omega)
    · unfold stepBusDays
      rw [if_neg (by omega)]
      obtain ⟨g1, g2, g3⟩ := iter_prev_spec h (-n).toNat hx
      rcases Int.lt_trichotomy (iter (prevBusDay cal) (-n).toNat x) y with hh | hh | hh
      · have := busDaysBetween_add cal (Int.le_of_lt hh) h2
        have := busDaysIn_pos_of hh hb
        omega
      · exact hh
      · have := busDaysBetween_add cal (Int.le_of_lt hh) g2
        have := busDaysIn_pos_of hh g1
        omega

theorem scatter_map (f : Int → Int) (ds : List (Option Int)) :
    scatter ds ((ds.filterMap id).map f) = ds.map (fun d => d.map f) := by
  induction ds with
  | nil => rfl
  | cons d ds ih =>
    cases d with
    | none => exact congrArg (none :: ·) ih
    | some x => exact congrArg (some (f x) :: ·) ih

theorem addPaymentDates_eq {cal : BusCal} {r : RollConv} (hr : r ≠ .unadjusted) (n : Int) (t : Timing)
    (rows : List (Option Int × Option Int)) :
    addPaymentDates cal r n t rows =
      .ok (rows.map (fun row => (boundaryOf t row).map (fun d => stepBusDays cal (rollFn cal r d) n))) := by
  have hm : ∀ ds : List Int, ds.mapM (fun d => busdayOffset cal r d n) =
      (.ok (ds.map (fun d => stepBusDays cal (rollFn cal r d) n)) : Except Err (List Int)) := by
    intro ds
    induction ds with
    | nil => rfl
    | cons d ds ih =>
      rw [List.mapM_cons, ih]
      simp [busdayOffset, rollDate_eq hr, bind, Except.bind, pure, Except.pure]
  unfold addPaymentDates npBusdayOffset
  simp only [if_neg hr, hm, bind, Except.bind, pure, Except.pure]
  rw [scatter_map]
  cases t <;> simp [boundaryOf, Function.comp_def]

end Frm

namespace Frm.Props
open Spec

/-- `add_payment_dates` returns the column in which every row has the payment date of its boundary (and no other):
same length and order as the schedule, missing exactly where the boundary is missing. -/
theorem C17_payment_dates {cal : BusCal} (h : cal.Ok) {r : RollConv} (hr : r ≠ .unadjusted) (n : Int) (t : Timing)
    (rows : List (Option Int × Option Int)) (col : List (Option Int)) :
    addPaymentDates cal r n t rows = .ok col ↔
      List.Forall₂ (fun row p => PaymentDate cal r n (boundaryOf t row) p) rows col := by
  rw [addPaymentDates_eq hr, Except.ok.injEq]
  have key : ∀ b p, PaymentDate cal r n b p ↔ b.map (fun d => stepBusDays cal (rollFn cal r d) n) = p := by
    intro b p
    cases b with
    | none => cases p <;> simp [PaymentDate]
    | some d =>
      cases p with
      | none => simp [PaymentDate]
      | some y =>
        simp only [PaymentDate, Option.map_some, Option.some.injEq]
        rw [stepBusDays_spec h (rollFn_bus h hr d)]
        constructor
        · rintro ⟨x, hx, hy⟩
          rw [rollsTo_rollFn h hr] at hx; rw [hx]; exact hy
        · intro hy; exact ⟨_, (rollsTo_rollFn h hr d _).mpr rfl, hy⟩
  constructor
  · rintro rfl
    induction rows with
    | nil => exact .nil
    | cons row rows ih => exact .cons ((key _ _).mpr rfl) ih
  · intro hf
    induction hf with
    | nil => rfl
    | cons h1 _ ih => rw [List.map_cons, ih, (key _ _).mp h1]

/-- The unadjusted convention raises `ValueError` on every schedule, even without payable rows. -/
theorem C17_unadjusted (cal : BusCal) (n : Int) (t : Timing) (rows : List (Option Int × Option Int)) :
    addPaymentDates cal .unadjusted n t rows = .error .value := by
  simp [addPaymentDates, npBusdayOffset, bind, Except.bind]

/-- The payment date exists and is unique for every boundary. -/
theorem C17_functional {cal : BusCal} (h : cal.Ok) {r : RollConv} (hr : r ≠ .unadjusted) (n d : Int) :
    ∃ y, ∀ p, PaymentDate cal r n (some d) p ↔ p = some y := by
  refine ⟨stepBusDays cal (rollFn cal r d) n, ?_⟩
  intro p
  have := C17_payment_dates h hr n .inAdvance [(some d, none)] [p]
  rw [addPaymentDates_eq hr, Except.ok.injEq] at this
  simp only [boundaryOf, List.map_cons, List.map_nil, Option.map_some, List.cons.injEq, and_true,
    List.forall₂_cons, List.forall₂_nil_left_iff] at this
  exact this.symm.trans eq_comm

example : addPaymentDates weekdaysXmas .modifiedFollowing 2 .inArrears
    [(some (mkDate 2024 9 23), some (mkDate 2024 12 21)), (none, none), (some (mkDate 2024 12 23), some (mkDate 2025 3 24))] =
    .ok [some (mkDate 2024 12 27), none, some (mkDate 2025 3 26)] := by decide +kernel

end Frm.Props
