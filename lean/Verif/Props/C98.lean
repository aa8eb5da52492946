import Verif.Model.LegTable
import Verif.Props.C12
import Verif.Props.C20
import Verif.Props.C27

/-! # C98 — Legs and the schedule objects they are built on -/

namespace Frm
open Spec

set_option autoImplicit false

/-! ## Spec -/

namespace Spec

/-- A row without both period boundaries has no length. -/
def Incomplete (r : Option Int × Option Int) : Prop := r.1 = none ∨ r.2 = none

instance : DecidablePred Incomplete := fun r => by unfold Incomplete; infer_instance

/-- `v` gives for every row its number of days: nothing for a row without both boundaries, else what `day_count` gives
for the two dates alone, the end being the termination date exactly when no complete row follows. -/
def DaysOfRows (basis : DayCountBasis) (rows : List (Option Int × Option Int)) (v : List NRat) : Prop :=
  v.length = rows.length ∧
  ∀ i r, rows[i]? = some r →
    (Incomplete r → v[i]? = some none) ∧
    ∀ s e, r = (some s, some e) → ∃ n : Int,
      dayCount [s] [e] basis (some [(rows.drop (i + 1)).all (fun q => decide (Incomplete q))]) = .ok [n] ∧
      v[i]? = some (some (n : Rat))

/-- Every complete row starts before it ends. -/
def Ordered (rows : List (Option Int × Option Int)) : Prop :=
  ∀ s e, (some s, some e) ∈ rows → s ≤ e

/-- The columns of the data frame a leg with the parameter column `field` leaves, in order. -/
def legColumns (field : String) : List String :=
  ["period_start", "period_end", "period_daycount", "period_yearfrac", "notional", "notional_payment",
    "notional_payment_date", field, "coupon_payment_date"]

/-- The rows with every notional and notional payment times `m`. -/
def timesNotional (m : Rat) (rows : List (NotionalRow × Option Int)) : List (NotionalRow × Option Int) :=
  rows.map (fun x => ({ x.1 with notional := m * x.1.notional, notionalPayment := m * x.1.notionalPayment }, x.2))

/-- Plus or minus one. -/
def sign (p : PayRcv) : Rat := match p with
  | .pay => -1
  | .rcv => 1

end Spec

/-! ## Columns of day counts -/

/-- The complete rows. -/
def bothOf (rows : List (Option Int × Option Int)) : List (Int × Int) :=
  rows.filterMap (fun r => match r with | (some s, some e) => some (s, e) | _ => none)

theorem sameShape_pairs (l : List (Int × Int)) :
    sameShape (l.map (·.1)) (l.map (·.2)) = (l.map (·.1), l.map (·.2)) := by
  match l with
  | [] => rfl
  | [_] => rfl
  | _ :: _ :: _ => rfl

theorem zip_pairs (l : List (Int × Int)) : (l.map (·.1)).zip (l.map (·.2)) = l := by
  induction l with
  | nil => rfl
  | cons a l ih => simp [ih]

/-- The count of one pair under each basis. -/
def countOf (b : DayCountBasis) (p : Int × Int) (f : Bool) : Int :=
  match b with
  | .act_360 | .act_365 | .act_act | .act_366 => p.2 - p.1
  | .b30_360 => count30_360 p.1 p.2
  | .b30E_360 => count30E_360 p.1 p.2
  | .b30E_360_ISDA => count30E_360_ISDA p.1 p.2 f

theorem defaultTermination_length (n : Nat) : (defaultTermination n).length = n := by simp [defaultTermination]

theorem defaultTermination_succ (n : Nat) :
    defaultTermination (n + 1) = decide (n = 0) :: defaultTermination n := by
  unfold defaultTermination
  rw [List.range_succ_eq_map, List.map_cons, List.map_map]
  congr 1
  · cases n <;> simp
  · apply List.map_congr_left
    intro i hi
    simp only [List.mem_range] at hi
    simp only [Function.comp]
    congr 1
    rw [decide_eq_decide]
    omega

theorem map_zip_fst {α β γ : Type} (l : List α) (m : List β) (h : l.length = m.length) (f : α → γ) :
    (l.zip m).map (fun x => f x.1) = l.map f := by
  induction l generalizing m with
  | nil => rfl
  | cons a l ih =>
    cases m with
    | nil => simp at h
    | cons b m => simp [ih m (by simpa using h)]

theorem dayCount_pairs (l : List (Int × Int)) (b : DayCountBasis) :
    dayCount (l.map (·.1)) (l.map (·.2)) b none =
      if ∀ p ∈ l, p.1 ≤ p.2 then .ok ((l.zip (defaultTermination l.length)).map (fun x => countOf b x.1 x.2))
      else .error .assertion := by
  unfold dayCount
  rw [sameShape_pairs]
  simp only [checkOrder, List.length_map, ne_eq, not_true_eq_false, if_false, zip_pairs]
  by_cases h : ∀ p ∈ l, p.1 ≤ p.2
  · have h' : l.all (fun p => decide (p.1 ≤ p.2)) = true := by simpa using h
    rw [if_pos h]
    simp only [pyAssert, h', if_true]
    have hm : ∀ f : (Int × Int) → Int, l.map f = (l.zip (defaultTermination l.length)).map (fun x => f x.1) :=
      fun f => (map_zip_fst l _ (defaultTermination_length _).symm f).symm
    cases b <;> simp only [countOf] <;> first | rfl | (rw [hm])
  · have h' : l.all (fun p => decide (p.1 ≤ p.2)) = false := by
      rw [← Bool.not_eq_true]; simpa using h
    rw [if_neg h]
    simp [pyAssert, h']

theorem yearFrac_pairs (l : List (Int × Int)) (b : DayCountBasis) :
    (∃ y, yearFrac (l.map (·.1)) (l.map (·.2)) b none = .ok y ∧ (∀ p ∈ l, p.1 ≤ p.2) ∧
      ∀ d, b.daysPerYear = some d → y = ((l.zip (defaultTermination l.length)).map (fun x => countOf b x.1 x.2)).map
        (fun (n : Int) => (n : Rat) / d)) ∨
    (yearFrac (l.map (·.1)) (l.map (·.2)) b none = .error .assertion ∧ ¬ ∀ p ∈ l, p.1 ≤ p.2) := by
  by_cases h : ∀ p ∈ l, p.1 ≤ p.2
  · left
    have hd := dayCount_pairs l b
    rw [if_pos h] at hd
    have h' : l.all (fun p => decide (p.1 ≤ p.2)) = true := by simpa using h
    have key : ∀ d : Int, b.daysPerYear = some d →
        yearFrac (l.map (·.1)) (l.map (·.2)) b none = .ok (((l.zip (defaultTermination l.length)).map
          (fun x => countOf b x.1 x.2)).map (fun (n : Int) => (n : Rat) / d)) := by
      intro d hd'
      cases b <;> simp only [DayCountBasis.daysPerYear, Option.some.injEq, reduceCtorEq] at hd' <;> subst hd' <;>
        simp only [yearFrac, hd, Except.map] <;> norm_num
    cases hb : b.daysPerYear with
    | some d =>
      refine ⟨_, key d hb, h, ?_⟩
      intro d' hd'
      cases hd'
      rfl
    | none =>
      have : b = .act_act := by cases b <;> simp [DayCountBasis.daysPerYear] at hb; rfl
      subst this
      simp only [yearFrac, sameShape_pairs, checkOrder, List.length_map, ne_eq, not_true_eq_false, if_false, zip_pairs,
        pyAssert, h', if_true]
      exact ⟨_, rfl, h, fun d hd => by cases hd⟩
  · right
    refine ⟨?_, h⟩
    have hd := dayCount_pairs l b
    rw [if_neg h] at hd
    have h' : l.all (fun p => decide (p.1 ≤ p.2)) = false := by
      rw [← Bool.not_eq_true]; simpa using h
    cases b
    all_goals first
      | simp only [yearFrac, hd, Except.map]; done
      | simp [yearFrac, sameShape_pairs, checkOrder, zip_pairs, pyAssert, h']

theorem ordered_iff (rows : List (Option Int × Option Int)) : Ordered rows ↔ ∀ p ∈ bothOf rows, p.1 ≤ p.2 := by
  unfold Ordered bothOf
  constructor
  · intro h p hp
    rw [List.mem_filterMap] at hp
    obtain ⟨r, hr, hrp⟩ := hp
    rcases r with ⟨_ | s, _ | e⟩ <;> simp at hrp
    subst hrp
    exact h s e hr
  · intro h s e hm
    exact h (s, e) (List.mem_filterMap.mpr ⟨_, hm, rfl⟩)

theorem scatterYears_length (rows : List (Option Int × Option Int)) : ∀ v : List Rat,
    (scatterYears rows v).length = rows.length := by
  induction rows with
  | nil => intro v; simp [scatterYears]
  | cons r rows ih =>
    intro v
    rcases r with ⟨_ | s, _ | e⟩ <;> cases v <;> simp [scatterYears, ih]

theorem scatterYears_map (rows : List (Option Int × Option Int)) (g : Rat → Rat) : ∀ v : List Rat,
    scatterYears rows (v.map g) = (scatterYears rows v).map (Option.map g) := by
  induction rows with
  | nil => intro v; simp [scatterYears]
  | cons r rows ih =>
    intro v
    rcases r with ⟨_ | s, _ | e⟩
    · simpa [scatterYears] using ih v
    · simpa [scatterYears] using ih v
    · simpa [scatterYears] using ih v
    · cases v with
      | nil => simpa [scatterYears] using ih []
      | cons a v => simpa [scatterYears] using ih v

theorem bothOf_nil_iff (rows : List (Option Int × Option Int)) : bothOf rows = [] ↔ ∀ q ∈ rows, Incomplete q := by
  unfold bothOf Incomplete
  rw [List.filterMap_eq_nil_iff]
  constructor
  · intro h q hq
    have := h q hq
    rcases q with ⟨_ | s, _ | e⟩ <;> simp at this ⊢
  · intro h q hq
    have := h q hq
    rcases q with ⟨_ | s, _ | e⟩ <;> simp at this ⊢

theorem scatter_counts (b : DayCountBasis) (rows : List (Option Int × Option Int)) :
    ∀ i r, rows[i]? = some r →
    (Incomplete r → (scatterYears rows (((bothOf rows).zip (defaultTermination (bothOf rows).length)).map
      (fun x => ((countOf b x.1 x.2 : Int) : Rat))))[i]? = some none) ∧
    ∀ s e, r = (some s, some e) → (scatterYears rows (((bothOf rows).zip (defaultTermination (bothOf rows).length)).map
      (fun x => ((countOf b x.1 x.2 : Int) : Rat))))[i]? =
        some (some ((countOf b (s, e) ((rows.drop (i + 1)).all (fun q => decide (Incomplete q))) : Int) : Rat)) := by
  induction rows with
  | nil => intro i r h; simp at h
  | cons q rows ih =>
    intro i r h
    by_cases hq : Incomplete q
    · have hb : bothOf (q :: rows) = bothOf rows := by
        rcases q with ⟨_ | s, _ | e⟩ <;> simp [Incomplete] at hq <;> simp [bothOf]
      rw [hb]
      have hs : ∀ v, scatterYears (q :: rows) v = none :: scatterYears rows v := by
        intro v
        rcases q with ⟨_ | s, _ | e⟩ <;> simp [Incomplete] at hq <;> simp [scatterYears]
      rw [hs]
      cases i with
      | zero =>
        simp only [List.getElem?_cons_zero, Option.some.injEq] at h
        subst h
        refine ⟨fun _ => rfl, ?_⟩
        intro s e he
        simp [Incomplete, he] at hq
      | succ i =>
        simp only [List.getElem?_cons_succ] at h ⊢
        exact ih i r h
    · obtain ⟨s, e, rfl⟩ : ∃ s e, q = (some s, some e) := by
        rcases q with ⟨_ | s, _ | e⟩ <;> simp [Incomplete] at hq
        exact ⟨s, e, rfl⟩
      have hb : bothOf ((some s, some e) :: rows) = (s, e) :: bothOf rows := by simp [bothOf]
      rw [hb, List.length_cons, defaultTermination_succ, List.zip_cons_cons, List.map_cons]
      simp only [scatterYears]
      cases i with
      | zero =>
        simp only [List.getElem?_cons_zero, Option.some.injEq] at h
        subst h
        refine ⟨fun h => absurd h hq, ?_⟩
        intro s' e' he
        cases he
        have : decide ((bothOf rows).length = 0) = rows.all (fun q => decide (Incomplete q)) := by
          rw [Bool.eq_iff_iff, decide_eq_true_eq, List.length_eq_zero_iff, bothOf_nil_iff]
          simp
        rw [this]
        rfl
      | succ i =>
        simp only [List.getElem?_cons_succ] at h ⊢
        exact ih i r h

theorem dayCount_one (b : DayCountBasis) (s e : Int) (f : Bool) (h : s ≤ e) :
    dayCount [s] [e] b (some [f]) = .ok [countOf b (s, e) f] := by
  cases b <;> simp [dayCount, sameShape, checkOrder, pyAssert, h, countOf]

theorem periodDaycount_cases (basis : DayCountBasis) (rows : List (Option Int × Option Int)) :
    (∃ v y, periodDaycount basis rows = .ok v ∧ addPeriodYearfrac basis rows = .ok y ∧ Ordered rows ∧
      DaysOfRows basis rows v ∧ y.length = rows.length ∧
      ∀ d, basis.daysPerYear = some d → y = v.map (Option.map (fun n : Rat => n / (d : Rat)))) ∨
    (periodDaycount basis rows = .error .assertion ∧ addPeriodYearfrac basis rows = .error .assertion ∧
      ¬ Ordered rows) := by
  have e1 : periodDaycount basis rows = (dayCount ((bothOf rows).map (·.1)) ((bothOf rows).map (·.2)) basis none).map
      (fun days => scatterYears rows (days.map (fun (n : Int) => (n : Rat)))) := by
    unfold periodDaycount
    change (dayCount ((bothOf rows).map (·.1)) ((bothOf rows).map (·.2)) basis none >>= _) = _
    cases dayCount ((bothOf rows).map (·.1)) ((bothOf rows).map (·.2)) basis none <;> rfl
  have e2 : addPeriodYearfrac basis rows = (yearFrac ((bothOf rows).map (·.1)) ((bothOf rows).map (·.2)) basis none).map
      (fun years => scatterYears rows years) := by
    unfold addPeriodYearfrac
    change (yearFrac ((bothOf rows).map (·.1)) ((bothOf rows).map (·.2)) basis none >>= _) = _
    cases yearFrac ((bothOf rows).map (·.1)) ((bothOf rows).map (·.2)) basis none <;> rfl
  rw [e1, e2, dayCount_pairs]
  rcases yearFrac_pairs (bothOf rows) basis with ⟨y, hy, ho, hd⟩ | ⟨hy, ho⟩
  · left
    rw [hy, if_pos ho]
    refine ⟨_, _, rfl, rfl, (ordered_iff rows).mpr ho, ⟨scatterYears_length _ _, ?_⟩, scatterYears_length _ _, ?_⟩
    · intro i r hr
      have := scatter_counts basis rows i r hr
      simp only [List.map_map]
      refine ⟨this.1, ?_⟩
      intro s e hse
      refine ⟨_, dayCount_one basis s e _ ?_, this.2 s e hse⟩
      exact (ordered_iff rows).mpr ho s e (hse ▸ List.mem_of_getElem? hr)
    · intro d hd'
      simp only [hd d hd', ← scatterYears_map, List.map_map]
      rfl
  · right
    rw [hy, if_neg ho]
    exact ⟨rfl, rfl, fun h => ho ((ordered_iff rows).mp h)⟩

theorem tiles_first_last {s e : Int} {ps : List (Int × Int)} (h : Tiles s e ps) :
    ps.head?.map (·.1) = some s ∧ ps.getLast?.map (·.2) = some e := by
  induction ps generalizing s with
  | nil => exact absurd h (by simp [Tiles])
  | cons p ps ih =>
    cases ps with
    | nil => exact ⟨by simp [h.1], by simp [h.2]⟩
    | cons q ps =>
      refine ⟨by simp [h.1], ?_⟩
      rw [List.getLast?_cons_cons]
      exact (ih h.2).2

theorem sum_zip_add (c n : List Rat) (h : c.length = n.length) :
    ((c.zip n).map ((fun x : Rat × Rat × Rat => x.2.2) ∘ fun x => (x.1, x.2, x.1 + x.2))).sum = c.sum + n.sum := by
  induction c generalizing n with
  | nil => cases n <;> simp_all
  | cons a c ih =>
    cases n with
    | nil => simp at h
    | cons b n =>
      have := ih n (by simpa using h)
      simp only [List.zip_cons_cons, List.map_cons, List.sum_cons, this, Function.comp]
      ring

/-! ## Insertions -/

/-- The columns after adding the column of day counts. -/
def dcColumns (cs : List String) : List String :=
  let c := cs.filter (fun c => c ≠ "period_daycount")
  c.take (c.idxOf "period_end" + 1) ++ "period_daycount" :: c.drop (c.idxOf "period_end" + 1)

/-- The columns after adding the column of year fractions. -/
def yfColumns (cs : List String) : List String :=
  let c := cs.filter (fun c => c ≠ "period_yearfrac")
  c.take (c.idxOf "period_end" + 2) ++ "period_yearfrac" :: c.drop (c.idxOf "period_end" + 2)

theorem dc_step (basis : DayCountBasis) (t : SchedTable) (v : List NRat) (hv : periodDaycount basis t.periods = .ok v)
    (hc : "period_end" ∈ t.columns) :
    addPeriodDaycountStep basis t = ({ t with
      columns := dcColumns t.columns,
      numbers := fun c => if c = "period_daycount" then v else t.numbers c }, .ok ()) := by
  have h1 : "period_end" ∈ t.columns.filter (fun c => c ≠ "period_daycount") := by
    rw [List.mem_filter]; exact ⟨hc, by decide⟩
  have h2 := List.idxOf_lt_length_of_mem h1
  unfold addPeriodDaycountStep insertAfter SchedTable.pop
  simp only [hv]
  rw [if_pos h1]
  unfold insertColumn
  rw [if_neg (by rw [List.mem_filter]; simp), if_neg (by simp only; omega)]
  rfl

theorem yf_step (basis : DayCountBasis) (t : SchedTable) (v : List NRat)
    (hv : addPeriodYearfrac basis t.periods = .ok v) (hc : "period_end" ∈ t.columns)
    (hl : (t.columns.filter (fun c => c ≠ "period_yearfrac")).idxOf "period_end" + 2 ≤
      (t.columns.filter (fun c => c ≠ "period_yearfrac")).length) :
    addPeriodYearfracStep basis t = ({ t with
      columns := yfColumns t.columns,
      numbers := fun c => if c = "period_yearfrac" then v else t.numbers c }, .ok ()) := by
  have h1 : "period_end" ∈ t.columns.filter (fun c => c ≠ "period_yearfrac") := by
    rw [List.mem_filter]; exact ⟨hc, by decide⟩
  unfold addPeriodYearfracStep insertAfter SchedTable.pop
  simp only [hv]
  rw [if_pos h1]
  unfold insertColumn
  rw [if_neg (by rw [List.mem_filter]; simp), if_neg (by simp only; omega)]
  rfl

theorem dc_step_error (basis : DayCountBasis) (t : SchedTable) (e : Err)
    (hv : periodDaycount basis t.periods = .error e) (hc : "period_end" ∈ t.columns) :
    (addPeriodDaycountStep basis t).2 = .error e := by
  have h1 : "period_end" ∈ t.columns.filter (fun c => c ≠ "period_daycount") := by
    rw [List.mem_filter]; exact ⟨hc, by decide⟩
  unfold addPeriodDaycountStep insertAfter SchedTable.pop
  simp only [hv]
  rw [if_pos h1]

theorem insertAfter_rows (a : String) (k : Nat) (n : String) (v : Except Err (List NRat)) (t : SchedTable) :
    (insertAfter a k n v t).1.rows = t.rows := by
  unfold insertAfter
  split
  · cases v with
    | error e => rfl
    | ok v =>
      simp only [insertColumn]
      split
      · rfl
      · split <;> rfl
  · rfl

theorem andThen_rows (f g : TableStep) (hf : ∀ t, (f t).1.rows = t.rows) (hg : ∀ t, (g t).1.rows = t.rows)
    (t : SchedTable) : ((f.andThen g) t).1.rows = t.rows := by
  unfold TableStep.andThen
  have := hf t
  rcases hft : f t with ⟨t1, _ | _⟩
  · simp only [hft] at this ⊢; exact this
  · simp only [hft] at this ⊢; rw [hg, this]

theorem scale_eq (p : PayRcv) (t : SchedTable) : (scaleNotionals p.multiplier t).rows = timesNotional (sign p) t.rows := by
  unfold scaleNotionals timesNotional
  apply List.map_congr_left
  intro x _
  cases p <;> simp [sign, PayRcv.multiplier]

theorem timesNotional_mul (a b : Rat) (rows : List (NotionalRow × Option Int)) :
    timesNotional a (timesNotional b rows) = timesNotional (a * b) rows := by
  unfold timesNotional
  rw [List.map_map]
  apply List.map_congr_left
  intro x _
  simp [mul_assoc]

theorem timesNotional_one (rows : List (NotionalRow × Option Int)) : timesNotional 1 rows = rows := by
  unfold timesNotional
  conv_rhs => rw [← List.map_id rows]
  apply List.map_congr_left
  intro x _
  simp

theorem sign_sq (p : PayRcv) : sign p * sign p = 1 := by cases p <;> norm_num [sign]

theorem periods_scale (m : Rat) (t : SchedTable) : (scaleNotionals m t).periods = t.periods := by
  unfold SchedTable.periods scaleNotionals
  simp [List.map_map, Function.comp]

theorem instantiable_of (k : LegKind) : instantiable (.of k) = true := by cases k <;> decide +kernel

/-- The columns possible before a leg is built in the theorems below. -/
def Known (cs : List String) : Prop :=
  cs = couponColumns ∨
  cs = ["period_start", "period_end", "period_daycount", "period_yearfrac", "notional", "notional_payment",
    "notional_payment_date", "coupon_payment_date"] ∨
  ∃ k, cs = legColumns (solvedField k)

theorem known_end {cs : List String} (h : Known cs) : "period_end" ∈ cs := by
  rcases h with rfl | rfl | ⟨k, rfl⟩ <;> simp [couponColumns, legColumns]

theorem end_split {cs : List String} (h : "period_end" ∈ cs) :
    ∃ a b, cs = a ++ "period_end" :: b ∧ "period_end" ∉ a ∧ cs.idxOf "period_end" = a.length := by
  obtain ⟨a, b, hab, hn⟩ := List.eq_append_cons_of_mem h
  refine ⟨a, b, hab, hn, ?_⟩
  rw [hab, List.idxOf_append, if_neg hn, List.idxOf_cons_self, Nat.zero_add]

theorem dcColumns_split {cs : List String} (h : "period_end" ∈ cs) :
    ∃ a b, dcColumns cs = a ++ "period_end" :: "period_daycount" :: b ∧ "period_end" ∉ a := by
  have h1 : "period_end" ∈ cs.filter (fun c => c ≠ "period_daycount") := by
    rw [List.mem_filter]; exact ⟨h, by decide⟩
  obtain ⟨a, b, hab, hn, hi⟩ := end_split h1
  refine ⟨a, b, ?_, hn⟩
  unfold dcColumns
  simp only
  rw [hi, hab, List.take_length_add_append, List.drop_length_add_append]
  simp

theorem dc_len {cs : List String} (h : "period_end" ∈ cs) :
    ((dcColumns cs).filter (fun c => c ≠ "period_yearfrac")).idxOf "period_end" + 2 ≤
      ((dcColumns cs).filter (fun c => c ≠ "period_yearfrac")).length ∧ "period_end" ∈ dcColumns cs := by
  obtain ⟨a, b, hab, hn⟩ := dcColumns_split h
  rw [hab]
  refine ⟨?_, by simp⟩
  have hn' : "period_end" ∉ a.filter (fun c => c ≠ "period_yearfrac") := fun hm => hn ((List.mem_filter.mp hm).1)
  have : (a ++ "period_end" :: "period_daycount" :: b).filter (fun c => c ≠ "period_yearfrac") =
      a.filter (fun c => c ≠ "period_yearfrac") ++ "period_end" :: "period_daycount" ::
        b.filter (fun c => c ≠ "period_yearfrac") := by
    rw [List.filter_append, List.filter_cons_of_pos (by decide), List.filter_cons_of_pos (by decide)]
  rw [this, List.idxOf_append, if_neg hn', List.idxOf_cons_self]
  simp only [List.length_append, List.length_cons]
  omega

/-- The table after the columns of lengths have been added. -/
def withLengths (t : SchedTable) (m : Rat) (v y : List NRat) : SchedTable :=
  { columns := yfColumns (dcColumns t.columns), rows := timesNotional m t.rows,
    numbers := fun c => if c = "period_yearfrac" then y else if c = "period_daycount" then v else t.numbers c }

theorem build_eq (k : LegKind) (p : PayRcv) (basis : DayCountBasis) (exch : ExchangeNotionals) (param : List NRat)
    (t : SchedTable) (hc : "period_end" ∈ t.columns) (v y : List NRat) (hv : periodDaycount basis t.periods = .ok v)
    (hy : addPeriodYearfrac basis t.periods = .ok y) :
    buildLeg (.of k) p basis exch param t = addCouponParamStep exch k param (withLengths t (sign p) v y) := by
  unfold buildLeg
  rw [if_pos (instantiable_of k)]
  simp only
  have hp := periods_scale p.multiplier t
  have hcol : (scaleNotionals p.multiplier t).columns = t.columns := rfl
  have h1 := dc_step basis (scaleNotionals p.multiplier t) v (by rw [hp]; exact hv) (by rw [hcol]; exact hc)
  unfold TableStep.andThen
  rw [h1]
  simp only
  have h2 := yf_step basis { scaleNotionals p.multiplier t with
      columns := dcColumns (scaleNotionals p.multiplier t).columns,
      numbers := fun c => if c = "period_daycount" then v else (scaleNotionals p.multiplier t).numbers c } y
      (by
        have : (SchedTable.periods { scaleNotionals p.multiplier t with
          columns := dcColumns (scaleNotionals p.multiplier t).columns,
          numbers := fun c => if c = "period_daycount" then v else (scaleNotionals p.multiplier t).numbers c }) =
          t.periods := hp
        rw [this]; exact hy)
      (dc_len hc).2 (dc_len hc).1
  rw [h2]
  simp only
  congr 1
  unfold withLengths
  simp only [SchedTable.mk.injEq]
  exact ⟨rfl, scale_eq p t, rfl⟩

theorem param_step (exch : ExchangeNotionals) (k : LegKind) (param : List NRat) (t : SchedTable) (m : Rat)
    (v y : List NRat) :
    addCouponParamStep exch k param (withLengths t m v y) =
      match contractualParam exch t.rows.length param with
      | .error e => (withLengths t m v y, .error e)
      | .ok r => insertAfter "coupon_payment_date" 0 (solvedField k) (.ok r) (withLengths t m v y) := by
  unfold addCouponParamStep
  have : (withLengths t m v y).rows.length = t.rows.length := by simp [withLengths, timesNotional]
  rw [this]
  cases contractualParam exch t.rows.length param <;> rfl

theorem bare_columns : yfColumns (dcColumns couponColumns) =
    ["period_start", "period_end", "period_daycount", "period_yearfrac", "notional", "notional_payment",
      "notional_payment_date", "coupon_payment_date"] ∧
    yfColumns (dcColumns ["period_start", "period_end", "period_daycount", "period_yearfrac", "notional",
      "notional_payment", "notional_payment_date", "coupon_payment_date"]) =
    ["period_start", "period_end", "period_daycount", "period_yearfrac", "notional", "notional_payment",
      "notional_payment_date", "coupon_payment_date"] ∧
    ∀ k, yfColumns (dcColumns (legColumns (solvedField k))) = legColumns (solvedField k) := by
  refine ⟨by decide +kernel, by decide +kernel, ?_⟩
  intro k
  cases k <;> decide +kernel

theorem insert_param (k : LegKind) (t : SchedTable) (r : List NRat)
    (hc : t.columns = ["period_start", "period_end", "period_daycount", "period_yearfrac", "notional", "notional_payment",
      "notional_payment_date", "coupon_payment_date"]) :
    insertAfter "coupon_payment_date" 0 (solvedField k) (.ok r) t =
      ({ columns := legColumns (solvedField k), rows := t.rows,
         numbers := fun c => if c = solvedField k then r else t.numbers c }, .ok ()) := by
  rcases t with ⟨cs, rows, numbers⟩
  simp only at hc
  subst hc
  unfold insertAfter
  rw [if_pos (by simp)]
  simp only
  unfold insertColumn
  rw [if_neg (by cases k <;> simp [solvedField]), if_neg (by simp [List.idxOf_cons])]
  simp only [Prod.mk.injEq, SchedTable.mk.injEq, and_true]
  cases k <;> decide +kernel

theorem zip_timesNotional_len (m : Rat) (rows : List (NotionalRow × Option Int)) :
    (timesNotional m rows).length = rows.length := by simp [timesNotional]

theorem field_ne (k : LegKind) : ("period_yearfrac" = solvedField k) = False ∧ ("period_daycount" = solvedField k) = False ∧
    (solvedField k = "period_yearfrac") = False ∧ (solvedField k = "period_daycount") = False := by
  cases k <;> simp [solvedField]

end Frm

namespace Frm.Props
open Spec

set_option autoImplicit false

/-- A new coupon schedule object: its six columns in order, its rows those of `CouponSchedule`, its dates the ones
given. -/
theorem C98_new_schedule (a : CouponArgs) (o : SchedObj) (h : makeCouponSchedule a = .ok o) :
    o.table.columns = ["period_start", "period_end", "notional", "notional_payment", "notional_payment_date",
      "coupon_payment_date"] ∧ o.exch = a.exch ∧
    ∃ ps, makeSchedule a.base = .ok ps ∧
      couponSchedule a.base.cal a.base.rollConv a.notional a.exch a.notionalDelay a.notionalTiming a.initialDate
        a.couponDelay a.couponTiming ps = .ok o.table.rows ∧
      (a.base.rollUser = false → o.startDate = a.base.startDate ∧ o.endDate = a.base.endDate) ∧
      (a.base.rollUser = true → (∃ e, ps.head? = some (o.startDate, e)) ∧ ∃ s, ps.getLast? = some (s, o.endDate)) := by
  unfold makeCouponSchedule at h
  simp only [bind_ok] at h
  obtain ⟨b, hb, rows, hr, h⟩ := h
  cases h
  refine ⟨rfl, rfl, ?_⟩
  unfold baseSchedule at hb
  simp only [bind_ok] at hb
  obtain ⟨ps, hps, hb⟩ := hb
  refine ⟨ps, hps, ?_⟩
  cases hu : a.base.rollUser with
  | false =>
    rw [hu] at hb
    cases hb
    exact ⟨hr, fun _ => ⟨rfl, rfl⟩, fun h => absurd h (by simp)⟩
  | true =>
    rw [hu] at hb
    simp only [if_true] at hb
    split at hb
    · rename_i f l hf hl
      cases hb
      exact ⟨hr, fun h => absurd h (by simp), fun _ => ⟨⟨f.2, hf⟩, ⟨l.1, hl⟩⟩⟩
    · cases hb

/-- With rolled dates and no stub dates the object keeps the rolled start and end. -/
theorem C98_rolled_dates (a : CouponArgs) (hc : a.base.cal.Ok) (hu : a.base.rollUser = true)
    (hf : a.base.freq ≠ .zeroCoupon) (h1 : a.base.firstPeriodEnd = none) (h2 : a.base.lastPeriodStart = none)
    (o : SchedObj) (h : makeCouponSchedule a = .ok o) :
    RollsTo a.base.cal a.base.rollConv a.base.startDate o.startDate ∧
    RollsTo a.base.cal a.base.rollConv a.base.endDate o.endDate := by
  obtain ⟨_, _, ps, hps, _, _, hr⟩ := C98_new_schedule a o h
  obtain ⟨⟨e', he⟩, ⟨s', hs⟩⟩ := hr hu
  obtain ⟨s, e, r1, r2, ht⟩ := C12_tiles_rolled hc hu hf h1 h2 hps
  obtain ⟨hh, hl⟩ := tiles_first_last ht
  rw [he] at hh
  rw [hs] at hl
  simp only [Option.map_some, Option.some.injEq] at hh hl
  rw [hh, hl]
  exact ⟨r1, r2⟩

/-- A leg built on a new schedule is the leg of `makeLeg`: same rows, same refusal; it leaves its nine columns in order
in the schedule object, the day count of every row among them. -/
theorem C98_leg (k : LegKind) (p : PayRcv) (basis : DayCountBasis) (curve : Option (Int → Rat)) (fc : Bool)
    (zdf : Rat → Rat → Rat) (exch : ExchangeNotionals) (param : List NRat) (t : SchedTable)
    (hc : t.columns = couponColumns) :
    (∀ leg, makeLeg k p basis curve fc zdf exch param t.rows = .ok leg →
      (buildLeg (.of k) p basis exch param t).2 = .ok () ∧
      legRowsOf k (buildLeg (.of k) p basis exch param t).1 = leg.rows ∧
      (buildLeg (.of k) p basis exch param t).1.columns = legColumns (solvedField k) ∧
      DaysOfRows basis t.periods ((buildLeg (.of k) p basis exch param t).1.numbers "period_daycount")) ∧
    (∀ e, makeLeg k p basis curve fc zdf exch param t.rows = .error e →
      (buildLeg (.of k) p basis exch param t).2 = .error e) := by
  have hk : Known t.columns := .inl hc
  rcases periodDaycount_cases basis t.periods with ⟨v, y, hv, hy, _, hd, _, _⟩ | ⟨hv, hy, _⟩
  · rw [build_eq k p basis exch param t (known_end hk) v y hv hy, param_step]
    have hy' : addPeriodYearfrac basis (t.rows.map (fun x => (x.1.periodStart, x.1.periodEnd))) = .ok y := hy
    unfold makeLeg
    simp only [hy', bind, Except.bind]
    cases hp : contractualParam exch t.rows.length param with
    | error e =>
      refine ⟨fun leg h => ?_, fun e' h => ?_⟩
      · cases h
      · cases h; rfl
    | ok r =>
      simp only [pure, Except.pure, Except.ok.injEq, reduceCtorEq, false_implies, implies_true, and_true]
      have hcol : (withLengths t (sign p) v y).columns = _ := (congrArg (fun c => yfColumns (dcColumns c)) hc).trans
        bare_columns.1
      rw [insert_param k _ r hcol]
      rintro leg rfl
      refine ⟨rfl, ?_, rfl, ?_⟩
      · unfold legRowsOf withLengths
        simp only [field_ne, if_true, if_false]
        rw [timesNotional, List.zip_map_left, List.zip_map_left, List.map_map]
        apply List.map_congr_left
        intro x _
        cases p <;> simp [sign, PayRcv.multiplier]
      · simpa [withLengths, field_ne] using hd
  · have hy' : addPeriodYearfrac basis (t.rows.map (fun x => (x.1.periodStart, x.1.periodEnd))) = .error .assertion := hy
    unfold makeLeg
    simp only [hy', bind, Except.bind]
    refine ⟨fun leg h => ?_, fun e h => ?_⟩
    · cases h
    cases h
    unfold buildLeg
    rw [if_pos (instantiable_of k)]
    have := dc_step_error basis (scaleNotionals p.multiplier t) _ (by rw [periods_scale]; exact hv)
      (known_end hk)
    simp only [TableStep.andThen]
    rcases hst : addPeriodDaycountStep basis (scaleNotionals p.multiplier t) with ⟨t1, _ | _⟩
    · rw [hst] at this; exact this
    · rw [hst] at this; cases this

/-- Building a leg on any schedule object, whether it is refused or not, multiplies the notionals and notional payments
of the caller's schedule by the sign of the side. -/
theorem C98_sign (k : LegKind) (p : PayRcv) (basis : DayCountBasis) (exch : ExchangeNotionals) (param : List NRat)
    (t : SchedTable) : (buildLeg (.of k) p basis exch param t).1.rows = timesNotional (sign p) t.rows := by
  unfold buildLeg
  rw [if_pos (instantiable_of k)]
  simp only
  rw [andThen_rows, scale_eq]
  · intro t; exact insertAfter_rows _ _ _ _ _
  · intro t
    apply andThen_rows
    · intro t; exact insertAfter_rows _ _ _ _ _
    · intro t
      unfold addCouponParamStep
      split
      · rfl
      · exact insertAfter_rows _ _ _ _ _

/-- The inflation classes cannot be built: two abstract methods are missing.  Nothing is changed. -/
theorem C98_inflation (c : LegClass) (hc : c = .inflationZC ∨ c = .inflationYoY) (p : PayRcv) (basis : DayCountBasis)
    (exch : ExchangeNotionals) (param : List NRat) (t : SchedTable) :
    buildLeg c p basis exch param t = (t, .error .type) := by
  have : instantiable c = false := by rcases hc with rfl | rfl <;> decide +kernel
  unfold buildLeg
  simp [this]

/-- The methods the error message of the inflation classes names; the other classes have none missing. -/
theorem C98_missing_methods (c : LegClass) :
    abstractLegMethods.filter (fun m => !(legMethods c).contains m) =
      match c with
      | .of _ => []
      | _ => ["calc_coupon_payment", "_get_legtype_specific_schedule_cols"] := by
  cases c with
  | of k => cases k <;> decide +kernel
  | inflationZC => decide +kernel
  | inflationYoY => decide +kernel

/-- A leg on a data frame without the column `period_end` is a key error; the notionals are changed and an old column
`period_daycount` is gone. -/
theorem C98_no_period_end (k : LegKind) (p : PayRcv) (basis : DayCountBasis) (exch : ExchangeNotionals) (param : List NRat)
    (t : SchedTable) (h : "period_end" ∉ t.columns) :
    buildLeg (.of k) p basis exch param t =
      ({ t with columns := t.columns.filter (fun c => c ≠ "period_daycount"), rows := timesNotional (sign p) t.rows },
        .error .key) := by
  have h1 : "period_end" ∉ ((scaleNotionals p.multiplier t).pop "period_daycount").columns := fun hm =>
    h ((List.mem_filter.mp hm).1)
  unfold buildLeg
  simp only [instantiable_of, if_true, TableStep.andThen, addPeriodDaycountStep, insertAfter, if_neg h1]
  rw [← scale_eq p t]
  rfl

/-- A leg on a data frame without the column `coupon_payment_date` is a key error, when the periods are in order and the parameter has
a valid shape; the notionals are changed and the columns of lengths are there. -/
theorem C98_no_payment_date (k : LegKind) (p : PayRcv) (basis : DayCountBasis) (exch : ExchangeNotionals) (param : List NRat)
    (t : SchedTable) (he : "period_end" ∈ t.columns) (h : "coupon_payment_date" ∉ t.columns) (ho : Ordered t.periods)
    (r : List NRat) (hr : contractualParam exch t.rows.length param = .ok r) :
    (buildLeg (.of k) p basis exch param t).2 = .error .key ∧
      (buildLeg (.of k) p basis exch param t).1.rows = timesNotional (sign p) t.rows ∧
      "period_daycount" ∈ (buildLeg (.of k) p basis exch param t).1.columns ∧
      "period_yearfrac" ∈ (buildLeg (.of k) p basis exch param t).1.columns ∧
      DaysOfRows basis t.periods ((buildLeg (.of k) p basis exch param t).1.numbers "period_daycount") := by
  rcases periodDaycount_cases basis t.periods with ⟨v, y, hv, hy, -, hd, -⟩ | ⟨-, -, hno⟩
  · have hm : "coupon_payment_date" ∉ yfColumns (dcColumns t.columns) := by
      intro hm
      have sub : ∀ (c : List String) (n : Nat) (x : String), x ≠ "coupon_payment_date" →
          "coupon_payment_date" ∈ c.take n ++ x :: c.drop n → "coupon_payment_date" ∈ c := by
        intro c n x hx hm
        rcases List.mem_append.mp hm with hm | hm
        · exact List.mem_of_mem_take hm
        · rcases List.mem_cons.mp hm with hm | hm
          · exact absurd hm.symm hx
          · exact List.mem_of_mem_drop hm
      have h1 := (List.mem_filter.mp (sub _ _ _ (by decide) hm)).1
      exact h (List.mem_filter.mp (sub _ _ _ (by decide) h1)).1
    have hb : buildLeg (.of k) p basis exch param t = (withLengths t (sign p) v y, .error .key) := by
      rw [build_eq k p basis exch param t he v y hv hy, param_step, hr]
      unfold insertAfter
      exact if_neg hm
    rw [hb]
    refine ⟨rfl, rfl, ?_, ?_, ?_⟩
    · obtain ⟨a, b, hab, -⟩ := dcColumns_split he
      have h1 : "period_daycount" ∈ (dcColumns t.columns).filter (fun c => c ≠ "period_yearfrac") := by
        rw [hab, List.mem_filter]; exact ⟨by simp, by decide⟩
      unfold withLengths yfColumns
      simp only
      rw [← List.take_append_drop ((List.filter (fun c => c ≠ "period_yearfrac") (dcColumns t.columns)).idxOf "period_end" + 2)
        (List.filter (fun c => c ≠ "period_yearfrac") (dcColumns t.columns))] at h1
      rcases List.mem_append.mp h1 with h1 | h1
      · exact List.mem_append_left _ h1
      · exact List.mem_append_right _ (List.mem_cons_of_mem _ h1)
    · exact List.mem_append_right _ List.mem_cons_self
    · exact hd
  · exact absurd ho hno

/-- Cases of `C98_no_period_end` and `C98_no_payment_date`: a new schedule with one column taken away. -/
example : "period_end" ∉ couponColumns.filter (fun c => c ≠ "period_end") ∧
    "period_end" ∈ couponColumns.filter (fun c => c ≠ "coupon_payment_date") ∧
    "coupon_payment_date" ∉ couponColumns.filter (fun c => c ≠ "coupon_payment_date") := by decide +kernel

/-- A leg is built on a new schedule exactly when the periods are in order and its parameter has a valid shape. -/
theorem build_ok_iff (k : LegKind) (p : PayRcv) (basis : DayCountBasis) (exch : ExchangeNotionals) (param : List NRat)
    (t : SchedTable) (hc : t.columns = couponColumns) :
    (buildLeg (.of k) p basis exch param t).2 = .ok () ↔
      Ordered t.periods ∧ ∃ r, contractualParam exch t.rows.length param = .ok r := by
  rcases periodDaycount_cases basis t.periods with ⟨v, y, hv, hy, ho, _⟩ | ⟨hv, hy, ho⟩
  · rw [build_eq k p basis exch param t (known_end (.inl hc)) v y hv hy, param_step]
    cases hp : contractualParam exch t.rows.length param with
    | error e => simp
    | ok r =>
      have hcol : (withLengths t (sign p) v y).columns = _ := (congrArg (fun c => yfColumns (dcColumns c)) hc).trans
        bare_columns.1
      simp only [insert_param k _ r hcol]
      exact ⟨fun _ => ⟨ho, r, rfl⟩, fun _ => trivial⟩
  · constructor
    · intro h
      have := (C98_leg k p basis none true (fun _ _ => 0) exch param t hc).2 .assertion (by
        have hy' : addPeriodYearfrac basis (t.rows.map (fun x => (x.1.periodStart, x.1.periodEnd))) = .error .assertion := hy
        unfold makeLeg
        simp only [hy', bind, Except.bind])
      rw [this] at h
      cases h
    · intro h; exact absurd h.1 ho

/-- The table after a leg has been built on a new schedule. -/
def afterLeg (k : LegKind) (p : PayRcv) (t : SchedTable) (r v y : List NRat) : SchedTable :=
  { columns := legColumns (solvedField k), rows := timesNotional (sign p) t.rows,
    numbers := fun c => if c = solvedField k then r else (if c = "period_yearfrac" then y
      else (if c = "period_daycount" then v else t.numbers c)) }

/-- Every column of the table after a leg has been built on a new schedule. -/
theorem build_ok_eq (k : LegKind) (p : PayRcv) (basis : DayCountBasis) (exch : ExchangeNotionals) (param : List NRat)
    (t : SchedTable) (hc : t.columns = couponColumns) (r v y : List NRat)
    (hp : contractualParam exch t.rows.length param = .ok r) (hv : periodDaycount basis t.periods = .ok v)
    (hy : addPeriodYearfrac basis t.periods = .ok y) :
    buildLeg (.of k) p basis exch param t =
      (afterLeg k p t r v y, .ok ()) := by
  rw [build_eq k p basis exch param t (known_end (.inl hc)) v y hv hy, param_step, hp]
  have hcol : (withLengths t (sign p) v y).columns = _ := (congrArg (fun c => yfColumns (dcColumns c)) hc).trans
    bare_columns.1
  simp only [insert_param k _ r hcol]
  rfl

theorem periods_timesNotional (m : Rat) (cs : List String) (nb : String → List NRat)
    (rows : List (NotionalRow × Option Int)) :
    SchedTable.periods { columns := cs, rows := timesNotional m rows, numbers := nb } =
      rows.map (fun x => (x.1.periodStart, x.1.periodEnd)) := by
  unfold SchedTable.periods timesNotional
  simp [List.map_map, Function.comp]

/-- Defect: after a leg has been refused for the shape of its parameter the schedule has changed, so building the leg
again with a correct parameter gives a payer the notionals of a receiver. -/
theorem C98_retry (k k' : LegKind) (p : PayRcv) (basis basis' : DayCountBasis) (exch : ExchangeNotionals)
    (param param' : List NRat) (t : SchedTable) (hc : t.columns = couponColumns)
    (hbad : contractualParam exch t.rows.length param' = .error .value)
    (hok : (buildLeg (.of k) p basis exch param t).2 = .ok ()) :
    (buildLeg (.of k') p basis' exch param' t).2 = .error .value ∧
    (buildLeg (.of k) p basis exch param (buildLeg (.of k') p basis' exch param' t).1).2 = .ok () ∧
    (buildLeg (.of k) p basis exch param (buildLeg (.of k') p basis' exch param' t).1).1.rows = t.rows := by
  obtain ⟨ho, r, hp⟩ := (build_ok_iff k p basis exch param t hc).mp hok
  rcases periodDaycount_cases basis' t.periods with ⟨v', y', hv', hy', _⟩ | ⟨_, _, hno⟩
  swap
  · exact absurd ho hno
  rcases periodDaycount_cases basis t.periods with ⟨v, y, hv, hy, _⟩ | ⟨_, _, hno⟩
  swap
  · exact absurd ho hno
  have e1 : buildLeg (.of k') p basis' exch param' t = (withLengths t (sign p) v' y', .error .value) := by
    rw [build_eq k' p basis' exch param' t (known_end (.inl hc)) v' y' hv' hy', param_step, hbad]
  rw [e1]
  refine ⟨rfl, ?_, ?_⟩
  · have hcol : (withLengths t (sign p) v' y').columns = _ := (congrArg (fun c => yfColumns (dcColumns c)) hc).trans
      bare_columns.1
    have hper : (withLengths t (sign p) v' y').periods = t.periods := periods_timesNotional _ _ _ _
    rw [build_eq k p basis exch param _ (known_end (.inr (.inl hcol))) v y (by rw [hper]; exact hv) (by rw [hper]; exact hy),
      param_step]
    have hlen : (withLengths t (sign p) v' y').rows.length = t.rows.length := zip_timesNotional_len _ _
    rw [hlen, hp]
    have hcol2 : (withLengths (withLengths t (sign p) v' y') (sign p) v y).columns = _ :=
      (congrArg (fun c => yfColumns (dcColumns c)) hcol).trans bare_columns.2.1
    simp only [insert_param k _ r hcol2]
  · rw [C98_sign]
    change timesNotional (sign p) (timesNotional (sign p) t.rows) = _
    rw [timesNotional_mul, sign_sq, timesNotional_one]

/-- Defect: a second leg with the same parameter column on the same schedule object is refused, whatever its side, basis
and parameter. -/
theorem C98_same_field (k1 k2 : LegKind) (p1 p2 : PayRcv) (b1 b2 : DayCountBasis) (exch : ExchangeNotionals)
    (param1 param2 : List NRat) (t : SchedTable) (hc : t.columns = couponColumns)
    (hf : solvedField k1 = solvedField k2) (h1 : (buildLeg (.of k1) p1 b1 exch param1 t).2 = .ok ()) :
    (buildLeg (.of k2) p2 b2 exch param2 (buildLeg (.of k1) p1 b1 exch param1 t).1).2 = .error .value := by
  obtain ⟨ho, r, hp⟩ := (build_ok_iff k1 p1 b1 exch param1 t hc).mp h1
  rcases periodDaycount_cases b1 t.periods with ⟨v, y, hv, hy, _⟩ | ⟨_, _, hno⟩
  swap
  · exact absurd ho hno
  rcases periodDaycount_cases b2 t.periods with ⟨v2, y2, hv2, hy2, _⟩ | ⟨_, _, hno⟩
  swap
  · exact absurd ho hno
  rw [build_ok_eq k1 p1 b1 exch param1 t hc r v y hp hv hy]
  simp only
  generalize hT : afterLeg k1 p1 t r v y = T
  have hper : T.periods = t.periods := by rw [← hT]; exact periods_timesNotional _ _ _ _
  have hcols : T.columns = legColumns (solvedField k1) := by rw [← hT]; rfl
  rw [build_eq k2 p2 b2 exch param2 T (known_end (.inr (.inr ⟨k1, hcols⟩))) v2 y2 (by rw [hper]; exact hv2)
    (by rw [hper]; exact hy2), param_step]
  have hcol2 : (withLengths T (sign p2) v2 y2).columns = legColumns (solvedField k2) :=
    (congrArg (fun c => yfColumns (dcColumns c)) hcols).trans (by rw [bare_columns.2.2, hf])
  unfold contractualParam
  simp only
  split
  · rename_i r' heq
    split at heq <;> simp_all
  · unfold insertAfter insertColumn
    rw [hcol2]
    simp [legColumns]

/-- Two legs with different parameter columns on one schedule object: both are built; they read the same notionals, times
both signs, the same lengths, those of the second leg's basis, and each its own parameter. -/
theorem C98_shared (k1 k2 : LegKind) (p1 p2 : PayRcv) (b1 b2 : DayCountBasis) (exch : ExchangeNotionals)
    (param1 param2 : List NRat) (t : SchedTable) (hc : t.columns = couponColumns)
    (hf : solvedField k1 ≠ solvedField k2) (h1 : (buildLeg (.of k1) p1 b1 exch param1 t).2 = .ok ())
    (h2 : (buildLeg (.of k2) p2 b2 exch param2 t).2 = .ok ()) :
    ∃ T, buildLeg (.of k2) p2 b2 exch param2 (buildLeg (.of k1) p1 b1 exch param1 t).1 = (T, .ok ()) ∧
      T.rows = timesNotional (sign p2 * sign p1) t.rows ∧
      addPeriodYearfrac b2 t.periods = .ok (T.numbers "period_yearfrac") ∧
      contractualParam exch t.rows.length param1 = .ok (T.numbers (solvedField k1)) ∧
      contractualParam exch t.rows.length param2 = .ok (T.numbers (solvedField k2)) := by
  obtain ⟨ho, r, hp⟩ := (build_ok_iff k1 p1 b1 exch param1 t hc).mp h1
  obtain ⟨_, r2, hp2⟩ := (build_ok_iff k2 p2 b2 exch param2 t hc).mp h2
  rcases periodDaycount_cases b1 t.periods with ⟨v, y, hv, hy, _⟩ | ⟨_, _, hno⟩
  swap
  · exact absurd ho hno
  rcases periodDaycount_cases b2 t.periods with ⟨v2, y2, hv2, hy2, _⟩ | ⟨_, _, hno⟩
  swap
  · exact absurd ho hno
  rw [build_ok_eq k1 p1 b1 exch param1 t hc r v y hp hv hy]
  simp only
  generalize hT : afterLeg k1 p1 t r v y = T
  have hper : T.periods = t.periods := by rw [← hT]; exact periods_timesNotional _ _ _ _
  have hcols : T.columns = legColumns (solvedField k1) := by rw [← hT]; rfl
  have hrows : T.rows = timesNotional (sign p1) t.rows := by rw [← hT]; rfl
  have hnum : T.numbers (solvedField k1) = r := by rw [← hT]; simp [afterLeg]
  rw [build_eq k2 p2 b2 exch param2 T (known_end (.inr (.inr ⟨k1, hcols⟩))) v2 y2 (by rw [hper]; exact hv2)
    (by rw [hper]; exact hy2), param_step]
  have hcol2 : (withLengths T (sign p2) v2 y2).columns = legColumns (solvedField k1) :=
    (congrArg (fun c => yfColumns (dcColumns c)) hcols).trans (bare_columns.2.2 k1)
  have hlen : T.rows.length = t.rows.length := by rw [hrows, zip_timesNotional_len]
  rw [hlen, hp2]
  simp only
  unfold insertAfter insertColumn
  rw [hcol2, if_pos (by simp [legColumns])]
  simp only
  rw [if_neg (by cases k1 <;> cases k2 <;> simp [legColumns, solvedField] at hf ⊢),
    if_neg (by cases k1 <;> decide +kernel)]
  refine ⟨_, rfl, ?_, ?_, ?_, ?_⟩
  · simp only [withLengths, hrows, timesNotional_mul]
  · simp only [withLengths, field_ne, if_true, if_false]; exact hy2
  · simp only [withLengths, field_ne, if_false, hf, hnum]; exact hp
  · simp only [if_true]

/-- Hence a payer and a receiver sharing a schedule object both read the negative of the schedule's notionals, and two
payers its notionals. -/
theorem C98_shared_swap (k1 k2 : LegKind) (p1 p2 : PayRcv) (b1 b2 : DayCountBasis) (exch : ExchangeNotionals)
    (param1 param2 : List NRat) (t : SchedTable) (hc : t.columns = couponColumns)
    (hf : solvedField k1 ≠ solvedField k2) (h1 : (buildLeg (.of k1) p1 b1 exch param1 t).2 = .ok ())
    (h2 : (buildLeg (.of k2) p2 b2 exch param2 t).2 = .ok ()) :
    (buildLeg (.of k2) p2 b2 exch param2 (buildLeg (.of k1) p1 b1 exch param1 t).1).1.rows =
      timesNotional (if p1 = p2 then 1 else -1) t.rows := by
  obtain ⟨T, hT, hr, _⟩ := C98_shared k1 k2 p1 p2 b1 b2 exch param1 param2 t hc hf h1 h2
  rw [hT, hr]
  congr 1
  cases p1 <;> cases p2 <;> simp [sign]

/-- `_get_contractual_schedule_cols` of a new leg. -/
theorem C98_contractual_columns (k : LegKind) (p : PayRcv) (basis : DayCountBasis) (exch : ExchangeNotionals)
    (param : List NRat) (t : SchedTable) (hc : t.columns = couponColumns)
    (h : (buildLeg (.of k) p basis exch param t).2 = .ok ()) :
    contractualColumns k (buildLeg (.of k) p basis exch param t).1 =
      ["period_start", "period_end", "notional_payment_date", solvedField k, "coupon_payment_date"] := by
  obtain ⟨ho, r, hp⟩ := (build_ok_iff k p basis exch param t hc).mp h
  rcases periodDaycount_cases basis t.periods with ⟨v, y, hv, hy, _⟩ | ⟨_, _, hno⟩
  swap
  · exact absurd ho hno
  rw [build_ok_eq k p basis exch param t hc r v y hp hv hy]
  unfold contractualColumns afterLeg
  simp only
  cases k <;> decide +kernel

/-- `_get_contractual_schedule_cols` at any time: the dates that are there, in the order of the data frame, with the rate of a fixed or
zero-coupon leg, and the spread, fixings and coupon rates of a floating leg once they are there. -/
theorem C98_shown_columns (k : LegKind) (t : SchedTable) :
    (contractualColumns k t).Sublist t.columns ∧ ∀ c, c ∈ contractualColumns k t ↔ c ∈ t.columns ∧
      (c = "period_start" ∨ c = "period_end" ∨ c = "notional_payment_date" ∨ c = "coupon_payment_date" ∨
        match k with
        | .fixed => c = "fixed_rate"
        | .zeroCoupon => c = "zero_rate"
        | .floatTerm => c = "fixing_date" ∨ c = "fixing" ∨ c = "spread" ∨ c = "coupon_rate"
        | .floatRFR => c = "fixing" ∨ c = "spread" ∨ c = "coupon_rate") := by
  refine ⟨List.filter_sublist, fun c => ?_⟩
  unfold contractualColumns
  rw [List.mem_filter]
  cases k <;> simp [legTypeColumns, or_assoc]

/-- The name of the column that is solved for. -/
theorem C98_solved_column : solvedField .fixed = "fixed_rate" ∧ solvedField .zeroCoupon = "zero_rate" ∧ solvedField .floatTerm = "spread" ∧
    solvedField .floatRFR = "spread" := ⟨rfl, rfl, rfl, rfl⟩

/-- The column of day counts can be added to any schedule with its periods in order; the column of year fractions is
refused (`IndexError`) when `period_end` is the last column, as in a new `BaseSchedule`, until some column follows. -/
theorem C98_lengths (basis basis' : DayCountBasis) (t : SchedTable) (ho : Ordered t.periods)
    (hc : t.columns = ["period_start", "period_end"]) :
    (addPeriodYearfracStep basis t).2 = .error .index ∧
    ∃ t1 t2, addPeriodDaycountStep basis' t = (t1, .ok ()) ∧ addPeriodYearfracStep basis t1 = (t2, .ok ()) ∧
      t2.columns = ["period_start", "period_end", "period_daycount", "period_yearfrac"] ∧ t2.rows = t.rows ∧
      DaysOfRows basis' t.periods (t2.numbers "period_daycount") ∧
      ∃ days, DaysOfRows basis t.periods days ∧ (t2.numbers "period_yearfrac").length = t.rows.length ∧
        ∀ d : Int, basis.daysPerYear = some d →
          t2.numbers "period_yearfrac" = days.map (Option.map (fun n : Rat => n / (d : Rat))) := by
  rcases periodDaycount_cases basis t.periods with ⟨v, y, hv, hy, _, hd, hlen, hyr⟩ | ⟨_, _, hno⟩
  swap
  · exact absurd ho hno
  rcases periodDaycount_cases basis' t.periods with ⟨v', y', hv', hy', _, hd', _⟩ | ⟨_, _, hno⟩
  swap
  · exact absurd ho hno
  constructor
  · unfold addPeriodYearfracStep insertAfter SchedTable.pop insertColumn
    simp only [hc, hy]
    rw [if_pos (by decide +kernel), if_neg (by decide +kernel), if_pos (by decide +kernel)]
  · have e1 := dc_step basis' t v' hv' (by rw [hc]; simp)
    refine ⟨_, _, e1, yf_step basis _ y hy ?_ ?_, ?_, rfl, ?_, v, hd, ?_, ?_⟩
    · simp only [hc]; decide +kernel
    · simp only [hc]; decide +kernel
    · simp only [hc]; decide +kernel
    · simpa using hd'
    · simp only [if_true]; rw [hlen]; simp [SchedTable.periods]
    · intro d hd; simp only [if_true]; exact hyr d hd

/-- `bucket_payments`: for a leg whose value can be computed, one row per bucket and one for the rest; the total of a
row is its coupons plus its notional payments, each the total of the payments dated in the bucket; for increasing
positive buckets the totals add up to all payments to come. -/
theorem C98_buckets (S : Settings) (leg leg1 : Leg) (buckets : List Int) (hb : buckets ≠ []) (pv : Rat)
    (h : calcDirtyPv S leg none = (leg1, .ok pv)) :
    ∃ table, bucketTable S leg true buckets = (leg1, .ok table) ∧ table.length = buckets.length + 1 ∧
      (∀ i, i ≤ buckets.length → ∃ c n, table[i]? = some (c, n, c + n) ∧
        c = total (InBucket S buckets i) (leg1.rows.map (fun r => (r.couponPaymentDate, r.couponPayment))) ∧
        n = total (InBucket S buckets i) (leg1.rows.map (fun r => (r.notionalPaymentDate, some r.notionalPayment)))) ∧
      (buckets.Pairwise (· < ·) → (∀ v ∈ buckets, 0 < v) →
        (table.map (fun x => x.2.2)).sum =
          total (ToCome S) (leg1.rows.map (fun r => (r.couponPaymentDate, r.couponPayment))) +
          total (ToCome S) (leg1.rows.map (fun r => (r.notionalPaymentDate, some r.notionalPayment)))) := by
  have hcomp : leg1.computed = true := by
    unfold calcDirtyPv calcCouponPayment at h
    split at h
    · cases h
    · rename_i heq
      split at heq
      · cases heq
      · cases heq
        split at h
        · cases h
        · cases h; rfl
  obtain ⟨c, hc, hcl, hci⟩ := C27_buckets S (leg1.rows.map (fun r => (r.couponPaymentDate, r.couponPayment))) buckets hb
  obtain ⟨n, hn, hnl, hni⟩ := C27_buckets S
    (leg1.rows.map (fun r => (r.notionalPaymentDate, some r.notionalPayment))) buckets hb
  refine ⟨(c.zip n).map (fun x => (x.1, x.2, x.1 + x.2)), ?_, ?_, ?_, ?_⟩
  · unfold bucketTable
    simp only [if_true, h, hcomp, hc, hn, bind, Except.bind, pure, Except.pure]
  · simp [hcl, hnl]
  · intro i hi
    refine ⟨_, _, ?_, rfl, rfl⟩
    have hz := (List.getElem?_zip_eq_some (z := (_, _))).mpr ⟨hci i hi, hni i hi⟩
    rw [List.getElem?_map, hz]
    rfl
  · intro hi hpos
    rw [← C27_total S _ buckets hb hi hpos c hc, ← C27_total S _ buckets hb hi hpos n hn, List.map_map]
    exact sum_zip_add c n (hcl.trans hnl.symm)

/-- With `calc_npv=False` a leg that was never valued has no coupons: `KeyError`; without buckets the name
`upper_pillar` is unbound. -/
theorem C98_buckets_refused (S : Settings) (leg : Leg) :
    (leg.computed = false → ∀ buckets, (bucketTable S leg false buckets).2 = .error .key) ∧
    (leg.computed = true → (bucketTable S leg false []).2 = .error .name) := by
  constructor
  · intro h b
    simp [bucketTable, h]
  · intro h
    simp [bucketTable, h, bucketPayments, bind, Except.bind]

/-- `calc_dv01` returns nothing, whatever the leg. -/
theorem C98_dv01 (leg : Leg) : calcDv01 leg = none := rfl

/-- Defect: the accrued interest of a zero-coupon leg is a column with an entry for every row of the leg, not a number:
each row's own notional grown over the part of the *current* period that has elapsed. -/
theorem C98_zero_accrued (S : Settings) (leg : Leg) (r : LegRow) (rest : List LegRow) (s : Int) (y : Rat)
    (hr : currentRows S leg = r :: rest) (hs : r.periodStart = some s)
    (hy : yearFrac [s] [S.valueDate] leg.basis none = .ok [y]) :
    ∃ l, zeroAccruedSeries S leg = .ok l ∧ l.length = leg.rows.length ∧
      ∀ (i : Nat) (row : LegRow), leg.rows[i]? = some row → l[i]? = some (row.rate.map (fun z =>
        leg.payRcv.multiplier * row.notional * (1 / leg.zeroDf y z - 1))) := by
  unfold zeroAccruedSeries
  simp only [hr, hs, hy, bind, Except.bind, pure, Except.pure, List.head?_cons]
  refine ⟨_, rfl, by simp, ?_⟩
  intro i row hrow
  rw [List.getElem?_map, hrow]
  simp only [Option.map_some]
  cases row.rate <;> rfl

/-- Asked for its accrued interest before it has been valued, a zero-coupon leg with a current period raises `KeyError`. -/
theorem C98_zero_unvalued (S : Settings) (leg : Leg) (l : List NRat) (hl : zeroAccruedSeries S leg = .ok l) (h : leg.computed = false) :
    zeroCalcAccrued S leg = .error .key := by
  simp [zeroCalcAccrued, hl, h, bind, Except.bind]

/-- Hence the clean value of a zero-coupon leg is a column too, unless accrued interest is limited and some coupon is
positive; outside every period it is an `IndexError`. -/
theorem C98_zero_clean (S : Settings) (leg leg1 : Leg) (pv : Rat) (h : calcDirtyPv S leg none = (leg1, .ok pv)) :
    (currentRows S leg1 = [] → (zeroCleanPv S leg).2 = .error .index) ∧
    (∀ l, zeroAccruedSeries S leg1 = .ok l →
      (S.limitAccrued = false → (zeroCleanPv S leg).2 = .ok (.series (l.map (Option.map (fun a =>
        pv - (a + nsum (leg1.rows.map (·.couponPayment)))))))) ∧
      (S.limitAccrued = true → ¬ 0 < nsum (leg1.rows.map (·.couponPayment)) →
        (zeroCleanPv S leg).2 = .ok (.series (l.map (Option.map (fun a => pv - a))))) ∧
      (S.limitAccrued = true → 0 < nsum (leg1.rows.map (·.couponPayment)) →
        (zeroCleanPv S leg).2 = .ok (.number (pv - nsum (leg1.rows.map (·.couponPayment)))))) := by
  have hcomp : leg1.computed = true := by
    unfold calcDirtyPv calcCouponPayment at h
    split at h
    · cases h
    · rename_i heq
      split at heq
      · cases heq
      · cases heq
        split at h
        · cases h
        · cases h; rfl
  unfold zeroCleanPv
  simp only [h]
  constructor
  · intro hcur
    simp [zeroCalcAccrued, zeroAccruedSeries, hcur, bind, Except.bind, Except.map]
  · intro l hl
    simp only [zeroCalcAccrued, hl, bind, Except.bind, hcomp, if_true, pure, Except.pure]
    refine ⟨?_, ?_, ?_⟩
    · intro hlim
      simp only [hlim, Except.map, Bool.false_eq_true, if_false, Except.ok.injEq, AccruedValue.series.injEq]
      rw [List.map_map]
      apply List.map_congr_left
      intro a _
      cases a
      · rfl
      · simp [nadd]; ring
    · intro hlim hn
      simp only [hlim, if_true, gt_iff_lt, hn, if_false, Except.map, Except.ok.injEq, AccruedValue.series.injEq]
      apply List.map_congr_left
      intro a _
      cases a
      · rfl
      · simp [nadd]; ring
    · intro hlim hp
      simp only [hlim, if_true, gt_iff_lt, hp, Except.map]

/-! ## A concrete schedule -/

/-- A year of quarterly coupons on 100, exchanged at both ends. -/
def sampleCouponArgs : CouponArgs :=
  { base := { sampleArgs with firstPeriodEnd := none, rollUser := true }, notional := [100], exch := .both,
    notionalDelay := 0, notionalTiming := .inArrears, initialDate := none, couponDelay := 2, couponTiming := .inArrears }

/-- Two periods of a schedule with an initial exchange. -/
def sampleTable : SchedTable :=
  { columns := couponColumns,
    rows := [(⟨none, none, 0, -100, some 0⟩, none), (⟨some 0, some 182, 100, 0, some 182⟩, some 184),
      (⟨some 182, some 365, 100, 100, some 365⟩, some 367)],
    numbers := fun _ => [] }

/-- The sample schedule is built, four periods and the initial exchange. -/
example : (makeCouponSchedule sampleCouponArgs).map (fun o => (o.startDate, o.endDate, o.table.rows.length)) =
    .ok (mkDate 2024 1 10, mkDate 2024 12 10, 5) := by decide +kernel

/-- A payer of 5 % on the sample schedule: nine columns, negative notionals, day counts 182 and 183. -/
example : (buildLeg (.of .fixed) .pay .act_365 .both [some (1 / 20)] sampleTable).2 = .ok () ∧
    (buildLeg (.of .fixed) .pay .act_365 .both [some (1 / 20)] sampleTable).1.rows.map (fun x => x.1.notional) =
      [0, -100, -100] ∧
    (buildLeg (.of .fixed) .pay .act_365 .both [some (1 / 20)] sampleTable).1.numbers "period_daycount" =
      [none, some 182, some 183] ∧
    (buildLeg (.of .fixed) .pay .act_365 .both [some (1 / 20)] sampleTable).1.numbers "fixed_rate" =
      [none, some (1 / 20), some (1 / 20)] := by decide +kernel

/-- A parameter for every row is one too many; after the refusal the payer's notionals are positive. -/
example : contractualParam .both sampleTable.rows.length [some 1, some 2, some 3] = .error .value ∧
    (buildLeg (.of .fixed) .pay .act_365 .both [some (1 / 20)]
      (buildLeg (.of .fixed) .pay .act_365 .both [some 1, some 2, some 3] sampleTable).1).1.rows.map
        (fun x => x.1.notional) = [0, 100, 100] := by decide +kernel

/-- A swap on one schedule object: the receiver's notionals are negative. -/
example : solvedField .fixed ≠ solvedField .floatRFR ∧
    (buildLeg (.of .floatRFR) .rcv .act_360 .both [some 0]
      (buildLeg (.of .fixed) .pay .act_365 .both [some (1 / 20)] sampleTable).1).2 = .ok () ∧
    (buildLeg (.of .floatRFR) .rcv .act_360 .both [some 0]
      (buildLeg (.of .fixed) .pay .act_365 .both [some (1 / 20)] sampleTable).1).1.rows.map (fun x => x.1.notional) =
        [0, -100, -100] := by decide +kernel

/-- The sample leg can be valued, so its buckets are defined. -/
example : ∃ pv, (calcDirtyPv sampleSettings (sampleLeg .fixed) none).2 = .ok pv := ⟨_, rfl⟩

/-- The sample zero-coupon leg has a current period. -/
example : (currentRows sampleSettings (sampleLeg .zeroCoupon)).length = 1 ∧
    (match zeroAccruedSeries sampleSettings (sampleLeg .zeroCoupon) with
      | .ok l => l.length
      | .error _ => 0) = 3 := by decide +kernel

end Frm.Props
