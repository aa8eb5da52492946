import Verif.Spec.Schedule
import Verif.Proofs.Workday
import Verif.Proofs.Months

namespace Frm
open Spec

/-! ## Do-notation bookkeeping -/

theorem bind_ok {α β : Type _} {x : Except Err α} {f : α → Except Err β} {b : β} :
    (x >>= f) = .ok b ↔ ∃ a, x = .ok a ∧ f a = .ok b := by
  cases x with
  | ok a => simp [bind, Except.bind]
  | error e => simp [bind, Except.bind]

theorem pyAssert_ok {b : Bool} {u : Unit} : pyAssert b = .ok u ↔ b = true := by
  cases b <;> simp [pyAssert]

/-! ## The generation loop -/

theorem genLoop_spec {step : Nat → Except Err Int} {f : Nat → Int} {go : Int → Bool}
    (hstep : ∀ i, step i = .ok (f i)) :
    ∀ (fuel i n : Nat), n < fuel → go (f (i + n)) = false →
      ∃ m, m ≤ n ∧ genLoop step go fuel i (f i) = .ok ((List.range m).map (fun j => f (i + j))) ∧
        (∀ j, j < m → go (f (i + j)) = true) ∧ go (f (i + m)) = false := by
  intro fuel
  induction fuel with
  | zero => intro i n h; omega
  | succ fuel ih =>
    intro i n hn hgo
    by_cases hg : go (f i) = true
    · cases n with
      | zero => simp [hg] at hgo
      | succ n =>
        obtain ⟨m, hm1, hm2, hm3, hm4⟩ := ih (i + 1) n (by omega) (by rw [Nat.add_assoc, Nat.add_comm 1 n]; exact hgo)
        refine ⟨m + 1, by omega, ?_, ?_, ?_⟩
        · simp only [genLoop, hg, if_true, hstep, bind, Except.bind, hm2, pure, Except.pure]
          rw [List.range_succ_eq_map, List.map_cons, List.map_map]
          simp only [Nat.add_zero, Except.ok.injEq, List.cons.injEq, true_and]
          apply List.map_congr_left
          intro j _
          simp only [Function.comp]
          congr 1; omega
        · intro j hj
          cases j with
          | zero => simpa using hg
          | succ j =>
            have := hm3 j (by omega)
            rwa [Nat.add_assoc, Nat.add_comm 1 j] at this
        · rwa [Nat.add_assoc, Nat.add_comm 1 m] at hm4
    · refine ⟨0, by omega, ?_, ?_, ?_⟩
      · simp [genLoop, hg]
      · intro j hj; omega
      · simpa using hg

/-! ## Steps of the frequency -/

theorem scale_addTo (f : PeriodFreq) (d : Int) (k : Int) :
    (match f.multiplyDateOffset k with | some o => o.addTo d | none => d) = moved f d k := by
  cases f <;> simp [PeriodFreq.multiplyDateOffset, PeriodFreq.dateOffset, DateOffset.scale, DateOffset.addTo, moved]

theorem scale_subFrom (f : PeriodFreq) (d : Int) (k : Int) :
    (match f.multiplyDateOffset k with | some o => o.subFrom d | none => d) = moved f d (-k) := by
  cases f <;>
    simp [PeriodFreq.multiplyDateOffset, PeriodFreq.dateOffset, DateOffset.scale, DateOffset.addTo,
      DateOffset.subFrom, moved] <;> congr 1 <;> omega

theorem moved_lt {f : PeriodFreq} (hf : f ≠ .zeroCoupon) (d : Int) {a b : Int} (h : a < b) :
    moved f d a < moved f d b := by
  cases f <;> simp only [moved] <;> first
    | omega
    | exact absurd rfl hf
    | (apply addMonths_strict; omega)

theorem moved_zero (f : PeriodFreq) (d : Int) : moved f d 0 = d := by
  cases f <;> simp [moved, addMonths_zero]

theorem moved_ge {f : PeriodFreq} (hf : f ≠ .zeroCoupon) (d : Int) (k : Nat) : d + k ≤ moved f d k := by
  induction k with
  | zero => have := moved_zero f d; simp only [Int.ofNat_zero] at *; omega
  | succ k ih =>
    have := moved_lt hf d (a := (k : Int)) (b := ((k + 1 : Nat) : Int)) (by omega)
    omega

theorem moved_le {f : PeriodFreq} (hf : f ≠ .zeroCoupon) (d : Int) (k : Nat) : moved f d (-(k : Int)) ≤ d - k := by
  induction k with
  | zero => have := moved_zero f d; simp only [Int.ofNat_zero, Int.neg_zero] at *; omega
  | succ k ih =>
    have := moved_lt hf d (a := (-((k + 1 : Nat) : Int))) (b := -(k : Int)) (by omega)
    omega

theorem moved_mono {f : PeriodFreq} (d : Int) {a b : Int} (h : a ≤ b) :
    moved f d a ≤ moved f d b := by
  by_cases hf : f = .zeroCoupon
  · subst hf; simp [moved]
  · rcases Int.lt_or_eq_of_le h with h | h
    · exact Int.le_of_lt (moved_lt hf d h)
    · subst h; exact Int.le_refl _

/-! ## Day roll -/

theorem sameMonth_close {a b : Int} (h : SameMonth a b) : a - 30 ≤ b ∧ b ≤ a + 30 := by
  have ea := ofCivil_toCivil a
  have eb := ofCivil_toCivil b
  obtain ⟨a1, a2, a3, a4⟩ := toCivil_valid a
  obtain ⟨b1, b2, b3, b4⟩ := toCivil_valid b
  obtain ⟨h1, h2⟩ := h
  have ha := daysInMonth_bounds (toCivil a).year (toCivil a).month
  have hb := daysInMonth_bounds (toCivil b).year (toCivil b).month
  unfold ofCivil at ea eb
  rw [h1, h2] at ea
  omega

theorem applyDayRoll_spec (r : DayRoll) (d : Int) : DayAdjusted r d (applyDayRoll r d) := by
  obtain ⟨h1, h2, h3, h4⟩ := toCivil_valid d
  obtain ⟨e1, e2, e3⟩ := monthEnd_spec d
  have hl := monthLength_eq (toCivil d).year (toCivil d).month h1 h2
  have hm : SameMonth d (monthEnd d) := (sameMonth_iff _ _).mpr e2.symm
  cases r with
  | unadjusted => rfl
  | eom => exact ⟨hm, by rw [hl]; exact e3⟩
  | day k =>
    simp only [DayAdjusted, applyDayRoll]
    by_cases hk : (k.val : Int) + 1 ≤ daysInMonth (toCivil d).year (toCivil d).month
    · rw [if_pos hk]
      have hc := mkDate_valid_civil (toCivil d).year (toCivil d).month (k.val + 1) h1 h2 (by omega) hk
      refine ⟨⟨by rw [hc], by rw [hc]⟩, ?_⟩
      rw [hc, hl]; simp only; omega
    · rw [if_neg hk]
      refine ⟨hm, ?_⟩
      rw [hl, e3]; omega

theorem dayAdjusted_unique {r : DayRoll} {d x y : Int} (hx : DayAdjusted r d x) (hy : DayAdjusted r d y) : x = y := by
  cases r with
  | unadjusted => simp only [DayAdjusted] at *; omega
  | eom =>
    obtain ⟨a1, a2⟩ := hx; obtain ⟨b1, b2⟩ := hy
    exact eq_of_monthIndex_day ((sameMonth_iff _ _).mp (sameMonth_trans (sameMonth_symm a1) b1)) (by omega)
  | day k =>
    obtain ⟨a1, a2⟩ := hx; obtain ⟨b1, b2⟩ := hy
    exact eq_of_monthIndex_day ((sameMonth_iff _ _).mp (sameMonth_trans (sameMonth_symm a1) b1)) (by omega)

theorem dayAdjusted_sameMonth {r : DayRoll} {d x : Int} (hx : DayAdjusted r d x) : SameMonth d x := by
  cases r with
  | unadjusted => simp only [DayAdjusted] at hx; subst hx; exact sameMonth_refl _
  | eom => exact hx.1
  | day k => exact hx.1

theorem applyDayRoll_sameMonth (r : DayRoll) (d : Int) : SameMonth d (applyDayRoll r d) :=
  dayAdjusted_sameMonth (applyDayRoll_spec r d)

/-! ## Business-day roll -/

theorem rollsTo_rollFn {cal : BusCal} (h : cal.Ok) {r : RollConv} (hr : r ≠ .unadjusted) (d x : Int) :
    RollsTo cal r d x ↔ rollFn cal r d = x := by
  cases r with
  | unadjusted => exact absurd rfl hr
  | following => exact (following_eq_iff h).symm
  | preceding => exact (preceding_eq_iff h).symm
  | modifiedFollowing =>
    constructor
    · rintro ⟨f, p, hf, hp, rfl⟩
      have ef := (following_eq_iff h).mpr hf
      have ep := (preceding_eq_iff h).mpr hp
      simp only [rollFn, ef, ep, sameMonthNumber, decide_eq_true_eq]
    · intro e
      refine ⟨following cal d, preceding cal d, following_spec h d, preceding_spec h d, ?_⟩
      rw [← e]; simp only [rollFn, sameMonthNumber, decide_eq_true_eq]
  | modifiedPreceding =>
    constructor
    · rintro ⟨f, p, hf, hp, rfl⟩
      have ef := (following_eq_iff h).mpr hf
      have ep := (preceding_eq_iff h).mpr hp
      simp only [rollFn, ef, ep, sameMonthNumber, decide_eq_true_eq]
    · intro e
      refine ⟨following cal d, preceding cal d, following_spec h d, preceding_spec h d, ?_⟩
      rw [← e]; simp only [rollFn, sameMonthNumber, decide_eq_true_eq]

theorem rollFn_close {cal : BusCal} (h : cal.Ok) (r : RollConv) (d : Int) :
    d - rollFuel cal ≤ rollFn cal r d ∧ rollFn cal r d ≤ d + rollFuel cal := by
  have hf : following cal d ≤ d + rollFuel cal := by
    obtain ⟨b, h1, h2, h3⟩ := exists_busDay h d
    have := following_le_bus h h1 h3; omega
  have hp : d - rollFuel cal ≤ preceding cal d := by
    obtain ⟨b, h1, h2, h3⟩ := exists_busDay h (d - rollFuel cal + 1)
    have := preceding_ge_bus h (d := d) (b := b) (by omega) h3; omega
  have hf' := following_ge h d
  have hp' := preceding_le h d
  cases r <;> simp only [rollFn] <;> repeat (first | omega | split)

/-! ## The grid as a total function -/

/-- The date `k` periods from the anchor. -/
def gridFn (p : GenParams) (anchor k : Int) : Int :=
  rollFn p.cal p.rollConv (applyDayRoll p.dayRoll (moved p.freq anchor k))

theorem onGrid_iff {p : GenParams} (h : p.cal.Ok) (hr : p.rollConv ≠ .unadjusted) (anchor k x : Int) :
    OnGrid p anchor k x ↔ gridFn p anchor k = x := by
  unfold OnGrid gridFn
  constructor
  · rintro ⟨u, hu, hx⟩
    have := dayAdjusted_unique (applyDayRoll_spec p.dayRoll _) hu
    rw [this]; exact (rollsTo_rollFn h hr _ _).mp hx
  · intro e
    exact ⟨_, applyDayRoll_spec _ _, (rollsTo_rollFn h hr _ _).mpr e⟩

theorem gridFn_ge {p : GenParams} (h : p.cal.Ok) (hf : p.freq ≠ .zeroCoupon) (anchor : Int) (k : Nat) :
    anchor + k - 30 - rollFuel p.cal ≤ gridFn p anchor k := by
  have h1 := moved_ge hf anchor k
  have h2 := sameMonth_close (applyDayRoll_sameMonth p.dayRoll (moved p.freq anchor k))
  have h3 := rollFn_close h p.rollConv (applyDayRoll p.dayRoll (moved p.freq anchor k))
  unfold gridFn; omega

theorem gridFn_le {p : GenParams} (h : p.cal.Ok) (hf : p.freq ≠ .zeroCoupon) (anchor : Int) (k : Nat) :
    gridFn p anchor (-(k : Int)) ≤ anchor - k + 30 + rollFuel p.cal := by
  have h1 := moved_le hf anchor k
  have h2 := sameMonth_close (applyDayRoll_sameMonth p.dayRoll (moved p.freq anchor (-(k : Int))))
  have h3 := rollFn_close h p.rollConv (applyDayRoll p.dayRoll (moved p.freq anchor (-(k : Int))))
  unfold gridFn; omega

theorem fwd_eq {p : GenParams} (hf : p.freq ≠ .zeroCoupon) (hr : p.rollConv ≠ .unadjusted) (s : Int) (i : Nat) :
    p.fwd s i = .ok (gridFn p s i) := by
  have h := scale_addTo p.freq s i
  unfold GenParams.fwd gridFn GenParams.adjust
  cases hm : p.freq.multiplyDateOffset i with
  | some o => rw [hm] at h; simp only at h ⊢; rw [rollDate_eq hr, h]
  | none =>
    exfalso
    revert hm hf
    cases p.freq <;> simp [PeriodFreq.multiplyDateOffset, PeriodFreq.dateOffset]

theorem bwd_eq {p : GenParams} (hf : p.freq ≠ .zeroCoupon) (hr : p.rollConv ≠ .unadjusted) (e : Int) (i : Nat) :
    p.bwd e i = .ok (gridFn p e (-(i : Int))) := by
  have h := scale_subFrom p.freq e i
  unfold GenParams.bwd gridFn GenParams.adjust
  cases hm : p.freq.multiplyDateOffset i with
  | some o => rw [hm] at h; simp only at h ⊢; rw [rollDate_eq hr, h]
  | none =>
    exfalso
    revert hm hf
    cases p.freq <;> simp [PeriodFreq.multiplyDateOffset, PeriodFreq.dateOffset]

theorem dateOffset_addTo {f : PeriodFreq} {o : DateOffset} (h : f.dateOffset = some o) (d : Int) :
    o.addTo d = moved f d 1 ∧ o.subFrom d = moved f d (-1) := by
  cases f <;> simp [PeriodFreq.dateOffset] at h <;> subst h <;>
    simp [DateOffset.addTo, DateOffset.subFrom, DateOffset.scale, moved] <;> omega

/-- The interior dates of a forward generation. -/
def Interior (g : Nat → Int) (go : Int → Bool) (mid : List Int) : Prop :=
  mid = (List.range mid.length).map (fun j => g (j + 1)) ∧ (∀ j, j < mid.length → go (g (j + 1)) = true) ∧
    go (g (mid.length + 1)) = false

theorem interior_of_genLoop {step : Nat → Except Err Int} {g : Nat → Int} {go : Int → Bool}
    (hstep : ∀ i, step i = .ok (g i)) {fuel n : Nat} (hn : n < fuel) (hgo : go (g (1 + n)) = false) :
    ∃ mid, genLoop step go fuel 1 (g 1) = .ok mid ∧ Interior g go mid := by
  obtain ⟨m, _, h2, h3, h4⟩ := genLoop_spec hstep fuel 1 n hn hgo
  refine ⟨_, h2, ?_⟩
  unfold Interior
  simp only [List.length_map, List.length_range]
  refine ⟨?_, ?_, ?_⟩
  · apply List.map_congr_left; intro j _; rw [Nat.add_comm]
  · intro j hj; rw [Nat.add_comm]; exact h3 j hj
  · rw [Nat.add_comm]; exact h4

/-- Start or end date as it appears in the schedule. -/
def userDate (p : GenParams) (d : Int) : Int := if p.rollUser then rollFn p.cal p.rollConv d else d

theorem generateForward_eq {p : GenParams} (h : p.cal.Ok) (hf : p.freq ≠ .zeroCoupon) (hr : p.rollConv ≠ .unadjusted)
    {s e : Int} (hse : s < e) :
    ∃ mid, generateForward p s e = .ok (userDate p s :: mid, mid ++ [userDate p e]) ∧
      Interior (fun k => gridFn p s k) (fun c => decide (c < e)) mid := by
  have hfuel : decide (gridFn p s ((1 + ((e - s).toNat + rollFuel p.cal + 30) : Nat) : Int) < e) = false := by
    have := gridFn_ge h hf s (1 + ((e - s).toNat + rollFuel p.cal + 30))
    simp only [decide_eq_false_iff_not]; omega
  obtain ⟨mid, hmid, hint⟩ := interior_of_genLoop (step := p.fwd s) (g := fun k => gridFn p s k)
    (go := fun c => decide (c < e)) (fun i => fwd_eq hf hr s i) (fuel := genFuel p s e)
    (n := (e - s).toNat + rollFuel p.cal + 30) (by unfold genFuel; omega) hfuel
  refine ⟨mid, ?_, hint⟩
  cases ho : p.freq.dateOffset with
  | none => exfalso; revert ho hf; cases p.freq <;> simp [PeriodFreq.dateOffset]
  | some o =>
    have h1 : p.adjust (o.addTo s) = .ok (gridFn p s ((1 : Nat) : Int)) := by
      unfold GenParams.adjust gridFn
      rw [rollDate_eq hr, (dateOffset_addTo ho s).1]; rfl
    unfold generateForward
    rw [if_neg (by omega), ho]
    simp only [bind, Except.bind, pure, Except.pure, rollDate_eq hr, h1, hmid]
    cases hu : p.rollUser <;> simp [userDate, hu]

theorem generateBackward_eq {p : GenParams} (h : p.cal.Ok) (hf : p.freq ≠ .zeroCoupon)
    (hr : p.rollConv ≠ .unadjusted) {s e : Int} (hse : s < e) :
    ∃ mid, generateBackward p s e = .ok (userDate p s :: mid.reverse, mid.reverse ++ [userDate p e]) ∧
      Interior (fun k => gridFn p e (-(k : Int))) (fun c => decide (c > s)) mid := by
  have hfuel : decide (gridFn p e (-((1 + ((e - s).toNat + rollFuel p.cal + 30) : Nat) : Int)) > s) = false := by
    have := gridFn_le h hf e (1 + ((e - s).toNat + rollFuel p.cal + 30))
    simp only [decide_eq_false_iff_not]; omega
  obtain ⟨mid, hmid, hint⟩ := interior_of_genLoop (step := p.bwd e) (g := fun k => gridFn p e (-(k : Int)))
    (go := fun c => decide (c > s)) (fun i => bwd_eq hf hr e i) (fuel := genFuel p s e)
    (n := (e - s).toNat + rollFuel p.cal + 30) (by unfold genFuel; omega) hfuel
  refine ⟨mid, ?_, hint⟩
  cases ho : p.freq.dateOffset with
  | none => exfalso; revert ho hf; cases p.freq <;> simp [PeriodFreq.dateOffset]
  | some o =>
    have h1 : p.adjust (o.subFrom e) = .ok (gridFn p e (-((1 : Nat) : Int))) := by
      unfold GenParams.adjust gridFn
      rw [rollDate_eq hr, (dateOffset_addTo ho e).2]; rfl
    unfold generateBackward
    rw [if_neg (by omega), ho]
    simp only [bind, Except.bind, pure, Except.pure, rollDate_eq hr, h1, hmid]
    cases hu : p.rollUser <;> simp [userDate, hu]

/-- Generation fails exactly on a bad order, a zero-coupon frequency or the unadjusted convention. -/
theorem generate_fails {p : GenParams} {s e : Int}
    (hbad : e ≤ s ∨ p.freq = .zeroCoupon ∨ p.rollConv = .unadjusted) :
    (∃ x, generateForward p s e = .error x) ∧ (∃ x, generateBackward p s e = .error x) := by
  by_cases hse : s ≥ e
  · constructor <;> refine ⟨.value, ?_⟩ <;> simp [generateForward, generateBackward, hse] <;> rfl
  · rcases hbad with h | h | h
    · omega
    · constructor <;> cases hu : p.rollUser <;> cases hr : p.rollConv <;>
        simp [generateForward, generateBackward, hse, h, hu, hr, bind, Except.bind, pure, Except.pure,
          PeriodFreq.dateOffset, rollDate]
    · cases ho : p.freq.dateOffset with
      | none =>
        constructor <;> cases hu : p.rollUser <;>
          simp [generateForward, generateBackward, hse, hu, bind, Except.bind, pure, Except.pure, ho, h, rollDate]
      | some o =>
        constructor <;> cases hu : p.rollUser <;>
          simp [generateForward, generateBackward, hse, hu, bind, Except.bind, pure, Except.pure, ho, h, rollDate,
            GenParams.adjust]

theorem generateForward_ok_iff {p : GenParams} (h : p.cal.Ok) {s e : Int} {d : List Int × List Int} :
    generateForward p s e = .ok d →
      s < e ∧ p.freq ≠ .zeroCoupon ∧ p.rollConv ≠ .unadjusted ∧
      ∃ mid, d = (userDate p s :: mid, mid ++ [userDate p e]) ∧
        Interior (fun k => gridFn p s k) (fun c => decide (c < e)) mid := by
  intro hd
  by_cases hbad : e ≤ s ∨ p.freq = .zeroCoupon ∨ p.rollConv = .unadjusted
  · obtain ⟨⟨x, hx⟩, _⟩ := generate_fails hbad; rw [hx] at hd; cases hd
  · have h1 : s < e := by omega
    have h2 : p.freq ≠ .zeroCoupon := fun hh => hbad (Or.inr (Or.inl hh))
    have h3 : p.rollConv ≠ .unadjusted := fun hh => hbad (Or.inr (Or.inr hh))
    obtain ⟨mid, hm, hi⟩ := generateForward_eq h h2 h3 h1
    rw [hm, Except.ok.injEq] at hd
    exact ⟨h1, h2, h3, mid, hd.symm, hi⟩

theorem generateBackward_ok_iff {p : GenParams} (h : p.cal.Ok) {s e : Int} {d : List Int × List Int} :
    generateBackward p s e = .ok d →
      s < e ∧ p.freq ≠ .zeroCoupon ∧ p.rollConv ≠ .unadjusted ∧
      ∃ mid, d = (userDate p s :: mid.reverse, mid.reverse ++ [userDate p e]) ∧
        Interior (fun k => gridFn p e (-(k : Int))) (fun c => decide (c > s)) mid := by
  intro hd
  by_cases hbad : e ≤ s ∨ p.freq = .zeroCoupon ∨ p.rollConv = .unadjusted
  · obtain ⟨_, ⟨x, hx⟩⟩ := generate_fails hbad; rw [hx] at hd; cases hd
  · have h1 : s < e := by omega
    have h2 : p.freq ≠ .zeroCoupon := fun hh => hbad (Or.inr (Or.inl hh))
    have h3 : p.rollConv ≠ .unadjusted := fun hh => hbad (Or.inr (Or.inr hh))
    obtain ⟨mid, hm, hi⟩ := generateBackward_eq h h2 h3 h1
    rw [hm, Except.ok.injEq] at hd
    exact ⟨h1, h2, h3, mid, hd.symm, hi⟩

/-! ## Shapes -/

theorem periodsOf_zip (s e : Int) (mid : List Int) : (s :: mid).zip (mid ++ [e]) = periodsOf s e mid := by
  induction mid generalizing s with
  | nil => rfl
  | cons x xs ih => simp only [List.cons_append, List.zip_cons_cons, periodsOf, ih x]

theorem tiles_periodsOf (s e : Int) (mid : List Int) : Tiles s e (periodsOf s e mid) := by
  induction mid generalizing s with
  | nil => exact ⟨rfl, rfl⟩
  | cons x xs ih =>
    have := ih x
    cases xs <;> exact ⟨rfl, this⟩

theorem boundaries_periodsOf (s e : Int) (mid : List Int) : boundaries (periodsOf s e mid) = mid := by
  unfold boundaries
  induction mid generalizing s with
  | nil => rfl
  | cons x xs ih =>
    have hne : periodsOf x e xs ≠ [] := by cases xs <;> simp [periodsOf]
    rw [periodsOf, List.dropLast_cons_of_ne_nil hne, List.map_cons, ih x]

theorem periodFrame_shape (s e : Int) (mid : List Int) :
    periodFrame (s :: mid, mid ++ [e]) = .ok (periodsOf s e mid) := by
  unfold periodFrame
  rw [if_pos (by simp), periodsOf_zip]

theorem mergeFirst_nil (s e : Int) : mergeFirst ([s], [e]) = .ok ([s], []) := rfl
theorem mergeFirst_cons (s e x : Int) (mid : List Int) :
    mergeFirst (s :: x :: mid, (x :: mid) ++ [e]) = .ok (s :: mid, mid ++ [e]) := rfl

theorem mergeLast_nil (s e : Int) : mergeLast ([s], [e]) = .ok ([], [e]) := rfl
theorem mergeLast_snoc (s e x : Int) (mid : List Int) :
    mergeLast (s :: (mid ++ [x]), (mid ++ [x]) ++ [e]) = .ok (s :: mid, mid ++ [e]) := by
  have h1 : pyGetNeg ((mid ++ [x]) ++ [e]) 1 = .ok e := by simp [pyGetNeg, pyGet]
  have h2 : pyDropEnd (s :: (mid ++ [x])) 1 = s :: mid := by simp [pyDropEnd]
  have h3 : pyDropEnd ((mid ++ [x]) ++ [e]) 2 = mid := by simp [pyDropEnd]
  unfold mergeLast
  simp only [h1, h2, h3, bind, Except.bind, pure, Except.pure]

theorem periodFrame_mergeFirst_nil (s e : Int) : (mergeFirst ([s], [e]) >>= periodFrame) = .error .value := rfl
theorem periodFrame_mergeLast_nil (s e : Int) : (mergeLast ([s], [e]) >>= periodFrame) = .error .value := rfl

end Frm
