import Mathlib.Tactic.FieldSimp
import Mathlib.Tactic.Ring
import Mathlib.Tactic.Linarith
import Mathlib.Data.Rat.Cast.Order
import Mathlib.Algebra.Order.Field.Basic
import Verif.Proofs.FxInterp

/-! # C44 — Interpolation of FX forwards -/

namespace Frm
set_option autoImplicit false

namespace Spec

/-- `p` and `q` are neighbouring pillars around the date `d`. -/
structure PillarNeighbours (pillars : List (Int × Rat)) (p q : Int × Rat) (d : Int) : Prop where
  left : p ∈ pillars
  right : q ∈ pillars
  before : p.1 < d
  after : d < q.1
  next : ∀ r ∈ pillars, r.1 ≤ p.1 ∨ q.1 ≤ r.1

/-- `(d, y)` lies on the straight line through `p` and `q`. -/
def OnLine (p q : Int × Rat) (d : Int) (y : Rat) : Prop := (y - p.2) * ((q.1 : Rat) - p.1) = (q.2 - p.2) * ((d : Rat) - p.1)

/-- `p` is the first pillar, `q` the last. -/
structure Ends (pillars : List (Int × Rat)) (p q : Int × Rat) : Prop where
  first : p ∈ pillars
  last : q ∈ pillars
  min : ∀ r ∈ pillars, p.1 ≤ r.1
  max : ∀ r ∈ pillars, r.1 ≤ q.1

end Spec
open Spec

theorem onLine_lineThrough {p q : Int × Rat} {d : Int} (h : p.1 < q.1) : OnLine p q d (lineThrough p q d) := by
  unfold OnLine lineThrough
  have : ((q.1 : Rat) - p.1) ≠ 0 := by
    have : (p.1 : Rat) < q.1 := by exact_mod_cast h
    intro h'
    have : (q.1 : Rat) = p.1 := by rwa [sub_eq_zero] at h'
    linarith
  field_simp
  ring

theorem ends_exist {pillars : List (Int × Rat)} (h : pillars ≠ []) : ∃ p q, Ends pillars p q := by
  have hmin : ∀ l : List (Int × Rat), l ≠ [] → ∃ p ∈ l, ∀ r ∈ l, p.1 ≤ r.1 := by
    intro l
    induction l with
    | nil => intro h; exact absurd rfl h
    | cons a t ih =>
      intro _
      by_cases ht : t = []
      · subst ht; exact ⟨a, by simp, by simp⟩
      · obtain ⟨p, hp, hp'⟩ := ih ht
        by_cases hc : a.1 ≤ p.1
        · refine ⟨a, by simp, fun r hr => ?_⟩
          rcases List.mem_cons.mp hr with rfl | hr
          · exact Int.le_refl _
          · have := hp' r hr; omega
        · refine ⟨p, by simp [hp], fun r hr => ?_⟩
          rcases List.mem_cons.mp hr with rfl | hr
          · omega
          · exact hp' r hr
  have hmax : ∀ l : List (Int × Rat), l ≠ [] → ∃ p ∈ l, ∀ r ∈ l, r.1 ≤ p.1 := by
    intro l
    induction l with
    | nil => intro h; exact absurd rfl h
    | cons a t ih =>
      intro _
      by_cases ht : t = []
      · subst ht; exact ⟨a, by simp, by simp⟩
      · obtain ⟨p, hp, hp'⟩ := ih ht
        by_cases hc : p.1 ≤ a.1
        · refine ⟨a, by simp, fun r hr => ?_⟩
          rcases List.mem_cons.mp hr with rfl | hr
          · exact Int.le_refl _
          · have := hp' r hr; omega
        · refine ⟨p, by simp [hp], fun r hr => ?_⟩
          rcases List.mem_cons.mp hr with rfl | hr
          · omega
          · exact hp' r hr
  obtain ⟨p, hp, hp'⟩ := hmin pillars h
  obtain ⟨q, hq, hq'⟩ := hmax pillars h
  exact ⟨p, q, hp, hq, hp', hq'⟩

/-- The value returned at a requested date. -/
theorem interp_value {pillars : List (Int × Rat)} (hn : (pillars.map (·.1)).Nodup) {dates : List Int} {flat : Bool} {out : List (Option Rat)}
    (h : interpFxForwardCurve pillars dates flat = .ok out) (hne : pillars ≠ []) {i : Nat} {d : Int} (hd : dates[i]? = some d) :
    ∃ p q, Ends pillars p q ∧ out[i]? = some (if flat then filledValue pillars p.1 q.1 d else innerValue pillars d) := by
  obtain ⟨p, q, he⟩ := ends_exist hne
  refine ⟨p, q, he, ?_⟩
  cases flat with
  | true =>
    rw [interp_flat hn he.first he.last he.min he.max] at h
    simp only [Except.ok.injEq] at h
    subst h
    simp [hd]
  | false =>
    rw [interp_noflat hn] at h
    simp only [Except.ok.injEq] at h
    subst h
    simp [hd]

namespace Props

/-- **C44.**  The curve is refused exactly when two pillars have the same date. -/
theorem C44_accepts_iff (pillars : List (Int × Rat)) (dates : List Int) (flat : Bool) :
    (∃ out, interpFxForwardCurve pillars dates flat = .ok out) ↔ (pillars.map (·.1)).Nodup := by
  unfold interpFxForwardCurve interpFxForwards
  rw [map_fst_some]
  by_cases h : (pillars.map (·.1)).Nodup
  · rw [if_neg (fun h' => h' h)]
    exact ⟨fun _ => h, fun _ => ⟨_, rfl⟩⟩
  · rw [if_pos h]
    constructor
    · rintro ⟨_, h'⟩; cases h'
    · intro h'; exact absurd h' h

/-- **C44.**  One value per requested date, whatever their order and multiplicity. -/
theorem C44_length (pillars : List (Int × Rat)) (dates : List Int) (flat : Bool) (out : List (Option Rat))
    (h : interpFxForwardCurve pillars dates flat = .ok out) : out.length = dates.length := by
  unfold interpFxForwardCurve interpFxForwards at h
  split at h
  · cases h
  · simp only [Except.ok.injEq] at h
    rw [← h]
    simp

/-- **C44.**  At a pillar date, the pillar's forward. -/
theorem C44_pillar (pillars : List (Int × Rat)) (dates : List Int) (flat : Bool) (out : List (Option Rat))
    (h : interpFxForwardCurve pillars dates flat = .ok out) (i : Nat) (d : Int) (v : Rat) (hd : dates[i]? = some d) (hp : (d, v) ∈ pillars) :
    out[i]? = some (some v) := by
  have hn := (C44_accepts_iff pillars dates flat).mp ⟨out, h⟩
  obtain ⟨a, b, he, ho⟩ := interp_value hn h (List.ne_nil_of_mem hp) hd
  rw [ho]
  have h1 := he.min _ hp
  have h2 := he.max _ hp
  simp only at h1 h2
  have hf : filledValue pillars a.1 b.1 d = innerValue pillars d := by
    unfold filledValue
    rw [if_neg (by omega), if_neg (by omega)]
  rw [hf, ite_self, innerValue_pillar hn hp]

/-- **C44.**  Between two neighbouring pillars, the value on the straight line through them. -/
theorem C44_between (pillars : List (Int × Rat)) (dates : List Int) (flat : Bool) (out : List (Option Rat))
    (h : interpFxForwardCurve pillars dates flat = .ok out) (i : Nat) (d : Int) (p q : Int × Rat) (hd : dates[i]? = some d)
    (hpq : PillarNeighbours pillars p q d) : ∃ y, out[i]? = some (some y) ∧ OnLine p q d y := by
  have hn := (C44_accepts_iff pillars dates flat).mp ⟨out, h⟩
  obtain ⟨a, b, he, ho⟩ := interp_value hn h (List.ne_nil_of_mem hpq.left) hd
  refine ⟨lineThrough p q d, ?_, onLine_lineThrough (by have := hpq.before; have := hpq.after; omega)⟩
  rw [ho]
  have h1 := he.min _ hpq.left
  have h2 := he.max _ hpq.right
  have h3 := hpq.before
  have h4 := hpq.after
  have hf : filledValue pillars a.1 b.1 d = innerValue pillars d := by
    unfold filledValue
    rw [if_neg (by omega), if_neg (by omega)]
  rw [hf, ite_self, innerValue_between hn hpq.left hpq.right h3 h4 hpq.next]

/-- **C44.**  Outside the pillars: the value of the nearest end with flat extrapolation, nothing without. -/
theorem C44_outside (pillars : List (Int × Rat)) (dates : List Int) (flat : Bool) (out : List (Option Rat))
    (h : interpFxForwardCurve pillars dates flat = .ok out) (i : Nat) (d : Int) (p q : Int × Rat) (hd : dates[i]? = some d)
    (he : Ends pillars p q) :
    (d < p.1 → out[i]? = some (if flat then some p.2 else none)) ∧ (q.1 < d → out[i]? = some (if flat then some q.2 else none)) := by
  have hn := (C44_accepts_iff pillars dates flat).mp ⟨out, h⟩
  obtain ⟨a, b, he', ho⟩ := interp_value hn h (List.ne_nil_of_mem he.first) hd
  have e1 : a.1 = p.1 := by have := he'.min _ he.first; have := he.min _ he'.first; omega
  have e2 : b.1 = q.1 := by have := he'.max _ he.last; have := he.max _ he'.last; omega
  have hle := he.min _ he.last
  rw [ho, e1, e2]
  constructor
  · intro hlt
    have hf : filledValue pillars p.1 q.1 d = innerValue pillars p.1 := if_pos hlt
    rw [hf, innerValue_pillar hn (d := p.1) (v := p.2) he.first,
      innerValue_before (fun r hr => by have := he.min r hr; omega)]
  · intro hlt
    have hf : filledValue pillars p.1 q.1 d = innerValue pillars q.1 := by
      unfold filledValue
      rw [if_neg (by omega), if_pos hlt]
    rw [hf, innerValue_pillar hn (d := q.1) (v := q.2) he.last,
      innerValue_after (fun r hr => by have := he.max r hr; omega)]

/-- **C44.**  These cases are all the cases. -/
theorem C44_cases (pillars : List (Int × Rat)) (hne : pillars ≠ []) (d : Int) :
    (∃ v, (d, v) ∈ pillars) ∨ (∃ p q, PillarNeighbours pillars p q d) ∨ ∃ p q, Ends pillars p q ∧ (d < p.1 ∨ q.1 < d) := by
  obtain ⟨p, q, he⟩ := ends_exist hne
  by_cases h0 : ∃ v, (d, v) ∈ pillars
  · exact .inl h0
  · right
    by_cases h1 : d < p.1
    · exact .inr ⟨p, q, he, .inl h1⟩
    · by_cases h2 : q.1 < d
      · exact .inr ⟨p, q, he, .inr h2⟩
      · left
        have hx : ∀ r ∈ pillars, r.1 ≠ d := fun r hr hrd => h0 ⟨r.2, by rw [← hrd]; exact hr⟩
        have hp := hx p he.first
        have hq := hx q he.last
        obtain ⟨a, _, ha⟩ := ends_exist (pillars := pillars.filter (fun r => d < r.1))
          (List.ne_nil_of_mem (List.mem_filter.mpr ⟨he.last, by simpa using (by omega : d < q.1)⟩))
        obtain ⟨_, b, hb⟩ := ends_exist (pillars := pillars.filter (fun r => r.1 < d))
          (List.ne_nil_of_mem (List.mem_filter.mpr ⟨he.first, by simpa using (by omega : p.1 < d)⟩))
        obtain ⟨ha1, ha2⟩ := List.mem_filter.mp ha.first
        obtain ⟨hb1, hb2⟩ := List.mem_filter.mp hb.last
        simp only [decide_eq_true_eq] at ha2 hb2
        refine ⟨b, a, hb1, ha1, hb2, ha2, fun r hr => ?_⟩
        have := hx r hr
        by_cases hlt : r.1 < d
        · exact .inl (hb.max r (List.mem_filter.mpr ⟨hr, by simpa using hlt⟩))
        · exact .inr (ha.min r (List.mem_filter.mpr ⟨hr, by simpa using (by omega : d < r.1)⟩))

/-- **C44.**  Pillars whose forward is `nan` might as well not be there: if no two dates are the same, the result is that of the other pillars. -/
theorem C44_missing (pillars : List (Int × Option Rat)) (dates : List Int) (flat : Bool) (quoted : List (Int × Rat))
    (hq : ∀ d v, (d, v) ∈ quoted ↔ (d, some v) ∈ pillars) (hqn : (quoted.map (·.1)).Nodup) (hn : (pillars.map (·.1)).Nodup) :
    interpFxForwards pillars dates flat = interpFxForwardCurve quoted dates flat := by
  have hmem : ∀ p, p ∈ quotedPillars pillars ↔ p ∈ quoted := fun p => by rw [mem_quotedPillars]; exact (hq p.1 p.2).symm
  have hn' := quotedPillars_nodup hn
  have hin : ∀ d, innerValue (quotedPillars pillars) d = innerValue quoted d := by
    intro d
    by_cases hne : quoted = []
    · have : quotedPillars pillars = [] := List.eq_nil_iff_forall_not_mem.2 (fun p hp => by have := (hmem p).1 hp; rw [hne] at this; cases this)
      rw [this, hne]
    · rcases C44_cases quoted hne d with ⟨v, hv⟩ | ⟨p, q, h⟩ | ⟨p, q, he, h⟩
      · rw [innerValue_pillar hqn hv, innerValue_pillar hn' ((hmem _).2 hv)]
      · rw [innerValue_between hqn h.left h.right h.before h.after h.next,
          innerValue_between hn' ((hmem _).2 h.left) ((hmem _).2 h.right) h.before h.after (fun r hr => h.next r ((hmem r).1 hr))]
      · rcases h with h | h
        · rw [innerValue_before (fun r hr => by have := he.min r ((hmem r).1 hr); omega),
            innerValue_before (fun r hr => by have := he.min r hr; omega)]
        · rw [innerValue_after (fun r hr => by have := he.max r ((hmem r).1 hr); omega),
            innerValue_after (fun r hr => by have := he.max r hr; omega)]
  by_cases hne : quoted = []
  · have h0 : quotedPillars pillars = [] := List.eq_nil_iff_forall_not_mem.2 (fun p hp => by have := (hmem p).1 hp; rw [hne] at this; cases this)
    rw [forwards_none hn h0, hne]
    exact (forwards_none (pillars := []) List.nodup_nil rfl dates flat).symm
  · cases flat with
    | false => rw [forwards_noflat hn, interp_noflat hqn, List.map_congr_left (fun d _ => hin d)]
    | true =>
      obtain ⟨a, b, he⟩ := ends_exist hne
      rw [interp_flat hqn he.first he.last he.min he.max,
        forwards_flat hn ((hmem _).2 he.first) ((hmem _).2 he.last) (fun r hr => he.min r ((hmem r).1 hr)) (fun r hr => he.max r ((hmem r).1 hr))]
      congr 1
      apply List.map_congr_left
      intro d _
      unfold filledValue
      rw [hin, hin, hin]

/-- **C44.**  A date that two pillars share is refused, even if the forward of one is missing. -/
theorem C44_missing_repeated (pillars : List (Int × Option Rat)) (dates : List Int) (flat : Bool) (h : ¬ (pillars.map (·.1)).Nodup) :
    interpFxForwards pillars dates flat = .error .value := if_pos h

/-- A missing forward between two others, and one after them. -/
example : interpFxForwards [(20, some 3), (15, none), (10, some 1), (30, none)] [12, 15, 30] true = .ok [some (7 / 5), some 2, some 3] ∧
    interpFxForwards [(20, some 3), (15, none), (10, some 1), (30, none)] [12, 15, 30] false = .ok [some (7 / 5), some 2, none] ∧
    interpFxForwardCurve [(20, 3), (10, 1)] [12, 15, 30] true = .ok [some (7 / 5), some 2, some 3] := by
  decide +kernel

/-- Unsorted pillars; requests unsorted, repeated, on, between and outside the pillars. -/
example : interpFxForwardCurve [(20, 3), (10, 1)] [25, 15, 10, 5, 15] true = .ok [some 3, some 2, some 1, some 1, some 2] ∧
    interpFxForwardCurve [(20, 3), (10, 1)] [25, 15, 10, 5, 15] false = .ok [none, some 2, some 1, none, some 2] := by
  decide +kernel

example : PillarNeighbours [(20, 3), (10, 1)] (10, 1) (20, 3) 15 ∧ Ends [(20, 3), (10, 1)] (10, 1) (20, 3) :=
  ⟨⟨by simp, by simp, by simp, by simp, by simp⟩, by simp, by simp, by simp, by simp⟩

end Props
end Frm
