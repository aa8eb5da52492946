import Verif.Model.FxHelpers
import Verif.Spec.Bootstrap
import Verif.Spec.BusDay
import Verif.Proofs.Workday
import Verif.Props.C67
import Verif.Props.C05

/-! # C41 — Dates of FX term structures -/

namespace Frm
open Spec

set_option autoImplicit false

theorem mapM_ok_iff {α β : Type} (f : α → Except Err β) (l : List α) :
    (∃ out, l.mapM f = .ok out) ↔ ∀ a ∈ l, ∃ b, f a = .ok b := by
  induction l with
  | nil => simp [pure, Except.pure]
  | cons a l ih =>
    simp only [List.mapM_cons, bind, Except.bind, List.mem_cons, forall_eq_or_imp]
    constructor
    · rintro ⟨out, h⟩
      cases ha : f a with
      | error e => rw [ha] at h; cases h
      | ok b =>
        rw [ha] at h
        simp only at h
        cases hl : l.mapM f with
        | error e => rw [hl] at h; cases h
        | ok bs => exact ⟨⟨b, rfl⟩, ih.mp ⟨bs, hl⟩⟩
    · rintro ⟨⟨b, hb⟩, hl⟩
      obtain ⟨bs, hbs⟩ := ih.mpr hl
      refine ⟨b :: bs, ?_⟩
      rw [hb]
      simp only [hbs, pure, Except.pure]

namespace Spec

/-- The dates the helper should leave in a row: dates already there are kept; without any date, the rate-set date is the
first business day on or after the curve date plus the tenor, and the delivery date is `spot` business days later. -/
def FxDates (cal : BusCal) (curveDate spot : Int) (before after : FxRow) : Prop :=
  after.value = before.value ∧ after.tenor = before.tenor.map cleanTenor ∧
  (∀ d, before.delivery = some d → after.delivery = some d ∧ after.rateSet = before.rateSet) ∧
  (before.delivery = none → before.rateSet = none ∧ ∃ o t f s, before.tenor = some t ∧
    tenorToDateOffset (cleanTenor t) = .ok o ∧ after.rateSet = some f ∧ after.delivery = some s ∧
    FirstOnOrAfter cal (o.addTo curveDate) f ∧ s = workday cal f spot)

end Spec

theorem workday_of_following {cal : BusCal} (h : cal.Ok) (d n : Int) : workday cal (workday cal d 0) n = workday cal d n := by
  rw [Props.C05_compose h, Int.zero_add]

theorem fxRowDates_spec {cal : BusCal} (hcal : cal.Ok) {cd spot : Int} {r o : FxRow} {t : Str} (ht : r.tenor = some t)
    (h : fxRowDates cal cd spot { r with tenor := some (cleanTenor t) } (cleanTenor t) = .ok o) : FxDates cal cd spot r o := by
  unfold fxRowDates at h
  simp only at h
  cases hd : r.delivery with
  | some d =>
    rw [hd] at h
    simp only [Except.ok.injEq] at h
    subst h
    refine ⟨rfl, by rw [ht]; rfl, ?_, ?_⟩
    · intro d' h'; rw [hd] at h'; exact ⟨h', rfl⟩
    · intro hn; rw [hd] at hn; cases hn
  | none =>
    rw [hd] at h
    cases hr : r.rateSet with
    | some x => rw [hr] at h; cases h
    | none =>
      rw [hr] at h
      simp only [bind, Except.bind] at h
      cases ho : tenorToDateOffset (cleanTenor t) with
      | error e => rw [ho] at h; cases h
      | ok off =>
        rw [ho] at h
        simp only [pure, Except.pure, Except.ok.injEq] at h
        subst h
        refine ⟨rfl, by rw [ht]; rfl, ?_, ?_⟩
        · intro d' h'; rw [hd] at h'; cases h'
        · intro _
          refine ⟨hr, off, t, workday cal (off.addTo cd) 0, workday cal (off.addTo cd) spot, ht, ho, rfl, rfl, ?_, ?_⟩
          · unfold workday stepBusDays
            simp only [Int.le_refl, if_true, Int.toNat_zero, iter]
            exact following_spec hcal _
          · exact (workday_of_following hcal _ _).symm

theorem fxHelper_unfold {sort : List FxRow → List FxRow} {cal : BusCal} {cd spot : Int} {rows out : List FxRow} {b : Bool}
    (h : fxTermStructureHelper sort cal cd spot b rows = .ok out) :
    b = true ∧ ∃ tenors res, rows.mapM fxRowTenor = .ok tenors ∧
      (rows.zip tenors).mapM (fun p => fxRowDates cal cd spot { p.1 with tenor := some p.2 } p.2) = .ok res ∧ out = sort res := by
  unfold fxTermStructureHelper at h
  cases b with
  | false => simp at h
  | true =>
    rw [if_neg (by simp)] at h
    simp only [bind, Except.bind] at h
    cases ht : rows.mapM fxRowTenor with
    | error e => rw [ht] at h; cases h
    | ok tenors =>
      rw [ht] at h
      simp only at h
      cases hr : (rows.zip tenors).mapM (fun p => fxRowDates cal cd spot { p.1 with tenor := some p.2 } p.2) with
      | error e => rw [hr] at h; cases h
      | ok res =>
        rw [hr] at h
        simp only [pure, Except.pure, Except.ok.injEq] at h
        exact ⟨rfl, tenors, res, rfl, hr, h.symm⟩

theorem zip_tenors {rows : List FxRow} {tenors : List Str} (h : rows.mapM fxRowTenor = .ok tenors) {i : Nat} {r : FxRow}
    (hr : rows[i]? = some r) : ∃ t, r.tenor = some t ∧ (rows.zip tenors)[i]? = some (r, cleanTenor t) := by
  obtain ⟨-, m2⟩ := mapM_get h
  obtain ⟨t', h1, h2⟩ := m2 i r hr
  unfold fxRowTenor at h2
  cases ht : r.tenor with
  | none => rw [ht] at h2; cases h2
  | some t =>
    rw [ht] at h2
    simp only [Except.ok.injEq] at h2
    subst h2
    exact ⟨t, rfl, List.getElem?_zip_eq_some.mpr ⟨hr, h1⟩⟩

end Frm

namespace Frm.Props
open Spec

set_option autoImplicit false

/-- The rows of the result are, in order of delivery date, the rows of the table with the dates of `FxDates`.  (The
property also asks that a delivery date be derived from a rate-set date: such rows are refused, see
`C41_rate_set_raises`.) -/
theorem C41_rows_partial (sort : List FxRow → List FxRow)
    (hsort : SortsOn (fun r : FxRow => r.delivery.getD 0) sort) (cal : BusCal) (hcal : cal.Ok) (cd spot : Int)
    (hasTenor : Bool) (rows out : List FxRow) (h : fxTermStructureHelper sort cal cd spot hasTenor rows = .ok out) :
    (∃ res : List FxRow, res.length = rows.length ∧ out.Perm res ∧ ∀ (i : Nat) (r : FxRow), rows[i]? = some r →
      ∃ o, res[i]? = some o ∧ FxDates cal cd spot r o) ∧
    ∃ ds : List Int, out.map (·.delivery) = ds.map some ∧ ds.Pairwise (· ≤ ·) := by
  obtain ⟨-, tenors, res, ht, hr, rfl⟩ := fxHelper_unfold h
  obtain ⟨m1, m2⟩ := mapM_get hr
  obtain ⟨n1, -⟩ := mapM_get ht
  have hlen : res.length = rows.length := by rw [m1, List.length_zip]; omega
  have key : ∀ (i : Nat) (r : FxRow), rows[i]? = some r → ∃ o, res[i]? = some o ∧ FxDates cal cd spot r o := by
    intro i r hi
    obtain ⟨t, e1, e2⟩ := zip_tenors ht hi
    obtain ⟨o, o1, o2⟩ := m2 i _ e2
    exact ⟨o, o1, fxRowDates_spec hcal e1 o2⟩
  obtain ⟨hp, hs⟩ := hsort res
  refine ⟨⟨res, hlen, hp, key⟩, (sort res).map (fun r => r.delivery.getD 0), ?_, by rw [List.pairwise_map]; exact hs⟩
  rw [List.map_map]
  apply List.map_congr_left
  intro o ho
  obtain ⟨i, hi⟩ := List.mem_iff_getElem?.mp (hp.mem_iff.mp ho)
  have hlt : i < rows.length := by rw [← hlen]; exact (List.getElem?_eq_some_iff.mp hi).1
  obtain ⟨o', h1, h2⟩ := key i _ (List.getElem?_eq_getElem hlt)
  rw [hi] at h1
  simp only [Option.some.injEq] at h1
  subst h1
  obtain ⟨-, -, g1, g2⟩ := h2
  show o.delivery = some (o.delivery.getD 0)
  cases hd : rows[i].delivery with
  | some d => rw [(g1 d hd).1]; rfl
  | none =>
    obtain ⟨-, _, _, _, s, -, -, -, hs', -⟩ := g2 hd
    rw [hs']; rfl

/-- In a row without dates the rate-set date precedes the delivery date by the spot lag in business days. -/
theorem C41_spot_lag (cal : BusCal) (hcal : cal.Ok) (cd : Int) (spot : Nat) (r o : FxRow) (h : FxDates cal cd spot r o)
    (hd : r.delivery = none) : ∃ f s, o.rateSet = some f ∧ o.delivery = some s ∧ f ≤ s ∧ isBusDay cal f = true ∧
      isBusDay cal s = true ∧ busDaysBetween cal f s = spot := by
  obtain ⟨-, off, t, f, s, -, -, h1, h2, h3, h4⟩ := h.2.2.2 hd
  obtain ⟨r', g1, g2, g3, g4⟩ := (C05_forward hcal f spot s).mp h4.symm
  have : r' = f := by
    obtain ⟨a1, a2, a3⟩ := g1
    by_contra hc
    have := a3 f (Int.le_refl _) (by omega)
    rw [h3.2.1] at this; cases this
  subst this
  exact ⟨r', s, h1, h2, g2, h3.2.1, g3, g4⟩

/-- Which tables are accepted. -/
theorem C41_accepts_iff (sort : List FxRow → List FxRow) (cal : BusCal) (cd spot : Int) (hasTenor : Bool)
    (rows : List FxRow) :
    (∃ out, fxTermStructureHelper sort cal cd spot hasTenor rows = .ok out) ↔
    hasTenor = true ∧ ∀ r ∈ rows, ∃ t, r.tenor = some t ∧
      (r.delivery.isSome ∨ (r.rateSet = none ∧ ∃ o, tenorToDateOffset (cleanTenor t) = .ok o)) := by
  constructor
  · rintro ⟨out, h⟩
    obtain ⟨hb, tenors, res, ht, hr, -⟩ := fxHelper_unfold h
    refine ⟨hb, ?_⟩
    apply forall_of_get
    intro i r hi
    obtain ⟨t, e1, e2⟩ := zip_tenors ht hi
    obtain ⟨-, m2⟩ := mapM_get hr
    obtain ⟨o, -, o2⟩ := m2 i _ e2
    refine ⟨t, e1, ?_⟩
    unfold fxRowDates at o2
    simp only at o2
    cases hd : r.delivery with
    | some d => exact .inl rfl
    | none =>
      right
      rw [hd] at o2
      cases hrs : r.rateSet with
      | some x => rw [hrs] at o2; cases o2
      | none =>
        rw [hrs] at o2
        simp only [bind, Except.bind] at o2
        cases ho : tenorToDateOffset (cleanTenor t) with
        | error e => rw [ho] at o2; cases o2
        | ok off => exact ⟨rfl, off, rfl⟩
  · rintro ⟨rfl, hall⟩
    have h1 : ∃ tenors, rows.mapM fxRowTenor = .ok tenors := by
      rw [mapM_ok_iff]
      intro r hr
      obtain ⟨t, ht, -⟩ := hall r hr
      exact ⟨cleanTenor t, by unfold fxRowTenor; rw [ht]⟩
    obtain ⟨tenors, ht⟩ := h1
    have h2 : ∃ res, (rows.zip tenors).mapM (fun p => fxRowDates cal cd spot { p.1 with tenor := some p.2 } p.2) = .ok res := by
      rw [mapM_ok_iff]
      intro p hp
      obtain ⟨i, hi⟩ := List.mem_iff_getElem?.mp hp
      obtain ⟨z1, z2⟩ := List.getElem?_zip_eq_some.mp hi
      obtain ⟨t, e1, e2⟩ := zip_tenors ht z1
      rw [hi] at e2
      simp only [Option.some.injEq] at e2
      obtain ⟨t', e3, e4⟩ := hall p.1 (List.mem_of_getElem? z1)
      rw [e1] at e3
      simp only [Option.some.injEq] at e3
      subst e3
      have hp2 : p.2 = cleanTenor t := by rw [e2]
      unfold fxRowDates
      simp only
      cases hd : p.1.delivery with
      | some d => exact ⟨_, rfl⟩
      | none =>
        rcases e4 with e4 | ⟨e4, off, e5⟩
        · rw [hd] at e4; cases e4
        · rw [e4, hp2]
          simp only [bind, Except.bind, e5]
          exact ⟨_, rfl⟩
    obtain ⟨res, hres⟩ := h2
    refine ⟨sort res, ?_⟩
    unfold fxTermStructureHelper
    rw [if_neg (by simp)]
    simp only [bind, Except.bind, ht, hres]
    rfl

/-- Which exceptions: a table without tenors raises `KeyError`, a missing tenor `TypeError` before any date is looked at, and if all rows
before the first with a rate-set date alone have dates or a tenor that can be read, that row raises `AttributeError`. -/
theorem C41_exceptions (sort : List FxRow → List FxRow) (cal : BusCal) (cd spot : Int) (rows : List FxRow) :
    fxTermStructureHelper sort cal cd spot false rows = .error .key ∧
    ((∃ r ∈ rows, r.tenor = none) → fxTermStructureHelper sort cal cd spot true rows = .error .type) ∧
    (∀ pre r post, rows = pre ++ r :: post → (∀ q ∈ rows, q.tenor ≠ none) →
      (∀ q ∈ pre, q.delivery ≠ none ∨ (q.rateSet = none ∧ ∃ t o, q.tenor = some t ∧ tenorToDateOffset (cleanTenor t) = .ok o)) →
      r.delivery = none → r.rateSet ≠ none → fxTermStructureHelper sort cal cd spot true rows = .error .attribute) := by
  refine ⟨rfl, ?_, ?_⟩
  · intro hr
    have hm : rows.mapM fxRowTenor = .error .type := by
      induction rows with
      | nil => obtain ⟨r, hr, -⟩ := hr; cases hr
      | cons q l ih =>
        rw [List.mapM_cons]
        cases hq : q.tenor with
        | none => simp only [fxRowTenor, hq]; rfl
        | some t =>
          obtain ⟨r, hr1, hr2⟩ := hr
          rcases List.mem_cons.mp hr1 with rfl | hr1
          · rw [hr2] at hq; cases hq
          · rw [ih ⟨r, hr1, hr2⟩]
            simp only [fxRowTenor, hq]
            rfl
    unfold fxTermStructureHelper
    rw [if_neg (by simp), hm]
    rfl
  · intro pre r post hrows hten hpre hdel hset
    have hm : ∀ l : List FxRow, (∀ q ∈ l, q.tenor ≠ none) → l.mapM fxRowTenor = .ok (l.map (fun q => cleanTenor (q.tenor.getD []))) := by
      intro l hl
      induction l with
      | nil => rfl
      | cons q l ih =>
        rw [List.mapM_cons, ih (fun x hx => hl x (List.mem_cons_of_mem _ hx))]
        cases hq : q.tenor with
        | none => exact absurd hq (hl q (by simp))
        | some t =>
          simp only [fxRowTenor, hq]
          simp [hq, bind, Except.bind, pure, Except.pure]
    unfold fxTermStructureHelper
    rw [if_neg (by simp), hm rows hten]
    have key : ∀ pre : List FxRow, (∀ q ∈ pre, q.delivery ≠ none ∨ (q.rateSet = none ∧ ∃ t o, q.tenor = some t ∧ tenorToDateOffset (cleanTenor t) = .ok o)) →
        (((pre ++ r :: post).zip ((pre ++ r :: post).map (fun q => cleanTenor (q.tenor.getD [])))).mapM
          (fun p => fxRowDates cal cd spot { p.1 with tenor := some p.2 } p.2)) = .error .attribute := by
      intro pre hpre
      induction pre with
      | nil =>
        rw [List.nil_append, List.map_cons, List.zip_cons_cons, List.mapM_cons]
        cases hs : r.rateSet with
        | none => exact absurd hs hset
        | some d => simp only [fxRowDates, hdel, hs]; rfl
      | cons q l ih =>
        rw [List.cons_append, List.map_cons, List.zip_cons_cons, List.mapM_cons, ih (fun x hx => hpre x (List.mem_cons_of_mem _ hx))]
        rcases hpre q (by simp) with hq | ⟨hq, t, o, ht, ho⟩
        · cases hd : q.delivery with
          | none => exact absurd hd hq
          | some d => simp only [fxRowDates, hd]; rfl
        · cases hd : q.delivery with
          | none =>
            simp only [fxRowDates, hd, hq, ht, Option.getD_some, ho]
            rfl
          | some d => simp only [fxRowDates, hd]; rfl
    subst hrows
    simp only [bind, Except.bind]
    rw [key pre hpre]

/-- Defect: a row with a rate-set date and no delivery date makes the whole table fail. -/
theorem C41_rate_set_raises (sort : List FxRow → List FxRow) (cal : BusCal) (cd spot : Int) (hasTenor : Bool)
    (rows : List FxRow) (r : FxRow) (hr : r ∈ rows) (h1 : r.delivery = none) (h2 : r.rateSet.isSome) :
    ∀ out, fxTermStructureHelper sort cal cd spot hasTenor rows ≠ .ok out := by
  intro out h
  obtain ⟨-, hall⟩ := (C41_accepts_iff sort cal cd spot hasTenor rows).mp ⟨out, h⟩
  obtain ⟨t, -, h3 | ⟨h3, -⟩⟩ := hall r hr
  · rw [h1] at h3; cases h3
  · rw [h3] at h2; cases h2

/-- Defect: a row with a delivery date only keeps no rate-set date at all. -/
theorem C41_no_rate_set (cal : BusCal) (cd spot d : Int) (t : Str) (v : Option Rat) (o : FxRow)
    (h : FxDates cal cd spot ⟨some t, none, some d, v⟩ o) : o.rateSet = none := (h.2.2.1 d rfl).2

/-- A table mixing a tenor and an explicit delivery date. -/
example : fxTermStructureHelper (sortBy (fun r => r.delivery.getD 0)) defaultBusCal (mkDate 2024 1 31) 2 true
    [⟨some "1 Month".toList, none, none, some 1⟩, ⟨some "x".toList, none, some (mkDate 2024 2 9), none⟩] =
    .ok [⟨some "x".toList, none, some (mkDate 2024 2 9), none⟩,
      ⟨some "1m".toList, some (mkDate 2024 2 29), some (mkDate 2024 3 4), some 1⟩] := by decide +kernel

end Frm.Props
