import Verif.Model.FxSurface
import Verif.Props.C46
import Verif.Props.C67
import Verif.Props.C41

/-!
# C81: the daily smiles of a volatility surface agree with the quotes and interpolate total variance between them
-/

namespace Frm
namespace Spec

set_option autoImplicit false

/-- Quotes a surface can be built from: at least one pillar, expiries in order, `n` quotes at each. -/
structure PillarTable (pillars : List SmilePillar) (n : Nat) : Prop where
  nonempty : pillars ≠ []
  increasing : pillars.Pairwise (fun p q => p.expiry < q.expiry)
  quotes : ∀ p ∈ pillars, p.vols.length = n

/-- A table of pillars in the order of their expiries, some of which may be repeated. -/
structure OrderedTable (pillars : List SmilePillar) (n : Nat) : Prop where
  nonempty : pillars ≠ []
  ordered : pillars.Pairwise (fun p q => p.expiry ≤ q.expiry)
  quotes : ∀ p ∈ pillars, p.vols.length = n

/-- `p` is the first row of its expiry. -/
def FirstOf (pillars : List SmilePillar) (p : SmilePillar) : Prop :=
  ∃ i : Nat, pillars[i]? = some p ∧ ∀ (k : Nat) q, k < i → pillars[k]? = some q → q.expiry < p.expiry

/-- `p` is the last row of its expiry. -/
def LastOf (pillars : List SmilePillar) (p : SmilePillar) : Prop :=
  ∃ i : Nat, pillars[i]? = some p ∧ ∀ (k : Nat) q, i < k → pillars[k]? = some q → p.expiry < q.expiry

/-- The pillars and the days are timed alike, and time is positive at the first expiry and increases from day to day. -/
def Clock (curves : FxCurves) (pillars : List SmilePillar) : Prop :=
  (∀ p ∈ pillars, p.years = curves.years p.expiry) ∧ ∀ p, pillars.head? = some p → 0 < curves.years p.expiry ∧ ∀ d e, p.expiry ≤ d → d < e → curves.years d < curves.years e

/-- `p` and `q` are consecutive pillars. -/
def Consecutive (pillars : List SmilePillar) (p q : SmilePillar) : Prop := ∃ i : Nat, pillars[i]? = some p ∧ pillars[i + 1]? = some q

/-- Total variance does not decrease from a pillar to the next, later one. -/
def NoCalendarArbitrage (curves : FxCurves) (pillars : List SmilePillar) : Prop :=
  ∀ p q, Consecutive pillars p q → p.expiry < q.expiry → ∀ (j : Nat) v w, p.vols[j]? = some (some v) → q.vols[j]? = some (some w) →
    v ^ 2 * curves.years p.expiry ≤ w ^ 2 * curves.years q.expiry

end Spec
end Frm

namespace Frm.Props
open Classical

set_option autoImplicit false

open Frm Frm.Spec

theorem pairwise_get {pillars : List SmilePillar} (h : pillars.Pairwise (fun p q => p.expiry < q.expiry)) {i j : Nat} {p q : SmilePillar}
    (hi : pillars[i]? = some p) (hj : pillars[j]? = some q) (hij : i < j) : p.expiry < q.expiry := by
  obtain ⟨hil, hie⟩ := List.getElem?_eq_some_iff.1 hi
  obtain ⟨hjl, hje⟩ := List.getElem?_eq_some_iff.1 hj
  have := List.pairwise_iff_getElem.1 h i j hil hjl hij
  rwa [hie, hje] at this

theorem pairwise_le_get {pillars : List SmilePillar} (h : pillars.Pairwise (fun p q => p.expiry ≤ q.expiry)) {i j : Nat} {p q : SmilePillar}
    (hi : pillars[i]? = some p) (hj : pillars[j]? = some q) (hij : i ≤ j) : p.expiry ≤ q.expiry := by
  obtain ⟨hil, hie⟩ := List.getElem?_eq_some_iff.1 hi
  obtain ⟨hjl, hje⟩ := List.getElem?_eq_some_iff.1 hj
  rcases hij.lt_or_eq with h' | h'
  · have := List.pairwise_iff_getElem.1 h i j hil hjl h'
    rwa [hie, hje] at this
  · subst h'
    rw [← hie, ← hje]

theorem lower_of {pillars : List SmilePillar} (h : pillars.Pairwise (fun p q => p.expiry ≤ q.expiry)) {i : Nat} {p : SmilePillar} {d : Int}
    (hi : pillars[i]? = some p) (hp : p.expiry ≤ d) (hn : ∀ q, pillars[i + 1]? = some q → d < q.expiry) : lowerPillar pillars d = some p := by
  have hl : i < pillars.length := (List.getElem?_eq_some_iff.1 hi).1
  have e : pillars.filter (fun p => p.expiry ≤ d) = pillars.take (i + 1) := by
    conv_lhs => rw [← List.take_append_drop (i + 1) pillars]
    rw [List.filter_append, List.filter_eq_self.2, List.filter_eq_nil_iff.2, List.append_nil]
    · intro q hq
      obtain ⟨k, hk⟩ := List.mem_iff_getElem?.1 hq
      rw [List.getElem?_drop] at hk
      have hd : d < q.expiry := by
        cases k with
        | zero => exact hn q (by simpa using hk)
        | succ k =>
          have h1 : i + 1 < pillars.length := by
            have := (List.getElem?_eq_some_iff.1 hk).1
            omega
          have h2 : pillars[i + 1]? = some pillars[i + 1] := List.getElem?_eq_getElem h1
          have h3 := pairwise_le_get h h2 hk (by omega)
          have h4 := hn _ h2
          omega
      simpa using hd
    · intro q hq
      obtain ⟨k, hk⟩ := List.mem_iff_getElem?.1 hq
      rw [List.getElem?_take] at hk
      split at hk
      · rename_i hki
        rcases Nat.lt_or_ge k i with hlt | hge
        · have := pairwise_le_get h hk hi hlt.le
          simp only [decide_eq_true_eq]
          omega
        · have : k = i := by omega
          subst this
          rw [hi] at hk
          cases hk
          simpa using hp
      · cases hk
  unfold lowerPillar
  rw [e, List.getLast?_take, if_neg (by omega)]
  simp [hi]

theorem upper_of {pillars : List SmilePillar} {i : Nat} {p : SmilePillar} {d : Int}
    (hi : pillars[i]? = some p) (hp : d ≤ p.expiry) (hn : ∀ (k : Nat) q, k < i → pillars[k]? = some q → q.expiry < d) :
    upperPillar pillars d = some p := by
  unfold upperPillar
  obtain ⟨hl, he⟩ := List.getElem?_eq_some_iff.1 hi
  rw [List.find?_eq_some_iff_getElem]
  refine ⟨by simpa using hp, i, hl, he, ?_⟩
  intro k hk
  have := hn k _ hk (List.getElem?_eq_getElem (by omega))
  simpa using this

/-- A day between the first and the last pillar is an expiry, or lies strictly between two consecutive ones. -/
theorem day_cases {pillars : List SmilePillar} {d : Int} {p0 pn : SmilePillar}
    (h0 : pillars.head? = some p0) (hn : pillars.getLast? = some pn) (hlo : p0.expiry ≤ d) (hhi : d ≤ pn.expiry) :
    (∃ p, p ∈ pillars ∧ p.expiry = d) ∨ ∃ p q, Consecutive pillars p q ∧ p.expiry < d ∧ d < q.expiry := by
  by_contra hc
  have hc1 : ∀ p ∈ pillars, p.expiry ≠ d := fun p hp he => hc (Or.inl ⟨p, hp, he⟩)
  have hc2 : ∀ p q, Consecutive pillars p q → p.expiry < d → ¬ d < q.expiry := fun p q hpq hp hq => hc (Or.inr ⟨p, q, hpq, hp, hq⟩)
  have key : ∀ (i : Nat) p, pillars[i]? = some p → p.expiry < d := by
    intro i
    induction i with
    | zero =>
      intro p hp
      rw [List.head?_eq_getElem?] at h0
      rw [h0] at hp
      cases hp
      exact lt_of_le_of_ne hlo (hc1 _ (List.mem_of_getElem? h0))
    | succ i ih =>
      intro p hp
      have hl : i < pillars.length := by
        have := (List.getElem?_eq_some_iff.1 hp).1
        omega
      have hq : pillars[i]? = some pillars[i] := List.getElem?_eq_getElem hl
      have := hc2 _ p ⟨i, hq, hp⟩ (ih _ hq)
      exact lt_of_le_of_ne (not_lt.1 this) (hc1 p (List.mem_of_getElem? hp))
  rw [List.getLast?_eq_getElem?] at hn
  have := key _ _ hn
  omega

theorem foldl_min_sorted {e : Int} {es : List Int} (h : (e :: es).Pairwise (· ≤ ·)) : es.foldl min e = e := by
  induction es generalizing e with
  | nil => rfl
  | cons x xs ih =>
    have hx : e ≤ x := by simp only [List.pairwise_cons, List.mem_cons, forall_eq_or_imp] at h; exact h.1.1
    rw [List.foldl_cons, min_eq_left hx]
    exact ih (h.sublist (by simp))

theorem foldl_max_sorted {e : Int} {es : List Int} (h : (e :: es).Pairwise (· ≤ ·)) : some (es.foldl max e) = (e :: es).getLast? := by
  induction es generalizing e with
  | nil => rfl
  | cons x xs ih =>
    have hx : e ≤ x := by simp only [List.pairwise_cons, List.mem_cons, forall_eq_or_imp] at h; exact h.1.1
    rw [List.foldl_cons, max_eq_right hx, ih (List.pairwise_cons.1 h).2, List.getLast?_cons_cons]

theorem daysBetween_get {lo hi : Int} {k : Nat} {d : Int} : (daysBetween lo hi)[k]? = some d ↔ d = lo + k ∧ lo + k ≤ hi := by
  unfold daysBetween
  rw [List.getElem?_map]
  by_cases h : k < (hi + 1 - lo).toNat
  · rw [List.getElem?_range h]
    simp only [Option.map_some, Option.some.injEq]
    omega
  · rw [List.getElem?_eq_none (by simpa using h)]
    simp only [Option.map_none, reduceCtorEq, false_iff]
    omega

/-- The table before its rows are computed. -/
theorem smileDaily_eq {curves : FxCurves} {pillars : List SmilePillar} (h : pillars.Pairwise (fun p q => p.expiry ≤ q.expiry)) {p0 pn : SmilePillar}
    (h0 : pillars.head? = some p0) (hn : pillars.getLast? = some pn) :
    smileDaily curves pillars = (daysBetween p0.expiry pn.expiry).mapM (smileDay curves pillars) := by
  cases pillars with
  | nil => cases h0
  | cons p ps =>
    simp only [List.head?_cons, Option.some.injEq] at h0
    subst h0
    have hs : ((p :: ps).map (·.expiry)).Pairwise (· ≤ ·) := List.pairwise_map.2 h
    have hlast : some ((ps.map (·.expiry)).foldl max p.expiry) = some pn.expiry := by
      rw [foldl_max_sorted (by simpa using hs)]
      have : (p.expiry :: ps.map (·.expiry)) = (p :: ps).map (·.expiry) := rfl
      rw [this, List.getLast?_map, hn]
      rfl
    unfold smileDaily
    simp only [List.map_cons]
    rw [if_neg (not_not.2 h), foldl_min_sorted (by simpa using hs), Option.some.inj hlast]

theorem years_le {curves : FxCurves} {pillars : List SmilePillar} (hc : Clock curves pillars) {p0 : SmilePillar} (h0 : pillars.head? = some p0)
    {d e : Int} (hd : p0.expiry ≤ d) (hde : d ≤ e) : curves.years d ≤ curves.years e ∧ 0 < curves.years d := by
  obtain ⟨hpos, hmono⟩ := hc.2 p0 h0
  constructor
  · rcases hde.lt_or_eq with h | h
    · exact (hmono d e hd h).le
    · rw [h]
  · rcases hd.lt_or_eq with h | h
    · linarith [hmono _ _ le_rfl h]
    · rwa [← h]

theorem head_le_ordered {pillars : List SmilePillar} (h : pillars.Pairwise (fun p q => p.expiry ≤ q.expiry)) {p0 p : SmilePillar}
    (h0 : pillars.head? = some p0) (hp : p ∈ pillars) : p0.expiry ≤ p.expiry := by
  obtain ⟨i, hi⟩ := List.mem_iff_getElem?.1 hp
  rw [List.head?_eq_getElem?] at h0
  exact pairwise_le_get h h0 hi (by omega)

theorem head_le {pillars : List SmilePillar} (h : pillars.Pairwise (fun p q => p.expiry < q.expiry)) {p0 p : SmilePillar}
    (h0 : pillars.head? = some p0) (hp : p ∈ pillars) : p0.expiry ≤ p.expiry :=
  head_le_ordered (h.imp (fun h => h.le)) h0 hp

/-- What is between the neighbouring pillars of a day. -/
theorem day_row {curves : FxCurves} {pillars : List SmilePillar} {n : Nat} (hp : OrderedTable pillars n) (hc : Clock curves pillars)
    (ha : NoCalendarArbitrage curves pillars) {lo hi : SmilePillar} {d : Int} (hlo : lo ∈ pillars) (hhi : hi ∈ pillars)
    (hl : lowerPillar pillars d = some lo) (hu : upperPillar pillars d = some hi) (h1 : lo.expiry ≤ d) (h2 : d ≤ hi.expiry)
    (hcons : lo.expiry < hi.expiry → Consecutive pillars lo hi) :
    ∃ row, smileDay curves pillars d = .ok row ∧ row.expiry = d ∧ row.years = curves.years d ∧ row.fwd = curves.fwd d ∧
      row.rd = curves.rd d ∧ row.rf = curves.rf d ∧ row.conv = hi.conv ∧ row.vols.length = n ∧
      (∀ (j : Nat) v w, lo.vols[j]? = some (some v) → hi.vols[j]? = some (some w) → ∃ s, row.vols[j]? = some (.fin s) ∧
        FlatForward ⟨⟨curves.years lo.expiry, v, curves.years hi.expiry, w⟩, curves.years d⟩ s) ∧
      (lo.expiry < hi.expiry → ∀ (j : Nat) v w, lo.vols[j]? = some v → hi.vols[j]? = some w → v = none ∨ w = none → row.vols[j]? = some .nan) ∧
      (lo.expiry = hi.expiry → ∀ (j : Nat) v, lo.vols[j]? = some v → row.vols[j]? = some (match v with | some v => .fin |v| | none => .nan)) := by
  obtain ⟨p0, h0⟩ : ∃ p0, pillars.head? = some p0 := by
    cases pillars with
    | nil => cases hlo
    | cons p ps => exact ⟨p, rfl⟩
  have hd0 : p0.expiry ≤ lo.expiry := head_le_ordered hp.ordered h0 hlo
  have htl := hc.1 lo hlo
  have hth := hc.1 hi hhi
  have hy1 := years_le hc h0 hd0 h1
  have hy2 := years_le hc h0 (hd0.trans h1) h2
  have hzip : ∀ (j : Nat) v w, lo.vols[j]? = some v → hi.vols[j]? = some w →
      (smileInterpRows curves lo hi d)[j]? =
        some ⟨⟨curves.years lo.expiry, (pairVols lo.years hi.years v w).1, curves.years hi.expiry, (pairVols lo.years hi.years v w).2⟩,
          curves.years d⟩ := by
    intro j v w hv hw
    unfold smileInterpRows
    rw [List.getElem?_map, List.getElem?_zip_eq_some (z := (v, w)) |>.2 ⟨hv, hw⟩, Option.map_some]
    simp only [htl, hth]
  obtain ⟨out, ho, hlen, hval⟩ := C46_flat_forward (smileInterpRows curves lo hi d) (by
    intro r hr
    obtain ⟨vw, hvw, rfl⟩ := List.mem_map.1 hr
    obtain ⟨j, hj⟩ := List.mem_iff_getElem?.1 hvw
    obtain ⟨hjv, hjw⟩ := List.getElem?_zip_eq_some.1 hj
    simp only [htl, hth]
    refine ⟨hy1.2.le, hy1.1, hy2.1, hy2.2, ?_⟩
    intro hlt
    have hex : lo.expiry < hi.expiry := by
      rcases (h1.trans h2).lt_or_eq with h | h
      · exact h
      · simp only [h, lt_self_iff_false] at hlt
    obtain ⟨v, w⟩ := vw
    cases v with
    | none => simp [pairVols, VolPair.w1, VolPair.w2]
    | some v =>
      cases w with
      | none => simp [pairVols, VolPair.w1, VolPair.w2, hlt.ne]
      | some w => exact ha lo hi (hcons hex) hex j v w hjv hjw)
  have hget : ∀ (j : Nat) v w, lo.vols[j]? = some v → hi.vols[j]? = some w → ∃ s, out[j]? = some (.fin s) ∧
      (smileVols lo hi out)[j]? = some (if v.isSome ∧ (w.isSome ∨ lo.years = hi.years) then .fin s else .nan) ∧
      FlatForward ⟨⟨curves.years lo.expiry, (pairVols lo.years hi.years v w).1, curves.years hi.expiry, (pairVols lo.years hi.years v w).2⟩,
        curves.years d⟩ s := by
    intro j v w hv hw
    obtain ⟨s, hs, hf⟩ := hval j _ (hzip j v w hv hw)
    refine ⟨s, hs, ?_, hf⟩
    unfold smileVols
    rw [List.getElem?_zipWith, List.getElem?_zip_eq_some (z := (v, w)) |>.2 ⟨hv, hw⟩, hs]
  refine ⟨⟨d, curves.years d, curves.fwd d, curves.rd d, curves.rf d, hi.conv, smileVols lo hi out⟩, ?_, rfl, rfl, rfl, rfl, rfl, rfl, ?_, ?_, ?_, ?_⟩
  · unfold smileDay
    rw [hl, hu]
    simp only [ho]
  · unfold smileVols
    rw [List.length_zipWith, hlen]
    unfold smileInterpRows
    simp [hp.quotes lo hlo, hp.quotes hi hhi]
  · intro j v w hv hw
    obtain ⟨s, -, hs, hf⟩ := hget j _ _ hv hw
    exact ⟨s, by simpa using hs, hf⟩
  · intro hlt j v w hv hw hn
    obtain ⟨s, -, hs, -⟩ := hget j _ _ hv hw
    have hne : lo.years ≠ hi.years := by
      rw [htl, hth]
      exact ((hc.2 p0 h0).2 _ _ hd0 hlt).ne
    rw [hs]
    rcases hn with rfl | rfl <;> simp [hne]
  · intro he j v hv
    have heq : lo.years = hi.years := by rw [htl, hth, he]
    have hjl : j < hi.vols.length := by
      rw [hp.quotes hi hhi, ← hp.quotes lo hlo]
      exact (List.getElem?_eq_some_iff.1 hv).1
    obtain ⟨s, -, hs, hf⟩ := hget j v _ hv (List.getElem?_eq_getElem hjl)
    have hd : d = lo.expiry := by omega
    rw [hs]
    cases v with
    | none => simp
    | some v =>
      have hst := hf.start (by rw [hd])
      have h1 : (pairVols lo.years hi.years (some v) hi.vols[j]).1 = v := by
        cases hi.vols[j] with
        | none => simp [pairVols, heq]
        | some w => rfl
      simp only [h1] at hst
      simp [heq, hst]

/-- An expiry of an ordered table has a first and a last row. -/
theorem first_last {pillars : List SmilePillar} (h : pillars.Pairwise (fun p q => p.expiry ≤ q.expiry)) {p : SmilePillar} (hp : p ∈ pillars) :
    ∃ a b, FirstOf pillars a ∧ LastOf pillars b ∧ a.expiry = p.expiry ∧ b.expiry = p.expiry := by
  obtain ⟨i, hi⟩ := List.mem_iff_getElem?.1 hp
  have hex : ∃ k : Nat, ∃ q, pillars[k]? = some q ∧ q.expiry = p.expiry := ⟨i, p, hi, rfl⟩
  obtain ⟨a, ha1, ha2⟩ := Nat.find_spec hex
  have hil : i ≤ pillars.length := (List.getElem?_eq_some_iff.1 hi).1.le
  have hg := Nat.findGreatest_spec (P := fun k : Nat => ∃ q, pillars[k]? = some q ∧ q.expiry = p.expiry) hil ⟨p, hi, rfl⟩
  obtain ⟨b, hb1, hb2⟩ := hg
  refine ⟨a, b, ⟨_, ha1, ?_⟩, ⟨_, hb1, ?_⟩, ha2, hb2⟩
  · intro k q hk hq
    refine lt_of_le_of_ne (pairwise_le_get h hq ha1 hk.le) (fun he => Nat.find_min hex hk ⟨q, hq, he.trans ha2⟩)
  · intro k q hk hq
    have hkl : k ≤ pillars.length := (List.getElem?_eq_some_iff.1 hq).1.le
    refine lt_of_le_of_ne (pairwise_le_get h hb1 hq hk.le) (fun he => ?_)
    exact Nat.findGreatest_is_greatest hk hkl ⟨q, hq, he.symm.trans hb2⟩

/-- The neighbouring pillars of an expiry of the table: its last and its first row. -/
theorem at_expiry {pillars : List SmilePillar} (h : pillars.Pairwise (fun p q => p.expiry ≤ q.expiry)) {a b : SmilePillar}
    (ha : FirstOf pillars a) (hb : LastOf pillars b) (he : a.expiry = b.expiry) :
    lowerPillar pillars b.expiry = some b ∧ upperPillar pillars b.expiry = some a := by
  obtain ⟨i, hi, hi'⟩ := ha
  obtain ⟨j, hj, hj'⟩ := hb
  exact ⟨lower_of h hj le_rfl (fun q hq => hj' _ q (by omega) hq),
    upper_of hi he.ge (fun k q hk hq => he ▸ hi' k q hk hq)⟩

theorem first_of_increasing {pillars : List SmilePillar} (h : pillars.Pairwise (fun p q => p.expiry < q.expiry)) {p : SmilePillar}
    (hp : p ∈ pillars) : FirstOf pillars p ∧ LastOf pillars p := by
  obtain ⟨i, hi⟩ := List.mem_iff_getElem?.1 hp
  exact ⟨⟨i, hi, fun k q hk hq => pairwise_get h hq hi hk⟩, ⟨i, hi, fun k q hk hq => pairwise_get h hi hq hk⟩⟩

theorem at_pillar {pillars : List SmilePillar} (h : pillars.Pairwise (fun p q => p.expiry < q.expiry)) {p : SmilePillar} (hp : p ∈ pillars) :
    lowerPillar pillars p.expiry = some p ∧ upperPillar pillars p.expiry = some p :=
  at_expiry (h.imp (fun h => h.le)) (first_of_increasing h hp).1 (first_of_increasing h hp).2 rfl

theorem between_pillars {pillars : List SmilePillar} (h : pillars.Pairwise (fun p q => p.expiry ≤ q.expiry)) {p q : SmilePillar}
    (hpq : Consecutive pillars p q) {d : Int} (h1 : p.expiry < d) (h2 : d < q.expiry) :
    lowerPillar pillars d = some p ∧ upperPillar pillars d = some q := by
  obtain ⟨i, hi, hj⟩ := hpq
  refine ⟨lower_of h hi h1.le (fun r hr => ?_), upper_of hj h2.le (fun k r hk hr => ?_)⟩
  · rw [hj] at hr
    cases hr
    exact h2
  · have := pairwise_le_get h hr hi (by omega)
    omega

/-- **C81.**  An ordered table of pillars, in which an expiry may be repeated.  There is one row for every calendar day from the first expiry to
the last, in order, with the year fraction, forward and zero rates of that day.  At a quoted expiry it has the volatilities of the last row of the
expiry and the convention of the first.  Between two expiries the convention is that of the first row of the later one, and total variance is the
straight line from the last row of the earlier one to that row.  A missing quote leaves the volatilities up to the expiries before and after it missing. -/
theorem C81_repeated (curves : FxCurves) (pillars : List SmilePillar) (n : Nat) (hp : OrderedTable pillars n) (hc : Clock curves pillars)
    (ha : NoCalendarArbitrage curves pillars) (first last : SmilePillar) (hf : pillars.head? = some first) (hl : pillars.getLast? = some last) :
    ∃ rows, smileDaily curves pillars = .ok rows ∧ (rows.length : Int) = last.expiry - first.expiry + 1 ∧
      ∀ (k : Nat) row, rows[k]? = some row →
        row.expiry = first.expiry + k ∧ row.years = curves.years row.expiry ∧ row.fwd = curves.fwd row.expiry ∧
        row.rd = curves.rd row.expiry ∧ row.rf = curves.rf row.expiry ∧ row.vols.length = n ∧
        (∀ a b, FirstOf pillars a → LastOf pillars b → a.expiry = row.expiry → b.expiry = row.expiry → row.conv = a.conv ∧
          ∀ (j : Nat) v, b.vols[j]? = some v → row.vols[j]? = some (match v with | some v => .fin |v| | none => .nan)) ∧
        (∀ p q, Consecutive pillars p q → p.expiry < row.expiry → row.expiry < q.expiry → row.conv = q.conv ∧
          (∀ (j : Nat) v w, p.vols[j]? = some (some v) → q.vols[j]? = some (some w) → ∃ s, row.vols[j]? = some (.fin s) ∧ 0 ≤ s ∧
            s ^ 2 * row.years * (curves.years q.expiry - curves.years p.expiry) =
              v ^ 2 * curves.years p.expiry * (curves.years q.expiry - row.years) +
              w ^ 2 * curves.years q.expiry * (row.years - curves.years p.expiry)) ∧
          ∀ (j : Nat) v w, p.vols[j]? = some v → q.vols[j]? = some w → v = none ∨ w = none → row.vols[j]? = some .nan) := by
  have hle := hp.ordered
  have hfl : first.expiry ≤ last.expiry := head_le_ordered hle hf (List.mem_of_getLast? hl)
  have hmem : ∀ {p q}, Consecutive pillars p q → p ∈ pillars ∧ q ∈ pillars := by
    rintro p q ⟨i, hi, hj⟩
    exact ⟨List.mem_of_getElem? hi, List.mem_of_getElem? hj⟩
  have hP : ∀ a b, FirstOf pillars a → LastOf pillars b → a.expiry = b.expiry → ∃ row, smileDay curves pillars b.expiry = .ok row ∧
      row.expiry = b.expiry ∧ row.years = curves.years b.expiry ∧
      row.fwd = curves.fwd b.expiry ∧ row.rd = curves.rd b.expiry ∧ row.rf = curves.rf b.expiry ∧ row.vols.length = n ∧ row.conv = a.conv ∧
      ∀ (j : Nat) v, b.vols[j]? = some v → row.vols[j]? = some (match v with | some v => .fin |v| | none => .nan) := by
    intro a b hfa hlb he
    obtain ⟨hl, hu⟩ := at_expiry hle hfa hlb he
    have ham : a ∈ pillars := by
      obtain ⟨i, hi, -⟩ := hfa
      exact List.mem_of_getElem? hi
    have hbm : b ∈ pillars := by
      obtain ⟨i, hi, -⟩ := hlb
      exact List.mem_of_getElem? hi
    obtain ⟨row, h1, h2, h3, h4, h5, h6, h7, h8, h9, h10, h11⟩ := day_row hp hc ha hbm ham hl hu le_rfl he.ge (fun h => absurd h (by omega))
    exact ⟨row, h1, h2, h3, h4, h5, h6, h8, h7, h11 he.symm⟩
  have hB : ∀ p q d, Consecutive pillars p q → p.expiry < d → d < q.expiry → ∃ row, smileDay curves pillars d = .ok row ∧ row.expiry = d ∧
      row.years = curves.years d ∧ row.fwd = curves.fwd d ∧ row.rd = curves.rd d ∧ row.rf = curves.rf d ∧ row.vols.length = n ∧ row.conv = q.conv ∧
      (∀ (j : Nat) v w, p.vols[j]? = some (some v) → q.vols[j]? = some (some w) → ∃ s, row.vols[j]? = some (.fin s) ∧ 0 ≤ s ∧
            s ^ 2 * curves.years d * (curves.years q.expiry - curves.years p.expiry) =
              v ^ 2 * curves.years p.expiry * (curves.years q.expiry - curves.years d) +
              w ^ 2 * curves.years q.expiry * (curves.years d - curves.years p.expiry)) ∧
      ∀ (j : Nat) v w, p.vols[j]? = some v → q.vols[j]? = some w → v = none ∨ w = none → row.vols[j]? = some .nan := by
    intro p q d hpq h1d h2d
    obtain ⟨hl, hu⟩ := between_pillars hle hpq h1d h2d
    obtain ⟨hpm, hqm⟩ := hmem hpq
    have hlt := h1d.trans h2d
    obtain ⟨row, h1, h2, h3, h4, h5, h6, h7, h8, h9, h10, -⟩ := day_row hp hc ha hpm hqm hl hu h1d.le h2d.le (fun _ => hpq)
    refine ⟨row, h1, h2, h3, h4, h5, h6, h8, h7, fun j v w hv hw => ?_, h10 hlt⟩
    obtain ⟨s, hs, hff⟩ := h9 j v w hv hw
    refine ⟨s, hs, hff.nonneg, ?_⟩
    exact hff.linear ((hc.2 first hf).2 _ _ (head_le_ordered hle hf hpm) hlt)
  obtain ⟨rows, hrows⟩ : ∃ rows, (daysBetween first.expiry last.expiry).mapM (smileDay curves pillars) = .ok rows := by
    rw [mapM_ok_iff]
    intro d hd
    obtain ⟨k, hk⟩ := List.mem_iff_getElem?.1 hd
    obtain ⟨hk1, hk2⟩ := daysBetween_get.1 hk
    rcases day_cases hf hl (show first.expiry ≤ d by omega) (by omega) with ⟨p, hpm, rfl⟩ | ⟨p, q, hpq, h1, h2⟩
    · obtain ⟨a, b, hfa, hlb, e1, e2⟩ := first_last hle hpm
      obtain ⟨row, h, -⟩ := hP a b hfa hlb (e1.trans e2.symm)
      exact ⟨row, e2 ▸ h⟩
    · obtain ⟨row, h, -⟩ := hB p q d hpq h1 h2
      exact ⟨row, h⟩
  obtain ⟨hlen, hget⟩ := mapM_get hrows
  refine ⟨rows, by rw [smileDaily_eq hle hf hl, hrows], ?_, ?_⟩
  · rw [hlen]
    simp only [daysBetween, List.length_map, List.length_range]
    omega
  · intro k row hrow
    have hk : k < (daysBetween first.expiry last.expiry).length := by
      rw [← hlen]
      exact (List.getElem?_eq_some_iff.1 hrow).1
    obtain ⟨d, hd⟩ : ∃ d, (daysBetween first.expiry last.expiry)[k]? = some d := ⟨_, List.getElem?_eq_getElem hk⟩
    obtain ⟨row', hr1, hr2⟩ := hget k d hd
    rw [hrow] at hr1
    cases hr1
    obtain ⟨hd1, hd2⟩ := daysBetween_get.1 hd
    have base : row.expiry = d ∧ row.years = curves.years d ∧ row.fwd = curves.fwd d ∧ row.rd = curves.rd d ∧ row.rf = curves.rf d ∧ row.vols.length = n := by
      rcases day_cases hf hl (show first.expiry ≤ d by omega) (by omega) with ⟨p, hpm, rfl⟩ | ⟨p, q, hpq, h1, h2⟩
      · obtain ⟨a, b, hfa, hlb, e1, e2⟩ := first_last hle hpm
        obtain ⟨row', h, h'⟩ := hP a b hfa hlb (e1.trans e2.symm)
        rw [e2] at h h'
        rw [hr2] at h
        cases h
        exact ⟨h'.1, h'.2.1, h'.2.2.1, h'.2.2.2.1, h'.2.2.2.2.1, h'.2.2.2.2.2.1⟩
      · obtain ⟨row', h, h'⟩ := hB p q d hpq h1 h2
        rw [hr2] at h
        cases h
        exact ⟨h'.1, h'.2.1, h'.2.2.1, h'.2.2.2.1, h'.2.2.2.2.1, h'.2.2.2.2.2.1⟩
    obtain ⟨be, by1, b2, b3, b4, b5⟩ := base
    refine ⟨by rw [be, hd1], by rw [be, by1], by rw [be, b2], by rw [be, b3], by rw [be, b4], b5, ?_, ?_⟩
    · intro a b hfa hlb e1 e2
      rw [be] at e1 e2
      obtain ⟨row', h, h'⟩ := hP a b hfa hlb (e1.trans e2.symm)
      rw [e2, hr2] at h
      cases h
      exact h'.2.2.2.2.2.2
    · intro p q hpq h1 h2
      rw [be] at h1 h2
      obtain ⟨row', h, h'⟩ := hB p q d hpq h1 h2
      rw [hr2] at h
      cases h
      rw [by1]
      exact h'.2.2.2.2.2.2

/-- **C81.**  The table has one row for every calendar day from the first expiry to the last, in order, with the year fraction, forward and
zero rates of that day; at an expiry that was quoted it has the quoted volatilities and convention; between two of them the convention is
that of the later one and total variance is the straight line between theirs.  A missing quote leaves the volatilities up to the pillars before
and after it missing. -/
theorem C81_daily (curves : FxCurves) (pillars : List SmilePillar) (n : Nat) (hp : PillarTable pillars n) (hc : Clock curves pillars)
    (ha : NoCalendarArbitrage curves pillars) (first last : SmilePillar) (hf : pillars.head? = some first) (hl : pillars.getLast? = some last) :
    ∃ rows, smileDaily curves pillars = .ok rows ∧ (rows.length : Int) = last.expiry - first.expiry + 1 ∧
      ∀ (k : Nat) row, rows[k]? = some row →
        row.expiry = first.expiry + k ∧ row.years = curves.years row.expiry ∧ row.fwd = curves.fwd row.expiry ∧
        row.rd = curves.rd row.expiry ∧ row.rf = curves.rf row.expiry ∧ row.vols.length = n ∧
        (∀ p ∈ pillars, p.expiry = row.expiry → row.conv = p.conv ∧
          ∀ (j : Nat) v, p.vols[j]? = some v → row.vols[j]? = some (match v with | some v => .fin |v| | none => .nan)) ∧
        (∀ p q, Consecutive pillars p q → p.expiry < row.expiry → row.expiry < q.expiry → row.conv = q.conv ∧
          (∀ (j : Nat) v w, p.vols[j]? = some (some v) → q.vols[j]? = some (some w) → ∃ s, row.vols[j]? = some (.fin s) ∧ 0 ≤ s ∧
            s ^ 2 * row.years * (curves.years q.expiry - curves.years p.expiry) =
              v ^ 2 * curves.years p.expiry * (curves.years q.expiry - row.years) +
              w ^ 2 * curves.years q.expiry * (row.years - curves.years p.expiry)) ∧
          ∀ (j : Nat) v w, p.vols[j]? = some v → q.vols[j]? = some w → v = none ∨ w = none → row.vols[j]? = some .nan) := by
  obtain ⟨rows, h1, h2, h3⟩ := C81_repeated curves pillars n ⟨hp.nonempty, hp.increasing.imp (fun h => h.le), hp.quotes⟩ hc ha first last hf hl
  refine ⟨rows, h1, h2, fun k row hrow => ?_⟩
  obtain ⟨a1, a2, a3, a4, a5, a6, a7, a8⟩ := h3 k row hrow
  exact ⟨a1, a2, a3, a4, a5, a6, fun p hpm he => a7 p p (first_of_increasing hp.increasing hpm).1 (first_of_increasing hp.increasing hpm).2 he he, a8⟩

/-- **C81.**  A table whose expiries are not in order, or without any row, is refused. -/
theorem C81_unordered (curves : FxCurves) (pillars : List SmilePillar) (h : pillars = [] ∨ ∃ p q, Consecutive pillars p q ∧ q.expiry < p.expiry) :
    smileDaily curves pillars = .error .value := by
  unfold smileDaily
  cases pillars with
  | nil => rfl
  | cons p ps =>
    simp only [List.map_cons]
    rw [if_pos]
    intro hw
    rcases h with h | ⟨a, b, ⟨i, hi, hj⟩, hlt⟩
    · cases h
    · have := pairwise_le_get hw hi hj (by omega)
      omega

/-- **C81.**  If total variance decreases from a pillar to the next and there is a day between them, the surface cannot be built. -/
theorem C81_refuses (curves : FxCurves) (pillars : List SmilePillar) (n : Nat) (hp : PillarTable pillars n) (hc : Clock curves pillars)
    (p q : SmilePillar) (hpq : Consecutive pillars p q) (hday : p.expiry + 1 < q.expiry) (j : Nat) (v w : ℝ) (hv : p.vols[j]? = some (some v))
    (hw : q.vols[j]? = some (some w)) (hlt : w ^ 2 * curves.years q.expiry < v ^ 2 * curves.years p.expiry) :
    ∃ e, smileDaily curves pillars = .error e := by
  have hinc := hp.increasing
  have hle : pillars.Pairwise (fun p q => p.expiry ≤ q.expiry) := hinc.imp (fun h => h.le)
  obtain ⟨first, hf⟩ : ∃ p0, pillars.head? = some p0 := by
    cases pillars with
    | nil => exact absurd rfl hp.nonempty
    | cons p ps => exact ⟨p, rfl⟩
  obtain ⟨last, hl⟩ : ∃ pn, pillars.getLast? = some pn := ⟨_, List.getLast?_eq_some_getLast hp.nonempty⟩
  obtain ⟨i, hi, hj⟩ := hpq
  have hpf := head_le hinc hf (List.mem_of_getElem? hi)
  have hql : q.expiry ≤ last.expiry := by
    rw [List.getLast?_eq_getElem?] at hl
    rcases Nat.lt_or_ge (i + 1) (pillars.length - 1) with h | h
    · exact (pairwise_get hinc hj hl h).le
    · have h1 := (List.getElem?_eq_some_iff.1 hj).1
      have : i + 1 = pillars.length - 1 := by omega
      rw [this, hl] at hj
      cases hj
      exact le_rfl
  rw [smileDaily_eq hle hf hl]
  obtain ⟨h1, h2⟩ := between_pillars hle ⟨i, hi, hj⟩ (show p.expiry < p.expiry + 1 by omega) hday
  have hbad : ∃ e, smileDay curves pillars (p.expiry + 1) = .error e := by
    unfold smileDay
    rw [h1, h2]
    obtain ⟨e, he⟩ := C46_refuses (smileInterpRows curves p q (p.expiry + 1))
      ⟨⟨curves.years p.expiry, v, curves.years q.expiry, w⟩, curves.years (p.expiry + 1)⟩ (by
        unfold smileInterpRows
        rw [hc.1 p (List.mem_of_getElem? hi), hc.1 q (List.mem_of_getElem? hj)]
        refine List.mem_map.2 ⟨(some v, some w), ?_, rfl⟩
        exact List.mem_of_getElem? (List.getElem?_zip_eq_some.2 ⟨hv, hw⟩))
      (Or.inr ⟨(hc.2 first hf).2 _ _ hpf (by omega), hlt⟩)
    simp only [he]
    exact ⟨e, rfl⟩
  cases hm : (daysBetween first.expiry last.expiry).mapM (smileDay curves pillars) with
  | error e => exact ⟨e, rfl⟩
  | ok rows =>
    exfalso
    obtain ⟨e, he⟩ := hbad
    have := (mapM_ok_iff _ _).1 ⟨rows, hm⟩ (p.expiry + 1) (List.mem_iff_getElem?.2 ⟨(p.expiry + 1 - first.expiry).toNat, daysBetween_get.2 (by omega)⟩)
    obtain ⟨b, hb⟩ := this
    rw [he] at hb
    cases hb

/-- Two pillars, thirty days apart, with three quotes each, one of them missing. -/
noncomputable def samplePillars : List SmilePillar :=
  [⟨30, 30 / 365, .regularSpot, [some 0.12, some 0.1, none]⟩, ⟨60, 60 / 365, .regularForward, [some 0.13, some 0.1, some 0.12]⟩]

example : PillarTable samplePillars 3 ∧ Clock ⟨fun d => d / 365, fun _ => 1.1, fun _ => 0.03, fun _ => 0.02⟩ samplePillars ∧
    NoCalendarArbitrage ⟨fun d => d / 365, fun _ => 1.1, fun _ => 0.03, fun _ => 0.02⟩ samplePillars := by
  refine ⟨⟨by simp [samplePillars], by simp [samplePillars], by simp [samplePillars]⟩, ⟨by simp [samplePillars], ?_⟩, ?_⟩
  · intro p hp
    simp only [samplePillars, List.head?_cons, Option.some.injEq] at hp
    subst hp
    refine ⟨by norm_num, fun d e _ hde => ?_⟩
    have : (d : ℝ) < e := by exact_mod_cast hde
    simp only
    linarith
  · rintro p q ⟨i, hi, hj⟩ - j v w hv hw
    have h0 : i = 0 := by
      have := (List.getElem?_eq_some_iff.1 hj).1
      simp [samplePillars] at this
      omega
    subst h0
    simp only [samplePillars, List.getElem?_cons_zero, List.getElem?_cons_succ, Option.some.injEq] at hi hj
    subst hi hj
    have : j = 0 ∨ j = 1 ∨ j = 2 := by
      have := (List.getElem?_eq_some_iff.1 hv).1
      simp at this
      omega
    rcases this with rfl | rfl | rfl <;> simp at hv hw <;> subst hv hw <;> norm_num

/-- The expiry of day 30 quoted twice, say as one month and as thirty days; the first quote of the second volatility is missing. -/
noncomputable def twicePillars : List SmilePillar :=
  [⟨30, 30 / 365, .regularSpot, [some 0.12, none]⟩, ⟨30, 30 / 365, .regularForward, [some 0.14, some 0.1]⟩]

example : ∃ row, smileDaily ⟨fun d => d / 365, fun _ => 1.1, fun _ => 0.03, fun _ => 0.02⟩ twicePillars = .ok [row] ∧ row.conv = .regularSpot ∧
    row.vols = [.fin 0.14, .fin 0.1] := by
  obtain ⟨rows, h, hl, hr⟩ := C81_repeated ⟨fun d => d / 365, fun _ => 1.1, fun _ => 0.03, fun _ => 0.02⟩ twicePillars 2
    ⟨by simp [twicePillars], by simp [twicePillars], by simp [twicePillars]⟩
    ⟨by simp [twicePillars], by
      intro p hp
      simp only [twicePillars, List.head?_cons, Option.some.injEq] at hp
      subst hp
      refine ⟨by norm_num, fun d e _ hde => ?_⟩
      have : (d : ℝ) < e := by exact_mod_cast hde
      simp only
      linarith⟩
    (by
      rintro p q ⟨i, hi, hj⟩ hlt
      exfalso
      have h0 : i = 0 := by
        have := (List.getElem?_eq_some_iff.1 hj).1
        simp [twicePillars] at this
        omega
      subst h0
      simp only [twicePillars, List.getElem?_cons_zero, List.getElem?_cons_succ, Option.some.injEq] at hi hj
      subst hi hj
      simp at hlt)
    _ _ rfl rfl
  obtain ⟨row, rfl⟩ : ∃ row, rows = [row] := by
    refine List.length_eq_one_iff.1 ?_
    simp at hl
    omega
  obtain ⟨h1, -, -, -, -, h2, h3, -⟩ := hr 0 row rfl
  obtain ⟨h4, h5⟩ := h3 ⟨30, 30 / 365, .regularSpot, [some 0.12, none]⟩ ⟨30, 30 / 365, .regularForward, [some 0.14, some 0.1]⟩
    ⟨0, rfl, fun k q hk => absurd hk (by omega)⟩
    ⟨1, rfl, fun k q hk hq => by
      have := (List.getElem?_eq_some_iff.1 hq).1
      simp [twicePillars] at this
      omega⟩ (by rw [h1]; simp) (by rw [h1]; simp)
  refine ⟨row, h, h4, ?_⟩
  have e0 := h5 0 (some 0.14) rfl
  have e1 := h5 1 (some 0.1) rfl
  simp only [abs_of_pos (show (0 : ℝ) < 0.14 by norm_num)] at e0
  simp only [abs_of_pos (show (0 : ℝ) < 0.1 by norm_num)] at e1
  obtain ⟨a, b, hab⟩ := List.length_eq_two.1 h2
  rw [hab] at e0 e1 ⊢
  simp only [List.getElem?_cons_zero, List.getElem?_cons_succ, Option.some.injEq] at e0 e1
  rw [e0, e1]

end Frm.Props
