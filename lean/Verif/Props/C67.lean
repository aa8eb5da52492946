import Verif.Proofs.Bootstrap
import Verif.Proofs.Workday
import Verif.Spec.BusDay
import Verif.Props.C33

/-! # C67 — Cash quotes start at spot and mature on business days -/

namespace Frm
open Spec

set_option autoImplicit false

theorem mapM_get {α β : Type} {f : α → Except Err β} {l : List α} {out : List β} (h : l.mapM f = .ok out) :
    out.length = l.length ∧ ∀ (i : Nat) (a : α), l[i]? = some a → ∃ b, out[i]? = some b ∧ f a = .ok b := by
  induction l generalizing out with
  | nil =>
    simp only [List.mapM_nil, pure, Except.pure, Except.ok.injEq] at h
    subst h
    exact ⟨rfl, by simp⟩
  | cons a l ih =>
    simp only [List.mapM_cons, bind, Except.bind] at h
    cases ha : f a with
    | error e => rw [ha] at h; cases h
    | ok b =>
      rw [ha] at h
      simp only at h
      cases hl : l.mapM f with
      | error e => rw [hl] at h; cases h
      | ok bs =>
        rw [hl] at h
        simp only [pure, Except.pure, Except.ok.injEq] at h
        subst h
        obtain ⟨i1, i2⟩ := ih hl
        refine ⟨by simp [i1], ?_⟩
        intro i a' hi
        cases i with
        | zero =>
          simp only [List.getElem?_cons_zero, Option.some.injEq] at hi
          subst hi
          exact ⟨b, rfl, ha⟩
        | succ i => exact i2 i a' hi

theorem sameShape_self (S E : List Int) (h : S.length = E.length) : sameShape S E = (S, E) := by
  unfold sameShape
  match S, E, h with
  | [], [], _ => rfl
  | [a], [b], _ => rfl
  | a :: b :: S, c :: d :: E, _ => rfl

end Frm

namespace Frm.Props
open Spec

set_option autoImplicit false

/-- The settlement date that the arguments mean: the given date, else the delay in business days. -/
def settles (cal : BusCal) (cd : Int) (delay date : Option Int) (sd : Int) : Prop :=
  date = some sd ∨ (date = none ∧ ∃ n, delay = some n ∧ sd = workday cal cd n)

/-- Every row of the result. -/
theorem C67_rows (df : List CashInput) (cd : Int) (basis : DayCountBasis)
    (delay date : Option Int) (cal : BusCal) (hcal : cal.Ok) (out : List CashQuote)
    (h : cashRatesQuoteHelper df cd basis delay date cal = .ok out) :
    ∃ sd, settles cal cd delay date sd ∧ out.length = df.length ∧
    ∀ (i : Nat) (r : CashInput), df[i]? = some r → ∃ q, out[i]? = some q ∧ q.rate = r.rate ∧
      (q.hasSettlementDelay = false ↔ cleanTenor r.tenor = "on".toList) ∧
      (cleanTenor r.tenor = "on".toList → q.effective = cd) ∧ (cleanTenor r.tenor ≠ "on".toList → q.effective = sd) ∧
      (∃ o, tenorToDateOffset (cleanTenor r.tenor) = .ok o ∧ FirstOnOrAfter cal (o.addTo q.effective) q.maturity) ∧
      ∃ y : Rat, yearFrac [q.effective] [q.maturity] basis (some [decide (df.length ≤ i + 1)]) = .ok [y] ∧
        (Plain basis q.maturity → yearFrac [q.effective] [q.maturity] basis none = .ok [y]) ∧ q.periodYears = y := by
  unfold cashRatesQuoteHelper at h
  simp only [bind, Except.bind] at h
  cases he : cashSettlement cal cd delay date with
  | error e => rw [he] at h; cases h
  | ok sd =>
  rw [he] at h
  simp only at h
  have hs : settles cal cd delay date sd := by
    unfold cashSettlement at he
    cases date with
    | some d => simp only [Except.ok.injEq] at he; rw [he]; exact .inl rfl
    | none =>
      cases delay with
      | some n => simp only [Except.ok.injEq] at he; exact .inr ⟨rfl, n, rfl, he.symm⟩
      | none => cases he
  refine ⟨sd, hs, ?_⟩
  cases hm : df.mapM (fun r => cashDates cal cd sd r.tenor) with
  | error e => rw [hm] at h; cases h
  | ok dates =>
    rw [hm] at h
    simp only at h
    cases hy : yearFrac (dates.map (·.2.1)) (dates.map (·.2.2)) basis none with
    | error e => rw [hy] at h; cases h
    | ok years =>
      rw [hy] at h
      simp only [pure, Except.pure, Except.ok.injEq] at h
      subst h
      obtain ⟨m1, m2⟩ := mapM_get hm
      have hyl := yearFrac_length hy
      rw [sameShape_self _ _ (by simp)] at hyl
      simp only [List.length_zip, List.length_map, Nat.min_self] at hyl
      refine ⟨by simp; omega, ?_⟩
      intro i r hr
      obtain ⟨⟨dl, eff, mat⟩, b1, b2⟩ := m2 i r hr
      obtain ⟨-, y, y1, y2⟩ := yearFrac_get_flag hy (k := i) (s := eff) (e := mat)
        (by rw [sameShape_self _ _ (by simp)]; simp [b1]) (by rw [sameShape_self _ _ (by simp)]; simp [b1])
      have hdl : ((sameShape (dates.map (·.2.1)) (dates.map (·.2.2))).2.length ≤ i + 1) = (df.length ≤ i + 1) := by
        rw [sameShape_self _ _ (by simp), List.length_map, m1]
      simp only [hdl] at y1
      refine ⟨{ effective := eff, maturity := mat, rate := r.rate, periodYears := y, hasSettlementDelay := dl }, ?_, rfl, ?_⟩
      · have hz : (df.zip (dates.zip years))[i]? = some (r, ((dl, eff, mat), y)) :=
          List.getElem?_zip_eq_some.mpr ⟨hr, List.getElem?_zip_eq_some.mpr ⟨b1, y2⟩⟩
        rw [List.getElem?_map, hz]
        rfl
      · unfold cashDates at b2
        simp only at b2
        cases ho : tenorToDateOffset (cleanTenor r.tenor) with
        | error e => rw [ho] at b2; cases b2
        | ok o =>
          rw [ho] at b2
          simp only [Except.map, Except.ok.injEq, Prod.mk.injEq] at b2
          obtain ⟨e1, e2, e3⟩ := b2
          refine ⟨?_, ?_, ?_, ⟨o, rfl, ?_⟩, y, y1, fun hb => by rw [← y1, yearFrac_flag (.inl hb)], rfl⟩
          · simp only [← e1, decide_eq_false_iff_not, not_not]
          · intro hon; simp only [← e2, hon]; simp
          · intro hon; show eff = sd; rw [← e2, if_pos (decide_eq_true hon)]
          · simp only
            rw [← e3, e2]
            unfold workday stepBusDays
            simp only [Int.le_refl, if_true, Int.toNat_zero, iter]
            exact following_spec hcal _

/-- Without a settlement date or delay the helper raises. -/
theorem C67_needs_settlement (df : List CashInput) (cd : Int) (basis : DayCountBasis) (cal : BusCal) :
    cashRatesQuoteHelper df cd basis none none cal = .error .assertion := rfl

/-- A concrete table: overnight, one month and three months, two business days' delay. -/
example : (["ON".toList, "1M".toList, "3 m".toList].mapM
    (fun t => cashDates defaultBusCal (mkDate 2024 1 31) (mkDate 2024 2 2) t)) =
    .ok [(false, mkDate 2024 1 31, mkDate 2024 2 1), (true, mkDate 2024 2 2, mkDate 2024 3 4),
      (true, mkDate 2024 2 2, mkDate 2024 5 2)] := by decide +kernel

end Frm.Props
