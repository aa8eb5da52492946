import Verif.Model.Black76Calls
import Verif.Props.C52
import Verif.Props.C53
import Mathlib.Data.List.GetD

/-!
# C104: which arguments the Black-76 and Bachelier functions take, and what their numerical greeks are
-/

namespace Frm
namespace Spec

set_option autoImplicit false

/-- Arrays of these lengths can be taken together: every array has `n` elements or a single one. -/
def TakenTogether (lengths : List Nat) (n : Nat) : Prop := n ∈ lengths ∧ ∀ m ∈ lengths, m = 1 ∨ m = n

/-- `x` is what the array holds for place `i`: its element there, or its only element. -/
def HoldsAt (l : List ℝ) (i : Nat) (x : ℝ) : Prop := l = [x] ∨ (l.length ≠ 1 ∧ l[i]? = some x)

/-- `x` is the option at place `i` of the arguments. -/
def OptionAt (a : B76Args) (i : Nat) (x : B76Row) : Prop :=
  HoldsAt a.F i x.F ∧ HoldsAt a.tau i x.tau ∧ HoldsAt a.cp i x.cp ∧ HoldsAt a.K i x.K ∧ HoldsAt a.vol i x.vol ∧
    HoldsAt a.shift i x.shift ∧ HoldsAt a.annuity i x.annuity

/-- `x` is the option at place `i` of the arguments. -/
def BachOptionAt (a : BachArgs) (i : Nat) (x : BachRow) : Prop :=
  HoldsAt a.F i x.F ∧ HoldsAt a.tau i x.tau ∧ HoldsAt a.cp i x.cp ∧ HoldsAt a.K i x.K ∧ HoldsAt a.vol i x.vol ∧
    HoldsAt a.annuity i x.annuity

/-- The arguments for a single option. -/
def onlyOption (x : B76Row) : B76Args := ⟨[x.F], [x.tau], [x.cp], [x.K], [x.vol], [x.shift], [x.annuity]⟩

/-- The numerical greeks of a single option. -/
def NumericalGreeks (x : B76Row) (g : B76Numerical) : Prop :=
  ∃ r, black76Call (onlyOption x) false false true = .ok r ∧ r.numerical = some [g]

/-- The lengths of all arguments. -/
def argLengths (a : B76Args) : List Nat :=
  [a.F.length, a.tau.length, a.cp.length, a.K.length, a.vol.length, a.shift.length, a.annuity.length]

/-- The lengths of all arguments. -/
def bachArgLengths (a : BachArgs) : List Nat :=
  [a.F.length, a.tau.length, a.cp.length, a.K.length, a.vol.length, a.annuity.length]

/-- The lengths of the arguments other than `cp`. -/
def lengthsWithoutCp (a : B76Args) : List Nat :=
  [a.F.length, a.tau.length, a.K.length, a.vol.length, a.shift.length, a.annuity.length]

/-- The lengths of the arguments other than `cp`. -/
def bachLengthsWithoutCp (a : BachArgs) : List Nat := [a.F.length, a.tau.length, a.K.length, a.vol.length, a.annuity.length]

end Spec
end Frm

namespace Frm.Props
open Classical Set

set_option autoImplicit false

open Frm Frm.Spec

private theorem broadcastLength_eq {L : List Nat} {n : Nat} (h : TakenTogether L n) : broadcastLength L = n := by
  unfold broadcastLength
  cases hf : L.find? (fun n => n ≠ 1) with
  | some k =>
    have h1 := List.find?_some hf
    have h2 := List.mem_of_find?_eq_some hf
    simp only [ne_eq, decide_not, Bool.not_eq_eq_eq_not, Bool.not_true, decide_eq_false_iff_not] at h1
    rcases h.2 k h2 with h3 | h3
    · exact absurd h3 h1
    · simpa using h3
  | none =>
    rw [List.find?_eq_none] at hf
    have := hf n h.1
    simp only [ne_eq, decide_not, Bool.not_eq_eq_eq_not, Bool.not_true, decide_eq_false_iff_not, not_not] at this
    simp [this]

private theorem checkShapes_ok {F tau : Nat} {L : List Nat} (hL : F ∈ L) :
    (F = tau ∧ (∃ n, TakenTogether L n) → checkShapes F tau L = .ok ()) ∧
    (¬ (F = tau ∧ ∃ n, TakenTogether L n) → checkShapes F tau L = .error .assertion) := by
  have hmem : ∀ m, m ∈ L.dedup ↔ m ∈ L := fun m => List.mem_dedup
  have hnd := L.nodup_dedup
  generalize hD : L.dedup = D at hmem hnd
  have hF : F ∈ D := (hmem F).2 hL
  have hle : (∃ n, TakenTogether L n) → D.length ≤ 2 ∧ (D.length = 2 → 1 ∈ D) := by
    rintro ⟨n, hn⟩
    have hs : D ⊆ [1, n] := fun m hm => by
      rcases hn.2 m ((hmem m).1 hm) with rfl | rfl <;> simp
    have h2 := (hnd.subperm hs).length_le
    refine ⟨by simpa using h2, fun h => ?_⟩
    match D, h with
    | [j, k], _ =>
      have hj := hn.2 j ((hmem j).1 (by simp))
      have hk := hn.2 k ((hmem k).1 (by simp))
      simp only [List.nodup_cons, List.mem_singleton, List.not_mem_nil, not_false_eq_true, List.nodup_nil, and_true] at hnd
      rcases hj with rfl | rfl
      · simp
      · rcases hk with rfl | rfl
        · simp
        · exact absurd rfl hnd
  have hge : 1 ≤ D.length := List.length_pos_of_mem hF
  constructor
  · rintro ⟨rfl, h⟩
    obtain ⟨h2, h3⟩ := hle h
    unfold checkShapes
    rw [hD, if_neg (by simp), if_neg (by omega), if_neg (by tauto)]
  · intro h
    unfold checkShapes
    rw [hD]
    by_cases hFt : F = tau
    · rw [if_neg (by simpa using hFt)]
      by_cases h12 : D.length ≠ 1 ∧ D.length ≠ 2
      · rw [if_pos h12]
      · rw [if_neg h12, if_pos]
        by_contra hc
        apply h
        refine ⟨hFt, ?_⟩
        by_cases h1 : D.length = 1
        · obtain ⟨k, hk⟩ := List.length_eq_one_iff.1 h1
          refine ⟨k, (hmem k).1 (by simp [hk]), fun m hm => Or.inr ?_⟩
          have := (hmem m).2 hm
          rw [hk] at this
          simpa using this
        · have h2 : D.length = 2 := by omega
          have h3 : 1 ∈ D := by by_contra h4; exact hc ⟨h2, h4⟩
          obtain ⟨j, k, hjk⟩ := List.length_eq_two.1 h2
          rw [hjk] at h3
          simp only [List.mem_cons, List.not_mem_nil, or_false] at h3
          rcases h3 with rfl | rfl
          · refine ⟨k, (hmem k).1 (by simp [hjk]), fun m hm => ?_⟩
            have := (hmem m).2 hm
            rw [hjk] at this
            simpa using this
          · refine ⟨j, (hmem j).1 (by simp [hjk]), fun m hm => ?_⟩
            have := (hmem m).2 hm
            rw [hjk] at this
            simp only [List.mem_cons, List.not_mem_nil, or_false] at this
            exact this.symm
    · rw [if_pos hFt]

private theorem besideCp {a : B76Args} {n : Nat} (h : TakenTogether (argLengths a) n) :
    (broadcastLength a.lengths = broadcastLength a.lengthsBesideCp) ↔ n ∈ a.lengthsBesideCp := by
  rw [show a.lengths = argLengths a from rfl, broadcastLength_eq h]
  have hall : ∀ m ∈ a.lengthsBesideCp, m = 1 ∨ m = n := fun m hm => h.2 m (by
    simp only [B76Args.lengthsBesideCp, argLengths, List.mem_cons, List.not_mem_nil, or_false] at hm ⊢; tauto)
  constructor
  · intro he
    by_contra hn
    have h1 : ∀ m ∈ a.lengthsBesideCp, m = 1 := fun m hm => (hall m hm).resolve_right (fun e => hn (e ▸ hm))
    have h2 : TakenTogether a.lengthsBesideCp 1 := by
      refine ⟨?_, fun m hm => Or.inl (h1 m hm)⟩
      have h0 : a.F.length ∈ a.lengthsBesideCp := by simp [B76Args.lengthsBesideCp]
      have := h1 _ h0
      rwa [this] at h0
    rw [broadcastLength_eq h2] at he
    exact hn (he ▸ h2.1)
  · intro hn
    rw [broadcastLength_eq ⟨hn, hall⟩]

private theorem besideCp_bach {a : BachArgs} {n : Nat} (h : TakenTogether (bachArgLengths a) n) :
    (broadcastLength a.lengths = broadcastLength a.lengthsBesideCp) ↔ n ∈ a.lengthsBesideCp := by
  rw [show a.lengths = bachArgLengths a from rfl, broadcastLength_eq h]
  have hall : ∀ m ∈ a.lengthsBesideCp, m = 1 ∨ m = n := fun m hm => h.2 m (by
    simp only [BachArgs.lengthsBesideCp, bachArgLengths, List.mem_cons, List.not_mem_nil, or_false] at hm ⊢; tauto)
  constructor
  · intro he
    by_contra hn
    have h1 : ∀ m ∈ a.lengthsBesideCp, m = 1 := fun m hm => (hall m hm).resolve_right (fun e => hn (e ▸ hm))
    have h2 : TakenTogether a.lengthsBesideCp 1 := by
      refine ⟨?_, fun m hm => Or.inl (h1 m hm)⟩
      have h0 : a.F.length ∈ a.lengthsBesideCp := by simp [BachArgs.lengthsBesideCp]
      have := h1 _ h0
      rwa [this] at h0
    rw [broadcastLength_eq h2] at he
    exact hn (he ▸ h2.1)
  · intro hn
    rw [broadcastLength_eq ⟨hn, hall⟩]

private theorem broadcastAdd_length {l m : List ℝ} {n : Nat} (hl : l.length = 1 ∨ l.length = n) (hm : m.length = 1 ∨ m.length = n) :
    (broadcastAdd l m).length = if l.length = 1 then m.length else l.length := by
  unfold broadcastAdd
  rw [List.length_map, List.length_range]
  by_cases h : l.length = 1
  · rw [if_pos h]
    refine broadcastLength_eq ⟨by simp, fun k hk => ?_⟩
    simp only [List.mem_cons, List.not_mem_nil, or_false] at hk
    rcases hk with rfl | rfl
    · exact Or.inl h
    · exact Or.inr rfl
  · rw [if_neg h]
    have hn := hl.resolve_left h
    refine broadcastLength_eq ⟨by simp, fun k hk => ?_⟩
    simp only [List.mem_cons, List.not_mem_nil, or_false] at hk
    rcases hk with rfl | rfl
    · exact Or.inr rfl
    · rw [hn]; exact hm

private theorem broadcastAt_add {l m : List ℝ} {n : Nat} (hl : l.length = 1 ∨ l.length = n) (hm : m.length = 1 ∨ m.length = n)
    {i : Nat} (hi : i < n) : broadcastAt (broadcastAdd l m) i = broadcastAt l i + broadcastAt m i := by
  have hlen := broadcastAdd_length hl hm
  have hget : ∀ j, j < (broadcastAdd l m).length → (broadcastAdd l m).getD j 0 = broadcastAt l j + broadcastAt m j := by
    intro j hj
    rw [List.getD_eq_getElem _ _ hj]
    simp [broadcastAdd]
  by_cases h1 : (broadcastAdd l m).length = 1
  · have e : broadcastAt (broadcastAdd l m) i = (broadcastAdd l m).getD 0 0 := by unfold broadcastAt; rw [if_pos h1]
    rw [e, hget 0 (by omega)]
    have hl1 : l.length = 1 := by by_contra h; rw [if_neg h] at hlen; omega
    have hm1 : m.length = 1 := by rw [if_pos hl1] at hlen; omega
    simp [broadcastAt, hl1, hm1]
  · have e : broadcastAt (broadcastAdd l m) i = (broadcastAdd l m).getD i 0 := by unfold broadcastAt; rw [if_neg h1]
    rw [e, hget i ?_]
    split at hlen
    · omega
    · omega

private theorem broadcastAt_map {l : List ℝ} {n : Nat} (f : ℝ → ℝ) (hl : l.length = 1 ∨ l.length = n) {i : Nat} (hi : i < n) :
    broadcastAt (l.map f) i = f (broadcastAt l i) := by
  unfold broadcastAt
  rw [List.length_map]
  by_cases h : l.length = 1
  · rw [if_pos h, if_pos h, List.getD_eq_getElem _ _ (by simp [h]), List.getD_eq_getElem _ _ (by omega)]
    simp
  · have hn := hl.resolve_left h
    rw [if_neg h, if_neg h, List.getD_eq_getElem _ _ (by simp [hn]; omega), List.getD_eq_getElem _ _ (by omega)]
    simp

private theorem holdsAt {l : List ℝ} {n : Nat} (hl : l.length = 1 ∨ l.length = n) {i : Nat} (hi : i < n) :
    HoldsAt l i (broadcastAt l i) := by
  unfold broadcastAt
  by_cases h : l.length = 1
  · rw [if_pos h]
    obtain ⟨x, rfl⟩ := List.length_eq_one_iff.1 h
    exact Or.inl rfl
  · rw [if_neg h]
    refine Or.inr ⟨h, ?_⟩
    have hn := hl.resolve_left h
    rw [List.getD_eq_getElem _ _ (by omega), List.getElem?_eq_getElem (by omega)]

/-- The numerical greeks of one option, written out. -/
private noncomputable def numericalRow (x : B76Row) : B76Numerical where
  delta := priceQuotient (b76Price { x with F := (x.F + x.shift) * (1 + 0.01), K := x.K + x.shift })
    (b76Price { x with F := (x.F + x.shift) * (1 - 0.01), K := x.K + x.shift }) (2 * (x.F + x.shift) * 0.01)
  vega := priceQuotient (b76Price { x with F := x.F + x.shift, K := x.K + x.shift, vol := x.vol + 0.01 })
    (b76Price { x with F := x.F + x.shift, K := x.K + x.shift, vol := x.vol - 0.01 }) (2 * (0.01 / 0.01))

private theorem rows_eq {a : B76Args} {n : Nat} (h : TakenTogether (argLengths a) n) :
    a.rows = (List.range n).map (fun i => ⟨broadcastAt a.F i, broadcastAt a.tau i, broadcastAt a.cp i, broadcastAt a.K i,
      broadcastAt a.vol i, broadcastAt a.shift i, broadcastAt a.annuity i⟩) := by
  unfold B76Args.rows
  rw [show a.lengths = argLengths a from rfl, broadcastLength_eq h]

private theorem mem_arg {a : B76Args} {n : Nat} (h : TakenTogether (argLengths a) n) :
    (a.F.length = 1 ∨ a.F.length = n) ∧ (a.tau.length = 1 ∨ a.tau.length = n) ∧ (a.cp.length = 1 ∨ a.cp.length = n) ∧
    (a.K.length = 1 ∨ a.K.length = n) ∧ (a.vol.length = 1 ∨ a.vol.length = n) ∧ (a.shift.length = 1 ∨ a.shift.length = n) ∧
    (a.annuity.length = 1 ∨ a.annuity.length = n) := by
  refine ⟨?_, ?_, ?_, ?_, ?_, ?_, ?_⟩ <;> exact h.2 _ (by simp [argLengths])

/-- The nested calls for the numerical greeks. -/
private theorem bumped {a b : B76Args} {n : Nat} (h : TakenTogether (argLengths a) n) (hFt : a.F.length = a.tau.length)
    (hF : b.F.length = if a.F.length = 1 then a.shift.length else a.F.length) (ht : b.tau = a.tau) (hc : b.cp = a.cp)
    (hK : b.K.length = if a.K.length = 1 then a.shift.length else a.K.length) (hv : b.vol.length = a.vol.length)
    (hs : b.shift = a.shift) (ha : b.annuity = a.annuity) :
    b76Bumped b = if a.F.length = 1 ∧ a.shift.length ≠ 1 then .error .assertion
      else if n ∈ a.lengthsBesideCp then .ok (b.rows.map b76Price) else .error .value := by
  obtain ⟨m1, m2, m3, m4, m5, m6, m7⟩ := mem_arg h
  have hb : TakenTogether (argLengths b) n := by
    constructor
    · have := h.1
      simp only [argLengths, List.mem_cons, List.not_mem_nil, or_false, hF, ht, hc, hK, hv, hs, ha] at this ⊢
      split_ifs <;> omega
    · intro m hm
      simp only [argLengths, List.mem_cons, List.not_mem_nil, or_false, hF, ht, hc, hK, hv, hs, ha] at hm
      split_ifs at hm <;> omega
  unfold b76Bumped
  have hsh := checkShapes_ok (F := b.F.length) (tau := b.tau.length) (L := argLengths b) (by simp [argLengths])
  by_cases hbad : a.F.length = 1 ∧ a.shift.length ≠ 1
  · rw [if_pos hbad]
    have : b.F.length ≠ b.tau.length := by rw [hF, if_pos hbad.1, ht, ← hFt, hbad.1]; exact hbad.2
    rw [show b.lengths = argLengths b from rfl, hsh.2 (fun h => this h.1)]
    rfl
  · rw [if_neg hbad]
    have e : b.F.length = b.tau.length := by
      rw [hF, ht, ← hFt]
      split_ifs with h1
      · have : a.shift.length = 1 := by by_contra h2; exact hbad ⟨h1, h2⟩
        omega
      · rfl
    have hck : checkShapes b.F.length b.tau.length b.lengths = .ok () := hsh.1 ⟨e, n, hb⟩
    rw [hck]
    have hg : n ∈ b.lengthsBesideCp ↔ n ∈ a.lengthsBesideCp := by
      have e1 : b.F.length = a.F.length := by rw [e, ht, hFt]
      simp only [B76Args.lengthsBesideCp, List.mem_cons, List.not_mem_nil, or_false, hK, hv, ht, hs, ha, e1]
      split_ifs <;> omega
    show (do greekColumns b.lengths b.lengthsBesideCp; Except.ok (b.rows.map b76Price)) = _
    unfold greekColumns
    by_cases hn : n ∈ a.lengthsBesideCp
    · rw [if_pos hn, if_neg (not_not.2 ((besideCp hb).2 (hg.2 hn)))]
      rfl
    · rw [if_neg hn, if_pos (fun h => hn (hg.1 ((besideCp hb).1 h)))]
      rfl

private theorem numerical_eq {a : B76Args} {n : Nat} (h : TakenTogether (argLengths a) n) (hFt : a.F.length = a.tau.length) :
    b76NumericalGreeks a = if a.F.length = 1 ∧ a.shift.length ≠ 1 then .error .assertion
      else if n ∈ a.lengthsBesideCp then .ok (a.rows.map numericalRow) else .error .value := by
  obtain ⟨m1, m2, m3, m4, m5, m6, m7⟩ := mem_arg h
  have hlF := broadcastAdd_length m1 m6
  have hlK := broadcastAdd_length m4 m6
  unfold b76NumericalGreeks
  dsimp only
  rw [bumped (b := { a with F := (broadcastAdd a.F a.shift).map (fun F => F * (1 + 0.01)), K := broadcastAdd a.K a.shift })
      h hFt (by simpa using hlF) rfl rfl hlK rfl rfl rfl,
    bumped (b := { a with F := (broadcastAdd a.F a.shift).map (fun F => F * (1 - 0.01)), K := broadcastAdd a.K a.shift })
      h hFt (by simpa using hlF) rfl rfl hlK rfl rfl rfl,
    bumped (b := { a with F := broadcastAdd a.F a.shift, K := broadcastAdd a.K a.shift, vol := a.vol.map (fun v => v + 0.01) })
      h hFt hlF rfl rfl hlK (by simp) rfl rfl,
    bumped (b := { a with F := broadcastAdd a.F a.shift, K := broadcastAdd a.K a.shift, vol := a.vol.map (fun v => v - 0.01) })
      h hFt hlF rfl rfl hlK (by simp) rfl rfl]
  by_cases hbad : a.F.length = 1 ∧ a.shift.length ≠ 1
  · simp only [if_pos hbad]; rfl
  · simp only [if_neg hbad]
    by_cases hn : n ∈ a.lengthsBesideCp
    · simp only [if_pos hn]
      show Except.ok _ = _
      congr 1
      rw [rows_eq h, show a.lengths = argLengths a from rfl, broadcastLength_eq h, List.map_map]
      have hT : ∀ b : B76Args, b.F.length = (if a.F.length = 1 then a.shift.length else a.F.length) → b.tau = a.tau → b.cp = a.cp →
          b.K.length = (if a.K.length = 1 then a.shift.length else a.K.length) → b.vol.length = a.vol.length → b.shift = a.shift →
          b.annuity = a.annuity → TakenTogether (argLengths b) n := by
        intro b hF ht hc hK hv hs ha
        constructor
        · have := h.1
          simp only [argLengths, List.mem_cons, List.not_mem_nil, or_false, hF, ht, hc, hK, hv, hs, ha] at this ⊢
          split_ifs <;> omega
        · intro m hm
          simp only [argLengths, List.mem_cons, List.not_mem_nil, or_false, hF, ht, hc, hK, hv, hs, ha] at hm
          split_ifs at hm <;> omega
      apply List.map_congr_left
      intro i hi
      rw [List.mem_range] at hi
      have hF' : (broadcastAdd a.F a.shift).length = 1 ∨ (broadcastAdd a.F a.shift).length = n := by rw [hlF]; split_ifs <;> omega
      have hget : ∀ b : B76Args, TakenTogether (argLengths b) n → (b.rows.map b76Price).getD i none = b76Price
          ⟨broadcastAt b.F i, broadcastAt b.tau i, broadcastAt b.cp i, broadcastAt b.K i, broadcastAt b.vol i, broadcastAt b.shift i,
            broadcastAt b.annuity i⟩ := by
        intro b hb
        rw [rows_eq hb, List.getD_eq_getElem _ _ (by simpa using hi)]
        simp
      rw [hget { a with F := (broadcastAdd a.F a.shift).map (fun F => F * (1 + 0.01)), K := broadcastAdd a.K a.shift }
          (hT _ (by simpa using hlF) rfl rfl hlK rfl rfl rfl),
        hget { a with F := (broadcastAdd a.F a.shift).map (fun F => F * (1 - 0.01)), K := broadcastAdd a.K a.shift }
          (hT _ (by simpa using hlF) rfl rfl hlK rfl rfl rfl),
        hget { a with F := broadcastAdd a.F a.shift, K := broadcastAdd a.K a.shift, vol := a.vol.map (fun v => v + 0.01) }
          (hT _ hlF rfl rfl hlK (by simp) rfl rfl),
        hget { a with F := broadcastAdd a.F a.shift, K := broadcastAdd a.K a.shift, vol := a.vol.map (fun v => v - 0.01) }
          (hT _ hlF rfl rfl hlK (by simp) rfl rfl)]
      simp only [Function.comp_apply, numericalRow]
      rw [broadcastAt_map _ hF' hi, broadcastAt_map _ hF' hi, broadcastAt_map _ m5 hi, broadcastAt_map _ m5 hi,
        broadcastAt_add m1 m6 hi, broadcastAt_add m4 m6 hi]
    · simp only [if_neg hn]; rfl

/-- The dictionary returned, written out. -/
private noncomputable def resultOf (a : B76Args) (s g m : Bool) : B76Result where
  price := a.rows.map (fun x => (b76Value x).price)
  split := if s then some (a.rows.map (fun x => ((b76Value x).intrinsic, (b76Value x).time))) else none
  analytical := if g then some (a.rows.map b76Greeks) else none
  numerical := if m then some (a.rows.map numericalRow) else none

private theorem call_eq {a : B76Args} {n : Nat} (h : TakenTogether (argLengths a) n) (hFt : a.F.length = a.tau.length)
    (s g m : Bool) :
    black76Call a s g m =
      if s = true ∧ a.tau.length ≠ n then .error .index
      else if g = true ∧ n ∉ a.lengthsBesideCp then .error .value
      else if m = true ∧ a.F.length = 1 ∧ a.shift.length ≠ 1 then .error .assertion
      else if m = true ∧ n ∉ a.lengthsBesideCp then .error .value
      else .ok (resultOf a s g m) := by
  have hck : checkShapes a.F.length a.tau.length a.lengths = .ok () :=
    (checkShapes_ok (L := argLengths a) (by simp [argLengths])).1 ⟨hFt, n, h⟩
  have hbl : broadcastLength a.lengths = n := broadcastLength_eq h
  have hbc := besideCp h
  have hgc : greekColumns a.lengths a.lengthsBesideCp = if n ∈ a.lengthsBesideCp then .ok () else .error .value := by
    unfold greekColumns
    by_cases hn : n ∈ a.lengthsBesideCp
    · rw [if_pos hn, if_neg (not_not.2 (hbc.2 hn))]
    · rw [if_neg hn, if_pos (fun he => hn (hbc.1 he))]
  unfold black76Call
  rw [hck, numerical_eq h hFt, hgc, hbl]
  unfold splitMask
  have e1 : (black76Price a.rows).map (·.price) = a.rows.map (fun x => (b76Value x).price) := by
    unfold black76Price; rw [List.map_map]; rfl
  have e2 : (black76Price a.rows).map (fun v => (v.intrinsic, v.time)) = a.rows.map (fun x => ((b76Value x).intrinsic, (b76Value x).time)) := by
    unfold black76Price; rw [List.map_map]; rfl
  rw [e1, e2]
  by_cases h1 : a.tau.length = n <;> by_cases h2 : n ∈ a.lengthsBesideCp <;>
    by_cases h3 : a.F.length = 1 ∧ a.shift.length ≠ 1 <;>
    cases s <;> cases g <;> cases m <;> simp only [h1, h2, h3, not_true_eq_false, not_false_eq_true, ne_eq, if_true, if_false,
      and_true, and_false, Bool.false_eq_true, and_self] <;> rfl

/-! ## Which arguments are taken -/

/-- `black76_price` takes its arguments exactly when forward and time have as many elements as each other and all arguments can be
taken together; the split into intrinsic and time value also needs a time for every price, greeks need an argument other than `cp` for
every price, and numerical greeks need a forward for every price or a single shift. -/
theorem C104_accepted (a : B76Args) (split analytical numerical : Bool) :
    (∃ r, black76Call a split analytical numerical = .ok r) ↔
      a.F.length = a.tau.length ∧ ∃ n, TakenTogether (argLengths a) n ∧ (split = true → a.tau.length = n) ∧
        (analytical = true ∨ numerical = true → n ∈ lengthsWithoutCp a) ∧
        (numerical = true → a.F.length = n ∨ a.shift.length = 1) := by
  by_cases h : a.F.length = a.tau.length ∧ ∃ n, TakenTogether (argLengths a) n
  · obtain ⟨hFt, n, hn⟩ := h
    rw [call_eq hn hFt]
    have hu : ∀ k, TakenTogether (argLengths a) k → k = n := fun k hk => (broadcastLength_eq hk).symm.trans (broadcastLength_eq hn)
    have hF := (mem_arg hn).1
    have hs := (mem_arg hn).2.2.2.2.2.1
    have hL : ∀ k, k ∈ lengthsWithoutCp a ↔ k ∈ a.lengthsBesideCp := fun _ => Iff.rfl
    constructor
    · rintro ⟨r, hr⟩
      split_ifs at hr with h1 h2 h3 h4
      refine ⟨hFt, n, hn, fun e => by_contra fun hc => h1 ⟨e, hc⟩, ?_, ?_⟩
      · rintro (e | e)
        · exact (hL n).2 (by_contra fun hc => h2 ⟨e, hc⟩)
        · exact (hL n).2 (by_contra fun hc => h4 ⟨e, hc⟩)
      · intro e
        by_contra hc
        rw [not_or] at hc
        exact h3 ⟨e, hF.resolve_right hc.1, hc.2⟩
    · rintro ⟨-, k, hk, c1, c2, c3⟩
      obtain rfl := hu k hk
      rw [if_neg (fun h => h.2 (c1 h.1)), if_neg (fun h => h.2 ((hL _).1 (c2 (Or.inl h.1)))), if_neg ?_,
        if_neg (fun h => h.2 ((hL _).1 (c2 (Or.inr h.1))))]
      · exact ⟨_, rfl⟩
      · rintro ⟨e, e1, e2⟩
        rcases c3 e with e3 | e3
        · omega
        · exact e2 e3
  · constructor
    · rintro ⟨r, hr⟩
      unfold black76Call at hr
      rw [show a.lengths = argLengths a from rfl, (checkShapes_ok (L := argLengths a) (by simp [argLengths])).2 h] at hr
      cases hr
    · rintro ⟨hFt, n, hn, -⟩
      exact absurd ⟨hFt, n, hn⟩ h

/-- What is raised otherwise: `AssertionError` for arguments that cannot be taken together; `IndexError` for a split of several prices at
a single time; `ValueError` for greeks when only `cp` is an array; `AssertionError` for numerical greeks of a single forward with an
array of shifts. -/
theorem C104_exceptions (a : B76Args) (split analytical numerical : Bool) :
    ((a.F.length ≠ a.tau.length ∨ ∀ n, ¬ TakenTogether (argLengths a) n) →
      black76Call a split analytical numerical = .error .assertion) ∧
    ∀ n, a.F.length = a.tau.length → TakenTogether (argLengths a) n →
      (a.tau.length ≠ n → black76Call a true analytical numerical = .error .index) ∧
      ((split = true → a.tau.length = n) → n ∉ lengthsWithoutCp a → analytical = true ∨ numerical = true →
        black76Call a split analytical numerical = .error .value) ∧
      ((split = true → a.tau.length = n) → a.F.length = 1 → a.shift.length ≠ 1 →
        black76Call a split analytical true = .error .assertion) := by
  refine ⟨fun h => ?_, fun n hFt hn => ⟨fun h => ?_, fun h1 h2 h3 => ?_, fun h1 h2 h3 => ?_⟩⟩
  · unfold black76Call
    rw [show a.lengths = argLengths a from rfl, (checkShapes_ok (L := argLengths a) (by simp [argLengths])).2]
    · rfl
    · rintro ⟨e, n, hn⟩
      rcases h with h | h
      · exact h e
      · exact h n hn
  · rw [call_eq hn hFt, if_pos ⟨rfl, h⟩]
  · have h2' : n ∉ a.lengthsBesideCp := h2
    have hs1 : ¬ (numerical = true ∧ a.F.length = 1 ∧ a.shift.length ≠ 1) := by
      rintro ⟨-, -, h⟩
      have hs := (mem_arg hn).2.2.2.2.2.1
      apply h2'
      rw [← hs.resolve_left h]
      simp [B76Args.lengthsBesideCp]
    rw [call_eq hn hFt, if_neg (fun h => h.2 (h1 h.1))]
    by_cases hg : analytical = true
    · rw [if_pos ⟨hg, h2'⟩]
    · rw [if_neg (fun h => hg h.1), if_neg hs1, if_pos ⟨h3.resolve_left hg, h2'⟩]
  · have hs := (mem_arg hn).2.2.2.2.2.1
    have hin : n ∈ a.lengthsBesideCp := by
      rw [← hs.resolve_left h3]
      simp [B76Args.lengthsBesideCp]
    rw [call_eq hn hFt, if_neg (fun h => h.2 (h1 h.1)), if_neg (fun h => h.2 hin), if_pos ⟨rfl, h2, h3⟩]

private theorem only_taken (x : B76Row) : TakenTogether (argLengths (onlyOption x)) 1 := by
  constructor <;> simp [argLengths, onlyOption]

private theorem numericalGreeks_iff (x : B76Row) (g : B76Numerical) : NumericalGreeks x g ↔ g = numericalRow x := by
  unfold NumericalGreeks
  have hrow : (onlyOption x).rows = [x] := by
    rw [rows_eq (only_taken x)]
    simp [onlyOption, broadcastAt]
  rw [call_eq (only_taken x) rfl, if_neg (by simp), if_neg (by simp), if_neg (by simp [onlyOption]),
    if_neg (by simp [onlyOption, B76Args.lengthsBesideCp])]
  constructor
  · rintro ⟨r, hr, hg⟩
    cases hr
    simpa [resultOf, hrow] using hg.symm
  · rintro rfl
    exact ⟨_, rfl, by simp [resultOf, hrow]⟩

/-- Everything returned is elementwise: there is a price for every place, and price, split, analytical and numerical greeks at a place
are those of the option at that place by itself.  Entries not asked for are absent. -/
theorem C104_results (a : B76Args) (split analytical numerical : Bool) (r : B76Result)
    (hr : black76Call a split analytical numerical = .ok r) :
    ∃ n, TakenTogether (argLengths a) n ∧ r.price.length = n ∧ (r.split.isSome = split) ∧ (r.analytical.isSome = analytical) ∧
      (r.numerical.isSome = numerical) ∧
      ∀ i < n, ∃ x v, OptionAt a i x ∧ black76Price [x] = [v] ∧ r.price[i]? = some v.price ∧
        (∀ l, r.split = some l → l.length = n ∧ l[i]? = some (v.intrinsic, v.time)) ∧
        (∀ l, r.analytical = some l → l.length = n ∧ ∃ g, l[i]? = some g ∧ black76Greeks [x] = [g]) ∧
        (∀ l, r.numerical = some l → l.length = n ∧ ∃ g, l[i]? = some g ∧ NumericalGreeks x g) := by
  obtain ⟨hFt, n, hn, -⟩ := (C104_accepted a split analytical numerical).1 ⟨r, hr⟩
  rw [call_eq hn hFt] at hr
  split_ifs at hr
  cases hr
  have hlen : a.rows.length = n := by rw [rows_eq hn]; simp
  refine ⟨n, hn, by simpa [resultOf] using hlen, by cases split <;> rfl, by cases analytical <;> rfl, by cases numerical <;> rfl, fun i hi => ?_⟩
  obtain ⟨m1, m2, m3, m4, m5, m6, m7⟩ := mem_arg hn
  have hget : a.rows[i]? = some ⟨broadcastAt a.F i, broadcastAt a.tau i, broadcastAt a.cp i, broadcastAt a.K i, broadcastAt a.vol i,
      broadcastAt a.shift i, broadcastAt a.annuity i⟩ := by
    rw [rows_eq hn, List.getElem?_map, List.getElem?_range hi]
    rfl
  refine ⟨⟨broadcastAt a.F i, broadcastAt a.tau i, broadcastAt a.cp i, broadcastAt a.K i, broadcastAt a.vol i, broadcastAt a.shift i,
    broadcastAt a.annuity i⟩, b76Value _, ⟨holdsAt m1 hi, holdsAt m2 hi, holdsAt m3 hi, holdsAt m4 hi, holdsAt m5 hi, holdsAt m6 hi, holdsAt m7 hi⟩, rfl,
    ?_, fun l hl => ?_, fun l hl => ?_, fun l hl => ?_⟩
  · unfold resultOf; rw [List.getElem?_map, hget]; rfl
  · cases split
    · cases hl
    · cases hl
      refine ⟨by simpa using hlen, ?_⟩
      rw [List.getElem?_map, hget]; rfl
  · cases analytical
    · cases hl
    · cases hl
      refine ⟨by simpa using hlen, b76Greeks _, ?_, rfl⟩
      rw [List.getElem?_map, hget]; rfl
  · cases numerical
    · cases hl
    · cases hl
      refine ⟨by simpa using hlen, numericalRow _, ?_, (numericalGreeks_iff _ _).2 rfl⟩
      rw [List.getElem?_map, hget]; rfl

/-! ## Numerical greeks -/

private theorem priceQuotient_fin (p q : ℝ) {d : ℝ} (hd : d ≠ 0) : priceQuotient (some p) (some q) d = .fin ((p - q) / d) := by
  show Npf.divide _ _ = _
  unfold Npf.divide
  rw [if_pos hd]

private theorem price_at {F tau cp K vol shift annuity : ℝ} (hF : 0 < F + shift) (hK : 0 < K + shift) (ht : 0 < tau) (hv : vol ≠ 0) :
    b76Price ⟨F, tau, cp, K, vol, shift, annuity⟩ = some (annuity * blackF cp (F + shift) (K + shift) (vol * Real.sqrt tau)) :=
  b76Price_eq (x := ⟨F, tau, cp, K, vol, shift, annuity⟩) hF hK ht hv

/-- The numerical delta applies the shift twice: it is the analytical delta, at some forward between the two bumped ones, of an option
whose strike has been shifted twice. -/
theorem C104_delta_twice_shifted (x : B76Row) (ht : 0 < x.tau) (hv : 0 < x.vol) (hcp : x.cp = 1 ∨ x.cp = -1)
    (hF : 0 < x.F + x.shift) (hF2 : 0 < (x.F + x.shift) * 0.99 + x.shift) (hK2 : 0 < x.K + 2 * x.shift) :
    ∃ ν g δ F', NumericalGreeks x ν ∧ (x.F + x.shift) * 0.99 + x.shift < F' ∧ F' < (x.F + x.shift) * 1.01 + x.shift ∧
      black76Greeks [{ x with F := F', K := x.K + 2 * x.shift, shift := 0 }] = [g] ∧ g.delta = some δ ∧ ν.delta = .fin δ := by
  let P : ℝ → ℝ := fun F => x.annuity * blackF x.cp F (x.K + 2 * x.shift) (x.vol * Real.sqrt x.tau)
  have hL : ∀ F, 0 < F → LognormalOption { x with F := F, K := x.K + 2 * x.shift, shift := 0 } := fun F h =>
    ⟨by simpa using h, by simpa using hK2, ht, hv, hcp⟩
  have hd : ∀ F, 0 < F → ∃ g δ, black76Greeks [{ x with F := F, K := x.K + 2 * x.shift, shift := 0 }] = [g] ∧
      g.delta = some δ ∧ HasDerivAt P δ F := by
    intro F h
    refine C52_delta _ (hL F h) P ?_
    intro y hy
    have hy' : 0 < y := by simpa using hy
    refine (b76Priced_black (hL y hy') _).2 ?_
    simp [P]
  have hlt : (x.F + x.shift) * 0.99 + x.shift < (x.F + x.shift) * 1.01 + x.shift := by nlinarith
  have : Nonempty B76Greeks := ⟨⟨none, none⟩⟩
  choose! g δ hg hδ hgd using hd
  obtain ⟨F', hF', he⟩ := exists_hasDerivAt_eq_slope P δ hlt
    (fun y hy => (hgd y (lt_of_lt_of_le hF2 hy.1)).continuousAt.continuousWithinAt) (fun y hy => hgd y (hF2.trans hy.1))
  refine ⟨numericalRow x, g F', δ F', F', (numericalGreeks_iff _ _).2 rfl, hF'.1, hF'.2, hg F' (hF2.trans hF'.1), hδ F' (hF2.trans hF'.1), ?_⟩
  have e1 : b76Price { x with F := (x.F + x.shift) * (1 + 0.01), K := x.K + x.shift } = some (P ((x.F + x.shift) * 1.01 + x.shift)) := by
    rw [price_at (by norm_num at hlt hF2 ⊢; linarith) (by linarith) ht hv.ne']
    simp only [P]
    rw [show x.K + x.shift + x.shift = x.K + 2 * x.shift by ring, show (1 : ℝ) + 0.01 = 1.01 by norm_num]
  have e2 : b76Price { x with F := (x.F + x.shift) * (1 - 0.01), K := x.K + x.shift } = some (P ((x.F + x.shift) * 0.99 + x.shift)) := by
    rw [price_at (by norm_num at hF2 ⊢; linarith) (by linarith) ht hv.ne']
    simp only [P]
    rw [show x.K + x.shift + x.shift = x.K + 2 * x.shift by ring, show (1 : ℝ) - 0.01 = 0.99 by norm_num]
  show priceQuotient _ _ _ = _
  rw [e1, e2, priceQuotient_fin _ _ (by positivity), he]
  congr 2
  ring

/-- The numerical vega applies the shift twice: it is the analytical vega, at some volatility within one percentage point, of an option
whose forward and strike have been shifted twice. -/
theorem C104_vega_twice_shifted (x : B76Row) (ht : 0 < x.tau) (hv : 0.01 < x.vol) (hcp : x.cp = 1 ∨ x.cp = -1)
    (hF2 : 0 < x.F + 2 * x.shift) (hK2 : 0 < x.K + 2 * x.shift) :
    ∃ ν g w v, NumericalGreeks x ν ∧ x.vol - 0.01 < v ∧ v < x.vol + 0.01 ∧
      black76Greeks [{ x with F := x.F + 2 * x.shift, K := x.K + 2 * x.shift, vol := v, shift := 0 }] = [g] ∧ g.vega = some w ∧
      ν.vega = .fin w := by
  let P : ℝ → ℝ := fun v => x.annuity * blackF x.cp (x.F + 2 * x.shift) (x.K + 2 * x.shift) (v * Real.sqrt x.tau)
  have hL : ∀ v, 0 < v → LognormalOption { x with F := x.F + 2 * x.shift, K := x.K + 2 * x.shift, vol := v, shift := 0 } := fun v h =>
    ⟨by simpa using hF2, by simpa using hK2, ht, h, hcp⟩
  have hd : ∀ v, 0 < v → ∃ g D, black76Greeks [{ x with F := x.F + 2 * x.shift, K := x.K + 2 * x.shift, vol := v, shift := 0 }] = [g] ∧
      HasDerivAt P D v ∧ g.vega = some (0.01 * D) := by
    intro v h
    refine C52_vega _ (hL v h) P ?_
    intro y hy
    refine (b76Priced_black (hL y hy) _).2 ?_
    simp [P]
  have hlo : 0 < x.vol - 0.01 := by linarith
  have hlt : x.vol - 0.01 < x.vol + 0.01 := by linarith
  have : Nonempty B76Greeks := ⟨⟨none, none⟩⟩
  choose! g D hg hgd hgv using hd
  obtain ⟨v, hv', he⟩ := exists_hasDerivAt_eq_slope P D hlt
    (fun y hy => (hgd y (lt_of_lt_of_le hlo hy.1)).continuousAt.continuousWithinAt) (fun y hy => hgd y (hlo.trans hy.1))
  have hv0 := hlo.trans hv'.1
  refine ⟨numericalRow x, g v, _, v, (numericalGreeks_iff _ _).2 rfl, hv'.1, hv'.2, hg v hv0, hgv v hv0, ?_⟩
  have e : ∀ w, w ≠ 0 → b76Price { x with F := x.F + x.shift, K := x.K + x.shift, vol := w } = some (P w) := by
    intro w hw
    rw [price_at (by linarith) (by linarith) ht hw]
    simp only [P]
    rw [show x.K + x.shift + x.shift = x.K + 2 * x.shift by ring, show x.F + x.shift + x.shift = x.F + 2 * x.shift by ring]
  show priceQuotient _ _ _ = _
  rw [e _ (by linarith), e _ hlo.ne', priceQuotient_fin _ _ (by norm_num), he]
  congr 1
  norm_num
  ring

/-- Without a shift the numerical greeks are the analytical ones at a forward within one percent and at a volatility within one
percentage point. -/
theorem C104_numerical_partial (x : B76Row) (h : LognormalOption x) (hs : x.shift = 0) (hv : 0.01 < x.vol) :
    ∃ ν gd gv δ w F' v, NumericalGreeks x ν ∧ x.F * 0.99 < F' ∧ F' < x.F * 1.01 ∧ x.vol - 0.01 < v ∧ v < x.vol + 0.01 ∧
      black76Greeks [{ x with F := F' }] = [gd] ∧ black76Greeks [{ x with vol := v }] = [gv] ∧ gd.delta = some δ ∧ gv.vega = some w ∧
      ν.delta = .fin δ ∧ ν.vega = .fin w := by
  obtain ⟨h1, h2, h3, h4, h5⟩ := h
  obtain ⟨F, tau, cp, K, vol, shift, annuity⟩ := x
  simp only at hs
  subst hs
  simp only [add_zero] at h1 h2
  obtain ⟨ν, g, δ, F', a1, a2, a3, a4, a6, a5⟩ := C104_delta_twice_shifted ⟨F, tau, cp, K, vol, 0, annuity⟩ h3 h4 h5 (by simpa using h1)
    (by simp only [add_zero]; positivity) (by simpa using h2)
  obtain ⟨ν', g', w, v, b1, b2, b3, b4, b6, b5⟩ := C104_vega_twice_shifted ⟨F, tau, cp, K, vol, 0, annuity⟩ h3 hv h5 (by simpa using h1)
    (by simpa using h2)
  obtain rfl : ν' = ν := ((numericalGreeks_iff _ _).1 b1).trans ((numericalGreeks_iff _ _).1 a1).symm
  simp only [add_zero, mul_zero] at a2 a3 a4 b4
  exact ⟨_, g, g', δ, w, F', v, a1, a2, a3, b2, b3, a4, b4, a6, b6, a5, b5⟩

private theorem black_same (cp A s : ℝ) (hA : 0 < A) : blackF cp A A s = A * blackF cp 1 1 s := by
  unfold blackF bD2 bD1
  rw [div_self hA.ne', div_self one_ne_zero]
  ring

/-- At the money the numerical vega of a shifted option is wrong by the factor `(F + 2 shift) / (F + shift)`: the same option written
without a shift has the same prices at every volatility and another numerical vega. -/
theorem C104_shifted_vega_wrong (x : B76Row) (ht : 0 < x.tau) (hv : 0.01 < x.vol) (hcp : x.cp = 1 ∨ x.cp = -1) (hm : x.K = x.F)
    (hF : 0 < x.F + x.shift) (hF2 : 0 < x.F + 2 * x.shift) (ha : 0 < x.annuity) (hs : x.shift ≠ 0) :
    ∃ ν ν₀ w w₀, NumericalGreeks x ν ∧ NumericalGreeks { x with F := x.F + x.shift, K := x.K + x.shift, shift := 0 } ν₀ ∧
      (∀ vol X, B76Priced { x with vol := vol } X ↔ B76Priced { x with F := x.F + x.shift, K := x.K + x.shift, shift := 0, vol := vol } X) ∧
      ν.vega = .fin w ∧ ν₀.vega = .fin w₀ ∧ w = (x.F + 2 * x.shift) / (x.F + x.shift) * w₀ ∧ w ≠ w₀ := by
  have hlo : 0 < x.vol - 0.01 := by linarith
  have hst := Real.sqrt_pos.2 ht
  let Q : ℝ → ℝ := fun v => blackF x.cp 1 1 (v * Real.sqrt x.tau)
  have e : ∀ w, w ≠ 0 → b76Price { x with F := x.F + x.shift, K := x.K + x.shift, vol := w } =
      some (x.annuity * ((x.F + 2 * x.shift) * Q w)) := by
    intro w hw
    rw [price_at (by linarith) (by rw [hm]; linarith) ht hw]
    rw [hm, show x.F + x.shift + x.shift = x.F + 2 * x.shift by ring, black_same _ _ _ hF2]
  have e0 : ∀ w, w ≠ 0 → b76Price { x with F := x.F + x.shift + 0, K := x.K + x.shift + 0, vol := w, shift := 0 } =
      some (x.annuity * ((x.F + x.shift) * Q w)) := by
    intro w hw
    rw [price_at (by simpa using hF) (by simpa [hm] using hF) ht hw]
    simp only [add_zero]
    rw [hm, black_same _ _ _ hF]
  have h0 : ∀ w : ℝ, x.annuity * ((x.F + x.shift) * Q w) = x.annuity * (x.F + x.shift) * Q w := fun w => by ring
  have hpos : 0 < Q (x.vol + 0.01) - Q (x.vol - 0.01) := by
    have hmono := C52_monotone (⟨1, x.tau, x.cp, 1, x.vol, 0, 1⟩) ⟨by norm_num, by norm_num, ht, by show 0 < x.vol; linarith, hcp⟩ one_pos Q
      (fun y hy => (b76Priced_black (x := ⟨1, x.tau, x.cp, 1, y, 0, 1⟩) ⟨by norm_num, by norm_num, ht, hy, hcp⟩ _).2 (by simp [Q]))
    have := hmono.1 (show x.vol - 0.01 ∈ Ioi (0 : ℝ) from hlo) (show x.vol + 0.01 ∈ Ioi (0 : ℝ) from by show 0 < x.vol + 0.01; linarith)
      (by linarith)
    linarith
  refine ⟨numericalRow x, numericalRow { x with F := x.F + x.shift, K := x.K + x.shift, shift := 0 },
    (x.annuity * ((x.F + 2 * x.shift) * Q (x.vol + 0.01)) - x.annuity * ((x.F + 2 * x.shift) * Q (x.vol - 0.01))) / (2 * (0.01 / 0.01)),
    (x.annuity * ((x.F + x.shift) * Q (x.vol + 0.01)) - x.annuity * ((x.F + x.shift) * Q (x.vol - 0.01))) / (2 * (0.01 / 0.01)),
    (numericalGreeks_iff _ _).2 rfl, (numericalGreeks_iff _ _).2 rfl, ?_, ?_, ?_, ?_, ?_⟩
  · intro vol X
    unfold B76Priced
    rw [(C52_shift { x with vol := vol } { x with F := x.F + x.shift, K := x.K + x.shift, shift := 0, vol := vol } (by simp) (by simp) rfl
      rfl rfl rfl).1]
  · show priceQuotient _ _ _ = _
    rw [e _ (by linarith), e _ hlo.ne', priceQuotient_fin _ _ (by norm_num)]
  · show priceQuotient _ _ _ = _
    rw [e0 _ (by linarith), e0 _ hlo.ne', priceQuotient_fin _ _ (by norm_num)]
  · field_simp
  · intro h
    have h2 : (2 * (0.01 / 0.01) : ℝ) ≠ 0 := by norm_num
    rw [div_left_inj' h2] at h
    have h3 : x.annuity * x.shift * (Q (x.vol + 0.01) - Q (x.vol - 0.01)) = 0 := by linear_combination h
    rcases mul_eq_zero.1 h3 with h4 | h4
    · rcases mul_eq_zero.1 h4 with h5 | h5
      · exact ha.ne' h5
      · exact hs h5
    · exact hpos.ne' h4

/-- Below one percentage point of volatility the lower bump is negative, and the numerical vega is half the sum of the price at the higher
volatility and the price of the opposite option: not a difference at all. -/
theorem C104_low_volatility (x : B76Row) (h : LognormalOption x) (hs : x.shift = 0) (hv : x.vol < 0.01) (X Y : ℝ)
    (hX : B76Priced { x with vol := x.vol + 0.01 } X) (hY : B76Priced { x with vol := 0.01 - x.vol, cp := -x.cp } Y) :
    ∃ ν, NumericalGreeks x ν ∧ ν.vega = .fin ((X + Y) / 2) := by
  obtain ⟨h1, h2, h3, h4, h5⟩ := h
  have hX' := (b76Priced_black (x := { x with vol := x.vol + 0.01 }) ⟨h1, h2, h3, by show 0 < x.vol + 0.01; linarith, h5⟩ X).1 hX
  have hY' := (b76Priced_black (x := { x with vol := 0.01 - x.vol, cp := -x.cp }) ⟨h1, h2, h3, by show 0 < 0.01 - x.vol; linarith,
    by rcases h5 with h | h <;> simp [h]⟩ Y).1 hY
  simp only [hs, add_zero] at hX' hY' h1 h2
  refine ⟨numericalRow x, (numericalGreeks_iff _ _).2 rfl, ?_⟩
  show priceQuotient _ _ _ = _
  rw [price_at (by simpa [hs] using h1) (by simpa [hs] using h2) h3 (by linarith),
    price_at (by simpa [hs] using h1) (by simpa [hs] using h2) h3 (by linarith), priceQuotient_fin _ _ (by norm_num)]
  simp only [hs, add_zero]
  have e : (x.vol - 0.01) * Real.sqrt x.tau = -((0.01 - x.vol) * Real.sqrt x.tau) := by ring
  rw [e, black_swap, hX', hY']
  congr 1
  norm_num

private theorem price_nan {x : B76Row} (h : (x.F + x.shift) * (x.K + x.shift) < 0) : b76Price x = none := by
  have hK : x.K + x.shift ≠ 0 := by rintro h0; rw [h0, mul_zero] at h; exact lt_irrefl _ h
  have hq : (x.F + x.shift) / (x.K + x.shift) < 0 := by
    rcases mul_neg_iff.1 h with ⟨h1, h2⟩ | ⟨h1, h2⟩
    · exact div_neg_of_pos_of_neg h1 h2
    · exact div_neg_of_neg_of_pos h1 h2
  have hd : b76D1 x = .nan := by
    unfold b76D1
    by_cases ht : x.tau < 0
    · rw [if_pos ht]
    rw [if_neg ht, Npf.divide, if_pos hK]
    show ((if 0 < (x.F + x.shift) / (x.K + x.shift) then _ else if (x.F + x.shift) / (x.K + x.shift) = 0 then _ else Npf.nan : Npf).plus _).over _ = _
    rw [if_neg (not_lt.2 hq.le), if_neg hq.ne]
    rfl
  unfold b76Price
  rw [hd]
  rfl

/-- Where a bumped forward and the strike, both shifted twice, lie on either side of zero the numerical delta is `nan`; where the forward and
the strike do, so is the numerical vega.  For a shifted forward of zero there is no numerical delta either. -/
theorem C104_numerical_nan (x : B76Row) :
    ∃ ν, NumericalGreeks x ν ∧
      ((x.F + 2 * x.shift) * (x.K + 2 * x.shift) < 0 → ν.vega = .nan) ∧
      (((x.F + x.shift) * 1.01 + x.shift) * (x.K + 2 * x.shift) < 0 → ν.delta = .nan) ∧
      (((x.F + x.shift) * 0.99 + x.shift) * (x.K + 2 * x.shift) < 0 → ν.delta = .nan) ∧
      (x.F + x.shift = 0 → ν.delta = .nan) := by
  refine ⟨numericalRow x, (numericalGreeks_iff _ _).2 rfl, fun h => ?_, fun h => ?_, fun h => ?_, fun h => ?_⟩
  · show priceQuotient _ _ _ = _
    rw [price_nan (x := { x with F := x.F + x.shift, K := x.K + x.shift, vol := x.vol + 0.01 })
      (by simp only; rw [add_assoc, add_assoc, ← two_mul]; exact h)]
    rfl
  · show priceQuotient _ _ _ = _
    rw [price_nan (x := { x with F := (x.F + x.shift) * (1 + 0.01), K := x.K + x.shift })
      (by simp only; rw [add_assoc x.K, ← two_mul, show (1 : ℝ) + 0.01 = 1.01 by norm_num]; exact h)]
    rfl
  · show priceQuotient _ _ _ = _
    rw [price_nan (x := { x with F := (x.F + x.shift) * (1 - 0.01), K := x.K + x.shift })
      (by simp only; rw [add_assoc x.K, ← two_mul, show (1 : ℝ) - 0.01 = 0.99 by norm_num]; exact h)]
    unfold priceQuotient
    split
    · rename_i h2
      cases h2
    · rfl
  · show priceQuotient _ _ _ = _
    rw [h]
    simp only [zero_mul, mul_zero]
    unfold priceQuotient
    split
    · rename_i p q h1 h2
      rw [h1] at h2
      cases h2
      unfold Npf.divide
      simp
    · rfl

/-- A forward that is negative beyond the shift. -/
example : ∃ ν, NumericalGreeks ⟨-0.05, 1, 1, 0.02, 0.3, 0.02, 1⟩ ν ∧ ν.vega = .nan := by
  obtain ⟨ν, h1, h2, -⟩ := C104_numerical_nan ⟨-0.05, 1, 1, 0.02, 0.3, 0.02, 1⟩
  exact ⟨ν, h1, h2 (by norm_num)⟩

/-! ## Bachelier -/

private theorem bach_mem {a : BachArgs} {n : Nat} (h : TakenTogether (bachArgLengths a) n) :
    (a.F.length = 1 ∨ a.F.length = n) ∧ (a.tau.length = 1 ∨ a.tau.length = n) ∧ (a.cp.length = 1 ∨ a.cp.length = n) ∧
    (a.K.length = 1 ∨ a.K.length = n) ∧ (a.vol.length = 1 ∨ a.vol.length = n) ∧ (a.annuity.length = 1 ∨ a.annuity.length = n) := by
  refine ⟨?_, ?_, ?_, ?_, ?_, ?_⟩ <;> exact h.2 _ (by simp [bachArgLengths])

/-- The dictionary returned, written out. -/
private noncomputable def bachResultOf (a : BachArgs) (s g : Bool) : BachResult where
  price := a.rows.map (fun x => (bachValue x).price)
  split := if s then some (a.rows.map (fun x => ((bachValue x).intrinsic, (bachValue x).time))) else none
  analytical := if g then some (a.rows.map bachGreeks) else none
  numerical := none

private theorem bach_call_eq {a : BachArgs} {n : Nat} (h : TakenTogether (bachArgLengths a) n) (hFt : a.F.length = a.tau.length)
    (s g m : Bool) :
    bachelierCall a s g m =
      if s = true ∧ a.tau.length ≠ n then .error .index
      else if g = true ∧ n ∉ a.lengthsBesideCp then .error .value
      else .ok (bachResultOf a s g) := by
  have hck : checkShapes a.F.length a.tau.length a.lengths = .ok () :=
    (checkShapes_ok (L := bachArgLengths a) (by simp [bachArgLengths])).1 ⟨hFt, n, h⟩
  have hbl : broadcastLength a.lengths = n := broadcastLength_eq h
  have hbc := besideCp_bach h
  have hgc : greekColumns a.lengths a.lengthsBesideCp = if n ∈ a.lengthsBesideCp then .ok () else .error .value := by
    unfold greekColumns
    by_cases hn : n ∈ a.lengthsBesideCp
    · rw [if_pos hn, if_neg (not_not.2 (hbc.2 hn))]
    · rw [if_neg hn, if_pos (fun he => hn (hbc.1 he))]
  unfold bachelierCall
  rw [hck, hgc, hbl]
  unfold splitMask
  have e1 : (bachelierPrice a.rows).map (·.price) = a.rows.map (fun x => (bachValue x).price) := by
    unfold bachelierPrice; rw [List.map_map]; rfl
  have e2 : (bachelierPrice a.rows).map (fun v => (v.intrinsic, v.time)) = a.rows.map (fun x => ((bachValue x).intrinsic, (bachValue x).time)) := by
    unfold bachelierPrice; rw [List.map_map]; rfl
  rw [e1, e2]
  by_cases h1 : a.tau.length = n <;> by_cases h2 : n ∈ a.lengthsBesideCp <;>
    cases s <;> cases g <;> cases m <;> simp only [h1, h2, not_true_eq_false, not_false_eq_true, ne_eq, if_true, if_false,
      and_true, and_false, Bool.false_eq_true, and_self] <;> rfl

/-- `bachelier_price` takes its arguments exactly when forward and time have as many elements as each other and all arguments can be
taken together; the split also needs a time for every price, and greeks an argument other than `cp` for every price.  Otherwise
`AssertionError`, `IndexError` and `ValueError` are raised, in this order. -/
theorem C104_bachelier_accepted (a : BachArgs) (split analytical numerical : Bool) :
    ((∃ r, bachelierCall a split analytical numerical = .ok r) ↔
      a.F.length = a.tau.length ∧ ∃ n, TakenTogether (bachArgLengths a) n ∧ (split = true → a.tau.length = n) ∧
        (analytical = true → n ∈ bachLengthsWithoutCp a)) ∧
    ((a.F.length ≠ a.tau.length ∨ ∀ n, ¬ TakenTogether (bachArgLengths a) n) →
      bachelierCall a split analytical numerical = .error .assertion) ∧
    ∀ n, a.F.length = a.tau.length → TakenTogether (bachArgLengths a) n →
      (a.tau.length ≠ n → bachelierCall a true analytical numerical = .error .index) ∧
      ((split = true → a.tau.length = n) → n ∉ bachLengthsWithoutCp a → bachelierCall a split true numerical = .error .value) := by
  have hbad : ¬ (a.F.length = a.tau.length ∧ ∃ n, TakenTogether (bachArgLengths a) n) →
      bachelierCall a split analytical numerical = .error .assertion := by
    intro h
    unfold bachelierCall
    rw [show a.lengths = bachArgLengths a from rfl, (checkShapes_ok (L := bachArgLengths a) (by simp [bachArgLengths])).2 h]
    rfl
  refine ⟨⟨?_, ?_⟩, fun h => hbad ?_, fun n hFt hn => ⟨fun h => ?_, fun h1 h2 => ?_⟩⟩
  · rintro ⟨r, hr⟩
    by_cases h : a.F.length = a.tau.length ∧ ∃ n, TakenTogether (bachArgLengths a) n
    · obtain ⟨hFt, n, hn⟩ := h
      rw [bach_call_eq hn hFt] at hr
      split_ifs at hr with h1 h2
      exact ⟨hFt, n, hn, fun e => by_contra fun hc => h1 ⟨e, hc⟩, fun e => by_contra fun hc => h2 ⟨e, hc⟩⟩
    · rw [hbad h] at hr
      cases hr
  · rintro ⟨hFt, n, hn, c1, c2⟩
    rw [bach_call_eq hn hFt, if_neg (fun h => h.2 (c1 h.1)), if_neg (fun h => h.2 (c2 h.1))]
    exact ⟨_, rfl⟩
  · rintro ⟨e, n, hn⟩
    rcases h with h | h
    · exact h e
    · exact h n hn
  · rw [bach_call_eq hn hFt, if_pos ⟨rfl, h⟩]
  · rw [bach_call_eq hn hFt, if_neg (fun h => h.2 (h1 h.1)), if_pos ⟨rfl, h2⟩]

/-- Everything `bachelier_price` returns is elementwise; numerical greeks are never returned. -/
theorem C104_bachelier_results (a : BachArgs) (split analytical numerical : Bool) (r : BachResult)
    (hr : bachelierCall a split analytical numerical = .ok r) :
    r.numerical = none ∧ ∃ n, TakenTogether (bachArgLengths a) n ∧ r.price.length = n ∧ (r.split.isSome = split) ∧
      (r.analytical.isSome = analytical) ∧
      ∀ i < n, ∃ x v, BachOptionAt a i x ∧ bachelierPrice [x] = [v] ∧ r.price[i]? = some v.price ∧
        (∀ l, r.split = some l → l.length = n ∧ l[i]? = some (v.intrinsic, v.time)) ∧
        (∀ l, r.analytical = some l → l.length = n ∧ ∃ g, l[i]? = some g ∧ bachelierGreeks [x] = [g]) := by
  obtain ⟨hFt, n, hn, -⟩ := (C104_bachelier_accepted a split analytical numerical).1.1 ⟨r, hr⟩
  rw [bach_call_eq hn hFt] at hr
  split_ifs at hr
  cases hr
  have hrows : a.rows = (List.range n).map (fun i => ⟨broadcastAt a.F i, broadcastAt a.tau i, broadcastAt a.cp i, broadcastAt a.K i,
      broadcastAt a.vol i, broadcastAt a.annuity i⟩) := by
    unfold BachArgs.rows
    rw [show a.lengths = bachArgLengths a from rfl, broadcastLength_eq hn]
  have hlen : a.rows.length = n := by rw [hrows]; simp
  refine ⟨rfl, n, hn, by simpa [bachResultOf] using hlen, by cases split <;> rfl, by cases analytical <;> rfl, fun i hi => ?_⟩
  obtain ⟨m1, m2, m3, m4, m5, m6⟩ := bach_mem hn
  have hget : a.rows[i]? = some ⟨broadcastAt a.F i, broadcastAt a.tau i, broadcastAt a.cp i, broadcastAt a.K i, broadcastAt a.vol i,
      broadcastAt a.annuity i⟩ := by
    rw [hrows, List.getElem?_map, List.getElem?_range hi]
    rfl
  refine ⟨⟨broadcastAt a.F i, broadcastAt a.tau i, broadcastAt a.cp i, broadcastAt a.K i, broadcastAt a.vol i,
    broadcastAt a.annuity i⟩, bachValue _, ⟨holdsAt m1 hi, holdsAt m2 hi, holdsAt m3 hi, holdsAt m4 hi, holdsAt m5 hi, holdsAt m6 hi⟩, rfl,
    ?_, fun l hl => ?_, fun l hl => ?_⟩
  · unfold bachResultOf; rw [List.getElem?_map, hget]; rfl
  · cases split
    · cases hl
    · cases hl
      refine ⟨by simpa using hlen, ?_⟩
      rw [List.getElem?_map, hget]; rfl
  · cases analytical
    · cases hl
    · cases hl
      refine ⟨by simpa using hlen, bachGreeks _, ?_, rfl⟩
      rw [List.getElem?_map, hget]; rfl

/-- Three strikes against one forward and one time: priced, with greeks, but the split raises `IndexError`; and an option with a shift of
two percent, whose numerical vega is wrong. -/
example : (∃ r, black76Call ⟨[0.03], [1], [1], [0.02, 0.03, 0.04], [0.2], [0.01], [1]⟩ false true true = .ok r) ∧
    black76Call ⟨[0.03], [1], [1], [0.02, 0.03, 0.04], [0.2], [0.01], [1]⟩ true false false = .error .index ∧
    ∃ ν ν₀ w w₀, NumericalGreeks ⟨0.03, 1, 1, 0.03, 0.2, 0.02, 1⟩ ν ∧ NumericalGreeks ⟨0.03 + 0.02, 1, 1, 0.03 + 0.02, 0.2, 0, 1⟩ ν₀ ∧
      ν.vega = .fin w ∧ ν₀.vega = .fin w₀ ∧ w ≠ w₀ := by
  have hT : TakenTogether (argLengths ⟨[0.03], [1], [1], [0.02, 0.03, 0.04], [0.2], [0.01], [1]⟩) 3 := by
    constructor <;> simp [argLengths]
  refine ⟨(C104_accepted _ _ _ _).2 ⟨rfl, 3, hT, by simp, by simp [lengthsWithoutCp], by simp⟩,
    ((C104_exceptions _ false false false).2 3 rfl hT).1 (by simp), ?_⟩
  obtain ⟨ν, ν₀, w, w₀, a1, a2, -, a4, a5, -, a7⟩ := C104_shifted_vega_wrong ⟨0.03, 1, 1, 0.03, 0.2, 0.02, 1⟩ (by norm_num) (by norm_num)
    (Or.inl rfl) rfl (by norm_num) (by norm_num) (by norm_num) (by norm_num)
  exact ⟨ν, ν₀, w, w₀, a1, a2, a4, a5, a7⟩

end Frm.Props
