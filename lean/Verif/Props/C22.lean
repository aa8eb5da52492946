import Verif.Props.C21

/-! # C22 — Converting rates between compounding frequencies -/

namespace Frm
open Spec

theorem discount_toContinuous (f : CompoundingFreq) (r : ℝ) (h : Admissible f 1 r) (t : ℝ)
    (ht : f = .simple → t = 1) : f.discountFactor t r = Real.exp (-(f.toContinuous r) * t) := by
  rcases freq_cases f with rfl | rfl | ⟨n, hn, hp, hc, hs⟩
  · rfl
  · have h' : 0 < 1 + r * 1 := h
    rw [mul_one] at h'
    rw [ht rfl]
    change 1 / (1 + r * 1) = Real.exp (-Real.log (1 + r) * 1)
    rw [mul_one, mul_one, Real.exp_neg, Real.exp_log h', one_div]
  · rw [admissible_periodic hp hc hs] at h
    rw [discountFactor_periodic hp hc hs, toContinuous_periodic hp hc hs, Real.rpow_def_of_pos h, one_div,
      ← Real.exp_neg]
    congr 1; ring

theorem toContinuous_ofContinuous (f : CompoundingFreq) (c : ℝ) : f.toContinuous (f.ofContinuous c) = c := by
  rcases freq_cases f with rfl | rfl | ⟨n, hn, hp, hc, hs⟩
  · rfl
  · change Real.log (1 + (Real.exp c - 1)) = c
    rw [add_sub_cancel, Real.log_exp]
  · have hn' : (n : ℝ) ≠ 0 := by positivity
    rw [toContinuous_periodic hp hc hs, ofContinuous_periodic hp hc hs, mul_div_cancel_left₀ _ hn', add_sub_cancel,
      Real.log_exp, mul_div_cancel₀ _ hn']

theorem ofContinuous_toContinuous (f : CompoundingFreq) {r : ℝ} (h : Admissible f 1 r) :
    f.ofContinuous (f.toContinuous r) = r := by
  rcases freq_cases f with rfl | rfl | ⟨n, hn, hp, hc, hs⟩
  · rfl
  · have h' : 0 < 1 + r * 1 := h
    rw [mul_one] at h'
    change Real.exp (Real.log (1 + r)) - 1 = r
    rw [Real.exp_log h']; ring
  · rw [admissible_periodic hp hc hs] at h
    have hn' : (n : ℝ) ≠ 0 := by positivity
    rw [toContinuous_periodic hp hc hs, ofContinuous_periodic hp hc hs, mul_div_cancel_left₀ _ hn', Real.exp_log h]
    field_simp; ring

theorem admissible_ofContinuous (f : CompoundingFreq) (c : ℝ) : Admissible f 1 (f.ofContinuous c) := by
  rcases freq_cases f with rfl | rfl | ⟨n, hn, hp, hc, hs⟩
  · trivial
  · change 0 < 1 + (Real.exp c - 1) * 1
    have := Real.exp_pos c
    linarith
  · have hn' : (n : ℝ) ≠ 0 := by positivity
    rw [admissible_periodic hp hc hs, ofContinuous_periodic hp hc hs, mul_div_cancel_left₀ _ hn', add_sub_cancel]
    exact Real.exp_pos _

end Frm

namespace Frm.Props
open Spec

/-- The converted rate gives the same one-year discount factor, and the same discount factor over every horizon when
neither frequency is simple. -/
theorem C22_same_discount (f g : CompoundingFreq) {r : ℝ} (h : Admissible f 1 r) (t : ℝ)
    (ht : f = .simple ∨ g = .simple → t = 1) :
    g.discountFactor t (f.convertRateTo r g) = f.discountFactor t r := by
  unfold CompoundingFreq.convertRateTo
  rw [discount_toContinuous g _ (admissible_ofContinuous g _) t (fun hg => ht (Or.inr hg)),
    discount_toContinuous f _ h t (fun hf => ht (Or.inl hf)), toContinuous_ofContinuous]

/-- It is the only rate doing so over one year. -/
theorem C22_unique (f g : CompoundingFreq) {r r' : ℝ} (h : Admissible f 1 r) (h' : Admissible g 1 r')
    (he : g.discountFactor 1 r' = f.discountFactor 1 r) : r' = f.convertRateTo r g := by
  rw [← C22_same_discount f g h 1 (fun _ => rfl)] at he
  have e1 := C21_rate_round_trip g one_pos h'
  have e2 := C21_rate_round_trip g one_pos (admissible_ofContinuous g (f.toContinuous r))
  rw [he] at e1
  rw [← e1]
  exact e2

/-- There and back. -/
theorem C22_round_trip (f g : CompoundingFreq) {r : ℝ} (h : Admissible f 1 r) :
    g.convertRateTo (f.convertRateTo r g) f = r ∧ Admissible g 1 (f.convertRateTo r g) := by
  unfold CompoundingFreq.convertRateTo
  exact ⟨by rw [toContinuous_ofContinuous, ofContinuous_toContinuous f h], admissible_ofContinuous g _⟩

/-- Converting through a third frequency changes nothing. -/
theorem C22_transitive (f g k : CompoundingFreq) (r : ℝ) :
    g.convertRateTo (f.convertRateTo r g) k = f.convertRateTo r k := by
  unfold CompoundingFreq.convertRateTo
  rw [toContinuous_ofContinuous]

/-- To the same frequency: the identity. -/
theorem C22_identity (f : CompoundingFreq) {r : ℝ} (h : Admissible f 1 r) : f.convertRateTo r f = r :=
  ofContinuous_toContinuous f h

/-- With a simple rate the equality of discount factors holds at one year only: `SIMPLE` is treated as if it were
annual, so over two years a simple 10 % and its continuous conversion disagree. -/
theorem C22_simple_only_one_year :
    CompoundingFreq.continuous.discountFactor 2 (CompoundingFreq.simple.convertRateTo (1 / 10) .continuous) ≠
      CompoundingFreq.simple.discountFactor 2 (1 / 10) := by
  change Real.exp (-Real.log (1 + 1 / 10) * 2) ≠ 1 / (1 + 1 / 10 * 2)
  have : -Real.log (1 + 1 / 10) * 2 = -(Real.log ((1 + 1 / 10) ^ 2)) := by rw [Real.log_pow]; push_cast; ring
  rw [this, Real.exp_neg, Real.exp_log (by norm_num)]
  norm_num

example : Admissible .annual 1 (3 / 100) := by intro n hn; cases hn; norm_num

end Frm.Props
