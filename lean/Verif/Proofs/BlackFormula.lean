import Verif.Proofs.Normal
import Mathlib.Analysis.SpecialFunctions.ExpDeriv
import Mathlib.Analysis.SpecialFunctions.Log.Deriv
import Mathlib.Analysis.Calculus.Deriv.MeanValue
import Mathlib.Topology.Order.IntermediateValue
import Mathlib.Tactic

/-!
# The Black formula

`blackF cp A B s = cp (A Φ(cp d1) - B Φ(cp d2))` with `d1 = ln(A/B)/s + s/2` and `d2 = d1 - s`: the value of an option to
exchange an asset worth `B` for one worth `A`.
-/

namespace Frm
open Filter Topology Set

set_option autoImplicit false

noncomputable def bD1 (A B s : ℝ) : ℝ := Real.log (A / B) / s + s / 2
noncomputable def bD2 (A B s : ℝ) : ℝ := bD1 A B s - s
noncomputable def blackF (cp A B s : ℝ) : ℝ := cp * (A * normCdf (cp * bD1 A B s) - B * normCdf (cp * bD2 A B s))

theorem pdf_shift (x s : ℝ) : normPdf (x + s) = normPdf x * Real.exp (-(x * s) - s ^ 2 / 2) := by
  unfold normPdf
  rw [div_mul_eq_mul_div, ← Real.exp_add]
  congr 2
  ring

/-- `A φ(d1) = B φ(d2)`. -/
theorem black_identity {A B s : ℝ} (hA : 0 < A) (hB : 0 < B) (hs : s ≠ 0) :
    A * normPdf (bD1 A B s) = B * normPdf (bD2 A B s) := by
  have h : bD1 A B s = bD2 A B s + s := by unfold bD2; ring
  rw [h, pdf_shift]
  have hx : -(bD2 A B s * s) - s ^ 2 / 2 = -Real.log (A / B) := by
    unfold bD2 bD1
    field_simp
    ring
  rw [hx, Real.exp_neg, Real.exp_log (div_pos hA hB)]
  field_simp

theorem black_parity (A B s : ℝ) : blackF 1 A B s - blackF (-1) A B s = A - B := by
  unfold blackF
  simp only [neg_mul, one_mul, normCdf_neg]
  ring

theorem black_swap (A B s : ℝ) (cp : ℝ) : blackF cp A B (-s) = -blackF (-cp) A B s := by
  have h1 : bD1 A B (-s) = -bD1 A B s := by unfold bD1; rw [div_neg]; ring
  have h2 : bD2 A B (-s) = -bD2 A B s := by unfold bD2; rw [h1]; ring
  unfold blackF
  rw [h1, h2]
  have e1 : cp * -bD1 A B s = -cp * bD1 A B s := by ring
  have e2 : cp * -bD2 A B s = -cp * bD2 A B s := by ring
  rw [e1, e2]
  ring

/-- A put is a call on the exchange the other way round. -/
theorem black_put_call {A B : ℝ} (hA : 0 < A) (hB : 0 < B) (s : ℝ) : blackF (-1) A B s = blackF 1 B A s := by
  have hl : Real.log (B / A) = -Real.log (A / B) := by
    rw [Real.log_div hA.ne' hB.ne', Real.log_div hB.ne' hA.ne']; ring
  have h1 : bD1 B A s = -bD2 A B s := by unfold bD2 bD1; rw [hl, neg_div]; ring
  have h2 : bD2 B A s = -bD1 A B s := by unfold bD2; rw [h1]; unfold bD2; ring
  unfold blackF
  rw [h1, h2]
  simp only [neg_mul, one_mul]
  ring

theorem black_call_pos {A B s : ℝ} (hA : 0 < A) (hB : 0 < B) (hs : 0 < s) : 0 < blackF 1 A B s := by
  let f : ℝ → ℝ := fun x => A * normCdf (x + s) - B * normCdf x
  have hd : ∀ x, HasDerivAt f (A * normPdf (x + s) - B * normPdf x) x := by
    intro x
    have h1 : HasDerivAt (fun y : ℝ => normCdf (y + s)) (normPdf (x + s)) x := by
      have := (normCdf_hasDerivAt (x + s)).comp_add_const x s
      simpa using this
    exact (h1.const_mul A).sub ((normCdf_hasDerivAt x).const_mul B)
  have hpos : ∀ x, x < bD2 A B s → 0 < A * normPdf (x + s) - B * normPdf x := by
    intro x hx
    rw [pdf_shift]
    have hlt : Real.log (B / A) < -(x * s) - s ^ 2 / 2 := by
      have hl : Real.log (B / A) = -Real.log (A / B) := by
        rw [Real.log_div hA.ne' hB.ne', Real.log_div hB.ne' hA.ne']; ring
      have : x * s < bD2 A B s * s := by nlinarith
      have he : bD2 A B s * s = Real.log (A / B) - s ^ 2 / 2 := by
        unfold bD2 bD1
        field_simp
        ring
      rw [hl]; linarith
    have h2 : B / A < Real.exp (-(x * s) - s ^ 2 / 2) := by
      rwa [Real.log_lt_iff_lt_exp (div_pos hB hA)] at hlt
    rw [div_lt_iff₀ hA] at h2
    have := normPdf_pos x
    nlinarith
  have hmono : StrictMonoOn f (Iic (bD2 A B s)) := by
    apply strictMonoOn_of_deriv_pos (convex_Iic _)
    · exact fun x _ => (hd x).continuousAt.continuousWithinAt
    · intro x hx
      rw [interior_Iic] at hx
      rw [(hd x).deriv]
      exact hpos x hx
  have hlim : Tendsto f atBot (𝓝 0) := by
    have h1 : Tendsto (fun x : ℝ => A * normCdf (x + s)) atBot (𝓝 (A * 0)) :=
      (normCdf_atBot.comp (tendsto_atBot_add_const_right _ s tendsto_id)).const_mul A
    have h2 : Tendsto (fun x : ℝ => B * normCdf x) atBot (𝓝 (B * 0)) := normCdf_atBot.const_mul B
    have := h1.sub h2
    simpa using this
  have h0 : 0 ≤ f (bD2 A B s - 1) := by
    apply le_of_tendsto hlim
    filter_upwards [eventually_le_atBot (bD2 A B s - 1)] with x hx
    exact hmono.monotoneOn (by simp only [mem_Iic]; linarith) (by simp only [mem_Iic]; linarith) hx
  have h1 : f (bD2 A B s - 1) < f (bD2 A B s) :=
    hmono (by simp only [mem_Iic]; linarith) (by simp only [mem_Iic]; linarith) (by linarith)
  have hf : f (bD2 A B s) = blackF 1 A B s := by
    show A * normCdf (bD2 A B s + s) - B * normCdf (bD2 A B s) = _
    have h : bD2 A B s + s = bD1 A B s := by unfold bD2; ring
    unfold blackF
    rw [h]
    simp only [one_mul]
  linarith

theorem black_put_pos {A B s : ℝ} (hA : 0 < A) (hB : 0 < B) (hs : 0 < s) : 0 < blackF (-1) A B s := by
  rw [black_put_call hA hB]
  exact black_call_pos hB hA hs

/-- No-arbitrage bounds. -/
theorem black_bounds {A B s : ℝ} (hA : 0 < A) (hB : 0 < B) (hs : 0 < s) {cp : ℝ} (hcp : cp = 1 ∨ cp = -1) :
    max 0 (cp * (A - B)) < blackF cp A B s ∧ blackF cp A B s < if cp = 1 then A else B := by
  have hc := black_call_pos hA hB hs
  have hp := black_put_pos hA hB hs
  have hpar := black_parity A B s
  rcases hcp with rfl | rfl
  · refine ⟨max_lt hc (by linarith), ?_⟩
    simp only [if_true]
    unfold blackF
    have h1 := normCdf_lt_one (1 * bD1 A B s)
    have h2 := normCdf_pos (1 * bD2 A B s)
    have := mul_pos hB h2
    have := mul_lt_mul_of_pos_left h1 hA
    linarith
  · refine ⟨max_lt hp (by linarith), ?_⟩
    rw [if_neg (by norm_num)]
    unfold blackF
    have h1 := normCdf_lt_one (-1 * bD2 A B s)
    have h2 := normCdf_pos (-1 * bD1 A B s)
    have := mul_pos hA h2
    have := mul_lt_mul_of_pos_left h1 hB
    linarith

/-- The derivative of the Black formula along any curve: the terms in `d1'` cancel. -/
theorem black_hasDerivAt {A B s : ℝ → ℝ} {A' B' s' x cp : ℝ} (hcp : cp = 1 ∨ cp = -1) (hA : HasDerivAt A A' x)
    (hB : HasDerivAt B B' x) (hs : HasDerivAt s s' x) (hA0 : 0 < A x) (hB0 : 0 < B x) (hs0 : s x ≠ 0) :
    HasDerivAt (fun y => blackF cp (A y) (B y) (s y))
      (cp * (A' * normCdf (cp * bD1 (A x) (B x) (s x)) - B' * normCdf (cp * bD2 (A x) (B x) (s x)))
        + A x * normPdf (bD1 (A x) (B x) (s x)) * s') x := by
  have hd1 : DifferentiableAt ℝ (fun y => bD1 (A y) (B y) (s y)) x := by
    unfold bD1
    have h1 : DifferentiableAt ℝ (fun y => A y / B y) x := hA.differentiableAt.div hB.differentiableAt hB0.ne'
    have h2 : DifferentiableAt ℝ (fun y => Real.log (A y / B y)) x := h1.log (div_pos hA0 hB0).ne'
    exact (h2.div hs.differentiableAt hs0).add (hs.differentiableAt.div_const 2)
  obtain ⟨d', hd⟩ : ∃ d', HasDerivAt (fun y => bD1 (A y) (B y) (s y)) d' x := ⟨_, hd1.hasDerivAt⟩
  have hd2 : HasDerivAt (fun y => bD2 (A y) (B y) (s y)) (d' - s') x := by
    unfold bD2; exact hd.sub hs
  have hn1 : HasDerivAt (fun y => normCdf (cp * bD1 (A y) (B y) (s y))) (normPdf (cp * bD1 (A x) (B x) (s x)) * (cp * d')) x :=
    (normCdf_hasDerivAt _).comp x (hd.const_mul cp)
  have hn2 : HasDerivAt (fun y => normCdf (cp * bD2 (A y) (B y) (s y))) (normPdf (cp * bD2 (A x) (B x) (s x)) * (cp * (d' - s'))) x :=
    (normCdf_hasDerivAt _).comp x (hd2.const_mul cp)
  have hid := black_identity hA0 hB0 hs0
  have hp1 : normPdf (cp * bD1 (A x) (B x) (s x)) = normPdf (bD1 (A x) (B x) (s x)) := by
    rcases hcp with rfl | rfl
    · rw [one_mul]
    · rw [neg_one_mul, normPdf_neg]
  have hp2 : normPdf (cp * bD2 (A x) (B x) (s x)) = normPdf (bD2 (A x) (B x) (s x)) := by
    rcases hcp with rfl | rfl
    · rw [one_mul]
    · rw [neg_one_mul, normPdf_neg]
  have hcc : cp * cp = 1 := by rcases hcp with rfl | rfl <;> norm_num
  have := ((hA.mul hn1).sub (hB.mul hn2)).const_mul cp
  unfold blackF
  refine this.congr_deriv ?_
  rw [hp1, hp2]
  have key : cp * (A x * (normPdf (bD1 (A x) (B x) (s x)) * (cp * d')) - B x * (normPdf (bD2 (A x) (B x) (s x)) * (cp * (d' - s'))))
      = A x * normPdf (bD1 (A x) (B x) (s x)) * s' := by
    have e : cp * (A x * (normPdf (bD1 (A x) (B x) (s x)) * (cp * d')) - B x * (normPdf (bD2 (A x) (B x) (s x)) * (cp * (d' - s'))))
      = (cp * cp) * (A x * normPdf (bD1 (A x) (B x) (s x)) * d' - B x * normPdf (bD2 (A x) (B x) (s x)) * (d' - s')) := by ring
    rw [e, hcc, ← hid]
    ring
  rw [← key]
  ring

theorem black_strictMono {A B : ℝ} (hA : 0 < A) (hB : 0 < B) {cp : ℝ} (hcp : cp = 1 ∨ cp = -1) :
    StrictMonoOn (blackF cp A B) (Ioi 0) := by
  have hd : ∀ x ∈ Ioi (0 : ℝ), HasDerivAt (blackF cp A B) (A * normPdf (bD1 A B x)) x := by
    intro x hx
    have := black_hasDerivAt hcp (hasDerivAt_const x A) (hasDerivAt_const x B) (hasDerivAt_id x) hA hB (ne_of_gt hx)
    simpa using this
  apply strictMonoOn_of_deriv_pos (convex_Ioi _)
  · exact fun x hx => (hd x hx).continuousAt.continuousWithinAt
  · intro x hx
    rw [interior_Ioi] at hx
    rw [(hd x hx).deriv]
    exact mul_pos hA (normPdf_pos _)

theorem black_continuousOn {A B : ℝ} (hA : 0 < A) (hB : 0 < B) {cp : ℝ} (hcp : cp = 1 ∨ cp = -1) :
    ContinuousOn (blackF cp A B) (Ioi 0) := by
  intro x hx
  have := black_hasDerivAt hcp (hasDerivAt_const x A) (hasDerivAt_const x B) (hasDerivAt_id x) hA hB (ne_of_gt hx)
  exact this.continuousAt.continuousWithinAt

theorem black_call_atTop {A B : ℝ} : Tendsto (blackF 1 A B) atTop (𝓝 A) := by
  have hz : Tendsto (fun s : ℝ => Real.log (A / B) / s) atTop (𝓝 0) := tendsto_const_nhds.div_atTop tendsto_id
  have h1 : Tendsto (fun s : ℝ => bD1 A B s) atTop atTop := by
    unfold bD1
    exact hz.add_atTop (tendsto_id.atTop_div_const (by norm_num))
  have h2 : Tendsto (fun s : ℝ => bD2 A B s) atTop atBot := by
    have e : ∀ s, bD2 A B s = Real.log (A / B) / s + -(s / 2) := by intro s; unfold bD2 bD1; ring
    simp only [e]
    exact hz.add_atBot (tendsto_neg_atTop_atBot.comp (tendsto_id.atTop_div_const (by norm_num)))
  have := ((normCdf_atTop.comp h1).const_mul A).sub ((normCdf_atBot.comp h2).const_mul B)
  unfold blackF
  simpa using this

theorem black_call_zero {A B : ℝ} (hA : 0 < A) (hB : 0 < B) : Tendsto (blackF 1 A B) (𝓝[>] 0) (𝓝 (max 0 (A - B))) := by
  have hid : Tendsto (fun s : ℝ => s) (𝓝[>] 0) (𝓝 0) := tendsto_nhdsWithin_of_tendsto_nhds tendsto_id
  have hhalf : Tendsto (fun s : ℝ => s / 2) (𝓝[>] 0) (𝓝 0) := by simpa using hid.div_const 2
  have hinv : Tendsto (fun s : ℝ => s⁻¹) (𝓝[>] 0) atTop := tendsto_inv_nhdsGT_zero
  have e2 : ∀ s, bD2 A B s = Real.log (A / B) / s + -(s / 2) := by intro s; unfold bD2 bD1; ring
  have hneg : Tendsto (fun s : ℝ => -(s / 2)) (𝓝[>] 0) (𝓝 0) := by simpa using hhalf.neg
  rcases lt_trichotomy A B with h | h | h
  · have hl : Real.log (A / B) < 0 := Real.log_neg (div_pos hA hB) ((div_lt_one hB).2 h)
    have hz : Tendsto (fun s : ℝ => Real.log (A / B) / s) (𝓝[>] 0) atBot := by
      simp only [div_eq_mul_inv]
      exact hinv.const_mul_atTop_of_neg hl
    have h1 : Tendsto (fun s : ℝ => bD1 A B s) (𝓝[>] 0) atBot := by unfold bD1; exact hz.atBot_add hhalf
    have h2 : Tendsto (fun s : ℝ => bD2 A B s) (𝓝[>] 0) atBot := by simp only [e2]; exact hz.atBot_add hneg
    have := ((normCdf_atBot.comp h1).const_mul A).sub ((normCdf_atBot.comp h2).const_mul B)
    rw [max_eq_left (by linarith)]
    unfold blackF
    simpa using this
  · subst h
    have hl : Real.log (A / A) = 0 := by rw [div_self hA.ne', Real.log_one]
    have h1 : Tendsto (fun s : ℝ => bD1 A A s) (𝓝[>] 0) (𝓝 0) := by unfold bD1; simp only [hl, zero_div, zero_add]; exact hhalf
    have h2 : Tendsto (fun s : ℝ => bD2 A A s) (𝓝[>] 0) (𝓝 0) := by simp only [e2, hl, zero_div, zero_add]; exact hneg
    have hc : Tendsto normCdf (𝓝 0) (𝓝 (normCdf 0)) := normCdf_continuous.tendsto 0
    have := ((hc.comp h1).const_mul A).sub ((hc.comp h2).const_mul A)
    unfold blackF
    simpa using this
  · have hl : 0 < Real.log (A / B) := Real.log_pos ((one_lt_div hB).2 h)
    have hz : Tendsto (fun s : ℝ => Real.log (A / B) / s) (𝓝[>] 0) atTop := by
      simp only [div_eq_mul_inv]
      exact hinv.const_mul_atTop hl
    have h1 : Tendsto (fun s : ℝ => bD1 A B s) (𝓝[>] 0) atTop := by unfold bD1; exact hz.atTop_add hhalf
    have h2 : Tendsto (fun s : ℝ => bD2 A B s) (𝓝[>] 0) atTop := by simp only [e2]; exact hz.atTop_add hneg
    have := ((normCdf_atTop.comp h1).const_mul A).sub ((normCdf_atTop.comp h2).const_mul B)
    rw [max_eq_right (by linarith)]
    unfold blackF
    simpa using this

/-- Every value strictly between the bounds is attained at some positive `s`. -/
theorem black_surj {A B X : ℝ} (hA : 0 < A) (hB : 0 < B) {cp : ℝ} (hcp : cp = 1 ∨ cp = -1) (hlo : max 0 (cp * (A - B)) < X)
    (hhi : X < if cp = 1 then A else B) : ∃ s, 0 < s ∧ blackF cp A B s = X := by
  have call : ∀ {A B X : ℝ}, 0 < A → 0 < B → max 0 (A - B) < X → X < A → ∃ s, 0 < s ∧ blackF 1 A B s = X := by
    intro A B X hA hB hlo hhi
    obtain ⟨a, ha0, ha⟩ : ∃ a, 0 < a ∧ blackF 1 A B a < X := by
      have h1 := (black_call_zero hA hB).eventually (gt_mem_nhds hlo)
      have h2 : ∀ᶠ s : ℝ in 𝓝[>] 0, 0 < s := self_mem_nhdsWithin
      obtain ⟨a, h⟩ := (h1.and h2).exists
      exact ⟨a, h.2, h.1⟩
    obtain ⟨b, hb0, hb⟩ : ∃ b, a < b ∧ X < blackF 1 A B b := by
      have h1 := (black_call_atTop (A := A) (B := B)).eventually (lt_mem_nhds hhi)
      obtain ⟨b, h⟩ := (h1.and (eventually_gt_atTop a)).exists
      exact ⟨b, h.2, h.1⟩
    have hc : ContinuousOn (blackF 1 A B) (Icc a b) :=
      (black_continuousOn hA hB (Or.inl rfl)).mono (fun x hx => lt_of_lt_of_le ha0 hx.1)
    obtain ⟨s, hs, hsX⟩ := intermediate_value_Icc hb0.le hc ⟨ha.le, hb.le⟩
    exact ⟨s, lt_of_lt_of_le ha0 hs.1, hsX⟩
  rcases hcp with rfl | rfl
  · rw [one_mul] at hlo
    rw [if_pos rfl] at hhi
    exact call hA hB hlo hhi
  · rw [if_neg (by norm_num)] at hhi
    have : -1 * (A - B) = B - A := by ring
    rw [this] at hlo
    obtain ⟨s, hs, h⟩ := call hB hA hlo hhi
    exact ⟨s, hs, by rw [black_put_call hA hB]; exact h⟩

end Frm
