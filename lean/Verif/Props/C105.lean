import Verif.Model.GkCalls
import Verif.Props.C47
import Verif.Props.C104

/-!
# C105: which arrays the Garman–Kohlhagen price takes
-/

namespace Frm
namespace Spec

set_option autoImplicit false

/-- The lengths of the arguments that are used: the domestic rate only without a forward. -/
def gkArgLengths (a : GkArgs) : List Nat :=
  [a.S0.length, a.tau.length, (match a.fwd with | some F => F.length | none => a.rd.length), a.rf.length, a.cp.length, a.K.length,
    a.vol.length]

/-- Spots and forwards are positive, times are not negative, `cp` is one or minus one. -/
def GkValues (a : GkArgs) : Prop :=
  (∀ s ∈ a.S0, 0 < s) ∧ (∀ t ∈ a.tau, 0 ≤ t) ∧ (∀ c ∈ a.cp, c = 1 ∨ c = -1) ∧ ∀ l, a.fwd = some l → ∀ F ∈ l, 0 < F

/-- `x` is the option at place `i` of the arguments; the domestic rate does not matter when a forward is given. -/
def GkOptionAt (a : GkArgs) (i : Nat) (x : GkRow) : Prop :=
  HoldsAt a.S0 i x.S0 ∧ HoldsAt a.tau i x.tau ∧ (a.fwd = none → HoldsAt a.rd i x.rd) ∧ HoldsAt a.rf i x.rf ∧ HoldsAt a.cp i x.cp ∧
    HoldsAt a.K i x.K ∧ HoldsAt a.vol i x.vol ∧
    (a.fwd = none → x.fwd = none) ∧ ∀ l, a.fwd = some l → ∃ F, x.fwd = some F ∧ HoldsAt l i F

end Spec
end Frm

namespace Frm.Props
open Classical Set

set_option autoImplicit false

open Frm Frm.Spec

private theorem lengths_eq (a : GkArgs) : a.lengths = gkArgLengths a := by
  unfold GkArgs.lengths gkArgLengths
  cases a.fwd <;> rfl

private theorem bl_eq {L : List Nat} {n : Nat} (h : TakenTogether L n) : broadcastLength L = n := by
  unfold broadcastLength
  cases hf : L.find? (fun n => n ≠ 1) with
  | some k =>
    have h1 := List.find?_some hf
    have h2 := List.mem_of_find?_eq_some hf
    simp only [ne_eq, decide_not, Bool.not_eq_eq_eq_not, Bool.not_true, decide_eq_false_iff_not] at h1
    rcases h.2 k h2 with h3 | h3
    · exact absurd h3 h1
    · simpa using h3
  | none =>
    rw [List.find?_eq_none] at hf
    have := hf n h.1
    simp only [ne_eq, decide_not, Bool.not_eq_eq_eq_not, Bool.not_true, decide_eq_false_iff_not, not_not] at this
    simp [this]

private theorem broadcastCheck_ok {L : List Nat} (hL : L ≠ []) :
    ((∃ n, TakenTogether L n) → broadcastCheck L = .ok ()) ∧ ((∀ n, ¬ TakenTogether L n) → broadcastCheck L = .error .value) := by
  have hmem : ∀ m, m ∈ (L.filter (fun n => n ≠ 1)).dedup ↔ m ∈ L ∧ m ≠ 1 := fun m => by
    rw [List.mem_dedup, List.mem_filter]; simp
  have hnd := (L.filter (fun n => n ≠ 1)).nodup_dedup
  unfold broadcastCheck
  generalize (L.filter (fun n => n ≠ 1)).dedup = D at hmem hnd
  constructor
  · rintro ⟨n, hn⟩
    rw [if_neg]
    have hs : D ⊆ [n] := fun m hm => by
      have := (hmem m).1 hm
      simpa using (hn.2 m this.1).resolve_left this.2
    have := (hnd.subperm hs).length_le
    simp only [List.length_singleton] at this
    omega
  · intro h
    rw [if_pos]
    by_contra hc
    match D, hc with
    | [], _ =>
      have h1 : ∀ m ∈ L, m = 1 := fun m hm => by
        by_contra h1
        have := (hmem m).2 ⟨hm, h1⟩
        simp at this
      obtain ⟨k, hk⟩ := List.exists_mem_of_ne_nil L hL
      exact h 1 ⟨by rw [← h1 k hk]; exact hk, fun m hm => Or.inl (h1 m hm)⟩
    | [k], _ =>
      refine h k ⟨((hmem k).1 (by simp)).1, fun m hm => ?_⟩
      by_cases h1 : m = 1
      · exact Or.inl h1
      · have := (hmem m).2 ⟨hm, h1⟩
        simp only [List.mem_singleton] at this
        exact Or.inr this
    | _ :: _ :: _, hc => simp at hc

private theorem gkCheck_ok (a : GkArgs) :
    (GkValues a ∧ a.cp.length = a.K.length ∧ a.cp.length = a.vol.length → gkCheck a = .ok ()) ∧
    (¬ (GkValues a ∧ a.cp.length = a.K.length ∧ a.cp.length = a.vol.length) → gkCheck a = .error .assertion) := by
  have hf : (∃ F ∈ a.fwd.getD [], ¬ 0 < F) ↔ ¬ ∀ l, a.fwd = some l → ∀ F ∈ l, 0 < F := by
    cases h : a.fwd with
    | none => simp
    | some l => simp
  constructor
  · rintro ⟨⟨h1, h2, h3, h4⟩, h5, h6⟩
    unfold gkCheck
    rw [if_neg (by push Not; exact h1), if_neg (by push Not; exact h2), if_neg (fun ⟨c, hc, hn⟩ => hn (h3 c hc)), if_neg (not_not.2 h6), if_neg (not_not.2 h5), if_neg (fun h => hf.1 h h4)]
  · intro h
    unfold gkCheck
    split_ifs with c1 c2 c3 c4 c5 c6 <;> try rfl
    exfalso
    apply h
    push Not at c1 c2 c4 c5
    refine ⟨⟨c1, c2, fun c hc => by_contra fun hn => c3 ⟨c, hc, hn⟩, ?_⟩, c5, c4⟩
    by_contra hn
    exact c6 (hf.2 hn)

/-- The dictionary returned, written out. -/
private noncomputable def gkResultOf (a : GkArgs) (s g : Bool) : GkResult where
  price := a.rows.map (fun x => (gkValue x).price)
  split := if s then some (a.rows.map (fun x => ((gkValue x).intrinsic, (gkValue x).time))) else none
  analytical := if g then some (a.rows.map gkGreeks) else none

private theorem payoff_length {a : GkArgs} {n : Nat} (h : TakenTogether (gkArgLengths a) n) (hK : a.cp.length = a.K.length) :
    broadcastLength [a.cp.length, a.S0.length, a.K.length] = if a.cp.length = 1 then a.S0.length else n := by
  have h1 : a.cp.length = 1 ∨ a.cp.length = n := h.2 _ (by simp [gkArgLengths])
  have h2 : a.S0.length = 1 ∨ a.S0.length = n := h.2 _ (by simp [gkArgLengths])
  split_ifs with hc
  · refine bl_eq ⟨by simp, fun m hm => ?_⟩
    simp only [List.mem_cons, List.not_mem_nil, or_false] at hm
    omega
  · have := h1.resolve_left hc
    refine bl_eq ⟨by simp [this], fun m hm => ?_⟩
    simp only [List.mem_cons, List.not_mem_nil, or_false] at hm
    omega

private theorem gk_call_eq {a : GkArgs} {n : Nat} (h : TakenTogether (gkArgLengths a) n) (hv : GkValues a)
    (hK : a.cp.length = a.K.length) (hV : a.cp.length = a.vol.length) (s g m : Bool) :
    gkCall a s g m = if a.tau.length = n ∧ (a.S0.length = n ∨ a.cp.length = n) then
      (if m then .error .key else .ok (gkResultOf a s g)) else .error .index := by
  have h1 : a.cp.length = 1 ∨ a.cp.length = n := h.2 _ (by simp [gkArgLengths])
  have h2 : a.S0.length = 1 ∨ a.S0.length = n := h.2 _ (by simp [gkArgLengths])
  unfold gkCall
  rw [(gkCheck_ok a).1 ⟨hv, hK, hV⟩, payoff_length h hK, lengths_eq,
    (broadcastCheck_ok (by simp [gkArgLengths])).1 ⟨n, h⟩, bl_eq h]
  unfold splitMask
  have hk : (a.tau.length = n ∧ (a.S0.length = n ∨ a.cp.length = n)) ↔
      (a.tau.length = (if a.cp.length = 1 then a.S0.length else n) ∧ a.tau.length = n) := by
    split_ifs <;> omega
  generalize (if a.cp.length = 1 then a.S0.length else n) = k at hk ⊢
  by_cases h3 : a.tau.length = k
  · by_cases h4 : a.tau.length = n
    · rw [if_pos (hk.2 ⟨h3, h4⟩), if_neg (not_not.2 h3), if_neg (not_not.2 h4)]
      cases m <;> rfl
    · rw [if_neg (fun h => h (h3 : a.tau.length = k)), if_pos h4, if_neg (fun h : a.tau.length = n ∧ _ => h4 h.1)]
      rfl
  · rw [if_pos h3, if_neg (fun h : a.tau.length = n ∧ _ => h3 (hk.1 h).1)]
    rfl

/-- `garman_kohlhagen_price` takes its arguments exactly when their values make sense, `cp`, strikes and volatilities have the same number
of elements, all arguments used can be taken together, there is a time for every price, and there is a spot or a strike for every price.
Numerical greeks are never given. -/
theorem C105_accepted (a : GkArgs) (split analytical numerical : Bool) :
    (∃ r, gkCall a split analytical numerical = .ok r) ↔
      GkValues a ∧ a.cp.length = a.K.length ∧ a.cp.length = a.vol.length ∧ numerical = false ∧
        ∃ n, TakenTogether (gkArgLengths a) n ∧ a.tau.length = n ∧ (a.S0.length = n ∨ a.cp.length = n) := by
  constructor
  · rintro ⟨r, hr⟩
    by_cases h1 : GkValues a ∧ a.cp.length = a.K.length ∧ a.cp.length = a.vol.length
    · by_cases h2 : ∃ n, TakenTogether (gkArgLengths a) n
      · obtain ⟨n, hn⟩ := h2
        rw [gk_call_eq hn h1.1 h1.2.1 h1.2.2] at hr
        split_ifs at hr with h3 h4
        exact ⟨h1.1, h1.2.1, h1.2.2, by simpa using h4, n, hn, h3⟩
      · unfold gkCall at hr
        rw [(gkCheck_ok a).1 h1, lengths_eq, (broadcastCheck_ok (by simp [gkArgLengths])).2 (not_exists.1 h2)] at hr
        cases hr
    · unfold gkCall at hr
      rw [(gkCheck_ok a).2 h1] at hr
      cases hr
  · rintro ⟨h1, h2, h3, rfl, n, hn, h4⟩
    rw [gk_call_eq hn h1 h2 h3, if_pos h4]
    exact ⟨_, rfl⟩

/-- What is raised otherwise, in this order: `AssertionError`, `ValueError` for arguments that cannot be taken together, `IndexError`
when times, or spots and strikes, are fewer than the prices, and `KeyError` for numerical greeks. -/
theorem C105_exceptions (a : GkArgs) (split analytical numerical : Bool) :
    (¬ (GkValues a ∧ a.cp.length = a.K.length ∧ a.cp.length = a.vol.length) → gkCall a split analytical numerical = .error .assertion) ∧
    (GkValues a → a.cp.length = a.K.length → a.cp.length = a.vol.length →
      ((∀ n, ¬ TakenTogether (gkArgLengths a) n) → gkCall a split analytical numerical = .error .value) ∧
      ∀ n, TakenTogether (gkArgLengths a) n →
        (¬ (a.tau.length = n ∧ (a.S0.length = n ∨ a.cp.length = n)) → gkCall a split analytical numerical = .error .index) ∧
        (a.tau.length = n ∧ (a.S0.length = n ∨ a.cp.length = n) → gkCall a split analytical true = .error .key)) := by
  refine ⟨fun h => ?_, fun h1 h2 h3 => ⟨fun h => ?_, fun n hn => ⟨fun h => ?_, fun h => ?_⟩⟩⟩
  · unfold gkCall
    rw [(gkCheck_ok a).2 h]
    rfl
  · unfold gkCall
    rw [(gkCheck_ok a).1 ⟨h1, h2, h3⟩, lengths_eq, (broadcastCheck_ok (by simp [gkArgLengths])).2 h]
    rfl
  · rw [gk_call_eq hn h1 h2 h3, if_neg h]
  · rw [gk_call_eq hn h1 h2 h3, if_pos h]
    rfl

/-- Several strikes at one time cannot be priced, whatever the spots and rates; nor several times for one spot and one strike. -/
theorem C105_one_time_refused (a : GkArgs) (split analytical numerical : Bool) (hv : GkValues a) (hK : a.cp.length = a.K.length)
    (hV : a.cp.length = a.vol.length) (n : Nat) (hn : TakenTogether (gkArgLengths a) n) (hn1 : n ≠ 1)
    (h : a.tau.length = 1 ∨ (a.S0.length = 1 ∧ a.K.length = 1)) : gkCall a split analytical numerical = .error .index := by
  rw [gk_call_eq hn hv hK hV, if_neg]
  omega

/-- Everything returned is elementwise: there is a price for every time, and price, split and greeks at a place are those of the option
at that place by itself.  Entries not asked for are absent. -/
theorem C105_results (a : GkArgs) (split analytical numerical : Bool) (r : GkResult)
    (hr : gkCall a split analytical numerical = .ok r) :
    r.price.length = a.tau.length ∧ (r.split.isSome = split) ∧ (r.analytical.isSome = analytical) ∧
      ∀ i < a.tau.length, ∃ x v, GkOptionAt a i x ∧ garmanKohlhagenPrice [x] = .ok [v] ∧ r.price[i]? = some v.price ∧
        (∀ l, r.split = some l → l.length = a.tau.length ∧ l[i]? = some (v.intrinsic, v.time)) ∧
        (∀ l, r.analytical = some l → l.length = a.tau.length ∧ ∃ g, l[i]? = some g ∧ garmanKohlhagenGreeks [x] = .ok [g]) := by
  obtain ⟨hv, hK, hV, rfl, n, hn, ht⟩ := (C105_accepted a split analytical numerical).1 ⟨r, hr⟩
  rw [gk_call_eq hn hv hK hV, if_pos ht] at hr
  cases hr
  rw [ht.1]
  have hlen : a.rows.length = n := by unfold GkArgs.rows; rw [lengths_eq, bl_eq hn]; simp
  refine ⟨by simpa [gkResultOf] using hlen, by cases split <;> rfl, by cases analytical <;> rfl, fun i hi => ?_⟩
  have holds : ∀ l : List ℝ, (l.length = 1 ∨ l.length = n) → HoldsAt l i (broadcastAt l i) := by
    intro l hl
    unfold broadcastAt
    by_cases h : l.length = 1
    · rw [if_pos h]
      obtain ⟨x, rfl⟩ := List.length_eq_one_iff.1 h
      exact Or.inl rfl
    · rw [if_neg h]
      refine Or.inr ⟨h, ?_⟩
      have hn := hl.resolve_left h
      rw [List.getD_eq_getElem _ _ (by omega), List.getElem?_eq_getElem (by omega)]
  have hmem : ∀ (l : List ℝ) (x : ℝ), HoldsAt l i x → x ∈ l := by
    rintro l x (rfl | ⟨-, h⟩)
    · simp
    · exact List.mem_of_getElem? h
  let x : GkRow := ⟨broadcastAt a.S0 i, broadcastAt a.tau i, broadcastAt a.rd i, broadcastAt a.rf i, broadcastAt a.cp i, broadcastAt a.K i,
    broadcastAt a.vol i, a.fwd.map (fun F => broadcastAt F i)⟩
  have hget : a.rows[i]? = some x := by
    unfold GkArgs.rows
    rw [lengths_eq, bl_eq hn, List.getElem?_map, List.getElem?_range hi]
    rfl
  have hx : GkOptionAt a i x := by
    refine ⟨holds _ (hn.2 _ (by simp [gkArgLengths])), holds _ (hn.2 _ (by simp [gkArgLengths])), fun h => holds _ (hn.2 _ ?_),
      holds _ (hn.2 _ (by simp [gkArgLengths])), holds _ (hn.2 _ (by simp [gkArgLengths])), holds _ (hn.2 _ (by simp [gkArgLengths])),
      holds _ (hn.2 _ (by simp [gkArgLengths])), fun h => by simp [x, h], fun l hl => ⟨broadcastAt l i, by simp [x, hl], holds _ (hn.2 _ ?_)⟩⟩
    · simp [gkArgLengths, h]
    · simp [gkArgLengths, hl]
  have hval : gkValid x := by
    refine ⟨hv.1 _ (hmem _ _ hx.1), hv.2.1 _ (hmem _ _ hx.2.1), hv.2.2.1 _ (hmem _ _ hx.2.2.2.2.1), fun F hF => ?_⟩
    cases hl : a.fwd with
    | none => simp [x, hl] at hF
    | some l =>
      obtain ⟨F', h1, h2⟩ := hx.2.2.2.2.2.2.2.2 l hl
      rw [h1] at hF
      cases hF
      exact hv.2.2.2 l hl _ (hmem _ _ h2)
  refine ⟨x, gkValue x, hx, ?_, ?_, fun l hl => ?_, fun l hl => ?_⟩
  · unfold garmanKohlhagenPrice
    rw [if_neg (by simpa using hval)]
    rfl
  · unfold gkResultOf; rw [List.getElem?_map, hget]; rfl
  · cases split
    · cases hl
    · cases hl
      refine ⟨by simpa using hlen, ?_⟩
      rw [List.getElem?_map, hget]; rfl
  · cases analytical
    · cases hl
    · cases hl
      refine ⟨by simpa using hlen, gkGreeks x, ?_, ?_⟩
      · rw [List.getElem?_map, hget]; rfl
      · unfold garmanKohlhagenGreeks
        rw [if_neg (by simpa using hval)]
        rfl

/-- Three strikes at one time raise `IndexError`; with the time given three times they are priced. -/
example : gkCall ⟨[1.1], [1], [0.02], [0.01], [1, 1, -1], [1, 1.1, 1.2], [0.1, 0.1, 0.1], none⟩ false false false = .error .index ∧
    ∃ r, gkCall ⟨[1.1], [1, 1, 1], [0.02], [0.01], [1, 1, -1], [1, 1.1, 1.2], [0.1, 0.1, 0.1], none⟩ true true false = .ok r := by
  constructor
  · refine C105_one_time_refused _ _ _ _ ⟨?_, ?_, ?_, ?_⟩ rfl rfl 3 ⟨by simp [gkArgLengths], by simp [gkArgLengths]⟩ (by norm_num) (Or.inl rfl)
      <;> first | (intro l h; cases h; done) | norm_num
  · refine (C105_accepted _ _ _ _).2 ⟨⟨?_, ?_, ?_, ?_⟩, rfl, rfl, rfl, 3, ⟨by simp [gkArgLengths], by simp [gkArgLengths]⟩, rfl, Or.inr rfl⟩
      <;> first | (intro l h; cases h; done) | norm_num

end Frm.Props
