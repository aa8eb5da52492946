import Verif.Model.FxHelpers
import Verif.Proofs.Sort

/-! # Interpolation of FX forwards -/

namespace Frm

set_option autoImplicit false

theorem eraseDups_nodup (l : List Int) : l.eraseDups.Nodup := by
  induction hn : l.length using Nat.strongRecOn generalizing l with
  | _ n ih =>
    cases l with
    | nil => simp
    | cons a t =>
      rw [List.eraseDups_cons, List.nodup_cons]
      constructor
      · rw [List.mem_eraseDups]; simp
      · refine ih _ ?_ _ rfl
        have := List.length_filter_le (fun b => !b == a) t
        rw [← hn, List.length_cons]
        omega

theorem sorted_strict {α : Type} {key : α → Int} {l : List α} (hs : l.Pairwise (fun a b => key a ≤ key b))
    (hn : (l.map key).Nodup) : l.Pairwise (fun a b => key a < key b) := by
  rw [List.Nodup, List.pairwise_map] at hn
  exact (hs.and hn).imp (fun h => by omega)

theorem combinedDates_spec {α : Type} (pillars : List (Int × α)) (dates : List Int) :
    (combinedDates pillars dates).Pairwise (· < ·) ∧
    ∀ d, d ∈ combinedDates pillars dates ↔ d ∈ dates ∨ d ∈ pillars.map (·.1) := by
  unfold combinedDates
  constructor
  · refine sorted_strict (key := id) (sortBy_sorted id _) ?_
    rw [List.map_id]
    exact (sortBy_perm id _).nodup_iff.mpr (eraseDups_nodup _)
  · intro d
    rw [mem_sortBy, List.mem_eraseDups, List.mem_append]

theorem sortedPillars_spec {pillars : List (Int × Rat)} (hn : (pillars.map (·.1)).Nodup) :
    (sortBy (·.1) pillars).Pairwise (fun a b => a.1 < b.1) ∧ ∀ p, p ∈ sortBy (·.1) pillars ↔ p ∈ pillars :=
  ⟨sorted_strict (key := fun x : Int × Rat => x.1) (sortBy_sorted (fun x : Int × Rat => x.1) pillars)
    ((((sortBy_perm (fun x : Int × Rat => x.1) pillars).map _).nodup_iff).mpr hn), fun p => mem_sortBy _ _ p⟩

/-- The straight line through two points. -/
def lineThrough (p q : Int × Rat) (x : Int) : Rat := p.2 + (q.2 - p.2) * ((x : Rat) - p.1) / ((q.1 : Rat) - p.1)

theorem timeInterp_between {pre post : List (Int × Rat)} {p q : Int × Rat} {x : Int}
    (hs : (pre ++ p :: q :: post).Pairwise (fun a b => a.1 < b.1)) (h1 : p.1 < x) (h2 : x < q.1) :
    timeInterp (pre ++ p :: q :: post) x = some (lineThrough p q x) := by
  induction pre with
  | nil =>
    rw [List.nil_append]
    unfold timeInterp
    rw [if_pos ⟨by omega, by omega⟩]
    rfl
  | cons c t ih =>
    have hs' := List.pairwise_cons.mp hs
    have ih' := ih hs'.2
    cases t with
    | nil =>
      rw [List.nil_append] at ih'
      show timeInterp (c :: p :: q :: post) x = _
      unfold timeInterp
      rw [if_neg (by omega)]
      exact ih'
    | cons e t' =>
      have he : e.1 < p.1 := (List.pairwise_cons.mp hs'.2).1 p (by simp)
      show timeInterp (c :: e :: (t' ++ p :: q :: post)) x = _
      unfold timeInterp
      rw [if_neg (by omega)]
      exact ih'

theorem timeInterp_before {l : List (Int × Rat)} {x : Int} (h : ∀ p ∈ l, x < p.1) : timeInterp l x = none := by
  induction l with
  | nil => rfl
  | cons p t ih =>
    cases t with
    | nil => rfl
    | cons q t' =>
      unfold timeInterp
      have := h p (by simp)
      rw [if_neg (by omega)]
      exact ih (fun r hr => h r (by simp [hr]))

theorem timeInterp_after {l : List (Int × Rat)} {x : Int} (h : ∀ p ∈ l, p.1 < x) : timeInterp l x = none := by
  induction l with
  | nil => rfl
  | cons p t ih =>
    cases t with
    | nil => rfl
    | cons q t' =>
      unfold timeInterp
      have := h q (by simp)
      rw [if_neg (by omega)]
      exact ih (fun r hr => h r (by simp [hr]))

theorem neighbours_exist {l : List (Int × Rat)} {x : Int} {a b : Int × Rat} (ha : l.head? = some a) (hb : b ∈ l) (h1 : a.1 < x)
    (h2 : x < b.1) (hx : ∀ p ∈ l, p.1 ≠ x) : ∃ pre p q post, l = pre ++ p :: q :: post ∧ p.1 < x ∧ x < q.1 := by
  induction l generalizing a with
  | nil => cases hb
  | cons c t ih =>
    simp only [List.head?_cons, Option.some.injEq] at ha
    subst ha
    rcases List.mem_cons.mp hb with rfl | hb
    · omega
    · cases t with
      | nil => cases hb
      | cons q t' =>
        by_cases hq : x < q.1
        · exact ⟨[], c, q, t', rfl, h1, hq⟩
        · have hne := hx q (by simp)
          obtain ⟨pre, p, r, post, e, h3, h4⟩ := ih (a := q) rfl hb (by omega) (fun p hp => hx p (by simp [hp]))
          exact ⟨c :: pre, p, r, post, by rw [e]; rfl, h3, h4⟩

theorem neighbours_split {l : List (Int × Rat)} (hs : l.Pairwise (fun a b => a.1 < b.1)) {p q : Int × Rat} (hp : p ∈ l) (hq : q ∈ l)
    (h : p.1 < q.1) (hn : ∀ r ∈ l, r.1 ≤ p.1 ∨ q.1 ≤ r.1) : ∃ pre post, l = pre ++ p :: q :: post := by
  obtain ⟨pre, R, rfl⟩ := List.append_of_mem hp
  have hpw := List.pairwise_append.mp hs
  have hqR : q ∈ R := by
    rcases List.mem_append.mp hq with h' | h'
    · have := hpw.2.2 q h' p (by simp); omega
    · rcases List.mem_cons.mp h' with rfl | h'
      · omega
      · exact h'
  obtain ⟨M, post, rfl⟩ := List.append_of_mem hqR
  have hM : M = [] := by
    cases M with
    | nil => rfl
    | cons m M' =>
      have h1 := (List.pairwise_cons.mp hpw.2.1)
      have h2 := h1.1 m (by simp)
      have h3 := (List.pairwise_append.mp h1.2).2.2 m (by simp) q (by simp)
      rcases hn m (by simp) with h4 | h4 <;> omega
  subst hM
  exact ⟨pre, post, rfl⟩

/-! ## Filling -/

/-- The last valid value. -/
def lastValid (last : Option Rat) (l : List (Int × Option Rat)) : Option Rat := l.foldl (fun acc p => p.2.or acc) last

theorem ffill_append (last : Option Rat) (a b : List (Int × Option Rat)) :
    ffill last (a ++ b) = ffill last a ++ ffill (lastValid last a) b := by
  induction a generalizing last with
  | nil => rfl
  | cons c t ih =>
    obtain ⟨d, v⟩ := c
    simp only [List.cons_append, ffill, ih, lastValid, List.foldl_cons]

theorem ffill_none (last : Option Rat) (l : List Int) (g : Int → Option Rat) (h : ∀ d ∈ l, g d = none) :
    ffill last (l.map (fun d => (d, g d))) = l.map (fun d => (d, last)) ∧ lastValid last (l.map (fun d => (d, g d))) = last := by
  induction l with
  | nil => exact ⟨rfl, rfl⟩
  | cons a t ih =>
    obtain ⟨h1, h2⟩ := ih (fun d hd => h d (by simp [hd]))
    simp only [List.map_cons, ffill, lastValid, List.foldl_cons, h a (by simp), Option.none_or] at h1 h2 ⊢
    exact ⟨by rw [h1], h2⟩

theorem ffill_some (last : Option Rat) (l : List Int) (g : Int → Option Rat) (h : ∀ d ∈ l, (g d).isSome) :
    ffill last (l.map (fun d => (d, g d))) = l.map (fun d => (d, g d)) := by
  induction l generalizing last with
  | nil => rfl
  | cons a t ih =>
    have ha := h a (by simp)
    obtain ⟨v, hv⟩ := Option.isSome_iff_exists.mp ha
    simp only [List.map_cons, ffill, hv, Option.some_or]
    rw [ih _ (fun d hd => h d (by simp [hd]))]

theorem lastValid_concat (last : Option Rat) (l : List Int) (g : Int → Option Rat) (b : Int) (h : (g b).isSome) :
    lastValid last ((l ++ [b]).map (fun d => (d, g d))) = g b := by
  obtain ⟨v, hv⟩ := Option.isSome_iff_exists.mp h
  unfold lastValid
  rw [List.map_append, List.foldl_append]
  simp [hv]

/-- Forward and backward filling of a table that has values exactly between `a` and `b`. -/
theorem fill_spec {A F H : List Int} {a b : Int} {g : Int → Option Rat} (hA : ∀ d ∈ A, g d = none) (hH : ∀ d ∈ H, g d = none)
    (hF : ∀ d ∈ F, (g d).isSome) (ha : F.head? = some a) (hb : F.getLast? = some b) :
    bfill (ffill none ((A ++ F ++ H).map (fun d => (d, g d)))) =
      A.map (fun d => (d, g a)) ++ F.map (fun d => (d, g d)) ++ H.map (fun d => (d, g b)) := by
  obtain ⟨F', rfl⟩ := List.getLast?_eq_some_iff.mp hb
  have hbs : (g b).isSome := hF b (by simp)
  have h1 : ffill none ((A ++ (F' ++ [b]) ++ H).map (fun d => (d, g d))) =
      A.map (fun d => (d, none)) ++ (F' ++ [b]).map (fun d => (d, g d)) ++ H.map (fun d => (d, g b)) := by
    rw [List.map_append, List.map_append, ffill_append, ffill_append, (ffill_none none A g hA).1, (ffill_none none A g hA).2,
      ffill_some none _ g hF]
    have h2 : lastValid none (A.map (fun d => (d, g d)) ++ (F' ++ [b]).map (fun d => (d, g d))) = g b := by
      rw [← List.map_append, ← List.append_assoc]
      exact lastValid_concat none (A ++ F') g b hbs
    rw [h2, (ffill_none (g b) H g hH).1]
  rw [h1]
  unfold bfill
  obtain ⟨vb, hvb⟩ := Option.isSome_iff_exists.mp hbs
  have h3 : ((F' ++ [b]).map (fun d => (d, g d)) ++ H.map (fun d => (d, g b))).reverse =
      ((H.reverse).map (fun d => (d, g b))) ++ ((F' ++ [b]).reverse.map (fun d => (d, g d))) := by
    rw [List.reverse_append, List.map_reverse, List.map_reverse]
  rw [List.append_assoc, List.reverse_append, h3, ffill_append, ffill_append]
  rw [ffill_some none H.reverse (fun _ => g b) (fun _ _ => hbs)]
  rw [ffill_some _ (F' ++ [b]).reverse g (fun d hd => hF d (List.mem_reverse.mp hd))]
  have h4 : lastValid none ((H.reverse).map (fun d => (d, g b)) ++ ((F' ++ [b]).reverse.map (fun d => (d, g d)))) = g a := by
    obtain ⟨T, hT⟩ : ∃ T, F' ++ [b] = a :: T := by
      cases hc : F' ++ [b] with
      | nil => simp at hc
      | cons c T => rw [hc] at ha; simp only [List.head?_cons, Option.some.injEq] at ha; exact ⟨T, by rw [ha]⟩
    rw [hT, List.reverse_cons]
    unfold lastValid
    rw [List.foldl_append]
    have : (g a).isSome := hF a (by rw [hT]; simp)
    exact lastValid_concat _ T.reverse g a this
  rw [h4, ← List.map_reverse, (ffill_none (g a) A.reverse (fun _ => none) (fun _ _ => rfl)).1]
  simp

/-! ## Lookups -/

theorem lookup_map {l : List Int} {g : Int → Option Rat} {d : Int} (h : d ∈ l) : (l.map (fun d => (d, g d))).lookup d = some (g d) := by
  induction l with
  | nil => cases h
  | cons a t ih =>
    simp only [List.map_cons, List.lookup_cons]
    by_cases hd : d = a
    · subst hd; simp
    · have hb : (d == a) = false := by simpa using hd
      rw [hb]
      rcases List.mem_cons.mp h with rfl | h
      · exact absurd rfl hd
      · exact ih h

theorem lookup_pillar {pillars : List (Int × Rat)} (hn : (pillars.map (·.1)).Nodup) {d : Int} {v : Rat} (h : (d, v) ∈ pillars) :
    pillars.lookup d = some v := by
  induction pillars with
  | nil => cases h
  | cons a t ih =>
    simp only [List.map_cons, List.nodup_cons] at hn
    obtain ⟨e, w⟩ := a
    rw [List.lookup_cons]
    by_cases hd : d = e
    · subst hd
      simp only [beq_self_eq_true]
      rcases List.mem_cons.mp h with h | h
      · simp only [Prod.mk.injEq, true_and] at h; rw [h]
      · exact absurd (List.mem_map_of_mem (f := (·.1)) h) hn.1
    · have hb : (d == e) = false := by simpa using hd
      rw [hb]
      rcases List.mem_cons.mp h with h | h
      · simp only [Prod.mk.injEq] at h; exact absurd h.1 hd
      · exact ih hn.2 h

theorem lookup_no_pillar {pillars : List (Int × Rat)} {d : Int} (h : d ∉ pillars.map (·.1)) : pillars.lookup d = none := by
  induction pillars with
  | nil => rfl
  | cons a t ih =>
    obtain ⟨e, w⟩ := a
    simp only [List.map_cons, List.mem_cons, not_or] at h
    rw [List.lookup_cons]
    have hb : (d == e) = false := by simpa using h.1
    rw [hb]
    exact ih h.2

/-- The value before filling. -/
def innerValue (pillars : List (Int × Rat)) (d : Int) : Option Rat := (pillars.lookup d).or (timeInterp (sortBy (·.1) pillars) d)

/-- The value after filling. -/
def filledValue (pillars : List (Int × Rat)) (a b : Int) (d : Int) : Option Rat :=
  if d < a then innerValue pillars a else if b < d then innerValue pillars b else innerValue pillars d

theorem innerValue_pillar {pillars : List (Int × Rat)} (hn : (pillars.map (·.1)).Nodup) {d : Int} {v : Rat} (h : (d, v) ∈ pillars) :
    innerValue pillars d = some v := by
  unfold innerValue; rw [lookup_pillar hn h]; rfl

theorem innerValue_between {pillars : List (Int × Rat)} (hn : (pillars.map (·.1)).Nodup) {d : Int} {p q : Int × Rat} (hp : p ∈ pillars)
    (hq : q ∈ pillars) (h1 : p.1 < d) (h2 : d < q.1) (hnb : ∀ r ∈ pillars, r.1 ≤ p.1 ∨ q.1 ≤ r.1) :
    innerValue pillars d = some (lineThrough p q d) := by
  obtain ⟨hs, hm⟩ := sortedPillars_spec hn
  have hd : d ∉ pillars.map (·.1) := by
    intro h
    obtain ⟨r, hr, rfl⟩ := List.mem_map.mp h
    rcases hnb r hr with h | h <;> omega
  obtain ⟨pre, post, e⟩ := neighbours_split hs ((hm p).mpr hp) ((hm q).mpr hq) (by omega) (fun r hr => hnb r ((hm r).mp hr))
  unfold innerValue
  rw [lookup_no_pillar hd, e]
  rw [e] at hs
  exact timeInterp_between hs h1 h2

theorem innerValue_before {pillars : List (Int × Rat)} {d : Int} (h : ∀ p ∈ pillars, d < p.1) : innerValue pillars d = none := by
  unfold innerValue
  rw [lookup_no_pillar (fun hd => by obtain ⟨r, hr, rfl⟩ := List.mem_map.mp hd; have := h r hr; omega),
    timeInterp_before (fun p hp => h p ((mem_sortBy _ _ _).mp hp))]
  rfl

theorem innerValue_after {pillars : List (Int × Rat)} {d : Int} (h : ∀ p ∈ pillars, p.1 < d) : innerValue pillars d = none := by
  unfold innerValue
  rw [lookup_no_pillar (fun hd => by obtain ⟨r, hr, rfl⟩ := List.mem_map.mp hd; have := h r hr; omega),
    timeInterp_after (fun p hp => h p ((mem_sortBy _ _ _).mp hp))]
  rfl

theorem innerValue_inside {pillars : List (Int × Rat)} (hn : (pillars.map (·.1)).Nodup) {d : Int} {p q : Int × Rat} (hp : p ∈ pillars)
    (hq : q ∈ pillars) (h1 : p.1 ≤ d) (h2 : d ≤ q.1) : (innerValue pillars d).isSome := by
  obtain ⟨hs, hm⟩ := sortedPillars_spec hn
  by_cases hd : d ∈ pillars.map (·.1)
  · obtain ⟨r, hr, rfl⟩ := List.mem_map.mp hd
    rw [innerValue_pillar hn hr]; rfl
  · have hne : ∀ r ∈ pillars, r.1 ≠ d := fun r hr h => hd (by rw [← h]; exact List.mem_map_of_mem hr)
    have hpd := hne p hp
    have hqd := hne q hq
    cases hl : sortBy (·.1) pillars with
    | nil => have := (hm p).mpr hp; rw [hl] at this; cases this
    | cons a t =>
      rw [hl] at hs
      have hap : a.1 ≤ p.1 := by
        have := (hm p).mpr hp
        rw [hl] at this
        rcases List.mem_cons.mp this with rfl | h
        · exact Int.le_refl _
        · have := (List.pairwise_cons.mp hs).1 p h; omega
      obtain ⟨pre, u, v, post, e, h3, h4⟩ := neighbours_exist (l := a :: t) (a := a) (b := q) rfl
        (by rw [← hl]; exact (hm q).mpr hq) (by omega) (by omega)
        (fun r hr => hne r ((hm r).mp (by rw [hl]; exact hr)))
      unfold innerValue
      rw [lookup_no_pillar hd, hl, e]
      rw [e] at hs
      rw [timeInterp_between hs h3 h4]
      rfl

/-- Filling the values of an ordered index that holds the first and the last pillar. -/
theorem fill_index {pillars : List (Int × Rat)} (hn : (pillars.map (·.1)).Nodup) {a b : Int × Rat} (ha : a ∈ pillars) (hb : b ∈ pillars)
    (hamin : ∀ p ∈ pillars, a.1 ≤ p.1) (hbmax : ∀ p ∈ pillars, p.1 ≤ b.1) {I : List Int} (hs : I.Pairwise (· < ·)) (haI : a.1 ∈ I) (hbI : b.1 ∈ I) :
    bfill (ffill none (I.map (fun d => (d, innerValue pillars d)))) = I.map (fun d => (d, filledValue pillars a.1 b.1 d)) := by
  obtain ⟨A, R, rfl⟩ := List.append_of_mem haI
  have hpw := List.pairwise_append.mp hs
  have hAlt : ∀ d ∈ A, d < a.1 := fun d hd => hpw.2.2 d hd a.1 (by simp)
  have hbR : b.1 ∈ a.1 :: R := by
    rcases List.mem_append.mp hbI with h | h
    · have := hAlt _ h; have := hamin b hb; omega
    · exact h
  obtain ⟨s, H, hsH⟩ := List.append_of_mem hbR
  have hspl : a.1 :: R = (s ++ [b.1]) ++ H := by rw [hsH]; simp
  rw [hspl]
  rw [hspl] at hpw
  have hpw2 := List.pairwise_append.mp hpw.2.1
  have hHgt : ∀ d ∈ H, b.1 < d := fun d hd => hpw2.2.2 b.1 (by simp) d hd
  have hFle : ∀ d ∈ s ++ [b.1], a.1 ≤ d ∧ d ≤ b.1 := by
    intro d hd
    constructor
    · have hmem' : d ∈ a.1 :: R := by rw [hspl]; exact List.mem_append_left _ hd
      rcases List.mem_cons.mp hmem' with rfl | h
      · exact Int.le_refl _
      · have h5 : (a.1 :: R).Pairwise (· < ·) := by rw [hspl]; exact hpw.2.1
        have := (List.pairwise_cons.mp h5).1 d h
        omega
    · rcases List.mem_append.mp hd with h | h
      · have := (List.pairwise_append.mp hpw2.1).2.2 d h b.1 (by simp); exact Int.le_of_lt this
      · exact Int.le_of_eq (List.mem_singleton.mp h)
  have hab := hamin b hb
  have hF : ∀ d ∈ s ++ [b.1], (innerValue pillars d).isSome :=
    fun d hd => innerValue_inside hn ha hb (hFle d hd).1 (hFle d hd).2
  have hhead : (s ++ [b.1]).head? = some a.1 := by
    have : ((s ++ [b.1]) ++ H).head? = some a.1 := by rw [← hspl]; rfl
    cases s with
    | nil => exact this
    | cons c t => exact this
  have := fill_spec (A := A) (F := s ++ [b.1]) (H := H) (a := a.1) (b := b.1) (g := innerValue pillars)
    (fun d hd => innerValue_before (fun p hp => by have := hAlt d hd; have := hamin p hp; omega))
    (fun d hd => innerValue_after (fun p hp => by have := hHgt d hd; have := hbmax p hp; omega)) hF hhead (by simp)
  rw [← List.append_assoc, this, List.map_append (l₁ := A ++ (s ++ [b.1])), List.map_append (l₁ := A)]
  congr 1
  · congr 1
    · apply List.map_congr_left
      intro d hd
      unfold filledValue
      rw [if_pos (hAlt d hd)]
    · apply List.map_congr_left
      intro d hd
      have := hFle d hd
      unfold filledValue
      rw [if_neg (by omega), if_neg (by omega)]
  · apply List.map_congr_left
    intro d hd
    have := hHgt d hd
    unfold filledValue
    rw [if_neg (by omega), if_pos (hHgt d hd)]

theorem mem_quotedPillars {pillars : List (Int × Option Rat)} {p : Int × Rat} : p ∈ quotedPillars pillars ↔ (p.1, some p.2) ∈ pillars := by
  unfold quotedPillars
  rw [List.mem_filterMap]
  constructor
  · rintro ⟨⟨d, v⟩, h, hv⟩
    cases v with
    | none => cases hv
    | some v =>
      simp only [Option.map_some, Option.some.injEq] at hv
      rw [← hv]; exact h
  · intro h; exact ⟨_, h, rfl⟩

theorem quotedPillars_nodup {pillars : List (Int × Option Rat)} (hn : (pillars.map (·.1)).Nodup) :
    ((quotedPillars pillars).map (·.1)).Nodup := by
  induction pillars with
  | nil => exact List.nodup_nil
  | cons a t ih =>
    obtain ⟨d, v⟩ := a
    rw [List.map_cons, List.nodup_cons] at hn
    cases v with
    | none => exact ih hn.2
    | some v =>
      show (d :: (quotedPillars t).map (·.1)).Nodup
      refine List.nodup_cons.2 ⟨fun h => hn.1 ?_, ih hn.2⟩
      obtain ⟨r, hr, rfl⟩ := List.mem_map.1 h
      exact List.mem_map.2 ⟨_, mem_quotedPillars.1 hr, rfl⟩

theorem lookup_quoted {pillars : List (Int × Option Rat)} (hn : (pillars.map (·.1)).Nodup) (d : Int) :
    (pillars.lookup d).join = (quotedPillars pillars).lookup d := by
  induction pillars with
  | nil => rfl
  | cons a t ih =>
    obtain ⟨e, v⟩ := a
    rw [List.map_cons, List.nodup_cons] at hn
    rw [List.lookup_cons]
    by_cases hd : d = e
    · subst hd
      simp only [beq_self_eq_true]
      cases v with
      | none =>
        show none = (quotedPillars t).lookup d
        refine (lookup_no_pillar (fun h => hn.1 ?_)).symm
        obtain ⟨r, hr, rfl⟩ := List.mem_map.1 h
        exact List.mem_map.2 ⟨_, mem_quotedPillars.1 hr, rfl⟩
      | some v =>
        show some v = List.lookup d ((d, v) :: quotedPillars t)
        simp
    · have hb : (d == e) = false := by simpa using hd
      rw [hb]
      cases v with
      | none => exact ih hn.2
      | some v =>
        show _ = List.lookup d ((e, v) :: quotedPillars t)
        rw [List.lookup_cons, hb]
        exact ih hn.2

theorem quotedPillars_some (pillars : List (Int × Rat)) : quotedPillars (pillars.map (fun p => (p.1, some p.2))) = pillars := by
  induction pillars with
  | nil => rfl
  | cons a t ih => show (a.1, a.2) :: quotedPillars _ = _; rw [ih]

theorem map_fst_some (pillars : List (Int × Rat)) : (pillars.map (fun p => (p.1, some p.2))).map (·.1) = pillars.map (·.1) := by
  rw [List.map_map]; rfl

theorem forwards_noflat {pillars : List (Int × Option Rat)} (hn : (pillars.map (·.1)).Nodup) (dates : List Int) :
    interpFxForwards pillars dates false = .ok (dates.map (innerValue (quotedPillars pillars))) := by
  unfold interpFxForwards
  rw [if_neg (fun h => h hn)]
  simp only [Bool.false_eq_true, if_false, Except.ok.injEq, lookup_quoted hn]
  apply List.map_congr_left
  intro d hd
  have := lookup_map (l := combinedDates pillars dates) (g := innerValue (quotedPillars pillars)) (((combinedDates_spec pillars dates).2 d).mpr (.inl hd))
  show (List.lookup d ((combinedDates pillars dates).map (fun d => (d, innerValue (quotedPillars pillars) d)))).join = _
  rw [this]; rfl

theorem forwards_flat {pillars : List (Int × Option Rat)} (hn : (pillars.map (·.1)).Nodup) {a b : Int × Rat} (ha : a ∈ quotedPillars pillars)
    (hb : b ∈ quotedPillars pillars) (hamin : ∀ p ∈ quotedPillars pillars, a.1 ≤ p.1) (hbmax : ∀ p ∈ quotedPillars pillars, p.1 ≤ b.1) (dates : List Int) :
    interpFxForwards pillars dates true = .ok (dates.map (filledValue (quotedPillars pillars) a.1 b.1)) := by
  obtain ⟨hs, hmem⟩ := combinedDates_spec pillars dates
  have haI : a.1 ∈ combinedDates pillars dates := (hmem _).mpr (.inr (List.mem_map.2 ⟨_, mem_quotedPillars.1 ha, rfl⟩))
  have hbI : b.1 ∈ combinedDates pillars dates := (hmem _).mpr (.inr (List.mem_map.2 ⟨_, mem_quotedPillars.1 hb, rfl⟩))
  unfold interpFxForwards
  rw [if_neg (fun h => h hn)]
  simp only [if_true, Except.ok.injEq, lookup_quoted hn]
  apply List.map_congr_left
  intro d hd
  show (List.lookup d (bfill (ffill none ((combinedDates pillars dates).map (fun d => (d, innerValue (quotedPillars pillars) d)))))).join = _
  rw [fill_index (quotedPillars_nodup hn) ha hb hamin hbmax hs haI hbI, lookup_map ((hmem d).mpr (.inl hd))]
  rfl

/-- With no forward at all there is nothing to fill from. -/
theorem forwards_none {pillars : List (Int × Option Rat)} (hn : (pillars.map (·.1)).Nodup) (hq : quotedPillars pillars = []) (dates : List Int) (flat : Bool) :
    interpFxForwards pillars dates flat = .ok (dates.map (fun _ => none)) := by
  have hin : ∀ d, innerValue (quotedPillars pillars) d = none := fun d => by rw [hq]; rfl
  cases flat with
  | false => rw [forwards_noflat hn, List.map_congr_left (fun d _ => hin d)]
  | true =>
    unfold interpFxForwards
    rw [if_neg (fun h => h hn)]
    simp only [if_true, Except.ok.injEq, lookup_quoted hn]
    apply List.map_congr_left
    intro d hd
    show (List.lookup d (bfill (ffill none ((combinedDates pillars dates).map (fun d => (d, innerValue (quotedPillars pillars) d)))))).join = _
    rw [(ffill_none none _ _ (fun d _ => hin d)).1]
    unfold bfill
    rw [← List.map_reverse, (ffill_none none _ (fun _ => none) (fun _ _ => rfl)).1, ← List.map_reverse, List.reverse_reverse,
      lookup_map (g := fun _ => none) (((combinedDates_spec pillars dates).2 d).mpr (.inl hd))]
    rfl

theorem interp_noflat {pillars : List (Int × Rat)} (hn : (pillars.map (·.1)).Nodup) (dates : List Int) :
    interpFxForwardCurve pillars dates false = .ok (dates.map (innerValue pillars)) := by
  have := forwards_noflat (pillars := pillars.map (fun p => (p.1, some p.2))) (by rw [map_fst_some]; exact hn) dates
  rw [quotedPillars_some] at this
  exact this

theorem interp_flat {pillars : List (Int × Rat)} (hn : (pillars.map (·.1)).Nodup) {a b : Int × Rat} (ha : a ∈ pillars) (hb : b ∈ pillars)
    (hamin : ∀ p ∈ pillars, a.1 ≤ p.1) (hbmax : ∀ p ∈ pillars, p.1 ≤ b.1) (dates : List Int) :
    interpFxForwardCurve pillars dates true = .ok (dates.map (filledValue pillars a.1 b.1)) := by
  have := forwards_flat (pillars := pillars.map (fun p => (p.1, some p.2))) (by rw [map_fst_some]; exact hn) (a := a) (b := b)
    (by rw [quotedPillars_some]; exact ha) (by rw [quotedPillars_some]; exact hb)
    (by rw [quotedPillars_some]; exact hamin) (by rw [quotedPillars_some]; exact hbmax) dates
  rw [quotedPillars_some] at this
  exact this

end Frm
