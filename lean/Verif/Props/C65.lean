import Verif.Model.FxSurface
import Verif.Props.C51

/-!
# C65: what a volatility surface answers does not depend on what it was asked before
-/

namespace Frm
namespace Spec
open Classical

set_option autoImplicit false

/-- What a user can ask a surface: volatilities (`interp_vol_surface`), prices (`price_vanilla_european`), or only the smiles of some
expiries (`plot_smile`). -/
inductive SurfaceQuery
  | vols (expiries : List Int) (strikes flags : List ℝ)
  | prices (expiries : List Int) (strikes flags : List ℝ)
  | smiles (expiries : List Int)

/-- What the surface answers. -/
inductive SurfaceAnswer
  | vols (points : List SurfacePoint)
  | prices (values : List (Option GkValue))
  | done

/-- One query. -/
noncomputable def ask (S : FxSurface) (sv : FxSolvers) (st : SmileState) : SurfaceQuery → SmileState × Except Err SurfaceAnswer
  | .vols ds Ks cps => let r := interpVolSurface S sv st ds Ks cps; (r.1, r.2.map .vols)
  | .prices ds Ks cps => let r := priceVanilla S sv st ds Ks cps; (r.1, r.2.map .prices)
  | .smiles ds => let r := solveSmiles S sv st ds; (r.1, r.2.map (fun _ => .done))

/-- The surface after some queries, in order, whether or not they raised. -/
noncomputable def history (S : FxSurface) (sv : FxSolvers) (qs : List SurfaceQuery) : SmileState :=
  qs.foldl (fun st q => (ask S sv st q).1) .fresh

end Spec
end Frm

namespace Frm.Props
open Classical

set_option autoImplicit false

open Frm Frm.Spec

/-- Everything stored is what would be computed afresh. -/
def CacheOk (S : FxSurface) (sv : FxSolvers) (st : SmileState) : Prop := ∀ d f, st.get d = some f → solveDay S sv d = .ok f

/-- The first exception, if any. -/
noncomputable def firstErr {α : Type} (f : Int → Except Err α) : List Int → Except Err Unit
  | [] => .ok ()
  | d :: ds => match f d with | .error e => .error e | .ok _ => firstErr f ds

theorem firstErr_filter {α : Type} (f : Int → Except Err α) {d : Int} {a : α} (h : f d = .ok a) (ds : List Int) :
    firstErr f (ds.filter (fun e => e ≠ d)) = firstErr f ds := by
  induction ds with
  | nil => rfl
  | cons e ds ih =>
    by_cases he : e = d
    · subst he
      rw [List.filter_cons_of_neg (by simp), ih]
      simp only [firstErr, h]
    · rw [List.filter_cons_of_pos (by simpa using he)]
      simp only [firstErr, ih]

theorem firstErr_unique {α : Type} (f : Int → Except Err α) (ds : List Int) : firstErr f (uniqueDates ds) = firstErr f ds := by
  induction ds with
  | nil => rfl
  | cons d ds ih =>
    simp only [uniqueDates, firstErr]
    cases h : f d with
    | error e => rfl
    | ok a => simp only; rw [firstErr_filter f h, ih]

theorem mem_uniqueDates {d : Int} (ds : List Int) : d ∈ uniqueDates ds ↔ d ∈ ds := by
  induction ds with
  | nil => simp [uniqueDates]
  | cons e ds ih =>
    simp only [uniqueDates, List.mem_cons, List.mem_filter, ih]
    by_cases h : d = e <;> simp [h]

theorem get_cons (st : SmileState) (d e : Int) (f : Smile) (l : List (Int × Bool)) :
    SmileState.get ⟨(d, f) :: st.cache, l⟩ e = if d = e then some f else st.get e := by
  unfold SmileState.get
  by_cases h : d = e
  · simp [h]
  · rw [if_neg h, List.find?_cons_of_neg (by simpa using h)]

/-- What the loop does. -/
structure LoopSpec (S : FxSurface) (sv : FxSolvers) (st : SmileState) (ds : List Int) (st' : SmileState) (r : Except Err Unit) : Prop where
  result : r = firstErr (solveDay S sv) ds
  cacheOk : CacheOk S sv st'
  kept : ∀ d f, st.get d = some f → st'.get d = some f
  all : r = .ok () → ∀ d ∈ ds, ∃ f, st'.get d = some f
  log : ∃ new, st'.log = st.log ++ new ∧ (∀ e ∈ new, st.get e.1 = none) ∧
    ((new.filter (fun e => e.2 = true)).map (·.1)).Nodup ∧
    (∀ d, (d, true) ∈ new ↔ st.get d = none ∧ ∃ f, st'.get d = some f)

theorem solveLoop_spec (S : FxSurface) (sv : FxSolvers) : ∀ (ds : List Int) (st : SmileState), CacheOk S sv st →
    LoopSpec S sv st ds (solveLoop S sv st ds).1 (solveLoop S sv st ds).2
  | [], st, h => by
    refine ⟨rfl, h, fun _ _ h => h, fun _ d hd => (by cases hd), [], by simp [solveLoop], by simp, by simp, fun d => ?_⟩
    simp only [solveLoop, List.not_mem_nil, false_iff, not_and, not_exists]
    intro h0 f hf
    rw [h0] at hf
    cases hf
  | d :: ds, st, h => by
    cases hg : st.get d with
    | some f =>
      have e : solveLoop S sv st (d :: ds) = solveLoop S sv st ds := by simp only [solveLoop, hg]
      rw [e]
      have ih := solveLoop_spec S sv ds st h
      refine ⟨?_, ih.cacheOk, ih.kept, ?_, ih.log⟩
      · rw [ih.result]
        simp only [firstErr, h d f hg]
      · intro hr e he
        rcases List.mem_cons.1 he with rfl | he
        · exact ⟨f, ih.kept _ _ hg⟩
        · exact ih.all hr e he
    | none =>
      cases hs : solveDay S sv d with
      | error e =>
        have e' : solveLoop S sv st (d :: ds) = (⟨st.cache, st.log ++ [(d, false)]⟩, .error e) := by simp only [solveLoop, hg, hs]
        rw [e']
        refine ⟨by simp only [firstErr, hs], h, fun _ _ h => h, fun hr => (by cases hr), [(d, false)], rfl, ?_, by simp, ?_⟩
        · intro x hx
          rw [List.mem_singleton.1 hx]
          exact hg
        · intro x
          simp only [List.mem_singleton, Prod.mk.injEq, Bool.true_eq_false, and_false, false_iff, not_and, not_exists]
          intro h0 f hf
          have : st.get x = some f := hf
          rw [h0] at this
          cases this
      | ok smile =>
        have e' : solveLoop S sv st (d :: ds) = solveLoop S sv ⟨(d, smile) :: st.cache, st.log ++ [(d, true)]⟩ ds := by
          simp only [solveLoop, hg, hs]
        rw [e']
        have hget := fun e => get_cons st d e smile (st.log ++ [(d, true)])
        have h' : CacheOk S sv ⟨(d, smile) :: st.cache, st.log ++ [(d, true)]⟩ := by
          intro e f hf
          rw [hget] at hf
          by_cases hde : d = e
          · rw [if_pos hde] at hf
            cases hf
            rw [← hde, hs]
          · rw [if_neg hde] at hf
            exact h e f hf
        have ih := solveLoop_spec S sv ds _ h'
        have hkd := ih.kept d smile (by rw [hget, if_pos rfl])
        obtain ⟨new, hlog, hnew, hnd, hiff⟩ := ih.log
        have hne : ∀ e ∈ new, e.1 ≠ d := by
          intro e he hed
          have := hnew e he
          rw [hget, if_pos hed.symm] at this
          cases this
        refine ⟨?_, ih.cacheOk, ?_, ?_, (d, true) :: new, ?_, ?_, ?_, ?_⟩
        · rw [ih.result]
          simp only [firstErr, hs]
        · intro e f hf
          refine ih.kept e f ?_
          rw [hget, if_neg ?_]
          · exact hf
          · intro hde
            rw [← hde, hg] at hf
            cases hf
        · intro hr e he
          rcases List.mem_cons.1 he with rfl | he
          · exact ⟨_, hkd⟩
          · exact ih.all hr e he
        · rw [hlog]
          simp
        · intro e he
          rcases List.mem_cons.1 he with rfl | he
          · exact hg
          · have := hnew e he
            rwa [hget, if_neg (fun h => hne e he h.symm)] at this
        · rw [List.filter_cons_of_pos (by simp), List.map_cons, List.nodup_cons]
          refine ⟨?_, hnd⟩
          intro hm
          obtain ⟨e, he, hed⟩ := List.mem_map.1 hm
          exact hne e (List.mem_filter.1 he).1 hed
        · intro e
          rw [List.mem_cons]
          constructor
          · rintro (he | he)
            · cases he
              exact ⟨hg, _, hkd⟩
            · obtain ⟨h1, h2⟩ := (hiff e).1 he
              rw [hget, if_neg (fun h => hne _ he h.symm)] at h1
              exact ⟨h1, h2⟩
          · rintro ⟨h1, h2⟩
            by_cases hde : d = e
            · subst hde; exact Or.inl rfl
            · refine Or.inr ((hiff e).2 ⟨?_, h2⟩)
              rw [hget, if_neg hde]
              exact h1

theorem solveSmiles_spec {S : FxSurface} {sv : FxSolvers} {st : SmileState} (h : CacheOk S sv st) (ds : List Int) :
    LoopSpec S sv st ds (solveSmiles S sv st ds).1 (solveSmiles S sv st ds).2 := by
  have hs := solveLoop_spec S sv (uniqueDates ds) st h
  refine ⟨?_, hs.cacheOk, hs.kept, fun hr d hd => hs.all hr d ((mem_uniqueDates ds).2 hd), hs.log⟩
  rw [← firstErr_unique]
  exact hs.result

/-- The smiles stored by any query are those of `solveSmiles`, or nothing happened. -/
theorem ask_state (S : FxSurface) (sv : FxSolvers) (st : SmileState) (q : SurfaceQuery) :
    (ask S sv st q).1 = st ∨ ∃ ds, (ask S sv st q).1 = (solveSmiles S sv st ds).1 := by
  have hv : ∀ ds Ks cps, (interpVolSurface S sv st ds Ks cps).1 = st ∨ (interpVolSurface S sv st ds Ks cps).1 = (solveSmiles S sv st ds).1 := by
    intro ds Ks cps
    unfold interpVolSurface
    by_cases hl : ds.length ≠ Ks.length ∨ ds.length ≠ cps.length
    · rw [if_pos hl]; exact Or.inl rfl
    · rw [if_neg hl]
      right
      cases hs : solveSmiles S sv st ds with
      | mk st' r => cases r <;> rfl
  cases q with
  | vols ds Ks cps => exact (hv ds Ks cps).imp id (fun h => ⟨ds, h⟩)
  | prices ds Ks cps =>
    have hp : (priceVanilla S sv st ds Ks cps).1 = (interpVolSurface S sv st ds Ks cps).1 := by
      unfold priceVanilla
      cases hi : interpVolSurface S sv st ds Ks cps with
      | mk st' r =>
        cases r with
        | error e => rfl
        | ok pts =>
          simp only
          cases garmanKohlhagenPrice (pts.map (surfaceGkRow S)) <;> rfl
    show (priceVanilla S sv st ds Ks cps).1 = st ∨ ∃ ds', (priceVanilla S sv st ds Ks cps).1 = _
    rw [hp]
    exact (hv ds Ks cps).imp id (fun h => ⟨ds, h⟩)
  | smiles ds => exact Or.inr ⟨ds, rfl⟩

theorem ask_cacheOk {S : FxSurface} {sv : FxSolvers} {st : SmileState} (h : CacheOk S sv st) (q : SurfaceQuery) :
    CacheOk S sv (ask S sv st q).1 := by
  rcases ask_state S sv st q with e | ⟨ds, e⟩ <;> rw [e]
  · exact h
  · exact (solveSmiles_spec h ds).cacheOk

theorem fresh_cacheOk (S : FxSurface) (sv : FxSolvers) : CacheOk S sv .fresh := by
  intro d f hf
  cases hf

theorem history_snoc (S : FxSurface) (sv : FxSolvers) (qs : List SurfaceQuery) (q : SurfaceQuery) :
    history S sv (qs ++ [q]) = (ask S sv (history S sv qs) q).1 := by simp [history]

theorem history_cacheOk (S : FxSurface) (sv : FxSolvers) (qs : List SurfaceQuery) : CacheOk S sv (history S sv qs) := by
  induction qs using List.reverseRecOn with
  | nil => exact fresh_cacheOk S sv
  | append_singleton qs q ih => rw [history_snoc]; exact ask_cacheOk ih q

/-- The answer about volatilities, without a cache. -/
noncomputable def freshPoint (S : FxSurface) (sv : FxSolvers) (d : Int) (K cp : ℝ) : Except Err SurfacePoint :=
  match dayOf S d, solveDay S sv d with
  | some day, .ok smile =>
    match smileVol S sv smile day K cp with
    | .error e => .error e
    | .ok v => .ok ⟨day, K, cp, v⟩
  | _, _ => .error .key

theorem mapM_congr {α β : Type} {f g : α → Except Err β} : ∀ {l : List α}, (∀ x ∈ l, f x = g x) → l.mapM f = l.mapM g
  | [], _ => rfl
  | a :: l, h => by
    simp only [List.mapM_cons, h a List.mem_cons_self, mapM_congr (fun x hx => h x (List.mem_cons_of_mem _ hx))]

theorem interp_fresh {S : FxSurface} {sv : FxSolvers} {st : SmileState} (h : CacheOk S sv st) (ds : List Int) (Ks cps : List ℝ) :
    (interpVolSurface S sv st ds Ks cps).2 =
      if ds.length ≠ Ks.length ∨ ds.length ≠ cps.length then .error .assertion
      else match firstErr (solveDay S sv) ds with
        | .error e => .error e
        | .ok () => (ds.zip (Ks.zip cps)).mapM (fun o => freshPoint S sv o.1 o.2.1 o.2.2) := by
  unfold interpVolSurface
  by_cases hl : ds.length ≠ Ks.length ∨ ds.length ≠ cps.length
  · rw [if_pos hl, if_pos hl]
  · rw [if_neg hl, if_neg hl]
    have hs := solveSmiles_spec h ds
    rw [← hs.result]
    cases he : solveSmiles S sv st ds with
    | mk st' r =>
      rw [he] at hs
      cases r with
      | error e => rfl
      | ok u =>
        simp only
        refine mapM_congr (fun o ho => ?_)
        have hd : o.1 ∈ ds := (List.of_mem_zip (show (o.1, o.2) ∈ ds.zip (Ks.zip cps) from ho)).1
        obtain ⟨f, hf⟩ := hs.all rfl o.1 hd
        have hok := hs.cacheOk _ _ hf
        unfold surfacePoint freshPoint
        rw [hok]
        simp only at hf
        rw [hf]
        cases dayOf S o.1 <;> rfl

/-- **C65.**  Whatever was asked before, and whether or not it raised, the surface answers a query as a new surface would: the same
volatilities, prices or exception. -/
theorem C65_history (S : FxSurface) (sv : FxSolvers) (before : List SurfaceQuery) (q : SurfaceQuery) :
    (ask S sv (history S sv before) q).2 = (ask S sv .fresh q).2 := by
  have h1 := history_cacheOk S sv before
  have h0 := fresh_cacheOk S sv
  have hi : ∀ ds Ks cps, (interpVolSurface S sv (history S sv before) ds Ks cps).2 = (interpVolSurface S sv .fresh ds Ks cps).2 :=
    fun ds Ks cps => (interp_fresh h1 ds Ks cps).trans (interp_fresh h0 ds Ks cps).symm
  cases q with
  | vols ds Ks cps => exact congrArg (Except.map SurfaceAnswer.vols) (hi ds Ks cps)
  | prices ds Ks cps =>
    refine congrArg (Except.map SurfaceAnswer.prices) ?_
    have hh := hi ds Ks cps
    unfold priceVanilla
    cases e1 : interpVolSurface S sv (history S sv before) ds Ks cps with
    | mk st1 r1 =>
      cases e0 : interpVolSurface S sv .fresh ds Ks cps with
      | mk st0 r0 =>
        rw [e1, e0] at hh
        simp only at hh
        subst hh
        cases r1 with
        | error e => rfl
        | ok pts =>
          simp only
          cases garmanKohlhagenPrice (pts.map (surfaceGkRow S)) <;> rfl
  | smiles ds =>
    refine congrArg (Except.map _) ?_
    rw [(solveSmiles_spec h1 ds).result, (solveSmiles_spec h0 ds).result]

/-- What happens to the state in one query. -/
theorem ask_spec {S : FxSurface} {sv : FxSolvers} {st : SmileState} (h : CacheOk S sv st) (q : SurfaceQuery) :
    (∀ d f, st.get d = some f → (ask S sv st q).1.get d = some f) ∧
    ∃ new, (ask S sv st q).1.log = st.log ++ new ∧ (∀ e ∈ new, st.get e.1 = none) ∧
      ((new.filter (fun e => e.2 = true)).map (·.1)).Nodup ∧
      (∀ d, (d, true) ∈ new ↔ st.get d = none ∧ ∃ f, (ask S sv st q).1.get d = some f) := by
  rcases ask_state S sv st q with e | ⟨ds, e⟩ <;> rw [e]
  · refine ⟨fun _ _ h => h, [], by simp, by simp, by simp, fun d => ?_⟩
    simp only [List.not_mem_nil, false_iff, not_and, not_exists]
    intro h0 f hf
    rw [h0] at hf
    cases hf
  · exact ⟨(solveSmiles_spec h ds).kept, (solveSmiles_spec h ds).log⟩

/-- **C65.**  A smile that was stored is never removed or replaced. -/
theorem C65_kept (S : FxSurface) (sv : FxSolvers) (before after : List SurfaceQuery) (d : Int) (f : Smile)
    (h : (history S sv before).get d = some f) : (history S sv (before ++ after)).get d = some f := by
  induction after using List.reverseRecOn with
  | nil => simpa using h
  | append_singleton after q ih =>
    rw [← List.append_assoc, history_snoc]
    exact (ask_spec (history_cacheOk S sv _) q).1 d f ih

/-- **C65.**  No smile is computed for an expiry that has one: a query only computes smiles of expiries without one. -/
theorem C65_not_recomputed (S : FxSurface) (sv : FxSolvers) (before : List SurfaceQuery) (q : SurfaceQuery) :
    ∃ new, (history S sv (before ++ [q])).log = (history S sv before).log ++ new ∧ ∀ e ∈ new, (history S sv before).get e.1 = none := by
  rw [history_snoc]
  obtain ⟨-, new, h1, h2, -⟩ := ask_spec (history_cacheOk S sv before) q
  exact ⟨new, h1, h2⟩

theorem log_inv (S : FxSurface) (sv : FxSolvers) (qs : List SurfaceQuery) :
    (((history S sv qs).log.filter (fun e => e.2 = true)).map (·.1)).Nodup ∧
    ∀ d, (d, true) ∈ (history S sv qs).log ↔ ∃ f, (history S sv qs).get d = some f := by
  induction qs using List.reverseRecOn with
  | nil => exact ⟨by simp [history, SmileState.fresh], fun d => by simp [history, SmileState.fresh, SmileState.get]⟩
  | append_singleton qs q ih =>
    rw [history_snoc]
    obtain ⟨hk, new, h1, h2, h3, h4⟩ := ask_spec (history_cacheOk S sv qs) q
    rw [h1]
    constructor
    · rw [List.filter_append, List.map_append, List.nodup_append]
      refine ⟨ih.1, h3, ?_⟩
      intro a ha b hb hab
      subst hab
      obtain ⟨x, hx, rfl⟩ := List.mem_map.1 ha
      obtain ⟨y, hy, hyx⟩ := List.mem_map.1 hb
      obtain ⟨hx1, hx2⟩ := List.mem_filter.1 hx
      have hxt : (x.1, true) ∈ (history S sv qs).log := by
        have : x = (x.1, true) := Prod.ext rfl (by simpa using hx2)
        rwa [← this]
      obtain ⟨f, hf⟩ := (ih.2 x.1).1 hxt
      have := h2 y (List.mem_filter.1 hy).1
      rw [hyx, hf] at this
      cases this
    · intro d
      rw [List.mem_append, ih.2, h4]
      constructor
      · rintro (⟨f, hf⟩ | ⟨-, h⟩)
        · exact ⟨f, hk d f hf⟩
        · exact h
      · rintro ⟨f, hf⟩
        cases hg : (history S sv qs).get d with
        | none => exact Or.inr ⟨rfl, f, hf⟩
        | some g => exact Or.inl ⟨g, rfl⟩

/-- **C65.**  In any history the smile of an expiry is computed successfully at most once, and exactly once if one is stored. -/
theorem C65_once (S : FxSurface) (sv : FxSolvers) (qs : List SurfaceQuery) (d : Int) :
    (history S sv qs).log.count (d, true) = if (∃ f, (history S sv qs).get d = some f) then 1 else 0 := by
  obtain ⟨hn, hi⟩ := log_inv S sv qs
  have hle : (history S sv qs).log.count (d, true) ≤ 1 := by
    have e : (history S sv qs).log.count (d, true) = ((history S sv qs).log.filter (fun e => e.2 = true)).count (d, true) := by
      rw [List.count_filter (by simp)]
    rw [e]
    refine le_trans ?_ (List.nodup_iff_count_le_one.1 hn d)
    exact List.count_le_count_map (f := Prod.fst) (x := (d, true))
  by_cases h : ∃ f, (history S sv qs).get d = some f
  · rw [if_pos h]
    have := List.count_pos_iff.2 ((hi d).2 h)
    omega
  · rw [if_neg h]
    exact List.count_eq_zero.2 (fun hm => h ((hi d).1 hm))

/-- **C65, the exception.**  A smile stays after the interpolation method of the surface is changed.  Between the two splines it goes on being
used in silence; between a spline and a Heston method it raises `TypeError`. -/
theorem C65_method_change (S : FxSurface) (sv : FxSolvers) (st : SmileState) (ds : List Int) (Ks cps : List ℝ)
    (hl : ds.length = Ks.length ∧ ds.length = cps.length) (hne : ds ≠ []) (hday : ∀ d ∈ ds, ∃ day, dayOf S d = some day)
    (hs : ∀ d ∈ ds, ∃ f, st.get d = some (.spline f)) :
    interpVolSurface { S with method := .univariate } sv st ds Ks cps = interpVolSurface { S with method := .cubic } sv st ds Ks cps ∧
    ∀ m, interpVolSurface { S with method := .heston m } sv st ds Ks cps = (st, .error .type) := by
  have hloop : ∀ (T : FxSurface) (l : List Int), (∀ d ∈ l, ∃ f, st.get d = some (.spline f)) → solveLoop T sv st l = (st, .ok ()) := by
    intro T l
    induction l with
    | nil => intro _; rfl
    | cons d l ih =>
      intro h
      obtain ⟨f, hf⟩ := h d List.mem_cons_self
      simp only [solveLoop, hf]
      exact ih (fun e he => h e (List.mem_cons_of_mem _ he))
  have hsol : ∀ T, solveSmiles T sv st ds = (st, .ok ()) := fun T => hloop T _ (fun d hd => hs d ((mem_uniqueDates ds).1 hd))
  have hnl : ¬ (ds.length ≠ Ks.length ∨ ds.length ≠ cps.length) := by
    rintro (h | h)
    exacts [h hl.1, h hl.2]
  have hint : ∀ T, interpVolSurface T sv st ds Ks cps =
      (st, (ds.zip (Ks.zip cps)).mapM (fun o => surfacePoint T sv st o.1 o.2.1 o.2.2)) := by
    intro T
    unfold interpVolSurface
    rw [if_neg hnl, hsol T]
  constructor
  · rw [hint, hint]
    congr 1
    refine mapM_congr (fun o ho => ?_)
    have hd : o.1 ∈ ds := (List.of_mem_zip (show (o.1, o.2) ∈ ds.zip (Ks.zip cps) from ho)).1
    obtain ⟨f, hf⟩ := hs o.1 hd
    obtain ⟨day, hday⟩ := hday o.1 hd
    have e1 : ∀ m, dayOf { S with method := m } o.1 = some day := fun _ => hday
    unfold surfacePoint
    simp only [e1, hf]
    rfl
  · intro m
    rw [hint]
    congr 1
    cases ds with
    | nil => exact absurd rfl hne
    | cons d ds =>
      cases Ks with
      | nil => cases hl.1
      | cons K Ks =>
        cases cps with
        | nil => cases hl.2
        | cons cp cps =>
          obtain ⟨f, hf⟩ := hs d List.mem_cons_self
          obtain ⟨day, hday⟩ := hday d List.mem_cons_self
          have e1 : dayOf { S with method := SmileMethod.heston m } d = some day := hday
          have hp : surfacePoint { S with method := SmileMethod.heston m } sv st d K cp = .error .type := by
            unfold surfacePoint
            simp only [e1, hf]
            rfl
          simp only [List.zip_cons_cons, List.mapM_cons, hp]
          rfl

/-! ### A surface with one expiry and three quotes -/

/-- Every quote of the forward convention has a strike. -/
theorem forward_strikes (m : StrikeMarket) (quotes : List DeltaQuote) (h : ∀ q ∈ quotes, q.delta ≠ 0 ∧ |q.delta| < 1) :
    ∃ Ks : List ℝ, Ks.length = quotes.length ∧ (quotes.map (regularStrike m false .forward)).mapM id = some Ks := by
  induction quotes with
  | nil => exact ⟨[], rfl, rfl⟩
  | cons q qs ih =>
    obtain ⟨Ks, hl, hK⟩ := ih (fun x hx => h x (List.mem_cons_of_mem _ hx))
    have hq : ∃ K, regularStrike m false .forward q = some K := by
      by_cases ha : |q.delta| = 0.5
      · exact ⟨m.forward * Real.exp (0.5 * q.vol ^ 2 * m.tau), by unfold regularStrike; simp only [ha, true_and, if_true]⟩
      · obtain ⟨h0, h1⟩ := h q List.mem_cons_self
        rw [regular_eq (fun hc => ha hc.1), (npSign_cases h0).2]
        obtain ⟨z, hz⟩ := normPpf_of (abs_pos.2 h0) h1
        simp only [Bool.false_eq_true, if_false, hz]
        exact ⟨_, rfl⟩
    obtain ⟨K, hK1⟩ := hq
    refine ⟨K :: Ks, by simp [hl], ?_⟩
    simp only [List.map_cons, List.mapM_cons, id, hK1, Option.bind_eq_bind, Option.bind_some]
    rw [hK]
    rfl

/-- An expiry in a year with three quotes. -/
noncomputable def sampleDay : SmileDay := ⟨738000, 1, 1.1, 0.03, 0.02, .regularForward, [.fin 0.12, .fin 0.1, .fin 0.11]⟩

/-- A surface with that expiry. -/
noncomputable def sampleSurface : FxSurface := ⟨1.1, [-0.25, 0.5, 0.25], [-1, 1, 1], [sampleDay], .univariate⟩

/-- Solvers of which only the splines return something. -/
noncomputable def sampleSolvers (f : ℝ → Option ℝ) : FxSolvers :=
  ⟨fun _ _ => .error .runtime, fun _ _ => .error .value, fun _ _ => .error .value, fun _ _ => .error .value, fun _ _ _ => .ok f, fun _ _ => .ok f⟩

theorem sample_solveDay (f : ℝ → Option ℝ) : solveDay sampleSurface (sampleSolvers f) 738000 = .ok (.spline f) := by
  have hd : dayOf sampleSurface 738000 = some sampleDay := by
    simp [dayOf, sampleSurface, sampleDay]
  have hq : ∀ q ∈ (sampleDay.vols.zip sampleSurface.deltas).map (fun p => (⟨volNumber p.1, p.2⟩ : DeltaQuote)),
      0 < q.vol ∧ -0.5 ≤ q.delta ∧ q.delta ≤ 0.5 ∧ q.delta ≠ 0 ∧ |q.delta| < 1 := by
    simp only [sampleDay, sampleSurface, List.zip_cons_cons, List.zip_nil_right, List.map_cons, List.map_nil, volNumber, List.mem_cons,
      List.not_mem_nil, or_false]
    rintro q (rfl | rfl | rfl) <;> norm_num [abs_lt]
  obtain ⟨Ks, -, hK⟩ := forward_strikes ⟨sampleSurface.spot, sampleDay.years, sampleDay.rd, sampleDay.rf, some sampleDay.fwd⟩ _
    (fun q hqm => (hq q hqm).2.2.2)
  have hs : dayStrikes sampleSurface (sampleSolvers f) sampleDay = .ok (((sampleDay.vols.zip sampleSurface.deltas).map
      (fun p => (⟨volNumber p.1, p.2⟩ : DeltaQuote))).map
      (regularStrike ⟨sampleSurface.spot, sampleDay.years, sampleDay.rd, sampleDay.rf, some sampleDay.fwd⟩ false .forward)) := by
    unfold dayStrikes gkStrikeFromDelta
    rw [if_neg]
    · rfl
    · rintro (h | ⟨q, hqm, h⟩)
      · apply h
        refine ⟨by norm_num [sampleSurface], by norm_num [sampleDay], ?_⟩
        rintro F hF
        cases hF
        norm_num [sampleDay]
      · exact h ⟨(hq q hqm).1, (hq q hqm).2.1, (hq q hqm).2.2.1⟩
  unfold solveDay
  rw [hd]
  simp only [fitDay]
  rw [show sampleSurface.method = .univariate from rfl]
  simp only [hs, hK]
  rw [if_neg (by simp [sampleDay])]
  rfl

/-- After one query the smile of the expiry is stored; the hypotheses of `C65_kept` and `C65_method_change` hold. -/
example (f : ℝ → Option ℝ) :
    (history sampleSurface (sampleSolvers f) [.vols [738000, 738000] [1, 1.2] [1, -1]]).get 738000 = some (.spline f) ∧
    dayOf sampleSurface 738000 = some sampleDay := by
  constructor
  · have hs : solveSmiles sampleSurface (sampleSolvers f) .fresh [738000, 738000] = (⟨[(738000, .spline f)], [(738000, true)]⟩, .ok ()) := by
      unfold solveSmiles
      rw [show uniqueDates [738000, 738000] = [738000] by decide]
      simp only [solveLoop, SmileState.fresh, SmileState.get, List.find?_nil, Option.map_none, sample_solveDay, List.nil_append]
    have : history sampleSurface (sampleSolvers f) [.vols [738000, 738000] [1, 1.2] [1, -1]] = ⟨[(738000, .spline f)], [(738000, true)]⟩ := by
      simp only [history, List.foldl_cons, List.foldl_nil, ask, interpVolSurface]
      rw [if_neg (by simp), hs]
    rw [this]
    simp [SmileState.get]
  · simp [dayOf, sampleSurface, sampleDay]

end Frm.Props
