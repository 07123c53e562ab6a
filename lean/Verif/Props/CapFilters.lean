import Verif.Props.Filters
import Verif.Props.Strict

/-!
# C143 with filters: experience beyond the limits, whichever rules the mixing model filters out
-/

set_option autoImplicit false
set_option linter.unusedSectionVars false

namespace Suprb

open _root_.Spec (Pairs Point)

variable {K : Type} [Field K] [LinearOrder K] [IsStrictOrderedRing K] {d : Nat} {M : Type} {S : Type}

theorem forall₂_pairs {α : Type} {r : α → α → Prop} {l l' : List α} (h : List.Forall₂ r l l') : ∃ ps : List (α × α), l = ps.map Prod.fst ∧ l' = ps.map Prod.snd ∧ ∀ p ∈ ps, r p.1 p.2 := by
  induction h with
  | nil => exact ⟨[], rfl, rfl, by simp⟩
  | cons h1 _ ih =>
    obtain ⟨ps, rfl, rfl, hp⟩ := ih
    exact ⟨(_, _) :: ps, rfl, rfl, by simpa using ⟨h1, fun a b h => hp (a, b) h⟩⟩

theorem Spec.SameWithin.tau {c : ExpCalc K} {lo hi : Option K} (hc : Spec.Limits c d lo hi) (w : K) {ρ ρ' : Rule K d M} (h : Spec.SameWithin lo hi ρ ρ') : ρ.tau ⟨c, w⟩ = ρ'.tau ⟨c, w⟩ := by
  obtain ⟨s, e, hs, rfl, hcase⟩ := h
  unfold Rule.tau
  rw [hs]
  dsimp only
  rw [hc.value, hc.value]
  rcases hcase with rfl | ⟨u, rfl, h1, h2⟩ | ⟨l, rfl, h1, h2⟩
  · rfl
  · rw [clipOpt_above _ _ _ h1, clipOpt_above _ _ _ h2]
  · rw [clipOpt_below _ _ _ h1, clipOpt_below _ _ _ h2]

theorem Spec.SameWithin.localPred (L : Learner K d M) (cache : Bool) (X : List (Point K d)) {lo hi : Option K} {ρ ρ' : Rule K d M} (h : Spec.SameWithin lo hi ρ ρ') :
    ρ.localPred L cache X = ρ'.localPred L cache X := by
  obtain ⟨s, e, hs, rfl, _⟩ := h
  unfold Rule.localPred Rule.matchRows Rule.predict
  rw [hs]

theorem Spec.SameWithin.fitted {lo hi : Option K} {ρ ρ' : Rule K d M} (h : Spec.SameWithin lo hi ρ ρ') :
    ρ.st.isSome ∧ ρ'.st.isSome ∧ ruleFitnessOf ρ = ruleFitnessOf ρ' := by
  obtain ⟨s, e, hs, rfl, _⟩ := h
  refine ⟨by rw [hs]; rfl, rfl, ?_⟩
  unfold ruleFitnessOf
  rw [hs]
  rfl

/-- C143 for every filter of the mixing model and every state of its generator: changing the experience of rules above the upper limit, or below the lower one, does not change any prediction
(or error). -/
theorem C143_beyond_filters (L : Learner K d M) (c : ExpCalc K) (lo hi : Option K) (hc : Spec.Limits c d lo hi) (w : K) (G : Gen K S) (k : FilterKind) (s : S) (cache : Bool) (g : List Bool)
    (pool pool' : List (Rule K d M)) (h : List.Forall₂ (Spec.SameWithin lo hi) pool pool') (st : Option (SolState K)) (X : List (Point K d)) :
    (Solution.predictS L ⟨c, w⟩ G k cache ⟨g, pool, st⟩ X s).1 = (Solution.predictS L ⟨c, w⟩ G k cache ⟨g, pool', st⟩ X s).1 := by
  unfold Solution.predictS Solution.predict Solution.subpopulation
  dsimp only
  rw [← h.length_eq]
  by_cases hlen : g.length = pool.length
  · rw [if_pos hlen, if_pos hlen]
    obtain ⟨ps, e1, e2, hps⟩ := forall₂_pairs (compress_forall₂ h g)
    dsimp only
    rw [e1, e2]
    obtain ⟨r, hr, r1, r2⟩ := FilterKind.call_map G k s Prod.fst Prod.snd ps (fun p hp => ⟨(hps p hp).fitted.1, (hps p hp).fitted.2.1⟩) fun p hp => (hps p hp).fitted.2.2
    unfold mixing
    rw [List.isEmpty_map, List.isEmpty_map]
    split
    · rfl
    dsimp only
    rw [r1, r2]
    cases hrr : r with
    | error e => rfl
    | ok kept =>
      have hk := hr kept hrr
      show mixRules L ⟨c, w⟩ cache X (kept.map Prod.fst) = mixRules L ⟨c, w⟩ cache X (kept.map Prod.snd)
      have h2 : List.Forall₂ (Spec.SameWithin lo hi) (kept.map Prod.fst) (kept.map Prod.snd) := by
        rw [List.forall₂_map_left_iff, List.forall₂_map_right_iff, List.forall₂_same]
        exact fun p hp => hps p (hk p hp)
      unfold mixRules
      rw [mapM_forall₂ (Rule.localPred L cache X) (Rule.localPred L cache X) h2 fun _ _ h => h.localPred L cache X, mapM_forall₂ (Rule.tau ⟨c, w⟩) (Rule.tau ⟨c, w⟩) h2 fun _ _ h => h.tau hc w]
  · rw [if_neg hlen, if_neg hlen]

/-- Two rules beyond the upper limit of 2 (with experience 2 and 7, or 3 and 5): `NBestFitness` keeps the same one, and predictions agree. -/
example : List.Forall₂ (Spec.SameWithin (some (1 : ℚ)) (some 2)) [ratedRule 0 1 4 1 2 3, ratedRule 0 2 5 1 3 4] [ratedRule 0 1 4 1 7 3, ratedRule 0 2 5 1 5 4] :=
  .cons ⟨_, 7, rfl, rfl, .inr (.inl ⟨2, rfl, by norm_num, by norm_num⟩)⟩ (.cons ⟨_, 5, rfl, rfl, .inr (.inl ⟨2, rfl, by norm_num, by norm_num⟩)⟩ .nil)

end Suprb
