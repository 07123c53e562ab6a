import Verif.Props.Metamorphic

/-!
# Claim C131: training samples act locally
-/

set_option autoImplicit false
set_option linter.unusedSectionVars false

namespace Suprb

open Spec

variable {K : Type} [Field K] [LinearOrder K] [IsStrictOrderedRing K] {d : Nat} {M : Type}

theorem any_matchRows_iff (ρ : Rule K d M) (X : List (Point K d)) (y : List K) (hxy : y.length = X.length) :
    (ρ.matchRows X).any id = false ↔ matchedData ρ X y = [] := by
  have h1 : (matchedData ρ X y).map Prod.fst = X.filter (ρ.kind.call ρ.bounds) := by
    rw [filter_zip_fst _ _ _ hxy]
    rfl
  rw [← List.map_eq_nil_iff (f := Prod.fst), h1, List.filter_eq_nil_iff]
  simp only [Rule.matchRows, List.any_map, List.any_eq_false, Function.comp_def, id]

/-- C131 for a rule: two data sets with the same samples (and targets) in its region give the same rule, however they differ elsewhere. Only the stored match vector, which has one entry for
each sample of the data set, is another one. -/
theorem C131_rule (L : Learner K d M) (ff : RuleFitness K d) (X X' : List (Point K d)) (y y' : List K) (hxy : y.length = X.length) (hxy' : y'.length = X'.length) (ρ : Rule K d M)
    (h0 : ρ.st = none) (hsame : (X.zip y).filter (fun q => ρ.kind.call ρ.bounds q.1) = (X'.zip y').filter fun q => ρ.kind.call ρ.bounds q.1) :
    ∃ ρ₁ s, ρ.fit L ff X y = .ok ρ₁ ∧ ρ₁.st = some s ∧ ρ.fit L ff X' y' = .ok { ρ₁ with st := some { s with matchSet := X'.map (ρ.kind.call ρ.bounds) } } := by
  have hs : matchedData ρ X y = matchedData ρ X' y' := hsame
  by_cases ha : (ρ.matchRows X).any id = false
  · have ha' : (ρ.matchRows X').any id = false := by
      rw [any_matchRows_iff ρ X' y' hxy', ← hs]
      exact (any_matchRows_iff ρ X y hxy).mp ha
    refine ⟨{ ρ with st := some { isFitted := false, error := ⊤, fitness := ⊥, experience := 0, pred := [], matchSet := ρ.matchRows X } }, _, ?_, rfl, ?_⟩
    · unfold Rule.fit; dsimp only; rw [if_pos ha]
    · unfold Rule.fit; dsimp only; rw [if_pos ha']; rfl
  · have ha' : ¬ (ρ.matchRows X').any id = false := fun h => by
      rw [any_matchRows_iff ρ X' y' hxy', ← hs] at h
      exact ha ((any_matchRows_iff ρ X y hxy).mpr h)
    refine ⟨ρ.fitOf L ff X y, _, ?_, rfl, ?_⟩
    · rw [Rule.fit_fresh L ff X y ρ ha h0, refit_eq L ff X y hxy ρ]; rfl
    · rw [Rule.fit_fresh L ff X' y' ρ ha' h0, refit_eq L ff X' y' hxy' ρ]
      unfold Rule.fitOf
      rw [hs]
      rfl

theorem mixAt_local (L : Learner K d M) (P : MixParams K) (f₁ f₂ : Rule K d M → Rule K d M) (h1 : ∀ ρ, (f₁ ρ).kind = ρ.kind ∧ (f₁ ρ).bounds = ρ.bounds)
    (h2 : ∀ ρ, (f₂ ρ).kind = ρ.kind ∧ (f₂ ρ).bounds = ρ.bounds) (sub : List (Rule K d M)) (x : Point K d)
    (hrel : ∀ ρ ∈ sub, ρ.kind.call ρ.bounds x = true → (f₂ ρ).valueAt L x = (f₁ ρ).valueAt L x ∧ (f₂ ρ).tauVal P = (f₁ ρ).tauVal P) :
    mixAt L P (sub.map f₂) x = mixAt L P (sub.map f₁) x := by
  unfold mixAt numAt denAt
  rw [filter_map_rel f₁ h1, filter_map_rel f₂ h2]
  have hd : (((sub.filter fun ρ => ρ.kind.call ρ.bounds x).map f₂).map fun ρ => ρ.tauVal P) = (((sub.filter fun ρ => ρ.kind.call ρ.bounds x).map f₁).map fun ρ => ρ.tauVal P) := by
    rw [List.map_map, List.map_map]
    refine List.map_congr_left fun ρ hρ => ?_
    obtain ⟨h, hm⟩ := List.mem_filter.mp hρ
    exact (hrel ρ h hm).2
  have hn : (((sub.filter fun ρ => ρ.kind.call ρ.bounds x).map f₂).map fun ρ => ρ.valueAt L x * ρ.tauVal P) =
      (((sub.filter fun ρ => ρ.kind.call ρ.bounds x).map f₁).map fun ρ => ρ.valueAt L x * ρ.tauVal P) := by
    rw [List.map_map, List.map_map]
    refine List.map_congr_left fun ρ hρ => ?_
    obtain ⟨h, hm⟩ := List.mem_filter.mp hρ
    simp only [Function.comp]
    rw [(hrel ρ h hm).1, (hrel ρ h hm).2]
  rw [hd, hn]

/-- C131 for predictions (missing: filters that rank the rules, see `C131_refuted`): the same rules are fitted on two data sets. If the data sets agree in the regions of the selected rules that
contain `x`, both models predict the same for `x`. -/
theorem C131_prediction_partial (L : Learner K d M) (ff : RuleFitness K d) (P : MixParams K) (X X' : List (Point K d)) (y y' : List K) (hxy : y.length = X.length)
    (hxy' : y'.length = X'.length) (rs pool₁ pool₂ : List (Rule K d M)) (h : ∀ ρ ∈ rs, ρ.FreshOn X) (h' : ∀ ρ ∈ rs, ρ.FreshOn X')
    (h1 : rs.mapM (Rule.fit L ff X y) = .ok pool₁) (h2 : rs.mapM (Rule.fit L ff X' y') = .ok pool₂) (g : List Bool) (hg : g.length = rs.length) (x : Point K d)
    (hsame : ∀ ρ ∈ compress rs g, ρ.kind.call ρ.bounds x = true →
      (X.zip y).filter (fun q => ρ.kind.call ρ.bounds q.1) = (X'.zip y').filter fun q => ρ.kind.call ρ.bounds q.1) (v : K) :
    Solution.PredictsAt L P { genome := g, pool := pool₁ } x v ↔ Solution.PredictsAt L P { genome := g, pool := pool₂ } x v := by
  rw [fitAll_eq L ff X y hxy rs h h1, fitAll_eq L ff X' y' hxy' rs h' h2, predictsAt_iff, predictsAt_iff]
  · simp only [← compress_map]
    rw [mixAt_local L P (Rule.fitOf L ff X y) (Rule.fitOf L ff X' y') (fun _ => ⟨rfl, rfl⟩) (fun _ => ⟨rfl, rfl⟩) _ x fun ρ hρ hm => ?_]
    have hs : matchedData ρ X y = matchedData ρ X' y' := hsame ρ hρ hm
    simp only [Rule.valueAt, Rule.tauVal, Rule.fitOf, hs, and_self]
  · simpa using hg
  · intro ρ hρ
    obtain ⟨r, hr, rfl⟩ := List.mem_map.mp hρ
    exact r.fitOf_usable L ff X' y' hxy' (h' r hr)
  · simpa using hg
  · intro ρ hρ
    obtain ⟨r, hr, rfl⟩ := List.mem_map.mp hρ
    exact r.fitOf_usable L ff X y hxy (h r hr)

theorem filter_zip_set (p : Point K d → Bool) : ∀ (X : List (Point K d)) (y : List K) (i : Nat) (t : K) (z : Point K d), X[i]? = some z → p z = false →
    (X.zip (y.set i t)).filter (fun q => p q.1) = (X.zip y).filter fun q => p q.1
  | [], _, _, _, _, h, _ => by simp at h
  | x :: xs, [], i, t, z, _, _ => by simp
  | x :: xs, b :: bs, 0, t, z, h, hp => by
    simp only [List.getElem?_cons_zero, Option.some.injEq] at h
    subst h
    simp [List.set_cons_zero, List.zip_cons_cons, hp]
  | x :: xs, b :: bs, i + 1, t, z, h, hp => by
    have ih := filter_zip_set p xs bs i t z (by simpa using h) hp
    simp only [List.set_cons_succ, List.zip_cons_cons, List.filter_cons, ih]

/-- C131 for a wrong target (missing as above): replacing the target of one training sample `z` by any other value changes no prediction outside of the selected rules that contain `z`. -/
theorem C131_outlier_partial (L : Learner K d M) (ff : RuleFitness K d) (P : MixParams K) (X : List (Point K d)) (y : List K) (hxy : y.length = X.length) (i : Nat) (z : Point K d)
    (hz : X[i]? = some z) (t : K) (rs pool₁ pool₂ : List (Rule K d M)) (h : ∀ ρ ∈ rs, ρ.FreshOn X) (h1 : rs.mapM (Rule.fit L ff X y) = .ok pool₁)
    (h2 : rs.mapM (Rule.fit L ff X (y.set i t)) = .ok pool₂) (g : List Bool) (hg : g.length = rs.length) (x : Point K d)
    (hout : ∀ ρ ∈ compress rs g, ρ.kind.call ρ.bounds z = true → ρ.kind.call ρ.bounds x = false) (v : K) :
    Solution.PredictsAt L P { genome := g, pool := pool₁ } x v ↔ Solution.PredictsAt L P { genome := g, pool := pool₂ } x v := by
  refine C131_prediction_partial L ff P X X y (y.set i t) hxy (by rw [List.length_set]; exact hxy) rs pool₁ pool₂ h h h1 h2 g hg x (fun ρ hρ hm => ?_) v
  refine (filter_zip_set (ρ.kind.call ρ.bounds) X y i t z hz ?_).symm
  cases hb : ρ.kind.call ρ.bounds z with
  | false => rfl
  | true => rw [hout ρ hρ hb] at hm; cases hm

/-- The rules `[0,1]` and `[2,3]` and the samples 0, 1, 2, 3: the target of the sample 3 does not matter at `1/2`. -/
example : (∀ ρ ∈ [intervalRule 0 1, intervalRule 2 3], ρ.FreshOn [![0], ![1], ![2], ![3]]) ∧
    (∀ ρ ∈ compress [intervalRule 0 1, intervalRule 2 3] [true, true], ρ.kind.call ρ.bounds ![3] = true → ρ.kind.call ρ.bounds ![1 / 2] = false) ∧
    (intervalRule 0 1).kind.call (intervalRule 0 1).bounds ![1 / 2] = true := by
  refine ⟨?_, ?_, by decide +kernel⟩
  · simp only [List.forall_mem_cons, List.not_mem_nil, false_imp_iff, implies_true, and_true]
    exact ⟨⟨rfl, rfl, ![0], by simp, by decide +kernel⟩, ⟨rfl, rfl, ![2], by simp, by decide +kernel⟩⟩
  · simp only [compress, if_true, List.forall_mem_cons, List.not_mem_nil, false_imp_iff, implies_true, and_true]
    exact ⟨fun h => absurd h (by decide +kernel), fun _ => by decide +kernel⟩

/-- C131 is false for the filter of the best rules: with the samples and rules of the example, and one rule kept, the prediction for `1/2` is the mean `1` of the first two targets if the last target
is 9, and 0 if it is 4. -/
theorem C131_refuted : ∃ (L : Learner ℚ 1 ℚ) (rs pool₁ pool₂ : List (Rule ℚ 1 ℚ)), (∀ ρ ∈ rs, ρ.FreshOn [![0], ![1], ![2], ![3]]) ∧
    (∀ ρ ∈ rs, ρ.kind.call ρ.bounds ![3] = true → ρ.kind.call ρ.bounds ![1 / 2] = false) ∧
    rs.mapM (Rule.fit L negErr [![0], ![1], ![2], ![3]] [0, 2, 4, 9]) = .ok pool₁ ∧
    rs.mapM (Rule.fit L negErr [![0], ![1], ![2], ![3]] ([0, 2, 4, 9].set 3 4)) = .ok pool₂ ∧
    Solution.predict L ⟨.plain, 1⟩ (nBestFitness 1) false { genome := [true, true], pool := pool₁ } [![1 / 2]] = .ok [1] ∧
    Solution.predict L ⟨.plain, 1⟩ (nBestFitness 1) false { genome := [true, true], pool := pool₂ } [![1 / 2]] = .ok [0] := by
  refine ⟨meanLearner, [intervalRule 0 1, intervalRule 2 3],
    [{ intervalRule 0 1 with model := some 1, st := some ⟨true, ((1 : ℚ) : WithTop ℚ), ((-1 : ℚ) : WithBot ℚ), 2, [1, 1], [true, true, false, false]⟩ },
      { intervalRule 2 3 with model := some (13/2), st := some ⟨true, ((25/4 : ℚ) : WithTop ℚ), ((-25/4 : ℚ) : WithBot ℚ), 2, [13/2, 13/2], [false, false, true, true]⟩ }],
    [{ intervalRule 0 1 with model := some 1, st := some ⟨true, ((1 : ℚ) : WithTop ℚ), ((-1 : ℚ) : WithBot ℚ), 2, [1, 1], [true, true, false, false]⟩ },
      { intervalRule 2 3 with model := some 4, st := some ⟨true, ((1/10000 : ℚ) : WithTop ℚ), ((-1/10000 : ℚ) : WithBot ℚ), 2, [4, 4], [false, false, true, true]⟩ }],
    ?_, ?_, by decide +kernel, by decide +kernel, by decide +kernel, by decide +kernel⟩
  · simp only [List.forall_mem_cons, List.not_mem_nil, false_imp_iff, implies_true, and_true]
    exact ⟨⟨rfl, rfl, ![0], by simp, by decide +kernel⟩, ⟨rfl, rfl, ![2], by simp, by decide +kernel⟩⟩
  · simp only [List.forall_mem_cons, List.not_mem_nil, false_imp_iff, implies_true, and_true]
    exact ⟨fun h => absurd h (by decide +kernel), fun _ => by decide +kernel⟩

end Suprb
