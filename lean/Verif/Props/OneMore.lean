import Verif.Props.Stability

/-!
# C177: what selecting one more rule does
-/

set_option autoImplicit false
set_option linter.unusedSectionVars false

namespace Suprb

open _root_.Spec (Pairs Point)

variable {K : Type} [Field K] [LinearOrder K] [IsStrictOrderedRing K] {d : Nat} {M : Type}

theorem usable_insert {A B : List (Rule K d M)} {ρ : Rule K d M} (hpA : ∀ r ∈ A, r.Usable) (hpB : ∀ r ∈ B, r.Usable) (hρ : ρ.Usable) : ∀ q ∈ A ++ ρ :: B, q.Usable := by
  intro q hq
  rcases List.mem_append.mp hq with h | h
  · exact hpA q h
  · rcases List.mem_cons.mp h with rfl | h
    · exact hρ
    · exact hpB q h

theorem compress_insert {A B : List (Rule K d M)} {gA gB : List Bool} (hA : gA.length = A.length) (ρ : Rule K d M) (b : Bool) :
    compress (A ++ ρ :: B) (gA ++ b :: gB) = if b then compress A gA ++ ρ :: compress B gB else compress A gA ++ compress B gB := by
  rw [compress_append _ _ _ _ hA.symm]
  cases b <;> simp [compress]

/-- C177: let one more rule be selected. For samples that it does not match nothing changes. For samples that it matches the prediction moves towards its local prediction, by its share of the weight (experience,
after the experience calculation, divided by the error) among the selected rules that match the sample; if it is the only one, the prediction was 0 and becomes its local prediction. -/
theorem C177_moves (L : Learner K d M) (P : MixParams K) (hw : 0 < P.weight) (hc : P.expCalc.Positive d)
    (A B : List (Rule K d M)) (gA gB : List Bool) (hA : gA.length = A.length) (hB : gB.length = B.length) (ρ : Rule K d M)
    (hpA : ∀ r ∈ A, r.Usable) (hpB : ∀ r ∈ B, r.Usable) (hρ : ρ.Usable) (x : Point K d) (v v' : K)
    (hv : Solution.PredictsAt L P { genome := gA ++ false :: gB, pool := A ++ ρ :: B } x v) (hv' : Solution.PredictsAt L P { genome := gA ++ true :: gB, pool := A ++ ρ :: B } x v') :
    (ρ.kind.call ρ.bounds x = false → v' = v) ∧
    (ρ.kind.call ρ.bounds x = true → ∀ (os : List (Spec.Opinion K)) (o : Spec.Opinion K), ρ.HasOpinion L P.expCalc x o →
      List.Forall₂ (Rule.HasOpinion L P.expCalc x) ((compress A gA ++ compress B gB).filter fun ρ => ρ.kind.call ρ.bounds x) os →
      0 < o.weight ∧ 0 ≤ Spec.totalWeight os ∧ v' - v = o.weight / (o.weight + Spec.totalWeight os) * (o.value - v) ∧ (os = [] → v = 0 ∧ v' = o.value) ∧ (os ≠ [] → 0 < Spec.totalWeight os)) := by
  rw [predictsAt_iff L P _ (by simp [hA, hB]) (usable_insert hpA hpB hρ)] at hv hv'
  simp only [compress_insert hA, if_true, Bool.false_eq_true, if_false] at hv hv'
  refine ⟨fun hm => ?_, fun hm os o hop hos => ?_⟩
  · rw [hv, hv']
    unfold mixAt numAt denAt
    simp only [List.filter_append, List.filter_cons, hm, Bool.false_eq_true, if_false]
  · have hus : ∀ r ∈ compress A gA ++ compress B gB, r.Usable := by
      intro r hr
      rcases List.mem_append.mp hr with h | h
      · exact hpA r (mem_of_mem_compress h)
      · exact hpB r (mem_of_mem_compress h)
    obtain ⟨sN, sD⟩ := opinions_sums L P x _ _ hos
    obtain ⟨tN, tD⟩ := opinions_sums L P x [ρ] [o] (.cons hop .nil)
    have hN : numAt L P (compress A gA) x + numAt L P (compress B gB) x = P.weight * (os.map fun o => o.value * o.weight).sum := by
      rw [← sN]; unfold numAt; rw [List.filter_append, List.map_append, List.sum_append]
    have hD : denAt P (compress A gA) x + denAt P (compress B gB) x = P.weight * Spec.totalWeight os := by
      rw [← sD]; unfold denAt; rw [List.filter_append, List.map_append, List.sum_append]
    have ht : ρ.tauVal P = P.weight * o.weight := by simpa [Spec.totalWeight] using tD
    have hval : ρ.valueAt L x = o.value := by
      obtain ⟨⟨m, h1, h2⟩, _⟩ := hop
      rw [Rule.valueAt_of_model L ρ m h1, h2]
    have hwpos : ∀ q ∈ os, 0 < q.weight := HasOpinion.weight_pos hc hos fun r hr => hus r (List.mem_filter.mp hr).1
    have hopos : 0 < o.weight := by
      have := Rule.tauVal_pos P hw hc hρ
      rw [ht] at this
      exact pos_of_mul_pos_right this hw.le
    have hW : os ≠ [] → 0 < Spec.totalWeight os := fun hne => sum_pos_of_pos os (fun o => o.weight) hwpos hne
    have hW0 : 0 ≤ Spec.totalWeight os := by
      by_cases h : os = []
      · rw [h]; simp [Spec.totalWeight]
      · exact (hW h).le
    have e' : v' = ((os.map fun o => o.value * o.weight).sum + o.value * o.weight) / (Spec.totalWeight os + o.weight) := by
      rw [hv']
      unfold mixAt
      rw [numAt_split L P _ _ _ _ hm, denAt_split P _ _ _ _ hm, hN, hD, ht, hval]
      have hne : P.weight * Spec.totalWeight os + P.weight * o.weight ≠ 0 := by
        rw [← mul_add]; exact (mul_pos hw (by linarith)).ne'
      rw [if_neg hne]
      have h1 : P.weight * (os.map fun o => o.value * o.weight).sum + o.value * (P.weight * o.weight) = P.weight * ((os.map fun o => o.value * o.weight).sum + o.value * o.weight) := by ring
      rw [h1, ← mul_add, mul_div_mul_left _ _ hw.ne']
    have e0 : v = (os.map fun o => o.value * o.weight).sum / (if Spec.totalWeight os = 0 then 1 else Spec.totalWeight os) := by
      rw [hv]
      have n0 : numAt L P (compress A gA ++ compress B gB) x = P.weight * (os.map fun o => o.value * o.weight).sum := sN
      have d0 : denAt P (compress A gA ++ compress B gB) x = P.weight * Spec.totalWeight os := sD
      unfold mixAt
      rw [n0, d0]
      by_cases h0 : os = []
      · rw [h0]; simp [Spec.totalWeight]
      · rw [if_neg (mul_pos hw (hW h0)).ne', if_neg (hW h0).ne', mul_div_mul_left _ _ hw.ne']
    refine ⟨hopos, hW0, ?_, ?_, hW⟩
    · by_cases h0 : os = []
      · rw [e', e0, h0]
        simp only [Spec.totalWeight, List.map_nil, List.sum_nil, zero_add, add_zero, if_true, div_one, sub_zero]
        field_simp
      · have hp := hW h0
        rw [if_neg hp.ne'] at e0
        have hs : (os.map fun o => o.value * o.weight).sum = v * Spec.totalWeight os := by rw [e0]; field_simp
        rw [e', hs]
        have : Spec.totalWeight os + o.weight ≠ 0 := by linarith
        have : o.weight + Spec.totalWeight os ≠ 0 := by linarith
        field_simp
        ring
    · rintro rfl
      rw [e', e0]
      simp only [Spec.totalWeight, List.map_nil, List.sum_nil, zero_add, if_true, zero_div, true_and]
      field_simp

/-- C177: whatever the true value of a sample is, with one more selected rule the prediction is not further off than the worse of the prediction before and the local prediction of the rule. If the rule is at
least as accurate as the prediction before the new prediction is, too, and if it is strictly more accurate, the new prediction is. -/
theorem C177_accuracy (L : Learner K d M) (P : MixParams K) (hw : 0 < P.weight) (hc : P.expCalc.Positive d)
    (A B : List (Rule K d M)) (gA gB : List Bool) (hA : gA.length = A.length) (hB : gB.length = B.length) (ρ : Rule K d M)
    (hpA : ∀ r ∈ A, r.Usable) (hpB : ∀ r ∈ B, r.Usable) (hρ : ρ.Usable) (x : Point K d) (hm : ρ.kind.call ρ.bounds x = true) (u v v' : K) (hu : ρ.LocalPrediction L x u)
    (hv : Solution.PredictsAt L P { genome := gA ++ false :: gB, pool := A ++ ρ :: B } x v) (hv' : Solution.PredictsAt L P { genome := gA ++ true :: gB, pool := A ++ ρ :: B } x v') (t : K) :
    |t - v'| ≤ max |t - v| |t - u| ∧ (|t - u| ≤ |t - v| → |t - v'| ≤ |t - v|) ∧ (|t - u| < |t - v| → |t - v'| < |t - v|) := by
  have hus : ∀ r ∈ (compress A gA ++ compress B gB).filter fun ρ => ρ.kind.call ρ.bounds x, r.Usable := by
    intro r hr
    rcases List.mem_append.mp (List.mem_filter.mp hr).1 with h | h
    · exact hpA r (mem_of_mem_compress h)
    · exact hpB r (mem_of_mem_compress h)
  obtain ⟨os, hos⟩ := exists_opinions L P.expCalc x _ hus
  obtain ⟨o', ho'⟩ := exists_opinions L P.expCalc x [ρ] (by simpa using hρ)
  cases ho' with
  | @cons _ o _ _ hop _ =>
    obtain ⟨h1, h2, h3, _, _⟩ := (C177_moves L P hw hc A B gA gB hA hB ρ hpA hpB hρ x v v' hv hv').2 hm os o hop hos
    have hval : o.value = u := by
      obtain ⟨⟨m, e1, e2⟩, _⟩ := hop
      obtain ⟨m', e1', e2'⟩ := hu
      rw [e1] at e1'
      cases e1'
      rw [e2, e2']
    rw [hval] at h3
    have hpos : 0 < o.weight + Spec.totalWeight os := by linarith
    set s := o.weight / (o.weight + Spec.totalWeight os) with hs
    have hs0 : 0 < s := div_pos h1 hpos
    have hs1 : s ≤ 1 := (div_le_one hpos).mpr (by linarith)
    have hmix : t - v' = (1 - s) * (t - v) + s * (t - u) := by
      have : v' = v + s * (u - v) := by linarith
      rw [this]; ring
    have hle : |t - v'| ≤ (1 - s) * |t - v| + s * |t - u| := by
      rw [hmix]
      refine (abs_add_le _ _).trans ?_
      rw [abs_mul, abs_mul, abs_of_nonneg (by linarith : 0 ≤ 1 - s), abs_of_pos hs0]
    refine ⟨?_, fun h => ?_, fun h => ?_⟩
    · have a1 := mul_le_mul_of_nonneg_left (le_max_left |t - v| |t - u|) (by linarith : 0 ≤ 1 - s)
      have a2 := mul_le_mul_of_nonneg_left (le_max_right |t - v| |t - u|) hs0.le
      linarith
    · have a2 := mul_le_mul_of_nonneg_left h hs0.le
      linarith
    · have a2 := mul_lt_mul_of_pos_left h hs0
      linarith

/-- C177: evaluating a selection on the training data with one more rule that is at least as accurate as the predictions before on every training sample that it matches gives an error that is not larger. -/
theorem C177_error (L : Learner K d M) (ff : RuleFitness K d) (P : MixParams K) (hw : 0 < P.weight) (hc : P.expCalc.Positive d) (sf : SolFitness K) (X : List (Point K d)) (y : List K)
    (hxy : y.length = X.length) (hne : X ≠ []) (A B : List (Rule K d M)) (gA gB : List Bool) (hA : gA.length = A.length) (hB : gB.length = B.length) (ρ : Rule K d M)
    (hp : ∀ r ∈ A ++ ρ :: B, r.FittedOn L ff X y ∧ ∃ x ∈ X, r.kind.call r.bounds x = true)
    (hacc : ∀ x t, (x, t) ∈ X.zip y → ρ.kind.call ρ.bounds x = true → ∀ u v, ρ.LocalPrediction L x u →
      Solution.PredictsAt L P { genome := gA ++ false :: gB, pool := A ++ ρ :: B } x v → |t - u| ≤ |t - v|) :
    ∃ τ τ' s s', Solution.fit L P filterAll sf X y { genome := gA ++ false :: gB, pool := A ++ ρ :: B } = .ok τ ∧ τ.st = some s ∧
      Solution.fit L P filterAll sf X y { genome := gA ++ true :: gB, pool := A ++ ρ :: B } = .ok τ' ∧ τ'.st = some s' ∧ s'.error ≤ s.error := by
  have hus : ∀ r ∈ A ++ ρ :: B, r.Usable := fun r hr => fittedOn_usable L ff X y hxy r (hp r hr).1 (hp r hr).2
  have hpA : ∀ r ∈ A, r.Usable := fun r hr => hus r (List.mem_append_left _ hr)
  have hρ : ρ.Usable := hus ρ (by simp)
  have hpB : ∀ r ∈ B, r.Usable := fun r hr => hus r (by simp [hr])
  have hpr : ∀ b, Solution.predict L P filterAll true { genome := gA ++ b :: gB, pool := A ++ ρ :: B } X = .ok (X.map (mixAt L P (compress (A ++ ρ :: B) (gA ++ b :: gB)))) := by
    intro b
    rw [C20_cached_eq_uncached_partial L ff P X y hxy filterAll (fun sub sub' h r hr => by cases h; exact hr) _ hp]
    unfold Solution.predict Solution.subpopulation
    rw [if_pos (by simp [hA, hB])]
    exact mixing_all_uncached L P X _ fun r h => (hus r (mem_of_mem_compress h)).ready
  have hy0 : y.length ≠ 0 := by rw [hxy]; simpa using hne
  have hfit : ∀ b, Solution.fit L P filterAll sf X y { genome := gA ++ b :: gB, pool := A ++ ρ :: B } =
      .ok { genome := gA ++ b :: gB, pool := A ++ ρ :: B, st := some { error := max (meanSqErr (mixAt L P (compress (A ++ ρ :: B) (gA ++ b :: gB))) (X.zip y)) errorFloor, inputSize := (gA ++ b :: gB).length, complexity := (gA ++ b :: gB).count true, fitness := sf (max (meanSqErr (mixAt L P (compress (A ++ ρ :: B) (gA ++ b :: gB))) (X.zip y)) errorFloor) (gA ++ b :: gB).length ((gA ++ b :: gB).count true) } } := by
    intro b
    unfold Solution.fit
    rw [hpr b]
    dsimp only
    rw [if_neg (by rw [List.length_map, hxy]; simpa using hne), mse_map _ X y hxy]
  refine ⟨_, _, _, _, hfit false, rfl, hfit true, rfl, max_le_max ?_ le_rfl⟩
  unfold meanSqErr
  refine div_le_div_of_nonneg_right (List.sum_le_sum fun q hq => ?_) (by positivity)
  obtain ⟨x, t⟩ := q
  rw [sq_le_sq]
  have pv : ∀ b, Solution.PredictsAt L P { genome := gA ++ b :: gB, pool := A ++ ρ :: B } x (mixAt L P (compress (A ++ ρ :: B) (gA ++ b :: gB)) x) :=
    fun b => (predictsAt_iff L P _ (by simp [hA, hB]) hus x _).mpr rfl
  cases hm : ρ.kind.call ρ.bounds x with
  | false =>
    have := (C177_moves L P hw hc A B gA gB hA hB ρ hpA hpB hρ x _ _ (pv false) (pv true)).1 hm
    dsimp only
    rw [this]
  | true =>
    obtain ⟨_, m, _, _, h2, _⟩ := hρ
    exact (C177_accuracy L P hw hc A B gA gB hA hB ρ hpA hpB (hus ρ (by simp)) x hm _ _ _ ⟨m, h2, rfl⟩ (pv false) (pv true) t).2.1 (hacc x t hq hm _ _ ⟨m, h2, rfl⟩ (pv false))

/-! ### Examples -/

/-- The samples of the examples. -/
def oneMoreX : List (Point ℚ 1) := [![0], ![1], ![5]]

/-- The rule for `[a, b]`, trained on samples with the targets 1, 3 and 7. -/
def oneMoreRule (a b : ℚ) : Rule ℚ 1 ℚ := (intervalRule a b).fitOf meanLearner negErr oneMoreX [1, 3, 7]

/-- A case of `C177_error`: the rule for `[4, 6]` predicts 7 for the last sample, the one for `[0, 5]` predicts 11/3 for all. Selecting both, the last prediction moves towards 7 and the error falls from 56/9. -/
example : (∀ r ∈ [oneMoreRule 0 5] ++ oneMoreRule 4 6 :: [], r.FittedOn meanLearner negErr oneMoreX [1, 3, 7] ∧ ∃ x ∈ oneMoreX, r.kind.call r.bounds x = true) ∧
    (∀ x t, (x, t) ∈ oneMoreX.zip [1, 3, 7] → (oneMoreRule 4 6).kind.call (oneMoreRule 4 6).bounds x = true → ∀ u v, (oneMoreRule 4 6).LocalPrediction meanLearner x u →
      Solution.PredictsAt meanLearner ⟨.plain, 1⟩ { genome := [true] ++ false :: [], pool := [oneMoreRule 0 5] ++ oneMoreRule 4 6 :: [] } x v → |t - u| ≤ |t - v|) ∧
    ((Solution.fit meanLearner ⟨.plain, 1⟩ filterAll (fun e _ _ => -e) oneMoreX [1, 3, 7] { genome := [true, false], pool := [oneMoreRule 0 5, oneMoreRule 4 6] }).map fun τ => τ.st.map SolState.error) =
      .ok (some (56 / 9)) := by
  refine ⟨?_, ?_, by decide +kernel⟩
  · intro r hr
    simp only [List.cons_append, List.nil_append, List.mem_cons, List.not_mem_nil, or_false] at hr
    rcases hr with rfl | rfl
    · exact fitOf_fittedOn meanLearner negErr oneMoreX [1, 3, 7] rfl _ ⟨rfl, rfl, ![0], by simp [oneMoreX], by decide +kernel⟩
    · exact fitOf_fittedOn meanLearner negErr oneMoreX [1, 3, 7] rfl _ ⟨rfl, rfl, ![5], by simp [oneMoreX], by decide +kernel⟩
  · rintro x t hx hm u v ⟨m, h1, rfl⟩ _
    simp only [oneMoreX, List.zip_cons_cons, List.zip_nil_right, List.mem_cons, List.not_mem_nil, or_false, Prod.mk.injEq] at hx
    rcases hx with ⟨rfl, rfl⟩ | ⟨rfl, rfl⟩ | ⟨rfl, rfl⟩
    · exact absurd hm (by decide +kernel)
    · exact absurd hm (by decide +kernel)
    · have h7 : (oneMoreRule 4 6).model = some 7 := by decide +kernel
      rw [h7] at h1
      cases h1
      show |(7 : ℚ) - 7| ≤ _
      rw [sub_self, abs_zero]
      exact abs_nonneg _

end Suprb
