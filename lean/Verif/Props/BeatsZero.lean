import Verif.Props.ErrorBound
import Verif.Props.FreeSearch
import Verif.Props.Ridge

/-!
# Claim C174: a trained model is not worse than predicting zero
-/

set_option autoImplicit false
set_option linter.unusedSectionVars false

namespace Suprb

open _root_.Spec (Pairs Point)
open Suprb.Spec (Covered coveredData sqErrors ReportsAtMost OverlapAtMost)
open Json

variable {K : Type} [Field K] [LinearOrder K] [IsStrictOrderedRing K] {d : Nat} {M : Type}

namespace Spec

/-- The squared errors of predictions add up to at most `f` times those of predicting zero everywhere. -/
def AsGoodAsZero (f : K) (y out : List K) : Prop := ((y.zip out).map fun q => (q.1 - q.2) ^ 2).sum ≤ f * (y.map fun t => t ^ 2).sum

/-- On the samples that some of the rules match, the squared errors of the predictions add up to at most those of any constant. -/
def AsGoodAsConstants (sub : List (Rule K d M)) (X : List (Point K d)) (y out : List K) : Prop :=
  ∀ c : K, sqErrors (coveredData sub X y out) ≤ (((X.zip y).filter fun q => Covered sub q.1).map fun q => (q.2 - c) ^ 2).sum

end Spec

open Suprb.Spec (AsGoodAsZero AsGoodAsConstants)

theorem sqErrors_zip (X : List (Point K d)) (y out : List K) (hxy : y.length = X.length) (hout : out.length = X.length) :
    sqErrors ((X.zip y).zip out) = ((y.zip out).map fun q => (q.1 - q.2) ^ 2).sum := by
  unfold sqErrors
  induction X generalizing y out with
  | nil =>
    cases y with
    | nil => rfl
    | cons _ _ => cases hxy
  | cons x X ih =>
    cases y with
    | nil => cases hxy
    | cons t y =>
      cases out with
      | nil => cases hout
      | cons v out =>
        simp only [List.zip_cons_cons, List.map_cons, List.sum_cons]
        rw [ih y out (by simpa using hxy) (by simpa using hout)]

theorem sum_split {α : Type} (p : α → Bool) (f : α → K) (l : List α) : ((l.filter p).map f).sum + ((l.filter fun a => !p a).map f).sum = (l.map f).sum := by
  induction l with
  | nil => simp
  | cons a l ih =>
    simp only [List.filter_cons, List.map_cons, List.sum_cons, ← ih]
    cases p a <;> simp <;> ring

theorem map_snd_zip {α β γ : Type} (X : List α) (y : List β) (h : y.length = X.length) (f : β → γ) : (X.zip y).map (fun q => f q.2) = y.map f := by
  have := congrArg (List.map f) (List.map_snd_zip (l₁ := X) (l₂ := y) (by omega))
  rw [List.map_map] at this
  exact this

/-- The squared errors of an accepted rule add up to at most its squared targets divided by `beta`. -/
theorem accepted_sum_le (L : Learner K d M) (X : List (Point K d)) (y : List K) (hxy : y.length = X.length) (beta : K) (ρ : Rule K d M) (h : (AcceptCfg.variance beta).Accepts L X y ρ) :
    ((matchedData ρ X y).map fun q => (q.2 - ρ.valueAt L q.1) ^ 2).sum ≤ ((matchedData ρ X y).map fun q => q.2 ^ 2).sum / beta := by
  obtain ⟨hex, _, m, hm, hle⟩ := h
  have hpos : (0 : K) < (matchedData ρ X y).length := Nat.cast_pos.mpr (List.length_pos_iff.mpr (matched_ne_nil hxy hex))
  simp only [ρ.valueAt_of_model L m hm]
  unfold meanSqErr at hle
  dsimp only at hle
  rw [div_right_comm] at hle
  exact (div_le_div_iff_of_pos_right hpos).mp hle

/-- If at most `k` accepted rules match the same sample, the squared errors on matched samples add up to at most `k / beta` times those of predicting zero there. -/
theorem covered_le_zero (L : Learner K d M) (sub : List (Rule K d M)) (X : List (Point K d)) (y out : List K) (hxy : y.length = X.length) (hout : out.length = X.length) (beta : K) (hb : 0 < beta)
    (hacc : ∀ ρ ∈ sub, (AcceptCfg.variance beta).Accepts L X y ρ) (hv : ∀ x v, (x, v) ∈ X.zip out → (∃ ρ ∈ sub, ρ.kind.call ρ.bounds x = true) → Between L sub x v)
    (k : Nat) (hk : OverlapAtMost sub X k) :
    sqErrors (coveredData sub X y out) ≤ k / beta * (((X.zip y).filter fun q => Covered sub q.1).map fun q => q.2 ^ 2).sum := by
  have hsub : ∀ ρ ∈ sub, ∃ m, ρ.model = some m := fun ρ h => by
    obtain ⟨_, _, m, hm, _⟩ := hacc ρ h
    exact ⟨m, hm⟩
  refine (covered_le L sub X y out hxy hout hsub hv).trans ((sum_map_le_of _ _ _ fun ρ hρ => accepted_sum_le L X y hxy beta ρ (hacc ρ hρ)).trans ?_)
  have h1 : ∀ {α : Type} (p : α → Bool) (f : α → K) (l : List α), ((l.filter p).map f).sum = (l.map fun a => if p a then f a else 0).sum := fun p f l => (sum_ite_filter p f l).symm
  have h2 : (sub.map fun ρ => ((matchedData ρ X y).map fun q => q.2 ^ 2).sum).sum = ((X.zip y).map fun q => ((sub.filter fun ρ => ρ.kind.call ρ.bounds q.1).map fun _ => q.2 ^ 2).sum).sum := by
    simp only [matchedData, h1]
    exact sum_sum_swap _ _ _
  have h3 : (sub.map fun ρ => ((matchedData ρ X y).map fun q => q.2 ^ 2).sum / beta).sum = (sub.map fun ρ => ((matchedData ρ X y).map fun q => q.2 ^ 2).sum).sum / beta := by
    simp only [div_eq_mul_inv]
    rw [List.sum_map_mul_right]
  rw [h3, h2, sum_covered sub X y fun _ q => q.2 ^ 2, div_mul_eq_mul_div, ← List.sum_map_mul_left]
  refine div_le_div_of_nonneg_right (sum_map_le_of _ _ _ fun q hq => ?_) hb.le
  rw [List.map_const', List.sum_replicate, nsmul_eq_mul]
  exact mul_le_mul_of_nonneg_right (Nat.cast_le.mpr (hk q.1 (List.of_mem_zip (List.mem_filter.mp hq).1).1)) (sq_nonneg _)

/-- What C174 says about a model with the given selected rules and predictions for the training data: if at most `k` of the rules match the same training sample, its squared errors add up to at most
`max 1 (k / beta)` times those of predicting zero; if no two match the same sample, and the local models are at least as good as constants, to at most those of any constant on the matched samples. -/
structure Spec.NotWorse (L : Learner K d M) (beta : K) (sub : List (Rule K d M)) (X : List (Point K d)) (y out : List K) : Prop where
  zero : ∀ k, OverlapAtMost sub X k → AsGoodAsZero (max 1 (k / beta)) y out
  constant : (∀ (D : List (Point K d × K)) (c : K), D ≠ [] → meanSqErr (L.predict (L.fit (D.map Prod.fst) (D.map Prod.snd))) D ≤ meanSqErr (fun _ => c) D) →
    OverlapAtMost sub X 1 → AsGoodAsConstants sub X y out

open Suprb.Spec (NotWorse)

theorem notWorse_of (L : Learner K d M) (sub : List (Rule K d M)) (X : List (Point K d)) (y out : List K) (hxy : y.length = X.length) (hout : out.length = X.length) (beta : K) (hb : 0 < beta)
    (hacc : ∀ ρ ∈ sub, (AcceptCfg.variance beta).Accepts L X y ρ)
    (hv : ∀ x v, (x, v) ∈ X.zip out → ((∀ ρ ∈ sub, ρ.kind.call ρ.bounds x = false) → v = 0) ∧ ((∃ ρ ∈ sub, ρ.kind.call ρ.bounds x = true) → Between L sub x v)) :
    NotWorse L beta sub X y out := by
  have hvouch := vouchFor_of L sub X y out hxy hout (fun ρ hρ => ⟨(hacc ρ hρ).2.1, (hacc ρ hρ).1⟩) hv
  refine ⟨fun k hk => ?_, fun hL hone c => ?_⟩
  · unfold AsGoodAsZero
    rw [← sqErrors_zip X y out hxy hout, hvouch.rest, ← map_snd_zip X y hxy fun t => t ^ 2, ← sum_split (fun q => Covered sub q.1) _ (X.zip y), mul_add]
    have hnn : ∀ p : Point K d × K → Bool, 0 ≤ (((X.zip y).filter p).map fun q => q.2 ^ 2).sum := fun p => List.sum_nonneg fun a ha => by
      obtain ⟨_, _, rfl⟩ := List.mem_map.mp ha
      exact sq_nonneg _
    refine add_le_add ((covered_le_zero L sub X y out hxy hout beta hb hacc (fun x v h => (hv x v h).2) k hk).trans (mul_le_mul_of_nonneg_right (le_max_right _ _) (hnn _))) ?_
    exact le_mul_of_one_le_left (hnn _) (le_max_left _ _)
  · have hsub : ∀ ρ ∈ sub, ∃ m, ρ.model = some m := fun ρ h => by
      obtain ⟨_, _, m, hm, _⟩ := hacc ρ h
      exact ⟨m, hm⟩
    refine (covered_le L sub X y out hxy hout hsub fun x v h => (hv x v h).2).trans ?_
    have h1 : ∀ {α : Type} (p : α → Bool) (f : α → K) (l : List α), ((l.filter p).map f).sum = (l.map fun a => if p a then f a else 0).sum := fun p f l => (sum_ite_filter p f l).symm
    have h2 : (sub.map fun ρ => ((matchedData ρ X y).map fun q => (q.2 - c) ^ 2).sum).sum = ((X.zip y).map fun q => ((sub.filter fun ρ => ρ.kind.call ρ.bounds q.1).map fun _ => (q.2 - c) ^ 2).sum).sum := by
      simp only [matchedData, h1]
      exact sum_sum_swap _ _ _
    have h3 : (sub.map fun ρ => ((matchedData ρ X y).map fun q => (q.2 - ρ.valueAt L q.1) ^ 2).sum).sum ≤ (sub.map fun ρ => ((matchedData ρ X y).map fun q => (q.2 - c) ^ 2).sum).sum := by
      refine sum_map_le_of _ _ _ fun ρ hρ => ?_
      obtain ⟨hex, ⟨s, m, _, hm, hfit, _⟩, _⟩ := hacc ρ hρ
      have hne := matched_ne_nil hxy hex
      have hpos : (0 : K) < (matchedData ρ X y).length := Nat.cast_pos.mpr (List.length_pos_iff.mpr hne)
      have := hL (matchedData ρ X y) c hne
      rw [← hfit] at this
      simp only [ρ.valueAt_of_model L m hm]
      exact (div_le_div_iff_of_pos_right hpos).mp this
    refine h3.trans ?_
    rw [h2, sum_covered sub X y fun _ q => (q.2 - c) ^ 2]
    refine sum_map_le_of _ _ _ fun q hq => ?_
    rw [List.map_const', List.sum_replicate, nsmul_eq_mul]
    have := hone q.1 (List.of_mem_zip (List.mem_filter.mp hq).1).1
    refine mul_le_of_le_one_left (sq_nonneg _) ?_
    exact_mod_cast this

/-- Ridge regression, the default local model, is at least as good as constants. -/
theorem ridge_asGoodAsConstants (alpha : K) (ha : 0 < alpha) (D : List (Point K d × K)) (c : K) (hD : D ≠ []) :
    meanSqErr ((ridge alpha).predict ((ridge alpha).fit (D.map Prod.fst) (D.map Prod.snd))) D ≤ meanSqErr (fun _ => c) D := ridge_meanSqErr alpha ha D hD c

/-- C174 (partial), evolution strategy: for every run that completes by C170 (all combinations of settings, composition methods and mixing models, all local models, data, seeds and random numbers) with
the acceptance `Variance(beta)`: the model is not worse than predicting zero if at most `beta` selected rules match the same training sample, and in general worse by at most the factor `k / beta`
if at most `k` do; with the default local model and rules that do not overlap it is not worse than any constant on the samples that its rules match. Missing: the claim for more overlap, see
`C174_refuted`. -/
theorem C174_evolution_partial (cfg : SupCfg K) (hiter : 1 ≤ cfg.nIter) (hrules : 1 ≤ cfg.nRules) (hsize : 1 ≤ cfg.comp.populationSize) (raw : RawData K d)
    (hraw : raw.finite = true ∧ raw.X.length = raw.y.length ∧ raw.X ≠ []) (es : FreeES K d) (beta : K) (hb : 0 < beta) (hacc : es.acceptance = .variance beta) (ff : RuleFitness K d)
    (hes : es.Works cfg ff) (D : Seed → List (Event K d M) → FreeDraws K d) (hD : ∀ seed hist, (D seed hist).Possible raw.X.length) (C : CompositionPart K d M) (sf : Nat → SolFitness K)
    (hC : C.Works sf (cfg.nInitial + cfg.nIter * cfg.nRules)) (P : MixParams K) (hP : 0 < P.weight) (hE : P.expCalc.Positive d) (init : Seed → Nat → Nat → K) (L : Learner K d M) (entropy : Nat)
    (cl : Bool) (st0 : SupState K d M) (hinit : cfg.nInitial = 0 ∨ st0.step < cfg.nIter) :
    let r := freeFit cfg es D C P init L ff sf entropy raw cl st0
    ∃ σ : Solution K d M, r.state.elitist = some (.solution σ) ∧ σ.pool = r.state.pool ∧ ∃ out, r.state.predict (freeComp es D C P init L ff sf) raw.X = .ok out ∧ out.length = raw.X.length ∧
      NotWorse L beta (compress σ.pool σ.genome) raw.X raw.y out := by
  obtain ⟨_, _, _, _, hpool, σ, h1, h2, _, h4⟩ := C170_partial cfg hiter hrules hsize raw hraw es ff hes D hD C sf hC P hP hE init L entropy cl st0 hinit
  obtain ⟨out, h5, h6, h7⟩ := h4 raw.X hraw.2.2
  refine ⟨σ, h1, h2, out, h5, h6, notWorse_of L _ _ _ _ hraw.2.1.symm h6 beta hb (fun ρ hρ => ?_) h7⟩
  have := (hpool ρ (by rw [← h2]; exact mem_of_mem_compress hρ)).2
  rwa [hacc] at this

/-- C174 (partial), random search and novelty search: the same for every run that completes by C172. -/
theorem C174_search_partial (cfg : SupCfg K) (hiter : 1 ≤ cfg.nIter) (hrules : 1 ≤ cfg.nRules) (hsize : 1 ≤ cfg.comp.populationSize) (raw : RawData K d)
    (hraw : raw.finite = true ∧ raw.X.length = raw.y.length ∧ raw.X ≠ []) (S : SearchPart K d M) (beta : K) (hb : 0 < beta) (hacc : S.acceptance = .variance beta) (ff : RuleFitness K d)
    (hS : S.Works cfg raw.X.length) (C : CompositionPart K d M) (sf : Nat → SolFitness K) (hC : C.Works sf (cfg.nInitial + cfg.nIter * cfg.nRules)) (P : MixParams K) (hP : 0 < P.weight)
    (hE : P.expCalc.Positive d) (init : Seed → Nat → Nat → K) (L : Learner K d M) (entropy : Nat) (cl : Bool) (st0 : SupState K d M) (hinit : cfg.nInitial = 0 ∨ st0.step < cfg.nIter) :
    let r := searchFit cfg S C P init L ff sf entropy raw cl st0
    ∃ σ : Solution K d M, r.state.elitist = some (.solution σ) ∧ σ.pool = r.state.pool ∧ ∃ out, r.state.predict (searchComp S C P init L ff sf) raw.X = .ok out ∧ out.length = raw.X.length ∧
      NotWorse L beta (compress σ.pool σ.genome) raw.X raw.y out := by
  obtain ⟨_, _, _, _, hpool, σ, h1, h2, _, h4⟩ := C172_partial cfg hiter hrules hsize raw hraw S ff hS C sf hC P hP hE init L entropy cl st0 hinit
  obtain ⟨out, h5, h6, h7⟩ := h4 raw.X hraw.2.2
  refine ⟨σ, h1, h2, out, h5, h6, notWorse_of L _ _ _ _ hraw.2.1.symm h6 beta hb (fun ρ hρ => ?_) h7⟩
  have := (hpool ρ (by rw [← h2]; exact mem_of_mem_compress hρ)).2
  rwa [hacc] at this

/-- Draws row `i` if all rows are equally likely. -/
def drawRow (i : Nat) : Option (List ℚ) → List Nat
  | none => [i]
  | some p => firstPossible 1 (some p)

theorem drawRow_possible (i N : Nat) (h : i < N) : DrawsRows N 1 (drawRow i) := fun probs hp => by
  cases probs with
  | none => exact ⟨rfl, fun j hj => by rw [List.mem_singleton.mp hj]; exact ⟨h, nofun⟩⟩
  | some p => exact firstPossible_draws N 1 (by omega) (some p) hp

/-- A run with two rules that match the sample in the middle, with the default acceptance: random search with the given rate of `Variance`. -/
def zeroPart (beta : ℚ) : SearchPart ℚ 1 ℚ :=
  .rs ⟨1, .uniformSamples, .ordered, .halfnorm .scalar, .fittest, .combined (some 0) (some none), .variance beta⟩ fun _ _ =>
    ⟨fun g => drawRow (if g = 0 then 0 else 2), fun _ _ _ => 0, fun g _ _ => if g = 0 then (0, 1) else (1, 0), fun _ => ⟨fun _ => 0, fun _ _ => 0⟩⟩

def zeroRun (beta : ℚ) (y : List ℚ) : FitResult ℚ 1 ℚ :=
  searchFit overlapCfg (zeroPart beta) overlapComposition ⟨.plain, 1⟩ (fun _ _ _ => 0) meanLearner negErr (fun _ e _ _ => -e) 7 ⟨[![0], ![1], ![2]], y, true⟩ false {}

def zeroPrediction (beta : ℚ) (y : List ℚ) : Except PyErr (List ℚ) :=
  (zeroRun beta y).state.predict (searchComp (zeroPart beta) overlapComposition ⟨.plain, 1⟩ (fun _ _ _ => 0) meanLearner negErr fun _ e _ _ => -e) [![0], ![1], ![2]]

/-- C174 (refuted): samples 0, 1, 2 with targets -1, 2, -1 and local models that predict the mean; the rules found are `[0, 1]` and `[1, 2]`, which both predict 1/2 and are accepted with the default
`beta = 1`. The model predicts 1/2 for all samples: the squared errors add up to 27/4, those of predicting zero (here also the mean of the targets) to 6, so its `R^2` on the training data is negative. -/
theorem C174_refuted :
    (zeroRun 1 [-1, 2, -1]).raised = none ∧ (zeroRun 1 [-1, 2, -1]).state.isError = false ∧ (zeroRun 1 [-1, 2, -1]).state.isFitted = true ∧
      ∃ out, zeroPrediction 1 [-1, 2, -1] = .ok out ∧ ¬ AsGoodAsZero 1 [-1, 2, -1] out := by
  refine ⟨by decide +kernel, by decide +kernel, by decide +kernel, [1 / 2, 1 / 2, 1 / 2], by decide +kernel, ?_⟩
  unfold AsGoodAsZero
  norm_num

/-- Example: the hypotheses of `C174_search_partial` hold for this run with a `beta` of 2 too, where (for other targets) both rules are accepted and overlap, and the model is better than predicting zero. -/
example : (zeroPart 2).acceptance = .variance 2 ∧ (zeroPart 2).Works overlapCfg 3 ∧ ((zeroRun 2 [1, 2, 1]).state.pool.map fun ρ => ρ.bounds 0) = [(0, 1), (1, 2)] ∧
    zeroPrediction 2 [1, 2, 1] = .ok [3 / 2, 3 / 2, 3 / 2] ∧ AsGoodAsZero 1 [1, 2, 1] ([3 / 2, 3 / 2, 3 / 2] : List ℚ) := by
  refine ⟨rfl, ⟨⟨by decide, by simp [InitWorks, InitCfg.ForIntervals, Sigma.Scales], ⟨rfl, rfl⟩, two_pos, Or.inl rfl⟩, fun _ _ => ⟨fun g => drawRow_possible _ 3 ?_, fun _ _ _ => ⟨le_refl _, zero_le_one⟩⟩⟩, by decide +kernel, by decide +kernel,
    by unfold AsGoodAsZero; norm_num⟩
  split_ifs <;> omega

end Suprb
