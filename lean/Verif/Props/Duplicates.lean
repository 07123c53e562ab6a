import Verif.Props.ErrorBound
import Mathlib.Data.Fintype.BigOperators

/-!
# Claim C168: rules that match the same training samples
-/

set_option autoImplicit false
set_option linter.unusedSectionVars false

namespace Suprb

open _root_.Spec (Pairs Point)

variable {K : Type} [Field K] [LinearOrder K] [IsStrictOrderedRing K] {d : Nat} {M : Type}

/-- The two rules match the same of the samples `X`. -/
def Spec.SameSamples (X : List (Point K d)) (ρ τ : Rule K d M) : Prop := ∀ x ∈ X, ρ.kind.call ρ.bounds x = τ.kind.call τ.bounds x

/-- A rule fitness that looks at the error only (`PseudoAccuracy`). -/
def Spec.ErrorOnly (ff : RuleFitness K d) : Prop := ∀ e k b s k' b' s', ff e k b s = ff e k' b' s'

open Suprb.Spec (SameSamples ErrorOnly)

theorem sameSamples_rows {X : List (Point K d)} {ρ τ : Rule K d M} (h : SameSamples X ρ τ) : ρ.matchRows X = τ.matchRows X :=
  List.map_congr_left h

/-- A rule fitted on data of which it matches some sample, in terms of the samples it matches. -/
theorem fittedOn_values (L : Learner K d M) (ff : RuleFitness K d) (X : List (Point K d)) (y : List K) (hxy : y.length = X.length) (ρ : Rule K d M) (h : ρ.FittedOn L ff X y)
    (hm : ∃ x ∈ X, ρ.kind.call ρ.bounds x = true) :
    ρ.model = some (L.fit (compress X (ρ.matchRows X)) (compress y (ρ.matchRows X))) ∧ ∃ e : K, e = max (mse (compress y (ρ.matchRows X))
        ((compress X (ρ.matchRows X)).map (L.predict (L.fit (compress X (ρ.matchRows X)) (compress y (ρ.matchRows X)))))) errorFloor ∧
      ρ.st = some ⟨true, (e : K), (ff e ρ.kind ρ.bounds ρ.inputSpace : K), (compress X (ρ.matchRows X)).length,
        (compress X (ρ.matchRows X)).map (L.predict (L.fit (compress X (ρ.matchRows X)) (compress y (ρ.matchRows X)))), ρ.matchRows X⟩ := by
  obtain ⟨ρ0, k, h0, _, hf⟩ := h
  rw [fits_replicate L ff X y hxy ρ0 h0 k] at hf
  have hsame : ρ.kind = ρ0.kind ∧ ρ.bounds = ρ0.bounds ∧ ρ.inputSpace = ρ0.inputSpace := by
    obtain ⟨ρ1, e1, hs, _⟩ := fit_consistent L ff X X y hxy rfl ρ0 (Or.inl h0)
    rw [hf] at e1
    cases e1
    exact hs
  have hrows : ρ0.matchRows X = ρ.matchRows X := by
    unfold Rule.matchRows
    rw [hsame.1, hsame.2.1]
  have hany : (ρ0.matchRows X).any id = true := by
    obtain ⟨x, hx, hc⟩ := hm
    rw [hrows]
    exact List.any_eq_true.mpr ⟨true, List.mem_map.mpr ⟨x, hx, hc⟩, rfl⟩
  unfold Rule.fit at hf
  dsimp only at hf
  rw [if_neg (by rw [hany]; decide), h0] at hf
  dsimp only at hf
  unfold Rule.refit at hf
  rw [if_neg (not_not_intro hxy)] at hf
  dsimp only at hf
  injection hf with hf
  have h1 : ρ.model = some (L.fit (compress X (ρ0.matchRows X)) (compress y (ρ0.matchRows X))) := by rw [← hf]
  rw [hrows] at h1 hf
  have h2 := (congrArg Rule.st hf).symm
  dsimp only at h2
  rw [← hsame.1, ← hsame.2.1, ← hsame.2.2] at h2
  exact ⟨h1, _, rfl, h2⟩

/-- C168 for two rules fitted on the same data: if they match the same of the samples, and any of them, then they have the same local model, error, experience and predictions, and with a fitness that
looks at the error only also the same fitness. -/
theorem C168_alike (L : Learner K d M) (ff : RuleFitness K d) (X : List (Point K d)) (y : List K) (hxy : y.length = X.length) (ρ τ : Rule K d M) (hρ : ρ.FittedOn L ff X y)
    (hτ : τ.FittedOn L ff X y) (hm : ∃ x ∈ X, ρ.kind.call ρ.bounds x = true) (h : SameSamples X ρ τ) :
    ρ.model = τ.model ∧ (∃ s t, ρ.st = some s ∧ τ.st = some t ∧ s.error = t.error ∧ s.experience = t.experience ∧ s.pred = t.pred ∧ s.matchSet = t.matchSet) ∧
      (ErrorOnly ff → ρ.st = τ.st) := by
  have hm' : ∃ x ∈ X, τ.kind.call τ.bounds x = true := by
    obtain ⟨x, hx, hc⟩ := hm
    exact ⟨x, hx, (h x hx).symm.trans hc⟩
  obtain ⟨h1, e, he, h2⟩ := fittedOn_values L ff X y hxy ρ hρ hm
  obtain ⟨h3, e', he', h4⟩ := fittedOn_values L ff X y hxy τ hτ hm'
  rw [sameSamples_rows h] at h1 he h2
  have hee : e = e' := he.trans he'.symm
  subst hee
  refine ⟨h1.trans h3.symm, ⟨_, _, h2, h4, rfl, rfl, rfl, rfl⟩, fun hff => ?_⟩
  rw [h2, h4, hff e ρ.kind ρ.bounds ρ.inputSpace τ.kind τ.bounds τ.inputSpace]

/-- The hypotheses hold for the rules `[0, 1]` and `[-1, 2]` on the samples 0 and 5. -/
example : SameSamples [(![0] : Point ℚ 1), ![5]] (intervalRule 0 1) (intervalRule (-1) 2) ∧
    ((intervalRule 0 1).fit meanLearner negErr [![0], ![5]] [3, 4]).toOption.map (fun ρ => (ρ.model, ρ.st)) =
      ((intervalRule (-1) 2).fit meanLearner negErr [![0], ![5]] [3, 4]).toOption.map (fun ρ => (ρ.model, ρ.st)) := by
  refine ⟨?_, by decide +kernel⟩
  unfold Suprb.Spec.SameSamples
  decide +kernel

/-- All rules of the pool of a trained model were fitted on its training data. -/
theorem partsFit_fitted (cfg : SupCfg K) (hiter : 1 ≤ cfg.nIter) (hrules : 1 ≤ cfg.nRules) (hsize : 1 ≤ cfg.comp.populationSize) (raw : RawData K d)
    (hraw : raw.finite = true ∧ raw.X.length = raw.y.length ∧ raw.X ≠ []) (D : DiscoveryPart K d M) (hD : D.Works cfg raw.X.length) (C : CompositionPart K d M) (sf : Nat → SolFitness K)
    (hC : C.Works sf (cfg.nInitial + cfg.nIter * cfg.nRules)) (P : MixParams K) (init : Seed → Nat → Nat → K) (L : Learner K d M) (ff : RuleFitness K d)
    (entropy : Nat) (cl : Bool) (st0 : SupState K d M) (hinit : cfg.nInitial = 0 ∨ st0.step < cfg.nIter) :
    ∀ ρ ∈ (partsFit cfg D C P init L ff sf entropy raw cl st0).state.pool, ρ.FittedOn L ff raw.X raw.y ∧ KindPoolRule D.kind L raw.X raw.y D.beta ρ := by
  have hc : raw.check = .ok (raw.X, raw.y) := by unfold RawData.check; rw [if_pos hraw]
  have hxy := hraw.2.1.symm
  obtain ⟨fb, hfb, _⟩ := estimateBounds_ok raw.X hraw.2.2
  have hr : partsFit cfg D C P init L ff sf entropy raw cl st0 = st0.fit cfg (partsComp D C P init L ff sf) entropy raw cl := by
    unfold partsFit
    rw [hc]
    dsimp only
    rw [D.configure_none cfg _ hD]
  have hN : cfg.nInitial + cfg.nIter * cfg.nRules = cfg.maxGenomeLength := by
    unfold SupCfg.maxGenomeLength
    rw [Nat.mul_comm cfg.nIter, Nat.add_comm]
  rw [hN] at hC
  have hbd : (partsComp D C P init L ff sf).Bounded := fun seed hist el pool X y n rules h => D.length_le L ff P seed hist el pool X y n rules h
  have hnf : (partsComp D C P init L ff sf).NoFailure cfg raw.X raw.y fun ρ => D.Good L ff raw.X raw.y fb ρ := by
    refine ⟨?_, ?_, fun seed hist pool _ hlen => C.total hC seed hist _ _ fun p hp g s hg h => runEval_values cfg (partsComp D C P init L ff sf) _ _ pool p hp (hlen hbd) g hg s h⟩
    · intro seed hist el pool n _ hpool hel hnone
      exact D.total cfg L ff P raw.X raw.y hraw.2.2 hxy fb hfb hD seed hist el pool n hpool hel hnone
    · intro pool hpool g hg
      refine eval_total cfg _ rfl ff raw.X raw.y hxy hraw.2.2 pool (fun ρ hρ => ?_) g hg
      obtain ⟨h1, _, h2⟩ := (hpool ρ hρ).spec hraw.2.2 hxy hfb hD
      exact ⟨h1, h2.matched⟩
  obtain ⟨_, _, _, h4, _⟩ := trained_result cfg (partsComp D C P init L ff sf) (C.good hC) hbd hiter hrules hsize entropy raw hc cl st0 hinit _ hnf
  rw [hr]
  intro ρ hρ
  obtain ⟨h1, _, h2⟩ := (h4 ρ hρ).spec hraw.2.2 hxy hfb hD
  exact ⟨h1, h2⟩

/-- C168 for whole trainings with any working discovery and composition (missing: that there are no such pairs of rules, see `C168_refuted`): rules of the pool that match the same training samples have
the same local model, error, experience and predictions, and with a fitness that looks at the error only also the same fitness. -/
theorem C168_pool_partial (cfg : SupCfg K) (hiter : 1 ≤ cfg.nIter) (hrules : 1 ≤ cfg.nRules) (hsize : 1 ≤ cfg.comp.populationSize) (raw : RawData K d)
    (hraw : raw.finite = true ∧ raw.X.length = raw.y.length ∧ raw.X ≠ []) (D : DiscoveryPart K d M) (hD : D.Works cfg raw.X.length) (C : CompositionPart K d M) (sf : Nat → SolFitness K)
    (hC : C.Works sf (cfg.nInitial + cfg.nIter * cfg.nRules)) (P : MixParams K) (init : Seed → Nat → Nat → K) (L : Learner K d M) (ff : RuleFitness K d)
    (entropy : Nat) (cl : Bool) (st0 : SupState K d M) (hinit : cfg.nInitial = 0 ∨ st0.step < cfg.nIter) :
    ∀ ρ ∈ (partsFit cfg D C P init L ff sf entropy raw cl st0).state.pool, ∀ τ ∈ (partsFit cfg D C P init L ff sf entropy raw cl st0).state.pool, SameSamples raw.X ρ τ →
      ρ.model = τ.model ∧ (∃ s t, ρ.st = some s ∧ τ.st = some t ∧ s.error = t.error ∧ s.experience = t.experience ∧ s.pred = t.pred) ∧ (ErrorOnly ff → ρ.st = τ.st) := by
  intro ρ hρ τ hτ h
  have hall := partsFit_fitted cfg hiter hrules hsize raw hraw D hD C sf hC P init L ff entropy cl st0 hinit
  obtain ⟨h1, ⟨s, t, h2, h3, h4, h5, h6, _⟩, h7⟩ := C168_alike L ff raw.X raw.y hraw.2.1.symm ρ τ (hall ρ hρ).1 (hall τ hτ).1 (hall ρ hρ).2.matched h
  exact ⟨h1, ⟨s, t, h2, h3, h4, h5, h6⟩, h7⟩

/-- C168 fails as soon as the pool is larger than the number of nonempty sets of training samples, whatever the discovery, the data and the random numbers: two positions of the pool then have
rules that match the same training samples. -/
theorem C168_crowded_refuted (X : List (Point K d)) (pool : List (Rule K d M)) (hm : ∀ ρ ∈ pool, ∃ x ∈ X, ρ.kind.call ρ.bounds x = true) (hl : 2 ^ X.length ≤ pool.length) :
    ∃ i j : Fin pool.length, i ≠ j ∧ SameSamples X pool[i] pool[j] := by
  have hcard : Fintype.card {v : Fin X.length → Bool // v ≠ fun _ => false} < Fintype.card (Fin pool.length) := by
    rw [Fintype.card_subtype_compl, Fintype.card_subtype_eq, Fintype.card_pi]
    simp only [Fintype.card_bool, Finset.prod_const, Finset.card_univ, Fintype.card_fin]
    have : 0 < 2 ^ X.length := by positivity
    omega
  obtain ⟨i, j, hne, he⟩ := Fintype.exists_ne_map_eq_of_card_lt
    (fun i : Fin pool.length => (⟨fun k => pool[i].kind.call pool[i].bounds X[k], by
      intro h0
      obtain ⟨x, hx, hc⟩ := hm pool[i] (List.getElem_mem _)
      obtain ⟨k, hk, rfl⟩ := List.getElem_of_mem hx
      have := congrFun h0 ⟨k, hk⟩
      change pool[i].kind.call pool[i].bounds X[k] = false at this
      rw [hc] at this
      cases this⟩ : {v : Fin X.length → Bool // v ≠ fun _ => false})) hcard
  refine ⟨i, j, hne, fun x hx => ?_⟩
  obtain ⟨k, hk, rfl⟩ := List.getElem_of_mem hx
  exact congrFun (congrArg Subtype.val he) ⟨k, hk⟩

/-- The hypotheses hold for two rules that match the only sample. -/
example : (∀ ρ ∈ [intervalRule 0 1, intervalRule 0 2], ∃ x ∈ [(![1] : Point ℚ 1)], ρ.kind.call ρ.bounds x = true) ∧ 2 ^ [(![1] : Point ℚ 1)].length ≤ [intervalRule 0 1, intervalRule 0 2].length := by
  decide +kernel

/-- The training with the evolution strategy and the genetic algorithm of the examples of C161. -/
def twinFit : FitResult ℚ 1 ℚ :=
  partsFit smallCfg (.es smallKind (firstDraws 2 1 (1 / 2) : RunDraws ℚ 1 ℚ).origins (fun _ _ _ _ => (0, 1 / 2)) (firstDraws 2 1 (1 / 2) : RunDraws ℚ 1 ℚ).children)
    (.ga smallGA (firstDraws 2 1 (1 / 2) : RunDraws ℚ 1 ℚ).ga) ⟨.plain, 2⟩ (fun _ _ _ => 0) meanLearner negErr (fun _ _ _ c => (c : ℚ) + 1) 7 ⟨[![0], ![1 / 2], ![5]], [1, 3, 7], true⟩ false {}

/-- C168 fails for whole trainings: two iterations with one new rule each find the same rule twice, with possible random numbers, and both copies enter the pool. -/
theorem C168_refuted : twinFit.raised = none ∧ twinFit.state.isError = false ∧ ∃ ρ τ, twinFit.state.pool = [ρ, τ] ∧ ρ.bounds = τ.bounds ∧ SameSamples [(![0] : Point ℚ 1), ![1 / 2], ![5]] ρ τ := by
  have h1 : twinFit.raised = none ∧ twinFit.state.isError = false := by decide +kernel
  have h2 : twinFit.state.pool.map (fun ρ => (ρ.kind, ρ.bounds)) = [(.minPercentage, ![(0, 1 / 2)]), (.minPercentage, ![(0, 1 / 2)])] := by decide +kernel
  refine ⟨h1.1, h1.2, ?_⟩
  obtain ⟨ρ, τ, hp⟩ : ∃ ρ τ, twinFit.state.pool = [ρ, τ] := by
    have hl := congrArg List.length h2
    rw [List.length_map] at hl
    exact List.length_eq_two.mp hl
  rw [hp] at h2
  simp only [List.map_cons, List.map_nil, List.cons.injEq, Prod.mk.injEq, and_true] at h2
  obtain ⟨⟨a1, a2⟩, b1, b2⟩ := h2
  refine ⟨ρ, τ, hp, a2.trans b2.symm, fun x _ => ?_⟩
  rw [a1, a2, b1, b2]

/-- The settings of this training meet the hypotheses of `C168_pool_partial`. -/
example : DiscoveryPart.Works smallCfg 3 (.es smallKind (firstDraws 2 1 (1 / 2) : RunDraws ℚ 1 ℚ).origins (fun _ _ _ _ => (0, 1 / 2)) (firstDraws 2 1 (1 / 2) : RunDraws ℚ 1 ℚ).children) ∧
    CompositionPart.Works (fun _ _ _ c => (c : ℚ) + 1) (smallCfg.nInitial + smallCfg.nIter * smallCfg.nRules) (.ga smallGA (firstDraws 2 1 (1 / 2) : RunDraws ℚ 1 ℚ).ga) := by
  have h := firstDraws_possible (M := ℚ) (d := 1) smallES rfl smallGA rfl 2 1 (1 / 2 : ℚ) (by norm_num) (1, 1)
  constructor
  · refine ⟨by decide, by decide +kernel, ?_, fun seed hist n probs hp => h.origins _ _ _ _ probs (by norm_num) hp⟩
    simp [WorksWith, smallKind, ESCfg.withKind, InitCfg.ForPairs]
  · exact ⟨by decide, ⟨2, by decide, fun seed hist n size _ => possibleParents_of (h.ga seed hist n size)⟩, .inl fun e n c _ _ _ => by positivity⟩

end Suprb
