import Verif.Props.Undominated
import Verif.Props.Parts

/-!
# Claim C180: the fitness of the model vouches for its error and its size

What the fitness that a trained model reports says about the training error and the number of rules.
-/

set_option autoImplicit false
set_option linter.unusedSectionVars false

namespace Suprb
open _root_.Spec (Point)

/-- The largest error that a solution with the fitness `100 * g` can have. -/
noncomputable def Spec.largestError (f : Combine) (alpha g : ℝ) : ℝ :=
  match f with
  | .emary => Real.log (alpha / (g - (1 - alpha))) / 2
  | .wu => Real.log ((1 + alpha ^ 2 - alpha ^ 2 * g) / g) / 2

/-- The largest share of the `m` rules that a solution with the fitness `100 * g` can select. -/
noncomputable def Spec.largestShare (f : Combine) (alpha g : ℝ) : ℝ :=
  match f with
  | .emary => (1 - g) / (1 - alpha)
  | .wu => (1 + alpha ^ 2) * (1 - g) / (1 + alpha ^ 2 - g)

/-- The fitness from which on the error is bounded. -/
noncomputable def Spec.telling (f : Combine) (alpha : ℝ) : ℝ :=
  match f with
  | .emary => 1 - alpha
  | .wu => 0

/-- A combination of the pseudo-accuracy of the error `e` and an objective `z` in `[0, 1]` bounds both. -/
theorem combine_vouches (f : Combine) (alpha : ℝ) (ha : AlphaOk f alpha) (ha' : f = .emary → 0 < alpha ∧ alpha < 1) (e z g : ℝ) (he : 0 ≤ e) (hr : 0 ≤ z ∧ z ≤ 1)
    (hg : f.apply alpha (Real.exp (-2 * e)) z = some g) :
    (Spec.telling f alpha < g → e ≤ Spec.largestError f alpha g) ∧ 1 - z ≤ Spec.largestShare f alpha g := by
  have hx := Real.exp_pos (-2 * e)
  have hx1 : Real.exp (-2 * e) ≤ 1 := by rw [← Real.exp_zero]; exact Real.exp_le_exp.mpr (by linarith)
  -- a bound on the exponential is a bound on the error
  have hlog : ∀ b : ℝ, 0 < b → 1 ≤ b * Real.exp (-2 * e) → e ≤ Real.log b / 2 := by
    intro b hb h
    have h1 : Real.exp (2 * e) ≤ b := by
      have h2 : Real.exp (2 * e) * Real.exp (-2 * e) = 1 := by rw [← Real.exp_add]; simp
      by_contra hlt
      have := mul_lt_mul_of_pos_right (not_le.mp hlt) hx
      linarith
    have := (Real.le_log_iff_exp_le hb).mpr h1
    linarith
  generalize hX : Real.exp (-2 * e) = x at *
  cases f with
  | emary =>
    obtain ⟨a0, a1⟩ := ha' rfl
    have hval' : g = alpha * x + (1 - alpha) * z := by unfold Combine.apply emary at hg; injection hg with hg; exact hg.symm
    refine ⟨fun h => ?_, ?_⟩
    · have h' : 1 - alpha < g := h
      have hp : 0 < g - (1 - alpha) := by linarith
      refine hlog _ (div_pos a0 hp) ?_
      rw [div_mul_eq_mul_div, le_div_iff₀ hp]
      nlinarith [hr.2]
    · show 1 - z ≤ (1 - g) / (1 - alpha)
      rw [le_div_iff₀ (by linarith)]
      nlinarith
  | wu =>
    have h2 : 0 < alpha ^ 2 := by have := show alpha ≠ 0 from ha; positivity
    have hd : 0 < alpha ^ 2 * x + z := by nlinarith [mul_pos h2 hx, hr.1]
    have hval' : g = ((1 + alpha ^ 2) * x * z) / (alpha ^ 2 * x + z) := by
        unfold Combine.apply wu at hg
        dsimp only at hg
        rw [if_neg hd.ne'] at hg
        injection hg with hg
        exact hg.symm
    have hmul : g * (alpha ^ 2 * x + z) = (1 + alpha ^ 2) * x * z := by rw [hval']; field_simp
    have hg1 : g ≤ 1 := by
      rw [hval', div_le_one hd]
      nlinarith [mul_nonneg (mul_pos h2 hx).le (sub_nonneg.mpr hr.2), mul_nonneg hr.1 (sub_nonneg.mpr hx1)]
    refine ⟨fun h => ?_, ?_⟩
    · have h' : 0 < g := h
      refine hlog _ (div_pos (by nlinarith) h') ?_
      rw [div_mul_eq_mul_div, le_div_iff₀ h', one_mul]
      -- `g (a x + z) = (1 + a) x z` with `0 < z ≤ 1`
      have hz : 0 < z := by
        rcases lt_or_eq_of_le hr.1 with hz | hz
        · exact hz
        · rw [← hz] at hval'
          simp at hval'
          linarith
      have e1 : (1 + alpha ^ 2 - alpha ^ 2 * g) * x * z = g * z + (alpha ^ 2 * g * x) * (1 - z) := by linear_combination (-1 : ℝ) * hmul
      have e2 : 0 ≤ (alpha ^ 2 * g * x) * (1 - z) := mul_nonneg (by positivity) (by linarith [hr.2])
      by_contra hlt
      have := mul_lt_mul_of_pos_right (not_le.mp hlt) hz
      linarith
    · show 1 - z ≤ (1 + alpha ^ 2) * (1 - g) / (1 + alpha ^ 2 - g)
      rw [le_div_iff₀ (by linarith)]
      -- `z (1 + a - g) ≥ a g`
      have e1 : (z * (1 + alpha ^ 2 - g) - alpha ^ 2 * g) * x = g * z * (1 - x) := by linear_combination (-1 : ℝ) * hmul
      have hg0 : 0 ≤ g := by rw [hval']; exact div_nonneg (mul_nonneg (by positivity) hr.1) hd.le
      have e2 : 0 ≤ g * z * (1 - x) := mul_nonneg (mul_nonneg hg0 hr.1) (by linarith)
      have e3 : 0 ≤ z * (1 + alpha ^ 2 - g) - alpha ^ 2 * g := by
        by_contra hlt
        have := mul_neg_of_neg_of_pos (not_le.mp hlt) hx
        linarith
      linarith

/-- C180, the fitness functions: error and number of rules of a solution are bounded by its fitness. -/
theorem C180_fitness (f : Combine) (alpha : ℝ) (ha : AlphaOk f alpha) (ha' : f = .emary → 0 < alpha ∧ alpha < 1) (m : Nat) (e : ℝ) (n c : Nat) (he : 0 < e) (hc : c ≤ m) :
    let g := complexitySolFitness f alpha m e n c / 100
    (Spec.telling f alpha < g → e ≤ Spec.largestError f alpha g) ∧ (c : ℝ) ≤ m * Spec.largestShare f alpha g := by
  intro g
  rcases Nat.eq_zero_or_pos m with rfl | hm
  · have hg : g = 0 := by
      show complexitySolFitness f alpha 0 e n c / 100 = 0
      have : complexitySolFitness f alpha 0 e n c = 0 := by
        unfold complexitySolFitness complexityFitness cNorm
        rw [if_pos rfl]
        unfold pseudoAccuracy
        rw [if_pos two_pos]
        rfl
      rw [this, zero_div]
    have hc0 : c = 0 := by omega
    refine ⟨fun h => ?_, by rw [hc0]; simp⟩
    rw [hg] at h
    cases f with
    | emary =>
      have := ha' rfl
      have h' : 1 - alpha < 0 := h
      linarith
    | wu => exact absurd h (lt_irrefl _)
  · have hm' : (0 : ℝ) < m := by exact_mod_cast hm
    have hr := cNorm_range m c hm hc
    have hcz : (c : ℝ) = m * (1 - (1 - (c : ℝ) / m)) := by field_simp; ring
    obtain ⟨w, hw⟩ : ∃ w, f.apply alpha (Real.exp (-2 * e)) (1 - (c : ℝ) / m) = some w := by
      obtain ⟨w, hw, _⟩ := combine_range f alpha _ _ ha (pacc2_range e he.le) hr
      exact ⟨w, hw⟩
    have hval : g = w := by
      show complexitySolFitness f alpha m e n c / 100 = _
      unfold complexitySolFitness
      rw [complexityFitness_eq f alpha m hm, hw]
      simp
    obtain ⟨k1, k2⟩ := combine_vouches f alpha ha ha' e _ w he.le hr hw
    rw [hval]
    refine ⟨k1, ?_⟩
    rw [hcz]
    exact mul_le_mul_of_nonneg_left k2 hm'.le

/-- C180: the bound on the error is exact for a solution without rules. -/
theorem C180_exact (f : Combine) (alpha : ℝ) (ha : AlphaOk f alpha) (ha' : f = .emary → 0 < alpha ∧ alpha < 1) (m : Nat) (hm : 0 < m) (e : ℝ) (n : Nat) :
    Spec.telling f alpha < complexitySolFitness f alpha m e n 0 / 100 ∧ Spec.largestError f alpha (complexitySolFitness f alpha m e n 0 / 100) = e := by
  have hx := Real.exp_pos (-2 * e)
  have hlog : Real.log (Real.exp (-2 * e))⁻¹ / 2 = e := by rw [Real.log_inv, Real.log_exp]; ring
  cases f with
  | emary =>
    obtain ⟨a0, a1⟩ := ha' rfl
    have hval : complexitySolFitness .emary alpha m e n 0 / 100 = alpha * Real.exp (-2 * e) + (1 - alpha) := by
      unfold complexitySolFitness
      rw [complexityFitness_eq _ alpha m hm]
      simp [Combine.apply, emary]
    rw [hval]
    refine ⟨?_, ?_⟩
    · show 1 - alpha < _
      have := mul_pos a0 hx
      linarith
    · show Real.log (alpha / (alpha * Real.exp (-2 * e) + (1 - alpha) - (1 - alpha))) / 2 = e
      rw [show alpha / (alpha * Real.exp (-2 * e) + (1 - alpha) - (1 - alpha)) = (Real.exp (-2 * e))⁻¹ by rw [add_sub_cancel_right]; field_simp]
      exact hlog
  | wu =>
    have h2 : 0 < alpha ^ 2 := by have := show alpha ≠ 0 from ha; positivity
    have hd : 0 < alpha ^ 2 * Real.exp (-2 * e) + 1 := by positivity
    have hval : complexitySolFitness .wu alpha m e n 0 / 100 = ((1 + alpha ^ 2) * Real.exp (-2 * e)) / (alpha ^ 2 * Real.exp (-2 * e) + 1) := by
      unfold complexitySolFitness
      rw [complexityFitness_eq _ alpha m hm]
      simp only [Combine.apply, wu, Nat.cast_zero, zero_div, sub_zero, if_neg hd.ne', Option.map_some]
      ring
    rw [hval]
    refine ⟨?_, ?_⟩
    · show (0 : ℝ) < _
      positivity
    · generalize Real.exp (-2 * e) = x at *
      show Real.log ((1 + alpha ^ 2 - alpha ^ 2 * ((1 + alpha ^ 2) * x / (alpha ^ 2 * x + 1))) / ((1 + alpha ^ 2) * x / (alpha ^ 2 * x + 1))) / 2 = e
      have hs : (0 : ℝ) < 1 + alpha ^ 2 := by linarith
      rw [show (1 + alpha ^ 2 - alpha ^ 2 * ((1 + alpha ^ 2) * x / (alpha ^ 2 * x + 1))) / ((1 + alpha ^ 2) * x / (alpha ^ 2 * x + 1)) = x⁻¹ by field_simp; ring]
      exact hlog

theorem compress_length_le {α : Type} : ∀ (l : List α) (b : List Bool), (compress l b).length ≤ l.length
  | [], b => by cases b <;> simp [compress]
  | a :: l, [] => by simp [compress]
  | a :: l, b :: bs => by
    have := compress_length_le l bs
    unfold compress
    split_ifs
    · simpa using this
    · simp; omega

/-- C180: after a completed fit with a complexity based fitness the mean squared error of the model's predictions for the training data is at most the bound that follows from the reported fitness
(if the fitness is above the least telling one), and so is the number of rules of the model. -/
theorem C180_model {d : Nat} {M : Type} (cfg : SupCfg ℝ) (c : SupComp ℝ d M) (hg : c.GoodStrategies) (f : Combine) (alpha : ℝ) (ha : AlphaOk f alpha)
    (ha' : f = .emary → 0 < alpha ∧ alpha < 1) (hf : c.fitness = complexitySolFitness f alpha)
    (hdisc : ∀ seed hist el pool X y n rules, c.discover seed hist el pool X y n = .ok rules → rules.length ≤ n) (entropy : Nat) (raw : RawData ℝ d) (cl : Bool) (st0 : SupState ℝ d M)
    (h : (st0.fit cfg c entropy raw cl).Completed) :
    let r := st0.fit cfg c entropy raw cl
    ∃ σ s pred sub, r.state.elitist = some (.solution σ) ∧ σ.st = some s ∧ σ.predict c.learner c.mix c.filter true raw.X = .ok pred ∧ σ.subpopulation = .ok sub ∧
      (Spec.telling f alpha < s.fitness / 100 → meanSqDiff raw.y pred ≤ Spec.largestError f alpha (s.fitness / 100)) ∧
      (sub.length : ℝ) ≤ cfg.maxGenomeLength * Spec.largestShare f alpha (s.fitness / 100) ∧
      ∀ ff : RuleFitness ℝ d, (∀ sub sub', c.filter sub = .ok sub' → ∀ ρ ∈ sub', ρ ∈ sub) →
        (∀ ρ ∈ σ.pool, ρ.FittedOn c.learner ff raw.X raw.y ∧ ∃ x ∈ raw.X, ρ.kind.call ρ.bounds x = true) → r.state.predict c raw.X = .ok pred := by
  intro r
  obtain ⟨σ, s, pred, sub, h1, h2, h3, _, h4, h5, h6, h7, h8⟩ := C101_reported cfg c hg entropy raw cl st0 h
  obtain ⟨poolF, compF, elF, σ', pop, v, g1, _, g3, g4, _⟩ := C101_best cfg c hg entropy raw cl st0 h
  rw [h1] at g3
  cases g3
  have hle : s.complexity ≤ cfg.maxGenomeLength := by
    have hb : poolF.length ≤ cfg.maxGenomeLength := (C49_bounded cfg c hdisc entropy raw cl st0).2.2 _ (List.mem_of_getLast? g1)
    rw [h4] at g4
    injection g4 with g4
    rw [h6, g4]
    exact (compress_length_le _ _).trans hb
  have hpos : 0 < s.error := by rw [h5]; exact lt_max_of_lt_right (by norm_num)
  have hmse : meanSqDiff raw.y pred ≤ s.error := by rw [h5]; exact le_max_left _ _
  rw [hf] at h7
  obtain ⟨k1, k2⟩ := C180_fitness f alpha ha ha' cfg.maxGenomeLength s.error s.inputSize s.complexity hpos hle
  rw [← h7] at k1 k2
  exact ⟨σ, s, pred, sub, h1, h2, h3, h4, fun ht => hmse.trans (k1 ht), by rw [← h6]; exact k2, h8⟩

/-- C180 for every combination of a working rule discovery, a working composition method and a mixing model (C161): training completes and the predictions of the model for the training data have a mean
squared error within the bound. -/
theorem C180_parts {d : Nat} {M : Type} (cfg : SupCfg ℝ) (hiter : 1 ≤ cfg.nIter) (hrules : 1 ≤ cfg.nRules) (hsize : 1 ≤ cfg.comp.populationSize) (raw : RawData ℝ d)
    (hraw : raw.finite = true ∧ raw.X.length = raw.y.length ∧ raw.X ≠ []) (D : DiscoveryPart ℝ d M) (hD : D.Works cfg raw.X.length) (C : CompositionPart ℝ d M) (f : Combine) (alpha : ℝ)
    (ha : AlphaOk f alpha) (ha' : f = .emary → 0 < alpha ∧ alpha < 1) (hC : C.Works (complexitySolFitness f alpha) (cfg.nInitial + cfg.nIter * cfg.nRules)) (P : MixParams ℝ)
    (init : Seed → Nat → Nat → ℝ) (L : Learner ℝ d M) (ff : RuleFitness ℝ d) (entropy : Nat) (cl : Bool) (st0 : SupState ℝ d M)
    (hinit : cfg.nInitial = 0 ∨ st0.step < cfg.nIter) :
    let r := partsFit cfg D C P init L ff (complexitySolFitness f alpha) entropy raw cl st0
    ∃ σ s pred sub, r.state.elitist = some (.solution σ) ∧ σ.st = some s ∧ σ.subpopulation = .ok sub ∧
      r.state.predict (partsComp D C P init L ff (complexitySolFitness f alpha)) raw.X = .ok pred ∧ pred.length = raw.y.length ∧
      (Spec.telling f alpha < s.fitness / 100 → meanSqDiff raw.y pred ≤ Spec.largestError f alpha (s.fitness / 100)) ∧
      (sub.length : ℝ) ≤ ((cfg.nInitial + cfg.nIter * cfg.nRules : Nat) : ℝ) * Spec.largestShare f alpha (s.fitness / 100) := by
  have hc : raw.check = .ok (raw.X, raw.y) := by unfold RawData.check; rw [if_pos hraw]
  have hxy := hraw.2.1.symm
  obtain ⟨fb, hfb, _⟩ := estimateBounds_ok raw.X hraw.2.2
  have hr : partsFit cfg D C P init L ff (complexitySolFitness f alpha) entropy raw cl st0 = st0.fit cfg (partsComp D C P init L ff (complexitySolFitness f alpha)) entropy raw cl := by
    unfold partsFit
    rw [hc]
    dsimp only
    rw [D.configure_none cfg _ hD]
  have hN : cfg.nInitial + cfg.nIter * cfg.nRules = cfg.maxGenomeLength := by
    unfold SupCfg.maxGenomeLength
    rw [Nat.mul_comm cfg.nIter, Nat.add_comm]
  rw [hN] at hC ⊢
  have hbd : (partsComp D C P init L ff (complexitySolFitness f alpha)).Bounded := fun seed hist el pool X y n rules h => D.length_le L ff P seed hist el pool X y n rules h
  have hnf : (partsComp D C P init L ff (complexitySolFitness f alpha)).NoFailure cfg raw.X raw.y fun ρ => D.Good L ff raw.X raw.y fb ρ := by
    refine ⟨?_, ?_, fun seed hist pool _ hlen => C.total hC seed hist _ _ fun p hp g s hg h => runEval_values cfg (partsComp D C P init L ff (complexitySolFitness f alpha)) _ _ pool p hp (hlen hbd) g hg s h⟩
    · intro seed hist el pool n _ hpool hel hnone
      exact D.total cfg L ff P raw.X raw.y hraw.2.2 hxy fb hfb hD seed hist el pool n hpool hel hnone
    · intro pool hpool g hg
      refine eval_total cfg _ rfl ff raw.X raw.y hxy hraw.2.2 pool (fun ρ hρ => ?_) g hg
      obtain ⟨h1, _, h2⟩ := (hpool ρ hρ).spec hraw.2.2 hxy hfb hD
      exact ⟨h1, h2.matched⟩
  obtain ⟨h1, h2, h3, h4, σ', h5, h6, _⟩ := trained_result cfg (partsComp D C P init L ff (complexitySolFitness f alpha)) (C.good hC)
    hbd hiter hrules hsize entropy raw hc cl st0 hinit _ hnf
  obtain ⟨σ, s, pred, sub, k1, k2, k3, k4, k5, k6, k7⟩ := C180_model cfg (partsComp D C P init L ff (complexitySolFitness f alpha)) (C.good hC) f alpha ha ha' rfl hbd entropy raw cl st0 h1
  rw [hr]
  rw [k1] at h5
  cases h5
  have hp := k7 ff (fun sub sub' h ρ hρ => by cases h; exact hρ) (fun ρ hρ => by
    obtain ⟨g1, _, g2⟩ := (h4 ρ (by rw [← h6]; exact hρ)).spec hraw.2.2 hxy hfb hD
    exact ⟨g1, g2.matched⟩)
  obtain ⟨_, _, pred', _, l1, _, l3, l4, _⟩ := C101_reported cfg (partsComp D C P init L ff (complexitySolFitness f alpha)) (C.good hC) entropy raw cl st0 h1
  rw [k1] at l1
  cases l1
  rw [k3] at l3
  cases l3
  exact ⟨_, s, pred, sub, k1, k2, k4, hp, l4, k5, k6⟩

/-! ### Examples -/

/-- The hypotheses of `C180_parts` (and with it of `C180_model`) hold for random search in both phases with the default `ComplexityWu`. -/
example (raw : RawData ℝ 1) (hraw : raw.finite = true ∧ raw.X.length = raw.y.length ∧ raw.X ≠ []) :
    let cfg : SupCfg ℝ := { nIter := 2, nInitial := 0, nRules := 1, patience := -1, delta := 0, comp := ⟨2, true, .random (1 / 2)⟩, useArchive := true }
    let D : DiscoveryPart ℝ 1 ℝ := .rs RSCfg.default fun _ _ => plainDraws 7
    let C : CompositionPart ℝ 1 ℝ := .rs (.random (1 / 2)) 2 3 fun _ _ _ _ _ => 0
    D.Works cfg raw.X.length ∧ C.Works (complexitySolFitness .wu 0.3) (cfg.nInitial + cfg.nIter * cfg.nRules) ∧ AlphaOk .wu 0.3 ∧ (1 ≤ cfg.nIter ∧ 1 ≤ cfg.nRules ∧ 1 ≤ cfg.comp.populationSize) := by
  refine ⟨⟨?_, Or.inl rfl, fun _ _ => plainDraws_possible RSCfg.default _ ?_⟩, ⟨by decide, by decide⟩, ?_, by decide⟩
  · show (0 : ℝ) < 1; exact one_pos
  · have := hraw.2.2
    intro h
    exact this (List.length_eq_zero_iff.mp h)
  · show (0.3 : ℝ) ≠ 0; norm_num

/-- With `ComplexityEmary`, half of the weight on each objective and a fitness of 75 the error is at most `log 2 / 2` and at most half of the rules are selected. -/
example : Spec.largestError .emary (1 / 2) (75 / 100) = Real.log 2 / 2 ∧ Spec.largestShare .emary (1 / 2) (75 / 100) = 1 / 2 ∧ Spec.telling .emary (1 / 2) < 75 / 100 := by
  refine ⟨?_, ?_, ?_⟩
  · unfold Spec.largestError; norm_num
  · unfold Spec.largestShare; norm_num
  · unfold Spec.telling; norm_num

end Suprb
