import Verif.Props.Ridge
import Verif.Props.ErrorBound
import Verif.Props.Proportional
import Verif.Props.Logging

/-!
# Claim C169: the fitness of a solution and the rules that it does not use
-/

set_option autoImplicit false
set_option linter.unusedSectionVars false

namespace Suprb

open _root_.Spec (Pairs Point)
open Suprb.Spec (Covered ReportsAtMost OverlapAtMost)
open Json

section General

variable {K : Type} [Field K] [LinearOrder K] [IsStrictOrderedRing K] {d : Nat} {M : Type}

/-- `s'` is the state that `σ` has after training on the data if the pool has additional rules `more`, which it does not select. -/
def Spec.WithUnused (L : Learner K d M) (P : MixParams K) (filt : SubFilter K d M) (sf : SolFitness K) (X : List (Point K d)) (y : List K) (σ : Solution K d M) (more : List (Rule K d M))
    (s' : SolState K) : Prop :=
  ∃ τ', ({ σ with genome := σ.genome ++ more.map fun _ => false, pool := σ.pool ++ more } : Solution K d M).fit L P filt sf X y = .ok τ' ∧ τ'.st = some s'

open Suprb.Spec (WithUnused)

/-- Training a solution again after the pool has grown gives the same error and complexity, and the fitness of these with the new number of rules. -/
theorem withUnused_state (L : Learner K d M) (P : MixParams K) (filt : SubFilter K d M) (sf : SolFitness K) (X : List (Point K d)) (y : List K) (σ τ : Solution K d M)
    (hlen : σ.genome.length = σ.pool.length) (s : SolState K) (hfit : σ.fit L P filt sf X y = .ok τ) (hs : τ.st = some s) (more : List (Rule K d M)) :
    ∃ s', WithUnused L P filt sf X y σ more s' ∧ s'.error = s.error ∧ s'.complexity = s.complexity ∧ s.fitness = sf s.error σ.pool.length s.complexity ∧
      s'.fitness = sf s.error (σ.pool.length + more.length) s.complexity ∧ 0 < s.error := by
  obtain ⟨σ', e, _, _, _, _, hc, hpred⟩ := C23_zero_pad σ more hlen
  have hσ' : σ' = { σ with genome := σ.genome ++ more.map fun _ => false, pool := σ.pool ++ more } := by
    unfold zeroPad at e
    rw [if_neg (by simp [hlen])] at e
    injection e with e
    rw [← e]
    simp [hlen]
  subst hσ'
  unfold Solution.fit at hfit
  cases hp : σ.predict L P filt true X with
  | error err => rw [hp] at hfit; cases hfit
  | ok pred =>
    rw [hp] at hfit
    simp only at hfit
    split_ifs at hfit with hbad
    cases hfit
    simp only [Option.some.injEq] at hs
    subst hs
    refine ⟨⟨max (mse y pred) errorFloor, (σ.genome ++ more.map fun _ => false).length, (σ.genome ++ more.map fun _ => false).count true,
      sf (max (mse y pred) errorFloor) (σ.genome ++ more.map fun _ => false).length ((σ.genome ++ more.map fun _ => false).count true)⟩, ⟨{ genome := σ.genome ++ more.map fun _ => false, pool := σ.pool ++ more, st := some _ }, ?_, rfl⟩, rfl, hc, ?_, ?_, ?_⟩
    · unfold Solution.fit
      rw [hpred, hp]
      simp only [hbad, if_false]
    · simp [hlen]
    · simp only [hc]
      rw [show (σ.genome ++ more.map fun _ => false).length = σ.pool.length + more.length by simp [hlen]]
    · exact lt_of_lt_of_le (by unfold errorFloor; norm_num) (le_max_right _ _)

end General

open Suprb.Spec (WithUnused)

variable {d : Nat} {M : Type}

/-- C169 for both complexity based fitnesses: rules that a solution does not use do not change its error, complexity and fitness. -/
theorem C169_complexity_partial (f : Combine) (alpha : ℝ) (m : Nat) (L : Learner ℝ d M) (P : MixParams ℝ) (filt : SubFilter ℝ d M) (X : List (Point ℝ d)) (y : List ℝ) (σ τ : Solution ℝ d M)
    (hlen : σ.genome.length = σ.pool.length) (s : SolState ℝ) (hfit : σ.fit L P filt (complexitySolFitness f alpha m) X y = .ok τ) (hs : τ.st = some s) (more : List (Rule ℝ d M)) :
    ∃ s', WithUnused L P filt (complexitySolFitness f alpha m) X y σ more s' ∧ s'.error = s.error ∧ s'.complexity = s.complexity ∧ s'.fitness = s.fitness := by
  obtain ⟨s', h1, h2, h3, h4, h5, _⟩ := withUnused_state L P filt _ X y σ τ hlen s hfit hs more
  exact ⟨s', h1, h2, h3, by rw [h4, h5]; rfl⟩

theorem bic_value (N n c : Nat) (hn : 1 ≤ n) (e : ℝ) : bicSolFitness N e n c = -((n : ℝ) * Real.log e + (c : ℝ) * Real.log n) := by
  unfold bicSolFitness pseudoBIC
  rw [if_neg (by omega)]
  rfl

/-- Both solutions are trained on the same pool with `PseudoBIC`. -/
structure Spec.BothTrained (L : Learner ℝ d M) (P : MixParams ℝ) (filt : SubFilter ℝ d M) (m : Nat) (X : List (Point ℝ d)) (y : List ℝ) (σ₁ σ₂ : Solution ℝ d M) (s₁ s₂ : SolState ℝ) : Prop where
  pool : σ₂.pool = σ₁.pool
  rules : σ₁.pool ≠ []
  len₁ : σ₁.genome.length = σ₁.pool.length
  len₂ : σ₂.genome.length = σ₂.pool.length
  trained₁ : ∃ τ, σ₁.fit L P filt (bicSolFitness m) X y = .ok τ ∧ τ.st = some s₁
  trained₂ : ∃ τ, σ₂.fit L P filt (bicSolFitness m) X y = .ok τ ∧ τ.st = some s₂

open Suprb.Spec (BothTrained)

/-- C169 for `PseudoBIC`: a solution that is at least as accurate and not more complex than another one is at least as fit, whatever other rules there are. -/
theorem C169_bic_partial (L : Learner ℝ d M) (P : MixParams ℝ) (filt : SubFilter ℝ d M) (m : Nat) (X : List (Point ℝ d)) (y : List ℝ) (σ₁ σ₂ : Solution ℝ d M) (s₁ s₂ : SolState ℝ)
    (h : BothTrained L P filt m X y σ₁ σ₂ s₁ s₂) (he : s₁.error ≤ s₂.error) (hc : s₁.complexity ≤ s₂.complexity) (more : List (Rule ℝ d M)) :
    ∃ s₁' s₂', WithUnused L P filt (bicSolFitness m) X y σ₁ more s₁' ∧ WithUnused L P filt (bicSolFitness m) X y σ₂ more s₂' ∧ s₂'.fitness ≤ s₁'.fitness := by
  obtain ⟨τ₁, f₁, t₁⟩ := h.trained₁
  obtain ⟨τ₂, f₂, t₂⟩ := h.trained₂
  obtain ⟨s₁', a1, _, _, _, a5, a6⟩ := withUnused_state L P filt _ X y σ₁ τ₁ h.len₁ s₁ f₁ t₁ more
  obtain ⟨s₂', b1, _, _, _, b5, b6⟩ := withUnused_state L P filt _ X y σ₂ τ₂ h.len₂ s₂ f₂ t₂ more
  refine ⟨s₁', s₂', a1, b1, ?_⟩
  have hn : 1 ≤ σ₁.pool.length + more.length := by have := List.length_pos_iff.mpr h.rules; omega
  rw [a5, b5, h.pool, bic_value _ _ _ hn, bic_value _ _ _ hn]
  have hn' : (1 : ℝ) ≤ ((σ₁.pool.length + more.length : Nat) : ℝ) := by exact_mod_cast hn
  have hc' : (s₁.complexity : ℝ) ≤ s₂.complexity := by exact_mod_cast hc
  have h1 := mul_le_mul_of_nonneg_left (Real.log_le_log a6 he) (by linarith : (0 : ℝ) ≤ ((σ₁.pool.length + more.length : Nat) : ℝ))
  have h2 := mul_le_mul_of_nonneg_right hc' (Real.log_nonneg hn')
  linarith

/-- Logarithms grow slower than square roots. -/
theorem log_le_sqrt (x : ℝ) (hx : 0 < x) : Real.log x ≤ 2 * Real.sqrt x := by
  have h := Real.log_le_self (Real.sqrt_nonneg x)
  rw [Real.log_sqrt hx.le] at h
  linarith

/-- C169 is false for `PseudoBIC`: whichever of two solutions with different errors is fitter now, the more accurate one is fitter as soon as there are enough rules that neither of them uses. So if the
simpler one is fitter now, rules that are not used reverse the order. -/
theorem C169_order_refuted (L : Learner ℝ d M) (P : MixParams ℝ) (filt : SubFilter ℝ d M) (m : Nat) (X : List (Point ℝ d)) (y : List ℝ) (σ₁ σ₂ : Solution ℝ d M) (s₁ s₂ : SolState ℝ)
    (h : BothTrained L P filt m X y σ₁ σ₂ s₁ s₂) (he : s₁.error < s₂.error) :
    ∃ N, ∀ more : List (Rule ℝ d M), N ≤ more.length → ∃ s₁' s₂', WithUnused L P filt (bicSolFitness m) X y σ₁ more s₁' ∧ WithUnused L P filt (bicSolFitness m) X y σ₂ more s₂' ∧
      s₁'.error = s₁.error ∧ s₁'.complexity = s₁.complexity ∧ s₂'.error = s₂.error ∧ s₂'.complexity = s₂.complexity ∧ s₂'.fitness < s₁'.fitness := by
  obtain ⟨τ₁, f₁, t₁⟩ := h.trained₁
  obtain ⟨τ₂, f₂, t₂⟩ := h.trained₂
  have he0 : 0 < s₁.error := (withUnused_state L P filt _ X y σ₁ τ₁ h.len₁ s₁ f₁ t₁ []).choose_spec.2.2.2.2.2
  set δ := Real.log s₂.error - Real.log s₁.error with hδ
  have hδ0 : 0 < δ := sub_pos.mpr (Real.log_lt_log he0 he)
  obtain ⟨N, hN⟩ := exists_nat_gt ((2 * s₁.complexity / δ) ^ 2)
  refine ⟨N, fun more hmore => ?_⟩
  obtain ⟨s₁', a1, a2, a3, _, a5, a6⟩ := withUnused_state L P filt _ X y σ₁ τ₁ h.len₁ s₁ f₁ t₁ more
  obtain ⟨s₂', b1, b2, b3, _, b5, b6⟩ := withUnused_state L P filt _ X y σ₂ τ₂ h.len₂ s₂ f₂ t₂ more
  refine ⟨s₁', s₂', a1, b1, a2, a3, b2, b3, ?_⟩
  have hn : 1 ≤ σ₁.pool.length + more.length := by have := List.length_pos_iff.mpr h.rules; omega
  rw [a5, b5, h.pool, bic_value _ _ _ hn, bic_value _ _ _ hn]
  generalize hk : σ₁.pool.length + more.length = n at *
  have hn' : (1 : ℝ) ≤ (n : ℝ) := by exact_mod_cast hn
  have hbig : (2 * s₁.complexity / δ) ^ 2 < (n : ℝ) := hN.trans_le (by exact_mod_cast (by omega : N ≤ n))
  have h1 : 2 * s₁.complexity / δ < Real.sqrt n := Real.lt_sqrt_of_sq_lt hbig
  rw [div_lt_iff₀ hδ0] at h1
  have h2 := log_le_sqrt n (by linarith)
  have h3 : 0 < Real.sqrt n := Real.sqrt_pos.mpr (by linarith)
  have h4 : (s₁.complexity : ℝ) * Real.log n ≤ s₁.complexity * (2 * Real.sqrt n) := mul_le_mul_of_nonneg_left h2 (Nat.cast_nonneg _)
  have h5 : s₁.complexity * (2 * Real.sqrt n) < n * δ := by
    have := mul_lt_mul_of_pos_right h1 h3
    have hs : Real.sqrt n * Real.sqrt n = n := Real.mul_self_sqrt (by linarith)
    nlinarith
  have h6 : 0 ≤ (s₂.complexity : ℝ) * Real.log n := mul_nonneg (Nat.cast_nonneg _) (Real.log_nonneg hn')
  have h7 : (n : ℝ) * δ = n * Real.log s₂.error - n * Real.log s₁.error := by rw [hδ]; ring
  linarith

/-- C169 is false for `PseudoBIC`: the fitness of a solution with an error above 1 falls with every rule that is found and not used. -/
theorem C169_falls_refuted (L : Learner ℝ d M) (P : MixParams ℝ) (filt : SubFilter ℝ d M) (m : Nat) (X : List (Point ℝ d)) (y : List ℝ) (σ τ : Solution ℝ d M)
    (hlen : σ.genome.length = σ.pool.length) (hne : σ.pool ≠ []) (s : SolState ℝ) (hfit : σ.fit L P filt (bicSolFitness m) X y = .ok τ) (hs : τ.st = some s) (he : 1 < s.error)
    (more : List (Rule ℝ d M)) (hmore : more ≠ []) : ∃ s', WithUnused L P filt (bicSolFitness m) X y σ more s' ∧ s'.error = s.error ∧ s'.complexity = s.complexity ∧ s'.fitness < s.fitness := by
  obtain ⟨s', h1, h2, h3, h4, h5, _⟩ := withUnused_state L P filt _ X y σ τ hlen s hfit hs more
  refine ⟨s', h1, h2, h3, ?_⟩
  have hn : 1 ≤ σ.pool.length := List.length_pos_iff.mpr hne
  have hm : 1 ≤ more.length := List.length_pos_iff.mpr hmore
  rw [h4, h5, bic_value _ _ _ hn, bic_value _ _ _ (by omega)]
  have hn' : (1 : ℝ) ≤ (σ.pool.length : ℝ) := by exact_mod_cast hn
  have hlt : (σ.pool.length : ℝ) < ((σ.pool.length + more.length : Nat) : ℝ) := by exact_mod_cast (by omega : σ.pool.length < σ.pool.length + more.length)
  have h6 := mul_lt_mul_of_pos_right hlt (Real.log_pos he)
  have h7 := mul_le_mul_of_nonneg_left (Real.log_le_log (by linarith) hlt.le) (Nat.cast_nonneg (α := ℝ) s.complexity)
  linarith

/-! ### Whole runs -/

/-- Two samples at the same place with targets `t` and `-t`: every rule predicts zero there. -/
theorem noise_rule (alpha : ℝ) (ha : 0 < alpha) (x : Point ℝ d) (t : ℝ) (ρ : Rule ℝ d (LinModel ℝ d)) (h : DescribesData (ridge alpha) ρ [x, x] [t, -t])
    (hm : ∃ z ∈ [x, x], ρ.kind.call ρ.bounds z = true) (u : ℝ) (hu : ρ.LocalPrediction (ridge alpha) x u) : u = 0 := by
  have hx : ρ.kind.call ρ.bounds x = true := by
    obtain ⟨z, hz, h1⟩ := hm
    simp only [List.mem_cons, List.not_mem_nil, or_false, or_self] at hz
    rwa [hz] at h1
  have hd : matchedData ρ [x, x] [t, -t] = [(x, t), (x, -t)] := by simp [matchedData, hx]
  obtain ⟨s, m, _, h2, h3, _⟩ := h
  obtain ⟨m', hm', rfl⟩ := hu
  rw [h2] at hm'
  cases hm'
  have hr : IsRidge alpha ([x, x].zip [t, -t]) (⟨0, 0⟩ : LinModel ℝ d) := by
    intro m'
    have hsq : 0 ≤ alpha * ∑ i, m'.coef i ^ 2 := mul_nonneg ha.le (Finset.sum_nonneg fun i _ => sq_nonneg _)
    simp only [ridgeLoss, List.zip_cons_cons, List.zip_nil_right, List.map_cons, List.map_nil, List.sum_cons, List.sum_nil]
    have h0 : LinModel.predict (⟨0, 0⟩ : LinModel ℝ d) x = 0 := by simp [LinModel.predict]
    rw [h0]
    have h1 : alpha * ∑ i, (⟨0, 0⟩ : LinModel ℝ d).coef i ^ 2 = 0 := by simp
    rw [h1]
    nlinarith [sq_nonneg (m'.predict x)]
  rw [h3, hd]
  show LinModel.predict (ridgeFit alpha [x, x] [t, -t]) x = 0
  rw [ridgeFit_eq ha _ _ (by simp) (by simp) hr]
  simp [LinModel.predict]

/-- … so every solution has the same error. -/
theorem noise_error (alpha : ℝ) (ha : 0 < alpha) (P : MixParams ℝ) (hw : 0 < P.weight) (hE : P.expCalc.Positive d) (ff : RuleFitness ℝ d) (sf : SolFitness ℝ) (x : Point ℝ d) (t : ℝ) (ht : 1 < t)
    (pool : List (Rule ℝ d (LinModel ℝ d))) (hp : ∀ ρ ∈ pool, ρ.FittedOn (ridge alpha) ff [x, x] [t, -t] ∧ ∃ z ∈ [x, x], ρ.kind.call ρ.bounds z = true) (g : List Bool)
    (s : SolState ℝ) (h : evalGenome (ridge alpha) P filterAll sf [x, x] [t, -t] pool g = .ok s) : s.error = t ^ 2 ∧ s.fitness = sf (t ^ 2) pool.length s.complexity ∧ s.complexity ≤ pool.length := by
  unfold evalGenome at h
  split at h
  · cases h
  · rename_i τ hτ
    obtain ⟨s', pred, sub, h1, h2, h3, h4, h5, _, _, h7, h8, h9, _⟩ := C24_statistics (ridge alpha) P filterAll sf _ _ _ τ hτ
    rw [h1] at h
    cases h
    have hlen : g.length = pool.length := by
      by_contra hne
      rw [(C24_selection { genome := g, pool := pool }).2 hne] at h3
      cases h3
    obtain ⟨out, h6, h10, h11⟩ := C20_default_filter_partial (ridge alpha) ff P [x, x] [t, -t] rfl { genome := g, pool := pool } hlen hp
    rw [h2] at h10
    cases h10
    have hus : ∀ ρ ∈ pool, ρ.Usable := fun ρ hρ => by
      obtain ⟨ρ0, k, h0, _, hfit⟩ := (hp ρ hρ).1
      rw [fits_replicate (ridge alpha) ff [x, x] [t, -t] rfl ρ0 h0 k] at hfit
      obtain ⟨ρ1, e1, _, hc⟩ := fit_consistent (ridge alpha) ff [x, x] [x, x] [t, -t] rfl rfl ρ0 (Or.inl h0)
      rw [hfit] at e1
      cases e1
      exact usable_of_fitted ρ [x, x] hc (hp ρ hρ).2
    obtain ⟨out, h12, _, h13⟩ := C17_convex (ridge alpha) P hw hE { genome := g, pool := pool } hlen hus [x, x]
    rw [h11] at h12
    cases h12
    match pred, h6 with
    | [v, w], _ =>
      have hz : ∀ q ∈ [x, x].zip [v, w], q.2 = 0 := by
        intro q hq
        obtain ⟨a1, a2⟩ := h13 q.1 q.2 hq
        have hqx : q.1 = x := by
          simp only [List.zip_cons_cons, List.zip_nil_right, List.mem_cons, List.not_mem_nil, or_false] at hq
          rcases hq with rfl | rfl <;> rfl
        by_cases hex : ∃ ρ ∈ compress pool g, ρ.kind.call ρ.bounds q.1 = true
        · have := a2 hex 0 0 fun ρ hρ _ u hu => by
            have hmem := mem_of_mem_compress hρ
            rw [hqx] at hu
            rw [noise_rule alpha ha x t ρ (describes_of_fittedOn _ ff _ _ rfl ρ (hp ρ hmem).1 (hp ρ hmem).2) (hp ρ hmem).2 u hu]
            exact ⟨le_rfl, le_rfl⟩
          exact le_antisymm this.2 this.1
        · exact a1 fun ρ hρ => by simpa using fun hc => hex ⟨ρ, hρ, hc⟩
      have hv : v = 0 := hz (x, v) (by simp)
      have hw0 : w = 0 := hz (x, w) (by simp)
      subst hv hw0
      have he : s.error = t ^ 2 := by
        rw [h5, max_eq_left]
        · simp [meanSqDiff]
        · simp [meanSqDiff]
          nlinarith
      exact ⟨he, by rw [h9, he, h8], h7⟩

/-- The fitness of the elitist after an iteration belongs to the pool of this iteration. -/
theorem elitistFitness_at {K : Type} [Field K] {M : Type} (t : List (Event K d M)) : (elitistFitness t).length = (composedPools t).length ∧
    ∀ (j : Nat) f, (elitistFitness t)[j]? = some f → ∃ p r el, Event.composed p r el ∈ t ∧ el.fitnessD = f ∧ (composedPools t)[j]? = some p := by
  induction t with
  | nil => exact ⟨rfl, fun j f h => by simp [elitistFitness] at h⟩
  | cons e t ih =>
    cases e with
    | composed p r el =>
      refine ⟨by simpa [elitistFitness, composedPools] using ih.1, fun j f h => ?_⟩
      cases j with
      | zero => exact ⟨p, r, el, by simp, by simpa [elitistFitness] using h, by simp [composedPools]⟩
      | succ j =>
        obtain ⟨p', r', el', h1, h2, h3⟩ := ih.2 j f (by simpa [elitistFitness] using h)
        exact ⟨p', r', el', by simp [h1], h2, by simpa [composedPools] using h3⟩
    | discover a b c e =>
      refine ⟨ih.1, fun j f h => ?_⟩
      obtain ⟨p', r', el', h1, h2, h3⟩ := ih.2 j f h
      exact ⟨p', r', el', by simp [h1], h2, h3⟩
    | compose a b c =>
      refine ⟨ih.1, fun j f h => ?_⟩
      obtain ⟨p', r', el', h1, h2, h3⟩ := ih.2 j f h
      exact ⟨p', r', el', by simp [h1], h2, h3⟩

/-- C169 is false for `PseudoBIC`: with the default components, one rule per iteration and two contradicting samples, the training completes and the fitness of the elitist is after every iteration
but the first strictly below the one it had after the first iteration, for all seeds and random numbers, although the archive keeps the first elitist and no rule changes what it predicts. -/
theorem C169_run_refuted (cfg : SupCfg ℝ) (es : ESCfg ℝ) (ga : GACfg ℝ) (k : Nat) (hs : DefaultSettings cfg es ga k) (hb1 : es.beta ≤ 1) (sigma : ℝ × ℝ) (alpha : ℝ) (ha : 0 < alpha)
    (D : RunDraws ℝ d (LinModel ℝ d)) (hD : D.Possible es ga k sigma) (ff : RuleFitness ℝ d) (entropy : Nat) (st0 : SupState ℝ d (LinModel ℝ d))
    (hinit : cfg.nInitial = 0) (hone : cfg.nRules = 1) (hpat : cfg.patience ≤ 0) (x : Point ℝ d) (t : ℝ) (ht : 1 < t) :
    let r := st0.fit cfg (defaultComp es ga D (ridge alpha) ff bicSolFitness) entropy ⟨[x, x], [t, -t], true⟩ false
    r.Completed ∧ (elitistFitness r.trace).length = cfg.nIter ∧ (elitistFitness r.trace)[0]? = some (-Real.log (t ^ 2)) ∧
      ∀ (j : Nat) f, (elitistFitness r.trace)[j + 1]? = some f → f < -Real.log (t ^ 2) := by
  intro r
  have hraw : (⟨[x, x], [t, -t], true⟩ : RawData ℝ d).check = .ok ([x, x], [t, -t]) := by unfold RawData.check; rw [if_pos ⟨rfl, rfl, by simp⟩]
  have hbt : es.beta / 10000 ≤ t ^ 2 := by nlinarith
  obtain ⟨h1, h2, h3, h4⟩ := C140_full_pool cfg es ga k hs hb1 sigma alpha ha D hD ff bicSolFitness entropy ⟨[x, x], [t, -t], true⟩ hraw st0 (.inl hinit)
    (by intro v hv; simp only [List.mem_cons, List.not_mem_nil, or_false] at hv; rcases hv with rfl | rfl; exacts [hbt, by rw [neg_sq]; exact hbt])
  obtain ⟨fb, hfb, _⟩ := estimateBounds_ok [x, x] (by simp)
  obtain ⟨_, _, _, h5, _⟩ := default_result cfg es ga k hs sigma D hD (ridge alpha) ff bicSolFitness entropy ⟨[x, x], [t, -t], true⟩ hraw false st0 (.inl hinit) fb hfb
  have h6 := fit_shown cfg (defaultComp es ga D (ridge alpha) ff bicSolFitness) (defaultComp_good es ga D (ridge alpha) ff bicSolFitness) entropy ⟨[x, x], [t, -t], true⟩ false st0
  obtain ⟨h7, h8⟩ := elitistFitness_at r.trace
  have hgrow : ∀ e ∈ r.trace, e.pool <+: r.state.pool := by
    have hp : r.state.pool = _ := fitWith_pool cfg (defaultComp es ga D (ridge alpha) ff bicSolFitness) (runEval cfg (defaultComp es ga D (ridge alpha) ff bicSolFitness)) entropy ⟨[x, x], [t, -t], true⟩ st0 hraw
    rcases fitWith_trace cfg (defaultComp es ga D (ridge alpha) ff bicSolFitness) (runEval cfg (defaultComp es ga D (ridge alpha) ff bicSolFitness)) entropy ⟨[x, x], [t, -t], true⟩ false st0 with ⟨he, _⟩ | ⟨_, htr⟩
    · rw [hraw] at he; cases he
    · have hg := (run_growing cfg (defaultComp es ga D (ridge alpha) ff bicSolFitness) (runEval cfg (defaultComp es ga D (ridge alpha) ff bicSolFitness) [x, x] [t, -t]) entropy [x, x] [t, -t] st0.step).2
      intro e he
      rw [hp]
      exact hg e (by rw [← htr]; exact he)
  have hlen : (elitistFitness r.trace).length = cfg.nIter := by
    have := h4 hpat
    rw [h7]
    change r.state.pool.length = _ at this
    change r.state.pool.length = _ at h3
    rw [h3, hinit, hone] at this
    change 0 + (composedPools r.trace).length * 1 = _ at this
    omega
  have hval : ∀ (j : Nat) f, (elitistFitness r.trace)[j]? = some f → ∃ c : Nat, f = -(((j + 1 : Nat) : ℝ) * Real.log (t ^ 2) + (c : ℝ) * Real.log ((j + 1 : Nat) : ℝ)) := by
    intro j f hf
    obtain ⟨p, q, el, a1, a2, a3⟩ := h8 j f hf
    have hpl := h2 j p a3
    rw [hinit, hone] at hpl
    obtain ⟨a4, a5⟩ := h6 _ a1
    obtain ⟨_, s, a6, a7⟩ := a5.elitist_len el a4
    obtain ⟨_, b2, _⟩ := noise_error alpha ha ⟨.plain, 1⟩ one_pos (ExpCalc.plain_positive d) ff (bicSolFitness cfg.maxGenomeLength) x t ht p
      (fun ρ hρ => by have hin := h5 ρ ((hgrow _ a1).subset hρ); obtain ⟨_, _, _, _, _, hex⟩ := hin.matchesData; exact ⟨hin.fromData.fitted, hex⟩) el.genome s a7
    refine ⟨s.complexity, ?_⟩
    rw [← a2, fitnessD_of el s a6, b2, bic_value _ _ _ (by omega), show p.length = j + 1 by omega]
  have hlog : 0 < Real.log (t ^ 2) := Real.log_pos (by nlinarith)
  refine ⟨h1, hlen, ?_, ?_⟩
  · obtain ⟨f, hf⟩ : ∃ f, (elitistFitness r.trace)[0]? = some f := by
      rw [List.getElem?_eq_getElem (by rw [hlen]; exact hs.iter)]
      exact ⟨_, rfl⟩
    obtain ⟨c, hc⟩ := hval 0 f hf
    rw [hf, hc]
    simp
  · intro j f hf
    obtain ⟨c, hc⟩ := hval (j + 1) f hf
    rw [hc]
    have hj : (2 : ℝ) ≤ ((j + 1 + 1 : Nat) : ℝ) := by exact_mod_cast (by omega : 2 ≤ j + 1 + 1)
    have h9 : 0 ≤ (c : ℝ) * Real.log ((j + 1 + 1 : Nat) : ℝ) := mul_nonneg (Nat.cast_nonneg _) (Real.log_nonneg (by linarith))
    have h10 := mul_le_mul_of_nonneg_right hj hlog.le
    linarith

/-! ### Examples -/

/-- A rule on `[0, 1]` that was trained on one sample with target 2 and predicts 1/2. -/
noncomputable def halfRule : Rule ℝ 1 ℝ :=
  { kind := .ordered, bounds := ![(0, 1)], inputSpace := ![(0, 1)], model := some (1 / 2)
    st := some ⟨true, ((9 / 4 : ℝ) : WithTop ℝ), ((1 : ℝ) : WithBot ℝ), 1, [1 / 2], [true]⟩ }

theorem halfFit (b : Bool) : ∃ τ s, (⟨[b, b], [halfRule, halfRule], none⟩ : Solution ℝ 1 ℝ).fit ⟨fun _ y => y.sum / (y.length : ℝ), fun c _ => c⟩ ⟨.plain, 1⟩ filterAll (bicSolFitness 2) [![0]] [2] = .ok τ ∧
    τ.st = some s ∧ s.error = (if b then 9 / 4 else 4) ∧ s.complexity = (if b then 2 else 0) ∧ s.fitness = bicSolFitness 2 s.error 2 s.complexity := by
  cases b
  · simp [Solution.fit, Solution.predict, Solution.subpopulation, compress, mixing, mse, errorFloor]
    norm_num
  · have h : mixRules (⟨fun _ y => y.sum / (y.length : ℝ), fun c _ => c⟩ : Learner ℝ 1 ℝ) ⟨.plain, 1⟩ true [(![0] : Point ℝ 1)] [halfRule, halfRule] = .ok [1 / 2] := by
      simp [mixRules, halfRule, Rule.localPred, Rule.tau, scatter, colSum, quotients, invError, ExpCalc.value, bind, Except.bind, pure, Except.pure]
      norm_num
    simp [Solution.fit, Solution.predict, Solution.subpopulation, compress, mixing, filterAll, h, mse, errorFloor]
    norm_num

/-- The hypotheses of `C169_order_refuted`, and a reversal: with two rules, selecting both (error 9/4) is less fit than selecting none (error 4); with enough unused rules it is fitter. -/
example : ∃ s₁ s₂ : SolState ℝ, BothTrained (⟨fun _ y => y.sum / (y.length : ℝ), fun c _ => c⟩ : Learner ℝ 1 ℝ) ⟨.plain, 1⟩ filterAll 2 [![0]] [2] ⟨[true, true], [halfRule, halfRule], none⟩
    ⟨[false, false], [halfRule, halfRule], none⟩ s₁ s₂ ∧ s₁.error < s₂.error ∧ s₁.fitness < s₂.fitness := by
  obtain ⟨τ₁, s₁, a1, a2, a3, a4, a5⟩ := halfFit true
  obtain ⟨τ₂, s₂, b1, b2, b3, b4, b5⟩ := halfFit false
  refine ⟨s₁, s₂, ⟨rfl, by simp, rfl, rfl, ⟨τ₁, a1, a2⟩, ⟨τ₂, b1, b2⟩⟩, ?_, ?_⟩
  · rw [a3, b3]; norm_num
  · rw [a5, b5, a3, b3, a4, b4, bic_value _ _ _ (by norm_num), bic_value _ _ _ (by norm_num)]
    have h : Real.log (4 : ℝ) < Real.log (9 / 4) + Real.log 2 := by
      rw [← Real.log_mul (by norm_num) (by norm_num)]
      exact Real.log_lt_log (by norm_num) (by norm_num)
    norm_num
    linarith

/-- The hypotheses of `C169_falls_refuted` and `C169_complexity_partial`: this solution has an error above 1. -/
example : ∃ τ s, (⟨[true, true], [halfRule, halfRule], none⟩ : Solution ℝ 1 ℝ).fit ⟨fun _ y => y.sum / (y.length : ℝ), fun c _ => c⟩ ⟨.plain, 1⟩ filterAll (bicSolFitness 2) [![0]] [2] = .ok τ ∧
    τ.st = some s ∧ 1 < s.error := by
  obtain ⟨τ, s, a1, a2, a3, _⟩ := halfFit true
  exact ⟨τ, s, a1, a2, by rw [a3]; norm_num⟩

/-- The hypotheses of `C169_run_refuted` hold for the default values with one rule per iteration. -/
example : DefaultSettings (K := ℝ) { SupCfg.default with nRules := 1, nInitial := 0 } ESCfg.default { GACfg.default with populationSize := 2 } 5 ∧ (ESCfg.default : ESCfg ℝ).beta ≤ 1 ∧
    (firstDraws 5 32 1 : RunDraws ℝ 1 (LinModel ℝ 1)).Possible ESCfg.default { GACfg.default with populationSize := 2 } 5 (1, 1) ∧
    ({ SupCfg.default with nRules := 1, nInitial := 0 } : SupCfg ℝ).patience ≤ 0 ∧ ({ SupCfg.default with nRules := 1, nInitial := 0 } : SupCfg ℝ).nIter = 32 :=
  ⟨⟨by simp [SupCfg.default], by simp, by simp [SupCfg.default], by simp, by decide, fun _ => by simp [ESCfg.default], .inl rfl, by simp [ESCfg.default]⟩,
    by simp [ESCfg.default], firstDraws_possible _ rfl _ rfl _ _ _ zero_le_one _, by simp [SupCfg.default], rfl⟩

end Suprb
