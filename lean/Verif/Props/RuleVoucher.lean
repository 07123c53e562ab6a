import Verif.Props.Voucher
import Verif.Props.NanFitness
import Verif.Props.Duplicates
import Verif.Props.ErrorBound

/-!
# Claim C181: the fitness of a rule vouches for its error and its volume

What the fitness of a rule says about the error of its local model on the samples it matches and about the part of the input space it covers.
-/

set_option autoImplicit false
set_option linter.unusedSectionVars false

namespace Suprb
open _root_.Spec (Point Pairs Ordered Inside InBounds)

variable {d : Nat} {M : Type}

/-- C181, the fitness functions: error and volume of an ordered rule inside its input space are bounded by its fitness. -/
theorem C181_fitness (f : Combine) (alpha : ℝ) (ha : AlphaOk f alpha) (ha' : f = .emary → 0 < alpha ∧ alpha < 1) (b sp : Pairs ℝ d) (hb : Ordered b) (hin : Inside sp b)
    (hpos : 0 < inputSpaceVolume sp) (e : ℝ) (he : 0 ≤ e) :
    let g := volumeNumber f alpha e .ordered b sp / 100
    (Spec.telling f alpha < g → e ≤ Spec.largestError f alpha g) ∧ inputSpaceVolume sp * (1 - Spec.largestShare f alpha g) ≤ ∏ i, ((b i).2 - (b i).1) := by
  intro g
  have hr := volume_share_range b sp hb hin hpos
  obtain ⟨w, hw, _⟩ := combine_range f alpha _ _ ha (pacc2_range e he) hr
  have hval : g = w := by
    show volumeNumber f alpha e .ordered b sp / 100 = _
    unfold volumeNumber
    rw [volumeFitness_eq _ _ _ _ _ _ hpos, hw]
    simp
  obtain ⟨k1, k2⟩ := combine_vouches f alpha ha ha' e _ w he hr hw
  rw [hval]
  refine ⟨k1, ?_⟩
  have h1 : 1 - Spec.largestShare f alpha w ≤ Kind.ordered.volume b / inputSpaceVolume sp := by linarith
  rw [le_div_iff₀ hpos] at h1
  have h2 : Kind.ordered.volume b = ∏ i, ((b i).2 - (b i).1) := rfl
  rw [h2] at h1
  linarith

/-- What the claim says about a trained rule of the input space `sp`, for the samples it matches. -/
def Spec.RuleVouched (f : Combine) (alpha : ℝ) (L : Learner ℝ d M) (X : List (Point ℝ d)) (y : List ℝ) (sp : Pairs ℝ d) (ρ : Rule ℝ d M) : Prop :=
  ∃ (m : M) (s : RuleState ℝ) (F : ℝ), ρ.model = some m ∧ ρ.st = some s ∧ s.fitness = (F : ℝ) ∧
    (Spec.telling f alpha < F / 100 → meanSqErr (L.predict m) (matchedData ρ X y) ≤ Spec.largestError f alpha (F / 100)) ∧
    (∏ i, ((sp i).2 - (sp i).1)) * (1 - Spec.largestShare f alpha (F / 100)) ≤ ∏ i, ((ρ.bounds i).2 - (ρ.bounds i).1)

/-- C181: a rule that was fitted on data of which it matches a sample. -/
theorem C181_rule (f : Combine) (alpha : ℝ) (ha : AlphaOk f alpha) (ha' : f = .emary → 0 < alpha ∧ alpha < 1) (L : Learner ℝ d M) (X : List (Point ℝ d)) (y : List ℝ) (hxy : y.length = X.length)
    (sp : Pairs ℝ d) (hpos : 0 < inputSpaceVolume sp) (ρ : Rule ℝ d M) (h : ρ.FromData L (volumeNumber f alpha) X y sp) (hm : ∃ x ∈ X, ρ.kind.call ρ.bounds x = true) :
    Spec.RuleVouched f alpha L X y sp ρ := by
  obtain ⟨_, e, _, h2⟩ := fittedOn_values L _ X y hxy ρ h.fitted hm
  obtain ⟨s, m, k1, k2, k3, k4⟩ := describes_of_fittedOn L _ X y hxy ρ h.fitted hm
  rw [h2] at k1
  injection k1 with k1
  have he : e = max (meanSqErr (L.predict m) (matchedData ρ X y)) (1 / 10000) := by
    rw [← k1] at k4
    exact WithTop.coe_inj.mp k4
  have he0 : 0 ≤ e := by rw [he]; exact le_max_of_le_right (by norm_num)
  obtain ⟨g1, g2⟩ := C181_fitness f alpha ha ha' ρ.bounds sp h.ordered h.inside hpos e he0
  rw [h.kind, h.space] at h2
  refine ⟨m, _, _, k2, h2, rfl, fun ht => ?_, g2⟩
  exact (by rw [he]; exact le_max_left _ _ : meanSqErr (L.predict m) (matchedData ρ X y) ≤ e).trans (g1 ht)

/-- C181 for the whole pool of every model trained with the default components (all settings of C79, all data in which no feature is constant, all seeds and random numbers). -/
theorem C181_default (cfg : SupCfg ℝ) (es : ESCfg ℝ) (ga : GACfg ℝ) (k : Nat) (hs : DefaultSettings cfg es ga k) (sigma : ℝ × ℝ) (D : RunDraws ℝ d M) (hD : D.Possible es ga k sigma)
    (L : Learner ℝ d M) (f : Combine) (alpha : ℝ) (ha : AlphaOk f alpha) (ha' : f = .emary → 0 < alpha ∧ alpha < 1) (sf : Nat → SolFitness ℝ) (entropy : Nat) (raw : RawData ℝ d)
    (hraw : raw.finite = true ∧ raw.X.length = raw.y.length ∧ raw.X ≠ []) (hvar : ∀ i, ∃ x ∈ raw.X, ∃ z ∈ raw.X, x i ≠ z i) (cl : Bool) (st0 : SupState ℝ d M)
    (hinit : cfg.nInitial = 0 ∨ st0.step < cfg.nIter) :
    let r := st0.fit cfg (defaultComp es ga D L (volumeNumber f alpha) sf) entropy raw cl
    ∃ fb, estimateBounds raw.X = .ok fb ∧ r.raised = none ∧ r.state.isError = false ∧ ∀ ρ ∈ r.state.pool, Spec.RuleVouched f alpha L raw.X raw.y fb ρ := by
  obtain ⟨fb, hfb, _⟩ := estimateBounds_ok raw.X hraw.2.2
  have hc : raw.check = .ok (raw.X, raw.y) := by unfold RawData.check; rw [if_pos hraw]
  obtain ⟨h1, _, _, h4, _⟩ := default_result cfg es ga k hs sigma D hD L (volumeNumber f alpha) sf entropy raw hc cl st0 hinit fb hfb
  have hpos : 0 < inputSpaceVolume fb := by
    obtain ⟨b, hb1, hb3, _⟩ := (C71_bounds raw.X).2 hraw.2.2
    rw [hfb] at hb1
    cases hb1
    refine Finset.prod_pos fun i _ => ?_
    obtain ⟨x, hx, z, hz, hne⟩ := hvar i
    have u1 := hb3 x hx i
    have u2 := hb3 z hz i
    rcases lt_or_gt_of_ne hne with h | h
    · linarith [u1.1, u2.2]
    · linarith [u2.1, u1.2]
  refine ⟨fb, hfb, h1.1, h1.2, fun ρ hρ => ?_⟩
  exact C181_rule f alpha ha ha' L raw.X raw.y hraw.2.1.symm fb hpos ρ (h4 ρ hρ).fromData ((h4 ρ hρ).poolRule hraw.2.1.symm hraw.2.2 hfb hs.beta).matched

/-- C181, `PseudoAccuracy`: the fitness of a rule is its error in another unit. -/
theorem C181_pseudoAccuracy (e v : ℝ) (h : pseudoAccuracyFitness e = .ok v) : 0 < v ∧ e = -Real.log (v / 100) / 2 := by
  unfold pseudoAccuracyFitness at h
  rw [pacc2] at h
  simp only [bind, Except.bind, pure, Except.pure, Except.ok.injEq] at h
  subst h
  have := Real.exp_pos (-2 * e)
  refine ⟨by linarith, ?_⟩
  rw [mul_div_assoc, div_self (by norm_num), mul_one, Real.log_exp]
  ring

/-! ### Examples -/

/-- The hypotheses of `C181_default` about the settings and the data hold for the default settings and two samples. -/
example : DefaultSettings (SupCfg.default : SupCfg ℝ) ESCfg.default GACfg.default 5 ∧ AlphaOk .wu 0.05 ∧ ∀ i : Fin 1, ∃ x ∈ [(![0] : Point ℝ 1), ![1]], ∃ z ∈ [(![0] : Point ℝ 1), ![1]], x i ≠ z i := by
  refine ⟨⟨by simp [SupCfg.default], by simp [SupCfg.default], by simp [SupCfg.default], by simp [GACfg.default], by decide, fun _ => by simp [ESCfg.default], .inl rfl, by simp [ESCfg.default]⟩, ?_,
    fun i => ⟨![0], by simp, ![1], by simp, ?_⟩⟩
  · show (0.05 : ℝ) ≠ 0; norm_num
  · fin_cases i; simp

/-- Possible random numbers, for a population of two solutions. -/
example : ∃ D : RunDraws ℝ 1 ℝ, D.Possible ESCfg.default { GACfg.default with populationSize := 2 } 5 (1, 1) :=
  ⟨_, firstDraws_possible ESCfg.default rfl { GACfg.default with populationSize := 2 } rfl 5 1 0 (le_refl 0) (1, 1)⟩

/-- With `VolumeEmary`, half of the weight on each objective and a fitness of 75 the error is at most `log 2 / 2` and the rule covers at least half of the input space. -/
example : Spec.largestError .emary (1 / 2) (75 / 100) = Real.log 2 / 2 ∧ 1 - Spec.largestShare .emary (1 / 2) (75 / 100) = 1 / 2 := by
  refine ⟨?_, ?_⟩
  · unfold Spec.largestError; norm_num
  · unfold Spec.largestShare; norm_num

end Suprb
