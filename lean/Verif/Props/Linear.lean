import Verif.Props.Parts
import Verif.Props.Ridge
import Mathlib.Algebra.Order.BigOperators.Ring.Finset

/-!
# Claim C163: linear targets are learned up to the regularisation
-/

set_option autoImplicit false
set_option linter.unusedSectionVars false

namespace Suprb

open Json
open _root_.Spec (Pairs Point)

variable {K : Type} [Field K] [LinearOrder K] [IsStrictOrderedRing K] {d : Nat}

/-- Specification: the value of the affine function with slope `w` and value `b` at the origin. -/
def Spec.affine (w : Fin d → K) (b : K) (x : Point K d) : K := (∑ i, w i * x i) + b

open Suprb.Spec (affine)

/-- The local model is at least as good, penalty included, as every affine function. -/
theorem ridge_le_affine (alpha : K) (ha : 0 < alpha) (D : List (Point K d × K)) (m : LinModel K d) (h : IsRidge alpha D m) (w : Fin d → K) (b : K) :
    (D.map fun q => (q.2 - m.predict q.1) ^ 2).sum ≤ (D.map fun q => (q.2 - affine w b q.1) ^ 2).sum + alpha * ∑ i, w i ^ 2 := by
  have h1 := h ⟨w, b⟩
  unfold ridgeLoss at h1
  have h3 : 0 ≤ alpha * ∑ i, m.coef i ^ 2 := mul_nonneg ha.le (Finset.sum_nonneg fun i _ => sq_nonneg _)
  exact le_trans (le_add_of_nonneg_right h3) h1

theorem ridgeFit_zip (alpha : K) (ha : 0 < alpha) (D : List (Point K d × K)) (hD : D ≠ []) : IsRidge alpha D (ridgeFit alpha (D.map Prod.fst) (D.map Prod.snd)) := by
  have := ridgeFit_isRidge ha (D.map Prod.fst) (D.map Prod.snd) (by simpa using hD) (by simp)
  rwa [zip_fst_snd] at this

theorem le_sum_of_mem {l : List K} (h : ∀ a ∈ l, 0 ≤ a) {a : K} (ha : a ∈ l) : a ≤ l.sum := List.single_le_sum h a ha

/-- For targets of an affine function: sum of the squared residuals and slope of the local model. -/
theorem ridge_affine (alpha : K) (ha : 0 < alpha) (D : List (Point K d × K)) (hD : D ≠ []) (m : LinModel K d) (h : IsRidge alpha D m) (w : Fin d → K) (b : K)
    (hy : ∀ q ∈ D, q.2 = affine w b q.1) :
    4 * (D.map fun q => (m.predict q.1 - affine w b q.1) ^ 2).sum ≤ alpha * ∑ i, w i ^ 2 ∧ ∑ i, (m.coef i - w i) ^ 2 ≤ ∑ i, w i ^ 2 := by
  have hn := isRidge_normal ha hD h (LinModel.vec m - (w, b))
  rw [ridgeForm_apply, ridgeRhs_apply] at hn
  have e1 : ∀ q : Point K d × K, atPoint q.1 (LinModel.vec m - (w, b)) = m.predict q.1 - affine w b q.1 := by
    intro q
    rw [map_sub]
    rfl
  have e2 : (D.map fun q => (m.predict q.1 - affine w b q.1) ^ 2).sum =
      (D.map fun q => atPoint q.1 (LinModel.vec m) * atPoint q.1 (LinModel.vec m - (w, b))).sum - (D.map fun q => q.2 * atPoint q.1 (LinModel.vec m - (w, b))).sum := by
    rw [← ridge_sum_sub]
    congr 1
    refine List.map_congr_left fun q hq => ?_
    rw [e1, hy q hq, ← LinModel.predict_vec]
    ring
  have e3 : (D.map fun q => (m.predict q.1 - affine w b q.1) ^ 2).sum = alpha * ∑ i, m.coef i * (w i - m.coef i) := by
    rw [e2, ← hn]
    have : ∑ i, (LinModel.vec m).1 i * (LinModel.vec m - (w, b)).1 i = -∑ i, m.coef i * (w i - m.coef i) := by
      rw [← Finset.sum_neg_distrib]
      refine Finset.sum_congr rfl fun i _ => ?_
      show m.coef i * (m.coef i - w i) = _
      ring
    rw [this]
    ring
  have e4 : 0 ≤ ∑ i, m.coef i * (w i - m.coef i) := by
    have h0 : 0 ≤ (D.map fun q => (m.predict q.1 - affine w b q.1) ^ 2).sum := sum_map_nonneg _ _ fun q _ => sq_nonneg _
    rw [e3] at h0
    exact nonneg_of_mul_nonneg_right h0 ha
  constructor
  · rw [e3, mul_left_comm, Finset.mul_sum]
    refine mul_le_mul_of_nonneg_left (Finset.sum_le_sum fun i _ => ?_) ha.le
    nlinarith [sq_nonneg (w i - 2 * m.coef i)]
  · have e5 : ∑ i, (m.coef i - w i) ^ 2 = ∑ i, w i ^ 2 - ∑ i, m.coef i ^ 2 - 2 * ∑ i, m.coef i * (w i - m.coef i) := by
      rw [Finset.mul_sum, ← Finset.sum_sub_distrib, ← Finset.sum_sub_distrib]
      refine Finset.sum_congr rfl fun i _ => ?_
      ring
    have e6 : 0 ≤ ∑ i, m.coef i ^ 2 := Finset.sum_nonneg fun i _ => sq_nonneg _
    rw [e5]
    linarith

/-- C163, a single rule: the error of a rule with ridge regression as local model (the default) is at most the mean squared error of any affine function on the samples the rule matches, plus the penalty
of its slope divided by their number (or the error floor). If the targets are those of an affine function, a quarter of the penalty is enough. -/
theorem C163_rule (alpha : K) (ha : 0 < alpha) (ff : RuleFitness K d) (X : List (Point K d)) (y : List K) (hxy : y.length = X.length) (ρ : Rule K d (LinModel K d))
    (h : ρ.FreshOn X) : ∃ ρ' s, ρ.fit (ridge alpha) ff X y = .ok ρ' ∧ ρ'.st = some s ∧
      (∀ (w : Fin d → K) (b : K), s.error ≤ ((max ((((matchedData ρ X y).map fun q => (q.2 - affine w b q.1) ^ 2).sum + alpha * ∑ i, w i ^ 2) / ((matchedData ρ X y).length : K)) (1 / 10000) : K) : WithTop K)) ∧
      ∀ (w : Fin d → K) (b : K), (∀ q ∈ matchedData ρ X y, q.2 = affine w b q.1) →
        s.error ≤ ((max (alpha * (∑ i, w i ^ 2) / (4 * ((matchedData ρ X y).length : K))) (1 / 10000) : K) : WithTop K) := by
  have hpos := matchedData_pos X y hxy ρ h
  have hne : matchedData ρ X y ≠ [] := List.ne_nil_of_length_pos hpos
  have hr := ridgeFit_zip alpha ha _ hne
  refine ⟨_, _, ρ.fit_fitOf (ridge alpha) ff X y hxy h, rfl, fun w b => ?_, fun w b hy => ?_⟩
  · dsimp only
    rw [WithTop.coe_le_coe]
    exact max_le_max_right _ (div_le_div_of_nonneg_right (ridge_le_affine alpha ha _ _ hr w b) (Nat.cast_nonneg _))
  · dsimp only
    rw [WithTop.coe_le_coe]
    refine max_le_max_right _ ?_
    have h1 := (ridge_affine alpha ha _ hne _ hr w b hy).1
    have h2 : (0 : K) < ((matchedData ρ X y).length : K) := Nat.cast_pos.mpr hpos
    have h3 : ((matchedData ρ X y).map fun q => (q.2 - (ridge alpha).predict ((ridge alpha).fit ((matchedData ρ X y).map Prod.fst) ((matchedData ρ X y).map Prod.snd)) q.1) ^ 2).sum =
        ((matchedData ρ X y).map fun q => ((ridgeFit alpha ((matchedData ρ X y).map Prod.fst) ((matchedData ρ X y).map Prod.snd)).predict q.1 - affine w b q.1) ^ 2).sum := by
      congr 1
      refine List.map_congr_left fun q hq => ?_
      rw [hy q hq]
      show (_ - LinModel.predict (ridgeFit alpha _ _) _) ^ 2 = _
      ring
    unfold meanSqErr
    rw [h3, div_le_div_iff₀ h2 (by linarith)]
    nlinarith

/-- C163, whole models, targets that are nearly linear inside each rule: train any combination of the parts of C161 with ridge regression as local model. At a training sample with target `t` that one of
the selected rules matches, the prediction differs from `t` by at most `e`, provided that for each selected rule that matches it there is an affine function whose squared errors on the samples of the
rule, plus the penalty of its slope, sum up to at most `e ^ 2`. (Different rules may have different functions.) -/
theorem C163_nearly_linear (cfg : SupCfg K) (hiter : 1 ≤ cfg.nIter) (hrules : 1 ≤ cfg.nRules) (hsize : 1 ≤ cfg.comp.populationSize) (raw : RawData K d)
    (hraw : raw.finite = true ∧ raw.X.length = raw.y.length ∧ raw.X ≠ []) (D : DiscoveryPart K d (LinModel K d)) (hD : D.Works cfg raw.X.length) (C : CompositionPart K d (LinModel K d))
    (sf : Nat → SolFitness K) (hC : C.Works sf (cfg.nInitial + cfg.nIter * cfg.nRules)) (P : MixParams K) (hP : 0 < P.weight) (hE : P.expCalc.Positive d) (init : Seed → Nat → Nat → K)
    (alpha : K) (ha : 0 < alpha) (ff : RuleFitness K d) (entropy : Nat) (cl : Bool) (st0 : SupState K d (LinModel K d)) (hinit : cfg.nInitial = 0 ∨ st0.step < cfg.nIter)
    (Xq : List (Point K d)) (hq : Xq ≠ []) :
    let r := partsFit cfg D C P init (ridge alpha) ff sf entropy raw cl st0
    ∃ σ out, r.state.elitist = some (.solution σ) ∧ σ.genome.length = σ.pool.length ∧ r.state.predict (partsComp D C P init (ridge alpha) ff sf) Xq = .ok out ∧ out.length = Xq.length ∧
      ∀ x v t, (x, v) ∈ Xq.zip out → (x, t) ∈ raw.X.zip raw.y → (∃ ρ ∈ compress σ.pool σ.genome, ρ.kind.call ρ.bounds x = true) → ∀ e, 0 ≤ e →
        (∀ ρ ∈ compress σ.pool σ.genome, ρ.kind.call ρ.bounds x = true → ∃ (w : Fin d → K) (b : K),
          ((matchedData ρ raw.X raw.y).map fun q => (q.2 - affine w b q.1) ^ 2).sum + alpha * ∑ i, w i ^ 2 ≤ e ^ 2) → |v - t| ≤ e := by
  obtain ⟨_, _, _, _, h5, σ, h6, h7, h8, h9⟩ := C161_works cfg hiter hrules hsize raw hraw D hD C sf hC P hP hE init (ridge alpha) ff entropy cl st0 hinit
  obtain ⟨out, h10, h11, h12⟩ := h9 Xq hq
  refine ⟨σ, out, h6, h8, h10, h11, fun x v t hxv hxt hex e he hρ => ?_⟩
  have := (h12 x v hxv).2 hex (t - e) (t + e) fun ρ hρm hm u hu => ?_
  · rw [abs_le]
    constructor <;> linarith [this.1, this.2]
  · have hk := h5 ρ (h7 ▸ mem_of_mem_compress hρm)
    obtain ⟨s, m, _, hmod, hfit, _⟩ := hk.trained
    have hne := matchedData_ne_nil raw.X raw.y hraw.2.1.symm ρ hk.matched
    obtain ⟨m', hm', rfl⟩ := hu
    rw [hmod] at hm'
    cases hm'
    have hr := ridgeFit_zip alpha ha _ hne
    obtain ⟨w, b, hwb⟩ := hρ ρ hρm hm
    have hmem : (x, t) ∈ matchedData ρ raw.X raw.y := List.mem_filter.mpr ⟨hxt, hm⟩
    have h1 := ridge_le_affine alpha ha _ _ hr w b
    have h2 : (t - (ridgeFit alpha ((matchedData ρ raw.X raw.y).map Prod.fst) ((matchedData ρ raw.X raw.y).map Prod.snd)).predict x) ^ 2 ≤ _ :=
      le_sum_of_mem (l := (matchedData ρ raw.X raw.y).map fun q => (q.2 - (ridgeFit alpha ((matchedData ρ raw.X raw.y).map Prod.fst) ((matchedData ρ raw.X raw.y).map Prod.snd)).predict q.1) ^ 2)
        (by intro a ha; obtain ⟨q, _, rfl⟩ := List.mem_map.mp ha; exact sq_nonneg _) (List.mem_map.mpr ⟨(x, t), hmem, rfl⟩)
    have h3 := abs_le.mp (abs_le_of_sq_le_sq (h2.trans (h1.trans hwb)) he)
    have h4 : (ridge alpha).predict m x = (ridgeFit alpha ((matchedData ρ raw.X raw.y).map Prod.fst) ((matchedData ρ raw.X raw.y).map Prod.snd)).predict x := by rw [hfit]; rfl
    rw [h4]
    constructor <;> linarith [h3.1, h3.2]

/-- C163, whole models, linear targets: if the targets are those of an affine function with slope `w`, the prediction at a point that one of the selected rules matches differs from that function by at
most half the root of `alpha` times the length of the slope if the point is a training sample, and otherwise by at most that plus the length of the slope times the distance to the farthest of the
nearest matched training samples of the selected rules that match the point. (Lengths are bounded by `e`, `l`, `δ` to avoid roots.) -/
theorem C163_linear (cfg : SupCfg K) (hiter : 1 ≤ cfg.nIter) (hrules : 1 ≤ cfg.nRules) (hsize : 1 ≤ cfg.comp.populationSize) (raw : RawData K d)
    (hraw : raw.finite = true ∧ raw.X.length = raw.y.length ∧ raw.X ≠ []) (D : DiscoveryPart K d (LinModel K d)) (hD : D.Works cfg raw.X.length) (C : CompositionPart K d (LinModel K d))
    (sf : Nat → SolFitness K) (hC : C.Works sf (cfg.nInitial + cfg.nIter * cfg.nRules)) (P : MixParams K) (hP : 0 < P.weight) (hE : P.expCalc.Positive d) (init : Seed → Nat → Nat → K)
    (alpha : K) (ha : 0 < alpha) (ff : RuleFitness K d) (entropy : Nat) (cl : Bool) (st0 : SupState K d (LinModel K d)) (hinit : cfg.nInitial = 0 ∨ st0.step < cfg.nIter)
    (w : Fin d → K) (b : K) (hy : ∀ x t, (x, t) ∈ raw.X.zip raw.y → t = affine w b x) (e : K) (he : 0 ≤ e) (hwe : alpha * ∑ i, w i ^ 2 ≤ (2 * e) ^ 2)
    (Xq : List (Point K d)) (hq : Xq ≠ []) :
    let r := partsFit cfg D C P init (ridge alpha) ff sf entropy raw cl st0
    ∃ σ out, r.state.elitist = some (.solution σ) ∧ σ.genome.length = σ.pool.length ∧ r.state.predict (partsComp D C P init (ridge alpha) ff sf) Xq = .ok out ∧ out.length = Xq.length ∧
      ∀ x v, (x, v) ∈ Xq.zip out → (∃ ρ ∈ compress σ.pool σ.genome, ρ.kind.call ρ.bounds x = true) →
        (x ∈ raw.X → |v - affine w b x| ≤ e) ∧
        ∀ l δ, 0 ≤ l → 0 ≤ δ → ∑ i, w i ^ 2 ≤ l ^ 2 →
          (∀ ρ ∈ compress σ.pool σ.genome, ρ.kind.call ρ.bounds x = true → ∃ x' ∈ raw.X, ρ.kind.call ρ.bounds x' = true ∧ ∑ i, (x i - x' i) ^ 2 ≤ δ ^ 2) →
          |v - affine w b x| ≤ e + l * δ := by
  obtain ⟨_, _, _, _, h5, σ, h6, h7, h8, h9⟩ := C161_works cfg hiter hrules hsize raw hraw D hD C sf hC P hP hE init (ridge alpha) ff entropy cl st0 hinit
  obtain ⟨out, h10, h11, h12⟩ := h9 Xq hq
  refine ⟨σ, out, h6, h8, h10, h11, fun x v hxv hex => ?_⟩
  have hlocal : ∀ ρ ∈ compress σ.pool σ.genome, ∃ m : LinModel K d, ρ.model = some m ∧ (∀ x' ∈ raw.X, ρ.kind.call ρ.bounds x' = true → |m.predict x' - affine w b x'| ≤ e) ∧
      ∑ i, (m.coef i - w i) ^ 2 ≤ ∑ i, w i ^ 2 := by
    intro ρ hρm
    have hk := h5 ρ (h7 ▸ mem_of_mem_compress hρm)
    obtain ⟨s, m, _, hmod, hfit, _⟩ := hk.trained
    have hne := matchedData_ne_nil raw.X raw.y hraw.2.1.symm ρ hk.matched
    have hr := ridgeFit_zip alpha ha _ hne
    have hy' : ∀ q ∈ matchedData ρ raw.X raw.y, q.2 = affine w b q.1 := fun q hq => hy q.1 q.2 (List.mem_of_mem_filter hq)
    have hm : m = ridgeFit alpha ((matchedData ρ raw.X raw.y).map Prod.fst) ((matchedData ρ raw.X raw.y).map Prod.snd) := hfit
    rw [← hm] at hr
    obtain ⟨g1, g2⟩ := ridge_affine alpha ha _ hne m hr w b hy'
    refine ⟨m, hmod, fun x' hx' hx'm => ?_, g2⟩
    obtain ⟨i, hi, rfl⟩ := List.getElem_of_mem hx'
    have hiy : i < raw.y.length := by omega
    have hmem : (raw.X[i], raw.y[i]) ∈ matchedData ρ raw.X raw.y := List.mem_filter.mpr ⟨List.mem_iff_getElem.mpr ⟨i, by simp [hi, hiy], by simp⟩, hx'm⟩
    have h2 : (m.predict raw.X[i] - affine w b raw.X[i]) ^ 2 ≤ _ :=
      le_sum_of_mem (l := (matchedData ρ raw.X raw.y).map fun q => (m.predict q.1 - affine w b q.1) ^ 2)
        (by intro a ha; obtain ⟨q, _, rfl⟩ := List.mem_map.mp ha; exact sq_nonneg _) (List.mem_map.mpr ⟨_, hmem, rfl⟩)
    refine abs_le_of_sq_le_sq ?_ he
    nlinarith
  have hmain : ∀ l δ, 0 ≤ l → 0 ≤ δ → ∑ i, w i ^ 2 ≤ l ^ 2 →
      (∀ ρ ∈ compress σ.pool σ.genome, ρ.kind.call ρ.bounds x = true → ∃ x' ∈ raw.X, ρ.kind.call ρ.bounds x' = true ∧ ∑ i, (x i - x' i) ^ 2 ≤ δ ^ 2) →
      |v - affine w b x| ≤ e + l * δ := by
    intro l δ hl hδ hwl hnear
    have := (h12 x v hxv).2 hex (affine w b x - (e + l * δ)) (affine w b x + (e + l * δ)) fun ρ hρm hm u hu => ?_
    · rw [abs_le]
      constructor <;> linarith [this.1, this.2]
    · obtain ⟨m, hmod, g1, g2⟩ := hlocal ρ hρm
      obtain ⟨m', hm', rfl⟩ := hu
      rw [hmod] at hm'
      cases hm'
      obtain ⟨x', hx', hx'm, hdist⟩ := hnear ρ hρm hm
      have h1 := abs_le.mp (g1 x' hx' hx'm)
      have h2 : m.predict x - affine w b x = (m.predict x' - affine w b x') + ∑ i, (m.coef i - w i) * (x i - x' i) := by
        have : ∑ i, (m.coef i - w i) * (x i - x' i) = ∑ i, m.coef i * x i - ∑ i, m.coef i * x' i - ∑ i, w i * x i + ∑ i, w i * x' i := by
          rw [← Finset.sum_sub_distrib, ← Finset.sum_sub_distrib, ← Finset.sum_add_distrib]
          refine Finset.sum_congr rfl fun i _ => ?_
          ring
        rw [this]
        unfold LinModel.predict affine
        ring
      have h3 : (∑ i, (m.coef i - w i) * (x i - x' i)) ^ 2 ≤ (l * δ) ^ 2 := by
        refine (Finset.sum_mul_sq_le_sq_mul_sq _ _ _).trans ?_
        rw [mul_pow]
        exact mul_le_mul (g2.trans hwl) hdist (Finset.sum_nonneg fun i _ => sq_nonneg _) (sq_nonneg _)
      have h4 := abs_le.mp (abs_le_of_sq_le_sq h3 (mul_nonneg hl hδ))
      have h5 : (ridge alpha).predict m x = m.predict x := rfl
      rw [h5]
      constructor <;> linarith [h1.1, h1.2, h4.1, h4.2]
  refine ⟨fun hx => ?_, hmain⟩
  have := hmain (∑ i, w i ^ 2 + 1) 0 (by positivity) le_rfl (by nlinarith [Finset.sum_nonneg fun i (_ : i ∈ Finset.univ) => sq_nonneg (w i)]) fun ρ _ hm => ⟨x, hx, hm, by simp⟩
  rwa [mul_zero, add_zero] at this

/-! ### Examples -/

/-- The bound of `ridge_affine` for the targets 0 and 1 at the points 0 and 1 (see the example of C139): the residuals are 1/102 each, and four times the sum of their squares is below the penalty 1/100 of
the slope 1. They are not zero, so linear targets are in general not learned exactly. -/
example : 4 * (((1 / 102 : ℚ) - 0) ^ 2 + ((50 / 51 + 1 / 102) - 1) ^ 2) ≤ 1 / 100 * 1 ^ 2 ∧ ((1 / 102 : ℚ) - 0) ≠ 0 := by norm_num

/-- The hypotheses of `C163_linear` hold for the targets `2 * x + 1` and the default penalty `1 / 100`, with `e = 1 / 10`: random search, grey wolves and mixing weight 2. -/
example : (smallCfg : SupCfg ℚ).nIter ≥ 1 ∧ smallCfg.nRules ≥ 1 ∧ smallCfg.comp.populationSize ≥ 1 ∧
    (DiscoveryPart.rs RSCfg.default (fun _ _ => plainDraws 7) : DiscoveryPart ℚ 1 (LinModel ℚ 1)).Works smallCfg 3 ∧
    (CompositionPart.gwo .crossover (fun x => x) 3 (fun _ _ => [demoWolf 1, demoWolf 0]) : CompositionPart ℚ 1 (LinModel ℚ 1)).Works (fun _ _ _ c => (c : ℚ)) (smallCfg.nInitial + smallCfg.nIter * smallCfg.nRules) ∧
    (∀ x t, (x, t) ∈ [(![0] : Point ℚ 1), ![1], ![5]].zip [1, 3, 11] → t = affine ![2] 1 x) ∧ (1 / 100 : ℚ) * ∑ i, (![2] : Fin 1 → ℚ) i ^ 2 ≤ (2 * (1 / 10)) ^ 2 := by
  refine ⟨by decide, by decide, by decide, ⟨by decide +kernel, Or.inl rfl, fun _ _ => plainDraws_possible RSCfg.default 3 (by decide)⟩, ⟨by decide, fun _ _ => by simp⟩, ?_, by norm_num⟩
  intro x t h
  simp only [List.zip_cons_cons, List.zip_nil_right, List.mem_cons, Prod.mk.injEq, List.not_mem_nil, or_false] at h
  rcases h with ⟨rfl, rfl⟩ | ⟨rfl, rfl⟩ | ⟨rfl, rfl⟩ <;> norm_num [affine]

end Suprb
