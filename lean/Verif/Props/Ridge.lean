import Verif.Lemmas.Ridge
import Verif.Props.DefaultSave
import Verif.Props.Metamorphic

/-!
# Claims C139, C140: the default local model; the assumptions on local models in C122–C125 hold for it
-/

set_option autoImplicit false
set_option linter.unusedSectionVars false

namespace Suprb

open Spec Json

variable {K : Type} [Field K] [LinearOrder K] [IsStrictOrderedRing K] {d : Nat}

/-! ### C139 what the default local model guarantees -/

/-- Ridge regression on one or more samples has exactly one solution, and `ridgeFit` is it. (It is described by its objective only, so this shows that the description determines it.) -/
theorem ridge_determined (alpha : K) (ha : 0 < alpha) (X : List (Point K d)) (y : List K) (hX : X ≠ []) (hxy : y.length = X.length) (m : LinModel K d) :
    IsRidge alpha (X.zip y) m ↔ m = ridgeFit alpha X y :=
  ⟨fun h => (ridgeFit_eq ha X y hX hxy h).symm, fun h => h ▸ ridgeFit_isRidge ha X y hX hxy⟩

theorem matchedData_ne_nil {M : Type} (X : List (Point K d)) (y : List K) (hxy : y.length = X.length) (ρ : Rule K d M) (hex : ∃ x ∈ X, ρ.kind.call ρ.bounds x = true) :
    matchedData ρ X y ≠ [] := by
  obtain ⟨x, hx, hm⟩ := hex
  obtain ⟨i, hi, rfl⟩ := List.getElem_of_mem hx
  have hiy : i < y.length := by omega
  refine List.ne_nil_of_mem (a := (X[i], y[i])) ?_
  unfold matchedData
  rw [List.mem_filter]
  refine ⟨List.mem_iff_getElem.mpr ⟨i, by simp [hi, hiy], by simp⟩, hm⟩

theorem zip_fst_snd {α β : Type} (D : List (α × β)) : (D.map Prod.fst).zip (D.map Prod.snd) = D := by
  rw [List.zip_map']
  simp

theorem ridge_residuals (alpha : K) (ha : 0 < alpha) (D : List (Point K d × K)) (hD : D ≠ []) (m : LinModel K d) (h : IsRidge alpha D m) :
    (D.map fun q => m.predict q.1).sum = (D.map Prod.snd).sum := by
  have h1 := isRidge_normal ha hD h (0, 1)
  rw [ridgeForm_apply, ridgeRhs_apply] at h1
  have h2 : ∀ q : Point K d × K, atPoint q.1 ((0, 1) : (Fin d → K) × K) = 1 := by intro q; simp [atPoint]
  simp only [h2, mul_one, Pi.zero_apply, mul_zero, Finset.sum_const_zero, add_zero] at h1
  exact h1

theorem ridge_le_constant (alpha : K) (ha : 0 < alpha) (D : List (Point K d × K)) (m : LinModel K d) (h : IsRidge alpha D m) (c : K) :
    (D.map fun q => (q.2 - m.predict q.1) ^ 2).sum ≤ (D.map fun q => (q.2 - c) ^ 2).sum := by
  have h1 := h ⟨0, c⟩
  unfold ridgeLoss at h1
  have h2 : ∀ x : Point K d, LinModel.predict (⟨0, c⟩ : LinModel K d) x = c := by intro x; simp [LinModel.predict]
  simp only [h2, Pi.zero_apply, ne_eq, OfNat.ofNat_ne_zero, not_false_eq_true, zero_pow, Finset.sum_const_zero, mul_zero, add_zero] at h1
  have h3 : 0 ≤ alpha * ∑ i, m.coef i ^ 2 := mul_nonneg ha.le (Finset.sum_nonneg fun i _ => sq_nonneg _)
  linarith

theorem ridge_meanSqErr (alpha : K) (ha : 0 < alpha) (D : List (Point K d × K)) (hD : D ≠ []) (c : K) :
    meanSqErr ((ridge alpha).predict ((ridge alpha).fit (D.map Prod.fst) (D.map Prod.snd))) D ≤ (D.map fun q => (q.2 - c) ^ 2).sum / (D.length : K) := by
  have hr : IsRidge alpha D (ridgeFit alpha (D.map Prod.fst) (D.map Prod.snd)) := by
    have := ridgeFit_isRidge ha (D.map Prod.fst) (D.map Prod.snd) (by simpa using hD) (by simp)
    rwa [zip_fst_snd] at this
  unfold meanSqErr
  exact div_le_div_of_nonneg_right (ridge_le_constant alpha ha D _ hr c) (Nat.cast_nonneg _)

/-- C139: a rule with ridge regression as local model (the default) is, on the samples it matches, at least as good as every constant: its error is at most the mean squared error of any constant
prediction, in particular at most the variance of their targets and at most the mean of their squares (or `1e-4` if that is larger). The mean of its predictions on them is the mean of
their targets. -/
theorem C139_at_least_constant (alpha : K) (ha : 0 < alpha) (ff : RuleFitness K d) (X : List (Point K d)) (y : List K) (hxy : y.length = X.length) (ρ : Rule K d (LinModel K d))
    (h : ρ.FreshOn X) : ∃ ρ' s, ρ.fit (ridge alpha) ff X y = .ok ρ' ∧ ρ'.st = some s ∧
      (∀ c : K, s.error ≤ ((max (((matchedData ρ X y).map fun q => (q.2 - c) ^ 2).sum / ((matchedData ρ X y).length : K)) (1 / 10000) : K) : WithTop K)) ∧
      s.pred.sum = ((matchedData ρ X y).map Prod.snd).sum ∧ s.pred.length = (matchedData ρ X y).length := by
  have hpos := matchedData_pos X y hxy ρ h
  have hne : matchedData ρ X y ≠ [] := List.ne_nil_of_length_pos hpos
  refine ⟨_, _, ρ.fit_fitOf (ridge alpha) ff X y hxy h, rfl, fun c => ?_, ?_, ?_⟩
  · dsimp only
    rw [WithTop.coe_le_coe]
    exact max_le_max_right _ (ridge_meanSqErr alpha ha _ hne c)
  · dsimp only
    have hr := ridgeFit_isRidge ha ((matchedData ρ X y).map Prod.fst) ((matchedData ρ X y).map Prod.snd) (by simpa using hne) (by simp)
    rw [zip_fst_snd] at hr
    exact ridge_residuals alpha ha _ hne _ hr
  · simp

/-! ### The assumptions on local models of C122–C125 -/

/-- C122: the assumption on the local model holds for ridge regression. -/
theorem C122_ridge (alpha : K) : (ridge alpha : Learner K d (LinModel K d)).Affine := by
  intro m x z t
  show LinModel.predict m _ = _ * LinModel.predict m x + _ * LinModel.predict m z
  unfold LinModel.predict pointBetween
  have : ∑ i, m.coef i * ((1 - t) * x i + t * z i) = (1 - t) * ∑ i, m.coef i * x i + t * ∑ i, m.coef i * z i := by
    rw [Finset.mul_sum, Finset.mul_sum, ← Finset.sum_add_distrib]
    exact Finset.sum_congr rfl fun i _ => by ring
  rw [this]
  ring

/-- C123: ridge regression follows a shift of its targets. -/
theorem C123_ridge (alpha : K) (ha : 0 < alpha) : (ridge alpha : Learner K d (LinModel K d)).Shifts := by
  intro X y c x hX hxy
  have h : IsRidge alpha (X.zip (y.map (· + c))) ⟨(ridgeFit alpha X y).coef, (ridgeFit alpha X y).intercept + c⟩ := by
    refine IsRidge.transfer (D := X.zip y) (fun m => ⟨m.coef, m.intercept + c⟩) (fun m => ⟨m.coef, m.intercept - c⟩) (fun m => by simp) 1 zero_le_one (fun m => ?_)
      (ridgeFit_isRidge ha X y hX hxy)
    unfold ridgeLoss
    rw [one_mul, show X.zip (y.map (· + c)) = (X.zip y).map fun q => (q.1, q.2 + c) from by rw [List.zip_map_right]; rfl, List.map_map]
    congr 2
    refine List.map_congr_left fun q _ => ?_
    simp only [Function.comp, LinModel.predict]
    ring
  show LinModel.predict (ridgeFit alpha X (y.map (· + c))) x = LinModel.predict (ridgeFit alpha X y) x + c
  rw [ridgeFit_eq ha X _ hX (by simpa using hxy) h]
  simp only [LinModel.predict]
  ring

/-- C124: ridge regression follows a scaling of its targets. -/
theorem C124_ridge (alpha : K) (ha : 0 < alpha) : (ridge alpha : Learner K d (LinModel K d)).Scales := by
  intro X y a x hX hxy
  have h : IsRidge alpha (X.zip (y.map (a * ·))) ⟨fun i => a * (ridgeFit alpha X y).coef i, a * (ridgeFit alpha X y).intercept⟩ := by
    apply RidgeNormal.isRidge ha
    intro v
    have hn := isRidge_normal ha (zip_ne_nil hX hxy) (ridgeFit_isRidge ha X y hX hxy) v
    have e1 : LinModel.vec (⟨fun i => a * (ridgeFit alpha X y).coef i, a * (ridgeFit alpha X y).intercept⟩ : LinModel K d) = a • LinModel.vec (ridgeFit alpha X y) := rfl
    have e2 : ridgeForm alpha (X.zip (y.map (a * ·))) = ridgeForm alpha (X.zip y) := by
      refine LinearMap.ext fun u => LinearMap.ext fun w => ?_
      rw [ridgeForm_apply, ridgeForm_apply, show X.zip (y.map (a * ·)) = (X.zip y).map fun q => (q.1, a * q.2) from by rw [List.zip_map_right]; rfl, List.map_map]
      rfl
    have e3 : ridgeRhs (X.zip (y.map (a * ·))) v = a * ridgeRhs (X.zip y) v := by
      rw [ridgeRhs_apply, ridgeRhs_apply, show X.zip (y.map (a * ·)) = (X.zip y).map fun q => (q.1, a * q.2) from by rw [List.zip_map_right]; rfl, List.map_map,
        ← List.sum_map_mul_left]
      congr 1
      exact List.map_congr_left fun q _ => by simp only [Function.comp]; ring
    rw [e1, e2, e3, map_smul, LinearMap.smul_apply, hn, smul_eq_mul]
  show LinModel.predict (ridgeFit alpha X (y.map (a * ·))) x = a * LinModel.predict (ridgeFit alpha X y) x
  rw [ridgeFit_eq ha X _ hX (by simpa using hxy) h]
  simp only [LinModel.predict, mul_add, Finset.mul_sum, mul_assoc]

/-- C125: ridge regression does not depend on the order of its samples. -/
theorem C125_ridge (alpha : K) (ha : 0 < alpha) : (ridge alpha : Learner K d (LinModel K d)).OrderFree := by
  intro D D' x hp
  have hz : ∀ D : List (Point K d × K), (D.map Prod.fst).zip (D.map Prod.snd) = D := zip_fst_snd
  by_cases hD : D = []
  · subst hD; rw [List.nil_perm.mp hp]
  have hD' : D' ≠ [] := fun h => hD (by subst h; exact List.perm_nil.mp hp)
  have h : IsRidge alpha D' (ridgeFit alpha (D.map Prod.fst) (D.map Prod.snd)) := by
    have h0 := ridgeFit_isRidge ha (D.map Prod.fst) (D.map Prod.snd) (by simpa using hD) (by simp)
    rw [hz] at h0
    intro m'
    have hl : ∀ m : LinModel K d, ridgeLoss alpha D' m = ridgeLoss alpha D m := by
      intro m
      unfold ridgeLoss
      rw [(hp.map fun q => (q.2 - m.predict q.1) ^ 2).sum_eq]
    rw [hl, hl]
    exact h0 m'
  show LinModel.predict (ridgeFit alpha _ _) x = LinModel.predict (ridgeFit alpha _ _) x
  rw [ridgeFit_eq ha (D'.map Prod.fst) (D'.map Prod.snd) (by simpa using hD') (by simp) (by rw [hz]; exact h)]

/-! ### C140 what the default acceptance rejects -/

/-- C140: with ridge regression as local model and the acceptance `Variance(beta)` with `beta` at most 1 (both are the defaults), a trained rule that matches samples is accepted if and only if the mean
of the squared targets of these samples is at least `1e-4 * beta`; how well it fits does not matter. -/
theorem C140_rejected_iff (alpha : K) (ha : 0 < alpha) (X : List (Point K d)) (y : List K) (hxy : y.length = X.length) (beta : K) (hb : 0 < beta) (hb1 : beta ≤ 1)
    (ρ : Rule K d (LinModel K d)) (hex : ∃ x ∈ X, ρ.kind.call ρ.bounds x = true) (ht : ρ.TrainedOn (ridge alpha) X y) :
    acceptVariance beta y ρ = .ok (decide (beta / 10000 ≤ meanSqTarget (matchedData ρ X y))) := by
  obtain ⟨m, hm, hacc⟩ := acceptVariance_iff (ridge alpha) X y hxy beta hb ρ hex ht
  obtain ⟨s, m', _, hm', hfit, _⟩ := ht.2 hex
  rw [hm] at hm'
  cases hm'
  have hne : matchedData ρ X y ≠ [] := matchedData_ne_nil X y hxy ρ hex
  have hle : meanSqErr ((ridge alpha).predict m) (matchedData ρ X y) ≤ meanSqTarget (matchedData ρ X y) := by
    rw [hfit]
    refine (ridge_meanSqErr alpha ha _ hne 0).trans (le_of_eq ?_)
    unfold meanSqTarget
    simp only [sub_zero]
  have h0 : 0 ≤ meanSqTarget (matchedData ρ X y) := by
    unfold meanSqTarget
    refine div_nonneg (List.sum_nonneg fun v hv => ?_) (Nat.cast_nonneg _)
    obtain ⟨q, _, rfl⟩ := List.mem_map.mp hv
    exact sq_nonneg _
  rw [hacc]
  congr 1
  rw [decide_eq_decide, max_le_iff, le_div_iff₀ hb, le_div_iff₀ hb]
  constructor
  · rintro ⟨_, h⟩; linarith
  · intro h
    refine ⟨?_, by linarith⟩
    calc _ ≤ meanSqTarget (matchedData ρ X y) * 1 := mul_le_mul hle hb1 hb.le h0
      _ = _ := mul_one _

theorem meanSqTarget_ge (c : K) (D : List (Point K d × K)) (hD : D ≠ []) (h : ∀ q ∈ D, c ≤ q.2 ^ 2) : c ≤ meanSqTarget D := by
  unfold meanSqTarget
  have hn : (0 : K) < (D.length : K) := by exact_mod_cast List.length_pos_of_ne_nil hD
  rw [le_div_iff₀ hn]
  clear hn hD
  induction D with
  | nil => simp
  | cons q D ih =>
    have h1 := ih fun q hq => h q (List.mem_cons_of_mem _ hq)
    have h2 := h q (List.mem_cons_self ..)
    rw [List.map_cons, List.sum_cons, List.length_cons]
    push_cast
    linarith

theorem ridge_accepts_all (alpha : K) (ha : 0 < alpha) (X : List (Point K d)) (y : List K) (hxy : y.length = X.length) (beta : K) (hb : 0 < beta) (hb1 : beta ≤ 1)
    (hy : ∀ t ∈ y, beta / 10000 ≤ t ^ 2) (ff : RuleFitness K d) (fb : Pairs K d) (ρ : Rule K d (LinModel K d)) (hf : ρ.FromData (ridge alpha) ff X y fb) (hm : ρ.MatchesData X) :
    acceptVariance beta y ρ = .ok true := by
  have ht : ρ.TrainedOn (ridge alpha) X y := by
    obtain ⟨ρ0, k, h0, _, hf⟩ := hf.fitted
    rw [fits_replicate (ridge alpha) ff X y hxy _ h0 k] at hf
    exact trainedOn_of_fit (ridge alpha) ff X y hxy ρ0 ρ h0 hf
  have hex : ∃ x ∈ X, ρ.kind.call ρ.bounds x = true := by
    obtain ⟨_, _, _, _, _, h⟩ := hm
    exact h
  rw [C140_rejected_iff alpha ha X y hxy beta hb hb1 ρ hex ht]
  congr 1
  rw [decide_eq_true_eq]
  refine meanSqTarget_ge _ _ (matchedData_ne_nil X y hxy ρ hex) fun q hq => ?_
  exact hy _ (List.of_mem_zip (List.mem_of_mem_filter hq)).2

/-- C140: so if every target is at least `sqrt(1e-4 * beta)` in size, a call of rule discovery with the default components that does not fail returns exactly the requested number of rules, whatever
the pool and the random numbers are. -/
theorem C140_nothing_rejected (cfg : ESCfg K) (hop : cfg.operator = .amp → 1 ≤ cfg.delay) (hm : IsIncrease cfg.mutation) (hb : 0 < cfg.beta) (hb1 : cfg.beta ≤ 1) (sigma : K × K)
    (alpha : K) (ha : 0 < alpha) (ff : RuleFitness K d) (X : List (Point K d)) (y : List K) (hX : X ≠ []) (hxy : y.length = X.length) (hy : ∀ t ∈ y, cfg.beta / 10000 ≤ t ^ 2)
    (draw : Option (List K) → List Nat) (children : Nat → Nat → Nat → Pairs K d) (elitist : Option (Indiv K)) (pool : List (Rule K d (LinModel K d))) (n : Nat)
    (hd : ∀ probs, IsDistribution X.length probs → PossibleChoice X.length n probs (draw probs)) (hz : ∀ k g c, cfg.mutation.DrawOk .ordered sigma (children k g c))
    (rules : List (Rule K d (LinModel K d))) (h : esDiscover cfg (ridge alpha) ff draw children elitist pool X y n = .ok rules) : rules.length = n := by
  obtain ⟨fb, hfb, _⟩ := estimateBounds_ok X hX
  exact esDiscover_exact cfg hop hm sigma (ridge alpha) ff X y hX hxy fb hfb draw children elitist pool n hd hz
    (fun ρ h1 h2 => ridge_accepts_all alpha ha X y hxy cfg.beta hb hb1 hy ff fb ρ h1 h2) rules h

variable {M : Type}

/-- If every call of rule discovery returns exactly the requested number of rules, the pool has its full size after every iteration. -/
theorem run_exact (cfg : SupCfg K) (c : SupComp K d M) (X : List (Point K d)) (y : List K)
    (hdisc : ∀ seed hist el pool n rules, c.discover seed hist el pool X y n = .ok rules → rules.length = n)
    (ev : PoolEval K d M) (entropy : Nat) (step0 : Nat) (s : RunState K d M) (hdone : runFit cfg c ev entropy X y step0 = .done s) :
    (∀ (k : Nat) p, (composedPools s.trace)[k]? = some p → p.length = cfg.nInitial + (k + 1) * cfg.nRules) ∧
      s.pool.length = cfg.nInitial + (composedPools s.trace).length * cfg.nRules ∧ (cfg.patience ≤ 0 → (composedPools s.trace).length = cfg.nIter) := by
  have hd : ∀ n (s s1 : RunState K d M), discoverStep cfg c entropy X y n s = (s1, none) →
      composedPools s1.trace = composedPools s.trace ∧ s1.pool.length = s.pool.length + n := by
    intro n s s1 h
    rcases discoverStep_spec _ _ _ _ _ _ _ _ _ h with ⟨rfl, h0⟩ | ⟨el, seed, a1, _, _, ⟨e, h0, _, rfl⟩ | ⟨rules, hr, hrules, rfl⟩⟩
    · obtain ⟨e, h0, _⟩ := h0; cases h0
    · cases h0
    · refine ⟨by dsimp only; rw [composedPools_append]; simp [composedPools], ?_⟩
      have := hdisc _ _ _ _ _ _ hrules
      simp only [List.length_append]; omega
  have hcs : ∀ (s s1 : RunState K d M) r, composeStep cfg c ev entropy s = (s1, r) → composedPools s1.trace = composedPools s.trace ∧ s1.pool = s.pool := by
    intro s s1 r h
    rcases composeStep_spec _ _ _ _ _ _ _ h with ⟨rfl, _⟩ | ⟨seed, _, ⟨_, _, _, rfl⟩ | ⟨_, _, _, rfl⟩⟩
    · exact ⟨rfl, rfl⟩
    all_goals exact ⟨by dsimp only; rw [composedPools_append]; simp [composedPools], rfl⟩
  let G : RunState K d M → Prop := fun s => (∀ (k : Nat) p, (composedPools s.trace)[k]? = some p → p.length = cfg.nInitial + (k + 1) * cfg.nRules) ∧
    s.pool.length = cfg.nInitial + (composedPools s.trace).length * cfg.nRules
  have hit : ∀ k (s s' : RunState K d M) el, G s → Iteration cfg c ev entropy X y k s s' el → G s' ∧ (composedPools s'.trace).length = (composedPools s.trace).length + 1 := by
    rintro k s s' el ⟨g1, g2⟩ h
    obtain ⟨s1, s2, h1, h2, _, rfl⟩ := h
    obtain ⟨a1, a2⟩ := hd _ _ _ h1
    obtain ⟨b1, b2⟩ := hcs _ _ _ h2
    dsimp only at a1 a2
    have e1 : composedPools (s2.trace ++ [.composed s2.pool s2.comp el]) = composedPools s.trace ++ [s2.pool] := by
      rw [composedPools_append, b1, a1]; simp [composedPools]
    have e2 : s2.pool.length = cfg.nInitial + ((composedPools s.trace).length + 1) * cfg.nRules := by
      rw [b2, a2, g2, Nat.add_mul]; omega
    refine ⟨⟨?_, ?_⟩, ?_⟩
    · intro j p hj
      dsimp only at hj
      rw [e1] at hj
      by_cases hlt : j < (composedPools s.trace).length
      · rw [List.getElem?_append_left hlt] at hj
        exact g1 j p hj
      · rw [List.getElem?_append_right (by omega), List.getElem?_singleton] at hj
        split at hj
        · rename_i h0
          cases hj
          have : j = (composedPools s.trace).length := by omega
          rw [this]; exact e2
        · cases hj
    · dsimp only
      rw [e1, e2]; simp
    · dsimp only
      rw [e1]; simp
  have key := runFit_ind cfg c ev entropy X y step0 (fun ks s => G s ∧ (composedPools s.trace).length + ks.length = cfg.nIter)
    (fun o => ∀ s, o = .done s → G s ∧ (cfg.patience ≤ 0 → (composedPools s.trace).length = cfg.nIter))
    ?_ ?_ ?_ ?_ ?_ ?_ ?_ ?_ ?_
  · exact ⟨(key s hdone).1.1, (key s hdone).1.2, (key s hdone).2⟩
  · intro h0
    exact ⟨⟨by simp [startState, composedPools], by simp [startState, composedPools, h0]⟩, by simp [startState, composedPools]⟩
  · intro s _ h
    obtain ⟨a1, a2⟩ := hd _ _ _ h
    have h0 : composedPools (startState cfg step0 : RunState K d M).trace = [] := rfl
    rw [h0] at a1
    refine ⟨⟨by rw [a1]; simp, ?_⟩, by rw [a1]; simp⟩
    rw [a1]
    simpa [startState] using a2
  · intro s e _ _ s' h; cases h
  · rintro s ⟨h1, h2⟩ s' h
    cases h
    exact ⟨h1, fun _ => by simpa using h2⟩
  · intro k rest s s1 e _ _ s' h; cases h
  · intro k rest s s1 s2 e _ _ _ s' h; cases h
  · intro k rest s s1 s2 e _ _ _ _ s' h; cases h
  · rintro k rest s s' el ⟨hP, _⟩ h hstop s'' h'
    cases h'
    refine ⟨(hit _ _ _ _ hP h).1, fun hp => ?_⟩
    unfold checkEarlyStopping at hstop
    rw [if_neg (by omega)] at hstop
    cases hstop
  · rintro k rest s s' el ⟨hP, hl⟩ h _
    obtain ⟨h1, h2⟩ := hit _ _ _ _ hP h
    refine ⟨h1, ?_⟩
    rw [h2]
    rw [List.length_cons] at hl
    omega

/-- C140: a fit with the default components on such targets completes, and its pool has exactly `n_initial_rules + k * n_rules` rules after `k` iterations; without early stopping (the default) it ends with
`n_initial_rules + n_iter * n_rules` rules. -/
theorem C140_full_pool (cfg : SupCfg K) (es : ESCfg K) (ga : GACfg K) (k : Nat) (hs : DefaultSettings cfg es ga k) (hb1 : es.beta ≤ 1) (sigma : K × K) (alpha : K) (ha : 0 < alpha)
    (D : RunDraws K d (LinModel K d)) (hD : D.Possible es ga k sigma) (ff : RuleFitness K d) (sf : Nat → SolFitness K) (entropy : Nat)
    (raw : RawData K d) (hraw : raw.check = .ok (raw.X, raw.y)) (st0 : SupState K d (LinModel K d)) (hinit : cfg.nInitial = 0 ∨ st0.step < cfg.nIter)
    (hy : ∀ t ∈ raw.y, es.beta / 10000 ≤ t ^ 2) :
    let r := st0.fit cfg (defaultComp es ga D (ridge alpha) ff sf) entropy raw false
    r.Completed ∧ (∀ (j : Nat) p, (composedPools r.trace)[j]? = some p → p.length = cfg.nInitial + (j + 1) * cfg.nRules) ∧
      r.state.pool.length = cfg.nInitial + (composedPools r.trace).length * cfg.nRules ∧ (cfg.patience ≤ 0 → r.state.pool.length = cfg.nInitial + cfg.nIter * cfg.nRules) := by
  intro r
  have hv : raw.X ≠ [] ∧ raw.y.length = raw.X.length := by
    unfold RawData.check at hraw
    split at hraw
    · rename_i h; exact ⟨h.2.2, h.2.1.symm⟩
    · cases hraw
  have hN : raw.X.length ≠ 0 := fun h => hv.1 (List.length_eq_zero_iff.mp h)
  obtain ⟨fb, hfb, _⟩ := estimateBounds_ok raw.X hv.1
  obtain ⟨hcomp, _⟩ := default_result cfg es ga k hs sigma D hD (ridge alpha) ff sf entropy raw hraw false st0 hinit fb hfb
  have hg := defaultComp_good es ga D (ridge alpha) ff sf
  have hnf := defaultComp_noFailure cfg es ga k hs sigma D hD (ridge alpha) ff sf raw.X raw.y hv.1 hv.2 fb hfb
  obtain ⟨s, el, hrun, hel, hlen, ⟨st, hst⟩, _⟩ := run_completes cfg _ hg entropy raw.X raw.y st0.step _ hnf hs.iter hs.rules hs.size hinit
  obtain ⟨h1, h2, h3⟩ := run_exact cfg (defaultComp es ga D (ridge alpha) ff sf) raw.X raw.y
    (fun seed hist el pool n rules h => C140_nothing_rejected es hs.delay hs.mutation hs.beta hb1 sigma alpha ha ff raw.X raw.y hv.1 hv.2 hy _ _ el pool n
      (fun probs hp => hD.origins _ _ _ _ probs hN hp) (hD.children seed hist) rules h) _ entropy st0.step s hrun
  have hr : r = finishFit { { st0 with isError := false, elitist := some .placeholder } with pool := [], cleaned := false } false s := by
    show st0.fit _ _ _ _ _ = _
    unfold SupState.fit SupState.fitWith
    rw [hraw]
    dsimp only
    rw [hrun]
  have ht : r.trace = s.trace ∧ r.state.pool = s.pool := by
    rw [hr]
    unfold finishFit
    rw [hel]
    dsimp only
    rw [Indiv.clone_ok el st hst]
    exact ⟨rfl, rfl⟩
  refine ⟨hcomp, ?_, ?_, ?_⟩
  · rw [ht.1]; exact h1
  · rw [ht.1, ht.2]; exact h2
  · intro hp
    rw [ht.2, h2, h3 hp]

/-! ### C141 constant targets -/

theorem ridge_constant (alpha : K) (ha : 0 < alpha) (D : List (Point K d × K)) (hD : D ≠ []) (c : K) (hc : ∀ q ∈ D, q.2 = c) (x : Point K d) :
    (ridge alpha).predict ((ridge alpha).fit (D.map Prod.fst) (D.map Prod.snd)) x = c := by
  have h : IsRidge alpha ((D.map Prod.fst).zip (D.map Prod.snd)) ⟨0, c⟩ := by
    rw [zip_fst_snd]
    intro m'
    have h0 : ridgeLoss alpha D ⟨0, c⟩ = 0 := by
      unfold ridgeLoss
      rw [List.sum_eq_zero]
      · simp
      · intro v hv
        obtain ⟨q, hq, rfl⟩ := List.mem_map.mp hv
        simp [LinModel.predict, hc q hq]
    rw [h0]
    unfold ridgeLoss
    exact add_nonneg (sum_map_nonneg _ _ fun q _ => sq_nonneg _) (mul_nonneg ha.le (Finset.sum_nonneg fun i _ => sq_nonneg _))
  show LinModel.predict (ridgeFit alpha _ _) x = c
  rw [ridgeFit_eq ha _ _ (by simpa using hD) (by simp) h]
  simp [LinModel.predict]

/-- C141: if all targets are equal to `c`, every model trained with the default components predicts exactly `c` wherever one of its rules matches, and zero elsewhere. -/
theorem C141_constant_targets (cfg : SupCfg K) (es : ESCfg K) (ga : GACfg K) (k : Nat) (hs : DefaultSettings cfg es ga k) (sigma : K × K) (alpha : K) (ha : 0 < alpha)
    (D : RunDraws K d (LinModel K d)) (hD : D.Possible es ga k sigma) (ff : RuleFitness K d) (sf : Nat → SolFitness K) (entropy : Nat)
    (raw : RawData K d) (hraw : raw.finite = true ∧ raw.X.length = raw.y.length ∧ raw.X ≠ []) (cl : Bool) (st0 : SupState K d (LinModel K d))
    (hinit : cfg.nInitial = 0 ∨ st0.step < cfg.nIter) (c : K) (hc : ∀ t ∈ raw.y, t = c) (Xq : List (Point K d)) (hq : Xq ≠ []) :
    let r := st0.fit cfg (defaultComp es ga D (ridge alpha) ff sf) entropy raw cl
    ∃ σ out, r.state.elitist = some (.solution σ) ∧ σ.genome.length = σ.pool.length ∧ r.state.predict (defaultComp es ga D (ridge alpha) ff sf) Xq = .ok out ∧
      out.length = Xq.length ∧
      ∀ x v, (x, v) ∈ Xq.zip out → v = if ∃ ρ ∈ compress σ.pool σ.genome, ρ.kind.call ρ.bounds x = true then c else 0 := by
  obtain ⟨σ, out, h1, h2, h3, h4, h5, h6⟩ := C80_default_predict cfg es ga k hs sigma D hD (ridge alpha) ff sf entropy raw hraw cl st0 hinit Xq hq
  refine ⟨σ, out, h1, h2, h4, h5, fun x v hxv => ?_⟩
  obtain ⟨a1, a2⟩ := h6 x v hxv
  split
  · rename_i hex
    have := a2 hex c c (fun ρ hρ hm u hu => by
      obtain ⟨s, m, _, hmod, hfit, _⟩ := (h3 ρ hρ).trained
      have hne := matchedData_ne_nil raw.X raw.y hraw.2.1.symm ρ (h3 ρ hρ).matched
      have hu' : u = c := by
        obtain ⟨m', hm', rfl⟩ := hu
        rw [hmod] at hm'
        cases hm'
        rw [hfit]
        exact ridge_constant alpha ha _ hne c (fun q hq => hc _ (List.of_mem_zip (List.mem_of_mem_filter hq)).2) x
      exact ⟨hu'.ge, hu'.le⟩)
    exact le_antisymm this.2 this.1
  · rename_i hno
    refine a1 fun ρ hρ => ?_
    by_contra hne
    exact hno ⟨ρ, hρ, by simpa using hne⟩

/-! ### Examples -/

/-- The regression of the targets 0 and 1 at the points 0 and 1 (the penalty 1/100 shrinks the slope to 50/51). -/
example : IsRidge (1 / 100 : ℚ) [(![0], 0), (![1], 1)] ⟨![50 / 51], 1 / 102⟩ := by
  apply RidgeNormal.isRidge (by norm_num)
  intro v
  rw [ridgeForm_apply, ridgeRhs_apply]
  simp [LinModel.vec, atPoint]
  ring

/-- The hypotheses of C139: a fresh rule that matches two of three samples. -/
example : (({ kind := .ordered, bounds := fun _ => (0, 1), inputSpace := fun _ => (0, 5), st := none, model := none } : Rule ℚ 1 (LinModel ℚ 1))).FreshOn [![0], ![1], ![5]] :=
  ⟨rfl, rfl, ![0], by simp, by decide +kernel⟩

/-- The hypotheses of C140 hold for the default values (and a population of two) with targets that are not small. -/
example : DefaultSettings (K := ℚ) SupCfg.default ESCfg.default { GACfg.default with populationSize := 2 } 5 ∧ (ESCfg.default : ESCfg ℚ).beta ≤ 1 ∧
    (firstDraws 5 32 1 : RunDraws ℚ 1 (LinModel ℚ 1)).Possible ESCfg.default { GACfg.default with populationSize := 2 } 5 (1, 1) ∧
    (⟨[![0], ![1], ![5]], [1, -3, 7], true⟩ : RawData ℚ 1).check = .ok ([![0], ![1], ![5]], [1, -3, 7]) ∧ (∀ t ∈ [(1 : ℚ), -3, 7], (ESCfg.default : ESCfg ℚ).beta / 10000 ≤ t ^ 2) ∧
    (SupCfg.default : SupCfg ℚ).patience ≤ 0 :=
  ⟨⟨by simp [SupCfg.default], by simp [SupCfg.default], by simp [SupCfg.default], by simp, by decide, fun _ => by simp [ESCfg.default], .inl rfl, by simp [ESCfg.default]⟩,
    by decide +kernel, firstDraws_possible _ rfl _ rfl _ _ _ zero_le_one _, by decide +kernel, by decide +kernel, by decide⟩

/-- C141: constant targets are valid data. -/
example : ((⟨[![0], ![1], ![5]], [2, 2, 2], true⟩ : RawData ℚ 1).finite = true ∧ [(![0] : Point ℚ 1), ![1], ![5]].length = [(2 : ℚ), 2, 2].length ∧ [(![0] : Point ℚ 1), ![1], ![5]] ≠ []) ∧
    ∀ t ∈ [(2 : ℚ), 2, 2], t = 2 := ⟨⟨rfl, rfl, by simp⟩, by simp⟩

end Suprb
