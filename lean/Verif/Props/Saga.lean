import Verif.Lemmas.Saga
import Verif.Model.Fitness
import Mathlib.Tactic.FieldSimp
import Mathlib.Tactic.NormNum

/-!
# Claims C61-C63 and C73 for the self-adapting genetic algorithms
-/

set_option autoImplicit false
set_option linter.unusedSectionVars false

namespace Suprb

/-! ## C61 -/

section C61

variable {K : Type} [Field K] [LinearOrder K] [IsStrictOrderedRing K]

/-- Both rates are within their configured bounds. -/
def Rates.InRange (cfg : Saga1Cfg K) (r : Rates K) : Prop :=
  cfg.mutMin ≤ r.mutation ∧ r.mutation ≤ cfg.mutMax ∧ cfg.crossMin ≤ r.cross ∧ r.cross ≤ cfg.crossMax

/-- C61, one adjustment: for every list of fitness values, rates within the bounds stay within the bounds. -/
theorem C61_adjust (cfg : Saga1Cfg K) (hm : 0 ≤ cfg.mutMin) (hc : 0 ≤ cfg.crossMin) (hmm : 1 ≤ cfg.mutMul) (hcm : 1 ≤ cfg.crossMul)
    (fs : List K) (r r' : Rates K) (hr : r.InRange cfg) (h : saga1Adjust cfg fs r = .ok r') : r'.InRange cfg := by
  obtain ⟨h1, h2, h3, h4⟩ := hr
  unfold saga1Adjust at h
  cases hg : gdm fs with
  | error e => rw [hg] at h; cases h
  | ok g =>
    rw [hg] at h
    dsimp only at h
    have hcm0 : cfg.crossMul ≠ 0 := by intro h0; rw [h0] at hcm; exact absurd hcm (not_le.mpr zero_lt_one)
    have hmm0 : cfg.mutMul ≠ 0 := by intro h0; rw [h0] at hmm; exact absurd hmm (not_le.mpr zero_lt_one)
    have hr0 : 0 ≤ r.mutation := hm.trans h1
    have hc0 : 0 ≤ r.cross := hc.trans h3
    split at h
    · rw [pyDiv, if_neg hcm0] at h
      injection h with h
      rw [← h]
      refine ⟨le_min (h1.trans h2) (h1.trans (le_mul_of_one_le_right hr0 hmm)), min_le_left _ _, le_max_left _ _, max_le (h3.trans h4) ?_⟩
      exact (div_le_self hc0 hcm).trans h4
    · split at h
      · rw [pyDiv, if_neg hmm0] at h
        injection h with h
        rw [← h]
        refine ⟨le_max_left _ _, max_le (h1.trans h2) ((div_le_self hr0 hmm).trans h2), le_min (h3.trans h4) (h3.trans (le_mul_of_one_le_right hc0 hcm)),
          min_le_left _ _⟩
      · injection h with h
        rw [← h]
        exact ⟨h1, h2, h3, h4⟩

/-- C61: in every run of `SelfAdaptingGeneticAlgorithm` (saga1), whatever the evaluations and draws, the rates of every generation are within the bounds; one
pair of rates is used per generation, the last one is kept for the next call. -/
theorem C61_run (cfg : Saga1Cfg K) (hm : 0 ≤ cfg.mutMin) (hc : 0 ≤ cfg.crossMin) (hmm : 1 ≤ cfg.mutMul) (hcm : 1 ≤ cfg.crossMul)
    (draws : List (GADraw K)) (rates : Rates K) (hr : rates.InRange cfg) (ev : Eval K) (pop : List (Indiv K)) (s : Saga1State K)
    (h : (saga1 cfg draws rates pop).run ev = .ok s) :
    (∀ r ∈ s.log, r.InRange cfg) ∧ s.log.length = draws.length ∧ s.rates = s.log.getLastD rates ∧ s.rates.InRange cfg := by
  have hsat : (saga1 cfg draws rates pop).Sat ev (fun _ => True) fun s => (∀ r ∈ s.log, r.InRange cfg) ∧ s.log.length + 0 = draws.length ∧
      s.rates = s.log.getLastD rates ∧ s.rates.InRange cfg := by
    unfold saga1
    split
    · refine Prog.Sat.bind' (Prog.Sat.trivial ev _) fun pop _ => ?_
      refine Prog.Sat.forEach (fun (l : List (GADraw K)) (s : Saga1State K) => (∀ r ∈ s.log, r.InRange cfg) ∧ s.log.length + l.length = draws.length ∧
        s.rates = s.log.getLastD rates ∧ s.rates.InRange cfg) _ draws ⟨pop, rates, []⟩ ⟨by simp, by simp, rfl, hr⟩ ?_
      rintro d rest s ⟨hlog, hlen, hlast, hin⟩
      unfold saga1Step
      refine Prog.Sat.bind' (Prog.Sat.trivial ev _) fun fs _ => ?_
      refine Prog.Sat.bind' (P := fun r' => r'.InRange cfg) (Prog.Sat.lift fun r' hr' => C61_adjust cfg hm hc hmm hcm fs s.rates r' hin hr') fun r' hr' => ?_
      refine Prog.Sat.bind' (Prog.Sat.trivial ev _) fun _ _ => ?_
      refine Prog.Sat.bind' (Prog.Sat.trivial ev _) fun _ _ => ?_
      refine Prog.Sat.bind' (Prog.Sat.trivial ev _) fun _ _ => ?_
      refine ⟨?_, ?_, ?_, hr'⟩
      · intro r hrm
        rcases List.mem_append.mp hrm with hrm | hrm
        · exact hlog r hrm
        · rw [List.mem_singleton.mp hrm]; exact hr'
      · simp only [List.length_append, List.length_cons, List.length_nil] at hlen ⊢
        omega
      · simp
    · trivial
  simpa using hsat.run s h

/-- The default configuration (saga1/base.py:41-64). -/
def demoSaga1 : Saga1Cfg ℚ := ⟨2, 0, 5 / 1000, 15 / 100, 1 / 1000, 1 / 4, 11 / 10, 1 / 2, 1, 11 / 10⟩

/-- An evaluation whose fitness is the number of selected rules plus one. -/
def demoEval : Eval ℚ := fun g => .ok ⟨1, g.length, (g.filter id).length, ((g.filter id).length : ℚ) + 1⟩

/-- Draws of one generation. -/
def demoGADraw : GADraw ℚ := ⟨.random [0, 1], fun _ _ => (0, .nPoint [1]), fun _ i => if i = 0 then 0 else 1⟩

example : 0 ≤ demoSaga1.mutMin ∧ 0 ≤ demoSaga1.crossMin ∧ 1 ≤ demoSaga1.mutMul ∧ 1 ≤ demoSaga1.crossMul ∧
    Rates.InRange demoSaga1 ⟨1 / 40, 3 / 4⟩ := by unfold Rates.InRange; decide +kernel

/-- Two generations change both rates: the population is not diverse (mean/max above `v_max`). -/
example : (((saga1 demoSaga1 [demoGADraw, demoGADraw] ⟨1 / 40, 3 / 4⟩ [⟨[true, false], none⟩, ⟨[false, true], none⟩]).run demoEval).toOption.map
    fun s => s.log.map fun r => (r.mutation, r.cross)) = some [(11 / 400, 15 / 22), (121 / 4000, 75 / 121)] := by decide +kernel

end C61

/-! ## C102 -/

section C102

variable {K : Type} [Field K] [LinearOrder K] [IsStrictOrderedRing K]

/-- `r'` has more mutation and less crossover than `r`, as far as the bounds allow. -/
def Rates.Explores (cfg : Saga1Cfg K) (r r' : Rates K) : Prop :=
  r.mutation ≤ r'.mutation ∧ (r.mutation < cfg.mutMax → r.mutation < r'.mutation) ∧ r'.cross ≤ r.cross ∧ (cfg.crossMin < r.cross → r'.cross < r.cross)

/-- `r'` has less mutation and more crossover than `r`, as far as the bounds allow. -/
def Rates.Exploits (cfg : Saga1Cfg K) (r r' : Rates K) : Prop :=
  r'.mutation ≤ r.mutation ∧ (cfg.mutMin < r.mutation → r'.mutation < r.mutation) ∧ r.cross ≤ r'.cross ∧ (r.cross < cfg.crossMax → r.cross < r'.cross)

/-- The documented reaction to the fitness values `fs`, whose maximum is `hi`: average above `v_max` times the maximum (all solutions alike): explore; below `v_min` times the
maximum: exploit; in between: unchanged. -/
def Reaction (cfg : Saga1Cfg K) (fs : List K) (hi : K) (r r' : Rates K) : Prop :=
  (cfg.vMax * hi < fs.sum / fs.length → r.Explores cfg r') ∧ (fs.sum / fs.length < cfg.vMin * hi → r.Exploits cfg r') ∧
    (cfg.vMin * hi ≤ fs.sum / fs.length → fs.sum / fs.length ≤ cfg.vMax * hi → r' = r)

/-- C102 (partial), one adjustment. Missing: negative best fitness, see `C102_negative_refuted`. -/
theorem C102_adjust_partial (cfg : Saga1Cfg K) (hm : 0 < cfg.mutMin) (hc : 0 < cfg.crossMin) (hmm : 1 < cfg.mutMul) (hcm : 1 < cfg.crossMul) (hv : cfg.vMin ≤ cfg.vMax)
    (fs : List K) (hi : K) (hmem : hi ∈ fs) (hmax : ∀ x ∈ fs, x ≤ hi) (hpos : 0 ≤ hi) (r : Rates K) (hr : r.InRange cfg) :
    ∃ r', saga1Adjust cfg fs r = .ok r' ∧ Reaction cfg fs hi r r' := by
  obtain ⟨h1, h2, h3, h4⟩ := hr
  have hne : fs ≠ [] := List.ne_nil_of_mem hmem
  obtain ⟨m, hmm'⟩ : ∃ m, npMax fs = .ok m := by
    cases fs with
    | nil => exact absurd rfl hne
    | cons a as => exact ⟨_, rfl⟩
  obtain rfl : m = hi := le_antisymm (hmax m (npMax_eq fs m hmm').1) ((npMax_eq fs m hmm').2 hi hmem)
  have hcm0 : cfg.crossMul ≠ 0 := (zero_lt_one.trans hcm).ne'
  have hmm0 : cfg.mutMul ≠ 0 := (zero_lt_one.trans hmm).ne'
  have hr0 : 0 < r.mutation := hm.trans_le h1
  have hc0 : 0 < r.cross := hc.trans_le h3
  have hup : r.mutation < r.mutation * cfg.mutMul := lt_mul_of_one_lt_right hr0 hmm
  have hup' : r.cross < r.cross * cfg.crossMul := lt_mul_of_one_lt_right hc0 hcm
  have hdn : r.mutation / cfg.mutMul < r.mutation := div_lt_self hr0 hmm
  have hdn' : r.cross / cfg.crossMul < r.cross := div_lt_self hc0 hcm
  rcases hpos.eq_or_lt with rfl | hpos
  · have hsum : fs.sum ≤ 0 := by
      have := List.sum_le_card_nsmul fs 0 hmax
      rwa [nsmul_zero] at this
    have hmean : mean fs ≤ 0 := div_nonpos_of_nonpos_of_nonneg hsum (Nat.cast_nonneg _)
    have hg : gdm fs = .ok (if mean fs = 0 then .nan else .negInf) := by
      unfold gdm npDiv
      rw [hmm']
      dsimp only
      rw [if_pos rfl]
      split
      · rfl
      · rw [if_neg (not_lt.mpr hmean)]
    unfold saga1Adjust
    rw [hg]
    unfold Reaction
    rw [mul_zero, mul_zero]
    by_cases h0 : mean fs = 0
    · rw [if_pos h0]
      refine ⟨r, rfl, fun h => absurd h ?_, fun h => absurd h ?_, fun _ _ => rfl⟩ <;> exact (show ¬ _ from by rw [show fs.sum / (fs.length : K) = 0 from h0]; exact lt_irrefl 0)
    · rw [if_neg h0]
      dsimp only
      rw [if_neg (show ¬ (NpFloat.negInf : NpFloat K).gt cfg.vMax = true from Bool.false_ne_true), if_pos (show (NpFloat.negInf : NpFloat K).lt cfg.vMin = true from rfl)]
      simp only [pyDiv, if_neg hmm0]
      exact ⟨_, rfl, fun h => absurd h (not_lt.mpr hmean), fun _ => ⟨max_le h1 hdn.le, fun h => max_lt h hdn, le_min h4 hup'.le, fun h => lt_min h hup'⟩,
        fun h => absurd (le_antisymm hmean h) h0⟩
  have hg : gdm fs = .ok (.val (mean fs / m)) := by
    unfold gdm npDiv
    rw [hmm']
    dsimp only
    rw [if_neg hpos.ne']
  have e1 : cfg.vMax < mean fs / m ↔ cfg.vMax * m < fs.sum / fs.length := lt_div_iff₀ hpos
  have e2 : mean fs / m < cfg.vMin ↔ fs.sum / fs.length < cfg.vMin * m := div_lt_iff₀ hpos
  have hv' : cfg.vMin * m ≤ cfg.vMax * m := mul_le_mul_of_nonneg_right hv hpos.le
  unfold saga1Adjust
  rw [hg]
  dsimp only [NpFloat.gt, NpFloat.lt]
  simp only [decide_eq_true_eq, e1, e2, pyDiv, if_neg hcm0, if_neg hmm0]
  split_ifs with a1 a2
  · refine ⟨_, rfl, fun _ => ⟨le_min h2 hup.le, fun h => lt_min h hup, max_le h3 hdn'.le, fun h => max_lt h hdn'⟩, fun h => ?_, fun _ h => ?_⟩
    · exact absurd (h.trans_le hv') (not_lt.mpr a1.le)
    · exact absurd a1 (not_lt.mpr h)
  · exact ⟨_, rfl, fun h => absurd h a1, fun _ => ⟨max_le h1 hdn.le, fun h => max_lt h hdn, le_min h4 hup'.le, fun h => lt_min h hup'⟩,
      fun h => absurd a2 (not_lt.mpr h)⟩
  · exact ⟨_, rfl, fun h => absurd h a1, fun h => absurd h a2, fun _ _ => rfl⟩

/-- C102 (refuted): if the best fitness is negative (`PseudoBIC` gives such values, see `C102_bic_refuted`), SAGA1 always raises the mutation rate, although the average is below `v_min` times the best fitness. -/
theorem C102_negative_refuted (cfg : Saga1Cfg K) (hm : 0 < cfg.mutMin) (hc : 0 < cfg.crossMin) (hmm : 1 < cfg.mutMul) (hcm : 1 < cfg.crossMul) (hv : cfg.vMin ≤ cfg.vMax) (hv1 : cfg.vMax < 1)
    (fs : List K) (hi : K) (hmem : hi ∈ fs) (hmax : ∀ x ∈ fs, x ≤ hi) (hneg : hi < 0) (r : Rates K) (hr : r.InRange cfg) (hlt : r.mutation < cfg.mutMax) :
    ∃ r', saga1Adjust cfg fs r = .ok r' ∧ fs.sum / fs.length < cfg.vMin * hi ∧ r.Explores cfg r' ∧ ¬ Reaction cfg fs hi r r' := by
  obtain ⟨h1, h2, h3, h4⟩ := hr
  have hne : fs ≠ [] := List.ne_nil_of_mem hmem
  obtain ⟨m, hmm'⟩ : ∃ m, npMax fs = .ok m := by
    cases fs with
    | nil => exact absurd rfl hne
    | cons a as => exact ⟨_, rfl⟩
  obtain rfl : m = hi := le_antisymm (hmax m (npMax_eq fs m hmm').1) ((npMax_eq fs m hmm').2 hi hmem)
  have hcm0 : cfg.crossMul ≠ 0 := (zero_lt_one.trans hcm).ne'
  have hr0 : 0 < r.mutation := hm.trans_le h1
  have hc0 : 0 < r.cross := hc.trans_le h3
  have hup : r.mutation < r.mutation * cfg.mutMul := lt_mul_of_one_lt_right hr0 hmm
  have hdn' : r.cross / cfg.crossMul < r.cross := div_lt_self hc0 hcm
  have hlen : (0 : K) < fs.length := by exact_mod_cast List.length_pos_iff.mpr hne
  have hmean : fs.sum / fs.length ≤ m := by
    rw [div_le_iff₀ hlen]
    have := List.sum_le_card_nsmul fs m hmax
    rwa [nsmul_eq_mul, mul_comm] at this
  have hg : gdm fs = .ok (.val (mean fs / m)) := by
    unfold gdm npDiv
    rw [hmm']
    dsimp only
    rw [if_neg hneg.ne]
  have hgt : cfg.vMax < mean fs / m := by
    refine hv1.trans_le ?_
    rw [le_div_iff_of_neg hneg, one_mul]
    exact hmean
  have hlow : fs.sum / fs.length < cfg.vMin * m := hmean.trans_lt (by nlinarith)
  have hex : r.Explores cfg ⟨min cfg.mutMax (r.mutation * cfg.mutMul), max cfg.crossMin (r.cross / cfg.crossMul)⟩ :=
    ⟨le_min h2 hup.le, fun h => lt_min h hup, max_le h3 hdn'.le, fun h => max_lt h hdn'⟩
  unfold saga1Adjust
  rw [hg]
  dsimp only
  rw [if_pos (show (NpFloat.val (mean fs / m)).gt cfg.vMax = true from decide_eq_true hgt)]
  simp only [pyDiv, if_neg hcm0]
  refine ⟨_, rfl, hlow, hex, fun hreact => ?_⟩
  exact absurd (hreact.2.1 hlow).1 (not_le.mpr (hex.2.1 hlt))

/-- C102 (partial): in every generation of `SelfAdaptingGeneticAlgorithm` (saga1), for every evaluated population with non-negative best fitness, whatever the evaluations and draws, the rates
change as documented and are the ones recorded for this generation. Missing: negative best fitness, see `C102_negative_refuted`. -/
theorem C102_generation_partial (cfg : Saga1Cfg K) (hm : 0 < cfg.mutMin) (hc : 0 < cfg.crossMin) (hmm : 1 < cfg.mutMul) (hcm : 1 < cfg.crossMul)
    (hv : cfg.vMin ≤ cfg.vMax) (s s' : Saga1State K) (fs : List K) (hfs : fitnesses s.pop = .ok fs) (hi : K) (hmem : hi ∈ fs) (hmax : ∀ x ∈ fs, x ≤ hi) (hpos : 0 ≤ hi)
    (hr : s.rates.InRange cfg) (dr : GADraw K) (ev : Eval K) (h : (saga1Step cfg s dr).run ev = .ok s') :
    Reaction cfg fs hi s.rates s'.rates ∧ s'.log = s.log ++ [s'.rates] := by
  obtain ⟨r', hr', hreact⟩ := C102_adjust_partial cfg hm hc hmm hcm hv fs hi hmem hmax hpos s.rates hr
  have hsat : (saga1Step cfg s dr).Sat ev (fun _ => True) fun s' => s'.rates = r' ∧ s'.log = s.log ++ [s'.rates] := by
    unfold saga1Step
    refine Prog.Sat.bind' (P := fun f => f = fs) (Prog.Sat.lift fun f hf => by rw [hfs] at hf; exact (Except.ok.inj hf).symm) ?_
    rintro _ rfl
    refine Prog.Sat.bind' (P := fun r => r = r') (Prog.Sat.lift fun r hf => by rw [hr'] at hf; exact (Except.ok.inj hf).symm) ?_
    rintro _ rfl
    refine Prog.Sat.bind' (Prog.Sat.trivial ev _) fun _ _ => ?_
    refine Prog.Sat.bind' (Prog.Sat.trivial ev _) fun _ _ => ?_
    refine Prog.Sat.bind' (Prog.Sat.trivial ev _) fun _ _ => ?_
    exact ⟨rfl, rfl⟩
  obtain ⟨e1, e2⟩ := hsat.run s' h
  rw [e1] at e2 ⊢
  exact ⟨hreact, e2⟩

/-- The default configuration meets the hypotheses; fitness values for each of the three reactions. -/
example : 0 < demoSaga1.mutMin ∧ 0 < demoSaga1.crossMin ∧ 1 < demoSaga1.mutMul ∧ 1 < demoSaga1.crossMul ∧ demoSaga1.vMin ≤ demoSaga1.vMax ∧
    ((saga1Adjust demoSaga1 [10, 10] ⟨1 / 40, 3 / 4⟩).toOption.map fun r => (r.mutation, r.cross)) = some (11 / 400, 15 / 22) ∧
    ((saga1Adjust demoSaga1 (10 :: List.replicate 249 0) ⟨1 / 40, 3 / 4⟩).toOption.map fun r => (r.mutation, r.cross)) = some (1 / 44, 33 / 40) ∧
    ((saga1Adjust demoSaga1 (10 :: List.replicate 9 0) ⟨1 / 40, 3 / 4⟩).toOption.map fun r => (r.mutation, r.cross)) = some (1 / 40, 3 / 4) := by decide +kernel

/-- All fitness values zero: nothing changes. Only the best is zero: more crossover. All negative: more mutation. -/
example : ((saga1Adjust demoSaga1 [0, 0] ⟨1 / 40, 3 / 4⟩).toOption.map fun r => (r.mutation, r.cross)) = some (1 / 40, 3 / 4) ∧
    ((saga1Adjust demoSaga1 [0, -1] ⟨1 / 40, 3 / 4⟩).toOption.map fun r => (r.mutation, r.cross)) = some (1 / 44, 33 / 40) ∧
    ((saga1Adjust demoSaga1 [-1, -100] ⟨1 / 40, 3 / 4⟩).toOption.map fun r => (r.mutation, r.cross)) = some (11 / 400, 15 / 22) := by decide +kernel

/-- C102 (refuted): `PseudoBIC` is negative for solutions with errors above 1. -/
theorem C102_bic_refuted (e : ℝ) (he : 1 < e) (n c : Nat) (hn : 0 < n) : ∃ v, pseudoBIC e n c = some v ∧ v < 0 := by
  unfold pseudoBIC
  rw [if_neg hn.ne']
  refine ⟨_, rfl, ?_⟩
  have h1 : 0 < (n : ℝ) * Real.log e := mul_pos (by exact_mod_cast hn) (Real.log_pos he)
  have h2 : 0 ≤ (c : ℝ) * Real.log n := mul_nonneg (Nat.cast_nonneg _) (Real.log_natCast_nonneg n)
  linarith

end C102

/-! ## C62 -/

section C62

variable {K : Type} [Field K] [LinearOrder K] [IsStrictOrderedRing K]

/-- Both parameters of a solution are probabilities. -/
def SagaObj.Unit (o : SagaObj K) : Prop := 0 ≤ o.crossRate ∧ o.crossRate ≤ 1 ∧ 0 ≤ o.mutRate ∧ o.mutRate ≤ 1

/-- C62: new solutions start with probabilities. -/
theorem C62_fresh (σ : Indiv K) : (SagaObj.fresh σ).Unit := by
  unfold SagaObj.Unit SagaObj.fresh
  dsimp only
  refine ⟨by positivity, ?_, by positivity, ?_⟩
  · rw [div_le_one (by positivity)]; norm_num
  · rw [div_le_one (by positivity)]; norm_num

/-- C62: in every run of `SelfAdaptingGeneticAlgorithm` (saga3), whatever the evaluations, the draws (the normal deviates are unbounded) and the
configuration: when the parameters of the solutions are in [0,1] at the start, then every value any solution (parents, children, elitists) has during the run is
in [0,1], and so are the parameters of the returned population. -/
theorem C62_run (cfg : Saga3Cfg K) (n : Nat) (draws : List (Saga3GenDraw K)) (ev : Eval K) (pop : Objs K) (hpop : ∀ o ∈ pop, o.Unit)
    (hlen : ∀ o ∈ pop, o.indiv.genome.length = n) (s : Saga3State K) (h : (saga3 cfg draws pop).run ev = .ok s) :
    (∀ o ∈ s.pop, o.Unit) ∧ ∀ r ∈ s.log, (0 ≤ r.1 ∧ r.1 ≤ 1) ∧ 0 ≤ r.2 ∧ r.2 ≤ 1 := by
  have hs := (saga3_sat cfg (fun x : K => 0 ≤ x ∧ x ≤ 1) (fun x => ⟨le_min (le_max_right _ _) zero_le_one, min_le_right _ _⟩) ev n draws pop
    fun o ho => ⟨⟨(hpop o ho).1, (hpop o ho).2.1⟩, ⟨(hpop o ho).2.2.1, (hpop o ho).2.2.2⟩, hlen o ho⟩).run s h
  exact ⟨fun o ho => ⟨(hs.1 o ho).1.1, (hs.1 o ho).1.2, (hs.1 o ho).2.1.1, (hs.1 o ho).2.1.2⟩, hs.2⟩

/-- Draws in which the parameters mutate far beyond the interval and no crossover takes place. -/
def demoSaga3Draw : Saga3GenDraw ℚ :=
  ⟨.tournament [[0, 1], [1, 0]], fun k b => ⟨true, false, true, 0, if b then -5 else 7, 5, false, 1, [0], fun _ => 0⟩, fun _ _ => 1 / 2⟩

/-- A run in which both rates are clipped. The first parent is returned by the crossover and its parameters are overwritten. -/
example : (((saga3 ⟨2, 1, 1 / 20⟩ [demoSaga3Draw] [SagaObj.fresh ⟨[true, false], none⟩, SagaObj.fresh ⟨[false, false], none⟩]).run demoEval).toOption.map
    fun s => s.pop.map fun o => (o.indiv.genome, o.crossRate, o.mutRate)) =
    some [([true, false], 1, 1), ([false, true], 1, 1), ([false, true], 1, 1)] := by decide +kernel

end C62

/-! ## C63 -/

section C63

/-- Both current bounds are numbers within the configured ranges. -/
def Saga2State.BoundsIn (cfg : Saga2Cfg) (s : Saga2State) : Prop :=
  ∃ c m, s.crossCurMin = some c ∧ s.mutCurMax = some m ∧ (cfg.crossMin ≤ c ∧ c ≤ cfg.crossMax) ∧ cfg.mutMin ≤ m ∧ m ≤ cfg.mutMax

/-- The default configuration (saga2/base.py:48-65) with two solutions and no elitists. -/
noncomputable def demoSaga2 : Saga2Cfg := ⟨2, 0, 1 / 100, 1 / 10, 2 / 5, 9 / 10⟩

/-- An evaluation of genomes with two bits: fitness 1, 10 and 30 for none, the first and both rules. -/
noncomputable def demoEval2 : Eval ℝ := fun g => .ok ⟨1, 2, 0, if g = [true, true] then 30 else if g = [true, false] then 10 else 1⟩

/-- First generation: two copies of the first solution, of which the first bit, respectively both bits, are flipped. -/
noncomputable def demoDraw0 : GADraw ℝ := ⟨.random [0, 0], fun _ _ => (1, .nPoint []), fun k i => if k = 0 ∧ i ≠ 0 then 1 else 0⟩

/-- Second generation: both solutions are copied. -/
noncomputable def demoDraw1 : GADraw ℝ := ⟨.random [0, 1], fun _ _ => (1, .nPoint []), fun _ _ => 1⟩

/-- The demo individuals. -/
def ind (g : List Bool) (f : ℝ) : Indiv ℝ := ⟨g, some ⟨1, 2, 0, f⟩⟩

theorem demo_step0 : (saga2Step demoSaga2 ⟨[ind [false, false] 1, ind [false, false] 1], [ind [false, false] 1, ind [false, false] 1], ⟨1, 1, 1⟩, 0, 0,
      some (2 / 5), some (1 / 10)⟩ (demoDraw0, 0)).run demoEval2 =
    .ok ⟨[ind [true, false] 10, ind [true, true] 30], [ind [false, false] 1, ind [false, false] 1], ⟨20, 10, 30⟩, 0, 0, some (2 / 5), some (1 / 10)⟩ := by
  unfold saga2Step
  refine (Prog.run_bind_ok (a := [ind [false, false] 1, ind [false, false] 1]) ?_).trans ?_
  · rw [Prog.run_lift]; rfl
  refine (Prog.run_bind_ok (a := [ind [false, false] 1, ind [false, false] 1]) ?_).trans ?_
  · rw [Prog.run_lift]
    norm_num [demoSaga2, demoDraw0, pairs, sagaChildren, saga2Cross, saga2CrossRate, crossoverA]
  refine (Prog.run_bind_ok (a := [ind [false, false] 1, ind [false, false] 1]) ?_).trans ?_
  · simp [evaluateAll, Prog.each, Indiv.evaluate, Prog.bind, Prog.run, demoEval2, ind]
  refine (Prog.run_bind_ok (a := [ind [true, false] 10, ind [true, true] 30]) ?_).trans ?_
  · norm_num [demoSaga2, demoDraw0, saga2Mutate, saga2MutRate, bitFlips, Indiv.withGenome, evaluateAll, Prog.each, Indiv.evaluate, Prog.bind, Prog.run,
      demoEval2, ind]
  refine (Prog.run_bind_ok (a := ⟨20, 10, 30⟩) ?_).trans ?_
  · rw [Prog.run_lift]
    have hmax : max (10 : ℝ) 30 = 30 := by norm_num
    have hmin : min (10 : ℝ) 30 = 10 := by norm_num
    norm_num [fitStats, npMin, npMax, mean, ind, Indiv.fitnessD, hmax, hmin]
  rw [if_neg (lt_irrefl _)]
  rfl

theorem demo_step1 : ∃ c m, c < demoSaga2.crossMin ∧ demoSaga2.mutMax < m ∧
    (saga2Step demoSaga2 ⟨[ind [true, false] 10, ind [true, true] 30], [ind [false, false] 1, ind [false, false] 1], ⟨20, 10, 30⟩, 0, 0,
      some (2 / 5), some (1 / 10)⟩ (demoDraw1, 1)).run demoEval2 =
    .ok ⟨[ind [true, false] 10, ind [true, true] 30], [ind [true, false] 10, ind [true, true] 30], ⟨20, 10, 30⟩, 0, 100, some c, some m⟩ := by
  have hsim : ∃ sim : ℝ, 14 ≤ sim ∧ saga2Similarity [10, 30] [10, 30] = .ok sim := by
    refine ⟨1000 / (2 * Real.sqrt (1000 + Real.exp (-10))), ?_, ?_⟩
    · have he : Real.exp (-10) ≤ 1 := Real.exp_le_one_iff.mpr (by norm_num)
      have hs : Real.sqrt (1000 + Real.exp (-10)) ≤ 32 := by
        rw [Real.sqrt_le_left (by norm_num)]
        linarith
      have hp : 0 < Real.sqrt (1000 + Real.exp (-10)) := Real.sqrt_pos.mpr (by positivity)
      rw [le_div_iff₀ (by positivity)]
      linarith
    · have h2 : (([10, 30] : List ℝ).toFinset ∪ ([10, 30] : List ℝ).toFinset).card = 2 := by
        rw [Finset.union_self]
        norm_num
      have h3 : (([10, 30] : List ℝ).toFinset ∩ ([10, 30] : List ℝ).toFinset).card = 2 := by
        rw [Finset.inter_self]
        norm_num
      unfold saga2Similarity
      rw [if_neg (lt_irrefl _)]
      dsimp only
      rw [h2, h3, if_neg (by norm_num)]
      norm_num
      ring
  obtain ⟨sim, hsim14, hsim⟩ := hsim
  have hvar : variance [10, 30] = 100 := by norm_num [variance, mean]
  have hdiv : saga2Diversity [10, 30] ⟨20, 10, 30⟩ 0 0 = (some (Real.sqrt 2 / 2), 0, 100) := by
    unfold saga2Diversity
    rw [hvar]
    have h4 : Real.pi / 2 * (1 - (20 - 10) / (30 - 10)) = Real.pi / 4 := by ring
    dsimp only
    rw [h4, Real.cos_pi_div_four, if_pos (by norm_num : (0 : ℝ) < 100), if_neg (by norm_num : ¬ (100 : ℝ) < 0), if_neg (by norm_num : ¬ (30 : ℝ) = 10),
      if_neg (by norm_num : ¬ (100 : ℝ) = 0)]
    norm_num
  have h2 : (7 : ℝ) / 10 ≤ Real.sqrt 2 / 2 := by
    have : (7 : ℝ) / 5 ≤ Real.sqrt 2 := Real.le_sqrt_of_sq_le (by norm_num)
    linarith
  have hq : Real.sqrt 2 / 2 * (1 - sim) ≤ -9 := by nlinarith
  refine ⟨2 / 5 + Real.sqrt 2 / 2 * (1 - sim) * (9 / 10 - 2 / 5) / 2, 1 / 10 - Real.sqrt 2 / 2 * (1 - sim) * (1 / 10 - 1 / 100) / 2, ?_, ?_, ?_⟩
  · change _ < (2 / 5 : ℝ)
    linarith
  · change (1 / 10 : ℝ) < _
    linarith
  unfold saga2Step
  refine (Prog.run_bind_ok (a := [ind [true, false] 10, ind [true, true] 30]) ?_).trans ?_
  · rw [Prog.run_lift]; rfl
  refine (Prog.run_bind_ok (a := [ind [true, false] 10, ind [true, true] 30]) ?_).trans ?_
  · rw [Prog.run_lift]
    norm_num [demoSaga2, demoDraw1, pairs, sagaChildren, saga2Cross, saga2CrossRate, crossoverA, ind, Indiv.fitnessD]
  refine (Prog.run_bind_ok (a := [ind [true, false] 10, ind [true, true] 30]) ?_).trans ?_
  · simp [evaluateAll, Prog.each, Indiv.evaluate, Prog.bind, Prog.run, demoEval2, ind]
  refine (Prog.run_bind_ok (a := [ind [true, false] 10, ind [true, true] 30]) ?_).trans ?_
  · norm_num [demoSaga2, demoDraw1, saga2Mutate, saga2MutRate, bitFlips, Indiv.withGenome, evaluateAll, Prog.each, Indiv.evaluate, Prog.bind, Prog.run,
      demoEval2, ind, Indiv.fitnessD]
  refine (Prog.run_bind_ok (a := ⟨20, 10, 30⟩) ?_).trans ?_
  · rw [Prog.run_lift]
    have hmax : max (10 : ℝ) 30 = 30 := by norm_num
    have hmin : min (10 : ℝ) 30 = 10 := by norm_num
    norm_num [fitStats, npMin, npMax, mean, ind, Indiv.fitnessD, hmax, hmin]
  rw [if_pos (Nat.zero_lt_one), Prog.run_lift]
  unfold saga2Adjust
  have hfs : [ind [true, false] 10, ind [true, true] 30].map Indiv.fitnessD = [10, 30] := rfl
  dsimp only
  rw [hfs, hsim, hdiv]
  rfl

/-- C63 fails: a run of two generations with the default rates in which the lower bound of the crossover rate ends below the configured minimum and the upper
bound of the mutation rate above the configured maximum. The cosine similarity (saga2/base.py:189) divides by the sum of the lengths instead of their product. -/
theorem C63_refuted : ∃ s c m, (saga2 demoSaga2 [demoDraw0, demoDraw1] (some (2 / 5)) (some (1 / 10)) [⟨[false, false], none⟩, ⟨[false, false], none⟩]).run
      demoEval2 = .ok s ∧ s.crossCurMin = some c ∧ s.mutCurMax = some m ∧ c < demoSaga2.crossMin ∧ demoSaga2.mutMax < m ∧ ¬ s.BoundsIn demoSaga2 := by
  obtain ⟨c, m, hc, hm, h1⟩ := demo_step1
  refine ⟨⟨[ind [true, false] 10, ind [true, true] 30], [ind [true, false] 10, ind [true, true] 30], ⟨20, 10, 30⟩, 0, 100, some c, some m⟩,
    c, m, ?_, rfl, rfl, hc, hm, ?_⟩
  · unfold saga2
    rw [if_pos (show demoSaga2.populationSize % 2 = 0 from rfl)]
    refine (Prog.run_bind_ok (a := [ind [false, false] 1, ind [false, false] 1]) ?_).trans ?_
    · simp [evaluateAll, Prog.each, Indiv.evaluate, Prog.bind, Prog.run, demoEval2, ind]
    refine (Prog.run_bind_ok (a := ⟨1, 1, 1⟩) ?_).trans ?_
    · rw [Prog.run_lift]
      norm_num [fitStats, npMin, npMax, mean, ind, Indiv.fitnessD]
    have hv : variance ([ind [false, false] 1, ind [false, false] 1].map Indiv.fitnessD) = 0 := by norm_num [variance, mean, ind, Indiv.fitnessD]
    rw [hv]
    exact (Prog.run_forEach_cons demo_step0).trans (Prog.run_forEach_cons h1)
  · rintro ⟨c', m', hc', _, ⟨h, _⟩, _⟩
    cases hc'
    exact absurd hc (not_lt.mpr h)

/-- C63 fails as well when no generation so far had a positive variance of fitness: both bounds become NaN (0/0 in saga2/base.py:210). -/
theorem C63_nan_refuted (cfg : Saga2Cfg) (s s' : Saga2State) (hv : variance (s.pop.map Indiv.fitnessD) = 0) (hm : s.varMax = 0)
    (h : saga2Adjust cfg s = .ok s') : s'.crossCurMin = none ∧ s'.mutCurMax = none ∧ ¬ s'.BoundsIn cfg := by
  have hd : (saga2Diversity (s.pop.map Indiv.fitnessD) s.stats s.varMin s.varMax).1 = none := by
    unfold saga2Diversity
    rw [hv, hm]
    simp
  unfold saga2Adjust at h
  dsimp only at h
  split at h
  · cases h
  · injection h with h
    rw [← h, hd]
    refine ⟨rfl, rfl, ?_⟩
    rintro ⟨c, m, hc, _⟩
    cases hc

/-! ### What holds -/

theorem foldl_min_le (l : List ℝ) (a : ℝ) : l.foldl min a ≤ a ∧ ∀ x ∈ l, l.foldl min a ≤ x := by
  induction l generalizing a with
  | nil => exact ⟨le_refl _, by simp⟩
  | cons b rest ih =>
    have h := ih (min a b)
    refine ⟨h.1.trans (min_le_left _ _), fun x hx => ?_⟩
    rcases List.mem_cons.mp hx with rfl | hx
    · exact h.1.trans (min_le_right _ _)
    · exact h.2 x hx

theorem le_foldl_max (l : List ℝ) (a : ℝ) : a ≤ l.foldl max a ∧ ∀ x ∈ l, x ≤ l.foldl max a := by
  induction l generalizing a with
  | nil => exact ⟨le_refl _, by simp⟩
  | cons b rest ih =>
    have h := ih (max a b)
    refine ⟨(le_max_left _ _).trans h.1, fun x hx => ?_⟩
    rcases List.mem_cons.mp hx with rfl | hx
    · exact (le_max_right _ _).trans h.1
    · exact h.2 x hx

/-- The statistics are the mean and bounds of the fitness values. -/
theorem fitStats_spec (fs : List ℝ) (st : FitStats) (h : fitStats fs = .ok st) :
    (∀ x ∈ fs, st.min ≤ x ∧ x ≤ st.max) ∧ st.min ≤ st.mean ∧ st.mean ≤ st.max := by
  cases fs with
  | nil => cases h
  | cons a as =>
    injection h with h
    rw [← h]
    have h1 : ∀ x ∈ a :: as, as.foldl min a ≤ x ∧ x ≤ as.foldl max a := by
      intro x hx
      rcases List.mem_cons.mp hx with rfl | hx
      · exact ⟨(foldl_min_le as x).1, (le_foldl_max as x).1⟩
      · exact ⟨(foldl_min_le as a).2 x hx, (le_foldl_max as a).2 x hx⟩
    have hpos : (0 : ℝ) < ((a :: as).length : ℝ) := by rw [Nat.cast_pos]; exact Nat.succ_pos _
    refine ⟨h1, ?_, ?_⟩
    · change _ ≤ (a :: as).sum / _
      rw [le_div_iff₀ hpos, mul_comm, ← nsmul_eq_mul]
      exact List.card_nsmul_le_sum _ _ fun x hx => (h1 x hx).1
    · change (a :: as).sum / _ ≤ _
      rw [div_le_iff₀ hpos, mul_comm, ← nsmul_eq_mul]
      exact List.sum_le_card_nsmul _ _ fun x hx => (h1 x hx).2

theorem variance_nonneg (l : List ℝ) : 0 ≤ variance l := by
  unfold variance
  unfold mean
  refine div_nonneg (List.sum_nonneg ?_) (Nat.cast_nonneg _)
  intro x hx
  obtain ⟨y, _, rfl⟩ := List.mem_map.mp hx
  exact sq_nonneg _

/-- The diversity is between 0 and 1 whenever it is a number. -/
theorem C63_diversity_partial (fs : List ℝ) (st : FitStats) (hst : fitStats fs = .ok st) (lo hi : ℝ) (hlo : 0 ≤ lo) (d : ℝ)
    (h : (saga2Diversity fs st lo hi).1 = some d) : 0 ≤ d ∧ d ≤ 1 := by
  obtain ⟨_, hmin, hmax⟩ := fitStats_spec fs st hst
  have hv := variance_nonneg fs
  unfold saga2Diversity at h
  dsimp only at h
  generalize hv' : variance fs = v at *
  generalize hH : (if hi < v then v else hi) = H at h
  generalize hL : (if v < lo then v else lo) = L at h
  have hvH : v ≤ H := by
    rw [← hH]; split
    · exact le_refl _
    · rename_i h; exact not_lt.mp h
  have hLv : L ≤ v := by
    rw [← hL]; split
    · exact le_refl _
    · rename_i h; exact not_lt.mp h
  have hL0 : 0 ≤ L := by rw [← hL]; split <;> assumption
  split at h
  · cases h
  · rename_i hH0
    injection h with h
    have hHpos : 0 < H := lt_of_le_of_ne (hv.trans hvH) (Ne.symm hH0)
    have ha0 : 0 ≤ (v - L) / H := div_nonneg (sub_nonneg.mpr hLv) hHpos.le
    have ha1 : (v - L) / H ≤ 1 := by rw [div_le_one hHpos]; linarith
    have hb : ∀ b, (if st.max = st.min then (0 : ℝ) else Real.cos (Real.pi / 2 * (1 - (st.mean - st.min) / (st.max - st.min)))) = b → 0 ≤ b ∧ b ≤ 1 := by
      intro b hb
      rw [← hb]
      split
      · exact ⟨le_refl _, zero_le_one⟩
      · rename_i hne
        have hpos : 0 < st.max - st.min := sub_pos.mpr (lt_of_le_of_ne (hmin.trans hmax) (Ne.symm hne))
        have ht0 : 0 ≤ (st.mean - st.min) / (st.max - st.min) := div_nonneg (sub_nonneg.mpr hmin) hpos.le
        have ht1 : (st.mean - st.min) / (st.max - st.min) ≤ 1 := by rw [div_le_one hpos]; linarith
        refine ⟨Real.cos_nonneg_of_mem_Icc ⟨?_, ?_⟩, Real.cos_le_one _⟩
        · have := Real.pi_pos; nlinarith
        · have := Real.pi_pos; nlinarith
    obtain ⟨hb0, hb1⟩ := hb _ rfl
    rw [← h]
    exact ⟨mul_nonneg ha0 hb0, mul_le_one₀ ha1 hb0 hb1⟩

theorem zip_dot (old new : List ℝ) (ho : ∀ x ∈ old, 0 ≤ x) (hn : ∀ x ∈ new, 0 ≤ x) :
    0 ≤ ((old.zip new).map fun p => p.1 * p.2).sum ∧
    2 * ((old.zip new).map fun p => p.1 * p.2).sum ≤ (new.map fun x => x ^ 2).sum + (old.map fun x => x ^ 2).sum := by
  induction old generalizing new with
  | nil =>
    refine ⟨by simp, ?_⟩
    simp only [List.zip_nil_left, List.map_nil, List.sum_nil, mul_zero, add_zero]
    exact List.sum_nonneg fun x hx => by
      obtain ⟨y, _, rfl⟩ := List.mem_map.mp hx
      exact sq_nonneg _
  | cons a as ih =>
    cases new with
    | nil =>
      refine ⟨by simp, ?_⟩
      simp only [List.zip_nil_right, List.map_nil, List.sum_nil, mul_zero, zero_add]
      exact List.sum_nonneg fun x hx => by
        obtain ⟨y, _, rfl⟩ := List.mem_map.mp hx
        exact sq_nonneg _
    | cons b bs =>
      have h := ih bs (fun x hx => ho x (List.mem_cons_of_mem _ hx)) (fun x hx => hn x (List.mem_cons_of_mem _ hx))
      have ha := ho a (List.mem_cons_self ..)
      have hb := hn b (List.mem_cons_self ..)
      simp only [List.zip_cons_cons, List.map_cons, List.sum_cons]
      refine ⟨add_nonneg (mul_nonneg ha hb) h.1, ?_⟩
      nlinarith [sq_nonneg (a - b), h.2]

/-- The similarity is between 0 and 1 when the fitness values are not negative and both generations have a fitness vector of length at most 2. -/
theorem C63_similarity_partial (new old : List ℝ) (hn : ∀ x ∈ new, 0 ≤ x) (ho : ∀ x ∈ old, 0 ≤ x)
    (hnew : (new.map fun x => x ^ 2).sum + Real.exp (-10) ≤ 4) (hold : (old.map fun x => x ^ 2).sum + Real.exp (-10) ≤ 4) (sim : ℝ)
    (h : saga2Similarity new old = .ok sim) : 0 ≤ sim ∧ sim ≤ 1 := by
  unfold saga2Similarity at h
  split at h
  · cases h
  · dsimp only at h
    split at h
    · injection h with h; rw [← h]; exact ⟨zero_le_one, le_refl _⟩
    · rename_i hcard
      injection h with h
      obtain ⟨hd0, hd⟩ := zip_dot old new ho hn
      have he := Real.exp_pos (-10)
      have hn0 : 0 ≤ (new.map fun x => x ^ 2).sum := List.sum_nonneg fun x hx => by
        obtain ⟨y, _, rfl⟩ := List.mem_map.mp hx
        exact sq_nonneg _
      have ho0 : 0 ≤ (old.map fun x => x ^ 2).sum := List.sum_nonneg fun x hx => by
        obtain ⟨y, _, rfl⟩ := List.mem_map.mp hx
        exact sq_nonneg _
      generalize (new.map fun x => x ^ 2).sum = N at *
      generalize (old.map fun x => x ^ 2).sum = O at *
      generalize ((old.zip new).map fun p => p.1 * p.2).sum = D at *
      have h1 : Real.sqrt (N + Real.exp (-10)) ^ 2 = N + Real.exp (-10) := Real.sq_sqrt (by linarith)
      have h2 : Real.sqrt (O + Real.exp (-10)) ^ 2 = O + Real.exp (-10) := Real.sq_sqrt (by linarith)
      have p1 : 0 < Real.sqrt (N + Real.exp (-10)) := Real.sqrt_pos.mpr (by linarith)
      have p2 : 0 < Real.sqrt (O + Real.exp (-10)) := Real.sqrt_pos.mpr (by linarith)
      have q1 : Real.sqrt (N + Real.exp (-10)) ≤ 2 := by rw [Real.sqrt_le_left (by norm_num)]; linarith
      have q2 : Real.sqrt (O + Real.exp (-10)) ≤ 2 := by rw [Real.sqrt_le_left (by norm_num)]; linarith
      generalize Real.sqrt (N + Real.exp (-10)) = A at *
      generalize Real.sqrt (O + Real.exp (-10)) = B at *
      have hc0 : 0 ≤ D / (A + B) := div_nonneg hd0 (by linarith)
      have hc1 : D / (A + B) ≤ 1 := by
        rw [div_le_one (by linarith)]
        nlinarith
      have hg : ((new.toFinset ∩ old.toFinset).card : ℝ) / ((new.toFinset ∪ old.toFinset).card : ℝ) ≤ 1 := by
        have hpos : (0 : ℝ) < ((new.toFinset ∪ old.toFinset).card : ℝ) := by exact_mod_cast Nat.pos_of_ne_zero hcard
        rw [div_le_one hpos]
        exact_mod_cast Finset.card_le_card (Finset.inter_subset_left.trans Finset.subset_union_left)
      have hg0 : (0 : ℝ) ≤ ((new.toFinset ∩ old.toFinset).card : ℝ) / ((new.toFinset ∪ old.toFinset).card : ℝ) := by positivity
      rw [← h]
      exact ⟨mul_nonneg hc0 hg0, mul_le_one₀ hc1 hg0 hg⟩

/-- What is missing from C63: with non-negative fitness values, fitness vectors of length at most 2 and some variance of fitness so far, the adjustment computes
bounds within the configured ranges. Missing: longer fitness vectors (`C63_refuted`) and no variance (`C63_nan_refuted`). -/
theorem C63_adjust_partial (cfg : Saga2Cfg) (hcr : cfg.crossMin ≤ cfg.crossMax) (hmr : cfg.mutMin ≤ cfg.mutMax) (s s' : Saga2State)
    (hst : fitStats (s.pop.map Indiv.fitnessD) = .ok s.stats) (h0 : 0 ≤ s.varMin) (hvar : 0 < s.varMax)
    (hn : ∀ σ ∈ s.pop, 0 ≤ σ.fitnessD) (ho : ∀ σ ∈ s.old, 0 ≤ σ.fitnessD)
    (hnew : ((s.pop.map Indiv.fitnessD).map fun x => x ^ 2).sum + Real.exp (-10) ≤ 4)
    (hold : ((s.old.map Indiv.fitnessD).map fun x => x ^ 2).sum + Real.exp (-10) ≤ 4)
    (h : saga2Adjust cfg s = .ok s') : s'.BoundsIn cfg := by
  unfold saga2Adjust at h
  dsimp only at h
  cases hsim : saga2Similarity (s.pop.map Indiv.fitnessD) (s.old.map Indiv.fitnessD) with
  | error e => rw [hsim] at h; cases h
  | ok sim =>
    have hs := C63_similarity_partial _ _ (by
      intro x hx
      obtain ⟨σ, hσ, rfl⟩ := List.mem_map.mp hx
      exact hn σ hσ) (by
      intro x hx
      obtain ⟨σ, hσ, rfl⟩ := List.mem_map.mp hx
      exact ho σ hσ) hnew hold sim hsim
    rw [hsim] at h
    injection h with h
    have hd : ∃ d, (saga2Diversity (s.pop.map Indiv.fitnessD) s.stats s.varMin s.varMax).1 = some d := by
      unfold saga2Diversity
      dsimp only
      rw [if_neg]
      · exact ⟨_, rfl⟩
      · split
        · rename_i hlt; exact ne_of_gt (hvar.trans hlt)
        · exact ne_of_gt hvar
    obtain ⟨d, hd⟩ := hd
    have hdr := C63_diversity_partial _ _ hst _ _ h0 d hd
    rw [← h, hd]
    have hq0 : 0 ≤ d * (1 - sim) := mul_nonneg hdr.1 (by linarith [hs.2])
    have hq1 : d * (1 - sim) ≤ 1 := mul_le_one₀ hdr.2 (by linarith [hs.2]) (by linarith [hs.1])
    refine ⟨_, _, rfl, rfl, ⟨?_, ?_⟩, ?_, ?_⟩
    · nlinarith
    · nlinarith
    · nlinarith
    · nlinarith

/-- The rate used for two parents of the population is between the current lower bound and the maximum. -/
theorem C63_crossover_rate_partial (fs : List ℝ) (st : FitStats) (hst : fitStats fs = .ok st) (c hi a b r : ℝ) (hc : c ≤ hi) (ha : a ∈ fs) (hb : b ∈ fs)
    (h : saga2CrossRate (some c) hi st a b = some r) : c ≤ r ∧ r ≤ hi := by
  obtain ⟨hx, hmin, hmax⟩ := fitStats_spec fs st hst
  have hA := hx a ha
  have hB := hx b hb
  unfold saga2CrossRate at h
  dsimp only at h
  split at h
  · injection h with h; rw [← h]; exact ⟨hc, le_refl _⟩
  · rename_i hne
    rw [not_or] at hne
    have h1 : 0 < st.mean - st.min := sub_pos.mpr (lt_of_le_of_ne hmin hne.1)
    have h2 : 0 < st.max - st.mean := sub_pos.mpr (lt_of_le_of_ne hmax hne.2)
    split at h
    · rename_i hle
      injection h with h
      have t0 : 0 ≤ (st.mean - (a + b) / 2) / (st.mean - st.min) := div_nonneg (by linarith) h1.le
      have t1 : (st.mean - (a + b) / 2) / (st.mean - st.min) ≤ 1 := by rw [div_le_one h1]; linarith [hA.1, hB.1]
      rw [← h]
      constructor <;> nlinarith
    · rename_i hle
      injection h with h
      have t0 : 0 ≤ ((a + b) / 2 - st.mean) / (st.max - st.mean) := div_nonneg (by linarith [not_le.mp hle]) h2.le
      have t1 : ((a + b) / 2 - st.mean) / (st.max - st.mean) ≤ 1 := by rw [div_le_one h2]; linarith [hA.2, hB.2]
      rw [← h]
      constructor <;> nlinarith

/-- The mutation rate of a child that is not fitter than the fittest of the population is between the minimum and the current upper bound. -/
theorem C63_mutation_rate_partial (fs : List ℝ) (st : FitStats) (hst : fitStats fs = .ok st) (lo m f r : ℝ) (hm : lo ≤ m) (hf : f ≤ st.max)
    (h : saga2MutRate lo (some m) st f = some r) : lo ≤ r ∧ r ≤ m := by
  obtain ⟨_, hmin, hmax⟩ := fitStats_spec fs st hst
  unfold saga2MutRate at h
  split at h
  · injection h with h; rw [← h]; exact ⟨le_refl _, hm⟩
  · rename_i hne
    have h2 : 0 < st.max - st.mean := sub_pos.mpr (lt_of_le_of_ne hmax (Ne.symm hne))
    split at h
    · rename_i hlt
      injection h with h
      have t0 : 0 ≤ (st.max - f) / (st.max - st.mean) := div_nonneg (by linarith) h2.le
      have t1 : (st.max - f) / (st.max - st.mean) ≤ 1 := by rw [div_le_one h2]; linarith
      rw [← h]
      constructor <;> nlinarith
    · injection h with h; rw [← h]; exact ⟨hm, le_refl _⟩

/-- A child that is fitter than the whole previous population gets a mutation rate below the minimum; it is negative for a fit enough child. -/
theorem C63_mutation_rate_refuted (lo m : ℝ) (hm : lo < m) (st : FitStats) (hst : st.mean < st.max) :
    (∀ f r, st.max < f → saga2MutRate lo (some m) st f = some r → r < lo) ∧ ∃ f r, saga2MutRate lo (some m) st f = some r ∧ r < 0 := by
  have hd : 0 < st.max - st.mean := sub_pos.mpr hst
  have hform : ∀ f, st.max < f → saga2MutRate lo (some m) st f = some (lo + (m - lo) * ((st.max - f) / (st.max - st.mean))) := by
    intro f hf
    unfold saga2MutRate
    rw [if_neg (ne_of_gt hst), if_pos (hst.trans hf)]
    rfl
  refine ⟨?_, ?_⟩
  · intro f r hf h
    rw [hform f hf] at h
    injection h with h
    have : (st.max - f) / (st.max - st.mean) < 0 := div_neg_of_neg_of_pos (by linarith) hd
    rw [← h]
    nlinarith
  · have hml : 0 < m - lo := sub_pos.mpr hm
    refine ⟨st.max + (st.max - st.mean) * ((|lo| + 1) / (m - lo)), _, hform _ ?_, ?_⟩
    · have : 0 < (st.max - st.mean) * ((|lo| + 1) / (m - lo)) := by positivity
      linarith
    · have : (st.max - (st.max + (st.max - st.mean) * ((|lo| + 1) / (m - lo)))) / (st.max - st.mean) = -((|lo| + 1) / (m - lo)) := by
        field_simp
        ring
      rw [this]
      have h3 : (m - lo) * -((|lo| + 1) / (m - lo)) = -(|lo| + 1) := by field_simp
      rw [h3]
      linarith [le_abs_self lo]

/-- A state that meets the hypotheses of `C63_adjust_partial` and whose adjustment succeeds. -/
example : ∃ s : Saga2State, fitStats (s.pop.map Indiv.fitnessD) = .ok s.stats ∧ 0 ≤ s.varMin ∧ 0 < s.varMax ∧ (∀ σ ∈ s.pop, 0 ≤ σ.fitnessD) ∧
    (∀ σ ∈ s.old, 0 ≤ σ.fitnessD) ∧ ((s.pop.map Indiv.fitnessD).map fun x => x ^ 2).sum + Real.exp (-10) ≤ 4 ∧
    ((s.old.map Indiv.fitnessD).map fun x => x ^ 2).sum + Real.exp (-10) ≤ 4 ∧ ∃ s', saga2Adjust demoSaga2 s = .ok s' := by
  have he : Real.exp (-10) ≤ 1 := Real.exp_le_one_iff.mpr (by norm_num)
  refine ⟨⟨[ind [true] 1, ind [false] 0], [ind [true] 1, ind [true] 1], ⟨1 / 2, 0, 1⟩, 0, 1, none, none⟩, ?_, le_refl _, one_pos, ?_, ?_, ?_, ?_, ?_⟩
  · have h1 : max (1 : ℝ) 0 = 1 := by norm_num
    have h2 : min (1 : ℝ) 0 = 0 := by norm_num
    norm_num [fitStats, npMin, npMax, mean, ind, Indiv.fitnessD, h1, h2]
  · simp [ind, Indiv.fitnessD]
  · simp [ind, Indiv.fitnessD]
  · simp [ind, Indiv.fitnessD]; linarith
  · simp [ind, Indiv.fitnessD]; linarith
  · unfold saga2Adjust saga2Similarity
    dsimp only
    rw [if_neg (by simp)]
    split
    · rename_i h; split at h <;> cases h
    · exact ⟨_, rfl⟩

example : saga2CrossRate (some (2 / 5)) (9 / 10) ⟨20, 10, 30⟩ 10 10 = some (2 / 5) ∧ saga2MutRate (1 / 100) (some (1 / 10)) ⟨20, 10, 30⟩ 25 = some (11 / 200) := by
  constructor <;> norm_num [saga2CrossRate, saga2MutRate]

end C63

/-! ## C73 -/

section C73

variable {K : Type} [Field K] [LinearOrder K]

/-- C73 for the genetic algorithm. -/
theorem C73_ga (cfg : GACfg K) (draws : List (GADraw K)) : (gaOptimize cfg draws).Good := gaOptimize_good cfg draws

/-- C73 for saga1: every genome that is evaluated has the length of the pool, the returned solutions too, and they are evaluated. -/
theorem C73_saga1 (cfg : Saga1Cfg K) (draws : List (GADraw K)) (rates : Rates K) :
    (Prog.strategy fun _ pop => (saga1 cfg draws rates pop).bind fun s => .ret s.pop).Good :=
  strategy_good _ fun n ev pop h => Prog.Sat.bind (saga1_sat cfg draws rates n ev pop h) fun _ hs => hs

/-- C73 for saga2. -/
theorem C73_saga2 (cfg : Saga2Cfg) (draws : List (GADraw ℝ)) (a b : Option ℝ) :
    (Prog.strategy fun _ pop => (saga2 cfg draws a b pop).bind fun s => .ret s.pop).Good :=
  strategy_good _ fun n ev pop h => Prog.Sat.bind (saga2_sat cfg draws a b n ev pop h) fun _ hs => hs

/-- C73 for saga3, whatever parameters `par i` the solutions carry at the start. -/
theorem C73_saga3 (cfg : Saga3Cfg K) (draws : List (Saga3GenDraw K)) (par : Nat → K × K × CrossMethod) :
    (Prog.strategy fun _ pop => (saga3 cfg draws (pop.mapIdx fun i σ => ⟨σ, (par i).1, (par i).2.1, (par i).2.2⟩)).bind fun s =>
      .ret (s.pop.map SagaObj.indiv)).Good := by
  refine strategy_good _ fun n ev pop h => Prog.Sat.bind (saga3_sat cfg (fun _ => True) (fun _ => trivial) ev n draws _ ?_) fun s hs => ?_
  · intro o ho
    obtain ⟨i, hi, rfl⟩ := List.mem_mapIdx.mp ho
    exact ⟨trivial, trivial, h _ (List.getElem_mem hi)⟩
  · intro σ hσ
    obtain ⟨o, ho, rfl⟩ := List.mem_map.mp hσ
    exact (hs.1 o ho).2.2

end C73

end Suprb
