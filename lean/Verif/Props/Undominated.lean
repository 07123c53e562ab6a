import Verif.Props.FinalReport
import Verif.Props.Run

/-!
# Claim C178: the fitted model is not dominated

No solution of any population or archive of the training is at least as accurate with fewer rules, or more accurate with at most as many rules.
-/

set_option autoImplicit false
set_option linter.unusedSectionVars false

namespace Suprb
open _root_.Spec (Point)

section General

variable {K : Type} [Field K] [LinearOrder K] [IsStrictOrderedRing K] {d : Nat} {M : Type}

/-- `t` is better than `s` in one of error and number of rules and not worse in the other. -/
def Spec.Dominates (t s : SolState K) : Prop := (t.error ≤ s.error ∧ t.complexity < s.complexity) ∨ (t.error < s.error ∧ t.complexity ≤ s.complexity)

/-- A fitness for which fewer rules with at most the same error are better, and a smaller error with at most the same number of rules, up to `m` rules. With all `m` rules the error need not count. -/
structure Spec.PrefersBoth (sf : SolFitness K) (m : Nat) : Prop where
  fewer : ∀ e e' n n' c c', 0 < e' → e' ≤ e → c' < c → c ≤ m → sf e n c < sf e' n' c'
  accurate : ∀ e e' n n' c c', 0 < e' → e' < e → c' ≤ c → c < m → sf e n c < sf e' n' c'

/-- What is known about the end of a composition: population and archive belong to the pool and the elitist is one of the fittest of them. -/
def Event.ComposedOk (ev : PoolEval K d M) : Event K d M → Prop
  | .composed pool result el => CompOk ev pool result ∧ result.elitist = .ok (some el)
  | _ => True

theorem discoverStep_composedOk (cfg : SupCfg K) (c : SupComp K d M) (ev : PoolEval K d M) (entropy : Nat) (X : List (Point K d)) (y : List K) (n : Nat)
    (s s1 : RunState K d M) (r : Option PyErr) (ht : ∀ e ∈ s.trace, e.ComposedOk ev) (h : discoverStep cfg c entropy X y n s = (s1, r)) : ∀ e ∈ s1.trace, e.ComposedOk ev := by
  rcases discoverStep_spec _ _ _ _ _ _ _ _ _ h with ⟨rfl, _⟩ | ⟨el, seed, a1, _, _, ⟨_, _, _, rfl⟩ | ⟨_, _, _, rfl⟩⟩
  · exact ht
  all_goals
    intro e he
    rcases List.mem_append.mp he with he | he
    · exact ht e he
    · rw [List.mem_singleton] at he
      subst he
      trivial

theorem composeStep_composedOk (cfg : SupCfg K) (c : SupComp K d M) (ev : PoolEval K d M) (entropy : Nat)
    (s s1 : RunState K d M) (r : Option PyErr) (ht : ∀ e ∈ s.trace, e.ComposedOk ev) (h : composeStep cfg c ev entropy s = (s1, r)) : ∀ e ∈ s1.trace, e.ComposedOk ev := by
  rcases composeStep_spec _ _ _ _ _ _ _ h with ⟨rfl, _⟩ | ⟨seed, _, ⟨_, _, _, rfl⟩ | ⟨_, _, _, rfl⟩⟩
  · exact ht
  all_goals
    intro e he
    rcases List.mem_append.mp he with he | he
    · exact ht e he
    · rw [List.mem_singleton] at he
      subst he
      trivial

theorem run_composedOk (cfg : SupCfg K) (c : SupComp K d M) (hg : c.GoodStrategies) (ev : PoolEval K d M) (entropy : Nat)
    (X : List (Point K d)) (y : List K) (step0 : Nat) : ∀ e ∈ (runFit cfg c ev entropy X y step0).state.trace, e.ComposedOk ev := by
  refine runFit_ind cfg c ev entropy X y step0
    (fun _ s => CompOk ev s.pool s.comp ∧ ∀ e ∈ s.trace, e.ComposedOk ev)
    (fun o => ∀ e ∈ o.state.trace, e.ComposedOk ev) ?_ ?_ ?_ ?_ ?_ ?_ ?_ ?_ ?_
  · intro _
    exact ⟨startState_ok _ _ _ _, by simp [startState]⟩
  · intro s _ h
    refine ⟨?_, discoverStep_composedOk cfg c ev _ _ _ _ _ _ _ (by simp [startState]) h⟩
    rw [discoverStep_comp _ _ _ _ _ _ _ _ _ h]
    exact startState_ok _ _ _ _
  · intro s e _ h
    exact discoverStep_composedOk cfg c ev _ _ _ _ _ _ _ (by simp [startState]) h
  · rintro s ⟨h1, h2⟩
    exact h2
  · rintro k rest s s1 e ⟨h1, h2⟩ h
    exact discoverStep_composedOk cfg c ev _ _ _ _ { s with step := k } _ _ h2 h
  · rintro k rest s s1 s2 e ⟨h1, h2⟩ h h'
    exact composeStep_composedOk cfg c ev _ _ _ _ (discoverStep_composedOk cfg c ev _ _ _ _ { s with step := k } _ _ h2 h) h'
  · rintro k rest s s1 s2 e ⟨h1, h2⟩ h h' _
    exact composeStep_composedOk cfg c ev _ _ _ _ (discoverStep_composedOk cfg c ev _ _ _ _ { s with step := k } _ _ h2 h) h'
  all_goals
    rintro k rest s s' el ⟨h1, h2⟩ h _
    have hok := iteration_compOk cfg c hg ev entropy X y k s s' el s.pool h1 h
    obtain ⟨el0, seed, seed', rules, comp, _, a1, _, _, _, _, a2, rfl⟩ := iteration_spec _ _ _ _ _ _ _ _ _ _ h
    have hev : ∀ e ∈ s.trace ++ [Event.discover seed el0 s.pool cfg.nRules, .compose seed' (s.pool ++ rules) s.comp,
        .composed (s.pool ++ rules) comp el], e.ComposedOk ev := by
      intro e he
      simp only [List.mem_append, List.mem_cons, List.not_mem_nil, or_false] at he
      rcases he with he | rfl | rfl | rfl
      · exact h2 e he
      · trivial
      · trivial
      · exact ⟨hok, a2⟩
    first
      | exact hev
      | exact ⟨hok, hev⟩

/-- What the evaluation of a selection records. -/
theorem evaluated_values (cfg : SupCfg K) (c : SupComp K d M) (X : List (Point K d)) (y : List K) (pool : List (Rule K d M)) (x : Indiv K) (hlen : x.genome.length = pool.length)
    (h : Evaluated (runEval cfg c X y pool) x) :
    ∃ t, x.st = some t ∧ runEval cfg c X y pool x.genome = .ok t ∧ 0 < t.error ∧ t.complexity = x.genome.count true ∧
      t.fitness = c.fitness cfg.maxGenomeLength t.error t.inputSize t.complexity := by
  obtain ⟨t, ht, hev⟩ := h
  have hev0 := hev
  unfold runEval evalGenome at hev
  split at hev
  · cases hev
  · rename_i τ hτ
    obtain ⟨s1, pred, sub, k1, _, k3, _, _, k6, k7, _, _, k10, _⟩ := C24_statistics _ _ _ _ _ _ _ _ hτ
    rw [k1] at hev
    injection hev with hev
    subst hev
    refine ⟨_, ht, hev0, k6, ?_, k10⟩
    unfold Solution.subpopulation at k3
    dsimp only at k3
    rw [if_pos hlen] at k3
    injection k3 with k3
    rw [k7, ← k3, length_compress _ _ hlen.symm]

theorem all_true_of_count (g : List Bool) (h : g.length ≤ g.count true) : g = List.replicate g.length true := by
  induction g with
  | nil => rfl
  | cons b g ih =>
    cases b with
    | true =>
      rw [List.length_cons, List.count_cons_self] at h
      rw [List.length_cons, List.replicate_succ, ← ih (by omega)]
    | false =>
      rw [List.length_cons, List.count_cons_of_ne (by simp)] at h
      have := List.count_le_length (a := true) (l := g)
      omega

/-- C178: after a completed fit with the elitist archive no solution of any population or archive of the training dominates the solution of the model, for every fitness that prefers fewer rules and
smaller errors. -/
theorem C178_undominated (cfg : SupCfg K) (c : SupComp K d M) (hg : c.GoodStrategies) (harch : cfg.useArchive = true)
    (hsf : ∀ m e n n' cx, c.fitness m e n cx = c.fitness m e n' cx) (hpref : Spec.PrefersBoth (c.fitness cfg.maxGenomeLength) cfg.maxGenomeLength)
    (hdisc : ∀ seed hist el pool X y n rules, c.discover seed hist el pool X y n = .ok rules → rules.length ≤ n) (entropy : Nat) (raw : RawData K d) (cl : Bool) (st0 : SupState K d M)
    (h : (st0.fit cfg c entropy raw cl).Completed) :
    let r := st0.fit cfg c entropy raw cl
    ∃ σ s, r.state.elitist = some (.solution σ) ∧ σ.st = some s ∧
      ∀ pool comp el, .composed pool comp el ∈ r.trace → ∀ x ∈ comp.population.getD [] ++ comp.archive.getD [], ∃ t, x.st = some t ∧ ¬ Spec.Dominates t s := by
  intro r
  obtain ⟨poolF, compF, elF, σ, pop, f, h1, _, h3, _, h5, _, _, _⟩ := C101_best cfg c hg entropy raw cl st0 h
  obtain ⟨σ', s, g1, g2, _, g4⟩ := C101_all_iterations cfg c hg harch hsf entropy raw cl st0 h
  rw [h3] at g1
  cases g1
  have hev : ∀ e ∈ r.trace, e.ComposedOk (runEval cfg c raw.X raw.y) := by
    show ∀ e ∈ (st0.fit cfg c entropy raw cl).trace, _
    unfold SupState.fit
    exact trace_of_run cfg c (runEval cfg c) entropy raw cl st0 (fun t => ∀ e ∈ t, e.ComposedOk (runEval cfg c raw.X raw.y)) (by simp) (run_composedOk cfg c hg _ _ _ _ _)
  have hbound := (C49_bounded cfg c hdisc entropy raw cl st0).2.2
  have hprefix : ∀ e ∈ r.trace, e.pool <+: poolF := by
    have hp := (C49_append_only cfg c entropy raw st0 cl).1
    obtain ⟨init, hinit⟩ := List.getLast?_eq_some_iff.mp h1
    intro e he
    rw [show r.trace = _ from hinit] at he
    rw [hinit, List.map_append, List.pairwise_append] at hp
    rcases List.mem_append.mp he with he | he
    · exact hp.2.2 _ (List.mem_map_of_mem he) poolF (by simp [Event.pool])
    · rw [List.mem_singleton] at he
      subst he
      exact List.prefix_refl _
  obtain ⟨hokF, hisF⟩ := hev _ (List.mem_of_getLast? h1)
  obtain ⟨hlenF, hevF⟩ := hokF.elitist_len _ hisF
  obtain ⟨s', u1, u2, u3, u4, u5⟩ := evaluated_values cfg c raw.X raw.y poolF elF hlenF hevF
  rw [h5, u1] at g2
  injection g2 with g2
  subst g2
  refine ⟨σ, s', h3, h5.trans u1, fun pool comp el he x hx => ?_⟩
  obtain ⟨hok, his⟩ := hev _ he
  obtain ⟨pop', hpop', _, _, hle⟩ := elitist_mem _ _ his
  rw [hpop', Option.getD_some] at hx
  have hx' : x.genome.length = pool.length ∧ Evaluated (runEval cfg c raw.X raw.y pool) x := by
    rcases List.mem_append.mp hx with hm | hm
    · exact ⟨(hok.pop _ hpop').1 _ hm, (hok.pop _ hpop').2 _ hm⟩
    · cases ha : comp.archive with
      | none => rw [ha] at hm; simp at hm
      | some l =>
        rw [ha] at hm
        rcases hok.arch l ha with ⟨rfl, _⟩ | ⟨a, rfl, k1, k2, _⟩
        · simp at hm
        · simp at hm; subst hm; exact ⟨k1, k2⟩
  obtain ⟨t, v1, v2, v3, v4, v5⟩ := evaluated_values cfg c raw.X raw.y pool x hx'.1 hx'.2
  obtain ⟨w, w1, _⟩ := (hok.elitist_len _ his).2
  have hfit : t.fitness ≤ s'.fitness := by
    have k1 := hle x hx
    rw [fitnessD_of_st x t v1, fitnessD_of_st el w w1] at k1
    exact k1.trans (g4 w.fitness ⟨pool, comp, el, he, w, w1, rfl⟩)
  have hcF : s'.complexity ≤ cfg.maxGenomeLength := by
    have k1 := hbound _ (List.mem_of_getLast? h1)
    have k2 := List.count_le_length (a := true) (l := elF.genome)
    have k3 : poolF.length ≤ cfg.maxGenomeLength := k1
    omega
  refine ⟨t, v1, ?_⟩
  rintro (⟨k1, k2⟩ | ⟨k1, k2⟩)
  · have := hpref.fewer s'.error t.error s'.inputSize t.inputSize s'.complexity t.complexity v3 k1 k2 hcF
    rw [← u5, ← v5] at this
    exact absurd hfit (not_le.mpr this)
  · rcases Nat.lt_or_ge s'.complexity cfg.maxGenomeLength with hlt | hge
    · have := hpref.accurate s'.error t.error s'.inputSize t.inputSize s'.complexity t.complexity v3 k1 k2 hlt
      rw [← u5, ← v5] at this
      exact absurd hfit (not_le.mpr this)
    · rcases Nat.lt_or_ge t.complexity s'.complexity with hlt | hge'
      · have := hpref.fewer s'.error t.error s'.inputSize t.inputSize s'.complexity t.complexity v3 k1.le hlt hcF
        rw [← u5, ← v5] at this
        exact absurd hfit (not_le.mpr this)
      · have k3 : poolF.length ≤ cfg.maxGenomeLength := hbound _ (List.mem_of_getLast? h1)
        have k4 : pool <+: poolF := hprefix _ he
        have k5 := k4.length_le
        have k6 := List.count_le_length (a := true) (l := elF.genome)
        have k7 := List.count_le_length (a := true) (l := x.genome)
        have hpool : pool = poolF := k4.eq_of_length (by omega)
        subst hpool
        have hg1 := all_true_of_count x.genome (by omega)
        have hg2 := all_true_of_count elF.genome (by omega)
        rw [hg1, hx'.1] at v2
        rw [hg2, hlenF, v2] at u2
        injection u2 with u2
        rw [u2] at k1
        exact lt_irrefl _ k1

end General

/-- The complexity based fitnesses prefer fewer rules and smaller errors if both count: `alpha` strictly between 0 and 1 for `ComplexityEmary`, not 0 for `ComplexityWu`. -/
theorem complexity_prefers (f : Combine) (alpha : ℝ) (ha : AlphaOk f alpha) (ha' : f = .emary → 0 < alpha ∧ alpha < 1) (m : Nat) : Spec.PrefersBoth (complexitySolFitness f alpha m) m := by
  have key : ∀ (e : ℝ) (n c : Nat), 0 < m → 0 < e → c ≤ m → complexitySolFitness f alpha m e n c =
      100 * (match f with
        | .emary => alpha * Real.exp (-2 * e) + (1 - alpha) * (1 - (c : ℝ) / m)
        | .wu => ((1 + alpha ^ 2) * Real.exp (-2 * e) * (1 - (c : ℝ) / m)) / (alpha ^ 2 * Real.exp (-2 * e) + (1 - (c : ℝ) / m))) := by
    intro e n c hm he hc
    have hx := Real.exp_pos (-2 * e)
    have hr := cNorm_range m c hm hc
    unfold complexitySolFitness
    rw [complexityFitness_eq f alpha m hm]
    cases f with
    | emary => simp only [Combine.apply, emary, Option.map_some]; ring
    | wu =>
      have h2 : 0 < alpha ^ 2 := by have := show alpha ≠ 0 from ha; positivity
      have hd : 0 < alpha ^ 2 * Real.exp (-2 * e) + (1 - (c : ℝ) / m) := by nlinarith [mul_pos h2 hx]
      simp only [Combine.apply, wu, if_neg hd.ne', Option.map_some]
      ring
  have hexp : ∀ e e' : ℝ, e' ≤ e → Real.exp (-2 * e) ≤ Real.exp (-2 * e') := fun e e' h => Real.exp_le_exp.mpr (by linarith)
  have hexp' : ∀ e e' : ℝ, e' < e → Real.exp (-2 * e) < Real.exp (-2 * e') := fun e e' h => Real.exp_lt_exp.mpr (by linarith)
  -- the combination in terms of both objectives
  have wuLe : ∀ x x' z z' : ℝ, 0 < alpha ^ 2 → 0 < x → x ≤ x' → 0 ≤ z → z ≤ z' → (x < x' ∧ 0 < z ∨ z < z') →
      ((1 + alpha ^ 2) * x * z) / (alpha ^ 2 * x + z) < ((1 + alpha ^ 2) * x' * z') / (alpha ^ 2 * x' + z') := by
    intro x x' z z' h2 hx hxx hz hzz hs
    have hd : 0 < alpha ^ 2 * x + z := by nlinarith [mul_pos h2 hx]
    have hd' : 0 < alpha ^ 2 * x' + z' := by nlinarith [mul_pos h2 (hx.trans_le hxx)]
    rw [div_lt_div_iff₀ hd hd']
    have e1 : (1 + alpha ^ 2) * x' * z' * (alpha ^ 2 * x + z) - (1 + alpha ^ 2) * x * z * (alpha ^ 2 * x' + z') =
        (1 + alpha ^ 2) * (alpha ^ 2 * (x * x') * (z' - z) + z * z' * (x' - x)) := by ring
    have p1 : 0 ≤ alpha ^ 2 * (x * x') * (z' - z) := by
      have := mul_pos hx (hx.trans_le hxx)
      exact mul_nonneg (mul_pos h2 this).le (by linarith)
    have p2 : 0 ≤ z * z' * (x' - x) := mul_nonneg (mul_nonneg hz (hz.trans hzz)) (by linarith)
    have p3 : 0 < alpha ^ 2 * (x * x') * (z' - z) + z * z' * (x' - x) := by
      rcases hs with ⟨hs, hz0⟩ | hs
      · have : 0 < z * z' * (x' - x) := mul_pos (mul_pos hz0 (hz0.trans_le hzz)) (by linarith)
        linarith
      · have : 0 < alpha ^ 2 * (x * x') * (z' - z) := mul_pos (mul_pos h2 (mul_pos hx (hx.trans_le hxx))) (by linarith)
        linarith
    have := mul_pos (show (0 : ℝ) < 1 + alpha ^ 2 by linarith) p3
    linarith
  have hdiv : ∀ c c' : Nat, 0 < m → c' ≤ c → 1 - (c : ℝ) / m ≤ 1 - (c' : ℝ) / m := by
    intro c c' hm h
    have hm' : (0 : ℝ) < m := by exact_mod_cast hm
    have : (c' : ℝ) / m ≤ (c : ℝ) / m := by rw [div_le_div_iff_of_pos_right hm']; exact_mod_cast h
    linarith
  have hdiv' : ∀ c c' : Nat, 0 < m → c' < c → 1 - (c : ℝ) / m < 1 - (c' : ℝ) / m := by
    intro c c' hm h
    have hm' : (0 : ℝ) < m := by exact_mod_cast hm
    have : (c' : ℝ) / m < (c : ℝ) / m := by rw [div_lt_div_iff_of_pos_right hm']; exact_mod_cast h
    linarith
  constructor
  · intro e e' n n' c c' he' hle hlt hc
    have hm : 0 < m := by omega
    rw [key e n c hm (he'.trans_le hle) hc, key e' n' c' hm he' (by omega)]
    refine mul_lt_mul_of_pos_left ?_ (by norm_num)
    have h1 := hexp _ _ hle
    have h2 := hdiv' c c' hm hlt
    cases f with
    | emary =>
      obtain ⟨ha0, ha1⟩ := ha' rfl
      dsimp only
      have := mul_le_mul_of_nonneg_left h1 ha0.le
      have := mul_lt_mul_of_pos_left h2 (show 0 < 1 - alpha by linarith)
      linarith
    | wu =>
      have ha2 : 0 < alpha ^ 2 := by have := show alpha ≠ 0 from ha; positivity
      exact wuLe _ _ _ _ ha2 (Real.exp_pos _) h1 (cNorm_range m c hm hc).1 h2.le (.inr h2)
  · intro e e' n n' c c' he' hlt hle hc
    have hm : 0 < m := by omega
    rw [key e n c hm (he'.trans hlt) hc.le, key e' n' c' hm he' (by omega)]
    refine mul_lt_mul_of_pos_left ?_ (by norm_num)
    have h1 := hexp' _ _ hlt
    have h2 := hdiv c c' hm hle
    cases f with
    | emary =>
      obtain ⟨ha0, ha1⟩ := ha' rfl
      dsimp only
      have := mul_lt_mul_of_pos_left h1 ha0
      have := mul_le_mul_of_nonneg_left h2 (show 0 ≤ 1 - alpha by linarith)
      linarith
    | wu =>
      have ha2 : 0 < alpha ^ 2 := by have := show alpha ≠ 0 from ha; positivity
      have h3 := hdiv' m c hm hc
      have hm' : (m : ℝ) ≠ 0 := by exact_mod_cast hm.ne'
      rw [div_self hm', sub_self] at h3
      exact wuLe _ _ _ _ ha2 (Real.exp_pos _) h1.le (cNorm_range m c hm hc.le).1 h2 (.inl ⟨h1, h3⟩)

/-- C178 for `ComplexityWu` (the default, `alpha` not 0) and `ComplexityEmary` (`alpha` strictly between 0 and 1). -/
theorem C178_complexity {d : Nat} {M : Type} (cfg : SupCfg ℝ) (c : SupComp ℝ d M) (hg : c.GoodStrategies) (harch : cfg.useArchive = true)
    (f : Combine) (alpha : ℝ) (ha : AlphaOk f alpha) (ha' : f = .emary → 0 < alpha ∧ alpha < 1) (hf : c.fitness = complexitySolFitness f alpha)
    (hdisc : ∀ seed hist el pool X y n rules, c.discover seed hist el pool X y n = .ok rules → rules.length ≤ n) (entropy : Nat) (raw : RawData ℝ d) (cl : Bool) (st0 : SupState ℝ d M)
    (h : (st0.fit cfg c entropy raw cl).Completed) :
    let r := st0.fit cfg c entropy raw cl
    ∃ σ s, r.state.elitist = some (.solution σ) ∧ σ.st = some s ∧
      ∀ pool comp el, .composed pool comp el ∈ r.trace → ∀ x ∈ comp.population.getD [] ++ comp.archive.getD [], ∃ t, x.st = some t ∧
        ¬ ((t.error ≤ s.error ∧ t.complexity < s.complexity) ∨ (t.error < s.error ∧ t.complexity ≤ s.complexity)) :=
  C178_undominated cfg c hg harch (fun m e n n' cx => by rw [hf]; rfl) (by rw [hf]; exact complexity_prefers f alpha ha ha' _) hdisc entropy raw cl st0 h

/-! ### Examples -/

/-- Two solutions in the population: the first selects all rules, the second none. -/
def mixedComp : SupComp ℚ 1 ℚ := { demoComp fun e _ c => -e - c / 10 with initDraw := fun _ i _ => if i = 0 then 0 else 1 }

def mixedCfg : SupCfg ℚ := { demoCfg 2 0 1 (-1) 0 with comp := ⟨2, true, .random (1 / 2)⟩ }

/-- The hypotheses of `C178_undominated` hold; the completed run has solutions with different errors and numbers of rules. -/
example : mixedComp.GoodStrategies ∧ mixedCfg.useArchive = true ∧ (∀ m e n n' cx, mixedComp.fitness m e n cx = mixedComp.fitness m e n' cx) ∧
    Spec.PrefersBoth (mixedComp.fitness mixedCfg.maxGenomeLength) mixedCfg.maxGenomeLength ∧
    ∀ seed hist el pool X y n rules, mixedComp.discover seed hist el pool X y n = .ok rules → rules.length ≤ n := by
  refine ⟨fun _ _ => gaOptimize_good _ _, rfl, fun _ _ _ _ _ => rfl, ⟨fun e e' n n' c c' _ h1 h2 _ => ?_, fun e e' n n' c c' _ h1 h2 _ => ?_⟩, ?_⟩
  · have : (c' : ℚ) < c := by exact_mod_cast h2
    show -e - (c : ℚ) / 10 < -e' - (c' : ℚ) / 10
    linarith
  · have : (c' : ℚ) ≤ c := by exact_mod_cast h2
    show -e - (c : ℚ) / 10 < -e' - (c' : ℚ) / 10
    linarith
  · intro seed hist el pool X y n rules h
    cases h
    simp

example :
    let r := SupState.fit mixedCfg mixedComp 7 demoData false {}
    (r.raised = none ∧ r.state.isError = false) ∧
      (r.trace.filterMap fun e => match e with
        | .composed _ comp _ => some ((comp.population.getD [] ++ comp.archive.getD []).map fun x => x.st.map fun (s : SolState ℚ) => (s.error, s.complexity))
        | _ => none) = [[some (1, 1), some (5, 0), some (1, 1)], [some (1, 2), some (5, 0), some (1, 1)]] := by
  decide +kernel

/-- The default weight of `ComplexityWu` and of `ComplexityEmary`. -/
example : AlphaOk .wu 0.3 ∧ AlphaOk .emary 0.85 ∧ (Combine.emary = .emary → (0 : ℝ) < 0.85 ∧ (0.85 : ℝ) < 1) := by
  refine ⟨?_, ?_, fun _ => ?_⟩
  · show (0.3 : ℝ) ≠ 0; norm_num
  · show (0 : ℝ) ≤ 0.85 ∧ (0.85 : ℝ) ≤ 1; norm_num
  · norm_num

end Suprb
