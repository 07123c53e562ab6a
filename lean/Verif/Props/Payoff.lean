import Verif.Props.Undominated

/-!
# Claim C179: more rules only for more accuracy

How error and number of rules of the elitist change between two iterations.
-/

set_option autoImplicit false
set_option linter.unusedSectionVars false

namespace Suprb
open _root_.Spec (Point)

section General

variable {K : Type} [Field K] [LinearOrder K] [IsStrictOrderedRing K] {d : Nat} {M : Type}

/-- An evaluated selection that is not fitter does not dominate a later one. -/
theorem not_dominates (cfg : SupCfg K) (c : SupComp K d M) (hpref : Spec.PrefersBoth (c.fitness cfg.maxGenomeLength) cfg.maxGenomeLength) (X : List (Point K d)) (y : List K)
    (pool pool' : List (Rule K d M)) (hpool : pool <+: pool') (hbound : pool'.length ≤ cfg.maxGenomeLength) (x x' : Indiv K) (hx : x.genome.length = pool.length)
    (hx' : x'.genome.length = pool'.length) (he : Evaluated (runEval cfg c X y pool) x) (he' : Evaluated (runEval cfg c X y pool') x') (hle : x.fitnessD ≤ x'.fitnessD) :
    ∃ t s, x.st = some t ∧ x'.st = some s ∧ ¬ Spec.Dominates t s := by
  obtain ⟨t, v1, v2, v3, v4, v5⟩ := evaluated_values cfg c X y pool x hx he
  obtain ⟨s, u1, u2, u3, u4, u5⟩ := evaluated_values cfg c X y pool' x' hx' he'
  rw [fitnessD_of_st x t v1, fitnessD_of_st x' s u1] at hle
  have k6 := List.count_le_length (a := true) (l := x'.genome)
  have k7 := List.count_le_length (a := true) (l := x.genome)
  have k5 := hpool.length_le
  refine ⟨t, s, v1, u1, ?_⟩
  rintro (⟨k1, k2⟩ | ⟨k1, k2⟩)
  · have := hpref.fewer s.error t.error s.inputSize t.inputSize s.complexity t.complexity v3 k1 k2 (by omega)
    rw [← u5, ← v5] at this
    exact absurd hle (not_le.mpr this)
  · rcases Nat.lt_or_ge s.complexity cfg.maxGenomeLength with hlt | hge
    · have := hpref.accurate s.error t.error s.inputSize t.inputSize s.complexity t.complexity v3 k1 k2 hlt
      rw [← u5, ← v5] at this
      exact absurd hle (not_le.mpr this)
    · rcases Nat.lt_or_ge t.complexity s.complexity with hlt | hge'
      · have := hpref.fewer s.error t.error s.inputSize t.inputSize s.complexity t.complexity v3 k1.le hlt (by omega)
        rw [← u5, ← v5] at this
        exact absurd hle (not_le.mpr this)
      · have heq : pool = pool' := hpool.eq_of_length (by omega)
        subst heq
        have hg1 := all_true_of_count x.genome (by omega)
        have hg2 := all_true_of_count x'.genome (by omega)
        rw [hg1, hx] at v2
        rw [hg2, hx', v2] at u2
        injection u2 with u2
        rw [u2] at k1
        exact lt_irrefl _ k1

theorem pairs_of_pairwise {α : Type} {R : α → α → Prop} (l : List α) (h : l.Pairwise R) (i j : Nat) (hij : i < j) (a b : α) (ha : l[i]? = some a) (hb : l[j]? = some b) : R a b := by
  obtain ⟨hi, rfl⟩ := List.getElem?_eq_some_iff.mp ha
  obtain ⟨hj, rfl⟩ := List.getElem?_eq_some_iff.mp hb
  exact List.pairwise_iff_getElem.mp h i j hi hj hij

/-- C179: during every training with the elitist archive, completed or not, the elitist of a later iteration is not dominated by a solution of any earlier population or archive. In particular, if
the elitist of a later iteration selects more rules than that of an earlier one, its error is smaller, and if its error is larger, it selects fewer rules. For every fitness that prefers fewer rules
and smaller errors. -/
theorem C179_iterations (cfg : SupCfg K) (c : SupComp K d M) (hg : c.GoodStrategies) (harch : cfg.useArchive = true)
    (hsf : ∀ m e n n' cx, c.fitness m e n cx = c.fitness m e n' cx) (hpref : Spec.PrefersBoth (c.fitness cfg.maxGenomeLength) cfg.maxGenomeLength)
    (hdisc : ∀ seed hist el pool X y n rules, c.discover seed hist el pool X y n = .ok rules → rules.length ≤ n) (entropy : Nat) (raw : RawData K d) (cl : Bool) (st0 : SupState K d M)
    (i j : Nat) (hij : i < j) (pool pool' : List (Rule K d M)) (comp comp' : CompState K) (el el' : Indiv K)
    (hi : (st0.fit cfg c entropy raw cl).trace[i]? = some (.composed pool comp el)) (hj : (st0.fit cfg c entropy raw cl).trace[j]? = some (.composed pool' comp' el')) :
    ∃ t s, el.st = some t ∧ el'.st = some s ∧ (t.complexity < s.complexity → s.error < t.error) ∧ (t.error < s.error → s.complexity < t.complexity) ∧
      ∀ x ∈ comp.population.getD [] ++ comp.archive.getD [], ∃ u, x.st = some u ∧ ¬ Spec.Dominates u s := by
  have hev : ∀ e ∈ (st0.fit cfg c entropy raw cl).trace, e.ComposedOk (runEval cfg c raw.X raw.y) := by
    unfold SupState.fit
    exact trace_of_run cfg c (runEval cfg c) entropy raw cl st0 (fun t => ∀ e ∈ t, e.ComposedOk (runEval cfg c raw.X raw.y)) (by simp) (run_composedOk cfg c hg _ _ _ _ _)
  have hbound : pool'.length ≤ cfg.maxGenomeLength := (C49_bounded cfg c hdisc entropy raw cl st0).2.2 _ (List.mem_of_getElem? hj)
  have hprefix : pool <+: pool' := by
    have hp := (C49_append_only cfg c entropy raw st0 cl).1
    rw [List.pairwise_map] at hp
    exact pairs_of_pairwise _ hp i j hij _ _ hi hj
  have hmono : el.fitnessD ≤ el'.fitnessD := by
    have hm := C42_monotone cfg c hg harch hsf entropy raw cl st0
    unfold elitistFitness at hm
    rw [List.pairwise_filterMap] at hm
    exact pairs_of_pairwise _ hm i j hij _ _ hi hj _ rfl _ rfl
  obtain ⟨hok, his⟩ := hev _ (List.mem_of_getElem? hi)
  obtain ⟨hok', his'⟩ := hev _ (List.mem_of_getElem? hj)
  obtain ⟨hlen, heval⟩ := hok.elitist_len _ his
  obtain ⟨hlen', heval'⟩ := hok'.elitist_len _ his'
  obtain ⟨pop, hpop, _, _, hle⟩ := elitist_mem _ _ his
  obtain ⟨t, s, ht, hs, hnot⟩ := not_dominates cfg c hpref raw.X raw.y pool pool' hprefix hbound el el' hlen hlen' heval heval' hmono
  unfold Spec.Dominates at hnot
  push Not at hnot
  refine ⟨t, s, ht, hs, fun h => ?_, fun h => ?_, fun x hx => ?_⟩
  · by_contra hc
    rcases lt_or_eq_of_le (not_lt.mp hc) with h' | h'
    · exact absurd (hnot.2 h') (by omega)
    · by_cases hcs : t.complexity < s.complexity
      · exact absurd (hnot.1 (not_lt.mp hc)) (by omega)
      · exact hcs h
  · have := hnot.2 h
    omega
  · rw [hpop, Option.getD_some] at hx
    have hx' : x.genome.length = pool.length ∧ Evaluated (runEval cfg c raw.X raw.y pool) x := by
      rcases List.mem_append.mp hx with hm | hm
      · exact ⟨(hok.pop _ hpop).1 _ hm, (hok.pop _ hpop).2 _ hm⟩
      · cases ha : comp.archive with
        | none => rw [ha] at hm; simp at hm
        | some l =>
          rw [ha] at hm
          rcases hok.arch l ha with ⟨rfl, _⟩ | ⟨a, rfl, k1, k2, _⟩
          · simp at hm
          · simp at hm; subst hm; exact ⟨k1, k2⟩
    obtain ⟨u, s2, hu, hs2, hnot2⟩ := not_dominates cfg c hpref raw.X raw.y pool pool' hprefix hbound x el' hx'.1 hlen' hx'.2 heval' ((hle x hx).trans hmono)
    rw [hs] at hs2
    injection hs2 with hs2
    subst hs2
    exact ⟨u, hu, hnot2⟩

end General

/-- C179 for `ComplexityWu` (the default, `alpha` not 0) and `ComplexityEmary` (`alpha` strictly between 0 and 1). -/
theorem C179_complexity {d : Nat} {M : Type} (cfg : SupCfg ℝ) (c : SupComp ℝ d M) (hg : c.GoodStrategies) (harch : cfg.useArchive = true)
    (f : Combine) (alpha : ℝ) (ha : AlphaOk f alpha) (ha' : f = .emary → 0 < alpha ∧ alpha < 1) (hf : c.fitness = complexitySolFitness f alpha)
    (hdisc : ∀ seed hist el pool X y n rules, c.discover seed hist el pool X y n = .ok rules → rules.length ≤ n) (entropy : Nat) (raw : RawData ℝ d) (cl : Bool) (st0 : SupState ℝ d M)
    (i j : Nat) (hij : i < j) (pool pool' : List (Rule ℝ d M)) (comp comp' : CompState ℝ) (el el' : Indiv ℝ)
    (hi : (st0.fit cfg c entropy raw cl).trace[i]? = some (.composed pool comp el)) (hj : (st0.fit cfg c entropy raw cl).trace[j]? = some (.composed pool' comp' el')) :
    ∃ t s, el.st = some t ∧ el'.st = some s ∧ (t.complexity < s.complexity → s.error < t.error) ∧ (t.error < s.error → s.complexity < t.complexity) := by
  obtain ⟨t, s, h1, h2, h3, h4, _⟩ := C179_iterations cfg c hg harch (fun m e n n' cx => by rw [hf]; rfl) (by rw [hf]; exact complexity_prefers f alpha ha ha' _) hdisc entropy raw cl st0
    i j hij pool pool' comp comp' el el' hi hj
  exact ⟨t, s, h1, h2, h3, h4⟩

/-! ### Examples -/

/-- A fitness for which the number of rules counts more than the error; the population is new in every iteration and selects rules in the first iteration only. -/
def shrinkComp : SupComp ℚ 1 ℚ := { demoComp fun e _ c => -e / 100 - c with initDraw := fun seed _ _ => if seed.key = [1] then 0 else 1 }

def shrinkCfg : SupCfg ℚ := { demoCfg 2 0 1 (-1) 0 with comp := ⟨1, false, .random (1 / 2)⟩ }

/-- The elitist of the second iteration is less accurate and selects fewer rules. -/
example :
    let r := SupState.fit shrinkCfg shrinkComp 7 demoData false {}
    (r.trace.filterMap fun e => match e with
        | .composed _ _ el => el.st.map fun (s : SolState ℚ) => (s.error, s.complexity)
        | _ => none) = [(1, 1), (5, 0)] := by
  decide +kernel

example : shrinkComp.GoodStrategies ∧ shrinkCfg.useArchive = true ∧ (∀ m e n n' cx, shrinkComp.fitness m e n cx = shrinkComp.fitness m e n' cx) ∧
    Spec.PrefersBoth (shrinkComp.fitness shrinkCfg.maxGenomeLength) shrinkCfg.maxGenomeLength ∧
    ∀ seed hist el pool X y n rules, shrinkComp.discover seed hist el pool X y n = .ok rules → rules.length ≤ n := by
  refine ⟨fun _ _ => gaOptimize_good _ _, rfl, fun _ _ _ _ _ => rfl, ⟨fun e e' n n' c c' _ h1 h2 _ => ?_, fun e e' n n' c c' _ h1 h2 _ => ?_⟩, ?_⟩
  · have : (c' : ℚ) < c := by exact_mod_cast h2
    show -e / 100 - (c : ℚ) < -e' / 100 - (c' : ℚ)
    linarith
  · have : (c' : ℚ) ≤ c := by exact_mod_cast h2
    show -e / 100 - (c : ℚ) < -e' / 100 - (c' : ℚ)
    linarith
  · intro seed hist el pool X y n rules h
    cases h
    simp

end Suprb
