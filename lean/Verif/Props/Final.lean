import Verif.Props.Composition
import Verif.Props.Fit

/-!
# Claim C101: the fitted model is the best solution found
-/

set_option autoImplicit false
set_option linter.unusedSectionVars false

namespace Suprb

variable {K : Type} [Field K] [LinearOrder K] [IsStrictOrderedRing K] {d : Nat} {M : Type}

/-- The last event of a completed run is a composition; its elitist is the one that is kept. -/
theorem completed_last (cfg : SupCfg K) (c : SupComp K d M) (entropy : Nat) (raw : RawData K d) (cl : Bool) (st0 : SupState K d M)
    (h : (st0.fit cfg c entropy raw cl).Completed) :
    ∃ pool comp el σ, (st0.fit cfg c entropy raw cl).trace.getLast? = some (.composed pool comp el) ∧ comp.elitist = .ok (some el) ∧
      (st0.fit cfg c entropy raw cl).state.elitist = some (.solution σ) ∧ (c.GoodStrategies → el.genome.length = pool.length) ∧
      (cl = false → σ = { genome := el.genome, pool := pool, st := el.st }) ∧
      (cl = true → cleanup { genome := el.genome, pool := pool, st := el.st } = .ok σ) := by
  obtain ⟨hc, s, el, hrun, hel, ht, hfit, σ, hσ, hσ1, hσ2⟩ := completed_run _ _ _ _ _ _ _ h
  have hlast : s.comp.population = none ∨ ∃ el', s.comp.elitist = .ok (some el') ∧ s.trace.getLast? = some (.composed s.pool s.comp el') := by
    have := runFit_ind cfg c (runEval cfg c raw.X raw.y) entropy raw.X raw.y st0.step
      (fun _ s => s.comp.population = none ∨ ∃ el', s.comp.elitist = .ok (some el') ∧ s.trace.getLast? = some (.composed s.pool s.comp el'))
      (fun o => ∀ s, o = .done s → s.comp.population = none ∨ ∃ el', s.comp.elitist = .ok (some el') ∧ s.trace.getLast? = some (.composed s.pool s.comp el'))
      (fun _ => .inl rfl) (fun s _ h => .inl (by rw [discoverStep_comp _ _ _ _ _ _ _ _ _ h]; rfl)) (by simp)
      (fun s hs s' h => by cases h; exact hs) (by simp) (by simp) (by simp)
      (by
        intro k rest s s' el hP h _ s'' hs''
        cases hs''
        obtain ⟨s1, s2, _, _, h3, rfl⟩ := h
        exact .inr ⟨el, h3, by simp⟩)
      (by
        intro k rest s s' el hP h _
        obtain ⟨s1, s2, _, _, h3, rfl⟩ := h
        exact .inr ⟨el, h3, by simp⟩)
    exact this s hrun
  refine ⟨s.pool, s.comp, el, σ, ?_, hel, hσ, fun hg => ?_, hσ1, hσ2⟩
  swap
  · exact (((run_lengths cfg c hg (runEval cfg c raw.X raw.y) entropy raw.X raw.y st0.step).2 s hrun).elitist_len el hel).1
  unfold SupState.fit
  rw [ht]
  rcases hlast with h1 | ⟨el', h1, h2⟩
  · obtain ⟨pop, hp, _⟩ := elitist_mem _ _ hel
    rw [h1] at hp; cases hp
  · rw [hel] at h1
    cases h1; exact h2

/-- C101: after a completed fit the model's solution uses the rules of one solution of the last population (or archive), with that solution's recorded values, and no
solution of the last population or archive has a higher fitness. All of them have a fitness. -/
theorem C101_best (cfg : SupCfg K) (c : SupComp K d M) (hg : c.GoodStrategies) (entropy : Nat) (raw : RawData K d) (cl : Bool) (st0 : SupState K d M)
    (h : (st0.fit cfg c entropy raw cl).Completed) :
    ∃ pool comp el σ pop f, (st0.fit cfg c entropy raw cl).trace.getLast? = some (.composed pool comp el) ∧ comp.population = some pop ∧
      (st0.fit cfg c entropy raw cl).state.elitist = some (.solution σ) ∧ σ.subpopulation = .ok (compress pool el.genome) ∧ σ.st = el.st ∧
      el ∈ pop ++ comp.archive.getD [] ∧ HasFitness el f ∧ ∀ x ∈ pop ++ comp.archive.getD [], ∃ g, HasFitness x g ∧ g ≤ f := by
  obtain ⟨pool, comp, el, σ, h1, h2, h3, hlen, h4, h5⟩ := completed_last cfg c entropy raw cl st0 h
  obtain ⟨pop, hp, _, hmem, hle⟩ := elitist_mem _ _ h2
  have hall : ∀ x ∈ pop ++ comp.archive.getD [], ∃ s, x.st = some s := by
    unfold CompState.elitist at h2
    rw [hp] at h2
    cases pop with
    | nil => cases h2
    | cons a rest =>
      dsimp only at h2
      cases hb : fittestIndiv ((a :: rest) ++ comp.archive.getD []) with
      | error e => rw [hb] at h2; cases h2
      | ok b => exact (fittestIndiv_spec _ _ hb).2.2
  obtain ⟨s, hs⟩ := hall el hmem
  have hsub : σ.subpopulation = .ok (compress pool el.genome) ∧ σ.st = el.st := by
    have hb : ({ genome := el.genome, pool := pool, st := el.st } : Solution K d M).subpopulation = .ok (compress pool el.genome) := by
      unfold Solution.subpopulation; rw [if_pos (hlen hg)]
    cases cl with
    | false => rw [h4 rfl]; exact ⟨hb, rfl⟩
    | true =>
      obtain ⟨σ', g1, _, g3, _, _⟩ := C25_cleanup { genome := el.genome, pool := pool, st := el.st } (hlen hg)
      have h5 := h5 rfl
      rw [h5] at g1
      cases g1
      refine ⟨g3.trans hb, ?_⟩
      unfold cleanup at h5
      rw [hb] at h5
      cases h5; rfl
  refine ⟨pool, comp, el, σ, pop, s.fitness, h1, hp, h3, hsub.1, hsub.2, hmem, ⟨s, hs, rfl⟩, fun x hx => ?_⟩
  obtain ⟨t, ht⟩ := hall x hx
  refine ⟨t.fitness, ⟨t, ht, rfl⟩, ?_⟩
  rw [← fitnessD_of_st x t ht, ← fitnessD_of_st el s hs]
  exact hle x hx

/-- The fitness values of all elitists of a run, read from the trace. -/
def ElitistOf (t : List (Event K d M)) (f : K) : Prop := ∃ pool comp el, .composed pool comp el ∈ t ∧ HasFitness el f

/-- C101: with the elitist archive and a fitness of error and complexity only, the fitness of the model's solution is the highest of all elitists of the run. -/
theorem C101_all_iterations (cfg : SupCfg K) (c : SupComp K d M) (hg : c.GoodStrategies) (harch : cfg.useArchive = true)
    (hsf : ∀ m e n n' cx, c.fitness m e n cx = c.fitness m e n' cx) (entropy : Nat) (raw : RawData K d) (cl : Bool) (st0 : SupState K d M)
    (h : (st0.fit cfg c entropy raw cl).Completed) :
    ∃ σ s, (st0.fit cfg c entropy raw cl).state.elitist = some (.solution σ) ∧ σ.st = some s ∧
      ElitistOf (st0.fit cfg c entropy raw cl).trace s.fitness ∧ ∀ f, ElitistOf (st0.fit cfg c entropy raw cl).trace f → f ≤ s.fitness := by
  obtain ⟨pool, comp, el, σ, pop, f, h1, _, h3, _, h5, _, ⟨s, hs, rfl⟩, _⟩ := C101_best cfg c hg entropy raw cl st0 h
  have hmono := C42_monotone cfg c hg harch hsf entropy raw cl st0
  refine ⟨σ, s, h3, h5.trans hs, ⟨pool, comp, el, List.mem_of_getLast? h1, s, hs, rfl⟩, ?_⟩
  rintro f ⟨pool', comp', el', hm, hf⟩
  obtain ⟨init, hinit⟩ := List.getLast?_eq_some_iff.mp h1
  rw [hinit] at hmono hm
  unfold elitistFitness at hmono
  rw [List.filterMap_append, List.pairwise_append] at hmono
  rcases List.mem_append.mp hm with hm | hm
  · have := hmono.2.2 el'.fitnessD (List.mem_filterMap.mpr ⟨_, hm, rfl⟩) el.fitnessD (by simp)
    rw [hf.eq, fitnessD_of_st el s hs] at this
    exact this
  · rw [List.mem_singleton] at hm
    cases hm
    rw [← hf.eq, fitnessD_of_st el s hs]

/-- A completed run of three iterations with rising fitness; the final solution has the fitness of the last. -/
example :
    let r := SupState.fit (demoCfg 3 0 1 (-1) 0) (demoComp fun e _ c => c - e) 7 demoData true {}
    (r.raised = none ∧ r.state.isError = false) ∧ elitistFitness r.trace = [0, 1, 2] ∧
      (match r.state.elitist with | some (.solution σ) => σ.st.map (·.fitness) | _ => none) = some 2 := by
  decide +kernel

end Suprb
