import Verif.Props.Final
import Verif.Props.Logging

/-!
# Claims C25 and C101 for whole calls of `fit`

The effect of the argument `cleanup` of `fit`, and what the values that the final solution reports say about the predictions of the model.
-/

set_option autoImplicit false
set_option linter.unusedSectionVars false

namespace Suprb
open _root_.Spec (Point)

variable {K : Type} [Field K] [LinearOrder K] [IsStrictOrderedRing K] {d : Nat} {M : Type}

/-- `fit` of a completed run without and with the removal of unused rules. -/
theorem fit_of_done (cfg : SupCfg K) (c : SupComp K d M) (entropy : Nat) (raw : RawData K d) (st0 : SupState K d M) (cl : Bool) (s : RunState K d M)
    (hc : raw.check = .ok (raw.X, raw.y)) (h : runFit cfg c (runEval cfg c raw.X raw.y) entropy raw.X raw.y st0.step = .done s) :
    st0.fit cfg c entropy raw cl = finishFit { st0 with isError := false, elitist := some .placeholder, pool := [], cleaned := false } cl s := by
  unfold SupState.fit SupState.fitWith
  rw [hc]
  dsimp only
  rw [h]

/-- C25: let `fit` complete without removing unused rules. Then it also completes, with the same training steps, if asked to remove them. Without the removal the pool
holds every rule of the run, with it exactly the rules that the final solution selects, in order, all of which the solution then selects. The solution reports the
same values and every batch gets the same predictions. -/
theorem C25_fit (cfg : SupCfg K) (c : SupComp K d M) (hg : c.GoodStrategies) (entropy : Nat) (raw : RawData K d) (st0 : SupState K d M)
    (h : (st0.fit cfg c entropy raw false).Completed) :
    let r := st0.fit cfg c entropy raw false
    let r' := st0.fit cfg c entropy raw true
    r'.Completed ∧ r'.trace = r.trace ∧ ∃ σ σ', r.state.elitist = some (.solution σ) ∧ r'.state.elitist = some (.solution σ') ∧
      σ.pool = r.state.pool ∧ r.trace.getLast?.map Event.pool = some r.state.pool ∧ r.state.cleaned = false ∧
      σ'.pool = r'.state.pool ∧ r'.state.pool = compress r.state.pool σ.genome ∧ σ'.genome = r'.state.pool.map (fun _ => true) ∧ r'.state.cleaned = true ∧
      σ'.st = σ.st ∧ ∀ Xq, r'.state.predict c Xq = r.state.predict c Xq := by
  intro r r'
  obtain ⟨hc, s, el, hrun, hel, _⟩ := completed_run _ _ _ _ _ _ _ h
  obtain ⟨pool, comp, el', σ0, t1, t2, _, tlen, t4, _⟩ := completed_last cfg c entropy raw false st0 h
  have hlen := (((run_lengths cfg c hg (runEval cfg c raw.X raw.y) entropy raw.X raw.y st0.step).2 s hrun).elitist_len el hel).1
  have hr : r = _ := fit_of_done cfg c entropy raw st0 false s hc hrun
  have hr' : r' = _ := fit_of_done cfg c entropy raw st0 true s hc hrun
  have hcomp : r.Completed := h
  have hsub : ({ genome := el.genome, pool := s.pool, st := el.st } : Solution K d M).subpopulation = .ok (compress s.pool el.genome) := by
    unfold Solution.subpopulation; rw [if_pos hlen]
  unfold finishFit at hr hr'
  rw [hel] at hr hr'
  dsimp only at hr hr'
  cases hb : el.clone with
  | error e =>
    rw [hb] at hr
    have := hcomp.1
    rw [hr] at this
    cases this
  | ok b =>
    rw [hb] at hr hr'
    dsimp only at hr hr'
    have hbe : b.genome = el.genome ∧ b.st = el.st := by
      unfold Indiv.clone at hb
      split at hb
      · cases hb
      · injection hb with hb; rw [← hb]; exact ⟨rfl, by simp_all⟩
    rw [hbe.1, hbe.2] at hr hr'
    rw [if_neg (by simp)] at hr
    rw [if_pos rfl] at hr'
    have hcl : cleanup ({ genome := el.genome, pool := s.pool, st := el.st } : Solution K d M) =
        .ok { genome := List.replicate (compress s.pool el.genome).length true, pool := compress s.pool el.genome, st := el.st } := by
      unfold cleanup; rw [hsub]
    rw [hcl] at hr'
    dsimp only at hr'
    obtain ⟨σ'', k1, _, _, _, k5⟩ := C25_cleanup ({ genome := el.genome, pool := s.pool, st := el.st } : Solution K d M) hlen
    rw [hcl] at k1
    injection k1 with k1
    have e1 : r.state.elitist = some (.solution { genome := el.genome, pool := s.pool, st := el.st }) := by rw [hr]
    have e2 : r'.state.elitist = some (.solution { genome := List.replicate (compress s.pool el.genome).length true, pool := compress s.pool el.genome, st := el.st }) := by
      rw [hr']
    have e3 : r.state.pool = s.pool := by rw [hr]
    have e4 : r'.state.pool = compress s.pool el.genome := by rw [hr']
    have e0 : pool = s.pool := by
      have g : r.state.elitist = some (.solution σ0) := by
        obtain ⟨_, _, _, σ1, u1, _, u3, _, u4, _⟩ := completed_last cfg c entropy raw false st0 h
        rw [show (st0.fit cfg c entropy raw false).trace.getLast? = _ from t1] at u1
        cases u1
        rw [t4 rfl, ← u4 rfl]
        exact u3
      rw [e1] at g
      have g2 := t4 rfl
      injection g with g
      injection g with g
      rw [g2] at g
      injection g with _ g _
      exact g.symm
    refine ⟨⟨by rw [hr'], by rw [hr']⟩, by rw [hr, hr'], _, _, e1, e2, e3.symm, ?_, by rw [hr], e4.symm, by rw [e3, e4], ?_, by rw [hr'], rfl, fun Xq => ?_⟩
    · rw [show r.trace.getLast? = _ from t1, e3, ← e0]; rfl
    · rw [e4]; simp
    · unfold SupState.predict
      rw [e1, e2, hr, hr']
      dsimp only
      rw [k1, k5]

/-- C101: after a completed fit the values that the model's solution reports are those of its own predictions on the training data: its error is the larger of their mean squared
error and 1e-4, its complexity the number of rules it selects, its fitness the fitness of these. Here `pred` are the predictions from the stored
results of the rules. If all rules of the pool were fitted on the training data and match one of its samples, they are what `predict` returns for the training data. -/
theorem C101_reported (cfg : SupCfg K) (c : SupComp K d M) (hg : c.GoodStrategies) (entropy : Nat) (raw : RawData K d) (cl : Bool) (st0 : SupState K d M)
    (h : (st0.fit cfg c entropy raw cl).Completed) :
    let r := st0.fit cfg c entropy raw cl
    ∃ σ s pred sub, r.state.elitist = some (.solution σ) ∧ σ.st = some s ∧ σ.predict c.learner c.mix c.filter true raw.X = .ok pred ∧ pred.length = raw.y.length ∧
      σ.subpopulation = .ok sub ∧ s.error = max (meanSqDiff raw.y pred) (1 / 10000) ∧ s.complexity = sub.length ∧
      s.fitness = c.fitness cfg.maxGenomeLength s.error s.inputSize s.complexity ∧
      ∀ ff : RuleFitness K d, (∀ sub sub', c.filter sub = .ok sub' → ∀ ρ ∈ sub', ρ ∈ sub) →
        (∀ ρ ∈ σ.pool, ρ.FittedOn c.learner ff raw.X raw.y ∧ ∃ x ∈ raw.X, ρ.kind.call ρ.bounds x = true) → r.state.predict c raw.X = .ok pred := by
  intro r
  obtain ⟨hraw, s, el, hrun, hel, htr, hfit, σ, hσ, hcl0, hcl1⟩ := completed_run _ _ _ _ _ _ _ h
  have hok := ((run_lengths cfg c hg (runEval cfg c raw.X raw.y) entropy raw.X raw.y st0.step).2 s hrun).elitist_len el hel
  obtain ⟨hlen, st, hst, hev⟩ := hok
  have hck := check_ok raw _ _ hraw
  unfold runEval evalGenome at hev
  split at hev
  · cases hev
  · rename_i τ hτ
    obtain ⟨s1, pred, sub, k1, k2, k3, k4, k5, _, k7, _, _, k10, _⟩ := C24_statistics _ _ _ _ _ _ _ _ hτ
    rw [k1] at hev
    injection hev with hev
    subst hev
    have hpr : σ.st = some s1 ∧ σ.predict c.learner c.mix c.filter true raw.X = .ok pred ∧ σ.subpopulation = .ok sub := by
      cases cl with
      | false => rw [hcl0 rfl]; exact ⟨hst, k2, k3⟩
      | true =>
        have h7 := hcl1 rfl
        obtain ⟨σ', h8, _, h10, _, h9⟩ := C25_cleanup ({ genome := el.genome, pool := s.pool, st := el.st } : Solution K d M) hlen
        rw [h7] at h8
        cases h8
        refine ⟨?_, by rw [h9]; exact k2, h10.trans k3⟩
        unfold cleanup at h7
        split at h7
        · cases h7
        · cases h7; exact hst
    refine ⟨σ, s1, pred, sub, hσ, hpr.1, hpr.2.1, k4, hpr.2.2, k5, k7, k10, fun ff hfilt hp => ?_⟩
    have hcache := C20_cached_eq_uncached_partial c.learner ff c.mix raw.X raw.y hck.2.2.1.symm c.filter hfilt σ hp
    have hfit' : r.state.isFitted = true := hfit
    have hσ' : r.state.elitist = some (.solution σ) := hσ
    have herr : r.state.isError = false := h.2
    unfold SupState.predict
    rw [hfit', herr, hσ']
    simp only [Bool.true_eq_false, if_false, if_neg hck.2.2.2.1, Bool.false_eq_true]
    rw [← hcache]
    exact hpr.2.1

/-! ### Examples -/

/-- Components that select every second rule. -/
def halfComp : SupComp ℚ 1 ℚ := { demoComp fun e _ _ => -e with initDraw := fun _ _ j => if j % 2 = 0 then 0 else 1 }

/-- A completed run whose final solution selects some of the rules only; with the removal of unused rules the pool is smaller and the predictions are the same. -/
example :
    let r := SupState.fit (demoCfg 2 3 2 (-1) 0) halfComp 7 demoData false {}
    let r' := SupState.fit (demoCfg 2 3 2 (-1) 0) halfComp 7 demoData true {}
    (r.raised = none ∧ r.state.isError = false) ∧ (r.state.pool.length, r'.state.pool.length) = (7, 4) ∧
      r.state.predict halfComp demoData.X = r'.state.predict halfComp demoData.X ∧
      (match r'.state.elitist with | some (.solution σ) => σ.st.map fun (s : SolState ℚ) => (s.error, s.complexity) | _ => none) = some (1, 4) := by
  decide +kernel

example : halfComp.GoodStrategies := fun _ _ => gaOptimize_good _ _

end Suprb
