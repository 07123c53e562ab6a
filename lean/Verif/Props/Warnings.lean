import Verif.Model.Warnings
import Verif.Props.Fit

/-!
# Claim C184: the warning about an empty population
-/

set_option autoImplicit false
set_option linter.unusedSectionVars false

namespace Suprb

open Spec

variable {K : Type} [Field K] [LinearOrder K] [IsStrictOrderedRing K] {d : Nat} {M : Type}

/-- Specification: the sizes of the pool in the calls of solution composition that a training made. -/
def Spec.composedSizes (t : List (Event K d M)) : List Nat := t.filterMap fun
  | .compose _ pool _ => some pool.length
  | _ => none

/-- Specification: a call of solution composition, with the warning before it if and only if there are no rules. -/
def Spec.warnedCall (n : Nat) : List Mark := if n = 0 then [.warning, .composition n] else [.composition n]

theorem composedSizes_append (t u : List (Event K d M)) : Spec.composedSizes (t ++ u) = Spec.composedSizes t ++ Spec.composedSizes u := List.filterMap_append

theorem discoverStep_sizes (cfg : SupCfg K) (c : SupComp K d M) (entropy : Nat) (X : List (Point K d)) (y : List K) (n : Nat) (s : RunState K d M) :
    Spec.composedSizes (discoverStep cfg c entropy X y n s).1.trace = Spec.composedSizes s.trace ∧ (discoverStep cfg c entropy X y n s).1.step = s.step ∧
      s.pool.length ≤ (discoverStep cfg c entropy X y n s).1.pool.length := by
  unfold discoverStep
  split
  · exact ⟨rfl, rfl, le_refl _⟩
  split
  · exact ⟨rfl, rfl, le_refl _⟩
  split
  · exact ⟨rfl, rfl, le_refl _⟩
  dsimp only
  split
  · exact ⟨by rw [composedSizes_append]; simp [Spec.composedSizes], rfl, le_refl _⟩
  · exact ⟨by dsimp only; rw [composedSizes_append]; simp [Spec.composedSizes], rfl, by simp⟩

theorem composeStep_sizes (cfg : SupCfg K) (c : SupComp K d M) (ev : PoolEval K d M) (entropy : Nat) (s : RunState K d M) (hs : ((compositionSeeds entropy cfg.nIter)[s.step]?).isSome) :
    Spec.composedSizes (composeStep cfg c ev entropy s).1.trace = Spec.composedSizes s.trace ++ [s.pool.length] ∧ (composeStep cfg c ev entropy s).1.pool = s.pool := by
  unfold composeStep
  obtain ⟨seed, hs⟩ := Option.isSome_iff_exists.mp hs
  rw [hs]
  dsimp only
  split
  · exact ⟨by rw [composedSizes_append]; simp [Spec.composedSizes], rfl⟩
  · exact ⟨by dsimp only; rw [composedSizes_append]; simp [Spec.composedSizes], rfl⟩

theorem warn_call (cfg : SupCfg K) (entropy : Nat) (s : RunState K d M) (hs : ((compositionSeeds entropy cfg.nIter)[s.step]?).isSome) :
    warnEmpty s ++ callMark cfg entropy s = Spec.warnedCall s.pool.length := by
  unfold warnEmpty callMark Spec.warnedCall
  rw [if_pos hs]
  cases s.pool with
  | nil => rfl
  | cons a l => simp

theorem loopMarks_spec (cfg : SupCfg K) (c : SupComp K d M) (ev : PoolEval K d M) (entropy : Nat) (X : List (Point K d)) (y : List K) :
    ∀ (ks : List Nat) (s : RunState K d M), (∀ k ∈ ks, ((compositionSeeds entropy cfg.nIter)[k]?).isSome) →
      (loopMarks cfg c ev entropy X y ks s).1 = fitLoop cfg c ev entropy X y ks s ∧
      ∃ sizes, (loopMarks cfg c ev entropy X y ks s).2 = sizes.flatMap Spec.warnedCall ∧
        Spec.composedSizes (fitLoop cfg c ev entropy X y ks s).state.trace = Spec.composedSizes s.trace ++ sizes ∧ (s.pool.length :: sizes).Pairwise (· ≤ ·) := by
  intro ks
  induction ks with
  | nil => intro s _; exact ⟨rfl, [], rfl, by simp [fitLoop, Outcome.state], List.pairwise_singleton _ _⟩
  | cons k rest ih =>
    intro s hks
    have hk := discoverStep_sizes cfg c entropy X y cfg.nRules { s with step := k }
    unfold loopMarks fitLoop
    cases hd : discoverStep cfg c entropy X y cfg.nRules { s with step := k } with
    | mk s1 x =>
      rw [hd] at hk
      obtain ⟨k1, k2, k3⟩ := hk
      dsimp only at k1 k2 k3
      cases x with
      | some e => exact ⟨rfl, [], rfl, by dsimp only [Outcome.state]; rw [k1]; simp, List.pairwise_singleton _ _⟩
      | none =>
        have hseed : ((compositionSeeds entropy cfg.nIter)[s1.step]?).isSome := by rw [k2]; exact hks k List.mem_cons_self
        have hc := composeStep_sizes cfg c ev entropy s1 hseed
        have hone : (s.pool.length :: [s1.pool.length]).Pairwise (· ≤ ·) := List.pairwise_pair.mpr k3
        have hw : [s1.pool.length].flatMap Spec.warnedCall = Spec.warnedCall s1.pool.length := by simp
        dsimp only
        rw [warn_call cfg entropy s1 hseed]
        cases hd2 : composeStep cfg c ev entropy s1 with
        | mk s2 x2 =>
          rw [hd2] at hc
          obtain ⟨c1, c2⟩ := hc
          dsimp only at c1 c2
          rw [k1] at c1
          cases x2 with
          | some e => exact ⟨rfl, _, hw.symm, c1, hone⟩
          | none =>
            dsimp only
            cases he : s2.comp.elitist with
            | error e => exact ⟨rfl, _, hw.symm, c1, hone⟩
            | ok o =>
              cases o with
              | none => exact ⟨rfl, _, hw.symm, c1, hone⟩
              | some el =>
                have ht : ∀ (p : List (Rule K d M)) (cs : CompState K), Spec.composedSizes (s2.trace ++ [.composed p cs el]) = Spec.composedSizes s.trace ++ [s1.pool.length] := by
                  intro p cs
                  rw [composedSizes_append, c1]
                  simp [Spec.composedSizes]
                dsimp only
                split
                · exact ⟨rfl, _, hw.symm, ht _ _, hone⟩
                · obtain ⟨h1, sizes, h2, h3, h4⟩ := ih { s2 with
                    counter := (checkEarlyStopping cfg el.fitnessD s2.counter).1
                    trace := s2.trace ++ [.composed s2.pool s2.comp el] } fun j hj => hks j (List.mem_cons_of_mem _ hj)
                  refine ⟨h1, s1.pool.length :: sizes, ?_, ?_, ?_⟩
                  · rw [List.flatMap_cons, h2]
                  · rw [h3]
                    dsimp only
                    rw [ht]
                    simp
                  · dsimp only at h4
                    rw [c2] at h4
                    refine List.pairwise_cons.mpr ⟨fun n hn => ?_, h4⟩
                    rcases List.mem_cons.mp hn with rfl | hn
                    · exact k3
                    · exact k3.trans ((List.pairwise_cons.mp h4).1 n hn)

/-- C184 (partial): the warning appears exactly when there are no rules. The training is the one without the warnings. The warnings and calls are: at most one warning after the initial rules (only if the pool is empty then), and for every call of
solution composition the warning just before it if the pool is empty, none otherwise; as the pool never shrinks, there is no warning after the first rule was found. For all components, settings and data, also for failing trainings. Missing: that
composition is skipped, see `C184_refuted`. -/
theorem C184_exact_partial (cfg : SupCfg K) (c : SupComp K d M) (ev : PoolEval K d M) (entropy : Nat) (X : List (Point K d)) (y : List K) (step0 : Nat) :
    let r := runMarks cfg c ev entropy X y step0
    let sizes := Spec.composedSizes r.1.state.trace
    r.1 = runFit cfg c ev entropy X y step0 ∧ sizes.Pairwise (· ≤ ·) ∧
      ∃ first, r.2 = first ++ sizes.flatMap Spec.warnedCall ∧ (first = [] ∨ first = [.warning] ∧ 0 < cfg.nInitial) := by
  intro r sizes
  have hseeds : ∀ k ∈ List.range cfg.nIter, ((compositionSeeds entropy cfg.nIter)[k]?).isSome := by
    intro k hk
    rw [getElem?_compositionSeeds, if_pos (List.mem_range.mp hk)]
    rfl
  have hr : r = runMarks cfg c ev entropy X y step0 := rfl
  have hsz : sizes = Spec.composedSizes r.1.state.trace := rfl
  unfold runMarks at hr
  unfold runFit
  dsimp only at hr ⊢
  by_cases hi : 0 < cfg.nInitial
  · rw [if_pos hi] at hr ⊢
    have hk := discoverStep_sizes cfg c entropy X y cfg.nInitial ({ step := step0, comp := { archive := if cfg.useArchive then some [] else none } } : RunState K d M)
    cases hd : discoverStep cfg c entropy X y cfg.nInitial ({ step := step0, comp := { archive := if cfg.useArchive then some [] else none } } : RunState K d M) with
    | mk s1 x =>
      rw [hd] at hk hr
      have k1 : Spec.composedSizes s1.trace = [] := hk.1
      cases x with
      | some e =>
        dsimp only at hr ⊢
        rw [hr] at hsz
        dsimp only [Outcome.state] at hsz
        rw [hsz, k1, hr]
        exact ⟨rfl, .nil, [], rfl, .inl rfl⟩
      | none =>
        dsimp only at hr ⊢
        obtain ⟨h1, sz, h2, h3, h4⟩ := loopMarks_spec cfg c ev entropy X y (List.range cfg.nIter) s1 hseeds
        rw [k1, List.nil_append] at h3
        rw [hr] at hsz
        dsimp only at hsz
        rw [h1, h3] at hsz
        rw [hsz, hr]
        refine ⟨h1, (List.pairwise_cons.mp h4).2, warnEmpty s1, by dsimp only; rw [h2], ?_⟩
        unfold warnEmpty
        split
        · exact .inr ⟨rfl, hi⟩
        · exact .inl rfl
  · rw [if_neg hi] at hr ⊢
    obtain ⟨h1, sz, h2, h3, h4⟩ := loopMarks_spec cfg c ev entropy X y (List.range cfg.nIter) ({ step := step0, comp := { archive := if cfg.useArchive then some [] else none } } : RunState K d M) hseeds
    have h3' : Spec.composedSizes (fitLoop cfg c ev entropy X y (List.range cfg.nIter) ({ step := step0, comp := { archive := if cfg.useArchive then some [] else none } } : RunState K d M)).state.trace = sz := h3
    rw [hr, h1, h3'] at hsz
    rw [hsz, hr]
    exact ⟨h1, (List.pairwise_cons.mp h4).2, [], h2, .inl rfl⟩

/-- The components of the example with a rule discovery that never finds a rule, or only after some events. -/
def lateComp (start : Nat) : SupComp ℚ 1 ℚ :=
  { demoComp fun _ _ c => c with
    discover := fun seed history el pool X y n => if history.length < start then .ok [] else (demoComp fun _ _ c => c).discover seed history el pool X y n }

/-- An instance of C184: no initial rules and none in the first iteration, two in the second. -/
example :
    let cfg := demoCfg 2 1 2 (-1) 0
    let r := runMarks cfg (lateComp 3) (runEval cfg (lateComp 3) demoData.X demoData.y) 7 demoData.X demoData.y 0
    r.2 = [.warning, .warning, .composition 0, .composition 2] ∧ Spec.composedSizes r.1.state.trace = [0, 2] := by decide +kernel

/-- C184 is false: solution composition is not skipped. In a training in which no rule is found, the warning that it will be skipped is given in both iterations, and it is called directly afterwards; the training ends without an error. -/
theorem C184_refuted :
    let cfg := demoCfg 2 0 2 (-1) 0
    let r := runMarks cfg (lateComp 100) (runEval cfg (lateComp 100) demoData.X demoData.y) 7 demoData.X demoData.y 0
    r.2 = [.warning, .composition 0, .warning, .composition 0] ∧
      (SupState.fit cfg (lateComp 100) 7 demoData false {}).raised = none ∧ (SupState.fit cfg (lateComp 100) 7 demoData false {}).state.isError = false := by decide +kernel

end Suprb
