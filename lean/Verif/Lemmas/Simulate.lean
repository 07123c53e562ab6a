import Verif.Model.SupRB
import Verif.Lemmas.Composition

/-!
# Two runs of `fit` that proceed in parallel

If rule discovery gives related rules for related pools and related histories, and related pools give the same evaluations, then the two runs take the same course: the same populations,
the same errors, related pools.
-/

set_option autoImplicit false
set_option linter.unusedSectionVars false

namespace Suprb

open Spec

/-- Two results are both errors of the same kind or both values that are related. -/
inductive ERel {α β : Type} (R : α → β → Prop) : Except PyErr α → Except PyErr β → Prop
  | error (e : PyErr) : ERel R (.error e) (.error e)
  | ok (a : α) (b : β) (h : R a b) : ERel R (.ok a) (.ok b)

theorem ERel.of_eq {α : Type} (e : Except PyErr α) : ERel (fun a b => b = a) e e := by
  cases e with
  | error e => exact .error e
  | ok a => exact .ok a a rfl

theorem ERel.mapM {α β γ δ : Type} {R : α → β → Prop} {S : γ → δ → Prop} (f : α → Except PyErr γ) (g : β → Except PyErr δ) (l : List α) (l' : List β) (h : List.Forall₂ R l l')
    (hf : ∀ a b, R a b → ERel S (f a) (g b)) : ERel (List.Forall₂ S) (l.mapM f) (l'.mapM g) := by
  induction h with
  | nil => exact .ok _ _ .nil
  | cons h1 _ ih =>
    rw [List.mapM_cons, List.mapM_cons]
    have h2 := hf _ _ h1
    revert h2
    generalize f _ = x
    generalize g _ = y
    intro h2
    cases h2 with
    | error e => exact .error e
    | ok a b hab =>
      revert ih
      generalize List.mapM f _ = x
      generalize List.mapM g _ = y
      intro ih
      cases ih with
      | error e => exact .error e
      | ok as bs habs => exact .ok _ _ (.cons hab habs)

theorem forall₂_compress {α β : Type} {R : α → β → Prop} (l : List α) (l' : List β) (h : List.Forall₂ R l l') (g : List Bool) : List.Forall₂ R (compress l g) (compress l' g) := by
  induction h generalizing g with
  | nil => cases g <;> exact .nil
  | cons h1 _ ih =>
    cases g with
    | nil => exact .nil
    | cons b bs =>
      cases b with
      | true => exact .cons h1 (ih bs)
      | false => exact ih bs

variable {K : Type} [Field K] [LinearOrder K] {d d' : Nat} {M M' : Type}

section Runs

variable (R : Rule K d M → Rule K d' M' → Prop)

/-- The same step of the two runs. -/
inductive EventRel : Event K d M → Event K d' M' → Prop
  | discover (seed : Seed) (el : Option (Indiv K)) (pool : List (Rule K d M)) (pool' : List (Rule K d' M')) (n : Nat) (h : List.Forall₂ R pool pool') :
      EventRel (.discover seed el pool n) (.discover seed el pool' n)
  | compose (seed : Seed) (pool : List (Rule K d M)) (pool' : List (Rule K d' M')) (before : CompState K) (h : List.Forall₂ R pool pool') :
      EventRel (.compose seed pool before) (.compose seed pool' before)
  | composed (pool : List (Rule K d M)) (pool' : List (Rule K d' M')) (result : CompState K) (el : Indiv K) (h : List.Forall₂ R pool pool') :
      EventRel (.composed pool result el) (.composed pool' result el)

/-- The states of the two loops agree except for the rules, which are related. -/
structure RunRel (s : RunState K d M) (s' : RunState K d' M') : Prop where
  pool : List.Forall₂ R s.pool s'.pool
  comp : s'.comp = s.comp
  counter : s'.counter = s.counter
  step : s'.step = s.step
  trace : List.Forall₂ (EventRel R) s.trace s'.trace

/-- The two loops end in the same way. -/
inductive OutRel : Outcome K d M → Outcome K d' M' → Prop
  | done (s : RunState K d M) (s' : RunState K d' M') (h : RunRel R s s') : OutRel (.done s) (.done s')
  | caught (s : RunState K d M) (s' : RunState K d' M') (h : RunRel R s s') : OutRel (.caught s) (.caught s')
  | raised (s : RunState K d M) (s' : RunState K d' M') (e : PyErr) (h : RunRel R s s') : OutRel (.raised s e) (.raised s' e)

/-- The components do the same in both runs: rule discovery gives related rules, the composition uses the same draws. -/
structure CompSim (c : SupComp K d M) (c' : SupComp K d' M') (X : List (Point K d)) (X' : List (Point K d')) (y y' : List K) : Prop where
  discover : ∀ seed hist hist' el pool pool' n, List.Forall₂ (EventRel R) hist hist' → List.Forall₂ R pool pool' →
    ERel (List.Forall₂ R) (c.discover seed hist el pool X y n) (c'.discover seed hist' el pool' X' y' n)
  strategy : ∀ seed hist hist', List.Forall₂ (EventRel R) hist hist' → c'.strategy seed hist' = c.strategy seed hist
  init : c'.initDraw = c.initDraw

variable {R}

theorem forall₂_append {α β : Type} {S : α → β → Prop} {a b : List α} {a' b' : List β} (h : List.Forall₂ S a a') (h' : List.Forall₂ S b b') : List.Forall₂ S (a ++ b) (a' ++ b') := by
  induction h with
  | nil => exact h'
  | cons h1 _ ih => exact .cons h1 ih

theorem discoverStep_sim {c : SupComp K d M} {c' : SupComp K d' M'} {X : List (Point K d)} {X' : List (Point K d')} {y y' : List K} (hc : CompSim R c c' X X' y y') (cfg : SupCfg K)
    (entropy n : Nat) (s : RunState K d M) (s' : RunState K d' M') (hs : RunRel R s s') :
    RunRel R (discoverStep cfg c entropy X y n s).1 (discoverStep cfg c' entropy X' y' n s').1 ∧
      (discoverStep cfg c' entropy X' y' n s').2 = (discoverStep cfg c entropy X y n s).2 := by
  unfold discoverStep
  split
  · exact ⟨hs, rfl⟩
  rw [hs.comp, hs.step]
  cases s.comp.elitist with
  | error e => exact ⟨hs, rfl⟩
  | ok el =>
    dsimp only
    cases (discoverySeeds entropy cfg.nIter)[s.step]? with
    | none => exact ⟨hs, rfl⟩
    | some seed =>
      dsimp only
      have ht := forall₂_append hs.trace (.cons (EventRel.discover seed el _ _ n hs.pool) .nil)
      have h := hc.discover seed _ _ el _ _ n hs.trace hs.pool
      revert h
      generalize c.discover seed s.trace el s.pool X y n = a
      generalize c'.discover seed s'.trace el s'.pool X' y' n = b
      intro h
      cases h with
      | error e => exact ⟨⟨hs.pool, rfl, hs.counter, rfl, ht⟩, rfl⟩
      | ok rs rs' h => exact ⟨⟨forall₂_append hs.pool h, rfl, hs.counter, rfl, ht⟩, rfl⟩

theorem composeStep_sim {c : SupComp K d M} {c' : SupComp K d' M'} {X : List (Point K d)} {X' : List (Point K d')} {y y' : List K} (hc : CompSim R c c' X X' y y') (cfg : SupCfg K)
    (ev : PoolEval K d M) (ev' : PoolEval K d' M') (hev : ∀ pool pool', List.Forall₂ R pool pool' → ev' pool' = ev pool) (entropy : Nat) (s : RunState K d M) (s' : RunState K d' M')
    (hs : RunRel R s s') : RunRel R (composeStep cfg c ev entropy s).1 (composeStep cfg c' ev' entropy s').1 ∧
      (composeStep cfg c' ev' entropy s').2 = (composeStep cfg c ev entropy s).2 := by
  unfold composeStep
  rw [hs.comp, hs.step, hev _ _ hs.pool, hs.pool.length_eq.symm]
  cases (compositionSeeds entropy cfg.nIter)[s.step]? with
  | none => exact ⟨hs, rfl⟩
  | some seed =>
    dsimp only
    rw [hc.strategy seed _ _ hs.trace, hc.init]
    have ht := forall₂_append hs.trace (.cons (EventRel.compose seed _ _ s.comp hs.pool) .nil)
    cases compOptimize cfg.comp (c.initDraw seed) (c.strategy seed s.trace) (ev s.pool) s.pool.length s.comp with
    | error e => exact ⟨⟨hs.pool, rfl, hs.counter, rfl, ht⟩, rfl⟩
    | ok comp => exact ⟨⟨hs.pool, rfl, hs.counter, rfl, ht⟩, rfl⟩

theorem fitLoop_sim {c : SupComp K d M} {c' : SupComp K d' M'} {X : List (Point K d)} {X' : List (Point K d')} {y y' : List K} (hc : CompSim R c c' X X' y y') (cfg : SupCfg K)
    (ev : PoolEval K d M) (ev' : PoolEval K d' M') (hev : ∀ pool pool', List.Forall₂ R pool pool' → ev' pool' = ev pool) (entropy : Nat) (steps : List Nat) (s : RunState K d M)
    (s' : RunState K d' M') (hs : RunRel R s s') : OutRel R (fitLoop cfg c ev entropy X y steps s) (fitLoop cfg c' ev' entropy X' y' steps s') := by
  induction steps generalizing s s' with
  | nil => exact .done _ _ hs
  | cons k rest ih =>
    unfold fitLoop
    have h1 := discoverStep_sim hc cfg entropy cfg.nRules { s with step := k } { s' with step := k } ⟨hs.pool, hs.comp, hs.counter, rfl, hs.trace⟩
    revert h1
    generalize discoverStep cfg c entropy X y cfg.nRules { s with step := k } = a
    generalize discoverStep cfg c' entropy X' y' cfg.nRules { s' with step := k } = a'
    obtain ⟨s1, e1⟩ := a
    obtain ⟨s1', e1'⟩ := a'
    rintro ⟨h1, he⟩
    dsimp only at h1 he
    rw [he]
    cases e1 with
    | some e => exact .caught _ _ h1
    | none =>
      dsimp only
      have h2 := composeStep_sim hc cfg ev ev' hev entropy s1 s1' h1
      revert h2
      generalize composeStep cfg c ev entropy s1 = b
      generalize composeStep cfg c' ev' entropy s1' = b'
      obtain ⟨s2, e2⟩ := b
      obtain ⟨s2', e2'⟩ := b'
      rintro ⟨h2, he⟩
      dsimp only at h2 he
      rw [he]
      cases e2 with
      | some e => exact .caught _ _ h2
      | none =>
        dsimp only
        rw [h2.comp]
        cases s2.comp.elitist with
        | error e => exact .raised _ _ _ h2
        | ok o =>
          cases o with
          | none => exact .raised _ _ _ h2
          | some el =>
            dsimp only
            rw [h2.counter]
            have h3 : RunRel R { s2 with counter := (checkEarlyStopping cfg el.fitnessD s2.counter).1, trace := s2.trace ++ [.composed s2.pool s2.comp el] }
                { s2' with comp := s2.comp, counter := (checkEarlyStopping cfg el.fitnessD s2.counter).1, trace := s2'.trace ++ [.composed s2'.pool s2.comp el] } :=
              ⟨h2.pool, rfl, rfl, h2.step, forall₂_append h2.trace (.cons (.composed _ _ _ _ h2.pool) .nil)⟩
            split
            · exact .done _ _ h3
            · exact ih _ _ h3

theorem runFit_sim {c : SupComp K d M} {c' : SupComp K d' M'} {X : List (Point K d)} {X' : List (Point K d')} {y y' : List K} (hc : CompSim R c c' X X' y y') (cfg : SupCfg K)
    (ev : PoolEval K d M) (ev' : PoolEval K d' M') (hev : ∀ pool pool', List.Forall₂ R pool pool' → ev' pool' = ev pool) (entropy step0 : Nat) :
    OutRel R (runFit cfg c ev entropy X y step0) (runFit cfg c' ev' entropy X' y' step0) := by
  unfold runFit
  dsimp only
  have h0 : RunRel R ({ step := step0, comp := { archive := if cfg.useArchive then some [] else none } } : RunState K d M)
    ({ step := step0, comp := { archive := if cfg.useArchive then some [] else none } } : RunState K d' M') := ⟨.nil, rfl, rfl, rfl, .nil⟩
  split
  · have h1 := discoverStep_sim hc cfg entropy cfg.nInitial _ _ h0
    revert h1
    generalize discoverStep cfg c entropy X y cfg.nInitial _ = a
    generalize discoverStep cfg c' entropy X' y' cfg.nInitial _ = a'
    obtain ⟨s1, e1⟩ := a
    obtain ⟨s1', e1'⟩ := a'
    rintro ⟨h1, he⟩
    dsimp only at h1 he
    rw [he]
    cases e1 with
    | some e => exact .caught _ _ h1
    | none => exact fitLoop_sim hc cfg ev ev' hev entropy _ _ _ h1
  · exact fitLoop_sim hc cfg ev ev' hev entropy _ _ _ h0

variable (R)

/-- The two models select the same rules. -/
inductive ElitistRel : Elitist K d M → Elitist K d' M' → Prop
  | placeholder : ElitistRel .placeholder .placeholder
  | solution (g : List Bool) (pool : List (Rule K d M)) (pool' : List (Rule K d' M')) (st : Option (SolState K)) (h : List.Forall₂ R pool pool') :
      ElitistRel (.solution ⟨g, pool, st⟩) (.solution ⟨g, pool', st⟩)

/-- The two estimators agree except for the rules, which are related. -/
structure StateRel (s : SupState K d M) (s' : SupState K d' M') : Prop where
  step : s'.step = s.step
  isFitted : s'.isFitted = s.isFitted
  isError : s'.isError = s.isError
  elitist : Option.Rel (ElitistRel R) s.elitist s'.elitist
  pool : List.Forall₂ R s.pool s'.pool
  cleaned : s'.cleaned = s.cleaned

/-- The two calls of `fit` end in the same way. -/
structure FitRel (r : FitResult K d M) (r' : FitResult K d' M') : Prop where
  state : StateRel R r.state r'.state
  trace : List.Forall₂ (EventRel R) r.trace r'.trace
  raised : r'.raised = r.raised

variable {R}

theorem finishFit_sim (st : SupState K d M) (st' : SupState K d' M') (hst : StateRel R st st') (doCleanup : Bool) (s : RunState K d M) (s' : RunState K d' M') (hs : RunRel R s s') :
    FitRel R (finishFit st doCleanup s) (finishFit st' doCleanup s') := by
  have hst1 : StateRel R { st with step := s.step, pool := s.pool } { st' with step := s'.step, pool := s'.pool } :=
    ⟨hs.step, hst.isFitted, hst.isError, hst.elitist, hs.pool, hst.cleaned⟩
  unfold finishFit
  dsimp only
  rw [hs.comp]
  cases s.comp.elitist with
  | error e => exact ⟨hst1, hs.trace, rfl⟩
  | ok o =>
    cases o with
    | none => exact ⟨hst1, hs.trace, rfl⟩
    | some el =>
      dsimp only
      cases el.clone with
      | error e => exact ⟨hst1, hs.trace, rfl⟩
      | ok b =>
        dsimp only
        split
        · unfold cleanup Solution.subpopulation
          dsimp only
          rw [hs.pool.length_eq.symm]
          by_cases hlen : b.genome.length = s.pool.length
          · have hsub := forall₂_compress _ _ hs.pool b.genome
            rw [if_pos hlen, if_pos hlen]
            dsimp only
            rw [hsub.length_eq.symm]
            exact ⟨⟨hs.step, rfl, hst.isError, .some (.solution _ _ _ _ hsub), hsub, rfl⟩, hs.trace, rfl⟩
          · rw [if_neg hlen, if_neg hlen]
            exact ⟨⟨hs.step, rfl, hst.isError, .some (.solution _ _ _ _ hs.pool), hs.pool, hst.cleaned⟩, hs.trace, rfl⟩
        · exact ⟨⟨hs.step, rfl, hst.isError, .some (.solution _ _ _ _ hs.pool), hs.pool, hst.cleaned⟩, hs.trace, rfl⟩

/-- `fit` on two data sets that are both usable or both not. -/
theorem fit_sim_check {c : SupComp K d M} {c' : SupComp K d' M'} {raw : RawData K d} {raw' : RawData K d'} (hc : CompSim R c c' raw.X raw'.X raw.y raw'.y) (cfg : SupCfg K)
    (hcheck : (raw'.finite ∧ raw'.X.length = raw'.y.length ∧ raw'.X ≠ []) ↔ (raw.finite ∧ raw.X.length = raw.y.length ∧ raw.X ≠ []))
    (hev : ∀ pool pool', List.Forall₂ R pool pool' → runEval cfg c' raw'.X raw'.y pool' = runEval cfg c raw.X raw.y pool) (entropy : Nat) (doCleanup : Bool) (st0 : SupState K d M)
    (st0' : SupState K d' M') (hst : StateRel R st0 st0') : FitRel R (st0.fit cfg c entropy raw doCleanup) (st0'.fit cfg c' entropy raw' doCleanup) := by
  have hst1 : StateRel R { st0 with isError := false, elitist := some .placeholder } { st0' with isError := false, elitist := some .placeholder } :=
    ⟨hst.step, hst.isFitted, rfl, .some .placeholder, hst.pool, hst.cleaned⟩
  unfold SupState.fit SupState.fitWith RawData.check
  dsimp only
  by_cases h : raw.finite ∧ raw.X.length = raw.y.length ∧ raw.X ≠ []
  · rw [if_pos h, if_pos (hcheck.mpr h)]
    dsimp only
    rw [hst.step]
    have hrun := runFit_sim hc cfg _ _ hev entropy st0.step
    revert hrun
    generalize runFit cfg c (runEval cfg c raw.X raw.y) entropy raw.X raw.y st0.step = a
    generalize runFit cfg c' (runEval cfg c' raw'.X raw'.y) entropy raw'.X raw'.y st0.step = a'
    intro hrun
    cases hrun with
    | done s s' hs =>
      have h0 : StateRel R { st0 with isError := false, elitist := some .placeholder, pool := [], cleaned := false }
          { st0' with isError := false, elitist := some .placeholder, pool := [], cleaned := false } := ⟨hst.step, hst.isFitted, rfl, .some .placeholder, .nil, rfl⟩
      rw [hst.step] at h0
      exact finishFit_sim _ _ h0 doCleanup s s' hs
    | caught s s' hs => exact ⟨⟨hs.step, rfl, rfl, .some .placeholder, hs.pool, rfl⟩, hs.trace, rfl⟩
    | raised s s' e hs => exact ⟨⟨hs.step, hst.isFitted, rfl, .some .placeholder, hs.pool, rfl⟩, hs.trace, rfl⟩
  · rw [if_neg h, if_neg (fun h' => h (hcheck.mp h'))]
    exact ⟨hst1, .nil, rfl⟩

/-- `fit` on two data sets of the same size. -/
theorem fit_sim {c : SupComp K d M} {c' : SupComp K d' M'} {raw : RawData K d} {raw' : RawData K d'} (hc : CompSim R c c' raw.X raw'.X raw.y raw'.y) (cfg : SupCfg K)
    (hfin : raw'.finite = raw.finite) (hX : raw'.X.length = raw.X.length) (hy : raw'.y.length = raw.y.length)
    (hev : ∀ pool pool', List.Forall₂ R pool pool' → runEval cfg c' raw'.X raw'.y pool' = runEval cfg c raw.X raw.y pool) (entropy : Nat) (doCleanup : Bool) (st0 : SupState K d M)
    (st0' : SupState K d' M') (hst : StateRel R st0 st0') : FitRel R (st0.fit cfg c entropy raw doCleanup) (st0'.fit cfg c' entropy raw' doCleanup) := by
  refine fit_sim_check hc cfg ?_ hev entropy doCleanup st0 st0' hst
  rw [hfin, hX, hy, ← List.length_pos_iff, ← List.length_pos_iff, hX]

theorem predict_sim {c : SupComp K d M} {c' : SupComp K d' M'} (Xq : List (Point K d)) (Xq' : List (Point K d')) (hlen : Xq'.length = Xq.length)
    (hmix : ∀ pool pool', List.Forall₂ R pool pool' → mixing c'.learner c'.mix c'.filter false Xq' pool' = mixing c.learner c.mix c.filter false Xq pool)
    (st : SupState K d M) (st' : SupState K d' M') (hst : StateRel R st st') : st'.predict c' Xq' = st.predict c Xq := by
  unfold SupState.predict
  rw [hst.isFitted, hst.isError, hlen]
  have hnil : (Xq' = []) = (Xq = []) := by
    rw [← List.length_eq_zero_iff, ← List.length_eq_zero_iff (l := Xq), hlen]
  simp only [hnil]
  have h := hst.elitist
  revert h
  generalize st.elitist = e
  generalize st'.elitist = e'
  intro h
  cases h with
  | none => rfl
  | some h =>
    cases h with
    | placeholder => rfl
    | solution g pool pool' so h =>
      have : (Solution.predict c'.learner c'.mix c'.filter false ⟨g, pool', so⟩ Xq') = Solution.predict c.learner c.mix c.filter false ⟨g, pool, so⟩ Xq := by
        unfold Solution.predict Solution.subpopulation
        dsimp only
        rw [h.length_eq.symm]
        by_cases hl : g.length = pool.length
        · rw [if_pos hl, if_pos hl]
          exact hmix _ _ (forall₂_compress _ _ h g)
        · rw [if_neg hl, if_neg hl]
      simp only [this]

end Runs

end Suprb
