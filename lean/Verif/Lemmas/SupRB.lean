import Verif.Model.SupRB
import Verif.Lemmas.Composition

/-!
# Lemmas about the composition step and the main loop
-/

set_option autoImplicit false
set_option linter.unusedSectionVars false

namespace Suprb

open Spec

variable {K : Type} [Field K] [LinearOrder K] {d : Nat} {M : Type}

/-- Contract of a metaheuristic: for a population of `n`-bit genomes the result has `n`-bit genomes and is completely evaluated, and only `n`-bit genomes are ever
evaluated (the outcome does not depend on the evaluation of others). -/
structure Strategy.Good (strat : Strategy K) : Prop where
  lens : ∀ n ev pop pop', AllLen n pop → strat n ev pop = .ok pop' → AllLen n pop'
  evaluated : ∀ n ev pop pop', AllLen n pop → strat n ev pop = .ok pop' → ∀ σ ∈ pop', Evaluated ev σ
  local_ : ∀ n ev ev' pop, AllLen n pop → (∀ g : List Bool, g.length = n → ev g = ev' g) → strat n ev pop = strat n ev' pop

theorem gaStep_congr (cfg : GACfg K) (dr : GADraw K) (ev ev' : Eval K) (pop : List (Indiv K)) (n : Nat) (hl : AllLen n pop)
    (h : ∀ g : List Bool, g.length = n → ev g = ev' g) : gaStep cfg dr ev pop = gaStep cfg dr ev' pop := by
  unfold gaStep
  split
  · cases h1 : dr.sel.run pop with
    | error e => rfl
    | ok parents =>
      have hpar : AllLen n parents := fun σ hσ => hl σ (mem_select _ _ _ h1 σ hσ)
      cases h2 : gaCross cfg.crossRate dr.cross (pairs parents) with
      | error e => simp only [bind, Except.bind]; rw [h2]
      | ok children =>
        have hch := (gaCross_len _ _ _ _ n (fun p hp => ⟨hpar _ (mem_pairs _ p hp).1, hpar _ (mem_pairs _ p hp).2⟩) h2).1
        cases h3 : gaOdd cfg.populationSize parents children with
        | error e => simp only [bind, Except.bind]; rw [h2]; dsimp only; rw [h3]
        | ok children' =>
          simp only [bind, Except.bind]; rw [h2]; dsimp only; rw [h3]
          refine fitAll_congr _ _ _ fun σ hσ => h _ ?_
          rcases List.mem_append.mp hσ with hσ | hσ
          · exact hl σ (mem_sortedDesc_take _ _ _ σ hσ)
          · exact (gaMutate_spec _ _ _ n (gaOdd_spec _ _ _ _ n hpar hch h3).1).1 σ hσ
  · rfl

theorem gaLoop_congr (cfg : GACfg K) (ev ev' : Eval K) (draws : List (GADraw K)) (pop : List (Indiv K)) (n : Nat) (hl : AllLen n pop)
    (h : ∀ g : List Bool, g.length = n → ev g = ev' g) : gaLoop cfg ev draws pop = gaLoop cfg ev' draws pop := by
  induction draws generalizing pop with
  | nil => rfl
  | cons dr rest ih =>
    unfold gaLoop
    rw [gaStep_congr cfg dr ev ev' pop n hl h]
    split
    · rfl
    · rename_i p hp
      exact ih p (gaStep_inv _ _ _ _ _ n hl hp).1

/-- The genetic algorithm meets the contract. -/
theorem gaOptimize_good (cfg : GACfg K) (draws : List (GADraw K)) : Strategy.Good (gaOptimize cfg draws) := by
  have key : ∀ n ev pop pop', AllLen n pop → gaOptimize cfg draws n ev pop = .ok pop' → AllLen n pop' ∧ ∀ σ ∈ pop', Evaluated ev σ := by
    intro n ev pop pop' hl h
    unfold gaOptimize at h
    split at h
    · cases h
    · rename_i p hp
      obtain ⟨h1, h2⟩ := fitAll_spec _ _ _ hp
      exact gaLoop_inv _ _ _ _ _ n (allLen_of_genomes n _ _ h1 hl) h2 h
  refine ⟨fun n ev pop pop' hl h => (key n ev pop pop' hl h).1, fun n ev pop pop' hl h => (key n ev pop pop' hl h).2, ?_⟩
  intro n ev ev' pop hl h
  unfold gaOptimize
  rw [fitAll_congr ev ev' pop fun σ hσ => h _ (hl σ hσ)]
  split
  · rfl
  · rename_i p hp
    exact gaLoop_congr _ _ _ _ _ n (allLen_of_genomes n _ _ (fitAll_spec _ _ _ hp).1 hl) h

/-! ## One call of the composition -/

theorem archivePrepare_spec (ev : Eval K) (n : Nat) (arch arch' : Option (List (Indiv K))) (h : archivePrepare ev n arch = .ok arch') :
    (arch = none ∧ arch' = none) ∨ ∃ l p r, arch = some l ∧ arch' = some r ∧ archivePad n l = .ok p ∧ fitAll ev p = .ok r := by
  cases arch with
  | none => cases h; exact .inl ⟨rfl, rfl⟩
  | some l =>
    right
    unfold archivePrepare at h
    cases h1 : archivePad n l with
    | error e => simp only [h1, bind, Except.bind] at h; cases h
    | ok p =>
      cases h2 : fitAll ev p with
      | error e => simp only [h1, h2, bind, Except.bind] at h; cases h
      | ok r =>
        simp only [h1, h2, bind, Except.bind, pure, Except.pure, Except.ok.injEq] at h
        exact ⟨l, p, r, rfl, h.symm, h1, h2⟩

theorem archiveStore_spec (ev : Eval K) (pop : List (Indiv K)) (arch arch' : Option (List (Indiv K)))
    (h : archiveStore ev pop arch = .ok arch') :
    (arch = none ∧ arch' = none) ∨ ∃ l u r, arch = some l ∧ arch' = some r ∧ archiveUpdate l pop = .ok u ∧ fitAll ev u = .ok r := by
  cases arch with
  | none => cases h; exact .inl ⟨rfl, rfl⟩
  | some l =>
    right
    unfold archiveStore at h
    cases h1 : archiveUpdate l pop with
    | error e => simp only [h1, bind, Except.bind] at h; cases h
    | ok p =>
      cases h2 : fitAll ev p with
      | error e => simp only [h1, h2, bind, Except.bind] at h; cases h
      | ok r =>
        simp only [h1, h2, bind, Except.bind, pure, Except.pure, Except.ok.injEq] at h
        exact ⟨l, p, r, rfl, h.symm, h1, h2⟩

/-- The population step of the composition. -/
def popStep (cfg : CompCfg K) (draw : Nat → Nat → K) (strat : Strategy K) (ev : Eval K) (n : Nat) (pop : List (Indiv K)) :
    Except PyErr (List (Indiv K)) :=
  if n = 0 then (do
      let σ ← (cfg.init.make (draw cfg.populationSize) n).fit ev
      pure [σ])
    else strat n ev pop

theorem compOptimize_eq (cfg : CompCfg K) (draw : Nat → Nat → K) (strat : Strategy K) (ev : Eval K) (n : Nat) (s : CompState K) :
    compOptimize cfg draw strat ev n s =
      (match initPopulation cfg draw n s.population with
      | .error e => .error e
      | .ok pop =>
        match archivePrepare ev n s.archive with
        | .error e => .error e
        | .ok arch =>
          match popStep cfg draw strat ev n pop with
          | .error e => .error e
          | .ok pop' =>
            match archiveStore ev pop' arch with
            | .error e => .error e
            | .ok arch' => .ok { population := some pop', archive := arch' }) := by
  unfold compOptimize popStep
  cases initPopulation cfg draw n s.population with
  | error e => rfl
  | ok pop =>
    cases archivePrepare ev n s.archive with
    | error e => rfl
    | ok arch =>
      by_cases hn : n = 0
      · subst hn
        simp only [bind, Except.bind, if_true]
        cases (cfg.init.make (draw cfg.populationSize) 0).fit ev with
        | error e => rfl
        | ok σ =>
          simp only [pure, Except.pure]
          cases archiveStore ev [σ] arch <;> rfl
      · simp only [bind, Except.bind, if_neg hn]
        cases strat n ev pop with
        | error e => rfl
        | ok pop' =>
          simp only [pure, Except.pure]
          cases archiveStore ev pop' arch <;> rfl

theorem popStep_spec (cfg : CompCfg K) (draw : Nat → Nat → K) (strat : Strategy K) (hg : strat.Good) (ev : Eval K) (n : Nat)
    (pop pop' : List (Indiv K)) (hl : AllLen n pop) (h : popStep cfg draw strat ev n pop = .ok pop') :
    AllLen n pop' ∧ ∀ σ ∈ pop', Evaluated ev σ := by
  unfold popStep at h
  split at h
  · rename_i hn
    subst hn
    cases hσ : (cfg.init.make (draw cfg.populationSize) 0).fit ev with
    | error e => simp only [hσ, bind, Except.bind] at h; cases h
    | ok σ =>
      simp only [hσ, bind, Except.bind, pure, Except.pure, Except.ok.injEq] at h
      subst h
      obtain ⟨h1, h2⟩ := Indiv.fit_ok _ _ _ hσ
      refine ⟨?_, ?_⟩
      · intro τ hτ
        rw [List.mem_singleton] at hτ
        subst hτ
        rw [h1]
        exact InitOp.length_bits _ _ _
      · intro τ hτ
        rw [List.mem_singleton] at hτ
        subst hτ; exact h2
  · exact ⟨hg.lens _ _ _ _ hl h, hg.evaluated _ _ _ _ hl h⟩

/-- What a successful composition guarantees: lengths, evaluation, and the archive (if there is one) holds exactly one solution, at least as fit as the population and as the
previous archived solution after padding and re-evaluation. -/
theorem compOptimize_spec (cfg : CompCfg K) (draw : Nat → Nat → K) (strat : Strategy K) (hg : strat.Good) (ev : Eval K) (n : Nat)
    (s s' : CompState K) (h : compOptimize cfg draw strat ev n s = .ok s') (harch : ∀ l, s.archive = some l → l.length ≤ 1) :
    (∃ pop', s'.population = some pop' ∧ AllLen n pop' ∧ (∀ σ ∈ pop', Evaluated ev σ) ∧
      (s.archive = none → s'.archive = none) ∧
      ∀ l, s.archive = some l → ∃ a, s'.archive = some [a] ∧ pop' ≠ [] ∧ a.genome.length = n ∧ Evaluated ev a ∧
        (∀ σ ∈ pop', σ.fitnessD ≤ a.fitnessD) ∧
        ∀ b ∈ l, ∃ p b', archivePad1 n b = .ok p ∧ p.fit ev = .ok b' ∧ b'.fitnessD ≤ a.fitnessD) := by
  rw [compOptimize_eq] at h
  split at h
  · cases h
  · rename_i pop hpop
    split at h
    · cases h
    · rename_i arch hprep
      split at h
      · cases h
      · rename_i pop' hpop'
        obtain ⟨hl', he'⟩ := popStep_spec _ _ _ hg _ _ _ _ (initPopulation_len _ _ _ _ _ hpop) hpop'
        split at h
        · cases h
        · rename_i arch' hstore
          cases h
          refine ⟨pop', rfl, hl', he', ?_, ?_⟩
          · intro hn
            rcases archivePrepare_spec _ _ _ _ hprep with ⟨_, rfl⟩ | ⟨l, p, r, h1, _⟩
            · rcases archiveStore_spec _ _ _ _ hstore with ⟨_, rfl⟩ | ⟨l, u, r, h1, _⟩
              · rfl
              · cases h1
            · rw [hn] at h1; cases h1
          · intro l hl
            rcases archivePrepare_spec _ _ _ _ hprep with ⟨h1, _⟩ | ⟨l', p, r, h1, h2, h3, h4⟩
            · rw [h1] at hl; cases hl
            · rw [hl] at h1
              cases h1
              subst h2
              rcases archiveStore_spec _ _ _ _ hstore with ⟨h1, _⟩ | ⟨l', u, r', h1, h2, h5, h6⟩
              · cases h1
              · cases h1
                subst h2
                have hrl : r.length ≤ 1 := by
                  rw [mapM_length _ _ _ h4, mapM_length _ _ _ h3]
                  exact harch l hl
                obtain ⟨hrg, hre⟩ := fitAll_spec _ _ _ h4
                obtain ⟨a, rfl, hmem, hst, hpopmax, hold⟩ := archiveUpdate_spec _ _ _ hrl h5
                have hae : Evaluated ev a := by
                  rcases hmem with hm | hm
                  · exact hre a hm
                  · exact he' a hm
                rw [fitAll_of_evaluated ev [a] (by simpa using hae)] at h6
                cases h6
                refine ⟨a, rfl, ?_, ?_, hae, hpopmax, ?_⟩
                · rintro rfl
                  simp [archiveUpdate, fittestIndiv, allFitted, pyMax] at h5
                · rcases hmem with hm | hm
                  · exact allLen_of_genomes n _ _ hrg (archivePad_len _ _ _ h3) a hm
                  · exact hl' a hm
                · intro b hb
                  obtain ⟨q, hq, hbq⟩ := mem_of_mapM_ok' _ _ _ h3 b hb
                  obtain ⟨b', hb', hqb'⟩ := mem_of_mapM_ok' _ _ _ h4 q hq
                  exact ⟨q, b', hbq, hqb', hold b' hb'⟩

/-- Only genomes of the current length are evaluated. -/
theorem compOptimize_local (cfg : CompCfg K) (draw : Nat → Nat → K) (strat : Strategy K) (hg : strat.Good) (ev ev' : Eval K) (n : Nat)
    (s : CompState K) (harch : ∀ l, s.archive = some l → l.length ≤ 1) (h : ∀ g : List Bool, g.length = n → ev g = ev' g) :
    compOptimize cfg draw strat ev n s = compOptimize cfg draw strat ev' n s := by
  have hfit : ∀ pop : List (Indiv K), AllLen n pop → fitAll ev pop = fitAll ev' pop :=
    fun pop hl => fitAll_congr ev ev' pop fun σ hσ => h _ (hl σ hσ)
  rw [compOptimize_eq, compOptimize_eq]
  split
  · rfl
  · rename_i pop hpop
    have hl := initPopulation_len _ _ _ _ _ hpop
    have hprep : archivePrepare ev n s.archive = archivePrepare ev' n s.archive := by
      unfold archivePrepare
      split
      · rfl
      · cases hp : archivePad n _ with
        | error e => rfl
        | ok p =>
          simp only [bind, Except.bind]
          rw [hfit p (archivePad_len _ _ _ hp)]
    have hpopS : popStep cfg draw strat ev n pop = popStep cfg draw strat ev' n pop := by
      unfold popStep
      split
      · rename_i hn
        have : (cfg.init.make (draw cfg.populationSize) n).fit ev = (cfg.init.make (draw cfg.populationSize) n).fit ev' := by
          unfold Indiv.fit
          rw [h (cfg.init.make (draw cfg.populationSize) n).genome (InitOp.length_bits _ _ _)]
        rw [this]
      · exact hg.local_ _ _ _ _ hl h
    rw [hprep, hpopS]
    split
    · rfl
    · rename_i arch harch'
      split
      · rfl
      · rename_i pop' hpop'
        have hl' := (popStep_spec _ _ _ hg _ _ _ _ hl hpop').1
        have : archiveStore ev pop' arch = archiveStore ev' pop' arch := by
          unfold archiveStore
          split
          · rfl
          · rename_i r
            cases hu : archiveUpdate r pop' with
            | error e => rfl
            | ok u =>
              simp only [bind, Except.bind]
              rw [hfit u ?_]
              rcases archivePrepare_spec _ _ _ _ harch' with ⟨_, h1⟩ | ⟨l, p, r', h1, h2, h3, h4⟩
              · cases h1
              · cases h2
                have hrl : r.length ≤ 1 := by
                  rw [mapM_length _ _ _ h4, mapM_length _ _ _ h3]
                  exact harch l h1
                obtain ⟨a, rfl, hmem, _⟩ := archiveUpdate_spec _ _ _ hrl hu
                intro σ hσ
                rw [List.mem_singleton] at hσ
                subst hσ
                rcases hmem with hm | hm
                · exact allLen_of_genomes n _ _ (fitAll_spec _ _ _ h4).1 (archivePad_len _ _ _ h3) _ hm
                · exact hl' _ hm
        rw [this]

/-! ## Induction over the main loop -/

/-- One complete iteration `k` from `s` to `s'` with elitist `el`. -/
def Iteration (cfg : SupCfg K) (c : SupComp K d M) (ev : PoolEval K d M) (entropy : Nat) (X : List (Point K d)) (y : List K)
    (k : Nat) (s s' : RunState K d M) (el : Indiv K) : Prop :=
  ∃ s1 s2, discoverStep cfg c entropy X y cfg.nRules { s with step := k } = (s1, none) ∧ composeStep cfg c ev entropy s1 = (s2, none) ∧
    s2.comp.elitist = .ok (some el) ∧
    s' = { s2 with
      counter := (checkEarlyStopping cfg el.fitnessD s2.counter).1
      trace := s2.trace ++ [.composed s2.pool s2.comp el] }

theorem fitLoop_ind (cfg : SupCfg K) (c : SupComp K d M) (ev : PoolEval K d M) (entropy : Nat) (X : List (Point K d)) (y : List K)
    (P : List Nat → RunState K d M → Prop) (Q : Outcome K d M → Prop)
    (hnil : ∀ s, P [] s → Q (.done s))
    (hdisc : ∀ k rest s s1 e, P (k :: rest) s → discoverStep cfg c entropy X y cfg.nRules { s with step := k } = (s1, some e) →
      Q (.caught s1))
    (hcomp : ∀ k rest s s1 s2 e, P (k :: rest) s → discoverStep cfg c entropy X y cfg.nRules { s with step := k } = (s1, none) →
      composeStep cfg c ev entropy s1 = (s2, some e) → Q (.caught s2))
    (hraise : ∀ k rest s s1 s2 e, P (k :: rest) s → discoverStep cfg c entropy X y cfg.nRules { s with step := k } = (s1, none) →
      composeStep cfg c ev entropy s1 = (s2, none) → (s2.comp.elitist = .error e ∨ s2.comp.elitist = .ok none ∧ e = .valueError) →
      Q (.raised s2 e))
    (hstop : ∀ k rest s s' el, P (k :: rest) s → Iteration cfg c ev entropy X y k s s' el →
      (∃ n, s'.counter = (checkEarlyStopping cfg el.fitnessD n).1 ∧ (checkEarlyStopping cfg el.fitnessD n).2 = true ∧ n = s.counter) →
      Q (.done s'))
    (hnext : ∀ k rest s s' el, P (k :: rest) s → Iteration cfg c ev entropy X y k s s' el →
      (∃ n, s'.counter = (checkEarlyStopping cfg el.fitnessD n).1 ∧ (checkEarlyStopping cfg el.fitnessD n).2 = false ∧ n = s.counter) →
      P rest s')
    (ks : List Nat) (s : RunState K d M) (h : P ks s) : Q (fitLoop cfg c ev entropy X y ks s) := by
  have hd : ∀ n s s1 r, discoverStep cfg c entropy X y n s = (s1, r) → s1.counter = s.counter := by
    intro n s s1 r h
    unfold discoverStep at h
    split at h
    · cases h; rfl
    · split at h
      · cases h; rfl
      · split at h
        · cases h; rfl
        · dsimp only at h
          split at h <;> (cases h; rfl)
  have hc : ∀ s s1 r, composeStep cfg c ev entropy s = (s1, r) → s1.counter = s.counter := by
    intro s s1 r h
    unfold composeStep at h
    split at h
    · cases h; rfl
    · dsimp only at h
      split at h <;> (cases h; rfl)
  induction ks generalizing s with
  | nil => exact hnil s h
  | cons k rest ih =>
    unfold fitLoop
    split
    · rename_i s1 e h1
      exact hdisc _ _ _ _ _ h h1
    · rename_i s1 h1
      split
      · rename_i s2 e h2
        exact hcomp _ _ _ _ _ _ h h1 h2
      · rename_i s2 h2
        have hcount : s2.counter = s.counter := by rw [hc _ _ _ h2, hd _ _ _ _ h1]
        split
        · rename_i e he
          exact hraise _ _ _ _ _ _ h h1 h2 (.inl he)
        · rename_i he
          exact hraise _ _ _ _ _ _ h h1 h2 (.inr ⟨he, rfl⟩)
        · rename_i el hel
          dsimp only
          split
          · rename_i hs
            exact hstop _ _ _ _ _ h ⟨s1, s2, h1, h2, hel, rfl⟩ ⟨s2.counter, rfl, hs, hcount⟩
          · rename_i hs
            exact ih _ (hnext _ _ _ _ _ h ⟨s1, s2, h1, h2, hel, rfl⟩ ⟨s2.counter, rfl, by simpa using hs, hcount⟩)

/-- Anatomy of rule discovery in the loop. -/
theorem discoverStep_spec (cfg : SupCfg K) (c : SupComp K d M) (entropy : Nat) (X : List (Point K d)) (y : List K) (n : Nat)
    (s s1 : RunState K d M) (r : Option PyErr) (h : discoverStep cfg c entropy X y n s = (s1, r)) :
    (s1 = s ∧ ∃ e, r = some e ∧ (n = 0 ∨ s.comp.elitist = .error e ∨ (discoverySeeds entropy cfg.nIter)[s.step]? = none)) ∨
    ∃ el seed, s.comp.elitist = .ok el ∧ (discoverySeeds entropy cfg.nIter)[s.step]? = some seed ∧ n ≠ 0 ∧
      ((∃ e, r = some e ∧ c.discover seed s.trace el s.pool X y n = .error e ∧
          s1 = { s with trace := s.trace ++ [.discover seed el s.pool n] }) ∨
       ∃ rules, r = none ∧ c.discover seed s.trace el s.pool X y n = .ok rules ∧
          s1 = { s with trace := s.trace ++ [.discover seed el s.pool n], pool := s.pool ++ rules }) := by
  unfold discoverStep at h
  split at h
  · rename_i hn
    cases h; exact .inl ⟨rfl, _, rfl, .inl hn⟩
  · rename_i hn
    split at h
    · rename_i e he
      cases h; exact .inl ⟨rfl, _, rfl, .inr (.inl he)⟩
    · rename_i el hel
      split at h
      · rename_i hs
        cases h; exact .inl ⟨rfl, _, rfl, .inr (.inr hs)⟩
      · rename_i seed hs
        right
        refine ⟨el, seed, hel, hs, hn, ?_⟩
        dsimp only at h
        split at h
        · rename_i e he
          cases h; exact .inl ⟨e, rfl, he, rfl⟩
        · rename_i rules he
          cases h; exact .inr ⟨rules, rfl, he, rfl⟩

/-- Anatomy of the composition in the loop. -/
theorem composeStep_spec (cfg : SupCfg K) (c : SupComp K d M) (ev : PoolEval K d M) (entropy : Nat)
    (s s1 : RunState K d M) (r : Option PyErr) (h : composeStep cfg c ev entropy s = (s1, r)) :
    (s1 = s ∧ r = some .indexError ∧ (compositionSeeds entropy cfg.nIter)[s.step]? = none) ∨
    ∃ seed, (compositionSeeds entropy cfg.nIter)[s.step]? = some seed ∧
      ((∃ e, r = some e ∧
          compOptimize cfg.comp (c.initDraw seed) (c.strategy seed s.trace) (ev s.pool) s.pool.length s.comp = .error e ∧
          s1 = { s with trace := s.trace ++ [.compose seed s.pool s.comp] }) ∨
       ∃ comp, r = none ∧
          compOptimize cfg.comp (c.initDraw seed) (c.strategy seed s.trace) (ev s.pool) s.pool.length s.comp = .ok comp ∧
          s1 = { s with trace := s.trace ++ [.compose seed s.pool s.comp], comp := comp }) := by
  unfold composeStep at h
  split at h
  · rename_i hs
    cases h; exact .inl ⟨rfl, rfl, hs⟩
  · rename_i seed hs
    right
    refine ⟨seed, hs, ?_⟩
    dsimp only at h
    split at h
    · rename_i e he
      cases h; exact .inl ⟨e, rfl, he, rfl⟩
    · rename_i comp he
      cases h; exact .inr ⟨comp, rfl, he, rfl⟩

/-- Anatomy of a complete iteration. -/
theorem iteration_spec (cfg : SupCfg K) (c : SupComp K d M) (ev : PoolEval K d M) (entropy : Nat) (X : List (Point K d)) (y : List K)
    (k : Nat) (s s' : RunState K d M) (el : Indiv K) (h : Iteration cfg c ev entropy X y k s s' el) :
    ∃ el0 seed seed' rules comp, cfg.nRules ≠ 0 ∧ s.comp.elitist = .ok el0 ∧
      (discoverySeeds entropy cfg.nIter)[k]? = some seed ∧ (compositionSeeds entropy cfg.nIter)[k]? = some seed' ∧
      c.discover seed s.trace el0 s.pool X y cfg.nRules = .ok rules ∧
      compOptimize cfg.comp (c.initDraw seed') (c.strategy seed' (s.trace ++ [.discover seed el0 s.pool cfg.nRules]))
        (ev (s.pool ++ rules)) (s.pool ++ rules).length s.comp = .ok comp ∧
      comp.elitist = .ok (some el) ∧
      s' = { pool := s.pool ++ rules, comp := comp, step := k, counter := (checkEarlyStopping cfg el.fitnessD s.counter).1,
             trace := s.trace ++ [.discover seed el0 s.pool cfg.nRules, .compose seed' (s.pool ++ rules) s.comp,
                                  .composed (s.pool ++ rules) comp el] } := by
  obtain ⟨s1, s2, h1, h2, h3, rfl⟩ := h
  rcases discoverStep_spec _ _ _ _ _ _ _ _ _ h1 with ⟨_, e, he, _⟩ | ⟨el0, seed, a1, a2, a3, ⟨e, he, _⟩ | ⟨rules, _, a4, rfl⟩⟩
  · cases he
  · cases he
  · rcases composeStep_spec _ _ _ _ _ _ _ h2 with ⟨_, he, _⟩ | ⟨seed', b1, ⟨e, he, _⟩ | ⟨comp, _, b2, rfl⟩⟩
    · cases he
    · cases he
    · refine ⟨el0, seed, seed', rules, comp, a3, a1, a2, b1, a4, b2, h3, ?_⟩
      simp

end Suprb
