import Verif.Props.NoveltyFit
import Verif.Props.Search

/-!
# Claim C30 for whole runs: the rules in the pool of any fit

The theorems of Props/Discovery.lean and Props/NoveltyRules.lean are about single calls of rule discovery, those of C79 about runs which are known to complete. Here: the pool that
*any* fit leaves behind — completed, failed or aborted by an exception, with or without cleanup, for all settings and draws, possible or not.
-/

set_option autoImplicit false
set_option linter.unusedSectionVars false

namespace Suprb

open _root_.Spec (Pairs Point)

variable {K : Type} [Field K] [LinearOrder K] [IsStrictOrderedRing K] {d : Nat} {M : Type}

theorem discoverStep_good (cfg : SupCfg K) (c : SupComp K d M) (entropy : Nat) (X : List (Point K d)) (y : List K) (good : Rule K d M → Prop)
    (hdisc : ∀ seed hist el pool n rules, c.discover seed hist el pool X y n = .ok rules → ∀ ρ ∈ rules, good ρ) (n : Nat)
    (s s1 : RunState K d M) (r : Option PyErr) (hs : ∀ ρ ∈ s.pool, good ρ) (h : discoverStep cfg c entropy X y n s = (s1, r)) : ∀ ρ ∈ s1.pool, good ρ := by
  rcases discoverStep_spec _ _ _ _ _ _ _ _ _ h with ⟨rfl, _⟩ | ⟨el, seed, a1, _, _, ⟨_, _, _, rfl⟩ | ⟨rules, _, hr, rfl⟩⟩
  · exact hs
  · exact hs
  · intro ρ hρ
    rcases List.mem_append.mp hρ with hρ | hρ
    · exact hs ρ hρ
    · exact hdisc _ _ _ _ _ _ hr ρ hρ

theorem composeStep_pool (cfg : SupCfg K) (c : SupComp K d M) (ev : PoolEval K d M) (entropy : Nat)
    (s s1 : RunState K d M) (r : Option PyErr) (h : composeStep cfg c ev entropy s = (s1, r)) : s1.pool = s.pool := by
  rcases composeStep_spec _ _ _ _ _ _ _ h with ⟨rfl, _⟩ | ⟨seed, _, ⟨_, _, _, rfl⟩ | ⟨_, _, _, rfl⟩⟩ <;> rfl

theorem run_good (cfg : SupCfg K) (c : SupComp K d M) (ev : PoolEval K d M) (entropy : Nat) (X : List (Point K d)) (y : List K) (step0 : Nat) (good : Rule K d M → Prop)
    (hdisc : ∀ seed hist el pool n rules, c.discover seed hist el pool X y n = .ok rules → ∀ ρ ∈ rules, good ρ) :
    ∀ ρ ∈ (runFit cfg c ev entropy X y step0).state.pool, good ρ := by
  have h0 : ∀ ρ ∈ (startState cfg step0 : RunState K d M).pool, good ρ := by simp [startState]
  have hc : ∀ (s s1 : RunState K d M) r, (∀ ρ ∈ s.pool, good ρ) → composeStep cfg c ev entropy s = (s1, r) → ∀ ρ ∈ s1.pool, good ρ := by
    intro s s1 r hs h
    rw [composeStep_pool _ _ _ _ _ _ _ h]
    exact hs
  have hd := discoverStep_good cfg c entropy X y good hdisc
  have hit : ∀ k (s s' : RunState K d M) el, (∀ ρ ∈ s.pool, good ρ) → Iteration cfg c ev entropy X y k s s' el → ∀ ρ ∈ s'.pool, good ρ := by
    intro k s s' el hs h
    obtain ⟨s1, s2, h1, h2, _, rfl⟩ := h
    exact hc s1 s2 _ (hd _ { s with step := k } _ _ hs h1) h2
  exact runFit_ind cfg c ev entropy X y step0 (fun _ s => ∀ ρ ∈ s.pool, good ρ) (fun o => ∀ ρ ∈ o.state.pool, good ρ)
    (fun _ => h0) (fun s _ h => hd _ _ _ _ h0 h) (fun s e _ h => hd _ _ _ _ h0 h)
    (fun s h => h) (fun k rest s s1 e hs h => hd _ { s with step := k } _ _ hs h)
    (fun k rest s s1 s2 e hs h h' => hc _ _ _ (hd _ { s with step := k } _ _ hs h) h')
    (fun k rest s s1 s2 e hs h h' _ => hc _ _ _ (hd _ { s with step := k } _ _ hs h) h')
    (fun k rest s s' el hs h _ => hit k s s' el hs h) (fun k rest s s' el hs h _ => hit k s s' el hs h)

theorem finishFit_mem (st : SupState K d M) (cl : Bool) (s : RunState K d M) : ∀ ρ ∈ (finishFit st cl s).state.pool, ρ ∈ s.pool := by
  intro ρ hρ
  cases cl with
  | false => rwa [finishFit_pool] at hρ
  | true =>
    unfold finishFit at hρ
    split at hρ
    · exact hρ
    · exact hρ
    · split at hρ
      · exact hρ
      · rename_i b _
        dsimp only at hρ
        rw [if_pos rfl] at hρ
        split at hρ
        · exact hρ
        · rename_i τ hτ
          unfold cleanup Solution.subpopulation at hτ
          by_cases hl : b.genome.length = s.pool.length
          · rw [if_pos hl] at hτ
            cases hτ
            exact mem_of_mem_compress hρ
          · rw [if_neg hl] at hτ
            cases hτ

/-- C30, for any components: what holds for all rules that rule discovery returns during the fit holds for all rules in the pool that the fit leaves behind. -/
theorem C30_run (cfg : SupCfg K) (c : SupComp K d M) (entropy : Nat) (raw : RawData K d) (hraw : raw.check = .ok (raw.X, raw.y)) (cl : Bool) (st0 : SupState K d M)
    (good : Rule K d M → Prop) (hdisc : ∀ seed hist el pool n rules, c.discover seed hist el pool raw.X raw.y n = .ok rules → ∀ ρ ∈ rules, good ρ) :
    ∀ ρ ∈ (st0.fit cfg c entropy raw cl).state.pool, good ρ := by
  have h := run_good cfg c (runEval cfg c raw.X raw.y) entropy raw.X raw.y st0.step good hdisc
  unfold SupState.fit SupState.fitWith
  rw [hraw]
  dsimp only
  split
  · rename_i s hs
    rw [hs] at h; exact h
  · rename_i s e hs
    rw [hs] at h; exact h
  · rename_i s hs
    rw [hs] at h
    exact fun ρ hρ => h ρ (finishFit_mem _ _ _ ρ hρ)

theorem check_lengths (raw : RawData K d) (hraw : raw.check = .ok (raw.X, raw.y)) : raw.y.length = raw.X.length := by
  unfold RawData.check at hraw
  split at hraw
  · rename_i h; exact h.2.1.symm
  · cases hraw

/-- What acceptance by `Variance(beta)` means for a rule of the pool: trained on the data, at least one training sample inside, and a mean squared error on the samples inside of at most
the mean of their squared targets divided by `beta`. -/
def Spec.AcceptedRule (L : Learner K d M) (X : List (Point K d)) (y : List K) (beta : K) (ρ : Rule K d M) : Prop :=
  (∃ x ∈ X, ρ.kind.call ρ.bounds x = true) ∧ DescribesData L ρ X y ∧
    ∃ m, ρ.model = some m ∧ meanSqErr (L.predict m) (matchedData ρ X y) ≤ ((matchedData ρ X y).map fun q => q.2 ^ 2).sum / ((matchedData ρ X y).length : K) / beta

theorem acceptedRule_of (L : Learner K d M) (X : List (Point K d)) (y : List K) (hxy : y.length = X.length) (beta : K) (hb : 0 < beta)
    (ρ : Rule K d M) (ht : ρ.TrainedOn L X y) (h : acceptVariance beta y ρ = .ok true) : Spec.AcceptedRule L X y beta ρ := by
  obtain ⟨hm, s, m, e, _, hmod, _, h1, h2⟩ := C30_variance L X y hxy beta hb ρ ht h
  exact ⟨hm, ht.2 hm, m, hmod, h2.trans h1⟩

/-- C30 for every fit with the default components: the evolution strategy, for all settings with a positive `beta` and all numbers drawn. -/
theorem C30_run_es (cfg : SupCfg K) (es : ESCfg K) (hb : 0 < es.beta) (ga : GACfg K) (D : RunDraws K d M) (L : Learner K d M) (ff : RuleFitness K d) (sf : Nat → SolFitness K)
    (entropy : Nat) (raw : RawData K d) (hraw : raw.check = .ok (raw.X, raw.y)) (cl : Bool) (st0 : SupState K d M) :
    ∀ ρ ∈ (st0.fit cfg (defaultComp es ga D L ff sf) entropy raw cl).state.pool, Spec.AcceptedRule L raw.X raw.y es.beta ρ := by
  have hxy := check_lengths raw hraw
  refine C30_run cfg _ entropy raw hraw cl st0 _ fun seed hist el pool n rules h ρ hρ => ?_
  change esDiscover es L ff (D.origins seed hist raw.X.length n) (D.children seed hist) el pool raw.X raw.y n = .ok rules at h
  unfold esDiscover at h
  split at h
  · cases h
  · split at h
    · cases h
    · obtain ⟨h1, h2⟩ := C30_es_rules L ff raw.X raw.y hxy _ _ _ _ _ _ _ _ _ _ rules h ρ hρ
      exact acceptedRule_of L raw.X raw.y hxy es.beta hb ρ h1 h2

/-- C30 for every fit with random search as rule discovery. -/
theorem C30_run_rs (cfg : SupCfg K) (rs : RSCfg K) (hb : 0 < rs.beta) (ga : GACfg K) (R : Seed → List (Event K d M) → RSDraws K d) (D : RunDraws K d M) (L : Learner K d M)
    (ff : RuleFitness K d) (sf : Nat → SolFitness K) (entropy : Nat) (raw : RawData K d) (hraw : raw.check = .ok (raw.X, raw.y)) (cl : Bool) (st0 : SupState K d M) :
    ∀ ρ ∈ (st0.fit cfg (rsComp rs ga R D L ff sf) entropy raw cl).state.pool, Spec.AcceptedRule L raw.X raw.y rs.beta ρ := by
  have hxy := check_lengths raw hraw
  refine C30_run cfg _ entropy raw hraw cl st0 _ fun seed hist el pool n rules h ρ hρ => ?_
  change rsDiscover rs L ff ⟨.plain, 1⟩ filterAll (R seed hist) el pool raw.X raw.y n = .ok rules at h
  unfold rsDiscover at h
  split at h
  · cases h
  · rename_i fb hfb
    split at h
    · cases h
    · rename_i groups hgroups
      unfold randomSearch at h
      split at h
      · cases h
      · rename_i out hout
        obtain ⟨h1, h2⟩ := filterInvalid_mem _ _ rules h ρ hρ
        refine acceptedRule_of L raw.X raw.y hxy rs.beta hb ρ ?_ h2
        obtain ⟨ρ', h3, h4⟩ := List.mem_map.mp h1
        injection h4 with h4
        subst h4
        obtain ⟨o, ho, hρo⟩ := List.mem_flatten.mp h3
        obtain ⟨g, hg, hs⟩ := mem_of_mapM_ok _ _ _ hout o ho
        obtain ⟨g', hg', rfl⟩ := List.mem_map.mp hg
        have h5 : ρ' ∈ g' := by
          change ruleFittest g' 1 = .ok o at hs
          unfold ruleFittest at hs
          split at hs
          · cases hs
            exact (sortedDesc_perm ruleFitnessOf g').subset (List.mem_of_mem_take hρo)
          · cases hs
        obtain ⟨i, _, hi⟩ := mem_of_mapM_ok _ _ _ hgroups g' hg'
        unfold rsGroup at hi
        split at hi
        · cases hi
        · obtain ⟨p, _, hp⟩ := mem_of_mapM_ok _ _ _ hi _ h5
          unfold rsRule at hp
          split at hp
          · cases hp
          · exact trainedOn_of_fit L ff raw.X raw.y hxy _ _ rfl hp

/-- C30 for every fit with novelty search as rule discovery. -/
theorem C30_run_ns (cfg : SupCfg K) (p : NSParams K) (hb : 0 < p.beta) (ga : GACfg K) (S : Seed → List (Event K d M) → NSDraws K d M) (D : RunDraws K d M) (L : Learner K d M)
    (ff : RuleFitness K d) (sf : Nat → SolFitness K) (entropy : Nat) (raw : RawData K d) (hraw : raw.check = .ok (raw.X, raw.y)) (cl : Bool) (st0 : SupState K d M) :
    ∀ ρ ∈ (st0.fit cfg (nsComp p ga S D L ff sf) entropy raw cl).state.pool, Spec.AcceptedRule L raw.X raw.y p.beta ρ := by
  have hxy := check_lengths raw hraw
  refine C30_run cfg _ entropy raw hraw cl st0 _ fun seed hist el pool n rules h ρ hρ => ?_
  change nsDiscover p L ff ⟨.plain, 1⟩ filterAll (S seed hist) el pool raw.X raw.y n = .ok rules at h
  unfold nsDiscover at h
  split at h
  · cases h
  · split at h
    · cases h
    · obtain ⟨h1, h2, _⟩ := (C30_ns_rules L ff raw.X raw.y hxy _ _ _ _ _ _ _ _ _ _ rules h).2 ρ hρ
      exact acceptedRule_of L raw.X raw.y hxy p.beta hb ρ h1 h2

/-- A run that fails: the population of the genetic algorithm is empty, so the composition after the first discovery raises an exception. Its pool still has only accepted rules. -/
def brokenGA : GACfg ℚ := { smallGA with populationSize := 0 }
def brokenCfg : SupCfg ℚ := { smallCfg with comp := { smallCfg.comp with populationSize := 0 } }

example : let r := SupState.fit brokenCfg (defaultComp smallES brokenGA (firstDraws 2 1 (1 / 2)) meanLearner negErr fun _ _ _ c => c) 7 ⟨[![0], ![1], ![5]], [1, 3, 7], true⟩ false {}
    r.state.isError = true ∧ r.state.pool.length = 1 := by decide +kernel

/-- The pool of the completed run of the example in Props/Default.lean. -/
example : (SupState.fit smallCfg (defaultComp smallES smallGA (firstDraws 2 1 (1 / 2)) meanLearner negErr fun _ _ _ c => c) 7
    ⟨[![0], ![1], ![5]], [1, 3, 7], true⟩ false {}).state.pool.map (fun ρ => (ρ.bounds 0, ρ.model)) =
      [((0, 1 / 2000000), some 1), ((1999999 / 2000000, 2000001 / 2000000), some 3)] := by decide +kernel

end Suprb
