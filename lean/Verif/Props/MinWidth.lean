import Verif.Props.Parts
import Verif.Props.PoolRules
import Verif.Lemmas.Objects

/-!
# Claim C04 for whole training runs

The minimum range holds in the pool for every dimension of an ordered rule that touches neither end of the training data, whatever the rule discovery.
-/

set_option autoImplicit false
set_option linter.unusedSectionVars false

namespace Suprb
open _root_.Spec (Pairs Point InBox InBounds Ordered Inside)

variable {K : Type} [Field K] [LinearOrder K] [IsStrictOrderedRing K] {d : Nat} {M : Type}

/-- Dimension `i` of the interval has training samples on both sides. -/
def Spec.Between (X : List (Point K d)) (b : Pairs K d) (i : Fin d) : Prop := (∃ x ∈ X, x i < (b i).1) ∧ ∃ x ∈ X, (b i).2 < x i

/-- An interval that was constrained has the minimum range in every dimension that is not cut off. -/
theorem constrain_width (r : K) (fb b : Pairs K d) (hb : Ordered b) (i : Fin d) (h1 : (fb i).1 < (constrain .ordered r fb b i).1) (h2 : (constrain .ordered r fb b i).2 < (fb i).2) :
    r ≤ (constrain .ordered r fb b i).2 - (constrain .ordered r fb b i).1 := by
  have hw : r ≤ (OrderedBound.minRange r b i).2 - (OrderedBound.minRange r b i).1 := by
    by_cases hr : 0 < r
    · exact C04_minRange_partial r b hb i hr
    · unfold OrderedBound.minRange
      rw [if_neg hr]
      have := hb i
      linarith [not_lt.mp hr]
  change r ≤ npClip (fb i).1 (fb i).2 (OrderedBound.minRange r b i).2 - npClip (fb i).1 (fb i).2 (OrderedBound.minRange r b i).1
  change (fb i).1 < npClip (fb i).1 (fb i).2 (OrderedBound.minRange r b i).1 at h1
  change npClip (fb i).1 (fb i).2 (OrderedBound.minRange r b i).2 < (fb i).2 at h2
  unfold npClip at h1 h2 ⊢
  have e1 : min (max (OrderedBound.minRange r b i).1 (fb i).1) (fb i).2 ≤ (OrderedBound.minRange r b i).1 := by
    rcases le_total (OrderedBound.minRange r b i).1 (fb i).1 with h | h
    · rw [max_eq_right h] at h1
      exact absurd h1 (not_lt.mpr (min_le_left _ _))
    · rw [max_eq_left h]; exact min_le_left _ _
  have e2 : (OrderedBound.minRange r b i).2 ≤ min (max (OrderedBound.minRange r b i).2 (fb i).1) (fb i).2 := by
    rcases le_total (max (OrderedBound.minRange r b i).2 (fb i).1) (fb i).2 with h | h
    · rw [min_eq_left h]; exact le_max_left _ _
    · rw [min_eq_right h] at h2; exact absurd h2 (lt_irrefl _)
  linarith

/-- The bounds of the rule are constrained ones, if it is an ordered rule. -/
def Cut (r : K) (fb : Pairs K d) (ρ : Rule K d M) : Prop := ρ.kind = .ordered → ∃ b, Ordered b ∧ ρ.bounds = constrain .ordered r fb b

theorem Cut.width {r : K} {fb : Pairs K d} {ρ : Rule K d M} (h : Cut r fb ρ) {X : List (Point K d)} (hfb : estimateBounds X = .ok fb) (hk : ρ.kind = .ordered) (i : Fin d)
    (hi : Spec.Between X ρ.bounds i) : r ≤ (ρ.bounds i).2 - (ρ.bounds i).1 := by
  obtain ⟨b, hb, e⟩ := h hk
  obtain ⟨⟨x, hx, hlo⟩, x', hx', hhi⟩ := hi
  obtain ⟨fb', h1, hin, _⟩ := estimateBounds_ok X (List.ne_nil_of_mem hx)
  rw [hfb] at h1; cases h1
  rw [e] at hlo hhi ⊢
  exact constrain_width r fb b hb i ((hin x hx i).1.trans_lt hlo) (hhi.trans_le (hin x' hx' i).2)

theorem cut_of_fit (L : Learner K d M) (ff : RuleFitness K d) (X : List (Point K d)) (y : List K) (r : K) (fb : Pairs K d) (ρ ρ' : Rule K d M) (h : Cut r fb ρ)
    (hf : ρ.fit L ff X y = .ok ρ') : Cut r fb ρ' := by
  obtain ⟨h1, h2, _⟩ := fit_sameShape L ff X y ρ ρ' hf
  intro hk
  obtain ⟨b, hb, e⟩ := h (h1.symm.trans hk)
  exact ⟨b, hb, h2.trans e⟩

theorem mutate_sorted (m : Mutation) (z b b' : Pairs K d) (h : mutate m .ordered z b = .ok b') : Ordered b' := by
  have hsort : ∀ b : Pairs K d, Ordered (sortRows b) := fun b i => le_trans (min_le_left _ _) (le_max_left _ _)
  cases m <;> (injection h with h; rw [← h]; exact hsort _)

theorem childRule_cut (L : Learner K d M) (ff : RuleFitness K d) (X : List (Point K d)) (y : List K) (m : Mutation) (r : K) (fb : Pairs K d) (ρ c : Rule K d M) (z : Pairs K d)
    (h : childRule L ff X y m r fb ρ z = .ok c) : Cut r fb c := by
  unfold childRule childBounds at h
  split at h
  · cases h
  · rename_i b hb
    split at hb
    · rename_i b' hm
      injection hb with hb
      refine cut_of_fit L ff X y r fb _ c (fun hk => ?_) h
      change ρ.kind = .ordered at hk
      rw [hk] at hm hb
      exact ⟨b', mutate_sorted m z _ b' hm, hb.symm⟩
    · cases hb

theorem callMutation_sorted (c : MutationCfg) (z b b' : Pairs K d) (h : callMutation c ⟨some c.sigma, some .ordered⟩ z b = .ok b') : Ordered b' :=
  mutate_sorted c.m z b b' ((callMutation_iff c .ordered z b b' (.inl rfl)).mp h).1

/-- The smallest width asked for. -/
def DiscoveryPart.minRange : DiscoveryPart K d M → K
  | .es cfg .. => cfg.minRange
  | .rs cfg _ => cfg.minRange
  | .ns cfg _ => cfg.minRange

/-- Half-normal draws are not negative. -/
def DiscoveryPart.HalfnormOk : DiscoveryPart K d M → Prop
  | .es cfg _ inits _ => ∀ σ, cfg.init = .halfnorm σ → ∀ seed hist k i, 0 ≤ (inits seed hist k i).1 ∧ 0 ≤ (inits seed hist k i).2
  | .rs _ draws => ∀ seed hist g k i, 0 ≤ ((draws seed hist).init g k i).1 ∧ 0 ≤ ((draws seed hist).init g k i).2
  | .ns .. => True

theorem kindDiscover_cut (cfg : KindCfg K) (L : Learner K d M) (ff : RuleFitness K d) (draw : Option (List K) → List Nat) (inits : Nat → Pairs K d)
    (hinits : ∀ σ, cfg.init = .halfnorm σ → ∀ k i, 0 ≤ (inits k i).1 ∧ 0 ≤ (inits k i).2)
    (children : Nat → Nat → Nat → Pairs K d) (elitist : Option (Indiv K)) (pool : List (Rule K d M)) (X : List (Point K d)) (y : List K) (n : Nat) (rules : List (Rule K d M))
    (h : kindDiscover cfg ⟨some cfg.mutation.sigma, some cfg.kind⟩ L ff draw inits children elitist pool X y n = .ok rules) (fb : Pairs K d) (hfb : estimateBounds X = .ok fb) :
    ∀ ρ ∈ rules, Cut cfg.minRange fb ρ := by
  unfold kindDiscover at h
  rw [hfb] at h
  dsimp only at h
  split at h
  · cases h
  · rename_i origins _
    unfold discoverRules at h
    split at h
    · cases h
    · rename_i initial hi
      split at h
      · cases h
      · rename_i raw ho
        intro ρ hρ
        obtain ⟨h1, _⟩ := filterInvalid_mem _ raw rules h ρ hρ
        obtain ⟨p, hp1, hp2⟩ := mem_of_mapM_ok _ _ _ ho (some ρ) h1
        have hp3 := (List.of_mem_zip (show (p.1, p.2) ∈ initial.zip _ from hp1)).1
        obtain ⟨o, ho1, ho2⟩ := mem_of_mapM_ok _ _ _ hi p.1 hp3
        have hinit : p.1.kind = cfg.kind ∧ Cut cfg.minRange fb p.1 := by
          unfold kindInitial at ho2
          split at ho2
          · cases ho2
          · rename_i b hb
            refine ⟨(fit_sameShape L ff X y _ _ ho2).1, cut_of_fit L ff X y _ fb _ _ (fun hk => ?_) ho2⟩
            change cfg.kind = .ordered at hk
            rw [hk] at hb ⊢
            refine ⟨b, ?_, rfl⟩
            obtain ⟨k, _, hk2⟩ := List.mem_map.mp (List.of_mem_zip (show (o.1, o.2) ∈ origins.zip _ from ho1)).2
            cases hc : cfg.init with
            | mean =>
              rw [hc] at hb
              injection hb with hb
              rw [← hb]; exact meanInit_ordered o.1
            | normal σ =>
              rw [hc] at hb
              change ((broadcastTo σ d).bind fun _ => Except.ok (normalInit .ordered o.2)) = .ok b at hb
              cases hbr : broadcastTo σ d with
              | error e => rw [hbr] at hb; cases hb
              | ok u =>
                rw [hbr] at hb
                injection hb with hb
                rw [← hb]
                exact fun i => le_trans (min_le_left _ _) (le_max_left _ _)
            | halfnorm σ =>
              rw [hc] at hb
              change ((broadcastTo σ d).bind fun _ => halfnormInit .ordered o.1 o.2) = .ok b at hb
              cases hbr : broadcastTo σ d with
              | error e => rw [hbr] at hb; cases hb
              | ok u =>
                rw [hbr] at hb
                injection hb with hb
                rw [← hb]
                intro i
                have := hinits σ hc k i
                rw [hk2] at this
                dsimp only
                linarith [this.1, this.2]
        have hres : ∀ τ, esOptimize (kindES cfg ⟨some cfg.mutation.sigma, some cfg.kind⟩ L ff X y fb) p.2 p.1 = .ok τ → τ.kind = cfg.kind ∧ Cut cfg.minRange fb τ := by
          intro τ hτ
          refine esLoop_inv (kindES cfg ⟨some cfg.mutation.sigma, some cfg.kind⟩ L ff X y fb) (fun l _ ρ h => (fittestFirst_mem _ l ρ h).1) (fun _ => True)
            (fun τ => τ.kind = cfg.kind ∧ Cut cfg.minRange fb τ) ?_ p.2 (fun _ _ _ _ => trivial) p.1 [] hinit (by simp) τ hτ
          rintro e c ⟨he1, _⟩ ⟨z, _, hc, _⟩
          change kindChild cfg _ L ff X y fb e z = .ok c at hc
          unfold kindChild at hc
          split at hc
          · cases hc
          · rename_i b hb
            refine ⟨(fit_sameShape L ff X y _ _ hc).1.trans he1, cut_of_fit L ff X y _ fb _ c (fun hk => ?_) hc⟩
            change e.kind = .ordered at hk
            rw [he1] at hk
            rw [hk] at hb
            refine ⟨b, callMutation_sorted cfg.mutation z e.bounds b hb, ?_⟩
            change constrain e.kind cfg.minRange fb b = _
            rw [he1, hk]
        beta_reduce at hp2
        cases he : esOptimize (kindES cfg ⟨some cfg.mutation.sigma, some cfg.kind⟩ L ff X y fb) p.2 p.1 with
        | error e => rw [he] at hp2; cases hp2
        | ok τ =>
          rw [he] at hp2
          change Except.ok (some τ) = Except.ok (some ρ) at hp2
          injection hp2 with hp2
          injection hp2 with hp2
          rw [← hp2]
          exact (hres τ he).2

theorem rsDiscover_cut (cfg : RSCfg K) (L : Learner K d M) (ff : RuleFitness K d) (P : MixParams K) (filt : SubFilter K d M) (D : RSDraws K d)
    (hD : ∀ g k i, 0 ≤ (D.init g k i).1 ∧ 0 ≤ (D.init g k i).2) (elitist : Option (Indiv K)) (pool : List (Rule K d M)) (X : List (Point K d)) (y : List K) (n : Nat)
    (rules : List (Rule K d M)) (h : rsDiscover cfg L ff P filt D elitist pool X y n = .ok rules) (fb : Pairs K d) (hfb : estimateBounds X = .ok fb) :
    ∀ ρ ∈ rules, Cut cfg.minRange fb ρ := by
  intro ρ hρ
  unfold rsDiscover at h
  rw [hfb] at h
  dsimp only at h
  split at h
  · cases h
  · rename_i groups hgroups
    unfold randomSearch at h
    split at h
    · cases h
    · rename_i out hout
      obtain ⟨h1, _⟩ := filterInvalid_mem _ _ rules h ρ hρ
      obtain ⟨ρ', h3, h4⟩ := List.mem_map.mp h1
      injection h4 with h4
      subst h4
      obtain ⟨o, ho, hρo⟩ := List.mem_flatten.mp h3
      obtain ⟨g, hg, hs⟩ := mem_of_mapM_ok _ _ _ hout o ho
      obtain ⟨g', hg', rfl⟩ := List.mem_map.mp hg
      have h5 : ρ' ∈ g' := by
        change ruleFittest g' 1 = .ok o at hs
        unfold ruleFittest at hs
        split at hs
        · cases hs
          exact (sortedDesc_perm ruleFitnessOf g').subset (List.mem_of_mem_take hρo)
        · cases hs
      obtain ⟨i, _, hi⟩ := mem_of_mapM_ok _ _ _ hgroups g' hg'
      unfold rsGroup at hi
      split at hi
      · cases hi
      · obtain ⟨p, _, hp⟩ := mem_of_mapM_ok _ _ _ hi _ h5
        unfold rsRule halfnormInit at hp
        dsimp only at hp
        refine cut_of_fit L ff X y _ fb _ _ (fun _ => ⟨_, fun j => ?_, rfl⟩) hp
        have := hD i p.2 j
        dsimp only
        linarith [this.1, this.2]

theorem nsDiscover_cut (p : NSParams K) (L : Learner K d M) (ff : RuleFitness K d) (P : MixParams K) (filt : SubFilter K d M) (D : NSDraws K d M) (elitist : Option (Indiv K))
    (pool : List (Rule K d M)) (X : List (Point K d)) (y : List K) (n : Nat) (rules : List (Rule K d M)) (h : nsDiscover p L ff P filt D elitist pool X y n = .ok rules)
    (fb : Pairs K d) (hfb : estimateBounds X = .ok fb) : ∀ ρ ∈ rules, Cut p.minRange fb ρ := by
  intro ρ hρ
  unfold nsDiscover at h
  rw [hfb] at h
  dsimp only at h
  split at h
  · cases h
  · obtain ⟨_, _, A, B, z, cs, hb, hm⟩ := (C78_returned _ _ _ _ _ _ _ _ _ _ h).2 ρ hρ
    unfold breedRules at hb
    split at hb
    · cases hb
    · split at hb
      · cases hb
      · rename_i c1 h1
        split at hb
        · cases hb
        · rename_i c2 h2
          injection hb with hb
          rw [← hb] at hm
          rcases List.mem_cons.mp hm with rfl | hm
          · exact childRule_cut _ _ _ _ _ _ _ _ _ _ h1
          · rw [List.mem_singleton.mp hm]; exact childRule_cut _ _ _ _ _ _ _ _ _ _ h2

/-- C04 (partial): after every fit (completed, failed or aborted), with every rule discovery, composition method and mixing model and all random numbers, each dimension of each ordered rule of the
pool that has training samples on both sides is at least the minimum range wide. Missing: the dimensions of rules at the edge of the training data, for which it is false, see `C04_pool_refuted`. -/
theorem C04_pool_partial (cfg : SupCfg K) (D : DiscoveryPart K d M) (hD : D.HalfnormOk) (C : CompositionPart K d M) (P : MixParams K) (init : Seed → Nat → Nat → K) (L : Learner K d M)
    (ff : RuleFitness K d) (sf : Nat → SolFitness K) (entropy : Nat) (raw : RawData K d) (hraw : raw.check = .ok (raw.X, raw.y)) (cl : Bool) (st0 : SupState K d M) :
    ∀ ρ ∈ (partsFit cfg D C P init L ff sf entropy raw cl st0).state.pool, ρ.kind = .ordered → ∀ i, Spec.Between raw.X ρ.bounds i →
      D.minRange ≤ (ρ.bounds i).2 - (ρ.bounds i).1 := by
  obtain ⟨fb, hfb, _⟩ := estimateBounds_ok raw.X (check_ok raw _ _ hraw).2.2.2.1
  intro ρ hρ hk i hi
  unfold partsFit at hρ
  rw [hraw] at hρ
  dsimp only at hρ
  split at hρ
  · cases hρ
  · refine Cut.width (r := D.minRange) (C30_run cfg _ entropy raw hraw cl st0 (Cut D.minRange fb) ?_ ρ hρ) hfb hk i hi
    intro seed hist el pool n rules h
    cases D with
    | es es o inits c => exact kindDiscover_cut es L ff _ _ (fun σ hσ k i => hD σ hσ seed hist k i) _ _ _ _ _ _ _ h fb hfb
    | rs rs draws => exact rsDiscover_cut rs L ff P filterAll _ (hD seed hist) _ _ _ _ _ _ h fb hfb
    | ns ns draws => exact nsDiscover_cut ns L ff P filterAll _ _ _ _ _ _ _ h fb hfb

/-- Example: random search meets the hypothesis, and the run finds a rule around the middle one of three training samples; it has exactly the minimum range. -/
example :
    let D : DiscoveryPart ℚ 1 ℚ := .rs RSCfg.default fun _ _ => plainDraws 7
    D.HalfnormOk ∧
      (partsFit smallCfg D (.gwo .crossover (fun x => x) 3 fun _ _ => [demoWolf 1, demoWolf 0]) ⟨.plain, 2⟩ (fun _ _ _ => 0) meanLearner negErr (fun _ _ _ c => c) 7
        ⟨[![0], ![1 / 2], ![5]], [1, 3, 7], true⟩ false {}).state.pool.map (fun ρ => (ρ.kind, ρ.bounds 0)) =
      [(.ordered, 0, 1 / 2000000), (.ordered, 999999 / 2000000, 1000001 / 2000000)] :=
  ⟨fun _ _ _ _ _ => ⟨le_refl _, le_refl _⟩, by decide +kernel⟩

/-- C04 (refuted in whole runs): a rule found with a minimum range of 1e-6 around the smallest training sample has only half of that width. -/
theorem C04_pool_refuted :
    let r := SupState.fit smallCfg (defaultComp smallES smallGA (firstDraws 2 1 (1 / 2)) meanLearner negErr fun _ _ _ c => c) 7 ⟨[![0], ![1], ![5]], [1, 3, 7], true⟩ false {}
    r.raised = none ∧ r.state.isError = false ∧ smallES.minRange = 1 / 1000000 ∧ ∃ ρ ∈ r.state.pool, ρ.kind = .ordered ∧ (ρ.bounds 0).2 - (ρ.bounds 0).1 = 1 / 2000000 := by
  decide +kernel

end Suprb
