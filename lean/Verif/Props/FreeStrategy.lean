import Verif.Props.ConfiguredES
import Verif.Props.FreeES

/-!
# C31, C33 and C34 for the evolution strategy with all of its settings

Any selection, constraint, initialisation and mutation, and a mutation object in any state.
-/

set_option autoImplicit false
set_option linter.unusedSectionVars false

namespace Suprb

open _root_.Spec (Pairs Point InBounds)

variable {K : Type} [Field K] [LinearOrder K] [IsStrictOrderedRing K] {d : Nat} {M : Type}

/-- C31: with operator `+` and fittest selection, for every initialisation, mutation and constraint: the returned rule has a fitness, and it is at least that of the initial rule. -/
theorem C31_settings (cfg : FreeES K d) (hop : cfg.operator = .plus) (hsel : cfg.selection = .fittest) (o : OperatorObj) (L : Learner K d M) (ff : RuleFitness K d) (X : List (Point K d))
    (y : List K) (fb : Pairs K d) (gens : List (List (Pairs K d) × SelectDraw K)) (initial ρ : Rule K d M) (f : K) (hf : initial.HasFitness f)
    (h : esOptimize (freeES cfg o L ff X y fb) gens initial = .ok ρ) : ∃ f', ρ.HasFitness f' ∧ f ≤ f' := by
  refine hasFitness_of_le _ _ _ hf (esLoop_plus_mono (freeES cfg o L ff X y fb) hop (fun l s r hr => ?_) gens initial [] ρ h)
  refine fittestFirst_mem ruleFitnessOf l r ?_
  have h1 : cfg.selection.first l s = .ok r := hr
  rw [hsel] at h1
  exact h1

/-- What a child is: the mutated and constrained bounds, trained on the data. -/
theorem movedRule_shape (m : MutationCfg) (c : ConstraintCfg K d) (o : OperatorObj) (L : Learner K d M) (ff : RuleFitness K d) (X : List (Point K d)) (y : List K) (hxy : y.length = X.length)
    (fb : Pairs K d) (ρ τ : Rule K d M) (z : Pairs K d) (h : movedRule m c o L ff X y fb ρ z = .ok τ) :
    τ.kind = ρ.kind ∧ ConsistentWith τ X ∧ ∃ b, callMutation m o z ρ.bounds = .ok b ∧ c.apply fb ρ.kind b = .ok τ.bounds := by
  unfold movedRule at h
  split at h
  · cases h
  · rename_i b hb
    split at h
    · cases h
    · rename_i b' hb'
      obtain ⟨τ', e, hs, hc⟩ := fit_consistent L ff X X y hxy rfl { ρ.clone with bounds := b' } (Or.inl rfl)
      rw [h] at e
      cases e
      exact ⟨hs.1, hc, b, hb, by rw [hb']; exact congrArg Except.ok hs.2.1.symm⟩

/-- C33: for every setting of the evolution strategy, the returned rule is the initial one, or it is trained and matches a training sample. -/
theorem C33_settings (cfg : FreeES K d) (o : OperatorObj) (L : Learner K d M) (ff : RuleFitness K d) (X : List (Point K d)) (y : List K) (hxy : y.length = X.length) (fb : Pairs K d)
    (gens : List (List (Pairs K d) × SelectDraw K)) (initial ρ : Rule K d M) (h : esOptimize (freeES cfg o L ff X y fb) gens initial = .ok ρ) :
    ρ = initial ∨ ρ.MatchesData X := by
  refine esLoop_inv (freeES cfg o L ff X y fb) (fun l s r hr => cfg.selection.first_mem l s r hr) (fun _ => True) (fun ρ => ρ = initial ∨ ρ.MatchesData X) ?_ gens
    (fun _ _ _ _ => trivial) initial [] (Or.inl rfl) (by simp) ρ h
  rintro e c _ ⟨z, _, hc, hv⟩
  exact Or.inr (matchesData_of_validRule c X (movedRule_shape cfg.mutation cfg.constraint o L ff X y hxy fb e c z hc).2.1 hv)

/-- The data lie in the bounds the constraint clips to: its own, or those of the data. -/
def ConstraintCfg.HoldsData (c : ConstraintCfg K d) (fb : Pairs K d) (X : List (Point K d)) : Prop :=
  match c with
  | .minRange _ => True
  | .clip bounds => ∀ x ∈ X, InBounds (bounds.getD fb) x
  | .combined _ bounds => ∀ B, bounds = some B → ∀ x ∈ X, InBounds (B.getD fb) x

theorem clip_keeps (B b : Pairs K d) (x : Point K d) (hx : InBounds B x) (h : Kind.ordered.call b x = true) : Kind.ordered.call (Kind.ordered.clip B b) x = true := by
  simp only [Kind.call, OrderedBound.call_iff] at *
  exact fun i => ⟨npClip_le_of_le (h i).1 (hx i).1, le_npClip_of_le (h i).2 (hx i).2⟩

theorem minRange_keeps (r : K) (b : Pairs K d) (x : Point K d) (h : Kind.ordered.call b x = true) : Kind.ordered.call (Kind.ordered.minRange r b) x = true := by
  simp only [Kind.call, OrderedBound.call_iff] at *
  exact fun i => ⟨le_trans (OrderedBound.minRange_fst_le r b i) (h i).1, le_trans (h i).2 (OrderedBound.le_minRange_snd r b i)⟩

/-- No constraint takes a sample away that lies in its bounds. -/
theorem ConstraintCfg.apply_keeps (c : ConstraintCfg K d) (fb : Pairs K d) (X : List (Point K d)) (hc : c.HoldsData fb X) (b b' : Pairs K d) (h : c.apply fb .ordered b = .ok b') (x : Point K d)
    (hx : x ∈ X) (hb : Kind.ordered.call b x = true) : Kind.ordered.call b' x = true := by
  unfold ConstraintCfg.apply at h
  split at h
  · injection h with h; rw [← h]; exact minRange_keeps _ _ x hb
  · injection h with h; rw [← h]; exact clip_keeps _ _ x (hc x hx) hb
  · injection h with h; rw [← h]; exact clip_keeps _ _ x (hc _ rfl x hx) (minRange_keeps _ _ x hb)
  · cases h

/-- An increase mutation of ordered bounds that does not raise keeps every matched point. -/
theorem callMutation_keeps (m : MutationCfg) (hm : IsIncrease m.m) (sigma : K × K) (z b b' : Pairs K d) (hz : m.m.DrawOk .ordered sigma z)
    (h : callMutation m ⟨some m.sigma, some .ordered⟩ z b = .ok b') (x : Point K d) (hb : Kind.ordered.call b x = true) : Kind.ordered.call b' x = true := by
  have hnn : ∀ i, 0 ≤ (z i).1 ∧ 0 ≤ (z i).2 := by
    rcases hm with h | h <;> rw [h] at hz
    · exact hz
    · exact fun i => ⟨(hz i).1, (hz i).2.2.1⟩
  have h1 := ((callMutation_iff m .ordered z b b' (Or.inl rfl)).mp h).1
  have h2 : b' = sortRows (growNoise z b) := by
    rcases hm with h | h <;> rw [h] at h1 <;> (injection h1 with h1; exact h1.symm)
  rw [h2]
  simp only [Kind.call, OrderedBound.call_iff] at *
  intro i
  have h := hb i
  have hz1 := (hnn i).1
  have hz2 := (hnn i).2
  simp only [sortRows, growNoise]
  exact ⟨le_trans (min_le_left _ _) (by linarith), le_trans (by linarith) (le_max_right _ _)⟩

/-- C34: ordered bounds, mean or half-normal initialisation and increase mutation, with every selection and constraint that does not clip the data away: a run of the evolution strategy that returns
a rule returns one that matches the origin and every training sample that its initial rule matched; it is trained and its experience is positive. For every operator, delay, number of generations
and children, and all draws. -/
theorem C34_settings (cfg : FreeES K d) (hk : cfg.kind = .ordered) (hm : IsIncrease cfg.mutation.m) (sigma : K × K) (L : Learner K d M) (ff : RuleFitness K d) (X : List (Point K d))
    (y : List K) (hxy : y.length = X.length) (fb : Pairs K d) (hfb : cfg.constraint.HoldsData fb X) (origin : Point K d) (ho : origin ∈ X) (z0 : Pairs K d)
    (hi : cfg.init = .mean ∨ ∃ σ, cfg.init = .halfnorm σ ∧ ∀ i, 0 ≤ (z0 i).1 ∧ 0 ≤ (z0 i).2)
    (gens : List (List (Pairs K d) × SelectDraw K)) (hz : ∀ g ∈ gens, ∀ z ∈ g.1, cfg.mutation.m.DrawOk .ordered sigma z) (ρ0 ρ : Rule K d M)
    (h0 : freeInitial cfg L ff X y fb (origin, z0) = .ok ρ0)
    (h : esOptimize (freeES cfg ⟨some cfg.mutation.sigma, some cfg.kind⟩ L ff X y fb) gens ρ0 = .ok ρ) :
    ρ.kind = .ordered ∧ Kind.ordered.call ρ.bounds origin = true ∧
      (∀ x ∈ X, Kind.ordered.call ρ0.bounds x = true → Kind.ordered.call ρ.bounds x = true) ∧
      ρ0.MatchesData X ∧ ρ.MatchesData X := by
  rw [hk] at h
  unfold freeInitial placedRule at h0
  rw [hk] at h0
  split at h0
  · cases h0
  rename_i b hb
  split at h0
  · cases h0
  rename_i b1 hb1
  dsimp only at hb
  obtain ⟨ρ0', e0, hs0, hc0⟩ := fit_consistent L ff X X y hxy rfl { kind := .ordered, bounds := b1, inputSpace := fb } (Or.inl rfl)
  rw [h0] at e0
  cases e0
  have hk0 : ρ0.kind = .ordered := hs0.1
  have hb0 : ρ0.bounds = b1 := hs0.2.1
  have hob : Kind.ordered.call b origin = true := by
    rcases hi with hi | ⟨σ, hi, hz0⟩
    · rw [hi] at hb
      injection hb with hb
      rw [← hb]
      simp only [Kind.call, OrderedBound.call_iff]
      exact fun i => ⟨le_rfl, le_rfl⟩
    · rw [hi] at hb
      unfold initWith at hb
      cases hσ : broadcastTo σ d with
      | error e => simp only [hσ] at hb; cases hb
      | ok u =>
        simp only [hσ] at hb
        injection hb with hb
        rw [← hb]
        simp only [Kind.call, OrderedBound.call_iff]
        intro i
        have h1 := (hz0 i).1
        have h2 := (hz0 i).2
        exact ⟨by linarith, by linarith⟩
  have horig0 : Kind.ordered.call ρ0.bounds origin = true := by
    rw [hb0]; exact cfg.constraint.apply_keeps fb X hfb b b1 hb1 origin ho hob
  let Q : Rule K d M → Prop := fun ρ => ρ.kind = .ordered ∧ ConsistentWith ρ X ∧
    ∀ x ∈ X, Kind.ordered.call ρ0.bounds x = true → Kind.ordered.call ρ.bounds x = true
  have hQ0 : Q ρ0 := ⟨hk0, hc0, fun _ _ h => h⟩
  obtain ⟨hk, hc, hx⟩ : Q ρ := by
    refine esLoop_inv (freeES cfg ⟨some cfg.mutation.sigma, some .ordered⟩ L ff X y fb) (fun l s r hr => cfg.selection.first_mem l s r hr) (cfg.mutation.m.DrawOk .ordered sigma) Q ?_ gens hz
      ρ0 [] hQ0 (by simp) ρ h
    rintro e c ⟨hek, _, hex⟩ ⟨z, hz, hc, _⟩
    obtain ⟨h1, h2, b2, h3, h4⟩ := movedRule_shape cfg.mutation cfg.constraint _ L ff X y hxy fb e c z hc
    rw [hek] at h4
    exact ⟨h1.trans hek, h2, fun x hx h0 => cfg.constraint.apply_keeps fb X hfb b2 c.bounds h4 x hx (callMutation_keeps cfg.mutation hm sigma z e.bounds b2 hz h3 x (hex x hx h0))⟩
  have hmd : ∀ τ : Rule K d M, τ.kind = .ordered → ConsistentWith τ X → Kind.ordered.call τ.bounds origin = true → τ.MatchesData X := by
    rintro τ hτk ⟨s, hs, _, hexp, hfit, _⟩ ho'
    have hex : ∃ x ∈ X, τ.kind.call τ.bounds x = true := ⟨origin, ho, by rw [hτk]; exact ho'⟩
    refine ⟨s, hs, hfit.mpr hex, ?_, hexp, hex⟩
    rw [hexp]
    obtain ⟨x, h1, h2⟩ := hex
    exact List.length_pos_of_mem (List.mem_filter.mpr ⟨h1, h2⟩)
  exact ⟨hk, hx origin ho horig0, hx, hmd ρ0 hk0 hc0 horig0, hmd ρ hk hc (hx origin ho horig0)⟩

/-- A strategy for the examples: operator `+`, half-normal initialisation and increase mutation, clipping to `[0, 4]`, and the given selection. -/
def strategyExample (s : SelectCfg) : FreeES ℚ 1 where
  nIter := 1
  lmbda := 2
  operator := .plus
  delay := 1
  origin := .uniformSamples
  kind := .ordered
  init := .halfnorm .scalar
  mutation := ⟨.halfnormIncrease, .scalar, false⟩
  selection := s
  constraint := .clip (some ![(0, 4)])
  acceptance := .maxError 10

/-- The sides of the rule that results from the origin `1` of the data `0, 1, 3` with one generation of two children. -/
def strategyOutcome (s : SelectCfg) : Except PyErr (List (ℚ × ℚ)) :=
  match freeInitial (strategyExample s) meanLearner (fun e _ _ _ => 1 / (1 + e)) [![0], ![1], ![3]] [0, 1, 3] ![(0, 3)] (![1], ![(1/2, 1/4)]) with
  | .error e => .error e
  | .ok ρ0 =>
    (esOptimize (freeES (strategyExample s) ⟨some .scalar, some .ordered⟩ meanLearner (fun e _ _ _ => 1 / (1 + e)) [![0], ![1], ![3]] [0, 1, 3] ![(0, 3)])
      [([![(1/4, 5)], ![(1, 1)]], ⟨0, fun _ => 1⟩)] ρ0).map fun ρ => (List.finRange 1).map ρ.bounds

/-- The hypotheses of `C31_settings` and `C34_settings` for it, and the rules that result with three selections. -/
example : (strategyExample .random).constraint.HoldsData ![(0, 3)] [![0], ![1], ![3]] ∧ IsIncrease (strategyExample .random).mutation.m ∧
    (∀ z ∈ [(![(1/4, 5)] : Pairs ℚ 1), ![(1, 1)]], Mutation.halfnormIncrease.DrawOk .ordered ((1 : ℚ), 1) z) ∧
    strategyOutcome .random = .ok [(0, 9/4)] ∧ strategyOutcome .roulette = .ok [(1/4, 4)] ∧ strategyOutcome .fittest = .ok [(1/2, 5/4)] := by
  refine ⟨?_, Or.inl rfl, ?_, by decide +kernel, by decide +kernel, by decide +kernel⟩
  · unfold ConstraintCfg.HoldsData strategyExample
    decide +kernel
  · unfold Mutation.DrawOk
    decide +kernel

end Suprb
