import Verif.Props.AnyKind
import Verif.Props.Selection

/-!
# C31, C32, C33 for the evolution strategies as they are configured

The theorems about C31 and C33 in `Verif.Props.ES` hold for any notion of fitness or any selection. Here they are stated for rules and the attribute `fitness_`, and for the strategies the model of
the whole training uses.
-/

set_option autoImplicit false
set_option linter.unusedSectionVars false

namespace Suprb

open _root_.Spec (Pairs Point)

variable {K : Type} [Field K] [LinearOrder K] [IsStrictOrderedRing K] {d : Nat} {M : Type}

theorem hasFitness_of_le (ρ ρ' : Rule K d M) (f : K) (hf : ρ.HasFitness f) (h : ruleFitnessOf ρ ≤ ruleFitnessOf ρ') : ∃ f', ρ'.HasFitness f' ∧ f ≤ f' := by
  rw [hf.of.2] at h
  unfold ruleFitnessOf at h
  cases hs : ρ'.st with
  | none => rw [hs] at h; exact absurd h (not_le.mpr (WithBot.bot_lt_coe f))
  | some s =>
    rw [hs] at h
    simp only [Option.map_some, Option.getD_some] at h
    obtain ⟨f', h1, h2⟩ := WithBot.coe_le_iff.mp h
    exact ⟨f', ⟨s, hs, h1⟩, h2⟩

/-- C31: with operator `+` and fittest selection, the returned rule has a fitness, and it is at least that of the initial rule. For the matching types and mutations of the model: the first part is for
the mutations of ordered bounds and of the centre and spread, the second for a mutation object of any kind. -/
theorem C31_rules (L : Learner K d M) (ff : RuleFitness K d) (X : List (Point K d)) (y : List K) (fb : Pairs K d) (gens : List (List (Pairs K d) × Unit)) (initial ρ : Rule K d M) (f : K)
    (hf : initial.HasFitness f) :
    (∀ (delay : Nat) (m : Mutation) (r : K), esOptimize (concreteES L ff X y .plus delay m r fb) gens initial = .ok ρ → ∃ f', ρ.HasFitness f' ∧ f ≤ f') ∧
    ∀ (cfg : KindCfg K) (o : OperatorObj), cfg.operator = .plus → esOptimize (kindES cfg o L ff X y fb) gens initial = .ok ρ → ∃ f', ρ.HasFitness f' ∧ f ≤ f' := by
  constructor
  · intro delay m r h
    exact hasFitness_of_le _ _ _ hf (esLoop_plus_mono (concreteES L ff X y .plus delay m r fb) rfl (fun l _ r h => fittestFirst_mem _ l r h) gens initial [] ρ h)
  · intro cfg o hop h
    exact hasFitness_of_le _ _ _ hf (esLoop_plus_mono (kindES cfg o L ff X y fb) hop (fun l _ r h => fittestFirst_mem _ l r h) gens initial [] ρ h)

theorem matchesData_of_validRule (ρ : Rule K d M) (X : List (Point K d)) (hc : ConsistentWith ρ X) (hv : validRule ρ = true) : ρ.MatchesData X := by
  obtain ⟨s, hs, hms, hexp, hfit, _⟩ := hc
  unfold validRule at hv
  rw [hs] at hv
  simp only [Bool.and_eq_true, decide_eq_true_eq] at hv
  exact ⟨s, hs, hv.1, hv.2, hexp, hfit.mp hv.1⟩

theorem kindChild_consistentWith (cfg : KindCfg K) (o : OperatorObj) (L : Learner K d M) (ff : RuleFitness K d) (X : List (Point K d)) (y : List K) (hxy : y.length = X.length) (fb : Pairs K d)
    (ρ c : Rule K d M) (z : Pairs K d) (h : kindChild cfg o L ff X y fb ρ z = .ok c) : ConsistentWith c X := by
  unfold kindChild at h
  split at h
  · cases h
  · rename_i b _
    obtain ⟨ρ', e, hs, hc⟩ := fit_consistent L ff X X y hxy rfl { ρ.clone with bounds := constrain ρ.kind cfg.minRange fb b } (Or.inl rfl)
    rw [h] at e
    cases e
    exact hc

theorem rouletteFirst_mem (rules : List (Rule K d M)) (s : K × Nat) (ρ : Rule K d M) (h : rouletteFirst rules s = .ok ρ) : ρ ∈ rules := by
  have hmem : ∀ out, ruleRoulette rules [s.1] [s.2] = .ok out → ∀ ρ ∈ out, ρ ∈ rules := by
    intro out h ρ hρ
    unfold ruleRoulette at h
    split at h
    · dsimp only at h
      split at h
      · cases h; cases hρ
      · rename_i r hr
        split at h
        · split at h
          · cases h
          · unfold npChoiceP at h
            split at h
            · cases h
            · cases h
              obtain ⟨u, _, hu⟩ := List.mem_filterMap.mp hρ
              exact (List.mem_filter.mp (List.mem_of_getElem? hu)).1
        · unfold npChoice at h
          split at h
          · cases h
          · dsimp only at h
            split at h
            · cases h
            · cases h
              obtain ⟨i, _, hi⟩ := List.mem_filterMap.mp hρ
              exact List.mem_of_getElem? hi
    · cases h
  unfold rouletteFirst at h
  split at h
  · cases h
  · cases h
  · rename_i r l hr
    cases h
    exact hmem _ hr _ (List.mem_cons_self ..)

/-- C33: whichever of the strategies of the model is used (fittest or roulette wheel selection, the mutations of ordered bounds or a mutation object of any kind), the result is the initial rule or a rule
that is trained on at least one matched sample. -/
theorem C33_strategies (L : Learner K d M) (ff : RuleFitness K d) (X : List (Point K d)) (y : List K) (hxy : y.length = X.length) (fb : Pairs K d) (initial ρ : Rule K d M) :
    (∀ (op : ESOperator) (delay : Nat) (m : Mutation) (r : K) (gens : List (List (Pairs K d) × Unit)),
      esOptimize (concreteES L ff X y op delay m r fb) gens initial = .ok ρ → ρ = initial ∨ ρ.MatchesData X) ∧
    (∀ (op : ESOperator) (delay : Nat) (m : Mutation) (r : K) (gens : List (List (Pairs K d) × (K × Nat))),
      esOptimize (rouletteES L ff X y op delay m r fb) gens initial = .ok ρ → ρ = initial ∨ ρ.MatchesData X) ∧
    ∀ (cfg : KindCfg K) (o : OperatorObj) (gens : List (List (Pairs K d) × Unit)), esOptimize (kindES cfg o L ff X y fb) gens initial = .ok ρ → ρ = initial ∨ ρ.MatchesData X := by
  have hchild : ∀ (m : Mutation) (r : K) (e c : Rule K d M) (z : Pairs K d), childRule L ff X y m r fb e z = .ok c → validRule c = true → c.MatchesData X := fun m r e c z hc hv =>
    matchesData_of_validRule c X (childRule_consistent L ff X y hxy m r fb e c z hc).1 hv
  refine ⟨fun op delay m r gens h => ?_, fun op delay m r gens h => ?_, fun cfg o gens h => ?_⟩
  · refine esLoop_inv (concreteES L ff X y op delay m r fb) (fun l _ r h => (fittestFirst_mem _ l r h).1) (fun _ => True) (fun ρ => ρ = initial ∨ ρ.MatchesData X) ?_ gens
      (fun _ _ _ _ => trivial) initial [] (Or.inl rfl) (by simp) ρ h
    rintro e c _ ⟨z, _, hc, hv⟩
    exact Or.inr (hchild m r e c z hc hv)
  · refine esLoop_inv (rouletteES L ff X y op delay m r fb) (fun l s r h => rouletteFirst_mem l s r h) (fun _ => True) (fun ρ => ρ = initial ∨ ρ.MatchesData X) ?_ gens
      (fun _ _ _ _ => trivial) initial [] (Or.inl rfl) (by simp) ρ h
    rintro e c _ ⟨z, _, hc, hv⟩
    exact Or.inr (hchild m r e c z hc hv)
  · refine esLoop_inv (kindES cfg o L ff X y fb) (fun l _ r h => (fittestFirst_mem _ l r h).1) (fun _ => True) (fun ρ => ρ = initial ∨ ρ.MatchesData X) ?_ gens
      (fun _ _ _ _ => trivial) initial [] (Or.inl rfl) (by simp) ρ h
    rintro e c _ ⟨z, _, hc, hv⟩
    exact Or.inr (matchesData_of_validRule c X (kindChild_consistentWith cfg o L ff X y hxy fb e c z hc) hv)

/-- A run with the plus operator: the initial rule for `[0, 1]` with fitness -1 is replaced by its child for the sample 1, whose fitness is larger. -/
example : ((intervalRule 0 1).fit meanLearner negErr [![0], ![1], ![2]] [0, 2, 4]).toOption.bind (fun ρ0 =>
    (esOptimize (concreteES meanLearner negErr [![0], ![1], ![2]] [0, 2, 4] .plus 2 .normal 0 ![(0, 5)]) [([![(0, 1)], ![(1, 0)]], ())] ρ0).toOption.map fun ρ =>
      (ρ0.st.map RuleState.fitness, ρ.bounds 0, ρ.st.map RuleState.fitness, ρ.st.map RuleState.experience)) =
    some (some ((-1 : ℚ) : WithBot ℚ), (1, 1), some ((-1/10000 : ℚ) : WithBot ℚ), some 1) := by decide +kernel

/-! ### C32 for the configured strategies -/

/-- What C32 says about a run over `n` generations that starts with `initial` and returns `r`: there is a succession of rules, each the one before or a child of it that matches data, and `r` is its last
member after all generations or the one `delay - 1` places before the last, with no fitter one after it. -/
def Spec.WindowResult (child : Rule K d M → Pairs K d → Except PyErr (Rule K d M)) (X : List (Point K d)) (n delay : Nat) (initial r : Rule K d M) : Prop :=
  ∃ cur : List (Rule K d M), cur.head? = some initial ∧ cur.IsChain (fun a b => b = a ∨ (∃ z, child a z = .ok b) ∧ b.MatchesData X) ∧
    ((cur.length = n + 1 ∧ cur.getLast? = some r) ∨
      (cur.length ≤ n ∧ delay ≤ cur.length ∧ cur[cur.length - delay]? = some r ∧ ∀ a ∈ cur.drop (cur.length - delay), ∀ f, a.HasFitness f → ∃ f', r.HasFitness f' ∧ f ≤ f'))

/-- C32 (partial): whichever of the strategies of the model is used (fittest or roulette wheel selection, the mutations of ordered bounds or a mutation object of any kind), with the delay it is
configured with. Missing: the child selected in the generation in which the strategy stops, see `C32_refuted`. -/
theorem C32_strategies_partial (L : Learner K d M) (ff : RuleFitness K d) (X : List (Point K d)) (y : List K) (hxy : y.length = X.length) (fb : Pairs K d) (initial ρ : Rule K d M) :
    (∀ (op : ESOperator) (delay : Nat) (m : Mutation) (r : K) (gens : List (List (Pairs K d) × Unit)),
      esOptimize (concreteES L ff X y op delay m r fb) gens initial = .ok ρ → Spec.WindowResult (childRule L ff X y m r fb) X gens.length delay initial ρ) ∧
    (∀ (op : ESOperator) (delay : Nat) (m : Mutation) (r : K) (gens : List (List (Pairs K d) × (K × Nat))),
      esOptimize (rouletteES L ff X y op delay m r fb) gens initial = .ok ρ → Spec.WindowResult (childRule L ff X y m r fb) X gens.length delay initial ρ) ∧
    ∀ (cfg : KindCfg K) (o : OperatorObj) (gens : List (List (Pairs K d) × Unit)), esOptimize (kindES cfg o L ff X y fb) gens initial = .ok ρ →
      Spec.WindowResult (kindChild cfg o L ff X y fb) X gens.length cfg.delay initial ρ := by
  have hchild : ∀ (m : Mutation) (r : K) (e c : Rule K d M) (z : Pairs K d), childRule L ff X y m r fb e z = .ok c → validRule c = true → c.MatchesData X := fun m r e c z hc hv =>
    matchesData_of_validRule c X (childRule_consistent L ff X y hxy m r fb e c z hc).1 hv
  refine ⟨fun op delay m r gens h => ?_, fun op delay m r gens h => ?_, fun cfg o gens h => ?_⟩
  · obtain ⟨cur, h1, h2, h3⟩ := C32_window_partial (concreteES L ff X y op delay m r fb) (fun l _ r h => (fittestFirst_mem _ l r h).1) gens initial ρ h
    refine ⟨cur, h1, h2.imp fun a b hab => hab.imp id fun ⟨z, _, hc, hv⟩ => ⟨⟨z, hc⟩, hchild m r a b z hc hv⟩, h3.imp id fun ⟨e1, e2, e3, e4⟩ => ⟨e1, e2, e3, fun a ha f hf => ?_⟩⟩
    exact hasFitness_of_le a ρ f hf (e4 a ha)
  · obtain ⟨cur, h1, h2, h3⟩ := C32_window_partial (rouletteES L ff X y op delay m r fb) (fun l s r h => rouletteFirst_mem l s r h) gens initial ρ h
    refine ⟨cur, h1, h2.imp fun a b hab => hab.imp id fun ⟨z, _, hc, hv⟩ => ⟨⟨z, hc⟩, hchild m r a b z hc hv⟩, h3.imp id fun ⟨e1, e2, e3, e4⟩ => ⟨e1, e2, e3, fun a ha f hf => ?_⟩⟩
    exact hasFitness_of_le a ρ f hf (e4 a ha)
  · obtain ⟨cur, h1, h2, h3⟩ := C32_window_partial (kindES cfg o L ff X y fb) (fun l _ r h => (fittestFirst_mem _ l r h).1) gens initial ρ h
    refine ⟨cur, h1, h2.imp fun a b hab => hab.imp id fun ⟨z, _, hc, hv⟩ => ⟨⟨z, hc⟩, matchesData_of_validRule b X (kindChild_consistentWith cfg o L ff X y hxy fb a b z hc) hv⟩,
      h3.imp id fun ⟨e1, e2, e3, e4⟩ => ⟨e1, e2, e3, fun a ha f hf => ?_⟩⟩
    exact hasFitness_of_le a ρ f hf (e4 a ha)

/-- A run with the ampersand operator and delay 2 that stops early: the child for `[0, 2]` is not fitter than the initial rule for `[0, 1]`, which is returned although a third generation was left. -/
example : ((intervalRule 0 1).fit meanLearner negErr [![0], ![1], ![2]] [0, 2, 4]).toOption.bind (fun ρ0 =>
    (esOptimize (concreteES meanLearner negErr [![0], ![1], ![2]] [0, 2, 4] .amp 2 .normal 0 ![(0, 5)]) [([![(0, 1)]], ()), ([![(0, 1)]], ()), ([![(1, 0)]], ())] ρ0).toOption.map fun ρ =>
      (ρ0.st.map RuleState.fitness, ρ.bounds 0)) = some (some ((-1 : ℚ) : WithBot ℚ), (0, 1)) := by
  decide +kernel

end Suprb
