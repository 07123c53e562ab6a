import Verif.Props.FreeSearch
import Verif.Props.Selection
import Verif.Props.Filters

/-!
# Claims C88 and C39 for the selections of several rules in random search and novelty search
-/

set_option autoImplicit false
set_option linter.unusedSectionVars false

namespace Suprb
open _root_.Spec (Pairs Point InBox InBounds Ordered Inside)

variable {K : Type} [Field K] [LinearOrder K] [IsStrictOrderedRing K] {d : Nat} {M : Type}

/-- The rules at some positions. -/
def rulesAt (rules : List (Rule K d M)) (idx : List Nat) : List (Rule K d M) := idx.filterMap fun i => rules[i]?

theorem range_map_get? {α : Type} (l : List α) : (List.range l.length).map (fun i => l[i]?) = l.map some := by
  refine List.ext_getElem? fun i => ?_
  rw [List.getElem?_map, List.getElem?_map]
  by_cases hi : i < l.length
  · rw [List.getElem?_range hi, List.getElem?_eq_getElem hi]; simp [hi]
  · rw [List.getElem?_eq_none (by simpa using hi), List.getElem?_eq_none (by simpa using hi)]; rfl

/-- Positions `idx` that hold the elements `out`. -/
theorem get?_of_map {α : Type} (l : List α) (idx : List Nat) (out : List α) (h : idx.map (fun i => l[i]?) = out.map some) (ks : List Nat) :
    (ks.filterMap fun k => idx[k]?).filterMap (fun i => l[i]?) = ks.filterMap fun k => out[k]? := by
  rw [List.filterMap_filterMap]
  congr 1
  funext k
  have := congrArg (·[k]?) h
  simp only [List.getElem?_map] at this
  cases hk : idx[k]? with
  | none =>
    rw [hk] at this
    cases ho : out[k]? with
    | none => rfl
    | some o => rw [ho] at this; cases this
  | some i =>
    rw [hk] at this
    cases ho : out[k]? with
    | none => rw [ho] at this; cases this
    | some o => rw [ho] at this; exact Option.some.inj this

/-- The positions with a property of the rule there. -/
theorem filter_positions (rules : List (Rule K d M)) (q : WithBot K → Bool) :
    ((List.range rules.length).filter fun i => q (fitnessOfPos rules i)).map (fun i => rules[i]?) = (rules.filter fun ρ => q (ruleFitnessOf ρ)).map some := by
  have h := range_map_get? rules
  have h2 : ((List.range rules.length).map (fun i => rules[i]?)).filter (fun o => q ((o.map ruleFitnessOf).getD ⊥)) = (rules.map some).filter (fun o => q ((o.map ruleFitnessOf).getD ⊥)) := by rw [h]
  rw [List.filter_map, List.filter_map] at h2
  exact h2

theorem positions_fittest (rules : List (Rule K d M)) (size : Nat) (z : SelectDraws K) :
    (SelectCfg.fittest.positions rules size z).map (rulesAt rules) = ruleFittest rules size := by
  unfold SelectCfg.positions ruleFittest
  dsimp only
  split
  · exact congrArg Except.ok (fittest_positions rules size)
  · rfl

theorem npChoice_positions (l : List (Rule K d M)) (idx : List Nat) (out : List (Rule K d M)) (h : idx.map (fun i => l[i]?) = out.map some) (size : Nat) (ks : List Nat) :
    (npChoice (K := K) idx none true size ks).map (rulesAt l) = npChoice (K := K) out none true size ks := by
  have hlen : idx.length = out.length := by simpa using congrArg List.length h
  unfold npChoice
  rw [hlen]
  split
  · rfl
  · dsimp only
    split
    · rfl
    · exact congrArg Except.ok (get?_of_map l idx out h ks)

theorem npChoiceP_positions (l : List (Rule K d M)) (idx : List Nat) (out : List (Rule K d M)) (h : idx.map (fun i => l[i]?) = out.map some) (p us : List K) :
    (npChoiceP idx p us).map (rulesAt l) = npChoiceP out p us := by
  have hlen : idx.length = out.length := by simpa using congrArg List.length h
  unfold npChoiceP
  rw [hlen]
  split
  · rfl
  · have := get?_of_map l idx out h (us.map (searchCdf p))
    rw [List.filterMap_map, List.filterMap_map] at this
    exact congrArg Except.ok this

theorem positions_random (rules : List (Rule K d M)) (size : Nat) (z : SelectDraws K) :
    (SelectCfg.random.positions rules size z).map (rulesAt rules) = ruleRandom rules size ((List.range size).map (z.pick rules.length)) :=
  npChoice_positions rules _ rules (range_map_get? rules) size _

theorem positions_roulette (rules : List (Rule K d M)) (size : Nat) (z : SelectDraws K) :
    (SelectCfg.roulette.positions rules size z).map (rulesAt rules) = ruleRoulette rules ((List.range size).map z.u) ((List.range size).map (z.pick rules.length)) := by
  have hfin := filter_positions rules fun f => decide (f ≠ ⊥)
  have hlen := congrArg List.length hfin
  rw [List.length_map, List.length_map] at hlen
  have hw : (((List.range rules.length).filter fun i => decide (fitnessOfPos rules i ≠ ⊥)).map fun i => (fitnessOfPos rules i).unbotD 0) =
      (rules.filter fun ρ => decide (ruleFitnessOf ρ ≠ ⊥)).map fun ρ => (ruleFitnessOf ρ).unbotD 0 := by
    have := congrArg (List.map fun o : Option (Rule K d M) => ((o.map ruleFitnessOf).getD ⊥).unbotD 0) hfin
    rw [List.map_map, List.map_map] at this
    exact this
  have key : ∀ (r : Except PyErr (List Nat)) (s : Except PyErr (List (Rule K d M))), Except.map (rulesAt rules) r = s →
      Except.map (rulesAt rules) (match r with | .error .valueError => .ok [] | r => r : Except PyErr (List Nat)) = (match s with | .error .valueError => .ok [] | s => s) := by
    rintro r s rfl
    cases r with
    | error e => cases e <;> rfl
    | ok o => rfl
  unfold SelectCfg.positions ruleRoulette
  dsimp only
  split
  · refine key _ _ ?_
    rw [hlen, hw]
    split
    · cases rouletteP ((rules.filter fun ρ => decide (ruleFitnessOf ρ ≠ ⊥)).map fun ρ => (ruleFitnessOf ρ).unbotD 0) with
      | error e => rfl
      | ok p => exact npChoiceP_positions rules _ _ hfin p _
    · rw [List.length_map, List.length_range]
      exact npChoice_positions rules _ rules (range_map_get? rules) size _
  · rfl

/-- The random numbers that numpy can return. -/
structure SelectDraws.Possible (z : SelectDraws K) : Prop where
  u : ∀ k, 0 ≤ z.u k ∧ z.u k < 1
  pick : ∀ k n, n ≠ 0 → z.pick n k < n

theorem SelectDraws.Possible.choice {z : SelectDraws K} (h : z.Possible) (n size : Nat) (hn : n ≠ 0) : ChoiceOk (K := K) n none true size ((List.range size).map (z.pick n)) := by
  refine ⟨by simp, fun i hi => ?_, fun h => by cases h⟩
  obtain ⟨k, _, rfl⟩ := List.mem_map.mp hi
  exact ⟨h.pick k n hn, fun q hq => by cases hq⟩

theorem map_ok_iff {α β : Type} (f : α → β) (r : Except PyErr α) (b : β) : r.map f = .ok b ↔ ∃ a, r = .ok a ∧ f a = b := by
  cases r with
  | error e => exact ⟨fun h => (by cases h), fun ⟨_, h, _⟩ => (by cases h)⟩
  | ok a =>
    refine ⟨fun h => ⟨a, rfl, ?_⟩, fun ⟨a', h, h'⟩ => ?_⟩
    · injection h
    · injection h with h
      rw [← h', ← h]; rfl

/-- C88 for the selections in random search and novelty search (partial): asked for `size` rules of a non-empty list of fitted rules, the selection returns `size` of them, as positions in the list, for
all random numbers: `Fittest` the fittest, best first, and all if there are fewer; the roulette wheel, if the fitness values are `-inf` or not negative, and some are positive, each in proportion to its
fitness; the other two arbitrary ones. Missing: fitness values of which none is positive, see `C88_searches_refuted`. -/
theorem C88_searches_partial (s : SelectCfg) (rules : List (Rule K d M)) (hne : rules ≠ []) (hst : ∀ ρ ∈ rules, ρ.st.isSome) (size : Nat) (z : SelectDraws K) (hz : z.Possible)
    (fits : Rule K d M → Option K)
    (hr : s = .roulette → (∀ ρ ∈ rules, ∃ t, ρ.st = some t ∧ (match fits ρ with | none => t.fitness = ⊥ | some f => t.fitness = ((f : K) : WithBot K) ∧ 0 ≤ f)) ∧
      ∃ ρ ∈ rules, ∃ f, fits ρ = some f ∧ 0 < f) :
    ∃ idx, s.positions rules size z = .ok idx ∧ (∀ i ∈ idx, i < rules.length) ∧ idx.length = (if s = .fittest then min size rules.length else size) ∧
      (s = .fittest → ∃ left, (rulesAt rules idx ++ left).Perm rules ∧ (rulesAt rules idx).Pairwise (fun ρ τ => τ.fit0 ≤ ρ.fit0) ∧ ∀ ρ ∈ rulesAt rules idx, ∀ τ ∈ left, τ.fit0 ≤ ρ.fit0) ∧
      (s = .roulette → ∀ k < size, ∃ before ρ after f, rules = before ++ ρ :: after ∧ (rulesAt rules idx)[k]? = some ρ ∧ fits ρ = some f ∧
        fitnessSum fits before ≤ z.u k * fitnessSum fits rules ∧ z.u k * fitnessSum fits rules < fitnessSum fits before + f) := by
  obtain ⟨idx, hidx⟩ := s.positions_total rules size z hne hst
  have hlt := (s.positions_mem rules size z idx hidx).1
  have hat : (rulesAt rules idx).length = idx.length := filterMap_get_length rules idx hlt
  have hl := fun h => hne (List.length_eq_zero_iff.mp h)
  have hrange : List.range rules.length ≠ [] := by simpa using hne
  refine ⟨idx, hidx, hlt, ?_⟩
  cases s with
  | fittest =>
    obtain ⟨out, left, h1, h2, h3, h4, h5⟩ := C88_fittest rules hst size
    have h := positions_fittest rules size z
    rw [hidx, h1] at h
    have ho : rulesAt rules idx = out := by injection h
    refine ⟨by rw [← hat, ho, h2]; rfl, fun _ => ⟨left, ?_⟩, nofun⟩
    rw [ho]
    exact ⟨h3, h4, h5⟩
  | roulette =>
    obtain ⟨hf, hpos⟩ := hr rfl
    obtain ⟨out, h1, h2, h3⟩ := (C88_roulette_partial rules hne fits hf ((List.range size).map z.u)
      (fun u hu => by obtain ⟨k, _, rfl⟩ := List.mem_map.mp hu; exact hz.u k) ((List.range size).map (z.pick rules.length))).1 hpos
    have h := positions_roulette rules size z
    rw [hidx, h1] at h
    have ho : rulesAt rules idx = out := by injection h
    refine ⟨by rw [← hat, ho, h2]; simp, nofun, fun _ k hk => ?_⟩
    rw [ho]
    exact h3 k (z.u k) (by simp [hk])
  | nondominated =>
    refine ⟨?_, nofun, nofun⟩
    obtain ⟨cands, h1, h2, h3⟩ := nondominatedCandidates_ok (dominatesAt rules) (List.range rules.length) hrange
    obtain ⟨out, h4, h5, _⟩ := npChoice_uniform (K := K) cands true size _ h2 (by simp) (hz.choice cands.length size fun h => h2 (List.length_eq_zero_iff.mp h))
    unfold SelectCfg.positions at hidx
    dsimp only at hidx
    rw [h1] at hidx
    dsimp only at hidx
    rw [h4] at hidx
    injection hidx with hidx
    rw [← hidx, h5]; rfl
  | random =>
    refine ⟨?_, nofun, nofun⟩
    obtain ⟨out, h4, h5, _⟩ := npChoice_uniform (K := K) (List.range rules.length) true size _ hrange (by simp) (by simpa using hz.choice rules.length size hl)
    unfold SelectCfg.positions at hidx
    dsimp only at hidx
    rw [h4] at hidx
    injection hidx with hidx
    rw [← hidx, h5]; rfl

/-- C88 is false for the roulette wheel in random search and novelty search too: if all rules have fitness 0, it selects nothing, so a group of random search adds no rule and a generation of novelty
search has no children. -/
theorem C88_searches_refuted (rules : List (Rule K d M)) (hne : rules ≠ []) (h0 : ∀ ρ ∈ rules, ρ.HasFitness 0) (size : Nat) (z : SelectDraws K) :
    SelectCfg.roulette.positions rules size z = .ok [] := by
  have h := positions_roulette rules size z
  rw [C88_roulette_refuted rules hne h0] at h
  obtain ⟨idx, h1, h2⟩ := (map_ok_iff _ _ _).mp h
  have hlt := (SelectCfg.positions_mem _ rules size z idx h1).1
  have := filterMap_get_length rules idx hlt
  rw [show idx.filterMap (fun i => rules[i]?) = [] from h2] at this
  rw [h1, List.length_eq_zero_iff.mp this.symm]

/-- C39 for several rules (partial): `NondominatedSort` returns only given rules, and every rule that no other dominates can be all of those it returns. Missing as in `C39_partial`: rules it returns may
be dominated. -/
theorem C39_several_partial (rules : List (Rule K d M)) (hst : ∀ ρ ∈ rules, ρ.st.isSome) (size i : Nat) (hi : i < rules.length)
    (hno : ∀ τ ∈ rules, ∀ s t, rules[i].st = some s → τ.st = some t → ¬ (t.error < s.error ∧ rules[i].kind.volume rules[i].bounds < τ.kind.volume τ.bounds)) :
    (∀ z idx, SelectCfg.nondominated.positions rules size z = .ok idx → ∀ j ∈ idx, j < rules.length) ∧
      ∃ z : SelectDraws K, z.Possible ∧ SelectCfg.nondominated.positions rules size z = .ok (List.replicate size i) := by
  refine ⟨fun z idx h => (SelectCfg.positions_mem _ rules size z idx h).1, ?_⟩
  have hne : List.range rules.length ≠ [] := by
    simp only [ne_eq, List.range_eq_nil]; omega
  obtain ⟨cands, h1, h2, h3, h4⟩ := C39_partial (errorAt rules) (volumeAt rules) (List.range rules.length) hne
  rw [← dominatesAt_eq] at h1
  have hc : i ∈ cands := by
    refine h4 i (List.mem_range.mpr hi) fun j hj hdom => ?_
    have hj' := List.mem_range.mp hj
    have hb := (domB_iff (errorAt rules) (volumeAt rules) j i).mpr hdom
    rw [← dominatesAt_eq] at hb
    unfold dominatesAt ruleDominates at hb
    rw [List.getElem?_eq_getElem hi, List.getElem?_eq_getElem hj'] at hb
    dsimp only at hb
    obtain ⟨s, hs⟩ := Option.isSome_iff_exists.mp (hst _ (List.getElem_mem hi))
    obtain ⟨t, ht⟩ := Option.isSome_iff_exists.mp (hst _ (List.getElem_mem hj'))
    rw [hs, ht] at hb
    simp only [Bool.and_eq_true, decide_eq_true_eq] at hb
    exact hno _ (List.getElem_mem hj') s t hs ht hb
  obtain ⟨k, hk, hki⟩ := List.getElem_of_mem hc
  refine ⟨⟨fun _ => 0, fun n _ => if k < n then k else 0⟩, ⟨fun _ => ⟨le_refl _, zero_lt_one⟩, fun _ n hn => ?_⟩, ?_⟩
  · dsimp only
    split_ifs <;> omega
  · unfold SelectCfg.positions
    dsimp only
    rw [h1]
    dsimp only
    unfold npChoice
    rw [if_neg (fun h => h2 (List.length_eq_zero_iff.mp h.1))]
    dsimp only
    rw [if_neg (by simp), if_pos hk]
    congr 1
    rw [List.filterMap_map]
    have : (fun x : Nat => some i) = ((fun i => cands[i]?) ∘ fun _ : Nat => k) := by
      funext x
      simp [hk, hki]
    rw [← this]
    have hr : ∀ l : List Nat, l.filterMap (fun _ => some i) = List.replicate l.length i := fun l => by
      induction l with
      | nil => rfl
      | cons a l ih => exact congrArg (i :: ·) ih
    rw [hr, List.length_range]

/-- C88 for novelty search: the parents of a generation are exactly the selected rules, in some order. -/
theorem C88_parents (s : SelectCfg) (size : Nat) (z : SelectDraws K) (order : Nat → List Nat) (horder : ∀ n, (order n).Perm (List.range n)) (rules : List (Rule K d M)) (idx : List Nat)
    (h : s.positions rules size z = .ok idx) : ∃ parents, shuffledParents s size z order rules = .ok parents ∧ parents.Perm idx := by
  unfold shuffledParents
  rw [h]
  refine ⟨_, rfl, ((horder idx.length).filterMap _).trans ?_⟩
  have : (List.range idx.length).filterMap (fun i => idx[i]?) = ((List.range idx.length).map fun i => idx[i]?).filterMap id := by rw [List.filterMap_map]; rfl
  rw [this, range_map_get?, List.filterMap_map]
  simp

/-- Example: two rules with fitness 1 and 3; the roulette wheel draws the second, first and second. -/
example : let rules := [ratedRule 0 2 1 1 3 1, ratedRule 0 3 5 (1/2) 2 3]
    (∀ ρ ∈ rules, ρ.st.isSome) ∧
    SelectCfg.roulette.positions rules 3 (⟨fun k => if k = 1 then 1 / 5 else 1 / 2, fun _ _ => 0⟩ : SelectDraws ℚ) = .ok [1, 0, 1] ∧
    SelectCfg.fittest.positions rules 1 (⟨fun _ => 0, fun _ _ => 0⟩ : SelectDraws ℚ) = .ok [1] ∧
    shuffledParents .random 3 (⟨fun _ => 0, fun _ k => k % 2⟩ : SelectDraws ℚ) (fun n => (List.range n).reverse) rules = .ok [0, 1, 0] ∧
    SelectCfg.roulette.positions [ratedRule 0 2 1 1 3 0] 3 (⟨fun _ => 0, fun _ _ => 0⟩ : SelectDraws ℚ) = .ok [] := by
  decide +kernel

end Suprb
