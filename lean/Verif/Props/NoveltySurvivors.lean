import Verif.Props.NoveltyRules

/-!
# Which rules survive the novelty calculation (C70, C77)

The statements on the Pareto front, the progressive minimal criterion and the minimal number of matched examples, for the novelty calculation as a whole: which rules
come back from it, in terms of the fitness of the rules that were handed in and the scores they have afterwards.
-/

set_option autoImplicit false
set_option linter.unusedSectionVars false

namespace Suprb
variable {R K : Type} [Field K] [LinearOrder K] [IsStrictOrderedRing K]

/-- The search types that do not remove rules themselves. -/
def NsType.NoFilter : NsType → Prop
  | .minimalCriteria _ => False
  | _ => True

theorem filterRules_noFilter (V : NsView R K) (st : Store R K) (t : NsType) (ht : t.NoFilter) (refs : List Nat) : filterRules V st t refs = .ok refs := by
  cases t with
  | plain => rfl
  | localCompetition _ => rfl
  | minimalCriteria _ => exact ht.elim

/-- The novelty calculation of the variants without a criterion of their own gives back what the search type leaves. -/
theorem noveltyScores_filtered (V : NsView R K) (v : NsVariant K) (hv : v ≠ .progressive ∧ v ≠ .pareto) (t : NsType) (k : Nat) (archive rules ns : List Nat)
    (st st' : Store R K) (h : noveltyScores V v t k archive rules st = .ok (st', ns)) : filterRules V st t rules = .ok ns := by
  cases v with
  | progressive => exact absurd rfl hv.1
  | pareto => exact absurd rfl hv.2
  | _ =>
    unfold noveltyScores at h
    dsimp only at h
    split at h
    · cases h
    · rename_i filtered hf
      split at h
      · cases h
      · split at h
        · cases h
        · injection h with h
          injection h with e1 e2
          rw [← e2, hf]

/-- C70: after a novelty calculation with Pareto front, the rules that come back are exactly those which no rule that is at least as novel beats in fitness, by the
scores that were just computed; no rule object gets another condition, model or fitness. -/
theorem C70_pareto_survivors (V : NsView R K) (t : NsType) (ht : t.NoFilter) (k : Nat) (archive rules ns : List Nat) (st st' : Store R K)
    (h : noveltyScores V .pareto t k archive rules st = .ok (st', ns)) :
    (∃ p : Nat → Bool, (∀ r, p r = true ↔ NotBeaten (noveltyOf st') (fitnessAt V st') rules r) ∧ ns.Perm (rules.filter p)) ∧
      ∀ (r : Nat) (o : NsObj R K), st[r]? = some o → ∃ o' : NsObj R K, st'[r]? = some o' ∧ o'.rule = o.rule := by
  refine ⟨?_, (noveltyScores_ext V .pareto t k archive rules ns st st' h).1⟩
  unfold noveltyScores at h
  dsimp only at h
  rw [filterRules_noFilter V st t ht] at h
  dsimp only at h
  split at h
  · cases h
  · split at h
    · cases h
    · rename_i st2 _
      split at h
      · cases h
      · rename_i front hfr
        injection h with h
        injection h with e1 e2
        subst e1 e2
        by_cases hne : rules = []
        · subst hne
          simp [paretoFront, sortedDesc] at hfr
        · obtain ⟨front', h1, _, h2⟩ := C70_pareto_front (noveltyOf st2) (fitnessAt V st2) rules hne
          rw [hfr] at h1
          injection h1 with h1
          subst h1
          exact h2

/-- C70: with the progressive minimal criterion, the rules that come back are exactly those with a fitness of at least the median of the rules handed in: more than
half of these are at most as fit. -/
theorem C70_progressive_survivors (V : NsView R K) (t : NsType) (ht : t.NoFilter) (k : Nat) (archive rules ns : List Nat) (st st' : Store R K)
    (h : noveltyScores V .progressive t k archive rules st = .ok (st', ns)) (hfin : rules.length % 2 = 1 ∨ ∀ r ∈ rules, fitnessAt V st r ≠ ⊥) (r : Nat) :
    r ∈ ns ↔ r ∈ rules ∧ rules.length < 2 * rules.countP fun s => decide (fitnessAt V st s ≤ fitnessAt V st r) := by
  unfold noveltyScores at h
  dsimp only at h
  rw [filterRules_noFilter V st t ht] at h
  dsimp only at h
  split at h
  · cases h
  · split at h
    · cases h
    · injection h with h
      injection h with e1 e2
      rw [← e2]
      exact C70_progressive_exact (fitnessAt V st) rules hfin r

/-- C70: the basic and the biased novelty calculation give all rules back. -/
theorem C70_all_survive (V : NsView R K) (v : NsVariant K) (hv : v ≠ .progressive ∧ v ≠ .pareto) (t : NsType) (ht : t.NoFilter) (k : Nat) (archive rules ns : List Nat)
    (st st' : Store R K) (h : noveltyScores V v t k archive rules st = .ok (st', ns)) : ns = rules := by
  have := noveltyScores_filtered V v hv t k archive rules ns st st' h
  rw [filterRules_noFilter V st t ht] at this
  injection this with this
  exact this.symm

/-- C77, what holds, for the novelty calculation as a whole (basic or biased): a rule that matches at least 25 samples comes back, some rule comes back, and the number of
rules that do not come back is limited by `min_examples_matched` percent. -/
theorem C77_survivors_partial (V : NsView R K) (v : NsVariant K) (hv : v ≠ .progressive ∧ v ≠ .pareto) (q : Nat) (hq : q ≤ 100) (k : Nat)
    (archive rules ns : List Nat) (st st' : Store R K) (hne : rules ≠ []) (hin : ∀ r ∈ rules, r < st.length)
    (h : noveltyScores V v (.minimalCriteria q) k archive rules st = .ok (st', ns)) :
    ns ≠ [] ∧ ns.Sublist rules ∧ 100 * (rules.length - ns.length) ≤ (rules.length - 1) * q + 99 ∧
      ∀ (r : Nat) (o : NsObj R K), r ∈ rules → st[r]? = some o → 25 ≤ (V.matchSet o.rule).count true → r ∈ ns := by
  have hmap : ∀ l : List Nat, (∀ r ∈ l, r < st.length) → ∀ keep : R → Bool,
      ((l.filterMap fun r => st[r]?.map NsObj.rule).filter keep).length = (l.filter fun r => (st[r]?.map fun o => keep o.rule).getD false).length ∧
        (l.filterMap fun r => st[r]?.map NsObj.rule).length = l.length := by
    intro l hl keep
    induction l with
    | nil => exact ⟨rfl, rfl⟩
    | cons a rest ih =>
      obtain ⟨i1, i2⟩ := ih fun r hr => hl r (List.mem_cons_of_mem _ hr)
      have ha : st[a]? = some (st[a]'(hl a (List.mem_cons_self ..))) := List.getElem?_eq_getElem _
      generalize st[a]'(hl a (List.mem_cons_self ..)) = o at ha
      rw [List.filterMap_cons_some (b := o.rule) (by rw [ha]; rfl)]
      constructor
      · rw [List.filter_cons, List.filter_cons, ha]
        simp only [Option.map_some, Option.getD_some]
        by_cases hk : keep o.rule = true
        · rw [if_pos hk, if_pos hk, List.length_cons, List.length_cons, i1]
        · rw [if_neg hk, if_neg hk, i1]
      · rw [List.length_cons, List.length_cons, i2]
  have hne' : (rules.filterMap fun r => st[r]?.map NsObj.rule) ≠ [] := by
    intro h0
    have := (hmap rules hin fun _ => true).2
    rw [h0, List.length_nil] at this
    exact hne (List.length_eq_zero_iff.mp this.symm)
  obtain ⟨keep, h1, h2, h3, h4⟩ := C77_partial V q hq (rules.filterMap fun r => st[r]?.map NsObj.rule) hne'
  obtain ⟨g1, g2⟩ := hmap rules hin keep
  have hf : filterRules V st (.minimalCriteria q) rules = .ok (rules.filter fun r => (st[r]?.map fun o => keep o.rule).getD false) := by
    unfold filterRules
    dsimp only
    rw [h1]
  have e2 := noveltyScores_filtered V v hv _ k archive rules ns st st' h
  rw [hf] at e2
  injection e2 with e2
  rw [← e2]
  rw [g1, g2] at h3
  refine ⟨?_, List.filter_sublist, h3, fun r o hr ho h25 => List.mem_filter.mpr ⟨hr, ?_⟩⟩
  · intro h0
    rw [h0, List.length_nil] at g1
    exact h2 (List.length_eq_zero_iff.mp g1)
  · rw [ho]
    have := h4 o.rule (List.mem_filterMap.mpr ⟨r, hr, by rw [ho]; rfl⟩) h25
    exact (List.mem_filter.mp this).2

/-! ### Examples -/

/-- What comes back for three rules of fitness 3, 2 and 1, of which the first two differ from all others equally. -/
def demoSurvivors (v : NsVariant ℚ) (t : NsType) : Option (List Nat) := (noveltyScores demoView v t 15 [] [0, 1, 2] demoStore).toOption.map fun x => x.2

example : demoSurvivors .pareto .plain = some [0] ∧ demoSurvivors .progressive .plain = some [0, 1] ∧ demoSurvivors .basic .plain = some [0, 1, 2] ∧
    demoSurvivors .basic (.minimalCriteria 100) = some [1] := by decide +kernel

/-- With local competition the worse rules are the more novel ones, and all three are on the front. -/
example : (demoSurvivors .pareto (.localCompetition 2)).map List.length = some 3 := by decide +kernel

end Suprb
