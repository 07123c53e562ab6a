import Verif.Model.FreeSearch
import Verif.Props.FreeES
import Verif.Props.NoveltyFit

/-!
# Claims C172 and C173: random search and novelty search with all of their settings

Every origin strategy, matching type, initialisation, mutation, selection, constraint, acceptance and archive, with every composition method and mixing model.
-/

set_option autoImplicit false
set_option linter.unusedSectionVars false

namespace Suprb
open _root_.Spec (Pairs Point InBox InBounds Ordered Inside)

variable {K : Type} [Field K] [LinearOrder K] [IsStrictOrderedRing K] {d : Nat} {M : Type}

/-! ### Selections -/

theorem npChoice_mem_lt {α : Type} (a : List α) (size : Nat) (idx : List Nat) (out : List α) (h : npChoice (K := K) a none true size idx = .ok out) : (∀ x ∈ out, x ∈ a) ∧ out.length ≤ idx.length := by
  unfold npChoice at h
  split at h
  · cases h
  · dsimp only at h
    split at h
    · cases h
    · injection h with h
      rw [← h]
      refine ⟨fun x hx => ?_, List.length_filterMap_le _ _⟩
      obtain ⟨i, _, hi⟩ := List.mem_filterMap.mp hx
      exact List.mem_of_getElem? hi

theorem npChoiceP_mem {α : Type} (a : List α) (p us : List K) (out : List α) (h : npChoiceP a p us = .ok out) : (∀ x ∈ out, x ∈ a) ∧ out.length ≤ us.length := by
  unfold npChoiceP at h
  split at h
  · cases h
  · injection h with h
    rw [← h]
    refine ⟨fun x hx => ?_, List.length_filterMap_le _ _⟩
    obtain ⟨i, _, hi⟩ := List.mem_filterMap.mp hx
    exact List.mem_of_getElem? hi

/-- Every selection returns at most as many rules as demanded, all of them from the given list. -/
theorem SelectCfg.positions_mem (s : SelectCfg) (rules : List (Rule K d M)) (size : Nat) (z : SelectDraws K) (idx : List Nat) (h : s.positions rules size z = .ok idx) :
    (∀ i ∈ idx, i < rules.length) ∧ idx.length ≤ size := by
  have hch : ∀ (a : List Nat) (g : Nat → Nat) (out : List Nat), (∀ i ∈ a, i < rules.length) → npChoice (K := K) a none true size ((List.range size).map g) = .ok out →
      (∀ i ∈ out, i < rules.length) ∧ out.length ≤ size := fun a g out ha ho => by
    obtain ⟨h1, h2⟩ := npChoice_mem_lt a size _ out ho
    exact ⟨fun i hi => ha i (h1 i hi), by simpa using h2⟩
  have hall : ∀ i ∈ List.range rules.length, i < rules.length := fun i hi => List.mem_range.mp hi
  unfold SelectCfg.positions at h
  cases s with
  | fittest =>
    dsimp only at h
    split at h
    · injection h with h
      rw [← h]
      refine ⟨fun i hi => hall i ((sortedDesc_perm _ _).subset (List.mem_of_mem_take hi)), List.length_take_le _ _⟩
    · cases h
  | roulette =>
    dsimp only at h
    split at h
    · split at h
      · injection h with h
        rw [← h]; exact ⟨by simp, Nat.zero_le _⟩
      · split at h
        · split at h
          · cases h
          · obtain ⟨h1, h2⟩ := npChoiceP_mem _ _ _ _ h
            exact ⟨fun i hi => hall i (List.mem_filter.mp (h1 i hi)).1, by simpa using h2⟩
        · exact hch _ _ _ hall h
    · cases h
  | nondominated =>
    dsimp only at h
    split at h
    · cases h
    · rename_i cands hc
      by_cases hne : rules = []
      · subst hne; cases hc
      · obtain ⟨cands', h1, _, h3⟩ := nondominatedCandidates_ok (dominatesAt rules) (List.range rules.length) (by simpa using hne)
        rw [hc] at h1; cases h1
        exact hch _ _ _ (fun i hi => hall i (h3 i hi)) h
  | random => exact hch _ _ _ hall h

/-- Every selection works for a non-empty list of fitted rules; the roulette wheel selects nothing if there are no usable weights. -/
theorem SelectCfg.positions_total (s : SelectCfg) (rules : List (Rule K d M)) (size : Nat) (z : SelectDraws K) (hne : rules ≠ []) (hst : ∀ ρ ∈ rules, ρ.st.isSome) :
    ∃ idx, s.positions rules size z = .ok idx := by
  have hall : rules.all (fun ρ => ρ.st.isSome) = true := List.all_eq_true.mpr hst
  have hpos := List.length_pos_iff.mpr hne
  have hch : ∀ (a : List Nat) (g : Nat → Nat), a ≠ [] → ∃ out, npChoice (K := K) a none true size ((List.range size).map g) = .ok out := fun a g ha => by
    unfold npChoice
    rw [if_neg (fun h => ha (List.length_eq_zero_iff.mp h.1))]
    dsimp only
    rw [if_neg (by simp)]
    exact ⟨_, rfl⟩
  have hr : List.range rules.length ≠ [] := by simpa using hne
  unfold SelectCfg.positions
  cases s with
  | fittest => dsimp only; rw [if_pos hall]; exact ⟨_, rfl⟩
  | roulette =>
    dsimp only
    rw [if_pos hall]
    have key : ∀ r : Except PyErr (List Nat), (r = .error .valueError ∨ ∃ out, r = .ok out) → ∃ idx, (match r with | .error .valueError => .ok [] | r => r : Except PyErr (List Nat)) = .ok idx := by
      rintro r (rfl | ⟨out, rfl⟩)
      · exact ⟨_, rfl⟩
      · exact ⟨_, rfl⟩
    refine key _ ?_
    split_ifs with hsum
    · unfold rouletteP
      split_ifs with h0
      · exact Or.inl rfl
      · dsimp only
        unfold npChoiceP
        split_ifs with hbad
        · exact Or.inl rfl
        · exact Or.inr ⟨_, rfl⟩
    · exact Or.inr (hch _ _ hr)
  | nondominated =>
    obtain ⟨cands, h1, h2, _⟩ := nondominatedCandidates_ok (dominatesAt rules) (List.range rules.length) hr
    dsimp only
    rw [h1]
    exact hch _ _ h2
  | random => exact hch _ _ hr

/-! ### Rules -/

/-- Which initialisations can be used with the matching type, with `d` features. -/
def InitWorks (k : Kind) (i : InitCfg) (d : Nat) : Prop :=
  match k with
  | .ordered => i.ForIntervals d
  | .unordered => i.ForIntervals d
  | _ => i.ForPairs

theorem placedRule_total (k : Kind) (i : InitCfg) (hi : InitWorks k i d) (c : ConstraintCfg K d) (hc : c.Complete) (L : Learner K d M) (ff : RuleFitness K d) (X : List (Point K d)) (y : List K)
    (hxy : y.length = X.length) (fb : Pairs K d) (o : Point K d × Pairs K d) : ∃ ρ, placedRule k i c L ff X y fb o = .ok ρ ∧ ρ.OfKind k L ff X y := by
  obtain ⟨b, hb⟩ := (initWith_iff i k o.1 o.2).mpr (by cases k <;> exact hi)
  obtain ⟨b', hb'⟩ := c.apply_total hc fb k b
  unfold placedRule
  rw [hb]
  dsimp only
  rw [hb']
  exact ofKind_of_fit _ L ff X y hxy _ _

theorem movedRule_total (k : Kind) (m : MutationCfg) (hk : k = .ordered ∨ k = .unordered ∨ m.sigma = .array 2) (hw : WorksWith k .mean m d) (c : ConstraintCfg K d) (hc : c.Complete)
    (L : Learner K d M) (ff : RuleFitness K d) (X : List (Point K d)) (y : List K) (hxy : y.length = X.length) (fb : Pairs K d) (ρ : Rule K d M) (hρ : ρ.kind = k) (z : Pairs K d) :
    ∃ τ, movedRule m c ⟨some m.sigma, some k⟩ L ff X y fb ρ z = .ok τ ∧ τ.OfKind k L ff X y := by
  obtain ⟨b', hb'⟩ := mutate_works m k hw z ρ.bounds
  obtain ⟨b'', hb''⟩ := c.apply_total hc fb ρ.kind b'
  unfold movedRule
  rw [(callMutation_iff m k z _ b' hk).mpr ⟨hb', hw⟩]
  dsimp only
  rw [hb'']
  dsimp only
  have : ({ ρ.clone with bounds := b'' } : Rule K d M) = { kind := k, bounds := b'', inputSpace := ρ.inputSpace } := by
    unfold Rule.clone
    rw [hρ]
  rw [this]
  exact ofKind_of_fit _ L ff X y hxy _ _

/-- What the first rules need of the pool and the elitist. -/
structure SearchPoolOk (s : OriginStrategy) (X : List (Point K d)) (elitist : Option (Indiv K)) (pool : List (Rule K d M)) : Prop where
  rules : ∀ ρ ∈ pool, ConsistentWith ρ X ∧ ∃ x ∈ X, ρ.kind.call ρ.bounds x = true
  genome : ∀ σ : Indiv K, elitist = some σ → σ.genome.length = pool.length
  origins : ∀ b, s = .squaredError b → elitist = none → pool = []

theorem placedRules_total (s : OriginStrategy) (k : Kind) (i : InitCfg) (hi : InitWorks k i d) (c : ConstraintCfg K d) (hc : c.Complete) (L : Learner K d M) (ff : RuleFitness K d) (P : MixParams K)
    (draw : Option (List K) → List Nat) (u : Nat → Point K d) (inits : Nat → Pairs K d) (elitist : Option (Indiv K)) (pool : List (Rule K d M)) (X : List (Point K d)) (y : List K) (hX : X ≠ [])
    (hxy : y.length = X.length) (fb : Pairs K d) (n : Nat) (hd : DrawsRows X.length n draw) (hu : ∀ k i, 0 ≤ u k i ∧ u k i ≤ 1) (hp : SearchPoolOk s X elitist pool) :
    ∃ rules, placedRules s k i c L ff P filterAll draw u inits elitist pool X y fb n = .ok rules ∧ rules.length = n ∧ ∀ ρ ∈ rules, ρ.OfKind k L ff X y := by
  obtain ⟨out, ho⟩ := C99_available s L P X hX y hxy pool hp.rules elitist hp.genome hp.origins n draw hd u
  obtain ⟨a1, _, _⟩ := C99_origins s L P filterAll X y pool elitist n draw hd u hu out ho
  obtain ⟨rules, hr⟩ := mapM_total (fun p : Point K d × Nat => placedRule k i c L ff X y fb (p.1, inits p.2)) (out.zip (List.range out.length)) fun p _ => by
    obtain ⟨ρ, h1, _⟩ := placedRule_total k i hi c hc L ff X y hxy fb (p.1, inits p.2)
    exact ⟨ρ, h1⟩
  refine ⟨rules, by unfold placedRules; rw [ho]; exact hr, ?_, fun ρ hρ => ?_⟩
  · rw [mapM_length _ _ _ hr]; simp [a1]
  · obtain ⟨p, _, h1⟩ := mem_of_mapM_ok _ _ _ hr ρ hρ
    obtain ⟨ρ', h2, h3⟩ := placedRule_total k i hi c hc L ff X y hxy fb (p.1, inits p.2)
    rw [h1] at h2; cases h2
    exact h3

/-! ### Random search -/

/-- What the settings of random search need: a rule per group; matching type and initialisation that fit together; both parts of a combined constraint; a positive `beta`; no squared-error origins with
initial rules. -/
structure FreeRS.Works (p : FreeRS K d) (cfg : SupCfg K) : Prop where
  generated : 1 ≤ p.rulesGenerated
  init : InitWorks p.kind p.init d
  constraint : p.constraint.Complete
  acceptance : p.acceptance.Usable
  origin : cfg.nInitial = 0 ∨ ∀ b, p.origin ≠ .squaredError b

/-- The random numbers numpy can return. -/
structure FreeRSDraws.Possible (D : FreeRSDraws K d) (p : FreeRS K d) (N : Nat) : Prop where
  origins : ∀ g, DrawsRows N p.rulesGenerated (D.origins g)
  uniform : ∀ g k i, 0 ≤ D.uniform g k i ∧ D.uniform g k i ≤ 1

theorem Rule.OfKind.fitted {k : Kind} {L : Learner K d M} {ff : RuleFitness K d} {X : List (Point K d)} {y : List K} (hxy : y.length = X.length) {ρ : Rule K d M}
    (h : ρ.OfKind k L ff X y) : ρ.st.isSome := by
  obtain ⟨s, hs, _⟩ := h.fitness hxy
  rw [hs]; rfl

theorem SelectCfg.one_spec (s : SelectCfg) (rules : List (Rule K d M)) (z : SelectDraws K) (out : List (Rule K d M)) (h : s.one rules z = .ok out) : out.length ≤ 1 ∧ ∀ ρ ∈ out, ρ ∈ rules := by
  unfold SelectCfg.one at h
  split at h
  · cases h
  · rename_i idx hidx
    injection h with h
    rw [← h]
    refine ⟨(List.length_filterMap_le _ _).trans (s.positions_mem rules 1 z idx hidx).2, fun ρ hρ => ?_⟩
    obtain ⟨i, _, hi⟩ := List.mem_filterMap.mp hρ
    exact List.mem_of_getElem? hi

theorem freeRsDiscover_total (cfg : SupCfg K) (p : FreeRS K d) (hp : p.Works cfg) (L : Learner K d M) (ff : RuleFitness K d) (P : MixParams K) (X : List (Point K d)) (y : List K) (hX : X ≠ [])
    (hxy : y.length = X.length) (D : FreeRSDraws K d) (hD : D.Possible p X.length) (elitist : Option (Indiv K)) (pool : List (Rule K d M)) (n : Nat) (hpool : SearchPoolOk p.origin X elitist pool) :
    ∃ rules, freeRsDiscover p L ff P filterAll D elitist pool X y n = .ok rules ∧ ∀ ρ ∈ rules, ρ.OfKind p.kind L ff X y ∧ p.acceptance.accept y ρ = .ok true := by
  obtain ⟨fb, hfb, _⟩ := estimateBounds_ok X hX
  have hg := fun g => placedRules_total p.origin p.kind p.init hp.init p.constraint hp.constraint L ff P (D.origins g) (D.uniform g) (D.inits g) elitist pool X y hX hxy fb p.rulesGenerated
    (hD.origins g) (hD.uniform g) hpool
  obtain ⟨groups, hgr⟩ := mapM_total (fun g => placedRules p.origin p.kind p.init p.constraint L ff P filterAll (D.origins g) (D.uniform g) (D.inits g) elitist pool X y fb p.rulesGenerated)
    (List.range n) fun g _ => by
      obtain ⟨rules, h1, _⟩ := hg g
      exact ⟨rules, h1⟩
  have hgm : ∀ G ∈ groups, G ≠ [] ∧ ∀ ρ ∈ G, ρ.OfKind p.kind L ff X y := by
    intro G hG
    obtain ⟨g, _, h1⟩ := mem_of_mapM_ok _ _ _ hgr G hG
    obtain ⟨rules, h2, h3, h4⟩ := hg g
    rw [h1] at h2; cases h2
    refine ⟨fun h0 => ?_, h4⟩
    rw [h0] at h3
    have := hp.generated
    change 0 = _ at h3
    omega
  obtain ⟨out, hout⟩ := mapM_total (fun q : List (Rule K d M) × SelectDraws K => p.selection.one q.1 q.2) (groups.zip ((List.range n).map D.selections)) fun q hq => by
    obtain ⟨h1, h2⟩ := hgm q.1 (List.of_mem_zip (show (q.1, q.2) ∈ groups.zip _ from hq)).1
    obtain ⟨idx, hidx⟩ := p.selection.positions_total q.1 1 q.2 h1 fun ρ hρ => (h2 ρ hρ).fitted hxy
    unfold SelectCfg.one
    rw [hidx]
    exact ⟨_, rfl⟩
  have hmem : ∀ ρ, some ρ ∈ out.flatten.map some → ρ.OfKind p.kind L ff X y := by
    intro ρ hρ
    obtain ⟨ρ', h1, h2⟩ := List.mem_map.mp hρ
    injection h2 with h2
    subst h2
    obtain ⟨l, hl, hl2⟩ := List.mem_flatten.mp h1
    obtain ⟨q, hq, hq2⟩ := mem_of_mapM_ok _ _ _ hout l hl
    exact (hgm q.1 (List.of_mem_zip (show (q.1, q.2) ∈ groups.zip _ from hq)).1).2 _ ((p.selection.one_spec q.1 q.2 l hq2).2 _ hl2)
  obtain ⟨rules, hf⟩ := filterInvalid_total (p.acceptance.accept y) (out.flatten.map some) fun ρ hρ => p.acceptance.accept_total X y hxy ρ ((hmem ρ hρ).consistent hxy)
  refine ⟨rules, ?_, fun ρ hρ => ?_⟩
  · unfold freeRsDiscover
    rw [hfb]
    dsimp only
    rw [hgr]
    dsimp only
    unfold randomSearch
    rw [hout]
    exact hf
  · obtain ⟨b1, b2⟩ := filterInvalid_mem _ _ _ hf ρ hρ
    exact ⟨hmem ρ b1, b2⟩

theorem flatten_length_le {α : Type} (l : List (List α)) (h : ∀ a ∈ l, a.length ≤ 1) : l.flatten.length ≤ l.length := by
  induction l with
  | nil => simp
  | cons a rest ih =>
    have h1 := h a (List.mem_cons_self ..)
    have h2 := ih fun b hb => h b (List.mem_cons_of_mem _ hb)
    rw [List.flatten_cons, List.length_append, List.length_cons]
    omega

theorem freeRsDiscover_length (p : FreeRS K d) (L : Learner K d M) (ff : RuleFitness K d) (P : MixParams K) (filt : SubFilter K d M) (D : FreeRSDraws K d) (elitist : Option (Indiv K))
    (pool : List (Rule K d M)) (X : List (Point K d)) (y : List K) (n : Nat) (rules : List (Rule K d M)) (h : freeRsDiscover p L ff P filt D elitist pool X y n = .ok rules) : rules.length ≤ n := by
  unfold freeRsDiscover at h
  split at h
  · cases h
  · split at h
    · cases h
    · rename_i groups hg
      unfold randomSearch at h
      split at h
      · cases h
      · rename_i out ho
        have b1 := filterInvalid_length _ _ _ h
        have b2 := mapM_length _ _ _ ho
        have b3 := flatten_length_le out fun l hl => by
          obtain ⟨q, _, hq⟩ := mem_of_mapM_ok _ _ _ ho l hl
          exact (p.selection.one_spec q.1 q.2 l hq).1
        have b4 : (groups.zip ((List.range n).map D.selections)).length ≤ n := by simp
        rw [List.length_map] at b1
        omega

/-! ### Novelty search -/

/-- What the settings of novelty search need: a usable search type and at least one parent; matching type, initialisation and mutation that fit together; intervals as matching type; both parts of a
combined constraint; a positive `beta`; no squared-error origins with initial rules. -/
structure FreeNS.Works (p : FreeNS K d) (cfg : SupCfg K) : Prop where
  mu : 1 ≤ p.ns.mu
  type : p.ns.type.Usable
  kind : p.kind = .ordered ∨ p.kind = .unordered
  operators : WorksWith p.kind p.init p.mutation d
  constraint : p.constraint.Complete
  acceptance : p.acceptance.Usable
  origin : cfg.nInitial = 0 ∨ ∀ b, p.origin ≠ .squaredError b

/-- The random numbers numpy can return; with unordered bounds, they never lead to a crossover. -/
structure FreeNSDraws.Possible (D : FreeNSDraws K d) (p : FreeNS K d) (N : Nat) : Prop where
  origins : DrawsRows N p.ns.mu D.origins
  uniform : ∀ k i, 0 ≤ D.uniform k i ∧ D.uniform k i ≤ 1
  orders : ∀ g b n, (D.orders g b n).Perm (List.range n)
  leftover : ∀ k, (D.leftover k).2.isSome → (D.leftover k).1 ≠ []
  crossover : p.kind = .ordered ∨ ∀ g i, p.rate ≤ (D.breed g i).u

theorem freeBreed_total (cfg : SupCfg K) (p : FreeNS K d) (hp : p.Works cfg) (L : Learner K d M) (ff : RuleFitness K d) (X : List (Point K d)) (y : List K) (hxy : y.length = X.length)
    (fb : Pairs K d) : BreedsGood (freeBreed p ⟨some p.mutation.sigma, some p.kind⟩ L ff X y fb) (fun ρ : Rule K d M => ρ.OfKind p.kind L ff X y)
      (fun z => p.kind = .ordered ∨ p.rate ≤ z.u) := by
  intro A B z hA hB hz
  have hw' := ((worksWith_split (K := K) p.kind p.init p.mutation (fun _ => 0) (fun _ => (0, 0))).mp hp.operators).2
  have hch := fun ρ hρ z => movedRule_total p.kind p.mutation (worksCases hp.operators) hw' p.constraint hp.constraint L ff X y hxy fb ρ hρ z
  obtain ⟨a, b, hab⟩ : ∃ a b, ruleCrossover p.kind p.rate z.u z.mask A.bounds B.bounds = .ok (a, b) := by
    unfold ruleCrossover
    split_ifs with hu
    · rcases hz with hz | hz
      · rw [hz]; exact ⟨_, _, rfl⟩
      · exact absurd hu (not_lt.mpr hz)
    · exact ⟨_, _, rfl⟩
  obtain ⟨c1, e1, g1⟩ := hch { A with bounds := a } hA.1 z.first
  obtain ⟨c2, e2, g2⟩ := hch { B with bounds := b } hB.1 z.second
  refine ⟨[c1, c2], ?_, fun c hc => ?_⟩
  · unfold freeBreed
    rw [hab]
    dsimp only
    rw [e1]
    dsimp only
    rw [e2]
  · rcases List.mem_cons.mp hc with rfl | hc
    · exact g1
    · rw [List.mem_singleton.mp hc]; exact g2

theorem shuffledParents_total (s : SelectCfg) (size : Nat) (z : SelectDraws K) (order : Nat → List Nat) (rules : List (Rule K d M)) (hne : rules ≠ []) (hst : ∀ ρ ∈ rules, ρ.st.isSome) :
    ∃ idx, shuffledParents s size z order rules = .ok idx ∧ ∀ i ∈ idx, i < rules.length := by
  obtain ⟨idx, hidx⟩ := s.positions_total rules size z hne hst
  unfold shuffledParents
  rw [hidx]
  refine ⟨_, rfl, fun i hi => ?_⟩
  obtain ⟨j, _, hj⟩ := List.mem_filterMap.mp hi
  exact (s.positions_mem rules size z idx hidx).1 i (List.mem_of_getElem? hj)

theorem freeNsDiscover_total (cfg : SupCfg K) (p : FreeNS K d) (hp : p.Works cfg) (L : Learner K d M) (ff : RuleFitness K d) (P : MixParams K) (X : List (Point K d)) (y : List K) (hX : X ≠ [])
    (hxy : y.length = X.length) (D : FreeNSDraws K d) (hD : D.Possible p X.length) (elitist : Option (Indiv K)) (pool : List (Rule K d M)) (n : Nat) (hpool : SearchPoolOk p.origin X elitist pool) :
    ∃ rules, freeNsDiscover p L ff P filterAll D elitist pool X y n = .ok rules ∧ ∀ ρ ∈ rules, ρ.OfKind p.kind L ff X y ∧ p.acceptance.accept y ρ = .ok true := by
  obtain ⟨fb, hfb, _⟩ := estimateBounds_ok X hX
  have hi : InitWorks p.kind p.init d := by
    have := hp.operators
    unfold WorksWith at this
    unfold InitWorks
    rcases hp.kind with hk | hk <;> rw [hk] at this ⊢ <;> exact this.1
  obtain ⟨initial, hi1, hi2, hi3⟩ := placedRules_total p.origin p.kind p.init hi p.constraint hp.constraint L ff P D.origins D.uniform D.inits elitist pool X y hX hxy fb p.ns.mu
    hD.origins hD.uniform hpool
  have hne : initial ≠ [] := by
    intro h0
    rw [h0] at hi2
    have := hp.mu
    change 0 = p.ns.mu at hi2
    omega
  have hgood : ∀ ρ : Rule K d M, ρ.OfKind p.kind L ff X y → (ruleView.matchSet ρ).length = X.length := fun ρ h => by
    obtain ⟨s, hs, hms, _⟩ := h.consistent hxy
    simp [ruleView, hs, hms]
  have harch : ∀ g b, (p.archive.draw (D.orders g b)).Possible := fun g b => by
    cases p.archive with
    | novel => trivial
    | random => exact hD.orders g b
    | none_ => trivial
  obtain ⟨s, hs, hinv⟩ := nsLoop_total ruleView X.length (fun ρ : Rule K d M => ρ.OfKind p.kind L ff X y) hgood p.ns hp.type (by have := hp.mu; omega)
    (freeBreed p ⟨some p.mutation.sigma, some p.kind⟩ L ff X y fb) (fun z => p.kind = .ordered ∨ p.rate ≤ z.u) (freeBreed_total cfg p hp L ff X y hxy fb) validRule
    ((List.range p.nIter).map (freeIteration p D))
    (fun δ hδ => by
      obtain ⟨g, _, rfl⟩ := List.mem_map.mp hδ
      exact ⟨fun pop h1 h2 => shuffledParents_total p.selection p.lmbda (D.selections g) (D.shuffles g) pop h1 fun ρ hρ => (h2 ρ hρ).fitted hxy,
        fun i => hD.crossover.imp id fun h => h g i, harch g true, harch g false⟩)
    (nsStart (poolObjects D.leftover pool) initial)
    (nsStart_inv ruleView X.length _ hgood _ (poolObjects_attributes D.leftover hD.leftover pool X fun ρ h => (hpool.rules ρ h).1) initial hi3 hne)
  have hmem : ∀ ρ, some ρ ∈ (s.best.take n).map (fun r => s.store[r]?.map NsObj.rule) → ρ.OfKind p.kind L ff X y := by
    intro ρ hρ
    obtain ⟨r, hr, he⟩ := List.mem_map.mp hρ
    obtain ⟨_, o, ho, hg⟩ := hinv.best r (List.mem_of_mem_take hr)
    rw [ho] at he
    cases he
    exact hg
  obtain ⟨rules, hf⟩ := filterInvalid_total (p.acceptance.accept y) ((s.best.take n).map fun r => s.store[r]?.map NsObj.rule) fun ρ hρ =>
    p.acceptance.accept_total X y hxy ρ ((hmem ρ hρ).consistent hxy)
  refine ⟨rules, ?_, fun ρ hρ => ?_⟩
  · unfold freeNsDiscover
    rw [hfb]
    dsimp only
    rw [hi1]
    dsimp only
    unfold nsOptimize
    rw [hs]
    exact hf
  · obtain ⟨b1, b2⟩ := filterInvalid_mem _ _ _ hf ρ hρ
    exact ⟨hmem ρ b1, b2⟩

theorem freeNsDiscover_length (p : FreeNS K d) (L : Learner K d M) (ff : RuleFitness K d) (P : MixParams K) (filt : SubFilter K d M) (D : FreeNSDraws K d) (elitist : Option (Indiv K))
    (pool : List (Rule K d M)) (X : List (Point K d)) (y : List K) (n : Nat) (rules : List (Rule K d M)) (h : freeNsDiscover p L ff P filt D elitist pool X y n = .ok rules) : rules.length ≤ n := by
  unfold freeNsDiscover at h
  split at h
  · cases h
  · split at h
    · cases h
    · exact (C78_returned _ _ _ _ _ _ _ _ _ _ h).1

/-! ### Both -/

def SearchPart.kind : SearchPart K d M → Kind
  | .rs p _ => p.kind
  | .ns p _ => p.kind

def SearchPart.constraint : SearchPart K d M → ConstraintCfg K d
  | .rs p _ => p.constraint
  | .ns p _ => p.constraint

def SearchPart.acceptance : SearchPart K d M → AcceptCfg K
  | .rs p _ => p.acceptance
  | .ns p _ => p.acceptance

/-- Settings that work, with random numbers numpy can return. -/
def SearchPart.Works (S : SearchPart K d M) (cfg : SupCfg K) (N : Nat) : Prop :=
  match S with
  | .rs p D => p.Works cfg ∧ ∀ seed hist, (D seed hist).Possible p N
  | .ns p D => p.Works cfg ∧ ∀ seed hist, (D seed hist).Possible p N

theorem SearchPart.Works.acceptance {S : SearchPart K d M} {cfg : SupCfg K} {N : Nat} (h : S.Works cfg N) : S.acceptance.Usable := by
  cases S with
  | rs p D => exact h.1.acceptance
  | ns p D => exact h.1.acceptance

theorem SearchPart.Works.configure {S : SearchPart K d M} {cfg : SupCfg K} {N : Nat} (h : S.Works cfg N) : S.configure = .ok () := by
  cases S with
  | rs p D => rfl
  | ns p D =>
    have hk := h.1.kind
    unfold SearchPart.configure
    dsimp only
    rw [configure_eq, if_neg]
    · rcases hk with hk | hk <;> rw [hk] <;> rfl
    · rintro ⟨h1 | h1, _⟩ <;> rcases hk with hk | hk <;> rw [h1] at hk <;> cases hk

theorem SearchPart.discover_total (cfg : SupCfg K) (S : SearchPart K d M) (L : Learner K d M) (ff : RuleFitness K d) (P : MixParams K) (X : List (Point K d)) (y : List K) (hX : X ≠ [])
    (hxy : y.length = X.length) (hS : S.Works cfg X.length) (seed : Seed) (hist : List (Event K d M)) (elitist : Option (Indiv K)) (pool : List (Rule K d M)) (n : Nat)
    (hpool : ∀ ρ ∈ pool, ρ.OfKind S.kind L ff X y ∧ S.acceptance.accept y ρ = .ok true) (hel : ∀ σ : Indiv K, elitist = some σ → σ.genome.length = pool.length)
    (hnone : cfg.nInitial = 0 → elitist = none → pool = []) :
    ∃ rules, S.discover L ff P seed hist elitist pool X y n = .ok rules ∧ ∀ ρ ∈ rules, ρ.OfKind S.kind L ff X y ∧ S.acceptance.accept y ρ = .ok true := by
  have hr : ∀ ρ ∈ pool, ConsistentWith ρ X ∧ ∃ x ∈ X, ρ.kind.call ρ.bounds x = true := fun ρ hρ =>
    ⟨(hpool ρ hρ).1.consistent hxy, (S.acceptance.accepts_of hS.acceptance L X y hxy ρ ((hpool ρ hρ).1.trained hxy) (hpool ρ hρ).2).1⟩
  cases S with
  | rs p D => exact freeRsDiscover_total cfg p hS.1 L ff P X y hX hxy (D seed hist) (hS.2 seed hist) elitist pool n ⟨hr, hel, fun b hb => hS.1.origin.elim hnone fun h => absurd hb (h b)⟩
  | ns p D => exact freeNsDiscover_total cfg p hS.1 L ff P X y hX hxy (D seed hist) (hS.2 seed hist) elitist pool n ⟨hr, hel, fun b hb => hS.1.origin.elim hnone fun h => absurd hb (h b)⟩

theorem SearchPart.discover_length (S : SearchPart K d M) (L : Learner K d M) (ff : RuleFitness K d) (P : MixParams K) (seed : Seed) (hist : List (Event K d M)) (elitist : Option (Indiv K))
    (pool : List (Rule K d M)) (X : List (Point K d)) (y : List K) (n : Nat) (rules : List (Rule K d M)) (h : S.discover L ff P seed hist elitist pool X y n = .ok rules) : rules.length ≤ n := by
  cases S with
  | rs p D => exact freeRsDiscover_length p L ff P filterAll (D seed hist) elitist pool X y n rules h
  | ns p D => exact freeNsDiscover_length p L ff P filterAll (D seed hist) elitist pool X y n rules h

theorem searchFit_eq (cfg : SupCfg K) (S : SearchPart K d M) (hS : S.configure = .ok ()) (C : CompositionPart K d M) (P : MixParams K) (init : Seed → Nat → Nat → K) (L : Learner K d M)
    (ff : RuleFitness K d) (sf : Nat → SolFitness K) (entropy : Nat) (raw : RawData K d) (hc : raw.check = .ok (raw.X, raw.y)) (cl : Bool) (st0 : SupState K d M) :
    searchFit cfg S C P init L ff sf entropy raw cl st0 = st0.fit cfg (searchComp S C P init L ff sf) entropy raw cl := by
  unfold searchFit
  rw [hc]
  dsimp only
  rw [hS]

/-- C172 (partial): for all settings of random search and novelty search that work, all working composition methods, all mixing models with a positive weight, all valid data, seeds and random numbers
`fit` completes; the pool has at most `n_initial_rules + n_iter * n_rules` rules, all of the matching type and as the acceptance demands; and the model predicts one value per sample, which is 0 where no
rule of the elitist matches and otherwise between the smallest and the largest prediction of its matching rules. Missing: the settings and draws that `SearchPart.Works` excludes, see the theorems that
follow. -/
theorem C172_partial (cfg : SupCfg K) (hiter : 1 ≤ cfg.nIter) (hrules : 1 ≤ cfg.nRules) (hsize : 1 ≤ cfg.comp.populationSize) (raw : RawData K d)
    (hraw : raw.finite = true ∧ raw.X.length = raw.y.length ∧ raw.X ≠ []) (S : SearchPart K d M) (ff : RuleFitness K d) (hS : S.Works cfg raw.X.length)
    (C : CompositionPart K d M) (sf : Nat → SolFitness K) (hC : C.Works sf (cfg.nInitial + cfg.nIter * cfg.nRules)) (P : MixParams K)
    (hP : 0 < P.weight) (hE : P.expCalc.Positive d) (init : Seed → Nat → Nat → K) (L : Learner K d M) (entropy : Nat) (cl : Bool) (st0 : SupState K d M)
    (hinit : cfg.nInitial = 0 ∨ st0.step < cfg.nIter) :
    let r := searchFit cfg S C P init L ff sf entropy raw cl st0
    r.raised = none ∧ r.state.isError = false ∧ r.state.isFitted = true ∧ r.state.pool.length ≤ cfg.nInitial + cfg.nIter * cfg.nRules ∧
      (∀ ρ ∈ r.state.pool, ρ.kind = S.kind ∧ S.acceptance.Accepts L raw.X raw.y ρ) ∧
      ∃ σ : Solution K d M, r.state.elitist = some (.solution σ) ∧ σ.pool = r.state.pool ∧ σ.genome.length = σ.pool.length ∧
        ∀ Xq, Xq ≠ [] → ∃ out, r.state.predict (searchComp S C P init L ff sf) Xq = .ok out ∧ out.length = Xq.length ∧
          ∀ x v, (x, v) ∈ Xq.zip out →
            ((∀ ρ ∈ compress σ.pool σ.genome, ρ.kind.call ρ.bounds x = false) → v = 0) ∧
            ((∃ ρ ∈ compress σ.pool σ.genome, ρ.kind.call ρ.bounds x = true) →
              ∀ a b, (∀ ρ ∈ compress σ.pool σ.genome, ρ.kind.call ρ.bounds x = true → ∀ u, ρ.LocalPrediction L x u → a ≤ u ∧ u ≤ b) → a ≤ v ∧ v ≤ b) := by
  have hc : raw.check = .ok (raw.X, raw.y) := by unfold RawData.check; rw [if_pos hraw]
  have hxy := hraw.2.1.symm
  have hN : cfg.nInitial + cfg.nIter * cfg.nRules = cfg.maxGenomeLength := by
    unfold SupCfg.maxGenomeLength
    rw [Nat.mul_comm cfg.nIter, Nat.add_comm]
  rw [hN] at hC
  have hacc : ∀ ρ : Rule K d M, ρ.OfKind S.kind L ff raw.X raw.y ∧ S.acceptance.accept raw.y ρ = .ok true → S.acceptance.Accepts L raw.X raw.y ρ :=
    fun ρ h => S.acceptance.accepts_of hS.acceptance L raw.X raw.y hxy ρ (h.1.trained hxy) h.2
  have hbd : (searchComp S C P init L ff sf).Bounded := fun seed hist el pool X y n rules h => S.discover_length L ff P seed hist el pool X y n rules h
  have hnf : (searchComp S C P init L ff sf).NoFailure cfg raw.X raw.y fun ρ => ρ.OfKind S.kind L ff raw.X raw.y ∧ S.acceptance.accept raw.y ρ = .ok true := by
    refine ⟨?_, ?_, fun seed hist pool _ hlen => C.total hC seed hist _ _ fun p hp g s hg h => runEval_values cfg (searchComp S C P init L ff sf) _ _ pool p hp (hlen hbd) g hg s h⟩
    · intro seed hist el pool n _ hpool hel hnone
      exact S.discover_total cfg L ff P raw.X raw.y hraw.2.2 hxy hS seed hist el pool n hpool hel hnone
    · intro pool hpool g hg
      exact eval_total cfg _ rfl ff raw.X raw.y hxy hraw.2.2 pool (fun ρ hρ => ⟨(hpool ρ hρ).1.2, (hacc ρ (hpool ρ hρ)).1⟩) g hg
  obtain ⟨h1, h2, h3, h4, σ, h5, h6, h7⟩ := trained_result cfg (searchComp S C P init L ff sf) (C.good hC)
    hbd hiter hrules hsize entropy raw hc cl st0 hinit _ hnf
  rw [searchFit_eq cfg S hS.configure C P init L ff sf entropy raw hc cl st0]
  refine ⟨h1.1, h1.2, h2, ?_, fun ρ hρ => ⟨(h4 ρ hρ).1.1, hacc ρ (h4 ρ hρ)⟩, σ, h5, h6, h7, fun Xq hq => ?_⟩
  · rw [hN]
    exact h3
  · obtain ⟨out, h8, h9, h10⟩ := C17_convex L P hP hE σ h7
      (fun ρ hρ => by
        have hg := h4 ρ (by rw [← h6]; exact hρ)
        exact usable_of_fitted ρ raw.X (hg.1.consistent hxy) (hacc ρ hg).1) Xq
    refine ⟨out, ?_, h9, h10⟩
    unfold SupState.predict
    rw [h2, h1.2, h5]
    simp only [Bool.true_eq_false, if_false, if_neg hq, Bool.false_eq_true]
    exact h8

/-- C172 (refuted for two matching types): with centre-spread or minimum-percentage bounds and novelty search, every fit raises an `AttributeError`, whatever the other settings and the data. -/
theorem C172_matching_refuted (cfg : SupCfg K) (raw : RawData K d) (hraw : raw.finite = true ∧ raw.X.length = raw.y.length ∧ raw.X ≠ []) (p : FreeNS K d)
    (hk : p.kind = .centerSpread ∨ p.kind = .minPercentage) (D : Seed → List (Event K d M) → FreeNSDraws K d) (C : CompositionPart K d M) (P : MixParams K) (init : Seed → Nat → Nat → K)
    (L : Learner K d M) (ff : RuleFitness K d) (sf : Nat → SolFitness K) (entropy : Nat) (cl : Bool) (st0 : SupState K d M) :
    (searchFit cfg (.ns p D) C P init L ff sf entropy raw cl st0).raised = some .attributeError := by
  have hc : raw.check = .ok (raw.X, raw.y) := by unfold RawData.check; rw [if_pos hraw]
  unfold searchFit
  rw [hc]
  dsimp only
  have : (SearchPart.ns p D).configure = .error .attributeError := by
    unfold SearchPart.configure
    dsimp only
    rcases hk with hk | hk <;> rw [hk] <;> rfl
  rw [this]

/-- A call of either search needs its constraint. -/
theorem placedRules_fails (s : OriginStrategy) (k : Kind) (i : InitCfg) (c : ConstraintCfg K d) (L : Learner K d M) (ff : RuleFitness K d) (P : MixParams K) (filt : SubFilter K d M)
    (draw : Option (List K) → List Nat) (u : Nat → Point K d) (inits : Nat → Pairs K d) (elitist : Option (Indiv K)) (pool : List (Rule K d M)) (X : List (Point K d)) (y : List K)
    (fb : Pairs K d) (n : Nat) (hn : 1 ≤ n) (hd : DrawsRows X.length n draw) (hu : ∀ k i, 0 ≤ u k i ∧ u k i ≤ 1) (hap : ∀ b, ∃ e, c.apply fb k b = .error e) :
    ∃ e, placedRules s k i c L ff P filt draw u inits elitist pool X y fb n = .error e := by
  unfold placedRules
  split
  · exact ⟨_, rfl⟩
  · rename_i out ho
    obtain ⟨hlen, _⟩ := C99_origins s L P filt X y pool elitist n draw hd u hu out ho
    obtain ⟨o, os, rfl⟩ : ∃ o os, out = o :: os := by
      cases out with
      | nil => change 0 = n at hlen; omega
      | cons o os => exact ⟨o, os, rfl⟩
    obtain ⟨e, he⟩ : ∃ e, placedRule k i c L ff X y fb (o, inits 0) = .error e := by
      unfold placedRule
      split
      · exact ⟨_, rfl⟩
      · rename_i b _
        obtain ⟨e, he⟩ := hap b
        rw [he]
        exact ⟨_, rfl⟩
    refine ⟨e, ?_⟩
    rw [List.length_cons, List.range_succ_eq_map, List.zip_cons_cons, List.mapM_cons]
    dsimp only
    rw [he]
    rfl

/-- C172 (refuted for incomplete constraints): with a `CombinedConstraint` that lacks one of its parts, as by default, every fit ends with the error model, whatever the other settings and the data. -/
theorem C172_constraint_refuted (cfg : SupCfg K) (hiter : 1 ≤ cfg.nIter) (raw : RawData K d) (hraw : raw.finite = true ∧ raw.X.length = raw.y.length ∧ raw.X ≠ []) (S : SearchPart K d M)
    (hcfg : S.configure = .ok ()) (r : Option K) (c : Option (Option (Pairs K d))) (hS : S.constraint = .combined r c) (hmiss : r = none ∨ c = none)
    (hD : match S with
      | .rs p D => 1 ≤ p.rulesGenerated ∧ ∀ seed hist, (D seed hist).Possible p raw.X.length
      | .ns p D => 1 ≤ p.ns.mu ∧ ∀ seed hist, (D seed hist).Possible p raw.X.length)
    (C : CompositionPart K d M) (P : MixParams K) (init : Seed → Nat → Nat → K) (L : Learner K d M) (ff : RuleFitness K d) (sf : Nat → SolFitness K) (entropy : Nat) (cl : Bool)
    (st0 : SupState K d M) :
    let r := searchFit cfg S C P init L ff sf entropy raw cl st0
    r.raised = none ∧ r.state.isError = true ∧ r.state.pool = [] := by
  have hc : raw.check = .ok (raw.X, raw.y) := by unfold RawData.check; rw [if_pos hraw]
  rw [searchFit_eq cfg S hcfg C P init L ff sf entropy raw hc cl st0]
  have hap : ∀ fb k b, ∃ e, S.constraint.apply fb k b = .error e := by
    intro fb k b
    rw [hS]
    refine ⟨.typeError, ?_⟩
    rcases hmiss with rfl | rfl
    · rfl
    · cases r <;> rfl
  obtain ⟨fb, hfb, _⟩ := estimateBounds_ok raw.X hraw.2.2
  obtain ⟨h1, h2, _, h4, _⟩ := fit_discovery_fails cfg (searchComp S C P init L ff sf) entropy raw hc cl st0 hiter fun seed hist el pool n hn => by
    show ∃ e, S.discover L ff P seed hist el pool raw.X raw.y n = .error e
    cases S with
    | rs p D =>
      obtain ⟨e, he⟩ := placedRules_fails p.origin p.kind p.init p.constraint L ff P filterAll ((D seed hist).origins 0) ((D seed hist).uniform 0) ((D seed hist).inits 0) el pool raw.X raw.y fb
        p.rulesGenerated hD.1 ((hD.2 seed hist).origins 0) ((hD.2 seed hist).uniform 0) (hap fb p.kind)
      refine ⟨e, ?_⟩
      unfold SearchPart.discover freeRsDiscover
      dsimp only
      rw [hfb]
      dsimp only
      obtain ⟨m, rfl⟩ := Nat.exists_eq_succ_of_ne_zero hn
      rw [List.range_succ_eq_map, List.mapM_cons, he]
      rfl
    | ns p D =>
      obtain ⟨e, he⟩ := placedRules_fails p.origin p.kind p.init p.constraint L ff P filterAll (D seed hist).origins (D seed hist).uniform (D seed hist).inits el pool raw.X raw.y fb
        p.ns.mu hD.1 (hD.2 seed hist).origins (hD.2 seed hist).uniform (hap fb p.kind)
      refine ⟨e, ?_⟩
      unfold SearchPart.discover freeNsDiscover
      dsimp only
      rw [hfb]
      dsimp only
      rw [he]
  exact ⟨h1, h2, h4⟩

theorem pairUp_ne_nil {α : Type} (l : List α) (h : 2 ≤ l.length) : ∃ a b rest, pairUp l = (a, b) :: rest := by
  match l, h with
  | a :: b :: rest, _ => exact ⟨a, b, pairUp rest, rfl⟩
  | [], h => cases h
  | [a], h => exact absurd h (by simp)

theorem nsOptimize_fails {R Z : Type} (V : NsView R K) (cfg : NsCfg K) (breed : R → R → Z → Except PyErr (List R)) (valid : R → Bool) (accept : R → Except PyErr Bool) (n : Nat)
    (pool : Store R K) (initial : List R) (δ : NsDraw R Z) (draws : List (NsDraw R Z))
    (hpar : ∀ idx, δ.parents initial = .ok idx → 2 ≤ idx.length) (hbreed : ∀ a b, ∃ e, breed a b (δ.breed 0) = .error e) :
    ∃ e, nsOptimize V cfg breed valid accept n pool initial (δ :: draws) = .error e := by
  have hpop : ((nsStart pool initial).population.filterMap fun r => (nsStart pool initial).store[r]?.map NsObj.rule) = initial := by
    unfold nsStart
    dsimp only
    rw [List.filterMap_map]
    have : ∀ (l : List R) (k : Nat), (∀ i, i < l.length → (pool ++ initial.map fun r => ({ rule := r } : NsObj R K))[pool.length + (k + i)]? = l[i]?.map fun r => { rule := r }) →
        (List.range' k l.length).filterMap (fun i => ((pool ++ initial.map fun r => ({ rule := r } : NsObj R K))[pool.length + i]?).map NsObj.rule) = l := by
      intro l
      induction l with
      | nil => intro k _; rfl
      | cons r rest ih =>
        intro k hk
        rw [List.length_cons, List.range'_succ, List.filterMap_cons]
        have h0 := hk 0 (by simp)
        rw [Nat.add_zero] at h0
        rw [h0]
        simp only [List.getElem?_cons_zero, Option.map_some]
        rw [ih (k + 1) fun i hi => by
          have := hk (i + 1) (by simpa using hi)
          rw [show k + 1 + i = k + (i + 1) by omega, this, List.getElem?_cons_succ]]
    rw [List.range_eq_range']
    exact this initial 0 fun i _ => by
      rw [List.getElem?_append_right (by omega), List.getElem?_map]
      congr 2
      omega
  have hstep : ∃ e, nsStep V cfg breed valid (nsStart pool initial) δ = .error e := by
    unfold nsStep
    cases hsel : selectParents (nsStart pool initial) δ with
    | error e => exact ⟨e, rfl⟩
    | ok parents =>
      dsimp only
      unfold selectParents at hsel
      rw [hpop] at hsel
      cases hidx : δ.parents initial with
      | error e => rw [hidx] at hsel; cases hsel
      | ok idx =>
        rw [hidx] at hsel
        have h2 := hpar idx hidx
        have hlen := mapM_length _ _ _ hsel
        rw [if_neg (fun h0 => by rw [h0] at hlen; change 0 = _ at hlen; omega)]
        have hin : ∀ r ∈ parents, ∃ o, (nsStart pool initial).store[r]? = some o := by
          intro r hr
          obtain ⟨i, _, hi⟩ := mem_of_mapM_ok _ _ _ hsel r hr
          split at hi
          · cases hi
          · rename_i x hx
            injection hi with hi
            subst hi
            obtain ⟨j, hj, rfl⟩ := List.mem_map.mp (List.mem_of_getElem? hx)
            have := List.mem_range.mp hj
            exact ⟨_, List.getElem?_eq_getElem (by simp [nsStart]; omega)⟩
        have hfl : ∀ l : List Nat, (∀ r ∈ l, ∃ o, (nsStart pool initial).store[r]? = some o) →
            (l.filterMap fun r => (nsStart pool initial).store[r]?.map NsObj.rule).length = l.length := by
          intro l hl
          induction l with
          | nil => rfl
          | cons r rest ih =>
            obtain ⟨o, ho⟩ := hl r (List.mem_cons_self ..)
            rw [List.filterMap_cons, ho]
            simp [ih fun r h => hl r (List.mem_cons_of_mem _ h)]
        obtain ⟨a, b, rest, hpr⟩ := pairUp_ne_nil (parents.filterMap fun r => (nsStart pool initial).store[r]?.map NsObj.rule) (by rw [hfl parents hin]; omega)
        rw [hpr]
        obtain ⟨e, he⟩ := hbreed a b
        unfold nsChildren
        rw [he]
        exact ⟨e, rfl⟩
  obtain ⟨e, he⟩ := hstep
  refine ⟨e, ?_⟩
  unfold nsOptimize
  rw [List.foldlM_cons, he]
  rfl

/-- C172 (refuted for crossover of unordered bounds): with novelty search, unordered bounds and (as an example of a selection) the fittest rules as parents, every fit in which the first pair of every call
is to be crossed over ends with the error model, whatever the other settings and the data. -/
theorem C172_crossover_refuted (cfg : SupCfg K) (hiter : 1 ≤ cfg.nIter) (raw : RawData K d) (hraw : raw.finite = true ∧ raw.X.length = raw.y.length ∧ raw.X ≠ []) (p : FreeNS K d)
    (hk : p.kind = .unordered) (hs : p.selection = .fittest) (hn : 1 ≤ p.nIter) (hl : 2 ≤ p.lmbda) (hmu : 2 ≤ p.ns.mu) (D : Seed → List (Event K d M) → FreeNSDraws K d)
    (hD : ∀ seed hist, DrawsRows raw.X.length p.ns.mu (D seed hist).origins ∧ (∀ k i, 0 ≤ (D seed hist).uniform k i ∧ (D seed hist).uniform k i ≤ 1) ∧
      (∀ g n, ((D seed hist).shuffles g n).Perm (List.range n)) ∧ ((D seed hist).breed 0 0).u < p.rate)
    (C : CompositionPart K d M) (P : MixParams K) (init : Seed → Nat → Nat → K) (L : Learner K d M) (ff : RuleFitness K d) (sf : Nat → SolFitness K) (entropy : Nat) (cl : Bool)
    (st0 : SupState K d M) :
    let r := searchFit cfg (.ns p D) C P init L ff sf entropy raw cl st0
    r.raised = none ∧ r.state.isError = true ∧ r.state.pool = [] := by
  have hc : raw.check = .ok (raw.X, raw.y) := by unfold RawData.check; rw [if_pos hraw]
  have hcfg : (SearchPart.ns p D).configure = .ok () := by
    unfold SearchPart.configure
    dsimp only
    rw [configure_eq, if_neg (by rw [hk]; simp), hk]
    rfl
  rw [searchFit_eq cfg _ hcfg C P init L ff sf entropy raw hc cl st0]
  obtain ⟨h1, h2, _, h4, _⟩ := fit_discovery_fails cfg (searchComp (.ns p D) C P init L ff sf) entropy raw hc cl st0 hiter fun seed hist el pool n _ => by
    show ∃ e, freeNsDiscover p L ff P filterAll (D seed hist) el pool raw.X raw.y n = .error e
    obtain ⟨d1, d2, d3, d4⟩ := hD seed hist
    unfold freeNsDiscover
    split
    · exact ⟨_, rfl⟩
    · rename_i fb _
      split
      · exact ⟨_, rfl⟩
      · rename_i initial hi
        have hlen : initial.length = p.ns.mu := by
          unfold placedRules at hi
          split at hi
          · cases hi
          · rename_i out ho
            rw [mapM_length _ _ _ hi, ← (C99_origins p.origin L P filterAll raw.X raw.y pool el p.ns.mu _ d1 _ d2 out ho).1]
            simp
        obtain ⟨m, hm⟩ := Nat.exists_eq_add_of_le hn
        rw [hm, Nat.add_comm, List.range_succ_eq_map, List.map_cons]
        refine nsOptimize_fails _ _ _ _ _ _ _ _ _ _ ?_ ?_
        · intro idx hidx
          change shuffledParents p.selection p.lmbda _ _ initial = _ at hidx
          unfold shuffledParents at hidx
          split at hidx
          · cases hidx
          · rename_i pos hpos
            injection hidx with hidx
            rw [hs] at hpos
            unfold SelectCfg.positions at hpos
            dsimp only at hpos
            split at hpos
            · injection hpos with hpos
              have hpl : 2 ≤ pos.length := by
                rw [← hpos]
                unfold Suprb.fittest
                rw [List.length_take, (sortedDesc_perm _ _).length_eq, List.length_range]
                omega
              rw [← hidx, filterMap_get_length pos _ fun i hi => List.mem_range.mp ((d3 0 _).subset hi), (d3 0 _).length_eq, List.length_range]
              exact hpl
            · cases hpos
        · intro a b
          unfold freeBreed
          have : ruleCrossover p.kind p.rate ((freeIteration (M := M) p (D seed hist) 0).breed 0).u ((freeIteration (M := M) p (D seed hist) 0).breed 0).mask a.bounds b.bounds =
              .error .typeError := by
            unfold ruleCrossover
            rw [if_pos (show ((freeIteration (M := M) p (D seed hist) 0).breed 0).u < p.rate from d4), hk]
          rw [this]
          exact ⟨_, rfl⟩
  exact ⟨h1, h2, h4⟩

/-- C172 (refuted for squared-error origins, the default, with initial rules): unless all initial rules are rejected, `fit` ends with the error model, whatever the other settings. -/
theorem C172_initial_refuted (cfg : SupCfg K) (hiter : 1 ≤ cfg.nIter) (hrules : 1 ≤ cfg.nRules) (hinit : 0 < cfg.nInitial) (raw : RawData K d)
    (hraw : raw.finite = true ∧ raw.X.length = raw.y.length ∧ raw.X ≠ []) (S : SearchPart K d M) (hcfg : S.configure = .ok ()) (b : Bool)
    (ho : match S with | .rs p _ => p.origin = .squaredError b | .ns p _ => p.origin = .squaredError b)
    (C : CompositionPart K d M) (P : MixParams K) (init : Seed → Nat → Nat → K) (L : Learner K d M) (ff : RuleFitness K d) (sf : Nat → SolFitness K)
    (entropy : Nat) (cl : Bool) (st0 : SupState K d M) (seed : Seed) (hseed : (discoverySeeds entropy cfg.nIter)[st0.step]? = some seed) (rules : List (Rule K d M)) (hne : rules ≠ [])
    (hdisc : S.discover L ff P seed [] none [] raw.X raw.y cfg.nInitial = .ok rules) :
    let r := searchFit cfg S C P init L ff sf entropy raw cl st0
    r.raised = none ∧ r.state.isError = true ∧ r.state.isFitted = true := by
  have hc : raw.check = .ok (raw.X, raw.y) := by unfold RawData.check; rw [if_pos hraw]
  rw [searchFit_eq cfg S hcfg C P init L ff sf entropy raw hc cl st0]
  obtain ⟨fb, hfb, _⟩ := estimateBounds_ok raw.X hraw.2.2
  have hpl : ∀ s k i c draw u inits n, s = .squaredError b → placedRules s k i c L ff P filterAll draw u inits none rules raw.X raw.y fb n = .error .attributeError := by
    rintro s k i c draw u inits n rfl
    unfold placedRules originsOf
    dsimp only
    rw [show (Option.map _ (none : Option (Indiv K)) : Option (Solution K d M)) = none from rfl, C37_refuted L P filterAll b raw.X raw.y rules hne]
  refine initial_rules_fail cfg (searchComp S C P init L ff sf) entropy raw hraw hinit hiter hrules cl st0 seed hseed rules hdisc fun seed' hist => ⟨.attributeError, ?_⟩
  show S.discover L ff P seed' hist none rules raw.X raw.y cfg.nRules = _
  cases S with
  | rs p D =>
    unfold SearchPart.discover freeRsDiscover
    dsimp only
    rw [hfb]
    dsimp only
    obtain ⟨m, hm⟩ := Nat.exists_eq_add_of_le hrules
    rw [hm, Nat.add_comm, List.range_succ_eq_map, List.mapM_cons, hpl _ _ _ _ _ _ _ _ ho]
    rfl
  | ns p D =>
    unfold SearchPart.discover freeNsDiscover
    dsimp only
    rw [hfb]
    dsimp only
    rw [hpl _ _ _ _ _ _ _ _ ho]

/-! ### C173: the pool obeys the constraint and the acceptance -/

theorem nsChildren_inv {R Z : Type} (breed : R → R → Z → Except PyErr (List R)) (Q : R → Prop) (hb : ∀ a b z cs, Q a → Q b → breed a b z = .ok cs → ∀ c ∈ cs, Q c) (z : Nat → Z) (i : Nat)
    (ps : List (R × R)) (hp : ∀ p ∈ ps, Q p.1 ∧ Q p.2) (cs : List R) (h : nsChildren breed z i ps = .ok cs) : ∀ c ∈ cs, Q c := by
  induction ps generalizing i cs with
  | nil => injection h with h; rw [← h]; simp
  | cons p rest ih =>
    obtain ⟨a, b⟩ := p
    unfold nsChildren at h
    split at h
    · cases h
    · rename_i cs1 h1
      split at h
      · cases h
      · rename_i cs2 h2
        injection h with h
        rw [← h]
        intro r hr
        obtain ⟨qa, qb⟩ := hp (a, b) (List.mem_cons_self ..)
        rcases List.mem_append.mp hr with hr | hr
        · exact hb a b _ cs1 qa qb h1 r hr
        · exact ih _ (fun p hp' => hp p (List.mem_cons_of_mem _ hp')) _ h2 r hr

/-- What holds for the initial rules and is inherited by children holds for the population and the best rules. -/
def AllObey {R : Type} (Q : R → Prop) (s : NsState R K) : Prop :=
  (∀ r ∈ s.population, ∀ o, s.store[r]? = some o → Q o.rule) ∧ (∀ r ∈ s.best, ∀ o, s.store[r]? = some o → Q o.rule) ∧
    (∀ r ∈ s.population, r < s.store.length) ∧ ∀ r ∈ s.best, r < s.store.length

theorem nsStep_inv {R Z : Type} (V : NsView R K) (cfg : NsCfg K) (breed : R → R → Z → Except PyErr (List R)) (valid : R → Bool) (Q : R → Prop)
    (hb : ∀ a b z cs, Q a → Q b → breed a b z = .ok cs → ∀ c ∈ cs, Q c) (s s' : NsState R K) (δ : NsDraw R Z) (hI : AllObey Q s) (he : nsStep V cfg breed valid s δ = .ok s') : AllObey Q s' := by
  unfold nsStep at he
  split at he
  · cases he
  · rename_i parents hpar
    have hpm : ∀ r ∈ parents, r ∈ s.population := by
      intro r hr
      unfold selectParents at hpar
      split at hpar
      · cases hpar
      · obtain ⟨i, _, hi⟩ := mem_of_mapM_ok _ _ _ hpar r hr
        split at hi
        · cases hi
        · rename_i x hx
          injection hi with hi
          rw [← hi]
          exact List.mem_of_getElem? hx
    split at he
    · injection he with he; rw [← he]; exact hI
    · split at he
      · cases he
      · rename_i children hch
        have hcq : ∀ c ∈ children, Q c := by
          have hq : ∀ x ∈ parents.filterMap (fun r => s.store[r]?.map NsObj.rule), Q x := by
            intro x hx
            obtain ⟨r, hr, hx⟩ := List.mem_filterMap.mp hx
            cases ho : s.store[r]? with
            | none => rw [ho] at hx; cases hx
            | some o =>
              rw [ho] at hx
              cases hx
              exact hI.1 r (hpm r hr) o ho
          exact nsChildren_inv breed Q hb δ.breed 0 _ (fun p hp => ⟨hq _ (pairUp_mem _ p hp).1, hq _ (pairUp_mem _ p hp).2⟩) children hch
        dsimp only at he
        split at he
        · injection he with he; rw [← he]; exact hI
        · split at he
          · cases he
          · rename_i s2 best h2
            split at he
            · cases he
            · rename_i s3 bp h3
              injection he with he
              rw [← he]
              obtain ⟨x2, m2, _⟩ := ruleSelection_spec V cfg _ _ s2 _ best _ _ h2
              obtain ⟨x3, m3, _⟩ := ruleSelection_spec V cfg _ s2 s3 _ bp _ _ h3
              have hkey : ∀ r ∈ best, ∃ o, s3.store[r]? = some o ∧ Q o.rule := by
                intro r hr
                obtain ⟨i, hi, rfl⟩ := List.mem_map.mp (m2 r hr)
                have hi' := List.mem_range.mp hi
                obtain ⟨o2, ho2, e2⟩ := x2 (s.store.length + i) { rule := (List.filter valid children)[i] } (by
                  rw [List.getElem?_append_right (Nat.le_add_right _ _), Nat.add_sub_cancel_left, List.getElem?_map, List.getElem?_eq_getElem hi']
                  rfl)
                obtain ⟨o3, ho3, e3⟩ := x3 _ o2 ho2
                exact ⟨o3, ho3, by rw [e3, e2]; exact hcq _ (List.mem_filter.mp (List.getElem_mem hi')).1⟩
              have hold : ∀ r ∈ bp, ∃ o, s3.store[r]? = some o ∧ Q o.rule := by
                intro r hr
                have hr' := hpm r (m3 r hr)
                have hlt := hI.2.2.1 r hr'
                have h0 : s.store[r]? = some s.store[r] := List.getElem?_eq_getElem hlt
                obtain ⟨o2, ho2, e2⟩ := x2 r s.store[r] (by
                  show (s.store ++ _)[r]? = _
                  rw [List.getElem?_append_left hlt]; exact h0)
                obtain ⟨o3, ho3, e3⟩ := x3 _ o2 ho2
                exact ⟨o3, ho3, by rw [e3, e2]; exact hI.1 r hr' _ h0⟩
              have hall : ∀ r ∈ best ++ bp, ∃ o, s3.store[r]? = some o ∧ Q o.rule := fun r hr => (List.mem_append.mp hr).elim (hkey r) (hold r)
              have hof : ∀ r, (∃ o, s3.store[r]? = some o ∧ Q o.rule) → (∀ o, s3.store[r]? = some o → Q o.rule) ∧ r < s3.store.length := by
                rintro r ⟨o, ho, hq⟩
                exact ⟨fun o' ho' => by rw [ho] at ho'; cases ho'; exact hq, (List.getElem?_eq_some_iff.mp ho).1⟩
              exact ⟨fun r hr => (hof r (hall r hr)).1, fun r hr => (hof r (hkey r hr)).1, fun r hr => (hof r (hall r hr)).2, fun r hr => (hof r (hkey r hr)).2⟩

theorem nsOptimize_inv {R Z : Type} (V : NsView R K) (cfg : NsCfg K) (breed : R → R → Z → Except PyErr (List R)) (valid : R → Bool) (accept : R → Except PyErr Bool) (n : Nat)
    (pool : Store R K) (initial : List R) (draws : List (NsDraw R Z)) (rules : List R) (Q : R → Prop) (hinit : ∀ r ∈ initial, Q r)
    (hb : ∀ a b z cs, Q a → Q b → breed a b z = .ok cs → ∀ c ∈ cs, Q c) (h : nsOptimize V cfg breed valid accept n pool initial draws = .ok rules) :
    ∀ r ∈ rules, Q r ∧ accept r = .ok true := by
  unfold nsOptimize at h
  split at h
  · cases h
  · rename_i s hs
    have h0 : AllObey Q (nsStart pool initial) := by
      refine ⟨fun r hr o ho => ?_, fun r hr => (List.not_mem_nil hr).elim, fun r hr => ?_, fun r hr => (List.not_mem_nil hr).elim⟩
      · obtain ⟨i, _, rfl⟩ := List.mem_map.mp hr
        change (pool ++ _)[pool.length + i]? = _ at ho
        rw [List.getElem?_append_right (Nat.le_add_right _ _)] at ho
        obtain ⟨c, hc, rfl⟩ := List.mem_map.mp (List.mem_of_getElem? ho)
        exact hinit c hc
      · obtain ⟨i, hi, rfl⟩ := List.mem_map.mp hr
        have := List.mem_range.mp hi
        simp [nsStart]; omega
    have hI := foldlM_inv (nsStep V cfg breed valid) (AllObey Q) (fun s b s' hI he => nsStep_inv V cfg breed valid Q hb s s' b hI he) draws _ s h0 hs
    intro r hr
    obtain ⟨h1, h2⟩ := filterInvalid_mem accept _ rules h r hr
    refine ⟨?_, h2⟩
    obtain ⟨i, hi, hi2⟩ := List.mem_map.mp h1
    cases ho : s.store[i]? with
    | none => rw [ho] at hi2; cases hi2
    | some o =>
      rw [ho] at hi2
      injection hi2 with hi2
      rw [← hi2]
      exact hI.2.1 i (List.mem_of_mem_take hi) o ho

/-- Half-normal draws are not negative. -/
def SearchPart.HalfnormOk (S : SearchPart K d M) : Prop :=
  match S with
  | .rs p D => ∀ σ, p.init = .halfnorm σ → ∀ seed hist g k i, 0 ≤ ((D seed hist).inits g k i).1 ∧ 0 ≤ ((D seed hist).inits g k i).2
  | .ns p D => ∀ σ, p.init = .halfnorm σ → ∀ seed hist k i, 0 ≤ ((D seed hist).inits k i).1 ∧ 0 ≤ ((D seed hist).inits k i).2

/-- What C173 says about a rule, with the bounds of the data. -/
def Placed (k : Kind) (c : ConstraintCfg K d) (L : Learner K d M) (X : List (Point K d)) (y : List K) (fb : Pairs K d) (ρ : Rule K d M) : Prop :=
  ρ.kind = k ∧ ρ.TrainedOn L X y ∧ Constrained c fb ρ

theorem placedRule_placed (k : Kind) (i : InitCfg) (c : ConstraintCfg K d) (L : Learner K d M) (ff : RuleFitness K d) (X : List (Point K d)) (y : List K) (hxy : y.length = X.length)
    (fb : Pairs K d) (o : Point K d × Pairs K d) (hz : ∀ σ, i = .halfnorm σ → ∀ j, 0 ≤ (o.2 j).1 ∧ 0 ≤ (o.2 j).2) (ρ : Rule K d M) (h : placedRule k i c L ff X y fb o = .ok ρ) :
    Placed k c L X y fb ρ := by
  unfold placedRule at h
  split at h
  · cases h
  · rename_i b hb
    split at h
    · cases h
    · rename_i b' hb'
      refine ⟨(fit_sameShape L ff _ _ _ _ h).1, trainedOn_of_fit L ff _ _ hxy _ _ rfl h, constrained_of_fit L ff _ _ _ fb _ _ (fun hk => ?_) h⟩
      change k = .ordered at hk
      rw [hk] at hb hb'
      exact ⟨b, initWith_sorted i o.1 _ b hz hb, hb'⟩

theorem movedRule_placed (k : Kind) (m : MutationCfg) (c : ConstraintCfg K d) (L : Learner K d M) (ff : RuleFitness K d) (X : List (Point K d)) (y : List K) (hxy : y.length = X.length)
    (fb : Pairs K d) (τ : Rule K d M) (hk1 : τ.kind = k) (z : Pairs K d) (ρ : Rule K d M) (h : movedRule m c ⟨some m.sigma, some k⟩ L ff X y fb τ z = .ok ρ) : Placed k c L X y fb ρ := by
  unfold movedRule at h
  split at h
  · cases h
  · rename_i b hb
    split at h
    · cases h
    · rename_i b' hb'
      refine ⟨(fit_sameShape L ff _ _ _ _ h).1.trans hk1, trainedOn_of_fit L ff _ _ hxy _ _ rfl h, constrained_of_fit L ff _ _ _ fb _ _ (fun hk => ?_) h⟩
      change τ.kind = .ordered at hk
      rw [hk] at hb'
      rw [hk1] at hk
      rw [hk] at hb
      exact ⟨b, callMutation_sorted m z _ b hb, hb'⟩

theorem placedRules_placed (s : OriginStrategy) (k : Kind) (i : InitCfg) (c : ConstraintCfg K d) (L : Learner K d M) (ff : RuleFitness K d) (P : MixParams K) (filt : SubFilter K d M)
    (draw : Option (List K) → List Nat) (u : Nat → Point K d) (inits : Nat → Pairs K d) (hz : ∀ σ, i = .halfnorm σ → ∀ k j, 0 ≤ (inits k j).1 ∧ 0 ≤ (inits k j).2) (elitist : Option (Indiv K))
    (pool : List (Rule K d M)) (X : List (Point K d)) (y : List K) (hxy : y.length = X.length) (fb : Pairs K d) (n : Nat) (rules : List (Rule K d M))
    (h : placedRules s k i c L ff P filt draw u inits elitist pool X y fb n = .ok rules) : ∀ ρ ∈ rules, Placed k c L X y fb ρ := by
  unfold placedRules at h
  split at h
  · cases h
  · intro ρ hρ
    obtain ⟨p, _, h1⟩ := mem_of_mapM_ok _ _ _ h ρ hρ
    exact placedRule_placed k i c L ff X y hxy fb (p.1, inits p.2) (fun σ hσ j => hz σ hσ p.2 j) ρ h1

theorem SearchPart.discover_placed (S : SearchPart K d M) (hS : S.HalfnormOk) (L : Learner K d M) (ff : RuleFitness K d) (P : MixParams K) (seed : Seed) (hist : List (Event K d M))
    (elitist : Option (Indiv K)) (pool : List (Rule K d M)) (X : List (Point K d)) (y : List K) (hxy : y.length = X.length) (fb : Pairs K d) (hfb : estimateBounds X = .ok fb) (n : Nat)
    (rules : List (Rule K d M)) (h : S.discover L ff P seed hist elitist pool X y n = .ok rules) : ∀ ρ ∈ rules, Placed S.kind S.constraint L X y fb ρ ∧ S.acceptance.accept y ρ = .ok true := by
  cases S with
  | rs p D =>
    change freeRsDiscover p L ff P filterAll (D seed hist) elitist pool X y n = .ok rules at h
    unfold freeRsDiscover at h
    rw [hfb] at h
    dsimp only at h
    split at h
    · cases h
    · rename_i groups hg
      unfold randomSearch at h
      split at h
      · cases h
      · rename_i out ho
        intro ρ hρ
        obtain ⟨h1, h2⟩ := filterInvalid_mem _ _ rules h ρ hρ
        refine ⟨?_, h2⟩
        obtain ⟨ρ', h3, h4⟩ := List.mem_map.mp h1
        injection h4 with h4
        subst h4
        obtain ⟨l, hl, hl2⟩ := List.mem_flatten.mp h3
        obtain ⟨q, hq, hq2⟩ := mem_of_mapM_ok _ _ _ ho l hl
        obtain ⟨g, _, hg2⟩ := mem_of_mapM_ok _ _ _ hg q.1 (List.of_mem_zip (show (q.1, q.2) ∈ groups.zip _ from hq)).1
        exact placedRules_placed p.origin p.kind p.init p.constraint L ff P filterAll _ _ _ (fun σ hσ => hS σ hσ seed hist g) elitist pool X y hxy fb _ q.1 hg2 _
          ((p.selection.one_spec q.1 q.2 l hq2).2 _ hl2)
  | ns p D =>
    change freeNsDiscover p L ff P filterAll (D seed hist) elitist pool X y n = .ok rules at h
    unfold freeNsDiscover at h
    rw [hfb] at h
    dsimp only at h
    split at h
    · cases h
    · rename_i initial hi
      refine nsOptimize_inv _ _ _ _ _ _ _ _ _ _ (Placed p.kind p.constraint L X y fb)
        (placedRules_placed p.origin p.kind p.init p.constraint L ff P filterAll _ _ _ (fun σ hσ => hS σ hσ seed hist) elitist pool X y hxy fb _ initial hi) ?_ h
      intro A B z cs hA hB hbr c hc
      unfold freeBreed at hbr
      split at hbr
      · cases hbr
      · rename_i a b _
        split at hbr
        · cases hbr
        · rename_i c1 h1
          split at hbr
          · cases hbr
          · rename_i c2 h2
            injection hbr with hbr
            rw [← hbr] at hc
            rcases List.mem_cons.mp hc with rfl | hc
            · exact movedRule_placed p.kind p.mutation p.constraint L ff X y hxy fb { A with bounds := a } hA.1 _ _ h1
            · rw [List.mem_singleton.mp hc]
              exact movedRule_placed p.kind p.mutation p.constraint L ff X y hxy fb { B with bounds := b } hB.1 _ _ h2

/-- C173 (partial): after every fit (completed, failed or aborted) with all settings of random search and novelty search, every composition method and mixing model and all random numbers, every rule of
the pool has the configured matching type and is as the acceptance demands; and if it is an ordered rule, it obeys the constraint. Missing: with `CombinedConstraint` the minimum range of dimensions that
end at one of the bounds, for which it is false, see `C173_refuted`. -/
theorem C173_partial (cfg : SupCfg K) (S : SearchPart K d M) (hacc : S.acceptance.Usable) (hbox : S.constraint.BoxOrdered) (hS : S.HalfnormOk) (C : CompositionPart K d M) (P : MixParams K)
    (init : Seed → Nat → Nat → K) (L : Learner K d M) (ff : RuleFitness K d) (sf : Nat → SolFitness K) (entropy : Nat) (raw : RawData K d) (hraw : raw.check = .ok (raw.X, raw.y)) (cl : Bool)
    (st0 : SupState K d M) :
    ∀ ρ ∈ (searchFit cfg S C P init L ff sf entropy raw cl st0).state.pool, ρ.kind = S.kind ∧ S.acceptance.Accepts L raw.X raw.y ρ ∧
      (S.kind = .ordered → Spec.MostlyObeys raw.X S.constraint ρ.bounds) := by
  obtain ⟨fb, hfb, _⟩ := estimateBounds_ok raw.X (check_ok raw _ _ hraw).2.2.2.1
  have hxy := check_lengths raw hraw
  intro ρ hρ
  unfold searchFit at hρ
  rw [hraw] at hρ
  dsimp only at hρ
  split at hρ
  · cases hρ
  · obtain ⟨⟨h1, h2, h3⟩, h4⟩ := C30_run cfg _ entropy raw hraw cl st0 (fun ρ => Placed S.kind S.constraint L raw.X raw.y fb ρ ∧ S.acceptance.accept raw.y ρ = .ok true)
      (fun seed hist el pool n rules h => S.discover_placed hS L ff P seed hist el pool raw.X raw.y hxy fb hfb n rules h) ρ hρ
    exact ⟨h1, S.acceptance.accepts_of hacc L raw.X raw.y hxy ρ h2 h4, fun hk => h3.obeys hbox hfb (h1.trans hk)⟩

/-! ### Examples and counterexamples -/

/-- The settings of the examples of random search: three rules per group. -/
def rsExample (sel : SelectCfg) (c : ConstraintCfg ℚ 1) (a : AcceptCfg ℚ) (o : OriginStrategy) (k : Kind) (i : InitCfg) : FreeRS ℚ 1 := ⟨3, o, k, i, sel, c, a⟩

/-- The settings of the examples of novelty search: one generation with three parents. -/
def nsExample (sel : SelectCfg) (c : ConstraintCfg ℚ 1) (a : AcceptCfg ℚ) (o : OriginStrategy) (k : Kind) (ar : ArchiveCfg) (rate : ℚ) : FreeNS ℚ 1 :=
  ⟨1, 2, ⟨3, 1, 1, false, .basic, .plain, 1⟩, ar, o, k, .mean, rate, ⟨.normal, .scalar, false⟩, sel, c, a⟩

def rsExampleDraws (h : ℚ × ℚ) : FreeRSDraws ℚ 1 := ⟨fun _ => firstPossible 3, fun _ _ _ => 0, fun _ _ _ => h, fun _ => ⟨fun _ => 0, fun _ _ => 0⟩⟩

def nsExampleDraws (z : ℚ × ℚ) : FreeNSDraws ℚ 1 :=
  ⟨firstPossible 3, fun _ _ => 0, fun _ _ => (0, 0), fun _ => ⟨fun _ => 0, fun _ _ => 0⟩, fun _ n => List.range n, fun _ _ => ⟨1 / 2, fun _ => true, fun _ => z, fun _ => z⟩, fun _ _ n => List.range n,
    fun _ => ([0], none)⟩

theorem rsExampleDraws_possible (h : ℚ × ℚ) (p : FreeRS ℚ 1) (hp : p.rulesGenerated = 3) (N : Nat) (hN : N ≠ 0) : (rsExampleDraws h).Possible p N :=
  ⟨fun _ => by rw [hp]; exact firstPossible_draws N 3 hN, fun _ _ _ => ⟨le_refl _, zero_le_one⟩⟩

theorem nsExampleDraws_possible (z : ℚ × ℚ) (p : FreeNS ℚ 1) (hp : p.ns.mu = 3) (hc : p.kind = .ordered ∨ p.rate ≤ 1 / 2) (N : Nat) (hN : N ≠ 0) : (nsExampleDraws z).Possible p N :=
  ⟨by rw [hp]; exact firstPossible_draws N 3 hN, fun _ _ => ⟨le_refl _, zero_le_one⟩, fun _ _ _ => List.Perm.refl _, fun _ h => by simp [nsExampleDraws] at h, hc.imp id fun h _ _ => h⟩

/-- The model of the examples, trained on three samples. -/
def searchExampleFit (S : SearchPart ℚ 1 ℚ) : FitResult ℚ 1 ℚ :=
  searchFit smallCfg S (.ga smallGA (firstDraws 2 1 (1 / 2) : RunDraws ℚ 1 ℚ).ga) ⟨.plain, 2⟩ (fun _ _ _ => 0) meanLearner negErr (fun _ _ _ c => c) 7 ⟨[![0], ![1], ![5]], [1, 3, 7], true⟩ false {}

/-- All selections, origins, archives and acceptances, five constraints and (with ordered bounds and, without crossover, unordered ones) both searches meet the hypotheses of `C172_partial`. -/
example (sel : SelectCfg) (c : ConstraintCfg ℚ 1)
    (hc : c ∈ [.minRange (1 / 10), .clip none, .clip (some fun _ => (0, 4)), .combined (some (1 / 10)) (some none), .combined (some (1 / 10)) (some (some fun _ => (0, 4)))])
    (a : AcceptCfg ℚ) (ha : a ∈ [.maxError (1 / 100), .variance 2]) (o : OriginStrategy) (ar : ArchiveCfg) (rate : ℚ) (z : ℚ × ℚ) (k : Kind) (hk : k = .ordered ∨ k = .unordered ∧ rate ≤ 1 / 2) :
    (SearchPart.rs (rsExample sel c a o k .mean) fun _ _ => rsExampleDraws z : SearchPart ℚ 1 ℚ).Works smallCfg 3 ∧
      (SearchPart.rs (rsExample sel c a o .centerSpread (.normal (.array 2))) fun _ _ => rsExampleDraws z : SearchPart ℚ 1 ℚ).Works smallCfg 3 ∧
      (SearchPart.ns (nsExample sel c a o k ar rate) fun _ _ => nsExampleDraws z : SearchPart ℚ 1 ℚ).Works smallCfg 3 := by
  have h1 : c.Complete := by
    simp only [List.mem_cons, List.not_mem_nil, or_false] at hc
    rcases hc with rfl | rfl | rfl | rfl | rfl <;> simp [ConstraintCfg.Complete]
  have h2 : a.Usable := by
    simp only [List.mem_cons, List.not_mem_nil, or_false] at ha
    rcases ha with rfl | rfl <;> simp [AcceptCfg.Usable]
  refine ⟨⟨⟨by simp [rsExample], ?_, h1, h2, Or.inl rfl⟩, fun _ _ => rsExampleDraws_possible z _ rfl 3 (by decide)⟩,
    ⟨⟨by simp [rsExample], Or.inr ⟨2, le_refl _, rfl⟩, h1, h2, Or.inl rfl⟩, fun _ _ => rsExampleDraws_possible z _ rfl 3 (by decide)⟩,
    ⟨⟨by simp [nsExample], trivial, hk.imp id And.left, ?_, h1, h2, Or.inl rfl⟩, fun _ _ => nsExampleDraws_possible z _ rfl (hk.imp id And.right) 3 (by decide)⟩⟩
  · rcases hk with rfl | ⟨rfl, _⟩ <;> simp [InitWorks, rsExample, InitCfg.ForIntervals]
  · rcases hk with rfl | ⟨rfl, _⟩ <;> simp [WorksWith, nsExample, InitCfg.ForIntervals, Sigma.Scales]

/-- The pools of two runs: random search with half-normal initialisation, and novelty search with crossover. -/
example :
    (searchExampleFit (.rs (rsExample .nondominated (.minRange 1) (.maxError 1) .uniformSamples .ordered (.halfnorm .scalar)) fun _ _ => rsExampleDraws (1 / 4, 1))).state.pool.map
        (fun ρ => (ρ.kind, ρ.bounds 0)) = [(.ordered, (-1 / 4, 1)), (.ordered, (-1 / 4, 1))] ∧
      (searchExampleFit (.ns (nsExample .random (.clip none) (.maxError 1) .uniformSamples .ordered .random 1) fun _ _ => nsExampleDraws (-1, 1))).state.pool.map
        (fun ρ => (ρ.kind, ρ.bounds 0)) = [(.ordered, (0, 1)), (.ordered, (0, 1))] := by
  decide +kernel

/-- C173 (refuted): rules found at the edge of the data with `CombinedConstraint(MinRange(1), Clip())` are only half as wide, with both searches, so they do not obey the constraint. -/
theorem C173_refuted :
    let c : ConstraintCfg ℚ 1 := .combined (some 1) (some none)
    ∀ S ∈ [(.rs (rsExample .fittest c (.variance 1) .uniformSamples .ordered .mean) fun _ _ => rsExampleDraws (0, 0) : SearchPart ℚ 1 ℚ),
        .ns (nsExample .fittest c (.variance 1) .uniformSamples .ordered .novel (1 / 5)) fun _ _ => nsExampleDraws (0, -1 / 2)],
      (searchExampleFit S).raised = none ∧ (searchExampleFit S).state.isError = false ∧
        ∃ ρ ∈ (searchExampleFit S).state.pool, ρ.kind = .ordered ∧ ¬ Spec.Obeys [![0], ![1], ![5]] c ρ.bounds := by
  have h : ∀ S ∈ [(.rs (rsExample .fittest (.combined (some 1) (some none)) (.variance 1) .uniformSamples .ordered .mean) fun _ _ => rsExampleDraws (0, 0) : SearchPart ℚ 1 ℚ),
        .ns (nsExample .fittest (.combined (some 1) (some none)) (.variance 1) .uniformSamples .ordered .novel (1 / 5)) fun _ _ => nsExampleDraws (0, -1 / 2)],
      (searchExampleFit S).raised = none ∧ (searchExampleFit S).state.isError = false ∧
        ∃ ρ ∈ (searchExampleFit S).state.pool, ρ.kind = .ordered ∧ (ρ.bounds 0).2 - (ρ.bounds 0).1 = 1 / 2 := by
    simp only [List.forall_mem_cons, List.not_mem_nil, false_imp_iff, implies_true, and_true]
    decide +kernel
  intro c S hS
  obtain ⟨h1, h2, ρ, h3, h4, h5⟩ := h S hS
  refine ⟨h1, h2, ρ, h3, h4, fun hobey => ?_⟩
  have := hobey.1 1 (Or.inr ⟨_, rfl⟩) 0
  rw [h5] at this
  norm_num at this

/-- Example: the hypotheses of `C172_crossover_refuted` hold for a crossover rate above the number drawn; with a lower one the same run completes. -/
example :
    (∀ N ≠ 0, DrawsRows N 3 (nsExampleDraws (0, 0)).origins ∧ (∀ k i, 0 ≤ (nsExampleDraws (0, 0)).uniform k i ∧ (nsExampleDraws (0, 0)).uniform k i ≤ 1) ∧
      (∀ g n, ((nsExampleDraws (0, 0)).shuffles g n).Perm (List.range n)) ∧ ((nsExampleDraws (0, 0)).breed 0 0).u < 1) ∧
    (searchExampleFit (.ns (nsExample .fittest (.minRange 1) (.maxError 1) .uniformSamples .unordered .novel 1) fun _ _ => nsExampleDraws (0, 0))).state.isError = true ∧
    (searchExampleFit (.ns (nsExample .fittest (.minRange 1) (.maxError 1) .uniformSamples .unordered .novel (1 / 5)) fun _ _ => nsExampleDraws (0, 0))).state.isError = false := by
  refine ⟨fun N hN => ⟨firstPossible_draws N 3 hN, fun _ _ => ⟨le_refl _, zero_le_one⟩, fun _ _ => List.Perm.refl _, by norm_num [nsExampleDraws]⟩, by decide +kernel, by decide +kernel⟩

/-- Example: the hypotheses of `C172_constraint_refuted` hold for both searches with the default `CombinedConstraint()`. -/
example : (SearchPart.rs (rsExample .fittest (.combined none none) (.variance 1) .uniformSamples .ordered .mean) fun _ _ => rsExampleDraws (0, 0) : SearchPart ℚ 1 ℚ).configure = .ok () ∧
    (SearchPart.ns (nsExample .fittest (.combined none none) (.variance 1) .uniformSamples .ordered .novel 1) fun _ _ => nsExampleDraws (0, 0) : SearchPart ℚ 1 ℚ).configure = .ok () ∧
    (rsExampleDraws (0, 0)).Possible (rsExample .fittest (.combined none none) (.variance 1) .uniformSamples .ordered .mean) 3 :=
  ⟨rfl, by decide +kernel, rsExampleDraws_possible _ _ rfl 3 (by decide)⟩

/-- Example: the initial rules of `C172_initial_refuted`, not all of which are rejected. -/
example : ((SearchPart.rs (rsExample .fittest (.minRange 1) (.maxError 1) (.squaredError true) .ordered .mean) fun _ _ => rsExampleDraws (0, 0) : SearchPart ℚ 1 ℚ).discover meanLearner negErr ⟨.plain, 2⟩
    ⟨0, []⟩ [] none [] [![0], ![1], ![5]] [1, 3, 7] 2).map List.length = .ok 2 := by
  decide +kernel

/-! ### The defaults -/

/-- The settings of `RSCfg` with everything else as by default. -/
def RSCfg.free (cfg : RSCfg K) : FreeRS K d where
  rulesGenerated := cfg.rulesGenerated
  origin := cfg.origin
  kind := .ordered
  init := .halfnorm .scalar
  selection := .fittest
  constraint := .combined (some cfg.minRange) (some none)
  acceptance := .variance cfg.beta

theorem placedRules_default (cfg : RSCfg K) (L : Learner K d M) (ff : RuleFitness K d) (P : MixParams K) (filt : SubFilter K d M) (D : RSDraws K d) (elitist : Option (Indiv K))
    (pool : List (Rule K d M)) (X : List (Point K d)) (y : List K) (fb : Pairs K d) (g : Nat) :
    placedRules cfg.origin .ordered (.halfnorm .scalar) (.combined (some cfg.minRange) (some none)) L ff P filt (D.origins g) (D.uniform g) (D.init g) elitist pool X y fb cfg.rulesGenerated =
      rsGroup cfg L ff P filt D elitist pool X y fb g := by
  unfold placedRules rsGroup
  cases originsOf cfg.origin L P filt X y pool elitist cfg.rulesGenerated (D.origins g) (D.uniform g) with
  | error e => rfl
  | ok origins => rfl

theorem sortedDesc_map {α β F : Type} [LE F] [DecidableLE F] (f : β → F) (g : α → β) (l : List α) : (sortedDesc (fun a => f (g a)) l).map g = sortedDesc f (l.map g) := by
  unfold sortedDesc
  exact List.map_insertionSort _ _ g l fun a _ b _ => by simp

/-- The positions that `Fittest` selects are those of the rules it selects. -/
theorem fittest_positions (rules : List (Rule K d M)) (size : Nat) : (fittest (fitnessOfPos rules) (List.range rules.length) size).filterMap (fun i => rules[i]?) = fittest ruleFitnessOf rules size := by
  have h1 : (List.range rules.length).map (fun i => rules[i]?) = rules.map some := by
    refine List.ext_getElem? fun i => ?_
    rw [List.getElem?_map, List.getElem?_map]
    by_cases hi : i < rules.length
    · rw [List.getElem?_range hi, List.getElem?_eq_getElem hi]; simp [hi]
    · rw [List.getElem?_eq_none (by simpa using hi), List.getElem?_eq_none (by simpa using hi)]; rfl
  have h2 : (sortedDesc (fitnessOfPos rules) (List.range rules.length)).map (fun i => rules[i]?) = (sortedDesc ruleFitnessOf rules).map some := by
    have a := sortedDesc_map (fun o : Option (Rule K d M) => (o.map ruleFitnessOf).getD ⊥) (fun i => rules[i]?) (List.range rules.length)
    have b := sortedDesc_map (fun o : Option (Rule K d M) => (o.map ruleFitnessOf).getD ⊥) some rules
    rw [h1] at a
    exact a.trans b.symm
  unfold fittest
  have h3 : ∀ l : List Nat, l.filterMap (fun i => rules[i]?) = (l.map fun i => rules[i]?).filterMap id := fun l => by rw [List.filterMap_map]; rfl
  rw [h3, List.map_take, h2, ← List.map_take, List.filterMap_map]
  simp

theorem mapM_zip_ignore {α γ δ : Type} (f : α × γ → Except PyErr δ) (g : α × Unit → Except PyErr δ) (hfg : ∀ a c, f (a, c) = g (a, ())) (l : List α) (m : List γ) (h : m.length = l.length) :
    (l.zip m).mapM f = (l.map fun a => (a, ())).mapM g := by
  induction l generalizing m with
  | nil => rfl
  | cons a l ih =>
    cases m with
    | nil => cases h
    | cons c m => rw [List.zip_cons_cons, List.map_cons, List.mapM_cons, List.mapM_cons, hfg, ih m (by simpa using h)]

/-- With everything as by default, this is the random search of C99 and C105. -/
theorem freeRsDiscover_default (cfg : RSCfg K) (L : Learner K d M) (ff : RuleFitness K d) (P : MixParams K) (filt : SubFilter K d M) (D : FreeRSDraws K d) (elitist : Option (Indiv K))
    (pool : List (Rule K d M)) (X : List (Point K d)) (y : List K) (n : Nat) :
    freeRsDiscover cfg.free L ff P filt D elitist pool X y n = rsDiscover cfg L ff P filt ⟨D.origins, D.uniform, D.inits⟩ elitist pool X y n := by
  unfold freeRsDiscover rsDiscover
  cases estimateBounds X with
  | error e => rfl
  | ok fb =>
    dsimp only
    have hg : (fun g => placedRules (RSCfg.free (d := d) cfg).origin (RSCfg.free (d := d) cfg).kind (RSCfg.free (d := d) cfg).init (RSCfg.free (d := d) cfg).constraint L ff P filt (D.origins g)
        (D.uniform g) (D.inits g) elitist pool X y fb (RSCfg.free (d := d) cfg).rulesGenerated) = rsGroup cfg L ff P filt ⟨D.origins, D.uniform, D.inits⟩ elitist pool X y fb :=
      funext fun g => placedRules_default cfg L ff P filt ⟨D.origins, D.uniform, D.inits⟩ elitist pool X y fb g
    rw [hg]
    cases hm : (List.range n).mapM (rsGroup cfg L ff P filt ⟨D.origins, D.uniform, D.inits⟩ elitist pool X y fb) with
    | error e => rfl
    | ok groups =>
      dsimp only
      have hl := mapM_length _ _ _ hm
      unfold randomSearch
      rw [mapM_zip_ignore _ (fun p : List (Rule K d M) × Unit => ruleFittest p.1 1) (fun rules z => ?_) groups _ (by rw [hl]; simp)]
      · rfl
      · show SelectCfg.one .fittest rules z = ruleFittest rules 1
        unfold SelectCfg.one SelectCfg.positions ruleFittest
        dsimp only
        split_ifs with h
        · dsimp only; rw [fittest_positions]
        · rfl

/-- The settings of `NSParams` with the other ones as by default. -/
def NSParams.free (p : NSParams K) (nIter : Nat) (sel : SelectCfg) (ar : ArchiveCfg) : FreeNS K d where
  nIter := nIter
  lmbda := p.lmbda
  ns := p.ns
  archive := ar
  origin := p.origin
  kind := .ordered
  init := .halfnorm .scalar
  rate := p.rate
  mutation := ⟨p.mutation, .scalar, false⟩
  selection := sel
  constraint := .combined (some p.minRange) (some none)
  acceptance := .variance p.beta

/-- With everything as by default, pairs of ordered rules are bred as in C78, C105 and C106. -/
theorem freeBreed_default (p : NSParams K) (nIter : Nat) (sel : SelectCfg) (ar : ArchiveCfg) (L : Learner K d M) (ff : RuleFitness K d) (X : List (Point K d)) (y : List K) (fb : Pairs K d)
    (A B : Rule K d M) (hA : A.kind = .ordered) (hB : B.kind = .ordered) (z : BreedDraw K d) :
    freeBreed (p.free nIter sel ar) ⟨some .scalar, some .ordered⟩ L ff X y fb A B z = breedRules L ff X y p.mutation p.minRange p.rate fb A B z := by
  have hmove : ∀ (ρ : Rule K d M) (w : Pairs K d), ρ.kind = .ordered →
      movedRule ⟨p.mutation, .scalar, false⟩ (.combined (some p.minRange) (some none)) ⟨some .scalar, some .ordered⟩ L ff X y fb ρ w = childRule L ff X y p.mutation p.minRange fb ρ w := by
    intro ρ w hρ
    have hc : callMutation ⟨p.mutation, .scalar, false⟩ ⟨some .scalar, some .ordered⟩ w ρ.bounds = mutate p.mutation .ordered w ρ.bounds := by
      cases p.mutation <;> rfl
    unfold movedRule childRule childBounds
    rw [hc, hρ]
    cases mutate p.mutation .ordered w ρ.bounds with
    | error e => rfl
    | ok b => rfl
  unfold freeBreed breedRules
  rw [hA]
  show (match ruleCrossover .ordered p.rate z.u z.mask A.bounds B.bounds with | .error e => _ | .ok (a, b) => _) = _
  cases ruleCrossover .ordered p.rate z.u z.mask A.bounds B.bounds with
  | error e => rfl
  | ok q =>
    obtain ⟨a, b⟩ := q
    dsimp only
    rw [← hmove { A with kind := .ordered, bounds := a } z.first rfl, ← hmove { B with bounds := b } z.second hB]
    rfl

end Suprb
