import Verif.Props.Default
import Verif.Props.Selection
import Verif.Model.Search

/-!
# Claims C98–C100: training with random search, origins, random states
-/

set_option autoImplicit false
set_option linter.unusedSectionVars false

namespace Suprb

open Spec

variable {K : Type} [Field K] [LinearOrder K] [IsStrictOrderedRing K] {d : Nat} {M : Type}

/-! ### C99 origins -/

theorem takeRows_ok {α : Type} (X : List α) (idx : List Nat) (h : ∀ i ∈ idx, i < X.length) : takeRows X idx = .ok (idx.filterMap fun i => X[i]?) := by
  induction idx with
  | nil => rfl
  | cons i is ih =>
    have hi := h i (List.mem_cons_self ..)
    have ih := ih fun j hj => h j (List.mem_cons_of_mem _ hj)
    unfold takeRows at ih ⊢
    rw [List.mapM_cons, ih, List.filterMap_cons, List.getElem?_eq_getElem hi]
    rfl

theorem rngChoice_ok (N n : Nat) (hN : N ≠ 0) (probs : Option (List K)) (hp : IsDistribution N probs) (idx : List Nat) : rngChoice N n probs idx = .ok idx := by
  unfold rngChoice
  rw [if_neg fun h => hN h.1]
  cases probs with
  | none => rfl
  | some p =>
    obtain ⟨a1, a2, a3⟩ := hp p rfl
    dsimp only
    rw [if_neg]
    push Not
    refine ⟨a1, ?_, a3⟩
    simp only [ne_eq, List.any_eq_true, decide_eq_true_eq, not_exists, not_and, not_lt]
    exact a2

theorem rngChoice_distribution (N n : Nat) (probs : Option (List K)) (idx out : List Nat) (h : rngChoice N n probs idx = .ok out) : out = idx ∧ IsDistribution N probs := by
  unfold rngChoice at h
  split_ifs at h
  cases probs with
  | none => exact ⟨(Except.ok.inj h).symm, fun p hp => by cases hp⟩
  | some p =>
    dsimp only at h
    split_ifs at h with h2
    refine ⟨(Except.ok.inj h).symm, fun p' hp => ?_⟩
    cases hp
    push Not at h2
    obtain ⟨a1, a2, a3⟩ := h2
    refine ⟨a1, fun q hq => ?_, a3⟩
    by_contra hlt
    exact a2 (List.any_eq_true.mpr ⟨q, hq, by simpa using hlt⟩)

/-- Random indices numpy can return for the data. -/
def DrawsRows (N n : Nat) (draw : Option (List K) → List Nat) : Prop := ∀ probs, IsDistribution N probs → PossibleChoice N n probs (draw probs)

theorem drawRows_spec (X : List (Point K d)) (n : Nat) (probs : Option (List K)) (draw : Option (List K) → List Nat) (hd : DrawsRows X.length n draw) (out : List (Point K d))
    (h : drawRows X n probs draw = .ok out) : out.length = n ∧ ∀ o ∈ out, o ∈ X := by
  unfold drawRows at h
  split at h
  · cases h
  · rename_i idx hi
    obtain ⟨rfl, hdist⟩ := rngChoice_distribution _ _ _ _ _ hi
    obtain ⟨h1, h2⟩ := hd probs hdist
    rw [takeRows_ok X _ fun i hi => (h2 i hi).1] at h
    rw [← Except.ok.inj h, filterMap_get_length X _ fun i hi => (h2 i hi).1]
    refine ⟨h1, fun o ho => ?_⟩
    obtain ⟨i, _, hi⟩ := mem_filterMap_get _ _ _ ho
    exact List.mem_of_getElem? hi

theorem drawRows_total (X : List (Point K d)) (hX : X ≠ []) (n : Nat) (probs : Option (List K)) (hp : IsDistribution X.length probs) (draw : Option (List K) → List Nat)
    (hd : DrawsRows X.length n draw) : ∃ out, drawRows X n probs draw = .ok out := by
  unfold drawRows
  rw [rngChoice_ok _ _ (fun h => hX (List.length_eq_zero_iff.mp h)) _ hp]
  exact ⟨_, takeRows_ok X _ fun i hi => ((hd probs hp).2 i hi).1⟩

/-- C99: the origins any strategy returns are as many as requested, and each lies within the range of the training samples in every feature; all strategies except the uniform choice from the
input space return training samples only. -/
theorem C99_origins (s : OriginStrategy) (L : Learner K d M) (P : MixParams K) (filt : SubFilter K d M) (X : List (Point K d)) (y : List K) (pool : List (Rule K d M))
    (elitist : Option (Indiv K)) (n : Nat) (draw : Option (List K) → List Nat) (hd : DrawsRows X.length n draw) (u : Nat → Point K d) (hu : ∀ k i, 0 ≤ u k i ∧ u k i ≤ 1)
    (out : List (Point K d)) (h : originsOf s L P filt X y pool elitist n draw u = .ok out) :
    out.length = n ∧ (∀ o ∈ out, ∀ i, (∃ x ∈ X, x i ≤ o i) ∧ ∃ x ∈ X, o i ≤ x i) ∧ (s ≠ .uniformInput → ∀ o ∈ out, o ∈ X) := by
  have key : ∀ probs, drawRows X n probs draw = .ok out →
      out.length = n ∧ (∀ o ∈ out, ∀ i, (∃ x ∈ X, x i ≤ o i) ∧ ∃ x ∈ X, o i ≤ x i) ∧ (s ≠ .uniformInput → ∀ o ∈ out, o ∈ X) := by
    intro probs h
    obtain ⟨h1, h2⟩ := drawRows_spec X n probs draw hd out h
    exact ⟨h1, fun o ho i => ⟨⟨o, h2 o ho, le_refl _⟩, o, h2 o ho, le_refl _⟩, fun _ => h2⟩
  unfold originsOf at h
  cases s with
  | uniformInput =>
    dsimp only at h
    unfold uniformInput at h
    by_cases hX : X = []
    · rw [(C71_bounds X).1 hX] at h; cases h
    · obtain ⟨fb, h1, h2, h3⟩ := (C71_bounds X).2 hX
      rw [h1] at h
      dsimp only at h
      have h := (Except.ok.inj h).symm
      subst h
      refine ⟨by simp, fun o ho i => ?_, fun h => absurd rfl h⟩
      obtain ⟨k, _, rfl⟩ := List.mem_map.mp ho
      obtain ⟨x, hx, ex⟩ := (h3 i).1
      obtain ⟨z, hz, ez⟩ := (h3 i).2
      have hle : (fb i).1 ≤ (fb i).2 := (h2 x hx i).1.trans (h2 x hx i).2
      have hu := hu k i
      refine ⟨⟨x, hx, ?_⟩, z, hz, ?_⟩
      · rw [← ex]; nlinarith
      · rw [← ez]; nlinarith
  | uniformSamples => exact key _ h
  | matching b =>
    dsimp only at h
    split at h
    · cases h
    · exact key _ h
  | squaredError b =>
    dsimp only at h
    split at h
    · cases h
    · exact key _ h

theorem squaredError_distribution (L : Learner K d M) (P : MixParams K) (filt : SubFilter K d M) (useElitist : Bool) (X : List (Point K d)) (y : List K) (pool : List (Rule K d M))
    (el : Option (Solution K d M)) (probs : Option (List K)) (hxy : y.length = X.length) (h : squaredErrorProbabilities L P filt useElitist X y pool el = .ok probs) :
    IsDistribution X.length probs := by
  unfold squaredErrorProbabilities at h
  simp only [bind, Except.bind, pure, Except.pure] at h
  split at h
  · cases h
  · split_ifs at h
    · rw [← Except.ok.inj h]; intro p hp; cases hp
    · split at h
      · cases h
      · rename_i w hw
        rw [← Except.ok.inj h]
        have hw' : (∀ q ∈ w, 0 ≤ q) ∧ w.length = X.length := by
          unfold squaredErrorWeights at hw
          split at hw
          · cases hw
          · dsimp only at hw
            split at hw
            · cases hw
            · split_ifs at hw with hl
              rw [← Except.ok.inj hw]
              refine ⟨fun q hq => ?_, by simp; omega⟩
              obtain ⟨i, hi, rfl⟩ := List.mem_iff_getElem.mp hq
              rw [List.getElem_zipWith]
              positivity
        by_cases hz : ∀ q ∈ w, q = 0
        · rw [normalise_zero w hz]; intro p hp; cases hp
        · push Not at hz
          obtain ⟨p, h1, h2, h3, h4, _⟩ := normalise_spec w hw'.1 hz
          rw [h1]
          intro p' hp'
          cases hp'
          exact ⟨h2.trans hw'.2, h3, h4⟩

/-- C99: with at least one sample, trained rules in the pool and an elitist over that pool, every strategy returns origins; the squared-error strategy needs an elitist unless the pool is
empty (see `C37_refuted`). -/
theorem C99_available (s : OriginStrategy) (L : Learner K d M) (P : MixParams K) (X : List (Point K d)) (hX : X ≠ []) (y : List K) (hxy : y.length = X.length)
    (pool : List (Rule K d M)) (hpool : ∀ ρ ∈ pool, ConsistentWith ρ X ∧ ∃ x ∈ X, ρ.kind.call ρ.bounds x = true) (elitist : Option (Indiv K))
    (hel : ∀ σ : Indiv K, elitist = some σ → σ.genome.length = pool.length) (hsq : ∀ b, s = .squaredError b → elitist = none → pool = [])
    (n : Nat) (draw : Option (List K) → List Nat) (hd : DrawsRows X.length n draw) (u : Nat → Point K d) :
    ∃ out, originsOf s L P filterAll X y pool elitist n draw u = .ok out := by
  unfold originsOf
  cases s with
  | uniformInput =>
    obtain ⟨fb, h1, _⟩ := (C71_bounds X).2 hX
    dsimp only
    unfold uniformInput
    rw [h1]
    exact ⟨_, rfl⟩
  | uniformSamples => exact drawRows_total X hX n none (fun p hp => by cases hp) draw hd
  | matching b =>
    obtain ⟨probs, h1, h2⟩ := matchingProbabilities_total (K := K) b X pool elitist hel fun ρ hρ => (hpool ρ hρ).1
    dsimp only
    rw [h1]
    exact drawRows_total X hX n probs h2 draw hd
  | squaredError b =>
    obtain ⟨probs, h1⟩ := C37_partial L P b X y hxy pool (elitist.map fun σ => { genome := σ.genome, pool := pool, st := σ.st }) (by
      cases elitist with
      | none => exact Or.inl ⟨hsq b rfl rfl, rfl⟩
      | some σ => exact Or.inr ⟨_, rfl, rfl, hel σ rfl, fun ρ hρ => usable_of_fitted ρ X (hpool ρ hρ).1 (hpool ρ hρ).2⟩)
    dsimp only
    rw [h1]
    exact drawRows_total X hX n probs (squaredError_distribution _ _ _ _ _ _ _ _ _ hxy h1) draw hd

/-- Example: two samples drawn from three. -/
example : originsOf .uniformSamples meanLearner ⟨.plain, 1⟩ filterAll [![0], ![1], ![4]] [0, 2, 4] [] none 2 (fun _ => [2, 0]) (fun _ => ![0]) = Except.ok [(![4] : Point ℚ 1), ![0]] := by
  decide +kernel

/-- Example: two origins drawn from the range `[0, 4]`. -/
example : (originsOf .uniformInput meanLearner ⟨.plain, 1⟩ filterAll [![0], ![1], ![4]] [0, 2, 4] [] none 2 (fun _ => [2, 0]) (fun k => ![if k = 0 then 1 / 2 else 1 / 4])).map
    (fun l => l.map fun o : Point ℚ 1 => o 0) = Except.ok [2, 1] := by
  decide +kernel

/-- Possible draws exist: the first index of positive probability. -/
def firstPossible (n : Nat) (probs : Option (List K)) : List Nat := List.replicate n (match probs with | none => 0 | some p => p.findIdx fun q => decide (q ≠ 0))

theorem firstPossible_draws (N n : Nat) (hN : N ≠ 0) : DrawsRows (K := K) N n (firstPossible n) := by
  intro probs hp
  refine ⟨by simp [firstPossible], fun i hi => ?_⟩
  rw [List.eq_of_mem_replicate hi]
  cases probs with
  | none => exact ⟨Nat.pos_of_ne_zero hN, fun p h => by cases h⟩
  | some p =>
    obtain ⟨h1, _, h3⟩ := hp p rfl
    have hlt : (p.findIdx fun q => decide (q ≠ 0)) < p.length := by
      refine List.findIdx_lt_length.mpr ?_
      by_contra hno
      push Not at hno
      rw [List.sum_eq_zero (by simpa using hno)] at h3
      exact absurd h3 zero_ne_one
    refine ⟨by dsimp only; omega, fun p' hp' => ?_⟩
    cases hp'
    dsimp only
    rw [List.getElem?_eq_getElem hlt]
    intro h
    have := List.findIdx_getElem (w := hlt)
    simp only [Option.some.injEq] at h
    simp only [decide_eq_true_eq] at this
    exact this h

/-! ### C98 random search -/

/-- Random numbers numpy can return in a call of random search on `N` samples: indices, numbers in `[0, 1]`, half-normal draws. -/
structure RSDraws.Possible (D : RSDraws K d) (cfg : RSCfg K) (N : Nat) : Prop where
  origins : ∀ g, DrawsRows N cfg.rulesGenerated (D.origins g)
  uniform : ∀ g k i, 0 ≤ D.uniform g k i ∧ D.uniform g k i ≤ 1
  init : ∀ g k i, 0 ≤ (D.init g k i).1 ∧ 0 ≤ (D.init g k i).2

theorem rsRule_spec (cfg : RSCfg K) (L : Learner K d M) (ff : RuleFitness K d) (X : List (Point K d)) (y : List K) (hxy : y.length = X.length) (fb : Pairs K d) (hfb : Ordered fb)
    (h : Pairs K d) (hh : ∀ i, 0 ≤ (h i).1 ∧ 0 ≤ (h i).2) (o : Point K d) (ho : InBounds fb o) :
    ∃ ρ, rsRule cfg L ff X y fb h o = .ok ρ ∧ ρ.FromData L ff X y fb ∧ ρ.kind.call ρ.bounds o = true := by
  obtain ⟨b, h1, h2⟩ := C10_ordered_halfnorm_partial cfg.minRange fb o ho h hh
  have hb : Ordered b := by
    have h1 := (Except.ok.inj h1).symm
    subst h1
    intro i
    dsimp only
    linarith [(hh i).1, (hh i).2]
  obtain ⟨ρ, e, hs, _⟩ := fit_consistent L ff X X y hxy rfl ({ kind := .ordered, bounds := constrain .ordered cfg.minRange fb b, inputSpace := fb } : Rule K d M) (Or.inl rfl)
  refine ⟨ρ, by unfold rsRule; rw [h1]; exact e, fromData_of_fit L ff X y hxy fb _ (C02_ordered _ fb _ hb) (C02_inside _ fb _ hfb) ρ e, ?_⟩
  rw [hs.1, hs.2.1]
  exact h2

theorem rsGroup_spec (cfg : RSCfg K) (L : Learner K d M) (ff : RuleFitness K d) (P : MixParams K) (X : List (Point K d)) (y : List K) (hX : X ≠ []) (hxy : y.length = X.length)
    (fb : Pairs K d) (hfb : estimateBounds X = .ok fb) (D : RSDraws K d) (hD : D.Possible cfg X.length) (elitist : Option (Indiv K)) (pool : List (Rule K d M))
    (hpool : ∀ ρ ∈ pool, ConsistentWith ρ X ∧ ∃ x ∈ X, ρ.kind.call ρ.bounds x = true)
    (hel : ∀ σ : Indiv K, elitist = some σ → σ.genome.length = pool.length) (hsq : ∀ b, cfg.origin = .squaredError b → elitist = none → pool = []) (g : Nat) :
    ∃ rules, rsGroup cfg L ff P filterAll D elitist pool X y fb g = .ok rules ∧ rules.length = cfg.rulesGenerated ∧ ∀ ρ ∈ rules, ρ.FromData L ff X y fb := by
  obtain ⟨fb', h1, hin, hord⟩ := estimateBounds_ok X hX
  rw [hfb] at h1; cases h1
  obtain ⟨out, ho⟩ := C99_available cfg.origin L P X hX y hxy pool hpool elitist hel hsq cfg.rulesGenerated (D.origins g) (hD.origins g) (D.uniform g)
  obtain ⟨a1, a2, _⟩ := C99_origins _ _ _ _ _ _ _ _ _ _ (hD.origins g) _ (hD.uniform g) _ ho
  have hone : ∀ p ∈ out.zip (List.range out.length), ∃ ρ, rsRule cfg L ff X y fb (D.init g p.2) p.1 = .ok ρ ∧ ρ.FromData L ff X y fb := by
    rintro ⟨o, k⟩ hp
    have hob : InBounds fb o := fun i => by
      obtain ⟨⟨x, hx, h1⟩, z, hz, h2⟩ := a2 o (List.of_mem_zip hp).1 i
      exact ⟨((hin x hx) i).1.trans h1, h2.trans ((hin z hz) i).2⟩
    obtain ⟨ρ, h1, h2, _⟩ := rsRule_spec cfg L ff X y hxy fb hord (D.init g k) (hD.init g k) o hob
    exact ⟨ρ, h1, h2⟩
  obtain ⟨rules, hr⟩ := mapM_total (fun p : Point K d × Nat => rsRule cfg L ff X y fb (D.init g p.2) p.1) (out.zip (List.range out.length)) fun p hp => by
    obtain ⟨ρ, h1, _⟩ := hone p hp
    exact ⟨ρ, h1⟩
  refine ⟨rules, by unfold rsGroup; rw [ho]; exact hr, ?_, fun ρ hρ => ?_⟩
  · rw [mapM_length _ _ _ hr]; simp [a1]
  · obtain ⟨p, hp, h1⟩ := mem_of_mapM_ok _ _ _ hr ρ hρ
    obtain ⟨ρ', h2, h3⟩ := hone p hp
    rw [h1] at h2; cases h2
    exact h3

/-- One call of random search: it succeeds; there is one group of `rules_generated` rules per requested rule, and every returned rule is as fit as all rules of some group and belongs in the pool. -/
theorem rsDiscover_spec (cfg : RSCfg K) (hb : 0 < cfg.beta) (L : Learner K d M) (ff : RuleFitness K d) (P : MixParams K) (X : List (Point K d)) (y : List K) (hX : X ≠ [])
    (hxy : y.length = X.length) (fb : Pairs K d) (hfb : estimateBounds X = .ok fb) (D : RSDraws K d) (hD : D.Possible cfg X.length) (elitist : Option (Indiv K)) (pool : List (Rule K d M))
    (hpool : ∀ ρ ∈ pool, ConsistentWith ρ X ∧ ∃ x ∈ X, ρ.kind.call ρ.bounds x = true)
    (hel : ∀ σ : Indiv K, elitist = some σ → σ.genome.length = pool.length) (hsq : ∀ b, cfg.origin = .squaredError b → elitist = none → pool = []) (n : Nat) :
    ∃ groups rules, (List.range n).mapM (rsGroup cfg L ff P filterAll D elitist pool X y fb) = .ok groups ∧
      rsDiscover cfg L ff P filterAll D elitist pool X y n = .ok rules ∧ groups.length = n ∧ rules.length ≤ n ∧ (∀ g ∈ groups, g.length = cfg.rulesGenerated) ∧
      ∀ ρ ∈ rules, ρ.InPool L ff X y fb cfg.beta ∧ ∃ g ∈ groups, ρ ∈ g ∧ ∀ τ ∈ g, ruleFitnessOf τ ≤ ruleFitnessOf ρ := by
  have hgrp := rsGroup_spec cfg L ff P X y hX hxy fb hfb D hD elitist pool hpool hel hsq
  obtain ⟨groups, hg⟩ := mapM_total (rsGroup cfg L ff P filterAll D elitist pool X y fb) (List.range n) fun g _ => by
    obtain ⟨rules, h1, _⟩ := hgrp g
    exact ⟨rules, h1⟩
  have hglen : groups.length = n := by rw [mapM_length _ _ _ hg]; simp
  have hgmem : ∀ g ∈ groups, g.length = cfg.rulesGenerated ∧ ∀ ρ ∈ g, ρ.FromData L ff X y fb := by
    intro g hgm
    obtain ⟨i, _, hi⟩ := mem_of_mapM_ok _ _ _ hg g hgm
    obtain ⟨rules, h1, h2⟩ := hgrp i
    rw [hi] at h1; cases h1
    exact h2
  have hst : ∀ g ∈ groups, ∀ ρ ∈ g, ρ.st.isSome := fun g hgm ρ hρ => by
    obtain ⟨s, hs, _⟩ := ((hgmem g hgm).2 ρ hρ).consistent hxy
    rw [hs]; rfl
  have hsel : ∀ p ∈ groups.map fun g => (g, ()), ruleFittest p.1 1 = .ok (fittest ruleFitnessOf p.1 1) := by
    intro p hp
    obtain ⟨g, hgm, rfl⟩ := List.mem_map.mp hp
    unfold ruleFittest
    rw [if_pos (List.all_eq_true.mpr (hst g hgm))]
  obtain ⟨out, hout⟩ := mapM_total (fun p : List (Rule K d M) × Unit => ruleFittest p.1 1) (groups.map fun g => (g, ())) fun p hp => ⟨_, hsel p hp⟩
  have hbest : ∀ l ∈ out, l.length ≤ 1 ∧ ∀ ρ ∈ l, ∃ g ∈ groups, ρ ∈ g ∧ ∀ τ ∈ g, ruleFitnessOf τ ≤ ruleFitnessOf ρ := by
    intro l hl
    obtain ⟨p, hp, h1⟩ := mem_of_mapM_ok _ _ _ hout l hl
    have h2 := hsel p hp
    rw [h1] at h2
    have h2 := Except.ok.inj h2
    obtain ⟨g, hgm, rfl⟩ := List.mem_map.mp hp
    dsimp only at h2
    refine ⟨by rw [h2]; unfold fittest; simp [List.length_take], fun ρ hρ => ⟨g, hgm, ?_⟩⟩
    have hf : fittestFirst ruleFitnessOf g = .ok ρ := by
      unfold fittestFirst
      rw [← h2]
      have hlen : l.length ≤ 1 := by rw [h2]; unfold fittest; simp [List.length_take]
      match l, hρ, hlen with
      | [a], hρ, _ => rw [List.mem_singleton.mp hρ]
    exact fittestFirst_mem _ g ρ hf
  have hcons : ∀ ρ, some ρ ∈ out.flatten.map some → ρ.FromData L ff X y fb ∧ ∃ g ∈ groups, ρ ∈ g ∧ ∀ τ ∈ g, ruleFitnessOf τ ≤ ruleFitnessOf ρ := by
    intro ρ hρ
    obtain ⟨ρ', h1, h2⟩ := List.mem_map.mp hρ
    cases h2
    obtain ⟨l, hl, hm⟩ := List.mem_flatten.mp h1
    obtain ⟨g, hgm, h3, h4⟩ := (hbest l hl).2 ρ hm
    exact ⟨(hgmem g hgm).2 ρ h3, g, hgm, h3, h4⟩
  obtain ⟨rules, hf⟩ := filterInvalid_total (acceptVariance cfg.beta y) (out.flatten.map some) fun ρ hρ =>
    acceptVariance_total cfg.beta X y hxy ρ ((hcons ρ hρ).1.consistent hxy)
  have hrs : randomSearch (fun rules (_ : Unit) => ruleFittest rules 1) (acceptVariance cfg.beta y) (groups.map fun g => (g, ())) = .ok rules := by
    unfold randomSearch
    rw [hout]
    exact hf
  refine ⟨groups, rules, hg, by unfold rsDiscover; rw [hfb]; dsimp only; rw [hg]; exact hrs, hglen, ?_, fun g hgm => (hgmem g hgm).1, fun ρ hρ => ?_⟩
  · refine (C49_random_search_bound _ _ (fun g s l h => ?_) _ _ hrs).trans (by simp [hglen])
    unfold ruleFittest at h
    split_ifs at h
    rw [← Except.ok.inj h]
    unfold fittest
    simp [List.length_take]
  · obtain ⟨b1, b2⟩ := filterInvalid_mem _ _ _ hf ρ hρ
    obtain ⟨c1, c2⟩ := hcons ρ b1
    have ht : ρ.TrainedOn L X y := by
      obtain ⟨ρ0, k, h0, _, hf⟩ := c1.fitted
      rw [fits_replicate L ff X y hxy _ h0 k] at hf
      exact trainedOn_of_fit L ff X y hxy ρ0 ρ h0 hf
    obtain ⟨hm, _⟩ := C30_variance L X y hxy cfg.beta hb ρ ht b2
    obtain ⟨s, hs, _, hexp, hfit, _⟩ := c1.consistent hxy
    obtain ⟨x, hx, hx1⟩ := hm
    refine ⟨⟨c1, ⟨s, hs, hfit.mpr ⟨x, hx, hx1⟩, ?_, hexp, x, hx, hx1⟩, b2⟩, c2⟩
    rw [hexp]
    exact List.length_pos_of_mem (List.mem_filter.mpr ⟨hx, hx1⟩)

theorem rsDiscover_length (cfg : RSCfg K) (L : Learner K d M) (ff : RuleFitness K d) (P : MixParams K) (filt : SubFilter K d M) (D : RSDraws K d) (elitist : Option (Indiv K))
    (pool : List (Rule K d M)) (X : List (Point K d)) (y : List K) (n : Nat) (rules : List (Rule K d M)) (h : rsDiscover cfg L ff P filt D elitist pool X y n = .ok rules) :
    rules.length ≤ n := by
  unfold rsDiscover at h
  split at h
  · cases h
  · split at h
    · cases h
    · rename_i groups hg
      refine (C49_random_search_bound _ _ (fun g s l h => ?_) _ _ h).trans (by rw [List.length_map, mapM_length _ _ _ hg]; simp)
      unfold ruleFittest at h
      split_ifs at h
      rw [← Except.ok.inj h]
      unfold fittest
      simp [List.length_take]

/-- Settings of a model with random search: at least one iteration, rule and solution. -/
structure SearchSettings (cfg : SupCfg K) (rs : RSCfg K) (ga : GACfg K) (k : Nat) : Prop where
  iter : 1 ≤ cfg.nIter
  rules : 1 ≤ cfg.nRules
  size : 1 ≤ cfg.comp.populationSize
  gaSize : 1 ≤ ga.populationSize
  tournament : 1 ≤ k
  beta : 0 < rs.beta

/-- C98 except for squared-error origins (the default) together with initial rules: with valid data, `fit` with random search completes for every seed and all random numbers, and its pool has at
most `n_initial_rules + n_iter * n_rules` rules, all of which are as described by `PoolRule`. (Missing: initial rules with squared-error origins, for which it is false, see `C98_refuted`; `hinit`
excludes a refit with initial rules after a fit with more iterations, see `C52_refuted` and C54.) -/
theorem C98_fit_partial (cfg : SupCfg K) (rs : RSCfg K) (ga : GACfg K) (k : Nat) (hs : SearchSettings cfg rs ga k) (R : Seed → List (Event K d M) → RSDraws K d) (D : RunDraws K d M)
    (raw : RawData K d) (hraw : raw.finite = true ∧ raw.X.length = raw.y.length ∧ raw.X ≠ []) (hR : ∀ seed hist, (R seed hist).Possible rs raw.X.length)
    (hD : ∀ seed hist n size, PossibleGA ga k size (D.ga seed hist n size)) (L : Learner K d M) (ff : RuleFitness K d) (sf : Nat → SolFitness K) (entropy : Nat)
    (hsq : cfg.nInitial = 0 ∨ ∀ b, rs.origin ≠ .squaredError b) (cl : Bool) (st0 : SupState K d M) (hinit : cfg.nInitial = 0 ∨ st0.step < cfg.nIter) :
    let r := st0.fit cfg (rsComp rs ga R D L ff sf) entropy raw cl
    r.raised = none ∧ r.state.isError = false ∧ r.state.isFitted = true ∧ r.state.pool.length ≤ cfg.nInitial + cfg.nIter * cfg.nRules ∧
      ∀ ρ ∈ r.state.pool, PoolRule L raw.X raw.y rs.beta ρ := by
  obtain ⟨fb, hfb, _⟩ := estimateBounds_ok raw.X hraw.2.2
  have hc : raw.check = .ok (raw.X, raw.y) := by unfold RawData.check; rw [if_pos hraw]
  have hxy := hraw.2.1.symm
  have hnf : (rsComp rs ga R D L ff sf).NoFailure cfg raw.X raw.y fun ρ => ρ.InPool L ff raw.X raw.y fb rs.beta := by
    refine ⟨?_, ?_, fun seed hist _ _ _ => (gaOptimize_total ga k hs.tournament hs.gaSize (D.ga seed hist) (hD seed hist)).totalAt _ _⟩
    · intro seed hist el pool n _ hpool hel hnone
      obtain ⟨groups, rules, _, h1, _, _, _, h2⟩ := rsDiscover_spec rs hs.beta L ff ⟨.plain, 1⟩ raw.X raw.y hraw.2.2 hxy fb hfb (R seed hist) (hR seed hist) el pool
        (fun ρ hρ => ⟨(hpool ρ hρ).fromData.consistent hxy, by obtain ⟨_, _, _, _, _, hm⟩ := (hpool ρ hρ).matchesData; exact hm⟩) hel
        (fun b hb => hsq.elim hnone fun h => absurd hb (h b)) n
      exact ⟨rules, h1, fun ρ hρ => (h2 ρ hρ).1⟩
    · intro pool hpool g hg
      refine eval_total cfg (rsComp rs ga R D L ff sf) rfl ff raw.X raw.y hxy hraw.2.2 pool ?_ g hg
      intro ρ hρ
      obtain ⟨_, _, _, _, _, hm⟩ := (hpool ρ hρ).matchesData
      exact ⟨(hpool ρ hρ).fromData.fitted, hm⟩
  obtain ⟨h1, h2, h3, h4, _⟩ := trained_result cfg (rsComp rs ga R D L ff sf) (fun seed hist => gaSized_good ga (D.ga seed hist))
    (fun seed hist el pool X y n rules h => rsDiscover_length _ _ _ _ _ _ _ _ _ _ _ _ h) hs.iter hs.rules hs.size entropy raw hc cl st0 hinit _ hnf
  refine ⟨h1.1, h1.2, h2, ?_, fun ρ hρ => (h4 ρ hρ).poolRule hxy hraw.2.2 hfb hs.beta⟩
  unfold SupCfg.maxGenomeLength at h3
  rw [Nat.mul_comm cfg.nIter, Nat.add_comm]
  exact h3

/-- C98: every rule returned by a call of random search is at least as fit as all rules of the group it was selected from; there is one group of `rules_generated` rules per requested rule. -/
theorem C98_best_partial (cfg : RSCfg K) (hb : 0 < cfg.beta) (L : Learner K d M) (ff : RuleFitness K d) (P : MixParams K) (X : List (Point K d)) (y : List K) (hX : X ≠ [])
    (hxy : y.length = X.length) (D : RSDraws K d) (hD : D.Possible cfg X.length) (elitist : Option (Indiv K)) (pool : List (Rule K d M))
    (hpool : ∀ ρ ∈ pool, ConsistentWith ρ X ∧ ∃ x ∈ X, ρ.kind.call ρ.bounds x = true)
    (hel : ∀ σ : Indiv K, elitist = some σ → σ.genome.length = pool.length) (hsq : ∀ b, cfg.origin = .squaredError b → elitist = none → pool = []) (n : Nat) :
    ∃ fb groups rules, estimateBounds X = .ok fb ∧ (List.range n).mapM (rsGroup cfg L ff P filterAll D elitist pool X y fb) = .ok groups ∧
      rsDiscover cfg L ff P filterAll D elitist pool X y n = .ok rules ∧ groups.length = n ∧ (∀ g ∈ groups, g.length = cfg.rulesGenerated) ∧
      ∀ ρ ∈ rules, PoolRule L X y cfg.beta ρ ∧ ∃ g ∈ groups, ρ ∈ g ∧ ∀ τ ∈ g, ruleFitnessOf τ ≤ ruleFitnessOf ρ := by
  obtain ⟨fb, hfb, _⟩ := estimateBounds_ok X hX
  obtain ⟨groups, rules, h1, h2, h3, _, h4, h5⟩ := rsDiscover_spec cfg hb L ff P X y hX hxy fb hfb D hD elitist pool hpool hel hsq n
  exact ⟨fb, groups, rules, hfb, h1, h2, h3, h4, fun ρ hρ => ⟨(h5 ρ hρ).1.poolRule hxy hX hfb hb, (h5 ρ hρ).2⟩⟩

/-- C98 is false for squared-error origins with initial rules: whenever the initial rules are not all rejected, the first iteration fails, for all data, seeds and random numbers, and `fit` ends with the
error model. -/
theorem C98_refuted (cfg : SupCfg K) (rs : RSCfg K) (b : Bool) (hrs : rs.origin = .squaredError b) (ga : GACfg K) (R : Seed → List (Event K d M) → RSDraws K d) (D : RunDraws K d M)
    (L : Learner K d M) (ff : RuleFitness K d) (sf : Nat → SolFitness K) (entropy : Nat) (raw : RawData K d) (hraw : raw.finite = true ∧ raw.X.length = raw.y.length ∧ raw.X ≠ [])
    (hinit : 0 < cfg.nInitial) (hiter : 1 ≤ cfg.nIter) (hrules : 1 ≤ cfg.nRules) (cl : Bool) (st0 : SupState K d M) (seed : Seed)
    (hseed : (discoverySeeds entropy cfg.nIter)[st0.step]? = some seed) (rules : List (Rule K d M)) (hne : rules ≠ [])
    (hdisc : rsDiscover rs L ff ⟨.plain, 1⟩ filterAll (R seed []) none [] raw.X raw.y cfg.nInitial = .ok rules) :
    let r := st0.fit cfg (rsComp rs ga R D L ff sf) entropy raw cl
    r.raised = none ∧ r.state.isError = true ∧ r.state.isFitted = true := by
  have hc : raw.check = .ok (raw.X, raw.y) := by unfold RawData.check; rw [if_pos hraw]
  obtain ⟨fb, hfb, _⟩ := estimateBounds_ok raw.X hraw.2.2
  let s0 : RunState K d M := { step := st0.step, comp := { archive := if cfg.useArchive then some [] else none } }
  have hel : s0.comp.elitist = .ok none := rfl
  let s1 : RunState K d M := { s0 with trace := [.discover seed none [] cfg.nInitial], pool := rules }
  have hd1 : discoverStep cfg (rsComp rs ga R D L ff sf) entropy raw.X raw.y cfg.nInitial s0 = (s1, none) := by
    unfold discoverStep
    rw [if_neg (by omega), hel]
    dsimp only
    rw [show s0.step = st0.step from rfl, hseed]
    dsimp only
    rw [show (rsComp rs ga R D L ff sf).discover seed s0.trace none s0.pool raw.X raw.y cfg.nInitial = .ok rules from hdisc]
    rfl
  have hfail : ∀ seed' hist n, n ≠ 0 → ∃ e, (rsComp rs ga R D L ff sf).discover seed' hist none rules raw.X raw.y n = .error e := by
    intro seed' hist n hn
    obtain ⟨m, rfl⟩ := Nat.exists_eq_succ_of_ne_zero hn
    refine ⟨.attributeError, ?_⟩
    show rsDiscover _ _ _ _ _ _ _ _ _ _ _ = _
    unfold rsDiscover
    rw [hfb]
    dsimp only
    have h0 : ∀ g, rsGroup rs L ff ⟨.plain, 1⟩ filterAll (R seed' hist) none rules raw.X raw.y fb g = .error .attributeError := by
      intro g
      unfold rsGroup originsOf
      rw [hrs]
      dsimp only
      rw [show (Option.map _ (none : Option (Indiv K)) : Option (Solution K d M)) = none from rfl, C37_refuted L ⟨.plain, 1⟩ filterAll b raw.X raw.y rules hne]
    rw [List.range_succ_eq_map, List.mapM_cons, h0]
    rfl
  have hrun : ∃ s, runFit cfg (rsComp rs ga R D L ff sf) (runEval cfg (rsComp rs ga R D L ff sf) raw.X raw.y) entropy raw.X raw.y st0.step = .caught s := by
    unfold runFit
    rw [if_pos hinit]
    rw [show discoverStep cfg (rsComp rs ga R D L ff sf) entropy raw.X raw.y cfg.nInitial _ = (s1, none) from hd1]
    dsimp only
    obtain ⟨m, hm⟩ := Nat.exists_eq_succ_of_ne_zero (by omega : cfg.nIter ≠ 0)
    rw [hm, List.range_succ_eq_map]
    unfold fitLoop
    have hd2 : ∃ s2 e, discoverStep cfg (rsComp rs ga R D L ff sf) entropy raw.X raw.y cfg.nRules { s1 with step := 0 } = (s2, some e) := by
      unfold discoverStep
      rw [if_neg (by omega), show ({ s1 with step := 0 } : RunState K d M).comp.elitist = .ok none from rfl]
      dsimp only
      rw [getElem?_discoverySeeds, if_pos (by omega)]
      dsimp only
      obtain ⟨e, he⟩ := hfail _ s1.trace cfg.nRules (by omega)
      rw [show s1.pool = rules from rfl, he]
      exact ⟨_, _, rfl⟩
    obtain ⟨s2, e, h2⟩ := hd2
    rw [h2]
    exact ⟨s2, rfl⟩
  obtain ⟨s, hrun⟩ := hrun
  intro r
  have hr : r = _ := rfl
  show (st0.fit _ _ _ _ _).raised = _ ∧ (st0.fit _ _ _ _ _).state.isError = _ ∧ (st0.fit _ _ _ _ _).state.isFitted = _
  unfold SupState.fit SupState.fitWith
  rw [hc]
  dsimp only
  rw [hrun]
  exact ⟨rfl, rfl, rfl⟩

/-- Draws of a possible run: the first sample with an error, no half-normal noise. -/
def plainDraws (n : Nat) : RSDraws K d := { origins := fun _ => firstPossible n, uniform := fun _ _ _ => 0, init := fun _ _ _ => (0, 0) }

theorem plainDraws_possible (cfg : RSCfg K) (N : Nat) (hN : N ≠ 0) : (plainDraws cfg.rulesGenerated : RSDraws K d).Possible cfg N :=
  ⟨fun _ => firstPossible_draws N _ hN, fun _ _ _ => ⟨le_refl _, zero_le_one⟩, fun _ _ _ => ⟨le_refl _, le_refl _⟩⟩

/-- Example: the hypotheses of `C98_fit_partial` hold for the default settings of `RandomSearch` and of the model. -/
example (raw : RawData K d) (hraw : raw.finite = true ∧ raw.X.length = raw.y.length ∧ raw.X ≠ []) (L : Learner K d M) (ff : RuleFitness K d) (sf : Nat → SolFitness K) :
    let D : RunDraws K d M := { origins := fun _ _ _ _ _ => [], children := fun _ _ _ _ _ _ => (0, 0), ga := fun _ _ _ _ => [], init := fun _ _ _ => 0 }
    (SupState.fit SupCfg.default (rsComp RSCfg.default GACfg.default (fun _ _ => plainDraws 7) D L ff sf) 42 raw true {}).raised = none := by
  intro D
  exact (C98_fit_partial _ _ _ 4 ⟨by simp [SupCfg.default], by simp [SupCfg.default], by simp [SupCfg.default], by simp [GACfg.default], by simp, by simp [RSCfg.default]⟩ _ D raw hraw
    (fun _ _ => plainDraws_possible RSCfg.default _ fun h => hraw.2.2 (List.length_eq_zero_iff.mp h)) (fun _ _ _ _ => trivial) L ff sf 42 (Or.inl rfl) true {} (Or.inl rfl)).1

/-- Example: the hypotheses of `C98_refuted` hold for one initial rule on two samples with equal targets. -/
example : ∃ rules : List (Rule ℚ 1 ℚ), rules ≠ [] ∧
    rsDiscover RSCfg.default meanLearner negErr ⟨.plain, 1⟩ filterAll (plainDraws 7) none [] [![0], ![1]] [2, 2] 1 = .ok rules := by
  have h : (rsDiscover RSCfg.default meanLearner negErr ⟨.plain, 1⟩ filterAll (plainDraws 7) none [] [(![0] : Point ℚ 1), ![1]] [2, 2] 1).map List.length = .ok 1 := by decide +kernel
  cases hr : rsDiscover RSCfg.default meanLearner negErr ⟨.plain, 1⟩ filterAll (plainDraws 7) none [] [(![0] : Point ℚ 1), ![1]] [2, 2] 1 with
  | error e => rw [hr] at h; cases h
  | ok rules =>
    rw [hr] at h
    have h := Except.ok.inj h
    exact ⟨rules, (fun h0 => by rw [h0] at h; cases h), rfl⟩

/-! ### C100 random states -/

/-- What the documentation allows as `random_state`: integers (of which numpy accepts the non-negative ones), `RandomState` and `Generator` objects, `None`. -/
def RandomArg.Documented : RandomArg → Prop
  | .none => True
  | .int z => 0 ≤ z
  | .randomState => True
  | .generator => True
  | .seedSequence _ => False
  | .other => False

/-- C100 is false: with a `Generator` or a `RandomState`, `fit` raises an exception, for all data, components and settings, and the model is not fitted by it. -/
theorem C100_refuted (cfg : SupCfg K) (c : SupComp K d M) (fresh : Nat) (raw : RawData K d) (cl : Bool) (st0 : SupState K d M) :
    ∀ arg, arg = RandomArg.generator ∨ arg = .randomState → arg.Documented ∧
      (st0.fitRandom cfg c arg fresh raw cl).raised ≠ none ∧ (st0.fitRandom cfg c arg fresh raw cl).state.isFitted = st0.isFitted := by
  rintro arg (rfl | rfl) <;> refine ⟨trivial, ?_⟩ <;> unfold SupState.fitRandom <;> dsimp only <;> split <;> simp [checkRandomState, seedEntropy]

/-- C100 for the values that work: a non-negative integer is the seed of the run, `None` stands for fresh entropy; in both cases `fit` is a run with that entropy. All other values are rejected with an
exception when the data are valid. -/
theorem C100_accepted_partial (cfg : SupCfg K) (c : SupComp K d M) (fresh : Nat) (raw : RawData K d) (hraw : raw.finite = true ∧ raw.X.length = raw.y.length ∧ raw.X ≠ []) (cl : Bool)
    (st0 : SupState K d M) :
    (∀ n : Nat, st0.fitRandom cfg c (.int n) fresh raw cl = st0.fit cfg c n raw cl) ∧ st0.fitRandom cfg c .none fresh raw cl = st0.fit cfg c fresh raw cl ∧
    ∀ arg, arg ≠ .none → (∀ n : Nat, arg ≠ .int n) → (st0.fitRandom cfg c arg fresh raw cl).raised ≠ none ∧ (st0.fitRandom cfg c arg fresh raw cl).trace = [] := by
  have hc : raw.check = .ok (raw.X, raw.y) := by unfold RawData.check; rw [if_pos hraw]
  refine ⟨fun n => ?_, ?_, fun arg h1 h2 => ?_⟩
  · unfold SupState.fitRandom
    rw [hc]
    have : ¬ ((n : Int) < 0) := by omega
    simp [checkRandomState, seedEntropy, this]
  · unfold SupState.fitRandom
    rw [hc]
    rfl
  · unfold SupState.fitRandom
    rw [hc]
    cases arg with
    | none => exact absurd rfl h1
    | int z =>
      have hz : z < 0 := by
        by_contra hz
        exact h2 z.toNat (by rw [Int.toNat_of_nonneg (by omega)])
      simp [checkRandomState, hz]
    | _ => simp [checkRandomState, seedEntropy]

end Suprb
