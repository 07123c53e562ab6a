import Verif.Props.Composition
import Mathlib.Algebra.BigOperators.Ring.List
import Mathlib.Algebra.Order.BigOperators.Group.List
import Mathlib.Tactic.IntervalCases

/-!
# Claims C43, C44, C48: the genetic algorithm and the selection of solutions
-/

set_option autoImplicit false
set_option linter.unusedSectionVars false

namespace Suprb

variable {K : Type} [Field K] [LinearOrder K] [IsStrictOrderedRing K]

/-! ## C48 -/

/-- The draws numpy can return for `n` selections from a population of `len` solutions (tournaments of `k`). -/
def SelDraw.Valid (s : SelDraw) (n k len : Nat) : Prop :=
  match s with
  | .random idx => idx.length = n ∧ ∀ i ∈ idx, i < len
  | .roulette idx => idx.length = n ∧ ∀ i ∈ idx, i < len
  | .linearRank idx => idx.length = n ∧ ∀ i ∈ idx, i < len
  | .tournament idx => idx.length = n ∧ ∀ js ∈ idx, js.length = k ∧ ∀ j ∈ js, j < len

theorem length_choose (pop : List (Indiv K)) (idx : List Nat) (h : ∀ i ∈ idx, i < pop.length) : (choose pop idx).length = idx.length := by
  induction idx with
  | nil => rfl
  | cons i is ih =>
    have hi := h i (List.mem_cons_self ..)
    unfold choose at ih ⊢
    rw [List.filterMap_cons, List.getElem?_eq_getElem hi]
    simp only [List.length_cons]
    rw [ih fun j hj => h j (List.mem_cons_of_mem _ hj)]

theorem selectRandom_ok (pop : List (Indiv K)) (idx : List Nat) (h : ∀ i ∈ idx, i < pop.length) :
    selectRandom pop idx = .ok (choose pop idx) := by
  unfold selectRandom
  rw [if_neg]
  rintro ⟨rfl, h2⟩
  obtain ⟨i, hi⟩ := List.exists_mem_of_ne_nil _ h2
  exact absurd (h i hi) (by simp)

/-- C48 (missing: the roulette wheel with fitness values of both signs, see `C48_mixed_signs_refuted`): on an evaluated population, every selection returns exactly `n` solutions, all from the population. For the roulette wheel no fitness is negative;
tournaments have at least one competitor. -/
theorem C48_members_partial (s : SelDraw) (n k : Nat) (hk : 1 ≤ k) (pop : List (Indiv K)) (hv : s.Valid n k pop.length)
    (hfit : ∀ σ ∈ pop, ∃ f, HasFitness σ f) (hpos : (∃ idx, s = .roulette idx) → ∀ σ ∈ pop, ∀ f, HasFitness σ f → 0 ≤ f) :
    ∃ l, s.run pop = .ok l ∧ l.length = n ∧ ∀ σ ∈ l, σ ∈ pop := by
  have hst : ∀ σ ∈ pop, ∃ s, σ.st = some s := fun σ hσ => by
    obtain ⟨f, s, hs, _⟩ := hfit σ hσ
    exact ⟨s, hs⟩
  have hall := (allFitted_iff pop).mpr hst
  suffices H : ∃ l, s.run pop = .ok l ∧ l.length = n by
    obtain ⟨l, h1, h2⟩ := H
    exact ⟨l, h1, h2, mem_select s pop l h1⟩
  cases s with
  | random idx => exact ⟨_, selectRandom_ok pop idx hv.2, by rw [length_choose pop idx hv.2, hv.1]⟩
  | linearRank idx =>
    refine ⟨_, ?_, by rw [length_choose pop idx hv.2, hv.1]⟩
    simp only [SelDraw.run, selectLinearRank, hall, if_true]
    exact selectRandom_ok pop idx hv.2
  | roulette idx =>
    refine ⟨_, ?_, by rw [length_choose pop idx hv.2, hv.1]⟩
    simp only [SelDraw.run, selectRoulette, rouletteWeights, hall, if_true]
    have hnn : ∀ σ ∈ pop, 0 ≤ σ.fitnessD := fun σ hσ => by
      obtain ⟨f, hf⟩ := hfit σ hσ
      rw [hf.eq]; exact hpos ⟨idx, rfl⟩ σ hσ f hf
    split
    · rename_i h; split at h <;> cases h
    · exact selectRandom_ok pop idx hv.2
    · rename_i w hw
      split at hw
      · cases hw
        rw [if_neg]
        · exact selectRandom_ok pop idx hv.2
        · simp only [List.any_map, List.any_eq_true, Function.comp_apply, decide_eq_true_eq, not_exists, not_and, not_lt]
          intro σ hσ
          refine div_nonneg (hnn σ hσ) (List.sum_nonneg ?_)
          intro x hx
          obtain ⟨τ, hτ, rfl⟩ := List.mem_map.mp hx
          exact hnn τ hτ
      · cases hw
  | tournament idx =>
    obtain ⟨hn, hidx⟩ := hv
    obtain ⟨l, hl⟩ := mapM_ok_of_all (fun js => match selectRandom pop js with
      | .error e => .error e
      | .ok competitors => fittestIndiv competitors) idx (by
        intro js hjs
        obtain ⟨h1, h2⟩ := hidx js hjs
        rw [selectRandom_ok pop js h2]
        dsimp only
        refine fittestIndiv_ok _ ?_ fun σ hσ => hst σ (mem_choose pop js σ hσ)
        intro e
        have := length_choose pop js h2
        rw [e] at this
        simp at this; omega)
    exact ⟨l, hl, by rw [mapM_length _ _ _ hl, hn]⟩

/-- C48: each tournament winner was drawn and is at least as fit as all solutions drawn for that tournament. -/
theorem C48_tournament_partial (idx : List (List Nat)) (pop winners : List (Indiv K)) (hv : ∀ js ∈ idx, ∀ j ∈ js, j < pop.length)
    (h : (SelDraw.tournament idx).run pop = .ok winners) :
    List.Forall₂ (fun js w => (∃ j ∈ js, pop[j]? = some w) ∧
      ∀ j ∈ js, ∀ c f g, pop[j]? = some c → HasFitness c f → HasFitness w g → f ≤ g) idx winners := by
  have h := (mapM_ok_iff _ _ _).mp h
  refine List.Forall₂.imp ?_ ((List.forall₂_and_left _ _).mpr ⟨hv, h⟩)
  rintro js w ⟨hjs, hw⟩
  rw [selectRandom_ok pop js hjs] at hw
  dsimp only at hw
  obtain ⟨h1, h2, _⟩ := fittestIndiv_spec _ _ hw
  refine ⟨?_, ?_⟩
  · obtain ⟨j, hj, hjw⟩ := List.mem_filterMap.mp h1
    exact ⟨j, hj, hjw⟩
  · intro j hj c f g hc hf hg
    have := h2 c (List.mem_filterMap.mpr ⟨j, hj, hc⟩)
    rw [hf.eq, hg.eq] at this
    exact this

/-- C48 (refuted): with fitness values of both signs (which `PseudoBIC` gives) the roulette wheel is a `ValueError`. -/
theorem C48_mixed_signs_refuted : ∃ (pop : List (Indiv ℚ)) (s : SelDraw), s.Valid 1 1 pop.length ∧ (∀ σ ∈ pop, ∃ f, HasFitness σ f) ∧ s.run pop = .error .valueError := by
  refine ⟨[{ genome := [true], st := some ⟨1, 1, 1, 3⟩ }, { genome := [false], st := some ⟨1, 1, 0, -2⟩ }], .roulette [0], ⟨rfl, by decide⟩, fun σ hσ => ?_, by decide +kernel⟩
  simp only [List.mem_cons, List.not_mem_nil, or_false] at hσ
  rcases hσ with rfl | rfl <;> exact ⟨_, _, rfl, rfl⟩

/-- C48 (refuted): if all fitness values are negative, the roulette wheel favours the less fit solutions. -/
theorem C48_negative_refuted (pop : List (Indiv K)) (hfit : ∀ σ ∈ pop, ∃ f, HasFitness σ f) (hneg : ∀ σ ∈ pop, ∀ f, HasFitness σ f → f < 0) (hne : pop ≠ []) :
    ∃ w, rouletteWeights pop = .ok (some w) ∧ ∀ (i j : Nat) (σ τ : Indiv K) (f g : K), pop[i]? = some σ → pop[j]? = some τ → HasFitness σ f → HasFitness τ g → f < g →
      ∃ v v', w[i]? = some v ∧ w[j]? = some v' ∧ v' < v := by
  have hall := (allFitted_iff pop).mpr fun σ hσ => by
    obtain ⟨f, s, hs, _⟩ := hfit σ hσ
    exact ⟨s, hs⟩
  have hlt : ∀ σ ∈ pop, σ.fitnessD < 0 := fun σ hσ => by
    obtain ⟨f, hf⟩ := hfit σ hσ
    rw [hf.eq]; exact hneg σ hσ f hf
  have hsum : (pop.map Indiv.fitnessD).sum < 0 := by
    cases pop with
    | nil => exact absurd rfl hne
    | cons a l =>
      have h1 : ∀ l : List (Indiv K), (∀ σ ∈ l, σ.fitnessD < 0) → (l.map Indiv.fitnessD).sum ≤ 0 := fun l => by
        induction l with
        | nil => intro _; simp
        | cons b l ih =>
          intro h
          rw [List.map_cons, List.sum_cons]
          linarith [h b List.mem_cons_self, ih fun σ hσ => h σ (List.mem_cons_of_mem _ hσ)]
      have h1 := h1 l fun σ hσ => hlt σ (List.mem_cons_of_mem _ hσ)
      rw [List.map_cons, List.sum_cons]
      linarith [hlt a List.mem_cons_self]
  refine ⟨pop.map fun σ => σ.fitnessD / (pop.map Indiv.fitnessD).sum, ?_, fun i j σ τ f g hi hj hf hg hfg => ⟨_, _, by rw [List.getElem?_map, hi]; rfl, by rw [List.getElem?_map, hj]; rfl, ?_⟩⟩
  · unfold rouletteWeights
    rw [if_pos hall]
    dsimp only
    rw [if_pos hsum.ne]
  · dsimp only
    rw [hf.eq, hg.eq]
    exact (div_lt_div_right_of_neg hsum).mpr hfg

example : ∀ σ ∈ [({ genome := [true], st := some ⟨1, 1, 1, -3⟩ } : Indiv ℚ), { genome := [false], st := some ⟨1, 1, 0, -2⟩ }], ∃ f, HasFitness σ f ∧ f < 0 := by
  intro σ hσ
  simp only [List.mem_cons, List.not_mem_nil, or_false] at hσ
  rcases hσ with rfl | rfl
  · exact ⟨_, ⟨_, rfl, rfl⟩, by norm_num⟩
  · exact ⟨_, ⟨_, rfl, rfl⟩, by norm_num⟩

/-- C48: with non-negative fitness that is not all zero, the roulette weights are a distribution proportional to fitness. -/
theorem C48_roulette_partial (pop : List (Indiv K)) (hfit : ∀ σ ∈ pop, ∃ f, HasFitness σ f) (hpos : ∀ σ ∈ pop, ∀ f, HasFitness σ f → 0 ≤ f)
    (hsome : ∃ σ ∈ pop, ∃ f, HasFitness σ f ∧ 0 < f) :
    ∃ w, rouletteWeights pop = .ok (some w) ∧ w.length = pop.length ∧ w.sum = 1 ∧ (∀ x ∈ w, 0 ≤ x) ∧
      ∃ c : K, 0 < c ∧ ∀ (i : Nat) (σ : Indiv K) (f : K), pop[i]? = some σ → HasFitness σ f → w[i]? = some (c * f) := by
  have hst : ∀ σ ∈ pop, ∃ s, σ.st = some s := fun σ hσ => by
    obtain ⟨f, s, hs, _⟩ := hfit σ hσ
    exact ⟨s, hs⟩
  have hall := (allFitted_iff pop).mpr hst
  have hnn : ∀ x ∈ pop.map Indiv.fitnessD, 0 ≤ x := fun x hx => by
    obtain ⟨σ, hσ, rfl⟩ := List.mem_map.mp hx
    obtain ⟨f, hf⟩ := hfit σ hσ
    rw [hf.eq]; exact hpos σ hσ f hf
  have hsum : 0 < (pop.map Indiv.fitnessD).sum := by
    obtain ⟨σ, hσ, f, hf, hf'⟩ := hsome
    have := List.single_le_sum hnn _ (List.mem_map_of_mem hσ)
    rw [hf.eq] at this
    exact lt_of_lt_of_le hf' this
  refine ⟨pop.map fun σ => σ.fitnessD / (pop.map Indiv.fitnessD).sum, ?_, by simp, ?_, ?_, 1 / (pop.map Indiv.fitnessD).sum, by positivity, ?_⟩
  · unfold rouletteWeights
    rw [if_pos hall]
    dsimp only
    rw [if_pos hsum.ne']
  · have : (pop.map fun σ => σ.fitnessD / (pop.map Indiv.fitnessD).sum) =
        (pop.map fun σ => σ.fitnessD * (1 / (pop.map Indiv.fitnessD).sum)) := by
      refine List.map_congr_left fun σ _ => ?_
      rw [mul_one_div]
    rw [this, List.sum_map_mul_right, mul_one_div_cancel hsum.ne']
  · intro x hx
    obtain ⟨σ, hσ, rfl⟩ := List.mem_map.mp hx
    exact div_nonneg (hnn _ (List.mem_map_of_mem hσ)) hsum.le
  · intro i σ f hi hf
    rw [List.getElem?_map, hi, Option.map_some, hf.eq, one_div_mul_eq_div]

/-- What `numpy.argsort` promises: the positions of the list, in an order that sorts it (ties in any order). -/
def IsArgsort {F : Type} [LinearOrder F] (f : List F) (p : List Nat) : Prop :=
  p.Perm (List.range f.length) ∧
    ∀ (a b i j : Nat) (x y : F), a < b → p[a]? = some i → p[b]? = some j → f[i]? = some x → f[j]? = some y → x ≤ y

theorem argsort_lt {F : Type} [LinearOrder F] (f : List F) (p : List Nat) (h : IsArgsort f p) (a i : Nat) (ha : p[a]? = some i) :
    i < f.length := by
  have := h.1.subset (List.mem_of_getElem? ha)
  simpa using this

theorem argsort_inj {F : Type} [LinearOrder F] (f : List F) (p : List Nat) (h : IsArgsort f p) (a b i : Nat) (ha : p[a]? = some i)
    (hb : p[b]? = some i) : a = b := by
  have hnd : p.Nodup := h.1.nodup_iff.mpr List.nodup_range
  obtain ⟨h1, h2⟩ := List.getElem?_eq_some_iff.mp ha
  obtain ⟨h3, h4⟩ := List.getElem?_eq_some_iff.mp hb
  exact (List.Nodup.getElem_inj_iff hnd).mp (by rw [h2, h4])

/-- The second `argsort` is the inverse permutation of the first. -/
theorem argsort_argsort {F : Type} [LinearOrder F] (f : List F) (p q : List Nat) (hp : IsArgsort f p) (hq : IsArgsort p q) (i a : Nat)
    (h : q[i]? = some a) : p[a]? = some i := by
  have hlp : p.length = f.length := by simpa using hp.1.length_eq
  have hlq : q.length = p.length := by simpa using hq.1.length_eq
  -- the sorted values of `p` are a sorted permutation of `0, …, n-1`
  have hval : ∀ x ∈ q, ∃ v, p[x]? = some v := fun x hx => by
    have : x < p.length := by simpa using hq.1.subset hx
    exact ⟨p[x], List.getElem?_eq_getElem this⟩
  set s := q.map fun x => p.getD x 0 with hs
  have hsperm : s.Perm (List.range f.length) := by
    refine List.Perm.trans (hq.1.map _) ?_
    have : (List.range p.length).map (fun x => p.getD x 0) = p := by
      refine List.ext_getElem? fun j => ?_
      rw [List.getElem?_map]
      by_cases hj : j < p.length
      · simp [hj]
      · rw [List.getElem?_eq_none (by simpa using hj), List.getElem?_eq_none (by simpa using hj)]; rfl
    rw [this]; exact hp.1
  have hsort : s.Pairwise (· ≤ ·) := by
    rw [List.pairwise_iff_getElem]
    intro a b ha hb hab
    simp only [hs, List.getElem_map]
    have ha' : a < q.length := by simpa [hs] using ha
    have hb' : b < q.length := by simpa [hs] using hb
    obtain ⟨v, hv⟩ := hval q[a] (List.getElem_mem _)
    obtain ⟨w, hw⟩ := hval q[b] (List.getElem_mem _)
    rw [List.getD_eq_getElem?_getD, List.getD_eq_getElem?_getD, hv, hw]
    exact hq.2 a b q[a] q[b] v w hab (List.getElem?_eq_getElem ha') (List.getElem?_eq_getElem hb') hv hw
  have hseq : s = List.range f.length :=
    hsperm.eq_of_pairwise (fun a b _ _ h1 h2 => le_antisymm h1 h2) hsort List.pairwise_le_range
  obtain ⟨hi, hqi⟩ := List.getElem?_eq_some_iff.mp h
  obtain ⟨v, hv⟩ := hval a (by rw [← hqi]; exact List.getElem_mem _)
  have h1 : s[i]? = some v := by
    rw [hs, List.getElem?_map, h, Option.map_some, List.getD_eq_getElem?_getD, hv]; rfl
  rw [hseq, List.getElem?_range (by omega)] at h1
  rw [hv, h1]

/-- C48: the linear rank weights are positive, sum to one and are strictly larger for strictly fitter solutions, however `argsort` orders ties. -/
theorem C48_linear_rank_partial {F : Type} [LinearOrder F] (fitness : List F) (hne : fitness ≠ []) (p q : List Nat) (hp : IsArgsort fitness p)
    (hq : IsArgsort p q) :
    (rankWeights q : List K).length = fitness.length ∧ (rankWeights q : List K).sum = 1 ∧ (∀ x ∈ (rankWeights q : List K), 0 < x) ∧
      ∀ (i j : Nat) (x y : F) (v w : K), fitness[i]? = some x → fitness[j]? = some y → x < y →
        (rankWeights q : List K)[i]? = some v → (rankWeights q : List K)[j]? = some w → v < w := by
  have hlp : p.length = fitness.length := by simpa using hp.1.length_eq
  have hlq : q.length = p.length := by simpa using hq.1.length_eq
  have hqne : q ≠ [] := by
    rintro rfl
    simp at hlq
    exact hne (List.length_eq_zero_iff.mp (by omega))
  have hS : 0 < (q.map (· + 1)).sum := by
    obtain ⟨a, t, rfl⟩ := List.exists_cons_of_ne_nil hqne
    simp
  have hS' : (0 : K) < (((q.map (· + 1)).sum : Nat) : K) := by exact_mod_cast hS
  refine ⟨by simp [rankWeights, hlq, hlp], ?_, ?_, ?_⟩
  · have : (rankWeights q : List K) = (q.map (· + 1)).map fun r : Nat => (r : K) * (1 / (((q.map (· + 1)).sum : Nat) : K)) := by
      unfold rankWeights
      refine List.map_congr_left fun r _ => ?_
      rw [mul_one_div]
    rw [this, List.sum_map_mul_right, ← Nat.cast_list_sum, mul_one_div_cancel hS'.ne']
  · intro x hx
    simp only [rankWeights, List.mem_map] at hx
    obtain ⟨r, ⟨a, _, rfl⟩, rfl⟩ := hx
    exact div_pos (by exact_mod_cast Nat.succ_pos a) hS'
  · intro i j x y v w hx hy hlt hv hw
    simp only [rankWeights, List.getElem?_map] at hv hw
    cases hqi : q[i]? with
    | none => simp [hqi] at hv
    | some a =>
      cases hqj : q[j]? with
      | none => simp [hqj] at hw
      | some b =>
        simp only [hqi, hqj, Option.map_some, Option.some.injEq] at hv hw
        have hpa := argsort_argsort fitness p q hp hq i a hqi
        have hpb := argsort_argsort fitness p q hp hq j b hqj
        have hab : a < b := by
          rcases Nat.lt_trichotomy a b with h | h | h
          · exact h
          · subst h
            rw [hpa] at hpb
            cases hpb
            rw [hx] at hy; cases hy
            exact absurd hlt (lt_irrefl _)
          · exact absurd (hp.2 b a j i y x h hpb hpa hy hx) (not_le.mpr hlt)
        rw [← hv, ← hw]
        exact div_lt_div_of_pos_right (by exact_mod_cast Nat.succ_lt_succ hab) hS'

example : IsArgsort [(30 : ℚ), 10, 20] [1, 2, 0] ∧ IsArgsort [1, 2, 0] [2, 0, 1] := by
  constructor <;> refine ⟨by decide, ?_⟩ <;> intro a b i j x y hab h1 h2 h3 h4 <;>
    (have ha : a < 3 := (List.getElem?_eq_some_iff.mp h1).1
     have hb : b < 3 := (List.getElem?_eq_some_iff.mp h2).1
     interval_cases b <;> interval_cases a <;> simp at h1 h2 <;> subst h1 <;> subst h2 <;> simp at h3 h4 <;> subst h3 <;> subst h4 <;>
       norm_num)

example : (rankWeights [2, 0, 1] : List ℚ) = [1/2, 1/6, 1/3] := by decide +kernel

/-- Three evaluated solutions. -/
def examplePop : List (Indiv ℚ) :=
  [⟨[true, false], some ⟨1, 2, 1, 1⟩⟩, ⟨[false, true], some ⟨1, 2, 1, 3⟩⟩, ⟨[true, true], some ⟨1, 2, 2, 2⟩⟩]

example : (SelDraw.tournament [[0, 2], [1, 1]]).Valid 2 2 examplePop.length ∧
    ((SelDraw.tournament [[0, 2], [1, 1]]).run examplePop).map (List.map Indiv.genome) = .ok [[true, true], [false, true]] :=
  ⟨by simp [SelDraw.Valid, examplePop], by decide +kernel⟩

example : rouletteWeights examplePop = .ok (some [1/6, 1/2, 1/3]) := by decide +kernel

/-! ## C43 -/

theorem gaStep_length (cfg : GACfg K) (dr : GADraw K) (ev : Eval K) (pop pop' : List (Indiv K)) (n : Nat) (hl : AllLen n pop)
    (hsel : ∀ l, dr.sel.run pop = .ok l → l.length = cfg.populationSize) (h : gaStep cfg dr ev pop = .ok pop') :
    pop'.length = min cfg.nElitists pop.length + cfg.populationSize := by
  obtain ⟨_, parents, children, children', h1, h2, h3, h4⟩ := gaStep_spec _ _ _ _ _ h
  have hpar : AllLen n parents := fun σ hσ => hl σ (mem_select _ _ _ h1 σ hσ)
  obtain ⟨hch, hcl⟩ := gaCross_len _ _ _ _ n (fun p hp => ⟨hpar _ (mem_pairs _ p hp).1, hpar _ (mem_pairs _ p hp).2⟩) h2
  obtain ⟨hch', hcl'⟩ := gaOdd_spec _ _ _ _ n hpar hch h3
  have hml := (gaMutate_spec cfg.mutRate dr.flips _ n hch').2
  have hlen := mapM_length _ _ _ h4
  rw [hlen, List.length_append, List.length_take, (sortedDesc_perm _ _).length_eq, hml, hcl', hcl, length_pairs, hsel parents h1]
  omega

theorem select_length (s : SelDraw) (n k : Nat) (pop l : List (Indiv K)) (hv : s.Valid n k pop.length) (h : s.run pop = .ok l) :
    l.length = n := by
  have hr : ∀ idx : List Nat, (idx.length = n ∧ ∀ i ∈ idx, i < pop.length) → selectRandom pop idx = .ok l → l.length = n := by
    intro idx hidx he
    rw [selectRandom_ok pop idx hidx.2] at he
    cases he
    rw [length_choose pop idx hidx.2, hidx.1]
  cases s with
  | random idx => exact hr idx hv h
  | linearRank idx =>
    simp only [SelDraw.run, selectLinearRank] at h
    split at h
    · exact hr idx hv h
    · cases h
  | roulette idx =>
    simp only [SelDraw.run, selectRoulette] at h
    split at h
    · cases h
    · exact hr idx hv h
    · split at h
      · cases h
      · exact hr idx hv h
  | tournament idx => rw [mapM_length _ _ _ h, hv.1]

/-- The draws of a run are possible results of numpy: in each generation the selection draws `population_size` positions of the population of that
generation (tournaments: `k` positions each). -/
def ValidDraws (cfg : GACfg K) (k : Nat) (ev : Eval K) : List (GADraw K) → List (Indiv K) → Prop
  | [], _ => True
  | dr :: rest, pop => dr.sel.Valid cfg.populationSize k pop.length ∧
      ∀ pop', gaStep cfg dr ev pop = .ok pop' → ValidDraws cfg k ev rest pop'

/-- What holds instead of C43: if the first population has at least as many members as elitists are kept, then after at least one generation the population has
`population_size` plus the number of elitists members; without elitists exactly `population_size`.
Missing: the size is wrong whenever there are elitists (`C43_refuted`). -/
theorem C43_size_partial (cfg : GACfg K) (k : Nat) (draws : List (GADraw K)) (hdraws : draws ≠ []) (ev : Eval K) (n : Nat)
    (pop pop0 pop' : List (Indiv K)) (hl : AllLen n pop) (hpop : cfg.nElitists ≤ pop.length)
    (h0 : fitAll ev pop = .ok pop0) (hv : ValidDraws cfg k ev draws pop0) (h : gaOptimize cfg draws n ev pop = .ok pop') :
    pop'.length = cfg.populationSize + cfg.nElitists := by
  unfold gaOptimize at h
  rw [h0] at h
  dsimp only at h
  have hl0 : AllLen n pop0 := allLen_of_genomes n _ _ (fitAll_spec _ _ _ h0).1 hl
  have hlen0 : cfg.nElitists ≤ pop0.length := by rw [mapM_length _ _ _ h0]; exact hpop
  clear h0 hl hpop
  induction draws generalizing pop0 with
  | nil => exact absurd rfl hdraws
  | cons dr rest ih =>
    obtain ⟨hv1, hv2⟩ := hv
    unfold gaLoop at h
    split at h
    · cases h
    · rename_i p1 hp1
      have hlen := gaStep_length cfg dr ev pop0 p1 n hl0 (fun l hll => select_length dr.sel _ k pop0 l hv1 hll) hp1
      have hl1 := (gaStep_inv _ _ _ _ _ n hl0 hp1).1
      cases rest with
      | nil => cases h; omega
      | cons dr' rest' => exact ih (by simp) p1 (hv2 p1 hp1) h hl1 (by omega)

/-- An evaluation that counts selected rules. -/
def countEval : Eval ℚ := fun g => .ok { error := 1, inputSize := g.length, complexity := g.count true, fitness := (g.count true : ℚ) }

/-- Draws of one generation in which nothing is crossed over or flipped. -/
def quietDraw : GADraw ℚ := { sel := .random [0, 1], cross := fun _ _ => (1, .nPoint []), flips := fun _ _ => 1 }

/-- C43 is false: a population of two grows to three in the first generation when one elitist is kept. -/
theorem C43_refuted : ∃ (cfg : GACfg ℚ) (draws : List (GADraw ℚ)) (pop pop' : List (Indiv ℚ)),
    pop.length = cfg.populationSize ∧ (∀ dr ∈ draws, dr.sel.Valid cfg.populationSize 1 pop.length) ∧
    gaOptimize cfg draws 2 countEval pop = .ok pop' ∧ pop'.length ≠ cfg.populationSize := by
  refine ⟨⟨2, 1, 9/10, 1/100⟩, [quietDraw], [⟨[true, false], none⟩, ⟨[true, true], none⟩],
    [⟨[true, true], some ⟨1, 2, 2, 2⟩⟩, ⟨[true, false], some ⟨1, 2, 1, 1⟩⟩, ⟨[true, true], some ⟨1, 2, 2, 2⟩⟩], rfl, ?_, ?_, by decide⟩
  · intro dr hdr
    rw [List.mem_singleton] at hdr
    subst hdr
    simp [quietDraw, SelDraw.Valid]
  · decide +kernel

example : ValidDraws (⟨2, 1, 9/10, 1/100⟩ : GACfg ℚ) 1 countEval [quietDraw, quietDraw]
    [⟨[true, false], some ⟨1, 2, 1, 1⟩⟩, ⟨[true, true], some ⟨1, 2, 2, 2⟩⟩] := by
  refine ⟨by simp [quietDraw, SelDraw.Valid], fun pop' h => ⟨?_, fun _ _ => trivial⟩⟩
  have hl : pop'.length = 3 := gaStep_length _ _ _ _ _ 2 (by simp [AllLen]) (fun l hl => select_length _ 2 1 _ l (by simp [quietDraw, SelDraw.Valid]) hl) h
  rw [hl]
  simp [quietDraw, SelDraw.Valid]

/-! ## C44 -/

theorem exists_best_take (k : Nat) (hk : 1 ≤ k) (pop : List (Indiv K)) (σ : Indiv K) (hσ : σ ∈ pop) :
    ∃ τ ∈ (sortedDesc Indiv.fitnessD pop).take k, σ.fitnessD ≤ τ.fitnessD := by
  have hp := sortedDesc_perm Indiv.fitnessD pop
  have hs := sortedDesc_pairwise Indiv.fitnessD pop
  cases h : sortedDesc Indiv.fitnessD pop with
  | nil => rw [h] at hp; rw [hp.symm.eq_nil] at hσ; exact absurd hσ List.not_mem_nil
  | cons t ts =>
    rw [h] at hp hs
    obtain ⟨k', rfl⟩ : ∃ k', k = k' + 1 := ⟨k - 1, by omega⟩
    refine ⟨t, by simp, ?_⟩
    rcases List.mem_cons.mp (hp.symm.subset hσ) with rfl | hm
    · exact le_refl _
    · exact (List.pairwise_cons.mp hs).1 σ hm

theorem gaStep_elitism (cfg : GACfg K) (hk : 1 ≤ cfg.nElitists) (dr : GADraw K) (ev : Eval K) (pop pop' : List (Indiv K))
    (he : ∀ σ ∈ pop, Evaluated ev σ) (h : gaStep cfg dr ev pop = .ok pop') :
    ∀ σ ∈ pop, ∃ τ ∈ pop', σ.fitnessD ≤ τ.fitnessD := by
  obtain ⟨_, parents, children, children', h1, h2, h3, h4⟩ := gaStep_spec _ _ _ _ _ h
  intro σ hσ
  obtain ⟨τ, hτ, hle⟩ := exists_best_take cfg.nElitists hk pop σ hσ
  obtain ⟨ρ, hρ, hfit⟩ := mem_of_mapM_ok' _ _ _ h4 τ (List.mem_append_left _ hτ)
  rw [Indiv.fit_of_evaluated ev τ (he τ (mem_sortedDesc_take _ _ _ τ hτ))] at hfit
  cases hfit
  exact ⟨τ, hρ, hle⟩

theorem gaLoop_append (cfg : GACfg K) (ev : Eval K) (d1 d2 : List (GADraw K)) (pop : List (Indiv K)) :
    gaLoop cfg ev (d1 ++ d2) pop = match gaLoop cfg ev d1 pop with
      | .error e => .error e
      | .ok p => gaLoop cfg ev d2 p := by
  induction d1 generalizing pop with
  | nil => rfl
  | cons dr rest ih =>
    rw [List.cons_append, gaLoop, gaLoop]
    cases gaStep cfg dr ev pop with
    | error e => rfl
    | ok p => exact ih p

/-- C44: with at least one elitist, for every member of the population after some generations there is a member at least as fit after any further
generations. -/
theorem C44_best_kept (cfg : GACfg K) (hk : 1 ≤ cfg.nElitists) (n : Nat) (ev : Eval K) (earlier later : List (GADraw K))
    (pop p1 p2 : List (Indiv K)) (hl : AllLen n pop) (h1 : gaOptimize cfg earlier n ev pop = .ok p1)
    (h2 : gaOptimize cfg (earlier ++ later) n ev pop = .ok p2) :
    ∀ σ ∈ p1, ∃ τ ∈ p2, ∃ f g, HasFitness σ f ∧ HasFitness τ g ∧ f ≤ g := by
  unfold gaOptimize at h1 h2
  split at h1
  · cases h1
  · rename_i p0 hp0
    rw [hp0] at h2
    dsimp only at h2
    obtain ⟨hg, he0⟩ := fitAll_spec _ _ _ hp0
    have hl0 : AllLen n p0 := allLen_of_genomes n _ _ hg hl
    obtain ⟨hl1, he1⟩ := gaLoop_inv cfg ev earlier p0 p1 n hl0 he0 h1
    rw [gaLoop_append, h1] at h2
    dsimp only at h2
    clear h1 hp0 hg he0 hl0
    have he2 := (gaLoop_inv cfg ev later p1 p2 n hl1 he1 h2).2
    have main : ∀ σ ∈ p1, ∃ τ ∈ p2, σ.fitnessD ≤ τ.fitnessD := by
      clear he2
      induction later generalizing p1 with
      | nil => cases h2; exact fun σ hσ => ⟨σ, hσ, le_refl _⟩
      | cons dr rest ih =>
        unfold gaLoop at h2
        split at h2
        · cases h2
        · rename_i q hq
          obtain ⟨hlq, heq⟩ := gaStep_inv _ _ _ _ _ n hl1 hq
          intro σ hσ
          obtain ⟨τ, hτ, hle⟩ := gaStep_elitism cfg hk dr ev p1 q he1 hq σ hσ
          obtain ⟨ρ, hρ, hle'⟩ := ih q h2 hlq heq τ hτ
          exact ⟨ρ, hρ, le_trans hle hle'⟩
    intro σ hσ
    obtain ⟨τ, hτ, hle⟩ := main σ hσ
    obtain ⟨s, hs, _⟩ := he1 σ hσ
    obtain ⟨t, ht, _⟩ := he2 τ hτ
    refine ⟨τ, hτ, s.fitness, t.fitness, ⟨s, hs, rfl⟩, ⟨t, ht, rfl⟩, ?_⟩
    rw [fitnessD_of_st σ s hs, fitnessD_of_st τ t ht] at hle
    exact hle

example : gaOptimize ⟨2, 1, 9/10, 1⟩ [{ quietDraw with flips := fun _ _ => 0 }] 2 countEval [⟨[true, false], none⟩, ⟨[true, true], none⟩] =
    .ok [⟨[true, true], some ⟨1, 2, 2, 2⟩⟩, ⟨[false, true], some ⟨1, 2, 1, 1⟩⟩, ⟨[false, false], some ⟨1, 2, 0, 0⟩⟩] := by
  decide +kernel

end Suprb
