import Verif.Props.Recombine
import Verif.Props.Operators
import Verif.Model.Sas
import Verif.Model.Objects

/-!
# Claim C135: rates and strengths switch operators off and on
-/

set_option autoImplicit false
set_option linter.unusedSectionVars false

namespace Suprb

open _root_.Spec (Pairs)

variable {K : Type} [Field K] [LinearOrder K]

/-- A number that `random_state.random()` can return. -/
def Spec.UnitDraw (r : K) : Prop := 0 ≤ r ∧ r < 1

/-! ## Crossover of solutions -/

/-- C135, crossover of solutions with rate 0 (genetic algorithm): the child is the first parent, state of evaluation included. -/
theorem C135_crossover_off (r : K) (hr : Spec.UnitDraw r) (c : CrossDraw K) (A B : Indiv K) : crossover 0 r c A B = .ok A := by
  unfold crossover
  rw [if_neg (not_lt.mpr hr.1)]

/-- C135, crossover of solutions with rate 0 (the variants of SAGA1 and SAS). -/
theorem C135_crossover_variants_off (r : K) (hr : Spec.UnitDraw r) (c : CrossDraw K) (A B : Indiv K) : crossoverA 0 r c A B = .ok A := by
  unfold crossoverA
  rw [if_neg (not_lt.mpr hr.1)]

/-- C135, crossover of solutions with rate 1: which random number is compared with the rate does not matter, and the child of two parents of the same length with one cut at `i` starts with the first parent's
bits and goes on with the second parent's (both variants). -/
theorem C135_crossover_on (r : K) (hr : Spec.UnitDraw r) (i : Nat) (A B : Indiv K) (hl : A.genome.length = B.genome.length) :
    (∃ C, crossover 1 r (.nPoint [i]) A B = .ok C ∧ C.genome.length = A.genome.length ∧
      ∀ j, C.genome.getD j false = if j < i then A.genome.getD j false else B.genome.getD j false) ∧
    (∃ C, crossoverA 1 r (.nPoint [i]) A B = .ok C ∧ C.genome.length = A.genome.length ∧
      ∀ j, C.genome.getD j false = if j < i then A.genome.getD j false else B.genome.getD j false) := by
  have hlen : (A.genome.take i ++ B.genome.drop i).length = A.genome.length := by simp; omega
  have hget : ∀ j, (A.genome.take i ++ B.genome.drop i).getD j false = if j < i then A.genome.getD j false else B.genome.getD j false := by
    intro j
    simp only [List.getD_eq_getElem?_getD]
    by_cases hj : j < i
    · rw [if_pos hj]
      by_cases hj' : j < A.genome.length
      · rw [List.getElem?_append_left (by simp; omega), List.getElem?_take_of_lt hj]
      · rw [List.getElem?_eq_none (by rw [hlen]; omega), List.getElem?_eq_none (by omega)]
    · rw [if_neg hj]
      by_cases hi : i ≤ A.genome.length
      · rw [List.getElem?_append_right (by simp; omega), List.getElem?_drop]
        congr 2
        simp; omega
      · rw [List.getElem?_eq_none (by rw [hlen]; omega), List.getElem?_eq_none (by omega)]
  refine ⟨⟨A.withGenome (A.genome.take i ++ B.genome.drop i), ?_, ?_, ?_⟩, ⟨A.withGenome (A.genome.take i ++ B.genome.drop i), ?_, ?_, ?_⟩⟩
  · unfold crossover; rw [if_pos hr.2]; rfl
  · exact hlen
  · exact hget
  · unfold crossoverA; rw [if_pos hr.2]; rfl
  · exact hlen
  · exact hget

/-- C135, uniform crossover with rate 1: every bit of the child is the bit of the parent its random number picks. -/
theorem C135_uniform_crossover_on (r : K) (hr : Spec.UnitDraw r) (u : Nat → K) (A B : Indiv K) (hl : A.genome.length = B.genome.length) :
    ∃ C, crossover 1 r (.uniform u) A B = .ok C ∧ crossoverA 1 r (.uniform u) A B = .ok C ∧ C.genome.length = A.genome.length ∧
      ∀ j, C.genome.getD j false = if u j ≤ 1 / 2 then A.genome.getD j false else B.genome.getD j false := by
  have hu : uniformCross u A.genome B.genome = .ok ((A.genome.zip B.genome).mapIdx fun i p => if u i ≤ 1 / 2 then p.1 else p.2) := by
    unfold uniformCross; rw [if_neg (by simpa using hl.symm)]
  refine ⟨A.withGenome ((A.genome.zip B.genome).mapIdx fun i p => if u i ≤ 1 / 2 then p.1 else p.2), ?_, ?_, ?_, ?_⟩
  · unfold crossover; rw [if_pos hr.2]; simp only [hu]
  · unfold crossoverA crossApply; rw [if_pos hr.2]; simp only [hu]
  · simp [Indiv.withGenome, hl]
  · intro j
    simp only [Indiv.withGenome, List.getD_eq_getElem?_getD, List.getElem?_mapIdx]
    by_cases hj : j < A.genome.length
    · have hj' : j < B.genome.length := hl ▸ hj
      rw [List.getElem?_eq_getElem (l := A.genome.zip B.genome) (by simp; omega)]
      simp [hj, hj']
    · rw [List.getElem?_eq_none (l := A.genome.zip B.genome) (by simp; omega), List.getElem?_eq_none (l := A.genome) (by omega), List.getElem?_eq_none (l := B.genome) (by omega)]
      simp

example : Spec.UnitDraw (1 / 3 : ℚ) ∧ crossover 1 (1 / 3 : ℚ) (.nPoint [1]) ⟨[true, true], none⟩ ⟨[false, false], none⟩ = .ok ⟨[true, false], none⟩ ∧
    crossover 0 (1 / 3 : ℚ) (.nPoint [1]) ⟨[true, true], none⟩ ⟨[false, false], none⟩ = .ok ⟨[true, true], none⟩ := by
  refine ⟨⟨by decide +kernel, by decide +kernel⟩, ?_, ?_⟩
  · unfold crossover; rw [if_pos (by decide +kernel)]; rfl
  · unfold crossover; rw [if_neg (by decide +kernel)]

/-! ## Bit flips -/

/-- C135, bit flips with rate 0: the selection of rules stays. -/
theorem C135_flips_off (u : Nat → K) (hu : Spec.Unit u) (σ : Indiv K) : (bitFlips 0 u σ).genome = σ.genome := by
  unfold bitFlips
  refine List.ext_getElem (by simp [Indiv.withGenome]) fun i _ _ => ?_
  simp [Indiv.withGenome, not_lt.mpr (hu i).1]

/-- C135, bit flips with rate 1: every rule of the pool changes sides. -/
theorem C135_flips_on (u : Nat → K) (hu : Spec.Unit u) (σ : Indiv K) : (bitFlips 1 u σ).genome = σ.genome.map not := by
  unfold bitFlips
  refine List.ext_getElem (by simp [Indiv.withGenome]) fun i _ _ => ?_
  simp [Indiv.withGenome, (hu i).2]

example : Spec.Unit (fun _ => (1 / 2 : ℚ)) ∧ (bitFlips 1 (fun _ => (1 / 2 : ℚ)) ⟨[true, false], none⟩).genome = [false, true] :=
  ⟨fun _ => ⟨by norm_num, by norm_num⟩, by decide +kernel⟩

/-! ## Random initialisation -/

variable [IsStrictOrderedRing K]

/-- C135, random initialisation with probability 1: every rule is selected. -/
theorem C135_init_on (u : Nat → K) (hu : Spec.Unit u) (n : Nat) : (InitOp.make (.random 1) u n).genome = List.replicate n true := by
  change randomBits 1 ((List.range n).map u) = _
  unfold randomBits
  refine List.ext_getElem (by simp) fun i _ _ => ?_
  simp [le_of_lt (hu i).2]

/-- C135 is false for random initialisation with probability 0: the random number 0 still selects a rule, as the comparison is `<=`. -/
theorem C135_init_refuted : ¬ ∀ (u : Nat → K) (n : Nat), Spec.Unit u → (InitOp.make (.random 0) u n).genome = List.replicate n false := by
  intro h
  have := h (fun _ => 0) 1 fun _ => ⟨le_refl _, zero_lt_one⟩
  revert this
  change randomBits (0 : K) [0] = [false] → False
  simp [randomBits]

/-- C135 for random initialisation with probability 0: without the random number 0, no rule is selected. -/
theorem C135_init_partial (u : Nat → K) (hu : ∀ i, 0 < u i ∧ u i < 1) (n : Nat) : (InitOp.make (.random 0) u n).genome = List.replicate n false := by
  change randomBits 0 ((List.range n).map u) = _
  unfold randomBits
  refine List.ext_getElem (by simp) fun i _ _ => ?_
  simp [(hu i).1]

example : (InitOp.make (.random 0) (fun _ => (1 / 2 : ℚ)) 2).genome = [false, false] := by decide +kernel

/-! ## Rules -/

variable {d : Nat} {M : Type}

/-- C135, crossover of rules with rate 0: the parents themselves, for every matching type and on objects (nothing is created or changed). -/
theorem C135_rule_crossover_off (k : Kind) (u : K) (hu : Spec.UnitDraw u) (mask : Fin d → Bool) (A B : Pairs K d) :
    ruleCrossover k 0 u mask A B = .ok (A, B) ∧ ∀ (a b : Nat) (h : RHeap K d M), hRuleCrossover 0 u mask a b h = (h, .ok (a, b)) := by
  constructor
  · unfold ruleCrossover; rw [if_neg (not_lt.mpr hu.1)]
  · intro a b h; unfold hRuleCrossover; rw [if_neg (not_lt.mpr hu.1)]

/-- C135, crossover of rules with rate 1 and ordered bounds: in every dimension the children share out the parents' intervals as the mask says. -/
theorem C135_rule_crossover_on (u : K) (hu : Spec.UnitDraw u) (mask : Fin d → Bool) (A B : Pairs K d) :
    ∃ A' B', ruleCrossover .ordered 1 u mask A B = .ok (A', B') ∧
      ∀ i, (mask i = true → A' i = A i ∧ B' i = B i) ∧ (mask i = false → A' i = B i ∧ B' i = A i) := by
  refine ⟨_, _, by unfold ruleCrossover; rw [if_pos hu.2], fun i => ⟨fun h => ?_, fun h => ?_⟩⟩
  · simp [uniformCrossover, h]
  · simp [uniformCrossover, h]

/-- What the generators return for the scale 0: `uniform(-0, 0)` and `uniform(0, 0)` are 0 by the range of their values; a normal or half-normal distribution with scale 0 is the constant 0. -/
def Spec.StillDraws (m : Mutation) (k : Kind) (z : Pairs K d) : Prop :=
  m.DrawOk k (0, 0) z ∧ (m = .normal ∨ m = .halfnorm ∨ m = .halfnormIncrease → ∀ i, z i = (0, 0))

theorem Spec.StillDraws.zero {m : Mutation} {k : Kind} {z : Pairs K d} (h : Spec.StillDraws m k z) (i : Fin d) : z i = (0, 0) := by
  obtain ⟨h1, h2⟩ := h
  cases m with
  | normal => exact h2 (.inl rfl) i
  | halfnorm => exact h2 (.inr (.inl rfl)) i
  | halfnormIncrease => exact h2 (.inr (.inr rfl)) i
  | uniform =>
    obtain ⟨a, b, c, e⟩ := h1 i
    exact Prod.ext (le_antisymm b (by simpa using a)) (le_antisymm e (by simpa using c))
  | uniformIncrease =>
    cases k with
    | centerSpread =>
      obtain ⟨a, b, c, e⟩ := h1 i
      exact Prod.ext (le_antisymm b (by simpa using a)) (le_antisymm e c)
    | ordered => obtain ⟨a, b, c, e⟩ := h1 i; exact Prod.ext (le_antisymm b a) (le_antisymm e c)
    | unordered => obtain ⟨a, b, c, e⟩ := h1 i; exact Prod.ext (le_antisymm b a) (le_antisymm e c)
    | minPercentage => obtain ⟨a, b, c, e⟩ := h1 i; exact Prod.ext (le_antisymm b a) (le_antisymm e c)

/-- The statement of C135 about the mutation of rules: with strength 0 the child has the condition of its parent (if the mutation is implemented for the matching type). -/
def Spec.StrengthOff (K : Type) [Field K] [LinearOrder K] (d : Nat) (m : Mutation) : Prop :=
  ∀ (k : Kind) (z b b' : Pairs K d), Spec.StillDraws m k z → (k = .ordered → ∀ i, (b i).1 ≤ (b i).2) → mutate m k z b = .ok b' → b' = b

theorem sortRows_of_le (b : Pairs K d) (h : ∀ i, (b i).1 ≤ (b i).2) : sortRows b = b := by
  funext i
  simp [sortRows, h i]

/-- C135 for the mutations of rules other than `Halfnorm`: with strength 0 a child has its parent's condition. -/
theorem C135_strength_partial (m : Mutation) (hm : m ≠ .halfnorm) : Spec.StrengthOff K d m := by
  intro k z b b' hz hb h
  have h0 := hz.zero
  have ha : addNoise z b = b := by funext i; simp [addNoise, h0 i]
  have hg : growNoise z b = b := by funext i; simp [growNoise, h0 i]
  have hg' : (fun i => ((b i).1 - (z i).1, (b i).2 + (z i).2)) = b := hg
  cases m <;> cases k <;> simp only [mutate, ha, hg, hg', Except.ok.injEq, reduceCtorEq, ne_eq, not_true_eq_false] at h hm
  all_goals first
    | exact h.symm
    | exact h.symm.trans (sortRows_of_le b (hb rfl))

/-- C135 is false for `Halfnorm`: with strength 0 the child's interval is the single point in the middle of its parent's interval. -/
theorem C135_strength_refuted : ¬ Spec.StrengthOff K 1 .halfnorm := by
  intro h
  have := h .ordered (fun _ => (0, 0)) (fun _ => (0, 1)) (fun _ => (1 / 2, 1 / 2))
    ⟨fun _ => ⟨le_refl _, le_refl _⟩, fun _ _ => rfl⟩ (fun _ _ => zero_le_one) 
    (by simp only [mutate]; congr 1; funext i; simp [sortRows, aroundMean])
  have h0 := congrFun this 0
  rw [Prod.mk.injEq] at h0
  have h1 := h0.1
  norm_num at h1

/-- C135, what `Halfnorm` does with strength 0, for every rule: both ends of every interval move to its centre. -/
theorem C135_halfnorm_centre_partial (k : Kind) (z b b' : Pairs K d) (hz : Spec.StillDraws .halfnorm k z) (h : mutate .halfnorm k z b = .ok b') (i : Fin d) :
    (b' i).1 = ((b i).1 + (b i).2) / 2 ∧ (b' i).2 = ((b i).1 + (b i).2) / 2 := by
  have ha : aroundMean z b = fun i => (((b i).1 + (b i).2) / 2, ((b i).1 + (b i).2) / 2) := by funext i; simp [aroundMean, hz.zero i]
  cases k <;> simp only [mutate, ha, Except.ok.injEq, reduceCtorEq] at h
  · subst h; simp [sortRows]
  · subst h; exact ⟨rfl, rfl⟩

example : Spec.StillDraws .uniformIncrease .ordered (fun _ => (0, 0) : Pairs ℚ 2) ∧
    mutate .uniformIncrease .ordered (fun _ => (0, 0) : Pairs ℚ 2) (fun _ => (-1, 1 / 2)) = .ok (fun _ => (-1, 1 / 2)) := by
  refine ⟨⟨fun _ => by simp, fun h => by simp at h⟩, ?_⟩
  simp only [mutate]
  congr 1
  funext i
  simp only [sortRows, growNoise]
  norm_num

/-! ## Whole searches -/

/-- The random numbers of a generation that are compared with rates. -/
def GADraw.Legal (dr : GADraw K) : Prop := (∀ k b, Spec.UnitDraw (dr.cross k b).1) ∧ ∀ k, Spec.Unit (dr.flips k)

theorem gaMutate_off (flips : Nat → Nat → K) (hf : ∀ k, Spec.Unit (flips k)) (cs : List (Indiv K)) : ∀ τ ∈ gaMutate 0 flips cs, ∃ σ ∈ cs, τ.genome = σ.genome := by
  intro τ hτ
  obtain ⟨⟨c, k⟩, hmem, rfl⟩ := List.mem_map.mp hτ
  obtain ⟨_, _, h3⟩ := List.mem_zipIdx hmem
  exact ⟨c, by rw [h3]; exact List.getElem_mem _, C135_flips_off _ (hf k) c⟩

theorem gaCross_off (draw : Nat → Bool → K × CrossDraw K) (hd : ∀ k b, Spec.UnitDraw (draw k b).1) (ps : List (Indiv K × Indiv K)) (cs : List (Indiv K))
    (h : gaCross 0 draw ps = .ok cs) : ∀ σ ∈ cs, ∃ p ∈ ps, σ = p.1 ∨ σ = p.2 := by
  unfold gaCross at h
  simp only [C135_crossover_off _ (hd _ _)] at h
  cases hh : (ps.zipIdx).mapM (fun x : (Indiv K × Indiv K) × Nat => (do
      let c1 ← (Except.ok x.1.1 : Except PyErr (Indiv K))
      let c2 ← (Except.ok x.1.2 : Except PyErr (Indiv K))
      pure [c1, c2] : Except PyErr (List (Indiv K)))) with
  | error e => rw [hh] at h; cases h
  | ok two =>
    rw [hh] at h; cases h
    intro σ hσ
    obtain ⟨l, hl, hσ⟩ := List.mem_flatten.mp hσ
    obtain ⟨⟨⟨A, B⟩, k⟩, hmem, hb⟩ := mem_of_mapM_ok _ _ _ hh l hl
    cases hb
    obtain ⟨_, _, h3⟩ := List.mem_zipIdx hmem
    refine ⟨(A, B), by rw [h3]; exact List.getElem_mem _, ?_⟩
    simpa using hσ

/-- C135 for whole runs of the genetic algorithm: with both rates 0, only selections of rules that were in the population at the beginning occur in the result, whatever the fitness, selection operator, elitism
and number of generations. -/
theorem C135_ga_selects (cfg : GACfg K) (hc : cfg.crossRate = 0) (hm : cfg.mutRate = 0) (draws : List (GADraw K)) (hd : ∀ dr ∈ draws, dr.Legal) (n : Nat) (ev : Eval K) (pop pop' : List (Indiv K))
    (h : gaOptimize cfg draws n ev pop = .ok pop') : ∀ τ ∈ pop', ∃ σ ∈ pop, τ.genome = σ.genome := by
  have hfit : ∀ (a b : List (Indiv K)), fitAll ev a = .ok b → ∀ τ ∈ b, ∃ σ ∈ a, τ.genome = σ.genome := by
    intro a b hab τ hτ
    have hg := (fitAll_spec _ _ _ hab).1
    have : τ.genome ∈ b.map Indiv.genome := List.mem_map_of_mem hτ
    rw [hg] at this
    obtain ⟨σ, hσ, he⟩ := List.mem_map.mp this
    exact ⟨σ, hσ, he.symm⟩
  have hstep : ∀ (dr : GADraw K) (a b : List (Indiv K)), dr.Legal → gaStep cfg dr ev a = .ok b → ∀ τ ∈ b, ∃ σ ∈ a, τ.genome = σ.genome := by
    intro dr a b hl hs τ hτ
    obtain ⟨_, parents, children, children', h1, h2, h3, h4⟩ := gaStep_spec _ _ _ _ _ hs
    obtain ⟨ρ, hρ, he⟩ := hfit _ _ h4 τ hτ
    rw [he]
    rcases List.mem_append.mp hρ with hρ | hρ
    · exact ⟨ρ, mem_sortedDesc_take _ _ _ ρ hρ, rfl⟩
    · rw [hm] at hρ
      obtain ⟨c, hcm, hce⟩ := gaMutate_off _ hl.2 _ ρ hρ
      rw [hc] at h2
      have hch : ∀ c ∈ children, c ∈ parents := by
        intro c hcc
        obtain ⟨p, hp, hor⟩ := gaCross_off _ hl.1 _ _ h2 c hcc
        rcases hor with rfl | rfl
        · exact (mem_pairs _ _ hp).1
        · exact (mem_pairs _ _ hp).2
      have hodd : ∀ c ∈ children', c ∈ parents := by
        unfold gaOdd at h3
        split at h3
        · split at h3
          · cases h3
          · rename_i q hq
            cases h3
            intro c hcc
            rcases List.mem_append.mp hcc with hcc | hcc
            · exact hch c hcc
            · rw [List.mem_singleton] at hcc; subst hcc; exact List.mem_of_getLast? hq
        · cases h3; exact hch
      exact ⟨c, mem_select _ _ _ h1 c (hodd c hcm), hce⟩
  have hloop : ∀ (ds : List (GADraw K)) (a b : List (Indiv K)), (∀ dr ∈ ds, dr.Legal) → gaLoop cfg ev ds a = .ok b → ∀ τ ∈ b, ∃ σ ∈ a, τ.genome = σ.genome := by
    intro ds
    induction ds with
    | nil => intro a b _ hab τ hτ; cases hab; exact ⟨τ, hτ, rfl⟩
    | cons dr rest ih =>
      intro a b hl hab τ hτ
      unfold gaLoop at hab
      split at hab
      · cases hab
      · rename_i p hp
        obtain ⟨ρ, hρ, he⟩ := ih p b (fun x hx => hl x (List.mem_cons_of_mem _ hx)) hab τ hτ
        obtain ⟨σ, hσ, he'⟩ := hstep dr a p (hl dr (List.mem_cons_self ..)) hp ρ hρ
        exact ⟨σ, hσ, he.trans he'⟩
  unfold gaOptimize at h
  split at h
  · cases h
  · rename_i p hp
    intro τ hτ
    obtain ⟨ρ, hρ, he⟩ := hloop _ _ _ hd h τ hτ
    obtain ⟨σ, hσ, he'⟩ := hfit _ _ hp ρ hρ
    exact ⟨σ, hσ, he.trans he'⟩

theorem sagaChildren_first (f : Nat → Bool → Indiv K → Indiv K → Except PyErr (Indiv K)) (hf : ∀ k b A B, f k b A B = .ok A) (ps : List (Indiv K × Indiv K)) :
    ∀ (k : Nat) (cs : List (Indiv K)), sagaChildren f k ps = .ok cs → ∀ σ ∈ cs, ∃ p ∈ ps, σ = p.1 ∨ σ = p.2 := by
  induction ps with
  | nil => intro k cs h σ hσ; cases h; cases hσ
  | cons p rest ih =>
    intro k cs h σ hσ
    obtain ⟨A, B⟩ := p
    simp only [sagaChildren, hf] at h
    split at h
    · cases h
    · rename_i cs' hcs
      cases h
      simp only [List.mem_cons] at hσ
      rcases hσ with rfl | rfl | hσ
      · exact ⟨(σ, B), List.mem_cons_self .., .inl rfl⟩
      · exact ⟨(A, σ), List.mem_cons_self .., .inr rfl⟩
      · obtain ⟨p, hp, h⟩ := ih _ _ hcs σ hσ
        exact ⟨p, List.mem_cons_of_mem _ hp, h⟩

theorem aged_evaluate_keeps (ev : Eval K) (P : List Bool → Prop) (o : Aged K) (h : P o.indiv.genome) :
    o.evaluate.Sat ev P fun o' => P o'.indiv.genome := by
  unfold Aged.evaluate
  exact Prog.Sat.bind' (evaluate_takes ev P o.indiv h) fun τ hτ => by rw [Prog.Sat]; rw [hτ]; exact h

example : ({ sel := .random [0, 0], cross := fun _ _ => (1 / 2, .nPoint [1]), flips := fun _ _ => 0 } : GADraw ℚ).Legal :=
  ⟨fun _ _ => ⟨by norm_num, by norm_num⟩, fun _ _ => ⟨by norm_num, by norm_num⟩⟩

example : (gaOptimize { populationSize := 2, nElitists := 0, crossRate := 0, mutRate := 0 } [{ sel := .random [1, 1], cross := fun _ _ => (1 / 2, .nPoint [1]), flips := fun _ _ => 0 }] 2
    (fun g => .ok ⟨0, 1, 1, if g = [true, false] then 1 else 2⟩) [⟨[true, false], none⟩, ⟨[true, true], none⟩] : Except PyErr (List (Indiv ℚ))).toOption.map (List.map Indiv.genome) =
    some [[true, true], [true, true]] := by decide +kernel

/-- C135 for whole runs of SAS: with both rates 0, only selections of rules that were in the population at the beginning are ever evaluated or kept. -/
theorem C135_sas_selects (cfg : SasCfg K) (hc : cfg.crossRate = 0) (hm : cfg.mutRate = 0) (draws : List (SasDraw K))
    (hd : ∀ z ∈ draws, (∀ k b, Spec.UnitDraw (z.cross k b).1) ∧ ∀ k, Spec.Unit (z.flips k)) (ev : Eval K) (pop : List (Aged K)) :
    (sas cfg draws pop).Sat ev (fun g => ∃ o ∈ pop, g = o.indiv.genome) fun s => ∀ o' ∈ s.pop, ∃ o ∈ pop, o'.indiv.genome = o.indiv.genome := by
  have heach : ∀ l : List (Aged K), (∀ o' ∈ l, ∃ o ∈ pop, o'.indiv.genome = o.indiv.genome) →
      (Prog.each Aged.evaluate l).Sat ev (fun g => ∃ o ∈ pop, g = o.indiv.genome) fun l' => ∀ o' ∈ l', ∃ o ∈ pop, o'.indiv.genome = o.indiv.genome := by
    intro l hl
    exact Prog.Sat.mono (fun _ => forall₂_right) _ (Prog.Sat.each (fun o' : Aged K => ∃ o ∈ pop, o'.indiv.genome = o.indiv.genome)
      (fun _ (o' : Aged K) => ∃ o ∈ pop, o'.indiv.genome = o.indiv.genome) _ _ hl fun o' ho' => aged_evaluate_keeps ev _ o' ho')
  unfold sas
  refine Prog.Sat.bind' (heach pop fun o ho => ⟨o, ho, rfl⟩) fun pop1 hpop1 => ?_
  refine Prog.Sat.mono (P := fun s : SasState K => (∀ z ∈ ([] : List (SasDraw K)), z ∈ draws) ∧ ∀ o' ∈ s.pop, ∃ o ∈ pop, o'.indiv.genome = o.indiv.genome) (fun s hs => hs.2) _ ?_
  refine Prog.Sat.forEach (fun rest (s : SasState K) => (∀ z ∈ rest, z ∈ draws) ∧ ∀ o' ∈ s.pop, ∃ o ∈ pop, o'.indiv.genome = o.indiv.genome) _ draws _ ⟨fun _ h => h, hpop1⟩ ?_
  rintro z rest s ⟨hz, hs⟩
  have hzd := hd z (hz z (List.mem_cons_self ..))
  unfold sasStep
  refine Prog.Sat.bind' (P := fun parents : List (Aged K) => ∀ o' ∈ parents, ∃ o ∈ pop, o'.indiv.genome = o.indiv.genome) (Prog.Sat.lift fun parents hp => ?_) fun parents hpar => ?_
  · intro o' ho'
    unfold ageing at hp
    dsimp only at hp
    split at hp
    · split at hp
      · cases hp
      · cases hp
        obtain ⟨o1, ho1, rfl⟩ := List.mem_map.mp (List.mem_filter.mp ho').1
        exact hs o1 ho1
    · cases hp
  refine Prog.Sat.bind' (P := fun children : List (Indiv K) => ∀ σ ∈ children, ∃ o ∈ pop, σ.genome = o.indiv.genome) (Prog.Sat.lift fun children hch => ?_) fun children hchild => ?_
  · intro σ hσ
    obtain ⟨p, hp, hor⟩ := sagaChildren_first _ (fun k b A B => by rw [hc]; exact C135_crossover_variants_off _ (hzd.1 k b) _ A B) _ _ _ hch σ hσ
    have hm' : σ ∈ parents.map Aged.indiv := by
      rcases hor with rfl | rfl
      · exact (mem_pairs _ _ hp).1
      · exact (mem_pairs _ _ hp).2
    obtain ⟨o', ho', rfl⟩ := List.mem_map.mp hm'
    exact hpar o' ho'
  refine Prog.Sat.bind' (heach _ ?_) fun pop2 hpop2 => ⟨fun x hx => hz x (List.mem_cons_of_mem _ hx), hpop2⟩
  intro o' ho'
  rcases List.mem_append.mp ho' with ho' | ho'
  · exact hpar o' ho'
  · obtain ⟨σ, hσ, rfl⟩ := List.mem_map.mp ho'
    rw [hm] at hσ
    obtain ⟨c, hcm, hce⟩ := gaMutate_off _ hzd.2 _ σ hσ
    obtain ⟨o, ho, he⟩ := hchild c hcm
    exact ⟨o, ho, hce.trans he⟩

end Suprb
