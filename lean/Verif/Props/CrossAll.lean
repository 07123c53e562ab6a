import Verif.Lemmas.Saga
import Verif.Props.Composition
import Verif.Props.Rates

/-!
# Claims C45 and C135 for the operators of the self-adapting genetic algorithms and SAS
-/

set_option autoImplicit false
set_option linter.unusedSectionVars false

namespace Suprb

section Variants

variable {K : Type} [Field K] [LinearOrder K] [IsStrictOrderedRing K]

theorem nPointA_get (is : List Nat) (A B : Indiv K) (h : A.genome.length = B.genome.length) :
    (nPointA is A B).genome.length = A.genome.length ∧
    ∀ j : Nat, (nPointA is A B).genome[j]? = if ∃ i ∈ is, i ≤ j then B.genome[j]? else A.genome[j]? := by
  induction is generalizing A with
  | nil => simp [nPointA]
  | cons i is ih =>
    have hl := length_singlePoint A.genome B.genome i h
    obtain ⟨h1, h2⟩ := ih (A.withGenome (singlePoint A.genome B.genome i)) (by simp only [Indiv.withGenome, hl]; exact h)
    unfold nPointA
    refine ⟨by rw [h1]; exact hl, fun j => ?_⟩
    rw [h2]
    simp only [Indiv.withGenome]
    rw [singlePoint_get _ _ _ _ h]
    by_cases h3 : ∃ k ∈ is, k ≤ j
    · obtain ⟨k, hk, hk'⟩ := h3
      rw [if_pos ⟨k, hk, hk'⟩, if_pos ⟨k, List.mem_cons_of_mem _ hk, hk'⟩]
    · rw [if_neg h3]
      by_cases hj : j < i
      · rw [if_pos hj, if_neg]
        rintro ⟨k, hk, hk'⟩
        rcases List.mem_cons.mp hk with rfl | hk
        · omega
        · exact h3 ⟨k, hk, hk'⟩
      · rw [if_neg hj, if_pos ⟨i, List.mem_cons_self, by omega⟩]

theorem crossApply_bits (c : CrossDraw K) (A B : Indiv K) (h : A.genome.length = B.genome.length) :
    ∃ C, crossApply c A B = .ok C ∧ C.genome.length = A.genome.length ∧ (∀ j : Nat, C.genome[j]? = A.genome[j]? ∨ C.genome[j]? = B.genome[j]?) ∧ (C = A ∨ C.st = none) := by
  cases c with
  | nPoint is =>
    obtain ⟨h1, h2⟩ := nPointA_get is A B h
    refine ⟨_, rfl, h1, fun j => ?_, ?_⟩
    · rw [h2]
      split
      exacts [.inr rfl, .inl rfl]
    · have hn : ∀ (l : List Nat) (A : Indiv K), nPointA l A B = A ∨ (nPointA l A B).st = none := by
        intro l
        induction l with
        | nil => intro A; exact .inl rfl
        | cons i rest ih =>
          intro A
          refine .inr ?_
          unfold nPointA
          rcases ih (A.withGenome (singlePoint A.genome B.genome i)) with h | h
          · rw [h]; rfl
          · exact h
      exact hn is A
  | uniform u =>
    obtain ⟨C, hC⟩ := crossover_ok 1 0 (.uniform u) A B h
    unfold crossover at hC
    rw [if_pos zero_lt_one] at hC
    unfold crossApply
    dsimp only at hC ⊢
    split at hC
    · cases hC
    · rename_i g hg
      refine ⟨A.withGenome g, by rw [hg], ?_, fun j => ?_, .inr rfl⟩
      · have := (uniformCross_get _ _ _ _ hg).1
        simpa [Indiv.withGenome] using this
      · simp only [Indiv.withGenome]
        rw [(uniformCross_get _ _ _ _ hg).2.2 j]
        split
        exacts [.inl rfl, .inr rfl]

/-- C45 for the crossover of saga1 and SAS: it succeeds for parents of equal length, keeps the length, takes each bit from one of the parents, and a child that is not the first parent is not evaluated. -/
theorem C45_variants_bits (rate r : K) (c : CrossDraw K) (A B : Indiv K) (h : A.genome.length = B.genome.length) :
    ∃ C, crossoverA rate r c A B = .ok C ∧ C.genome.length = A.genome.length ∧ (∀ j : Nat, C.genome[j]? = A.genome[j]? ∨ C.genome[j]? = B.genome[j]?) ∧ (C = A ∨ C.st = none) := by
  unfold crossoverA
  split
  · exact crossApply_bits c A B h
  · exact ⟨A, rfl, rfl, fun _ => .inl rfl, .inl rfl⟩

/-- C45 for saga1 and SAS: parents with equal genomes have a child with that genome. -/
theorem C45_variants_identical (rate r : K) (c : CrossDraw K) (A B C : Indiv K) (h : A.genome = B.genome) (hC : crossoverA rate r c A B = .ok C) : C.genome = A.genome := by
  obtain ⟨C', hC', _, hb, _⟩ := C45_variants_bits rate r c A B (by rw [h])
  rw [hC] at hC'; cases hC'
  refine List.ext_getElem? fun j => ?_
  rcases hb j with e | e
  · exact e
  · rw [e, h]

/-- C45 for saga3, whose crossover works on solutions with own rates: the child has the length of the parents, takes each bit from one of them and its rates are rates of the parents or clipped to `[0, 1]`;
if it is a new solution it is not evaluated. -/
theorem C45_saga3_bits (pmr : K) (d : Saga3Draw K) (h : Objs K) (a b : Nat) (A B : SagaObj K) (ha : h[a]? = some A) (hb : h[b]? = some B)
    (hl : A.indiv.genome.length = B.indiv.genome.length) :
    ∃ h' c C, saga3Cross pmr d h a b = .ok (h', c) ∧ h'[c]? = some C ∧ C.indiv.genome.length = A.indiv.genome.length ∧
      (∀ j : Nat, C.indiv.genome[j]? = A.indiv.genome[j]? ∨ C.indiv.genome[j]? = B.indiv.genome[j]?) ∧ (C.indiv = A.indiv ∨ C.indiv.st = none) ∧
      (C.crossRate = A.crossRate ∨ C.crossRate = B.crossRate ∨ 0 ≤ C.crossRate ∧ C.crossRate ≤ 1) ∧ (C.mutRate = A.mutRate ∨ C.mutRate = B.mutRate ∨ 0 ≤ C.mutRate ∧ C.mutRate ≤ 1) := by
  have hrate : (fun p : K × K × CrossMethod => (p.1 = A.crossRate ∨ p.1 = B.crossRate ∨ 0 ≤ p.1 ∧ p.1 ≤ 1) ∧ (p.2.1 = A.mutRate ∨ p.2.1 = B.mutRate ∨ 0 ≤ p.2.1 ∧ p.2.1 ≤ 1)) (saga3Params pmr d A B) := by
    have hclip : ∀ x : K, 0 ≤ min (max x 0) 1 ∧ min (max x 0) 1 ≤ 1 := fun x => ⟨le_min (le_max_right _ _) zero_le_one, min_le_right _ _⟩
    unfold saga3Params
    dsimp only
    split
    · exact ⟨.inr (.inr (hclip _)), .inr (.inr (hclip _))⟩
    · refine ⟨?_, ?_⟩ <;> dsimp only <;> split
      exacts [.inl rfl, .inr (.inl rfl), .inl rfl, .inr (.inl rfl)]
  have hat : a < h.length := by
    rw [List.getElem?_eq_some_iff] at ha
    exact ha.1
  unfold saga3Cross
  rw [ha, hb]
  dsimp only
  revert hrate
  generalize saga3Params pmr d A B = p
  intro hrate
  have hin : ∃ C : SagaObj K, (h.set a { A with crossRate := p.1, mutRate := p.2.1, method := p.2.2 })[a]? = some C ∧ C.indiv = A.indiv ∧ C.crossRate = p.1 ∧ C.mutRate = p.2.1 :=
    ⟨_, List.getElem?_set_self hat, rfl, rfl, rfl⟩
  obtain ⟨C0, e0, e1, e2, e3⟩ := hin
  have hfirst : C0.indiv.genome.length = A.indiv.genome.length ∧ (∀ j : Nat, C0.indiv.genome[j]? = A.indiv.genome[j]? ∨ C0.indiv.genome[j]? = B.indiv.genome[j]?) ∧
      (C0.indiv = A.indiv ∨ C0.indiv.st = none) ∧ (C0.crossRate = A.crossRate ∨ C0.crossRate = B.crossRate ∨ 0 ≤ C0.crossRate ∧ C0.crossRate ≤ 1) ∧
      (C0.mutRate = A.mutRate ∨ C0.mutRate = B.mutRate ∨ 0 ≤ C0.mutRate ∧ C0.mutRate ≤ 1) :=
    ⟨by rw [e1], fun j => .inl (by rw [e1]), .inl e1, by rw [e2]; exact hrate.1, by rw [e3]; exact hrate.2⟩
  split
  · split
    · obtain ⟨C, hC, c1, c2, c3⟩ := crossApply_bits (.nPoint d.indices) A.indiv B.indiv hl
      cases hC
      split
      · exact ⟨_, _, C0, rfl, e0, hfirst⟩
      · exact ⟨_, _, ⟨nPointA d.indices A.indiv B.indiv, p.1, p.2.1, p.2.2⟩, rfl, by simp, c1, c2, c3, hrate⟩
    · obtain ⟨C, hC, c1, c2, c3⟩ := crossApply_bits (.uniform d.u) A.indiv B.indiv hl
      unfold crossApply at hC
      dsimp only at hC
      cases hg : uniformCross d.u A.indiv.genome B.indiv.genome with
      | error e => rw [hg] at hC; cases hC
      | ok g =>
        rw [hg] at hC
        cases hC
        exact ⟨_, _, ⟨A.indiv.withGenome g, p.1, p.2.1, p.2.2⟩, rfl, by simp, c1, c2, c3, hrate⟩
  · exact ⟨_, _, C0, rfl, e0, hfirst⟩

/-- C45 for saga3: parents with equal genomes have a child with that genome. -/
theorem C45_saga3_identical (pmr : K) (d : Saga3Draw K) (h h' : Objs K) (a b c : Nat) (A B C : SagaObj K) (ha : h[a]? = some A) (hb : h[b]? = some B)
    (hs : A.indiv.genome = B.indiv.genome) (hx : saga3Cross pmr d h a b = .ok (h', c)) (hc : h'[c]? = some C) : C.indiv.genome = A.indiv.genome := by
  obtain ⟨h1, c1, C1, e, e1, _, e2, _⟩ := C45_saga3_bits pmr d h a b A B ha hb (by rw [hs])
  rw [hx] at e
  cases e
  rw [hc] at e1
  cases e1
  refine List.ext_getElem? fun j => ?_
  rcases e2 j with e | e
  · exact e
  · rw [e, hs]

/-- C45 for saga3 (missing: the rates of the first parent, see `C45_saga3_parents_refuted`): all solutions keep their genome and evaluation, and all but the first parent also their rates and operator. -/
theorem C45_saga3_parents_partial (pmr : K) (d : Saga3Draw K) (h h' : Objs K) (a b c : Nat) (hx : saga3Cross pmr d h a b = .ok (h', c)) (i : Nat) (o : SagaObj K) (ho : h[i]? = some o) :
    (∃ o', h'[i]? = some o' ∧ o'.indiv = o.indiv) ∧ (i ≠ a ∨ c ≠ a → h'[i]? = some o) := by
  have hi : i < h.length := by
    rw [List.getElem?_eq_some_iff] at ho
    exact ho.1
  unfold saga3Cross at hx
  split at hx
  · rename_i A B ha hb
    have hat : a < h.length := by
      rw [List.getElem?_eq_some_iff] at ha
      exact ha.1
    dsimp only at hx
    have hset : ∀ p : K × K × CrossMethod, (h.set a { A with crossRate := p.1, mutRate := p.2.1, method := p.2.2 }, a) = (h', c) →
        (∃ o', h'[i]? = some o' ∧ o'.indiv = o.indiv) ∧ (i ≠ a ∨ c ≠ a → h'[i]? = some o) := by
      intro p e
      cases e
      by_cases hia : a = i
      · subst hia
        rw [ha] at ho
        cases ho
        exact ⟨⟨_, List.getElem?_set_self hat, rfl⟩, fun h => by rcases h with h | h <;> exact absurd rfl h⟩
      · rw [List.getElem?_set_ne hia]
        exact ⟨⟨o, ho, rfl⟩, fun _ => ho⟩
    have happ : ∀ x : SagaObj K, (h ++ [x], h.length) = (h', c) → (∃ o', h'[i]? = some o' ∧ o'.indiv = o.indiv) ∧ (i ≠ a ∨ c ≠ a → h'[i]? = some o) := by
      intro x e
      cases e
      rw [List.getElem?_append_left hi]
      exact ⟨⟨o, ho, rfl⟩, fun _ => ho⟩
    split at hx
    · split at hx
      · split at hx
        · injection hx with hx; exact hset _ hx
        · injection hx with hx; exact happ _ hx
      · split at hx
        · cases hx
        · injection hx with hx; exact happ _ hx
    · injection hx with hx; exact hset _ hx
  · cases hx

/-- C45 is false for saga3: if no crossover takes place the child is the first parent itself, and the rate inherited from the second parent overwrites its own. -/
theorem C45_saga3_parents_refuted (pmr : K) (d : Saga3Draw K) (h : Objs K) (a b : Nat) (A B : SagaObj K) (ha : h[a]? = some A) (hb : h[b]? = some B) (hne : A.crossRate ≠ B.crossRate)
    (hpick : d.pickCross = false) (hr : ¬ d.r < pmr) (hc : ¬ d.rCross < B.crossRate) :
    ∃ h' A', saga3Cross pmr d h a b = .ok (h', a) ∧ h'[a]? = some A' ∧ A'.crossRate = B.crossRate ∧ A' ≠ A := by
  have hat : a < h.length := by
    rw [List.getElem?_eq_some_iff] at ha
    exact ha.1
  have hp : (saga3Params pmr d A B).1 = B.crossRate := by simp [saga3Params, hr, hpick]
  refine ⟨_, { A with crossRate := (saga3Params pmr d A B).1, mutRate := (saga3Params pmr d A B).2.1, method := (saga3Params pmr d A B).2.2 }, ?_, List.getElem?_set_self hat, hp, fun e => hne (by rw [← hp]; exact (congrArg SagaObj.crossRate e).symm)⟩
  unfold saga3Cross
  rw [ha, hb]
  dsimp only
  rw [if_neg (by rw [hp]; exact hc)]

/-- C46 for saga1, saga2, saga3 and SAS, whose n-point crossover does not exchange the parents: it is also a one-point crossover at the smallest cut, and thus the same as the one of the genetic algorithm. -/
theorem C46_variants_partial (cuts : List Nat) (A B : Indiv K) (h : A.genome.length = B.genome.length) :
    (nPointA cuts A B).genome = (nPoint cuts A B).genome ∧ ∀ m ∈ cuts, (∀ c ∈ cuts, m ≤ c) → (nPointA cuts A B).genome = A.genome.take m ++ B.genome.drop m := by
  have h1 : (nPointA cuts A B).genome = (nPoint cuts A B).genome := List.ext_getElem? fun j => by rw [(nPointA_get cuts A B h).2 j, (nPoint_get cuts A B h).2 j]
  exact ⟨h1, fun m hm hmin => by rw [h1]; exact C46_single_cut_partial cuts A B h m hm hmin⟩

/-- C46 is false for all parents that differ at the second cut point, in all algorithms: no child of an n-point crossover with an even number of cuts up to a position where the parents differ (one of them
at this position or before) is the alternation of the pieces. -/
theorem C46_always_refuted (cuts : List Nat) (A B : Indiv K) (h : A.genome.length = B.genome.length) (j : Nat) (hj : A.genome[j]? ≠ B.genome[j]?)
    (heven : (cuts.countP fun c => decide (c ≤ j)) % 2 = 0) (hcut : ∃ c ∈ cuts, c ≤ j) :
    ¬ Alternates cuts A.genome B.genome (nPoint cuts A B).genome ∧ ¬ Alternates cuts A.genome B.genome (nPointA cuts A B).genome := by
  refine ⟨fun ha => ?_, fun ha => ?_⟩
  · have := ha.2 j
    rw [(nPoint_get cuts A B h).2 j, if_pos hcut, if_pos heven] at this
    exact hj this.symm
  · have := ha.2 j
    rw [(nPointA_get cuts A B h).2 j, if_pos hcut, if_pos heven] at this
    exact hj this.symm

/-- C135 for saga3: a solution with mutation rate 0 keeps its genome, one with mutation rate 1 is turned into its complement, whatever its crossover rate; both keep their rates. -/
theorem C135_saga3_flips (u : Nat → K) (hu : Spec.Unit u) (o : SagaObj K) :
    (o.mutRate = 0 → (saga3Mutate u o).indiv.genome = o.indiv.genome) ∧ (o.mutRate = 1 → (saga3Mutate u o).indiv.genome = o.indiv.genome.map not) ∧
      (saga3Mutate u o).crossRate = o.crossRate ∧ (saga3Mutate u o).mutRate = o.mutRate ∧ (saga3Mutate u o).method = o.method := by
  refine ⟨fun h => ?_, fun h => ?_, rfl, rfl, rfl⟩
  · unfold saga3Mutate; rw [h]; exact C135_flips_off u hu o.indiv
  · unfold saga3Mutate; rw [h]; exact C135_flips_on u hu o.indiv

/-- C135 for saga3: without parameter mutation, parents with crossover rate 0 give the first parent; parents with crossover rate 1 and the uniform operator give a new solution whose bits are chosen by the
draws. -/
theorem C135_saga3_crossover (pmr : K) (d : Saga3Draw K) (h : Objs K) (a b : Nat) (A B : SagaObj K) (ha : h[a]? = some A) (hb : h[b]? = some B) (hl : A.indiv.genome.length = B.indiv.genome.length)
    (hr : pmr ≤ d.r) (hu : Spec.UnitDraw d.rCross) :
    (A.crossRate = 0 → B.crossRate = 0 → ∃ h' C, saga3Cross pmr d h a b = .ok (h', a) ∧ h'[a]? = some C ∧ C.indiv = A.indiv) ∧
    (A.crossRate = 1 → B.crossRate = 1 → A.method = .uniform → B.method = .uniform → ∃ C, saga3Cross pmr d h a b = .ok (h ++ [C], h.length) ∧
      ∀ j : Nat, C.indiv.genome[j]? = if d.u j ≤ 1 / 2 then A.indiv.genome[j]? else B.indiv.genome[j]?) := by
  have hat : a < h.length := by
    rw [List.getElem?_eq_some_iff] at ha
    exact ha.1
  refine ⟨fun h1 h2 => ?_, fun h1 h2 h3 h4 => ?_⟩
  · have hp : (saga3Params pmr d A B).1 = 0 := by simp [saga3Params, not_lt.mpr hr, h1, h2]
    refine ⟨_, { A with crossRate := (saga3Params pmr d A B).1, mutRate := (saga3Params pmr d A B).2.1, method := (saga3Params pmr d A B).2.2 }, ?_, List.getElem?_set_self hat, rfl⟩
    unfold saga3Cross
    rw [ha, hb]
    dsimp only
    rw [if_neg (by rw [hp]; exact not_lt.mpr hu.1)]
  · have hp : (saga3Params pmr d A B).1 = 1 := by simp [saga3Params, not_lt.mpr hr, h1, h2]
    have hm : (saga3Params pmr d A B).2.2 = .uniform := by simp [saga3Params, not_lt.mpr hr, h3, h4]
    obtain ⟨C, hC⟩ := crossover_ok 1 0 (.uniform d.u) A.indiv B.indiv hl
    unfold crossover at hC
    rw [if_pos zero_lt_one] at hC
    dsimp only at hC
    cases hg : uniformCross d.u A.indiv.genome B.indiv.genome with
    | error e => rw [hg] at hC; cases hC
    | ok g =>
      refine ⟨⟨A.indiv.withGenome g, (saga3Params pmr d A B).1, (saga3Params pmr d A B).2.1, (saga3Params pmr d A B).2.2⟩, ?_, fun j => (uniformCross_get _ _ _ _ hg).2.2 j⟩
      unfold saga3Cross
      rw [ha, hb]
      dsimp only
      rw [if_pos (by rw [hp]; exact hu.2), hm, hg]

end Variants

/-- C45 for saga2, whatever its rates are: bits come from the parents. -/
theorem C45_saga2_bits (s : Saga2State) (cfg : Saga2Cfg) (r : ℝ) (c : CrossDraw ℝ) (A B : Indiv ℝ) (h : A.genome.length = B.genome.length) :
    ∃ C, saga2Cross s cfg r c A B = .ok C ∧ C.genome.length = A.genome.length ∧ (∀ j : Nat, C.genome[j]? = A.genome[j]? ∨ C.genome[j]? = B.genome[j]?) ∧ (C = A ∨ C.st = none) ∧
      (A.genome = B.genome → C.genome = A.genome) := by
  unfold saga2Cross
  split
  · exact ⟨A, rfl, rfl, fun _ => .inl rfl, .inl rfl, fun _ => rfl⟩
  · rename_i rate _
    obtain ⟨C, h1, h2, h3, h4⟩ := C45_variants_bits rate r c A B h
    exact ⟨C, h1, h2, h3, h4, fun hs => C45_variants_identical rate r c A B C hs h1⟩

/-! ### Examples -/

/-- Two parents of equal length, one cut, and the child of saga1. -/
example : crossoverA (1 : ℚ) 0 (.nPoint [1]) ⟨[true, true, true], none⟩ ⟨[false, false, false], none⟩ = .ok ⟨[true, false, false], none⟩ := by decide +kernel

/-- The hypotheses of `C46_always_refuted`: three cuts, as in saga3. -/
example : (⟨[true, true, false, true], none⟩ : Indiv ℚ).genome[2]? ≠ (⟨[false, true, true, true], none⟩ : Indiv ℚ).genome[2]? ∧ ([3, 0, 2].countP fun c => decide (c ≤ 2)) % 2 = 0 ∧
    ∃ c ∈ [3, 0, 2], c ≤ 2 := by decide +kernel

/-- The hypotheses of `C45_saga3_parents_refuted`: a fresh solution and one with crossover rate 0. -/
example : ∃ (d : Saga3Draw ℚ) (h : Objs ℚ) (A B : SagaObj ℚ), h[0]? = some A ∧ h[1]? = some B ∧ A.crossRate ≠ B.crossRate ∧ d.pickCross = false ∧ ¬ d.r < 1 / 20 ∧ ¬ d.rCross < B.crossRate ∧
    A.indiv.genome.length = B.indiv.genome.length :=
  ⟨⟨false, true, true, 1 / 2, 0, 0, true, 1 / 2, [1], fun _ => 0⟩, [SagaObj.fresh ⟨[true, false], none⟩, ⟨⟨[false, false], none⟩, 0, 1 / 10, .uniform⟩], _, _, rfl, rfl,
    by norm_num [SagaObj.fresh], rfl, by norm_num, by norm_num, rfl⟩

end Suprb
