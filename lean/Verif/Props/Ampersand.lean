import Verif.Props.ES

/-!
# Claim C147: the ampersand strategy returns the best rule of its run

The `&` operator lets the current rule get worse for up to `delay` generations and then goes back to the best rule. C32 compares the returned rule with the rules of the last
`delay` generations only; this file compares it with all rules that were ever current.
-/

set_option autoImplicit false
set_option linter.unusedSectionVars false

namespace Suprb

open Spec

section Generic

variable {R Z S F : Type} [LinearOrder F]

/-- Every full stretch of `d` consecutive rules has a rule that is fitter than its first. -/
def Improves (f : R → F) (d : Nat) (l : List R) : Prop :=
  ∀ i a, i + d ≤ l.length → l[i]? = some a → ∃ j b, i < j ∧ j < i + d ∧ l[j]? = some b ∧ f a < f b

/-- If every stretch before the last has a rule fitter than its first, and the last stretch has not, its first rule is the fittest of all. -/
theorem best_of_improves (f : R → F) (d : Nat) (l : List R) (k : Nat) (r : R)
    (himp : ∀ i a, i < k → l[i]? = some a → ∃ j b, i < j ∧ j < i + d ∧ l[j]? = some b ∧ f a < f b)
    (hlast : ∀ j b, k ≤ j → l[j]? = some b → f b ≤ f r) : ∀ a ∈ l, f a ≤ f r := by
  have key : ∀ n i a, l.length - i = n → l[i]? = some a → f a ≤ f r := by
    intro n
    induction n using Nat.strong_induction_on with
    | _ n ih =>
      intro i a hn ha
      by_cases hik : k ≤ i
      · exact hlast i a hik ha
      · obtain ⟨j, b, h1, h2, h3, h4⟩ := himp i a (by omega) ha
        have hj : j < l.length := (List.getElem?_eq_some_iff.mp h3).1
        exact le_trans h4.le (ih (l.length - j) (by omega) j b rfl h3)
  intro a ha
  obtain ⟨i, hi⟩ := List.mem_iff_getElem?.mp ha
  exact key _ i a rfl hi

/-- If a generation with a valid child does not stop although the deque is full, some rule of the deque is fitter than its first. -/
theorem esGen_goes_on (P : ESParams R Z S F) (hop : P.operator = .amp) (zs : List Z) (s : S) (e e' : R) (w w' : List R)
    (hv : ∀ cs, zs.mapM (P.child e) = .ok cs → ∃ c ∈ cs, P.valid c = true)
    (h : esGen P zs s e w = .ok (.next e' w')) (hlen : (dequeAppend P.delay w e).length = P.delay) :
    ∃ e0 b, (dequeAppend P.delay w e).head? = some e0 ∧ b ∈ dequeAppend P.delay w e ∧ P.fitness e0 < P.fitness b := by
  unfold esGen at h
  dsimp only at h
  cases hc : zs.mapM (P.child e) with
  | error er => rw [hc] at h; cases h
  | ok cs =>
    obtain ⟨c, hc1, hc2⟩ := hv cs hc
    rw [hc] at h
    dsimp only at h
    have hf : c ∈ cs.filter P.valid := List.mem_filter.mpr ⟨hc1, hc2⟩
    rw [if_neg (by intro h0; rw [List.isEmpty_iff] at h0; rw [h0] at hf; cases hf), hop] at h
    dsimp only at h
    cases hs : P.select (cs.filter P.valid) s with
    | error er => rw [hs] at h; cases h
    | ok new =>
      rw [hs] at h
      dsimp only at h
      rw [if_pos hlen] at h
      cases hw : dequeAppend P.delay w e with
      | nil => rw [hw] at h; cases h
      | cons e0 t =>
        rw [hw] at h
        dsimp only at h
        by_cases hall : (e0 :: t).all (fun a => decide (P.fitness a ≤ P.fitness e0)) = true
        · rw [if_pos hall] at h; cases h
        · rw [List.all_eq_true] at hall
          push Not at hall
          obtain ⟨b, hb1, hb2⟩ := hall
          exact ⟨e0, b, rfl, hb1, by simpa using hb2⟩

theorem esLoop_best (P : ESParams R Z S F) (hsel : P.SelectsMember) (hop : P.operator = .amp) (hd : 1 ≤ P.delay) (D : Z → Prop)
    (Q : R → Prop) (hQ : ∀ e c, Q e → P.IsChild D e c → Q c) (gs : List (List Z × S)) (hD : ∀ g ∈ gs, ∀ z ∈ g.1, D z)
    (hv : ∀ e, Q e → ∀ g ∈ gs, ∀ cs, g.1.mapM (P.child e) = .ok cs → ∃ c ∈ cs, P.valid c = true)
    (h : List R) (e r : R) (he : Q e) (himp : Improves P.fitness P.delay h)
    (hr : esLoop P gs e (h.drop (h.length - P.delay)) = .ok r) :
    ∃ t : List R, t.head? = some e ∧ t.IsChain P.Follows ∧
      ((t.length = gs.length + 1 ∧ t.getLast? = some r) ∨
       (t.length ≤ gs.length ∧ P.delay ≤ (h ++ t).length ∧ (h ++ t)[(h ++ t).length - P.delay]? = some r ∧
        ∀ a ∈ h ++ t, P.fitness a ≤ P.fitness r)) := by
  induction gs generalizing h e with
  | nil =>
    cases hr
    exact ⟨[r], rfl, by simp, Or.inl ⟨rfl, rfl⟩⟩
  | cons g gs ih =>
    obtain ⟨zs, s⟩ := g
    have hz := hD (zs, s) (List.mem_cons_self ..)
    unfold esLoop at hr
    split at hr
    · cases hr
    · rename_i r' hg
      cases hr
      obtain ⟨_, hlen, hhead, hall⟩ := esGen_stop P zs s e _ _ hg
      rw [dequeAppend_suffix] at hlen hhead hall
      have hle : P.delay ≤ (h ++ [e]).length := by rw [List.length_drop] at hlen; omega
      rw [List.head?_drop] at hhead
      refine ⟨[e], rfl, by simp, Or.inr ⟨by simp, hle, hhead, ?_⟩⟩
      refine best_of_improves P.fitness P.delay _ ((h ++ [e]).length - P.delay) _ ?_ ?_
      · intro i a hi ha
        have hlen1 : (h ++ [e]).length = h.length + 1 := by simp
        rw [List.getElem?_append_left (by omega)] at ha
        obtain ⟨j, b, h1, h2, h3, h4⟩ := himp i a (by omega) ha
        refine ⟨j, b, h1, h2, ?_, h4⟩
        rw [List.getElem?_append_left (List.getElem?_eq_some_iff.mp h3).1]
        exact h3
      · intro j b hj hb
        refine hall b (List.mem_iff_getElem?.mpr ⟨j - ((h ++ [e]).length - P.delay), ?_⟩)
        rw [List.getElem?_drop, Nat.add_sub_of_le hj]
        exact hb
    · rename_i e' w' hg
      have hgo := esGen_goes_on P hop zs s e e' _ w' (hv e he (zs, s) (List.mem_cons_self ..)) hg
      obtain ⟨rfl, hf⟩ := esGen_next P hsel D zs hz s e e' _ w' hg
      have hf' : P.Follows e e' := by
        rcases hf with rfl | ⟨z, _, h1, h2⟩
        · exact Or.inl rfl
        · exact Or.inr ⟨z, trivial, h1, h2⟩
      rw [dequeAppend_suffix] at hr hgo
      have he' : Q e' := by
        rcases hf with rfl | hf
        · exact he
        · exact hQ e e' he hf
      have hlen1 : (h ++ [e]).length = h.length + 1 := by simp
      have himp' : Improves P.fitness P.delay (h ++ [e]) := by
        intro i a hi ha
        by_cases hih : i + P.delay ≤ h.length
        · rw [List.getElem?_append_left (by omega)] at ha
          obtain ⟨j, b, h1, h2, h3, h4⟩ := himp i a hih ha
          refine ⟨j, b, h1, h2, ?_, h4⟩
          rw [List.getElem?_append_left (List.getElem?_eq_some_iff.mp h3).1]
          exact h3
        · have hi' : (h ++ [e]).length - P.delay = i := by omega
          rw [hi'] at hgo
          obtain ⟨e0, b, h1, h2, h3⟩ := hgo (by rw [List.length_drop]; omega)
          rw [List.head?_drop, ha] at h1
          cases h1
          obtain ⟨j, hj⟩ := List.mem_iff_getElem?.mp h2
          rw [List.getElem?_drop] at hj
          have hjl := (List.getElem?_eq_some_iff.mp hj).1
          refine ⟨i + j, b, ?_, by omega, hj, h3⟩
          rcases Nat.eq_zero_or_pos j with rfl | hj0
          · rw [Nat.add_zero, ha] at hj
            cases hj
            exact absurd h3 (lt_irrefl _)
          · omega
      obtain ⟨t, ht1, ht2, ht3⟩ := ih (fun g hg => hD g (List.mem_cons_of_mem _ hg))
        (fun e he g hg => hv e he g (List.mem_cons_of_mem _ hg)) (h ++ [e]) e' he' himp' hr
      refine ⟨e :: t, rfl, ?_, ?_⟩
      · cases t with
        | nil => cases ht1
        | cons b bs =>
          cases ht1
          exact List.isChain_cons_cons.mpr ⟨hf', ht2⟩
      · have happ : h ++ [e] ++ t = h ++ e :: t := by simp
        rw [happ] at ht3
        rcases ht3 with ⟨h1, h2⟩ | ⟨h1, h2⟩
        · refine Or.inl ⟨by simp [h1], ?_⟩
          rw [List.getLast?_cons, h2]; rfl
        · exact Or.inr ⟨by simpa using h1, h2⟩

/-- C147 (partial): let `cur` be the rules that were current at the start of the generations, as in `C32_window_partial`. If every generation has a valid child (`Q` describes the
rules that can become current), the strategy either runs all `n_iter` generations and returns the last rule, or it stops early and returns the fittest rule that was ever current.
Missing: the two cases of `C147_exhausted_refuted` (all generations run) and `C147_skipped_refuted` (a generation without valid children). -/
theorem C147_best_partial (P : ESParams R Z S F) (hsel : P.SelectsMember) (hop : P.operator = .amp) (hd : 1 ≤ P.delay) (D : Z → Prop)
    (Q : R → Prop) (hQ : ∀ e c, Q e → P.IsChild D e c → Q c) (gens : List (List Z × S)) (hD : ∀ g ∈ gens, ∀ z ∈ g.1, D z)
    (hv : ∀ e, Q e → ∀ g ∈ gens, ∀ cs, g.1.mapM (P.child e) = .ok cs → ∃ c ∈ cs, P.valid c = true)
    (initial r : R) (h0 : Q initial) (h : esOptimize P gens initial = .ok r) :
    ∃ cur : List R, cur.head? = some initial ∧ cur.IsChain P.Follows ∧
      ((cur.length = gens.length + 1 ∧ cur.getLast? = some r) ∨
       (cur.length ≤ gens.length ∧ P.delay ≤ cur.length ∧ cur[cur.length - P.delay]? = some r ∧
        ∀ a ∈ cur, P.fitness a ≤ P.fitness r)) := by
  obtain ⟨t, h1, h2, h3⟩ := esLoop_best P hsel hop hd D Q hQ gens hD hv [] initial r h0
    (fun i a hi _ => by simp only [List.length_nil] at hi; omega) (by unfold esOptimize at h; simpa using h)
  exact ⟨t, h1, h2, by simpa using h3⟩

/-- The rules get fitter (1, 4, 6) and then worse (3, 2); with a delay of 3 the rule 6 is returned, although the strategy has already moved on to 2. -/
example :
    let P : ESParams ℤ ℤ Unit ℤ := ⟨.amp, 3, fun _ z => .ok z, fun c => decide (0 ≤ c), id, fun l _ => fittestFirst id l⟩
    let gens : List (List ℤ × Unit) := [([4, -9], ()), ([5, 6], ()), ([2, 3], ()), ([2], ()), ([100], ())]
    P.operator = .amp ∧ 1 ≤ P.delay ∧ P.delay < gens.length ∧ (∀ g ∈ gens, ∃ c ∈ g.1, P.valid c = true) ∧
    esOptimize P gens 1 = .ok 6 := by
  decide +kernel

end Generic

section Concrete

variable {K : Type} [Field K] [LinearOrder K] [IsStrictOrderedRing K] {d : Nat} {M : Type}

/-- C147 (partial): the default rule generation (ordered bounds, mean initialisation, increase mutation, combined constraint, fittest selection), started at a training sample inside
the feature bounds with at least one child per generation: every generation has a valid child, so the strategy runs all `n_iter` generations or returns the fittest rule that was
ever current, which is at least as fit as the initial rule. -/
theorem C147_default_partial (L : Learner K d M) (ff : RuleFitness K d) (X : List (Point K d)) (y : List K) (hxy : y.length = X.length)
    (delay : Nat) (hd : 1 ≤ delay) (m : Mutation) (hm : IsIncrease m) (sigma : K × K) (r : K) (fb sp : Pairs K d)
    (hfb : ∀ x ∈ X, InBounds fb x) (origin : Point K d) (ho : origin ∈ X)
    (gens : List (List (Pairs K d) × Unit)) (hne : ∀ g ∈ gens, g.1 ≠ []) (hz : ∀ g ∈ gens, ∀ z ∈ g.1, m.DrawOk .ordered sigma z) :
    ∃ ρ0 ρ, initialRule L ff X y .ordered r fb sp origin = .ok ρ0 ∧
      esOptimize (concreteES L ff X y .amp delay m r fb) gens ρ0 = .ok ρ ∧
      ∃ cur : List (Rule K d M), cur.head? = some ρ0 ∧ cur.IsChain (concreteES L ff X y .amp delay m r fb).Follows ∧
        ((cur.length = gens.length + 1 ∧ cur.getLast? = some ρ) ∨
         (cur.length ≤ gens.length ∧ ρ ∈ cur ∧ (∀ τ ∈ cur, ruleFitnessOf τ ≤ ruleFitnessOf ρ) ∧ ruleFitnessOf ρ0 ≤ ruleFitnessOf ρ)) := by
  obtain ⟨ρ0, ρ, e0, hρ, -, -, -, hm0, -⟩ :=
    C34_origin_kept L ff X y hxy .amp delay (fun _ => hd) m hm sigma r fb sp hfb origin ho gens hz
  refine ⟨ρ0, ρ, e0, hρ, ?_⟩
  obtain ⟨ρ', e', hs, hc⟩ := fit_consistent L ff X X y hxy rfl
    { kind := .ordered, bounds := constrain .ordered r fb (meanInit .ordered origin), inputSpace := sp } (Or.inl rfl)
  have : ρ' = ρ0 := by
    have e0' := e0
    unfold initialRule at e0'
    rw [e0'] at e'
    cases e'
    rfl
  subst this
  let Q : Rule K d M → Prop := fun τ => τ.kind = .ordered ∧ Kind.ordered.call τ.bounds origin = true
  have hQ0 : Q ρ' := ⟨hs.1, by rw [hs.2.1]; exact C10_ordered_mean_partial r fb origin (hfb origin ho)⟩
  have hstep : ∀ e c z, Q e → m.DrawOk .ordered sigma z → childRule L ff X y m r fb e z = .ok c → Q c ∧ validRule c = true := by
    rintro e c z ⟨hek, hex⟩ hz hc
    obtain ⟨⟨s, hs, _, hexp, hfit, _⟩, h2, h3⟩ := childRule_consistent L ff X y hxy m r fb e c z hc
    rw [hek] at h3
    obtain ⟨b', h4, h5⟩ := C12_step m hm sigma r fb z e.bounds hz origin (hfb origin ho) hex
    rw [h3] at h4; cases h4
    have hck : c.kind = .ordered := h2.trans hek
    refine ⟨⟨hck, h5⟩, ?_⟩
    have hmem : origin ∈ X.filter (c.kind.call c.bounds) := List.mem_filter.mpr ⟨ho, by rw [hck]; exact h5⟩
    unfold validRule
    rw [hs]
    dsimp only
    rw [hfit.mpr ⟨origin, ho, by rw [hck]; exact h5⟩, hexp]
    simp only [Bool.true_and, decide_eq_true_eq]
    exact List.length_pos_of_mem hmem
  have hsel : (concreteES L ff X y .amp delay m r fb).SelectsMember := fun l _ ρ h => (fittestFirst_mem _ l ρ h).1
  obtain ⟨cur, h1, h2, h3⟩ := C147_best_partial (concreteES L ff X y .amp delay m r fb) hsel rfl hd (m.DrawOk .ordered sigma) Q
    (fun e c he ⟨z, hz', hc', _⟩ => (hstep e c z he hz' hc').1) gens hz (by
      intro e he g hg cs hcs
      cases hg1 : g.1 with
      | nil => exact absurd hg1 (hne g hg)
      | cons z zs =>
        have hz1 := hz g hg z (by rw [hg1]; exact List.mem_cons_self ..)
        rw [hg1, List.mapM_cons] at hcs
        change (do let b ← childRule L ff X y m r fb e z; let bs ← zs.mapM (childRule L ff X y m r fb e); pure (b :: bs)) = _ at hcs
        cases hc1 : childRule L ff X y m r fb e z with
        | error er => rw [hc1] at hcs; cases hcs
        | ok c =>
          rw [hc1] at hcs
          cases hc2 : zs.mapM (childRule L ff X y m r fb e) with
          | error er => rw [hc2] at hcs; cases hcs
          | ok bs =>
            rw [hc2] at hcs
            cases hcs
            exact ⟨c, List.mem_cons_self .., (hstep e c z he hz1 hc1).2⟩) ρ' ρ hQ0 hρ
  refine ⟨cur, h1, h2, ?_⟩
  rcases h3 with h3 | ⟨h3, _, h5, h6⟩
  · exact Or.inl h3
  · exact Or.inr ⟨h3, List.mem_iff_getElem?.mpr ⟨_, h5⟩, h6, h6 ρ' (List.mem_of_head? h1)⟩

/-- Hypotheses of `C147_default_partial`, and a run that stops early: data `0,1,2,3 ↦ 0,4,2,9`, origin `0`, delay 2. The rule grows from `[0,0]` to `[0,1]` (worse), and `[0,0]`
is returned. -/
example :
    let X : List (Point ℚ 1) := [![0], ![1], ![2], ![3]]
    let gens : List (List (Pairs ℚ 1) × Unit) := [([![(0, 1)]], ()), ([![(0, 1)]], ()), ([![(0, 1)]], ())]
    (∀ x ∈ X, InBounds ![(0, 3)] x) ∧ (![0] : Point ℚ 1) ∈ X ∧ IsIncrease .halfnormIncrease ∧ (∀ g ∈ gens, g.1 ≠ []) ∧
    (∀ g ∈ gens, ∀ z ∈ g.1, Mutation.halfnormIncrease.DrawOk .ordered ((1 : ℚ), 1) z) ∧
    ((initialRule meanLearner negErr X [0, 4, 2, 9] .ordered 0 ![(0, 3)] ![(0, 3)] ![0]).bind
      (esOptimize (concreteES meanLearner negErr X [0, 4, 2, 9] .amp 2 .halfnormIncrease 0 ![(0, 3)]) gens)).map (fun ρ => ρ.bounds 0) = .ok (0, 0) := by
  refine ⟨by decide +kernel, by decide +kernel, Or.inl rfl, by decide +kernel, ?_, by decide +kernel⟩
  unfold Mutation.DrawOk
  decide +kernel

end Concrete

/-- C147 (refuted): if all generations run, the last rule is returned, however bad it is. Data `0,1,2,3,4 ↦ 0,4,2,2,100`, default increase mutation, delay 2 and 3 generations (the
code demands `delay < n_iter`), one child each: the rule grows from `[0,1]` (fitness -4) over `[0,2]` and `[0,3]` (fitness -2) to `[0,4]`, whose fitness is below -1000. -/
theorem C147_exhausted_refuted :
    let X : List (Point ℚ 1) := [![0], ![1], ![2], ![3], ![4]]
    let y : List ℚ := [0, 4, 2, 2, 100]
    let P := concreteES meanLearner negErr X y .amp 2 .halfnormIncrease 0 ![(0, 4)]
    let grow : List (Pairs ℚ 1) × Unit := ([![(0, 1)]], ())
    let view := fun ρ : Rule ℚ 1 ℚ => (ρ.bounds 0, decide (P.fitness ρ < ((-1000 : ℚ) : WithBot ℚ)))
    ((intervalRule 0 1).fit meanLearner negErr X y).map view = .ok ((0, 1), false) ∧
    (((intervalRule 0 1).fit meanLearner negErr X y).bind (esOptimize P [grow, grow])).map view = .ok ((0, 3), false) ∧
    (((intervalRule 0 1).fit meanLearner negErr X y).bind (esOptimize P [grow, grow, grow])).map view = .ok ((0, 4), true) := by
  decide +kernel

/-- C147 (refuted): a generation without valid children skips the stopping test, so the best rule can drop out of the deque. Data `0,1,2 ↦ 0,0,9`, normal mutation, delay 2 and 4
generations of one child each: the rule `[0,1]` (error 0) moves to `[0,2]` (mean squared error 18); the child of the second generation, `[5,5]`, matches nothing; in the third
generation the strategy stops and returns `[0,2]`. With a valid child in the second generation it returns `[0,1]`. -/
theorem C147_skipped_refuted :
    let X : List (Point ℚ 1) := [![0], ![1], ![2]]
    let y : List ℚ := [0, 0, 9]
    let P := concreteES meanLearner negErr X y .amp 2 .normal 0 ![(0, 5)]
    let view := fun ρ : Rule ℚ 1 ℚ => (ρ.bounds 0, decide (P.fitness ρ < ((-17 : ℚ) : WithBot ℚ)))
    let same : List (Pairs ℚ 1) × Unit := ([![(0, 0)]], ())
    ((intervalRule 0 1).fit meanLearner negErr X y).map view = .ok ((0, 1), false) ∧
    (((intervalRule 0 1).fit meanLearner negErr X y).bind
      (esOptimize P [([![(0, 1)]], ()), ([![(5, 5)]], ()), same, same])).map view = .ok ((0, 2), true) ∧
    (((intervalRule 0 1).fit meanLearner negErr X y).bind
      (esOptimize P [([![(0, 1)]], ()), same, same, same])).map view = .ok ((0, 1), false) := by
  decide +kernel

end Suprb
