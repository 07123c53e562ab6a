import Verif.Lemmas.ES
import Verif.Props.Solution

/-!
# Claims C31–C35: the evolution strategy
-/

set_option autoImplicit false
set_option linter.unusedSectionVars false

namespace Suprb

open Spec

/-! ### C31 the plus strategy -/

section Generic

variable {R Z S F : Type} [LinearOrder F]

theorem esLoop_plus_append (P : ESParams R Z S F) (hop : P.operator = .plus) (gs hs : List (List Z × S)) (e : R) (w : List R) (r : R)
    (h : esLoop P (gs ++ hs) e w = .ok r) :
    ∃ r1 w1, esLoop P gs e w = .ok r1 ∧ esLoop P hs r1 w1 = .ok r := by
  induction gs generalizing e w with
  | nil => exact ⟨e, w, rfl, h⟩
  | cons g gs ih =>
    obtain ⟨zs, s⟩ := g
    rw [List.cons_append] at h
    unfold esLoop at h
    split at h
    · cases h
    · rename_i r' hg
      have := (esGen_stop P zs s e _ w hg).1
      rw [hop] at this; cases this
    · rename_i e' w' hg
      obtain ⟨r1, w1, h1, h2⟩ := ih e' w' h
      refine ⟨r1, w1, ?_, h2⟩
      unfold esLoop
      rw [hg]
      exact h1

theorem esGen_plus_mono (P : ESParams R Z S F) (hop : P.operator = .plus)
    (hsel : ∀ l s r, P.select l s = .ok r → r ∈ l ∧ ∀ b ∈ l, P.fitness b ≤ P.fitness r)
    (zs : List Z) (s : S) (e e' : R) (w w' : List R) (h : esGen P zs s e w = .ok (.next e' w')) : P.fitness e ≤ P.fitness e' := by
  unfold esGen at h
  dsimp only at h
  rw [hop] at h
  split at h
  · cases h
  · split at h
    · cases h; exact le_refl _
    · dsimp only at h
      split at h
      · cases h
      · rename_i new hnew
        cases h
        exact (hsel _ _ _ hnew).2 e (by simp)

theorem esLoop_plus_mono (P : ESParams R Z S F) (hop : P.operator = .plus)
    (hsel : ∀ l s r, P.select l s = .ok r → r ∈ l ∧ ∀ b ∈ l, P.fitness b ≤ P.fitness r)
    (gs : List (List Z × S)) (e : R) (w : List R) (r : R) (h : esLoop P gs e w = .ok r) : P.fitness e ≤ P.fitness r := by
  induction gs generalizing e w with
  | nil => cases h; exact le_refl _
  | cons g gs ih =>
    obtain ⟨zs, s⟩ := g
    unfold esLoop at h
    split at h
    · cases h
    · rename_i r' hg
      have := (esGen_stop P zs s e _ w hg).1
      rw [hop] at this; cases this
    · rename_i e' w' hg
      exact le_trans (esGen_plus_mono P hop hsel zs s e e' w w' hg) (ih e' w' h)

/-- C31: with `+` and fittest selection the returned rule is at least as fit as the initial one. -/
theorem C31_never_worse (child : R → Z → Except PyErr R) (valid : R → Bool) (fitness : R → F) (delay : Nat)
    (gens : List (List Z × S)) (initial r : R)
    (h : esOptimize ⟨.plus, delay, child, valid, fitness, fun l _ => fittestFirst fitness l⟩ gens initial = .ok r) :
    fitness initial ≤ fitness r :=
  esLoop_plus_mono ⟨.plus, delay, child, valid, fitness, fun l _ => fittestFirst fitness l⟩ rfl
    (fun l _ r h => fittestFirst_mem fitness l r h) gens initial [] r h

/-- C31: the current best after `gens` generations (the result of the run with that many generations) is at most as fit as the current best after any number of further
generations. -/
theorem C31_monotone (child : R → Z → Except PyErr R) (valid : R → Bool) (fitness : R → F) (delay : Nat)
    (gens more : List (List Z × S)) (initial r : R)
    (h : esOptimize ⟨.plus, delay, child, valid, fitness, fun l _ => fittestFirst fitness l⟩ (gens ++ more) initial = .ok r) :
    ∃ r1, esOptimize ⟨.plus, delay, child, valid, fitness, fun l _ => fittestFirst fitness l⟩ gens initial = .ok r1 ∧
      fitness r1 ≤ fitness r := by
  obtain ⟨r1, w1, h1, h2⟩ := esLoop_plus_append _ rfl gens more initial [] r h
  exact ⟨r1, h1, esLoop_plus_mono _ rfl (fun l _ r h => fittestFirst_mem fitness l r h) more r1 w1 r h2⟩

/-- C31: and in each generation the new current rule is at least as fit as every valid child of that generation. -/
theorem C31_best_of_children (child : R → Z → Except PyErr R) (valid : R → Bool) (fitness : R → F) (delay : Nat)
    (zs : List Z) (s : S) (initial r : R)
    (h : esOptimize ⟨.plus, delay, child, valid, fitness, fun l _ => fittestFirst fitness l⟩ [(zs, s)] initial = .ok r) :
    ∀ z ∈ zs, ∀ c, child initial z = .ok c → valid c = true → fitness c ≤ fitness r := by
  intro z hz c hc hv
  unfold esOptimize esLoop esGen at h
  dsimp only at h
  cases hcs : zs.mapM (child initial) with
  | error er => rw [hcs] at h; cases h
  | ok cs =>
    rw [hcs] at h
    dsimp only at h
    have hmem : c ∈ cs := by
      clear h
      induction zs generalizing cs with
      | nil => cases hz
      | cons z' zs ih =>
        rw [List.mapM_cons] at hcs
        cases h1 : child initial z' with
        | error e => rw [h1] at hcs; cases hcs
        | ok b =>
          rw [h1] at hcs
          cases h2 : zs.mapM (child initial) with
          | error e => rw [h2] at hcs; cases hcs
          | ok bs =>
            rw [h2] at hcs; cases hcs
            rcases List.mem_cons.mp hz with rfl | hz
            · rw [hc] at h1; cases h1; exact List.mem_cons_self ..
            · exact List.mem_cons_of_mem _ (ih hz bs h2)
    have hf : c ∈ cs.filter valid := List.mem_filter.mpr ⟨hmem, hv⟩
    rw [if_neg (by intro h0; rw [List.isEmpty_iff] at h0; rw [h0] at hf; cases hf)] at h
    cases hs : fittestFirst fitness (cs.filter valid ++ [initial]) with
    | error e => rw [hs] at h; cases h
    | ok new =>
      rw [hs] at h
      cases h
      exact (fittestFirst_mem fitness _ _ hs).2 c (List.mem_append_left _ hf)

/-- A toy instance: rules are their fitness, a child is the drawn number, negative children are invalid. -/
example : esOptimize (R := ℤ) (Z := ℤ) (S := Unit) ⟨.plus, 3, fun _ z => .ok z, fun c => decide (0 ≤ c), id, fun l _ => fittestFirst id l⟩
    [([4, -9], ()), ([-1], ()), ([2, 3], ())] 1 = .ok 4 := by decide +kernel

/-! ### C32 the ampersand strategy -/

/-- One generation either keeps the current rule or replaces it by one of its valid children. -/
def ESParams.Follows (P : ESParams R Z S F) (e e' : R) : Prop := e' = e ∨ P.IsChild (fun _ => True) e e'

theorem esLoop_amp (P : ESParams R Z S F) (hsel : P.SelectsMember) (gs : List (List Z × S)) (h : List R) (e r : R)
    (hr : esLoop P gs e (h.drop (h.length - P.delay)) = .ok r) :
    ∃ t : List R, t.head? = some e ∧ t.IsChain P.Follows ∧
      ((t.length = gs.length + 1 ∧ t.getLast? = some r) ∨
       (t.length ≤ gs.length ∧ P.operator = .amp ∧ P.delay ≤ (h ++ t).length ∧ (h ++ t)[(h ++ t).length - P.delay]? = some r ∧
        ∀ a ∈ (h ++ t).drop ((h ++ t).length - P.delay), P.fitness a ≤ P.fitness r)) := by
  induction gs generalizing h e with
  | nil =>
    cases hr
    exact ⟨[r], rfl, by simp, Or.inl ⟨rfl, rfl⟩⟩
  | cons g gs ih =>
    obtain ⟨zs, s⟩ := g
    unfold esLoop at hr
    split at hr
    · cases hr
    · rename_i r' hg
      cases hr
      obtain ⟨hop, hlen, hhead, hall⟩ := esGen_stop P zs s e _ _ hg
      rw [dequeAppend_suffix] at hlen hhead hall
      refine ⟨[e], rfl, by simp, Or.inr ⟨by simp, hop, ?_, ?_, hall⟩⟩
      · rw [List.length_drop] at hlen; omega
      · rw [List.head?_drop] at hhead; exact hhead
    · rename_i e' w' hg
      obtain ⟨rfl, hf⟩ := esGen_next P hsel (fun _ => True) zs (fun _ _ => trivial) s e e' _ w' hg
      rw [dequeAppend_suffix] at hr
      obtain ⟨t, ht1, ht2, ht3⟩ := ih (h ++ [e]) e' hr
      refine ⟨e :: t, rfl, ?_, ?_⟩
      · cases t with
        | nil => cases ht1
        | cons b bs =>
          cases ht1
          exact List.isChain_cons_cons.mpr ⟨hf, ht2⟩
      · have happ : h ++ [e] ++ t = h ++ e :: t := by simp
        rw [happ] at ht3
        rcases ht3 with ⟨h1, h2⟩ | ⟨h1, h2⟩
        · refine Or.inl ⟨by simp [h1], ?_⟩
          rw [List.getLast?_cons, h2]; rfl
        · exact Or.inr ⟨by simpa using h1, h2⟩

/-- C32 (partial): let `cur` be the rules that were current at the start of the executed generations (plus the final one if no early stop happened): it starts with the
initial rule and each generation keeps the rule or moves to a valid child. Either all `n_iter` generations ran and the last current rule is returned, or
the strategy stopped after `cur.length ≤ n_iter` generations, and the returned rule is the one current `delay - 1` generations before the stopping generation, and none
of the rules current since then is fitter. Missing: the child selected in the very generation in which the strategy stops may be fitter, see `C32_refuted`. -/
theorem C32_window_partial (P : ESParams R Z S F) (hsel : P.SelectsMember)
    (gens : List (List Z × S)) (initial r : R) (h : esOptimize P gens initial = .ok r) :
    ∃ cur : List R, cur.head? = some initial ∧ cur.IsChain P.Follows ∧
      ((cur.length = gens.length + 1 ∧ cur.getLast? = some r) ∨
       (cur.length ≤ gens.length ∧ P.delay ≤ cur.length ∧ cur[cur.length - P.delay]? = some r ∧
        ∀ a ∈ cur.drop (cur.length - P.delay), P.fitness a ≤ P.fitness r)) := by
  obtain ⟨t, h1, h2, h3⟩ := esLoop_amp P hsel gens [] initial r (by unfold esOptimize at h; simpa using h)
  refine ⟨t, h1, h2, ?_⟩
  rcases h3 with h3 | ⟨h3, _, h4, h5, h6⟩
  · exact Or.inl h3
  · exact Or.inr ⟨h3, by simpa using h4, by simpa using h5, by simpa using h6⟩

/-- C32 (partial): with a delay of one the initial rule is returned unchanged. -/
theorem C32_delay_one_partial (P : ESParams R Z S F) (hop : P.operator = .amp) (hd : P.delay = 1)
    (gens : List (List Z × S)) (initial r : R) (h : esOptimize P gens initial = .ok r) : r = initial := by
  have key : ∀ (gs : List (List Z × S)) (w : List R), w.length ≤ 1 → esLoop P gs initial w = .ok r → r = initial := by
    intro gs
    induction gs with
    | nil => intro w _ h; cases h; rfl
    | cons g gs ih =>
      obtain ⟨zs, s⟩ := g
      intro w hw h
      have hdq : dequeAppend P.delay w initial = [initial] := by
        unfold dequeAppend
        rw [hd]
        match w, hw with
        | [], _ => rfl
        | [a], _ => rfl
        | _ :: _ :: _, hw => simp at hw
      unfold esLoop esGen at h
      dsimp only at h
      rw [hdq, hop] at h
      cases hc : zs.mapM (P.child initial) with
      | error e => rw [hc] at h; cases h
      | ok cs =>
        rw [hc] at h
        dsimp only at h
        by_cases hv : (cs.filter P.valid).isEmpty = true
        · rw [if_pos hv] at h
          exact ih [initial] (by simp) h
        · rw [if_neg hv] at h
          cases hs : P.select (cs.filter P.valid) s with
          | error e => rw [hs] at h; cases h
          | ok new =>
            rw [hs] at h
            simp only [List.length_singleton, hd, if_true, List.all_cons, le_refl, decide_true, List.all_nil, Bool.and_self,
              Except.ok.injEq] at h
            exact h.symm
  exact key gens [] (by simp) h

example : esOptimize (R := ℤ) (Z := ℤ) (S := Unit) ⟨.amp, 2, fun _ z => .ok z, fun c => decide (0 ≤ c), id, fun l _ => fittestFirst id l⟩
    [([4, -9], ()), ([5, 6], ()), ([2, 3], ()), ([7], ()), ([100], ())] 1 = .ok 6 := by decide +kernel

/-- The delay must be positive: with `delay = 0` the first generation with a valid child is an `IndexError`. -/
theorem C32_delay_zero_partial (P : ESParams R Z S F) (hop : P.operator = .amp) (hd : P.delay = 0)
    (zs : List Z) (s : S) (gens : List (List Z × S)) (initial new : R) (cs : List R)
    (hc : zs.mapM (P.child initial) = .ok cs) (hv : ∃ c ∈ cs, P.valid c = true) (hs : P.select (cs.filter P.valid) s = .ok new) :
    esOptimize P ((zs, s) :: gens) initial = .error .indexError := by
  unfold esOptimize esLoop esGen
  dsimp only
  rw [hc]
  dsimp only
  obtain ⟨c, hc1, hc2⟩ := hv
  have hf : c ∈ cs.filter P.valid := List.mem_filter.mpr ⟨hc1, hc2⟩
  rw [if_neg (by intro h0; rw [List.isEmpty_iff] at h0; rw [h0] at hf; cases hf), hop]
  dsimp only
  rw [hs]
  simp [dequeAppend, hd]

example : esOptimize (R := ℤ) (Z := ℤ) (S := Unit) ⟨.amp, 0, fun _ z => .ok z, fun c => decide (0 ≤ c), id, fun l _ => fittestFirst id l⟩
    [([4, -9], ())] 1 = .error .indexError := by decide +kernel

end Generic

/-- C32 (refuted): "none of the rules selected since is fitter" fails for the child selected in the stopping generation. Witness on real rules: data `0,1,2 ↦ 0,2,4`, mean
learner, fitness `-error`, delay 2, one child per generation. The rule `[0,1]` (fitness -1) moves to `[0,2]` (fitness -8/3) and then to `[1,1]` (fitness -1/10000), but
`[0,1]` is returned. -/
theorem C32_refuted :
    let X : List (Point ℚ 1) := [![0], ![1], ![2]]
    let y : List ℚ := [0, 2, 4]
    let P := concreteES meanLearner negErr X y .amp 2 .normal 0 ![(0, 2)]
    let view := fun ρ : Rule ℚ 1 ℚ => (ρ.bounds 0, P.fitness ρ, P.valid ρ)
    ∃ init : Rule ℚ 1 ℚ, (intervalRule 0 1).fit meanLearner negErr X y = .ok init ∧
      view init = ((0, 1), ((-1 : ℚ) : WithBot ℚ), true) ∧
      (P.child init ![(0, 1)]).map view = .ok ((0, 2), ((-8/3 : ℚ) : WithBot ℚ), true) ∧
      ((P.child init ![(0, 1)]).bind fun c1 => P.child c1 ![(1, -1)]).map view = .ok ((1, 1), ((-1/10000 : ℚ) : WithBot ℚ), true) ∧
      (esOptimize P [([![(0, 1)]], ())] init).map view = .ok ((0, 2), ((-8/3 : ℚ) : WithBot ℚ), true) ∧
      (esOptimize P [([![(0, 1)]], ()), ([![(1, -1)]], ())] init).map view = .ok ((0, 1), ((-1 : ℚ) : WithBot ℚ), true) ∧
      ((-1 : ℚ) : WithBot ℚ) < ((-1/10000 : ℚ) : WithBot ℚ) := by
  refine ⟨{ intervalRule 0 1 with
        model := some 1
        st := some ⟨true, ((1 : ℚ) : WithTop ℚ), ((-1 : ℚ) : WithBot ℚ), 2, [1, 1], [true, true, false]⟩ }, ?_, ?_, ?_, ?_, ?_, ?_, ?_⟩
  all_goals decide +kernel

/-! ### C33 only rules that match data -/

section Concrete

variable {K : Type} [Field K] [LinearOrder K] [IsStrictOrderedRing K] {d : Nat} {M : Type}

/-- A rule that was trained and matches at least one sample of `X`. -/
def Rule.MatchesData (ρ : Rule K d M) (X : List (Point K d)) : Prop :=
  ∃ s, ρ.st = some s ∧ s.isFitted = true ∧ 0 < s.experience ∧
    s.experience = (X.filter (ρ.kind.call ρ.bounds)).length ∧ ∃ x ∈ X, ρ.kind.call ρ.bounds x = true

theorem childRule_consistent (L : Learner K d M) (ff : RuleFitness K d) (X : List (Point K d)) (y : List K) (hxy : y.length = X.length)
    (m : Mutation) (r : K) (fb : Pairs K d) (ρ c : Rule K d M) (z : Pairs K d) (h : childRule L ff X y m r fb ρ z = .ok c) :
    ConsistentWith c X ∧ c.kind = ρ.kind ∧ childBounds m ρ.kind r fb z ρ.bounds = .ok c.bounds := by
  unfold childRule at h
  cases hb : childBounds m ρ.kind r fb z ρ.bounds with
  | error e => rw [hb] at h; cases h
  | ok b =>
    rw [hb] at h
    dsimp only at h
    obtain ⟨ρ', e, hs, hc⟩ := fit_consistent L ff X X y hxy rfl { ρ.clone with bounds := b } (Or.inl rfl)
    rw [h] at e; cases e
    exact ⟨hc, hs.1, by rw [hs.2.1]⟩

/-- C33: for every operator, delay, mutation, number of generations and children, and every selection that returns one of the given rules, the result is the initial rule or a
rule trained on at least one matched sample (descending from the initial rule by valid children). -/
theorem C33_initial_or_experienced (L : Learner K d M) (ff : RuleFitness K d) (X : List (Point K d)) (y : List K) (hxy : y.length = X.length)
    (m : Mutation) (r : K) (fb : Pairs K d) (op : ESOperator) (delay : Nat) {S F : Type} [LinearOrder F] (fitness : Rule K d M → F)
    (select : List (Rule K d M) → S → Except PyErr (Rule K d M)) (hsel : ∀ l s ρ, select l s = .ok ρ → ρ ∈ l)
    (gens : List (List (Pairs K d) × S)) (initial ρ : Rule K d M)
    (h : esOptimize ⟨op, delay, childRule L ff X y m r fb, validRule, fitness, select⟩ gens initial = .ok ρ) :
    ρ = initial ∨ ρ.MatchesData X := by
  refine esLoop_inv ⟨op, delay, childRule L ff X y m r fb, validRule, fitness, select⟩ hsel (fun _ => True)
    (fun ρ => ρ = initial ∨ ρ.MatchesData X) ?_ gens (fun _ _ _ _ => trivial) initial [] (Or.inl rfl) (by simp) ρ h
  rintro e c _ ⟨z, _, hc, hv⟩
  refine Or.inr ?_
  obtain ⟨⟨s, hs, hms, hexp, hfit, _⟩, _⟩ := childRule_consistent L ff X y hxy m r fb e c z hc
  change validRule c = true at hv
  unfold validRule at hv
  rw [hs] at hv
  simp only [Bool.and_eq_true, decide_eq_true_eq] at hv
  exact ⟨s, hs, hv.1, hv.2, hexp, hfit.mp hv.1⟩

/-- A two-generation run with the comma operator; the second child of the second generation matches no sample and is filtered. -/
example : ((esOptimize (concreteES meanLearner negErr [![0], ![1], ![2]] [0, 2, 4] .comma 2 .normal 0 ![(0, 5)])
    [([![(0, 1)]], ()), ([![(1, -1)], ![(5, 5)]], ())] (intervalRule 0 1)).map
      (fun ρ => (ρ.bounds 0, ρ.st.map RuleState.experience))) = .ok ((1, 1), some 1) := by
  decide +kernel

/-! ### C34 the default evolution strategy keeps the origin covered -/

/-- C34: ordered bounds, mean initialisation, increase mutation and the combined constraint, with fittest selection: for an origin out of the training data (which lies in the feature
bounds) the whole optimisation succeeds, and the returned rule matches the origin and every training sample that its initial rule matched; it is trained and its experience is at
least that of the initial rule. For every operator (the delay must be positive for `&`), every number of generations and children, and all draws. -/
theorem C34_origin_kept (L : Learner K d M) (ff : RuleFitness K d) (X : List (Point K d)) (y : List K) (hxy : y.length = X.length)
    (op : ESOperator) (delay : Nat) (hd : op = .amp → 1 ≤ delay) (m : Mutation) (hm : IsIncrease m) (sigma : K × K) (r : K) (fb sp : Pairs K d)
    (hfb : ∀ x ∈ X, InBounds fb x) (origin : Point K d) (ho : origin ∈ X)
    (gens : List (List (Pairs K d) × Unit)) (hz : ∀ g ∈ gens, ∀ z ∈ g.1, m.DrawOk .ordered sigma z) :
    ∃ ρ0 ρ, initialRule L ff X y .ordered r fb sp origin = .ok ρ0 ∧
      esOptimize (concreteES L ff X y op delay m r fb) gens ρ0 = .ok ρ ∧
      ρ.kind = .ordered ∧ Kind.ordered.call ρ.bounds origin = true ∧
      (∀ x ∈ X, Kind.ordered.call ρ0.bounds x = true → Kind.ordered.call ρ.bounds x = true) ∧
      ρ0.MatchesData X ∧ ρ.MatchesData X := by
  obtain ⟨ρ0, e0, hs0, hc0⟩ := fit_consistent L ff X X y hxy rfl
    { kind := .ordered, bounds := constrain .ordered r fb (meanInit .ordered origin), inputSpace := sp } (Or.inl rfl)
  have hk0 : ρ0.kind = .ordered := hs0.1
  have hb0 : ρ0.bounds = constrain .ordered r fb (meanInit .ordered origin) := hs0.2.1
  have horig0 : Kind.ordered.call ρ0.bounds origin = true := by
    rw [hb0]; exact C10_ordered_mean_partial r fb origin (hfb origin ho)
  let Q : Rule K d M → Prop := fun ρ => ρ.kind = .ordered ∧ ConsistentWith ρ X ∧
    ∀ x ∈ X, Kind.ordered.call ρ0.bounds x = true → Kind.ordered.call ρ.bounds x = true
  have hQ0 : Q ρ0 := ⟨hk0, hc0, fun _ _ h => h⟩
  have hsel : (concreteES L ff X y op delay m r fb).SelectsMember := fun l _ ρ h => (fittestFirst_mem _ l ρ h).1
  have hQ : ∀ e c, Q e → (concreteES L ff X y op delay m r fb).IsChild (m.DrawOk .ordered sigma) e c → Q c := by
    rintro e c ⟨hek, _, hex⟩ ⟨z, hz, hc, _⟩
    obtain ⟨h1, h2, h3⟩ := childRule_consistent L ff X y hxy m r fb e c z hc
    refine ⟨h2.trans hek, h1, fun x hx h0 => ?_⟩
    rw [hek] at h3
    obtain ⟨b', h4, h5⟩ := C12_step m hm sigma r fb z e.bounds hz x (hfb x hx) (hex x hx h0)
    rw [h3] at h4; cases h4
    exact h5
  have hok : ∃ ρ, esLoop (concreteES L ff X y op delay m r fb) gens ρ0 [] = .ok ρ := by
    refine esLoop_total _ hsel (m.DrawOk .ordered sigma) Q ?_ ?_ hd hQ gens hz ρ0 [] hQ0
    · rintro e z ⟨hek, _, _⟩ hz
      have : ∃ b, childBounds m e.kind r fb z e.bounds = .ok b := by
        rw [hek]
        rcases hm with rfl | rfl <;> exact ⟨_, rfl⟩
      obtain ⟨b, hb⟩ := this
      obtain ⟨ρ', e', _, _⟩ := fit_consistent L ff X X y hxy rfl { e.clone with bounds := b } (Or.inl rfl)
      refine ⟨ρ', ?_⟩
      change childRule L ff X y m r fb e z = .ok ρ'
      unfold childRule
      rw [hb]
      exact e'
    · intro l _ hl
      obtain ⟨r, h, _⟩ := fittestFirst_ok (F := WithBot K) ruleFitnessOf l hl
      exact ⟨r, h⟩
  obtain ⟨ρ, hρ⟩ := hok
  obtain ⟨hk, hc, hx⟩ : Q ρ := esLoop_inv _ hsel (m.DrawOk .ordered sigma) Q hQ gens hz ρ0 [] hQ0 (by simp) ρ hρ
  have hmd : ∀ τ : Rule K d M, τ.kind = .ordered → ConsistentWith τ X → Kind.ordered.call τ.bounds origin = true → τ.MatchesData X := by
    rintro τ hτk ⟨s, hs, _, hexp, hfit, _⟩ ho'
    have hex : ∃ x ∈ X, τ.kind.call τ.bounds x = true := ⟨origin, ho, by rw [hτk]; exact ho'⟩
    refine ⟨s, hs, hfit.mpr hex, ?_, hexp, hex⟩
    rw [hexp]
    obtain ⟨x, h1, h2⟩ := hex
    exact List.length_pos_of_mem (List.mem_filter.mpr ⟨h1, h2⟩)
  exact ⟨ρ0, ρ, e0, hρ, hk, hx origin ho horig0, hx, hmd ρ0 hk0 hc0 horig0, hmd ρ hk hc (hx origin ho horig0)⟩

/-- Hypotheses of C34: data `0, 1/2, 1` in the bounds `[0,1]`, origin `1/2`, one generation with two increase mutations. -/
example : (∀ x ∈ [(![0] : Point ℚ 1), ![1/2], ![1]], InBounds ![(0, 1)] x) ∧ (![1/2] : Point ℚ 1) ∈ [(![0] : Point ℚ 1), ![1/2], ![1]] ∧
    IsIncrease .halfnormIncrease ∧
    ∀ g ∈ [([(![(1/4, 1/2)] : Pairs ℚ 1), ![(1, 0)]], ())], ∀ z ∈ g.1, Mutation.halfnormIncrease.DrawOk .ordered ((1 : ℚ), 1) z := by
  refine ⟨by decide +kernel, by decide +kernel, Or.inl rfl, ?_⟩
  unfold Mutation.DrawOk
  decide +kernel

end Concrete

/-! ### C35 parallelism -/

section Parallel

variable {σ R Z S F : Type} [LinearOrder F]

/-- One step of a single task, as performed by the scheduler. -/
def Task.advance (T : Task σ R) (s : σ) : σ := if (T.result s).isSome then s else T.step s

theorem Task.run_getElem? (T : Task σ R) (st : List σ) (schedule : List Nat) (i : Nat) :
    (T.run st schedule)[i]? = (st[i]?).map (T.advance^[schedule.count i]) := by
  induction schedule generalizing st with
  | nil => simp [Task.run]
  | cons j js ih =>
    have : T.run st (j :: js) = T.run (T.run1 st j) js := rfl
    rw [this, ih]
    unfold Task.run1
    rw [List.getElem?_modify]
    by_cases hij : j = i
    · subst hij
      rw [List.count_cons_self, Function.iterate_succ]
      cases st[j]? <;> simp [Task.advance]
    · rw [List.count_cons_of_ne hij]
      cases st[i]? <;> simp [hij]

theorem Task.advance_done (T : Task σ R) (s : σ) (r : R) (h : T.result s = some r) (n : Nat) : T.advance^[n] s = s := by
  induction n with
  | zero => rfl
  | succ n ih =>
    rw [Function.iterate_succ_apply]
    have : T.advance s = s := by unfold Task.advance; rw [h]; rfl
    rw [this, ih]

/-- A task's result does not depend on how long one waits after it finished. -/
theorem Task.result_unique (T : Task σ R) (s : σ) (n m : Nat) (r r' : R)
    (h : T.result (T.advance^[n] s) = some r) (h' : T.result (T.advance^[m] s) = some r') : r = r' := by
  rcases Nat.le_total n m with hnm | hnm
  · obtain ⟨k, rfl⟩ := Nat.exists_eq_add_of_le hnm
    rw [Nat.add_comm, Function.iterate_add_apply, T.advance_done _ r h] at h'
    rw [h] at h'; exact Option.some.inj h'
  · obtain ⟨k, rfl⟩ := Nat.exists_eq_add_of_le hnm
    rw [Nat.add_comm, Function.iterate_add_apply, T.advance_done _ r' h'] at h
    rw [h'] at h; exact (Option.some.inj h).symm

theorem mapM_option_getElem? {α β : Type} (f : α → Option β) (l : List α) (l' : List β) (h : l.mapM f = some l') :
    l'.length = l.length ∧ ∀ (i : Nat) a, l[i]? = some a → f a = l'[i]? := by
  induction l generalizing l' with
  | nil => cases h; simp
  | cons a as ih =>
    rw [List.mapM_cons] at h
    cases h1 : f a with
    | none => rw [h1] at h; cases h
    | some b =>
      rw [h1] at h
      cases h2 : as.mapM f with
      | none => rw [h2] at h; cases h
      | some bs =>
        rw [h2] at h; cases h
        obtain ⟨h3, h4⟩ := ih bs h2
        refine ⟨by simp [h3], fun i a' hi => ?_⟩
        cases i with
        | zero => cases hi; exact h1
        | succ i => exact h4 i a' hi

theorem mapM_option_of_all {α β : Type} (f : α → Option β) (g : α → β) (l : List α) (h : ∀ a ∈ l, f a = some (g a)) :
    l.mapM f = some (l.map g) := by
  induction l with
  | nil => rfl
  | cons a as ih =>
    rw [List.mapM_cons, h a (List.mem_cons_self ..), ih fun b hb => h b (List.mem_cons_of_mem _ hb)]
    rfl

/-- C35: whatever the tasks are, any two schedules that let all tasks finish yield the same list of results. -/
theorem C35_schedule_irrelevant (T : Task σ R) (st : List σ) (s1 s2 : List Nat) (r1 r2 : List R)
    (h1 : T.collect (T.run st s1) = some r1) (h2 : T.collect (T.run st s2) = some r2) : r1 = r2 := by
  obtain ⟨l1, g1⟩ := mapM_option_getElem? _ _ _ h1
  obtain ⟨l2, g2⟩ := mapM_option_getElem? _ _ _ h2
  refine List.ext_getElem? fun i => ?_
  have e1 := T.run_getElem? st s1 i
  have e2 := T.run_getElem? st s2 i
  cases hi : st[i]? with
  | none =>
    rw [hi] at e1 e2
    simp only [Option.map_none, List.getElem?_eq_none_iff] at e1 e2
    rw [List.getElem?_eq_none (by omega), List.getElem?_eq_none (by omega)]
  | some s =>
    rw [hi] at e1 e2
    have a1 := g1 i _ e1
    have a2 := g2 i _ e2
    have hl1 : i < r1.length := by
      rw [l1]; exact (List.getElem?_eq_some_iff.mp e1).1
    have hl2 : i < r2.length := by
      rw [l2]; exact (List.getElem?_eq_some_iff.mp e2).1
    rw [List.getElem?_eq_getElem hl1] at a1 ⊢
    rw [List.getElem?_eq_getElem hl2] at a2 ⊢
    exact congrArg some (T.result_unique s _ _ _ _ a1 a2)

/-- An evolution strategy task, run long enough, delivers what the plain sequential loop computes. -/
theorem esTask_result (P : ESParams R Z S F) (gens : List (List Z × S)) (e : R) (w : List R) :
    ∃ n, (esTask P).result ((esTask P).advance^[n] (.running gens e w)) = some (esLoop P gens e w) := by
  induction gens generalizing e w with
  | nil => exact ⟨1, rfl⟩
  | cons g gs ih =>
    obtain ⟨zs, s⟩ := g
    cases hg : esGen P zs s e w with
    | error er =>
      refine ⟨1, ?_⟩
      simp [Task.advance, esTask, esLoop, hg]
    | ok out =>
      cases out with
      | stop r =>
        refine ⟨1, ?_⟩
        simp [Task.advance, esTask, esLoop, hg]
      | next e' w' =>
        obtain ⟨n, hn⟩ := ih e' w'
        refine ⟨n + 1, ?_⟩
        rw [Function.iterate_succ_apply]
        have : (esTask P).advance (.running ((zs, s) :: gs) e w) = .running gs e' w' := by
          simp [Task.advance, esTask, hg]
        have hl : esLoop P ((zs, s) :: gs) e w = esLoop P gs e' w' := by
          conv_lhs => unfold esLoop
          rw [hg]
        rw [this, hn, hl]

/-- C35: for every interleaving of the per-rule evolution strategies that lets all of them finish, the discovered rules (or the exception) are those of the sequential execution:
the rule of the `i`-th origin is computed from the `i`-th initial rule and the `i`-th random stream, and the rules are filtered in that order. -/
theorem C35_parallel_eq_sequential (P : ESParams R Z S F) (accept : R → Except PyErr Bool) (initial : List R)
    (streams : List (List (List Z × S))) (schedule : List Nat) (out : Except PyErr (List R))
    (h : parallelES P accept initial streams schedule = some out) :
    discoverRules (fun r => .ok r) (fun r g => (esOptimize P g r).map some) accept initial streams = out := by
  unfold parallelES at h
  cases hc : (esTask P).collect ((esTask P).run ((initial.zip streams).map fun p => ESState.running p.2 p.1 []) schedule) with
  | none => rw [hc] at h; cases h
  | some rs =>
    rw [hc] at h
    have hrs : rs = (initial.zip streams).map fun p => esOptimize P p.2 p.1 := by
      obtain ⟨l1, g1⟩ := mapM_option_getElem? _ _ _ hc
      have hrun := fun i => (esTask P).run_getElem? ((initial.zip streams).map fun p => ESState.running p.2 p.1 []) schedule i
      refine List.ext_getElem? fun i => ?_
      have e1 := hrun i
      rw [List.getElem?_map] at e1 ⊢
      cases hi : (initial.zip streams)[i]? with
      | none =>
        rw [hi] at e1
        simp only [Option.map_none, List.getElem?_eq_none_iff] at e1
        rw [List.getElem?_eq_none (by omega)]; rfl
      | some p =>
        rw [hi] at e1
        have a1 := g1 i _ e1
        have hl : i < rs.length := by rw [l1]; exact (List.getElem?_eq_some_iff.mp e1).1
        rw [List.getElem?_eq_getElem hl] at a1 ⊢
        obtain ⟨n, hn⟩ := esTask_result P p.2 p.1 []
        exact congrArg some ((esTask P).result_unique _ _ _ _ _ a1 hn)
    simp only [Option.map_some, Option.some.injEq] at h
    subst hrs
    rw [← h]
    unfold discoverRules
    rw [mapM_ok (fun r => Except.ok r) id _ fun a _ => rfl]
    simp only [List.map_id]
    have hmap : ∀ l : List (R × List (List Z × S)),
        (l.mapM fun p => (esOptimize P p.2 p.1).map some) = ((l.map fun p => esOptimize P p.2 p.1).mapM id).map (List.map some) := by
      intro l
      induction l with
      | nil => rfl
      | cons p ps ih =>
        rw [List.mapM_cons, List.map_cons, List.mapM_cons, ih]
        cases h1 : esOptimize P p.2 p.1 with
        | error e => simp [Except.map, bind, Except.bind]
        | ok r =>
          simp only [Except.map, bind, Except.bind, id]
          cases h2 : (ps.map fun p => esOptimize P p.2 p.1).mapM id with
          | error e => rfl
          | ok rs => rfl
    rw [hmap]
    cases ((initial.zip streams).map fun p => esOptimize P p.2 p.1).mapM id with
    | error e => rfl
    | ok l => rfl

/-- C35: finishing schedules exist (the sequential one); so parallel execution is never the empty promise. -/
theorem C35_schedule_exists (P : ESParams R Z S F) (accept : R → Except PyErr Bool) (initial : List R)
    (streams : List (List (List Z × S))) :
    ∃ schedule out, parallelES P accept initial streams schedule = some out := by
  classical
  let l := initial.zip streams
  let st : List (ESState R Z S) := l.map fun p => ESState.running p.2 p.1 []
  have hn : ∀ p : R × List (List Z × S), ∃ n, (esTask P).result ((esTask P).advance^[n] (.running p.2 p.1 [])) = some (esLoop P p.2 p.1 []) :=
    fun p => esTask_result P p.2 p.1 []
  choose N hN using hn
  -- every task gets the maximal number of steps, one task after the other
  let B := (l.map N).sum
  let sched : List Nat := (List.range l.length).flatMap fun i => List.replicate B i
  have hcount : ∀ i, i < l.length → sched.count i = B := by
    intro i hi
    simp only [sched]
    have : ∀ n, i < n → ((List.range n).flatMap fun j => List.replicate B j).count i = B := by
      intro n
      induction n with
      | zero => intro h; omega
      | succ n ih =>
        intro h
        rw [List.range_succ, List.flatMap_append, List.count_append]
        simp only [List.flatMap_cons, List.flatMap_nil, List.append_nil, List.count_replicate]
        by_cases hin : i < n
        · rw [ih hin, if_neg (by simp; omega)]; rfl
        · have hnot : ((List.range n).flatMap fun j => List.replicate B j).count i = 0 := by
            rw [List.count_eq_zero]
            simp only [List.mem_flatMap, List.mem_range, List.mem_replicate, not_exists, not_and]
            intro j hj _ hij; omega
          have : n = i := by omega
          subst this
          rw [hnot]; simp
    exact this _ hi
  have hall : ∀ s ∈ (esTask P).run st sched, ((esTask P).result s).isSome := by
    intro s hs
    obtain ⟨i, hi⟩ := List.getElem?_of_mem hs
    rw [(esTask P).run_getElem? st sched i] at hi
    simp only [st, List.getElem?_map] at hi
    cases hp : l[i]? with
    | none => rw [hp] at hi; cases hi
    | some p =>
      rw [hp] at hi
      simp only [Option.map_some, Option.some.injEq] at hi
      have hil := (List.getElem?_eq_some_iff.mp hp).1
      rw [hcount i hil] at hi
      have hle : N p ≤ B := by
        apply List.single_le_sum (by simp) 
        exact List.mem_map.mpr ⟨p, List.mem_of_getElem? hp, rfl⟩
      obtain ⟨k, hk⟩ := Nat.exists_eq_add_of_le hle
      rw [hk, Nat.add_comm, Function.iterate_add_apply, (esTask P).advance_done _ _ (hN p)] at hi
      rw [← hi, hN p]; rfl
  have hcol : ∃ rs, (esTask P).collect ((esTask P).run st sched) = some rs := by
    unfold Task.collect
    have : ∀ l : List (ESState R Z S), (∀ s ∈ l, ((esTask P).result s).isSome) → ∃ rs, l.mapM (esTask P).result = some rs := by
      intro l
      induction l with
      | nil => intro _; exact ⟨[], rfl⟩
      | cons a as ih =>
        intro h
        obtain ⟨r, hr⟩ := Option.isSome_iff_exists.mp (h a (List.mem_cons_self ..))
        obtain ⟨rs, hrs⟩ := ih fun s hs => h s (List.mem_cons_of_mem _ hs)
        exact ⟨r :: rs, by rw [List.mapM_cons, hr, hrs]; rfl⟩
    exact this _ hall
  obtain ⟨rs, hrs⟩ := hcol
  refine ⟨sched, (match rs.mapM id with
    | .error e => .error e
    | .ok l => filterInvalid accept (l.map some)), ?_⟩
  unfold parallelES
  rw [show (esTask P).collect ((esTask P).run ((initial.zip streams).map fun p => ESState.running p.2 p.1 []) sched) = some rs from hrs]
  rfl

/-- Two different finishing interleavings of two tasks, and one that is not finished. -/
example :
    let P : ESParams ℤ ℤ Unit ℤ := ⟨.comma, 3, fun e z => .ok (e + z), fun c => decide (0 ≤ c), id, fun l _ => fittestFirst id l⟩
    let streams := [[([1, 2], ()), ([3], ())], [([5], ()), ([-1], ())]]
    parallelES P (fun r => .ok (decide (r < 20))) [1, 10] streams [0, 1, 1, 0, 1, 0] = some (.ok [6, 14]) ∧
    parallelES P (fun r => .ok (decide (r < 20))) [1, 10] streams [1, 1, 1, 1, 0, 0, 0] = some (.ok [6, 14]) ∧
    parallelES P (fun r => .ok (decide (r < 20))) [1, 10] streams [0, 0, 0, 0] = none := by
  decide +kernel

end Parallel

end Suprb
