import Verif.Lemmas.Rule
import Verif.Props.Operators
import Mathlib.Algebra.Order.Field.Power

/-!
# Claims C14–C16 (and the consequence of C10): fitting a rule
-/

set_option autoImplicit false
set_option linter.unusedSectionVars false

namespace Suprb

open Spec

variable {K : Type} [Field K] [LinearOrder K] [IsStrictOrderedRing K] {d : Nat} {M : Type}

/-- The training pairs whose sample is matched by the rule. -/
def matchedData (ρ : Rule K d M) (X : List (Point K d)) (y : List K) : List (Point K d × K) :=
  (X.zip y).filter fun q => ρ.kind.call ρ.bounds q.1

/-- Mean squared error of a function on labelled samples. -/
def meanSqErr (f : Point K d → K) (D : List (Point K d × K)) : K :=
  (D.map fun q => (q.2 - f q.1) ^ 2).sum / (D.length : K)

theorem refit_eq (L : Learner K d M) (ff : RuleFitness K d) (X : List (Point K d)) (y : List K)
    (hxy : y.length = X.length) (ρ : Rule K d M) :
    ρ.refit L ff X y (ρ.matchRows X) =
      .ok { ρ with
        model := some (L.fit ((matchedData ρ X y).map Prod.fst) ((matchedData ρ X y).map Prod.snd))
        st := some
          { isFitted := true
            error := ((max (meanSqErr (L.predict (L.fit ((matchedData ρ X y).map Prod.fst) ((matchedData ρ X y).map Prod.snd)))
              (matchedData ρ X y)) (1 / 10000) : K) : WithTop K)
            fitness := ((ff (max (meanSqErr (L.predict (L.fit ((matchedData ρ X y).map Prod.fst) ((matchedData ρ X y).map Prod.snd)))
              (matchedData ρ X y)) (1 / 10000)) ρ.kind ρ.bounds ρ.inputSpace : K) : WithBot K)
            experience := (matchedData ρ X y).length
            pred := (matchedData ρ X y).map fun q =>
              L.predict (L.fit ((matchedData ρ X y).map Prod.fst) ((matchedData ρ X y).map Prod.snd)) q.1
            matchSet := ρ.matchRows X } } := by
  have h1 : compress X (ρ.matchRows X) = (matchedData ρ X y).map Prod.fst := by
    unfold Rule.matchRows matchedData
    rw [compress_map_self, filter_zip_fst _ _ _ hxy]
  have h2 : compress y (ρ.matchRows X) = (matchedData ρ X y).map Prod.snd := by
    unfold Rule.matchRows matchedData
    rw [compress_zip _ _ _ hxy]
  unfold Rule.refit
  rw [if_neg (not_not.mpr hxy), h1, h2]
  simp only [mse, meanSqErr, errorFloor, List.map_map, List.length_map, List.zipWith_map, List.zipWith_self,
    Function.comp_def]

/-! ### C14 -/

/-- C14: a rule without a matching sample is unfitted with error `+inf`, fitness `-inf` and experience 0. -/
theorem C14_unmatched (L : Learner K d M) (ff : RuleFitness K d) (X : List (Point K d)) (y : List K)
    (ρ : Rule K d M) (h : ∀ x ∈ X, ρ.kind.call ρ.bounds x = false) :
    ∃ ρ' s, ρ.fit L ff X y = .ok ρ' ∧ ρ'.st = some s ∧ s.isFitted = false ∧ s.error = ⊤ ∧ s.fitness = ⊥ ∧
      s.experience = 0 ∧ s.pred = [] ∧ s.matchSet = X.map (ρ.kind.call ρ.bounds) := by
  have : (ρ.matchRows X).any id = false := by
    simpa [Rule.matchRows, List.any_eq_false] using h
  rw [Rule.fit_unmatched L ff X y ρ this]
  exact ⟨_, _, rfl, rfl, rfl, rfl, rfl, rfl, rfl, rfl⟩

/-- C14: a fresh rule with at least one matching sample is trained on exactly the matched samples, its experience is their number, it
stores one prediction per matched sample, and its error is the mean squared error on them, floored at `1e-4`. Its bounds are unchanged. -/
theorem C14_matched (L : Learner K d M) (ff : RuleFitness K d) (X : List (Point K d)) (y : List K)
    (hxy : y.length = X.length) (ρ : Rule K d M) (hfresh : ρ.st = none)
    (x : Point K d) (hx : x ∈ X) (hm : ρ.kind.call ρ.bounds x = true) :
    ∃ ρ' s m, ρ.fit L ff X y = .ok ρ' ∧ ρ'.st = some s ∧ ρ'.model = some m ∧
      ρ'.bounds = ρ.bounds ∧ ρ'.kind = ρ.kind ∧
      s.isFitted = true ∧
      s.matchSet = X.map (ρ.kind.call ρ.bounds) ∧
      m = L.fit ((matchedData ρ X y).map Prod.fst) ((matchedData ρ X y).map Prod.snd) ∧
      s.experience = (matchedData ρ X y).length ∧ 0 < s.experience ∧
      s.pred = (matchedData ρ X y).map (fun q => L.predict m q.1) ∧
      s.error = ((max (meanSqErr (L.predict m) (matchedData ρ X y)) (1 / 10000) : K) : WithTop K) ∧
      s.fitness = ((ff (max (meanSqErr (L.predict m) (matchedData ρ X y)) (1 / 10000)) ρ.kind ρ.bounds ρ.inputSpace : K) : WithBot K) := by
  have hany : (ρ.matchRows X).any id ≠ false := by
    have : (ρ.matchRows X).any id = true := by
      simp only [Rule.matchRows, List.any_map, List.any_eq_true]
      exact ⟨x, hx, hm⟩
    rw [this]; simp
  have hpos : 0 < (matchedData ρ X y).length := by
    have hlen : (matchedData ρ X y).length = (X.filter (ρ.kind.call ρ.bounds)).length := by
      rw [filter_zip_fst _ _ _ hxy, List.length_map]; rfl
    rw [hlen]
    exact List.length_pos_of_mem (List.mem_filter.mpr ⟨hx, hm⟩)
  rw [Rule.fit_fresh L ff X y ρ hany hfresh, refit_eq L ff X y hxy ρ]
  exact ⟨_, _, _, rfl, rfl, rfl, rfl, rfl, rfl, rfl, rfl, rfl, hpos, rfl, rfl, rfl⟩

/-- A learner that predicts the mean target. -/
def meanLearner : Learner ℚ 1 ℚ := ⟨fun _ y => y.sum / (y.length : ℚ), fun c _ => c⟩

/-- The interval rule `[a, b]`, not fitted yet. -/
def intervalRule (a b : ℚ) : Rule ℚ 1 ℚ := { kind := .ordered, bounds := ![(a, b)], inputSpace := ![(-1, 1)] }

/-- Fitness of the examples: smaller error is better. -/
def negErr : RuleFitness ℚ 1 := fun e _ _ _ => -e

example : (intervalRule 0 1).st = none ∧ Kind.ordered.call (intervalRule 0 1).bounds ![1/2] = true ∧
    (![1/2] : Point ℚ 1) ∈ [![1/2], ![1], ![2]] := by decide +kernel

example : (matchedData (intervalRule 0 1) [![1/2], ![1], ![2]] [1, 3, 7]).map Prod.snd = [1, 3] := by decide +kernel

example : ∀ x ∈ [(![2] : Point ℚ 1), ![3]], (intervalRule 0 1).kind.call (intervalRule 0 1).bounds x = false := by decide +kernel

/-- C10, consequence: fitting the initial ordered rule of an origin on data containing the origin gives experience at least one. -/
theorem C10_experience_partial (L : Learner K d M) (ff : RuleFitness K d) (X : List (Point K d)) (y : List K)
    (hxy : y.length = X.length) (r : K) (fb sp : Pairs K d) (m : Point K d) (hm : InBounds fb m) (hX : m ∈ X) :
    ∃ ρ' s, Rule.fit L ff X y { kind := .ordered, bounds := constrain .ordered r fb (meanInit .ordered m), inputSpace := sp } = .ok ρ' ∧
      ρ'.st = some s ∧ s.isFitted = true ∧ 1 ≤ s.experience := by
  obtain ⟨ρ', s, _, h1, h2, _, _, _, h3, _, _, _, h4, _⟩ := C14_matched L ff X y hxy
    { kind := .ordered, bounds := constrain .ordered r fb (meanInit .ordered m), inputSpace := sp } rfl m hX
    (C10_ordered_mean_partial r fb m hm)
  exact ⟨ρ', s, h1, h2, h3, h4⟩

/-! ### C15 histories of fits -/

/-- What is true after every history: see `C15_history`. `n` is the number of samples of the last data set `X`. -/
structure ConsistentWith (ρ : Rule K d M) (X : List (Point K d)) : Prop where
  state : ∃ s, ρ.st = some s ∧ s.matchSet = X.map (ρ.kind.call ρ.bounds) ∧
    s.experience = (X.filter (ρ.kind.call ρ.bounds)).length ∧
    (s.isFitted = true ↔ ∃ x ∈ X, ρ.kind.call ρ.bounds x = true) ∧
    s.pred.length = s.experience ∧
    (s.isFitted = true → ρ.model.isSome ∧ ∃ e : K, s.error = (e : WithTop K) ∧ 1 / 10000 ≤ e ∧ ∃ f : K, s.fitness = (f : WithBot K)) ∧
    (s.isFitted = false → s.error = ⊤ ∧ s.fitness = ⊥)

theorem refit_consistent (L : Learner K d M) (ff : RuleFitness K d) (X : List (Point K d)) (y : List K)
    (hxy : y.length = X.length) (ρ : Rule K d M) (hany : (ρ.matchRows X).any id = true) :
    ∃ ρ', ρ.refit L ff X y (ρ.matchRows X) = .ok ρ' ∧ ρ.SameShape ρ' ∧ ConsistentWith ρ' X := by
  rw [refit_eq L ff X y hxy ρ]
  have hlen : (matchedData ρ X y).length = (X.filter (ρ.kind.call ρ.bounds)).length := by
    rw [filter_zip_fst _ _ _ hxy, List.length_map]; rfl
  have hex : ∃ x ∈ X, ρ.kind.call ρ.bounds x = true := by
    simpa [Rule.matchRows, List.any_eq_true] using hany
  refine ⟨_, rfl, ⟨rfl, rfl, rfl⟩, ⟨_, rfl, rfl, hlen, ?_, ?_, ?_, ?_⟩⟩
  · exact ⟨fun _ => hex, fun _ => rfl⟩
  · simp
  · intro _
    exact ⟨rfl, _, rfl, le_max_right _ _, _, rfl⟩
  · intro h; exact absurd h (by simp)

/-- One fit after an arbitrary earlier state that is consistent with some data set of the same size (or after none). -/
theorem fit_consistent (L : Learner K d M) (ff : RuleFitness K d) (X X0 : List (Point K d)) (y : List K)
    (hxy : y.length = X.length) (hn : X0.length = X.length) (ρ : Rule K d M)
    (h0 : ρ.st = none ∨ ConsistentWith ρ X0) :
    ∃ ρ', ρ.fit L ff X y = .ok ρ' ∧ ρ.SameShape ρ' ∧ ConsistentWith ρ' X := by
  by_cases hany : (ρ.matchRows X).any id = false
  · rw [Rule.fit_unmatched L ff X y ρ hany]
    have hall : ∀ x ∈ X, ρ.kind.call ρ.bounds x = false := by
      simpa [Rule.matchRows, List.any_eq_false] using hany
    have hnil : X.filter (ρ.kind.call ρ.bounds) = [] := by
      rw [List.filter_eq_nil_iff]; intro x hx; rw [hall x hx]; simp
    refine ⟨_, rfl, ⟨rfl, rfl, rfl⟩, ⟨_, rfl, rfl, ?_, ?_, ?_, ?_, ?_⟩⟩
    · simp [hnil]
    · constructor
      · intro h; exact absurd h (by simp)
      · rintro ⟨x, hx, hx1⟩
        have := hall x hx
        simp only at hx1
        rw [this] at hx1; exact absurd hx1 (by simp)
    · rfl
    · intro h; exact absurd h (by simp)
    · intro _; exact ⟨rfl, rfl⟩
  · have hany' : (ρ.matchRows X).any id = true := by simpa using hany
    rcases hst : ρ.st with _ | s
    · rw [Rule.fit_fresh L ff X y ρ hany hst]
      exact refit_consistent L ff X y hxy ρ hany'
    · rcases h0 with h0 | ⟨s', hs', hms, hexp, hfit, hpl, hok, hbad⟩
      · rw [hst] at h0; cases h0
      · rw [hst] at hs'; cases hs'
        have hl : s.matchSet.length = (ρ.matchRows X).length := by
          rw [hms, Rule.length_matchRows, List.length_map, hn]
        rw [Rule.fit_again L ff X y ρ hany s hst, npEqAll_same hl]
        by_cases heq : s.matchSet = ρ.matchRows X
        · rw [show (s.matchSet == ρ.matchRows X) = true by simpa using heq]
          simp only
          have hex : ∃ x ∈ X, ρ.kind.call ρ.bounds x = true := by
            simpa [Rule.matchRows, List.any_eq_true] using hany'
          have hX0 : X0.map (ρ.kind.call ρ.bounds) = X.map (ρ.kind.call ρ.bounds) := by
            rw [← hms, heq]; rfl
          have hex0 : ∃ x ∈ X0, ρ.kind.call ρ.bounds x = true := by
            have : (X0.map (ρ.kind.call ρ.bounds)).any id = true := by
              rw [hX0]; exact hany'
            simpa [List.any_eq_true] using this
          have hcount : (X0.filter (ρ.kind.call ρ.bounds)).length = (X.filter (ρ.kind.call ρ.bounds)).length := by
            have hc : ∀ Y : List (Point K d), (Y.filter (ρ.kind.call ρ.bounds)).length = (Y.map (ρ.kind.call ρ.bounds)).count true := by
              intro Y
              rw [← List.countP_eq_length_filter, List.count, List.countP_map]
              congr 1; funext x; simp
            rw [hc, hc, hX0]
          have hf : s.isFitted = true := hfit.mpr hex0
          refine ⟨_, rfl, ⟨rfl, rfl, rfl⟩, ⟨_, rfl, ?_, ?_, ?_, ?_, ?_, ?_⟩⟩
          · simp only; rw [hms]; exact hX0
          · simp only; rw [hexp]; exact hcount
          · exact ⟨fun _ => hex, fun _ => rfl⟩
          · exact hpl
          · intro _; exact hok hf
          · intro h; exact absurd h (by simp)
        · rw [show (s.matchSet == ρ.matchRows X) = false by simpa using heq]
          exact refit_consistent L ff X y hxy ρ hany'

/-- C15: after any non-empty history of fits, on data sets with the same number of samples, of a fresh rule: no call fails, the match set is the one of
the last data set, the experience is the number of samples it matches, the rule is fitted exactly if that number is positive,
a fitted rule's error is finite and at least `1e-4`, and an unfitted one has error `+inf`. -/
theorem C15_history (L : Learner K d M) (ff : RuleFitness K d) (n : Nat)
    (hist : List (List (Point K d) × List K)) (hn : ∀ D ∈ hist, D.1.length = n ∧ D.2.length = n)
    (last : List (Point K d) × List K) (hl : last.1.length = n ∧ last.2.length = n)
    (ρ : Rule K d M) (hfresh : ρ.st = none) :
    ∃ ρ', ρ.fits L ff (hist ++ [last]) = .ok ρ' ∧ ρ.SameShape ρ' ∧ ConsistentWith ρ' last.1 := by
  have key : ∀ (h : List (List (Point K d) × List K)) (ρ : Rule K d M) (X0 : List (Point K d)), X0.length = n →
      (∀ D ∈ h, D.1.length = n ∧ D.2.length = n) → (ρ.st = none ∨ ConsistentWith ρ X0) →
      ∃ ρ', ρ.fits L ff (h ++ [last]) = .ok ρ' ∧ ρ.SameShape ρ' ∧ ConsistentWith ρ' last.1 := by
    intro h
    induction h with
    | nil =>
      intro ρ X0 hX0 _ h0
      obtain ⟨ρ', e, hs, hc⟩ := fit_consistent L ff last.1 X0 last.2 (by rw [hl.1, hl.2]) (by rw [hX0, hl.1]) ρ h0
      refine ⟨ρ', ?_, hs, hc⟩
      simp only [Rule.fits, List.nil_append, List.foldlM_cons, List.foldlM_nil, e]
      rfl
    | cons D Ds ih =>
      intro ρ X0 hX0 hD h0
      have hD0 := hD D (List.mem_cons_self ..)
      obtain ⟨ρ1, e1, hs1, hc1⟩ := fit_consistent L ff D.1 X0 D.2 (by rw [hD0.1, hD0.2]) (by rw [hX0, hD0.1]) ρ h0
      obtain ⟨ρ', e', hs', hc'⟩ := ih ρ1 D.1 hD0.1 (fun D' h' => hD D' (List.mem_cons_of_mem _ h')) (Or.inr hc1)
      refine ⟨ρ', ?_, ⟨hs'.1.trans hs1.1, hs'.2.1.trans hs1.2.1, hs'.2.2.trans hs1.2.2⟩, hc'⟩
      simp only [Rule.fits, List.cons_append, List.foldlM_cons, e1]
      exact e'
  exact key hist ρ (List.replicate n fun _ => 0) (by simp) hn (Or.inl hfresh)

/-- C15: refitting on the data the rule was fitted on last changes nothing. -/
theorem C15_refit_same (L : Learner K d M) (ff : RuleFitness K d) (X : List (Point K d)) (y : List K)
    (hxy : y.length = X.length) (n : Nat) (hX : X.length = n)
    (hist : List (List (Point K d) × List K)) (hn : ∀ D ∈ hist, D.1.length = n ∧ D.2.length = n)
    (ρ ρ' : Rule K d M) (hfresh : ρ.st = none) (e : ρ.fits L ff (hist ++ [(X, y)]) = .ok ρ') :
    ρ'.fit L ff X y = .ok ρ' := by
  obtain ⟨ρ1, e1, hs, ⟨s, hs1, hms, hexp, hfit, hpl, hok, hbad⟩⟩ :=
    C15_history L ff n hist hn (X, y) ⟨hX, by rw [hxy]; exact hX⟩ ρ hfresh
  rw [e] at e1; cases e1
  simp only at hms hexp hfit
  have hms' : s.matchSet = ρ'.matchRows X := hms
  by_cases hany : (ρ'.matchRows X).any id = false
  · rw [Rule.fit_unmatched L ff X y ρ' hany]
    have hall : ∀ x ∈ X, ρ'.kind.call ρ'.bounds x = false := by
      simpa [Rule.matchRows, List.any_eq_false] using hany
    have hnil : X.filter (ρ'.kind.call ρ'.bounds) = [] := by
      rw [List.filter_eq_nil_iff]; intro x hx; rw [hall x hx]; simp
    have hnf : s.isFitted = false := by
      by_contra hc
      obtain ⟨x, hx, hx1⟩ := hfit.mp (by simpa using hc)
      rw [hall x hx] at hx1; exact absurd hx1 (by simp)
    have h0 : s.experience = 0 := by rw [hexp, hnil]; rfl
    have hp : s.pred = [] := List.length_eq_zero_iff.mp (hpl.trans h0)
    obtain ⟨he, hf⟩ := hbad hnf
    have : s = { isFitted := false, error := ⊤, fitness := ⊥, experience := 0, pred := [], matchSet := ρ'.matchRows X } := by
      cases s; simp_all
    rw [← this, ← hs1]
  · have hany' : (ρ'.matchRows X).any id = true := by simpa using hany
    rw [Rule.fit_again L ff X y ρ' hany s hs1, npEqAll_same (by rw [hms']), hms']
    simp only [beq_self_eq_true]
    have hf : s.isFitted = true := hfit.mpr (by simpa [Rule.matchRows, List.any_eq_true] using hany')
    have : ({ s with isFitted := true } : RuleState K) = s := by cases s; simp_all
    simp only [← hms']
    rw [this, ← hs1]

example : ∀ D ∈ [([(![0] : Point ℚ 1), ![2]], [(1 : ℚ), 5]), ([![3], ![4]], [0, 0])], D.1.length = 2 ∧ D.2.length = 2 := by
  decide +kernel

/-! ### C16 a refitted rule describes the data it was last fitted on -/

/-- The claim: after a fit, model and error are those of training on the matched part of the data. -/
def DescribesData (L : Learner K d M) (ρ : Rule K d M) (X : List (Point K d)) (y : List K) : Prop :=
  ∃ s m, ρ.st = some s ∧ ρ.model = some m ∧
    m = L.fit ((matchedData ρ X y).map Prod.fst) ((matchedData ρ X y).map Prod.snd) ∧
    s.error = ((max (meanSqErr (L.predict m) (matchedData ρ X y)) (1 / 10000) : K) : WithTop K)

/-- C16 (refuted): the cache only compares match sets, so new targets are ignored. Witness: mean learner, rule `[0,1]`, one sample `0`,
first with target `0`, then with target `5`; the rule still predicts `0` and reports the error floor. -/
theorem C16_refuted :
    ∃ (ρ : Rule ℚ 1 ℚ), (intervalRule 0 1).fits meanLearner negErr [([![0]], [0]), ([![0]], [5])] = .ok ρ ∧
      ¬ DescribesData meanLearner ρ [![0]] [5] ∧
      ρ.predict meanLearner [![0]] = .ok [0] ∧
      (∃ s, ρ.st = some s ∧ s.isFitted = true ∧ s.error = ((1 / 10000 : ℚ) : WithTop ℚ)) := by
  have h1 : (intervalRule 0 1).fit meanLearner negErr [![0]] [0] =
      .ok { intervalRule 0 1 with
        model := some 0
        st := some ⟨true, ((1 / 10000 : ℚ) : WithTop ℚ), ((-(1 / 10000) : ℚ) : WithBot ℚ), 1, [0], [true]⟩ } := by
    decide +kernel
  have h2 : Rule.fit meanLearner negErr [![0]] [5] { intervalRule 0 1 with
        model := some 0
        st := some ⟨true, ((1 / 10000 : ℚ) : WithTop ℚ), ((-(1 / 10000) : ℚ) : WithBot ℚ), 1, [0], [true]⟩ } =
      .ok { intervalRule 0 1 with
        model := some 0
        st := some ⟨true, ((1 / 10000 : ℚ) : WithTop ℚ), ((-(1 / 10000) : ℚ) : WithBot ℚ), 1, [0], [true]⟩ } := by
    decide +kernel
  refine ⟨_, by simp only [Rule.fits, List.foldlM_cons, List.foldlM_nil, h1, bind, Except.bind, h2]; rfl, ?_, rfl, _, rfl, rfl, rfl⟩
  rintro ⟨s, m, _, hm, hm', _⟩
  simp only [Option.some.injEq] at hm
  have hd : (matchedData { intervalRule 0 1 with
        model := some (0 : ℚ)
        st := some ⟨true, ((1 / 10000 : ℚ) : WithTop ℚ), ((-(1 / 10000) : ℚ) : WithBot ℚ), 1, [0], [true]⟩ } [![0]] [5]) = [(![0], 5)] := by
    decide +kernel
  rw [hd, ← hm] at hm'
  simp [meanLearner] at hm'

/-- C16 (partial): a fit that trains at all describes the data — for a fresh (or cloned) rule, and whenever the set of matched samples differs from the
stored one. Missing: the cached case, where it is false. -/
theorem C16_partial (L : Learner K d M) (ff : RuleFitness K d) (X : List (Point K d)) (y : List K)
    (hxy : y.length = X.length) (ρ : Rule K d M)
    (hst : ρ.st = none ∨ ∃ s, ρ.st = some s ∧ s.matchSet.length = X.length ∧ s.matchSet ≠ X.map (ρ.kind.call ρ.bounds))
    (x : Point K d) (hx : x ∈ X) (hm : ρ.kind.call ρ.bounds x = true) :
    ∃ ρ', ρ.fit L ff X y = .ok ρ' ∧ ρ.SameShape ρ' ∧ DescribesData L ρ' X y := by
  have hany : (ρ.matchRows X).any id ≠ false := by
    have : (ρ.matchRows X).any id = true := by
      simp only [Rule.matchRows, List.any_map, List.any_eq_true]
      exact ⟨x, hx, hm⟩
    rw [this]; simp
  have hrefit : ∃ ρ', ρ.refit L ff X y (ρ.matchRows X) = .ok ρ' ∧ ρ.SameShape ρ' ∧ DescribesData L ρ' X y := by
    rw [refit_eq L ff X y hxy ρ]
    exact ⟨_, rfl, ⟨rfl, rfl, rfl⟩, _, _, rfl, rfl, rfl, rfl⟩
  rcases hst with hst | ⟨s, hst, hl, hne⟩
  · rw [Rule.fit_fresh L ff X y ρ hany hst]; exact hrefit
  · rw [Rule.fit_again L ff X y ρ hany s hst, npEqAll_same (by rw [hl, Rule.length_matchRows])]
    rw [show (s.matchSet == ρ.matchRows X) = false by simpa [Rule.matchRows] using hne]
    exact hrefit

/-- C16 (partial): a clone forgets everything, so fitting a clone always describes the new data. -/
theorem C16_clone_partial (L : Learner K d M) (ff : RuleFitness K d) (X : List (Point K d)) (y : List K)
    (hxy : y.length = X.length) (ρ : Rule K d M) (x : Point K d) (hx : x ∈ X) (hm : ρ.kind.call ρ.bounds x = true) :
    ∃ ρ', ρ.clone.fit L ff X y = .ok ρ' ∧ ρ.SameShape ρ' ∧ DescribesData L ρ' X y :=
  C16_partial L ff X y hxy ρ.clone (Or.inl rfl) x hx hm

example : ∃ s : RuleState ℚ, ({ intervalRule 0 1 with st := some ⟨true, ((1 : ℚ) : WithTop ℚ), ((-1 : ℚ) : WithBot ℚ), 1, [0], [true, false]⟩ } : Rule ℚ 1 ℚ).st = some s ∧
    s.matchSet.length = [(![0] : Point ℚ 1), ![1]].length ∧
    s.matchSet ≠ [(![0] : Point ℚ 1), ![1]].map (Kind.ordered.call (intervalRule 0 1).bounds) := ⟨_, rfl, by decide +kernel, by decide +kernel⟩

/-- C15/C16: data sets of different size make the cache comparison fail outright: refitting a matching rule on a data set with a different
number (both at least two) of samples is an error. -/
theorem C16_size_change_refuted (L : Learner K d M) (ff : RuleFitness K d) (X : List (Point K d)) (y : List K)
    (ρ : Rule K d M) (s : RuleState K) (hs : ρ.st = some s) (x : Point K d) (hx : x ∈ X) (hm : ρ.kind.call ρ.bounds x = true)
    (h1 : 2 ≤ s.matchSet.length) (h2 : 2 ≤ X.length) (hne : s.matchSet.length ≠ X.length) :
    ρ.fit L ff X y = .error .attributeError := by
  have hany : (ρ.matchRows X).any id ≠ false := by
    have : (ρ.matchRows X).any id = true := by
      simp only [Rule.matchRows, List.any_map, List.any_eq_true]
      exact ⟨x, hx, hm⟩
    rw [this]; simp
  have : npEqAll s.matchSet (ρ.matchRows X) = .error .attributeError := by
    unfold npEqAll
    rw [if_neg (by rw [Rule.length_matchRows]; exact hne)]
    have h3 : 2 ≤ (ρ.matchRows X).length := by rw [Rule.length_matchRows]; exact h2
    match h : s.matchSet, h' : ρ.matchRows X with
    | [], _ => simp [h] at h1
    | [a], _ => simp [h] at h1
    | a :: b :: l, [] => simp [h'] at h3
    | a :: b :: l, [c] => simp [h'] at h3
    | a :: b :: l, c :: e :: l' => rfl
  rw [Rule.fit_again L ff X y ρ hany s hs, this]

/-- C15/C16: the comparison treats a single sample like any number of samples: a rule trained on one sample that it matches stays as it is when it is fitted on data of any size that it matches entirely, and a
rule trained on data it matches entirely stays as it is when it is fitted on one sample. -/
theorem C16_single_sample_refuted (L : Learner K d M) (ff : RuleFitness K d) (X : List (Point K d)) (y : List K) (ρ : Rule K d M) (s : RuleState K) (hs : ρ.st = some s) (hX : X ≠ [])
    (hall : ∀ x ∈ X, ρ.kind.call ρ.bounds x = true) (hold : s.matchSet ≠ [] ∧ ∀ b ∈ s.matchSet, b = true) (h1 : s.matchSet.length = 1 ∨ X.length = 1) :
    ρ.fit L ff X y = .ok { ρ with st := some { s with isFitted := true } } := by
  obtain ⟨x, hx⟩ := List.exists_mem_of_ne_nil X hX
  have hany : (ρ.matchRows X).any id ≠ false := by
    have : (ρ.matchRows X).any id = true := by
      simp only [Rule.matchRows, List.any_map, List.any_eq_true]
      exact ⟨x, hx, hall x hx⟩
    rw [this]; simp
  have hrow : ρ.matchRows X = List.replicate X.length true := by
    rw [List.eq_replicate_iff]
    refine ⟨Rule.length_matchRows ρ X, fun b hb => ?_⟩
    obtain ⟨x, hx, rfl⟩ := List.mem_map.mp hb
    exact hall x hx
  have hset : s.matchSet = List.replicate s.matchSet.length true := List.eq_replicate_iff.mpr ⟨rfl, hold.2⟩
  have heq : npEqAll s.matchSet (ρ.matchRows X) = .ok true := by
    rw [hrow, hset]
    unfold npEqAll
    rw [List.length_replicate, List.length_replicate]
    split_ifs with he
    · rw [he]; simp
    · rcases h1 with h1 | h1
      · rw [h1]
        simp
      · rw [h1]
        obtain ⟨n, hn⟩ : ∃ n, s.matchSet.length = n + 2 := by
          have h0 : s.matchSet.length ≠ 0 := fun h => hold.1 (List.length_eq_zero_iff.mp h)
          exact ⟨s.matchSet.length - 2, by omega⟩
        rw [hn]
        simp [List.replicate_succ]
  rw [Rule.fit_again L ff X y ρ hany s hs, heq]

/-- C16 (partial): a rule trained on one sample is trained again on data of any size that contains a sample it matches and one it does not match. -/
theorem C16_single_sample_partial (L : Learner K d M) (ff : RuleFitness K d) (X : List (Point K d)) (y : List K) (hxy : y.length = X.length) (ρ : Rule K d M) (s : RuleState K) (hs : ρ.st = some s)
    (hold : s.matchSet.length = 1) (x : Point K d) (hx : x ∈ X) (hm : ρ.kind.call ρ.bounds x = true) (x' : Point K d) (hx' : x' ∈ X) (hm' : ρ.kind.call ρ.bounds x' = false) :
    ∃ ρ', ρ.fit L ff X y = .ok ρ' ∧ ρ.SameShape ρ' ∧ DescribesData L ρ' X y := by
  have hany : (ρ.matchRows X).any id ≠ false := by
    have : (ρ.matchRows X).any id = true := by
      simp only [Rule.matchRows, List.any_map, List.any_eq_true]
      exact ⟨x, hx, hm⟩
    rw [this]; simp
  obtain ⟨b, hb⟩ := List.length_eq_one_iff.mp hold
  have t1 : true ∈ ρ.matchRows X := List.mem_map.mpr ⟨x, hx, hm⟩
  have t2 : false ∈ ρ.matchRows X := List.mem_map.mpr ⟨x', hx', hm'⟩
  have heq : npEqAll s.matchSet (ρ.matchRows X) = .ok false := by
    rw [hb]
    unfold npEqAll
    split_ifs with he
    · exfalso
      obtain ⟨c, hc⟩ := List.length_eq_one_iff.mp he.symm
      rw [hc, List.mem_singleton] at t1 t2
      rw [← t2] at t1
      cases t1
    · refine congrArg Except.ok (List.all_eq_false.mpr ?_)
      cases b
      · exact ⟨true, t1, by simp⟩
      · exact ⟨false, t2, by simp⟩
  rw [Rule.fit_again L ff X y ρ hany s hs, heq]
  rw [refit_eq L ff X y hxy ρ]
  exact ⟨_, rfl, ⟨rfl, rfl, rfl⟩, _, _, rfl, rfl, rfl, rfl⟩

/-- A rule trained on the sample `0` with target `0`, then fitted on two samples inside with targets `4` and `6`: it still predicts `0`. -/
example : (match (intervalRule 0 1).fits meanLearner negErr [([![0]], [0]), ([![0], ![1]], [4, 6])] with | .ok ρ => some (ρ.model, ρ.st.map (·.experience)) | .error _ => none) = some (some 0, some 1) ∧
    (match (intervalRule 0 1).fits meanLearner negErr [([![0]], [0]), ([![0], ![2]], [4, 6])] with | .ok ρ => some (ρ.model, ρ.st.map (·.experience)) | .error _ => none) = some (some 4, some 1) := by decide +kernel

end Suprb
