import Verif.Model.Show
import Verif.Props.Dump
import Verif.Props.Default
import Verif.Lemmas.Objects

/-!
# Claims C132 and C133: showing rules and solutions, and training rules of loaded models
-/

set_option autoImplicit false
set_option linter.unusedSectionVars false

namespace Suprb

open Spec

variable {K : Type} [Field K] [LinearOrder K] [IsStrictOrderedRing K] {d : Nat} {M : Type}

/-! ## C132 -/

/-- C132 for rules (missing: rules that are not fitted or loaded, see below): after training on data with a matching sample, `str` shows the mean squared error on the matched samples (at least `1e-4`), the
fitness of this error and the number of matched samples. -/
theorem C132_rule_partial (L : Learner K d M) (ff : RuleFitness K d) (X : List (Point K d)) (y : List K) (hxy : y.length = X.length) (ρ : Rule K d M) (hfresh : ρ.st = none)
    (x : Point K d) (hx : x ∈ X) (hm : ρ.kind.call ρ.bounds x = true) :
    ∃ ρ' m e, ρ.fit L ff X y = .ok ρ' ∧ ρ'.model = some m ∧ e = max (meanSqErr (L.predict m) (matchedData ρ X y)) (1 / 10000) ∧
      ρ'.attrs.str = .ok ⟨((e : K) : WithTop K), .num ((ff e ρ.kind ρ.bounds ρ.inputSpace : K) : WithBot K), (matchedData ρ X y).length⟩ := by
  obtain ⟨ρ', s, m, h1, h2, h3, _, _, h4, _, _, h5, _, _, h6, h7⟩ := C14_matched L ff X y hxy ρ hfresh x hx hm
  refine ⟨ρ', m, _, h1, h3, rfl, ?_⟩
  unfold Rule.attrs
  rw [h2]
  dsimp only
  unfold Attrs.str
  dsimp only
  rw [if_pos (by rw [h4]), h5, h6, h7]

/-- C132 for solutions (missing: solutions that are not fitted or loaded): after `fit`, `str` shows the error of the predictions on the data (at least `1e-4`), the fitness and the number of selected rules. -/
theorem C132_solution_partial (L : Learner K d M) (P : MixParams K) (filt : SubFilter K d M) (sf : SolFitness K) (X : List (Point K d)) (y : List K) (σ σ' : Solution K d M)
    (h : σ.fit L P filt sf X y = .ok σ') :
    ∃ pred e, σ.predict L P filt true X = .ok pred ∧ e = max ((List.zipWith (fun a b => (a - b) ^ 2) y pred).sum / (y.length : K)) (1 / 10000) ∧
      σ'.attrs.str = .ok ⟨((e : K) : WithTop K), .num ((sf e σ.genome.length (σ.genome.count true) : K) : WithBot K), σ.genome.count true⟩ := by
  unfold Solution.fit at h
  split at h
  · cases h
  · rename_i pred hp
    split at h
    · cases h
    · cases h
      exact ⟨pred, _, hp, rfl, rfl⟩

/-- C132 for trained models (missing as above): all rules of a model trained with the default components can be shown, and the shown experience is the number of training samples inside. -/
theorem C132_trained_partial (cfg : SupCfg K) (es : ESCfg K) (ga : GACfg K) (k : Nat) (hs : DefaultSettings cfg es ga k) (sigma : K × K) (D : RunDraws K d M) (hD : D.Possible es ga k sigma)
    (L : Learner K d M) (ff : RuleFitness K d) (sf : Nat → SolFitness K) (entropy : Nat) (raw : RawData K d)
    (hraw : raw.finite = true ∧ raw.X.length = raw.y.length ∧ raw.X ≠ []) (cl : Bool) (st0 : SupState K d M) (hinit : cfg.nInitial = 0 ∨ st0.step < cfg.nIter) :
    ∀ ρ ∈ (st0.fit cfg (defaultComp es ga D L ff sf) entropy raw cl).state.pool, ∃ shown, ρ.attrs.str = .ok shown ∧
      shown.more = (raw.X.filter fun x => ρ.kind.call ρ.bounds x).length := by
  obtain ⟨fb, hfb, _⟩ := estimateBounds_ok raw.X hraw.2.2
  have hc : raw.check = .ok (raw.X, raw.y) := by unfold RawData.check; rw [if_pos hraw]
  obtain ⟨_, _, _, h4, _⟩ := default_result cfg es ga k hs sigma D hD L ff sf entropy raw hc cl st0 hinit fb hfb
  intro ρ hρ
  have hin := h4 ρ hρ
  obtain ⟨x, hx, hm⟩ := (hin.poolRule hraw.2.1.symm hraw.2.2 hfb hs.beta).matched
  obtain ⟨ρ0, n, h0, _, hf⟩ := hin.fromData.fitted
  rw [fits_replicate L ff raw.X raw.y hraw.2.1.symm _ h0 n] at hf
  have hfr := fit_sameShape L ff raw.X raw.y ρ0 ρ hf
  obtain ⟨ρ', m, e, h1, _, _, h3⟩ := C132_rule_partial L ff raw.X raw.y hraw.2.1.symm ρ0 h0 x hx (by rw [← hfr.1, ← hfr.2.1]; exact hm)
  rw [hf] at h1; cases h1
  refine ⟨_, h3, ?_⟩
  dsimp only
  rw [hfr.1, hfr.2.1]
  rw [filter_zip_fst _ _ _ hraw.2.1.symm, List.length_map]
  rfl

/-- C132 for all objects in any state (missing: that there is a text): if `str` returns a text, it shows the error, the fitness and the experience or complexity that the object has. -/
theorem C132_current_partial (a : Attrs K) (shown : Shown K) (h : a.str = .ok shown) :
    a.isFitted = some true ∧ a.error = some shown.error ∧ a.fitness = some shown.fitness ∧ a.more = some shown.more := by
  unfold Attrs.str at h
  split at h
  · rename_i hf
    split at h
    · cases h
    · rename_i e he
      split at h
      · cases h
      · rename_i f hff
        split at h
        · cases h
        · rename_i m hm
          cases h
          exact ⟨hf, he, hff, hm⟩
  · cases h

example : (⟨some true, some (1 : ℚ), some (.num (2 : ℚ)), some 3⟩ : Attrs ℚ).str = .ok ⟨((1 : ℚ) : WithTop ℚ), .num ((2 : ℚ) : WithBot ℚ), 3⟩ := by decide +kernel

/-- C132 is false for rules and solutions that are not fitted: `str` raises a `TypeError` for every clone of a rule, … -/
theorem C132_clone_refuted (ρ : Rule K d M) : ρ.clone.attrs.str = .error .typeError := rfl

/-- … for every rule after training on data without a matching sample, … -/
theorem C132_unmatched_refuted (L : Learner K d M) (ff : RuleFitness K d) (X : List (Point K d)) (y : List K) (ρ : Rule K d M) (h : ∀ x ∈ X, ρ.kind.call ρ.bounds x = false) :
    ∃ ρ', ρ.fit L ff X y = .ok ρ' ∧ ρ'.attrs.str = .error .typeError := by
  obtain ⟨ρ', s, h1, h2, h3, _⟩ := C14_unmatched L ff X y ρ h
  refine ⟨ρ', h1, ?_⟩
  unfold Rule.attrs
  rw [h2]
  dsimp only
  unfold Attrs.str
  dsimp only
  rw [if_neg (by rw [h3]; simp)]

/-- … and for every new solution. -/
theorem C132_solution_refuted (pool : List (Rule K d M)) (p : K) (draw : Nat → List K) :
    (zeroInit pool).attrs.str = .error .typeError ∧ (randomInit p draw pool).attrs.str = .error .typeError := ⟨rfl, rfl⟩

/-- C132 is false for loaded models: showing the elitist is a `TypeError`, and showing any rule is an `AttributeError` (or a `TypeError`), although it is fitted. -/
theorem C132_loaded_refuted (W : Json.Classes) (kinds : Json.Str → Option Kind) (sup : Json.Str) (saved : Json.Saved K d) (est : Json.Est K d) (h : Json.load W kinds sup saved = .ok est) :
    (∃ σ, est.state.elitist = some (.solution σ) ∧ σ.attrs.str = .error .typeError) ∧
    ∀ r ∈ saved.pool, r.attrs.str = .error (if r.isFitted then .attributeError else .typeError) := by
  constructor
  · unfold Json.load at h
    split at h
    · cases h
    · split at h
      · cases h
      · split at h
        · cases h
        · split at h
          · cases h
            exact ⟨_, rfl, rfl⟩
          · cases h
  · intro r _
    unfold Json.RuleJson.attrs Attrs.str
    cases r.isFitted <;> rfl

/-! ## C133 -/

/-- C133 is false for the volume based fitnesses: a rule of a loaded model gets an object as fitness when it is trained on any data it matches. -/
theorem C133_volume_refuted (L : Learner K d M) (X : List (Point K d)) (y : List K) (hxy : y.length = X.length) (ρ : Rule K d M) (x : Point K d) (hx : x ∈ X)
    (hm : ρ.kind.call ρ.bounds x = true) : ∃ m a, loadedFit L .volume X y ρ = .ok (m, a) ∧ a.fitness = some .object := by
  have hany : ¬ (ρ.matchRows X).any id = false := by
    have : (ρ.matchRows X).any id = true := by
      simp only [Rule.matchRows, List.any_map, List.any_eq_true]
      exact ⟨x, hx, hm⟩
    rw [this]; simp
  unfold loadedFit
  dsimp only
  rw [if_neg hany, if_neg (not_not.mpr hxy)]
  exact ⟨_, _, rfl, rfl⟩

/-- C133 is false for the pseudo accuracy: the training raises a `TypeError`. -/
theorem C133_pseudo_accuracy_refuted (L : Learner K d M) (X : List (Point K d)) (y : List K) (hxy : y.length = X.length) (ρ : Rule K d M) (x : Point K d) (hx : x ∈ X)
    (hm : ρ.kind.call ρ.bounds x = true) : loadedFit L .pseudoAccuracy X y ρ = .error .typeError := by
  have hany : ¬ (ρ.matchRows X).any id = false := by
    have : (ρ.matchRows X).any id = true := by
      simp only [Rule.matchRows, List.any_map, List.any_eq_true]
      exact ⟨x, hx, hm⟩
    rw [this]; simp
  unfold loadedFit
  dsimp only
  rw [if_neg hany, if_neg (not_not.mpr hxy)]
  rfl

/-- C133 for data that the rule does not match (missing: the local model, which stays the loaded one): with every fitness, training a loaded rule gives the error, fitness and experience of a fresh rule
with the same condition. -/
theorem C133_unmatched_partial (L : Learner K d M) (ff : RuleFitness K d) (c : FitnessClass) (X : List (Point K d)) (y : List K) (ρ ρ0 : Rule K d M) (hk : ρ0.kind = ρ.kind)
    (hb : ρ0.bounds = ρ.bounds) (hm : ∀ x ∈ X, ρ.kind.call ρ.bounds x = false) :
    ∃ ρ', ρ0.fit L ff X y = .ok ρ' ∧ loadedFit L c X y ρ = .ok (ρ.model, ρ'.attrs) := by
  have hrows : ρ0.matchRows X = ρ.matchRows X := by unfold Rule.matchRows; rw [hk, hb]
  have hany : (ρ.matchRows X).any id = false := by simpa [Rule.matchRows, List.any_eq_false] using hm
  rw [Rule.fit_unmatched L ff X y ρ0 (by rw [hrows]; exact hany)]
  refine ⟨_, rfl, ?_⟩
  unfold loadedFit
  dsimp only
  rw [if_pos hany]
  rfl

example : (match loadedFit meanLearner .pseudoAccuracy [![2]] [7] (intervalRule 0 1), (intervalRule 0 1).fit meanLearner negErr [![2]] [7] with | .ok r, .ok ρ => some (r, ρ.attrs) | _, _ => none) =
    some ((none, ⟨some false, some ⊤, some (.num ⊥), some 0⟩), ⟨some false, some ⊤, some (.num ⊥), some 0⟩) := by decide +kernel

/-- What holds of C133 (missing: the fitness, and everything for the pseudo accuracy): with a volume based fitness the local model, the error and the experience of a loaded rule after training are
those of a fresh rule with the same condition. -/
theorem C133_volume_partial (L : Learner K d M) (ff : RuleFitness K d) (X : List (Point K d)) (y : List K) (hxy : y.length = X.length) (ρ ρ0 : Rule K d M) (hk : ρ0.kind = ρ.kind)
    (hb : ρ0.bounds = ρ.bounds) (h0 : ρ0.st = none) (hm : ∃ x ∈ X, ρ.kind.call ρ.bounds x = true) :
    ∃ ρ' s a, ρ0.fit L ff X y = .ok ρ' ∧ ρ'.st = some s ∧ loadedFit L .volume X y ρ = .ok (ρ'.model, a) ∧ a.isFitted = some s.isFitted ∧ a.error = some s.error ∧
      a.more = some s.experience := by
  obtain ⟨x, hx, hm⟩ := hm
  have hrows : ρ0.matchRows X = ρ.matchRows X := by unfold Rule.matchRows; rw [hk, hb]
  have hany : ¬ (ρ.matchRows X).any id = false := by
    have : (ρ.matchRows X).any id = true := by
      simp only [Rule.matchRows, List.any_map, List.any_eq_true]
      exact ⟨x, hx, hm⟩
    rw [this]; simp
  rw [Rule.fit_fresh L ff X y ρ0 (by rw [hrows]; exact hany) h0]
  unfold Rule.refit loadedFit
  dsimp only
  rw [if_neg hany, if_neg (not_not.mpr hxy), if_neg (not_not.mpr hxy), hrows]
  exact ⟨_, _, _, rfl, rfl, rfl, rfl, rfl, rfl⟩

/-- A rule with two matching samples: what is shown after training, and what a loaded copy of it is after training. -/
example : (match (intervalRule 0 1).fit meanLearner negErr [![1/2], ![1], ![2]] [1, 3, 7] with | .ok ρ => ρ.attrs.str | .error e => .error e) =
      .ok ⟨((1 : ℚ) : WithTop ℚ), .num ((-1 : ℚ) : WithBot ℚ), 2⟩ ∧
    (match loadedFit meanLearner .volume [![1/2], ![1], ![2]] [1, 3, 7] (intervalRule 0 1) with | .ok r => some r | .error _ => none) =
      some (some 2, ⟨some true, some ((1 : ℚ) : WithTop ℚ), some .object, some 2⟩) := by decide +kernel

end Suprb
