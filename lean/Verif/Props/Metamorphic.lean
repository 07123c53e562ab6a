import Verif.Props.Influence
import Mathlib.Algebra.BigOperators.Group.List.Basic

/-!
# C123–C125: shifting the targets, scaling the targets, reordering the samples
-/

set_option autoImplicit false
set_option linter.unusedSectionVars false

namespace Suprb

open Spec

variable {K : Type} [Field K] [LinearOrder K] [IsStrictOrderedRing K] {d : Nat} {M : Type}

/-! ## Tools -/

/-- What fitting a fresh rule on data it matches produces (`C14_matched` as a function). -/
def Rule.fitOf (L : Learner K d M) (ff : RuleFitness K d) (X : List (Point K d)) (y : List K) (ρ : Rule K d M) : Rule K d M :=
  let m := L.fit ((matchedData ρ X y).map Prod.fst) ((matchedData ρ X y).map Prod.snd)
  let e := max (meanSqErr (L.predict m) (matchedData ρ X y)) (1 / 10000)
  { ρ with
    model := some m
    st := some { isFitted := true, error := ((e : K) : WithTop K), fitness := ((ff e ρ.kind ρ.bounds ρ.inputSpace : K) : WithBot K)
                 experience := (matchedData ρ X y).length, pred := (matchedData ρ X y).map fun q => L.predict m q.1, matchSet := ρ.matchRows X } }

/-- A rule as it comes out of the initialisation: nothing trained, nothing stored; it matches a training sample. -/
def Rule.FreshOn (X : List (Point K d)) (ρ : Rule K d M) : Prop :=
  ρ.st = none ∧ ρ.model = none ∧ ∃ x ∈ X, ρ.kind.call ρ.bounds x = true

theorem Rule.fit_fitOf (L : Learner K d M) (ff : RuleFitness K d) (X : List (Point K d)) (y : List K) (hxy : y.length = X.length)
    (ρ : Rule K d M) (h : ρ.FreshOn X) : ρ.fit L ff X y = .ok (ρ.fitOf L ff X y) := by
  obtain ⟨h0, _, x, hx, hm⟩ := h
  have hany : (ρ.matchRows X).any id ≠ false := by
    have : (ρ.matchRows X).any id = true := by
      simp only [Rule.matchRows, List.any_map, List.any_eq_true]
      exact ⟨x, hx, hm⟩
    rw [this]; simp
  rw [Rule.fit_fresh L ff X y ρ hany h0, refit_eq L ff X y hxy ρ]
  rfl

theorem matchedData_pos (X : List (Point K d)) (y : List K) (hxy : y.length = X.length) (ρ : Rule K d M) (h : ρ.FreshOn X) :
    0 < (matchedData ρ X y).length := by
  obtain ⟨_, _, x, hx, hm⟩ := h
  rw [show (matchedData ρ X y).length = (X.filter (ρ.kind.call ρ.bounds)).length from by rw [filter_zip_fst _ _ _ hxy, List.length_map]; rfl]
  exact List.length_pos_of_mem (List.mem_filter.mpr ⟨hx, hm⟩)

theorem Rule.fitOf_usable (L : Learner K d M) (ff : RuleFitness K d) (X : List (Point K d)) (y : List K) (hxy : y.length = X.length)
    (ρ : Rule K d M) (h : ρ.FreshOn X) : (ρ.fitOf L ff X y).Usable :=
  ⟨_, _, _, rfl, rfl, rfl, lt_of_lt_of_le (by norm_num) (le_max_right _ _), matchedData_pos X y hxy ρ h⟩

/-- The rules after fitting all of them. -/
theorem fitAll_eq (L : Learner K d M) (ff : RuleFitness K d) (X : List (Point K d)) (y : List K) (hxy : y.length = X.length)
    (rs : List (Rule K d M)) (h : ∀ ρ ∈ rs, ρ.FreshOn X) {pool : List (Rule K d M)} (hp : rs.mapM (Rule.fit L ff X y) = .ok pool) :
    pool = rs.map (Rule.fitOf L ff X y) := by
  rw [mapM_ok _ (Rule.fitOf L ff X y) _ fun ρ hρ => ρ.fit_fitOf L ff X y hxy (h ρ hρ)] at hp
  cases hp; rfl

/-- Two rules with the same region whose local models differ by `v ↦ a·v + c` and whose weights differ by the factor `k`. -/
structure RuleRel (L : Learner K d M) (P : MixParams K) (a c k : K) (ρ₁ ρ₂ : Rule K d M) : Prop where
  kind : ρ₂.kind = ρ₁.kind
  bounds : ρ₂.bounds = ρ₁.bounds
  value : ∀ x, ρ₂.valueAt L x = a * ρ₁.valueAt L x + c
  weight : ρ₂.tauVal P = k * ρ₁.tauVal P

theorem filter_map_rel (f : Rule K d M → Rule K d M) (hf : ∀ ρ, (f ρ).kind = ρ.kind ∧ (f ρ).bounds = ρ.bounds) (sub : List (Rule K d M)) (x : Point K d) :
    (sub.map f).filter (fun ρ => ρ.kind.call ρ.bounds x) = (sub.filter fun ρ => ρ.kind.call ρ.bounds x).map f := by
  rw [List.filter_map]
  congr 1
  apply List.filter_congr
  intro ρ _
  simp only [Function.comp, (hf ρ).1, (hf ρ).2]

theorem mixAt_related (L : Learner K d M) (P : MixParams K) (a c k : K) (hk : k ≠ 0) (f₁ f₂ : Rule K d M → Rule K d M)
    (h1 : ∀ ρ, (f₁ ρ).kind = ρ.kind ∧ (f₁ ρ).bounds = ρ.bounds) (h2 : ∀ ρ, (f₂ ρ).kind = ρ.kind ∧ (f₂ ρ).bounds = ρ.bounds)
    (sub : List (Rule K d M)) (hrel : ∀ ρ ∈ sub, RuleRel L P a c k (f₁ ρ) (f₂ ρ)) (hpos : ∀ ρ ∈ sub, 0 < (f₁ ρ).tauVal P) (x : Point K d) :
    ((∃ ρ ∈ sub, ρ.kind.call ρ.bounds x = true) → mixAt L P (sub.map f₂) x = a * mixAt L P (sub.map f₁) x + c) ∧
    ((∀ ρ ∈ sub, ρ.kind.call ρ.bounds x = false) → mixAt L P (sub.map f₁) x = 0 ∧ mixAt L P (sub.map f₂) x = 0) := by
  unfold mixAt numAt denAt
  rw [filter_map_rel f₁ h1, filter_map_rel f₂ h2]
  constructor
  · rintro ⟨ρ0, hρ0, hm0⟩
    have hne : sub.filter (fun ρ => ρ.kind.call ρ.bounds x) ≠ [] := List.ne_nil_of_mem (List.mem_filter.mpr ⟨hρ0, hm0⟩)
    have hrel' : ∀ ρ ∈ sub.filter (fun ρ => ρ.kind.call ρ.bounds x), RuleRel L P a c k (f₁ ρ) (f₂ ρ) := fun ρ h => hrel ρ (List.mem_filter.mp h).1
    have hpos' : ∀ ρ ∈ sub.filter (fun ρ => ρ.kind.call ρ.bounds x), 0 < (f₁ ρ).tauVal P := fun ρ h => hpos ρ (List.mem_filter.mp h).1
    generalize sub.filter (fun ρ => ρ.kind.call ρ.bounds x) = l at *
    have hd : ((l.map f₂).map fun ρ => ρ.tauVal P).sum = k * ((l.map f₁).map fun ρ => ρ.tauVal P).sum := by
      rw [List.map_map, List.map_map, ← List.sum_map_mul_left]
      exact congrArg List.sum (List.map_congr_left fun ρ h => (hrel' ρ h).weight)
    have hn : ((l.map f₂).map fun ρ => ρ.valueAt L x * ρ.tauVal P).sum =
        k * (a * ((l.map f₁).map fun ρ => ρ.valueAt L x * ρ.tauVal P).sum + c * ((l.map f₁).map fun ρ => ρ.tauVal P).sum) := by
      rw [List.map_map, List.map_map, List.map_map, ← List.sum_map_mul_left, ← List.sum_map_mul_left, ← List.sum_map_add, ← List.sum_map_mul_left]
      refine congrArg List.sum (List.map_congr_left fun ρ h => ?_)
      simp only [Function.comp]
      rw [(hrel' ρ h).weight, (hrel' ρ h).value]
      ring
    have hD : 0 < ((l.map f₁).map fun ρ => ρ.tauVal P).sum := by
      rw [List.map_map]
      exact sum_pos_of_pos _ _ (fun ρ h => hpos' ρ h) hne
    rw [hd, hn, if_neg (mul_ne_zero hk hD.ne'), if_neg hD.ne', mul_div_mul_left _ _ hk, add_div, mul_div_assoc, mul_div_cancel_right₀ _ hD.ne']
  · intro h
    have hnil : sub.filter (fun ρ => ρ.kind.call ρ.bounds x) = [] := by
      rw [List.filter_eq_nil_iff]; intro ρ hρ; rw [h ρ hρ]; simp
    rw [hnil]
    simp

theorem mse_map (f : Point K d → K) (X : List (Point K d)) (y : List K) (hxy : y.length = X.length) :
    mse y (X.map f) = meanSqErr f (X.zip y) := by
  unfold mse meanSqErr
  have h1 : List.zipWith (fun a b => (a - b) ^ 2) y (X.map f) = (X.zip y).map fun q => (q.2 - f q.1) ^ 2 := by
    clear hxy
    induction X generalizing y with
    | nil => cases y <;> rfl
    | cons x xs ih =>
      cases y with
      | nil => rfl
      | cons b bs => simp [ih]
  rw [h1, List.length_zip, hxy, min_self]

theorem matchedData_map (g : K → K) (ρ : Rule K d M) (X : List (Point K d)) (y : List K) :
    matchedData ρ X (y.map g) = (matchedData ρ X y).map fun q => (q.1, g q.2) := by
  unfold matchedData
  rw [show X.zip (y.map g) = (X.zip y).map fun q => (q.1, g q.2) from by rw [List.zip_map_right]; rfl, List.filter_map]
  rfl

theorem fitOf_fittedOn (L : Learner K d M) (ff : RuleFitness K d) (X : List (Point K d)) (y : List K) (hxy : y.length = X.length)
    (ρ : Rule K d M) (h : ρ.FreshOn X) : (ρ.fitOf L ff X y).FittedOn L ff X y ∧
      ∃ x ∈ X, (ρ.fitOf L ff X y).kind.call (ρ.fitOf L ff X y).bounds x = true := by
  refine ⟨⟨ρ, 0, h.1, h.2.1, ?_⟩, h.2.2⟩
  simp only [List.replicate_zero, List.nil_append, Rule.fits, List.foldlM_cons, List.foldlM_nil]
  rw [ρ.fit_fitOf L ff X y hxy h]
  rfl

theorem solFit_fitOf (L : Learner K d M) (ff : RuleFitness K d) (P : MixParams K) (sf : SolFitness K) (X : List (Point K d)) (y : List K)
    (hxy : y.length = X.length) (hne : X ≠ []) (rs : List (Rule K d M)) (h : ∀ ρ ∈ rs, ρ.FreshOn X) (g : List Bool) (hg : g.length = rs.length) :
    Solution.fit L P filterAll sf X y { genome := g, pool := rs.map (Rule.fitOf L ff X y) } =
      .ok { genome := g, pool := rs.map (Rule.fitOf L ff X y)
            st := some { error := max (meanSqErr (mixAt L P ((compress rs g).map (Rule.fitOf L ff X y))) (X.zip y)) errorFloor
                         inputSize := g.length, complexity := g.count true
                         fitness := sf (max (meanSqErr (mixAt L P ((compress rs g).map (Rule.fitOf L ff X y))) (X.zip y)) errorFloor)
                           g.length (g.count true) } } := by
  have hfo : ∀ ρ ∈ rs.map (Rule.fitOf L ff X y), ρ.FittedOn L ff X y ∧ ∃ x ∈ X, ρ.kind.call ρ.bounds x = true := by
    intro ρ hρ
    obtain ⟨r, hr, rfl⟩ := List.mem_map.mp hρ
    exact fitOf_fittedOn L ff X y hxy r (h r hr)
  have hp := C20_cached_eq_uncached_partial L ff P X y hxy filterAll (fun sub sub' h ρ hρ => by cases h; exact hρ)
    { genome := g, pool := rs.map (Rule.fitOf L ff X y) } hfo
  have hu : Solution.predict L P filterAll false { genome := g, pool := rs.map (Rule.fitOf L ff X y) } X =
      .ok (X.map (mixAt L P ((compress rs g).map (Rule.fitOf L ff X y)))) := by
    unfold Solution.predict Solution.subpopulation
    rw [if_pos (by simpa using hg), compress_map]
    refine mixing_all_uncached L P X _ fun ρ hρ => ?_
    rw [← compress_map] at hρ
    obtain ⟨r, hr, rfl⟩ := List.mem_map.mp hρ
    exact (r.fitOf_usable L ff X y hxy (h r (mem_of_mem_compress hr))).ready
  have hpos : 0 < X.length := List.length_pos_iff.mpr hne
  unfold Solution.fit
  rw [hp, hu]
  dsimp only
  rw [if_neg (by rw [List.length_map]; omega), mse_map _ X y hxy]

/-- Predictions of two models whose rules are related, in terms of the rules before fitting. -/
theorem predictsAt_related (L : Learner K d M) (P : MixParams K) (a c k : K) (hk : k ≠ 0) (f₁ f₂ : Rule K d M → Rule K d M)
    (h1 : ∀ ρ, (f₁ ρ).kind = ρ.kind ∧ (f₁ ρ).bounds = ρ.bounds) (h2 : ∀ ρ, (f₂ ρ).kind = ρ.kind ∧ (f₂ ρ).bounds = ρ.bounds)
    (rs : List (Rule K d M)) (hrel : ∀ ρ ∈ rs, RuleRel L P a c k (f₁ ρ) (f₂ ρ)) (hw : 0 < P.weight) (hc : P.expCalc.Positive d)
    (hu1 : ∀ ρ ∈ rs, (f₁ ρ).Usable) (hu2 : ∀ ρ ∈ rs, (f₂ ρ).Usable) (g : List Bool) (hg : g.length = rs.length) (x : Point K d) (v : K)
    (hv : Solution.PredictsAt L P { genome := g, pool := rs.map f₁ } x v) :
    ((∃ ρ ∈ compress rs g, ρ.kind.call ρ.bounds x = true) → Solution.PredictsAt L P { genome := g, pool := rs.map f₂ } x (a * v + c)) ∧
    ((∀ ρ ∈ compress rs g, ρ.kind.call ρ.bounds x = false) → v = 0 ∧ Solution.PredictsAt L P { genome := g, pool := rs.map f₂ } x 0) := by
  have hus : ∀ f : Rule K d M → Rule K d M, (∀ ρ ∈ rs, (f ρ).Usable) → ∀ ρ ∈ rs.map f, ρ.Usable := by
    intro f hf ρ hρ
    obtain ⟨r, hr, rfl⟩ := List.mem_map.mp hρ
    exact hf r hr
  rw [predictsAt_iff L P _ (by simpa using hg) (hus f₁ hu1)] at hv
  rw [predictsAt_iff L P _ (by simpa using hg) (hus f₂ hu2), predictsAt_iff L P _ (by simpa using hg) (hus f₂ hu2)]
  simp only [← compress_map] at hv ⊢
  obtain ⟨r1, r2⟩ := mixAt_related L P a c k hk f₁ f₂ h1 h2 (compress rs g) (fun ρ h => hrel ρ (mem_of_mem_compress h))
    (fun ρ h => Rule.tauVal_pos P hw hc (hu1 ρ (mem_of_mem_compress h))) x
  refine ⟨fun h => by rw [hv]; exact (r1 h).symm, fun h => ?_⟩
  obtain ⟨q1, q2⟩ := r2 h
  exact ⟨hv.trans q1, q2.symm⟩

/-! ## C123 shifting the targets -/

/-- Learners for which adding a constant to all targets adds it to all predictions: regression with an intercept, means. -/
def Learner.Shifts (L : Learner K d M) : Prop :=
  ∀ (X : List (Point K d)) (y : List K) (c : K) (x : Point K d), X ≠ [] → y.length = X.length →
    L.predict (L.fit X (y.map (· + c))) x = L.predict (L.fit X y) x + c

theorem Learner.Shifts.predict {L : Learner K d M} (hL : L.Shifts) (c : K) (D : List (Point K d × K)) (hD : 0 < D.length) (x : Point K d) :
    L.predict (L.fit ((D.map fun q => (q.1, q.2 + c)).map Prod.fst) ((D.map fun q => (q.1, q.2 + c)).map Prod.snd)) x =
      L.predict (L.fit (D.map Prod.fst) (D.map Prod.snd)) x + c := by
  have := hL (D.map Prod.fst) (D.map Prod.snd) c x (by rintro h; rw [List.map_eq_nil_iff] at h; simp [h] at hD) (by simp)
  rw [← this]
  simp [List.map_map, Function.comp_def]

theorem meanSqErr_shift (f f' : Point K d → K) (c : K) (h : ∀ x, f' x = f x + c) (D : List (Point K d × K)) :
    meanSqErr f' (D.map fun q => (q.1, q.2 + c)) = meanSqErr f D := by
  unfold meanSqErr
  rw [List.map_map, List.length_map]
  congr 2
  refine List.map_congr_left fun q _ => ?_
  simp only [Function.comp, h]
  ring

/-- C123: for a rule, shifting all targets by `c` changes nothing but the local predictions, which are shifted by `c`: same error, fitness, experience and matched
samples. -/
theorem C123_rule_shift (L : Learner K d M) (hL : L.Shifts) (ff : RuleFitness K d) (X : List (Point K d)) (y : List K) (hxy : y.length = X.length)
    (c : K) (ρ : Rule K d M) (h : ρ.FreshOn X) :
    ∃ ρ₁ ρ₂ s₁ s₂, ρ.fit L ff X y = .ok ρ₁ ∧ ρ.fit L ff X (y.map (· + c)) = .ok ρ₂ ∧ ρ₁.st = some s₁ ∧ ρ₂.st = some s₂ ∧
      s₂.isFitted = s₁.isFitted ∧ s₂.error = s₁.error ∧ s₂.fitness = s₁.fitness ∧ s₂.experience = s₁.experience ∧ s₂.matchSet = s₁.matchSet ∧
      s₂.pred = s₁.pred.map (· + c) ∧ ∀ x u, ρ₁.LocalPrediction L x u → ρ₂.LocalPrediction L x (u + c) := by
  have hpos := matchedData_pos X y hxy ρ h
  have hpr := fun x => hL.predict c _ hpos x
  refine ⟨_, _, _, _, ρ.fit_fitOf L ff X y hxy h, ρ.fit_fitOf L ff X _ (by simpa using hxy) h, rfl, rfl, rfl, ?_, ?_, ?_, rfl, ?_, ?_⟩
  all_goals simp only [Rule.fitOf, matchedData_map]
  · rw [meanSqErr_shift _ _ c hpr]
  · rw [meanSqErr_shift _ _ c hpr]
  · simp
  · rw [List.map_map (l := matchedData ρ X y) (g := fun x => x + c)]
    refine Eq.trans List.map_map (List.map_congr_left fun (q : Point K d × K) _ => hpr q.1)
  · rintro x u ⟨m, hm, rfl⟩
    simp only [Option.some.injEq] at hm
    subst hm
    exact ⟨_, rfl, (hpr x).symm⟩

theorem fitOf_shift_rel (L : Learner K d M) (hL : L.Shifts) (ff : RuleFitness K d) (P : MixParams K) (X : List (Point K d)) (y : List K)
    (hxy : y.length = X.length) (c : K) (ρ : Rule K d M) (h : ρ.FreshOn X) :
    RuleRel L P 1 c 1 (ρ.fitOf L ff X y) (ρ.fitOf L ff X (y.map (· + c))) := by
  have hpos := matchedData_pos X y hxy ρ h
  have hpr := fun x => hL.predict c _ hpos x
  refine ⟨rfl, rfl, fun x => ?_, ?_⟩
  · simp only [Rule.valueAt, Rule.fitOf, matchedData_map, one_mul]
    exact hpr x
  · simp only [Rule.tauVal, Rule.fitOf, matchedData_map, one_mul, List.length_map]
    rw [meanSqErr_shift _ _ c hpr]

/-- C123 (partial): fit the same rules on `(X, y)` and on `(X, y + c)`. For every selection of rules and every sample matched by a selected rule, the
second model predicts `c` more than the first. Missing: samples matched by no selected rule, see `C123_refuted`. -/
theorem C123_predictions_partial (L : Learner K d M) (hL : L.Shifts) (ff : RuleFitness K d) (P : MixParams K) (hw : 0 < P.weight)
    (hc : P.expCalc.Positive d) (X : List (Point K d)) (y : List K) (hxy : y.length = X.length) (c : K)
    (rs pool₁ pool₂ : List (Rule K d M)) (h : ∀ ρ ∈ rs, ρ.FreshOn X)
    (h1 : rs.mapM (Rule.fit L ff X y) = .ok pool₁) (h2 : rs.mapM (Rule.fit L ff X (y.map (· + c))) = .ok pool₂)
    (g : List Bool) (hg : g.length = rs.length) (x : Point K d) (hx : ∃ ρ ∈ compress rs g, ρ.kind.call ρ.bounds x = true)
    (v : K) (hv : Solution.PredictsAt L P { genome := g, pool := pool₁ } x v) :
    Solution.PredictsAt L P { genome := g, pool := pool₂ } x (v + c) := by
  have hxy' : (y.map (· + c)).length = X.length := by simpa using hxy
  rw [fitAll_eq L ff X y hxy rs h h1] at hv
  rw [fitAll_eq L ff X _ hxy' rs h h2]
  have := (predictsAt_related L P 1 c 1 one_ne_zero (Rule.fitOf L ff X y) (Rule.fitOf L ff X (y.map (· + c))) (fun _ => ⟨rfl, rfl⟩) (fun _ => ⟨rfl, rfl⟩) rs
    (fun ρ hρ => fitOf_shift_rel L hL ff P X y hxy c ρ (h ρ hρ)) hw hc
    (fun ρ hρ => ρ.fitOf_usable L ff X y hxy (h ρ hρ)) (fun ρ hρ => ρ.fitOf_usable L ff X _ hxy' (h ρ hρ)) g hg x v hv).1 hx
  rwa [one_mul] at this

/-- C123 (partial): if moreover every training sample is matched by a selected rule, both solutions get the same error, complexity and fitness — so selection
among such solutions is not affected by the shift. Missing: solutions that leave training samples uncovered, see `C123_refuted`. -/
theorem C123_solution_partial (L : Learner K d M) (hL : L.Shifts) (ff : RuleFitness K d) (P : MixParams K) (hw : 0 < P.weight)
    (hc : P.expCalc.Positive d) (sf : SolFitness K) (X : List (Point K d)) (y : List K) (hxy : y.length = X.length) (hne : X ≠ []) (c : K)
    (rs pool₁ pool₂ : List (Rule K d M)) (h : ∀ ρ ∈ rs, ρ.FreshOn X)
    (h1 : rs.mapM (Rule.fit L ff X y) = .ok pool₁) (h2 : rs.mapM (Rule.fit L ff X (y.map (· + c))) = .ok pool₂)
    (g : List Bool) (hg : g.length = rs.length) (hx : ∀ x ∈ X, ∃ ρ ∈ compress rs g, ρ.kind.call ρ.bounds x = true) :
    ∃ σ₁ σ₂ s, Solution.fit L P filterAll sf X y { genome := g, pool := pool₁ } = .ok σ₁ ∧
      Solution.fit L P filterAll sf X (y.map (· + c)) { genome := g, pool := pool₂ } = .ok σ₂ ∧ σ₁.st = some s ∧ σ₂.st = some s := by
  have hxy' : (y.map (· + c)).length = X.length := by simpa using hxy
  rw [fitAll_eq L ff X y hxy rs h h1, fitAll_eq L ff X _ hxy' rs h h2, solFit_fitOf L ff P sf X y hxy hne rs h g hg,
    solFit_fitOf L ff P sf X _ hxy' hne rs h g hg]
  refine ⟨_, _, _, rfl, rfl, rfl, ?_⟩
  have he : meanSqErr (mixAt L P ((compress rs g).map (Rule.fitOf L ff X (y.map (· + c))))) (X.zip (y.map (· + c))) =
      meanSqErr (mixAt L P ((compress rs g).map (Rule.fitOf L ff X y))) (X.zip y) := by
    rw [show X.zip (y.map (· + c)) = (X.zip y).map fun q => (q.1, q.2 + c) from by rw [List.zip_map_right]; rfl]
    unfold meanSqErr
    rw [List.map_map, List.length_map]
    congr 2
    refine List.map_congr_left fun q hq => ?_
    have hqX : q.1 ∈ X := (List.of_mem_zip hq).1
    have := (mixAt_related L P 1 c 1 one_ne_zero (Rule.fitOf L ff X y) (Rule.fitOf L ff X (y.map (· + c))) (fun _ => ⟨rfl, rfl⟩) (fun _ => ⟨rfl, rfl⟩) (compress rs g)
      (fun ρ hρ => fitOf_shift_rel L hL ff P X y hxy c ρ (h ρ (mem_of_mem_compress hρ)))
      (fun ρ hρ => Rule.tauVal_pos P hw hc (ρ.fitOf_usable L ff X y hxy (h ρ (mem_of_mem_compress hρ)))) q.1).1 (hx q.1 hqX)
    simp only [Function.comp, this]
    ring
  rw [he]

theorem meanLearner_shifts : meanLearner.Shifts := by
  intro X y c x hX hxy
  have hpos : (0 : ℚ) < (y.length : ℚ) := by
    have : 0 < X.length := List.length_pos_iff.mpr hX
    exact_mod_cast (by omega : 0 < y.length)
  have hs : (y.map (· + c)).sum = y.sum + (y.length : ℚ) * c := by
    clear hpos hxy
    induction y with
    | nil => simp
    | cons a as ih => simp only [List.map_cons, List.sum_cons, ih, List.length_cons]; push_cast; ring
  simp only [meanLearner, List.length_map, hs]
  field_simp

/-- C123 (refuted): the rule `[0,1]` is fitted on the samples `0, 1, 5` with targets `1, 3, 7`, and with all targets raised by 10. The prediction for the
sample 5, which the rule does not match, is 0 in both cases, and the error of the solution grows from `51/3` to `291/3`. -/
theorem C123_refuted : ∃ (L : Learner ℚ 1 ℚ) (ρ ρ₁ ρ₂ : Rule ℚ 1 ℚ) (σ₁ σ₂ : Solution ℚ 1 ℚ) (s₁ s₂ : SolState ℚ),
    L.Shifts ∧ ρ.FreshOn [![0], ![1], ![5]] ∧
    ρ.fit L negErr [![0], ![1], ![5]] [1, 3, 7] = .ok ρ₁ ∧ ρ.fit L negErr [![0], ![1], ![5]] ([1, 3, 7].map (· + 10)) = .ok ρ₂ ∧
    Solution.predict L ⟨.plain, 1⟩ filterAll false { genome := [true], pool := [ρ₁] } [![0], ![1], ![5]] = .ok [2, 2, 0] ∧
    Solution.predict L ⟨.plain, 1⟩ filterAll false { genome := [true], pool := [ρ₂] } [![0], ![1], ![5]] = .ok [12, 12, 0] ∧
    Solution.fit L ⟨.plain, 1⟩ filterAll (fun e _ _ => -e) [![0], ![1], ![5]] [1, 3, 7] { genome := [true], pool := [ρ₁] } = .ok σ₁ ∧
    Solution.fit L ⟨.plain, 1⟩ filterAll (fun e _ _ => -e) [![0], ![1], ![5]] ([1, 3, 7].map (· + 10)) { genome := [true], pool := [ρ₂] } = .ok σ₂ ∧
    σ₁.st = some s₁ ∧ σ₂.st = some s₂ ∧ s₁.error = 17 ∧ s₂.error = 97 := by
  refine ⟨meanLearner, intervalRule 0 1,
    { intervalRule 0 1 with model := some 2, st := some ⟨true, ((1 : ℚ) : WithTop ℚ), ((-1 : ℚ) : WithBot ℚ), 2, [2, 2], [true, true, false]⟩ },
    { intervalRule 0 1 with model := some 12, st := some ⟨true, ((1 : ℚ) : WithTop ℚ), ((-1 : ℚ) : WithBot ℚ), 2, [12, 12], [true, true, false]⟩ },
    { genome := [true], pool := [{ intervalRule 0 1 with model := some 2, st := some ⟨true, ((1 : ℚ) : WithTop ℚ), ((-1 : ℚ) : WithBot ℚ), 2, [2, 2], [true, true, false]⟩ }],
      st := some ⟨17, 1, 1, -17⟩ },
    { genome := [true], pool := [{ intervalRule 0 1 with model := some 12, st := some ⟨true, ((1 : ℚ) : WithTop ℚ), ((-1 : ℚ) : WithBot ℚ), 2, [12, 12], [true, true, false]⟩ }],
      st := some ⟨97, 1, 1, -97⟩ }, _, _,
    meanLearner_shifts, ⟨rfl, rfl, ![0], by simp, by decide +kernel⟩, by decide +kernel, by decide +kernel, by decide +kernel, by decide +kernel,
    by decide +kernel, by decide +kernel, rfl, rfl, rfl, rfl⟩

/-! ## C124 scaling the targets -/

/-- Learners for which multiplying all targets by a factor multiplies all predictions: linear regression, ridge regression, means. -/
def Learner.Scales (L : Learner K d M) : Prop :=
  ∀ (X : List (Point K d)) (y : List K) (a : K) (x : Point K d), X ≠ [] → y.length = X.length →
    L.predict (L.fit X (y.map (a * ·))) x = a * L.predict (L.fit X y) x

theorem Learner.Scales.predict {L : Learner K d M} (hL : L.Scales) (a : K) (D : List (Point K d × K)) (hD : 0 < D.length) (x : Point K d) :
    L.predict (L.fit ((D.map fun q => (q.1, a * q.2)).map Prod.fst) ((D.map fun q => (q.1, a * q.2)).map Prod.snd)) x =
      a * L.predict (L.fit (D.map Prod.fst) (D.map Prod.snd)) x := by
  have := hL (D.map Prod.fst) (D.map Prod.snd) a x (by rintro h; rw [List.map_eq_nil_iff] at h; simp [h] at hD) (by simp)
  rw [← this]
  simp [List.map_map, Function.comp_def]

theorem meanSqErr_scale (f f' : Point K d → K) (a : K) (D : List (Point K d × K)) (h : ∀ q ∈ D, f' q.1 = a * f q.1) :
    meanSqErr f' (D.map fun q => (q.1, a * q.2)) = a ^ 2 * meanSqErr f D := by
  unfold meanSqErr
  rw [List.map_map, List.length_map, ← mul_div_assoc, ← List.sum_map_mul_left]
  congr 2
  refine List.map_congr_left fun q hq => ?_
  simp only [Function.comp, h q hq]
  ring

/-- The reported error of the fitted rule is larger than the smallest reported value `1e-4`. -/
def Rule.AboveFloor (ρ : Rule K d M) : Prop := ∃ s, ρ.st = some s ∧ ((1 / 10000 : K) : WithTop K) < s.error

theorem Rule.fitOf_aboveFloor {L : Learner K d M} {ff : RuleFitness K d} {X : List (Point K d)} {y : List K} {ρ : Rule K d M}
    (h : (ρ.fitOf L ff X y).AboveFloor) :
    max (meanSqErr (L.predict (L.fit ((matchedData ρ X y).map Prod.fst) ((matchedData ρ X y).map Prod.snd))) (matchedData ρ X y)) (1 / 10000) =
      meanSqErr (L.predict (L.fit ((matchedData ρ X y).map Prod.fst) ((matchedData ρ X y).map Prod.snd))) (matchedData ρ X y) := by
  obtain ⟨s, hs, hlt⟩ := h
  simp only [Rule.fitOf, Option.some.injEq] at hs
  subst hs
  have hlt' := WithTop.coe_lt_coe.mp hlt
  refine max_eq_left ?_
  by_contra hcon
  rw [max_eq_right (not_le.mp hcon).le] at hlt'
  exact absurd hlt' (lt_irrefl _)

theorem fitOf_scale_rel (L : Learner K d M) (hL : L.Scales) (ff : RuleFitness K d) (P : MixParams K) (X : List (Point K d)) (y : List K)
    (hxy : y.length = X.length) (a : K) (ρ : Rule K d M) (h : ρ.FreshOn X) (h1 : (ρ.fitOf L ff X y).AboveFloor)
    (h2 : (ρ.fitOf L ff X (y.map (a * ·))).AboveFloor) :
    RuleRel L P a 0 (1 / a ^ 2) (ρ.fitOf L ff X y) (ρ.fitOf L ff X (y.map (a * ·))) := by
  have hpos := matchedData_pos X y hxy ρ h
  have hpr := fun x => hL.predict a _ hpos x
  have e1 := Rule.fitOf_aboveFloor h1
  have e2 := Rule.fitOf_aboveFloor h2
  refine ⟨rfl, rfl, fun x => ?_, ?_⟩
  · simp only [Rule.valueAt, Rule.fitOf, matchedData_map, add_zero]
    exact hpr x
  · simp only [Rule.tauVal, Rule.fitOf]
    rw [e1, e2]
    simp only [matchedData_map, List.length_map]
    rw [meanSqErr_scale _ _ a _ fun q _ => hpr q.1]
    simp only [invError, WithTop.map_coe, WithTop.untopD_coe]
    rw [one_div, mul_inv]
    ring

/-- C124 (partial): fit the same rules on `(X, y)` and on `(X, a·y)` with `a ≠ 0`, so that no reported rule error is the smallest possible one. For every
selection of rules and every sample, the second model predicts `a` times the value of the first. Missing: rules with an error at or below the floor of `1e-4`, see
`C124_refuted`. -/
theorem C124_predictions_partial (L : Learner K d M) (hL : L.Scales) (ff : RuleFitness K d) (P : MixParams K) (hw : 0 < P.weight)
    (hc : P.expCalc.Positive d) (X : List (Point K d)) (y : List K) (hxy : y.length = X.length) (a : K) (ha : a ≠ 0)
    (rs pool₁ pool₂ : List (Rule K d M)) (h : ∀ ρ ∈ rs, ρ.FreshOn X)
    (h1 : rs.mapM (Rule.fit L ff X y) = .ok pool₁) (h2 : rs.mapM (Rule.fit L ff X (y.map (a * ·))) = .ok pool₂)
    (hf1 : ∀ ρ ∈ pool₁, ρ.AboveFloor) (hf2 : ∀ ρ ∈ pool₂, ρ.AboveFloor)
    (g : List Bool) (hg : g.length = rs.length) (x : Point K d) (v : K) (hv : Solution.PredictsAt L P { genome := g, pool := pool₁ } x v) :
    Solution.PredictsAt L P { genome := g, pool := pool₂ } x (a * v) := by
  have hxy' : (y.map (a * ·)).length = X.length := by simpa using hxy
  rw [fitAll_eq L ff X y hxy rs h h1] at hv hf1
  rw [fitAll_eq L ff X _ hxy' rs h h2] at hf2 ⊢
  have := predictsAt_related L P a 0 (1 / a ^ 2) (by positivity) (Rule.fitOf L ff X y) (Rule.fitOf L ff X (y.map (a * ·)))
    (fun _ => ⟨rfl, rfl⟩) (fun _ => ⟨rfl, rfl⟩) rs
    (fun ρ hρ => fitOf_scale_rel L hL ff P X y hxy a ρ (h ρ hρ) (hf1 _ (List.mem_map_of_mem hρ)) (hf2 _ (List.mem_map_of_mem hρ))) hw hc
    (fun ρ hρ => ρ.fitOf_usable L ff X y hxy (h ρ hρ)) (fun ρ hρ => ρ.fitOf_usable L ff X _ hxy' (h ρ hρ)) g hg x v hv
  by_cases hx : ∃ ρ ∈ compress rs g, ρ.kind.call ρ.bounds x = true
  · have := this.1 hx
    rwa [add_zero] at this
  · obtain ⟨hv0, h0⟩ := this.2 fun ρ hρ => by
      cases hb : ρ.kind.call ρ.bounds x with
      | false => rfl
      | true => exact absurd ⟨ρ, hρ, hb⟩ hx
    rw [hv0, mul_zero]
    exact h0

/-- C124 (partial): under the same conditions the errors reported by the two solutions differ by the factor `a²`, unless one of them is the smallest possible
one. -/
theorem C124_solution_partial (L : Learner K d M) (hL : L.Scales) (ff : RuleFitness K d) (P : MixParams K) (hw : 0 < P.weight)
    (hc : P.expCalc.Positive d) (sf : SolFitness K) (X : List (Point K d)) (y : List K) (hxy : y.length = X.length) (hne : X ≠ []) (a : K) (ha : a ≠ 0)
    (rs pool₁ pool₂ : List (Rule K d M)) (h : ∀ ρ ∈ rs, ρ.FreshOn X)
    (h1 : rs.mapM (Rule.fit L ff X y) = .ok pool₁) (h2 : rs.mapM (Rule.fit L ff X (y.map (a * ·))) = .ok pool₂)
    (hf1 : ∀ ρ ∈ pool₁, ρ.AboveFloor) (hf2 : ∀ ρ ∈ pool₂, ρ.AboveFloor) (g : List Bool) (hg : g.length = rs.length) :
    ∃ σ₁ σ₂ s₁ s₂, Solution.fit L P filterAll sf X y { genome := g, pool := pool₁ } = .ok σ₁ ∧
      Solution.fit L P filterAll sf X (y.map (a * ·)) { genome := g, pool := pool₂ } = .ok σ₂ ∧ σ₁.st = some s₁ ∧ σ₂.st = some s₂ ∧
      s₂.complexity = s₁.complexity ∧ (1 / 10000 < s₁.error → 1 / 10000 < s₂.error → s₂.error = a ^ 2 * s₁.error) := by
  have hxy' : (y.map (a * ·)).length = X.length := by simpa using hxy
  rw [fitAll_eq L ff X y hxy rs h h1] at hf1
  rw [fitAll_eq L ff X _ hxy' rs h h2] at hf2
  rw [fitAll_eq L ff X y hxy rs h h1, fitAll_eq L ff X _ hxy' rs h h2, solFit_fitOf L ff P sf X y hxy hne rs h g hg,
    solFit_fitOf L ff P sf X _ hxy' hne rs h g hg]
  refine ⟨_, _, _, _, rfl, rfl, rfl, rfl, rfl, ?_⟩
  dsimp only [errorFloor]
  have he : meanSqErr (mixAt L P ((compress rs g).map (Rule.fitOf L ff X (y.map (a * ·))))) (X.zip (y.map (a * ·))) =
      a ^ 2 * meanSqErr (mixAt L P ((compress rs g).map (Rule.fitOf L ff X y))) (X.zip y) := by
    rw [show X.zip (y.map (a * ·)) = (X.zip y).map fun q => (q.1, a * q.2) from by rw [List.zip_map_right]; rfl]
    refine meanSqErr_scale _ _ a _ fun q _ => ?_
    have := mixAt_related L P a 0 (1 / a ^ 2) (by positivity) (Rule.fitOf L ff X y) (Rule.fitOf L ff X (y.map (a * ·)))
      (fun _ => ⟨rfl, rfl⟩) (fun _ => ⟨rfl, rfl⟩) (compress rs g)
      (fun ρ hρ => fitOf_scale_rel L hL ff P X y hxy a ρ (h ρ (mem_of_mem_compress hρ)) (hf1 _ (List.mem_map_of_mem (mem_of_mem_compress hρ)))
        (hf2 _ (List.mem_map_of_mem (mem_of_mem_compress hρ))))
      (fun ρ hρ => Rule.tauVal_pos P hw hc (ρ.fitOf_usable L ff X y hxy (h ρ (mem_of_mem_compress hρ)))) q.1
    by_cases hx : ∃ ρ ∈ compress rs g, ρ.kind.call ρ.bounds q.1 = true
    · rw [this.1 hx, add_zero]
    · obtain ⟨q1, q2⟩ := this.2 fun ρ hρ => by
        cases hb : ρ.kind.call ρ.bounds q.1 with
        | false => rfl
        | true => exact absurd ⟨ρ, hρ, hb⟩ hx
      rw [q1, q2, mul_zero]
  rw [he]
  have hmax : ∀ z : K, 1 / 10000 < max z (1 / 10000) → max z (1 / 10000) = z := by
    intro z hz
    refine max_eq_left ?_
    by_contra hcon
    rw [max_eq_right (not_le.mp hcon).le] at hz
    exact absurd hz (lt_irrefl _)
  intro p1 p2
  rw [hmax _ p1, hmax _ p2]

theorem meanLearner_scales : meanLearner.Scales := by
  intro X y a x _ hxy
  have hs : (y.map (a * ·)).sum = a * y.sum := by
    clear hxy
    induction y with
    | nil => simp
    | cons b bs ih => simp only [List.map_cons, List.sum_cons, mul_add]; rw [ih]
  simp only [meanLearner, List.length_map, hs, mul_div_assoc]

/-- Conditions of the two theorems are met by the two rules `[0,1]` and `[1,2]` on targets `0, 1, 5` and on the doubled targets. -/
example : ∃ pool₁ pool₂, [intervalRule 0 1, intervalRule 1 2].mapM (Rule.fit meanLearner negErr [![0], ![1], ![2]] [0, 1, 5]) = .ok pool₁ ∧
    [intervalRule 0 1, intervalRule 1 2].mapM (Rule.fit meanLearner negErr [![0], ![1], ![2]] ([0, 1, 5].map (2 * ·))) = .ok pool₂ ∧
    (∀ ρ ∈ pool₁, ρ.AboveFloor) ∧ (∀ ρ ∈ pool₂, ρ.AboveFloor) := by
  refine ⟨[{ intervalRule 0 1 with model := some (1/2), st := some ⟨true, ((1/4 : ℚ) : WithTop ℚ), ((-1/4 : ℚ) : WithBot ℚ), 2, [1/2, 1/2], [true, true, false]⟩ },
      { intervalRule 1 2 with model := some 3, st := some ⟨true, ((4 : ℚ) : WithTop ℚ), ((-4 : ℚ) : WithBot ℚ), 2, [3, 3], [false, true, true]⟩ }],
    [{ intervalRule 0 1 with model := some 1, st := some ⟨true, ((1 : ℚ) : WithTop ℚ), ((-1 : ℚ) : WithBot ℚ), 2, [1, 1], [true, true, false]⟩ },
      { intervalRule 1 2 with model := some 6, st := some ⟨true, ((16 : ℚ) : WithTop ℚ), ((-16 : ℚ) : WithBot ℚ), 2, [6, 6], [false, true, true]⟩ }],
    by decide +kernel, by decide +kernel, ?_, ?_⟩
  all_goals
    simp only [List.forall_mem_cons, List.not_mem_nil, false_imp_iff, implies_true, and_true]
    exact ⟨⟨_, rfl, WithTop.coe_lt_coe.mpr (by norm_num)⟩, ⟨_, rfl, WithTop.coe_lt_coe.mpr (by norm_num)⟩⟩

/-- C124 (refuted): the rules `[0,1]` and `[1,2]` on targets `0, 1, 5`, and on these targets divided by 1000. The first model predicts `11/17` for the sample 1,
the second one `7/4000` and not `11/17000`: after the division both errors are below the floor of `1e-4` and the rules count the same. -/
theorem C124_refuted : ∃ (L : Learner ℚ 1 ℚ) (rs pool₁ pool₂ : List (Rule ℚ 1 ℚ)), L.Scales ∧ (∀ ρ ∈ rs, ρ.FreshOn [![0], ![1], ![2]]) ∧
    rs.mapM (Rule.fit L negErr [![0], ![1], ![2]] [0, 1, 5]) = .ok pool₁ ∧
    rs.mapM (Rule.fit L negErr [![0], ![1], ![2]] ([0, 1, 5].map (1/1000 * ·))) = .ok pool₂ ∧
    Solution.predict L ⟨.plain, 1⟩ filterAll false { genome := [true, true], pool := pool₁ } [![1]] = .ok [11/17] ∧
    Solution.predict L ⟨.plain, 1⟩ filterAll false { genome := [true, true], pool := pool₂ } [![1]] = .ok [7/4000] := by
  refine ⟨meanLearner, [intervalRule 0 1, intervalRule 1 2],
    [{ intervalRule 0 1 with model := some (1/2), st := some ⟨true, ((1/4 : ℚ) : WithTop ℚ), ((-1/4 : ℚ) : WithBot ℚ), 2, [1/2, 1/2], [true, true, false]⟩ },
      { intervalRule 1 2 with model := some 3, st := some ⟨true, ((4 : ℚ) : WithTop ℚ), ((-4 : ℚ) : WithBot ℚ), 2, [3, 3], [false, true, true]⟩ }],
    [{ intervalRule 0 1 with model := some (1/2000), st := some ⟨true, ((1/10000 : ℚ) : WithTop ℚ), ((-1/10000 : ℚ) : WithBot ℚ), 2, [1/2000, 1/2000], [true, true, false]⟩ },
      { intervalRule 1 2 with model := some (3/1000), st := some ⟨true, ((1/10000 : ℚ) : WithTop ℚ), ((-1/10000 : ℚ) : WithBot ℚ), 2, [3/1000, 3/1000], [false, true, true]⟩ }],
    meanLearner_scales, ?_, by decide +kernel, by decide +kernel, by decide +kernel, by decide +kernel⟩
  simp only [List.forall_mem_cons, List.not_mem_nil, false_imp_iff, implies_true, and_true]
  exact ⟨⟨rfl, rfl, ![0], by simp, by decide +kernel⟩, ⟨rfl, rfl, ![1], by simp, by decide +kernel⟩⟩

/-! ## C125 the order of the training samples -/

/-- Learners whose predictions do not depend on the order of the training samples: least squares, means (in exact arithmetic). -/
def Learner.OrderFree (L : Learner K d M) : Prop :=
  ∀ (D D' : List (Point K d × K)) (x : Point K d), D.Perm D' →
    L.predict (L.fit (D'.map Prod.fst) (D'.map Prod.snd)) x = L.predict (L.fit (D.map Prod.fst) (D.map Prod.snd)) x

theorem meanSqErr_perm (f : Point K d → K) {D D' : List (Point K d × K)} (h : D.Perm D') : meanSqErr f D' = meanSqErr f D := by
  unfold meanSqErr
  rw [(h.map fun q => (q.2 - f q.1) ^ 2).sum_eq, h.length_eq]

theorem matchedData_perm (ρ : Rule K d M) {X X' : List (Point K d)} {y y' : List K} (h : (X.zip y).Perm (X'.zip y')) :
    (matchedData ρ X y).Perm (matchedData ρ X' y') := h.filter _

theorem mem_of_zip_perm {X X' : List (Point K d)} {y y' : List K} (hxy : y.length = X.length) (h : (X.zip y).Perm (X'.zip y')) {x : Point K d}
    (hx : x ∈ X) : x ∈ X' := by
  rw [← List.map_fst_zip (l₁ := X) (l₂ := y) (by omega)] at hx
  obtain ⟨q, hq, rfl⟩ := List.mem_map.mp hx
  exact (List.of_mem_zip (h.subset hq)).1

theorem Rule.FreshOn.perm {X X' : List (Point K d)} {y y' : List K} (hxy : y.length = X.length) (h : (X.zip y).Perm (X'.zip y'))
    {ρ : Rule K d M} (hρ : ρ.FreshOn X) : ρ.FreshOn X' := by
  obtain ⟨h0, h1, x, hx, hm⟩ := hρ
  exact ⟨h0, h1, x, mem_of_zip_perm hxy h hx, hm⟩

theorem fitOf_perm (L : Learner K d M) (hL : L.OrderFree) (ρ : Rule K d M) {X X' : List (Point K d)} {y y' : List K} (h : (X.zip y).Perm (X'.zip y')) :
    meanSqErr (L.predict (L.fit ((matchedData ρ X' y').map Prod.fst) ((matchedData ρ X' y').map Prod.snd))) (matchedData ρ X' y') =
      meanSqErr (L.predict (L.fit ((matchedData ρ X y).map Prod.fst) ((matchedData ρ X y).map Prod.snd))) (matchedData ρ X y) := by
  rw [meanSqErr_perm _ (matchedData_perm ρ h)]
  congr 1
  funext x
  exact hL _ _ x (matchedData_perm ρ h)

/-- C125: reordering the training samples (with their targets) changes neither the error, the fitness and the experience of a rule nor its local predictions. -/
theorem C125_rule_order (L : Learner K d M) (hL : L.OrderFree) (ff : RuleFitness K d) (X X' : List (Point K d)) (y y' : List K)
    (hxy : y.length = X.length) (hxy' : y'.length = X'.length) (hperm : (X.zip y).Perm (X'.zip y')) (ρ : Rule K d M) (h : ρ.FreshOn X) :
    ∃ ρ₁ ρ₂ s₁ s₂, ρ.fit L ff X y = .ok ρ₁ ∧ ρ.fit L ff X' y' = .ok ρ₂ ∧ ρ₁.st = some s₁ ∧ ρ₂.st = some s₂ ∧
      s₂.isFitted = s₁.isFitted ∧ s₂.error = s₁.error ∧ s₂.fitness = s₁.fitness ∧ s₂.experience = s₁.experience ∧ s₁.pred.Perm s₂.pred ∧
      ∀ x u, ρ₁.LocalPrediction L x u → ρ₂.LocalPrediction L x u := by
  refine ⟨_, _, _, _, ρ.fit_fitOf L ff X y hxy h, ρ.fit_fitOf L ff X' y' hxy' (h.perm hxy hperm), rfl, rfl, rfl, ?_, ?_, ?_, ?_, ?_⟩
  · rw [fitOf_perm L hL ρ hperm]
  · rw [fitOf_perm L hL ρ hperm]
  · exact (matchedData_perm ρ hperm).length_eq.symm
  · refine ((matchedData_perm ρ hperm).map _).trans (List.Perm.of_eq ?_)
    exact List.map_congr_left fun (q : Point K d × K) _ => (hL _ _ q.1 (matchedData_perm ρ hperm)).symm
  · rintro x u ⟨m, hm, rfl⟩
    simp only [Rule.fitOf, Option.some.injEq] at hm
    subst hm
    exact ⟨_, rfl, (hL _ _ x (matchedData_perm ρ hperm)).symm⟩

theorem fitOf_perm_rel (L : Learner K d M) (hL : L.OrderFree) (ff : RuleFitness K d) (P : MixParams K) {X X' : List (Point K d)} {y y' : List K}
    (hperm : (X.zip y).Perm (X'.zip y')) (ρ : Rule K d M) :
    RuleRel L P 1 0 1 (ρ.fitOf L ff X y) (ρ.fitOf L ff X' y') := by
  refine ⟨rfl, rfl, fun x => ?_, ?_⟩
  · simp only [Rule.valueAt, Rule.fitOf, one_mul, add_zero]
    exact hL _ _ x (matchedData_perm ρ hperm)
  · simp only [Rule.tauVal, Rule.fitOf, one_mul]
    rw [fitOf_perm L hL ρ hperm, (matchedData_perm ρ hperm).length_eq]

theorem mixAt_reordered (L : Learner K d M) (hL : L.OrderFree) (ff : RuleFitness K d) (P : MixParams K) {X X' : List (Point K d)} {y y' : List K} (hperm : (X.zip y).Perm (X'.zip y'))
    (sub : List (Rule K d M)) (x : Point K d) : mixAt L P (sub.map (Rule.fitOf L ff X' y')) x = mixAt L P (sub.map (Rule.fitOf L ff X y)) x := by
  have hv : ∀ ρ : Rule K d M, (ρ.fitOf L ff X' y').valueAt L x = (ρ.fitOf L ff X y).valueAt L x := fun ρ => by
    have := (fitOf_perm_rel L hL ff P hperm ρ).value x
    rwa [one_mul, add_zero] at this
  have ht : ∀ ρ : Rule K d M, (ρ.fitOf L ff X' y').tauVal P = (ρ.fitOf L ff X y).tauVal P := fun ρ => by
    have := (fitOf_perm_rel L hL ff P hperm ρ).weight
    rwa [one_mul] at this
  have hn : numAt L P (sub.map (Rule.fitOf L ff X' y')) x = numAt L P (sub.map (Rule.fitOf L ff X y)) x := by
    unfold numAt
    rw [List.filter_map, List.filter_map, List.map_map, List.map_map]
    refine congrArg List.sum (List.map_congr_left fun ρ _ => ?_)
    simp only [Function.comp, hv, ht]
  have hd : denAt P (sub.map (Rule.fitOf L ff X' y')) x = denAt P (sub.map (Rule.fitOf L ff X y)) x := by
    unfold denAt
    rw [List.filter_map, List.filter_map, List.map_map, List.map_map]
    refine congrArg List.sum (List.map_congr_left fun ρ _ => ?_)
    simp only [Function.comp, ht]
  unfold mixAt
  rw [hn, hd]

/-- C125: fit the same rules on the training samples in two orders. For every selection of rules the two models make the same predictions, and the two solutions have
the same error, complexity and fitness. -/
theorem C125_model_order (L : Learner K d M) (hL : L.OrderFree) (ff : RuleFitness K d) (P : MixParams K) (sf : SolFitness K) (X X' : List (Point K d)) (y y' : List K) (hxy : y.length = X.length) (hxy' : y'.length = X'.length)
    (hne : X ≠ []) (hperm : (X.zip y).Perm (X'.zip y'))
    (rs pool₁ pool₂ : List (Rule K d M)) (h : ∀ ρ ∈ rs, ρ.FreshOn X)
    (h1 : rs.mapM (Rule.fit L ff X y) = .ok pool₁) (h2 : rs.mapM (Rule.fit L ff X' y') = .ok pool₂)
    (g : List Bool) (hg : g.length = rs.length) :
    (∀ Z, Solution.predict L P filterAll false { genome := g, pool := pool₁ } Z = Solution.predict L P filterAll false { genome := g, pool := pool₂ } Z) ∧
    ∃ σ₁ σ₂ s, Solution.fit L P filterAll sf X y { genome := g, pool := pool₁ } = .ok σ₁ ∧
      Solution.fit L P filterAll sf X' y' { genome := g, pool := pool₂ } = .ok σ₂ ∧ σ₁.st = some s ∧ σ₂.st = some s := by
  have h' : ∀ ρ ∈ rs, ρ.FreshOn X' := fun ρ hρ => (h ρ hρ).perm hxy hperm
  have hne' : X' ≠ [] := by
    obtain ⟨x, hx⟩ := List.exists_mem_of_ne_nil X hne
    exact List.ne_nil_of_mem (mem_of_zip_perm hxy hperm hx)
  have hsub : ∀ ρ ∈ compress rs g, ρ.FreshOn X := fun ρ hρ => h ρ (mem_of_mem_compress hρ)
  rw [fitAll_eq L ff X y hxy rs h h1, fitAll_eq L ff X' y' hxy' rs h' h2]
  constructor
  · intro Z
    unfold Solution.predict Solution.subpopulation
    rw [if_pos (by simpa using hg), if_pos (by simpa using hg)]
    dsimp only
    rw [← compress_map, ← compress_map, mixing_all_uncached L P Z _ ?_, mixing_all_uncached L P Z _ ?_]
    · refine congrArg Except.ok (List.map_congr_left fun x _ => ?_)
      exact (mixAt_reordered L hL ff P hperm _ x).symm
    · intro ρ hρ
      obtain ⟨r, hr, rfl⟩ := List.mem_map.mp hρ
      exact (r.fitOf_usable L ff X' y' hxy' (h' r (mem_of_mem_compress hr))).ready
    · intro ρ hρ
      obtain ⟨r, hr, rfl⟩ := List.mem_map.mp hρ
      exact (r.fitOf_usable L ff X y hxy (h r (mem_of_mem_compress hr))).ready
  · rw [solFit_fitOf L ff P sf X y hxy hne rs h g hg, solFit_fitOf L ff P sf X' y' hxy' hne' rs h' g hg]
    refine ⟨_, _, _, rfl, rfl, rfl, ?_⟩
    rw [meanSqErr_perm _ hperm, show mixAt L P ((compress rs g).map (Rule.fitOf L ff X' y')) = mixAt L P ((compress rs g).map (Rule.fitOf L ff X y)) from
      funext fun x => mixAt_reordered L hL ff P hperm _ x]

theorem meanLearner_orderFree : meanLearner.OrderFree := by
  intro D D' x h
  simp only [meanLearner, List.length_map]
  rw [(h.map Prod.snd).sum_eq, h.length_eq]

/-- Three samples in two orders; both rules are fresh and match some of them. -/
example : (([![0], ![1], ![2]] : List (Point ℚ 1)).zip [(0 : ℚ), 1, 5]).Perm (([![2], ![0], ![1]] : List (Point ℚ 1)).zip [5, 0, 1]) ∧
    (∀ ρ ∈ [intervalRule 0 1, intervalRule 1 2], ρ.FreshOn [![0], ![1], ![2]]) := by
  refine ⟨by decide +kernel, ?_⟩
  simp only [List.forall_mem_cons, List.not_mem_nil, false_imp_iff, implies_true, and_true]
  exact ⟨⟨rfl, rfl, ![0], by simp, by decide +kernel⟩, ⟨rfl, rfl, ![1], by simp, by decide +kernel⟩⟩

end Suprb
