import Verif.Props.Ridge

/-!
# C152: predictions and the range of the targets
-/

set_option autoImplicit false
set_option linter.unusedSectionVars false

namespace Suprb

open _root_.Spec (Pairs Point)
open Json

variable {K : Type} [Field K] [LinearOrder K] [IsStrictOrderedRing K] {d : Nat} {M : Type}

/-- A local model that never leaves the range of the targets it was trained on, such as their mean, or the values of neighbours. -/
def Learner.Averages (L : Learner K d M) : Prop :=
  ∀ (X : List (Point K d)) (y : List K) (a b : K), y ≠ [] → y.length = X.length → (∀ t ∈ y, a ≤ t ∧ t ≤ b) → ∀ x, a ≤ L.predict (L.fit X y) x ∧ L.predict (L.fit X y) x ≤ b

/-- C152 for local models that stay in the range of their targets: every prediction of a model trained with the default components (but this local model), for any query, lies in the range of
the training targets where a selected rule matches, and is zero elsewhere. (Missing: the default local model, for which it is false, see `C152_refuted`.) -/
theorem C152_averaging_partial (cfg : SupCfg K) (es : ESCfg K) (ga : GACfg K) (k : Nat) (hs : DefaultSettings cfg es ga k) (sigma : K × K) (L : Learner K d M) (hL : L.Averages)
    (D : RunDraws K d M) (hD : D.Possible es ga k sigma) (ff : RuleFitness K d) (sf : Nat → SolFitness K) (entropy : Nat)
    (raw : RawData K d) (hraw : raw.finite = true ∧ raw.X.length = raw.y.length ∧ raw.X ≠ []) (cl : Bool) (st0 : SupState K d M)
    (hinit : cfg.nInitial = 0 ∨ st0.step < cfg.nIter) (a b : K) (hab : ∀ t ∈ raw.y, a ≤ t ∧ t ≤ b) (Xq : List (Point K d)) (hq : Xq ≠ []) :
    let r := st0.fit cfg (defaultComp es ga D L ff sf) entropy raw cl
    ∃ out, r.state.predict (defaultComp es ga D L ff sf) Xq = .ok out ∧ out.length = Xq.length ∧ ∀ v ∈ out, v = 0 ∨ (a ≤ v ∧ v ≤ b) := by
  obtain ⟨σ, out, h1, h2, h3, h4, h5, h6⟩ := C80_default_predict cfg es ga k hs sigma D hD L ff sf entropy raw hraw cl st0 hinit Xq hq
  refine ⟨out, h4, h5, fun v hv => ?_⟩
  obtain ⟨i, hi, rfl⟩ := List.getElem_of_mem hv
  obtain ⟨a1, a2⟩ := h6 (Xq[i]'(by omega)) out[i] (List.mem_iff_getElem.mpr ⟨i, by simp [hi]; omega, by simp⟩)
  by_cases hex : ∃ ρ ∈ compress σ.pool σ.genome, ρ.kind.call ρ.bounds (Xq[i]'(by omega)) = true
  · right
    refine a2 hex a b (fun ρ hρ hm u hu => ?_)
    obtain ⟨s, m, _, hmod, hfit, _⟩ := (h3 ρ hρ).trained
    have hne := matchedData_ne_nil raw.X raw.y hraw.2.1.symm ρ (h3 ρ hρ).matched
    obtain ⟨m', hm', rfl⟩ := hu
    rw [hmod] at hm'
    cases hm'
    rw [hfit]
    refine hL _ _ a b (by simpa using hne) (by simp) (fun t ht => ?_) _
    obtain ⟨q, hq', rfl⟩ := List.mem_map.mp ht
    exact hab _ (List.of_mem_zip (List.mem_of_mem_filter hq')).2
  · left
    refine a1 fun ρ hρ => ?_
    by_contra hne
    exact hex ⟨ρ, hρ, by simpa using hne⟩

theorem ridge_close (alpha : K) (ha : 0 < alpha) (D : List (Point K d × K)) (a b : K) (hab : ∀ q ∈ D, a ≤ q.2 ∧ q.2 ≤ b) (q : Point K d × K) (hq : q ∈ D) :
    (q.2 - (ridge alpha).predict ((ridge alpha).fit (D.map Prod.fst) (D.map Prod.snd)) q.1) ^ 2 ≤ (D.length : K) * ((b - a) / 2) ^ 2 := by
  have hD : D ≠ [] := List.ne_nil_of_mem hq
  have hr : IsRidge alpha D (ridgeFit alpha (D.map Prod.fst) (D.map Prod.snd)) := by
    have := ridgeFit_isRidge ha (D.map Prod.fst) (D.map Prod.snd) (by simpa using hD) (by simp)
    rwa [zip_fst_snd] at this
  have h1 := ridge_le_constant alpha ha D _ hr ((a + b) / 2)
  have h2 : (q.2 - LinModel.predict (ridgeFit alpha (D.map Prod.fst) (D.map Prod.snd)) q.1) ^ 2 ≤
      (D.map fun p => (p.2 - LinModel.predict (ridgeFit alpha (D.map Prod.fst) (D.map Prod.snd)) p.1) ^ 2).sum :=
    List.single_le_sum (by
      intro v hv
      obtain ⟨p, _, rfl⟩ := List.mem_map.mp hv
      exact sq_nonneg _) _ (List.mem_map.mpr ⟨q, hq, rfl⟩)
  have h3 : (D.map fun p => (p.2 - (a + b) / 2) ^ 2).sum ≤ (D.length : K) * ((b - a) / 2) ^ 2 := by
    have := List.sum_le_card_nsmul (D.map fun p => (p.2 - (a + b) / 2) ^ 2) (((b - a) / 2) ^ 2) (by
      intro v hv
      obtain ⟨p, hp, rfl⟩ := List.mem_map.mp hv
      obtain ⟨l, u⟩ := hab p hp
      refine sq_le_sq' ?_ ?_ <;> linarith)
    rwa [List.length_map, nsmul_eq_mul] at this
  exact h2.trans (h1.trans h3)

/-- C152 for the default local model, what holds instead: on a training sample that a selected rule matches, the prediction differs from the target by at most the square root of the number of
samples times half the range of the targets (`r` is any upper bound of that). -/
theorem C152_training_samples_partial (cfg : SupCfg K) (es : ESCfg K) (ga : GACfg K) (k : Nat) (hs : DefaultSettings cfg es ga k) (sigma : K × K) (alpha : K) (ha : 0 < alpha)
    (D : RunDraws K d (LinModel K d)) (hD : D.Possible es ga k sigma) (ff : RuleFitness K d) (sf : Nat → SolFitness K) (entropy : Nat)
    (raw : RawData K d) (hraw : raw.finite = true ∧ raw.X.length = raw.y.length ∧ raw.X ≠ []) (cl : Bool) (st0 : SupState K d (LinModel K d))
    (hinit : cfg.nInitial = 0 ∨ st0.step < cfg.nIter) (a b : K) (hab : ∀ t ∈ raw.y, a ≤ t ∧ t ≤ b) (r : K) (hr0 : 0 ≤ r)
    (hr : (raw.X.length : K) * ((b - a) / 2) ^ 2 ≤ r ^ 2) :
    let res := st0.fit cfg (defaultComp es ga D (ridge alpha) ff sf) entropy raw cl
    ∃ out, res.state.predict (defaultComp es ga D (ridge alpha) ff sf) raw.X = .ok out ∧ out.length = raw.X.length ∧
      ∀ t v, (t, v) ∈ raw.y.zip out → v = 0 ∨ |v - t| ≤ r := by
  obtain ⟨σ, out, h1, h2, h3, h4, h5, h6⟩ := C80_default_predict cfg es ga k hs sigma D hD (ridge alpha) ff sf entropy raw hraw cl st0 hinit raw.X hraw.2.2
  refine ⟨out, h4, h5, fun t v htv => ?_⟩
  obtain ⟨i, hi, hiv⟩ := List.getElem_of_mem htv
  rw [List.length_zip] at hi
  rw [List.getElem_zip, Prod.mk.injEq] at hiv
  obtain ⟨rfl, rfl⟩ := hiv
  have hiX : i < raw.X.length := by omega
  obtain ⟨a1, a2⟩ := h6 raw.X[i] (out[i]'(by omega)) (List.mem_iff_getElem.mpr ⟨i, by simp; omega, by simp⟩)
  by_cases hex : ∃ ρ ∈ compress σ.pool σ.genome, ρ.kind.call ρ.bounds raw.X[i] = true
  · right
    have := a2 hex ((raw.y[i]'(by omega)) - r) ((raw.y[i]'(by omega)) + r) (fun ρ hρ hm u hu => ?_)
    · rw [abs_le]; constructor <;> linarith [this.1, this.2]
    obtain ⟨s, m, _, hmod, hfit, _⟩ := (h3 ρ hρ).trained
    obtain ⟨m', hm', rfl⟩ := hu
    rw [hmod] at hm'
    cases hm'
    have hmem : (raw.X[i], raw.y[i]'(by omega)) ∈ matchedData ρ raw.X raw.y := by
      unfold matchedData
      rw [List.mem_filter]
      exact ⟨List.mem_iff_getElem.mpr ⟨i, by simp; omega, by simp⟩, hm⟩
    have hclose := ridge_close alpha ha (matchedData ρ raw.X raw.y) a b (fun q hq' => hab _ (List.of_mem_zip (List.mem_of_mem_filter hq')).2) _ hmem
    rw [← hfit] at hclose
    have hlen : ((matchedData ρ raw.X raw.y).length : K) ≤ (raw.X.length : K) := by
      have : (matchedData ρ raw.X raw.y).length ≤ raw.X.length := by
        unfold matchedData
        refine (List.length_filter_le _ _).trans ?_
        rw [List.length_zip]
        omega
      exact_mod_cast this
    have hsq : ((raw.y[i]'(by omega)) - (ridge alpha).predict m raw.X[i]) ^ 2 ≤ r ^ 2 :=
      hclose.trans ((mul_le_mul_of_nonneg_right hlen (sq_nonneg _)).trans hr)
    have := abs_le.mp (abs_le_of_sq_le_sq hsq hr0)
    constructor <;> linarith [this.1, this.2]
  · left
    refine a1 fun ρ hρ => ?_
    by_contra hne
    exact hex ⟨ρ, hρ, by simpa using hne⟩

/-! ### C152 is false for the default local model -/

/-- The ridge regression of the targets 0, 1, 1 at 0, 1, 2. -/
def risingModel : LinModel ℚ 1 := ⟨![100 / 201], 34 / 201⟩

theorem risingModel_isRidge : IsRidge (1 / 100 : ℚ) [(![0], 0), (![1], 1), (![2], 1)] risingModel := by
  apply RidgeNormal.isRidge (by norm_num)
  intro v
  rw [ridgeForm_apply, ridgeRhs_apply]
  simp [risingModel, LinModel.vec, atPoint]
  ring

def risingData : RawData ℚ 1 := { X := [![0], ![1], ![2]], y := [0, 1, 1] }

/-- The rule for all three samples, after fitting. -/
def risingRule : Rule ℚ 1 (LinModel ℚ 1) :=
  { kind := .ordered, bounds := ![(0, 2)], inputSpace := ![(0, 2)], model := some risingModel
    st := some ⟨true, ((6734 / 121203 : ℚ) : WithTop ℚ), ((-(6734 / 121203) : ℚ) : WithBot ℚ), 3, [34 / 201, 134 / 201, 234 / 201], [true, true, true]⟩ }

/-- Rule discovery that finds this rule. -/
noncomputable def risingComp : SupComp ℚ 1 (LinModel ℚ 1) where
  discover := fun _ _ _ _ _ _ n => .ok (List.replicate n risingRule)
  strategy := fun _ _ => gaOptimize ⟨1, 0, 0, 0⟩ []
  initDraw := fun _ _ _ => 0
  learner := ridge (1 / 100)
  mix := ⟨.plain, 1⟩
  filter := filterAll
  fitness := fun _ _ _ c => c

theorem ridge_rising : ridgeFit (1 / 100 : ℚ) [![0], ![1], ![2]] [0, 1, 1] = risingModel :=
  ridgeFit_eq (by norm_num) _ _ (by simp) rfl risingModel_isRidge

/-- C152 is false for the default local model: with the targets 0, 1, 1 at 0, 1, 2 the rule that matches everything is fitted to predict 234/201 at the training sample 2, and so does
the trained model. -/
theorem C152_refuted :
    Rule.fit (ridge (1 / 100)) negErr risingData.X risingData.y { risingRule with model := none, st := none } = .ok risingRule ∧
    (let r := SupState.fit (demoCfg 1 0 1 (-1) 0) risingComp 7 risingData false {}
     r.raised = none ∧ r.state.isError = false ∧ r.state.predict risingComp [![2]] = .ok [234 / 201] ∧ ∀ t ∈ risingData.y, t < 234 / 201) := by
  refine ⟨?_, by decide +kernel⟩
  have hsame : Rule.fit (ridge (1 / 100)) negErr risingData.X risingData.y { risingRule with model := none, st := none } =
      Rule.fit (linLearner fun _ _ => risingModel) negErr risingData.X risingData.y { risingRule with model := none, st := none } := by
    have hms : ({ risingRule with model := none, st := none } : Rule ℚ 1 (LinModel ℚ 1)).matchRows risingData.X = [true, true, true] := by decide +kernel
    unfold Rule.fit
    rw [hms]
    dsimp only
    unfold Rule.refit
    dsimp only
    have hr : (ridge (1 / 100) : Learner ℚ 1 (LinModel ℚ 1)).fit (compress risingData.X [true, true, true]) (compress risingData.y [true, true, true]) = risingModel := ridge_rising
    rw [hr]
    rfl
  rw [hsame]
  have hst : ((Rule.fit (linLearner fun _ _ => risingModel) negErr risingData.X risingData.y { risingRule with model := none, st := none }).toOption.bind fun ρ => ρ.st) = risingRule.st := by
    decide +kernel
  obtain ⟨ρ, hρ, hk, hb, hi, hm⟩ : ∃ ρ : Rule ℚ 1 (LinModel ℚ 1), Rule.fit (linLearner fun _ _ => risingModel) negErr risingData.X risingData.y { risingRule with model := none, st := none } = .ok ρ ∧
      ρ.kind = risingRule.kind ∧ ρ.bounds = risingRule.bounds ∧ ρ.inputSpace = risingRule.inputSpace ∧ ρ.model = risingRule.model := by
    refine ⟨_, rfl, rfl, rfl, rfl, rfl⟩
  rw [hρ] at hst ⊢
  obtain ⟨k, b, i, m, st⟩ := ρ
  dsimp only at hk hb hi hm
  simp only [Except.toOption, Option.bind_some] at hst
  rw [hk, hb, hi, hm, hst]

/-- The mean of the targets is a local model that stays in their range. -/
example : Learner.Averages (⟨fun _ y => y.sum / (y.length : K), fun c _ => c⟩ : Learner K d K) := by
  intro X y a b hy _ hab x
  have hpos : (0 : K) < (y.length : K) := by exact_mod_cast List.length_pos_iff.mpr hy
  refine ⟨?_, ?_⟩
  · show a ≤ y.sum / (y.length : K)
    rw [le_div_iff₀ hpos]
    have := List.card_nsmul_le_sum y a (fun t ht => (hab t ht).1)
    rw [nsmul_eq_mul] at this
    linarith
  · show y.sum / (y.length : K) ≤ b
    rw [div_le_iff₀ hpos]
    have := List.sum_le_card_nsmul y b (fun t ht => (hab t ht).2)
    rw [nsmul_eq_mul] at this
    linarith

/-- The data of the refutation fulfil the hypotheses of the partial theorems (targets in [0, 1], three samples, `r = 1`). -/
example : (risingData.finite = true ∧ risingData.X.length = risingData.y.length ∧ risingData.X ≠ []) ∧ (∀ t ∈ risingData.y, 0 ≤ t ∧ t ≤ 1) ∧
    ((risingData.X.length : ℚ) * ((1 - 0) / 2) ^ 2 ≤ 1 ^ 2) := ⟨⟨rfl, rfl, by simp [risingData]⟩, by decide +kernel, by decide +kernel⟩

end Suprb
