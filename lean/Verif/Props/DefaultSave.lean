import Verif.Props.Default
import Verif.Props.Dump

/-!
# Claims C127, C128: saving models trained with the default components; which rules are accepted
-/

set_option autoImplicit false
set_option linter.unusedSectionVars false

namespace Suprb

open Spec Json

variable {K : Type} [Field K] [LinearOrder K] [IsStrictOrderedRing K] {d : Nat}

/-! ### C127 saving models trained with the default components -/

/-- C127 (partial): training with the default components completes; if the trained model selects at least one rule, it can be saved and loaded, and the loaded model gives the same
predictions, one number per sample. Missing: models that select no rule, see `C127_refuted`. -/
theorem C127_roundtrip_partial (W : Classes) (kinds : Str → Option Kind) (sup : Str) (mix : Val) (ps : Params) (hps : LoadableConfig W kinds sup ps .ordered mix)
    (cfg : SupCfg K) (es : ESCfg K) (ga : GACfg K) (k : Nat) (hs : DefaultSettings cfg es ga k) (sigma : K × K)
    (D : RunDraws K d (LinModel K d)) (hD : D.Possible es ga k sigma) (L : Learner K d (LinModel K d)) (ff : RuleFitness K d) (sf : Nat → SolFitness K) (entropy : Nat)
    (raw : RawData K d) (hraw : raw.finite = true ∧ raw.X.length = raw.y.length ∧ raw.X ≠ []) (st0 : SupState K d (LinModel K d))
    (hinit : cfg.nInitial = 0 ∨ st0.step < cfg.nIter) :
    let r := st0.fit cfg (defaultComp es ga D L ff sf) entropy raw false
    r.Completed ∧ ∃ σ, r.state.elitist = some (.solution σ) ∧
      (compress σ.pool σ.genome ≠ [] → ∃ saved est₁ est₂, dump ⟨ps, r.state⟩ = .ok (saved, est₁) ∧ load W kinds sup saved = .ok est₂ ∧
        saved.pool.length = (compress σ.pool σ.genome).length ∧ ∀ Xq : List (Point K d), est₂.predict L Xq = Est.predict L ⟨ps, r.state⟩ Xq) := by
  obtain ⟨fb, hfb, _⟩ := estimateBounds_ok raw.X hraw.2.2
  have hc : raw.check = .ok (raw.X, raw.y) := by unfold RawData.check; rw [if_pos hraw]
  obtain ⟨h1, _, _, h4, _⟩ := default_result cfg es ga k hs sigma D hD L ff sf entropy raw hc false st0 hinit fb hfb
  have hready : ∀ ρ ∈ (st0.fit cfg (defaultComp es ga D L ff sf) entropy raw false).state.pool, ρ.Ready ∧ ρ.kind = .ordered := by
    intro ρ hρ
    obtain ⟨_, _, _, ⟨s, m, e1, e2, _⟩, _⟩ := (h4 ρ hρ).poolRule hraw.2.1.symm hraw.2.2 hfb hs.beta
    exact ⟨⟨by rw [e1]; rfl, by rw [e2]; rfl⟩, (h4 ρ hρ).fromData.kind⟩
  have hg := defaultComp_good es ga D L ff sf
  obtain ⟨σ, e1, e2⟩ := C56_completed W kinds sup .ordered mix cfg _ hg entropy raw st0 ps hps h1 hready
  obtain ⟨σ', e1', e3⟩ := C59_completed_partial cfg _ hg entropy raw st0 ps h1 fun ρ hρ => (hready ρ hρ).1
  rw [e1] at e1'
  cases e1'
  refine ⟨h1, σ, e1, fun hne => ?_⟩
  obtain ⟨saved, est₁, est₂, a1, a2, a3⟩ := e2 hne
  obtain ⟨saved', est', b1, b2⟩ := e3 hne
  rw [a1] at b1
  cases b1
  exact ⟨saved, est₁, est₂, a1, a2, b2.length_eq.symm, a3 L⟩

/-! ### C128 rules without error are accepted -/

/-- The mean of the squared targets of the samples a rule matches. -/
def meanSqTarget (D : List (Point K d × K)) : K := (D.map fun q => q.2 ^ 2).sum / (D.length : K)

theorem acceptVariance_iff {M : Type} (L : Learner K d M) (X : List (Point K d)) (y : List K) (hxy : y.length = X.length) (beta : K) (hb : 0 < beta)
    (ρ : Rule K d M) (hex : ∃ x ∈ X, ρ.kind.call ρ.bounds x = true) (ht : ρ.TrainedOn L X y) :
    ∃ m, ρ.model = some m ∧ acceptVariance beta y ρ =
      .ok (decide (max (meanSqErr (L.predict m) (matchedData ρ X y)) (1 / 10000) ≤ meanSqTarget (matchedData ρ X y) / beta)) := by
  obtain ⟨⟨s, hs, hms, hexp, _⟩, hdesc⟩ := ht
  obtain ⟨s', m, hs', hm, _, herr⟩ := hdesc hex
  rw [hs] at hs'; cases hs'
  refine ⟨m, hm, ?_⟩
  have hpos : 0 < s.experience := by
    rw [hexp]
    obtain ⟨x, hx, hxm⟩ := hex
    exact List.length_pos_of_mem (List.mem_filter.mpr ⟨hx, hxm⟩)
  have hcy : compress y s.matchSet = (matchedData ρ X y).map Prod.snd := by
    rw [hms]; exact compress_zip _ X y hxy
  have hexp' : s.experience = (matchedData ρ X y).length := by
    rw [hexp, filter_zip_fst _ X y hxy, List.length_map]; rfl
  have hn : (0 : K) < ((matchedData ρ X y).length : K) := by
    rw [hexp'] at hpos; exact_mod_cast hpos
  unfold acceptVariance meanSqTarget
  rw [hs]
  dsimp only
  rw [if_neg (by omega), if_neg (by rw [hms]; simp [hxy]), hcy, List.length_map, if_neg (mul_pos hn hb).ne', herr]
  simp only [WithTop.coe_le_coe, List.map_map, div_div]
  rfl

/-- C128 (partial): a trained rule that predicts every sample it matches exactly is accepted by `Variance(beta)` if and only if the mean of the squared targets of these samples is at
least `1e-4 * beta`. Missing: samples with smaller targets, see `C128_refuted`. -/
theorem C128_exact_rule_partial {M : Type} (L : Learner K d M) (X : List (Point K d)) (y : List K) (hxy : y.length = X.length) (beta : K) (hb : 0 < beta)
    (ρ : Rule K d M) (hex : ∃ x ∈ X, ρ.kind.call ρ.bounds x = true) (ht : ρ.TrainedOn L X y)
    (hexact : ∀ m, ρ.model = some m → ∀ q ∈ matchedData ρ X y, L.predict m q.1 = q.2) :
    acceptVariance beta y ρ = .ok true ↔ beta / 10000 ≤ meanSqTarget (matchedData ρ X y) := by
  obtain ⟨m, hm, ha⟩ := acceptVariance_iff L X y hxy beta hb ρ hex ht
  have h0 : meanSqErr (L.predict m) (matchedData ρ X y) = 0 := by
    unfold meanSqErr
    rw [List.sum_eq_zero, zero_div]
    intro v hv
    obtain ⟨q, hq, rfl⟩ := List.mem_map.mp hv
    rw [hexact m hm q hq, sub_self]
    simp
  rw [ha, h0, max_eq_right (by norm_num), Except.ok.injEq, decide_eq_true_eq, le_div_iff₀ hb]
  constructor <;> intro h <;> linarith

theorem meanSqTarget_lt (c : K) (D : List (Point K d × K)) (hD : D ≠ []) (h : ∀ q ∈ D, q.2 ^ 2 < c) : meanSqTarget D < c := by
  unfold meanSqTarget
  have hn : (0 : K) < (D.length : K) := by exact_mod_cast List.length_pos_of_ne_nil hD
  rw [div_lt_iff₀ hn]
  clear hn
  have key : ∀ D : List (Point K d × K), (∀ q ∈ D, q.2 ^ 2 < c) → (D.map fun q => q.2 ^ 2).sum ≤ c * (D.length : K) ∧ (D ≠ [] → (D.map fun q => q.2 ^ 2).sum < c * (D.length : K)) := by
    intro D
    induction D with
    | nil => intro _; simp
    | cons q D ih =>
      intro h
      have h1 := (ih fun q hq => h q (List.mem_cons_of_mem _ hq)).1
      have h2 := h q (List.mem_cons_self ..)
      have : (((q :: D).map fun q => q.2 ^ 2).sum < c * ((q :: D).length : K)) := by
        rw [List.map_cons, List.sum_cons, List.length_cons]
        push_cast
        linarith
      exact ⟨this.le, fun _ => this⟩
  exact (key D h).2 hD

theorem small_targets_not_accepted {M : Type} (L : Learner K d M) (X : List (Point K d)) (y : List K) (hxy : y.length = X.length) (beta : K) (hb : 1 ≤ beta)
    (hy : ∀ v ∈ y, |v| < 1 / 100) (ρ : Rule K d M) (ht : ρ.TrainedOn L X y) : acceptVariance beta y ρ ≠ .ok true := by
  intro h
  have hb0 : 0 < beta := one_pos.trans_le hb
  obtain ⟨hex, -⟩ := C30_variance L X y hxy beta hb0 ρ ht h
  obtain ⟨m, _, ha⟩ := acceptVariance_iff L X y hxy beta hb0 ρ hex ht
  rw [ha, Except.ok.injEq, decide_eq_true_eq] at h
  have hne : matchedData ρ X y ≠ [] := by
    obtain ⟨x, hx, hxm⟩ := hex
    obtain ⟨i, hi, rfl⟩ := List.getElem_of_mem hx
    intro h0
    have : (X[i], y[i]) ∈ matchedData ρ X y := by
      refine List.mem_filter.mpr ⟨?_, hxm⟩
      rw [← List.getElem_zip (h := by rw [List.length_zip, hxy, Nat.min_self]; exact hi)]
      exact List.getElem_mem _
    rw [h0] at this
    cases this
  have hlt : meanSqTarget (matchedData ρ X y) < 1 / 10000 := by
    refine meanSqTarget_lt _ _ hne fun q hq => ?_
    have h1 := hy q.2 (List.of_mem_zip (List.mem_filter.mp hq).1).2
    have h2 := abs_nonneg q.2
    rw [← sq_abs]
    nlinarith
  have h1 := (le_max_right _ _).trans h
  have h0 : 0 ≤ meanSqTarget (matchedData ρ X y) := by
    by_contra hn
    have : meanSqTarget (matchedData ρ X y) / beta ≤ 0 := div_nonpos_of_nonpos_of_nonneg (not_le.mp hn).le hb0.le
    have : (0 : K) < 1 / 10000 := by norm_num
    linarith
  have h2 : meanSqTarget (matchedData ρ X y) / beta ≤ meanSqTarget (matchedData ρ X y) := div_le_self h0 hb
  linarith

/-- C128, C127 (refuted): if all targets are closer to zero than `0.01`, no rule is ever accepted, however well it fits: training with the default components completes with an empty pool,
every prediction is zero, and the model cannot be saved. This holds for all samples, local models, seeds and random numbers. -/
theorem small_targets_empty (cfg : SupCfg K) (es : ESCfg K) (ga : GACfg K) (k : Nat) (hs : DefaultSettings cfg es ga k) (hbeta : 1 ≤ es.beta) (sigma : K × K)
    (D : RunDraws K d (LinModel K d)) (hD : D.Possible es ga k sigma) (L : Learner K d (LinModel K d)) (ff : RuleFitness K d) (sf : Nat → SolFitness K) (entropy : Nat)
    (raw : RawData K d) (hraw : raw.finite = true ∧ raw.X.length = raw.y.length ∧ raw.X ≠ []) (hy : ∀ v ∈ raw.y, |v| < 1 / 100) (st0 : SupState K d (LinModel K d))
    (hinit : cfg.nInitial = 0 ∨ st0.step < cfg.nIter) (ps : Params) :
    let c := defaultComp es ga D L ff sf
    let r := st0.fit cfg c entropy raw false
    r.Completed ∧ r.state.pool = [] ∧ (∀ Xq : List (Point K d), Xq ≠ [] → r.state.predict c Xq = .ok (List.replicate Xq.length 0)) ∧ dump ⟨ps, r.state⟩ = .error .indexError := by
  intro c r
  obtain ⟨fb, hfb, _⟩ := estimateBounds_ok raw.X hraw.2.2
  have hc : raw.check = .ok (raw.X, raw.y) := by unfold RawData.check; rw [if_pos hraw]
  obtain ⟨h1, h2, _, h4, σ, h5, h6, h7⟩ := default_result cfg es ga k hs sigma D hD L ff sf entropy raw hc false st0 hinit fb hfb
  have hpool : r.state.pool = [] := by
    refine List.eq_nil_iff_forall_not_mem.mpr fun ρ hρ => ?_
    obtain ⟨ρ0, n, e0, _, hf⟩ := (h4 ρ hρ).fromData.fitted
    rw [fits_replicate L ff raw.X raw.y hraw.2.1.symm _ e0 n] at hf
    exact small_targets_not_accepted L raw.X raw.y hraw.2.1.symm es.beta hbeta hy ρ (trainedOn_of_fit L ff raw.X raw.y hraw.2.1.symm ρ0 ρ e0 hf) (h4 ρ hρ).accepted
  have hg := defaultComp_good es ga D L ff sf
  have hst : σ.st.isSome = true := by
    have h1' := h1
    unfold SupState.fit at h1' h5
    obtain ⟨_, s, el, e1, e2, _, _, τ, e3, e4, _⟩ := completed_run cfg _ (runEval cfg _) entropy raw false st0 h1'
    rw [h5] at e3
    cases e3
    have hok := (run_lengths cfg _ hg (runEval cfg _ raw.X raw.y) entropy raw.X raw.y st0.step).2 s e1
    obtain ⟨_, t, ht, _⟩ := hok.elitist_len el e2
    rw [e4 rfl]
    dsimp only
    rw [ht]
    rfl
  have hnil : σ.pool = [] := by rw [h6]; exact hpool
  have hgen : σ.genome = [] := List.length_eq_zero_iff.mp (by rw [h7, hnil]; rfl)
  refine ⟨h1, hpool, ?_, C59_refuted_empty ps _ σ h5 h7 (by rw [hgen]; intro b hb; cases hb) hst⟩
  intro Xq hq
  obtain ⟨σ', out, a1, _, _, a4, a5, a6⟩ := C80_default_predict cfg es ga k hs sigma D hD L ff sf entropy raw hraw false st0 hinit Xq hq
  rw [h5] at a1
  cases a1
  show SupState.predict _ _ _ = _
  rw [a4]
  congr 1
  refine List.eq_replicate_iff.mpr ⟨a5, fun v hv => ?_⟩
  obtain ⟨i, hi, rfl⟩ := List.getElem_of_mem hv
  refine (a6 Xq[i] _ ?_).1 ?_
  · rw [← List.getElem_zip (h := by rw [List.length_zip, a5, Nat.min_self]; exact a5 ▸ hi)]
    exact List.getElem_mem _
  · intro ρ hρ
    rw [hnil, hgen] at hρ
    cases hρ

/-- C128 (refuted): see `small_targets_empty`; with the default values of all parameters. -/
theorem C128_refuted (sigma : K × K) (D : RunDraws K d (LinModel K d)) (hD : D.Possible ESCfg.default GACfg.default 5 sigma) (L : Learner K d (LinModel K d))
    (ff : RuleFitness K d) (sf : Nat → SolFitness K) (entropy : Nat) (raw : RawData K d) (hraw : raw.finite = true ∧ raw.X.length = raw.y.length ∧ raw.X ≠ [])
    (hy : ∀ v ∈ raw.y, |v| < 1 / 100) (st0 : SupState K d (LinModel K d)) :
    let c := defaultComp ESCfg.default GACfg.default D L ff sf
    let r := st0.fit SupCfg.default c entropy raw false
    r.Completed ∧ r.state.pool = [] ∧ ∀ Xq : List (Point K d), Xq ≠ [] → r.state.predict c Xq = .ok (List.replicate Xq.length 0) := by
  have h := small_targets_empty SupCfg.default ESCfg.default GACfg.default 5 ⟨by simp [SupCfg.default], by simp [SupCfg.default], by simp [SupCfg.default], by simp [GACfg.default], by decide,
    fun _ => by simp [ESCfg.default], .inl rfl, by simp [ESCfg.default]⟩ (by simp [ESCfg.default]) sigma D hD L ff sf entropy raw hraw hy st0 (Or.inl rfl) .nil
  exact ⟨h.1, h.2.1, h.2.2.1⟩

/-- C127 (refuted): a model trained with the default values of all parameters on targets closer to zero than `0.01` cannot be saved, for all data, seeds and random numbers. -/
theorem C127_refuted (sigma : K × K) (D : RunDraws K d (LinModel K d)) (hD : D.Possible ESCfg.default GACfg.default 5 sigma) (L : Learner K d (LinModel K d))
    (ff : RuleFitness K d) (sf : Nat → SolFitness K) (entropy : Nat) (raw : RawData K d) (hraw : raw.finite = true ∧ raw.X.length = raw.y.length ∧ raw.X ≠ [])
    (hy : ∀ v ∈ raw.y, |v| < 1 / 100) (st0 : SupState K d (LinModel K d)) (ps : Params) :
    let r := st0.fit SupCfg.default (defaultComp ESCfg.default GACfg.default D L ff sf) entropy raw false
    r.Completed ∧ dump ⟨ps, r.state⟩ = .error .indexError := by
  have h := small_targets_empty SupCfg.default ESCfg.default GACfg.default 5 ⟨by simp [SupCfg.default], by simp [SupCfg.default], by simp [SupCfg.default], by simp [GACfg.default], by decide,
    fun _ => by simp [ESCfg.default], .inl rfl, by simp [ESCfg.default]⟩ (by simp [ESCfg.default]) sigma D hD L ff sf entropy raw hraw hy st0 (Or.inl rfl) ps
  exact ⟨h.1, h.2.2.2⟩

/-! ### Examples -/

/-- A linear regression that fits a constant. -/
def constLearner : Learner ℚ 1 (LinModel ℚ 1) := linLearner fun _ y => ⟨fun _ => 0, y.sum / y.length⟩

/-- A small run with the default components: the model has a rule, and predictions before and after saving and loading agree. -/
def smallRun (y : List ℚ) : SupState ℚ 1 (LinModel ℚ 1) :=
  (SupState.fit smallCfg (defaultComp smallES smallGA (firstDraws 2 1 (1 / 2)) constLearner negErr fun _ _ _ c => c) 7 ⟨[![0], ![1], ![5]], y, true⟩ false {}).state

example : dumpLoadPredict ⟨dumpConfig dumpDefault, smallRun [1, 3, 7]⟩ [![0], ![1], ![5]] = (.ok [1, 3, 0], .ok [1, 3, 0]) := by decide +kernel

/-- The same run with all targets divided by 1000 learns nothing. -/
example : (smallRun [1 / 1000, 3 / 1000, 7 / 1000]).pool.length = 0 ∧ (smallRun [1, 3, 7]).pool.length = 2 := by decide +kernel

/-- The random numbers of `firstDraws` for a population of 32. -/
def firstDraws32 : RunDraws K d (LinModel K d) :=
  { firstDraws 5 32 1 with
    ga := fun _ _ _ size => if size = 0 then [] else
      List.replicate 32 ⟨.tournament (List.replicate 32 (List.replicate 5 0)), fun _ _ => (0, .nPoint [1]), fun _ _ => 1⟩ }

theorem firstDraws32_possible : (firstDraws32 : RunDraws K d (LinModel K d)).Possible ESCfg.default GACfg.default 5 (1, 1) := by
  have h := firstDraws_possible (M := LinModel K d) (d := d) (ESCfg.default : ESCfg K) rfl { GACfg.default with populationSize := 2 } rfl 5 32 1 zero_le_one (1, 1)
  have key : ∀ gens size : Nat, ¬size = 0 → PossibleGA (GACfg.default : GACfg K) 5 size
      (List.replicate gens ⟨.tournament (List.replicate 32 (List.replicate 5 0)), fun _ _ => (0, .nPoint [1]), fun _ _ => 1⟩) := by
    intro gens
    induction gens with
    | zero => intro _ _; trivial
    | succ g ih =>
      intro size hne
      refine ⟨⟨_, rfl⟩, ⟨by simp [GACfg.default], ?_⟩, ih _ (by simp [GACfg.default])⟩
      intro js hjs
      rw [(List.mem_replicate.mp hjs).2]
      refine ⟨by simp, fun j hj => ?_⟩
      rw [(List.mem_replicate.mp hj).2]
      omega
  refine ⟨h.origins, h.children, ?_⟩
  intro seed hist n size
  unfold firstDraws32
  dsimp only
  split
  · trivial
  · rename_i hne
    exact key 32 size hne

/-- The hypotheses of the theorems hold for a run with the default values of all parameters. -/
example : DefaultSettings (K := ℚ) SupCfg.default ESCfg.default GACfg.default 5 ∧
    (firstDraws32 : RunDraws ℚ 1 (LinModel ℚ 1)).Possible ESCfg.default GACfg.default 5 (1, 1) ∧
    LoadableConfig dumpClasses dumpKinds (str "suprb.SupRB") (dumpConfig dumpDefault) .ordered (dumpMixing dumpDefault) :=
  ⟨⟨by simp [SupCfg.default], by simp [SupCfg.default], by simp [SupCfg.default], by simp [GACfg.default], by decide, fun _ => by simp [ESCfg.default], .inl rfl, by simp [ESCfg.default]⟩,
    firstDraws32_possible, dump_loadable⟩

/-- A rule that predicts its only sample exactly: accepted for the target 1, not for the target 1/1000. -/
example : ((Rule.fit constLearner negErr [![0]] [1] { kind := .ordered, bounds := ![(0, 1)], inputSpace := ![(0, 1)] } >>= acceptVariance 1 [1]) = .ok true) ∧
    ((Rule.fit constLearner negErr [![0]] [1 / 1000] { kind := .ordered, bounds := ![(0, 1)], inputSpace := ![(0, 1)] } >>= acceptVariance 1 [1 / 1000]) = .ok false) := by
  decide +kernel

end Suprb
