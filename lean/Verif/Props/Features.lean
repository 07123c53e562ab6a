import Verif.Lemmas.Relabel
import Verif.Lemmas.Ridge
import Verif.Props.Default

/-!
# Claims C137, C138: order and units of the features
-/

set_option autoImplicit false
set_option linter.unusedSectionVars false

namespace Suprb

open Spec Json

variable {K : Type} [Field K] [LinearOrder K] [IsStrictOrderedRing K] {d : Nat} {M : Type}

/-! ### Specification -/

/-- New units and a new order of the features: new feature `i` is old feature `π i`, in a unit with factor `a i` and zero point `c i`. -/
def change (π : Equiv.Perm (Fin d)) (a c : Fin d → K) : Relabel K d where
  pt := fun x i => a i * x (π i) + c i
  pr := fun b i => (a i * (b (π i)).1 + c i, a i * (b (π i)).2 + c i)
  noise := fun z i => (a i * (z (π i)).1, a i * (z (π i)).2)

/-- A new order of the features. -/
def reorder (π : Equiv.Perm (Fin d)) : Relabel K d where
  pt := fun x i => x (π i)
  pr := fun b i => b (π i)
  noise := fun z i => z (π i)

theorem reorder_eq (π : Equiv.Perm (Fin d)) : (reorder π : Relabel K d) = change π 1 0 := by
  unfold reorder change
  simp

/-- Two runs draw the same random numbers, as long as what happened before corresponds: the same samples as origins, the same numbers in the composition, and the steps of the mutation
rewritten like the features. -/
structure SameDraws (L : Learner K d M) (T : Relabel K d) (D D' : RunDraws K d M) : Prop where
  origins : ∀ seed hist hist', List.Forall₂ (EventRel (SameRule L T)) hist hist' → D'.origins seed hist' = D.origins seed hist
  children : ∀ seed hist hist', List.Forall₂ (EventRel (SameRule L T)) hist hist' → ∀ r g k, D'.children seed hist' r g k = T.noise (D.children seed hist r g k)
  ga : ∀ seed hist hist', List.Forall₂ (EventRel (SameRule L T)) hist hist' → D'.ga seed hist' = D.ga seed hist
  init : D'.init = D.init

/-! ### The rewriting is lawful -/

theorem foldl_min_affine (a c : K) (ha : 0 < a) (l : List K) (x : K) : (l.map fun v => a * v + c).foldl min (a * x + c) = a * l.foldl min x + c := by
  induction l generalizing x with
  | nil => rfl
  | cons v l ih =>
    rw [List.map_cons, List.foldl_cons, List.foldl_cons, ← ih]
    congr 1
    rw [min_add_add_right, mul_min_of_nonneg _ _ ha.le]

theorem foldl_max_affine (a c : K) (ha : 0 < a) (l : List K) (x : K) : (l.map fun v => a * v + c).foldl max (a * x + c) = a * l.foldl max x + c := by
  induction l generalizing x with
  | nil => rfl
  | cons v l ih =>
    rw [List.map_cons, List.foldl_cons, List.foldl_cons, ← ih]
    congr 1
    rw [max_add_add_right, mul_max_of_nonneg _ _ ha.le]

theorem npClip_affine (a c : K) (ha : 0 < a) (lo hi x : K) : npClip (a * lo + c) (a * hi + c) (a * x + c) = a * npClip lo hi x + c := by
  unfold npClip
  rw [max_add_add_right, ← mul_max_of_nonneg _ _ ha.le, min_add_add_right, ← mul_min_of_nonneg _ _ ha.le]

theorem sortRows_change (π : Equiv.Perm (Fin d)) (a c : Fin d → K) (ha : ∀ i, 0 < a i) (b : Pairs K d) : sortRows ((change π a c).pr b) = (change π a c).pr (sortRows b) := by
  funext i
  simp only [sortRows, change]
  rw [min_add_add_right, max_add_add_right, mul_min_of_nonneg _ _ (ha i).le, mul_max_of_nonneg _ _ (ha i).le]

/-- Minimum ranges that mean the same before and after: both switched off, or converted with the common factor of all features. -/
def SameMinRange (a : Fin d → K) (r r' : K) : Prop := (r ≤ 0 ∧ r' ≤ 0) ∨ ∀ i, r' = a i * r

theorem change_lawful (π : Equiv.Perm (Fin d)) (a c : Fin d → K) (ha : ∀ i, 0 < a i) (r r' : K) (hr : SameMinRange a r r') : (change π a c).Lawful r r' where
  call := by
    intro b x
    unfold OrderedBound.call
    rw [decide_eq_decide]
    have hi : ∀ i, ((a i * (b (π i)).1 + c i ≤ a i * x (π i) + c i ∧ a i * x (π i) + c i ≤ a i * (b (π i)).2 + c i) ↔ ((b (π i)).1 ≤ x (π i) ∧ x (π i) ≤ (b (π i)).2)) := by
      intro i
      rw [add_le_add_iff_right, add_le_add_iff_right, mul_le_mul_iff_right₀ (ha i), mul_le_mul_iff_right₀ (ha i)]
    constructor
    · intro h j
      have := (hi (π.symm j)).mp (h (π.symm j))
      rwa [Equiv.apply_symm_apply] at this
    · intro h i
      exact (hi i).mpr (h (π i))
  mean := by intro x; rfl
  half := by
    intro x h
    simp only [halfnormInit, Except.map, Except.ok.injEq]
    funext i
    simp only [change]
    refine Prod.ext ?_ ?_ <;> dsimp only <;> ring
  mutate := by
    intro m z b
    have e1 : addNoise ((change π a c).noise z) ((change π a c).pr b) = (change π a c).pr (addNoise z b) := by
      funext i; simp only [change, addNoise]; refine Prod.ext ?_ ?_ <;> dsimp only <;> ring
    have e2 : growNoise ((change π a c).noise z) ((change π a c).pr b) = (change π a c).pr (growNoise z b) := by
      funext i; simp only [change, growNoise]; refine Prod.ext ?_ ?_ <;> dsimp only <;> ring
    have e3 : aroundMean ((change π a c).noise z) ((change π a c).pr b) = (change π a c).pr (aroundMean z b) := by
      funext i; simp only [change, aroundMean]; refine Prod.ext ?_ ?_ <;> dsimp only <;> ring
    cases m <;> simp only [Suprb.mutate, Except.map, e1, e2, e3, sortRows_change π a c ha]
  constrain := by
    intro fb b
    have hmin : OrderedBound.minRange r' ((change π a c).pr b) = (change π a c).pr (OrderedBound.minRange r b) := by
      unfold OrderedBound.minRange
      rcases hr with ⟨h1, h2⟩ | h
      · rw [if_neg (not_lt.mpr h1), if_neg (not_lt.mpr h2)]
      · funext i
        have hpos : r' > 0 ↔ r > 0 := by
          rw [h i]
          exact ⟨fun h' => pos_of_mul_pos_right h' (ha i).le |>.trans_eq rfl, fun h' => mul_pos (ha i) h'⟩
        by_cases hr0 : r > 0
        · rw [if_pos (hpos.mpr hr0), if_pos hr0]
          have hlt : (a i * (b (π i)).2 + c i - (a i * (b (π i)).1 + c i) < r') ↔ ((b (π i)).2 - (b (π i)).1 < r) := by
            rw [h i, show a i * (b (π i)).2 + c i - (a i * (b (π i)).1 + c i) = a i * ((b (π i)).2 - (b (π i)).1) from by ring]
            exact mul_lt_mul_iff_right₀ (ha i)
          by_cases hw : (b (π i)).2 - (b (π i)).1 < r
          · rw [if_pos (show ((change π a c).pr b i).2 - ((change π a c).pr b i).1 < r' from hlt.mpr hw)]
            simp only [change, if_pos hw]
            refine Prod.ext ?_ ?_ <;> dsimp only <;> rw [h i] <;> ring
          · rw [if_neg (show ¬ ((change π a c).pr b i).2 - ((change π a c).pr b i).1 < r' from fun h' => hw (hlt.mp h'))]
            simp only [change, if_neg hw]
        · rw [if_neg fun h' => hr0 (hpos.mp h'), if_neg hr0]
    show OrderedBound.clip _ (OrderedBound.minRange r' _) = (change π a c).pr (OrderedBound.clip fb (OrderedBound.minRange r b))
    rw [hmin]
    funext i
    simp only [OrderedBound.clip, change]
    rw [npClip_affine _ _ (ha i), npClip_affine _ _ (ha i)]
  estimate := by
    intro X
    cases X with
    | nil => rfl
    | cons x xs =>
      simp only [List.map_cons, estimateBounds, Except.map, Except.ok.injEq]
      funext i
      simp only [change, List.map_map]
      refine Prod.ext ?_ ?_
      · dsimp only
        rw [← foldl_min_affine _ _ (ha i), List.map_map]; rfl
      · dsimp only
        rw [← foldl_max_affine _ _ (ha i), List.map_map]; rfl

/-! ### The whole training -/

/-- Training and predicting with rewritten features. -/
theorem relabel_fit (T : Relabel K d) (cfg : SupCfg K) (es : ESCfg K) (ga : GACfg K) (r' : K) (hT : T.Lawful es.minRange r') (L : Learner K d M) (hL : L.Indifferent T)
    (ff : RuleFitness K d) (hff : FitnessIndifferent ff T) (sf : Nat → SolFitness K) (D D' : RunDraws K d M) (hD : SameDraws L T D D') (entropy : Nat) (raw : RawData K d)
    (cl : Bool) (st0 st0' : SupState K d M) (hst : StateRel (SameRule L T) st0 st0') :
    let r := st0.fit cfg (defaultComp es ga D L ff sf) entropy raw cl
    let r2 := st0'.fit cfg (defaultComp { es with minRange := r' } ga D' L ff sf) entropy { raw with X := raw.X.map T.pt } cl
    r2.raised = r.raised ∧ List.Forall₂ (SameRule L T) r.state.pool r2.state.pool ∧ List.Forall₂ (EventRel (SameRule L T)) r.trace r2.trace ∧
      ∀ Xq, r2.state.predict (defaultComp { es with minRange := r' } ga D' L ff sf) (Xq.map T.pt) = r.state.predict (defaultComp es ga D L ff sf) Xq := by
  intro r r2
  have hc : CompSim (SameRule L T) (defaultComp es ga D L ff sf) (defaultComp { es with minRange := r' } ga D' L ff sf) raw.X (raw.X.map T.pt) raw.y raw.y := by
    refine ⟨?_, ?_, hD.init⟩
    · intro seed hist hist' el pool pool' n hh hp
      show ERel _ (esDiscover es L ff (D.origins seed hist raw.X.length n) (D.children seed hist) el pool raw.X raw.y n)
        (esDiscover { es with minRange := r' } L ff (D'.origins seed hist' (raw.X.map T.pt).length n) (D'.children seed hist') el pool' (raw.X.map T.pt) raw.y n)
      rw [hD.origins seed hist hist' hh, List.length_map,
        show D'.children seed hist' = fun k g c => T.noise (D.children seed hist k g c) from by funext k g c; exact hD.children seed hist hist' hh k g c]
      exact esDiscover_sim rfl rfl hT hL ff hff _ _ el hp raw.X raw.y n
    · intro seed hist hist' hh
      show (fun n ev pop => gaOptimize ga (D'.ga seed hist' n pop.length) n ev pop) = fun n ev pop => gaOptimize ga (D.ga seed hist n pop.length) n ev pop
      rw [hD.ga seed hist hist' hh]
  have h := fit_sim (raw := raw) (raw' := { raw with X := raw.X.map T.pt }) hc cfg rfl (List.length_map ..) rfl
    (fun pool pool' hp => evalGenome_sim hT _ _ raw.X raw.y hp) entropy cl st0 st0' hst
  refine ⟨h.raised, h.state.pool, h.trace, fun Xq => ?_⟩
  exact predict_sim Xq (Xq.map T.pt) (List.length_map ..) (fun pool pool' hp => mixing_sim hT _ false Xq hp) _ _ h.state

/-- The state of a new estimator. -/
theorem stateRel_new (L : Learner K d M) (T : Relabel K d) (step : Nat) : StateRel (SameRule L T) ({ step := step } : SupState K d M) { step := step } :=
  ⟨rfl, rfl, rfl, .none, .nil, rfl⟩

/-! ### C137 the order of the features -/

/-- What a rule of one model says about the rule of the other at the same position: its bounds are the reordered ones, all of its statistics are the same, and it predicts the same. -/
theorem SameRule.describes {L : Learner K d M} {π : Equiv.Perm (Fin d)} {ρ ρ' : Rule K d M} (h : SameRule L (reorder π) ρ ρ') :
    (∀ i, ρ'.bounds i = ρ.bounds (π i)) ∧ ρ'.st = ρ.st ∧ ∀ x v, ρ.LocalPrediction L x v ↔ ρ'.LocalPrediction L (fun i => x (π i)) v := by
  refine ⟨fun i => by rw [h.bounds]; rfl, h.st, fun x v => ?_⟩
  have hm := h.model
  unfold Rule.LocalPrediction
  revert hm
  generalize ρ.model = m
  generalize ρ'.model = m'
  intro hm
  cases hm with
  | none => simp
  | @some m m' hm =>
    simp only [Option.some.injEq, exists_eq_left']
    rw [show L.predict m' (fun i => x (π i)) = L.predict m x from hm x]

/-- C137 (partial): training on data with reordered columns, with the same random numbers (those of the mutation reordered, too), ends in the same way, gives the same rules with reordered bounds (same errors,
fitness, experience), and the same predictions for reordered samples. For the evolution strategy and the genetic algorithm with ordered bounds, and local models and rule fitness that do not depend on the order.
Missing: other matching types, see `C137_operators_partial` and `C137_unordered_refuted`. -/
theorem C137_order_partial (π : Equiv.Perm (Fin d)) (cfg : SupCfg K) (es : ESCfg K) (ga : GACfg K) (L : Learner K d M) (hL : L.Indifferent (reorder π))
    (ff : RuleFitness K d) (hff : FitnessIndifferent ff (reorder π)) (sf : Nat → SolFitness K) (D D' : RunDraws K d M) (hD : SameDraws L (reorder π) D D') (entropy step : Nat) (raw : RawData K d) (cl : Bool) :
    let r := SupState.fit cfg (defaultComp es ga D L ff sf) entropy raw cl { step := step }
    let r2 := SupState.fit cfg (defaultComp es ga D' L ff sf) entropy { raw with X := raw.X.map fun x i => x (π i) } cl { step := step }
    r2.raised = r.raised ∧ List.Forall₂ (fun ρ ρ' => (∀ i, ρ'.bounds i = ρ.bounds (π i)) ∧ ρ'.st = ρ.st ∧ ∀ x v, ρ.LocalPrediction L x v ↔ ρ'.LocalPrediction L (fun i => x (π i)) v)
        r.state.pool r2.state.pool ∧
      ∀ Xq, r2.state.predict (defaultComp es ga D' L ff sf) (Xq.map fun x i => x (π i)) = r.state.predict (defaultComp es ga D L ff sf) Xq := by
  have hT : (reorder π : Relabel K d).Lawful es.minRange es.minRange := by
    rw [reorder_eq]; exact change_lawful π 1 0 (fun _ => one_pos) _ _ (.inr fun _ => by simp)
  obtain ⟨h1, h2, _, h4⟩ := relabel_fit (reorder π) cfg es ga es.minRange hT L hL ff hff sf D D' hD entropy raw cl _ _ (stateRel_new L _ step)
  exact ⟨h1, h2.imp fun _ _ h => h.describes, h4⟩

/-- C137 (partial): for every matching type, matching, volume, clipping, all initialisations and mutations act on each feature separately, in the same way for all of them. So does the minimum range, except for
unordered bounds, see `C137_unordered_refuted`. -/
theorem C137_operators_partial (π : Equiv.Perm (Fin d)) (k : Kind) (b fb z : Pairs K d) (x : Point K d) (m : Mutation) (r : K) :
    k.call (fun i => b (π i)) (fun i => x (π i)) = k.call b x ∧ k.volume (fun i => b (π i)) = k.volume b ∧
      k.clip (fun i => fb (π i)) (fun i => b (π i)) = (fun i => k.clip fb b (π i)) ∧ meanInit k (fun i => x (π i)) = (fun i => meanInit k x (π i)) ∧
      normalInit k (fun i => z (π i)) = (fun i => normalInit k z (π i)) ∧
      halfnormInit k (fun i => x (π i)) (fun i => z (π i)) = (halfnormInit k x z).map (fun b i => b (π i)) ∧
      mutate m k (fun i => z (π i)) (fun i => b (π i)) = (mutate m k z b).map (fun b i => b (π i)) ∧
      (k ≠ .unordered → k.minRange r (fun i => b (π i)) = fun i => k.minRange r b (π i)) := by
  have hall : ∀ P : Fin d → Prop, (∀ i, P (π i)) ↔ ∀ i, P i := fun P => π.forall_congr_left.trans (by simp)
  have hprod : ∀ f : Fin d → K, ∏ i, f (π i) = ∏ i, f i := fun f => Equiv.prod_comp π f
  refine ⟨?_, ?_, ?_, ?_, ?_, ?_, ?_, ?_⟩
  · cases k
    · simp only [Kind.call, OrderedBound.call, decide_eq_decide]; exact hall fun i => (b i).1 ≤ x i ∧ x i ≤ (b i).2
    · simp only [Kind.call, UnorderedBound.call, decide_eq_decide]; exact hall fun i => min (b i).1 (b i).2 ≤ x i ∧ x i ≤ max (b i).1 (b i).2
    · simp only [Kind.call, CenterSpread.call, decide_eq_decide]; exact hall fun i => (b i).1 - (b i).2 ≤ x i ∧ x i ≤ (b i).1 + (b i).2
    · simp only [Kind.call, MinPercentage.call, decide_eq_decide]; exact hall fun i => (b i).1 ≤ x i ∧ x i ≤ (b i).1 + (b i).2 * (1 - (b i).1)
  · cases k
    · exact hprod fun i => (b i).2 - (b i).1
    · exact hprod fun i => max ((b i).2 - (b i).1) (-((b i).2 - (b i).1))
    · exact hprod (CenterSpread.widths b)
    · exact hprod (MinPercentage.widths b)
  · cases k <;> rfl
  · cases k <;> rfl
  · cases k <;> rfl
  · cases k <;> rfl
  · cases m <;> cases k <;> rfl
  · intro hk
    cases k
    · simp only [Kind.minRange, OrderedBound.minRange]; split <;> rfl
    · exact absurd rfl hk
    · simp only [Kind.minRange, CenterSpread.minRange]; split <;> rfl
    · simp only [Kind.minRange, MinPercentage.minRange]; split <;> rfl

/-- C137 (refuted): for unordered bounds the minimum range widens the interval of another feature than the too narrow one, depending on the position of the features. The rule `[0, 5] × [0, 0]` with minimum range 1 becomes
`[-1/2, 11/2] × [0, 0]`; with exchanged features it becomes `[-1/2, 1/2] × [0, 5]`. The sample `(1, 1/4)` is matched after exchanging the features only. -/
theorem C137_unordered_refuted : ∃ (b : Pairs ℚ 2) (r : ℚ) (x : Point ℚ 2) (π : Equiv.Perm (Fin 2)),
    UnorderedBound.call (UnorderedBound.minRange r b) x = false ∧ UnorderedBound.call (UnorderedBound.minRange r fun i => b (π i)) (fun i => x (π i)) = true :=
  ⟨![(0, 5), (0, 0)], 1, ![1, 1 / 4], Equiv.swap 0 1, by decide +kernel, by decide +kernel⟩

/-! ### The default local model and fitness -/

/-- Ridge regression does not depend on the order of the features and not on the zero points of their units. -/
theorem ridge_indifferent (alpha : K) (ha : 0 < alpha) (π : Equiv.Perm (Fin d)) (c : Fin d → K) : (ridge alpha : Learner K d (LinModel K d)).Indifferent (change π 1 c) := by
  intro X y x hX hxy
  have hpred : ∀ (m : LinModel K d) (x : Point K d),
      LinModel.predict ⟨fun i => m.coef (π i), m.intercept - ∑ i, m.coef (π i) * c i⟩ ((change π 1 c).pt x) = m.predict x := by
    intro m x
    simp only [LinModel.predict, change, Pi.one_apply, one_mul, mul_add, Finset.sum_add_distrib]
    rw [Equiv.sum_comp π fun i => m.coef i * x i]
    ring
  have h : IsRidge alpha ((X.map (change π 1 c).pt).zip y)
      ⟨fun i => (ridgeFit alpha X y).coef (π i), (ridgeFit alpha X y).intercept - ∑ i, (ridgeFit alpha X y).coef (π i) * c i⟩ := by
    refine IsRidge.transfer (D := X.zip y) (fun m => ⟨fun i => m.coef (π i), m.intercept - ∑ i, m.coef (π i) * c i⟩)
      (fun m => ⟨fun i => m.coef (π.symm i), m.intercept + ∑ i, m.coef i * c i⟩) (fun m => by simp) 1 zero_le_one (fun m => ?_) (ridgeFit_isRidge ha X y hX hxy)
    unfold ridgeLoss
    rw [one_mul, List.zip_map_left, List.map_map]
    congr 2
    · refine List.map_congr_left fun q _ => ?_
      simp only [Function.comp, Prod.map, id]
      rw [hpred]
    · dsimp only
      rw [Equiv.sum_comp π fun i => m.coef i ^ 2]
  show LinModel.predict (ridgeFit alpha (X.map (change π 1 c).pt) y) _ = LinModel.predict (ridgeFit alpha X y) x
  rw [ridgeFit_eq ha _ _ (by simpa using hX) (by simpa using hxy) h, hpred]

/-- The default rule fitness depends on neither order nor units. -/
theorem volumeWu_indifferent {d : Nat} (nan : ℝ) (π : Equiv.Perm (Fin d)) (a c : Fin d → ℝ) (ha : ∀ i, 0 < a i) : FitnessIndifferent (volumeWu nan : RuleFitness ℝ d) (change π a c) := by
  intro e b sp
  have hprod : ∀ b : Pairs ℝ d, ∏ i, (((change π a c).pr b i).2 - ((change π a c).pr b i).1) = (∏ i, a i) * ∏ i, ((b i).2 - (b i).1) := by
    intro b
    rw [← Equiv.prod_comp π fun i => (b i).2 - (b i).1, ← Finset.prod_mul_distrib]
    refine Finset.prod_congr rfl fun i _ => ?_
    simp only [change]
    ring
  have hpos : (∏ i, a i) ≠ 0 := (Finset.prod_pos fun i _ => ha i).ne'
  unfold volumeWu volumeFitness
  have e1 : inputSpaceVolume ((change π a c).pr sp) = (∏ i, a i) * inputSpaceVolume sp := hprod sp
  have e2 : Kind.volume .ordered ((change π a c).pr b) = (∏ i, a i) * Kind.volume .ordered b := hprod b
  have e3 : (inputSpaceVolume ((change π a c).pr sp) = 0) = (inputSpaceVolume sp = 0) := by
    rw [e1, mul_eq_zero, or_iff_right hpos]
  rw [e2, e1, mul_div_mul_left _ _ hpos]
  simp only [mul_eq_zero, hpos, false_or]

/-- C137 (partial): the default configuration (ridge regression with `alpha = 1/100`, `VolumeWu`, `ComplexityWu`, all default parameters). -/
theorem C137_default_partial {d : Nat} (π : Equiv.Perm (Fin d)) (nan nan' : ℝ) (D D' : RunDraws ℝ d (LinModel ℝ d)) (hD : SameDraws (ridge (1 / 100)) (reorder π) D D') (entropy step : Nat)
    (raw : RawData ℝ d) (cl : Bool) :
    let r := SupState.fit SupCfg.default (defaultComp ESCfg.default GACfg.default D (ridge (1 / 100)) (volumeWu nan) (complexityWu nan')) entropy raw cl { step := step }
    let r2 := SupState.fit SupCfg.default (defaultComp ESCfg.default GACfg.default D' (ridge (1 / 100)) (volumeWu nan) (complexityWu nan')) entropy
      { raw with X := raw.X.map fun x i => x (π i) } cl { step := step }
    r2.raised = r.raised ∧ ∀ Xq, r2.state.predict (defaultComp ESCfg.default GACfg.default D' (ridge (1 / 100)) (volumeWu nan) (complexityWu nan')) (Xq.map fun x i => x (π i)) =
      r.state.predict (defaultComp ESCfg.default GACfg.default D (ridge (1 / 100)) (volumeWu nan) (complexityWu nan')) Xq := by
  intro r r2
  have h := C137_order_partial π SupCfg.default ESCfg.default GACfg.default (ridge (1 / 100)) (by rw [reorder_eq]; exact ridge_indifferent _ (by norm_num) π 0) (volumeWu nan)
    (by rw [reorder_eq]; exact volumeWu_indifferent nan π 1 0 fun _ => one_pos) (complexityWu nan') D D' hD entropy step raw cl
  exact ⟨h.1, h.2.2⟩

/-! ### C138 the units of the features -/

/-- C138 (partial): training on data in other units (a positive factor and an offset per feature), with the same random numbers and the steps of the mutation converted, ends in the same way and gives the same predictions, if the minimum
range is switched off or converted with the factor common to all features, for local models and rule fitness that do not depend on the units. Missing: the default minimum range, which is the same number in
all units, see `C138_min_range_refuted`, and the default local model, see `C138_ridge_refuted`. -/
theorem C138_units_partial (a c : Fin d → K) (ha : ∀ i, 0 < a i) (cfg : SupCfg K) (es : ESCfg K) (ga : GACfg K) (r' : K) (hr : SameMinRange a es.minRange r') (L : Learner K d M)
    (hL : L.Indifferent (change 1 a c)) (ff : RuleFitness K d) (hff : FitnessIndifferent ff (change 1 a c)) (sf : Nat → SolFitness K) (D D' : RunDraws K d M)
    (hD : SameDraws L (change 1 a c) D D') (entropy step : Nat) (raw : RawData K d) (cl : Bool) :
    let r := SupState.fit cfg (defaultComp es ga D L ff sf) entropy raw cl { step := step }
    let r2 := SupState.fit cfg (defaultComp { es with minRange := r' } ga D' L ff sf) entropy { raw with X := raw.X.map fun x i => a i * x i + c i } cl { step := step }
    r2.raised = r.raised ∧ List.Forall₂ (fun ρ ρ' => (∀ i, ρ'.bounds i = (a i * (ρ.bounds i).1 + c i, a i * (ρ.bounds i).2 + c i)) ∧ ρ'.st = ρ.st) r.state.pool r2.state.pool ∧
      ∀ Xq, r2.state.predict (defaultComp { es with minRange := r' } ga D' L ff sf) (Xq.map fun x i => a i * x i + c i) = r.state.predict (defaultComp es ga D L ff sf) Xq := by
  obtain ⟨h1, h2, _, h4⟩ := relabel_fit (change 1 a c) cfg es ga r' (change_lawful 1 a c ha _ _ hr) L hL ff hff sf D D' hD entropy raw cl _ _ (stateRel_new L _ step)
  exact ⟨h1, h2.imp fun _ _ h => ⟨fun i => by rw [h.bounds]; rfl, h.st⟩, h4⟩

/-- C138 (partial): moving the zero points of the features does not matter for the default configuration (ridge regression with `alpha = 1/100`, `VolumeWu`, `ComplexityWu`, all default parameters). -/
theorem C138_default_offset_partial {d : Nat} (c : Fin d → ℝ) (nan nan' : ℝ) (D D' : RunDraws ℝ d (LinModel ℝ d)) (hD : SameDraws (ridge (1 / 100)) (change 1 1 c) D D') (entropy step : Nat)
    (raw : RawData ℝ d) (cl : Bool) :
    let r := SupState.fit SupCfg.default (defaultComp ESCfg.default GACfg.default D (ridge (1 / 100)) (volumeWu nan) (complexityWu nan')) entropy raw cl { step := step }
    let r2 := SupState.fit SupCfg.default (defaultComp ESCfg.default GACfg.default D' (ridge (1 / 100)) (volumeWu nan) (complexityWu nan')) entropy
      { raw with X := raw.X.map fun x i => x i + c i } cl { step := step }
    r2.raised = r.raised ∧ ∀ Xq, r2.state.predict (defaultComp ESCfg.default GACfg.default D' (ridge (1 / 100)) (volumeWu nan) (complexityWu nan')) (Xq.map fun x i => x i + c i) =
      r.state.predict (defaultComp ESCfg.default GACfg.default D (ridge (1 / 100)) (volumeWu nan) (complexityWu nan')) Xq := by
  intro r r2
  have h := C138_units_partial 1 c (fun _ => one_pos) SupCfg.default ESCfg.default GACfg.default (ESCfg.default : ESCfg ℝ).minRange (.inr fun _ => by simp) (ridge (1 / 100))
    (ridge_indifferent _ (by norm_num) 1 c) (volumeWu nan) (volumeWu_indifferent nan 1 1 c fun _ => one_pos) (complexityWu nan') D D' hD entropy step raw cl
  simp only [Pi.one_apply, one_mul] at h
  exact ⟨h.1, h.2.2⟩

/-- C138 (refuted): the default minimum range `1e-6` is an absolute number. Training on two samples at distance `1e-7` gives a model that predicts the mean of their targets; in units that are `1e7` times smaller it separates the samples. -/
theorem C138_min_range_refuted : ∃ (D : RunDraws ℚ 1 ℚ) (raw : RawData ℚ 1) (Xq : List (Point ℚ 1)), D.Possible smallES smallGA 2 (1, 1) ∧ meanLearner.Indifferent (change 1 (fun _ : Fin 1 => (10000000 : ℚ)) 0) ∧
    SameDraws meanLearner (change 1 (fun _ : Fin 1 => (10000000 : ℚ)) 0) D D ∧
    (SupState.fit smallCfg (defaultComp smallES smallGA D meanLearner negErr fun _ _ _ c => c) 7 raw false {}).state.predict (defaultComp smallES smallGA D meanLearner negErr fun _ _ _ c => c) Xq = .ok [2, 2] ∧
    (SupState.fit smallCfg (defaultComp smallES smallGA D meanLearner negErr fun _ _ _ c => c) 7 { raw with X := raw.X.map fun x i => 10000000 * x i } false {}).state.predict
      (defaultComp smallES smallGA D meanLearner negErr fun _ _ _ c => c) (Xq.map fun x i => 10000000 * x i) = .ok [1, 3] := by
  refine ⟨firstDraws 2 1 0, ⟨[![0], ![1 / 10000000]], [1, 3], true⟩, [![0], ![1 / 10000000]], firstDraws_possible _ rfl _ rfl _ _ _ le_rfl _, fun X y x _ _ => rfl, ?_, by decide +kernel, by decide +kernel⟩
  exact ⟨fun _ _ _ _ => rfl, fun _ _ _ _ r g k => by funext i; simp [firstDraws, change], fun _ _ _ _ => rfl, rfl⟩

/-- C138 (refuted): ridge regression, the default local model, shrinks slopes by an amount that depends on the unit. For the targets 0 and 1 at the points 0 and 1 it predicts 101/102 for the second sample, in units half as large it predicts 401/402. -/
theorem C138_ridge_refuted : (ridge (1 / 100 : ℚ)).predict ((ridge (1 / 100)).fit [![0], ![1]] [0, 1]) (![1] : Point ℚ 1) = 101 / 102 ∧
    (ridge (1 / 100 : ℚ)).predict ((ridge (1 / 100)).fit ([![0], ![1]].map fun (x : Point ℚ 1) i => 2 * x i) [0, 1]) (fun i => 2 * (![1] : Point ℚ 1) i) = 401 / 402 := by
  have h1 : IsRidge (1 / 100 : ℚ) ([(![0] : Point ℚ 1), ![1]].zip [0, 1]) ⟨![50 / 51], 1 / 102⟩ := by
    apply RidgeNormal.isRidge (by norm_num)
    intro v
    rw [ridgeForm_apply, ridgeRhs_apply]
    simp [LinModel.vec, atPoint]
    ring
  have h2 : IsRidge (1 / 100 : ℚ) (([(![0] : Point ℚ 1), ![1]].map fun (x : Point ℚ 1) i => 2 * x i).zip [0, 1]) ⟨![100 / 201], 1 / 402⟩ := by
    apply RidgeNormal.isRidge (by norm_num)
    intro v
    rw [ridgeForm_apply, ridgeRhs_apply]
    simp [LinModel.vec, atPoint]
    ring
  constructor
  · show LinModel.predict (ridgeFit _ _ _) _ = _
    rw [ridgeFit_eq (by norm_num) _ _ (by simp) (by simp) h1]
    norm_num [LinModel.predict]
  · show LinModel.predict (ridgeFit _ _ _) _ = _
    rw [ridgeFit_eq (by norm_num) _ _ (by simp) (by simp) h2]
    norm_num [LinModel.predict]

/-! ### Examples -/

/-- The mean of the targets as local model for two features. -/
def meanLearner2 : Learner ℚ 2 ℚ := ⟨fun _ y => y.sum / (y.length : ℚ), fun m _ => m⟩

/-- The negated error as fitness of rules with two features. -/
def negErr2 : RuleFitness ℚ 2 := fun e _ _ _ => -e

/-- A run with two features and the run with exchanged features; the steps of the mutation are the same for both features. -/
example : SameDraws meanLearner2 (reorder (Equiv.swap 0 1)) (firstDraws 2 1 (1 / 2)) (firstDraws 2 1 (1 / 2)) ∧ meanLearner2.Indifferent (reorder (Equiv.swap 0 1)) ∧
    FitnessIndifferent negErr2 (reorder (Equiv.swap 0 1)) ∧
    (SupState.fit smallCfg (defaultComp smallES smallGA (firstDraws 2 1 (1 / 2)) meanLearner2 negErr2 fun _ _ _ c => c) 7 ⟨[![0, 3], ![1, 3], ![5, 0]], [1, 3, 7], true⟩ false {}).state.predict
      (defaultComp smallES smallGA (firstDraws 2 1 (1 / 2)) meanLearner2 negErr2 fun _ _ _ c => c) [![0, 3], ![1, 3], ![5, 0]] = .ok [1, 3, 0] :=
  ⟨⟨fun _ _ _ _ => rfl, fun _ _ _ _ _ _ _ => rfl, fun _ _ _ _ => rfl, rfl⟩, fun _ _ _ _ _ => rfl, fun _ _ _ => rfl, by decide +kernel⟩

/-- Random numbers of the mutation that differ between the features, and the exchanged ones. -/
example : SameDraws meanLearner2 (reorder (Equiv.swap 0 1)) { firstDraws 2 1 0 with children := fun _ _ _ _ _ => ![(1, 2), (3, 4)] }
    { firstDraws 2 1 0 with children := fun _ _ _ _ _ => ![(3, 4), (1, 2)] } :=
  ⟨fun _ _ _ _ => rfl, fun _ _ _ _ _ _ _ => by funext i; fin_cases i <;> rfl, fun _ _ _ _ => rfl, rfl⟩

/-- Units with different factors and offsets without minimum range, and a common factor with converted minimum range. -/
example : SameMinRange (![2, 3] : Fin 2 → ℚ) 0 0 ∧ SameMinRange (![2, 2] : Fin 2 → ℚ) (1 / 1000000) (1 / 500000) ∧ (∀ i, 0 < (![2, 3] : Fin 2 → ℚ) i) ∧
    meanLearner2.Indifferent (change 1 ![2, 3] ![1, -1]) :=
  ⟨.inl ⟨le_rfl, le_rfl⟩, .inr fun i => by fin_cases i <;> norm_num, fun i => by fin_cases i <;> norm_num, fun _ _ _ _ _ => rfl⟩

end Suprb
