import Verif.Props.Solution
import Verif.Props.Matching
import Mathlib.Tactic.Ring

/-!
# C120–C122: how much a rule influences a prediction
-/

set_option autoImplicit false
set_option linter.unusedSectionVars false

namespace Suprb

open Spec

variable {K : Type} [Field K] [LinearOrder K] [IsStrictOrderedRing K] {d : Nat} {M : Type}

/-- In every batch that contains the sample `x`, the solution (default filter, nothing cached) predicts `v` for it. -/
def Solution.PredictsAt (L : Learner K d M) (P : MixParams K) (σ : Solution K d M) (x : Point K d) (v : K) : Prop :=
  ∀ (X : List (Point K d)) (j : Nat), X[j]? = some x → ∃ out, σ.predict L P filterAll false X = .ok out ∧ out[j]? = some v

theorem predictsAt_iff (L : Learner K d M) (P : MixParams K) (σ : Solution K d M) (hlen : σ.genome.length = σ.pool.length)
    (hp : ∀ ρ ∈ σ.pool, ρ.Usable) (x : Point K d) (v : K) :
    σ.PredictsAt L P x v ↔ v = mixAt L P (compress σ.pool σ.genome) x := by
  have key : ∀ X, σ.predict L P filterAll false X = .ok (X.map (mixAt L P (compress σ.pool σ.genome))) := by
    intro X
    unfold Solution.predict Solution.subpopulation
    rw [if_pos hlen]
    exact mixing_all_uncached L P X _ fun ρ h => (hp ρ (mem_of_mem_compress h)).ready
  constructor
  · intro h
    obtain ⟨out, h1, h2⟩ := h [x] 0 rfl
    rw [key] at h1
    cases h1
    simpa using h2.symm
  · rintro rfl X j hj
    exact ⟨_, key X, by rw [List.getElem?_map, hj]; rfl⟩

/-! ### C120 accurate and experienced rules have more influence -/

theorem clipOpt_mono (lo hi : Option K) {x y : K} (h : x ≤ y) : clipOpt lo hi x ≤ clipOpt lo hi y := by
  unfold clipOpt
  dsimp only
  have h1 : ∀ l : Option K, (match l with | none => x | some l => max x l) ≤ (match l with | none => y | some l => max y l) := by
    intro l; cases l with
    | none => exact h
    | some l => exact max_le_max h le_rfl
  cases hi with
  | none => exact h1 lo
  | some u => exact min_le_min (h1 lo) le_rfl

theorem ExpCalc.value_mono (c : ExpCalc K) (d : Nat) {m n : Nat} (h : m ≤ n) : c.value d m ≤ c.value d n := by
  have hc : (m : K) ≤ (n : K) := by exact_mod_cast h
  cases c with
  | plain => exact hc
  | cap lo hi => exact clipOpt_mono _ _ hc
  | capDim lo hi => exact clipOpt_mono _ _ hc

/-- Replacing one weight by a larger one moves the weighted mean towards the value of that entry. -/
theorem weighted_pull {N D u t t' : K} (hD : 0 ≤ D) (ht : 0 < t) (htt : t ≤ t') :
    ∃ c, 0 < c ∧ c ≤ 1 ∧ (t < t' → c < 1) ∧ (N + u * t') / (D + t') - u = c * ((N + u * t) / (D + t) - u) := by
  have h1 : 0 < D + t := by linarith
  have h2 : 0 < D + t' := by linarith
  refine ⟨(D + t) / (D + t'), div_pos h1 h2, (div_le_one h2).mpr (by linarith), fun h => (div_lt_one h2).mpr (by linarith), ?_⟩
  field_simp
  ring

/-- `ρ'` is the same rule as `ρ` (same region, same local model) with at most its error and at least its experience. -/
def Rule.Better (ρ ρ' : Rule K d M) : Prop :=
  ρ'.kind = ρ.kind ∧ ρ'.bounds = ρ.bounds ∧ ρ'.model = ρ.model ∧
    ∃ s s', ρ.st = some s ∧ ρ'.st = some s' ∧ s'.error ≤ s.error ∧ s.experience ≤ s'.experience

theorem Rule.Better.tau {P : MixParams K} (hw : 0 < P.weight) (hc : P.expCalc.Positive d) {ρ ρ' : Rule K d M} (h : ρ.Better ρ')
    (hu : ρ.Usable) (hu' : ρ'.Usable) :
    ρ.tauVal P ≤ ρ'.tauVal P ∧ ((∃ s s', ρ.st = some s ∧ ρ'.st = some s' ∧ s'.error < s.error) → ρ.tauVal P < ρ'.tauVal P) := by
  obtain ⟨_, _, _, s, s', hs, hs', herr, hexp⟩ := h
  obtain ⟨s1, m, e, h1, h2, h3, h4, h5⟩ := hu
  obtain ⟨s2, m', e', h1', h2', h3', h4', h5'⟩ := hu'
  rw [hs] at h1; cases h1
  rw [hs'] at h1'; cases h1'
  have hee : e' ≤ e := by rw [h3, h3'] at herr; exact_mod_cast herr
  have hx := P.expCalc.value_mono d hexp
  have hx0 := hc _ h5
  unfold Rule.tauVal
  rw [hs, hs']
  simp only [h3, h3', invError, WithTop.map_coe, WithTop.untopD_coe]
  have hinv : 1 / e ≤ 1 / e' := one_div_le_one_div_of_le h4' hee
  have hb : P.expCalc.value d s.experience * P.weight ≤ P.expCalc.value d s'.experience * P.weight :=
    mul_le_mul_of_nonneg_right hx hw.le
  have hb0 : 0 < P.expCalc.value d s.experience * P.weight := mul_pos hx0 hw
  refine ⟨mul_le_mul hinv hb hb0.le (one_div_pos.mpr h4').le, ?_⟩
  rintro ⟨t, t', ht, ht', hlt⟩
  cases ht; cases ht'
  have hlt' : e' < e := by rw [h3, h3'] at hlt; exact_mod_cast hlt
  have : 1 / e < 1 / e' := one_div_lt_one_div_of_lt h4' hlt'
  exact lt_of_lt_of_le (mul_lt_mul_of_pos_right this hb0) (mul_le_mul_of_nonneg_left hb (one_div_pos.mpr h4').le)

theorem numAt_split (L : Learner K d M) (P : MixParams K) (A B : List (Rule K d M)) (ρ : Rule K d M) (x : Point K d)
    (hm : ρ.kind.call ρ.bounds x = true) :
    numAt L P (A ++ ρ :: B) x = (numAt L P A x + numAt L P B x) + ρ.valueAt L x * ρ.tauVal P := by
  unfold numAt
  rw [List.filter_append, List.filter_cons, if_pos hm]
  simp only [List.map_append, List.map_cons, List.sum_append, List.sum_cons]
  ring

theorem denAt_split (P : MixParams K) (A B : List (Rule K d M)) (ρ : Rule K d M) (x : Point K d)
    (hm : ρ.kind.call ρ.bounds x = true) :
    denAt P (A ++ ρ :: B) x = (denAt P A x + denAt P B x) + ρ.tauVal P := by
  unfold denAt
  rw [List.filter_append, List.filter_cons, if_pos hm]
  simp only [List.map_append, List.map_cons, List.sum_append, List.sum_cons]
  ring

theorem denAt_nonneg (P : MixParams K) (hw : 0 < P.weight) (hc : P.expCalc.Positive d) (sub : List (Rule K d M))
    (h : ∀ ρ ∈ sub, ρ.Usable) (x : Point K d) : 0 ≤ denAt P sub x := by
  unfold denAt
  refine List.sum_nonneg fun t ht => ?_
  obtain ⟨ρ, hρ, rfl⟩ := List.mem_map.mp ht
  exact (Rule.tauVal_pos P hw hc (h ρ (List.mem_filter.mp hρ).1)).le

/-- C120: take a model and improve one selected rule that matches the sample — smaller error or more experience, same region and same local model. The prediction
then moves towards the local prediction of that rule (it keeps the side, and the distance is multiplied by some `0 < c ≤ 1`), and it really moves if the error
became smaller and another value was predicted before. -/
theorem C120_better_rule_pulls (L : Learner K d M) (P : MixParams K) (hw : 0 < P.weight) (hc : P.expCalc.Positive d)
    (A B : List (Rule K d M)) (gA gB : List Bool) (hA : gA.length = A.length) (hB : gB.length = B.length)
    (ρ ρ' : Rule K d M) (hbet : ρ.Better ρ')
    (hpA : ∀ r ∈ A, r.Usable) (hpB : ∀ r ∈ B, r.Usable) (hρ : ρ.Usable) (hρ' : ρ'.Usable)
    (x : Point K d) (hm : ρ.kind.call ρ.bounds x = true) (u : K) (hu : ρ.LocalPrediction L x u) (v v' : K)
    (hv : Solution.PredictsAt L P { genome := gA ++ true :: gB, pool := A ++ ρ :: B } x v)
    (hv' : Solution.PredictsAt L P { genome := gA ++ true :: gB, pool := A ++ ρ' :: B } x v') :
    (∃ c, 0 < c ∧ c ≤ 1 ∧ v' - u = c * (v - u)) ∧
    ((∃ s s', ρ.st = some s ∧ ρ'.st = some s' ∧ s'.error < s.error) → v ≠ u → |v' - u| < |v - u|) := by
  obtain ⟨hk, hbd, hmod, _⟩ := id hbet
  have hm' : ρ'.kind.call ρ'.bounds x = true := by rw [hk, hbd]; exact hm
  have hval : ρ'.valueAt L x = ρ.valueAt L x := by unfold Rule.valueAt; rw [hmod]
  obtain ⟨m, hm1, rfl⟩ := hu
  have huv : ρ.valueAt L x = L.predict m x := ρ.valueAt_of_model L m hm1 x
  have hus : ∀ (r : Rule K d M), r.Usable → ∀ q ∈ A ++ r :: B, q.Usable := by
    intro r hr q hq
    rcases List.mem_append.mp hq with h | h
    · exact hpA q h
    · rcases List.mem_cons.mp h with rfl | h
      · exact hr
      · exact hpB q h
  rw [predictsAt_iff L P _ (by simp [hA, hB]) (hus ρ hρ)] at hv
  rw [predictsAt_iff L P _ (by simp [hA, hB]) (hus ρ' hρ')] at hv'
  have hsub : ∀ r : Rule K d M, compress (A ++ r :: B) (gA ++ true :: gB) = compress A gA ++ r :: compress B gB := by
    intro r; rw [compress_append _ _ _ _ hA.symm]; simp [compress]
  simp only [hsub] at hv hv'
  have hD : 0 ≤ denAt P (compress A gA) x + denAt P (compress B gB) x :=
    add_nonneg (denAt_nonneg P hw hc _ (fun q hq => hpA q (mem_of_mem_compress hq)) x)
      (denAt_nonneg P hw hc _ (fun q hq => hpB q (mem_of_mem_compress hq)) x)
  have ht := Rule.tauVal_pos P hw hc hρ
  have ht' := Rule.tauVal_pos P hw hc hρ'
  obtain ⟨htt, hstrict⟩ := hbet.tau hw hc hρ hρ'
  unfold mixAt at hv hv'
  rw [numAt_split L P _ _ _ x hm, denAt_split P _ _ _ x hm, if_neg (by linarith), huv] at hv
  rw [numAt_split L P _ _ _ x hm', denAt_split P _ _ _ x hm', if_neg (by linarith), hval, huv] at hv'
  obtain ⟨c, hc0, hc1, hc2, hc3⟩ := weighted_pull (N := numAt L P (compress A gA) x + numAt L P (compress B gB) x) (u := L.predict m x) hD ht htt
  rw [← hv, ← hv'] at hc3
  refine ⟨⟨c, hc0, hc1, hc3⟩, fun h hne => ?_⟩
  rw [hc3, abs_mul, abs_of_pos hc0]
  have : 0 < |v - L.predict m x| := abs_pos.mpr (sub_ne_zero.mpr hne)
  nlinarith [hc2 (hstrict h)]

/-- The hypotheses of C120 are met by the example pool: halving the error of the rule `[0,2]` (which predicts 1) moves the prediction for `3/2` from
`23/7` to `26/10`. -/
example : (fittedRule 0 2 1 1 3).Better (fittedRule 0 2 1 (1/2) 3) ∧
    (∃ s s', (fittedRule 0 2 1 1 3).st = some s ∧ (fittedRule 0 2 1 (1/2) 3).st = some s' ∧ s'.error < s.error) ∧
    Solution.predict meanLearner ⟨.plain, 1⟩ filterAll false
      { genome := [] ++ true :: [true], pool := [] ++ fittedRule 0 2 1 1 3 :: [fittedRule 1 3 5 (1/2) 2] } [![3/2]] = .ok [23/7] ∧
    Solution.predict meanLearner ⟨.plain, 1⟩ filterAll false
      { genome := [] ++ true :: [true], pool := [] ++ fittedRule 0 2 1 (1/2) 3 :: [fittedRule 1 3 5 (1/2) 2] } [![3/2]] = .ok [26/10] := by
  refine ⟨⟨rfl, rfl, rfl, _, _, rfl, rfl, ?_, le_rfl⟩, ⟨_, _, rfl, rfl, ?_⟩, by decide +kernel, by decide +kernel⟩
  · show ((1/2 : ℚ) : WithTop ℚ) ≤ ((1 : ℚ) : WithTop ℚ)
    exact_mod_cast (by norm_num : (1/2 : ℚ) ≤ 1)
  · show ((1/2 : ℚ) : WithTop ℚ) < ((1 : ℚ) : WithTop ℚ)
    exact_mod_cast (by norm_num : (1/2 : ℚ) < 1)

/-! ### C121 copies of rules -/

/-- C121 (refuted): selecting a second copy of an already selected rule changes the prediction although no rule was added that was not there. -/
theorem C121_refuted : ∃ (ρ₁ ρ₂ : Rule ℚ 1 ℚ), ρ₁.Usable ∧ ρ₂.Usable ∧
    Solution.predict meanLearner ⟨.plain, 1⟩ filterAll false { genome := [true, true], pool := [ρ₁, ρ₂] } [![3/2]] = .ok [23/7] ∧
    Solution.predict meanLearner ⟨.plain, 1⟩ filterAll false { genome := [true, true, true], pool := [ρ₁, ρ₂, ρ₁] } [![3/2]] = .ok [13/5] :=
  ⟨fittedRule 0 2 1 1 3, fittedRule 1 3 5 (1/2) 2, fittedRule_usable _ _ _ _ _ (by norm_num) (by norm_num),
    fittedRule_usable _ _ _ _ _ (by norm_num) (by norm_num), by decide +kernel, by decide +kernel⟩

theorem sum_map_flatten_replicate {α : Type} (k : Nat) (l : List α) (f : α → K) :
    (((List.replicate k l).flatten).map f).sum = (k : K) * (l.map f).sum := by
  induction k with
  | zero => simp
  | succ k ih =>
    rw [List.replicate_succ, List.flatten_cons, List.map_append, List.sum_append, ih]
    push_cast; ring

/-- C121 (partial): if the selected rules matching a sample are, in any order, `k ≥ 1` copies of those of another model, both predict the same for the
sample. Missing: copying only some of the rules, see `C121_refuted`. -/
theorem C121_uniform_copies_partial (L : Learner K d M) (P : MixParams K) (hw : 0 < P.weight) (hc : P.expCalc.Positive d)
    (σ σ' : Solution K d M) (hlen : σ.genome.length = σ.pool.length) (hlen' : σ'.genome.length = σ'.pool.length)
    (hp : ∀ ρ ∈ σ.pool, ρ.Usable) (hp' : ∀ ρ ∈ σ'.pool, ρ.Usable) (x : Point K d) (k : Nat) (hk : 0 < k)
    (hcopies : ((compress σ'.pool σ'.genome).filter fun ρ => ρ.kind.call ρ.bounds x).Perm
      ((List.replicate k ((compress σ.pool σ.genome).filter fun ρ => ρ.kind.call ρ.bounds x)).flatten))
    (v : K) (hv : σ.PredictsAt L P x v) : σ'.PredictsAt L P x v := by
  rw [predictsAt_iff L P σ hlen hp] at hv
  rw [predictsAt_iff L P σ' hlen' hp', hv]
  have hk' : (k : K) ≠ 0 := by exact_mod_cast hk.ne'
  have hn : numAt L P (compress σ'.pool σ'.genome) x = k * numAt L P (compress σ.pool σ.genome) x := by
    unfold numAt
    rw [(hcopies.map fun ρ => ρ.valueAt L x * ρ.tauVal P).sum_eq, sum_map_flatten_replicate]
  have hd : denAt P (compress σ'.pool σ'.genome) x = k * denAt P (compress σ.pool σ.genome) x := by
    unfold denAt
    rw [(hcopies.map fun ρ => ρ.tauVal P).sum_eq, sum_map_flatten_replicate]
  unfold mixAt
  by_cases h0 : denAt P (compress σ.pool σ.genome) x = 0
  · have hn0 : numAt L P (compress σ.pool σ.genome) x = 0 := by
      by_cases hne : (compress σ.pool σ.genome).filter (fun ρ => ρ.kind.call ρ.bounds x) = []
      · unfold numAt; rw [hne]; rfl
      · exact absurd h0 (sum_pos_of_pos _ _ (fun ρ h => Rule.tauVal_pos P hw hc (hp ρ (mem_of_mem_compress (List.mem_filter.mp h).1))) hne).ne'
    rw [hn, hn0]
    simp
  · rw [hn, hd, if_neg h0, if_neg (mul_ne_zero hk' h0), mul_div_mul_left _ _ hk']

/-- Two copies of both rules, in another order. -/
example : ((compress [fittedRule 0 2 1 1 3, fittedRule 0 2 1 1 3, fittedRule 1 3 5 (1/2) 2, fittedRule 1 3 5 (1/2) 2] [true, true, true, true]).filter
      fun ρ => ρ.kind.call ρ.bounds ![3/2]).Perm
    ((List.replicate 2 ((compress examplePool [true, true, false]).filter fun ρ => ρ.kind.call ρ.bounds ![3/2])).flatten) := by
  decide +kernel

/-! ### C122 predictions are piecewise linear -/

/-- The point at fraction `t` of the way from `x` to `z`. -/
def pointBetween (x z : Point K d) (t : K) : Point K d := fun i => (1 - t) * x i + t * z i

theorem inBox_between {lo hi x z : Point K d} {t : K} (h0 : 0 ≤ t) (h1 : t ≤ 1) (hx : InBox lo hi x) (hz : InBox lo hi z) :
    InBox lo hi (pointBetween x z t) := by
  intro i
  obtain ⟨a, b⟩ := hx i
  obtain ⟨c, e⟩ := hz i
  have h1' : 0 ≤ 1 - t := by linarith
  unfold pointBetween
  constructor
  · nlinarith [mul_le_mul_of_nonneg_left a h1', mul_le_mul_of_nonneg_left c h0]
  · nlinarith [mul_le_mul_of_nonneg_left b h1', mul_le_mul_of_nonneg_left e h0]

/-- C122: a rule that matches two samples matches everything between them, whatever the matching type. -/
theorem C122_convex_region (k : Kind) (b : Pairs K d) (x z : Point K d) (t : K) (h0 : 0 ≤ t) (h1 : t ≤ 1)
    (hx : k.call b x = true) (hz : k.call b z = true) : k.call b (pointBetween x z t) = true := by
  cases k with
  | ordered => rw [C01_ordered] at *; exact inBox_between h0 h1 hx hz
  | unordered => rw [C01_unordered] at *; exact inBox_between h0 h1 hx hz
  | centerSpread => rw [C01_centerSpread] at *; exact inBox_between h0 h1 hx hz
  | minPercentage => rw [C01_minPercentage] at *; exact inBox_between h0 h1 hx hz

/-- Local models that are linear functions of the features (plus a constant), as ridge regression and the other linear models of sklearn. -/
def Learner.Affine (L : Learner K d M) : Prop :=
  ∀ m x z t, L.predict m (pointBetween x z t) = (1 - t) * L.predict m x + t * L.predict m z

/-- C122: with linear local models the prediction is linear between two samples that are matched by the same selected rules, up to points at which a further
selected rule matches: at the fraction `t` of the way it is `(1 - t)` times the prediction for the first plus `t` times the prediction for the second sample. -/
theorem C122_piecewise_linear (L : Learner K d M) (hL : L.Affine) (P : MixParams K)
    (σ : Solution K d M) (hlen : σ.genome.length = σ.pool.length) (hp : ∀ ρ ∈ σ.pool, ρ.Usable)
    (x z : Point K d) (t : K) (h0 : 0 ≤ t) (h1 : t ≤ 1)
    (hsame : ∀ ρ ∈ compress σ.pool σ.genome, ρ.kind.call ρ.bounds x = ρ.kind.call ρ.bounds z)
    (hnew : ∀ ρ ∈ compress σ.pool σ.genome, ρ.kind.call ρ.bounds (pointBetween x z t) = true → ρ.kind.call ρ.bounds x = true)
    (u v : K) (hu : σ.PredictsAt L P x u) (hv : σ.PredictsAt L P z v) :
    σ.PredictsAt L P (pointBetween x z t) ((1 - t) * u + t * v) := by
  rw [predictsAt_iff L P σ hlen hp] at *
  have hus : ∀ ρ ∈ compress σ.pool σ.genome, ρ.Usable := fun ρ h => hp ρ (mem_of_mem_compress h)
  generalize compress σ.pool σ.genome = sub at *
  have e1 : sub.filter (fun ρ => ρ.kind.call ρ.bounds z) = sub.filter fun ρ => ρ.kind.call ρ.bounds x :=
    List.filter_congr fun ρ h => (hsame ρ h).symm
  have e2 : sub.filter (fun ρ => ρ.kind.call ρ.bounds (pointBetween x z t)) = sub.filter fun ρ => ρ.kind.call ρ.bounds x := by
    refine List.filter_congr fun ρ h => ?_
    rw [Bool.eq_iff_iff]
    refine ⟨hnew ρ h, fun hx => C122_convex_region _ _ _ _ _ h0 h1 hx ?_⟩
    rw [← hsame ρ h]; exact hx
  rw [hu, hv]
  unfold mixAt denAt numAt
  rw [e1, e2]
  have e3 : (((sub.filter fun ρ => ρ.kind.call ρ.bounds x).map fun ρ => ρ.valueAt L (pointBetween x z t) * ρ.tauVal P).sum) =
      (1 - t) * (((sub.filter fun ρ => ρ.kind.call ρ.bounds x).map fun ρ => ρ.valueAt L x * ρ.tauVal P).sum) +
      t * (((sub.filter fun ρ => ρ.kind.call ρ.bounds x).map fun ρ => ρ.valueAt L z * ρ.tauVal P).sum) := by
    have hfu : ∀ ρ ∈ sub.filter (fun ρ => ρ.kind.call ρ.bounds x), ρ.Usable := fun ρ h => hus ρ (List.mem_filter.mp h).1
    generalize sub.filter (fun ρ => ρ.kind.call ρ.bounds x) = l at hfu
    induction l with
    | nil => simp
    | cons ρ l ih =>
      obtain ⟨s, m, e, _, hm, _⟩ := hfu ρ (List.mem_cons_self ..)
      simp only [List.map_cons, List.sum_cons]
      rw [ih fun r h => hfu r (List.mem_cons_of_mem _ h), ρ.valueAt_of_model L m hm, ρ.valueAt_of_model L m hm, ρ.valueAt_of_model L m hm, hL]
      ring
  rw [e3]
  ring

/-- Linear functions of one feature. -/
def lineLearner : Learner ℚ 1 (ℚ × ℚ) := ⟨fun _ _ => (1, 0), fun m x => m.1 * x 0 + m.2⟩

theorem lineLearner_affine : lineLearner.Affine := by
  intro m x z t
  simp only [lineLearner, pointBetween]
  ring

/-- A fitted rule with a linear local model. -/
def lineRule (a b : ℚ) (m : ℚ × ℚ) (e : ℚ) (n : Nat) : Rule ℚ 1 (ℚ × ℚ) :=
  { kind := .ordered, bounds := ![(a, b)], inputSpace := ![(0, 3)], model := some m
    st := some ⟨true, ((e : ℚ) : WithTop ℚ), ((0 : ℚ) : WithBot ℚ), n, [], []⟩ }

/-- Two overlapping rules with slopes 1 and −2: between `1` and `2` both match, and the prediction for the middle is the mean of the predictions at the ends. -/
example : (∀ ρ ∈ compress [lineRule 0 2 (1, 0) 1 3, lineRule 1 3 (-2, 6) (1/2) 2] [true, true],
      ρ.kind.call ρ.bounds ![1] = ρ.kind.call ρ.bounds ![2] ∧
      (ρ.kind.call ρ.bounds (pointBetween ![1] ![2] (1/2)) = true → ρ.kind.call ρ.bounds ![1] = true)) ∧
    Solution.predict lineLearner ⟨.plain, 1⟩ filterAll false
      { genome := [true, true], pool := [lineRule 0 2 (1, 0) 1 3, lineRule 1 3 (-2, 6) (1/2) 2] } [![1], ![3/2], ![2]] = .ok [19/7, 33/14, 2] := by
  decide +kernel

end Suprb
