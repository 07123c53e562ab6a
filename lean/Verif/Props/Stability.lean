import Verif.Props.CapFilters
import Verif.Props.Ambiguity
import Verif.Model.Ridge
import Mathlib.Algebra.Order.BigOperators.Group.Finset

/-!
# C176: predictions are as stable as the local models
-/

set_option autoImplicit false
set_option linter.unusedSectionVars false

namespace Suprb

open _root_.Spec (Pairs Point)
open Json

variable {K : Type} [Field K] [LinearOrder K] [IsStrictOrderedRing K] {d : Nat} {M : Type} {S : Type}

/-- Two lists of rules with the same weights, of which the same rules match, one list asked about `x` and the other about `z`: if the local predictions are at most `e` apart, so are the mixed ones. -/
theorem mixAt_close (L L' : Learner K d M) (P : MixParams K) (x z : Point K d) (e : K) (he : 0 ≤ e) (ps : List (Rule K d M × Rule K d M)) (hpos : ∀ p ∈ ps, 0 < p.1.tauVal P)
    (htau : ∀ p ∈ ps, p.2.tauVal P = p.1.tauVal P) (hm : ∀ p ∈ ps, p.2.kind.call p.2.bounds z = p.1.kind.call p.1.bounds x)
    (hv : ∀ p ∈ ps, p.1.kind.call p.1.bounds x = true → |p.1.valueAt L x - p.2.valueAt L' z| ≤ e) :
    |mixAt L P (ps.map Prod.fst) x - mixAt L' P (ps.map Prod.snd) z| ≤ e := by
  set q := ps.filter fun p => p.1.kind.call p.1.bounds x with hq
  have hmem : ∀ p ∈ q, p ∈ ps ∧ p.1.kind.call p.1.bounds x = true := fun p hp => List.mem_filter.mp hp
  have f1 : (ps.map Prod.fst).filter (fun ρ => ρ.kind.call ρ.bounds x) = q.map Prod.fst := by
    rw [List.filter_map]; rfl
  have f2 : (ps.map Prod.snd).filter (fun ρ => ρ.kind.call ρ.bounds z) = q.map Prod.snd := by
    rw [List.filter_map, hq]
    congr 1
    exact List.filter_congr fun p hp => by simp only [Function.comp, hm p hp]
  have d1 : denAt P (ps.map Prod.fst) x = (q.map fun p => p.1.tauVal P).sum := by
    unfold denAt; rw [f1, List.map_map]; rfl
  have d2 : denAt P (ps.map Prod.snd) z = (q.map fun p => p.1.tauVal P).sum := by
    unfold denAt; rw [f2, List.map_map]
    exact congrArg List.sum (List.map_congr_left fun p hp => htau p (hmem p hp).1)
  have n1 : numAt L P (ps.map Prod.fst) x = (q.map fun p => p.1.valueAt L x * p.1.tauVal P).sum := by
    unfold numAt; rw [f1, List.map_map]; rfl
  have n2 : numAt L' P (ps.map Prod.snd) z = (q.map fun p => p.2.valueAt L' z * p.1.tauVal P).sum := by
    unfold numAt; rw [f2, List.map_map]
    exact congrArg List.sum (List.map_congr_left fun p hp => by simp only [Function.comp, htau p (hmem p hp).1])
  unfold mixAt
  rw [d1, d2, n1, n2]
  by_cases hne : q = []
  · rw [hne]; simpa using he
  have hposq : ∀ p ∈ q, 0 < p.1.tauVal P := fun p hp => hpos p (hmem p hp).1
  have hW := sum_pos_of_pos q (fun p => p.1.tauVal P) hposq hne
  have hb := weighted_bounds q (fun p => p.1.valueAt L x - p.2.valueAt L' z) (fun p => p.1.tauVal P) (-e) e hposq fun p hp => abs_le.mp (hv p (hmem p hp).1 (hmem p hp).2)
  have hdiff : (q.map fun p => (p.1.valueAt L x - p.2.valueAt L' z) * p.1.tauVal P).sum =
      (q.map fun p => p.1.valueAt L x * p.1.tauVal P).sum - (q.map fun p => p.2.valueAt L' z * p.1.tauVal P).sum := by
    clear_value q
    clear hb hW hposq hne f1 f2 d1 d2 n1 n2 hmem hq
    induction q with
    | nil => simp
    | cons p q ih => simp only [List.map_cons, List.sum_cons, ih]; ring
  rw [if_neg hW.ne', ← sub_div, ← hdiff, abs_le, le_div_iff₀ hW, div_le_iff₀ hW]
  exact hb

/-- C176: if two samples are matched by the same selected rules, and what each of these rules predicts for the two samples is at most `e` apart, then so are the predictions of the model, with every
filter of the mixing model. -/
theorem C176_samples (L : Learner K d M) (P : MixParams K) (hw : 0 < P.weight) (hc : P.expCalc.Positive d) (G : Gen K S) (k : FilterKind) (s : S)
    (σ : Solution K d M) (hlen : σ.genome.length = σ.pool.length) (hp : ∀ ρ ∈ σ.pool, ρ.Usable) (x z : Point K d)
    (hsame : ∀ ρ ∈ compress σ.pool σ.genome, ρ.kind.call ρ.bounds x = ρ.kind.call ρ.bounds z) (e : K) (he : 0 ≤ e)
    (hclose : ∀ ρ ∈ compress σ.pool σ.genome, ρ.kind.call ρ.bounds x = true → ∀ u v, ρ.LocalPrediction L x u → ρ.LocalPrediction L z v → |u - v| ≤ e)
    (X : List (Point K d)) (i j : Nat) (hi : X[i]? = some x) (hj : X[j]? = some z) (out : List K) (h : (σ.predictS L P G k false X s).1 = .ok out) :
    ∃ u v, out[i]? = some u ∧ out[j]? = some v ∧ |u - v| ≤ e := by
  obtain ⟨kept, hk, hu, rfl⟩ := predictS_kept L P G k s σ hlen hp X out h
  refine ⟨mixAt L P kept x, mixAt L P kept z, by rw [List.getElem?_map, hi]; rfl, by rw [List.getElem?_map, hj]; rfl, ?_⟩
  have := mixAt_close L L P x z e he (kept.map fun ρ => (ρ, ρ)) (by simpa using fun ρ h => Rule.tauVal_pos P hw hc (hu ρ h)) (by simp) (by simpa using fun ρ h => (hsame ρ (hk ρ h)).symm)
    (by
      intro p hp hm
      obtain ⟨ρ, hρ, rfl⟩ := List.mem_map.mp hp
      obtain ⟨_, m, _, _, h2, _⟩ := hu ρ hρ
      rw [Rule.valueAt_of_model L ρ m h2, Rule.valueAt_of_model L ρ m h2]
      exact hclose ρ (hk ρ hρ) hm _ _ ⟨m, h2, rfl⟩ ⟨m, h2, rfl⟩)
  simpa [Function.comp_def] using this

/-- C176 for linear local models, in particular ridge regression: if no coefficient of a matching rule is larger than `B` in size, the predictions for two samples that are matched by the same selected rules
differ by at most `B` times the sum of the differences of their features. -/
theorem C176_linear (fit : List (Point K d) → List K → LinModel K d) (P : MixParams K) (hw : 0 < P.weight) (hc : P.expCalc.Positive d) (G : Gen K S) (k : FilterKind) (s : S)
    (σ : Solution K d (LinModel K d)) (hlen : σ.genome.length = σ.pool.length) (hp : ∀ ρ ∈ σ.pool, ρ.Usable) (x z : Point K d)
    (hsame : ∀ ρ ∈ compress σ.pool σ.genome, ρ.kind.call ρ.bounds x = ρ.kind.call ρ.bounds z) (B : K) (hB : 0 ≤ B)
    (hslope : ∀ ρ ∈ compress σ.pool σ.genome, ρ.kind.call ρ.bounds x = true → ∀ m, ρ.model = some m → ∀ i, |m.coef i| ≤ B)
    (X : List (Point K d)) (i j : Nat) (hi : X[i]? = some x) (hj : X[j]? = some z) (out : List K) (h : (σ.predictS (linLearner fit) P G k false X s).1 = .ok out) :
    ∃ u v, out[i]? = some u ∧ out[j]? = some v ∧ |u - v| ≤ B * ∑ l, |x l - z l| := by
  refine C176_samples (linLearner fit) P hw hc G k s σ hlen hp x z hsame _ (mul_nonneg hB (Finset.sum_nonneg fun _ _ => abs_nonneg _)) ?_ X i j hi hj out h
  rintro ρ hρ hm u v ⟨m, h1, rfl⟩ ⟨m', h2, rfl⟩
  rw [h1] at h2
  cases h2
  show |((∑ l, m.coef l * x l) + m.intercept) - ((∑ l, m.coef l * z l) + m.intercept)| ≤ _
  have e1 : ((∑ l, m.coef l * x l) + m.intercept) - ((∑ l, m.coef l * z l) + m.intercept) = ∑ l, m.coef l * (x l - z l) := by
    rw [add_sub_add_right_eq_sub, ← Finset.sum_sub_distrib]
    exact Finset.sum_congr rfl fun _ _ => (mul_sub _ _ _).symm
  rw [e1, Finset.mul_sum]
  refine (Finset.abs_sum_le_sum_abs _ _).trans (Finset.sum_le_sum fun l _ => ?_)
  rw [abs_mul]
  exact mul_le_mul_of_nonneg_right (hslope ρ hρ hm m h1 l) (abs_nonneg _)

/-- The rules differ at most in their local model. -/
def Spec.OtherModel (ρ ρ' : Rule K d M) : Prop := ∃ m, ρ' = { ρ with model := some m }

/-- C176: if the local models of rules are replaced by others whose predictions for a sample are at most `e` away (of a rule that matches it), then the prediction of the model for it is at most `e` away, with
every filter of the mixing model. -/
theorem C176_models (L L' : Learner K d M) (P : MixParams K) (hw : 0 < P.weight) (hc : P.expCalc.Positive d) (G : Gen K S) (k : FilterKind) (s : S)
    (g : List Bool) (pool pool' : List (Rule K d M)) (hlen : g.length = pool.length) (hp : ∀ ρ ∈ pool, ρ.Usable) (st st' : Option (SolState K)) (x : Point K d) (e : K) (he : 0 ≤ e)
    (hrel : List.Forall₂ (fun ρ ρ' => Spec.OtherModel ρ ρ' ∧ (ρ.kind.call ρ.bounds x = true → ∀ u v, ρ.LocalPrediction L x u → ρ'.LocalPrediction L' x v → |u - v| ≤ e)) pool pool')
    (X : List (Point K d)) (i : Nat) (hi : X[i]? = some x) :
    (∃ err, (Solution.predictS L P G k false ⟨g, pool, st⟩ X s).1 = .error err ∧ (Solution.predictS L' P G k false ⟨g, pool', st'⟩ X s).1 = .error err) ∨
    ∃ out out' u v, (Solution.predictS L P G k false ⟨g, pool, st⟩ X s).1 = .ok out ∧ (Solution.predictS L' P G k false ⟨g, pool', st'⟩ X s).1 = .ok out' ∧
      out[i]? = some u ∧ out'[i]? = some v ∧ |u - v| ≤ e := by
  obtain ⟨ps, e1, e2, hps⟩ := forall₂_pairs (compress_forall₂ hrel g)
  have hus : ∀ p ∈ ps, p.1.Usable := fun p hp' => hp p.1 (mem_of_mem_compress (ms := g) (by rw [e1]; exact List.mem_map_of_mem hp'))
  have hus' : ∀ p ∈ ps, p.2.Usable := by
    intro p hp'
    obtain ⟨st, m, er, h1, _, h3, h4, h5⟩ := hus p hp'
    obtain ⟨⟨m', hm'⟩, _⟩ := hps p hp'
    exact ⟨st, m', er, by rw [hm']; exact h1, by rw [hm'], h3, h4, h5⟩
  have hst : ∀ p ∈ ps, p.1.st.isSome ∧ p.2.st.isSome := fun p hp' => ⟨(hus p hp').ready.1, (hus' p hp').ready.1⟩
  have hfit : ∀ p ∈ ps, ruleFitnessOf p.1 = ruleFitnessOf p.2 := by
    intro p hp'
    obtain ⟨⟨m', hm'⟩, _⟩ := hps p hp'
    rw [hm']
    rfl
  obtain ⟨r, hr, r1, r2⟩ := FilterKind.call_map G k s Prod.fst Prod.snd ps hst hfit
  have hlen' : g.length = pool'.length := hlen.trans hrel.length_eq
  unfold Solution.predictS Solution.predict Solution.subpopulation
  dsimp only
  rw [if_pos hlen, if_pos hlen']
  dsimp only
  rw [e1, e2]
  unfold mixing
  rw [List.isEmpty_map, List.isEmpty_map]
  by_cases hn : ps.isEmpty = true
  · rw [if_pos hn, if_pos hn]
    have hl : i < X.length := (List.getElem?_eq_some_iff.mp hi).1
    exact .inr ⟨_, _, 0, 0, rfl, rfl, by simp [hl], by simp [hl], by simpa using he⟩
  rw [if_neg hn, if_neg hn]
  dsimp only
  rw [r1, r2]
  cases hrr : r with
  | error err => exact .inl ⟨err, rfl, rfl⟩
  | ok kept =>
    have hk := hr kept hrr
    right
    have m1 := mixRules_uncached L P X (kept.map Prod.fst) (by
      intro ρ hρ
      obtain ⟨p, hp', rfl⟩ := List.mem_map.mp hρ
      exact (hus p (hk p hp')).ready)
    have m2 := mixRules_uncached L' P X (kept.map Prod.snd) (by
      intro ρ hρ
      obtain ⟨p, hp', rfl⟩ := List.mem_map.mp hρ
      exact (hus' p (hk p hp')).ready)
    refine ⟨_, _, _, _, m1, m2, by rw [List.getElem?_map, hi]; rfl, by rw [List.getElem?_map, hi]; rfl, ?_⟩
    refine mixAt_close L L' P x x e he kept (fun p hp' => Rule.tauVal_pos P hw hc (hus p (hk p hp'))) ?_ ?_ ?_
    · intro p hp'
      obtain ⟨⟨m', hm'⟩, _⟩ := hps p (hk p hp')
      rw [hm']
      rfl
    · intro p hp'
      obtain ⟨⟨m', hm'⟩, _⟩ := hps p (hk p hp')
      rw [hm']
    · intro p hp' hm
      obtain ⟨_, m, _, _, h2, _⟩ := hus p (hk p hp')
      obtain ⟨⟨m', hm'⟩, hcl⟩ := hps p (hk p hp')
      have h2' : p.2.model = some m' := by rw [hm']
      rw [Rule.valueAt_of_model L _ m h2, Rule.valueAt_of_model L' _ m' h2']
      exact hcl hm _ _ ⟨m, h2, rfl⟩ ⟨m', h2', rfl⟩

/-- C176, a single rule: replacing the local model of one selected rule changes the prediction for a sample that it matches by its share of the weight (experience, after the experience calculation, divided by
the error) among the selected rules that match the sample times the change of its local prediction. -/
theorem C176_share (L : Learner K d M) (P : MixParams K) (hw : 0 < P.weight) (hc : P.expCalc.Positive d)
    (A B : List (Rule K d M)) (gA gB : List Bool) (hA : gA.length = A.length) (hB : gB.length = B.length) (ρ ρ' : Rule K d M) (ho : Spec.OtherModel ρ ρ')
    (hpA : ∀ r ∈ A, r.Usable) (hpB : ∀ r ∈ B, r.Usable) (hρ : ρ.Usable)
    (x : Point K d) (hm : ρ.kind.call ρ.bounds x = true) (u u' v v' : K) (hu : ρ.LocalPrediction L x u) (hu' : ρ'.LocalPrediction L x u')
    (hv : Solution.PredictsAt L P { genome := gA ++ true :: gB, pool := A ++ ρ :: B } x v) (hv' : Solution.PredictsAt L P { genome := gA ++ true :: gB, pool := A ++ ρ' :: B } x v')
    (os : List (Spec.Opinion K)) (o : Spec.Opinion K) (hos : List.Forall₂ (Rule.HasOpinion L P.expCalc x) ((compress A gA ++ compress B gB).filter fun ρ => ρ.kind.call ρ.bounds x) os)
    (hop : ρ.HasOpinion L P.expCalc x o) :
    v' - v = o.weight / (o.weight + Spec.totalWeight os) * (u' - u) := by
  have hρ' : ρ'.Usable := by
    obtain ⟨m', rfl⟩ := ho
    obtain ⟨st, m, er, h1, _, h3⟩ := hρ
    exact ⟨st, m', er, h1, rfl, h3⟩
  have hτ : ρ'.tauVal P = ρ.tauVal P := by obtain ⟨m', rfl⟩ := ho; rfl
  have hm' : ρ'.kind.call ρ'.bounds x = true := by obtain ⟨m', rfl⟩ := ho; exact hm
  have hus : ∀ (r : Rule K d M), r.Usable → ∀ q ∈ A ++ r :: B, q.Usable := by
    intro r hr q hq
    rcases List.mem_append.mp hq with h | h
    · exact hpA q h
    · rcases List.mem_cons.mp h with rfl | h
      · exact hr
      · exact hpB q h
  have hcomp : ∀ r, compress (A ++ r :: B) (gA ++ true :: gB) = compress A gA ++ r :: compress B gB := fun r => by rw [compress_append _ _ _ _ hA.symm]; simp [compress]
  rw [predictsAt_iff L P _ (by simp [hA, hB]) (hus ρ hρ), hcomp] at hv
  rw [predictsAt_iff L P _ (by simp [hA, hB]) (hus ρ' hρ'), hcomp] at hv'
  have hsum : denAt P (compress A gA) x + denAt P (compress B gB) x = P.weight * Spec.totalWeight os := by
    rw [← (opinions_sums L P x _ _ hos).2]
    unfold denAt
    rw [List.filter_append, List.map_append, List.sum_append]
  have ht : ρ.tauVal P = P.weight * o.weight := by
    have := (opinions_sums L P x [ρ] [o] (.cons hop .nil)).2
    simpa [Spec.totalWeight] using this
  obtain ⟨m, h1, rfl⟩ := hu
  obtain ⟨m', h1', rfl⟩ := hu'
  have hpos := Rule.tauVal_pos P hw hc hρ
  have hD : 0 ≤ denAt P (compress A gA) x + denAt P (compress B gB) x :=
    add_nonneg (denAt_nonneg P hw hc _ (fun r h => hpA r (mem_of_mem_compress h)) x) (denAt_nonneg P hw hc _ (fun r h => hpB r (mem_of_mem_compress h)) x)
  unfold mixAt at hv hv'
  rw [numAt_split L P _ _ _ _ hm, denAt_split P _ _ _ _ hm, if_neg (by linarith), Rule.valueAt_of_model L _ m h1] at hv
  rw [numAt_split L P _ _ _ _ hm', denAt_split P _ _ _ _ hm', hτ, if_neg (by linarith), Rule.valueAt_of_model L _ m' h1'] at hv'
  rw [hv, hv']
  rw [hsum] at hD ⊢
  rw [ht] at hpos ⊢
  have hne : P.weight * Spec.totalWeight os + P.weight * o.weight ≠ 0 := by linarith
  have hne2 : o.weight + Spec.totalWeight os ≠ 0 := by
    intro h0; apply hne; rw [← mul_add, add_comm, h0, mul_zero]
  rw [← mul_add] at hne ⊢
  rw [add_comm (Spec.totalWeight os)] at hne ⊢
  have hw' := hw.ne'
  field_simp
  ring

/-! ### C175 with filters -/

/-- C175 with every filter of the mixing model: the predictions of a batch mix some of the selected rules, and for every sample that one of these matches the squared error is the weighted mean of the squared errors
of those that match it minus the weighted mean of their squared distances from the prediction. -/
theorem C175_filters (L : Learner K d M) (P : MixParams K) (hw : 0 < P.weight) (hc : P.expCalc.Positive d) (G : Gen K S) (k : FilterKind) (s : S)
    (σ : Solution K d M) (hlen : σ.genome.length = σ.pool.length) (hp : ∀ ρ ∈ σ.pool, ρ.Usable) (X : List (Point K d)) (out : List K) (h : (σ.predictS L P G k false X s).1 = .ok out) :
    ∃ kept : List (Rule K d M), (∀ ρ ∈ kept, ρ ∈ compress σ.pool σ.genome) ∧ ∀ (j : Nat) (x : Point K d) (v t : K), X[j]? = some x → out[j]? = some v →
      ((∀ ρ ∈ kept, ρ.kind.call ρ.bounds x = false) → v = 0) ∧
      ((∃ ρ ∈ kept, ρ.kind.call ρ.bounds x = true) → ∃ os : List (Spec.Opinion K),
        List.Forall₂ (Rule.HasOpinion L P.expCalc x) (kept.filter fun ρ => ρ.kind.call ρ.bounds x) os ∧ (∀ o ∈ os, 0 < o.weight) ∧ 0 < Spec.totalWeight os ∧
        (t - v) ^ 2 = Spec.weightedSquares os t / Spec.totalWeight os - Spec.weightedSquares os v / Spec.totalWeight os ∧
        (t - v) ^ 2 ≤ Spec.weightedSquares os t / Spec.totalWeight os) := by
  obtain ⟨kept, hk, hu, rfl⟩ := predictS_kept L P G k s σ hlen hp X out h
  refine ⟨kept, hk, fun j x v t hx hv => ?_⟩
  have hv' : v = mixAt L P kept x := by
    rw [List.getElem?_map, hx] at hv
    exact (Option.some.inj hv).symm
  refine ⟨fun hno => ?_, fun hm => ?_⟩
  · rw [hv']
    unfold mixAt numAt
    rw [List.filter_eq_nil_iff.mpr fun ρ hρ => by rw [hno ρ hρ]; exact Bool.false_ne_true]
    simp
  · have hp' := predictsAt_iff L P { genome := List.replicate kept.length true, pool := kept } (by simp) hu x v
    have hc' : compress kept (List.replicate kept.length true) = kept := compress_replicate_true kept
    dsimp only at hp'
    rw [hc'] at hp'
    obtain ⟨os, h1, h2, h3, h4, h5, _⟩ := C175_mixture L P hw hc { genome := List.replicate kept.length true, pool := kept } (by simp) hu x (by dsimp only; rw [hc']; exact hm) v (hp'.mpr hv') t
    dsimp only at h1
    rw [hc'] at h1
    exact ⟨os, h1, h2, h3, h4, h5⟩

/-! ### Examples -/

/-- A linear model with slope `a` and intercept `b`. -/
def slopeRule (lo hi a b e : ℚ) (n : Nat) : Rule ℚ 1 (LinModel ℚ 1) :=
  { kind := .ordered, bounds := ![(lo, hi)], inputSpace := ![(0, 3)], model := some ⟨fun _ => a, b⟩
    st := some ⟨true, ((e : ℚ) : WithTop ℚ), ((0 : ℚ) : WithBot ℚ), n, [], []⟩ }

/-- Two rules with slopes 2 and -1 and weights 3 and 4: between the samples 1 and 3/2, which both match, the prediction moves by 1/7, at most twice the distance. -/
example : (slopeRule 0 2 2 0 1 3).Usable ∧ (slopeRule 1 3 (-1) 5 (1/2) 2).Usable ∧
    (∀ ρ ∈ [slopeRule 0 2 2 0 1 3, slopeRule 1 3 (-1) 5 (1/2) 2], ρ.kind.call ρ.bounds ![1] = ρ.kind.call ρ.bounds ![3/2]) ∧
    Solution.predict (linLearner fun _ _ => ⟨0, 0⟩) ⟨.plain, 1⟩ filterAll false { genome := [true, true], pool := [slopeRule 0 2 2 0 1 3, slopeRule 1 3 (-1) 5 (1/2) 2] } [![1], ![3/2]] =
      .ok [22/7, 23/7] := by
  refine ⟨⟨_, _, 1, rfl, rfl, rfl, by norm_num, by decide⟩, ⟨_, _, 1/2, rfl, rfl, rfl, by norm_num, by decide⟩, by decide +kernel, by decide +kernel⟩

/-- Another model for one of two rules (it says 8 instead of 1, with weight 3 of 7): the prediction changes by 3. -/
example : Spec.OtherModel (fittedRule 0 2 1 1 3) (fittedRule 0 2 8 1 3) ∧ (fittedRule 0 2 1 1 3).HasOpinion meanLearner .plain ![3/2] ⟨3, 1⟩ ∧
    (fittedRule 1 3 5 (1/2) 2).HasOpinion meanLearner .plain ![3/2] ⟨4, 5⟩ ∧
    Solution.predict meanLearner ⟨.plain, 1⟩ filterAll false { genome := [true, true], pool := [fittedRule 0 2 1 1 3, fittedRule 1 3 5 (1/2) 2] } [![3/2]] = .ok [23/7] ∧
    Solution.predict meanLearner ⟨.plain, 1⟩ filterAll false { genome := [true, true], pool := [fittedRule 0 2 8 1 3, fittedRule 1 3 5 (1/2) 2] } [![3/2]] = .ok [44/7] := by
  refine ⟨⟨8, rfl⟩, ⟨⟨_, rfl, by decide +kernel⟩, _, 1, 3, rfl, rfl, rfl, by norm_num⟩, ⟨⟨_, rfl, by decide +kernel⟩, _, 1/2, 2, rfl, rfl, rfl, by norm_num⟩, by decide +kernel, by decide +kernel⟩

/-- `NBestFitness` with one rule: of two usable rules that match 3/2, the one with fitness 4 is kept; it says 5, so the squared error for the true value 2 is 9. -/
example : (ratedRule 0 2 1 1 3 3).Usable ∧ (ratedRule 0 2 5 1 3 4).Usable ∧
    (Solution.predictS meanLearner ⟨.plain, 1⟩ (⟨fun s _ _ _ => ([], s)⟩ : Gen ℚ Unit) (.nBest 1) false { genome := [true, true], pool := [ratedRule 0 2 1 1 3 3, ratedRule 0 2 5 1 3 4] } [![3/2]] ()).1 = .ok [5] :=
  ⟨ratedRule_usable _ _ _ _ _ _ (by norm_num) (by decide), ratedRule_usable _ _ _ _ _ _ (by norm_num) (by decide), by decide +kernel⟩

end Suprb
