import Verif.Model.Ridge
import Mathlib.LinearAlgebra.Dual.Lemmas
import Mathlib.Tactic.Ring
import Mathlib.Tactic.Linarith
import Mathlib.Tactic.Abel
import Mathlib.Tactic.Module

/-!
# Ridge regression has exactly one solution
-/

set_option autoImplicit false
set_option linter.unusedSectionVars false

namespace Suprb

open Spec Json

variable {K : Type} [Field K] [LinearOrder K] [IsStrictOrderedRing K] {d : Nat}

/-- A linear model as a vector. -/
def LinModel.vec (m : LinModel K d) : (Fin d → K) × K := (m.coef, m.intercept)

/-- The prediction at a point as a function of the model. -/
def atPoint (x : Point K d) : ((Fin d → K) × K) →ₗ[K] K where
  toFun v := (∑ i, v.1 i * x i) + v.2
  map_add' u v := by
    simp only [Prod.fst_add, Prod.snd_add, Pi.add_apply, add_mul, Finset.sum_add_distrib]
    ring
  map_smul' c v := by
    simp only [Prod.smul_fst, Prod.smul_snd, Pi.smul_apply, smul_eq_mul, RingHom.id_apply, mul_add, Finset.mul_sum, mul_assoc]

theorem LinModel.predict_vec (m : LinModel K d) (x : Point K d) : m.predict x = atPoint x (LinModel.vec m) := rfl

/-- The positive definite form of the problem. -/
def ridgeForm (alpha : K) (D : List (Point K d × K)) : ((Fin d → K) × K) →ₗ[K] ((Fin d → K) × K) →ₗ[K] K :=
  LinearMap.mk₂ K (fun u v => (D.map fun q => atPoint q.1 u * atPoint q.1 v).sum + alpha * ∑ i, u.1 i * v.1 i)
    (by intro a b v; simp only [map_add, add_mul, List.sum_map_add, Prod.fst_add, Pi.add_apply, Finset.sum_add_distrib]; ring)
    (by intro c a v; simp only [map_smul, smul_eq_mul, mul_assoc, List.sum_map_mul_left, Prod.smul_fst, Pi.smul_apply, ← Finset.mul_sum]; ring)
    (by intro a b v; simp only [map_add, mul_add, List.sum_map_add, Prod.fst_add, Pi.add_apply, Finset.sum_add_distrib]; ring)
    (by
      intro c a v
      have h1 : ∀ q : Point K d × K, atPoint q.1 a * atPoint q.1 (c • v) = c * (atPoint q.1 a * atPoint q.1 v) := by intro q; rw [map_smul, smul_eq_mul]; ring
      have h2 : ∀ i, a.1 i * (c • v).1 i = c * (a.1 i * v.1 i) := by intro i; simp only [Prod.smul_fst, Pi.smul_apply, smul_eq_mul]; ring
      simp only [h1, h2, List.sum_map_mul_left, ← Finset.mul_sum, smul_eq_mul]; ring)

theorem ridgeForm_apply (alpha : K) (D : List (Point K d × K)) (u v : (Fin d → K) × K) :
    ridgeForm alpha D u v = (D.map fun q => atPoint q.1 u * atPoint q.1 v).sum + alpha * ∑ i, u.1 i * v.1 i := rfl

/-- The right hand side of the normal equations. -/
def ridgeRhs (D : List (Point K d × K)) : ((Fin d → K) × K) →ₗ[K] K where
  toFun v := (D.map fun q => q.2 * atPoint q.1 v).sum
  map_add' u v := by simp only [map_add, mul_add, List.sum_map_add]
  map_smul' c v := by
    have h : ∀ q : Point K d × K, q.2 * atPoint q.1 (c • v) = c * (q.2 * atPoint q.1 v) := by intro q; rw [map_smul, smul_eq_mul]; ring
    simp only [h, List.sum_map_mul_left, RingHom.id_apply, smul_eq_mul]

theorem ridgeRhs_apply (D : List (Point K d × K)) (v : (Fin d → K) × K) : ridgeRhs D v = (D.map fun q => q.2 * atPoint q.1 v).sum := rfl

theorem ridge_sum_sub {α : Type} (l : List α) (f g : α → K) : (l.map fun a => f a - g a).sum = (l.map f).sum - (l.map g).sum := by
  induction l with
  | nil => simp
  | cons a l ih => simp only [List.map_cons, List.sum_cons, ih]; ring

theorem sum_map_nonneg {α : Type} (l : List α) (f : α → K) (h : ∀ a ∈ l, 0 ≤ f a) : 0 ≤ (l.map f).sum := by
  induction l with
  | nil => simp
  | cons a l ih =>
    rw [List.map_cons, List.sum_cons]
    exact add_nonneg (h a (List.mem_cons_self)) (ih fun b hb => h b (List.mem_cons_of_mem _ hb))

theorem ridgeForm_self_nonneg (alpha : K) (ha : 0 < alpha) (D : List (Point K d × K)) (v : (Fin d → K) × K) : 0 ≤ ridgeForm alpha D v v := by
  rw [ridgeForm_apply]
  exact add_nonneg (sum_map_nonneg _ _ fun q _ => mul_self_nonneg _) (mul_nonneg ha.le (Finset.sum_nonneg fun i _ => mul_self_nonneg _))

theorem ridgeForm_definite (alpha : K) (ha : 0 < alpha) (D : List (Point K d × K)) (hD : D ≠ []) (v : (Fin d → K) × K) (h : ridgeForm alpha D v v = 0) : v = 0 := by
  rw [ridgeForm_apply] at h
  have h1 : 0 ≤ (D.map fun q => atPoint q.1 v * atPoint q.1 v).sum := sum_map_nonneg _ _ fun q _ => mul_self_nonneg _
  have h2 : 0 ≤ alpha * ∑ i, v.1 i * v.1 i := mul_nonneg ha.le (Finset.sum_nonneg fun i _ => mul_self_nonneg _)
  have h3 : ∑ i, v.1 i * v.1 i = 0 := by
    have : alpha * ∑ i, v.1 i * v.1 i = 0 := by linarith
    rcases mul_eq_zero.mp this with h | h
    · exact absurd h ha.ne'
    · exact h
  have hw : v.1 = 0 := by
    funext i
    have := (Finset.sum_eq_zero_iff_of_nonneg (fun i _ => mul_self_nonneg (v.1 i))).mp h3 i (Finset.mem_univ i)
    exact mul_self_eq_zero.mp this
  have hb : v.2 = 0 := by
    have h4 : (D.map fun q => atPoint q.1 v * atPoint q.1 v).sum = 0 := by linarith
    cases D with
    | nil => exact absurd rfl hD
    | cons q D =>
      rw [List.map_cons, List.sum_cons] at h4
      have h5 : 0 ≤ (D.map fun q => atPoint q.1 v * atPoint q.1 v).sum := sum_map_nonneg _ _ fun q _ => mul_self_nonneg _
      have h6 : atPoint q.1 v * atPoint q.1 v = 0 := le_antisymm (by linarith) (mul_self_nonneg _)
      have h7 := mul_self_eq_zero.mp h6
      change (∑ i, v.1 i * q.1 i) + v.2 = 0 at h7
      simpa [hw] using h7
  exact Prod.ext hw hb

/-- The normal equations of ridge regression. -/
def RidgeNormal (alpha : K) (D : List (Point K d × K)) (m : LinModel K d) : Prop := ∀ v, ridgeForm alpha D (LinModel.vec m) v = ridgeRhs D v

theorem ridgeNormal_exists (alpha : K) (ha : 0 < alpha) (D : List (Point K d × K)) (hD : D ≠ []) : ∃ m : LinModel K d, RidgeNormal alpha D m := by
  have hinj : Function.Injective (ridgeForm alpha D) := by
    rw [injective_iff_map_eq_zero]
    intro v hv
    exact ridgeForm_definite alpha ha D hD v (by rw [hv]; rfl)
  have hsurj : Function.Surjective (ridgeForm alpha D) :=
    (LinearMap.injective_iff_surjective_of_finrank_eq_finrank (Subspace.dual_finrank_eq (K := K) (V := (Fin d → K) × K)).symm).mp hinj
  obtain ⟨v, hv⟩ := hsurj (ridgeRhs D)
  exact ⟨⟨v.1, v.2⟩, fun u => by rw [← hv]; rfl⟩

/-- The loss of another model in terms of the difference. -/
theorem ridgeLoss_diff (alpha : K) (D : List (Point K d × K)) (m m' : LinModel K d) : ridgeLoss alpha D m' = ridgeLoss alpha D m +
    ridgeForm alpha D (LinModel.vec m' - LinModel.vec m) (LinModel.vec m' - LinModel.vec m) +
    2 * (ridgeForm alpha D (LinModel.vec m) (LinModel.vec m' - LinModel.vec m) - ridgeRhs D (LinModel.vec m' - LinModel.vec m)) := by
  have hc : ∑ i, m'.coef i ^ 2 = ∑ i, m.coef i ^ 2 + ∑ i, (LinModel.vec m' - LinModel.vec m).1 i * (LinModel.vec m' - LinModel.vec m).1 i +
      2 * ∑ i, (LinModel.vec m).1 i * (LinModel.vec m' - LinModel.vec m).1 i := by
    rw [Finset.mul_sum, ← Finset.sum_add_distrib, ← Finset.sum_add_distrib]
    refine Finset.sum_congr rfl fun i _ => ?_
    simp only [LinModel.vec, Prod.fst_sub, Pi.sub_apply]
    ring
  have hs : (D.map fun q => (q.2 - m'.predict q.1) ^ 2).sum = (D.map fun q => (q.2 - m.predict q.1) ^ 2).sum +
      (D.map fun q => atPoint q.1 (LinModel.vec m' - LinModel.vec m) * atPoint q.1 (LinModel.vec m' - LinModel.vec m)).sum +
      2 * ((D.map fun q => atPoint q.1 (LinModel.vec m) * atPoint q.1 (LinModel.vec m' - LinModel.vec m)).sum -
        (D.map fun q => q.2 * atPoint q.1 (LinModel.vec m' - LinModel.vec m)).sum) := by
    rw [← ridge_sum_sub, ← List.sum_map_mul_left, ← List.sum_map_add, ← List.sum_map_add]
    congr 1
    refine List.map_congr_left fun q _ => ?_
    rw [LinModel.predict_vec, LinModel.predict_vec, map_sub]
    ring
  unfold ridgeLoss
  rw [hs, hc, ridgeForm_apply, ridgeForm_apply, ridgeRhs_apply]
  ring

theorem RidgeNormal.isRidge {alpha : K} (ha : 0 < alpha) {D : List (Point K d × K)} {m : LinModel K d} (h : RidgeNormal alpha D m) : IsRidge alpha D m := by
  intro m'
  rw [ridgeLoss_diff alpha D m m', h]
  have := ridgeForm_self_nonneg alpha ha D (LinModel.vec m' - LinModel.vec m)
  linarith

theorem RidgeNormal.unique {alpha : K} (ha : 0 < alpha) {D : List (Point K d × K)} (hD : D ≠ []) {m m' : LinModel K d} (h : RidgeNormal alpha D m) (h' : IsRidge alpha D m') : m' = m := by
  have h1 := h' m
  rw [ridgeLoss_diff alpha D m m', h] at h1
  have h2 := ridgeForm_self_nonneg alpha ha D (LinModel.vec m' - LinModel.vec m)
  have h3 := ridgeForm_definite alpha ha D hD _ (le_antisymm (by linarith) h2)
  have h4 : LinModel.vec m' = LinModel.vec m := sub_eq_zero.mp h3
  cases m; cases m'
  simp only [LinModel.vec, Prod.mk.injEq] at h4
  rw [h4.1, h4.2]

theorem isRidge_unique {alpha : K} (ha : 0 < alpha) {D : List (Point K d × K)} (hD : D ≠ []) {m m' : LinModel K d} (h : IsRidge alpha D m) (h' : IsRidge alpha D m') : m' = m := by
  obtain ⟨m0, h0⟩ := ridgeNormal_exists alpha ha D hD
  rw [h0.unique ha hD h, h0.unique ha hD h']

theorem isRidge_normal {alpha : K} (ha : 0 < alpha) {D : List (Point K d × K)} (hD : D ≠ []) {m : LinModel K d} (h : IsRidge alpha D m) : RidgeNormal alpha D m := by
  obtain ⟨m0, h0⟩ := ridgeNormal_exists alpha ha D hD
  rw [h0.unique ha hD h]; exact h0

theorem zip_ne_nil {α β : Type} {X : List α} {y : List β} (hX : X ≠ []) (hxy : y.length = X.length) : X.zip y ≠ [] := by
  cases X with
  | nil => exact absurd rfl hX
  | cons a X => cases y with
    | nil => simp at hxy
    | cons b y => simp

theorem ridgeFit_isRidge {alpha : K} (ha : 0 < alpha) (X : List (Point K d)) (y : List K) (hX : X ≠ []) (hxy : y.length = X.length) : IsRidge alpha (X.zip y) (ridgeFit alpha X y) := by
  obtain ⟨m0, h0⟩ := ridgeNormal_exists alpha ha (X.zip y) (zip_ne_nil hX hxy)
  have h : ∃ m, IsRidge alpha (X.zip y) m := ⟨m0, h0.isRidge ha⟩
  unfold ridgeFit
  rw [dif_pos h]
  exact h.choose_spec

theorem ridgeFit_eq {alpha : K} (ha : 0 < alpha) (X : List (Point K d)) (y : List K) (hX : X ≠ []) (hxy : y.length = X.length) {m : LinModel K d} (h : IsRidge alpha (X.zip y) m) :
    ridgeFit alpha X y = m := isRidge_unique ha (zip_ne_nil hX hxy) h (ridgeFit_isRidge ha X y hX hxy)

/-- Solutions of one problem give solutions of another one. -/
theorem IsRidge.transfer {alpha : K} {D D' : List (Point K d × K)} (f : LinModel K d → LinModel K d) (g : LinModel K d → LinModel K d) (hg : ∀ m, f (g m) = m) (k : K) (hk : 0 ≤ k)
    (h : ∀ m, ridgeLoss alpha D' (f m) = k * ridgeLoss alpha D m) {m : LinModel K d} (hm : IsRidge alpha D m) : IsRidge alpha D' (f m) := by
  intro m'
  rw [← hg m', h, h]
  exact mul_le_mul_of_nonneg_left (hm _) hk

end Suprb
