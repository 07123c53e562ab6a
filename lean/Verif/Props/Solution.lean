import Verif.Lemmas.Solution
import Verif.Props.Rule
import Mathlib.Algebra.Order.BigOperators.Group.List
import Mathlib.Algebra.BigOperators.Group.List.Lemmas
import Mathlib.Tactic.FieldSimp

/-!
# Claims C17–C25: mixing, solutions, padding, cleanup
-/

set_option autoImplicit false
set_option linter.unusedSectionVars false

namespace Suprb

open Spec

variable {K : Type} [Field K] [LinearOrder K] [IsStrictOrderedRing K] {d : Nat} {M : Type}

/-- A rule as it sits in the pool: fitted on at least one sample, finite positive error, trained local model. (Rules fitted on at least one
sample have this form, `C15_history`.) -/
def Rule.Usable (ρ : Rule K d M) : Prop :=
  ∃ s m e, ρ.st = some s ∧ ρ.model = some m ∧ s.error = ((e : K) : WithTop K) ∧ 0 < e ∧ 0 < s.experience

theorem Rule.Usable.ready {ρ : Rule K d M} (h : ρ.Usable) : ρ.Ready := by
  obtain ⟨s, m, e, h1, h2, _⟩ := h
  exact ⟨by rw [h1]; rfl, by rw [h2]; rfl⟩

/-- Rules that were fitted, in the sense of C15, on data they match are usable. -/
theorem usable_of_fitted (ρ : Rule K d M) (X : List (Point K d)) (h : ConsistentWith ρ X)
    (hm : ∃ x ∈ X, ρ.kind.call ρ.bounds x = true) : ρ.Usable := by
  obtain ⟨s, hs, _, hexp, hfit, _, hok, _⟩ := h
  have hf := hfit.mpr hm
  obtain ⟨h1, e, he, he2, _⟩ := hok hf
  obtain ⟨m, hm'⟩ := Option.isSome_iff_exists.mp h1
  obtain ⟨x, hx, hx1⟩ := hm
  refine ⟨s, m, e, hs, hm', he, lt_of_lt_of_le (by norm_num) he2, ?_⟩
  rw [hexp]; exact List.length_pos_of_mem (List.mem_filter.mpr ⟨hx, hx1⟩)

/-- The experience calculation of the mixing model does not turn the experience of a fitted rule into a non-positive number: true for the default and for
caps with positive upper bound. -/
def ExpCalc.Positive (c : ExpCalc K) (d : Nat) : Prop := ∀ e : Nat, 0 < e → 0 < c.value d e

theorem ExpCalc.plain_positive (d : Nat) : (ExpCalc.plain : ExpCalc K).Positive d := by
  intro e he; simpa [ExpCalc.value] using he

theorem ExpCalc.cap_positive (d : Nat) (lo hi : Option K) (h : ∀ u, hi = some u → 0 < u) :
    (ExpCalc.cap lo hi).Positive d := by
  intro e he
  have he' : (0 : K) < (e : K) := by exact_mod_cast he
  unfold ExpCalc.value clipOpt
  dsimp only
  have h1 : ∀ l : Option K, 0 < (match l with | none => (e : K) | some l => max (e : K) l) := by
    intro l; cases l with
    | none => exact he'
    | some l => exact lt_of_lt_of_le he' (le_max_left _ _)
  cases hi with
  | none => exact h1 lo
  | some u => exact lt_min (h1 lo) (h u rfl)

theorem Rule.tauVal_pos (P : MixParams K) (hw : 0 < P.weight) (hc : P.expCalc.Positive d) {ρ : Rule K d M} (h : ρ.Usable) :
    0 < ρ.tauVal P := by
  obtain ⟨s, m, e, h1, h2, h3, h4, h5⟩ := h
  unfold Rule.tauVal
  rw [h1]
  simp only [h3, invError, WithTop.map_coe, WithTop.untopD_coe]
  exact mul_pos (one_div_pos.mpr h4) (mul_pos (hc _ h5) hw)

/-- The model's prediction of a rule's local model. -/
def Rule.LocalPrediction (L : Learner K d M) (ρ : Rule K d M) (x : Point K d) (v : K) : Prop :=
  ∃ m, ρ.model = some m ∧ v = L.predict m x

theorem Rule.valueAt_of_model (L : Learner K d M) (ρ : Rule K d M) (m : M) (h : ρ.model = some m) (x : Point K d) :
    ρ.valueAt L x = L.predict m x := by unfold Rule.valueAt; rw [h]

/-- Weighted sums of values in `[a, b]` with positive weights. -/
theorem weighted_bounds {α : Type} (l : List α) (v w : α → K) (a b : K) (hw : ∀ r ∈ l, 0 < w r)
    (hv : ∀ r ∈ l, a ≤ v r ∧ v r ≤ b) :
    a * (l.map w).sum ≤ (l.map fun r => v r * w r).sum ∧ (l.map fun r => v r * w r).sum ≤ b * (l.map w).sum := by
  induction l with
  | nil => simp
  | cons r rs ih =>
    obtain ⟨ih1, ih2⟩ := ih (fun r h => hw r (List.mem_cons_of_mem _ h)) (fun r h => hv r (List.mem_cons_of_mem _ h))
    have h1 := hw r (List.mem_cons_self ..)
    have h2 := hv r (List.mem_cons_self ..)
    simp only [List.map_cons, List.sum_cons]
    constructor
    · have := mul_le_mul_of_nonneg_right h2.1 h1.le
      linarith [mul_add a (w r) (rs.map w).sum]
    · have := mul_le_mul_of_nonneg_right h2.2 h1.le
      linarith [mul_add b (w r) (rs.map w).sum]

theorem sum_pos_of_pos {α : Type} (l : List α) (w : α → K) (hw : ∀ r ∈ l, 0 < w r) (hne : l ≠ []) : 0 < (l.map w).sum := by
  cases l with
  | nil => exact absurd rfl hne
  | cons r rs =>
    simp only [List.map_cons, List.sum_cons]
    have : 0 ≤ (rs.map w).sum := List.sum_nonneg fun x hx => by
      obtain ⟨r', hr', rfl⟩ := List.mem_map.mp hx
      exact (hw r' (List.mem_cons_of_mem _ hr')).le
    linarith [hw r (List.mem_cons_self ..)]

/-! ### C17 predictions are convex combinations of the matching local models -/

/-- C17: the solution predicts one value per sample. A sample matched by no selected rule gets 0; for a sample matched by at
least one selected rule the prediction lies between any lower and any upper bound of the local predictions of the selected rules matching it
(in particular between the smallest and the largest of them). -/
theorem C17_convex (L : Learner K d M) (P : MixParams K) (hw : 0 < P.weight) (hc : P.expCalc.Positive d)
    (σ : Solution K d M) (hlen : σ.genome.length = σ.pool.length) (hp : ∀ ρ ∈ σ.pool, ρ.Usable)
    (X : List (Point K d)) :
    ∃ out, σ.predict L P filterAll false X = .ok out ∧ out.length = X.length ∧
      ∀ x v, (x, v) ∈ X.zip out →
        ((∀ ρ ∈ compress σ.pool σ.genome, ρ.kind.call ρ.bounds x = false) → v = 0) ∧
        ((∃ ρ ∈ compress σ.pool σ.genome, ρ.kind.call ρ.bounds x = true) →
          ∀ a b, (∀ ρ ∈ compress σ.pool σ.genome, ρ.kind.call ρ.bounds x = true →
              ∀ u, ρ.LocalPrediction L x u → a ≤ u ∧ u ≤ b) → a ≤ v ∧ v ≤ b) := by
  have hsub : ∀ ρ ∈ compress σ.pool σ.genome, ρ.Usable := fun ρ h => hp ρ (mem_of_mem_compress h)
  refine ⟨X.map (mixAt L P (compress σ.pool σ.genome)), ?_, by simp, ?_⟩
  · unfold Solution.predict Solution.subpopulation
    rw [if_pos hlen]
    exact mixing_all_uncached L P X _ fun ρ h => (hsub ρ h).ready
  · intro x v hxv
    have hv : v = mixAt L P (compress σ.pool σ.genome) x := by
      have : X.zip (X.map (mixAt L P (compress σ.pool σ.genome))) = X.map fun x => (x, mixAt L P (compress σ.pool σ.genome) x) := by
        rw [List.zip, List.zipWith_map_right, List.zipWith_self]
      rw [this] at hxv
      obtain ⟨x', _, h⟩ := List.mem_map.mp hxv
      simp only [Prod.mk.injEq] at h
      rw [← h.1, h.2]
    subst hv
    generalize compress σ.pool σ.genome = sub at *
    constructor
    · intro hno
      have : sub.filter (fun ρ => ρ.kind.call ρ.bounds x) = [] := by
        rw [List.filter_eq_nil_iff]; intro ρ h; rw [hno ρ h]; simp
      simp [mixAt, numAt, this]
    · rintro ⟨ρ0, hρ0, hm0⟩ a b hab
      have hne : sub.filter (fun ρ => ρ.kind.call ρ.bounds x) ≠ [] :=
        List.ne_nil_of_mem (List.mem_filter.mpr ⟨hρ0, hm0⟩)
      have hpos : ∀ ρ ∈ sub.filter (fun ρ => ρ.kind.call ρ.bounds x), 0 < ρ.tauVal P := fun ρ h =>
        Rule.tauVal_pos P hw hc (hsub ρ (List.mem_filter.mp h).1)
      have hden : 0 < denAt P sub x := sum_pos_of_pos _ _ hpos hne
      have hval : ∀ ρ ∈ sub.filter (fun ρ => ρ.kind.call ρ.bounds x), a ≤ ρ.valueAt L x ∧ ρ.valueAt L x ≤ b := by
        intro ρ h
        obtain ⟨h1, h2⟩ := List.mem_filter.mp h
        obtain ⟨s, m, e, _, hm, _⟩ := hsub ρ h1
        exact hab ρ h1 h2 _ ⟨m, hm, ρ.valueAt_of_model L m hm x⟩
      obtain ⟨hb1, hb2⟩ := weighted_bounds _ (fun ρ : Rule K d M => ρ.valueAt L x) (fun ρ : Rule K d M => ρ.tauVal P) a b hpos hval
      unfold mixAt
      rw [if_neg hden.ne']
      exact ⟨(le_div_iff₀ hden).mpr hb1, (div_le_iff₀ hden).mpr hb2⟩

/-! A pool of two fitted rules `[0,2]` (predicts 1) and `[1,3]` (predicts 5) for the examples. -/

/-- A fitted constant rule. -/
def fittedRule (a b v e : ℚ) (n : Nat) : Rule ℚ 1 ℚ :=
  { kind := .ordered, bounds := ![(a, b)], inputSpace := ![(0, 3)], model := some v
    st := some ⟨true, ((e : ℚ) : WithTop ℚ), ((0 : ℚ) : WithBot ℚ), n, [], []⟩ }

theorem fittedRule_usable (a b v e : ℚ) (n : Nat) (he : 0 < e) (hn : 0 < n) : (fittedRule a b v e n).Usable :=
  ⟨_, _, e, rfl, rfl, rfl, he, hn⟩

def examplePool : List (Rule ℚ 1 ℚ) := [fittedRule 0 2 1 1 3, fittedRule 1 3 5 (1/2) 2, fittedRule 0 3 100 1 1]

example : (∀ ρ ∈ examplePool, ρ.Usable) ∧ ([true, true, false] : List Bool).length = examplePool.length := by
  refine ⟨?_, rfl⟩
  simp only [examplePool, List.forall_mem_cons, List.not_mem_nil, false_imp_iff, implies_true, and_true]
  exact ⟨fittedRule_usable _ _ _ _ _ (by norm_num) (by norm_num), fittedRule_usable _ _ _ _ _ (by norm_num) (by norm_num),
    fittedRule_usable _ _ _ _ _ (by norm_num) (by norm_num)⟩

/-- The example solution: weights 3 and 4, so the common sample `3/2` gets `(3·1 + 4·5)/7`; the uncovered sample gets 0. -/
example : Solution.predict meanLearner ⟨.plain, 1⟩ filterAll false
    { genome := [true, true, false], pool := examplePool } [![0], ![3/2], ![3], ![4]] = .ok [1, 23/7, 5, 0] := by
  decide +kernel

/-! ### C18 only matching rules influence a prediction -/

/-- C18: take any two models (pools and genomes) whose selected rules *matching the sample `x`* are the same, and any two batches
containing `x`. Then both predict the same value for `x`. (Changing, adding or removing non-matching or unselected rules, or changing the rest of
the batch, are special cases.) -/
theorem C18_only_matching (L : Learner K d M) (P : MixParams K)
    (σ σ' : Solution K d M) (hlen : σ.genome.length = σ.pool.length) (hlen' : σ'.genome.length = σ'.pool.length)
    (hp : ∀ ρ ∈ σ.pool, ρ.Usable) (hp' : ∀ ρ ∈ σ'.pool, ρ.Usable)
    (x : Point K d)
    (hsame : (compress σ.pool σ.genome).filter (fun ρ => ρ.kind.call ρ.bounds x) =
             (compress σ'.pool σ'.genome).filter (fun ρ => ρ.kind.call ρ.bounds x))
    (X X' : List (Point K d)) (j j' : Nat) (hj : X[j]? = some x) (hj' : X'[j']? = some x) :
    ∃ out out' v, σ.predict L P filterAll false X = .ok out ∧ σ'.predict L P filterAll false X' = .ok out' ∧
      out[j]? = some v ∧ out'[j']? = some v := by
  refine ⟨X.map (mixAt L P (compress σ.pool σ.genome)), X'.map (mixAt L P (compress σ'.pool σ'.genome)),
    mixAt L P (compress σ.pool σ.genome) x, ?_, ?_, ?_, ?_⟩
  · unfold Solution.predict Solution.subpopulation
    rw [if_pos hlen]
    exact mixing_all_uncached L P X _ fun ρ h => (hp ρ (mem_of_mem_compress h)).ready
  · unfold Solution.predict Solution.subpopulation
    rw [if_pos hlen']
    exact mixing_all_uncached L P X' _ fun ρ h => (hp' ρ (mem_of_mem_compress h)).ready
  · rw [List.getElem?_map, hj]; rfl
  · rw [List.getElem?_map, hj']
    simp only [Option.map_some, mixAt, numAt, denAt, hsame]
    rfl

/-- Two different models that agree on the rules matching `0`: the second one lacks the rule `[1,3]`. -/
example : (compress examplePool [true, true, false]).filter (fun ρ => ρ.kind.call ρ.bounds ![0]) =
    (compress [fittedRule 0 2 1 1 3] [true]).filter (fun ρ => ρ.kind.call ρ.bounds ![0]) := by decide +kernel

/-! ### C19 predictions do not depend on the order of the pool -/

theorem compress_perm {α : Type} (p p' : List α) (g g' : List Bool) (h : (p.zip g).Perm (p'.zip g')) :
    (compress p g).Perm (compress p' g') := by
  have hc : ∀ (p : List α) (g : List Bool), compress p g = ((p.zip g).filter Prod.snd).map Prod.fst := by
    intro p
    induction p with
    | nil => intro g; cases g <;> rfl
    | cons a as ih =>
      intro g
      cases g with
      | nil => rfl
      | cons b bs => cases b <;> simp [compress, ih]
  rw [hc, hc]
  exact (h.filter _).map _

/-- C19: permuting the pool together with the genome leaves every prediction unchanged. -/
theorem C19_order_invariant (L : Learner K d M) (P : MixParams K)
    (σ σ' : Solution K d M) (hlen : σ.genome.length = σ.pool.length) (hlen' : σ'.genome.length = σ'.pool.length)
    (hp : ∀ ρ ∈ σ.pool, ρ.Usable)
    (hperm : (σ.pool.zip σ.genome).Perm (σ'.pool.zip σ'.genome)) (X : List (Point K d)) :
    ∃ out, σ.predict L P filterAll false X = .ok out ∧ σ'.predict L P filterAll false X = .ok out := by
  have hsub := compress_perm _ _ _ _ hperm
  refine ⟨X.map (mixAt L P (compress σ.pool σ.genome)), ?_, ?_⟩
  · unfold Solution.predict Solution.subpopulation
    rw [if_pos hlen]
    exact mixing_all_uncached L P X _ fun ρ h => (hp ρ (mem_of_mem_compress h)).ready
  · unfold Solution.predict Solution.subpopulation
    rw [if_pos hlen']
    have h1 : mixing L P filterAll false X (compress σ'.pool σ'.genome) = .ok (X.map (mixAt L P (compress σ'.pool σ'.genome))) :=
      mixing_all_uncached L P X _ fun ρ h => (hp ρ (mem_of_mem_compress (hsub.symm.subset h))).ready
    simp only [h1]
    refine congrArg Except.ok (List.map_congr_left fun x _ => ?_)
    unfold mixAt numAt denAt
    rw [((hsub.filter fun ρ => ρ.kind.call ρ.bounds x).map fun ρ => ρ.valueAt L x * ρ.tauVal P).sum_eq,
      ((hsub.filter fun ρ => ρ.kind.call ρ.bounds x).map fun ρ => ρ.tauVal P).sum_eq]

example : ((examplePool).zip [true, true, false]).Perm
    ([fittedRule 1 3 5 (1/2) 2, fittedRule 0 3 100 1 1, fittedRule 0 2 1 1 3].zip [true, false, true]) := by
  decide +kernel

/-! ### C20 cached and uncached predictions agree on the training data -/

/-- The rule is the result of fitting a fresh rule on `X`, possibly several times. -/
def Rule.FittedOn (L : Learner K d M) (ff : RuleFitness K d) (X : List (Point K d)) (y : List K) (ρ : Rule K d M) : Prop :=
  ∃ (ρ0 : Rule K d M) (k : Nat), ρ0.st = none ∧ ρ0.model = none ∧
    ρ0.fits L ff (List.replicate k (X, y) ++ [(X, y)]) = .ok ρ

/-- One fit of a fresh rule followed by refits on the same data is one fit. -/
theorem fits_replicate (L : Learner K d M) (ff : RuleFitness K d) (X : List (Point K d)) (y : List K)
    (hxy : y.length = X.length) (ρ0 : Rule K d M) (h0 : ρ0.st = none) (k : Nat) :
    ρ0.fits L ff (List.replicate k (X, y) ++ [(X, y)]) = ρ0.fit L ff X y := by
  have hrep : ∀ n, List.replicate n (X, y) ++ [(X, y)] = List.replicate (n + 1) (X, y) := fun n => by
    rw [List.replicate_succ']
  induction k with
  | zero =>
    simp only [List.replicate_zero, List.nil_append, Rule.fits, List.foldlM_cons, List.foldlM_nil]
    cases ρ0.fit L ff X y <;> rfl
  | succ k ih =>
    have h1 : ρ0.fits L ff (List.replicate (k + 1) (X, y) ++ [(X, y)]) =
        (ρ0.fits L ff (List.replicate (k + 1) (X, y))).bind fun ρ => ρ.fit L ff X y := by
      unfold Rule.fits
      rw [List.foldlM_append]
      show Except.bind _ _ = Except.bind _ _
      congr 1
      funext ρ
      simp only [List.foldlM_cons, List.foldlM_nil]
      cases ρ.fit L ff X y <;> rfl
    rw [h1, ← hrep, ih]
    cases he : ρ0.fit L ff X y with
    | error e => rfl
    | ok ρ1 =>
      have := C15_refit_same L ff X y hxy X.length rfl (List.replicate k (X, y))
        (fun D hD => by rw [List.eq_of_mem_replicate hD]; exact ⟨rfl, hxy⟩) ρ0 ρ1 h0 (by rw [ih]; exact he)
      exact this

theorem localPred_cached (L : Learner K d M) (ff : RuleFitness K d) (X : List (Point K d)) (y : List K)
    (hxy : y.length = X.length) (ρ : Rule K d M) (h : ρ.FittedOn L ff X y)
    (hm : ∃ x ∈ X, ρ.kind.call ρ.bounds x = true) :
    ρ.Ready ∧ ρ.localPred L true X = .ok (X.map (ρ.kind.call ρ.bounds),
      X.map fun x => if ρ.kind.call ρ.bounds x then ρ.valueAt L x else 0) := by
  obtain ⟨ρ0, k, h0, _, he⟩ := h
  rw [fits_replicate L ff X y hxy ρ0 h0 k] at he
  have hshape := fit_consistent L ff X X y hxy rfl ρ0 (Or.inl h0)
  obtain ⟨ρ', e', ⟨hk, hb, _⟩, _⟩ := hshape
  rw [he] at e'; cases e'
  have hm0 : ∃ x ∈ X, ρ0.kind.call ρ0.bounds x = true := by rw [← hk, ← hb]; exact hm
  obtain ⟨x, hx, hx1⟩ := hm0
  obtain ⟨ρ1, s, m, e1, hst, hmod, _, _, _, hms, _, _, _, hpred, _⟩ := C14_matched L ff X y hxy ρ0 h0 x hx hx1
  rw [he] at e1; cases e1
  refine ⟨⟨by rw [hst]; rfl, by rw [hmod]; rfl⟩, ?_⟩
  unfold Rule.localPred
  rw [if_pos rfl, hst]
  have hl : s.matchSet.length = X.length := by rw [hms, List.length_map]
  simp only [hl, ne_eq, not_true, if_false]
  have hp : s.pred = (X.filter (ρ.kind.call ρ.bounds)).map (L.predict m) := by
    rw [hpred, hk, hb, filter_zip_fst _ _ _ hxy, List.map_map]; rfl
  rw [hms, ← hk, ← hb, hp, scatter_compress]
  simp only [Rule.valueAt_of_model L ρ m hmod]

/-- C20 (partial): if every selected rule was fitted on `(X, y)` from scratch (and possibly refitted on the same data) and matches some sample, the cached and
the recomputed predictions for `X` agree. Missing: rules that were fitted on other data before, for which it is false, see `C20_refuted`. -/
theorem C20_cached_eq_uncached_partial (L : Learner K d M) (ff : RuleFitness K d) (P : MixParams K) (X : List (Point K d)) (y : List K)
    (hxy : y.length = X.length) (filt : SubFilter K d M)
    (hfilt : ∀ sub sub', filt sub = .ok sub' → ∀ ρ ∈ sub', ρ ∈ sub)
    (σ : Solution K d M)
    (hp : ∀ ρ ∈ σ.pool, ρ.FittedOn L ff X y ∧ ∃ x ∈ X, ρ.kind.call ρ.bounds x = true) :
    σ.predict L P filt true X = σ.predict L P filt false X := by
  unfold Solution.predict Solution.subpopulation
  split_ifs with hlen
  · simp only
    unfold mixing
    split_ifs with hemp
    · rfl
    · cases hf : filt (compress σ.pool σ.genome) with
      | error e => rfl
      | ok sub' =>
        simp only
        have hin : ∀ ρ ∈ sub', ρ ∈ σ.pool := fun ρ h => mem_of_mem_compress (hfilt _ _ hf ρ h)
        have hr : ∀ ρ ∈ sub', ρ.Ready := fun ρ h =>
          (localPred_cached L ff X y hxy ρ (hp ρ (hin ρ h)).1 (hp ρ (hin ρ h)).2).1
        rw [mixRules_uncached L P X sub' hr, mixRules_of_local L P true X sub' hr fun ρ h =>
          (localPred_cached L ff X y hxy ρ (hp ρ (hin ρ h)).1 (hp ρ (hin ρ h)).2).2]
  · rfl

/-- Both modes also agree on the error: the length check is the only one that can fail for such pools. -/
theorem C20_default_filter_partial (L : Learner K d M) (ff : RuleFitness K d) (P : MixParams K) (X : List (Point K d)) (y : List K)
    (hxy : y.length = X.length) (σ : Solution K d M) (hlen : σ.genome.length = σ.pool.length)
    (hp : ∀ ρ ∈ σ.pool, ρ.FittedOn L ff X y ∧ ∃ x ∈ X, ρ.kind.call ρ.bounds x = true) :
    ∃ out, out.length = X.length ∧ σ.predict L P filterAll true X = .ok out ∧ σ.predict L P filterAll false X = .ok out := by
  have h := C20_cached_eq_uncached_partial L ff P X y hxy filterAll
    (fun sub sub' h ρ hρ => by cases h; exact hρ) σ hp
  refine ⟨X.map (mixAt L P (compress σ.pool σ.genome)), by simp, ?_, ?_⟩
  · rw [h]
    unfold Solution.predict Solution.subpopulation
    rw [if_pos hlen]
    exact mixing_all_uncached L P X _ fun ρ h =>
      (localPred_cached L ff X y hxy ρ (hp ρ (mem_of_mem_compress h)).1 (hp ρ (mem_of_mem_compress h)).2).1
  · unfold Solution.predict Solution.subpopulation
    rw [if_pos hlen]
    exact mixing_all_uncached L P X _ fun ρ h =>
      (localPred_cached L ff X y hxy ρ (hp ρ (mem_of_mem_compress h)).1 (hp ρ (mem_of_mem_compress h)).2).1

example : Rule.FittedOn meanLearner negErr [![0], ![1], ![5]] [1, 3, 7]
    { intervalRule 0 1 with
      model := some 2
      st := some ⟨true, ((1 : ℚ) : WithTop ℚ), ((-1 : ℚ) : WithBot ℚ), 2, [2, 2], [true, true, false]⟩ } :=
  ⟨intervalRule 0 1, 1, rfl, rfl, by decide +kernel⟩

/-- A learner whose prediction depends on the sample: `x ↦ x`. -/
def identityLearner : Learner ℚ 1 ℚ := ⟨fun _ _ => 0, fun _ x => x 0⟩

/-- C20 (refuted): for a rule fitted on `X1` and then on `X2` with the same match set, the stored predictions are those for `X1`. Witness: rule `[0,1]`,
`X1 = [0]`, `X2 = [1]`, local model `x ↦ x`: cached prediction 0, recomputed prediction 1. -/
theorem C20_refuted :
    ∃ ρ : Rule ℚ 1 ℚ, (intervalRule 0 1).fits identityLearner negErr [([![0]], [0]), ([![1]], [0])] = .ok ρ ∧
      Solution.predict identityLearner ⟨.plain, 1⟩ filterAll true { genome := [true], pool := [ρ] } [![1]] = .ok [0] ∧
      Solution.predict identityLearner ⟨.plain, 1⟩ filterAll false { genome := [true], pool := [ρ] } [![1]] = .ok [1] := by
  have h : (intervalRule 0 1).fits identityLearner negErr [([![0]], [0]), ([![1]], [0])] =
      .ok { intervalRule 0 1 with
        model := some 0
        st := some ⟨true, ((1 / 10000 : ℚ) : WithTop ℚ), ((-(1 / 10000) : ℚ) : WithBot ℚ), 1, [0], [true]⟩ } := by
    decide +kernel
  exact ⟨_, h, by decide +kernel, by decide +kernel⟩

/-! ### C21 the experience weight has no effect -/

/-- An upper bound that is not positive makes all experience equal; all other experience calculations keep it positive. -/
theorem ExpCalc.positive_or_constant (c : ExpCalc K) (d : Nat) : c.Positive d ∨ ∃ h : K, h ≤ 0 ∧ ∀ e : Nat, 0 < e → c.value d e = h := by
  have key : ∀ lo hi : Option K, (∀ e : Nat, 0 < e → 0 < clipOpt lo hi (e : K)) ∨ ∃ h : K, h ≤ 0 ∧ ∀ e : Nat, 0 < e → clipOpt lo hi (e : K) = h := by
    intro lo hi
    by_cases h : ∃ u, hi = some u ∧ u ≤ 0
    · obtain ⟨u, rfl, hu⟩ := h
      refine .inr ⟨u, hu, fun e he => ?_⟩
      have he' : (0 : K) < (e : K) := by exact_mod_cast he
      unfold clipOpt
      dsimp only
      cases lo with
      | none => exact min_eq_right (hu.trans he'.le)
      | some l => exact min_eq_right (hu.trans (he'.le.trans (le_max_left _ _)))
    · push Not at h
      exact .inl (ExpCalc.cap_positive d lo hi h)
  cases c with
  | plain => exact .inl (ExpCalc.plain_positive d)
  | cap lo hi => exact key lo hi
  | capDim lo hi => exact key _ _

/-- The total weight of the rules that match a sample is not zero, or the weighted local predictions add up to zero. -/
theorem denAt_ne_or (L : Learner K d M) (c : ExpCalc K) (sub : List (Rule K d M)) (hp : ∀ ρ ∈ sub, ρ.Usable) (x : Point K d) :
    denAt ⟨c, 1⟩ sub x ≠ 0 ∨ numAt L ⟨c, 1⟩ sub x = 0 := by
  by_cases hne : sub.filter (fun ρ => ρ.kind.call ρ.bounds x) = []
  · exact .inr (by simp [numAt, hne])
  have hu : ∀ ρ ∈ sub.filter (fun ρ => ρ.kind.call ρ.bounds x), ρ.Usable := fun ρ h => hp ρ (List.mem_filter.mp h).1
  rcases c.positive_or_constant d with hc | ⟨h, hh, hval⟩
  · exact .inl (ne_of_gt (sum_pos_of_pos _ _ (fun ρ h => Rule.tauVal_pos ⟨c, 1⟩ one_pos hc (hu ρ h)) hne))
  have htau : ∀ ρ ∈ sub.filter (fun ρ => ρ.kind.call ρ.bounds x), ∃ e : K, 0 < e ∧ ρ.tauVal ⟨c, 1⟩ = 1 / e * h := by
    intro ρ hρ
    obtain ⟨s, m, e, h1, _, h3, h4, h5⟩ := hu ρ hρ
    refine ⟨e, h4, ?_⟩
    unfold Rule.tauVal
    rw [h1]
    simp only [h3, invError, WithTop.map_coe, WithTop.untopD_coe, hval _ h5, mul_one]
  rcases eq_or_lt_of_le hh with rfl | hneg
  · refine .inr (List.sum_eq_zero fun t ht => ?_)
    obtain ⟨ρ, hρ, rfl⟩ := List.mem_map.mp ht
    obtain ⟨e, _, he⟩ := htau ρ hρ
    rw [he]; ring
  · left
    have hpos : 0 < ((sub.filter fun ρ => ρ.kind.call ρ.bounds x).map fun ρ => -ρ.tauVal ⟨c, 1⟩).sum := by
      refine sum_pos_of_pos _ _ (fun ρ hρ => ?_) hne
      obtain ⟨e, he0, he⟩ := htau ρ hρ
      rw [he, neg_pos]
      exact mul_neg_of_pos_of_neg (one_div_pos.mpr he0) hneg
    intro h0
    have : ((sub.filter fun ρ => ρ.kind.call ρ.bounds x).map fun ρ => -ρ.tauVal ⟨c, 1⟩).sum = -denAt ⟨c, 1⟩ sub x := by
      unfold denAt
      generalize sub.filter (fun ρ => ρ.kind.call ρ.bounds x) = l
      induction l with
      | nil => simp
      | cons ρ l ih => simp only [List.map_cons, List.sum_cons, ih]; ring
    rw [this, h0, neg_zero] at hpos
    exact lt_irrefl _ hpos

/-- C21: two positive or negative, non-zero experience weights give the same predictions, whatever the experience calculation is. -/
theorem C21_weight_irrelevant (L : Learner K d M) (c : ExpCalc K) (w w' : K) (hw : w ≠ 0) (hw' : w' ≠ 0)
    (σ : Solution K d M) (hp : ∀ ρ ∈ σ.pool, ρ.Usable) (X : List (Point K d)) :
    σ.predict L ⟨c, w⟩ filterAll false X = σ.predict L ⟨c, w'⟩ filterAll false X := by
  unfold Solution.predict Solution.subpopulation
  split_ifs with hlen
  · have hr : ∀ ρ ∈ compress σ.pool σ.genome, ρ.Ready := fun ρ h => (hp ρ (mem_of_mem_compress h)).ready
    simp only
    rw [mixing_all_uncached L ⟨c, w⟩ X _ hr, mixing_all_uncached L ⟨c, w'⟩ X _ hr]
    refine congrArg Except.ok (List.map_congr_left fun x _ => ?_)
    have key : ∀ w : K, w ≠ 0 → mixAt L ⟨c, w⟩ (compress σ.pool σ.genome) x = mixAt L ⟨c, 1⟩ (compress σ.pool σ.genome) x := by
      intro w hw
      have htau : ∀ ρ : Rule K d M, ρ.tauVal ⟨c, w⟩ = ρ.tauVal ⟨c, 1⟩ * w := by
        intro ρ; unfold Rule.tauVal; cases ρ.st with
        | none => simp
        | some s => simp only; ring
      have hnum : numAt L ⟨c, w⟩ (compress σ.pool σ.genome) x = numAt L ⟨c, 1⟩ (compress σ.pool σ.genome) x * w := by
        unfold numAt
        rw [← List.sum_map_mul_right]
        congr 1
        apply List.map_congr_left; intro ρ _; rw [htau]; ring
      have hden : denAt ⟨c, w⟩ (compress σ.pool σ.genome) x = denAt ⟨c, 1⟩ (compress σ.pool σ.genome) x * w := by
        unfold denAt
        rw [← List.sum_map_mul_right]
        congr 1
        apply List.map_congr_left; intro ρ _; rw [htau]
      rcases denAt_ne_or L c (compress σ.pool σ.genome) (fun ρ h => hp ρ (mem_of_mem_compress h)) x with hne | h0
      · unfold mixAt
        rw [hden, if_neg (mul_ne_zero hne hw), if_neg hne, hnum]
        field_simp
      · unfold mixAt
        rw [hnum, h0]; simp
    rw [key w hw, key w' hw']
  · rfl

example : (ExpCalc.cap (some (1/2)) (some (10 : ℚ))).Positive 1 :=
  ExpCalc.cap_positive 1 _ _ fun u h => by cases h; norm_num

/-- Also with an upper bound that is not positive: the experience weights 1 and -3 give the same prediction. -/
example : Solution.predict meanLearner ⟨.cap none (some (-1)), 1⟩ filterAll false { genome := [true, true], pool := examplePool } [![3/2]] =
    Solution.predict meanLearner ⟨.cap none (some (-1)), -3⟩ filterAll false { genome := [true, true], pool := examplePool } [![3/2]] := by decide +kernel

/-! ### C22 the N-best filter -/

/-- The fitness by which `NBestFitness` sorts. -/
def Rule.fit0 (ρ : Rule K d M) : WithBot K := (ρ.st.map RuleState.fitness).getD ⊥

theorem sortedAsc_perm {α F : Type} [LE F] [DecidableLE F] (key : α → F) (l : List α) : (sortedAsc key l).Perm l :=
  List.perm_insertionSort _ l

theorem sortedAsc_pairwise {α F : Type} [LinearOrder F] (key : α → F) (l : List α) :
    (sortedAsc key l).Pairwise fun a b => key a ≤ key b := by
  have : Std.Total (fun a b : α => key a ≤ key b) := ⟨fun a b => le_total _ _⟩
  have : IsTrans α (fun a b : α => key a ≤ key b) := ⟨fun a b c h1 h2 => le_trans h1 h2⟩
  exact List.pairwise_insertionSort _ l

/-- C22 (partial): for `n ≥ 1` the filter keeps exactly `min n (number of rules)` of the given rules — the input is, up to order, the kept rules plus the
discarded ones — and no discarded rule is fitter than a kept one. Missing: `n = 0`, where it is false. -/
theorem C22_partial (n : Nat) (hn : 1 ≤ n) (sub : List (Rule K d M)) (hst : ∀ ρ ∈ sub, ρ.st.isSome) :
    ∃ kept discarded, nBestFitness n sub = .ok kept ∧ (discarded ++ kept).Perm sub ∧
      kept.length = min n sub.length ∧ ∀ ρ ∈ discarded, ∀ τ ∈ kept, ρ.fit0 ≤ τ.fit0 := by
  have hl : (sortedAsc (fun ρ : Rule K d M => ρ.fit0) sub).length = sub.length := (sortedAsc_perm _ _).length_eq
  refine ⟨(sortedAsc (fun ρ : Rule K d M => ρ.fit0) sub).drop (sub.length - n),
    (sortedAsc (fun ρ : Rule K d M => ρ.fit0) sub).take (sub.length - n), ?_, ?_, ?_, ?_⟩
  · unfold nBestFitness
    rw [if_pos (List.all_eq_true.mpr hst)]
    unfold lastSlice
    rw [if_neg (by omega)]
    show Except.ok (List.drop ((sortedAsc (fun ρ : Rule K d M => ρ.fit0) sub).length - n) (sortedAsc (fun ρ : Rule K d M => ρ.fit0) sub)) = _
    rw [hl]
  · rw [List.take_append_drop]; exact sortedAsc_perm _ _
  · rw [List.length_drop, hl]; omega
  · intro ρ hρ τ hτ
    have hpw := sortedAsc_pairwise (fun ρ : Rule K d M => ρ.fit0) sub
    rw [← List.take_append_drop (sub.length - n) (sortedAsc (fun ρ : Rule K d M => ρ.fit0) sub)] at hpw
    exact (List.pairwise_append.mp hpw).2.2 ρ hρ τ hτ

/-- C22 (refuted): not every `rule_amount` is respected; with 0 and one rule, one rule is kept. -/
theorem C22_refuted :
    ¬ ∀ (n : Nat) (sub kept : List (Rule ℚ 1 ℚ)), nBestFitness n sub = .ok kept → kept.length = min n sub.length := by
  intro h
  exact absurd (h 0 [fittedRule 0 2 1 1 3] [fittedRule 0 2 1 1 3] (by decide +kernel)) (by decide)

/-- C22: with `rule_amount = 0` nothing is filtered at all (`[-0:]` is the whole list). -/
theorem C22_zero_keeps_all_refuted (sub : List (Rule K d M)) (hst : ∀ ρ ∈ sub, ρ.st.isSome) :
    ∃ kept, nBestFitness 0 sub = .ok kept ∧ kept.length = sub.length := by
  refine ⟨sortedAsc (fun ρ : Rule K d M => (ρ.st.map RuleState.fitness).getD ⊥) sub, ?_, (sortedAsc_perm _ _).length_eq⟩
  unfold nBestFitness
  rw [if_pos (List.all_eq_true.mpr hst)]
  rfl

example : ∀ ρ ∈ examplePool, ρ.st.isSome := by decide +kernel

/-! ### C23 padding keeps the selection -/

theorem compress_append {α : Type} (l l' : List α) (g g' : List Bool) (h : l.length = g.length) :
    compress (l ++ l') (g ++ g') = compress l g ++ compress l' g' := by
  induction l generalizing g with
  | nil => cases g with
    | nil => rfl
    | cons b bs => simp at h
  | cons a as ih =>
    cases g with
    | nil => simp at h
    | cons b bs => cases b <;> simp [compress, ih bs (by simpa using h)]

theorem compress_false {α : Type} (l : List α) (n : Nat) : compress l (List.replicate n false) = [] := by
  induction l generalizing n with
  | nil => cases n <;> rfl
  | cons a as ih => cases n with
    | zero => rfl
    | succ n => simp [List.replicate_succ, compress, ih]

/-- C23: after the pool was extended, zero padding succeeds, keeps all earlier bits, makes the genome as long as the pool, and selects the same rules; hence
predictions (with every filter, cached or not) and the complexity are unchanged. -/
theorem C23_zero_pad (σ : Solution K d M) (more : List (Rule K d M)) (hlen : σ.genome.length = σ.pool.length) :
    ∃ σ', zeroPad { σ with pool := σ.pool ++ more } = .ok σ' ∧
      σ.genome <+: σ'.genome ∧ σ'.genome.length = σ'.pool.length ∧ σ'.pool = σ.pool ++ more ∧
      σ'.subpopulation = σ.subpopulation ∧ σ'.genome.count true = σ.genome.count true ∧
      ∀ (L : Learner K d M) (P : MixParams K) (filt : SubFilter K d M) (cache : Bool) (X : List (Point K d)),
        σ'.predict L P filt cache X = σ.predict L P filt cache X := by
  have hsub : ({ σ with pool := σ.pool ++ more, genome := σ.genome ++ List.replicate more.length false } : Solution K d M).subpopulation
      = σ.subpopulation := by
    unfold Solution.subpopulation
    rw [if_pos (by simp [hlen]), if_pos hlen]
    simp only
    rw [compress_append _ _ _ _ hlen.symm, compress_false, List.append_nil]
  refine ⟨{ σ with pool := σ.pool ++ more, genome := σ.genome ++ List.replicate more.length false }, ?_,
    List.prefix_append _ _, by simp [hlen], rfl, hsub, by simp [List.count_append, List.count_replicate], ?_⟩
  · unfold zeroPad
    rw [if_neg (by simp [hlen])]
    simp [hlen]
  · intro L P filt cache X
    unfold Solution.predict
    rw [hsub]

/-- C23: hence also the error found by fitting the padded solution is unchanged (and so is every fitness that reads error and complexity only). -/
theorem C23_zero_pad_fit (σ : Solution K d M) (more : List (Rule K d M)) (hlen : σ.genome.length = σ.pool.length)
    (L : Learner K d M) (P : MixParams K) (filt : SubFilter K d M) (sf : SolFitness K)
    (hsf : ∀ e n n' c, sf e n c = sf e n' c) (X : List (Point K d)) (y : List K)
    (τ : Solution K d M) (s : SolState K) (hfit : σ.fit L P filt sf X y = .ok τ) (hs : τ.st = some s) :
    ∃ σ' τ' s', zeroPad { σ with pool := σ.pool ++ more } = .ok σ' ∧ σ'.fit L P filt sf X y = .ok τ' ∧ τ'.st = some s' ∧
      s'.error = s.error ∧ s'.complexity = s.complexity ∧ s'.fitness = s.fitness := by
  obtain ⟨σ', e, _, _, _, _, hc, hpred⟩ := C23_zero_pad σ more hlen
  unfold Solution.fit at hfit
  cases hp : σ.predict L P filt true X with
  | error err => rw [hp] at hfit; cases hfit
  | ok pred =>
    rw [hp] at hfit
    simp only at hfit
    split_ifs at hfit with hbad
    cases hfit
    simp only [Option.some.injEq] at hs
    subst hs
    refine ⟨σ', { σ' with st := some { error := max (mse y pred) errorFloor, inputSize := σ'.genome.length, complexity := σ'.genome.count true, fitness := sf (max (mse y pred) errorFloor) σ'.genome.length (σ'.genome.count true) } }, _, e, ?_, rfl, rfl, hc, ?_⟩
    · unfold Solution.fit
      rw [hpred, hp]
      simp only [hbad, if_false]
    · simp only [hc]; exact hsf _ _ _ _

/-- C23: random padding keeps all earlier bits and makes the genome as long as the pool, for all draws. -/
theorem C23_random_pad (p : K) (draw : Nat → List K) (hdraw : ∀ n, (draw n).length = n)
    (σ : Solution K d M) (more : List (Rule K d M)) (hlen : σ.genome.length = σ.pool.length) :
    ∃ σ', randomPad p draw { σ with pool := σ.pool ++ more } = .ok σ' ∧
      σ.genome <+: σ'.genome ∧ σ'.genome.length = σ'.pool.length ∧ σ'.pool = σ.pool ++ more := by
  refine ⟨{ σ with pool := σ.pool ++ more, genome := σ.genome ++ randomBits p (draw more.length) }, ?_,
    List.prefix_append _ _, by simp [hlen, randomBits, hdraw], rfl⟩
  unfold randomPad
  rw [if_neg (by simp [hlen])]
  simp [hlen]

/-- C23: new solutions have one bit per rule too. -/
theorem C23_init_lengths (p : K) (draw : Nat → List K) (hdraw : ∀ n, (draw n).length = n) (pool : List (Rule K d M)) :
    (zeroInit pool).genome.length = pool.length ∧ (randomInit p draw pool).genome.length = pool.length := by
  simp [zeroInit, randomInit, randomBits, hdraw]

example : ([true, true, false] : List Bool).length = examplePool.length := rfl

/-! ### C24 solution statistics -/

/-- Mean squared difference of two vectors. -/
def meanSqDiff (y v : List K) : K := ((y.zip v).map fun q => (q.1 - q.2) ^ 2).sum / (y.length : K)

/-- C24: after a successful fit, the error is the mean squared error of the solution's (cached) predictions floored at `1e-4`, the complexity is the number of selected
rules and at most the size of the pool, the recorded input size is the genome length, and genome and pool are unchanged. -/
theorem C24_statistics (L : Learner K d M) (P : MixParams K) (filt : SubFilter K d M) (sf : SolFitness K)
    (X : List (Point K d)) (y : List K) (σ τ : Solution K d M) (h : σ.fit L P filt sf X y = .ok τ) :
    ∃ s pred sub, τ.st = some s ∧ σ.predict L P filt true X = .ok pred ∧ σ.subpopulation = .ok sub ∧ pred.length = y.length ∧
      s.error = max (meanSqDiff y pred) (1 / 10000) ∧ 0 < s.error ∧
      s.complexity = sub.length ∧ s.complexity ≤ σ.pool.length ∧ s.inputSize = σ.pool.length ∧
      s.fitness = sf s.error s.inputSize s.complexity ∧ τ.genome = σ.genome ∧ τ.pool = σ.pool := by
  unfold Solution.fit at h
  cases hp : σ.predict L P filt true X with
  | error err => rw [hp] at h; cases h
  | ok pred =>
    rw [hp] at h
    simp only at h
    split_ifs at h with hbad
    cases h
    have hlen : σ.genome.length = σ.pool.length := by
      by_contra hne
      unfold Solution.predict Solution.subpopulation at hp
      rw [if_neg hne] at hp
      cases hp
    have hc : σ.genome.count true = (compress σ.pool σ.genome).length := (length_compress _ _ hlen.symm).symm
    refine ⟨_, pred, compress σ.pool σ.genome, rfl, rfl, ?_, ?_, ?_, ?_, hc, ?_, hlen, rfl, rfl, rfl⟩
    · unfold Solution.subpopulation; rw [if_pos hlen]
    · by_contra hne; exact hbad (Or.inl fun h => hne h.symm)
    · simp only [mse, errorFloor, meanSqDiff, List.zip, List.map_zipWith]
    · simp only [errorFloor]; exact lt_of_lt_of_le (by norm_num) (le_max_right _ _)
    · simp only; rw [← hlen]; exact List.count_le_length

/-- C24: selecting rules succeeds exactly when the genome is as long as the pool, and otherwise fails with an `AssertionError`. -/
theorem C24_selection (σ : Solution K d M) :
    (σ.genome.length = σ.pool.length → ∃ sub, σ.subpopulation = .ok sub ∧ sub.Sublist σ.pool ∧ sub.length = σ.genome.count true) ∧
    (σ.genome.length ≠ σ.pool.length → σ.subpopulation = .error .assertionError) := by
  constructor
  · intro h
    refine ⟨compress σ.pool σ.genome, by unfold Solution.subpopulation; rw [if_pos h], ?_, length_compress _ _ h.symm⟩
    have : ∀ (l : List (Rule K d M)) (g : List Bool), (compress l g).Sublist l := by
      intro l
      induction l with
      | nil => intro g; cases g <;> simp [compress]
      | cons a as ih =>
        intro g
        cases g with
        | nil => simp [compress]
        | cons b bs =>
          cases b
          · simpa [compress] using (ih bs).trans (List.sublist_cons_self a as)
          · simpa [compress] using ih bs
    exact this _ _
  · intro h
    unfold Solution.subpopulation; rw [if_neg h]

/-- C24: and the selected rules are exactly those at the positions whose bit is set. -/
theorem C24_selected_iff (σ : Solution K d M) (sub : List (Rule K d M)) (h : σ.subpopulation = .ok sub) (ρ : Rule K d M) :
    ρ ∈ sub ↔ ∃ i : Nat, σ.pool[i]? = some ρ ∧ σ.genome[i]? = some true := by
  unfold Solution.subpopulation at h
  split_ifs at h with hlen
  cases h
  have : ∀ (l : List (Rule K d M)) (g : List Bool), ρ ∈ compress l g ↔ ∃ i : Nat, l[i]? = some ρ ∧ g[i]? = some true := by
    intro l
    induction l with
    | nil => intro g; cases g <;> simp [compress]
    | cons a as ih =>
      intro g
      cases g with
      | nil => simp [compress]
      | cons b bs =>
        rw [show compress (a :: as) (b :: bs) = if b then a :: compress as bs else compress as bs from rfl]
        constructor
        · intro hm
          cases b
          · obtain ⟨i, h1, h2⟩ := (ih bs).mp (by simpa using hm)
            exact ⟨i + 1, by simpa using h1, by simpa using h2⟩
          · simp only [if_true, List.mem_cons] at hm
            rcases hm with hm | hm
            · exact ⟨0, by simp [hm], by simp⟩
            · obtain ⟨i, h1, h2⟩ := (ih bs).mp hm
              exact ⟨i + 1, by simpa using h1, by simpa using h2⟩
        · rintro ⟨i, h1, h2⟩
          cases i with
          | zero =>
            simp only [List.getElem?_cons_zero, Option.some.injEq] at h1 h2
            subst h1 h2; simp
          | succ i =>
            have := (ih bs).mpr ⟨i, by simpa using h1, by simpa using h2⟩
            cases b <;> simp [this]
  exact this _ _

example : ∃ sub, ({ genome := [true, false, true], pool := examplePool } : Solution ℚ 1 ℚ).subpopulation = .ok sub ∧ sub.length = 2 :=
  ⟨_, rfl, rfl⟩

/-! ### C25 cleanup preserves the model -/

theorem compress_true {α : Type} (l : List α) : compress l (List.replicate l.length true) = l := by
  induction l with
  | nil => rfl
  | cons a as ih => simp [List.replicate_succ, compress, ih]

/-- C25: cleanup of a well-formed model succeeds, keeps exactly the selected rules (in order), changes no prediction for any batch, filter and caching
mode, and a second cleanup changes nothing. -/
theorem C25_cleanup (σ : Solution K d M) (hlen : σ.genome.length = σ.pool.length) :
    ∃ σ', cleanup σ = .ok σ' ∧ .ok σ'.pool = σ.subpopulation ∧ σ'.subpopulation = σ.subpopulation ∧
      cleanup σ' = .ok σ' ∧
      ∀ (L : Learner K d M) (P : MixParams K) (filt : SubFilter K d M) (cache : Bool) (X : List (Point K d)),
        σ'.predict L P filt cache X = σ.predict L P filt cache X := by
  have h1 : σ.subpopulation = .ok (compress σ.pool σ.genome) := by unfold Solution.subpopulation; rw [if_pos hlen]
  have h2 : ({ σ with genome := List.replicate (compress σ.pool σ.genome).length true, pool := compress σ.pool σ.genome } : Solution K d M).subpopulation
      = .ok (compress σ.pool σ.genome) := by
    unfold Solution.subpopulation
    rw [if_pos (by simp)]
    simp only [compress_true]
  refine ⟨{ σ with genome := List.replicate (compress σ.pool σ.genome).length true, pool := compress σ.pool σ.genome }, ?_, h1.symm, h2.trans h1.symm, ?_, ?_⟩
  · unfold cleanup; rw [h1]
  · unfold cleanup; rw [h2]
  · intro L P filt cache X
    unfold Solution.predict
    rw [h1, h2]

example : (cleanup { genome := [true, false, true], pool := examplePool }).map (fun σ => σ.pool.length) = .ok 2 := by decide +kernel

end Suprb
