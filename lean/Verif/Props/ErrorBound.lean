import Verif.Props.Parts

/-!
# Claim C164: the errors of the rules vouch for the error of the model
-/

set_option autoImplicit false
set_option linter.unusedSectionVars false

namespace Suprb

open _root_.Spec (Pairs Point)

variable {K : Type} [Field K] [LinearOrder K] [IsStrictOrderedRing K] {d : Nat} {M : Type}

namespace Spec

/-- Some of the rules matches the sample. -/
def Covered (sub : List (Rule K d M)) (x : Point K d) : Bool := sub.any fun ρ => ρ.kind.call ρ.bounds x

/-- Samples with targets and predictions that some of the rules matches. -/
def coveredData (sub : List (Rule K d M)) (X : List (Point K d)) (y out : List K) : List ((Point K d × K) × K) :=
  ((X.zip y).zip out).filter fun q => Covered sub q.1.1

/-- The sum of the squared errors on a list of samples with targets and predictions. -/
def sqErrors (T : List ((Point K d × K) × K)) : K := (T.map fun q => (q.1.2 - q.2) ^ 2).sum

/-- The error that a fitted rule reports is at most `e`. -/
def ReportsAtMost (ρ : Rule K d M) (e : K) : Prop := ∃ s, ρ.st = some s ∧ s.error ≤ (e : WithTop K)

/-- At most `k` of the rules match the same sample. -/
def OverlapAtMost (sub : List (Rule K d M)) (X : List (Point K d)) (k : Nat) : Prop :=
  ∀ x ∈ X, (sub.filter fun ρ => ρ.kind.call ρ.bounds x).length ≤ k

end Spec

open Suprb.Spec (Covered coveredData sqErrors ReportsAtMost OverlapAtMost)

/-! ### Predictions that lie between those of the matching rules -/

/-- Predictions between those of the matching rules, as in C17. -/
def Between (L : Learner K d M) (sub : List (Rule K d M)) (x : Point K d) (v : K) : Prop :=
  ∀ a b, (∀ ρ ∈ sub, ρ.kind.call ρ.bounds x = true → ∀ u, ρ.LocalPrediction L x u → a ≤ u ∧ u ≤ b) → a ≤ v ∧ v ≤ b

theorem exists_max_of {α : Type} (f : α → K) (l : List α) (h : l ≠ []) : ∃ a ∈ l, ∀ b ∈ l, f b ≤ f a := by
  induction l with
  | nil => exact absurd rfl h
  | cons a as ih =>
    by_cases has : as = []
    · subst has
      exact ⟨a, List.mem_cons_self .., fun b hb => by rw [List.mem_singleton.mp hb]⟩
    · obtain ⟨c, hc, hmax⟩ := ih has
      rcases le_total (f a) (f c) with hle | hle
      · refine ⟨c, List.mem_cons_of_mem _ hc, fun b hb => ?_⟩
        rcases List.mem_cons.mp hb with rfl | hb
        · exact hle
        · exact hmax b hb
      · refine ⟨a, List.mem_cons_self .., fun b hb => ?_⟩
        rcases List.mem_cons.mp hb with rfl | hb
        · exact le_rfl
        · exact (hmax b hb).trans hle

/-- A prediction between those of the matching rules is, for every target, at least as close to it as that of one of the matching rules. -/
theorem worst_rule (L : Learner K d M) (sub : List (Rule K d M)) (hsub : ∀ ρ ∈ sub, ∃ m, ρ.model = some m) (x : Point K d) (v : K) (hc : ∃ ρ ∈ sub, ρ.kind.call ρ.bounds x = true)
    (hv : Between L sub x v) (t : K) : ∃ ρ ∈ sub, ρ.kind.call ρ.bounds x = true ∧ ∃ u, ρ.LocalPrediction L x u ∧ (t - v) ^ 2 ≤ (t - u) ^ 2 := by
  have hne : (sub.filter fun ρ => ρ.kind.call ρ.bounds x) ≠ [] := by
    obtain ⟨ρ, h1, h2⟩ := hc
    exact List.ne_nil_of_mem (List.mem_filter.mpr ⟨h1, h2⟩)
  have hval : ∀ ρ ∈ sub, ∀ u, ρ.LocalPrediction L x u → u = ρ.valueAt L x := by
    rintro ρ _ u ⟨m, hm, rfl⟩
    rw [ρ.valueAt_of_model L m hm]
  have hloc : ∀ ρ ∈ sub, ρ.LocalPrediction L x (ρ.valueAt L x) := fun ρ h => by
    obtain ⟨m, hm⟩ := hsub ρ h
    exact ⟨m, hm, ρ.valueAt_of_model L m hm x⟩
  obtain ⟨ρ, h1, h2⟩ := exists_max_of (fun ρ => ρ.valueAt L x) _ hne
  obtain ⟨η, h3, h4⟩ := exists_max_of (fun ρ => -ρ.valueAt L x) _ hne
  have hb := hv (η.valueAt L x) (ρ.valueAt L x) fun κ hκ hm u hu => by
    rw [hval κ hκ u hu]
    exact ⟨neg_le_neg_iff.mp (h4 κ (List.mem_filter.mpr ⟨hκ, hm⟩)), h2 κ (List.mem_filter.mpr ⟨hκ, hm⟩)⟩
  obtain ⟨h1, h1'⟩ := List.mem_filter.mp h1
  obtain ⟨h3, h3'⟩ := List.mem_filter.mp h3
  rcases le_total t v with h | h
  · refine ⟨ρ, h1, h1', _, hloc ρ h1, ?_⟩
    nlinarith [hb.2]
  · refine ⟨η, h3, h3', _, hloc η h3, ?_⟩
    nlinarith [hb.1]

/-- A prediction for a sample that exactly one rule matches is that of the rule. -/
theorem only_rule (L : Learner K d M) (sub : List (Rule K d M)) (x : Point K d) (v : K) (ρ : Rule K d M) (h1 : (sub.filter fun ρ => ρ.kind.call ρ.bounds x) = [ρ])
    (hv : Between L sub x v) (u : K) (hu : ρ.LocalPrediction L x u) : v = u := by
  have h := hv u u fun κ hκ hm w hw => by
    have hκ' : κ ∈ [ρ] := by rw [← h1]; exact List.mem_filter.mpr ⟨hκ, hm⟩
    rw [List.mem_singleton.mp hκ'] at hw
    obtain ⟨m, hm, rfl⟩ := hw
    obtain ⟨m', hm', rfl⟩ := hu
    rw [hm] at hm'
    cases hm'
    exact ⟨le_rfl, le_rfl⟩
  exact le_antisymm h.2 h.1

theorem sum_map_le_of {α : Type} (f g : α → K) (l : List α) (h : ∀ a ∈ l, f a ≤ g a) : (l.map f).sum ≤ (l.map g).sum := List.sum_le_sum h

/-- The sum over all pairs, taken in either order. -/
theorem sum_sum_swap {α β : Type} (f : α → β → K) (l : List α) (r : List β) : (l.map fun a => (r.map fun b => f a b).sum).sum = (r.map fun b => (l.map fun a => f a b).sum).sum := by
  induction l with
  | nil => simp
  | cons a as ih =>
    simp only [List.map_cons, List.sum_cons, ih]
    rw [List.sum_map_add]

theorem zip_zip_mem {α β γ : Type} (X : List α) (y : List β) (out : List γ) : ∀ q ∈ (X.zip y).zip out, (q.1.1, q.2) ∈ X.zip out := by
  induction X generalizing y out with
  | nil => simp
  | cons x X ih =>
    cases y with
    | nil => simp
    | cons t y =>
      cases out with
      | nil => simp
      | cons v out =>
        intro q hq
        rcases List.mem_cons.mp hq with rfl | hq
        · exact List.mem_cons_self ..
        · exact List.mem_cons_of_mem _ (ih y out q hq)

/-- Samples with a property, among samples with targets and predictions of the same number. -/
theorem filter_zip_zip {α β γ : Type} (X : List α) (y : List β) (out : List γ) (h : out.length = (X.zip y).length) (p : α × β → Bool) (f : α × β → K) :
    (((((X.zip y).zip out).filter fun q => p q.1)).map fun q => f q.1).sum = (((X.zip y).filter p).map f).sum := by
  generalize X.zip y = l at *
  induction l generalizing out with
  | nil => simp
  | cons a as ih =>
    cases out with
    | nil => cases h
    | cons v out =>
      have h := ih out (by simpa using h)
      simp only [List.zip_cons_cons, List.filter_cons]
      cases p a
      · simpa using h
      · simp only [if_true, List.map_cons, List.sum_cons, h]

/-- The squared errors of a trained rule add up to at most its reported error times the number of samples it matches. -/
theorem rule_sum_le (L : Learner K d M) (X : List (Point K d)) (y : List K) (ρ : Rule K d M) (h : DescribesData L ρ X y) (hm : matchedData ρ X y ≠ []) :
    ∃ (s : RuleState K) (err : K), ρ.st = some s ∧ s.error = (err : WithTop K) ∧ ((matchedData ρ X y).map fun q => (q.2 - ρ.valueAt L q.1) ^ 2).sum ≤ err * (matchedData ρ X y).length ∧
      (1 / 10000 < err → ((matchedData ρ X y).map fun q => (q.2 - ρ.valueAt L q.1) ^ 2).sum = err * (matchedData ρ X y).length) := by
  obtain ⟨s, m, hs, hmod, _, herr⟩ := h
  have hpos : (0 : K) < (matchedData ρ X y).length := Nat.cast_pos.mpr (List.length_pos_iff.mpr hm)
  have hsum : ((matchedData ρ X y).map fun q => (q.2 - ρ.valueAt L q.1) ^ 2).sum = meanSqErr (L.predict m) (matchedData ρ X y) * (matchedData ρ X y).length := by
    unfold meanSqErr
    rw [div_mul_cancel₀ _ hpos.ne']
    simp only [ρ.valueAt_of_model L m hmod]
  refine ⟨s, _, hs, herr, ?_, fun h => ?_⟩
  · rw [hsum]
    exact mul_le_mul_of_nonneg_right (le_max_left _ _) hpos.le
  · rw [hsum, max_eq_left]
    rcases lt_max_iff.mp h with h | h
    · exact h.le
    · exact absurd h (lt_irrefl _)

/-- The number of samples that a rule matches, summed over the rules, is the number of matching rules, summed over the samples. -/
theorem sum_matched (sub : List (Rule K d M)) (X : List (Point K d)) (y : List K) :
    (sub.map fun ρ => ((matchedData ρ X y).length : K)).sum = ((X.zip y).map fun q => ((sub.filter fun ρ => ρ.kind.call ρ.bounds q.1).length : K)).sum := by
  have h1 : ∀ {α : Type} (p : α → Bool) (l : List α), ((l.filter p).length : K) = (l.map fun a => if p a then (1 : K) else 0).sum := fun p l => by
    rw [sum_ite_filter p (fun _ => (1 : K)) l]
    simp
  simp only [matchedData, h1]
  exact sum_sum_swap _ _ _

/-- The squared errors of the rules, summed over the rules, are the squared errors of the matching rules, summed over the samples. -/
theorem sum_errors (L : Learner K d M) (sub : List (Rule K d M)) (X : List (Point K d)) (y : List K) :
    (sub.map fun ρ => ((matchedData ρ X y).map fun q => (q.2 - ρ.valueAt L q.1) ^ 2).sum).sum =
      ((X.zip y).map fun q => ((sub.filter fun ρ => ρ.kind.call ρ.bounds q.1).map fun ρ => (q.2 - ρ.valueAt L q.1) ^ 2).sum).sum := by
  have h1 : ∀ {α : Type} (p : α → Bool) (f : α → K) (l : List α), ((l.filter p).map f).sum = (l.map fun a => if p a then f a else 0).sum := fun p f l => (sum_ite_filter p f l).symm
  simp only [matchedData, h1]
  exact sum_sum_swap _ _ _

theorem sum_covered (sub : List (Rule K d M)) (X : List (Point K d)) (y : List K) (f : Rule K d M → Point K d × K → K) :
    ((X.zip y).map fun q => ((sub.filter fun ρ => ρ.kind.call ρ.bounds q.1).map fun ρ => f ρ q).sum).sum =
      (((X.zip y).filter fun q => Covered sub q.1).map fun q => ((sub.filter fun ρ => ρ.kind.call ρ.bounds q.1).map fun ρ => f ρ q).sum).sum := by
  rw [← sum_ite_filter]
  congr 1
  apply List.map_congr_left
  intro q _
  split_ifs with h
  · rfl
  · have : (sub.filter fun ρ => ρ.kind.call ρ.bounds q.1) = [] := by
      rw [List.filter_eq_nil_iff]
      intro ρ hρ hm
      exact h (List.any_eq_true.mpr ⟨ρ, hρ, hm⟩)
    rw [this]
    rfl

theorem matched_ne_nil {X : List (Point K d)} {y : List K} (hxy : y.length = X.length) {ρ : Rule K d M} (h : ∃ x ∈ X, ρ.kind.call ρ.bounds x = true) : matchedData ρ X y ≠ [] := by
  obtain ⟨x, hx, hm⟩ := h
  obtain ⟨i, hi, hxi⟩ := List.getElem_of_mem hx
  have hiy : i < y.length := by omega
  have hz : (x, y[i]) ∈ X.zip y := by
    rw [← hxi, ← List.getElem_zip (h := by simp; omega)]
    exact List.getElem_mem _
  exact List.ne_nil_of_mem (List.mem_filter.mpr ⟨hz, hm⟩)

variable (L : Learner K d M) (sub : List (Rule K d M)) (X : List (Point K d)) (y out : List K)

/-- The squared errors on the covered samples are at most those of all rules together. -/
theorem covered_le (hxy : y.length = X.length) (hout : out.length = X.length) (hsub : ∀ ρ ∈ sub, ∃ m, ρ.model = some m)
    (hv : ∀ x v, (x, v) ∈ X.zip out → (∃ ρ ∈ sub, ρ.kind.call ρ.bounds x = true) → Between L sub x v) :
    sqErrors (coveredData sub X y out) ≤ (sub.map fun ρ => ((matchedData ρ X y).map fun q => (q.2 - ρ.valueAt L q.1) ^ 2).sum).sum := by
  rw [sum_errors, sum_covered, ← filter_zip_zip X y out (by simp [hxy, hout]) (fun q => Covered sub q.1)]
  refine sum_map_le_of _ _ _ fun q hq => ?_
  obtain ⟨hq, hc⟩ := List.mem_filter.mp hq
  obtain ⟨ρ, h1, h2⟩ := List.any_eq_true.mp hc
  obtain ⟨η, h3, h4, u, ⟨m, hm, rfl⟩, h5⟩ := worst_rule L sub hsub q.1.1 q.2 ⟨ρ, h1, h2⟩ (hv _ _ (zip_zip_mem X y out q hq) ⟨ρ, h1, h2⟩) q.1.2
  refine h5.trans (List.single_le_sum (fun a ha => ?_) _ (List.mem_map.mpr ⟨η, List.mem_filter.mpr ⟨h3, h4⟩, by rw [η.valueAt_of_model L m hm]⟩))
  obtain ⟨_, _, rfl⟩ := List.mem_map.mp ha
  exact sq_nonneg _

/-- Without overlap they are those of all rules together. -/
theorem covered_eq (hxy : y.length = X.length) (hout : out.length = X.length) (hsub : ∀ ρ ∈ sub, ∃ m, ρ.model = some m)
    (hv : ∀ x v, (x, v) ∈ X.zip out → (∃ ρ ∈ sub, ρ.kind.call ρ.bounds x = true) → Between L sub x v) (hone : OverlapAtMost sub X 1) :
    sqErrors (coveredData sub X y out) = (sub.map fun ρ => ((matchedData ρ X y).map fun q => (q.2 - ρ.valueAt L q.1) ^ 2).sum).sum := by
  rw [sum_errors, sum_covered, ← filter_zip_zip X y out (by simp [hxy, hout]) (fun q => Covered sub q.1)]
  refine congrArg List.sum (List.map_congr_left fun q hq => ?_)
  obtain ⟨hq, hc⟩ := List.mem_filter.mp hq
  obtain ⟨ρ, h1, h2⟩ := List.any_eq_true.mp hc
  have hmem := zip_zip_mem X y out q hq
  have hlen := hone q.1.1 (List.of_mem_zip hmem).1
  obtain ⟨η, hη⟩ : ∃ η, (sub.filter fun ρ => ρ.kind.call ρ.bounds q.1.1) = [η] := by
    have h0 : 0 < (sub.filter fun ρ => ρ.kind.call ρ.bounds q.1.1).length := List.length_pos_of_mem (List.mem_filter.mpr ⟨h1, h2⟩)
    exact List.length_eq_one_iff.mp (by omega)
  have hη' : η ∈ sub := (List.mem_filter.mp (by rw [hη]; exact List.mem_singleton_self _ : η ∈ sub.filter fun ρ => ρ.kind.call ρ.bounds q.1.1)).1
  obtain ⟨m, hm⟩ := hsub η hη'
  have := only_rule L sub q.1.1 q.2 η hη (hv _ _ hmem ⟨ρ, h1, h2⟩) _ ⟨m, hm, rfl⟩
  rw [hη, this, List.map_singleton, List.sum_singleton, η.valueAt_of_model L m hm]

/-- The errors of rules that report at most `e`, with at most `k` matching the same sample. -/
theorem errors_le (hxy : y.length = X.length) (hout : out.length = X.length) (hdata : ∀ ρ ∈ sub, DescribesData L ρ X y ∧ ∃ x ∈ X, ρ.kind.call ρ.bounds x = true) (e : K) (he : 0 ≤ e)
    (hrep : ∀ ρ ∈ sub, ReportsAtMost ρ e) (k : Nat) (hk : OverlapAtMost sub X k) :
    (sub.map fun ρ => ((matchedData ρ X y).map fun q => (q.2 - ρ.valueAt L q.1) ^ 2).sum).sum ≤ k * e * (coveredData sub X y out).length := by
  have h1 : (sub.map fun ρ => ((matchedData ρ X y).map fun q => (q.2 - ρ.valueAt L q.1) ^ 2).sum).sum ≤ (sub.map fun ρ => e * ((matchedData ρ X y).length : K)).sum := by
    refine sum_map_le_of _ _ _ fun ρ hρ => ?_
    obtain ⟨s, err, hs, herr, hle, _⟩ := rule_sum_le L X y ρ (hdata ρ hρ).1 (matched_ne_nil hxy (hdata ρ hρ).2)
    obtain ⟨s', hs', hle'⟩ := hrep ρ hρ
    rw [hs] at hs'
    cases hs'
    rw [herr] at hle'
    exact hle.trans (mul_le_mul_of_nonneg_right (WithTop.coe_le_coe.mp hle') (Nat.cast_nonneg _))
  refine h1.trans ?_
  rw [List.sum_map_mul_left, sum_matched]
  have h2 := sum_covered sub X y fun _ _ => (1 : K)
  simp only [List.map_const', List.sum_replicate, nsmul_eq_mul, mul_one] at h2
  rw [h2]
  have h3 : ((coveredData sub X y out).length : K) = (((X.zip y).filter fun q => Covered sub q.1).map fun _ => (1 : K)).sum := by
    rw [← filter_zip_zip X y out (by simp [hxy, hout]) (fun q => Covered sub q.1) fun _ => (1 : K)]
    simp [coveredData]
  rw [h3, mul_comm (k : K) e, mul_assoc, ← List.sum_map_mul_left (r := (k : K))]
  refine mul_le_mul_of_nonneg_left (sum_map_le_of _ _ _ fun q hq => ?_) he
  rw [mul_one]
  exact Nat.cast_le.mpr (hk q.1 (List.of_mem_zip (List.mem_filter.mp hq).1).1)

/-! ### The claim -/

/-- What the errors that the rules report say about the predictions for the training data: a prediction for a matched sample is not worse than that of some matching rule; the squared errors add up to at
most the errors of the rules, each times the number of samples that the rule matches, and to exactly that if no two rules match the same sample and the errors are above the smallest that is reported;
so if at most `k` rules match the same sample and all report at most `e`, the mean squared error on matched samples is at most `k * e`; on other samples it is the mean squared target. -/
structure Spec.VouchFor (L : Learner K d M) (sub : List (Rule K d M)) (X : List (Point K d)) (y out : List K) : Prop where
  worst : ∀ q ∈ coveredData sub X y out, ∃ ρ ∈ sub, ρ.kind.call ρ.bounds q.1.1 = true ∧ ∃ u, ρ.LocalPrediction L q.1.1 u ∧ (q.1.2 - q.2) ^ 2 ≤ (q.1.2 - u) ^ 2
  sum : ∀ err : Rule K d M → K, (∀ ρ ∈ sub, ∃ s, ρ.st = some s ∧ s.error = (err ρ : WithTop K)) →
    sqErrors (coveredData sub X y out) ≤ (sub.map fun ρ => err ρ * (matchedData ρ X y).length).sum ∧
    (OverlapAtMost sub X 1 → (∀ ρ ∈ sub, 1 / 10000 < err ρ) → sqErrors (coveredData sub X y out) = (sub.map fun ρ => err ρ * (matchedData ρ X y).length).sum)
  overlap : ∀ (e : K) (k : Nat), (∀ ρ ∈ sub, ReportsAtMost ρ e) → OverlapAtMost sub X k → sqErrors (coveredData sub X y out) ≤ k * e * (coveredData sub X y out).length
  rest : sqErrors ((X.zip y).zip out) = sqErrors (coveredData sub X y out) + (((X.zip y).filter fun q => !Covered sub q.1).map fun q => q.2 ^ 2).sum

open Suprb.Spec (VouchFor)

theorem vouchFor_of (hxy : y.length = X.length) (hout : out.length = X.length) (hdata : ∀ ρ ∈ sub, DescribesData L ρ X y ∧ ∃ x ∈ X, ρ.kind.call ρ.bounds x = true)
    (hv : ∀ x v, (x, v) ∈ X.zip out → ((∀ ρ ∈ sub, ρ.kind.call ρ.bounds x = false) → v = 0) ∧ ((∃ ρ ∈ sub, ρ.kind.call ρ.bounds x = true) → Between L sub x v)) :
    VouchFor L sub X y out := by
  have hsub : ∀ ρ ∈ sub, ∃ m, ρ.model = some m := fun ρ h => by
    obtain ⟨_, m, _, hm, _⟩ := (hdata ρ h).1
    exact ⟨m, hm⟩
  have hv2 := fun x v h => (hv x v h).2
  refine ⟨fun q hq => ?_, fun err herr => ?_, fun e k he hk => ?_, ?_⟩
  · obtain ⟨hq, hc⟩ := List.mem_filter.mp hq
    obtain ⟨ρ, h1, h2⟩ := List.any_eq_true.mp hc
    exact worst_rule L sub hsub q.1.1 q.2 ⟨ρ, h1, h2⟩ (hv2 _ _ (zip_zip_mem X y out q hq) ⟨ρ, h1, h2⟩) q.1.2
  · have hrule : ∀ ρ ∈ sub, ((matchedData ρ X y).map fun q => (q.2 - ρ.valueAt L q.1) ^ 2).sum ≤ err ρ * (matchedData ρ X y).length ∧
        (1 / 10000 < err ρ → ((matchedData ρ X y).map fun q => (q.2 - ρ.valueAt L q.1) ^ 2).sum = err ρ * (matchedData ρ X y).length) := fun ρ hρ => by
      obtain ⟨s, e, hs, he, h1, h2⟩ := rule_sum_le L X y ρ (hdata ρ hρ).1 (matched_ne_nil hxy (hdata ρ hρ).2)
      obtain ⟨s', hs', he'⟩ := herr ρ hρ
      rw [hs] at hs'
      cases hs'
      rw [he] at he'
      rw [← WithTop.coe_eq_coe.mp he']
      exact ⟨h1, h2⟩
    refine ⟨(covered_le L sub X y out hxy hout hsub hv2).trans (sum_map_le_of _ _ _ fun ρ hρ => (hrule ρ hρ).1), fun h1 h2 => ?_⟩
    rw [covered_eq L sub X y out hxy hout hsub hv2 h1]
    exact congrArg List.sum (List.map_congr_left fun ρ hρ => (hrule ρ hρ).2 (h2 ρ hρ))
  · cases hs : sub with
    | nil => simp [sqErrors, coveredData, Covered]
    | cons ρ rest =>
      rw [← hs]
      have hmem : ρ ∈ sub := by rw [hs]; exact List.mem_cons_self ..
      have hpos : 0 ≤ e := by
        obtain ⟨s, hst, hle⟩ := he ρ hmem
        obtain ⟨s', _, hs', _, _, herr⟩ := (hdata ρ hmem).1
        rw [hst] at hs'
        cases hs'
        rw [herr] at hle
        exact le_trans (by norm_num) ((le_max_right _ _).trans (WithTop.coe_le_coe.mp hle))
      exact (covered_le L sub X y out hxy hout hsub hv2).trans (errors_le L sub X y out hxy hout hdata e hpos he k hk)
  · have hz : ∀ q ∈ ((X.zip y).zip out).filter fun q => !Covered sub q.1.1, (q.1.2 - q.2) ^ 2 = q.1.2 ^ 2 := fun q hq => by
      obtain ⟨hq, hc⟩ := List.mem_filter.mp hq
      have h0 := (hv _ _ (zip_zip_mem X y out q hq)).1 fun ρ hρ => by
        by_contra hne
        have : Covered sub q.1.1 = true := List.any_eq_true.mpr ⟨ρ, hρ, by simpa using hne⟩
        rw [this] at hc
        cases hc
      rw [h0, sub_zero]
    rw [← filter_zip_zip X y out (by simp [hxy, hout]) (fun q => !Covered sub q.1), ← List.map_congr_left hz]
    unfold sqErrors coveredData
    induction (X.zip y).zip out with
    | nil => simp
    | cons a as ih =>
      simp only [List.map_cons, List.sum_cons, List.filter_cons, ih]
      cases Covered sub a.1.1 <;> simp <;> ring

/-- A run with two rules that match the two samples in the middle: random search with uniformly drawn origins, composition by random search. -/
def overlapDiscovery : DiscoveryPart ℚ 1 ℚ :=
  .rs { (RSCfg.default : RSCfg ℚ) with rulesGenerated := 1, origin := .uniformSamples } fun _ _ =>
    ⟨fun g _ => if g = 0 then [0] else [3], fun _ _ _ => 0, fun g _ _ => if g = 0 then (0, 2) else (2, 0)⟩

def overlapComposition : CompositionPart ℚ 1 ℚ := .rs (.random (1 / 2)) 2 2 fun _ _ _ _ _ => 0

def overlapCfg : SupCfg ℚ := { smallCfg with nIter := 1, nRules := 2 }

def overlapRun : FitResult ℚ 1 ℚ :=
  partsFit overlapCfg overlapDiscovery overlapComposition ⟨.plain, 1⟩ (fun _ _ _ => 0) meanLearner negErr (fun _ _ _ c => c) 7 ⟨[![0], ![1], ![2], ![3]], [3, 0, 0, 3], true⟩ false {}

def overlapPrediction : Except PyErr (List ℚ) :=
  overlapRun.state.predict (partsComp overlapDiscovery overlapComposition ⟨.plain, 1⟩ (fun _ _ _ => 0) meanLearner negErr fun _ _ _ c => c) [![0], ![1], ![2], ![3]]

/-- C164 (refuted): rules that all report an error of at most 2 and a model whose mean squared error on the samples that they match is 5/2. Samples 0, 1, 2, 3 with targets 3, 0, 0, 3, local models
that predict the mean; the rules found are `[0, 2]` and `[1, 3]`, both with error 2; the model predicts 1 for all samples, and its squared errors 4, 1, 1, 4 have the mean 5/2. The samples that are
predicted well count for both rules, those that are predicted badly for one. -/
theorem C164_refuted :
    ∃ σ : Solution ℚ 1 ℚ, ∃ out, overlapRun.raised = none ∧ overlapRun.state.elitist = some (.solution σ) ∧ overlapPrediction = .ok out ∧
      (∀ ρ ∈ compress σ.pool σ.genome, ReportsAtMost ρ 2) ∧ (coveredData (compress σ.pool σ.genome) [![0], ![1], ![2], ![3]] [3, 0, 0, 3] out).length = 4 ∧
      sqErrors (coveredData (compress σ.pool σ.genome) [![0], ![1], ![2], ![3]] [3, 0, 0, 3] out) = 10 := by
  have key : (match overlapRun.state.elitist, overlapPrediction with
      | some (.solution σ), .ok out => decide (overlapRun.raised = none) && ((compress σ.pool σ.genome).all fun ρ => match ρ.st with | some s => decide (s.error ≤ ((2 : ℚ) : WithTop ℚ)) | none => false) &&
          decide ((coveredData (compress σ.pool σ.genome) [![0], ![1], ![2], ![3]] [3, 0, 0, 3] out).length = 4) &&
          decide (sqErrors (coveredData (compress σ.pool σ.genome) [![0], ![1], ![2], ![3]] [3, 0, 0, 3] out) = 10)
      | _, _ => false) = true := by decide +kernel
  split at key
  · next σ out h1 h2 =>
    simp only [Bool.and_eq_true, decide_eq_true_eq, List.all_eq_true] at key
    refine ⟨σ, out, key.1.1.1, h1, h2, fun ρ hρ => ?_, key.1.2, key.2⟩
    have h3 := key.1.1.2 ρ hρ
    split at h3
    · next s hs => exact ⟨s, hs, of_decide_eq_true h3⟩
    · cases h3
  · cases key

/-- C164 (partial): what the errors of the rules say about the model, for every run that completes by C161: all combinations of rule discovery, composition and mixing model, all local models, data,
seeds and random numbers. Missing: a bound without the factor for overlapping rules, see `C164_refuted`. -/
theorem C164_training_partial (cfg : SupCfg K) (hiter : 1 ≤ cfg.nIter) (hrules : 1 ≤ cfg.nRules) (hsize : 1 ≤ cfg.comp.populationSize) (raw : RawData K d)
    (hraw : raw.finite = true ∧ raw.X.length = raw.y.length ∧ raw.X ≠ []) (D : DiscoveryPart K d M) (hD : D.Works cfg raw.X.length) (C : CompositionPart K d M) (sf : Nat → SolFitness K)
    (hC : C.Works sf (cfg.nInitial + cfg.nIter * cfg.nRules)) (P : MixParams K) (hP : 0 < P.weight) (hE : P.expCalc.Positive d) (init : Seed → Nat → Nat → K) (L : Learner K d M) (ff : RuleFitness K d)
    (entropy : Nat) (cl : Bool) (st0 : SupState K d M) (hinit : cfg.nInitial = 0 ∨ st0.step < cfg.nIter) :
    let r := partsFit cfg D C P init L ff sf entropy raw cl st0
    ∃ σ : Solution K d M, r.state.elitist = some (.solution σ) ∧ σ.pool = r.state.pool ∧ ∃ out, r.state.predict (partsComp D C P init L ff sf) raw.X = .ok out ∧ out.length = raw.X.length ∧
      VouchFor L (compress σ.pool σ.genome) raw.X raw.y out := by
  obtain ⟨_, _, _, _, hpool, σ, h1, h2, h3, h4⟩ := C161_works cfg hiter hrules hsize raw hraw D hD C sf hC P hP hE init L ff entropy cl st0 hinit
  obtain ⟨out, h5, h6, h7⟩ := h4 raw.X hraw.2.2
  refine ⟨σ, h1, h2, out, h5, h6, vouchFor_of L _ _ _ _ hraw.2.1.symm h6 (fun ρ hρ => ?_) h7⟩
  have := hpool ρ (by rw [← h2]; exact mem_of_mem_compress hρ)
  exact ⟨this.trained, this.matched⟩

/-- Rules that were fitted on the data and match some of it describe the data. -/
theorem describes_of_fittedOn (L : Learner K d M) (ff : RuleFitness K d) (X : List (Point K d)) (y : List K) (hxy : y.length = X.length) (ρ : Rule K d M) (h : ρ.FittedOn L ff X y)
    (hm : ∃ x ∈ X, ρ.kind.call ρ.bounds x = true) : DescribesData L ρ X y := by
  obtain ⟨ρ0, k, h0, _, hfit⟩ := h
  rw [fits_replicate L ff X y hxy ρ0 h0 k] at hfit
  obtain ⟨x, hx, hm⟩ := hm
  obtain ⟨ρ1, e1, ⟨hk, hb, _⟩, _⟩ := fit_consistent L ff X X y hxy rfl ρ0 (Or.inl h0)
  rw [hfit] at e1
  cases e1
  rw [hk, hb] at hm
  obtain ⟨ρ', s, m, h1, h2, h3, h4, h5, _, _, h6, _, _, _, h7, _⟩ := C14_matched L ff X y hxy ρ0 h0 x hx hm
  rw [hfit] at h1
  cases h1
  have hd : matchedData ρ X y = matchedData ρ0 X y := by unfold matchedData; rw [h4, h5]
  exact ⟨s, m, h2, h3, by rw [hd]; exact h6, by rw [hd]; exact h7⟩

/-- C164 (partial), for the error that a solution reports: with rules that were fitted on the data and match some of it, report at most `e`, and at most `k` of which match the same sample, the reported
error is at most `k * e` for the share of samples that some rule matches, plus the squared targets of the others, both divided by the number of samples, or it is the smallest error that is reported. -/
theorem C164_reported_partial (L : Learner K d M) (P : MixParams K) (hw : 0 < P.weight) (hE : P.expCalc.Positive d) (ff : RuleFitness K d) (sf : SolFitness K) (X : List (Point K d)) (y : List K)
    (hX : X ≠ []) (hxy : y.length = X.length) (σ τ : Solution K d M) (hp : ∀ ρ ∈ σ.pool, ρ.FittedOn L ff X y ∧ ∃ x ∈ X, ρ.kind.call ρ.bounds x = true)
    (h : σ.fit L P filterAll sf X y = .ok τ) (e : K) (k : Nat) (he : ∀ ρ ∈ compress σ.pool σ.genome, ReportsAtMost ρ e) (hk : OverlapAtMost (compress σ.pool σ.genome) X k) :
    ∃ s, τ.st = some s ∧ s.error ≤ max ((k * e * (X.filter fun x => Covered (compress σ.pool σ.genome) x).length +
      (((X.zip y).filter fun q => !Covered (compress σ.pool σ.genome) q.1).map fun q => q.2 ^ 2).sum) / X.length) (1 / 10000) := by
  obtain ⟨s, pred, sub, h1, h2, h3, h4, h5, _⟩ := C24_statistics L P filterAll sf X y σ τ h
  have hlen : σ.genome.length = σ.pool.length := by
    by_contra hne
    rw [(C24_selection σ).2 hne] at h3
    cases h3
  obtain ⟨out, h6, h7, h8⟩ := C20_default_filter_partial L ff P X y hxy σ hlen hp
  rw [h2] at h7
  cases h7
  have hus : ∀ ρ ∈ σ.pool, ρ.Usable := fun ρ hρ => by
    obtain ⟨ρ0, k, h0, _, hfit⟩ := (hp ρ hρ).1
    rw [fits_replicate L ff X y hxy ρ0 h0 k] at hfit
    obtain ⟨ρ1, e1, _, hc⟩ := fit_consistent L ff X X y hxy rfl ρ0 (Or.inl h0)
    rw [hfit] at e1
    cases e1
    exact usable_of_fitted ρ X hc (hp ρ hρ).2
  obtain ⟨out, h9, hl9, h10⟩ := C17_convex L P hw hE σ hlen hus X
  rw [h8] at h9
  cases h9
  have hv := vouchFor_of L (compress σ.pool σ.genome) X y pred hxy h6
    (fun ρ hρ => ⟨describes_of_fittedOn L ff X y hxy ρ (hp ρ (mem_of_mem_compress hρ)).1 (hp ρ (mem_of_mem_compress hρ)).2, (hp ρ (mem_of_mem_compress hρ)).2⟩) h10
  refine ⟨s, h1, ?_⟩
  rw [h5]
  refine max_le_max ?_ le_rfl
  have hn : (0 : K) < X.length := Nat.cast_pos.mpr (List.length_pos_iff.mpr hX)
  have hsum : ((y.zip pred).map fun q => (q.1 - q.2) ^ 2).sum = sqErrors ((X.zip y).zip pred) := by
    unfold sqErrors
    clear hl9 h1 h2 h4 h5 h8 h10 hv hk hp h hX hn
    induction X generalizing y pred with
    | nil =>
      cases y with
      | nil => rfl
      | cons _ _ => cases hxy
    | cons x X ih =>
      cases y with
      | nil => cases hxy
      | cons t y =>
        cases pred with
        | nil => cases h6
        | cons v pred =>
          simp only [List.zip_cons_cons, List.map_cons, List.sum_cons]
          rw [ih y (by simpa using hxy) pred (by simpa using h6)]
  have hcount : ((X.filter fun x => Covered (compress σ.pool σ.genome) x).length : K) = (coveredData (compress σ.pool σ.genome) X y pred).length := by
    congr 1
    have : (coveredData (compress σ.pool σ.genome) X y pred).map (fun q => q.1.1) = X.filter fun x => Covered (compress σ.pool σ.genome) x := by
      unfold coveredData
      have hX : X = ((X.zip y).zip pred).map fun q => q.1.1 := by
        show X = List.map (Prod.fst ∘ Prod.fst) _
        rw [← List.map_map (f := Prod.fst) (g := Prod.fst), List.map_fst_zip (by simp [hxy, h6]), List.map_fst_zip (by omega)]
      conv_rhs => rw [hX, List.filter_map]
      rfl
    rw [← this, List.length_map]
  unfold meanSqDiff
  rw [hxy, hsum, hv.rest, hcount]
  exact div_le_div_of_nonneg_right (add_le_add_left (hv.overlap e k he hk) _) hn.le

/-- Rules fitted on three samples, `[0, 1]` and `[1, 2]`; the sample in the middle is matched by both. -/
def overlapRules : Except PyErr (List (Rule ℚ 1 ℚ)) := [intervalRule 0 1, intervalRule 1 2].mapM fun ρ => ρ.fits meanLearner negErr [([![0], ![1], ![2], ![5]], [0, 2, 6, 1])]

/-- The hypotheses of `C164_reported_partial` hold for them with `e = 4` and `k = 2`: they report the errors 1 and 4, the solution the error 154/100 (its predictions are 1, 8/5, 4 and 0), and the bound
is (2 * 4 * 3 + 1) / 4. -/
example : ∃ rules, overlapRules = .ok rules ∧ rules.map (fun ρ => ρ.st.map RuleState.error) = [some ((1 : ℚ) : WithTop ℚ), some ((4 : ℚ) : WithTop ℚ)] ∧
    (∀ x ∈ [(![0] : Point ℚ 1), ![1], ![2], ![5]], (rules.filter fun ρ => ρ.kind.call ρ.bounds x).length ≤ 2) ∧
    (Solution.fit meanLearner ⟨.plain, 1⟩ filterAll (fun _ _ c => c) [![0], ![1], ![2], ![5]] [0, 2, 6, 1] { genome := [true, true], pool := rules }).toOption.map (fun τ => τ.st.map SolState.error) =
      some (some (154 / 100)) := by
  have hsome : overlapRules.toOption.isSome = true := by decide +kernel
  cases hr : overlapRules with
  | error e => rw [hr] at hsome; cases hsome
  | ok rules =>
    refine ⟨rules, rfl, ?_⟩
    have : rules = (overlapRules.toOption.getD []) := by rw [hr]; rfl
    rw [this]
    decide +kernel

/-- Without overlap: `[0, 1]` and `[2, 3]` on the samples 0, 1, 2, 3 with targets 0, 2, 0, 6 report the errors 1 and 9; the squared errors of the predictions 1, 1, 3, 3 add up to 1 * 2 + 9 * 2. -/
example : ([intervalRule 0 1, intervalRule 2 3].mapM fun ρ : Rule ℚ 1 ℚ => ρ.fits meanLearner negErr [([![0], ![1], ![2], ![3]], [0, 2, 0, 6])]).toOption.map (fun rules =>
      (rules.map fun ρ => ρ.st.map RuleState.error, (Solution.predict meanLearner ⟨.plain, 1⟩ filterAll false { genome := [true, true], pool := rules } [![0], ![1], ![2], ![3]]).toOption)) =
    some ([some ((1 : ℚ) : WithTop ℚ), some ((9 : ℚ) : WithTop ℚ)], some [1, 1, 3, 3]) ∧
    ([((0 : ℚ), (1 : ℚ)), (2, 1), (0, 3), (6, 3)].map fun q => (q.1 - q.2) ^ 2).sum = 1 * 2 + 9 * 2 := by decide +kernel

end Suprb
