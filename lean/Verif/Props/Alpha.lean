import Verif.Props.Fitness

/-!
# The parameter alpha of the fitness functions (C166)

Both fitness functions for solutions and both fitness functions for rules that weigh the accuracy against a second objective (few rules in the solution, a large
volume of the rule) take a parameter `alpha`. What a user does with it is to run several values and compare what comes out. The statements say what can be expected:
among the same candidates the fittest one moves in one direction only. The directions of the two families are opposite to each other.
-/

set_option autoImplicit false
set_option linter.unusedSectionVars false

namespace Suprb
open _root_.Spec (Pairs Point)

namespace Spec

/-- `s` is among the candidates, and no candidate has a larger value. -/
def BestOf {α : Type} (value : α → ℝ) (l : List α) (s : α) : Prop := s ∈ l ∧ ∀ t ∈ l, value t ≤ value s

end Spec
open Suprb.Spec (BestOf)

/-- The weighted harmonic mean, for two positive objectives. -/
theorem wu_eq (alpha x1 x2 : ℝ) (h1 : 0 < x1) (h2 : 0 < x2) :
    wu alpha x1 x2 = some (((1 + alpha ^ 2) * x1 * x2) / (alpha ^ 2 * x1 + x2)) := by
  have : 0 < alpha ^ 2 * x1 + x2 := by positivity
  unfold wu; rw [if_neg this.ne']

/-- Comparison of two weighted harmonic means. -/
theorem wu_le_iff (alpha x1 x2 y1 y2 v w : ℝ) (h1 : 0 < x1) (h2 : 0 < x2) (g1 : 0 < y1) (g2 : 0 < y2)
    (hv : wu alpha x1 x2 = some v) (hw : wu alpha y1 y2 = some w) :
    v ≤ w ↔ x1 * y1 * (alpha ^ 2 * (x2 - y2)) ≤ x2 * y2 * (y1 - x1) := by
  rw [wu_eq _ _ _ h1 h2] at hv
  rw [wu_eq _ _ _ g1 g2] at hw
  simp only [Option.some.injEq] at hv hw
  subst hv hw
  have hd : 0 < alpha ^ 2 * x1 + x2 := by positivity
  have hd' : 0 < alpha ^ 2 * y1 + y2 := by positivity
  rw [div_le_div_iff₀ hd hd']
  have hp : 0 < 1 + alpha ^ 2 := by positivity
  have e1 : (1 + alpha ^ 2) * x1 * x2 * (alpha ^ 2 * y1 + y2) = (1 + alpha ^ 2) * (x1 * x2 * (alpha ^ 2 * y1 + y2)) := by ring
  have e2 : (1 + alpha ^ 2) * y1 * y2 * (alpha ^ 2 * x1 + x2) = (1 + alpha ^ 2) * (y1 * y2 * (alpha ^ 2 * x1 + x2)) := by ring
  rw [e1, e2, mul_le_mul_iff_right₀ hp]
  constructor <;> intro h <;> nlinarith

/-- The candidate that is fittest for the larger weight has the larger second and the smaller first objective. -/
theorem wu_moves (alpha beta s1 s2 t1 t2 : ℝ) (ha : 0 ≤ alpha) (hab : alpha < beta)
    (h1 : 0 < s1) (h2 : 0 < s2) (g1 : 0 < t1) (g2 : 0 < t2) (vs vt ws wt : ℝ)
    (hvs : wu alpha s1 s2 = some vs) (hvt : wu alpha t1 t2 = some vt)
    (hws : wu beta s1 s2 = some ws) (hwt : wu beta t1 t2 = some wt)
    (hs : vt ≤ vs) (ht : ws ≤ wt) : s2 ≤ t2 ∧ t1 ≤ s1 := by
  rw [wu_le_iff alpha t1 t2 s1 s2 vt vs g1 g2 h1 h2 hvt hvs] at hs
  rw [wu_le_iff beta s1 s2 t1 t2 ws wt h1 h2 g1 g2 hws hwt] at ht
  have hsq : alpha ^ 2 < beta ^ 2 := by nlinarith
  have hp : 0 < s1 * t1 := mul_pos h1 g1
  have hq : 0 < s2 * t2 := mul_pos h2 g2
  have key : s1 * t1 * ((beta ^ 2 - alpha ^ 2) * (s2 - t2)) ≤ 0 := by nlinarith
  have h3 : s2 ≤ t2 := by
    by_contra hc
    have : 0 < s1 * t1 * ((beta ^ 2 - alpha ^ 2) * (s2 - t2)) :=
      mul_pos hp (mul_pos (by linarith) (by linarith))
    linarith
  refine ⟨h3, ?_⟩
  by_contra hc
  have ha2 : 0 ≤ alpha ^ 2 := sq_nonneg _
  have l1 : 0 ≤ t1 * s1 * (alpha ^ 2 * (t2 - s2)) := mul_nonneg (by nlinarith) (mul_nonneg ha2 (by linarith))
  have l2 : t2 * s2 * (s1 - t1) < 0 := by
    have : 0 < t2 * s2 * (t1 - s1) := mul_pos (by nlinarith) (by linarith)
    nlinarith
  linarith

/-- The weighted sum: the candidate that is fittest for the larger weight has the larger first and the smaller second objective. -/
theorem emary_moves (alpha beta s1 s2 t1 t2 : ℝ) (ha : 0 ≤ alpha) (hab : alpha < beta) (hb : beta ≤ 1)
    (hs : alpha * t1 + (1 - alpha) * t2 ≤ alpha * s1 + (1 - alpha) * s2)
    (ht : beta * s1 + (1 - beta) * s2 ≤ beta * t1 + (1 - beta) * t2) : t2 ≤ s2 ∧ s1 ≤ t1 := by
  have key : 0 ≤ (beta - alpha) * ((t1 - s1) - (t2 - s2)) := by nlinarith
  have hle : t2 - s2 ≤ t1 - s1 := by
    by_contra hc
    have : 0 < (beta - alpha) * ((t2 - s2) - (t1 - s1)) := mul_pos (by linarith) (by linarith)
    nlinarith
  constructor
  · by_contra hc
    have l1 : 0 ≤ alpha * ((t1 - s1) - (t2 - s2)) := mul_nonneg ha (by linarith)
    nlinarith
  · by_contra hc
    have l1 : 0 ≤ (1 - beta) * ((t1 - s1) - (t2 - s2)) := mul_nonneg (by linarith) (by linarith)
    nlinarith

theorem exp_le_iff (e e' : ℝ) : Real.exp (-2 * e) ≤ Real.exp (-2 * e') ↔ e' ≤ e := by
  rw [Real.exp_le_exp]; constructor <;> intro h <;> linarith

theorem share_le_iff (N c c' : Nat) (hN : 0 < N) : 1 - (c : ℝ) / (N : ℝ) ≤ 1 - (c' : ℝ) / (N : ℝ) ↔ c' ≤ c := by
  have hN' : (0 : ℝ) < N := by exact_mod_cast hN
  rw [sub_le_sub_iff_left, div_le_div_iff_of_pos_right hN']
  exact_mod_cast Iff.rfl

theorem share_pos (N c : Nat) (hc : c < N) : 0 < 1 - (c : ℝ) / (N : ℝ) := by
  have hN' : (0 : ℝ) < N := by exact_mod_cast Nat.lt_of_le_of_lt (Nat.zero_le c) hc
  have : (c : ℝ) / (N : ℝ) < 1 := by rw [div_lt_one hN']; exact_mod_cast hc
  linarith

/-- C166: solutions are given by their error and their number of rules, and rated by `ComplexityWu` with the maximum `N`. If `s` is a fittest one for `alpha` and `t` is a
fittest one for a larger `beta`, then `t` has no more rules and no smaller error than `s`. -/
theorem C166_complexityWu (alpha beta : ℝ) (ha : 0 ≤ alpha) (hab : alpha < beta) (N : Nat) (l : List (ℝ × Nat)) (hl : ∀ s ∈ l, s.2 < N)
    (v w : ℝ × Nat → ℝ)
    (hv : ∀ s ∈ l, complexityFitness .wu alpha N s.1 s.2 = .ok (some (v s)))
    (hw : ∀ s ∈ l, complexityFitness .wu beta N s.1 s.2 = .ok (some (w s)))
    (s t : ℝ × Nat) (hs : BestOf v l s) (ht : BestOf w l t) : t.2 ≤ s.2 ∧ s.1 ≤ t.1 := by
  obtain ⟨hsm, hsb⟩ := hs
  obtain ⟨htm, htb⟩ := ht
  have hN : 0 < N := Nat.lt_of_le_of_lt (Nat.zero_le _) (hl s hsm)
  have get : ∀ (a : ℝ) (u : ℝ × Nat) (r : ℝ), u ∈ l → complexityFitness .wu a N u.1 u.2 = .ok (some r) →
      wu a (Real.exp (-2 * u.1)) (1 - (u.2 : ℝ) / (N : ℝ)) = some (r / 100) := by
    intro a u r hu h
    rw [complexityFitness_eq _ _ _ hN, Combine.apply, wu_eq _ _ _ (Real.exp_pos _) (share_pos N u.2 (hl u hu))] at h
    simp only [Option.map_some, Except.ok.injEq, Option.some.injEq] at h
    rw [wu_eq _ _ _ (Real.exp_pos _) (share_pos N u.2 (hl u hu)), ← h]
    congr 1; ring
  have h := wu_moves alpha beta _ _ _ _ ha hab (Real.exp_pos _) (share_pos N s.2 (hl s hsm)) (Real.exp_pos _) (share_pos N t.2 (hl t htm))
    _ _ _ _ (get alpha s _ hsm (hv s hsm)) (get alpha t _ htm (hv t htm)) (get beta s _ hsm (hw s hsm)) (get beta t _ htm (hw t htm))
    (by have := hsb t htm; linarith) (by have := htb s hsm; linarith)
  rw [share_le_iff N _ _ hN, exp_le_iff] at h
  exact h

/-- C166: `ComplexityEmary` with `alpha` in `[0, 1]` moves the other way: for a larger `alpha` the fittest solution has no larger error and no fewer rules. -/
theorem C166_complexityEmary (alpha beta : ℝ) (ha : 0 ≤ alpha) (hab : alpha < beta) (hb : beta ≤ 1) (N : Nat) (hN : 0 < N) (l : List (ℝ × Nat))
    (v w : ℝ × Nat → ℝ)
    (hv : ∀ s ∈ l, complexityFitness .emary alpha N s.1 s.2 = .ok (some (v s)))
    (hw : ∀ s ∈ l, complexityFitness .emary beta N s.1 s.2 = .ok (some (w s)))
    (s t : ℝ × Nat) (hs : BestOf v l s) (ht : BestOf w l t) : s.2 ≤ t.2 ∧ t.1 ≤ s.1 := by
  obtain ⟨hsm, hsb⟩ := hs
  obtain ⟨htm, htb⟩ := ht
  have get : ∀ (a : ℝ) (u : ℝ × Nat) (r : ℝ), complexityFitness .emary a N u.1 u.2 = .ok (some r) →
      r = (a * Real.exp (-2 * u.1) + (1 - a) * (1 - (u.2 : ℝ) / (N : ℝ))) * 100 := by
    intro a u r h
    rw [complexityFitness_eq _ _ _ hN] at h
    simp only [Combine.apply, emary, Option.map_some, Except.ok.injEq, Option.some.injEq] at h
    exact h.symm
  have h := emary_moves alpha beta (Real.exp (-2 * s.1)) (1 - (s.2 : ℝ) / (N : ℝ)) (Real.exp (-2 * t.1)) (1 - (t.2 : ℝ) / (N : ℝ)) ha hab hb
    (by have := hsb t htm; rw [get _ _ _ (hv s hsm), get _ _ _ (hv t htm)] at this; linarith)
    (by have := htb s hsm; rw [get _ _ _ (hw s hsm), get _ _ _ (hw t htm)] at this; linarith)
  rw [share_le_iff N _ _ hN, exp_le_iff] at h
  exact h

section Rules
variable {d : Nat}

/-- C166: rules are given by their error and their bounds. With `VolumeWu` the fittest rule for a larger `alpha` has no smaller volume and no smaller error. -/
theorem C166_volumeWu (alpha beta : ℝ) (ha : 0 ≤ alpha) (hab : alpha < beta) (k : Kind) (sp : Pairs ℝ d) (hsp : 0 < inputSpaceVolume sp)
    (l : List (ℝ × Pairs ℝ d)) (hl : ∀ s ∈ l, 0 < k.volume s.2) (v w : ℝ × Pairs ℝ d → ℝ)
    (hv : ∀ s ∈ l, volumeFitness .wu alpha k s.2 sp s.1 = .ok (some (v s)))
    (hw : ∀ s ∈ l, volumeFitness .wu beta k s.2 sp s.1 = .ok (some (w s)))
    (s t : ℝ × Pairs ℝ d) (hs : BestOf v l s) (ht : BestOf w l t) : k.volume s.2 ≤ k.volume t.2 ∧ s.1 ≤ t.1 := by
  obtain ⟨hsm, hsb⟩ := hs
  obtain ⟨htm, htb⟩ := ht
  have get : ∀ (a : ℝ) (u : ℝ × Pairs ℝ d) (r : ℝ), u ∈ l → volumeFitness .wu a k u.2 sp u.1 = .ok (some r) →
      wu a (Real.exp (-2 * u.1)) (k.volume u.2 / inputSpaceVolume sp) = some (r / 100) := by
    intro a u r hu h
    rw [volumeFitness_eq _ _ _ _ _ _ hsp, Combine.apply, wu_eq _ _ _ (Real.exp_pos _) (div_pos (hl u hu) hsp)] at h
    simp only [Option.map_some, Except.ok.injEq, Option.some.injEq] at h
    rw [wu_eq _ _ _ (Real.exp_pos _) (div_pos (hl u hu) hsp), ← h]
    congr 1; ring
  have h := wu_moves alpha beta _ _ _ _ ha hab (Real.exp_pos _) (div_pos (hl s hsm) hsp) (Real.exp_pos _) (div_pos (hl t htm) hsp)
    _ _ _ _ (get alpha s _ hsm (hv s hsm)) (get alpha t _ htm (hv t htm)) (get beta s _ hsm (hw s hsm)) (get beta t _ htm (hw t htm))
    (by have := hsb t htm; linarith) (by have := htb s hsm; linarith)
  rw [div_le_div_iff_of_pos_right hsp, exp_le_iff] at h
  exact h

/-- C166: with `VolumeEmary` and `alpha` in `[0, 1]`, the fittest rule for a larger `alpha` has no larger error and no larger volume. -/
theorem C166_volumeEmary (alpha beta : ℝ) (ha : 0 ≤ alpha) (hab : alpha < beta) (hb : beta ≤ 1) (k : Kind) (sp : Pairs ℝ d)
    (hsp : 0 < inputSpaceVolume sp) (l : List (ℝ × Pairs ℝ d)) (v w : ℝ × Pairs ℝ d → ℝ)
    (hv : ∀ s ∈ l, volumeFitness .emary alpha k s.2 sp s.1 = .ok (some (v s)))
    (hw : ∀ s ∈ l, volumeFitness .emary beta k s.2 sp s.1 = .ok (some (w s)))
    (s t : ℝ × Pairs ℝ d) (hs : BestOf v l s) (ht : BestOf w l t) : k.volume t.2 ≤ k.volume s.2 ∧ t.1 ≤ s.1 := by
  obtain ⟨hsm, hsb⟩ := hs
  obtain ⟨htm, htb⟩ := ht
  have get : ∀ (a : ℝ) (u : ℝ × Pairs ℝ d) (r : ℝ), volumeFitness .emary a k u.2 sp u.1 = .ok (some r) →
      r = (a * Real.exp (-2 * u.1) + (1 - a) * (k.volume u.2 / inputSpaceVolume sp)) * 100 := by
    intro a u r h
    rw [volumeFitness_eq _ _ _ _ _ _ hsp] at h
    simp only [Combine.apply, emary, Option.map_some, Except.ok.injEq, Option.some.injEq] at h
    exact h.symm
  have h := emary_moves alpha beta (Real.exp (-2 * s.1)) (k.volume s.2 / inputSpaceVolume sp) (Real.exp (-2 * t.1))
    (k.volume t.2 / inputSpaceVolume sp) ha hab hb
    (by have := hsb t htm; rw [get _ _ _ (hv s hsm), get _ _ _ (hv t htm)] at this; linarith)
    (by have := htb s hsm; rw [get _ _ _ (hw s hsm), get _ _ _ (hw t htm)] at this; linarith)
  rw [div_le_div_iff_of_pos_right hsp, exp_le_iff] at h
  exact h

end Rules

/-! ### A case in which the fittest candidate changes -/

/-- A solution without error and with one of at most two rules, and one with pseudo-accuracy 1/2 and no rules. -/
noncomputable def accurateOne : ℝ × Nat := (0, 1)
noncomputable def smallOne : ℝ × Nat := (Real.log 2 / 2, 0)

theorem exp_half : Real.exp (-2 * (Real.log 2 / 2)) = 1 / 2 := by
  rw [show -2 * (Real.log 2 / 2) = -Real.log 2 by ring, Real.exp_neg, Real.exp_log (by norm_num)]; norm_num

theorem rated_accurateOne (a : ℝ) : complexityFitness .wu a 2 accurateOne.1 accurateOne.2 =
    .ok (some ((1 + a ^ 2) * (1 / 2) / (a ^ 2 + 1 / 2) * 100)) := by
  rw [complexityFitness_eq _ _ _ (by norm_num), Combine.apply]
  simp only [accurateOne, mul_zero, Real.exp_zero]
  rw [wu_eq _ _ _ (by norm_num) (by norm_num)]
  simp only [Option.map_some]; norm_num

theorem rated_smallOne (a : ℝ) : complexityFitness .wu a 2 smallOne.1 smallOne.2 =
    .ok (some ((1 + a ^ 2) * (1 / 2) / (a ^ 2 * (1 / 2) + 1) * 100)) := by
  rw [complexityFitness_eq _ _ _ (by norm_num), Combine.apply]
  simp only [smallOne, exp_half]
  rw [wu_eq _ _ _ (by norm_num) (by norm_num)]
  simp only [Option.map_some]; norm_num

/-- With `alpha` 1/2 the accurate solution is the fittest, with `alpha` 2 the small one. -/
example : ∃ v w : ℝ × Nat → ℝ,
    (∀ s ∈ [accurateOne, smallOne], complexityFitness .wu (1/2) 2 s.1 s.2 = .ok (some (v s)) ∧ complexityFitness .wu 2 2 s.1 s.2 = .ok (some (w s))) ∧
    BestOf v [accurateOne, smallOne] accurateOne ∧ BestOf w [accurateOne, smallOne] smallOne ∧
    ¬ BestOf v [accurateOne, smallOne] smallOne ∧ (∀ s ∈ [accurateOne, smallOne], s.2 < 2) := by
  classical
  refine ⟨fun s => if s.2 = 1 then 250 / 3 else 500 / 9, fun s => if s.2 = 1 then 500 / 9 else 250 / 3, ?_, ?_, ?_, ?_, ?_⟩
  · intro s hs
    simp only [List.mem_cons, List.not_mem_nil, or_false] at hs
    rcases hs with rfl | rfl
    · rw [rated_accurateOne, rated_accurateOne]; simp only [accurateOne, if_true]; norm_num
    · rw [rated_smallOne, rated_smallOne]; simp only [smallOne]; norm_num
  · refine ⟨by simp, ?_⟩
    intro t ht; simp only [List.mem_cons, List.not_mem_nil, or_false] at ht
    rcases ht with rfl | rfl <;> simp [accurateOne, smallOne] ; norm_num
  · refine ⟨by simp, ?_⟩
    intro t ht; simp only [List.mem_cons, List.not_mem_nil, or_false] at ht
    rcases ht with rfl | rfl <;> simp [accurateOne, smallOne] ; norm_num
  · intro h
    have := h.2 accurateOne (by simp)
    simp [accurateOne, smallOne] at this
    norm_num at this
  · intro s hs
    simp only [List.mem_cons, List.not_mem_nil, or_false] at hs
    rcases hs with rfl | rfl <;> simp [accurateOne, smallOne]

/-- The weighted sum of the same two solutions is largest for the small one with `alpha` 1/4 and for the accurate one with `alpha` 3/4. -/
example : complexityFitness .emary (1/4) 2 smallOne.1 smallOne.2 = .ok (some (175 / 2)) ∧
    complexityFitness .emary (1/4) 2 accurateOne.1 accurateOne.2 = .ok (some (125 / 2)) ∧
    complexityFitness .emary (3/4) 2 smallOne.1 smallOne.2 = .ok (some (125 / 2)) ∧
    complexityFitness .emary (3/4) 2 accurateOne.1 accurateOne.2 = .ok (some (175 / 2)) := by
  refine ⟨?_, ?_, ?_, ?_⟩ <;> rw [complexityFitness_eq _ _ _ (by norm_num)] <;>
    simp only [Combine.apply, emary, accurateOne, smallOne, exp_half, mul_zero, Real.exp_zero, Option.map_some] <;> norm_num

/-- The volumes of the rules `[0, 1/2]` and `[0, 1]` in the input space `[0, 1]` are positive. -/
example : 0 < inputSpaceVolume (d := 1) (fun _ => ((0 : ℝ), (1 : ℝ))) ∧
    0 < Kind.ordered.volume (d := 1) (fun _ => ((0 : ℝ), (1/2 : ℝ))) ∧ 0 < Kind.ordered.volume (d := 1) (fun _ => ((0 : ℝ), (1 : ℝ))) := by
  simp [inputSpaceVolume, Kind.volume, OrderedBound.volume]

/-- Why solutions with as many rules as allowed are left out: their `ComplexityWu` is zero for every `alpha` other than zero, whatever their errors are, so that all of them
are fittest among themselves. -/
theorem C166_full_solutions (alpha : ℝ) (ha : alpha ≠ 0) (N : Nat) (hN : 0 < N) (e : ℝ) : complexityFitness .wu alpha N e N = .ok (some 0) := by
  have hN' : (N : ℝ) ≠ 0 := by exact_mod_cast hN.ne'
  rw [complexityFitness_eq _ _ _ hN, Combine.apply, div_self hN', sub_self]
  unfold wu
  have : 0 < alpha ^ 2 * Real.exp (-2 * e) + 0 := by have := Real.exp_pos (-2 * e); positivity
  rw [if_neg this.ne']; simp

end Suprb
