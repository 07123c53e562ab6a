import Verif.Model.RoundedFitness
import Verif.Props.RoundedMix

/-!
# Claim C157: the order of fitnesses in floating-point arithmetic
-/

set_option autoImplicit false
set_option linter.unusedSectionVars false

namespace Suprb

variable {K : Type} [Field K] [LinearOrder K] [IsStrictOrderedRing K]

/-- The exact Wu fitness of two objectives: their harmonic mean, weighted by `α²`. -/
def Spec.harmonic (alpha x1 x2 : K) : K := ((1 + alpha ^ 2) * x1 * x2) / (alpha ^ 2 * x1 + x2)

theorem Rounding.nonneg' (R : Rounding K) {x : K} (h : 0 ≤ x) : 0 ≤ R.rnd x := by
  have := R.mono 0 x h
  rwa [R.zero] at this

/-- What `ComplexitySolutionFitness` computes, if the maximum genome length is not zero. -/
theorem rounded_complexityFitness_ok {R : Rounding K} {f : Combine} {alpha x1 v : K} {N c : Nat}
    (h : R.complexityFitness f alpha N x1 c = .ok (some v)) :
    N ≠ 0 ∧ ∃ w, R.combine f alpha x1 (R.rnd (1 - R.rnd ((c : K) / (N : K)))) = some w ∧ v = R.rnd (w * 100) := by
  unfold Rounding.complexityFitness Rounding.cNorm at h
  by_cases hN : N = 0
  · rw [if_pos hN] at h
    cases h
  · rw [if_neg hN] at h
    obtain ⟨w, h1, h2⟩ := Option.map_eq_some_iff.1 (Except.ok.inj h)
    exact ⟨hN, w, h1, h2.symm⟩

theorem rounded_volumeFitness_some {R : Rounding K} {f : Combine} {alpha x1 volume space v : K}
    (h : R.volumeFitness f alpha x1 volume space = some v) :
    ∃ w, R.combine f alpha x1 (R.rnd (volume / space)) = some w ∧ v = R.rnd (w * 100) := by
  unfold Rounding.volumeFitness at h
  by_cases hN : space = 0
  · rw [if_pos hN] at h
    cases h
  · rw [if_neg hN] at h
    obtain ⟨w, h1, h2⟩ := Option.map_eq_some_iff.1 h
    exact ⟨w, h1, h2.symm⟩

theorem rounded_cNorm_mono (R : Rounding K) {c c' N : Nat} (h : c' ≤ c) :
    R.rnd (1 - R.rnd ((c : K) / (N : K))) ≤ R.rnd (1 - R.rnd ((c' : K) / (N : K))) := by
  have h1 : (c' : K) / (N : K) ≤ (c : K) / (N : K) := div_le_div_of_nonneg_right (by exact_mod_cast h) (Nat.cast_nonneg _)
  exact R.mono _ _ (by linarith [R.mono _ _ h1])

theorem rounded_emary_mono (R : Rounding K) {alpha x1 x1' x2 x2' w w' : K} (ha : 0 ≤ alpha) (ha1 : alpha ≤ 1) (h1 : x1 ≤ x1') (h2 : x2 ≤ x2')
    (h : R.combine .emary alpha x1 x2 = some w) (h' : R.combine .emary alpha x1' x2' = some w') : w ≤ w' := by
  cases h
  cases h'
  exact R.mono _ _ (add_le_add (R.mono _ _ (mul_le_mul_of_nonneg_left h1 ha))
    (R.mono _ _ (mul_le_mul_of_nonneg_left h2 (R.nonneg' (sub_nonneg.2 ha1)))))

/-- C157 (part that holds, `ComplexityEmary`): whatever the rounding, the solution which is at least as accurate and at most as complex never has the lower
fitness. -/
theorem C157_emary_partial (R : Rounding K) (alpha : K) (ha : 0 ≤ alpha) (ha1 : alpha ≤ 1) (N c c' : Nat) (x1 x1' v v' : K)
    (h1 : x1 ≤ x1') (hc : c' ≤ c) (h : R.complexityFitness .emary alpha N x1 c = .ok (some v))
    (h' : R.complexityFitness .emary alpha N x1' c' = .ok (some v')) : v ≤ v' := by
  obtain ⟨_, w, e, rfl⟩ := rounded_complexityFitness_ok h
  obtain ⟨_, w', e', rfl⟩ := rounded_complexityFitness_ok h'
  exact R.mono _ _ (mul_le_mul_of_nonneg_right (rounded_emary_mono R ha ha1 h1 (rounded_cNorm_mono R hc) e e') (by norm_num))

/-- C157 (part that holds, `VolumeEmary`): whatever the rounding, the rule which is at least as accurate and at least as large never has the lower fitness. -/
theorem C157_volume_emary_partial (R : Rounding K) (alpha : K) (ha : 0 ≤ alpha) (ha1 : alpha ≤ 1) (x1 x1' volume volume' space v v' : K)
    (hs : 0 < space) (h1 : x1 ≤ x1') (hv : volume ≤ volume') (h : R.volumeFitness .emary alpha x1 volume space = some v)
    (h' : R.volumeFitness .emary alpha x1' volume' space = some v') : v ≤ v' := by
  obtain ⟨w, e, rfl⟩ := rounded_volumeFitness_some h
  obtain ⟨w', e', rfl⟩ := rounded_volumeFitness_some h'
  exact R.mono _ _ (mul_le_mul_of_nonneg_right
    (rounded_emary_mono R ha ha1 h1 (R.mono _ _ (div_le_div_of_nonneg_right hv hs.le)) e e') (by norm_num))

/-- C157 (part that holds, `PseudoAccuracy`): whatever the rounding, the rule which is at least as accurate never has the lower fitness. -/
theorem C157_accuracy_partial (R : Rounding K) (x1 x1' : K) (h : x1 ≤ x1') : R.accuracyFitness x1 ≤ R.accuracyFitness x1' :=
  R.mono _ _ (mul_le_mul_of_nonneg_right h (by norm_num))

/-! ### The Wu fitness is close to the exact one -/

theorem Near.add {u : K} {k : Nat} {a a' b b' : K} (ha : 0 ≤ a) (hb : 0 ≤ b) (h : Near u k a a') (h' : Near u k b b') :
    Near u k (a + b) (a' + b') := by
  by_cases h0 : 0 < a + b
  · rw [near_pos_iff h0]
    obtain ⟨θ, rfl, t1, t2⟩ := h
    obtain ⟨η, rfl, s1, s2⟩ := h'
    exact ⟨by nlinarith [mul_le_mul_of_nonneg_right t1 ha, mul_le_mul_of_nonneg_right s1 hb],
      by nlinarith [mul_le_mul_of_nonneg_right t2 ha, mul_le_mul_of_nonneg_right s2 hb]⟩
  · have a0 : a = 0 := by linarith
    have b0 : b = 0 := by linarith
    subst a0 b0
    obtain ⟨θ, rfl, t1, t2⟩ := h
    obtain ⟨η, rfl, s1, s2⟩ := h'
    exact ⟨θ, by ring, t1, t2⟩

/-- The rounded Wu fitness is defined where the exact one is, and after scaling its relative error is at most `slack u 6`. -/
theorem rounded_wu_near {u : K} (hu : 0 ≤ u) (hu1 : u < 1) {R : Rounding K} (hR : R.Accurate u) {alpha x1 x2 : K}
    (h1 : 0 ≤ x1) (h2 : 0 ≤ x2) :
    (R.wu alpha x1 x2 = none ↔ alpha ^ 2 * x1 + x2 = 0) ∧
      ∀ w, R.wu alpha x1 x2 = some w →
        |R.rnd (w * 100) - 100 * Spec.harmonic alpha x1 x2| ≤ Spec.slack u 6 * (100 * Spec.harmonic alpha x1 x2) := by
  have ha : 0 ≤ alpha ^ 2 := sq_nonneg _
  have a2 : Near u 1 (alpha ^ 2) (R.rnd (alpha ^ 2)) := Near.rnd_one hR _
  have d1 : Near u 2 (alpha ^ 2 * x1) (R.rnd (R.rnd (alpha ^ 2) * x1)) := Near.rnd hu hu1 hR (Near.mul hu hu1 a2 (Near.refl x1))
  have dn : Near u 3 (alpha ^ 2 * x1 + x2) (R.rnd (R.rnd (R.rnd (alpha ^ 2) * x1) + x2)) :=
    Near.rnd hu hu1 hR (Near.add (mul_nonneg ha h1) h2 d1 (Near.mono hu hu1 (Nat.zero_le _) (Near.refl x2)))
  have n1 : Near u 2 (1 + alpha ^ 2) (R.rnd (1 + R.rnd (alpha ^ 2))) :=
    Near.rnd hu hu1 hR (Near.add zero_le_one ha (Near.mono hu hu1 (Nat.zero_le _) (Near.refl 1)) a2)
  have n2 : Near u 3 ((1 + alpha ^ 2) * x1) (R.rnd (R.rnd (1 + R.rnd (alpha ^ 2)) * x1)) :=
    Near.rnd hu hu1 hR (Near.mul hu hu1 n1 (Near.refl x1))
  have n3 : Near u 4 ((1 + alpha ^ 2) * x1 * x2) (R.rnd (R.rnd (R.rnd (1 + R.rnd (alpha ^ 2)) * x1) * x2)) :=
    Near.rnd hu hu1 hR (Near.mul hu hu1 n2 (Near.refl x2))
  have hd0 : 0 ≤ alpha ^ 2 * x1 + x2 := add_nonneg (mul_nonneg ha h1) h2
  have zero : R.rnd (R.rnd (R.rnd (alpha ^ 2) * x1) + x2) = 0 ↔ alpha ^ 2 * x1 + x2 = 0 := by
    constructor
    · intro h
      by_contra hne
      exact (Near.pos hu1 (lt_of_le_of_ne hd0 (Ne.symm hne)) dn).ne' h
    · intro h
      obtain ⟨θ, e, _, _⟩ := dn
      rw [e, h, mul_zero]
  refine ⟨?_, ?_⟩
  · unfold Rounding.wu
    by_cases h : R.rnd (R.rnd (R.rnd (alpha ^ 2) * x1) + x2) = 0
    · rw [if_pos h]
      exact ⟨fun _ => zero.1 h, fun _ => rfl⟩
    · rw [if_neg h]
      exact ⟨fun hh => (Option.some_ne_none _ hh).elim, fun hh => absurd (zero.2 hh) h⟩
  · intro w hw
    unfold Rounding.wu at hw
    by_cases h : R.rnd (R.rnd (R.rnd (alpha ^ 2) * x1) + x2) = 0
    · rw [if_pos h] at hw
      cases hw
    rw [if_neg h] at hw
    have hd : 0 < alpha ^ 2 * x1 + x2 := lt_of_le_of_ne hd0 (fun e => h (zero.2 e.symm))
    obtain ⟨ζ, e3, z1, z2⟩ := dn
    generalize R.rnd (R.rnd (R.rnd (alpha ^ 2) * x1) + x2) = D at hw h e3
    generalize R.rnd (R.rnd (R.rnd (1 + R.rnd (alpha ^ 2)) * x1) * x2) = Nn at hw n3
    obtain ⟨θ, e4, t1, t2⟩ := n3
    have q1 := Near.rnd_one hR (Nn / D)
    rw [Option.some.inj hw] at q1
    have q2 := Near.rnd hu hu1 hR (Near.mul hu hu1 q1 (Near.refl (100 : K)))
    obtain ⟨η, e5, y1, y2⟩ := q2
    have hζ : 0 < ζ := (pow_pos (by linarith) 3).trans_le z1
    have u0 : 0 < 1 - u := by linarith
    have hH : 0 ≤ 100 * Spec.harmonic alpha x1 x2 := by
      unfold Spec.harmonic
      exact mul_nonneg (by norm_num) (div_nonneg (mul_nonneg (mul_nonneg (by linarith) h1) h2) hd.le)
    have e6 : R.rnd (w * 100) = η * θ / ζ * (100 * Spec.harmonic alpha x1 x2) := by
      rw [e5, e4, e3]
      unfold Spec.harmonic
      field_simp
    have θ0 : 0 ≤ θ := (pow_nonneg u0.le _).trans t1
    have η0 : 0 ≤ η := (pow_nonneg u0.le _).trans y1
    have c1 : η * θ / ζ ≤ 1 + Spec.slack u 6 := by
      refine (slack_bounds hu hu1 (i := 6) (j := 3) le_rfl (by omega)).1 ?_
      have : η * θ ≤ (1 + u) ^ 6 :=
        (mul_le_mul y2 t2 θ0 (pow_nonneg (by linarith) _)).trans_eq (by ring)
      exact div_le_div₀ (pow_nonneg (by linarith) _) this (pow_pos u0 3) z1
    have c2 : 1 - Spec.slack u 6 ≤ η * θ / ζ := by
      refine (slack_bounds hu hu1 (i := 6) (j := 3) le_rfl (by omega)).2 ?_
      have : (1 - u) ^ 6 ≤ η * θ :=
        (show (1 - u) ^ 6 = (1 - u) ^ (0 + 1 + 1) * (1 - u) ^ 4 by ring).trans_le (mul_le_mul y1 t1 (pow_nonneg u0.le _) η0)
      exact div_le_div₀ (mul_nonneg η0 θ0) this hζ z2
    rw [e6, abs_le]
    constructor <;> nlinarith [mul_le_mul_of_nonneg_right c1 hH, mul_le_mul_of_nonneg_right c2 hH]

theorem rounded_cNorm_nonneg (R : Rounding K) {c N : Nat} (hR1 : R.Rep 1) (hc : c ≤ N) :
    0 ≤ R.rnd (1 - R.rnd ((c : K) / (N : K))) := by
  have : (c : K) / (N : K) ≤ 1 := div_le_one_of_le₀ (by exact_mod_cast hc) (Nat.cast_nonneg _)
  have h := R.mono _ _ this
  rw [hR1] at h
  exact R.nonneg' (sub_nonneg.2 h)

/-- C157 (`ComplexityWu`, part that holds; missing: solutions whose exact fitnesses are closer than this): the fitness differs from 100 times the exact
harmonic mean of the pseudo-accuracy and the (rounded) share of unused rules by a factor of at most `((1 + u) / (1 - u))⁶ - 1`, so the order of two
solutions whose exact fitnesses differ by more is right. -/
theorem C157_wu_partial {u : K} (hu : 0 ≤ u) (hu1 : u < 1) (R : Rounding K) (hR : R.Accurate u) (hR1 : R.Rep 1) (alpha : K) (N c c' : Nat)
    (hc : c ≤ N) (hc' : c' ≤ N) (x1 x1' v v' : K) (h1 : 0 ≤ x1) (h1' : 0 ≤ x1')
    (h : R.complexityFitness .wu alpha N x1 c = .ok (some v)) (h' : R.complexityFitness .wu alpha N x1' c' = .ok (some v')) :
    ∃ x2 x2', R.cNorm c N = .ok x2 ∧ R.cNorm c' N = .ok x2' ∧
      |v - 100 * Spec.harmonic alpha x1 x2| ≤ (((1 + u) / (1 - u)) ^ 6 - 1) * (100 * Spec.harmonic alpha x1 x2) ∧
      (Spec.harmonic alpha x1 x2 * ((1 + u) / (1 - u)) ^ 6 < Spec.harmonic alpha x1' x2' * (2 - ((1 + u) / (1 - u)) ^ 6) → v < v') := by
  obtain ⟨hN, w, e, rfl⟩ := rounded_complexityFitness_ok h
  obtain ⟨_, w', e', rfl⟩ := rounded_complexityFitness_ok h'
  have a := (rounded_wu_near hu hu1 hR h1 (rounded_cNorm_nonneg R hR1 hc)).2 w e
  have b := (rounded_wu_near hu hu1 hR h1' (rounded_cNorm_nonneg R hR1 hc')).2 w' e'
  refine ⟨_, _, by unfold Rounding.cNorm; rw [if_neg hN], by unfold Rounding.cNorm; rw [if_neg hN], a, fun hlt => ?_⟩
  unfold Spec.slack at a b
  rw [abs_le] at a b
  linarith [a.2, b.1]

/-- C157 (`VolumeWu`, part that holds; missing: rules whose exact fitnesses are closer than this): as `C157_wu_partial`, for rules. -/
theorem C157_volume_wu_partial {u : K} (hu : 0 ≤ u) (hu1 : u < 1) (R : Rounding K) (hR : R.Accurate u) (alpha : K)
    (x1 x1' volume volume' space v v' : K) (h1 : 0 ≤ x1) (h1' : 0 ≤ x1') (hs : 0 < space) (hv : 0 ≤ volume) (hv' : 0 ≤ volume')
    (h : R.volumeFitness .wu alpha x1 volume space = some v) (h' : R.volumeFitness .wu alpha x1' volume' space = some v') :
    |v - 100 * Spec.harmonic alpha x1 (R.rnd (volume / space))| ≤
        (((1 + u) / (1 - u)) ^ 6 - 1) * (100 * Spec.harmonic alpha x1 (R.rnd (volume / space))) ∧
      (Spec.harmonic alpha x1 (R.rnd (volume / space)) * ((1 + u) / (1 - u)) ^ 6 <
        Spec.harmonic alpha x1' (R.rnd (volume' / space)) * (2 - ((1 + u) / (1 - u)) ^ 6) → v < v') := by
  obtain ⟨w, e, rfl⟩ := rounded_volumeFitness_some h
  obtain ⟨w', e', rfl⟩ := rounded_volumeFitness_some h'
  have a := (rounded_wu_near hu hu1 hR h1 (R.nonneg' (div_nonneg hv hs.le))).2 w e
  have b := (rounded_wu_near hu hu1 hR h1' (R.nonneg' (div_nonneg hv' hs.le))).2 w' e'
  refine ⟨a, fun hlt => ?_⟩
  unfold Spec.slack at a b
  rw [abs_le] at a b
  linarith [a.2, b.1]

/-! ### The Wu fitness does not keep the order -/

theorem halfEven_near' {q : ℚ} {n : ℤ} (h : |q - n| < 1 / 2 ∨ (|q - n| = 1 / 2 ∧ n % 2 = 0)) : halfEven q = n := by
  have f1 := Int.floor_le q
  have f2 := Int.lt_floor_add_one q
  have hle : |q - n| ≤ 1 / 2 := by
    rcases h with h | h
    · exact h.le
    · exact h.1.le
  rw [abs_le] at hle
  rcases lt_trichotomy ⌊q⌋ n with hf | hf | hf
  · have e : ⌊q⌋ = n - 1 := by
      have : ((n : ℤ) : ℚ) < ⌊q⌋ + 2 := by linarith
      have : n < ⌊q⌋ + 2 := by exact_mod_cast this
      omega
    have ec : ((⌊q⌋ : ℤ) : ℚ) = n - 1 := by rw [e]; push_cast; ring
    unfold halfEven
    rw [ec]
    rw [if_neg (by linarith)]
    by_cases g : 1 / 2 < q - (n - 1 : ℚ)
    · rw [if_pos g, e]; ring
    · rw [if_neg g]
      rcases h with h | h
      · rw [abs_lt] at h; linarith
      · rw [if_neg (by omega), e]; ring
  · have ec : ((⌊q⌋ : ℤ) : ℚ) = n := by rw [hf]
    unfold halfEven
    rw [ec]
    by_cases g : q - (n : ℚ) < 1 / 2
    · rw [if_pos g, hf]
    · rw [if_neg g, if_neg (by linarith)]
      rcases h with h | h
      · rw [abs_lt] at h; linarith
      · rw [if_pos (by omega), hf]
  · exfalso
    have : ((n : ℤ) : ℚ) + 1 ≤ ⌊q⌋ := by exact_mod_cast hf
    linarith

theorem float64_eq {x : ℚ} (e n : ℤ) (h1 : (2 : ℚ) ^ e ≤ x) (h2 : x < 2 ^ (e + 1))
    (h : |x / 2 ^ (e + 1 - 53) - n| < 1 / 2 ∨ (|x / 2 ^ (e + 1 - 53) - n| = 1 / 2 ∧ n % 2 = 0)) :
    float64.rnd x = n * 2 ^ (e + 1 - 53) := by
  rw [float64_rnd, roundTo_eq 53 h1 h2]
  have := halfEven_near' h
  exact_mod_cast congrArg (fun m : ℤ => (m : ℚ) * 2 ^ (e + 1 - 53)) this

/-- Two fitnesses in `float64` (`alpha = 0.3`, the default; one of two rules selected): the pseudo-accuracy `0.8` (that is,
`7205759403792794 / 2⁵³`) has the fitness `76.22377622377624`, the next larger `float64` only `76.22377622377623`. -/
theorem wu_witness :
    float64.complexityFitness .wu (5404319552844595 / 2 ^ 54) 2 (7205759403792794 / 2 ^ 53) 1 = .ok (some (5363771409346418 / 2 ^ 46)) ∧
      float64.complexityFitness .wu (5404319552844595 / 2 ^ 54) 2 (7205759403792795 / 2 ^ 53) 1 = .ok (some (5363771409346417 / 2 ^ 46)) := by
  have a2 : float64.rnd ((5404319552844595 / 2 ^ 54) ^ 2) = (6485183463413514 / 2 ^ 56) :=
    (float64_eq (-4) 6485183463413514 (by norm_num) (by norm_num) (by norm_num [abs_lt])).trans (by norm_num)
  have oa : float64.rnd (1 + (6485183463413514 / 2 ^ 56)) = (4908923593833841 / 2 ^ 52) :=
    (float64_eq (0) 4908923593833841 (by norm_num) (by norm_num) (by norm_num [abs_lt])).trans (by norm_num)
  have half : float64.rnd (1 / 2) = 1 / 2 :=
    (float64_eq (-1) 4503599627370496 (by norm_num) (by norm_num) (by norm_num [abs_lt])).trans (by norm_num)
  have p0 : float64.rnd ((6485183463413514 / 2 ^ 56) * (7205759403792794 / 2 ^ 53)) = (5188146770730811 / 2 ^ 56) :=
    (float64_eq (-4) 5188146770730811 (by norm_num) (by norm_num) (by norm_num [abs_lt])).trans (by norm_num)
  have d0 : float64.rnd ((5188146770730811 / 2 ^ 56) + 1 / 2) = (5152117973711847 / 2 ^ 53) :=
    (float64_eq (-1) 5152117973711847 (by norm_num) (by norm_num) (by norm_num [abs_lt])).trans (by norm_num)
  have m0 : float64.rnd ((4908923593833841 / 2 ^ 52) * (7205759403792794 / 2 ^ 53)) = (7854277750134146 / 2 ^ 53) :=
    (float64_eq (-1) 7854277750134146 (by norm_num) (by norm_num) (by norm_num [abs_lt])).trans (by norm_num)
  have n0 : float64.rnd ((7854277750134146 / 2 ^ 53) * (1 / 2)) = (7854277750134146 / 2 ^ 54) :=
    (float64_eq (-2) 7854277750134146 (by norm_num) (by norm_num) (by norm_num [abs_lt])).trans (by norm_num)
  have q0 : float64.rnd ((7854277750134146 / 2 ^ 54) / (5152117973711847 / 2 ^ 53)) = (6865627403963415 / 2 ^ 53) :=
    (float64_eq (-1) 6865627403963415 (by norm_num) (by norm_num) (by norm_num [abs_lt])).trans (by norm_num)
  have f0 : float64.rnd ((6865627403963415 / 2 ^ 53) * 100) = (5363771409346418 / 2 ^ 46) :=
    (float64_eq (6) 5363771409346418 (by norm_num) (by norm_num) (by norm_num [abs_lt])).trans (by norm_num)
  have p1 : float64.rnd ((6485183463413514 / 2 ^ 56) * (7205759403792795 / 2 ^ 53)) = (5188146770730812 / 2 ^ 56) :=
    (float64_eq (-4) 5188146770730812 (by norm_num) (by norm_num) (by norm_num [abs_lt])).trans (by norm_num)
  have d1 : float64.rnd ((5188146770730812 / 2 ^ 56) + 1 / 2) = (5152117973711848 / 2 ^ 53) :=
    (float64_eq (-1) 5152117973711848 (by norm_num) (by norm_num) (.inr (by norm_num))).trans (by norm_num)
  have m1 : float64.rnd ((4908923593833841 / 2 ^ 52) * (7205759403792795 / 2 ^ 53)) = (7854277750134147 / 2 ^ 53) :=
    (float64_eq (-1) 7854277750134147 (by norm_num) (by norm_num) (by norm_num [abs_lt])).trans (by norm_num)
  have n1 : float64.rnd ((7854277750134147 / 2 ^ 53) * (1 / 2)) = (7854277750134147 / 2 ^ 54) :=
    (float64_eq (-2) 7854277750134147 (by norm_num) (by norm_num) (by norm_num [abs_lt])).trans (by norm_num)
  have q1 : float64.rnd ((7854277750134147 / 2 ^ 54) / (5152117973711848 / 2 ^ 53)) = (6865627403963414 / 2 ^ 53) :=
    (float64_eq (-1) 6865627403963414 (by norm_num) (by norm_num) (by norm_num [abs_lt])).trans (by norm_num)
  have f1 : float64.rnd ((6865627403963414 / 2 ^ 53) * 100) = (5363771409346417 / 2 ^ 46) :=
    (float64_eq (6) 5363771409346417 (by norm_num) (by norm_num) (by norm_num [abs_lt])).trans (by norm_num)
  have cn : float64.cNorm 1 2 = .ok (1 / 2) := by
    unfold Rounding.cNorm
    rw [if_neg (by norm_num), show ((1 : ℕ) : ℚ) / ((2 : ℕ) : ℚ) = 1 / 2 by norm_num, half, show (1 : ℚ) - 1 / 2 = 1 / 2 by norm_num, half]
  refine ⟨?_, ?_⟩
  · unfold Rounding.complexityFitness Rounding.combine Rounding.wu
    rw [cn]
    show Except.ok (Option.map _ (if _ then _ else _)) = _
    rw [a2, p0, d0, if_neg (by norm_num), oa, m0, n0, q0]
    show Except.ok (some _) = _
    beta_reduce
    rw [f0]
  · unfold Rounding.complexityFitness Rounding.combine Rounding.wu
    rw [cn]
    show Except.ok (Option.map _ (if _ then _ else _)) = _
    rw [a2, p1, d1, if_neg (by norm_num), oa, m1, n1, q1]
    show Except.ok (some _) = _
    beta_reduce
    rw [f1]

/-- C157 (`ComplexityWu`, the default fitness of solutions, refuted): in `float64`, with the default `alpha = 0.3`, of two solutions which both
select one of two rules, the one with the pseudo-accuracy `0.8` is fitter than the one with the next larger pseudo-accuracy. -/
theorem C157_wu_refuted :
    ¬ ∀ (x1 x1' v v' : ℚ), float64.Rep x1 → float64.Rep x1' → 0 < x1 → x1' < 1 → x1 ≤ x1' →
      float64.complexityFitness .wu (5404319552844595 / 2 ^ 54) 2 x1 1 = .ok (some v) →
      float64.complexityFitness .wu (5404319552844595 / 2 ^ 54) 2 x1' 1 = .ok (some v') → v ≤ v' := by
  intro h
  have r0 : float64.Rep (7205759403792794 / 2 ^ 53) := (float64_eq (-1) 7205759403792794 (by norm_num) (by norm_num) (by norm_num)).trans (by norm_num)
  have r1 : float64.Rep (7205759403792795 / 2 ^ 53) := (float64_eq (-1) 7205759403792795 (by norm_num) (by norm_num) (by norm_num)).trans (by norm_num)
  have := h _ _ _ _ r0 r1 (by norm_num) (by norm_num) (by norm_num) wu_witness.1 wu_witness.2
  norm_num at this

/-- The hypotheses of `C157_emary_partial` and `C157_volume_emary_partial` are met in `float64`. -/
example : (∃ v v', float64.complexityFitness .emary (17 / 20) 3 (1 / 3) 2 = .ok (some v) ∧
      float64.complexityFitness .emary (17 / 20) 3 (1 / 2) 1 = .ok (some v') ∧ v ≤ v') ∧
    ∃ v v', float64.volumeFitness .emary (1 / 10) (1 / 3) 1 7 = some v ∧ float64.volumeFitness .emary (1 / 10) (1 / 2) 2 7 = some v' ∧ v ≤ v' := by
  refine ⟨⟨_, _, rfl, rfl, C157_emary_partial float64 (17 / 20) (by norm_num) (by norm_num) 3 2 1 (1 / 3) (1 / 2) _ _ (by norm_num) (by norm_num) rfl rfl⟩, ?_⟩
  have e : ∀ x y : ℚ, float64.volumeFitness .emary (1 / 10) x y 7 = (float64.combine .emary (1 / 10) x (float64.rnd (y / 7))).map
      fun v => float64.rnd (v * 100) := fun x y => if_neg (by norm_num)
  exact ⟨_, _, e _ _, e _ _, C157_volume_emary_partial float64 (1 / 10) (by norm_num) (by norm_num) (1 / 3) (1 / 2) 1 2 7 _ _ (by norm_num) (by norm_num)
    (by norm_num) (e _ _) (e _ _)⟩

/-- The hypotheses of `C157_wu_partial` are met in `float64`: the pseudo-accuracies `1/4` and `3/4` are far enough from each other. -/
example : ∃ v v', float64.complexityFitness .wu (1 / 2) 2 (1 / 4) 1 = .ok (some v) ∧ float64.complexityFitness .wu (1 / 2) 2 (3 / 4) 1 = .ok (some v') ∧
    v < v' := by
  obtain ⟨u, hu⟩ : ∃ u : ℚ, u = 1 / 2 ^ 53 := ⟨_, rfl⟩
  have hu0 : 0 ≤ u := by rw [hu]; norm_num
  have hu1 : u < 1 := by rw [hu]; norm_num
  have acc : float64.Accurate u := by rw [hu]; exact floats_accurate 53 (by norm_num)
  have half : float64.rnd (1 / 2) = 1 / 2 := (float64_eq (-1) 4503599627370496 (by norm_num) (by norm_num) (by norm_num)).trans (by norm_num)
  have one : float64.Rep 1 := (float64_eq 0 4503599627370496 (by norm_num) (by norm_num) (by norm_num)).trans (by norm_num)
  have cn : float64.cNorm 1 2 = .ok (1 / 2) := by
    unfold Rounding.cNorm
    rw [if_neg (by norm_num), show ((1 : ℕ) : ℚ) / ((2 : ℕ) : ℚ) = 1 / 2 by norm_num, half, show (1 : ℚ) - 1 / 2 = 1 / 2 by norm_num, half]
  have ex : ∀ x : ℚ, 0 ≤ x → ∃ v, float64.complexityFitness .wu (1 / 2) 2 x 1 = .ok (some v) := by
    intro x hx
    have := (rounded_wu_near hu0 hu1 acc (alpha := 1 / 2) (x2 := 1 / 2) hx (by norm_num)).1
    obtain ⟨w, hw⟩ : ∃ w, float64.wu (1 / 2) x (1 / 2) = some w := by
      cases e : float64.wu (1 / 2) x (1 / 2) with
      | none => exact absurd (this.1 e) (by linarith)
      | some w => exact ⟨w, rfl⟩
    refine ⟨float64.rnd (w * 100), ?_⟩
    unfold Rounding.complexityFitness Rounding.combine
    rw [cn]
    show Except.ok (Option.map _ (float64.wu (1 / 2) x (1 / 2))) = _
    rw [hw]
    rfl
  obtain ⟨v, hv⟩ := ex (1 / 4) (by norm_num)
  obtain ⟨v', hv'⟩ := ex (3 / 4) (by norm_num)
  refine ⟨v, v', hv, hv', ?_⟩
  obtain ⟨x2, x2', e, e', _, h⟩ := C157_wu_partial hu0 hu1 float64 acc one (1 / 2) 2 1 1 (by norm_num) (by norm_num) (1 / 4) (3 / 4) v v' (by norm_num)
    (by norm_num) hv hv'
  rw [cn] at e e'
  rw [← Except.ok.inj e, ← Except.ok.inj e'] at h
  apply h
  have s := slack_float64 hu 6 (by norm_num)
  unfold Spec.slack at s
  norm_num [Spec.harmonic]
  linarith

end Suprb
