import Verif.Model.Fitness
import Verif.Lemmas.Matching
import Mathlib.Tactic.FieldSimp
import Mathlib.Tactic.NormNum.Prime

/-!
# Claims C26–C29: fitness functions
-/

set_option autoImplicit false
set_option linter.unusedSectionVars false

namespace Suprb

open Spec

/-! ### C26 -/

/-- C26: pseudo accuracy lies in `(0, 1]` for non-negative errors and is 1 for error 0. -/
theorem C26_pacc_range_partial (beta e : ℝ) (hb : 0 < beta) (he : 0 ≤ e) :
    ∃ a, pseudoAccuracy e beta = .ok a ∧ 0 < a ∧ a ≤ 1 ∧ (e = 0 → a = 1) := by
  refine ⟨Real.exp (-beta * e), by unfold pseudoAccuracy; rw [if_pos hb], Real.exp_pos _, ?_, ?_⟩
  · rw [Real.exp_le_one_iff]; nlinarith
  · rintro rfl; simp

/-- C26: pseudo accuracy strictly decreases with the error. -/
theorem C26_pacc_strict_partial (beta e e' a a' : ℝ) (hlt : e < e') (h : pseudoAccuracy e beta = .ok a)
    (h' : pseudoAccuracy e' beta = .ok a') : a' < a := by
  unfold pseudoAccuracy at h h'
  split_ifs at h h' with hb
  cases h; cases h'
  exact Real.exp_lt_exp.mpr (by nlinarith)

/-- C26: `emary` maps objectives in `[0,1]` to `[0,1]` and is monotone in both. -/
theorem C26_emary_partial (alpha x1 x2 : ℝ) (ha : 0 ≤ alpha ∧ alpha ≤ 1) (h1 : 0 ≤ x1 ∧ x1 ≤ 1) (h2 : 0 ≤ x2 ∧ x2 ≤ 1) :
    ∃ v, emary alpha x1 x2 = some v ∧ 0 ≤ v ∧ v ≤ 1 ∧
      (∀ y1 v', x1 ≤ y1 → emary alpha y1 x2 = some v' → v ≤ v') ∧
      (∀ y2 v', x2 ≤ y2 → emary alpha x1 y2 = some v' → v ≤ v') := by
  refine ⟨_, rfl, by nlinarith, by nlinarith, ?_, ?_⟩ <;>
  · intro y v' hy h
    simp only [emary, Option.some.injEq] at h
    subst h; nlinarith

/-- C26 (refuted): `wu` is 0/0 for two objectives of 0. -/
theorem C26_wu_refuted (alpha : ℝ) : wu alpha 0 0 = none := by
  simp [wu]

/-- C26 (missing: both objectives 0, or the secondary one and `alpha`, where `wu` is undefined): `wu` maps objectives in `[0,1]` to `[0,1]`, wherever it is defined, and is monotone in both. It is defined whenever the secondary
objective is positive, or the primary one is positive and `alpha ≠ 0`. -/
theorem C26_wu_partial (alpha x1 x2 : ℝ) (h1 : 0 ≤ x1 ∧ x1 ≤ 1) (h2 : 0 ≤ x2 ∧ x2 ≤ 1)
    (hdef : 0 < x2 ∨ (alpha ≠ 0 ∧ 0 < x1)) :
    ∃ v, wu alpha x1 x2 = some v ∧ 0 ≤ v ∧ v ≤ 1 ∧
      (∀ y1 v', x1 ≤ y1 → wu alpha y1 x2 = some v' → v ≤ v') ∧
      (∀ y2 v', x2 ≤ y2 → wu alpha x1 y2 = some v' → v ≤ v') := by
  have ha : 0 ≤ alpha ^ 2 := sq_nonneg _
  have hden : ∀ y1 y2, x1 ≤ y1 → x2 ≤ y2 → 0 < alpha ^ 2 * y1 + y2 := by
    intro y1 y2 hy1 hy2
    have : 0 ≤ alpha ^ 2 * y1 := mul_nonneg ha (le_trans h1.1 hy1)
    rcases hdef with h | ⟨ha0, hx1⟩
    · linarith
    · have : 0 < alpha ^ 2 * y1 := mul_pos (by positivity) (lt_of_lt_of_le hx1 hy1)
      linarith [h2.1]
  have hd := hden x1 x2 le_rfl le_rfl
  refine ⟨((1 + alpha ^ 2) * x1 * x2) / (alpha ^ 2 * x1 + x2), by unfold wu; rw [if_neg hd.ne'], ?_, ?_, ?_, ?_⟩
  · exact div_nonneg (mul_nonneg (mul_nonneg (by linarith) h1.1) h2.1) hd.le
  · rw [div_le_one hd]
    have e1 : x1 * x2 ≤ x2 := by nlinarith [h1.2, h2.1]
    have e2 : alpha ^ 2 * (x1 * x2) ≤ alpha ^ 2 * x1 := mul_le_mul_of_nonneg_left (by nlinarith [h1.1, h2.2]) ha
    nlinarith
  · intro y1 v' hy h
    have hd' := hden y1 x2 hy le_rfl
    unfold wu at h; rw [if_neg hd'.ne'] at h
    simp only [Option.some.injEq] at h; subst h
    rw [div_le_div_iff₀ hd hd']
    have : 0 ≤ (1 + alpha ^ 2) * ((y1 - x1) * x2 ^ 2) :=
      mul_nonneg (by linarith) (mul_nonneg (by linarith) (sq_nonneg _))
    nlinarith
  · intro y2 v' hy h
    have hd' := hden x1 y2 le_rfl hy
    unfold wu at h; rw [if_neg hd'.ne'] at h
    simp only [Option.some.injEq] at h; subst h
    rw [div_le_div_iff₀ hd hd']
    have : 0 ≤ (1 + alpha ^ 2) * (alpha ^ 2 * ((y2 - x2) * x1 ^ 2)) :=
      mul_nonneg (by linarith) (mul_nonneg ha (mul_nonneg (by linarith) (sq_nonneg _)))
    nlinarith

example : (0 : ℝ) ≤ 1/2 ∧ (1/2 : ℝ) ≤ 1 ∧ ((0 : ℝ) < 1/4 ∨ ((0.3 : ℝ) ≠ 0 ∧ (0 : ℝ) < 1/2)) := by norm_num

/-! ### C27, C28: common part -/

/-- Strict monotonicity of both combinations in the primary objective. -/
theorem combine_strict (f : Combine) (alpha x1 y1 x2 v v' : ℝ)
    (hf : f = .emary → 0 < alpha) (hw : f = .wu → 0 < x2)
    (h1 : 0 ≤ x1) (hlt : x1 < y1)
    (hv : f.apply alpha x1 x2 = some v) (hv' : f.apply alpha y1 x2 = some v') : v < v' := by
  cases f with
  | emary =>
    simp only [Combine.apply, emary, Option.some.injEq] at hv hv'
    subst hv hv'
    have := hf rfl
    nlinarith
  | wu =>
    have hx2 := hw rfl
    have ha : 0 ≤ alpha ^ 2 := sq_nonneg _
    have hd : 0 < alpha ^ 2 * x1 + x2 := by nlinarith [mul_nonneg ha h1]
    have hd' : 0 < alpha ^ 2 * y1 + x2 := by nlinarith [mul_nonneg ha (le_trans h1 hlt.le)]
    simp only [Combine.apply, wu] at hv hv'
    rw [if_neg hd.ne'] at hv; rw [if_neg hd'.ne'] at hv'
    simp only [Option.some.injEq] at hv hv'
    subst hv hv'
    rw [div_lt_div_iff₀ hd hd']
    have : 0 < (1 + alpha ^ 2) * ((y1 - x1) * x2 ^ 2) :=
      mul_pos (by linarith) (mul_pos (by linarith) (by positivity))
    nlinarith

/-- The range of `alpha` for which a combination is used: `[0,1]` for `emary`, non-zero for `wu` (defaults 0.85, 0.99 and 0.3, 0.05). -/
def AlphaOk (f : Combine) (alpha : ℝ) : Prop :=
  match f with
  | .emary => 0 ≤ alpha ∧ alpha ≤ 1
  | .wu => alpha ≠ 0

theorem combine_range (f : Combine) (alpha x1 x2 : ℝ) (ha : AlphaOk f alpha) (h1 : 0 < x1 ∧ x1 ≤ 1) (h2 : 0 ≤ x2 ∧ x2 ≤ 1) :
    ∃ v, f.apply alpha x1 x2 = some v ∧ 0 ≤ v ∧ v ≤ 1 ∧
      ∀ y2 v', x2 ≤ y2 → f.apply alpha x1 y2 = some v' → v ≤ v' := by
  cases f with
  | emary =>
    obtain ⟨v, e, a, b, _, c⟩ := C26_emary_partial alpha x1 x2 ha ⟨h1.1.le, h1.2⟩ h2
    exact ⟨v, e, a, b, c⟩
  | wu =>
    obtain ⟨v, e, a, b, _, c⟩ := C26_wu_partial alpha x1 x2 ⟨h1.1.le, h1.2⟩ h2 (Or.inr ⟨ha, h1.1⟩)
    exact ⟨v, e, a, b, c⟩

theorem pacc2 (e : ℝ) : pseudoAccuracy e = .ok (Real.exp (-2 * e)) := by
  unfold pseudoAccuracy; rw [if_pos (by norm_num)]

theorem pacc2_range (e : ℝ) (he : 0 ≤ e) : 0 < Real.exp (-2 * e) ∧ Real.exp (-2 * e) ≤ 1 :=
  ⟨Real.exp_pos _, by rw [Real.exp_le_one_iff]; linarith⟩

/-! ### C27 solution fitness -/

theorem complexityFitness_eq (f : Combine) (alpha : ℝ) (N : Nat) (hN : 0 < N) (e : ℝ) (c : Nat) :
    complexityFitness f alpha N e c = .ok ((f.apply alpha (Real.exp (-2 * e)) (1 - (c : ℝ) / (N : ℝ))).map (· * 100)) := by
  unfold complexityFitness cNorm
  rw [pacc2, if_neg (by omega)]
  rfl

theorem cNorm_range (N c : Nat) (hN : 0 < N) (hc : c ≤ N) : 0 ≤ 1 - (c : ℝ) / (N : ℝ) ∧ 1 - (c : ℝ) / (N : ℝ) ≤ 1 := by
  have hN' : (0 : ℝ) < N := by exact_mod_cast hN
  have h1 : (c : ℝ) / (N : ℝ) ≤ 1 := by rw [div_le_one hN']; exact_mod_cast hc
  have h2 : 0 ≤ (c : ℝ) / (N : ℝ) := by positivity
  constructor <;> linarith

/-- C27: the complexity based fitnesses are defined and lie in `[0,100]` as long as the complexity is at most the maximum genome length; at equal error a
less complex solution is not less fit. -/
theorem C27_range (f : Combine) (alpha : ℝ) (ha : AlphaOk f alpha) (N : Nat) (hN : 0 < N) (e : ℝ) (he : 0 ≤ e)
    (c : Nat) (hc : c ≤ N) :
    ∃ v, complexityFitness f alpha N e c = .ok (some v) ∧ 0 ≤ v ∧ v ≤ 100 ∧
      ∀ c' v', c' ≤ c → complexityFitness f alpha N e c' = .ok (some v') → v ≤ v' := by
  obtain ⟨w, hw, h0, h1, hm⟩ := combine_range f alpha _ _ ha (pacc2_range e he) (cNorm_range N c hN hc)
  refine ⟨w * 100, by rw [complexityFitness_eq f alpha N hN, hw]; rfl, by linarith, by linarith, ?_⟩
  intro c' v' hc' h
  rw [complexityFitness_eq f alpha N hN] at h
  simp only [Except.ok.injEq, Option.map_eq_some_iff] at h
  obtain ⟨w', hw', rfl⟩ := h
  have hN' : (0 : ℝ) < N := by exact_mod_cast hN
  have : (c' : ℝ) / (N : ℝ) ≤ (c : ℝ) / (N : ℝ) := by
    rw [div_le_div_iff_of_pos_right hN']; exact_mod_cast hc'
  have := hm _ _ (by linarith) hw'
  linarith

/-- C27: at equal complexity (below the maximum) a smaller error gives strictly larger fitness. -/
theorem C27_strict (f : Combine) (alpha : ℝ) (ha' : f = .emary → 0 < alpha) (N : Nat) (e e' : ℝ)
    (hlt : e < e') (c : Nat) (hc : c < N) (v v' : ℝ)
    (h : complexityFitness f alpha N e c = .ok (some v)) (h' : complexityFitness f alpha N e' c = .ok (some v')) : v' < v := by
  have hN : 0 < N := by omega
  rw [complexityFitness_eq f alpha N hN] at h h'
  simp only [Except.ok.injEq, Option.map_eq_some_iff] at h h'
  obtain ⟨w, hw, rfl⟩ := h
  obtain ⟨w', hw', rfl⟩ := h'
  have hN' : (0 : ℝ) < N := by exact_mod_cast hN
  have hpos : 0 < 1 - (c : ℝ) / (N : ℝ) := by
    have : (c : ℝ) / (N : ℝ) < 1 := by rw [div_lt_one hN']; exact_mod_cast hc
    linarith
  have := combine_strict f alpha _ _ _ _ _ ha' (fun _ => hpos) (Real.exp_pos _).le
    (Real.exp_lt_exp.mpr (by linarith : -2 * e' < -2 * e)) hw' hw
  linarith

/-- C27: outside of the range: a maximum genome length of zero is a `ZeroDivisionError`. -/
theorem C27_zero_length (f : Combine) (alpha e : ℝ) (c : Nat) :
    complexityFitness f alpha 0 e c = .error .zeroDivisionError := by
  unfold complexityFitness cNorm
  rw [pacc2, if_pos rfl]
  rfl

example : AlphaOk .wu 0.3 ∧ AlphaOk .emary 0.85 ∧ (3 : Nat) ≤ 128 ∧ (0 : ℝ) ≤ 1e-4 := by
  unfold AlphaOk; norm_num

/-! ### C28 rule fitness -/

/-- For ordered rules inside the input space, the share of the volume lies in `[0,1]`. -/
theorem volume_share_range {d : Nat} (b sp : Pairs ℝ d) (hb : Ordered b) (hin : Inside sp b) (hpos : 0 < inputSpaceVolume sp) :
    0 ≤ Kind.ordered.volume b / inputSpaceVolume sp ∧ Kind.ordered.volume b / inputSpaceVolume sp ≤ 1 := by
  have h0 : 0 ≤ Kind.ordered.volume b := by
    unfold Kind.volume OrderedBound.volume
    exact Finset.prod_nonneg fun i _ => sub_nonneg.mpr (hb i)
  refine ⟨div_nonneg h0 hpos.le, ?_⟩
  rw [div_le_one hpos]
  unfold Kind.volume OrderedBound.volume inputSpaceVolume
  apply Finset.prod_le_prod
  · intro i _; exact sub_nonneg.mpr (hb i)
  · intro i _; obtain ⟨h1, _, _, h4⟩ := hin i; linarith

theorem volumeFitness_eq {d : Nat} (f : Combine) (alpha : ℝ) (k : Kind) (b sp : Pairs ℝ d) (e : ℝ) (hpos : 0 < inputSpaceVolume sp) :
    volumeFitness f alpha k b sp e =
      .ok ((f.apply alpha (Real.exp (-2 * e)) (k.volume b / inputSpaceVolume sp)).map (· * 100)) := by
  unfold volumeFitness
  rw [if_neg hpos.ne', pacc2]
  rfl

/-- C28 (partial): for an ordered rule inside an input space of positive volume, both volume based fitnesses are defined and in `[0,100]`, and are not smaller for a rule
of larger volume with equal error. -/
theorem C28_range_partial {d : Nat} (f : Combine) (alpha : ℝ) (ha : AlphaOk f alpha) (b sp : Pairs ℝ d) (hb : Ordered b) (hin : Inside sp b)
    (hpos : 0 < inputSpaceVolume sp) (e : ℝ) (he : 0 ≤ e) :
    ∃ v, volumeFitness f alpha .ordered b sp e = .ok (some v) ∧ 0 ≤ v ∧ v ≤ 100 ∧
      ∀ b' v', Kind.ordered.volume b ≤ Kind.ordered.volume b' →
        volumeFitness f alpha .ordered b' sp e = .ok (some v') → v ≤ v' := by
  obtain ⟨w, hw, h0, h1, hm⟩ := combine_range f alpha _ _ ha (pacc2_range e he) (volume_share_range b sp hb hin hpos)
  refine ⟨w * 100, by rw [volumeFitness_eq _ _ _ _ _ _ hpos, hw]; rfl, by linarith, by linarith, ?_⟩
  intro b' v' hle h
  rw [volumeFitness_eq _ _ _ _ _ _ hpos] at h
  simp only [Except.ok.injEq, Option.map_eq_some_iff] at h
  obtain ⟨w', hw', rfl⟩ := h
  have := hm _ _ ((div_le_div_iff_of_pos_right hpos).mpr hle) hw'
  linarith

/-- C28 (partial): a smaller error at equal bounds gives a strictly larger fitness — for `VolumeEmary` (`alpha > 0`) always, for `VolumeWu` if the rule has positive volume
(for volume 0 it is false, see `C28_refuted`). -/
theorem C28_strict_partial {d : Nat} (f : Combine) (alpha : ℝ) (b sp : Pairs ℝ d)
    (hpos : 0 < inputSpaceVolume sp) (hf : f = .emary → 0 < alpha) (hw : f = .wu → 0 < Kind.ordered.volume b)
    (e e' : ℝ) (hlt : e < e') (v v' : ℝ)
    (h : volumeFitness f alpha .ordered b sp e = .ok (some v)) (h' : volumeFitness f alpha .ordered b sp e' = .ok (some v')) :
    v' < v := by
  rw [volumeFitness_eq _ _ _ _ _ _ hpos] at h h'
  simp only [Except.ok.injEq, Option.map_eq_some_iff] at h h'
  obtain ⟨w, hw1, rfl⟩ := h
  obtain ⟨w', hw1', rfl⟩ := h'
  have := combine_strict f alpha _ _ _ _ _ hf (fun hf => div_pos (hw hf) hpos) (Real.exp_pos _).le
    (Real.exp_lt_exp.mpr (by linarith : -2 * e' < -2 * e)) hw1' hw1
  linarith

/-- C28: the plain pseudo accuracy fitness is in `(0,100]` and strictly decreases with the error. -/
theorem C28_pseudoAccuracy_partial (e : ℝ) (he : 0 ≤ e) :
    ∃ v, pseudoAccuracyFitness e = .ok v ∧ 0 < v ∧ v ≤ 100 ∧ ∀ e' v', e < e' → pseudoAccuracyFitness e' = .ok v' → v' < v := by
  have := pacc2_range e he
  refine ⟨Real.exp (-2 * e) * 100, by unfold pseudoAccuracyFitness; rw [pacc2]; rfl, by linarith, by linarith, ?_⟩
  intro e' v' hlt h
  unfold pseudoAccuracyFitness at h; rw [pacc2] at h
  simp only [bind, Except.bind, pure, Except.pure, Except.ok.injEq] at h
  subst h
  have := Real.exp_lt_exp.mpr (by linarith : -2 * e' < -2 * e)
  linarith

/-- C28 (refuted): a rule of volume zero has `VolumeWu` fitness 0 whatever its error is. Witness: the point rule `[0,0]` in `[-1,1]`. -/
theorem C28_refuted :
    ¬ ∀ (b sp : Pairs ℝ 1) (e e' v v' : ℝ), Ordered b → Inside sp b → 0 < inputSpaceVolume sp → 0 ≤ e → e < e' →
      volumeFitness .wu 0.05 .ordered b sp e = .ok (some v) → volumeFitness .wu 0.05 .ordered b sp e' = .ok (some v') → v' < v := by
  intro h
  have hsp : inputSpaceVolume (fun _ : Fin 1 => ((-1 : ℝ), (1 : ℝ))) = 2 := by
    simp [inputSpaceVolume]; norm_num
  have hz : ∀ e : ℝ, volumeFitness .wu 0.05 .ordered (fun _ : Fin 1 => ((0 : ℝ), (0 : ℝ))) (fun _ => (-1, 1)) e = .ok (some 0) := by
    intro e
    rw [volumeFitness_eq _ _ _ _ _ _ (by rw [hsp]; norm_num)]
    have hv : Kind.ordered.volume (fun _ : Fin 1 => ((0 : ℝ), (0 : ℝ))) = 0 := by
      simp [Kind.volume, OrderedBound.volume]
    have hne : (0.05 : ℝ) ^ 2 * Real.exp (-2 * e) + 0 ≠ 0 := by
      have := Real.exp_pos (-2 * e); positivity
    rw [hv, zero_div]
    simp only [Combine.apply, wu]
    rw [if_neg hne]; simp
  have := h (fun _ => (0, 0)) (fun _ => (-1, 1)) 0 1 0 0 (fun i => le_rfl) (fun i => by norm_num) (by rw [hsp]; norm_num) le_rfl one_pos
    (hz 0) (hz 1)
  exact lt_irrefl _ this

/-- C28: if some feature is constant in the training data the input space has volume zero and the fitness is not a number. -/
theorem C28_degenerate_refuted (f : Combine) (alpha : ℝ) (b sp : Pairs ℝ 2) (e : ℝ) (h : (sp 1).1 = (sp 1).2) :
    volumeFitness f alpha .ordered b sp e = .ok none := by
  unfold volumeFitness
  rw [if_pos]
  unfold inputSpaceVolume
  exact Finset.prod_eq_zero (Finset.mem_univ 1) (by rw [h]; ring)

example : Ordered (K := ℝ) (d := 1) (fun _ => (0, 1/2)) ∧ Inside (K := ℝ) (d := 1) (fun _ => (-1, 1)) (fun _ => (0, 1/2)) ∧
    0 < inputSpaceVolume (fun _ : Fin 1 => ((-1 : ℝ), (1 : ℝ))) ∧ 0 < Kind.ordered.volume (fun _ : Fin 1 => ((0 : ℝ), (1/2 : ℝ))) := by
  refine ⟨fun i => by norm_num, fun i => by norm_num, ?_, ?_⟩
  · simp [inputSpaceVolume]
  · simp [Kind.volume, OrderedBound.volume]

/-! ### C29 PseudoBIC -/

/-- C29: at equal genome length and complexity, the smaller error has the larger fitness. -/
theorem C29_error (n c : Nat) (e e' v v' : ℝ) (he : 0 < e) (hlt : e < e')
    (h : pseudoBIC e n c = some v) (h' : pseudoBIC e' n c = some v') : v' < v := by
  unfold pseudoBIC at h h'
  split_ifs at h h' with hn
  simp only [Option.some.injEq] at h h'
  subst h h'
  have hn' : (0 : ℝ) < n := by exact_mod_cast Nat.pos_of_ne_zero hn
  have := Real.log_lt_log he hlt
  nlinarith

/-- C29: at equal genome length and error, a more complex solution is not fitter (and strictly less fit if there are at least two rules in the pool). -/
theorem C29_complexity (n c c' : Nat) (e v v' : ℝ) (hlt : c < c')
    (h : pseudoBIC e n c = some v) (h' : pseudoBIC e n c' = some v') : v' ≤ v ∧ (2 ≤ n → v' < v) := by
  unfold pseudoBIC at h h'
  split_ifs at h h' with hn
  simp only [Option.some.injEq] at h h'
  subst h h'
  have hc : (c : ℝ) < c' := by exact_mod_cast hlt
  have hn' : (1 : ℝ) ≤ n := by exact_mod_cast Nat.pos_of_ne_zero hn
  have h0 := Real.log_nonneg hn'
  refine ⟨by nlinarith, fun h2 => ?_⟩
  have h2' : (1 : ℝ) < n := by exact_mod_cast (by omega : 1 < n)
  have := Real.log_pos h2'
  nlinarith

/-- C29: it is defined exactly if the genome is not empty. -/
theorem C29_defined (n c : Nat) (e : ℝ) : (pseudoBIC e n c).isSome ↔ 0 < n := by
  unfold pseudoBIC
  split_ifs with h
  · simp [h]
  · simp; omega

end Suprb
