import Verif.Props.Fitness

/-!
# C28: the rule fitnesses with every matching type
-/

set_option autoImplicit false
set_option linter.unusedSectionVars false

namespace Suprb

open _root_.Spec (Pairs Point InBox InBounds Ordered Inside)

/-- The region that the rule matches is not empty and lies inside the input space. -/
def Spec.RegionInside {d : Nat} (k : Kind) (b sp : Pairs ℝ d) : Prop :=
  (∃ x, k.call b x = true) ∧ ∀ x, k.call b x = true → InBounds sp x

/-- The sides of the region that is matched. -/
theorem region_sides {d : Nat} (lo hi : Point ℝ d) (sp : Pairs ℝ d) (hne : ∃ x : Point ℝ d, ∀ i, lo i ≤ x i ∧ x i ≤ hi i)
    (hin : ∀ x : Point ℝ d, (∀ i, lo i ≤ x i ∧ x i ≤ hi i) → InBounds sp x) (i : Fin d) :
    lo i ≤ hi i ∧ (sp i).1 ≤ lo i ∧ hi i ≤ (sp i).2 := by
  obtain ⟨x, hx⟩ := hne
  have hle : ∀ j, lo j ≤ hi j := fun j => (hx j).1.trans (hx j).2
  exact ⟨hle i, (hin lo (fun j => ⟨le_rfl, hle j⟩) i).1, (hin hi (fun j => ⟨hle j, le_rfl⟩) i).2⟩

theorem prod_share {d : Nat} (w : Fin d → ℝ) (sp : Pairs ℝ d) (hpos : 0 < inputSpaceVolume sp) (h : ∀ i, 0 ≤ w i ∧ w i ≤ (sp i).2 - (sp i).1) :
    0 ≤ (∏ i, w i) / inputSpaceVolume sp ∧ (∏ i, w i) / inputSpaceVolume sp ≤ 1 := by
  refine ⟨div_nonneg (Finset.prod_nonneg fun i _ => (h i).1) hpos.le, ?_⟩
  rw [div_le_one hpos]
  exact Finset.prod_le_prod (fun i _ => (h i).1) fun i _ => (h i).2

theorem npClip_diff (a b : ℝ) (h : a ≤ b) : 0 ≤ npClip (-1) 1 b - npClip (-1) 1 a ∧ npClip (-1) 1 b - npClip (-1) 1 a ≤ b - a := by
  unfold npClip
  rcases le_total a (-1) with h1 | h1 <;> rcases le_total b (-1) with h2 | h2 <;> rcases le_total a 1 with h3 | h3 <;> rcases le_total b 1 with h4 | h4 <;>
    simp [h1, h2, h3, h4] <;> (try constructor) <;> linarith

/-- For every matching type the share of the volume lies in `[0, 1]`; minimum/percentage rules: if the percentages are not negative and at most half of the width of
the input space. -/
theorem kind_share_range {d : Nat} (k : Kind) (b sp : Pairs ℝ d) (hr : Spec.RegionInside k b sp) (hpos : 0 < inputSpaceVolume sp)
    (hmp : k = .minPercentage → ∀ i, 0 ≤ (b i).2 ∧ 2 * (b i).2 ≤ (sp i).2 - (sp i).1) :
    0 ≤ k.volume b / inputSpaceVolume sp ∧ k.volume b / inputSpaceVolume sp ≤ 1 := by
  obtain ⟨hne, hin⟩ := hr
  cases k with
  | ordered =>
    refine prod_share _ sp hpos fun i => ?_
    obtain ⟨h1, h2, h3⟩ := region_sides (fun i => (b i).1) (fun i => (b i).2) sp (by simpa [Kind.call, OrderedBound.call] using hne)
      (by simpa [Kind.call, OrderedBound.call] using hin) i
    exact ⟨by linarith, by linarith⟩
  | unordered =>
    refine prod_share _ sp hpos fun i => ?_
    obtain ⟨h1, h2, h3⟩ := region_sides (fun i => min (b i).1 (b i).2) (fun i => max (b i).1 (b i).2) sp
      (by simpa only [Kind.call, UnorderedBound.call, decide_eq_true_eq] using hne)
      (by simpa only [Kind.call, UnorderedBound.call, decide_eq_true_eq] using hin) i
    rcases le_total (b i).1 (b i).2 with h | h
    · rw [min_eq_left h, max_eq_right h] at *
      rw [max_eq_left (by linarith)]
      exact ⟨by linarith, by linarith⟩
    · rw [min_eq_right h, max_eq_left h] at *
      rw [max_eq_right (by linarith)]
      exact ⟨by linarith, by linarith⟩
  | centerSpread =>
    refine prod_share _ sp hpos fun i => ?_
    obtain ⟨h1, h2, h3⟩ := region_sides (fun i => (b i).1 - (b i).2) (fun i => (b i).1 + (b i).2) sp
      (by simpa only [Kind.call, CenterSpread.call, decide_eq_true_eq] using hne)
      (by simpa only [Kind.call, CenterSpread.call, decide_eq_true_eq] using hin) i
    obtain ⟨h4, h5⟩ := npClip_diff _ _ h1
    exact ⟨h4, by unfold CenterSpread.widths; linarith⟩
  | minPercentage =>
    refine prod_share _ sp hpos fun i => ?_
    obtain ⟨h1, h2⟩ := hmp rfl i
    unfold MinPercentage.widths
    exact ⟨by linarith, by linarith⟩

/-- C28 (partial): for a rule of any matching type whose region lies inside an input space of positive volume, both volume based fitnesses are defined and in
`[0,100]`, and are not smaller for a rule of larger volume with equal error. Minimum/percentage rules need a condition on the percentages (without it the claim is
false, `C28_percentage_refuted`); it holds for all percentages in `[0, 1]` if the features have width 2, as scaled to `[-1, 1]`. -/
theorem C28_kinds_partial {d : Nat} (f : Combine) (alpha : ℝ) (ha : AlphaOk f alpha) (k : Kind) (b sp : Pairs ℝ d) (hr : Spec.RegionInside k b sp)
    (hmp : k = .minPercentage → ∀ i, 0 ≤ (b i).2 ∧ 2 * (b i).2 ≤ (sp i).2 - (sp i).1)
    (hpos : 0 < inputSpaceVolume sp) (e : ℝ) (he : 0 ≤ e) :
    ∃ v, volumeFitness f alpha k b sp e = .ok (some v) ∧ 0 ≤ v ∧ v ≤ 100 ∧
      ∀ b' v', k.volume b ≤ k.volume b' → volumeFitness f alpha k b' sp e = .ok (some v') → v ≤ v' := by
  obtain ⟨w, hw, h0, h1, hm⟩ := combine_range f alpha _ _ ha (pacc2_range e he) (kind_share_range k b sp hr hpos hmp)
  refine ⟨w * 100, by rw [volumeFitness_eq _ _ _ _ _ _ hpos, hw]; rfl, by linarith, by linarith, ?_⟩
  intro b' v' hle h
  rw [volumeFitness_eq _ _ _ _ _ _ hpos] at h
  simp only [Except.ok.injEq, Option.map_eq_some_iff] at h
  obtain ⟨w', hw', rfl⟩ := h
  have := hm _ _ ((div_le_div_iff_of_pos_right hpos).mpr hle) hw'
  linarith

/-- C28 (partial): a smaller error at equal bounds gives a strictly larger fitness with every matching type — for `VolumeEmary` (`alpha > 0`) always, for `VolumeWu`
if the rule has positive volume. -/
theorem C28_kinds_strict_partial {d : Nat} (f : Combine) (alpha : ℝ) (k : Kind) (b sp : Pairs ℝ d)
    (hpos : 0 < inputSpaceVolume sp) (hf : f = .emary → 0 < alpha) (hw : f = .wu → 0 < k.volume b)
    (e e' : ℝ) (hlt : e < e') (v v' : ℝ)
    (h : volumeFitness f alpha k b sp e = .ok (some v)) (h' : volumeFitness f alpha k b sp e' = .ok (some v')) :
    v' < v := by
  rw [volumeFitness_eq _ _ _ _ _ _ hpos] at h h'
  simp only [Except.ok.injEq, Option.map_eq_some_iff] at h h'
  obtain ⟨w, hw1, rfl⟩ := h
  obtain ⟨w', hw1', rfl⟩ := h'
  have := combine_strict f alpha _ _ _ _ _ hf (fun hf => div_pos (hw hf) hpos) (Real.exp_pos _).le
    (Real.exp_lt_exp.mpr (by linarith : -2 * e' < -2 * e)) hw1' hw1
  linarith

/-- C28 (refuted) for minimum/percentage rules: the volume counts the percentage as a share of `[-1, 1]`, the matched region as a share of what lies above the
minimum. So a rule that matches exactly the input space `[0, 1]` has twice its volume and, without error, the `VolumeEmary` fitness 101. -/
theorem C28_percentage_refuted :
    ∃ b sp : Pairs ℝ 1, Spec.RegionInside .minPercentage b sp ∧ (∀ x, InBounds sp x → Kind.minPercentage.call b x = true) ∧ 0 < inputSpaceVolume sp ∧
      volumeFitness .emary 0.99 .minPercentage b sp 0 = .ok (some 101) := by
  have hcall : ∀ x : Point ℝ 1, Kind.minPercentage.call (fun _ => ((0 : ℝ), (1 : ℝ))) x = true ↔ InBounds (fun _ => ((0 : ℝ), (1 : ℝ))) x := by
    intro x
    simp [Kind.call, MinPercentage.call, InBounds, InBox]
  have hsp : inputSpaceVolume (fun _ : Fin 1 => ((0 : ℝ), (1 : ℝ))) = 1 := by simp [inputSpaceVolume]
  refine ⟨fun _ => (0, 1), fun _ => (0, 1), ⟨⟨fun _ => 0, (hcall _).mpr fun i => by norm_num⟩, fun x h => (hcall x).mp h⟩, fun x h => (hcall x).mpr h,
    by rw [hsp]; norm_num, ?_⟩
  rw [volumeFitness_eq _ _ _ _ _ _ (by rw [hsp]; norm_num), hsp]
  have hv : Kind.minPercentage.volume (fun _ : Fin 1 => ((0 : ℝ), (1 : ℝ))) = 2 := by
    simp [Kind.volume, MinPercentage.volume, MinPercentage.widths]; norm_num
  rw [hv]
  simp [Combine.apply, emary]
  norm_num

/-- Cases of the hypotheses of C28 for the other matching types: the unordered rule `(1/2, 0)`, centre 0 and spread 1/2, and minimum `-1` with percentage `1/2` (the
region `[-1, 0]`) lie inside `[-1, 1]`. -/
example : Spec.RegionInside (d := 1) .unordered (fun _ => (1/2, 0)) (fun _ => (-1, 1)) ∧ Spec.RegionInside (d := 1) .centerSpread (fun _ => (0, 1/2)) (fun _ => (-1, 1)) ∧
    Spec.RegionInside (d := 1) .minPercentage (fun _ => (-1, 1/2)) (fun _ => (-1, 1)) ∧ (0 : ℝ) < Kind.unordered.volume (fun _ : Fin 1 => ((1/2 : ℝ), (0 : ℝ))) := by
  refine ⟨⟨⟨fun _ => 0, ?_⟩, ?_⟩, ⟨⟨fun _ => 0, ?_⟩, ?_⟩, ⟨⟨fun _ => -1, ?_⟩, ?_⟩, ?_⟩
  · simp [Kind.call, UnorderedBound.call]
  · intro x h i
    simp only [Kind.call, UnorderedBound.call, decide_eq_true_eq] at h
    obtain ⟨h1, h2⟩ := h i
    norm_num at h1 h2
    exact ⟨by dsimp only; linarith, by dsimp only; linarith⟩
  · simp [Kind.call, CenterSpread.call]
  · intro x h i
    simp only [Kind.call, CenterSpread.call, decide_eq_true_eq] at h
    obtain ⟨h1, h2⟩ := h i
    exact ⟨by dsimp only at *; linarith, by dsimp only at *; linarith⟩
  · simp [Kind.call, MinPercentage.call]
  · intro x h i
    simp only [Kind.call, MinPercentage.call, decide_eq_true_eq] at h
    obtain ⟨h1, h2⟩ := h i
    exact ⟨by dsimp only at *; linarith, by dsimp only at *; linarith⟩
  · simp [Kind.volume, UnorderedBound.volume]

end Suprb
