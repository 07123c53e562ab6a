import Verif.Lemmas.Matching

/-!
# Claims C10–C13: rule initialisation, mutation and crossover
-/

set_option autoImplicit false
set_option linter.unusedSectionVars false

namespace Suprb

open Spec

variable {K : Type} [Field K] [LinearOrder K] [IsStrictOrderedRing K] {d : Nat}

/-! ### C10 an initial rule matches the sample it was created for -/

/-- C10: ordered rules, mean initialisation. -/
theorem C10_ordered_mean_partial (r : K) (fb : Pairs K d) (m : Point K d) (hm : InBounds fb m) :
    Kind.ordered.call (constrain .ordered r fb (meanInit .ordered m)) m = true := by
  simp only [Kind.call, OrderedBound.call_iff]
  intro i
  exact ⟨npClip_le_of_le (OrderedBound.minRange_fst_le r (fun i => (m i, m i)) i) (hm i).1,
    le_npClip_of_le (OrderedBound.le_minRange_snd r (fun i => (m i, m i)) i) (hm i).2⟩

/-- C10: ordered rules, half-normal initialisation with arbitrary half-normal draws `h ≥ 0`. -/
theorem C10_ordered_halfnorm_partial (r : K) (fb : Pairs K d) (m : Point K d) (hm : InBounds fb m)
    (h : Pairs K d) (hh : ∀ i, 0 ≤ (h i).1 ∧ 0 ≤ (h i).2) :
    ∃ b, halfnormInit .ordered m h = .ok b ∧ Kind.ordered.call (constrain .ordered r fb b) m = true := by
  refine ⟨_, rfl, ?_⟩
  simp only [Kind.call, OrderedBound.call_iff]
  intro i
  refine ⟨npClip_le_of_le (le_trans (OrderedBound.minRange_fst_le r _ i) ?_) (hm i).1,
    le_npClip_of_le (le_trans ?_ (OrderedBound.le_minRange_snd r _ i)) (hm i).2⟩
  · dsimp only; linarith [(hh i).1]
  · dsimp only; linarith [(hh i).2]

/-- C10: unordered rules, mean initialisation (no bounds on the origin are needed, nothing is clipped). -/
theorem C10_unordered_mean_partial (r : K) (fb : Pairs K d) (m : Point K d) :
    Kind.unordered.call (constrain .unordered r fb (meanInit .unordered m)) m = true := by
  simp only [Kind.call, UnorderedBound.call_iff, constrain, Kind.clip, UnorderedBound.clip, Kind.minRange, meanInit]
  intro i
  by_cases hr : 0 < r
  · rw [UnorderedBound.minRange_point r hr]
    exact ⟨le_trans (min_le_left _ _) (by dsimp only; linarith),
      le_trans (by dsimp only; linarith) (le_max_right _ _)⟩
  · unfold UnorderedBound.minRange; rw [if_neg hr]; simp

/-- C10: centre/spread rules, mean initialisation, origin in `[-1,1]^d`. -/
theorem C10_centerSpread_mean_partial (r : K) (fb : Pairs K d) (m : Point K d)
    (hm : InBox (fun _ => -1) (fun _ => 1) m) :
    Kind.centerSpread.call (constrain .centerSpread r fb (meanInit .centerSpread m)) m = true := by
  simp only [Kind.call, CenterSpread.call_iff, constrain, Kind.clip, Kind.minRange, meanInit]
  intro i
  have h1 : (CenterSpread.minRange r (fun i => (m i, (0 : K))) i).1 = m i := by
    unfold CenterSpread.minRange
    split_ifs
    · dsimp only; split_ifs <;> rfl
    · rfl
  simp only [CenterSpread.clip, h1]
  have hc : npClip (-1) 1 (m i) = m i := npClip_of_mem (hm i).1 (hm i).2
  have hs : 0 ≤ npClip 0 2 (CenterSpread.minRange r (fun i => (m i, (0 : K))) i).2 := npClip_ge (by norm_num) _
  rw [hc]
  exact ⟨by linarith, by linarith⟩

/-- C10 (refuted for unordered rules with half-normal initialisation): the minimum-range operator can push the rule
off its origin. Witness: origin `0`, draws `3/4` and `0`, `min_range = 1`. -/
theorem C10_unordered_halfnorm_refuted :
    ¬ ∀ (r : ℚ) (fb : Pairs ℚ 1) (m : Point ℚ 1) (h : Pairs ℚ 1), 0 < r → InBounds fb m →
      (∀ i, 0 ≤ (h i).1 ∧ 0 ≤ (h i).2) →
      ∀ b, halfnormInit .unordered m h = .ok b → Kind.unordered.call (constrain .unordered r fb b) m = true := by
  intro h
  have := h 1 ![(-1, 1)] ![0] ![(3/4, 0)] (by norm_num) (by decide +kernel) (by decide +kernel)
    (fun i => ((![0] : Point ℚ 1) i - ((![(3/4, 0)] : Pairs ℚ 1) i).1,
      (![0] : Point ℚ 1) i + ((![(3/4, 0)] : Pairs ℚ 1) i).2)) rfl
  exact absurd this (by decide +kernel)

/-- C10 (refuted for centre/spread rules): the constraint moves the centre into `[-1, 1]`, whatever the feature bounds are.
Witness: origin `5` with feature bounds `[0, 10]`. -/
theorem C10_centerSpread_refuted :
    ¬ ∀ (r : ℚ) (fb : Pairs ℚ 1) (m : Point ℚ 1), 0 ≤ r → InBounds fb m →
      Kind.centerSpread.call (constrain .centerSpread r fb (meanInit .centerSpread m)) m = true := by
  intro h
  exact absurd (h (1/10) ![(0, 10)] ![5] (by norm_num) (by decide +kernel)) (by decide +kernel)

example : InBounds (K := ℚ) (d := 2) ![(-1, 1), (0, 5)] ![1, 5] := by decide +kernel

/-! ### C11 ordered rules never become inverted -/

/-- All bounds an ordered rule can have: any initialisation followed by any number of mutations, crossovers and constraints,
with arbitrary draws (subject to the range of the distribution). -/
inductive ReachableOrdered : Pairs K d → Prop
  | mean (m : Point K d) : ReachableOrdered (meanInit .ordered m)
  | normal (z : Pairs K d) : ReachableOrdered (normalInit .ordered z)
  | halfnorm (m : Point K d) (h b : Pairs K d) (hh : ∀ i, 0 ≤ (h i).1 ∧ 0 ≤ (h i).2)
      (e : halfnormInit .ordered m h = .ok b) : ReachableOrdered b
  | mutate (mu : Mutation) (z b b' : Pairs K d) (hb : ReachableOrdered b)
      (e : mutate mu .ordered z b = .ok b') : ReachableOrdered b'
  | crossoverA (rate u : K) (mask : Fin d → Bool) (A B A' B' : Pairs K d) (hA : ReachableOrdered A)
      (hB : ReachableOrdered B) (e : ruleCrossover .ordered rate u mask A B = .ok (A', B')) : ReachableOrdered A'
  | crossoverB (rate u : K) (mask : Fin d → Bool) (A B A' B' : Pairs K d) (hA : ReachableOrdered A)
      (hB : ReachableOrdered B) (e : ruleCrossover .ordered rate u mask A B = .ok (A', B')) : ReachableOrdered B'
  | clip (fb b : Pairs K d) (hb : ReachableOrdered b) : ReachableOrdered (Kind.ordered.clip fb b)
  | minRange (r : K) (b : Pairs K d) (hb : ReachableOrdered b) : ReachableOrdered (Kind.ordered.minRange r b)
  | constrain (r : K) (fb b : Pairs K d) (hb : ReachableOrdered b) : ReachableOrdered (constrain .ordered r fb b)

/-- C11: every ordered rule that can ever arise has `l ≤ u` in every dimension. -/
theorem C11_never_inverted (b : Pairs K d) (h : ReachableOrdered b) : Ordered b := by
  have hsort : ∀ b : Pairs K d, Ordered (sortRows b) := fun b i =>
    le_trans (min_le_left _ _) (le_max_left _ _)
  have hcross : ∀ (rate u : K) (mask : Fin d → Bool) (A B A' B' : Pairs K d), Ordered A → Ordered B →
      ruleCrossover .ordered rate u mask A B = .ok (A', B') → Ordered A' ∧ Ordered B' := by
    intro rate u mask A B A' B' hA hB e
    unfold ruleCrossover at e
    split_ifs at e
    · simp only [uniformCrossover, Except.ok.injEq, Prod.mk.injEq] at e
      obtain ⟨rfl, rfl⟩ := e
      constructor <;> intro i <;> dsimp only <;> split_ifs <;> first | exact hA i | exact hB i
    · simp only [Except.ok.injEq, Prod.mk.injEq] at e
      obtain ⟨rfl, rfl⟩ := e
      exact ⟨hA, hB⟩
  induction h with
  | mean m => exact fun i => le_rfl
  | normal z => exact hsort z
  | halfnorm m h b hh e =>
    simp only [halfnormInit, Except.ok.injEq] at e
    subst e
    intro i; dsimp only; linarith [(hh i).1, (hh i).2]
  | mutate mu z b b' hb e ih =>
    cases mu <;> simp only [mutate, Except.ok.injEq] at e <;> subst e <;> exact hsort _
  | crossoverA rate u mask A B A' B' _ _ e ihA ihB => exact (hcross rate u mask A B A' B' ihA ihB e).1
  | crossoverB rate u mask A B A' B' _ _ e ihA ihB => exact (hcross rate u mask A B A' B' ihA ihB e).2
  | clip fb b _ ih => exact fun i => npClip_mono (ih i)
  | minRange r b _ ih => exact OrderedBound.minRange_ordered r ih
  | constrain r fb b _ ih => exact fun i => npClip_mono (OrderedBound.minRange_ordered r ih i)

/-- A two-step history: normal noise that inverts the bounds of `[0,1]` is repaired by sorting. -/
example : ReachableOrdered (K := ℚ) (d := 1) (sortRows (addNoise ![(2, -1)] (normalInit .ordered ![(1, 0)]))) :=
  .mutate .normal ![(2, -1)] _ _ (.normal ![(1, 0)]) rfl

/-! ### C12 increase mutations never lose a matched training sample -/

/-- The two "increase" mutations. -/
def IsIncrease (m : Mutation) : Prop := m = .halfnormIncrease ∨ m = .uniformIncrease

theorem C12_step (m : Mutation) (hm : IsIncrease m) (sigma : K × K) (r : K) (fb z b : Pairs K d)
    (hz : m.DrawOk .ordered sigma z) (x : Point K d) (hx : InBounds fb x)
    (hb : Kind.ordered.call b x = true) :
    ∃ b', childBounds m .ordered r fb z b = .ok b' ∧ Kind.ordered.call b' x = true := by
  have hnn : ∀ i, 0 ≤ (z i).1 ∧ 0 ≤ (z i).2 := by
    rcases hm with rfl | rfl
    · exact hz
    · exact fun i => ⟨(hz i).1, (hz i).2.2.1⟩
  have key : Kind.ordered.call (constrain .ordered r fb (sortRows (growNoise z b))) x = true := by
    simp only [Kind.call, OrderedBound.call_iff] at *
    intro i
    have h := hb i
    have hz1 := (hnn i).1
    have hz2 := (hnn i).2
    refine ⟨npClip_le_of_le (le_trans (OrderedBound.minRange_fst_le r _ i) ?_) (hx i).1,
      le_npClip_of_le (le_trans ?_ (OrderedBound.le_minRange_snd r _ i)) (hx i).2⟩
    · exact le_trans (min_le_left _ _) (by dsimp only [growNoise]; linarith [h.1])
    · exact le_trans (by dsimp only [growNoise]; linarith [h.2]) (le_max_right _ _)
  rcases hm with rfl | rfl <;> exact ⟨_, rfl, key⟩

/-- C12 (ordered-bound rules; for the other representations see the refutations below): after any number of successive increase mutations, each followed by the combined constraint and with arbitrary draws from
the respective distribution, every in-bounds sample matched by the original ordered rule is still matched (and no step fails). -/
theorem C12_increase_never_loses_partial (sigma : K × K) (r : K) (fb : Pairs K d)
    (steps : List (Mutation × Pairs K d))
    (hs : ∀ s ∈ steps, IsIncrease s.1 ∧ s.1.DrawOk .ordered sigma s.2)
    (b : Pairs K d) :
    ∃ b', steps.foldlM (fun b s => childBounds s.1 .ordered r fb s.2 b) b = Except.ok b' ∧
      ∀ x, InBounds fb x → Kind.ordered.call b x = true → Kind.ordered.call b' x = true := by
  induction steps generalizing b with
  | nil => exact ⟨b, rfl, fun _ _ h => h⟩
  | cons s ss ih =>
    have h0 := hs s (List.mem_cons_self ..)
    have hok : ∃ b1, childBounds s.1 .ordered r fb s.2 b = .ok b1 := by
      rcases h0.1 with h | h <;> rw [h] <;> exact ⟨_, rfl⟩
    obtain ⟨b1, e1⟩ := hok
    obtain ⟨b', e', hb'⟩ := ih (fun s' h' => hs s' (List.mem_cons_of_mem _ h')) b1
    refine ⟨b', ?_, fun x hx hx1 => hb' x hx ?_⟩
    · rw [List.foldlM_cons, e1]; exact e'
    · obtain ⟨b1', e1', h1'⟩ := C12_step s.1 h0.1 sigma r fb s.2 b h0.2 x hx hx1
      rw [e1] at e1'; cases e1'; exact h1'

example : (∀ s ∈ [(Mutation.halfnormIncrease, (![(1/2, 0)] : Pairs ℚ 1)), (.uniformIncrease, ![(0, 1/10)])],
    IsIncrease s.1 ∧ s.1.DrawOk .ordered (1/2, 1/2) s.2) := by
  intro s hs
  simp only [List.mem_cons, List.not_mem_nil, or_false] at hs
  rcases hs with rfl | rfl
  · exact ⟨Or.inl rfl, by unfold Mutation.DrawOk; decide +kernel⟩
  · exact ⟨Or.inr rfl, by unfold Mutation.DrawOk; decide +kernel⟩

/-- C12 (refuted for minimum/percentage rules): decreasing the minimum also lowers the upper end `l + p(1-l)`.
Witness: `l = 0, p = 1/2` matches `1/2`; drawing `(1/2, 0)` gives `[-1/2, 1/4]`. -/
theorem C12_minPercentage_refuted :
    ¬ ∀ (m : Mutation) (sigma : ℚ × ℚ) (r : ℚ) (fb z b b' : Pairs ℚ 1) (x : Point ℚ 1), IsIncrease m →
      m.DrawOk .minPercentage sigma z → InBounds fb x → Kind.minPercentage.call b x = true →
      childBounds m .minPercentage r fb z b = .ok b' → Kind.minPercentage.call b' x = true := by
  intro h
  have := h .uniformIncrease (1, 1) (1/10) ![(-1, 1)] ![(1/2, 0)] ![(0, 1/2)] _ ![1/2] (Or.inr rfl)
    (by unfold Mutation.DrawOk; decide +kernel) (by decide +kernel) (by decide +kernel) rfl
  exact absurd this (by decide +kernel)

/-- C12 (refuted for centre/spread rules): the centre is moved by noise of either sign, which the growth of the spread need not
make up for. Witness: `[-1/4, 1/4]` moved by one half. -/
theorem C12_centerSpread_refuted :
    ¬ ∀ (m : Mutation) (sigma : ℚ × ℚ) (r : ℚ) (fb z b b' : Pairs ℚ 1) (x : Point ℚ 1), IsIncrease m →
      m.DrawOk .centerSpread sigma z → InBounds fb x → Kind.centerSpread.call b x = true →
      childBounds m .centerSpread r fb z b = .ok b' → Kind.centerSpread.call b' x = true := by
  intro h
  have := h .halfnormIncrease (1, 1) (1/10) ![(-1, 1)] ![(1/2, 0)] ![(0, 1/4)] _ ![0] (Or.inl rfl)
    (by unfold Mutation.DrawOk; decide +kernel) (by decide +kernel) (by decide +kernel) rfl
  exact absurd this (by decide +kernel)

/-! ### C13 rule crossover -/

/-- C13 (refuted for the other representations): there uniform crossover is a `TypeError` whenever it is performed, for all rules. -/
theorem C13_refuted (k : Kind) (hk : k ≠ .ordered) (rate u : K) (hu : u < rate) (mask : Fin d → Bool) (A B : Pairs K d) : ruleCrossover k rate u mask A B = .error .typeError := by
  unfold ruleCrossover
  rw [if_pos hu]
  cases k <;> first | rfl | exact absurd rfl hk

example : Kind.unordered ≠ .ordered ∧ (0 : ℚ) < 1 / 5 := by decide +kernel

/-- C13 (ordered rules; the other representations are missing, see `C13_refuted`): in every dimension the two children carry exactly the two parent intervals, kept or swapped. -/
theorem C13_swap_partial (rate u : K) (mask : Fin d → Bool) (A B : Pairs K d) :
    ∃ A' B', ruleCrossover .ordered rate u mask A B = .ok (A', B') ∧
      ∀ i, (A' i = A i ∧ B' i = B i) ∨ (A' i = B i ∧ B' i = A i) := by
  unfold ruleCrossover
  split_ifs
  · refine ⟨_, _, rfl, fun i => ?_⟩
    split_ifs
    · exact Or.inl ⟨rfl, rfl⟩
    · exact Or.inr ⟨rfl, rfl⟩
  · exact ⟨A, B, rfl, fun i => Or.inl ⟨rfl, rfl⟩⟩

/-- C13 (ordered rules): if crossover is performed (`u < rate`), dimension `i` is kept exactly where the mask is set; otherwise the children are the
parents. Hence a sample matched by both parents is matched by both children, and a sample matched by a child is, in each dimension,
inside one of the parents. -/
theorem C13_exact_partial (rate u : K) (mask : Fin d → Bool) (A B A' B' : Pairs K d)
    (e : ruleCrossover .ordered rate u mask A B = .ok (A', B')) :
    (u < rate → ∀ i, (A' i = if mask i then A i else B i) ∧ (B' i = if mask i then B i else A i)) ∧
    (rate ≤ u → A' = A ∧ B' = B) := by
  unfold ruleCrossover at e
  split_ifs at e with h
  · simp only [uniformCrossover, Except.ok.injEq, Prod.mk.injEq] at e
    obtain ⟨rfl, rfl⟩ := e
    exact ⟨fun _ i => ⟨rfl, rfl⟩, fun h' => absurd h (not_lt.mpr h')⟩
  · simp only [Except.ok.injEq, Prod.mk.injEq] at e
    obtain ⟨rfl, rfl⟩ := e
    exact ⟨fun h' => absurd h' h, fun _ => ⟨rfl, rfl⟩⟩

/-- C13 (ordered rules): a sample matched by both parents is matched by both children. -/
theorem C13_common_samples_partial (rate u : K) (mask : Fin d → Bool) (A B A' B' : Pairs K d)
    (e : ruleCrossover .ordered rate u mask A B = .ok (A', B')) (x : Point K d)
    (hA : Kind.ordered.call A x = true) (hB : Kind.ordered.call B x = true) :
    Kind.ordered.call A' x = true ∧ Kind.ordered.call B' x = true := by
  obtain ⟨A1, B1, e1, h⟩ := C13_swap_partial rate u mask A B
  rw [e] at e1; cases e1
  simp only [Kind.call, OrderedBound.call_iff] at *
  constructor <;> intro i <;> rcases h i with ⟨h1, h2⟩ | ⟨h1, h2⟩
  · rw [h1]; exact hA i
  · rw [h1]; exact hB i
  · rw [h2]; exact hB i
  · rw [h2]; exact hA i

example : ruleCrossover .ordered (1/2 : ℚ) 0 ![true, false] ![(0, 1), (0, 1)] ![(5, 6), (7, 8)]
    = .ok (fun i => if (![true, false] : Fin 2 → Bool) i then (![(0, 1), (0, 1)] : Pairs ℚ 2) i else ![(5, 6), (7, 8)] i,
           fun i => if (![true, false] : Fin 2 → Bool) i then (![(5, 6), (7, 8)] : Pairs ℚ 2) i else ![(0, 1), (0, 1)] i) := by
  unfold ruleCrossover; rw [if_pos (by norm_num)]; rfl

end Suprb
