import Verif.Lemmas.Matching
import Mathlib.Tactic.LinearCombination

/-!
# Claims C01–C09: matching, constraints, volume
-/

set_option autoImplicit false
set_option linter.unusedSectionVars false

namespace Suprb

open Spec

variable {K : Type} [Field K] [LinearOrder K] {d : Nat}

/-! ### C01 matching is box membership -/

/-- C01: an ordered rule matches exactly the samples in `[l, u]`. -/
theorem C01_ordered (b : Pairs K d) (x : Point K d) :
    Kind.ordered.call b x = true ↔ InBox (fun i => (b i).1) (fun i => (b i).2) x :=
  OrderedBound.call_iff b x

/-- C01: an unordered rule matches exactly the samples in `[min(p,q), max(p,q)]`. -/
theorem C01_unordered (b : Pairs K d) (x : Point K d) :
    Kind.unordered.call b x = true ↔
      InBox (fun i => min (b i).1 (b i).2) (fun i => max (b i).1 (b i).2) x :=
  UnorderedBound.call_iff b x

/-- C01: swapping the two numbers of an arbitrary set `s` of dimensions of an unordered rule never changes matching. -/
theorem C01_unordered_swap (b : Pairs K d) (s : Fin d → Bool) (x : Point K d) :
    Kind.unordered.call (fun i => if s i then ((b i).2, (b i).1) else b i) x
      = Kind.unordered.call b x := by
  rw [Bool.eq_iff_iff]
  simp only [Kind.call, UnorderedBound.call_iff]
  refine forall_congr' fun i => ?_
  by_cases h : s i
  · simp [h, min_comm, max_comm]
  · simp [h]

/-- C01: a centre/spread rule matches exactly the samples in `[c-s, c+s]`. -/
theorem C01_centerSpread (b : Pairs K d) (x : Point K d) :
    Kind.centerSpread.call b x = true ↔
      InBox (fun i => (b i).1 - (b i).2) (fun i => (b i).1 + (b i).2) x :=
  CenterSpread.call_iff b x

/-- C01: a minimum/percentage rule matches exactly the samples in `[l, l + p(1-l)]`. -/
theorem C01_minPercentage (b : Pairs K d) (x : Point K d) :
    Kind.minPercentage.call b x = true ↔
      InBox (fun i => (b i).1) (fun i => (b i).1 + (b i).2 * (1 - (b i).1)) x :=
  MinPercentage.call_iff b x

/-- Closed boundary: the corner `(1, 2)` of the box `[0,1]×[2,3]` is matched, `(1, 3.5)` is not. -/
example : Kind.ordered.call (K := ℚ) (d := 2) ![(0, 1), (2, 3)] ![1, 2] = true ∧
    Kind.ordered.call (K := ℚ) (d := 2) ![(0, 1), (2, 3)] ![1, 7/2] = false ∧
    Kind.unordered.call (K := ℚ) (d := 2) ![(1, 0), (2, 3)] ![1, 2] = true ∧
    Kind.centerSpread.call (K := ℚ) (d := 1) ![(1, 1/2)] ![3/2] = true ∧
    Kind.minPercentage.call (K := ℚ) (d := 1) ![(0, 1/2)] ![1/2] = true ∧
    Kind.minPercentage.call (K := ℚ) (d := 1) ![(0, 1/2)] ![3/4] = false := by decide +kernel

variable [IsStrictOrderedRing K]

/-! ### C02 constrained ordered rules stay ordered and inside the feature bounds -/

/-- C02: after the combined constraint an ordered rule is ordered. -/
theorem C02_ordered (r : K) (fb b : Pairs K d) (hb : Ordered b) :
    Ordered (constrain .ordered r fb b) := fun i =>
  npClip_mono (OrderedBound.minRange_ordered r hb i)

/-- C02: after the combined constraint both numbers of every dimension lie in the feature bounds. -/
theorem C02_inside (r : K) (fb b : Pairs K d) (hfb : Ordered fb) :
    Inside fb (constrain .ordered r fb b) := fun i =>
  ⟨npClip_ge (hfb i) _, npClip_le _ _ _, npClip_ge (hfb i) _, npClip_le _ _ _⟩

/-- The hypotheses hold for a rule lying entirely outside the feature bounds `[-1,1]`. -/
example : Ordered (K := ℚ) (d := 1) ![(3, 4)] ∧ Ordered (K := ℚ) (d := 1) ![(-1, 1)] ∧
    constrain .ordered (1/2 : ℚ) ![(-1, 1)] (![(3, 4)] : Pairs ℚ 1) = ![(1, 1)] := by
  refine ⟨by decide +kernel, by decide +kernel, ?_⟩
  funext i; fin_cases i; decide +kernel

/-! ### C03 constraining never loses an in-bounds sample -/

/-- C03: every sample in the feature bounds matched by an ordered rule is matched after the combined constraint. -/
theorem C03_no_loss (r : K) (fb b : Pairs K d) (x : Point K d) (hx : InBounds fb x)
    (hm : Kind.ordered.call b x = true) :
    Kind.ordered.call (constrain .ordered r fb b) x = true := by
  rw [Kind.call, OrderedBound.call_iff] at *
  intro i
  exact ⟨npClip_le_of_le (le_trans (OrderedBound.minRange_fst_le r b i) (hm i).1) (hx i).1,
    le_npClip_of_le (le_trans (hm i).2 (OrderedBound.le_minRange_snd r b i)) (hx i).2⟩

/-- C03: if no dimension is narrower than `r` and the rule overlaps the bounds in every dimension,
constraining changes nothing for in-bounds samples. -/
theorem C03_exact (r : K) (fb b : Pairs K d) (x : Point K d) (hx : InBounds fb x)
    (hw : ∀ i, r ≤ (b i).2 - (b i).1) (ho : ∀ i, (b i).1 ≤ (fb i).2 ∧ (fb i).1 ≤ (b i).2) :
    Kind.ordered.call (constrain .ordered r fb b) x = Kind.ordered.call b x := by
  have hmr : OrderedBound.minRange r b = b := by
    unfold OrderedBound.minRange
    split_ifs
    · funext i; rw [if_neg (not_lt.mpr (hw i))]
    · rfl
  rw [Bool.eq_iff_iff]
  refine ⟨fun h => ?_, fun h => C03_no_loss r fb b x hx h⟩
  simp only [constrain, Kind.minRange, Kind.clip, hmr] at h
  simp only [Kind.call, OrderedBound.call_iff] at *
  intro i
  have := h i
  simp only [OrderedBound.clip, npClip] at this
  have hxi := hx i
  constructor
  · have h1 : (b i).1 ≤ min (max (b i).1 (fb i).1) (fb i).2 := le_min (le_max_left _ _) (ho i).1
    exact le_trans h1 this.1
  · have h2 : min (max (b i).2 (fb i).1) (fb i).2 ≤ (b i).2 := by
      rw [max_eq_left (ho i).2]; exact min_le_left _ _
    exact le_trans this.2 h2

example : InBounds (K := ℚ) (d := 1) ![(-1, 1)] ![1/2] ∧
    Kind.ordered.call (K := ℚ) (d := 1) ![(0, 3)] ![1/2] = true ∧
    (∀ i, (1/2 : ℚ) ≤ ((![(0, 3)] : Pairs ℚ 1) i).2 - ((![(0, 3)] : Pairs ℚ 1) i).1) := by
  refine ⟨by decide +kernel, by decide +kernel, by decide +kernel⟩

/-- Without overlap the constraint can *add* an in-bounds sample (the rule `[3,4]` clipped to `[1,1]` matches `1`). -/
theorem C03_overlap_needed :
    ∃ (fb b : Pairs ℚ 1) (x : Point ℚ 1), InBounds fb x ∧ Ordered b ∧
      (∀ i, (1/2 : ℚ) ≤ (b i).2 - (b i).1) ∧
      Kind.ordered.call b x = false ∧ Kind.ordered.call (constrain .ordered (1/2) fb b) x = true :=
  ⟨![(-1, 1)], ![(3, 4)], ![1], by decide +kernel, by decide +kernel,
    by decide +kernel, by decide +kernel, by decide +kernel⟩

/-! ### C04 minimum range -/

/-- C04 (refuted): the combined constraint does not guarantee the minimum range, not even for a rule inside bounds
which are much wider than the minimum range. Witness: the rule `[1,1]` at the edge of `[-1,1]`, `min_range = 1/2`. -/
theorem C04_refuted :
    ¬ ∀ (r : ℚ) (fb b : Pairs ℚ 1), 0 < r → Ordered fb → Ordered b → Inside fb b →
        (∀ i, r ≤ (fb i).2 - (fb i).1) →
        ∀ i, r ≤ (constrain .ordered r fb b i).2 - (constrain .ordered r fb b i).1 := by
  intro h
  have := h (1/2) ![(-1, 1)] ![(1, 1)] (by norm_num) (by decide +kernel)
    (by decide +kernel) (by decide +kernel) (by decide +kernel) 0
  exact absurd this (by decide +kernel)

/-- C04, part that holds: the minimum-range operator alone gives every dimension of an ordered rule at least width `r`. -/
theorem C04_minRange_partial (r : K) (b : Pairs K d) (hb : Ordered b) (i : Fin d) (hr : 0 < r) :
    r ≤ (Kind.ordered.minRange r b i).2 - (Kind.ordered.minRange r b i).1 := by
  simp only [Kind.minRange, OrderedBound.minRange, gt_iff_lt, hr, if_true]
  split_ifs with h
  · have := hb i; dsimp only; linarith
  · exact not_lt.mp h

/-- C04, part that holds: a dimension that was too narrow and contains a point `m` of the feature bounds
(every freshly initialised rule) ends up at least `min (r/2) (hi-lo)` wide. -/
theorem C04_combined_partial (r : K) (fb b : Pairs K d) (i : Fin d) (hr : 0 < r) (m : K)
    (hm : (b i).1 ≤ m ∧ m ≤ (b i).2) (hfm : (fb i).1 ≤ m ∧ m ≤ (fb i).2)
    (hn : (b i).2 - (b i).1 < r) :
    min (r / 2) ((fb i).2 - (fb i).1) ≤
      (constrain .ordered r fb b i).2 - (constrain .ordered r fb b i).1 := by
  simp only [constrain, Kind.minRange, Kind.clip, OrderedBound.clip, OrderedBound.minRange, gt_iff_lt, hr,
    if_true, hn, npClip]
  have e1 : min (max ((b i).1 - r / 2) (fb i).1) (fb i).2 = max ((b i).1 - r / 2) (fb i).1 :=
    min_eq_left (max_le (by linarith [hm.1, hfm.2]) (le_trans hfm.1 hfm.2))
  have e2 : max ((b i).2 + r / 2) (fb i).1 = (b i).2 + r / 2 := max_eq_left (by linarith [hm.2, hfm.1])
  rw [e1, e2]
  rcases le_total ((b i).1 - r / 2) (fb i).1 with h1 | h1 <;>
    rcases le_total ((b i).2 + r / 2) (fb i).2 with h2 | h2 <;>
    simp only [max_eq_right h1, max_eq_left h1, min_eq_left h2, min_eq_right h2]
  · exact le_trans (min_le_left _ _) (by linarith [hm.2, hfm.1])
  · exact min_le_right _ _
  · exact le_trans (min_le_left _ _) (by linarith [hm.2, hm.1])
  · exact le_trans (min_le_left _ _) (by linarith [hm.1, hfm.2])

/-- The bound `r/2` of `C04_combined_partial` is attained at the edge, so it cannot be improved. -/
example : (constrain .ordered (1/2 : ℚ) ![(-1, 1)] (![(1, 1)] : Pairs ℚ 1) 0) = (3/4, 1) := by decide +kernel

/-- C04: a dimension that is wide enough before clipping has no guaranteed width at all afterwards. -/
theorem C04_refuted_zero_width :
    ∃ (fb b : Pairs ℚ 1), Ordered fb ∧ Ordered b ∧
      (constrain .ordered (1/2) fb b 0).2 - (constrain .ordered (1/2) fb b 0).1 = 0 :=
  ⟨![(-1, 1)], ![(1, 3)], by decide +kernel, by decide +kernel, by decide +kernel⟩

/-! ### C05 clipping unordered rules -/

/-- C05 (refuted): clipping does not confine unordered rules to the feature bounds. -/
theorem C05_refuted :
    ¬ ∀ (fb b : Pairs ℚ 1), Ordered fb → Inside fb (Kind.unordered.clip fb b) := by
  intro h
  have := h ![(-1, 1)] ![(3, 5)] (by decide +kernel) 0
  exact absurd this (by decide +kernel)

/-- C05, part that holds: rules inside the bounds stay inside, and of the samples inside the bounds the rule matches those in the intersection of its region before with the bounds, as it should
after clipping. Missing: rules outside are not repaired, see `C05_refuted`. -/
theorem C05_partial (fb b : Pairs K d) :
    (Inside fb b → Inside fb (Kind.unordered.clip fb b)) ∧
      ∀ x, InBounds fb x → (Kind.unordered.call (Kind.unordered.clip fb b) x = true ↔
        InBox (fun i => max (fb i).1 (min (b i).1 (b i).2)) (fun i => min (fb i).2 (max (b i).1 (b i).2)) x) := by
  refine ⟨fun h => h, fun x hx => ?_⟩
  show UnorderedBound.call b x = true ↔ _
  rw [UnorderedBound.call_iff]
  exact forall_congr' fun i => ⟨fun h => ⟨max_le (hx i).1 h.1, le_min (hx i).2 h.2⟩, fun h => ⟨le_trans (le_max_right _ _) h.1, le_trans h.2 (min_le_right _ _)⟩⟩

example : Inside (K := ℚ) (d := 1) ![(-1, 1)] ![(1, 0)] ∧ InBounds (K := ℚ) (d := 1) ![(-1, 1)] ![1/2] := by
  refine ⟨by decide +kernel, by decide +kernel⟩

/-! ### C06 minimum range for unordered rules -/

/-- C06 (refuted): the minimum-range operator can narrow an unordered rule, both when `p < q` and when `p > q`:
`(0, 3/4)` with `r = 1` becomes `(1/2, 1/4)`, and `(3/4, 0)` becomes `(1/4, 1/2)`; the matched sample `0` is lost. -/
theorem C06_refuted_narrows :
    ¬ ∀ (r : ℚ) (b : Pairs ℚ 1) (x : Point ℚ 1), 0 < r → Kind.unordered.call b x = true →
        Kind.unordered.call (Kind.unordered.minRange r b) x = true := by
  intro h
  exact absurd (h 1 ![(0, 3/4)] ![0] (by norm_num) (by decide +kernel)) (by decide +kernel)

/-- C06 (refuted), the other order of the two numbers. -/
theorem C06_refuted_narrows' :
    ¬ ∀ (r : ℚ) (b : Pairs ℚ 1) (x : Point ℚ 1), 0 < r → (b 0).2 ≤ (b 0).1 → Kind.unordered.call b x = true →
        Kind.unordered.call (Kind.unordered.minRange r b) x = true := by
  intro h
  exact absurd (h 1 ![(3/4, 0)] ![0] (by norm_num) (by decide +kernel) (by decide +kernel)) (by decide +kernel)

/-- C06 (refuted): the wrong dimension is widened. With `r = 1/2` the rule `[0,1] × [0,0]` becomes `[-1/4,5/4] × [0,0]`:
the too narrow second dimension keeps width 0, the wide first one is changed. -/
theorem C06_refuted_wrong_dimension :
    ∃ b : Pairs ℚ 2, Ordered b ∧
      UnorderedBound.minRange (1/2) b 0 = (-1/4, 5/4) ∧ UnorderedBound.minRange (1/2) b 1 = (0, 0) :=
  ⟨![(0, 1), (0, 0)], by decide +kernel, by decide +kernel, by decide +kernel⟩

/-- C06, exact effect in one dimension: a too narrow interval of width `w` gets width `r - w`.
So the floor `r` is reached only when the interval was a single point. -/
theorem C06_one_dim_exact (r : K) (b : Pairs K 1) (h : |(b 0).2 - (b 0).1| < r) :
    |(Kind.unordered.minRange r b 0).2 - (Kind.unordered.minRange r b 0).1| = r - |(b 0).2 - (b 0).1| := by
  have hr : 0 < r := lt_of_le_of_lt (abs_nonneg _) h
  have h1 := (abs_lt.mp h).1
  have h2 := (abs_lt.mp h).2
  have hinv : UnorderedBound.invalid r b = [0] := by
    have : List.finRange 1 = [0] := by decide
    unfold UnorderedBound.invalid
    rw [this, List.filter_cons_of_pos]
    · simp
    · exact decide_eq_true ⟨h2, by linarith⟩
  by_cases hd : (b 0).2 - (b 0).1 > -((b 0).2 - (b 0).1)
  · have hL : UnorderedBound.rowsL r b = [0, 0] := by
      unfold UnorderedBound.rowsL; rw [hinv]
      simp only [List.zipIdx_singleton]
      rw [List.filter_cons_of_pos (by exact decide_eq_true hd)]; simp
    have hR : UnorderedBound.rowsR r b = [] := by
      unfold UnorderedBound.rowsR; rw [hinv]
      simp only [List.zipIdx_singleton]
      rw [List.filter_cons_of_neg (by rw [decide_eq_true_eq]; exact not_le.mpr hd)]; simp
    have hp : 0 < (b 0).2 - (b 0).1 := by linarith
    simp only [Kind.minRange, UnorderedBound.minRange, hr, if_true, hL, hR]
    simp only [Fin.val_zero, List.not_mem_nil, if_false, List.mem_cons, true_or, if_true]
    rw [abs_of_pos hp, abs_of_neg (by linarith)]; ring
  · have hL : UnorderedBound.rowsL r b = [] := by
      unfold UnorderedBound.rowsL; rw [hinv]
      simp only [List.zipIdx_singleton]
      rw [List.filter_cons_of_neg (by simpa using hd)]; simp
    have hR : UnorderedBound.rowsR r b = [0, 0] := by
      unfold UnorderedBound.rowsR; rw [hinv]
      simp only [List.zipIdx_singleton]
      rw [List.filter_cons_of_pos (by exact decide_eq_true (not_lt.mp hd))]; simp
    have hp : (b 0).2 - (b 0).1 ≤ 0 := by linarith [not_lt.mp hd]
    simp only [Kind.minRange, UnorderedBound.minRange, hr, if_true, hL, hR]
    simp only [Fin.val_zero, List.not_mem_nil, if_false, List.mem_cons, true_or, if_true]
    rw [abs_of_nonpos hp, abs_of_pos (by linarith)]; ring

example : |((![(0, 3/4)] : Pairs ℚ 1) 0).2 - ((![(0, 3/4)] : Pairs ℚ 1) 0).1| < (1 : ℚ) := by
  decide +kernel

/-- C06, part that holds: if every dimension is a single point (a freshly initialised rule), each one becomes
the interval of width `r` around it. -/
theorem C06_degenerate_partial (r : K) (hr : 0 < r) (m : Point K d) (i : Fin d) :
    Kind.unordered.minRange r (fun i => (m i, m i)) i = (m i - r / 2, m i + r / 2) := by
  rw [Kind.minRange, UnorderedBound.minRange_point r hr]

example : Kind.unordered.minRange (1/2 : ℚ) (fun i => ((![0, 1] : Point ℚ 2) i, (![0, 1] : Point ℚ 2) i)) 1
    = (3/4, 5/4) := by decide +kernel

/-! ### C07 clipped centre/spread and minimum/percentage rules are well formed -/

/-- C07: after clipping, centre in `[-1,1]` and spread in `[0,2]`. -/
theorem C07_centerSpread_clip (fb b : Pairs K d) (i : Fin d) :
    -1 ≤ (Kind.centerSpread.clip fb b i).1 ∧ (Kind.centerSpread.clip fb b i).1 ≤ 1 ∧
    0 ≤ (Kind.centerSpread.clip fb b i).2 ∧ (Kind.centerSpread.clip fb b i).2 ≤ 2 :=
  ⟨npClip_ge (by linarith [zero_lt_one (α := K)]) _, npClip_le _ _ _, npClip_ge (by norm_num) _, npClip_le _ _ _⟩

/-- C07: after clipping, a minimum/percentage rule denotes an ordered interval contained in `[-1,1]`: every sample it
matches lies in `[-1,1]`, and its own lower corner is matched. -/
theorem C07_minPercentage_clip (fb b : Pairs K d) :
    (∀ x, Kind.minPercentage.call (Kind.minPercentage.clip fb b) x = true →
      InBox (fun _ => -1) (fun _ => 1) x) ∧
    Kind.minPercentage.call (Kind.minPercentage.clip fb b)
      (fun i => (Kind.minPercentage.clip fb b i).1) = true := by
  have h01 : (0 : K) < 1 := zero_lt_one
  have hl : ∀ i, -1 ≤ (MinPercentage.clip fb b i).1 := fun i => npClip_ge (by linarith) _
  have hl1 : ∀ i, (MinPercentage.clip fb b i).1 ≤ 1 := fun i => npClip_le _ _ _
  have hp : ∀ i, 0 ≤ (MinPercentage.clip fb b i).2 := fun i => npClip_ge h01.le _
  have hp1 : ∀ i, (MinPercentage.clip fb b i).2 ≤ 1 := fun i => npClip_le _ _ _
  constructor
  · intro x hx i
    simp only [Kind.call, Kind.clip, MinPercentage.call_iff] at hx
    refine ⟨le_trans (hl i) (hx i).1, le_trans (hx i).2 ?_⟩
    nlinarith [hl1 i, hp i, hp1 i]
  · simp only [Kind.call, Kind.clip, MinPercentage.call_iff]
    intro i
    refine ⟨le_rfl, ?_⟩
    nlinarith [hl1 i, hp i]

/-- C07: samples of `[-1,1]^d` matched by a well-formed centre/spread rule stay matched by the combined constraint. -/
theorem C07_centerSpread_no_loss (r : K) (fb b : Pairs K d) (x : Point K d)
    (hb : ∀ i, -1 ≤ (b i).1 ∧ (b i).1 ≤ 1 ∧ 0 ≤ (b i).2)
    (hx : InBox (fun _ => -1) (fun _ => 1) x) (hm : Kind.centerSpread.call b x = true) :
    Kind.centerSpread.call (constrain .centerSpread r fb b) x = true := by
  simp only [Kind.call, CenterSpread.call_iff] at *
  intro i
  have hs : (b i).2 ≤ (CenterSpread.minRange r b i).2 ∧ (CenterSpread.minRange r b i).1 = (b i).1 := by
    unfold CenterSpread.minRange
    split_ifs with hr
    · dsimp only; split_ifs
      · exact ⟨by dsimp only; linarith, rfl⟩
      · exact ⟨le_rfl, rfl⟩
    · exact ⟨le_rfl, rfl⟩
  have hc : npClip (-1) 1 (CenterSpread.minRange r b i).1 = (b i).1 := by
    rw [hs.2]; exact npClip_of_mem (hb i).1 (hb i).2.1
  simp only [constrain, Kind.minRange, Kind.clip, CenterSpread.clip, hc]
  have hx1 := (hx i).1
  have hx2 := (hx i).2
  have hm1 := (hm i).1
  have hm2 := (hm i).2
  have hb1 := (hb i).1
  have hb2 := (hb i).2.1
  dsimp only at hx1 hx2
  constructor
  · have : (b i).1 - x i ≤ npClip 0 2 (CenterSpread.minRange r b i).2 :=
      le_npClip_of_le (by linarith [hs.1]) (by linarith)
    linarith
  · have : x i - (b i).1 ≤ npClip 0 2 (CenterSpread.minRange r b i).2 :=
      le_npClip_of_le (by linarith [hs.1]) (by linarith)
    linarith

example : (∀ i, (-1 : ℚ) ≤ ((![(1, 1/2)] : Pairs ℚ 1) i).1 ∧ ((![(1, 1/2)] : Pairs ℚ 1) i).1 ≤ 1 ∧
    0 ≤ ((![(1, 1/2)] : Pairs ℚ 1) i).2) ∧ InBox (K := ℚ) (d := 1) (fun _ => -1) (fun _ => 1) ![3/4] ∧
    Kind.centerSpread.call (K := ℚ) ![(1, 1/2)] ![3/4] = true := by
  refine ⟨by decide +kernel, by decide +kernel, by decide +kernel⟩

/-! ### C08 minimum/percentage rules and their origin -/

/-- C08, exact behaviour: the rule created at `m ∈ [-1,1]^d` by `MeanInit` and constrained with `0 < r ≤ 1` matches `m`
exactly if no coordinate of `m` exceeds `(1+r)/2`. -/
theorem C08_exact (r : K) (hr : 0 < r) (hr1 : r ≤ 1) (fb : Pairs K d) (m : Point K d)
    (hm : InBox (fun _ => -1) (fun _ => 1) m) :
    Kind.minPercentage.call (constrain .minPercentage r fb (meanInit .minPercentage m)) m = true ↔
      ∀ i, m i ≤ (1 + r) / 2 := by
  simp only [Kind.call, MinPercentage.call_iff]
  refine forall_congr' fun i => ?_
  have h1 := (hm i).1
  have h2 := (hm i).2
  dsimp only at h1 h2
  have hw : MinPercentage.widths (fun i => (m i, (0 : K))) i < r := by
    unfold MinPercentage.widths; simpa using hr
  have hmr : MinPercentage.minRange r (fun i => (m i, (0 : K))) i = (m i - r / 2, 0 + r) := by
    unfold MinPercentage.minRange; rw [if_pos hr, if_pos hw]
  simp only [constrain, Kind.minRange, Kind.clip, MinPercentage.clip, meanInit, hmr]
  have hp : npClip 0 1 (0 + r) = r := by
    rw [zero_add]; exact npClip_of_mem hr.le hr1
  rw [hp]
  rcases le_total (-1) (m i - r / 2) with hl | hl
  · have hL : npClip (-1) 1 (m i - r / 2) = m i - r / 2 := npClip_of_mem hl (by linarith)
    rw [hL]
    constructor
    · rintro ⟨_, h⟩
      by_contra hc
      have := mul_pos hr (sub_pos.mpr (not_le.mp hc))
      nlinarith
    · intro h
      have := mul_nonneg hr.le (sub_nonneg.mpr h)
      exact ⟨by linarith, by nlinarith⟩
  · have hL : npClip (-1) 1 (m i - r / 2) = -1 := by
      unfold npClip; rw [max_eq_right hl, min_eq_left (by linarith [zero_lt_one (α := K)])]
    rw [hL]
    exact ⟨fun _ => by linarith, fun _ => ⟨h1, by linarith⟩⟩

/-- C08 (refuted): a minimum/percentage rule does not always match the origin it was created for. Witness: origin `1`. -/
theorem C08_refuted :
    ¬ ∀ (r : ℚ) (fb : Pairs ℚ 1) (m : Point ℚ 1), 0 < r → r < 1 → InBox (fun _ => -1) (fun _ => 1) m →
      Kind.minPercentage.call (constrain .minPercentage r fb (meanInit .minPercentage m)) m = true := by
  intro h
  have := h (1/100) ![(-1, 1)] ![1] (by norm_num) (by norm_num) (by decide +kernel)
  exact absurd this (by decide +kernel)

/-- C08, part that holds: origins in the lower three quarters of the range (`m ≤ 1/2`) are matched. -/
theorem C08_partial (r : K) (hr : 0 < r) (hr1 : r ≤ 1) (fb : Pairs K d) (m : Point K d)
    (hm : InBox (fun _ => -1) (fun _ => 1) m) (hl : ∀ i, m i ≤ 1 / 2) :
    Kind.minPercentage.call (constrain .minPercentage r fb (meanInit .minPercentage m)) m = true :=
  (C08_exact r hr hr1 fb m hm).mpr fun i => le_trans (hl i) (by linarith)

example : InBox (K := ℚ) (d := 2) (fun _ => -1) (fun _ => 1) ![1/2, -1] := by decide +kernel

/-! ### C09 volume -/

/-- C09: the volume of an ordered rule is that of its box and is non-negative. -/
theorem C09_ordered (b : Pairs K d) (hb : Ordered b) :
    Kind.ordered.volume b = boxVolume (fun i => (b i).1) (fun i => (b i).2) ∧ 0 ≤ Kind.ordered.volume b :=
  ⟨rfl, by
    unfold Kind.volume OrderedBound.volume
    exact Finset.prod_nonneg fun i _ => sub_nonneg.mpr (hb i)⟩

/-- C09: a larger ordered rule has at least the volume of a smaller one. -/
theorem C09_ordered_mono (b b' : Pairs K d) (hb : Ordered b)
    (hsub : ∀ i, (b' i).1 ≤ (b i).1 ∧ (b i).2 ≤ (b' i).2) :
    Kind.ordered.volume b ≤ Kind.ordered.volume b' := by
  unfold Kind.volume OrderedBound.volume
  exact Finset.prod_le_prod (fun i _ => sub_nonneg.mpr (hb i)) fun i _ => by
    have := hsub i; linarith [this.1, this.2]

/-- C09: the volume of an unordered rule is that of the matched box, and is non-negative. -/
theorem C09_unordered (b : Pairs K d) :
    Kind.unordered.volume b = boxVolume (fun i => min (b i).1 (b i).2) (fun i => max (b i).1 (b i).2) ∧
      0 ≤ Kind.unordered.volume b := by
  have h : ∀ i, max ((b i).2 - (b i).1) (-((b i).2 - (b i).1))
      = max (b i).1 (b i).2 - min (b i).1 (b i).2 := fun i => by
    rcases le_total (b i).1 (b i).2 with h | h
    · rw [max_eq_right h, min_eq_left h, max_eq_left (by linarith)]
    · rw [max_eq_left h, min_eq_right h, max_eq_right (by linarith)]; ring
  unfold Kind.volume UnorderedBound.volume boxVolume
  refine ⟨Finset.prod_congr rfl fun i _ => h i, Finset.prod_nonneg fun i _ => ?_⟩
  rw [h i]; exact sub_nonneg.mpr (le_trans (min_le_left _ _) (le_max_left _ _))

/-- C09: the volume of a centre/spread rule with non-negative spread is that of the part of the matched box inside `[-1,1]^d`
(an empty part in some dimension gives 0). -/
theorem C09_centerSpread (b : Pairs K d) (hs : ∀ i, 0 ≤ (b i).2) :
    Kind.centerSpread.volume b =
      ∏ i, max 0 (min ((b i).1 + (b i).2) 1 - max ((b i).1 - (b i).2) (-1)) := by
  unfold Kind.volume CenterSpread.volume
  refine Finset.prod_congr rfl fun i _ => ?_
  have h := hs i
  have h01 : (0 : K) < 1 := zero_lt_one
  unfold CenterSpread.widths npClip
  rcases le_total ((b i).1 + (b i).2) (-1) with h1 | h1 <;>
  rcases le_total ((b i).1 - (b i).2) (-1) with h2 | h2 <;>
  rcases le_total ((b i).1 + (b i).2) 1 with h3 | h3 <;>
  rcases le_total ((b i).1 - (b i).2) 1 with h4 | h4 <;>
  simp only [max_eq_left h1, max_eq_right h1, max_eq_left h2, max_eq_right h2, min_eq_left h3, min_eq_right h3,
    min_eq_left h4, min_eq_right h4] <;>
  first
  | (rw [max_eq_right (by linarith)]; try rw [min_eq_left (by linarith)])
  | (rw [max_eq_left (by linarith)]; try rw [min_eq_left (by linarith)]
     try linarith)
  all_goals try linarith

/-- C09 (refuted): the volume of a minimum/percentage rule is not the volume of the matched box.
Witness: `l = 0`, `p = 1/2` matches `[0, 1/2]` but reports volume 1. -/
theorem C09_minPercentage_refuted :
    ¬ ∀ b : Pairs ℚ 1, (∀ i, -1 ≤ (b i).1 ∧ (b i).1 ≤ 1 ∧ 0 ≤ (b i).2 ∧ (b i).2 ≤ 1) →
      Kind.minPercentage.volume b =
        boxVolume (fun i => (b i).1) (fun i => (b i).1 + (b i).2 * (1 - (b i).1)) := by
  intro h
  have := h ![(0, 1/2)] (by decide +kernel)
  revert this
  simp [Kind.volume, MinPercentage.volume, MinPercentage.widths, boxVolume]

/-- C09, part that holds: the reported volume of a well-formed minimum/percentage rule is non-negative and never below
the volume of the matched box. -/
theorem C09_minPercentage_partial (b : Pairs K d)
    (hb : ∀ i, -1 ≤ (b i).1 ∧ (b i).1 ≤ 1 ∧ 0 ≤ (b i).2) :
    0 ≤ boxVolume (fun i => (b i).1) (fun i => (b i).1 + (b i).2 * (1 - (b i).1)) ∧
    boxVolume (fun i => (b i).1) (fun i => (b i).1 + (b i).2 * (1 - (b i).1)) ≤ Kind.minPercentage.volume b := by
  have h0 : ∀ i, 0 ≤ (b i).1 + (b i).2 * (1 - (b i).1) - (b i).1 := fun i => by
    have := mul_nonneg (hb i).2.2 (sub_nonneg.mpr (hb i).2.1); linarith
  unfold Kind.volume MinPercentage.volume boxVolume
  refine ⟨Finset.prod_nonneg fun i _ => h0 i, Finset.prod_le_prod (fun i _ => h0 i) fun i _ => ?_⟩
  unfold MinPercentage.widths
  have := hb i
  nlinarith [mul_nonneg this.2.2 (by linarith : 0 ≤ 1 + (b i).1)]

/-- C09: in one dimension the reported volume is right exactly for `p = 0` or `l = -1`. -/
theorem C09_minPercentage_one_dim (b : Pairs K 1) :
    Kind.minPercentage.volume b =
        boxVolume (fun i => (b i).1) (fun i => (b i).1 + (b i).2 * (1 - (b i).1)) ↔
      (b 0).2 = 0 ∨ (b 0).1 = -1 := by
  simp only [Kind.volume, MinPercentage.volume, MinPercentage.widths, boxVolume, Fin.prod_univ_one]
  constructor
  · intro h
    have : (b 0).2 * ((b 0).1 + 1) = 0 := by linear_combination h
    rcases mul_eq_zero.mp this with h | h
    · exact Or.inl h
    · exact Or.inr (by linear_combination h)
  · rintro (h | h) <;> rw [h] <;> ring

example : Ordered (K := ℚ) (d := 2) ![(0, 1), (-1, 1)] ∧
    (∀ i, 0 ≤ ((![(0, 1), (-1, 1)] : Pairs ℚ 2) i).2) := by
  refine ⟨by decide +kernel, by decide +kernel⟩

end Suprb
