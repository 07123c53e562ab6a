import Verif.Lemmas.Matching
import Verif.Model.Rounded
import Mathlib.Data.Int.Log
import Mathlib.Data.Rat.Floor
import Mathlib.Algebra.Order.Floor.Ring
import Mathlib.Tactic.Ring
import Mathlib.Tactic.Positivity
import Mathlib.Tactic.FieldSimp

/-!
# C154: ordered rules in floating-point arithmetic
-/

set_option autoImplicit false
set_option linter.unusedSectionVars false

namespace Suprb

open _root_.Spec (Pairs Point InBox InBounds Ordered Inside)

variable {K : Type} [Field K] [LinearOrder K] [IsStrictOrderedRing K] {d : Nat}

namespace Rounding

variable (R : Rounding K)

theorem rep_rnd (x : K) : R.Rep (R.rnd x) := R.idem x

theorem rnd_nonneg {x : K} (h : 0 ≤ x) : 0 ≤ R.rnd x := R.zero ▸ R.mono 0 x h

/-- Subtracting something does not increase a representable number. -/
theorem sub_le {a z : K} (ha : R.Rep a) (hz : 0 ≤ z) : R.rnd (a - z) ≤ a :=
  (R.mono _ _ (sub_le_self a hz)).trans_eq ha

/-- Adding something does not decrease a representable number. -/
theorem le_add {a z : K} (ha : R.Rep a) (hz : 0 ≤ z) : a ≤ R.rnd (a + z) :=
  ha.symm.trans_le (R.mono _ _ (le_add_of_nonneg_right hz))

/-- All numbers of the rule are representable. -/
def RepRows (b : Pairs K d) : Prop := ∀ i, R.Rep (b i).1 ∧ R.Rep (b i).2

theorem minRange_lower (r : K) {b : Pairs K d} (hb : R.RepRows b) (i : Fin d) : (R.minRange r b i).1 ≤ (b i).1 := by
  unfold minRange
  split
  next hr =>
    dsimp only
    split
    · exact R.sub_le (hb i).1 (R.rnd_nonneg (by linarith))
    · exact le_rfl
  · exact le_rfl

theorem minRange_upper (r : K) {b : Pairs K d} (hb : R.RepRows b) (i : Fin d) : (b i).2 ≤ (R.minRange r b i).2 := by
  unfold minRange
  split
  next hr =>
    dsimp only
    split
    · exact R.le_add (hb i).2 (R.rnd_nonneg (by linarith))
    · exact le_rfl
  · exact le_rfl

theorem minRange_rep (r : K) {b : Pairs K d} (hb : R.RepRows b) : R.RepRows (R.minRange r b) := by
  intro i
  unfold minRange
  split
  · dsimp only
    split
    · exact ⟨R.rep_rnd _, R.rep_rnd _⟩
    · exact hb i
  · exact hb i

theorem rep_min {x y : K} (hx : R.Rep x) (hy : R.Rep y) : R.Rep (min x y) := by
  rcases min_choice x y with h | h <;> rw [h] <;> assumption

theorem rep_max {x y : K} (hx : R.Rep x) (hy : R.Rep y) : R.Rep (max x y) := by
  rcases max_choice x y with h | h <;> rw [h] <;> assumption

theorem constrain_rep (r : K) {fb b : Pairs K d} (hfb : R.RepRows fb) (hb : R.RepRows b) :
    R.RepRows (R.constrain r fb b) := by
  intro i
  have h1 := R.minRange_rep r hb i
  have h2 := hfb i
  exact ⟨R.rep_min (R.rep_max h1.1 h2.1) h2.2, R.rep_min (R.rep_max h1.2 h2.1) h2.2⟩

theorem sortRows_rep {b : Pairs K d} (hb : R.RepRows b) : R.RepRows (sortRows b) :=
  fun i => ⟨R.rep_min (hb i).1 (hb i).2, R.rep_max (hb i).1 (hb i).2⟩

theorem mutate_rep (m : Mutation) (z b : Pairs K d) : R.RepRows (R.mutate m z b) := by
  cases m <;> exact R.sortRows_rep fun i => ⟨R.rep_rnd _, R.rep_rnd _⟩

end Rounding

/-! ### Floating-point numbers with a given number of digits -/

/-- The nearest integer; the even one of two. -/
def halfEven (q : ℚ) : ℤ :=
  if q - ⌊q⌋ < 1 / 2 then ⌊q⌋ else if 1 / 2 < q - ⌊q⌋ then ⌊q⌋ + 1 else if ⌊q⌋ % 2 = 0 then ⌊q⌋ else ⌊q⌋ + 1

theorem halfEven_floor (q : ℚ) : ⌊q⌋ ≤ halfEven q ∧ halfEven q ≤ ⌊q⌋ + 1 := by
  unfold halfEven
  split_ifs <;> omega

theorem halfEven_int (n : ℤ) : halfEven (n : ℚ) = n := by
  unfold halfEven
  rw [Int.floor_intCast, sub_self, if_pos (by norm_num)]

theorem halfEven_mono {q q' : ℚ} (h : q ≤ q') : halfEven q ≤ halfEven q' := by
  rcases lt_or_eq_of_le (Int.floor_le_floor h) with hf | hf
  · have h1 := (halfEven_floor q).2
    have h2 := (halfEven_floor q').1
    omega
  · unfold halfEven
    rw [← hf]
    split_ifs <;> first | omega | linarith

/-- `x > 0` rounded to `p` binary digits, to the nearest number, ties to even. -/
def roundPos (p : ℕ) (x : ℚ) : ℚ :=
  halfEven (x / 2 ^ (Int.log 2 x + 1 - p)) * 2 ^ (Int.log 2 x + 1 - p)

/-- `x` rounded to `p` binary digits, to the nearest number, ties to even: what IEEE 754 prescribes by default
(with `p = 53` for `float64`), except that there is no largest and no smallest exponent. -/
def roundTo (p : ℕ) (x : ℚ) : ℚ :=
  if 0 < x then roundPos p x else if x < 0 then -roundPos p (-x) else 0

theorem log_eq {x : ℚ} (hx : 0 < x) {e : ℤ} (h1 : (2 : ℚ) ^ e ≤ x) (h2 : x < 2 ^ (e + 1)) : Int.log 2 x = e := by
  have a : e ≤ Int.log 2 x := (Int.zpow_le_iff_le_log (b := 2) (by norm_num) hx).1 (by exact_mod_cast h1)
  have b : Int.log 2 x < e + 1 := (Int.lt_zpow_iff_log_lt (b := 2) (by norm_num) hx).1 (by exact_mod_cast h2)
  omega

theorem two_pow_pos (e : ℤ) : (0 : ℚ) < 2 ^ e := zpow_pos (by norm_num) e

theorem roundPos_eq (p : ℕ) {x : ℚ} (hx : 0 < x) {e : ℤ} (h1 : (2 : ℚ) ^ e ≤ x) (h2 : x < 2 ^ (e + 1)) :
    roundPos p x = halfEven (x / 2 ^ (e + 1 - p)) * 2 ^ (e + 1 - p) := by
  unfold roundPos
  rw [log_eq hx h1 h2]

theorem log_spec {x : ℚ} (hx : 0 < x) : (2 : ℚ) ^ Int.log 2 x ≤ x ∧ x < 2 ^ (Int.log 2 x + 1) :=
  ⟨by exact_mod_cast Int.zpow_log_le_self (b := 2) (by norm_num) hx,
    by exact_mod_cast Int.lt_zpow_succ_log_self (b := 2) (by norm_num) x⟩

/-- The digits of a rounded number. -/
theorem roundPos_digits {p : ℕ} (hp : 0 < p) {x : ℚ} (hx : 0 < x) :
    2 ^ (p - 1) ≤ halfEven (x / 2 ^ (Int.log 2 x + 1 - p)) ∧ halfEven (x / 2 ^ (Int.log 2 x + 1 - p)) ≤ 2 ^ p := by
  obtain ⟨h1, h2⟩ := log_spec hx
  have hu := two_pow_pos (Int.log 2 x + 1 - p)
  constructor
  · have e : ((2 ^ (p - 1) : ℤ) : ℚ) * 2 ^ (Int.log 2 x + 1 - p) = 2 ^ Int.log 2 x := by
      push_cast
      rw [← zpow_natCast, ← zpow_add₀ (by norm_num)]
      congr 1
      omega
    rw [← halfEven_int (2 ^ (p - 1))]
    exact halfEven_mono ((le_div_iff₀ hu).2 (e.trans_le h1))
  · have e : ((2 ^ p : ℤ) : ℚ) * 2 ^ (Int.log 2 x + 1 - p) = 2 ^ (Int.log 2 x + 1) := by
      push_cast
      rw [← zpow_natCast, ← zpow_add₀ (by norm_num)]
      congr 1
      omega
    rw [← halfEven_int (2 ^ p)]
    exact halfEven_mono ((div_le_iff₀ hu).2 (h2.le.trans_eq e.symm))

theorem roundPos_range {p : ℕ} (hp : 0 < p) {x : ℚ} (hx : 0 < x) :
    (2 : ℚ) ^ Int.log 2 x ≤ roundPos p x ∧ roundPos p x ≤ 2 ^ (Int.log 2 x + 1) := by
  obtain ⟨d1, d2⟩ := roundPos_digits hp hx
  have hu := two_pow_pos (Int.log 2 x + 1 - p)
  have d1 : (2 : ℚ) ^ (p - 1) ≤ halfEven (x / 2 ^ (Int.log 2 x + 1 - p)) := by exact_mod_cast d1
  have d2 : (halfEven (x / 2 ^ (Int.log 2 x + 1 - p)) : ℚ) ≤ 2 ^ p := by exact_mod_cast d2
  have e1 : (2 : ℚ) ^ (p - 1) * 2 ^ (Int.log 2 x + 1 - p) = 2 ^ Int.log 2 x := by
    rw [← zpow_natCast, ← zpow_add₀ (by norm_num)]
    congr 1
    omega
  have e2 : (2 : ℚ) ^ p * 2 ^ (Int.log 2 x + 1 - p) = 2 ^ (Int.log 2 x + 1) := by
    rw [← zpow_natCast, ← zpow_add₀ (by norm_num)]
    congr 1
    omega
  exact ⟨e1.symm.trans_le (mul_le_mul_of_nonneg_right d1 hu.le), (mul_le_mul_of_nonneg_right d2 hu.le).trans_eq e2⟩

theorem roundPos_pos {p : ℕ} (hp : 0 < p) {x : ℚ} (hx : 0 < x) : 0 < roundPos p x :=
  (two_pow_pos _).trans_le (roundPos_range hp hx).1

theorem roundPos_mono {p : ℕ} (hp : 0 < p) {x y : ℚ} (hx : 0 < x) (h : x ≤ y) : roundPos p x ≤ roundPos p y := by
  have hy := hx.trans_le h
  rcases lt_or_eq_of_le (Int.log_mono_right (b := 2) hx h) with hl | hl
  · refine (roundPos_range hp hx).2.trans (le_trans ?_ (roundPos_range hp hy).1)
    exact zpow_le_zpow_right₀ (by norm_num) hl
  · unfold roundPos
    rw [← hl]
    have hu := two_pow_pos (Int.log 2 x + 1 - p)
    refine mul_le_mul_of_nonneg_right ?_ hu.le
    exact_mod_cast halfEven_mono (div_le_div_of_nonneg_right h hu.le)

theorem roundPos_idem {p : ℕ} (hp : 0 < p) {x : ℚ} (hx : 0 < x) : roundPos p (roundPos p x) = roundPos p x := by
  obtain ⟨l, hl⟩ : ∃ l, l = Int.log 2 x := ⟨_, rfl⟩
  obtain ⟨n, hn⟩ : ∃ n, n = halfEven (x / 2 ^ (Int.log 2 x + 1 - p)) := ⟨_, rfl⟩
  have hx' : roundPos p x = n * 2 ^ (l + 1 - p) := by rw [hn, hl]; rfl
  have hpos := roundPos_pos hp hx
  obtain ⟨r1, r2⟩ := roundPos_range hp hx
  rw [← hl] at r1 r2
  rcases lt_or_eq_of_le r2 with r2 | r2
  · rw [roundPos_eq p hpos r1 r2]
    have : roundPos p x / 2 ^ (l + 1 - p) = n := by
      rw [hx', mul_div_assoc, div_self (two_pow_pos _).ne', mul_one]
    rw [this, halfEven_int, ← hx']
  · rw [roundPos_eq p hpos (e := l + 1) r2.ge
      (r2.trans_lt (zpow_lt_zpow_right₀ (by norm_num) (by omega)))]
    have e : roundPos p x / 2 ^ (l + 1 + 1 - p) = ((2 ^ (p - 1) : ℤ) : ℚ) := by
      rw [r2, div_eq_iff (two_pow_pos _).ne']
      push_cast
      rw [← zpow_natCast, ← zpow_add₀ (by norm_num)]
      congr 1
      omega
    rw [e, halfEven_int, ← e, div_mul_cancel₀ _ (two_pow_pos _).ne']

/-- Floating-point numbers with `p` binary digits. -/
def floats (p : ℕ) (hp : 0 < p) : Rounding ℚ where
  rnd := roundTo p
  mono := by
    intro x y h
    unfold roundTo
    rcases lt_trichotomy 0 x with hx | hx | hx
    · rw [if_pos hx, if_pos (hx.trans_le h)]
      exact roundPos_mono hp hx h
    · subst hx
      rw [if_neg (lt_irrefl _), if_neg (lt_irrefl _)]
      split_ifs with h1 h2
      · exact (roundPos_pos hp h1).le
      · exact absurd h (not_le.2 h2)
      · exact le_rfl
    · rw [if_neg (not_lt.2 hx.le), if_pos hx]
      have := roundPos_pos hp (neg_pos.2 hx)
      split_ifs with h1 h2
      · linarith [roundPos_pos hp h1]
      · exact neg_le_neg (roundPos_mono hp (neg_pos.2 h2) (neg_le_neg h))
      · linarith
  idem := by
    intro x
    unfold roundTo
    rcases lt_trichotomy 0 x with hx | hx | hx
    · rw [if_pos hx, if_pos (roundPos_pos hp hx)]
      exact roundPos_idem hp hx
    · subst hx
      rw [if_neg (lt_irrefl _), if_neg (lt_irrefl _), if_neg (lt_irrefl _), if_neg (lt_irrefl _)]
    · have := roundPos_pos hp (neg_pos.2 hx)
      rw [if_neg (not_lt.2 hx.le), if_pos hx, if_neg (by linarith), if_pos (by linarith), neg_neg, roundPos_idem hp (neg_pos.2 hx)]
  zero := by
    unfold roundTo
    rw [if_neg (lt_irrefl _), if_neg (lt_irrefl _)]

/-! ### C154 -/

/-- Everything that can happen to the bounds of an ordered rule, with rounded results; samples and feature bounds are
representable, the draws are arbitrary numbers of the range of their distribution. -/
inductive ReachableRounded (R : Rounding K) : Pairs K d → Prop
  | mean (m : Point K d) (hm : ∀ i, R.Rep (m i)) : ReachableRounded R (meanInit .ordered m)
  | normal (z : Pairs K d) (hz : R.RepRows z) : ReachableRounded R (normalInit .ordered z)
  | halfnorm (m : Point K d) (hm : ∀ i, R.Rep (m i)) (h : Pairs K d) (hh : ∀ i, 0 ≤ (h i).1 ∧ 0 ≤ (h i).2) :
      ReachableRounded R (R.halfnormInit m h)
  | mutate (mu : Mutation) (z b : Pairs K d) (hb : ReachableRounded R b) : ReachableRounded R (R.mutate mu z b)
  | crossoverA (mask : Fin d → Bool) (A B : Pairs K d) (hA : ReachableRounded R A) (hB : ReachableRounded R B) :
      ReachableRounded R (uniformCrossover mask A B).1
  | crossoverB (mask : Fin d → Bool) (A B : Pairs K d) (hA : ReachableRounded R A) (hB : ReachableRounded R B) :
      ReachableRounded R (uniformCrossover mask A B).2
  | constrain (r : K) (fb b : Pairs K d) (hfb : R.RepRows fb) (hb : ReachableRounded R b) :
      ReachableRounded R (R.constrain r fb b)

/-- C154 (rules are never inverted): whatever happens to it, and however results are rounded, an ordered rule has `l ≤ u` in every
dimension, and its numbers are representable. -/
theorem C154_never_inverted_partial (R : Rounding K) (b : Pairs K d) (h : ReachableRounded R b) :
    Ordered b ∧ R.RepRows b := by
  have hsort : ∀ b : Pairs K d, Ordered (sortRows b) := fun b i => le_trans (min_le_left _ _) (le_max_left _ _)
  induction h with
  | mean m hm => exact ⟨fun i => le_rfl, fun i => ⟨hm i, hm i⟩⟩
  | normal z hz => exact ⟨hsort z, R.sortRows_rep hz⟩
  | halfnorm m hm h hh =>
    exact ⟨fun i => (R.sub_le (hm i) (hh i).1).trans (R.le_add (hm i) (hh i).2), fun i => ⟨R.rep_rnd _, R.rep_rnd _⟩⟩
  | mutate mu z b _ _ => exact ⟨by cases mu <;> exact hsort _, R.mutate_rep mu z b⟩
  | crossoverA mask A B _ _ ihA ihB =>
    constructor <;> intro i <;> dsimp only [uniformCrossover] <;> split_ifs <;>
      first | exact ihA.1 i | exact ihB.1 i | exact ihA.2 i | exact ihB.2 i
  | crossoverB mask A B _ _ ihA ihB =>
    constructor <;> intro i <;> dsimp only [uniformCrossover] <;> split_ifs <;>
      first | exact ihA.1 i | exact ihB.1 i | exact ihA.2 i | exact ihB.2 i
  | constrain r fb b hfb _ ih =>
    exact ⟨fun i => npClip_mono ((R.minRange_lower r ih.2 i).trans ((ih.1 i).trans (R.minRange_upper r ih.2 i))),
      R.constrain_rep r hfb ih.2⟩

/-- C154 (the constraints): however results are rounded, a constrained rule lies in the feature bounds, and every sample in the
feature bounds that it matched before is matched afterwards. -/
theorem C154_constrain_partial (R : Rounding K) (r : K) (fb b : Pairs K d) (hfb : Ordered fb) (hb : R.RepRows b) :
    Inside fb (R.constrain r fb b) ∧ ∀ x, InBounds fb x → OrderedBound.call b x = true →
      OrderedBound.call (R.constrain r fb b) x = true := by
  refine ⟨fun i => ⟨npClip_ge (hfb i) _, npClip_le _ _ _, npClip_ge (hfb i) _, npClip_le _ _ _⟩, fun x hx hm => ?_⟩
  rw [OrderedBound.call_iff] at *
  exact fun i => ⟨npClip_le_of_le (le_trans (R.minRange_lower r hb i) (hm i).1) (hx i).1,
    le_npClip_of_le (le_trans (hm i).2 (R.minRange_upper r hb i)) (hx i).2⟩

/-- C154 (initial rules): however results are rounded, a rule made for a sample in the feature bounds matches it. -/
theorem C154_initial_partial (R : Rounding K) (r : K) (fb : Pairs K d) (hfb : Ordered fb) (m : Point K d)
    (hm : ∀ i, R.Rep (m i)) (hin : InBounds fb m) (h : Pairs K d) (hh : ∀ i, 0 ≤ (h i).1 ∧ 0 ≤ (h i).2) :
    OrderedBound.call (R.constrain r fb (meanInit .ordered m)) m = true ∧
      OrderedBound.call (R.constrain r fb (R.halfnormInit m h)) m = true := by
  refine ⟨(C154_constrain_partial R r fb _ hfb fun i => ⟨hm i, hm i⟩).2 m hin ?_,
    (C154_constrain_partial R r fb _ hfb fun i => ⟨R.rep_rnd _, R.rep_rnd _⟩).2 m hin ?_⟩
  · rw [OrderedBound.call_iff]; exact fun i => ⟨le_rfl, le_rfl⟩
  · rw [OrderedBound.call_iff]; exact fun i => ⟨R.sub_le (hm i) (hh i).1, R.le_add (hm i) (hh i).2⟩

/-- C154 (growing): however results are rounded, no number of increase mutations and constraints makes a rule lose a sample in the
feature bounds. -/
theorem C154_increase_partial (R : Rounding K) (r : K) (fb : Pairs K d) (hfb : Ordered fb) (hrep : R.RepRows fb)
    (steps : List (Mutation × Pairs K d))
    (hs : ∀ s ∈ steps, (s.1 = .halfnormIncrease ∨ s.1 = .uniformIncrease) ∧ ∀ i, 0 ≤ (s.2 i).1 ∧ 0 ≤ (s.2 i).2)
    (b : Pairs K d) (hb : R.RepRows b) (x : Point K d) (hx : InBounds fb x) (hm : OrderedBound.call b x = true) :
    OrderedBound.call (steps.foldl (fun b s => R.childBounds s.1 r fb s.2 b) b) x = true := by
  induction steps generalizing b with
  | nil => exact hm
  | cons s ss ih =>
    obtain ⟨hk, hz⟩ := hs s List.mem_cons_self
    rw [List.foldl_cons]
    refine ih (fun s' h' => hs s' (List.mem_cons_of_mem _ h')) _ (R.constrain_rep r hrep (R.mutate_rep _ _ _))
      ((C154_constrain_partial R r fb _ hfb (R.mutate_rep _ _ _)).2 x hx ?_)
    rw [OrderedBound.call_iff] at *
    have key : ∀ i, min (R.rnd ((b i).1 - (s.2 i).1)) (R.rnd ((b i).2 + (s.2 i).2)) ≤ x i ∧
        x i ≤ max (R.rnd ((b i).1 - (s.2 i).1)) (R.rnd ((b i).2 + (s.2 i).2)) := fun i =>
      ⟨(min_le_left _ _).trans ((R.sub_le (hb i).1 (hz i).1).trans (hm i).1),
        ((hm i).2.trans (R.le_add (hb i).2 (hz i).2)).trans (le_max_right _ _)⟩
    rcases hk with hk | hk <;> rw [hk] <;> exact key

/-- C154 (the minimum range, part that holds): where the widened ends need no rounding, the initial rule of a sample is at least half the
minimum range wide, if the features range over as much. -/
theorem C154_width_partial (R : Rounding K) (r : K) (hr : 0 < r) (fb : Pairs K d) (m : Point K d) (hin : InBounds fb m)
    (i : Fin d) (hw : r / 2 ≤ (fb i).2 - (fb i).1) (h0 : R.Rep (r / 2)) (h1 : R.Rep (m i - r / 2)) (h2 : R.Rep (m i + r / 2)) :
    r / 2 ≤ (R.constrain r fb (meanInit .ordered m) i).2 - (R.constrain r fb (meanInit .ordered m) i).1 := by
  have e : R.minRange r (meanInit .ordered m) i = (m i - r / 2, m i + r / 2) := by
    unfold Rounding.minRange
    rw [if_pos hr]
    have : R.rnd (m i - m i) < r := by rw [sub_self, R.zero]; exact hr
    refine (if_pos this).trans ?_
    dsimp only [meanInit]
    rw [h0, h1, h2]
  obtain ⟨b1, b2⟩ := hin i
  dsimp only at b1 b2
  dsimp only [Rounding.constrain, OrderedBound.clip]
  rw [e]
  dsimp only [npClip]
  rw [max_eq_left (by linarith : (fb i).1 ≤ m i + r / 2),
    min_eq_left (max_le (by linarith) (by linarith) : max (m i - r / 2) (fb i).1 ≤ (fb i).2)]
  rcases le_total (m i - r / 2) (fb i).1 with c1 | c1 <;> rcases le_total (m i + r / 2) (fb i).2 with c2 | c2
  · rw [max_eq_right c1, min_eq_left c2]; linarith
  · rw [max_eq_right c1, min_eq_right c2]; linarith
  · rw [max_eq_left c1, min_eq_left c2]; linarith
  · rw [max_eq_left c1, min_eq_right c2]; linarith

theorem roundTo_eq (p : ℕ) {x : ℚ} {e : ℤ} (h1 : (2 : ℚ) ^ e ≤ x) (h2 : x < 2 ^ (e + 1)) :
    roundTo p x = halfEven (x / 2 ^ (e + 1 - p)) * 2 ^ (e + 1 - p) := by
  have hx : 0 < x := (two_pow_pos e).trans_le h1
  unfold roundTo
  rw [if_pos hx, roundPos_eq p hx h1 h2]

/-- `2⁴⁰` is a `float64`. -/
theorem rep_big : roundTo 53 (2 ^ 40) = 2 ^ 40 := by
  rw [roundTo_eq 53 (e := 40) (by norm_num) (by norm_num),
    show (2 ^ 40 : ℚ) / 2 ^ ((40 : ℤ) + 1 - (53 : ℕ)) = ((2 ^ 52 : ℤ) : ℚ) by norm_num, halfEven_int]
  norm_num

theorem rep_small : roundTo 53 (1 / 2 ^ 20 / 2) = 1 / 2 ^ 21 := by
  rw [roundTo_eq 53 (e := -21) (by norm_num) (by norm_num),
    show (1 / 2 ^ 20 / 2 : ℚ) / 2 ^ ((-21 : ℤ) + 1 - (53 : ℕ)) = ((2 ^ 52 : ℤ) : ℚ) by norm_num, halfEven_int]
  norm_num

theorem absorbed_below : roundTo 53 (2 ^ 40 - 1 / 2 ^ 21) = 2 ^ 40 := by
  rw [roundTo_eq 53 (e := 39) (by norm_num) (by norm_num),
    show (2 ^ 40 - 1 / 2 ^ 21 : ℚ) / 2 ^ ((39 : ℤ) + 1 - (53 : ℕ)) = 2 ^ 53 - 1 / 2 ^ 8 by norm_num,
    show halfEven (2 ^ 53 - 1 / 2 ^ 8) = 2 ^ 53 by decide +kernel]
  norm_num

theorem absorbed_above : roundTo 53 (2 ^ 40 + 1 / 2 ^ 21) = 2 ^ 40 := by
  rw [roundTo_eq 53 (e := 40) (by norm_num) (by norm_num),
    show (2 ^ 40 + 1 / 2 ^ 21 : ℚ) / 2 ^ ((40 : ℤ) + 1 - (53 : ℕ)) = 2 ^ 52 + 1 / 2 ^ 9 by norm_num,
    show halfEven (2 ^ 52 + 1 / 2 ^ 9) = 2 ^ 52 by decide +kernel]
  norm_num

/-- Arithmetic with `float64`. -/
def float64 : Rounding ℚ := floats 53 (by norm_num)

theorem float64_rnd (x : ℚ) : float64.rnd x = roundTo 53 x := rfl

theorem rep_top : roundTo 53 (2 ^ 41) = 2 ^ 41 := by
  rw [roundTo_eq 53 (e := 41) (by norm_num) (by norm_num),
    show (2 ^ 41 : ℚ) / 2 ^ ((41 : ℤ) + 1 - (53 : ℕ)) = ((2 ^ 52 : ℤ) : ℚ) by norm_num, halfEven_int]
  norm_num

/-- C154 (the minimum range, refuted): in the usual arithmetic with 53 binary digits, rounding to nearest, a minimum range of `2⁻²⁰` (about
the default `1e-6`) does nothing to a rule at `2⁴⁰` (about `1e12`): the rule made for this sample has width 0, although
the feature ranges from 0 to `2⁴¹`. -/
theorem C154_width_refuted :
    ¬ ∀ (r : ℚ) (fb : Pairs ℚ 1) (m : Point ℚ 1), 0 < r → float64.RepRows fb → (∀ i, float64.Rep (m i)) →
      InBounds fb m → r / 2 ≤ (fb 0).2 - (fb 0).1 →
      r / 2 ≤ (float64.constrain r fb (meanInit .ordered m) 0).2 - (float64.constrain r fb (meanInit .ordered m) 0).1 := by
  intro h
  have := h (1 / 2 ^ 20) (fun _ => (0, 2 ^ 41)) (fun _ => 2 ^ 40) (by norm_num)
    (fun i => ⟨float64.zero, by unfold Rounding.Rep; rw [float64_rnd]; exact rep_top⟩)
    (fun i => by unfold Rounding.Rep; rw [float64_rnd]; exact rep_big) (fun i => ⟨by norm_num, by norm_num⟩) (by norm_num)
  have e : float64.minRange (1 / 2 ^ 20) (meanInit .ordered fun _ : Fin 1 => (2 ^ 40 : ℚ)) 0 = (2 ^ 40, 2 ^ 40) := by
    unfold Rounding.minRange
    rw [if_pos (by norm_num)]
    refine (if_pos ?_).trans ?_
    · dsimp only [meanInit]
      rw [sub_self, float64.zero]
      norm_num
    · dsimp only [meanInit]
      rw [float64_rnd (1 / 2 ^ 20 / 2), rep_small, float64_rnd, float64_rnd, absorbed_below, absorbed_above]
  dsimp only [Rounding.constrain, OrderedBound.clip] at this
  rw [e] at this
  norm_num [npClip] at this

/-- The hypotheses of `C154_width_partial` are met by the sample 3 with feature bounds `[0, 10]` and minimum range 1: there
the ends `5/2` and `7/2` need no rounding. -/
example : 1 / 2 ≤ (float64.constrain 1 ![(0, 10)] (meanInit .ordered ![(3 : ℚ)]) 0).2 -
    (float64.constrain 1 ![(0, 10)] (meanInit .ordered ![(3 : ℚ)]) 0).1 := by
  have rep : ∀ {x : ℚ} {n : ℤ} (e : ℤ), (2 : ℚ) ^ e ≤ x → x < 2 ^ (e + 1) → x / 2 ^ (e + 1 - (53 : ℕ)) = n →
      float64.Rep x := by
    intro x n e h1 h2 h3
    unfold Rounding.Rep
    rw [float64_rnd, roundTo_eq 53 h1 h2, h3, halfEven_int, ← h3, div_mul_cancel₀ _ (two_pow_pos _).ne']
  refine C154_width_partial float64 1 one_pos _ _ (by decide +kernel) 0 (by decide +kernel)
    (rep (n := 2 ^ 52) (-1) ?_ ?_ ?_) (rep (n := 5 * 2 ^ 50) 1 ?_ ?_ ?_) (rep (n := 7 * 2 ^ 50) 1 ?_ ?_ ?_) <;> norm_num

/-- A rule grown twice from the sample `2⁴⁰`, by numbers that are no `float64`. -/
example : OrderedBound.call ([(Mutation.halfnormIncrease, (![(1/3, 1/7)] : Pairs ℚ 1)),
    (.uniformIncrease, ![(1/11, 0)])].foldl (fun b s => float64.childBounds s.1 (1/10) (fun _ => (0, 2 ^ 41)) s.2 b)
    (meanInit .ordered fun _ => 2 ^ 40)) (fun _ => 2 ^ 40) = true := by
  have rep : float64.Rep (2 ^ 40) := by unfold Rounding.Rep; rw [float64_rnd]; exact rep_big
  have repB : float64.RepRows (fun _ : Fin 1 => ((0 : ℚ), (2 ^ 41 : ℚ))) :=
    fun i => ⟨float64.zero, by unfold Rounding.Rep; rw [float64_rnd]; exact rep_top⟩
  refine C154_increase_partial float64 _ _ (fun i => by norm_num) repB _ ?_ _ (fun i => ⟨rep, rep⟩) _
    (fun i => ⟨by norm_num, by norm_num⟩) ((OrderedBound.call_iff _ _).2 fun i => ⟨le_rfl, le_rfl⟩)
  intro s hs
  simp only [List.mem_cons, List.not_mem_nil, or_false] at hs
  rcases hs with rfl | rfl
  · exact ⟨.inl rfl, by decide +kernel⟩
  · exact ⟨.inr rfl, by decide +kernel⟩

/-- A history as in `C154_never_inverted_partial`: the rule of a sample, mutated by numbers that invert it, then constrained. -/
example : Ordered (float64.constrain (1/10) (fun _ : Fin 1 => (0, 2 ^ 41))
    (float64.mutate .normal ![(1/3, -1/7)] (meanInit .ordered fun _ => 2 ^ 40))) :=
  have rep : float64.Rep (2 ^ 40) := by unfold Rounding.Rep; rw [float64_rnd]; exact rep_big
  have repB : float64.RepRows (fun _ : Fin 1 => ((0 : ℚ), (2 ^ 41 : ℚ))) :=
    fun i => ⟨float64.zero, by unfold Rounding.Rep; rw [float64_rnd]; exact rep_top⟩
  (C154_never_inverted_partial float64 _ (.constrain _ _ _ repB
    (.mutate _ _ _ (.mean _ fun _ => rep)))).1

end Suprb
