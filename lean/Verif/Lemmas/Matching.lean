import Verif.Model.Operators
import Mathlib.Algebra.Order.Group.MinMax
import Mathlib.Tactic.Ring
import Mathlib.Tactic.Positivity
import Mathlib.Data.Rat.Defs
import Mathlib.Algebra.Order.Ring.Rat
import Mathlib.Algebra.Order.Field.Rat

/-! Helper lemmas about clipping, matching and constraining. -/

set_option autoImplicit false
set_option linter.unusedSectionVars false

namespace Suprb

open Spec

variable {K : Type} [Field K] [LinearOrder K] {d : Nat}

theorem npClip_ge {lo hi : K} (h : lo ≤ hi) (x : K) : lo ≤ npClip lo hi x := by
  unfold npClip; exact le_min (le_max_right _ _) h

theorem npClip_le (lo hi x : K) : npClip lo hi x ≤ hi := by
  unfold npClip; exact min_le_right _ _

theorem npClip_mono {lo hi x y : K} (h : x ≤ y) : npClip lo hi x ≤ npClip lo hi y := by
  unfold npClip; exact min_le_min (max_le_max h le_rfl) le_rfl

theorem npClip_of_mem {lo hi x : K} (h1 : lo ≤ x) (h2 : x ≤ hi) : npClip lo hi x = x := by
  unfold npClip; rw [max_eq_left h1, min_eq_left h2]

theorem npClip_le_of_le {lo hi x y : K} (h : x ≤ y) (hlo : lo ≤ y) : npClip lo hi x ≤ y := by
  unfold npClip; exact le_trans (min_le_left _ _) (max_le h hlo)

theorem le_npClip_of_le {lo hi x y : K} (h : y ≤ x) (hhi : y ≤ hi) : y ≤ npClip lo hi x := by
  unfold npClip; exact le_min (le_trans h (le_max_left _ _)) hhi

theorem OrderedBound.call_iff (b : Pairs K d) (x : Point K d) :
    OrderedBound.call b x = true ↔ ∀ i, (b i).1 ≤ x i ∧ x i ≤ (b i).2 := by
  simp [OrderedBound.call]

theorem UnorderedBound.call_iff (b : Pairs K d) (x : Point K d) :
    UnorderedBound.call b x = true ↔
      ∀ i, min (b i).1 (b i).2 ≤ x i ∧ x i ≤ max (b i).1 (b i).2 := by
  simp [UnorderedBound.call]

theorem CenterSpread.call_iff (b : Pairs K d) (x : Point K d) :
    CenterSpread.call b x = true ↔ ∀ i, (b i).1 - (b i).2 ≤ x i ∧ x i ≤ (b i).1 + (b i).2 := by
  simp [CenterSpread.call]

theorem MinPercentage.call_iff (b : Pairs K d) (x : Point K d) :
    MinPercentage.call b x = true ↔
      ∀ i, (b i).1 ≤ x i ∧ x i ≤ (b i).1 + (b i).2 * (1 - (b i).1) := by
  simp [MinPercentage.call]

variable [IsStrictOrderedRing K]

theorem OrderedBound.minRange_fst_le (r : K) (b : Pairs K d) (i : Fin d) :
    (OrderedBound.minRange r b i).1 ≤ (b i).1 := by
  unfold OrderedBound.minRange
  split_ifs with hr
  · dsimp only; split_ifs
    · dsimp only; linarith
    · exact le_rfl
  · exact le_rfl

theorem OrderedBound.le_minRange_snd (r : K) (b : Pairs K d) (i : Fin d) :
    (b i).2 ≤ (OrderedBound.minRange r b i).2 := by
  unfold OrderedBound.minRange
  split_ifs with hr
  · dsimp only; split_ifs
    · dsimp only; linarith
    · exact le_rfl
  · exact le_rfl

theorem OrderedBound.minRange_ordered (r : K) {b : Pairs K d} (h : Ordered b) :
    Ordered (OrderedBound.minRange r b) := fun i =>
  le_trans (OrderedBound.minRange_fst_le r b i) (le_trans (h i) (OrderedBound.le_minRange_snd r b i))

theorem UnorderedBound.minRange_point (r : K) (hr : 0 < r) (m : Point K d) :
    UnorderedBound.minRange r (fun i => (m i, m i)) = fun i => (m i - r / 2, m i + r / 2) := by
  have hinv : UnorderedBound.invalid r (fun i => (m i, m i)) = List.finRange d := by
    unfold UnorderedBound.invalid
    apply List.filter_eq_self.mpr
    intro i _; simpa using hr
  have hL : UnorderedBound.rowsL r (fun i => (m i, m i)) = [] := by
    unfold UnorderedBound.rowsL; simp
  have hR : ∀ i : Fin d, i.val ∈ UnorderedBound.rowsR r (fun i => (m i, m i)) := by
    intro i
    unfold UnorderedBound.rowsR
    rw [hinv, List.mem_flatMap]
    refine ⟨(i, i.val), ?_, by simp⟩
    rw [List.mem_filter]
    refine ⟨?_, by simp⟩
    rw [List.mem_zipIdx_iff_getElem?]
    simp
  funext i
  unfold UnorderedBound.minRange
  rw [if_pos hr]
  simp [hL, hR i]

end Suprb
