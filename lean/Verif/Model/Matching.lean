import Verif.Spec

/-!
# Model of `suprb/rule/matching.py` and `suprb/optimizer/rule/constraint.py`

`bounds` arrays of shape `(d, 2)` are `Fin d → K × K`; a sample is `Fin d → K`.
Simplifications (all of this file): real numbers instead of floats; the number of
features of sample and rule agree (no numpy broadcasting); operations that mutate
`self.bounds` in place return the new array.
-/

set_option autoImplicit false

namespace Suprb

open Spec

variable {K : Type} [Field K] [LinearOrder K] {d : Nat}

/-- `np.clip(x, lo, hi)`, i.e. `minimum(maximum(x, lo), hi)` (numpy, used by suprb/rule/matching.py:71, 149-150, 162-163, 204-205). -/
def npClip (lo hi x : K) : K := min (max x lo) hi

namespace OrderedBound

/-- suprb/rule/matching.py:57-58 `OrderedBound.__call__` (one row of `X`). -/
def call (b : Pairs K d) (x : Point K d) : Bool :=
  decide (∀ i, (b i).1 ≤ x i ∧ x i ≤ (b i).2)

/-- suprb/rule/matching.py:60-64 `OrderedBound.volume_`. -/
def volume (b : Pairs K d) : K := ∏ i, ((b i).2 - (b i).1)

/-- suprb/rule/matching.py:69-71 `OrderedBound.clip`: both numbers of row `i` are clipped to `[low_i, high_i]`. -/
def clip (fb b : Pairs K d) : Pairs K d :=
  fun i => (npClip (fb i).1 (fb i).2 (b i).1, npClip (fb i).1 (fb i).2 (b i).2)

/-- suprb/rule/matching.py:73-78 `OrderedBound.min_range`. The index array has shape `(k,1)` and no duplicates,
so each too narrow row is widened once. -/
def minRange (r : K) (b : Pairs K d) : Pairs K d :=
  if r > 0 then
    fun i => if (b i).2 - (b i).1 < r then ((b i).1 - r / 2, (b i).2 + r / 2) else b i
  else b

end OrderedBound

namespace UnorderedBound

/-- suprb/rule/matching.py:92-95 `UnorderedBound.__call__` (one row of `X`). -/
def call (b : Pairs K d) (x : Point K d) : Bool :=
  decide (∀ i, min (b i).1 (b i).2 ≤ x i ∧ x i ≤ max (b i).1 (b i).2)

/-- suprb/rule/matching.py:97-102 `UnorderedBound.volume_`. -/
def volume (b : Pairs K d) : K :=
  ∏ i, max ((b i).2 - (b i).1) (-((b i).2 - (b i).1))

/-- suprb/rule/matching.py:107-108 `UnorderedBound.clip`: `self.bounds.clip(-1, 1)` returns a new
array which is discarded, so the rule is left as it is. -/
def clip (_fb b : Pairs K d) : Pairs K d := b

/-- suprb/rule/matching.py:111-113: `invalid_indices`, the rows whose two numbers are closer than `r`. -/
def invalid (r : K) (b : Pairs K d) : List (Fin d) :=
  (List.finRange d).filter fun i =>
    decide ((b i).2 - (b i).1 < r ∧ -((b i).2 - (b i).1) < r)

/-- suprb/rule/matching.py:114-115: rows addressed through `invalid_indices_l`. `np.argwhere` on the
`(k,1)` array `diff[invalid_indices]` yields pairs `[position in invalid_indices, 0]`; used as an index of axis 0
it addresses the rows `position` and `0`. -/
def rowsL (r : K) (b : Pairs K d) : List Nat :=
  ((invalid r b).zipIdx.filter fun p =>
    decide ((b p.1).2 - (b p.1).1 > -((b p.1).2 - (b p.1).1))).flatMap fun p => [p.2, 0]

/-- suprb/rule/matching.py:116-117: rows addressed through `invalid_indices_r` (see `rowsL`). -/
def rowsR (r : K) (b : Pairs K d) : List Nat :=
  ((invalid r b).zipIdx.filter fun p =>
    decide ((b p.1).2 - (b p.1).1 ≤ -((b p.1).2 - (b p.1).1))).flatMap fun p => [p.2, 0]

/-- suprb/rule/matching.py:110-125 `UnorderedBound.min_range`. In-place fancy-index updates are buffered by numpy, so
every addressed row is updated once per statement even if it is addressed repeatedly. -/
def minRange (r : K) (b : Pairs K d) : Pairs K d :=
  if r > 0 then
    let b1 : Pairs K d := fun i =>
      if i.val ∈ rowsL r b then ((b i).1 + r / 2, (b i).2 - r / 2) else b i
    fun i => if i.val ∈ rowsR r b then ((b1 i).1 - r / 2, (b1 i).2 + r / 2) else b1 i
  else b

end UnorderedBound

namespace CenterSpread

/-- suprb/rule/matching.py:139-143 `CenterSpread.__call__` (one row of `X`). -/
def call (b : Pairs K d) (x : Point K d) : Bool :=
  decide (∀ i, (b i).1 - (b i).2 ≤ x i ∧ x i ≤ (b i).1 + (b i).2)

/-- suprb/rule/matching.py:145-151 `CenterSpread.calculate_widths`. -/
def widths (b : Pairs K d) (i : Fin d) : K :=
  npClip (-1) 1 ((b i).1 + (b i).2) - npClip (-1) 1 ((b i).1 - (b i).2)

/-- suprb/rule/matching.py:153-156 `CenterSpread.volume_`. -/
def volume (b : Pairs K d) : K := ∏ i, widths b i

/-- suprb/rule/matching.py:161-163 `CenterSpread.clip` (the feature bounds are ignored). -/
def clip (_fb b : Pairs K d) : Pairs K d :=
  fun i => (npClip (-1) 1 (b i).1, npClip 0 2 (b i).2)

/-- suprb/rule/matching.py:165-169 `CenterSpread.min_range`. -/
def minRange (r : K) (b : Pairs K d) : Pairs K d :=
  if r > 0 then
    fun i => if widths b i < r then ((b i).1, (b i).2 + r / 2) else b i
  else b

end CenterSpread

namespace MinPercentage

/-- suprb/rule/matching.py:184-187 `MinPercentage.__call__` (one row of `X`). -/
def call (b : Pairs K d) (x : Point K d) : Bool :=
  decide (∀ i, (b i).1 ≤ x i ∧ x i ≤ (b i).1 + (b i).2 * (1 - (b i).1))

/-- suprb/rule/matching.py:189-193 `MinPercentage.calculate_widths`: `lower + p * (1 - (-1)) - lower`. -/
def widths (b : Pairs K d) (i : Fin d) : K :=
  ((b i).1 + (b i).2 * (1 - (-1))) - (b i).1

/-- suprb/rule/matching.py:195-198 `MinPercentage.volume_`. -/
def volume (b : Pairs K d) : K := ∏ i, widths b i

/-- suprb/rule/matching.py:203-205 `MinPercentage.clip` (the feature bounds are ignored). -/
def clip (_fb b : Pairs K d) : Pairs K d :=
  fun i => (npClip (-1) 1 (b i).1, npClip 0 1 (b i).2)

/-- suprb/rule/matching.py:207-213 `MinPercentage.min_range`. -/
def minRange (r : K) (b : Pairs K d) : Pairs K d :=
  if r > 0 then
    fun i => if widths b i < r then ((b i).1 - r / 2, (b i).2 + r) else b i
  else b

end MinPercentage

/-- The four concrete subclasses of `MatchingFunction` (suprb/rule/matching.py:46, 81, 128, 172). -/
inductive Kind
  | ordered | unordered | centerSpread | minPercentage
  deriving DecidableEq, Repr

/-- Dynamic dispatch of `match(X)` (suprb/rule/base.py:56 `self.match(X)`). -/
def Kind.call : Kind → Pairs K d → Point K d → Bool
  | .ordered => OrderedBound.call
  | .unordered => UnorderedBound.call
  | .centerSpread => CenterSpread.call
  | .minPercentage => MinPercentage.call

/-- Dynamic dispatch of `match.volume_` (suprb/rule/base.py:90-92). -/
def Kind.volume : Kind → Pairs K d → K
  | .ordered => OrderedBound.volume
  | .unordered => UnorderedBound.volume
  | .centerSpread => CenterSpread.volume
  | .minPercentage => MinPercentage.volume

/-- suprb/optimizer/rule/constraint.py:38-47 `Clip.__call__`. -/
def Kind.clip : Kind → Pairs K d → Pairs K d → Pairs K d
  | .ordered => OrderedBound.clip
  | .unordered => UnorderedBound.clip
  | .centerSpread => CenterSpread.clip
  | .minPercentage => MinPercentage.clip

/-- suprb/optimizer/rule/constraint.py:50-58 `MinRange.__call__`. -/
def Kind.minRange : Kind → K → Pairs K d → Pairs K d
  | .ordered => OrderedBound.minRange
  | .unordered => UnorderedBound.minRange
  | .centerSpread => CenterSpread.minRange
  | .minPercentage => MinPercentage.minRange

/-- suprb/optimizer/rule/constraint.py:23-35 `CombinedConstraint.__call__`: `self.clip(self.min_range(rule))`. -/
def constrain (k : Kind) (r : K) (fb b : Pairs K d) : Pairs K d :=
  k.clip fb (k.minRange r b)

end Suprb
