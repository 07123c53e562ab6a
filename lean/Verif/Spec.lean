import Mathlib.Algebra.Order.Field.Basic
import Mathlib.Algebra.BigOperators.Fin
import Mathlib.Algebra.Order.BigOperators.Ring.Finset
import Mathlib.Tactic.Linarith
import Mathlib.Tactic.NormNum
import Mathlib.Tactic.FinCases

/-!
# Specifications

Vocabulary in which the claimed properties are stated.  Nothing here refers to the
model of the Python code (`Verif/Model/*`): these are the mathematical notions a user has in mind.
-/

set_option autoImplicit false

namespace Spec

/-- A sample with `d` features. -/
abbrev Point (K : Type) (d : Nat) := Fin d → K

variable {K : Type} {d : Nat}

/-- `x` lies in the closed axis-parallel box with corners `lo` and `hi`. -/
def InBox [LE K] (lo hi : Point K d) (x : Point K d) : Prop :=
  ∀ i, lo i ≤ x i ∧ x i ≤ hi i

/-- Two numbers per dimension: `(lower, upper)`, `(p, q)`, `(centre, spread)` or `(lower, percentage)`. -/
abbrev Pairs (K : Type) (d : Nat) := Fin d → K × K

/-- First number is at most the second one, in each dimension. -/
def Ordered [LE K] (b : Pairs K d) : Prop := ∀ i, (b i).1 ≤ (b i).2

/-- Both numbers of each dimension lie in the given feature bounds. -/
def Inside [LE K] (fb : Pairs K d) (b : Pairs K d) : Prop :=
  ∀ i, (fb i).1 ≤ (b i).1 ∧ (b i).1 ≤ (fb i).2 ∧ (fb i).1 ≤ (b i).2 ∧ (b i).2 ≤ (fb i).2

/-- The sample lies within the feature bounds. -/
def InBounds [LE K] (fb : Pairs K d) (x : Point K d) : Prop :=
  InBox (fun i => (fb i).1) (fun i => (fb i).2) x

/-- Volume of the box with corners `lo`, `hi` (meaningful when `lo ≤ hi`). -/
def boxVolume [Field K] (lo hi : Point K d) : K := ∏ i, (hi i - lo i)

instance [LE K] [DecidableLE K] (b : Pairs K d) : Decidable (Ordered b) := by
  unfold Ordered; infer_instance

instance [LE K] [DecidableLE K] (fb b : Pairs K d) : Decidable (Inside fb b) := by
  unfold Inside; infer_instance

instance [LE K] [DecidableLE K] (lo hi x : Point K d) : Decidable (InBox lo hi x) := by
  unfold InBox; infer_instance

instance [LE K] [DecidableLE K] (fb : Pairs K d) (x : Point K d) : Decidable (InBounds fb x) := by
  unfold InBounds; infer_instance

end Spec
