import Verif.Model.ES
import Verif.Model.Prog
import Verif.Model.Fitness

/-!
# Model of the evolution strategy with fitness values that may be NaN

`suprb/rule/fitness.py` divides by the volume of the input space, which is zero if a feature is constant. The other models leave this case out (their fitness values are
numbers); here the fitness of a rule is a numpy number with NaN and the infinities, and `sorted` is the algorithm of CPython, whose result is determined for comparisons that are no order, too.
-/

set_option autoImplicit false

namespace Suprb

open Spec

/-! ## Comparisons and arithmetic of numpy numbers -/

section Numbers

variable {K : Type} [Field K] [LinearOrder K]

/-- `a <= b`: false if one of them is NaN. (suprb/optimizer/rule/es/es.py:133) -/
def NpFloat.leB : NpFloat K → NpFloat K → Bool
  | .nan, _ => false
  | _, .nan => false
  | .negInf, _ => true
  | _, .posInf => true
  | .val x, .val y => decide (x ≤ y)
  | _, _ => false

/-- `a < b`: false if one of them is NaN. (suprb/optimizer/rule/selection.py:22, the comparison used by `sorted`) -/
def NpFloat.ltB : NpFloat K → NpFloat K → Bool
  | .nan, _ => false
  | _, .nan => false
  | .negInf, .negInf => false
  | .negInf, _ => true
  | .posInf, _ => false
  | _, .posInf => true
  | .val x, .val y => decide (x < y)
  | .val _, .negInf => false

/-- The comparison of the stopping rule (suprb/optimizer/rule/es/es.py:133), as a relation. -/
instance : LE (NpFloat K) := ⟨fun a b => a.leB b = true⟩

/-- The comparison of the stopping rule (suprb/optimizer/rule/es/es.py:133) can be computed. -/
instance : DecidableLE (NpFloat K) := fun a b => inferInstanceAs (Decidable (a.leB b = true))

/-- `c * x` for a number `c`. (suprb/fitness.py:31, suprb/rule/fitness.py:42) -/
def NpFloat.scale (c : K) : NpFloat K → NpFloat K
  | .nan => .nan
  | .val x => .val (c * x)
  | .posInf => if c = 0 then .nan else if 0 < c then .posInf else .negInf
  | .negInf => if c = 0 then .nan else if 0 < c then .negInf else .posInf

/-- `c + x` for a number `c`. (suprb/fitness.py:31) -/
def NpFloat.shift (c : K) : NpFloat K → NpFloat K
  | .val x => .val (c + x)
  | x => x

/-- suprb/fitness.py:24-31 `emary` and 34-42 `wu` for a numpy number `x2`; an infinite `x2` makes the quotient of `wu` `inf / inf`, which is NaN. -/
def Combine.applyNp (f : Combine) (alpha x1 : K) (x2 : NpFloat K) : NpFloat K :=
  match f with
  | .emary => (x2.scale (1 - alpha)).shift (alpha * x1)
  | .wu => match x2 with
    | .val v => npDiv ((1 + alpha ^ 2) * x1 * v) (alpha ^ 2 * x1 + v)
    | _ => .nan

/-- suprb/rule/fitness.py:30-42 `VolumeRuleFitness.__call__` with the division as numpy does it; `x1` is the pseudo-accuracy. -/
def volumeFitnessNp {d : Nat} (f : Combine) (alpha x1 : K) (k : Kind) (bounds sp : Pairs K d) : NpFloat K :=
  (f.applyNp alpha x1 (npDiv (k.volume bounds) (∏ i, ((sp i).2 - (sp i).1)))).scale 100

/-- `rule.fitness_` with a rule fitness whose values may be NaN: `fit` is the value for the error and the rule. A rule without matched samples has `-np.inf` (suprb/rule/base.py:59-66, 84). -/
def Rule.npFitness {d : Nat} {M : Type} (fit : K → Kind → Pairs K d → Pairs K d → NpFloat K) (ρ : Rule K d M) : NpFloat K :=
  match ρ.st with
  | none => .negInf
  | some s => if s.isFitted then match s.error with
      | some e => fit e ρ.kind ρ.bounds ρ.inputSpace
      | none => .negInf
    else .negInf

end Numbers

/-! ## `sorted` -/

section Sorting

variable {α : Type}

/-- The rest of an ascending run of `list.sort` behind the element `prev`: it ends at the first element smaller than its predecessor. (suprb/optimizer/rule/selection.py:22) -/
def ascending (lt : α → α → Bool) (prev : α) : List α → List α × List α
  | [] => ([], [])
  | b :: l => if lt b prev then ([], b :: l) else ((b :: (ascending lt b l).1), (ascending lt b l).2)

/-- The rest of a descending run of `list.sort` behind `prev`: it ends at the first element which is not smaller than its predecessor. (suprb/optimizer/rule/selection.py:22) -/
def descending (lt : α → α → Bool) (prev : α) : List α → List α × List α
  | [] => ([], [])
  | b :: l => if lt b prev then ((b :: (descending lt b l).1), (descending lt b l).2) else ([], b :: l)

/-- The first run of `list.sort`: ascending, or strictly descending and then reversed; and what is left. (suprb/optimizer/rule/selection.py:22) -/
def firstRun (lt : α → α → Bool) : List α → List α × List α
  | a :: b :: l =>
    if lt b a then
      let r := descending lt b l
      ((a :: b :: r.1).reverse, r.2)
    else
      let r := ascending lt b l
      (a :: b :: r.1, r.2)
  | l => (l, [])

/-- The binary search of `list.sort` for the place of `pivot` between the positions `lo` and `hi`. (suprb/optimizer/rule/selection.py:22) -/
def bisect (lt : α → α → Bool) (pivot : α) (l : List α) (lo hi : Nat) : Nat :=
  if _h : lo < hi then
    let mid := lo + (hi - lo) / 2
    match l[mid]? with
    | none => lo
    | some m => if lt pivot m then bisect lt pivot l lo mid else bisect lt pivot l (mid + 1) hi
  else lo
termination_by hi - lo
decreasing_by
  · omega
  · omega

/-- `list.sort` for the comparison `lt`, CPython's algorithm for lists of fewer than 64 elements (and for longer lists which are a single run): a run at the start, then the
remaining elements are inserted one after the other at the place found by binary search. (suprb/optimizer/rule/selection.py:22) -/
def pySort (lt : α → α → Bool) (l : List α) : List α :=
  (firstRun lt l).2.foldl (fun acc a =>
    let p := bisect lt a acc 0 acc.length
    acc.take p ++ a :: acc.drop p) (firstRun lt l).1

/-- `sorted(l, key=…, reverse=True)`: the list is reversed, sorted and reversed again. (suprb/optimizer/rule/selection.py:22) -/
def pySortedDesc (lt : α → α → Bool) (l : List α) : List α := (pySort lt l.reverse).reverse

end Sorting

section Search

variable {K : Type} [Field K] [LinearOrder K] {d : Nat} {M : Type}

/-- `Fittest()(children)[0]` (suprb/optimizer/rule/selection.py:18-23, suprb/optimizer/rule/es/es.py:129, 131) with fitness values that may be NaN. -/
def npFittestFirst {R : Type} (fitness : R → NpFloat K) (rules : List R) : Except PyErr R :=
  match (pySortedDesc (fun a b => (fitness a).ltB (fitness b)) rules).take 1 with
  | r :: _ => .ok r
  | [] => .error .indexError

/-- The evolution strategy (suprb/optimizer/rule/es/es.py:91-137) on concrete rules with fittest selection, for a rule fitness whose values may be NaN. The fitness is computed from the rule when
it is compared, not stored (`ff` is what the attribute of the rule records). -/
def npES (fit : K → Kind → Pairs K d → Pairs K d → NpFloat K) (L : Learner K d M) (ff : RuleFitness K d) (X : List (Point K d)) (y : List K)
    (op : ESOperator) (delay : Nat) (m : Mutation) (r : K) (fb : Pairs K d) : ESParams (Rule K d M) (Pairs K d) Unit (NpFloat K) where
  operator := op
  delay := delay
  child := childRule L ff X y m r fb
  valid := validRule
  fitness := Rule.npFitness fit
  select := fun l _ => npFittestFirst (Rule.npFitness fit) l

end Search

/-- `VolumeEmary(alpha)` and `VolumeWu(alpha)` (suprb/rule/fitness.py:30-66) with NaN, over the real numbers. -/
noncomputable def volumeNp {d : Nat} (f : Combine) (alpha : ℝ) : ℝ → Kind → Pairs ℝ d → Pairs ℝ d → NpFloat ℝ := fun e k b sp =>
  volumeFitnessNp f alpha (Real.exp (-2 * e)) k b sp

end Suprb
