import Verif.Model.Saga

/-!
# The genetic algorithm with ageing

suprb/optimizer/solution/sas
-/

set_option autoImplicit false

namespace Suprb

variable {K : Type} [Field K] [LinearOrder K]

/-- suprb/optimizer/solution/sas/solution_extension.py:29-41: a solution with an age. -/
structure Aged (K : Type) where
  indiv : Indiv K
  age : Int

/-- `np.median` of a non-empty list: the middle value, or the mean of the two middle values, of the sorted list. (suprb/optimizer/solution/sas/selection.py:33) -/
def npMedian (l : List K) : K :=
  let s := sortedAsc id l
  if l.length % 2 = 1 then s.getD (l.length / 2) 0 else (s.getD (l.length / 2 - 1) 0 + s.getD (l.length / 2) 0) / 2

/-- suprb/optimizer/solution/sas/selection.py:37-44: the new age of a solution with fitness `f`; `n` is the size of the population. -/
def newAge (n topN : Nat) (median topFitness f : K) (age : Int) : Int :=
  let age := age - 1
  let age := if median < f then age + 1 else age - 1
  if topN ≤ n ∧ f < topFitness then age - 2 else age

/-- suprb/optimizer/solution/sas/selection.py:26-45 `Ageing.__call__` with `top_cutoff_mult = 5`; the solution at position -1 of an empty list is an
`IndexError`. The median of an empty population is not used. -/
def ageing (initialSize : Nat) (pop : List (Aged K)) : Except PyErr (List (Aged K)) :=
  if allFitted (pop.map Aged.indiv) then
    let median := npMedian (pop.map fun o => o.indiv.fitnessD)
    let topN := initialSize * 5
    match ((sortedDesc (fun o : Aged K => o.indiv.fitnessD) pop).take topN).getLast? with
    | none => .error .indexError
    | some last =>
      .ok ((pop.map fun o => { o with age := newAge pop.length topN median last.indiv.fitnessD o.indiv.fitnessD o.age }).filter fun o => decide (0 < o.age))
  else .error .attributeError

/-- The draws of one generation: crossover draws for both directions of each pair, uniform draws for each bit of each child. (suprb/optimizer/solution/sas/base.py:74-108) -/
structure SasDraw (K : Type) where
  cross : Nat → Bool → K × CrossDraw K
  flips : Nat → Nat → K

/-- Parameters of suprb/optimizer/solution/sas/base.py:43-69, suprb/optimizer/solution/sas/crossover.py:13-14 and suprb/optimizer/solution/sas/mutation.py:14-15. -/
structure SasCfg (K : Type) where
  initialSize : Nat
  crossRate : K
  mutRate : K

/-- `fit` of a solution with an age. (suprb/optimizer/solution/sas/solution_extension.py:43-50) -/
def Aged.evaluate (o : Aged K) : Prog K (Aged K) := (o.indiv.evaluate).bind fun σ => .ret { o with indiv := σ }

/-- State of the loop: the population and the sizes of the populations that were selected from. (suprb/optimizer/solution/sas/base.py:71-108) -/
structure SasState (K : Type) where
  pop : List (Aged K)
  sizes : List Nat

/-- suprb/optimizer/solution/sas/base.py:74-108: one generation. Mutated children are clones, which get the default age 3
(suprb/optimizer/solution/sas/solution_extension.py:38, 52-69). -/
def sasStep (cfg : SasCfg K) (s : SasState K) (d : SasDraw K) : Prog K (SasState K) := do
  let parents ← Prog.lift (ageing cfg.initialSize s.pop)
  let children ← Prog.lift (sagaChildren (fun k b A B => crossoverA cfg.crossRate (d.cross k b).1 (d.cross k b).2 A B) 0 (pairs (parents.map Aged.indiv)))
  let pop ← Prog.each Aged.evaluate (parents ++ (gaMutate cfg.mutRate d.flips children).map fun σ => ⟨σ, 3⟩)
  pure ⟨pop, s.sizes ++ [s.pop.length]⟩

/-- suprb/optimizer/solution/sas/base.py:71-108 `_optimize`. -/
def sas (cfg : SasCfg K) (draws : List (SasDraw K)) (pop : List (Aged K)) : Prog K (SasState K) := do
  let pop ← Prog.each Aged.evaluate pop
  Prog.forEach (sasStep cfg) draws ⟨pop, []⟩

end Suprb
