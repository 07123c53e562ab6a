import Verif.Lemmas.OrderSas
import Verif.Props.OrderParts

/-!
# The order of the fitness values and the other composition methods

C149 for the genetic algorithm with ageing and for saga2.
-/

set_option autoImplicit false
set_option linter.unusedSectionVars false

namespace Suprb

open Suprb.Spec (resolved)

variable {K : Type} [Field K] [LinearOrder K] [IsStrictOrderedRing K]

/-- The same solution of the same age whose fitness was replaced. -/
def Spec.regradedAged (hs : K → K) (o : Aged K) : Aged K := ⟨⟨o.indiv.genome, o.indiv.st.map (resolved hs)⟩, o.age⟩

/-- C149 (partial): the genetic algorithm with ageing gives the same solutions of the same ages if all fitness values are replaced by a strictly increasing function of them: it compares them with
their median, and the median separates the values in the same way. All errors are the same too. Missing: the run of the model around it, see `C149_parts_partial`. -/
theorem C149_sas_partial (hs : K → K) (hms : StrictMono hs) (cfg : SasCfg K) (draws : List (SasDraw K)) (ev : Eval K) (pop : List (Aged K)) :
    (sas cfg draws (pop.map (Spec.regradedAged hs))).run (fun g => (ev g).map (resolved hs)) =
      ((sas cfg draws pop).run ev).map fun s => ⟨s.pop.map (Spec.regradedAged hs), s.sizes⟩ := by
  have h := sas_psim hms cfg draws pop ev
  rw [show Spec.regradedAged hs = Aged.mapSt (resolved hs) from rfl, show (fun g => (ev g).map (resolved hs)) = mapEval (resolved hs) ev from rfl]
  revert h
  generalize (sas cfg draws pop).run ev = x
  generalize (sas cfg draws (pop.map (Aged.mapSt (resolved hs)))).run (mapEval (resolved hs) ev) = x'
  intro h
  cases h with
  | error e => rfl
  | ok a b hab => rw [hab]; rfl

/-- C149 (refuted): saga2 adapts the crossover rate of a pair to the distance of its fitness from the mean of the population. With the third powers of the fitness values the rate of the same pair is
much smaller. -/
theorem C149_saga2_refuted :
    ∃ st st' : FitStats, fitStats [0, 1, 3] = .ok st ∧ fitStats ([0, 1, 3].map (· ^ 3)) = .ok st' ∧
      saga2CrossRate (some 0) 1 st 0 1 = some (3 / 8) ∧ saga2CrossRate (some 0) 1 st' (0 ^ 3) (1 ^ 3) = some (3 / 56) := by
  refine ⟨⟨4 / 3, 0, 3⟩, ⟨28 / 3, 0, 27⟩, ?_, ?_, ?_, ?_⟩
  · norm_num [fitStats, npMin, npMax, mean]
  · norm_num [fitStats, npMin, npMax, mean]
  · norm_num [saga2CrossRate]
  · norm_num [saga2CrossRate]

/-- One generation of four solutions, two of which die. -/
example :
    let ev : Eval ℚ := fun g => .ok ⟨1, 1, g.count true, g.count true⟩
    let pop : List (Aged ℚ) := [⟨⟨[true, true], none⟩, 1⟩, ⟨⟨[true, false], none⟩, 3⟩, ⟨⟨[false, false], none⟩, 2⟩, ⟨⟨[false, true], none⟩, 1⟩]
    let draws : List (SasDraw ℚ) := [⟨fun _ _ => (0, .nPoint [1]), fun _ _ => 1⟩]
    StrictMono (fun x : ℚ => 2 * x - 7) ∧
      ((sas ⟨1, 9 / 10, 1 / 100⟩ draws pop).run ev).toOption.map (fun s => s.pop.map fun o => (o.indiv.genome, o.age)) =
        some [([true, true], 1), ([true, false], 1), ([true, false], 3), ([true, true], 3)] := by
  refine ⟨fun a b h => by dsimp only; linarith, ?_⟩
  decide +kernel

end Suprb
