import Verif.Model.SupRB

/-!
# The warning about an empty population

When `SupRB._discover_rules` warns that there are no rules, and when solution composition is called.
-/

set_option autoImplicit false

namespace Suprb

open Spec

variable {K : Type} [Field K] [LinearOrder K] {d : Nat} {M : Type}

/-- What happens in this respect during `fit`: the `PopulationEmptyWarning` ("The population is empty, even after generating rules. Solution optimization will be skipped.", suprb/suprb.py:257-261), and calls of the optimizer of solution
composition with a number of rules in the pool (suprb/suprb.py:272). -/
inductive Mark
  | warning
  | composition (poolSize : Nat)
deriving DecidableEq

/-- suprb/suprb.py:257-261: after rules have been added to the pool. -/
def warnEmpty (s : RunState K d M) : List Mark := if s.pool.isEmpty then [.warning] else []

/-- suprb/suprb.py:269-272: the optimizer is called if there is a seed. -/
def callMark (cfg : SupCfg K) (entropy : Nat) (s : RunState K d M) : List Mark := if ((compositionSeeds entropy cfg.nIter)[s.step]?).isSome then [.composition s.pool.length] else []

/-- suprb/suprb.py:191-204: `fitLoop` with the warnings and calls. -/
def loopMarks (cfg : SupCfg K) (c : SupComp K d M) (ev : PoolEval K d M) (entropy : Nat) (X : List (Point K d)) (y : List K) :
    List Nat → RunState K d M → Outcome K d M × List Mark
  | [], s => (.done s, [])
  | k :: rest, s0 =>
    match discoverStep cfg c entropy X y cfg.nRules { s0 with step := k } with
    | (s1, some _) => (.caught s1, [])
    | (s1, none) =>
      let a := warnEmpty s1 ++ callMark cfg entropy s1
      match composeStep cfg c ev entropy s1 with
      | (s2, some _) => (.caught s2, a)
      | (s2, none) =>
        match s2.comp.elitist with
        | .error e => (.raised s2 e, a)
        | .ok none => (.raised s2 .valueError, a)
        | .ok (some el) =>
          let s3 := { s2 with
            counter := (checkEarlyStopping cfg el.fitnessD s2.counter).1
            trace := s2.trace ++ [.composed s2.pool s2.comp el] }
          if (checkEarlyStopping cfg el.fitnessD s2.counter).2 then (.done s3, a)
          else
            let r := loopMarks cfg c ev entropy X y rest s3
            (r.1, a ++ r.2)

/-- suprb/suprb.py:186-204: `runFit` with the warnings and calls. -/
def runMarks (cfg : SupCfg K) (c : SupComp K d M) (ev : PoolEval K d M) (entropy : Nat) (X : List (Point K d)) (y : List K) (step0 : Nat) : Outcome K d M × List Mark :=
  let s : RunState K d M := { step := step0, comp := { archive := if cfg.useArchive then some [] else none } }
  if 0 < cfg.nInitial then
    match discoverStep cfg c entropy X y cfg.nInitial s with
    | (s', some _) => (.caught s', [])
    | (s', none) =>
      let r := loopMarks cfg c ev entropy X y (List.range cfg.nIter) s'
      (r.1, warnEmpty s' ++ r.2)
  else loopMarks cfg c ev entropy X y (List.range cfg.nIter) s

end Suprb
