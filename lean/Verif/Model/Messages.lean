import Verif.Model.Logging

/-!
# The progress messages of `fit`

What `SupRB._log_to_stdout` prints during a training.
-/

set_option autoImplicit false

namespace Suprb

open Spec

variable {K : Type} [Field K] [LinearOrder K] {d : Nat} {M : Type}

/-- The texts (suprb/suprb.py:317, 243, 266): `Found empty bounds for {key}, estimating from data`, `Generating {n_rules} rules`, `Optimizing populations`. -/
inductive NoticeText
  | emptyBounds (key : String)
  | generating (n : Nat)
  | optimizing
deriving DecidableEq

/-- A printed line `[number/total] text` (suprb/suprb.py:301). -/
structure Notice where
  number : Nat
  total : Nat
  text : NoticeText
deriving DecidableEq

/-- suprb/suprb.py:299-302 `_log_to_stdout`; `step` is `step_`. -/
def notify (verbose priority : Int) (step nIter : Nat) (t : NoticeText) : List Notice := if priority ≤ verbose then [⟨step + 1, nIter, t⟩] else []

/-- The message of suprb/suprb.py:243. For `n_rules` equal to zero the call fails before (suprb/suprb.py:219-220). -/
def discoverNotices (verbose : Int) (cfg : SupCfg K) (n step : Nat) : List Notice := if n = 0 then [] else notify verbose 4 step cfg.nIter (.generating n)

/-- suprb/suprb.py:191-204: `fitLoop` with its messages. -/
def loopNotices (verbose : Int) (cfg : SupCfg K) (c : SupComp K d M) (ev : PoolEval K d M) (entropy : Nat) (X : List (Point K d)) (y : List K) :
    List Nat → RunState K d M → Outcome K d M × List Notice
  | [], s => (.done s, [])
  | k :: rest, s0 =>
    let a := discoverNotices verbose cfg cfg.nRules k
    match discoverStep cfg c entropy X y cfg.nRules { s0 with step := k } with
    | (s1, some _) => (.caught s1, a)
    | (s1, none) =>
      let b := notify verbose 4 s1.step cfg.nIter .optimizing
      match composeStep cfg c ev entropy s1 with
      | (s2, some _) => (.caught s2, a ++ b)
      | (s2, none) =>
        match s2.comp.elitist with
        | .error e => (.raised s2 e, a ++ b)
        | .ok none => (.raised s2 .valueError, a ++ b)
        | .ok (some el) =>
          let s3 := { s2 with
            counter := (checkEarlyStopping cfg el.fitnessD s2.counter).1
            trace := s2.trace ++ [.composed s2.pool s2.comp el] }
          if (checkEarlyStopping cfg el.fitnessD s2.counter).2 then (.done s3, a ++ b)
          else
            let r := loopNotices verbose cfg c ev entropy X y rest s3
            (r.1, a ++ b ++ r.2)

/-- suprb/suprb.py:175, 186-204: `runFit` with its messages; `missing` are the keys of the bounds that are estimated from the data (suprb/suprb.py:312-318, see C134). -/
def runNotices (verbose : Int) (missing : List String) (cfg : SupCfg K) (c : SupComp K d M) (ev : PoolEval K d M) (entropy : Nat) (X : List (Point K d)) (y : List K) (step0 : Nat) :
    Outcome K d M × List Notice :=
  let s : RunState K d M := { step := step0, comp := { archive := if cfg.useArchive then some [] else none } }
  let a := missing.flatMap fun key => notify verbose 1 step0 cfg.nIter (.emptyBounds key)
  if 0 < cfg.nInitial then
    let b := discoverNotices verbose cfg cfg.nInitial step0
    match discoverStep cfg c entropy X y cfg.nInitial s with
    | (s', some _) => (.caught s', a ++ b)
    | (s', none) =>
      let r := loopNotices verbose cfg c ev entropy X y (List.range cfg.nIter) s'
      (r.1, a ++ b ++ r.2)
  else
    let r := loopNotices verbose cfg c ev entropy X y (List.range cfg.nIter) s
    (r.1, a ++ r.2)

/-- suprb/suprb.py:124-215 `fit` with its messages. -/
def SupState.fitNotices (verbose : Int) (missing : List String) (cfg : SupCfg K) (c : SupComp K d M) (entropy : Nat) (raw : RawData K d) (doCleanup : Bool) (st0 : SupState K d M) :
    FitResult K d M × List Notice :=
  let st := { st0 with isError := false, elitist := some .placeholder }
  match raw.check with
  | .error e => (⟨st, [], some e⟩, [])
  | .ok (X, y) =>
    let st := { st with pool := [], cleaned := false }
    match runNotices verbose missing cfg c (runEval cfg c X y) entropy X y st0.step with
    | (.caught s, p) => (⟨{ st with isFitted := true, isError := true, pool := s.pool, step := s.step }, s.trace, none⟩, p)
    | (.raised s e, p) => (⟨{ st with pool := s.pool, step := s.step }, s.trace, some e⟩, p)
    | (.done s, p) => (finishFit st doCleanup s, p)

end Suprb
