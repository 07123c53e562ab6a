import Verif.Model.Composition

/-!
# Programs that evaluate solutions

The metaheuristics read solutions only through their evaluation. A program is a computation that may evaluate genomes and fail; `run` executes it for a given
evaluation. Using programs (instead of functions of the evaluation) makes visible which genomes are evaluated.
-/

set_option autoImplicit false

namespace Suprb

variable {K : Type} [Field K] [LinearOrder K]

/-- Programs: the constructors are the end, an exception, and the evaluation of a genome (`Solution.fit`, suprb/solution/base.py:54-61). -/
inductive Prog (K : Type) (α : Type) where
  | ret (a : α)
  | err (e : PyErr)
  | eval (g : List Bool) (k : SolState K → Prog K α)

namespace Prog

variable {α β : Type}

/-- Sequential composition. (the statements of an `_optimize`, suprb/optimizer/solution/base.py:117-120) -/
def bind : Prog K α → (α → Prog K β) → Prog K β
  | ret a, f => f a
  | err e, _ => err e
  | eval g k, f => eval g fun s => bind (k s) f

instance : Monad (Prog K) where
  pure := ret
  bind := bind

/-- Execution for an evaluation of genomes. (suprb/optimizer/solution/base.py:105-106) -/
def run (ev : Eval K) : Prog K α → Except PyErr α
  | ret a => .ok a
  | err e => .error e
  | eval g k =>
    match ev g with
    | .error e => .error e
    | .ok s => run ev (k s)

/-- A computation without evaluations. (suprb/optimizer/solution/base.py:117-120) -/
def lift : Except PyErr α → Prog K α
  | .ok a => ret a
  | .error e => err e

/-- `for x in l: acc = f(acc, x)` (e.g. suprb/optimizer/solution/ga/base.py:84, 94) -/
def forEach (f : α → β → Prog K α) : List β → α → Prog K α
  | [], a => ret a
  | b :: rest, a => (f a b).bind (forEach f rest)

/-- `[f(x) for x in l]` (e.g. suprb/optimizer/solution/base.py:141-142) -/
def each (f : α → Prog K β) : List α → Prog K (List β)
  | [] => ret []
  | a :: rest => (f a).bind fun b => (each f rest).bind fun bs => ret (b :: bs)

end Prog

/-- `solution.fit(X, y)` (suprb/solution/base.py:54-61). -/
def Indiv.evaluate (σ : Indiv K) : Prog K (Indiv K) := .eval σ.genome fun s => .ret { σ with st := some s }

/-- suprb/optimizer/solution/base.py:141-142 `fit_population`. -/
def evaluateAll (pop : List (Indiv K)) : Prog K (List (Indiv K)) := Prog.each Indiv.evaluate pop

/-- The strategy given by a program for a pool of `n` rules and the initial population. (suprb/optimizer/solution/base.py:105-106) -/
def Prog.strategy (p : Nat → List (Indiv K) → Prog K (List (Indiv K))) : Strategy K := fun n ev pop => (p n pop).run ev

/-- Quotients as numpy computes them: a division by zero is no exception. (suprb/optimizer/solution/saga1/base.py:148; suprb/optimizer/solution/aco/builder.py:83, 197) -/
inductive NpFloat (K : Type)
  | nan | negInf | posInf | val (x : K)

/-- `a / b` for numpy numbers. (suprb/optimizer/solution/saga1/base.py:148) -/
def npDiv (a b : K) : NpFloat K :=
  if b = 0 then (if a = 0 then .nan else if 0 < a then .posInf else .negInf) else .val (a / b)

/-- `x > c`; comparisons with NaN are false. (suprb/optimizer/solution/saga1/base.py:151, 157) -/
def NpFloat.gt (x : NpFloat K) (c : K) : Bool :=
  match x with
  | .nan => false
  | .negInf => false
  | .posInf => true
  | .val x => decide (c < x)

/-- `x < c` (suprb/optimizer/solution/saga1/base.py:151, 157) -/
def NpFloat.lt (x : NpFloat K) (c : K) : Bool :=
  match x with
  | .nan => false
  | .negInf => true
  | .posInf => false
  | .val x => decide (x < c)

/-- Mean of a list (`np.mean`); lists are not empty where it is used. (suprb/optimizer/solution/saga1/base.py:148) -/
def mean (l : List K) : K := l.sum / (l.length : K)

/-- The values `fitness_` of a population. (suprb/optimizer/solution/saga1/base.py:148) -/
def fitnesses (pop : List (Indiv K)) : Except PyErr (List K) :=
  if allFitted pop then .ok (pop.map Indiv.fitnessD) else .error .attributeError

/-- `np.max` of a list; an exception for the empty one. (suprb/optimizer/solution/saga1/base.py:148) -/
def npMax : List K → Except PyErr K
  | [] => .error .valueError
  | a :: as => .ok (as.foldl max a)

/-- `np.min` of a list; an exception for the empty one. (suprb/optimizer/solution/saga1/base.py:148) -/
def npMin : List K → Except PyErr K
  | [] => .error .valueError
  | a :: as => .ok (as.foldl min a)

end Suprb
