import Verif.Model.Solution

/-!
# Model of `suprb/optimizer/solution/base.py`, `suprb/optimizer/solution/archive.py` and `suprb/optimizer/solution/ga/`

All solutions of a composition share the pool of the model (one Python list that is only extended), so an individual is its genome and the
attributes of its last evaluation. The evaluation of a genome against the current pool and training data is a function `ev`
(instantiated with `Solution.fit` by `evalGenome`). Random draws are explicit arguments. Object identity is modelled separately
in `Verif.Model.Heap`.
-/

set_option autoImplicit false

namespace Suprb

variable {K : Type} [Field K] [LinearOrder K] {d : Nat} {M : Type}

/-- A member of a population: suprb/solution/base.py:42-52 without the shared pool, mixing model and fitness. -/
structure Indiv (K : Type) where
  genome : List Bool
  st : Option (SolState K) := none
  deriving DecidableEq

/-- Evaluation of a genome: what `Solution.fit` stores (suprb/solution/base.py:54-61). -/
abbrev Eval (K : Type) := List Bool → Except PyErr (SolState K)

/-- suprb/solution/base.py:54-61 for a genome, the current pool and the training data. -/
def evalGenome (L : Learner K d M) (P : MixParams K) (filt : SubFilter K d M) (sf : SolFitness K)
    (X : List (Spec.Point K d)) (y : List K) (pool : List (Rule K d M)) : Eval K := fun g =>
  match Solution.fit L P filt sf X y { genome := g, pool := pool } with
  | .error e => .error e
  | .ok σ =>
    match σ.st with
    | none => .error .attributeError
    | some s => .ok s

/-- `solution.fit(X, y)` (suprb/solution/base.py:54-61). -/
def Indiv.fit (ev : Eval K) (σ : Indiv K) : Except PyErr (Indiv K) :=
  match ev σ.genome with
  | .error e => .error e
  | .ok s => .ok { σ with st := some s }

/-- suprb/optimizer/solution/base.py:141-142 `fit_population` and suprb/optimizer/solution/archive.py:20-21 `refit`. -/
def fitAll (ev : Eval K) (pop : List (Indiv K)) : Except PyErr (List (Indiv K)) := pop.mapM (Indiv.fit ev)

/-- suprb/solution/base.py:81-98 `clone(genome=…)`: the fitted attributes are not copied. -/
def Indiv.withGenome (_ : Indiv K) (g : List Bool) : Indiv K := { genome := g }

/-- suprb/solution/base.py:81-98 `clone()`: copies everything; `getattr` fails if the solution is not fitted. -/
def Indiv.clone (σ : Indiv K) : Except PyErr (Indiv K) :=
  match σ.st with
  | none => .error .attributeError
  | some s => .ok { genome := σ.genome, st := some s }

/-- `fitness_` with a dummy for solutions that were not fitted (guarded by `allFitted`). (suprb/optimizer/solution/base.py:131) -/
def Indiv.fitnessD (σ : Indiv K) : K := (σ.st.map SolState.fitness).getD 0

/-- All members have a `fitness_` attribute. (suprb/optimizer/solution/base.py:131; suprb/solution/base.py:59-60) -/
def allFitted (pop : List (Indiv K)) : Bool := pop.all fun σ => σ.st.isSome

/-- `max(population, key=lambda i: i.fitness_)` (suprb/optimizer/solution/base.py:131, suprb/optimizer/solution/archive.py:39). -/
def fittestIndiv (pop : List (Indiv K)) : Except PyErr (Indiv K) :=
  if allFitted pop then
    match pyMax Indiv.fitnessD pop with
    | none => .error .valueError
    | some b => .ok b
  else .error .attributeError

/-! ## The elitist archive -/

/-- suprb/optimizer/solution/archive.py:23-29 `pad` for one solution and a pool of `n` rules; `np.pad` rejects a negative width. -/
def archivePad1 (n : Nat) (σ : Indiv K) : Except PyErr (Indiv K) :=
  if n < σ.genome.length then .error .valueError
  else .ok { σ with genome := σ.genome ++ List.replicate (n - σ.genome.length) false }

/-- suprb/optimizer/solution/archive.py:23-29 `pad`. -/
def archivePad (n : Nat) (arch : List (Indiv K)) : Except PyErr (List (Indiv K)) := arch.mapM (archivePad1 n)

/-- suprb/optimizer/solution/archive.py:38-45 `Elitist.__call__`. suprb/optimizer/solution/saga3/archive.py:14-21 and suprb/optimizer/solution/sas/archive.py:14-21 have the same body. -/
def archiveUpdate (arch pop : List (Indiv K)) : Except PyErr (List (Indiv K)) :=
  match fittestIndiv pop with
  | .error e => .error e
  | .ok best =>
    match arch with
    | [] =>
      match best.clone with
      | .error e => .error e
      | .ok b => .ok [b]
    | a :: rest =>
      match a.st with
      | none => .error .attributeError
      | some s =>
        if s.fitness < best.fitnessD then
          match best.clone with
          | .error e => .error e
          | .ok b => .ok (rest ++ [b])
        else .ok (a :: rest)

/-! ## Population based composition -/

/-- The two initialisations (suprb/solution/initialization.py:43-84). -/
inductive InitOp (K : Type)
  | zero
  | random (p : K)

/-- The `n` bits the initialisation appends or starts with (suprb/solution/initialization.py:48, 55, 73, 81); `u i` is the uniform draw for bit `i`. -/
def InitOp.bits (op : InitOp K) (u : Nat → K) (n : Nat) : List Bool :=
  match op with
  | .zero => List.replicate n false
  | .random p => randomBits p ((List.range n).map u)

/-- `self.init(self.pool_, rs)` (suprb/solution/initialization.py:46-52, 71-77) for a pool of `n` rules. suprb/optimizer/solution/sas/initialization.py:34-40 and suprb/optimizer/solution/saga3/initialization.py:34-40 do the same for their kind of solution. -/
def InitOp.make (op : InitOp K) (u : Nat → K) (n : Nat) : Indiv K := { genome := op.bits u n }

/-- `self.init.pad(solution, rs)` (suprb/solution/initialization.py:54-56, 79-84) for a pool of `n` rules. suprb/optimizer/solution/sas/initialization.py:42-47 and suprb/optimizer/solution/saga3/initialization.py:42-47 are copies. -/
def InitOp.pad (op : InitOp K) (u : Nat → K) (n : Nat) (σ : Indiv K) : Except PyErr (Indiv K) :=
  if n < σ.genome.length then .error .valueError
  else .ok { σ with genome := σ.genome ++ op.bits u (n - σ.genome.length) }

/-- State of a population based composition between calls: `population_` (missing before the first call) and the archive's `population_`
(`none` for `archive=None`). (suprb/optimizer/solution/base.py:62-66, 125-130) -/
structure CompState (K : Type) where
  population : Option (List (Indiv K)) := none
  archive : Option (List (Indiv K)) := some []
  deriving DecidableEq

/-- Parameters of suprb/optimizer/solution/base.py:68-86. -/
structure CompCfg (K : Type) where
  populationSize : Nat
  warmStart : Bool
  init : InitOp K

/-- The metaheuristic specific part `_optimize` (suprb/optimizer/solution/base.py:117-120): from the population after initialisation or padding to the
final population. Its random draws are fixed in the function. The first argument is the size of the pool. -/
abbrev Strategy (K : Type) := Nat → Eval K → List (Indiv K) → Except PyErr (List (Indiv K))

/-- suprb/optimizer/solution/base.py:133-139 `_init_population`. `draw k` are the uniform numbers of the `k`-th call. -/
def initPopulation (cfg : CompCfg K) (draw : Nat → Nat → K) (n : Nat) (old : Option (List (Indiv K))) :
    Except PyErr (List (Indiv K)) :=
  match old with
  | some (σ :: rest) =>
    if cfg.warmStart then
      ((σ :: rest).zipIdx).mapM fun (τ, k) => cfg.init.pad (draw k) n τ
    else .ok ((List.range cfg.populationSize).map fun k => cfg.init.make (draw k) n)
  | _ => .ok ((List.range cfg.populationSize).map fun k => cfg.init.make (draw k) n)

/-- suprb/optimizer/solution/base.py:100-103: padding and re-evaluating the archive. The archive's `pool_` is the shared list after the first call and not
read before (its population is empty then). -/
def archivePrepare (ev : Eval K) (n : Nat) : Option (List (Indiv K)) → Except PyErr (Option (List (Indiv K)))
  | none => .ok none
  | some arch => do
    let padded ← archivePad n arch
    let refit ← fitAll ev padded
    pure (some refit)

/-- suprb/optimizer/solution/base.py:110-113: storing the new best solution. -/
def archiveStore (ev : Eval K) (pop : List (Indiv K)) : Option (List (Indiv K)) → Except PyErr (Option (List (Indiv K)))
  | none => .ok none
  | some arch => do
    let updated ← archiveUpdate arch pop
    let refit ← fitAll ev updated
    pure (some refit)

/-- suprb/optimizer/solution/base.py:88-115 `optimize`, for a pool of `n` rules. -/
def compOptimize (cfg : CompCfg K) (draw : Nat → Nat → K) (strat : Strategy K) (ev : Eval K) (n : Nat)
    (s : CompState K) : Except PyErr (CompState K) := do
  let pop ← initPopulation cfg draw n s.population
  let arch ← archivePrepare ev n s.archive
  let pop' ← if n = 0 then (do
      let σ ← (cfg.init.make (draw cfg.populationSize) n).fit ev
      pure [σ])
    else strat n ev pop
  let arch' ← archiveStore ev pop' arch
  pure { population := some pop', archive := arch' }

/-- suprb/optimizer/solution/base.py:122-131 `elitist`. -/
def CompState.elitist (s : CompState K) : Except PyErr (Option (Indiv K)) :=
  match s.population with
  | some (σ :: rest) =>
    match fittestIndiv ((σ :: rest) ++ s.archive.getD []) with
    | .error e => .error e
    | .ok b => .ok (some b)
  | _ => .ok none

/-! ## Genetic algorithm -/

/-- suprb/optimizer/solution/ga/crossover.py:34-36 `_single_point` on genomes. -/
def singlePoint (a b : List Bool) (i : Nat) : List Bool := a.take i ++ b.drop i

/-- suprb/optimizer/solution/ga/crossover.py:38-43 `NPoint._crossover` for the drawn cut points. -/
def nPoint : List Nat → Indiv K → Indiv K → Indiv K
  | [], A, _ => A
  | i :: rest, A, B =>
    let A' := A.withGenome (singlePoint A.genome B.genome i)
    nPoint rest A' (B.withGenome (singlePoint B.genome A'.genome i))

/-- suprb/optimizer/solution/ga/crossover.py:49-55 `Uniform._crossover`, `u` the uniform draws. The Python array has dtype float; only its truth values are
used afterwards. A boolean index of a different length is an `IndexError`. -/
def uniformCross (u : Nat → K) (a b : List Bool) : Except PyErr (List Bool) :=
  if b.length ≠ a.length then .error .indexError
  else .ok ((a.zip b).mapIdx fun i p => if u i ≤ 1 / 2 then p.1 else p.2)

/-- The crossover operators with their draws. (suprb/optimizer/solution/ga/crossover.py:16, 39, 50) -/
inductive CrossDraw (K : Type)
  | nPoint (indices : List Nat)
  | uniform (u : Nat → K)

/-- suprb/optimizer/solution/ga/crossover.py:15-20 `__call__`: `r` is the draw compared with the crossover rate. -/
def crossover (rate r : K) (c : CrossDraw K) (A B : Indiv K) : Except PyErr (Indiv K) :=
  if r < rate then
    match c with
    | .nPoint indices => .ok (nPoint indices A B)
    | .uniform u =>
      match uniformCross u A.genome B.genome with
      | .error e => .error e
      | .ok g => .ok (A.withGenome g)
  else .ok A

/-- suprb/optimizer/solution/ga/mutation.py:23-26 `BitFlips.__call__`; `u i` is the uniform draw for bit `i`. The copies suprb/optimizer/solution/saga1/mutation.py:23-26 (the rate is an argument) and suprb/optimizer/solution/sas/mutation.py:24-27 compute the same. -/
def bitFlips (rate : K) (u : Nat → K) (σ : Indiv K) : Indiv K :=
  σ.withGenome (σ.genome.mapIdx fun i b => xor b (decide (u i < rate)))

/-- `random_state.choice(population, size=…)`: members at the drawn positions. (suprb/optimizer/solution/ga/selection.py:20, 32, 42, 52) -/
def choose (pop : List (Indiv K)) (idx : List Nat) : List (Indiv K) := idx.filterMap fun i => pop[i]?

/-- suprb/optimizer/solution/ga/selection.py:16-20 `Random`. The copies suprb/optimizer/solution/saga1/selection.py:16-20 and suprb/optimizer/solution/saga2/selection.py:16-20 are identical. -/
def selectRandom (pop : List (Indiv K)) (idx : List Nat) : Except PyErr (List (Indiv K)) :=
  if pop = [] ∧ idx ≠ [] then .error .valueError else .ok (choose pop idx)

/-- suprb/optimizer/solution/ga/selection.py:23-32: weights of `RouletteWheel`; `none` is numpy's uniform default. -/
def rouletteWeights (pop : List (Indiv K)) : Except PyErr (Option (List K)) :=
  if allFitted pop then
    let sum := (pop.map Indiv.fitnessD).sum
    if sum ≠ 0 then .ok (some (pop.map fun σ => σ.fitnessD / sum)) else .ok none
  else .error .attributeError

/-- suprb/optimizer/solution/ga/selection.py:23-32 `RouletteWheel`; numpy rejects negative probabilities. The copies suprb/optimizer/solution/saga1/selection.py:23-32 and suprb/optimizer/solution/saga2/selection.py:23-32 are identical. -/
def selectRoulette (pop : List (Indiv K)) (idx : List Nat) : Except PyErr (List (Indiv K)) :=
  match rouletteWeights pop with
  | .error e => .error e
  | .ok none => selectRandom pop idx
  | .ok (some w) => if w.any (fun x => decide (x < 0)) then .error .valueError else selectRandom pop idx

/-- suprb/optimizer/solution/ga/selection.py:40-41: ranks from the second `argsort` (`q` is a list of positions), plus one, divided by their sum. -/
def rankWeights (q : List Nat) : List K :=
  let ranks : List Nat := q.map (· + 1)
  ranks.map fun r : Nat => (r : K) / ((ranks.sum : Nat) : K)

/-- suprb/optimizer/solution/ga/selection.py:35-42 `LinearRank`. The copies suprb/optimizer/solution/saga1/selection.py:35-42 and suprb/optimizer/solution/saga2/selection.py:35-42 are identical. -/
def selectLinearRank (pop : List (Indiv K)) (idx : List Nat) : Except PyErr (List (Indiv K)) :=
  if allFitted pop then selectRandom pop idx else .error .attributeError

/-- suprb/optimizer/solution/ga/selection.py:45-52 `Tournament`: one list of drawn positions per tournament. The copies suprb/optimizer/solution/saga1/selection.py:45-52 and suprb/optimizer/solution/saga2/selection.py:45-52 are identical. -/
def selectTournament (pop : List (Indiv K)) (idx : List (List Nat)) : Except PyErr (List (Indiv K)) :=
  idx.mapM fun js =>
    match selectRandom pop js with
    | .error e => .error e
    | .ok competitors => fittestIndiv competitors

/-- The selection operators with the draws of one call. (suprb/optimizer/solution/ga/selection.py:16-52) -/
inductive SelDraw
  | random (idx : List Nat)
  | roulette (idx : List Nat)
  | linearRank (idx : List Nat)
  | tournament (idx : List (List Nat))

/-- suprb/optimizer/solution/ga/selection.py: the four `__call__` methods. (suprb/optimizer/solution/ga/selection.py:19-20, 26-32, 38-42, 51-52) -/
def SelDraw.run (s : SelDraw) (pop : List (Indiv K)) : Except PyErr (List (Indiv K)) :=
  match s with
  | .random idx => selectRandom pop idx
  | .roulette idx => selectRoulette pop idx
  | .linearRank idx => selectLinearRank pop idx
  | .tournament idx => selectTournament pop idx

/-- suprb/optimizer/solution/ga/base.py:81-82: consecutive pairs; an odd last element is dropped. -/
def pairs {α : Type} : List α → List (α × α)
  | a :: b :: rest => (a, b) :: pairs rest
  | _ => []

/-- The draws of one generation: selection, one crossover draw for each direction of each pair, uniform draws for each bit of each child. (suprb/optimizer/solution/ga/base.py:71-107) -/
structure GADraw (K : Type) where
  sel : SelDraw
  cross : Nat → Bool → K × CrossDraw K
  flips : Nat → Nat → K

/-- Parameters of suprb/optimizer/solution/ga/base.py:37-64; `nElitists` is `int(population_size * elitist_ratio)` (suprb/optimizer/solution/ga/base.py:69). -/
structure GACfg (K : Type) where
  populationSize : Nat
  nElitists : Nat
  crossRate : K
  mutRate : K

/-- suprb/optimizer/solution/ga/base.py:84-95: both children of every pair, in order. -/
def gaCross (rate : K) (draw : Nat → Bool → K × CrossDraw K) (ps : List (Indiv K × Indiv K)) : Except PyErr (List (Indiv K)) := do
  let two ← (ps.zipIdx).mapM fun ((A, B), k) => do
    let c1 ← crossover rate (draw k true).1 (draw k true).2 A B
    let c2 ← crossover rate (draw k false).1 (draw k false).2 B A
    pure [c1, c2]
  pure two.flatten

/-- suprb/optimizer/solution/ga/base.py:96-98: the last parent of an odd population. -/
def gaOdd (size : Nat) (parents children : List (Indiv K)) : Except PyErr (List (Indiv K)) :=
  if size % 2 ≠ 0 then
    match parents.getLast? with
    | none => .error .indexError
    | some p => .ok (children ++ [p])
  else .ok children

/-- suprb/optimizer/solution/ga/base.py:101: mutation of all children. -/
def gaMutate (rate : K) (flips : Nat → Nat → K) (children : List (Indiv K)) : List (Indiv K) :=
  (children.zipIdx).map fun (c, k) => bitFlips rate (flips k) c

/-- suprb/optimizer/solution/ga/base.py:72-107: one generation. -/
def gaStep (cfg : GACfg K) (dr : GADraw K) (ev : Eval K) (pop : List (Indiv K)) : Except PyErr (List (Indiv K)) :=
  if allFitted pop then do
    let elitists := (sortedDesc Indiv.fitnessD pop).take cfg.nElitists
    let parents ← dr.sel.run pop
    let children ← gaCross cfg.crossRate dr.cross (pairs parents)
    let children' ← gaOdd cfg.populationSize parents children
    fitAll ev (elitists ++ gaMutate cfg.mutRate dr.flips children')
  else .error .attributeError

/-- The generations (suprb/optimizer/solution/ga/base.py:71), one `GADraw` for each. -/
def gaLoop (cfg : GACfg K) (ev : Eval K) : List (GADraw K) → List (Indiv K) → Except PyErr (List (Indiv K))
  | [], pop => .ok pop
  | dr :: rest, pop =>
    match gaStep cfg dr ev pop with
    | .error e => .error e
    | .ok pop' => gaLoop cfg ev rest pop'

/-- suprb/optimizer/solution/ga/base.py:66-107 `GeneticAlgorithm._optimize`. -/
def gaOptimize (cfg : GACfg K) (draws : List (GADraw K)) : Strategy K := fun _ ev pop =>
  match fitAll ev pop with
  | .error e => .error e
  | .ok pop' => gaLoop cfg ev draws pop'

end Suprb
