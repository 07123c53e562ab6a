import Verif.Model.Prog
import Verif.Model.Matching
import Mathlib.Analysis.SpecialFunctions.Exp

/-!
# Bee colony, particle swarm, grey wolves and random search

suprb/optimizer/solution/abc, pso, gwo and rs. `np.float`, `np.int` and `np.bool` are the deprecated aliases of numpy 1.22 (requirements.txt:1); newer versions
of numpy raise an `AttributeError` there. The binarising sigmoid function is a parameter `sig`; `sigmoid` below is the one of the code.
-/

set_option autoImplicit false

namespace Suprb

variable {K : Type} [Field K] [LinearOrder K]

/-- suprb/optimizer/solution/utils.py:6-7 `sigmoid` with the default scale and offset. -/
noncomputable def sigmoid (x : ℝ) : ℝ := 1 / (1 + Real.exp (-10 * (x - 1 / 2)))

/-- suprb/optimizer/solution/utils.py:10-11 `sigmoid_binarize`; `u i` are the uniform draws. -/
def sigmoidBinarize (sig : K → K) (u : Nat → K) (x : List K) : List Bool := x.mapIdx fun i v => decide (u i ≤ sig v)

/-- `genome.astype(float)` at one position. (suprb/optimizer/solution/abc/food.py:31-32; suprb/optimizer/solution/gwo/position.py:38-39, 55-56; suprb/optimizer/solution/pso/movement.py:64, 105) -/
def bitVal (b : Bool) : K := if b then 1 else 0

/-! ## Bee colony -/

/-- suprb/optimizer/solution/abc/food.py:11-18 `FoodSource`. -/
structure Food (K : Type) where
  sol : Indiv K
  trials : Nat

/-- The food source updates (suprb/optimizer/solution/abc/food.py:27-80) with their draws. -/
inductive FoodDraw (K : Type)
  | sigmoid (rand u : Nat → K)
  | bitwise (rand : Nat → Bool)
  | flips (dims : List Nat)

/-- suprb/optimizer/solution/abc/food.py:30-38, 48-55, 69-80: the genome of the candidate. Different lengths are an error (broadcasting of arrays of length one is not modelled). The
bitwise variant yields an integer array; only its truth values are used. -/
def FoodDraw.genome (sig : K → K) (d : FoodDraw K) (own other : List Bool) : Except PyErr (List Bool) :=
  if own.length ≠ other.length then .error .valueError
  else
    match d with
    | .sigmoid rand u => .ok (sigmoidBinarize sig u (own.mapIdx fun i b => bitVal b + rand i * (bitVal b - bitVal (other.getD i false))))
    | .bitwise rand => .ok (own.mapIdx fun i b => xor b (rand i && (b || other.getD i false)))
    | .flips dims => .ok (own.mapIdx fun i b => if dims.contains i then other.getD i false else b)

/-- suprb/optimizer/solution/abc/base.py:63-74 `greedy_update`. -/
def greedyUpdate : List (Indiv K) → List (Food K) → List (Food K)
  | new :: ns, f :: fs => (if f.sol.fitnessD < new.fitnessD then ⟨new, 0⟩ else ⟨f.sol, f.trials + 1⟩) :: greedyUpdate ns fs
  | _, fs => fs

/-- suprb/optimizer/solution/abc/base.py:86-88, 99-101: one candidate per food source, each evaluated. `others` are the drawn positions. -/
def abcCandidates (sig : K → K) (sources : List (Food K)) (others : List Nat) (d : Nat → FoodDraw K) : Prog K (List (Indiv K)) :=
  Prog.each (fun x : (Food K × Nat) × Nat =>
    match sources[x.1.2]? with
    | none => .err .indexError
    | some other =>
      (Prog.lift ((d x.2).genome sig x.1.1.sol.genome other.sol.genome)).bind fun g => (x.1.1.sol.withGenome g).evaluate) (sources.zip others).zipIdx

/-- The draws of one iteration. (suprb/optimizer/solution/abc/base.py:81-113) -/
structure ABCDraw (K : Type) where
  others1 : List Nat
  food1 : Nat → FoodDraw K
  others2 : List Nat
  food2 : Nat → FoodDraw K
  scout : Nat → Nat → K

/-- suprb/optimizer/solution/abc/base.py:94-98: the roulette wheel. A zero sum gives NaN, negative weights are no probabilities; numpy rejects both. -/
def abcWeights (sources : List (Food K)) : Except PyErr (List K) :=
  let ws := sources.map fun f => f.sol.fitnessD
  if ws.sum = 0 then .error .valueError
  else if ws.any fun w => decide (w / ws.sum < 0) then .error .valueError
  else .ok (ws.map fun w => w / ws.sum)

/-- suprb/optimizer/solution/abc/base.py:105-110: abandoned food sources are replaced by new solutions. -/
def abcScout (init : InitOp K) (n limit : Nat) (draw : Nat → Nat → K) (sources : List (Food K)) : Prog K (List (Food K)) :=
  Prog.each (fun x : Food K × Nat =>
    if limit ≤ x.1.trials then ((init.make (draw x.2) n).evaluate).bind fun σ => .ret ⟨σ, 0⟩ else .ret x.1) sources.zipIdx

/-- suprb/optimizer/solution/abc/base.py:81-113: one iteration. Drawing from an empty list is a `ValueError`. -/
def abcStep (sig : K → K) (init : InitOp K) (n limit : Nat) (sources : List (Food K)) (d : ABCDraw K) : Prog K (List (Food K)) :=
  if sources = [] ∧ d.others1 ≠ [] then .err .valueError
  else do
    let new1 ← abcCandidates sig sources d.others1 d.food1
    let sources1 := greedyUpdate new1 sources
    let _ ← Prog.lift (abcWeights sources1)
    let new2 ← abcCandidates sig sources1 d.others2 d.food2
    abcScout init n limit d.scout (greedyUpdate new2 sources1)

/-- suprb/optimizer/solution/abc/base.py:76-113 `_optimize`: the final food sources; the population are their solutions. -/
def abc (sig : K → K) (init : InitOp K) (limit : Nat) (draws : List (ABCDraw K)) (n : Nat) (pop : List (Indiv K)) : Prog K (List (Food K)) := do
  let pop ← evaluateAll pop
  Prog.forEach (abcStep sig init n limit) draws (pop.map fun σ => ⟨σ, 0⟩)

/-! ## Particle swarm -/

/-- suprb/optimizer/solution/pso/movement.py:24-38, 81-94, 122-131: the three kinds of particles; quantum particles have no velocity, binary ones no position. -/
structure Particle (K : Type) where
  velocity : List K
  position : List K
  sol : Indiv K
  bestPosition : List K
  best : Indiv K

/-- The movements with their parameters (suprb/optimizer/solution/pso/movement.py:51-78, 97-119, 162-214). -/
inductive Movement (K : Type)
  | sigmoid (b c vMax : K)
  | quantum
  | binary (pLearning : K)

/-- suprb/optimizer/solution/pso/movement.py:63-67, 104-107, 175-176 `init_particle`; `r i` and `v i` are the uniform draws. `clone` needs an evaluated solution. -/
def Movement.initParticle (m : Movement K) (r v : Nat → K) (start : Indiv K) : Except PyErr (Particle K) :=
  match start.clone with
  | .error e => .error e
  | .ok best =>
    let position := start.genome.mapIdx fun i b => (bitVal b + r i) / 2
    match m with
    | .sigmoid .. => .ok ⟨start.genome.mapIdx fun i _ => v i, position, start, position, best⟩
    | .quantum => .ok ⟨[], position, start, position, best⟩
    | .binary _ => .ok ⟨[], [], start, [], best⟩

/-- suprb/optimizer/solution/pso/movement.py:35-38, 91-94, 129-131 `update_best`. -/
def Particle.updateBest (p : Particle K) : Except PyErr (Particle K) :=
  if p.best.fitnessD < p.sol.fitnessD then
    match p.sol.clone with
    | .error e => .error e
    | .ok σ => .ok { p with best := σ, bestPosition := p.position }
  else .ok p

/-- The draws of one particle in one movement: uniform vectors `r1`, `r2`, `u`; the booleans, sign and values `log(1 / random)` of the quantum movement (the
draw 0, for which this is infinite, is left out); the positions of the attractors. (suprb/optimizer/solution/pso/movement.py:74-78, 115-119, 189-203, 209-213) -/
structure MoveDraw (K : Type) where
  r1 : Nat → K
  r2 : Nat → K
  u : Nat → K
  log : Nat → K
  sign : Bool
  neighbours : List Nat
  dim : Nat
  neighbours2 : List Nat

/-- suprb/optimizer/solution/pso/movement.py:69-78: one particle of the sigmoid movement. -/
def sigmoidMove (sig : K → K) (b c vMax a : K) (g : List K) (d : MoveDraw K) (p : Particle K) : Particle K :=
  let velocity := p.position.mapIdx fun i x =>
    npClip (-vMax) vMax (a * p.velocity.getD i 0 + b * d.r1 i * (p.bestPosition.getD i 0 - x) + c * d.r2 i * (g.getD i 0 - x))
  let position := p.position.mapIdx fun i x => npClip 0 1 (x + velocity.getD i 0)
  { p with velocity := velocity, position := position, sol := { p.sol with genome := sigmoidBinarize sig d.u position } }

/-- suprb/optimizer/solution/pso/movement.py:109-119: one particle of the quantum movement. -/
def quantumMove (sig : K → K) (a : K) (g mean : List K) (d : MoveDraw K) (p : Particle K) : Particle K :=
  let position := p.position.mapIdx fun i x =>
    let mixedGlobal := if d.r1 i ≤ 1 / 2 then x else g.getD i 0
    let mixedMean := a * |mean.getD i 0 - x| * d.log i
    npClip 0 1 (mixedGlobal + mixedMean * (if d.sign then 1 else -1))
  { p with position := position, sol := { p.sol with genome := sigmoidBinarize sig d.u position } }

/-- suprb/optimizer/solution/pso/movement.py:134-146 `binary_mean`: `half` is half of the number of bits. `ties i` is the drawn bit for position `i`. -/
def binaryMean (ties : Nat → Bool) (gs : List (List Bool)) (n : Nat) : List Bool :=
  (List.range n).map fun i =>
    let sum := gs.countP fun g => g.getD i false
    let half := n / 2
    if sum = half then ties i else decide (half ≤ sum)

/-- suprb/optimizer/solution/pso/movement.py:149-153 `best_random_subset_particle`. -/
def bestOfSubset (ps : List (Particle K)) (idx : List Nat) : Except PyErr (Particle K) :=
  match pyMax (fun p : Particle K => p.best.fitnessD) (idx.filterMap fun i => ps[i]?) with
  | none => .error .valueError
  | some p => .ok p

/-- suprb/optimizer/solution/pso/movement.py:187-205: the attractor of one particle. `np.nonzero` returns a tuple with one array, so that the loop over `indices` runs once and all
learned bits come from one neighbour. Drawing a position of an empty genome is a `ValueError`. -/
def attractor (pLearning : K) (ps : List (Particle K)) (d : MoveDraw K) (p : Particle K) : Except PyErr (List Bool) :=
  match bestOfSubset ps d.neighbours with
  | .error e => .error e
  | .ok nb =>
    let genome := p.best.genome.mapIdx fun i x => if d.r1 i ≤ pLearning then nb.best.genome.getD i false else x
    if genome = p.best.genome then
      if genome = [] then .error .valueError
      else
      match bestOfSubset ps d.neighbours2 with
      | .error e => .error e
      | .ok nb2 => .ok (genome.set d.dim (nb2.best.genome.getD d.dim false))
    else .ok genome

/-- suprb/optimizer/solution/pso/movement.py:207-214: one particle of the binary movement; `log 0` is the drawn `log(1 / random)`. -/
def binaryMove (a : K) (mean att : List Bool) (n : Nat) (d : MoveDraw K) (p : Particle K) : Particle K :=
  let dist : Nat := (p.sol.genome.zip mean).countP fun x => xor x.1 x.2
  let pr := min (a * (dist : K) * d.log 0 / (n : K)) 1
  { p with sol := { p.sol with genome := p.sol.genome.mapIdx fun i x => if d.u i ≤ pr then att.getD i false else x } }

/-- The draws of one iteration of the particle swarm. (suprb/optimizer/solution/pso/base.py:79-89) -/
structure PSODraw (K : Type) where
  ties : Nat → Bool
  move : Nat → MoveDraw K

/-- The movements of all particles (suprb/optimizer/solution/pso/movement.py:69-78, 109-119, 178-214). The best of no particles is a `ValueError`; the `IndexError` of
`particles[0]` does not occur then. -/
def Movement.move (m : Movement K) (sig : K → K) (a : K) (d : PSODraw K) (ps : List (Particle K)) : Except PyErr (List (Particle K)) :=
  match m with
  | .sigmoid b c vMax =>
    match pyMax (fun p : Particle K => p.sol.fitnessD) ps with
    | none => .error .valueError
    | some g => .ok (ps.mapIdx fun k p => sigmoidMove sig b c vMax a g.position (d.move k) p)
  | .quantum =>
    match pyMax (fun p : Particle K => p.sol.fitnessD) ps with
    | none => .error .valueError
    | some g =>
      let mean := (List.range g.position.length).map fun i => mean (ps.map fun p => p.position.getD i 0)
      .ok (ps.mapIdx fun k p => quantumMove sig a g.position mean (d.move k) p)
  | .binary pLearning =>
    match ps with
    | [] => .error .indexError
    | p0 :: _ =>
      let n := p0.sol.genome.length
      let mean := binaryMean d.ties (ps.map fun p => p.sol.genome) n
      match (ps.zipIdx).mapM fun x => attractor pLearning ps (d.move x.2) x.1 with
      | .error e => .error e
      | .ok atts => .ok ((ps.zip atts).mapIdx fun k x => binaryMove a mean x.2 n (d.move k) x.1)

/-- `fit` of the solution of a particle. (suprb/optimizer/solution/pso/base.py:86) -/
def Particle.evaluate (p : Particle K) : Prog K (Particle K) := (p.sol.evaluate).bind fun σ => .ret { p with sol := σ }

/-- The particles, with a record of the particles at the start and after every iteration (not kept by the code). (suprb/optimizer/solution/pso/base.py:74-89) -/
structure PSOState (K : Type) where
  particles : List (Particle K)
  log : List (List (Particle K))

/-- suprb/optimizer/solution/pso/base.py:79-89: one iteration. The solutions of the particles are the population. -/
def psoStep (m : Movement K) (sig : K → K) (aMax step : K) (s : PSOState K) (d : PSODraw K × Nat) : Prog K (PSOState K) := do
  let moved ← Prog.lift (m.move sig (aMax - (d.2 : K) * step) d.1 s.particles)
  let fitted ← Prog.each Particle.evaluate moved
  let ps ← Prog.lift (fitted.mapM Particle.updateBest)
  .ret ⟨ps, s.log ++ [ps]⟩

/-- suprb/optimizer/solution/pso/base.py:67-89 `_optimize`: the final particles; their solutions are the population. `n_iter` is the number of draws. -/
def pso (m : Movement K) (sig : K → K) (aMin aMax : K) (init : Nat → (Nat → K) × (Nat → K)) (draws : List (PSODraw K)) (pop : List (Indiv K)) :
    Prog K (PSOState K) := do
  let pop ← evaluateAll pop
  let step ← Prog.lift (if draws.length = 0 then .error .zeroDivisionError else .ok ((aMax - aMin) / (draws.length : K)))
  let ps ← Prog.lift ((pop.zipIdx).mapM fun x => m.initParticle (init x.2).1 (init x.2).2 x.1)
  Prog.forEach (psoStep m sig aMax step) draws.zipIdx ⟨ps, [ps]⟩

/-! ## Grey wolves -/

/-- suprb/optimizer/solution/gwo/position.py:54-61 `X` at one position. -/
def wolfX (a r r' : K) (leader wolf : Bool) : K := abs (bitVal leader - (2 * a * r - a) * abs (2 * r' * bitVal leader - bitVal wolf))

/-- suprb/optimizer/solution/gwo/position.py:24-43 `binary_X` at one position: `u` and `w` are the draws of the binarisation and of `binary_B`. -/
def wolfBinaryX (sig : K → K) (a r r' u w : K) (leader wolf : Bool) : Bool :=
  let c : Bool := decide (u ≤ sig ((2 * a * r - a) * |2 * r' * bitVal leader - bitVal wolf|))
  let b : Bool := decide (w ≤ bitVal c)
  decide (1 ≤ (bitVal leader + bitVal b : K))

/-- The position updates (suprb/optimizer/solution/gwo/position.py:64-134). -/
inductive WolfUpdate
  | crossover
  | sigmoid

/-- The draws for one wolf: vectors for each leader, choices of the crossover and draws of the final binarisation. (suprb/optimizer/solution/gwo/position.py:46-51, 93, 130) -/
structure WolfDraw (K : Type) where
  r : Nat → Nat → K
  r' : Nat → Nat → K
  u : Nat → Nat → K
  w : Nat → Nat → K
  pick : Nat → Nat
  v : Nat → K

/-- suprb/optimizer/solution/gwo/position.py:71-134: the new genome of one wolf. Stacking no vectors is a `ValueError`. Leaders and wolves have genomes of the same length; shorter leaders
would be an error in numpy and are read as zeros here. -/
def wolfMove (upd : WolfUpdate) (sig : K → K) (a : K) (leaders : List (Indiv K)) (d : WolfDraw K) (σ : Indiv K) : Except PyErr (Indiv K) :=
  if leaders = [] then .error .valueError
  else
    match upd with
    | .sigmoid =>
      .ok (σ.withGenome (sigmoidBinarize sig d.v (σ.genome.mapIdx fun i b =>
        mean (leaders.mapIdx fun l leader => wolfX a (d.r l i) (d.r' l i) (leader.genome.getD i false) b))))
    | .crossover =>
      .ok (σ.withGenome (σ.genome.mapIdx fun i b =>
        (leaders.mapIdx fun l leader => wolfBinaryX sig a (d.r l i) (d.r' l i) (d.u l i) (d.w l i) (leader.genome.getD i false) b).getD (d.pick i) false))

/-- suprb/optimizer/solution/gwo/base.py:64-79: one iteration. -/
def gwoStep (upd : WolfUpdate) (sig : K → K) (nLeaders : Nat) (step : K) (pop : List (Indiv K)) (d : (Nat → WolfDraw K) × Nat) : Prog K (List (Indiv K)) := do
  let leaders := (sortedDesc Indiv.fitnessD pop).take nLeaders
  let new ← Prog.lift ((pop.zipIdx).mapM fun x => wolfMove upd sig (2 - (d.2 : K) * step) leaders (d.1 x.2) x.1)
  evaluateAll new

/-- suprb/optimizer/solution/gwo/base.py:58-79 `_optimize`; `n_iter` is the number of draws. -/
def gwo (upd : WolfUpdate) (sig : K → K) (nLeaders : Nat) (draws : List (Nat → WolfDraw K)) (pop : List (Indiv K)) : Prog K (List (Indiv K)) := do
  let pop ← evaluateAll pop
  let step ← Prog.lift (if draws.length = 0 then .error .zeroDivisionError else .ok (2 / (draws.length : K)))
  Prog.forEach (gwoStep upd sig nLeaders step) draws.zipIdx pop

/-! ## Random search -/

/-- suprb/optimizer/solution/rs/base.py:54-56: the best of `n_iter` new solutions; none at all is a `ValueError`. -/
def rsOne (init : InitOp K) (nIter n : Nat) (draw : Nat → Nat → K) : Prog K (Indiv K) := do
  let solutions ← evaluateAll ((List.range nIter).map fun k => init.make (draw k) n)
  Prog.lift (fittestIndiv solutions)

/-- suprb/optimizer/solution/rs/base.py:50-58 `_optimize`. -/
def rs (init : InitOp K) (populationSize nIter : Nat) (draw : Nat → Nat → Nat → K) (n : Nat) (pop : List (Indiv K)) : Prog K (List (Indiv K)) := do
  let _ ← evaluateAll pop
  Prog.each (fun k => rsOne init nIter n (draw k)) (List.range populationSize)

end Suprb
