import Verif.Model.Prog
import Verif.Model.Matching

/-!
# Ant colony optimisation

suprb/optimizer/solution/aco/. The powers `x ** alpha`, `x ** beta` and the square root are parameters of the model; the square root of a negative number is NaN
(`none`). The pool is seen through the fitness of the rules and the overlap weights of pairs of rules.
-/

set_option autoImplicit false

namespace Suprb

variable {K : Type} [Field K] [LinearOrder K] {d : Nat}

/-- suprb/optimizer/solution/aco/builder.py:37-45 `relative_fitness`. If all rules have the same fitness, all weights are 0/0, i.e. NaN (`none`). -/
def relativeFitness (fits : List K) (scale : K) : Except PyErr (Option (List (K × K))) :=
  if ¬ scale < 1 then .error .assertionError
  else
    match npMin fits, npMax fits with
    | .ok lo, .ok hi =>
      if hi - lo = 0 then .ok none
      else .ok (some (fits.map fun f => (1 - (f - lo) / (hi - lo) * scale, 1 + (f - lo) / (hi - lo) * scale)))
    | _, _ => .error .valueError

/-- `u <= x`; comparisons with NaN are false. (suprb/optimizer/solution/aco/builder.py:83, 197) -/
def NpFloat.ge (x : NpFloat K) (u : K) : Bool :=
  match x with
  | .nan => false
  | .negInf => false
  | .posInf => true
  | .val x => decide (u ≤ x)

/-- What the ant builders use of the pool: `rule.fitness_` and `relative_bounds_overlap(pool[i], pool[j])`. (suprb/optimizer/solution/aco/builder.py:42, 181, 188) -/
structure AntPool (K : Type) where
  fits : List K
  overlap : Nat → Nat → Option (K × K)

/-- suprb/optimizer/solution/aco/builder.py:101-119 `relative_bounds_overlap`. The columns of the bounds are used as lower and upper bound whatever the kind of matching function. A zero volume
gives 0/0 for ordered bounds (the overlap is zero, too); `none` stands for the result then. -/
def relativeBoundsOverlap (k : Kind) (A B : Spec.Pairs K d) : Option (K × K) :=
  if ∀ i, (A i).1 ≤ (B i).2 ∧ (B i).1 ≤ (A i).2 then
    let overlap := ∏ i, (min (A i).2 (B i).2 - max (A i).1 (B i).1)
    let volume := min (k.volume A) (k.volume B)
    if volume = 0 then none else some (1 + overlap / volume, 1 - overlap / volume)
  else some (1, 1)

/-- Parameters of the builders (suprb/optimizer/solution/aco/builder.py:14-17, 131-140): `x ** alpha`, `x ** beta`, `sqrt` and `tau0`. `nanB` is NaN `** beta`, which is NaN (`none`) except
that numpy computes 1 for `beta = 0`. -/
structure AntCfg (K : Type) where
  powA : K → K
  powB : K → K
  nanB : Option K := none
  sqrt : K → Option K
  tau0 : K
  partialRoute : Bool := true

/-- `eta ** beta` for an `eta` that may be NaN (suprb/optimizer/solution/aco/builder.py:80, 193). -/
def AntCfg.etaPow (cfg : AntCfg K) : Option K → Option K
  | none => cfg.nanB
  | some e => some (cfg.powB e)

/-- `u <= weights[1]` after the weights `tau ** alpha * eta ** beta` were divided by their sum (suprb/optimizer/solution/aco/builder.py:80-83, 193-197); a NaN makes the comparison false. -/
def AntCfg.decides (cfg : AntCfg K) (tau : K × K) (e0 e1 : Option K) (u : K) : Bool :=
  match cfg.etaPow e0, cfg.etaPow e1 with
  | some p0, some p1 => (npDiv (cfg.powA tau.2 * p1) (cfg.powA tau.1 * p0 + cfg.powA tau.2 * p1)).ge u
  | _, _ => false

/-! ## Binary graph -/

/-- suprb/optimizer/solution/aco/builder.py:58-68 `Binary.pad_pheromone_matrix` for a given matrix; `np.pad` rejects negative widths. -/
def binaryPad (cfg : AntCfg K) (m : List (K × K)) (size : Nat) : Except PyErr (List (K × K)) :=
  if size < m.length then .error .valueError else .ok (m ++ List.replicate (size - m.length) (cfg.tau0, cfg.tau0))

/-- suprb/optimizer/solution/aco/builder.py:70-86 `Binary.__call__`: the genome; `u i` are the uniform draws. -/
def binaryBuild (cfg : AntCfg K) (pool : AntPool K) (m : List (K × K)) (u : Nat → K) : Except PyErr (List Bool) :=
  match relativeFitness pool.fits (1 / 2) with
  | .error e => .error e
  | .ok none => if m.length ≠ pool.fits.length then .error .valueError else .ok (m.mapIdx fun i x => cfg.decides x none none (u i))
  | .ok (some eta) =>
    if m.length ≠ eta.length then .error .valueError
    else .ok ((m.zip eta).mapIdx fun i x => cfg.decides x.1 (some x.2.1) (some x.2.2) (u i))

/-- suprb/optimizer/solution/aco/builder.py:88-91 `Binary.update_pheromones`. -/
def binaryUpdate (g : List Bool) (delta : K) (m : List (K × K)) : List (K × K) :=
  m.mapIdx fun i x => if g.getD i false then (x.1, x.2 + delta) else (x.1 + delta, x.2)

/-! ## Complete graph -/

/-- suprb/optimizer/solution/aco/builder.py:142-153 `Complete.pad_pheromone_matrix` for a given square matrix. -/
def completePad (cfg : AntCfg K) (m : List (List (K × K))) (size : Nat) : Except PyErr (List (List (K × K))) :=
  if size < m.length then .error .valueError
  else .ok (m.map (fun row => row ++ List.replicate (size - m.length) (cfg.tau0, cfg.tau0)) ++
    List.replicate (size - m.length) (List.replicate size (cfg.tau0, cfg.tau0)))

/-- The entry of the matrix. (suprb/optimizer/solution/aco/builder.py:175, 186, 189) -/
def cell (m : List (List (K × K))) (i j : Nat) : K × K := (m.getD i []).getD j (0, 0)

/-- Sum of pairs. (suprb/optimizer/solution/aco/builder.py:175, 186, 189) -/
def pairSum (l : List (K × K)) : K × K := ((l.map Prod.fst).sum, (l.map Prod.snd).sum)

/-- Mean of pairs; NaN if one of them is. (suprb/optimizer/solution/aco/builder.py:179-185) -/
def pairMean (l : List (Option (K × K))) : Option (K × K) :=
  if l.all Option.isSome then some (mean (l.filterMap fun x => x.map Prod.fst), mean (l.filterMap fun x => x.map Prod.snd)) else none

/-- suprb/optimizer/solution/aco/builder.py:190-197: the decision from the pheromones, the fitness weights and the overlap; the product with NaN is NaN. -/
def AntCfg.weigh (cfg : AntCfg K) (tau : K × K) (fitness : Option (List (K × K))) (overlap : Option (K × K)) (j : Nat) (u : K) : Bool :=
  match fitness, overlap with
  | some f, some o => cfg.decides tau (cfg.sqrt ((f.getD j (0, 0)).1 * o.1)) (cfg.sqrt ((f.getD j (0, 0)).2 * o.2)) u
  | _, _ => cfg.decides tau none none u

/-- suprb/optimizer/solution/aco/builder.py:171-198: is rule `j` selected after the rules `route`? `fitness` are the weights of `relative_fitness`, `none` if they are NaN. -/
def completeDecide (cfg : AntCfg K) (pool : AntPool K) (fitness : Option (List (K × K))) (m : List (List (K × K))) (route : List Nat) (j : Nat) (u : K) : Bool :=
  let overlap : Option (K × K) :=
    match route.getLast? with
    | none => some (1, 1)
    | some last => if cfg.partialRoute then pairMean (route.map fun i => pool.overlap i j) else pool.overlap last j
  let tau : K × K :=
    match route.getLast? with
    | none => pairSum (m.map fun row => row.getD j (0, 0))
    | some last => if cfg.partialRoute then pairSum ((route ++ [j]).map fun i => cell m i j) else pairSum [cell m last j, cell m j j]
  cfg.weigh tau fitness overlap j u

/-- suprb/optimizer/solution/aco/builder.py:171-198: the rules in the drawn order. -/
def completeRoute (cfg : AntCfg K) (pool : AntPool K) (fitness : Option (List (K × K))) (m : List (List (K × K))) (u : Nat → K) : List Nat → Nat → List Nat → List Nat
  | [], _, route => route
  | j :: rest, k, route =>
    completeRoute cfg pool fitness m u rest (k + 1) (if completeDecide cfg pool fitness m route j (u k) then route ++ [j] else route)

/-- suprb/optimizer/solution/aco/builder.py:155-204 `Complete.__call__`: the genome. -/
def completeBuild (cfg : AntCfg K) (pool : AntPool K) (m : List (List (K × K))) (order : List Nat) (u : Nat → K) : Except PyErr (List Bool) :=
  match relativeFitness pool.fits (1 / 2) with
  | .error e => .error e
  | .ok fitness =>
    let route := completeRoute cfg pool fitness m u order 0 []
    .ok ((List.range pool.fits.length).map fun i => route.contains i)

/-- suprb/optimizer/solution/aco/builder.py:206-222 `Complete.update_pheromones`: the four updates add `delta` to the second channel of every cell whose column is selected, and to the
first channel of the cells whose column is not selected and whose row is selected or the same. -/
def completeUpdate (g : List Bool) (delta : K) (m : List (List (K × K))) : List (List (K × K)) :=
  m.mapIdx fun i row => row.mapIdx fun j x =>
    if g.getD j false then (x.1, x.2 + delta) else if g.getD i false ∨ i = j then (x.1 + delta, x.2) else x

/-! ## Main loop -/

/-- The two builders. (suprb/optimizer/solution/aco/builder.py:48-91, 122-222) -/
inductive AntGraph | binary | complete
  deriving DecidableEq

/-- The pheromones of the builders: N×2 or N×N×2. (suprb/optimizer/solution/aco/builder.py:58-68, 142-153) -/
inductive Pheromones (K : Type)
  | binary (m : List (K × K))
  | complete (m : List (List (K × K)))

/-- All values. (suprb/optimizer/solution/aco/base.py:104, 116) -/
def Pheromones.values : Pheromones K → List K
  | .binary m => m.flatMap fun x => [x.1, x.2]
  | .complete m => m.flatMap fun row => row.flatMap fun x => [x.1, x.2]

/-- An elementwise operation. (suprb/optimizer/solution/aco/base.py:104, 116) -/
def Pheromones.map (f : K → K) : Pheromones K → Pheromones K
  | .binary m => .binary (m.map fun x => (f x.1, f x.2))
  | .complete m => .complete (m.map fun row => row.map fun x => (f x.1, f x.2))

/-- `pad_pheromone_matrix` (suprb/optimizer/solution/aco/builder.py:58-68, 142-153); a matrix of the other builder has the wrong number of dimensions. -/
def Pheromones.pad (cfg : AntCfg K) (g : AntGraph) (p : Option (Pheromones K)) (size : Nat) : Except PyErr (Pheromones K) :=
  match g, p with
  | .binary, none => (binaryPad cfg [] size).map .binary
  | .complete, none => (completePad cfg [] size).map .complete
  | .binary, some (.binary m) => (binaryPad cfg m size).map .binary
  | .complete, some (.complete m) => (completePad cfg m size).map .complete
  | _, _ => .error .valueError

/-- The draws for one ant. (suprb/optimizer/solution/aco/builder.py:83, 169, 197) -/
structure AntDraw (K : Type) where
  order : List Nat
  u : Nat → K

/-- `builder(solution, …)`. (suprb/optimizer/solution/aco/base.py:92-100) -/
def Pheromones.build (cfg : AntCfg K) (pool : AntPool K) (p : Pheromones K) (d : AntDraw K) (σ : Indiv K) : Except PyErr (Indiv K) :=
  match (match p with
    | .binary m => binaryBuild cfg pool m d.u
    | .complete m => completeBuild cfg pool m d.order d.u) with
  | .error e => .error e
  | .ok g => .ok { σ with genome := g }

/-- `builder.update_pheromones(ant, …)`. (suprb/optimizer/solution/aco/base.py:108-113) -/
def Pheromones.update (p : Pheromones K) (g : List Bool) (delta : K) : Pheromones K :=
  match p with
  | .binary m => .binary (binaryUpdate g delta m)
  | .complete m => .complete (completeUpdate g delta m)

/-- Parameters of the ant colony (suprb/optimizer/solution/aco/base.py:43-75) with `NBest` (suprb/optimizer/solution/aco/selection.py:14-20) and `Fitness` (suprb/optimizer/solution/aco/pheromones.py:16-19). -/
structure AcoCfg (K : Type) where
  ant : AntCfg K
  graph : AntGraph
  evaporation : K
  maxPheromone : K
  minPheromone : K
  nBest : Nat
  c : K

/-- Population and pheromones; `log` are the pheromones after each iteration (not kept by the code). (suprb/optimizer/solution/aco/base.py:85-116) -/
structure AcoState (K : Type) where
  pop : List (Indiv K)
  pher : Pheromones K
  log : List (Pheromones K)

/-- suprb/optimizer/solution/aco/base.py:89-116: one iteration. -/
def acoStep (cfg : AcoCfg K) (pool : AntPool K) (s : AcoState K) (d : Nat → AntDraw K) : Prog K (AcoState K) := do
  let ants ← Prog.lift ((s.pop.zipIdx).mapM fun x => s.pher.build cfg.ant pool (d x.2) x.1)
  let pop ← evaluateAll ants
  let evaporated := s.pher.map fun x => x * (1 - cfg.evaporation)
  let selected := (sortedDesc Indiv.fitnessD pop).take cfg.nBest
  let updated := selected.foldl (fun p σ => p.update σ.genome (σ.fitnessD * cfg.c)) evaporated
  let clipped := updated.map (npClip cfg.minPheromone cfg.maxPheromone)
  .ret ⟨pop, clipped, s.log ++ [clipped]⟩

/-- suprb/optimizer/solution/aco/base.py:77-116 `_optimize`; `old` is the matrix of an earlier call. -/
def aco (cfg : AcoCfg K) (warmStart : Bool) (old : Option (Pheromones K)) (pool : AntPool K) (draws : List (Nat → AntDraw K)) (pop : List (Indiv K)) :
    Prog K (AcoState K) := do
  let pher ← Prog.lift (Pheromones.pad cfg.ant cfg.graph (if warmStart then old else none) pool.fits.length)
  let pop ← evaluateAll pop
  Prog.forEach (acoStep cfg pool) draws ⟨pop, pher, []⟩

end Suprb
