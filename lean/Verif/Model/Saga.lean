import Verif.Model.Prog
import Mathlib.Analysis.SpecialFunctions.Trigonometric.Basic
import Mathlib.Analysis.SpecialFunctions.Pow.Real

/-!
# The self-adapting genetic algorithms

suprb/optimizer/solution/saga1, saga2 and saga3. The selection operators are those of suprb/optimizer/solution/ga/selection.py (suprb/optimizer/solution/saga1/selection.py, suprb/optimizer/solution/saga2/selection.py and
suprb/optimizer/solution/saga3/selection.py are copies of it).
-/

set_option autoImplicit false

namespace Suprb

variable {K : Type} [Field K] [LinearOrder K]

/-- suprb/optimizer/solution/saga1/crossover.py:38-42, suprb/optimizer/solution/saga2/crossover.py:60-64, suprb/optimizer/solution/saga3/solution_extension.py:63-67, suprb/optimizer/solution/sas/crossover.py:39-43
`NPoint._crossover`: unlike suprb/optimizer/solution/ga/crossover.py, `B` is not exchanged. -/
def nPointA : List Nat → Indiv K → Indiv K → Indiv K
  | [], A, _ => A
  | i :: rest, A, B => nPointA rest (A.withGenome (singlePoint A.genome B.genome i)) B

/-- `_crossover` of the two operators (suprb/optimizer/solution/saga1/crossover.py:27-54 and its copies suprb/optimizer/solution/saga2/crossover.py:49-76 and suprb/optimizer/solution/sas/crossover.py:28-55). -/
def crossApply (c : CrossDraw K) (A B : Indiv K) : Except PyErr (Indiv K) :=
  match c with
  | .nPoint indices => .ok (nPointA indices A B)
  | .uniform u =>
    match uniformCross u A.genome B.genome with
    | .error e => .error e
    | .ok g => .ok (A.withGenome g)

/-- suprb/optimizer/solution/saga1/crossover.py:15-20 `__call__` (also suprb/optimizer/solution/sas/crossover.py:16-21); `r` is the draw compared with the rate. -/
def crossoverA (rate r : K) (c : CrossDraw K) (A B : Indiv K) : Except PyErr (Indiv K) :=
  if r < rate then crossApply c A B else .ok A

/-- suprb/optimizer/solution/saga1/base.py:113-134: both children of every pair, in order, for a crossover `f` of the pair number, the direction and the parents. -/
def sagaChildren (f : Nat → Bool → Indiv K → Indiv K → Except PyErr (Indiv K)) :
    Nat → List (Indiv K × Indiv K) → Except PyErr (List (Indiv K))
  | _, [] => .ok []
  | k, (A, B) :: rest =>
    match f k true A B with
    | .error e => .error e
    | .ok c1 =>
      match f k false B A with
      | .error e => .error e
      | .ok c2 =>
        match sagaChildren f (k + 1) rest with
        | .error e => .error e
        | .ok cs => .ok (c1 :: c2 :: cs)

/-! ## saga1 -/

/-- Parameters of suprb/optimizer/solution/saga1/base.py:41-88; `nElitists` is `int(population_size * elitist_ratio)` (suprb/optimizer/solution/saga1/base.py:94). -/
structure Saga1Cfg (K : Type) where
  populationSize : Nat
  nElitists : Nat
  vMin : K
  vMax : K
  mutMin : K
  mutMax : K
  mutMul : K
  crossMin : K
  crossMax : K
  crossMul : K

/-- The attributes `mutation_rate` and `crossover_rate`. (suprb/optimizer/solution/saga1/base.py:77, 81) -/
structure Rates (K : Type) where
  mutation : K
  cross : K

/-- suprb/optimizer/solution/saga1/base.py:147-148 `calc_gdm`. -/
def gdm (fs : List K) : Except PyErr (NpFloat K) :=
  match npMax fs with
  | .error e => .error e
  | .ok m => .ok (npDiv (mean fs) m)

/-- Python's `a / b`. (suprb/optimizer/solution/saga1/base.py:148) -/
def pyDiv (a b : K) : Except PyErr K := if b = 0 then .error .zeroDivisionError else .ok (a / b)

/-- suprb/optimizer/solution/saga1/base.py:150-169 `adjust_rates`. -/
def saga1Adjust (cfg : Saga1Cfg K) (fs : List K) (r : Rates K) : Except PyErr (Rates K) :=
  match gdm fs with
  | .error e => .error e
  | .ok g =>
    if g.gt cfg.vMax then
      match pyDiv r.cross cfg.crossMul with
      | .error e => .error e
      | .ok c => .ok ⟨min cfg.mutMax (r.mutation * cfg.mutMul), max cfg.crossMin c⟩
    else if g.lt cfg.vMin then
      match pyDiv r.mutation cfg.mutMul with
      | .error e => .error e
      | .ok m => .ok ⟨max cfg.mutMin m, min cfg.crossMax (r.cross * cfg.crossMul)⟩
    else .ok r

/-- State of the loop: population, rates and the rates of all generations so far. (suprb/optimizer/solution/saga1/base.py:90-145) -/
structure Saga1State (K : Type) where
  pop : List (Indiv K)
  rates : Rates K
  log : List (Rates K)

/-- suprb/optimizer/solution/saga1/base.py:96-145: one generation. -/
def saga1Step (cfg : Saga1Cfg K) (s : Saga1State K) (dr : GADraw K) : Prog K (Saga1State K) := do
  let fs ← Prog.lift (fitnesses s.pop)
  let rates ← Prog.lift (saga1Adjust cfg fs s.rates)
  let elitists := (sortedDesc Indiv.fitnessD s.pop).take cfg.nElitists
  let parents ← Prog.lift (dr.sel.run s.pop)
  let children ← Prog.lift (sagaChildren (fun k d A B => crossoverA rates.cross (dr.cross k d).1 (dr.cross k d).2 A B) 0 (pairs parents))
  let pop ← evaluateAll (elitists ++ gaMutate rates.mutation dr.flips children)
  pure ⟨pop, rates, s.log ++ [rates]⟩

/-- suprb/optimizer/solution/saga1/base.py:90-145 `_optimize`; one `GADraw` per generation. The rates are kept between calls. -/
def saga1 (cfg : Saga1Cfg K) (draws : List (GADraw K)) (rates : Rates K) (pop : List (Indiv K)) : Prog K (Saga1State K) :=
  if cfg.populationSize % 2 = 0 then do
    let pop ← evaluateAll pop
    Prog.forEach (saga1Step cfg) draws ⟨pop, rates, []⟩
  else .err .assertionError

/-! ## saga2 -/

/-- Parameters of suprb/optimizer/solution/saga2/base.py:48-85; `nElitists` is `int(population_size * elitist_ratio)` (suprb/optimizer/solution/saga2/base.py:92). -/
structure Saga2Cfg where
  populationSize : Nat
  nElitists : Nat
  mutMin : ℝ
  mutMax : ℝ
  crossMin : ℝ
  crossMax : ℝ

/-- `np.var`. (suprb/optimizer/solution/saga2/base.py:204-229) -/
noncomputable def variance (l : List ℝ) : ℝ := mean (l.map fun x => (x - mean l) ^ 2)

/-- Attributes `fitness_mean`, `fitness_min`, `fitness_max` (suprb/optimizer/solution/saga2/base.py:98-100, 171-173). -/
structure FitStats where
  mean : ℝ
  min : ℝ
  max : ℝ

/-- suprb/optimizer/solution/saga2/base.py:98-100, 171-173; `np.min` of an empty list raises. -/
noncomputable def fitStats (fs : List ℝ) : Except PyErr FitStats :=
  match npMin fs, npMax fs with
  | .ok lo, .ok hi => .ok ⟨mean fs, lo, hi⟩
  | _, _ => .error .valueError

/-- Attributes of the strategy that change (suprb/optimizer/solution/saga2/base.py:40-46, 78, 80). A current bound that is NaN is `none`. -/
structure Saga2State where
  pop : List (Indiv ℝ)
  old : List (Indiv ℝ)
  stats : FitStats
  varMin : ℝ
  varMax : ℝ
  crossCurMin : Option ℝ
  mutCurMax : Option ℝ

/-- suprb/optimizer/solution/saga2/crossover.py:26-36: the rate for one pair of parents with fitness `a` and `b`; NaN is `none`. -/
noncomputable def saga2CrossRate (curMin : Option ℝ) (rateMax : ℝ) (st : FitStats) (a b : ℝ) : Option ℝ :=
  let parents := (a + b) / 2
  if st.min = st.mean ∨ st.mean = st.max then some rateMax
  else if parents ≤ st.mean then curMin.map fun m => rateMax - (rateMax - m) * ((st.mean - parents) / (st.mean - st.min))
  else curMin.map fun m => rateMax - (rateMax - m) * ((parents - st.mean) / (st.max - st.mean))

/-- suprb/optimizer/solution/saga2/mutation.py:41-48: the rate for one child with fitness `f`; NaN is `none`. -/
noncomputable def saga2MutRate (rateMin : ℝ) (curMax : Option ℝ) (st : FitStats) (f : ℝ) : Option ℝ :=
  if st.max = st.mean then some rateMin
  else if st.mean < f then curMax.map fun m => rateMin + (m - rateMin) * ((st.max - f) / (st.max - st.mean))
  else curMax

/-- suprb/optimizer/solution/saga2/crossover.py:15-42 `__call__`; a draw is never smaller than NaN. -/
noncomputable def saga2Cross (s : Saga2State) (cfg : Saga2Cfg) (r : ℝ) (c : CrossDraw ℝ) (A B : Indiv ℝ) : Except PyErr (Indiv ℝ) :=
  match saga2CrossRate s.crossCurMin cfg.crossMax s.stats A.fitnessD B.fitnessD with
  | none => .ok A
  | some rate => crossoverA rate r c A B

/-- suprb/optimizer/solution/saga2/mutation.py:32-52 `BitFlips.__call__`. -/
noncomputable def saga2Mutate (s : Saga2State) (cfg : Saga2Cfg) (u : Nat → ℝ) (c : Indiv ℝ) : Indiv ℝ :=
  match saga2MutRate cfg.mutMin s.mutCurMax s.stats c.fitnessD with
  | none => c.withGenome c.genome
  | some rate => bitFlips rate u c

/-- suprb/optimizer/solution/saga2/base.py:179-202 `calc_similarity` on the fitness values of both generations. -/
noncomputable def saga2Similarity (new old : List ℝ) : Except PyErr ℝ :=
  if old.length < new.length then .error .indexError
  else
    let dot := ((old.zip new).map fun p => p.1 * p.2).sum
    let lengthNew := Real.sqrt ((new.map fun x => x ^ 2).sum + Real.exp (-10))
    let lengthOld := Real.sqrt ((old.map fun x => x ^ 2).sum + Real.exp (-10))
    let cosine := dot / (lengthNew + lengthOld)
    if (new.toFinset ∪ old.toFinset).card = 0 then .ok 1
    else .ok (cosine * (((new.toFinset ∩ old.toFinset).card : ℝ) / ((new.toFinset ∪ old.toFinset).card : ℝ)))

/-- suprb/optimizer/solution/saga2/base.py:204-215 `calc_diversity` with the updated variance bounds; `none` is NaN. -/
noncomputable def saga2Diversity (fs : List ℝ) (st : FitStats) (varMin varMax : ℝ) : Option ℝ × ℝ × ℝ :=
  let v := variance fs
  let hi := if varMax < v then v else varMax
  let lo := if v < varMin then v else varMin
  let b := if st.max = st.min then 0 else Real.cos (Real.pi / 2 * (1 - (st.mean - st.min) / (st.max - st.min)))
  (if hi = 0 then none else some ((v - lo) / hi * b), lo, hi)

/-- suprb/optimizer/solution/saga2/base.py:217-229 `calc_quality` and `adjust_rates`: the new bounds from the quality; NaN is `none`. -/
noncomputable def saga2Bounds (cfg : Saga2Cfg) (quality : Option ℝ) : Option ℝ × Option ℝ :=
  (quality.map fun q => cfg.crossMin + q * (cfg.crossMax - cfg.crossMin) / 2, quality.map fun q => cfg.mutMax - q * (cfg.mutMax - cfg.mutMin) / 2)

/-- suprb/optimizer/solution/saga2/base.py:220-229 `adjust_rates`. -/
noncomputable def saga2Adjust (cfg : Saga2Cfg) (s : Saga2State) : Except PyErr Saga2State :=
  let fs := s.pop.map Indiv.fitnessD
  let d := saga2Diversity fs s.stats s.varMin s.varMax
  match saga2Similarity fs (s.old.map Indiv.fitnessD) with
  | .error e => .error e
  | .ok sim =>
    let q := d.1.map fun x => x * (1 - sim)
    .ok { s with varMin := d.2.1, varMax := d.2.2, crossCurMin := (saga2Bounds cfg q).1, mutCurMax := (saga2Bounds cfg q).2 }

/-- suprb/optimizer/solution/saga2/base.py:102-177: generation number `it`. -/
noncomputable def saga2Step (cfg : Saga2Cfg) (s : Saga2State) (d : GADraw ℝ × Nat) : Prog ℝ Saga2State := do
  let elitists := (sortedDesc Indiv.fitnessD s.pop).take cfg.nElitists
  let parents ← Prog.lift (d.1.sel.run s.pop)
  let children ← Prog.lift (sagaChildren (fun k b A B => saga2Cross s cfg (d.1.cross k b).1 (d.1.cross k b).2 A B) 0 (pairs parents))
  let children ← evaluateAll children
  let pop ← evaluateAll (elitists ++ (children.zipIdx).map fun ck => saga2Mutate s cfg (d.1.flips ck.2) ck.1)
  let stats ← Prog.lift (fitStats (pop.map Indiv.fitnessD))
  let s' : Saga2State := { s with pop := pop, old := s.pop, stats := stats }
  if 0 < d.2 then Prog.lift (saga2Adjust cfg s') else pure s'

/-- suprb/optimizer/solution/saga2/base.py:87-177 `_optimize`; the current bounds are kept between calls. -/
noncomputable def saga2 (cfg : Saga2Cfg) (draws : List (GADraw ℝ)) (curMin curMax : Option ℝ) (pop : List (Indiv ℝ)) : Prog ℝ Saga2State :=
  if cfg.populationSize % 2 = 0 then do
    let pop ← evaluateAll pop
    let fs := pop.map Indiv.fitnessD
    let stats ← Prog.lift (fitStats fs)
    Prog.forEach (saga2Step cfg) draws.zipIdx ⟨pop, pop, stats, variance fs, variance fs, curMin, curMax⟩
  else .err .assertionError

/-! ## saga3 -/

/-- The operators of suprb/optimizer/solution/saga3/solution_extension.py:52-79 a solution may carry. -/
inductive CrossMethod
  | nPoint | uniform
  deriving DecidableEq

/-- suprb/optimizer/solution/saga3/solution_extension.py:82-98: a solution with its own rates and crossover operator. -/
structure SagaObj (K : Type) where
  indiv : Indiv K
  crossRate : K
  mutRate : K
  method : CrossMethod

/-- suprb/optimizer/solution/saga3/initialization.py:33-39, suprb/optimizer/solution/saga3/solution_extension.py:91-93: the values of a new solution. -/
def SagaObj.fresh (σ : Indiv K) : SagaObj K := ⟨σ, 9 / 10, 1 / 1000, .nPoint⟩

/-- The draws of one call of `SagaCrossover`: three choices between the parents, the draw compared with `parameter_mutation_rate`, two normal deviates, the
choice of a new operator (`true` is `NPoint`), the draw compared with the crossover rate, cut points and uniform draws. (suprb/optimizer/solution/saga3/crossover.py:12-29) -/
structure Saga3Draw (K : Type) where
  pickCross : Bool
  pickMut : Bool
  pickMethod : Bool
  r : K
  normalCross : K
  normalMut : K
  newMethod : Bool
  rCross : K
  indices : List Nat
  u : Nat → K

/-- suprb/optimizer/solution/saga3/crossover.py:14-22: the parameters of the child. -/
def saga3Params (pmr : K) (d : Saga3Draw K) (A B : SagaObj K) : K × K × CrossMethod :=
  let c := if d.pickCross then A.crossRate else B.crossRate
  let m := if d.pickMut then A.mutRate else B.mutRate
  let x := if d.pickMethod then A.method else B.method
  if d.r < pmr then (min (max (c + d.normalCross) 0) 1, min (max (m + d.normalMut) 0) 1, if d.newMethod then .nPoint else .uniform) else (c, m, x)

/-- Solutions are objects: the crossover may return its first argument, whose parameters are then overwritten (suprb/optimizer/solution/saga3/crossover.py:25-28). `Objs` are the
objects; solutions are referred to by position. -/
abbrev Objs (K : Type) := List (SagaObj K)

/-- suprb/optimizer/solution/saga3/crossover.py:12-29 `SagaCrossover.__call__` on the objects `a` and `b`; returns the objects and the child. -/
def saga3Cross (pmr : K) (d : Saga3Draw K) (h : Objs K) (a b : Nat) : Except PyErr (Objs K × Nat) :=
  match h[a]?, h[b]? with
  | some A, some B =>
    let p := saga3Params pmr d A B
    let inPlace : Objs K × Nat := (h.set a { A with crossRate := p.1, mutRate := p.2.1, method := p.2.2 }, a)
    if d.rCross < p.1 then
      match p.2.2 with
      | .nPoint => if d.indices = [] then .ok inPlace else .ok (h ++ [⟨nPointA d.indices A.indiv B.indiv, p.1, p.2.1, p.2.2⟩], h.length)
      | .uniform =>
        match uniformCross d.u A.indiv.genome B.indiv.genome with
        | .error e => .error e
        | .ok g => .ok (h ++ [⟨A.indiv.withGenome g, p.1, p.2.1, p.2.2⟩], h.length)
    else .ok inPlace
  | _, _ => .error .indexError

/-- suprb/optimizer/solution/saga3/base.py:90-101: the children of all pairs; later pairs see the parameters overwritten by earlier ones. -/
def saga3Children (pmr : K) (draw : Nat → Bool → Saga3Draw K) : Nat → List (Nat × Nat) → Objs K → Except PyErr (Objs K × List Nat)
  | _, [], h => .ok (h, [])
  | k, (a, b) :: rest, h =>
    match saga3Cross pmr (draw k true) h a b with
    | .error e => .error e
    | .ok (h1, c1) =>
      match saga3Cross pmr (draw k false) h1 b a with
      | .error e => .error e
      | .ok (h2, c2) =>
        match saga3Children pmr draw (k + 1) rest h2 with
        | .error e => .error e
        | .ok (h3, cs) => .ok (h3, c1 :: c2 :: cs)

/-- suprb/optimizer/solution/saga3/mutation.py:23-26 `BitFlips.__call__` (the clone keeps the parameters, suprb/optimizer/solution/saga3/solution_extension.py:109-129). -/
def saga3Mutate (u : Nat → K) (o : SagaObj K) : SagaObj K := { o with indiv := bitFlips o.mutRate u o.indiv }

/-- Positions drawn by the selection operators of suprb/optimizer/solution/saga3/selection.py. (suprb/optimizer/solution/saga3/selection.py:16-52) -/
def SelDraw.positions (s : SelDraw) (pop : List (Indiv K)) : Except PyErr (List Nat) :=
  match s.run pop with
  | .error e => .error e
  | .ok _ =>
    match s with
    | .random idx => .ok (idx.filter (· < pop.length))
    | .roulette idx => .ok (idx.filter (· < pop.length))
    | .linearRank idx => .ok (idx.filter (· < pop.length))
    | .tournament idx => .ok (idx.filterMap fun js => pyMax (fun j => (pop[j]?.map Indiv.fitnessD).getD 0) (js.filter (· < pop.length)))

/-- The draws of one generation. (suprb/optimizer/solution/saga3/base.py:71-110) -/
structure Saga3GenDraw (K : Type) where
  sel : SelDraw
  cross : Nat → Bool → Saga3Draw K
  flips : Nat → Nat → K

/-- Parameters of suprb/optimizer/solution/saga3/base.py:42-69. -/
structure Saga3Cfg (K : Type) where
  populationSize : Nat
  nElitists : Nat
  paramRate : K

/-- State of the loop: the population and every parameter value any solution has had. (suprb/optimizer/solution/saga3/base.py:71-110) -/
structure Saga3State (K : Type) where
  pop : Objs K
  log : List (K × K)

/-- `child.fit(X, y)` for an object. (suprb/optimizer/solution/saga3/solution_extension.py:100-107) -/
def SagaObj.evaluate (o : SagaObj K) : Prog K (SagaObj K) := (o.indiv.evaluate).bind fun σ => .ret { o with indiv := σ }

/-- suprb/optimizer/solution/saga3/base.py:77-110: one generation. The elitists are objects of the population, whose parameters the crossover may have overwritten. -/
def saga3Step (cfg : Saga3Cfg K) (s : Saga3State K) (d : Saga3GenDraw K) : Prog K (Saga3State K) := do
  let indivs := s.pop.map SagaObj.indiv
  let parents ← Prog.lift (if allFitted indivs then d.sel.positions indivs else .error .attributeError)
  let elitists := (sortedDesc (fun i => (indivs[i]?.map Indiv.fitnessD).getD 0) (List.range s.pop.length)).take cfg.nElitists
  let hc ← Prog.lift (saga3Children cfg.paramRate d.cross 0 (pairs parents) s.pop)
  let children := hc.2.filterMap fun c => hc.1[c]?
  let elites := elitists.filterMap fun c => hc.1[c]?
  let pop ← Prog.each SagaObj.evaluate (elites ++ (children.zipIdx).map fun ck => saga3Mutate (d.flips ck.2) ck.1)
  pure ⟨pop, s.log ++ (hc.1 ++ pop).map fun o => (o.crossRate, o.mutRate)⟩

/-- suprb/optimizer/solution/saga3/base.py:71-110 `_optimize`. -/
def saga3 (cfg : Saga3Cfg K) (draws : List (Saga3GenDraw K)) (pop : Objs K) : Prog K (Saga3State K) :=
  if cfg.populationSize % 2 = 0 then do
    let pop ← Prog.each SagaObj.evaluate pop
    Prog.forEach (saga3Step cfg) draws ⟨pop, pop.map fun o => (o.crossRate, o.mutRate)⟩
  else .err .assertionError

end Suprb
