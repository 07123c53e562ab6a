import Verif.Py
import Verif.Model.ES
import Mathlib.Data.Prod.Lex

/-!
# Novelty search

suprb/optimizer/rule/ns: suprb/optimizer/rule/ns/ns.py, suprb/optimizer/rule/ns/novelty_calculation.py, suprb/optimizer/rule/ns/novelty_search_type.py and suprb/optimizer/rule/ns/archive.py. Rules are objects that are shared between the population, the
archive and the list being scored, and carry the attributes `distances_`, `idx_` and `novelty_score_`. So the state has a store of objects; rules are referred to
by position in the store.
-/

set_option autoImplicit false

namespace Suprb

variable {K : Type} [Field K] [LinearOrder K] {R : Type}

/-- A rule with the attributes novelty search attaches to it (suprb/optimizer/rule/ns/novelty_calculation.py:34, 41, 47); `none`: the attribute does not exist. -/
structure NsObj (R K : Type) where
  rule : R
  distances : Option (List K) := none
  idx : Option Nat := none
  novelty : Option (WithBot K) := none

/-- What novelty search reads of a (fitted) rule: `match_set_`, `fitness_`, `experience_` (suprb/optimizer/rule/ns/novelty_calculation.py:36, 68, 114; suprb/optimizer/rule/ns/ns.py:185). -/
structure NsView (R K : Type) where
  matchSet : R → List Bool
  fitness : R → WithBot K
  experience : R → Nat

/-- The objects that exist; references are positions. Rules are shared by reference between population, archive and pool copies (suprb/optimizer/rule/ns/novelty_calculation.py:29-48, suprb/optimizer/rule/ns/ns.py:108, 138, 178). -/
abbrev Store (R K : Type) := List (NsObj R K)

/-- scipy.spatial.distance.hamming (suprb/optimizer/rule/ns/novelty_calculation.py:36): the proportion of positions that differ; different lengths are a `ValueError`. Match sets have one
entry per training sample, so they are not empty. -/
def hamming (u v : List Bool) : Except PyErr K :=
  if u.length ≠ v.length then .error .valueError else .ok (((u.zip v).countP fun p => p.1 != p.2 : Nat) / (u.length : K))

/-- The novelty search types (suprb/optimizer/rule/ns/novelty_search_type.py:6-49). -/
inductive NsType
  | plain
  | minimalCriteria (minExamples : Nat)
  | localCompetition (range : Nat)
  deriving DecidableEq

/-- `np.percentile(a, q)` (suprb/optimizer/rule/ns/novelty_search_type.py:26-29) for `0 ≤ q ≤ 100`: linear interpolation between the two closest ranks of the sorted values, at rank `(n-1)·q/100`. -/
def npPercentile (a : List K) (q : Nat) : Except PyErr K :=
  if 100 < q then .error .valueError
  else
    let s := sortedAsc id a
    let i := (a.length - 1) * q / 100
    let t : K := (((a.length - 1) * q % 100 : Nat) : K) / 100
    match s[i]?, s[min (i + 1) (a.length - 1)]? with
    | some lo, some hi => .ok (lo + (hi - lo) * t)
    | _, _ => .error .indexError

/-- `np.count_nonzero(rule.match_set_)` (suprb/optimizer/rule/ns/novelty_search_type.py:27, 33). -/
def NsView.matched (V : NsView R K) (r : R) : Nat := (V.matchSet r).count true

/-- suprb/optimizer/rule/ns/novelty_search_type.py:22-33 `MinimalCriteria.filter_rules` (the parameter is used as the percentile and the constant 25 as the threshold). -/
def minimalCriteria (V : NsView R K) (q : Nat) (rules : List R) : Except PyErr (R → Bool) :=
  match npPercentile (rules.map fun r => (V.matched r : K)) q with
  | .error e => .error e
  | .ok p => .ok fun r => decide (min p 25 ≤ (V.matched r : K))

/-- `filter_rules` of the three types on references (suprb/optimizer/rule/ns/novelty_search_type.py:9-10, 22-33). -/
def filterRules (V : NsView R K) (st : Store R K) (t : NsType) (refs : List Nat) : Except PyErr (List Nat) :=
  match t with
  | .minimalCriteria q =>
    match minimalCriteria V q (refs.filterMap fun r => st[r]?.map NsObj.rule) with
    | .error e => .error e
    | .ok keep => .ok (refs.filter fun r => (st[r]?.map fun o => keep o.rule).getD false)
  | _ => .ok refs

/-- suprb/optimizer/rule/ns/novelty_search_type.py:12-13, 42-49 `local_competition`: only the first `range` rules of the archive are looked at. -/
def localCompetition (V : NsView R K) (st : Store R K) (t : NsType) (r : R) (archive : List Nat) : Except PyErr K :=
  match t with
  | .localCompetition range =>
    if range = 0 then .error .zeroDivisionError
    else .ok (((archive.take range).countP fun a => decide (V.fitness r < (st[a]?.map fun o => V.fitness o.rule).getD ⊥) : Nat) / (range : K))
  | _ => .ok 0

/-- `rule.distances_.append(x)` (suprb/optimizer/rule/ns/novelty_calculation.py:37-38, 40). -/
def appendDistance (st : Store R K) (r : Nat) (x : K) : Except PyErr (Store R K) :=
  match st[r]? with
  | none => .error .indexError
  | some o =>
    match o.distances with
    | none => .error .attributeError
    | some ds => .ok (st.set r { o with distances := some (ds ++ [x]) })

/-- suprb/optimizer/rule/ns/novelty_calculation.py:35-38: distances between the rule `r` and all rules of the archive, appended to both. -/
def distancesTo (V : NsView R K) (r : Nat) : List Nat → Store R K → Except PyErr (Store R K)
  | [], st => .ok st
  | a :: rest, st =>
    match st[r]?, st[a]? with
    | some o, some b =>
      match hamming (V.matchSet o.rule) (V.matchSet b.rule) with
      | .error e => .error e
      | .ok h =>
        match appendDistance st a h with
        | .error e => .error e
        | .ok st1 =>
          match appendDistance st1 r h with
          | .error e => .error e
          | .ok st2 => distancesTo V r rest st2
    | _, _ => .error .indexError

/-- suprb/optimizer/rule/ns/novelty_calculation.py:33-43: one rule joins the (temporary) archive. -/
def joinArchive (V : NsView R K) (st : Store R K) (archive : List Nat) (r : Nat) : Except PyErr (Store R K) :=
  match st[r]? with
  | none => .error .indexError
  | some o =>
    if o.idx.all fun i => decide (archive.length < i) then
      match distancesTo V r archive (st.set r { o with distances := some [] }) with
      | .error e => .error e
      | .ok st1 =>
        match appendDistance st1 r 0 with
        | .error e => .error e
        | .ok st2 => .ok (st2.modify r fun o => { o with idx := some archive.length })
    else .ok st

/-- suprb/optimizer/rule/ns/novelty_calculation.py:32-43: the loop; returns the store and the temporary archive. -/
def joinAll (V : NsView R K) : List Nat → Store R K → List Nat → Except PyErr (Store R K × List Nat)
  | [], st, archive => .ok (st, archive)
  | r :: rest, st, archive =>
    match joinArchive V st archive r with
    | .error e => .error e
    | .ok st1 => joinAll V rest st1 (archive ++ [r])

/-- The variants of suprb/optimizer/rule/ns/novelty_calculation.py:10-117. -/
inductive NsVariant (K : Type)
  | basic
  | progressive
  | pareto
  | biased (noveltyBias fitnessBias : K)

/-- suprb/optimizer/rule/ns/novelty_calculation.py:52-59 `_novelty_score_calculation`: the mean of the smallest distances; the distance of the rule to itself is among them. -/
def nearestMean (k : Nat) (ds : List K) : Except PyErr K :=
  if ds = [] then .error .valueError
  else
    let n := min k (ds.length - 1)
    if n = 0 then .ok 0 else .ok (((sortedAsc id ds).take n).sum / (n : K))

/-- suprb/optimizer/rule/ns/novelty_calculation.py:52-59, 112-117: the score without local competition; the fitness of a rule that matches nothing is `-inf`. -/
def noveltyBase (V : NsView R K) (v : NsVariant K) (k : Nat) (o : NsObj R K) : Except PyErr (WithBot K) :=
  match o.distances with
  | none => .error .attributeError
  | some ds =>
    match nearestMean k ds with
    | .error e => .error e
    | .ok s =>
      match v with
      | .biased nb fb => .ok ((V.fitness o.rule).map fun f => nb * s + fb * (f / 100))
      | _ => .ok (s : K)

/-- suprb/optimizer/rule/ns/novelty_calculation.py:45-48: the scores; `-inf` (biased variant, rule without match) is `⊥` (with `fitness_bias = 0` it would be NaN). -/
def scoreAll (V : NsView R K) (v : NsVariant K) (t : NsType) (k : Nat) (archive : List Nat) : List Nat → Store R K → Except PyErr (Store R K)
  | [], st => .ok st
  | r :: rest, st =>
    match st[r]? with
    | none => .error .indexError
    | some o =>
      match localCompetition V st t o.rule archive with
      | .error e => .error e
      | .ok lc =>
        match noveltyBase V v k o with
        | .error e => .error e
        | .ok s => scoreAll V v t k archive rest (st.set r { o with novelty := some (s.map fun x => lc + x) })

/-- `np.median` (suprb/optimizer/rule/ns/novelty_calculation.py:68): of an empty list NaN, which nothing is greater than or equal to. -/
def nsMedian (fs : List (WithBot K)) : Option (WithBot K) :=
  let s := sortedAsc id fs
  let m := fs.length / 2
  if fs.length % 2 = 1 then s[m]?
  else
    match s[m - 1]?, s[m]? with
    | some a, some b => some (WithBot.map₂ (fun x y => (x + y) / 2) a b)
    | _, _ => none

/-- suprb/optimizer/rule/ns/novelty_calculation.py:67-71: the rules that are at least as fit as the median. -/
def progressiveFilter {α : Type} (fitness : α → WithBot K) (rules : List α) : List α :=
  match nsMedian (rules.map fitness) with
  | none => []
  | some m => rules.filter fun r => decide (m ≤ fitness r)

/-- suprb/optimizer/rule/ns/novelty_calculation.py:87-89: the loop over the sorted rules; `last` is the fitness of the last rule of the front. -/
def paretoLoop {α F : Type} [LE F] [DecidableLE F] (fitness : α → F) : F → List α → List α
  | _, [] => []
  | last, r :: rest => if last ≤ fitness r then r :: paretoLoop fitness (fitness r) rest else paretoLoop fitness last rest

/-- suprb/optimizer/rule/ns/novelty_calculation.py:82-91 `_get_pareto_front`. -/
def paretoFront {α F G : Type} [LinearOrder F] [LinearOrder G] (novelty : α → F) (fitness : α → G) (rules : List α) : Except PyErr (List α) :=
  match sortedDesc (fun r => toLex (novelty r, fitness r)) rules with
  | [] => .error .indexError
  | r :: rest => .ok (r :: paretoLoop fitness (fitness r) rest)

/-- The score `novelty_score_` of the object `r` (suprb/optimizer/rule/ns/novelty_calculation.py:83, suprb/optimizer/rule/ns/ns.py:185); objects without score are not sorted anywhere. -/
def noveltyOf (st : Store R K) (r : Nat) : WithBot K := ((st[r]?).bind NsObj.novelty).getD ⊥

/-- The fitness of the object `r` (suprb/optimizer/rule/ns/novelty_calculation.py:68, 83). -/
def fitnessAt (V : NsView R K) (st : Store R K) (r : Nat) : WithBot K := (st[r]?.map fun o => V.fitness o.rule).getD ⊥
/-- The experience of the object `r` (suprb/optimizer/rule/ns/ns.py:185, suprb/optimizer/rule/ns/archive.py:40). -/
def experienceAt (V : NsView R K) (st : Store R K) (r : Nat) : Nat := (st[r]?.map fun o => V.experience o.rule).getD 0

/-- suprb/optimizer/rule/ns/novelty_calculation.py:20-50, 67-71, 77-80: `NoveltyCalculation.__call__` of all variants. -/
def noveltyScores (V : NsView R K) (v : NsVariant K) (t : NsType) (k : Nat) (archive rules : List Nat) (st : Store R K) :
    Except PyErr (Store R K × List Nat) :=
  let rules := match v with
    | .progressive => progressiveFilter (fitnessAt V st) rules
    | _ => rules
  match filterRules V st t rules with
  | .error e => .error e
  | .ok filtered =>
    match joinAll V filtered st archive with
    | .error e => .error e
    | .ok (st1, archive1) =>
      match scoreAll V v t k archive1 filtered st1 with
      | .error e => .error e
      | .ok st2 =>
        match v with
        | .pareto =>
          match paretoFront (noveltyOf st2) (fitnessAt V st2) filtered with
          | .error e => .error e
          | .ok front => .ok (st2, front)
        | _ => .ok (st2, filtered)

/-- The archives (suprb/optimizer/rule/ns/archive.py:36-59); for the random archive the permutation of `n` positions drawn by `shuffle`. -/
inductive NsArchive
  | novel | random (perm : Nat → List Nat) | none_

/-- suprb/optimizer/rule/ns/ns.py:184-186 `_get_n_best_rules`, suprb/optimizer/rule/ns/archive.py:40: sorted by novelty and experience, best first. -/
def byNovelty (V : NsView R K) (st : Store R K) (rules : List Nat) : List Nat :=
  sortedDesc (fun r => toLex (noveltyOf st r, experienceAt V st r)) rules

/-- suprb/optimizer/rule/ns/archive.py:39-41, 47-49, 58-59 `_add_rules_to_archive`; `shuffle` also changes the list of the caller. Returns what is added and the list afterwards. -/
def archiveAdds (V : NsView R K) (st : Store R K) (a : NsArchive) (rules : List Nat) (n : Nat) : List Nat × List Nat :=
  match a with
  | .novel => ((byNovelty V st rules).take n, rules)
  | .random perm => (((perm rules.length).filterMap fun i => rules[i]?).take n, (perm rules.length).filterMap fun i => rules[i]?)
  | .none_ => ([], rules)

/-- Parameters of suprb/optimizer/rule/ns/ns.py:57-98. -/
structure NsCfg (K : Type) where
  mu : Nat
  roh : Nat
  nElitists : Nat
  usePopulation : Bool
  variant : NsVariant K
  type : NsType
  k : Nat

/-- State of the loop (suprb/optimizer/rule/ns/ns.py:122-138): objects, archive, population, best children; `log` is a ghost variable with all scores that were computed. -/
structure NsState (R K : Type) where
  store : Store R K
  archive : List Nat
  population : List Nat
  best : List Nat
  log : List (WithBot K)

/-- suprb/optimizer/rule/ns/ns.py:174-182 `_rule_selection`: new store, new archive and the `n` best of the scored rules. -/
def ruleSelection (V : NsView R K) (cfg : NsCfg K) (a : NsArchive) (s : NsState R K) (rules : List Nat) (n roh : Nat) : Except PyErr (NsState R K × List Nat) :=
  match noveltyScores V cfg.variant cfg.type cfg.k s.archive rules s.store with
  | .error e => .error e
  | .ok (st, ns) =>
    let adds := if cfg.usePopulation then (ns, ns) else archiveAdds V st a ns roh
    .ok ({ s with store := st, archive := s.archive ++ adds.1, log := s.log ++ ns.map (noveltyOf st) }, (byNovelty V st adds.2).take n)

/-- The draws of one iteration: what the selection operator and the shuffling return for a population (suprb/optimizer/rule/ns/ns.py:155-159), as positions of the selected parents or an error (any selection operator),
the draws for each pair of parents, and the permutations for the random archive. -/
structure NsDraw (R Z : Type) where
  parents : List R → Except PyErr (List Nat)
  breed : Nat → Z
  archiveChildren : NsArchive
  archiveParents : NsArchive

/-- suprb/optimizer/rule/ns/ns.py:164-165: the pairs `zip(*[iter(parents)] * 2)`. -/
def pairUp {α : Type} : List α → List (α × α)
  | a :: b :: rest => (a, b) :: pairUp rest
  | _ => []

/-- suprb/optimizer/rule/ns/ns.py:161-172 `_crossover_and_mutate`; `breed` is crossover, mutation, constraint and fit of one pair (the random draws of all crossovers precede those of the
mutations, which does not matter as the draws are arbitrary). Mutation returns new objects (suprb/optimizer/rule/mutation.py:25). -/
def nsChildren {Z : Type} (breed : R → R → Z → Except PyErr (List R)) (z : Nat → Z) : Nat → List (R × R) → Except PyErr (List R)
  | _, [] => .ok []
  | i, (a, b) :: rest =>
    match breed a b (z i) with
    | .error e => .error e
    | .ok cs =>
      match nsChildren breed z (i + 1) rest with
      | .error e => .error e
      | .ok ds => .ok (cs ++ ds)

/-- `[population[i] for i in positions]`, the effect of selecting and shuffling (suprb/optimizer/rule/ns/ns.py:156-157). -/
def pick (l positions : List Nat) : Except PyErr (List Nat) :=
  positions.mapM fun i => match l[i]? with
    | none => .error .indexError
    | some x => .ok x

/-- suprb/optimizer/rule/ns/ns.py:155-159 `_select_shuffled_parents`. -/
def selectParents {Z : Type} (s : NsState R K) (d : NsDraw R Z) : Except PyErr (List Nat) :=
  match d.parents (s.population.filterMap fun r => s.store[r]?.map NsObj.rule) with
  | .error e => .error e
  | .ok positions => pick s.population positions

/-- `Random` (suprb/optimizer/rule/selection.py:71-74): `random_state.choice(rules, size=size)`; `idx n` are the positions drawn from `n` rules. Nothing can be drawn from no rules. -/
def selectAtRandom (idx : Nat → List Nat) (population : List R) : Except PyErr (List Nat) :=
  if population = [] then .error .valueError else .ok (idx population.length)

/-- suprb/optimizer/rule/ns/ns.py:125-138: one iteration. -/
def nsStep {Z : Type} (V : NsView R K) (cfg : NsCfg K) (breed : R → R → Z → Except PyErr (List R)) (valid : R → Bool) (s : NsState R K) (d : NsDraw R Z) :
    Except PyErr (NsState R K) :=
  match selectParents s d with
  | .error e => .error e
  | .ok parents =>
    if parents = [] then .ok s
    else
      match nsChildren breed d.breed 0 (pairUp (parents.filterMap fun r => s.store[r]?.map NsObj.rule)) with
      | .error e => .error e
      | .ok children =>
        let fresh := children.filter valid
        if fresh = [] then .ok s
        else
          let s1 := { s with store := s.store ++ fresh.map fun r => { rule := r } }
          match ruleSelection V cfg d.archiveChildren s1 ((List.range fresh.length).map (s.store.length + ·)) cfg.mu cfg.roh with
          | .error e => .error e
          | .ok (s2, best) =>
            match ruleSelection V cfg d.archiveParents s2 parents cfg.nElitists 0 with
            | .error e => .error e
            | .ok (s3, bestParents) => .ok { s3 with population := best ++ bestParents, best := best }

/-- suprb/optimizer/rule/ns/ns.py:108, 122-123: the state before the loop; `pool` are copies of the rules of the pool with their attributes, `initial` the fitted initial rules. -/
def nsStart (pool : Store R K) (initial : List R) : NsState R K :=
  ⟨pool ++ initial.map fun r => { rule := r }, List.range pool.length, (List.range initial.length).map (pool.length + ·), [], []⟩

/-- suprb/optimizer/rule/ns/ns.py:100-140 `optimize`. -/
def nsOptimize {Z : Type} (V : NsView R K) (cfg : NsCfg K) (breed : R → R → Z → Except PyErr (List R)) (valid : R → Bool) (accept : R → Except PyErr Bool)
    (nRules : Nat) (pool : Store R K) (initial : List R) (draws : List (NsDraw R Z)) : Except PyErr (List R) :=
  match draws.foldlM (nsStep V cfg breed valid) (nsStart pool initial) with
  | .error e => .error e
  | .ok s => filterInvalid accept ((s.best.take nRules).map fun r => s.store[r]?.map NsObj.rule)

/-! ## Concrete rules -/

section Concrete

open Spec

variable {d : Nat} {M : Type}

/-- What novelty search reads of a rule (suprb/optimizer/rule/ns/novelty_calculation.py:36, 68, 114; suprb/optimizer/rule/ns/ns.py:185); rules are fitted before, so the attributes exist. -/
def ruleView : NsView (Rule K d M) K where
  matchSet := fun ρ => (ρ.st.map RuleState.matchSet).getD []
  fitness := ruleFitnessOf
  experience := fun ρ => (ρ.st.map RuleState.experience).getD 0

/-- The draws for one pair of parents (suprb/optimizer/rule/ns/ns.py:165-170): the draw compared with the crossover rate, the mask, the draws of the two mutations. -/
structure BreedDraw (K : Type) (d : Nat) where
  u : K
  mask : Fin d → Bool
  first : Pairs K d
  second : Pairs K d

/-- suprb/optimizer/rule/ns/ns.py:165-170: crossover, mutation, constraint and fit for one pair of parents. The crossover copies the fitted attributes of the parents (suprb/optimizer/rule/crossover.py:29-30),
which the clone made by the mutation drops. -/
def breedRules (L : Learner K d M) (ff : RuleFitness K d) (X : List (Point K d)) (y : List K) (m : Mutation) (r rate : K) (fb : Pairs K d) (A B : Rule K d M)
    (z : BreedDraw K d) : Except PyErr (List (Rule K d M)) :=
  match ruleCrossover A.kind rate z.u z.mask A.bounds B.bounds with
  | .error e => .error e
  | .ok (a, b) =>
    match childRule L ff X y m r fb { A with bounds := a } z.first with
    | .error e => .error e
    | .ok c1 =>
      match childRule L ff X y m r fb { B with bounds := b } z.second with
      | .error e => .error e
      | .ok c2 => .ok [c1, c2]

end Concrete

end Suprb
