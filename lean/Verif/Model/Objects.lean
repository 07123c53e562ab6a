import Verif.Model.ES

/-!
# Object identity of rules

Rules are mutable objects whose condition is a mutable array, and mutation, constraints and `fit` work in place. This module models rule discovery on an explicit heap
of arrays and rule objects, so that it can be said which objects an operation changes. The value level model (`Verif.Model.ES`) is shown to be what a reader
of the objects sees (`Verif.Props.Objects`).

Simplifications: the matching function (an object with the single attribute `bounds`) and the local model belong to one rule each, since they are created or copied together with it
(suprb/rule/base.py:99, 101, suprb/rule/initialization.py:83, 87, suprb/optimizer/rule/crossover.py:29-30), so they are part of the rule object. The class of the matching
function of a rule never changes.
-/

set_option autoImplicit false

namespace Suprb

open Spec

variable {K : Type} [Field K] [LinearOrder K] {d : Nat} {M : Type}

/-- A rule object (suprb/rule/base.py:41-51): addresses of the arrays `match.bounds` and `input_space`, local model and fitted attributes. -/
structure RuleObj (K M : Type) where
  kind : Kind
  boundsAt : Nat
  spaceAt : Nat
  model : Option M := none
  st : Option (RuleState K) := none

/-- All arrays and rule objects that were created so far; addresses are positions (the objects of suprb/rule/base.py:41-51). -/
structure RHeap (K : Type) (d : Nat) (M : Type) where
  arrays : List (Pairs K d) := []
  objs : List (RuleObj K M) := []

/-- What a reader of the object `r` sees (the attributes of suprb/rule/base.py:41-51, 60-87). -/
def RHeap.view (h : RHeap K d M) (r : Nat) : Option (Rule K d M) :=
  match h.objs[r]? with
  | none => none
  | some o =>
    match h.arrays[o.boundsAt]?, h.arrays[o.spaceAt]? with
    | some b, some s => some { kind := o.kind, bounds := b, inputSpace := s, model := o.model, st := o.st }
    | _, _ => none

/-- Statements that change the heap and return a value or raise an exception; the heap is also there after an exception (suprb/suprb.py:217-238). -/
def HM (K : Type) (d : Nat) (M α : Type) : Type := RHeap K d M → RHeap K d M × Except PyErr α

namespace HM

variable {α β : Type}

/-- A value (no statement; e.g. suprb/optimizer/rule/es/es.py:137). -/
def ret (a : α) : HM K d M α := fun h => (h, .ok a)

/-- An exception (e.g. suprb/optimizer/rule/mutation.py:107). -/
def raise (e : PyErr) : HM K d M α := fun h => (h, .error e)

/-- One statement after the other; an exception ends the execution (suprb/suprb.py:217-238). -/
def bind (m : HM K d M α) (f : α → HM K d M β) : HM K d M β := fun h =>
  match m h with
  | (h', .error e) => (h', .error e)
  | (h', .ok a) => f a h'

instance : Monad (HM K d M) where
  pure := ret
  bind := bind

/-- `[f(x) for x in l]` (e.g. suprb/optimizer/rule/es/es.py:108-110). -/
def each (f : α → HM K d M β) : List α → HM K d M (List β)
  | [] => ret []
  | a :: rest => (f a).bind fun b => (each f rest).bind fun bs => ret (b :: bs)

/-- An expression that only reads (e.g. suprb/optimizer/rule/es/es.py:113, 133). -/
def reads (f : RHeap K d M → Except PyErr α) : HM K d M α := fun h => (h, f h)

end HM

/-- `Rule(match=…(array), input_space=…, …)` with a newly created array: suprb/rule/initialization.py:84-89, suprb/rule/base.py:97-104. -/
def hNewRule (k : Kind) (b : Pairs K d) (spaceAt : Nat) : HM K d M Nat := fun h =>
  ({ arrays := h.arrays ++ [b], objs := h.objs ++ [{ kind := k, boundsAt := h.arrays.length, spaceAt := spaceAt }] }, .ok h.objs.length)

/-- suprb/rule/base.py:97-104 `Rule.clone()`: the condition is copied (suprb/rule/matching.py:66-67, 104-105, 158-159, 200-201), the array `input_space` is shared. -/
def hClone (r : Nat) : HM K d M Nat := fun h =>
  match h.objs[r]?, h.view r with
  | some o, some ρ => hNewRule o.kind ρ.bounds o.spaceAt h
  | _, _ => (h, .error .attributeError)

/-- `deepcopy(rule)` (suprb/optimizer/rule/crossover.py:29-30): all arrays are copied, and the fitted attributes too.
(`deepcopy` of a list, suprb/optimizer/rule/ns/ns.py:108, copies a shared `input_space` only once; as nothing writes to it this makes no difference.) -/
def hDeepcopy (r : Nat) : HM K d M Nat := fun h =>
  match h.objs[r]?, h.view r with
  | some o, some ρ =>
    ({ arrays := h.arrays ++ [ρ.bounds, ρ.inputSpace],
       objs := h.objs ++ [{ o with boundsAt := h.arrays.length, spaceAt := h.arrays.length + 1 }] }, .ok h.objs.length)
  | _, _ => (h, .error .attributeError)

/-- In-place change of the array `rule.match.bounds`: `bounds[…] = …`, `bounds += …`, `clip(…, out=bounds)` (suprb/optimizer/rule/mutation.py:75, 78, 98, 121, suprb/rule/matching.py:71,
77-78, 120-125, 162-163, 169, 204-205, 212-213). -/
def hWrite (r : Nat) (b : Pairs K d) : HM K d M Unit := fun h =>
  match h.objs[r]? with
  | none => (h, .error .attributeError)
  | some o => ({ h with arrays := h.arrays.set o.boundsAt b }, .ok ())

/-- `rule.match.bounds = array` with a new array (suprb/optimizer/rule/mutation.py:83, 104, 123, 149, 168, suprb/optimizer/rule/crossover.py:36-37). -/
def hAssign (r : Nat) (b : Pairs K d) : HM K d M Unit := fun h =>
  match h.objs[r]? with
  | none => (h, .error .attributeError)
  | some _ =>
    ({ arrays := h.arrays ++ [b], objs := h.objs.modify r fun o => { o with boundsAt := h.arrays.length } }, .ok ())

/-- suprb/rule/base.py:53-88 `rule.fit(X, y)`: sets attributes of the rule and trains its local model. (If the training raises, `match_set_` is
already set, line 74; the rule is new in that case, see `hInitial`, `hChild`, and nobody refers to it.) -/
def hFit (L : Learner K d M) (ff : RuleFitness K d) (X : List (Point K d)) (y : List K) (r : Nat) : HM K d M Nat := fun h =>
  match h.view r with
  | none => (h, .error .attributeError)
  | some ρ =>
    match Rule.fit L ff X y ρ with
    | .error e => (h, .error e)
    | .ok ρ' => ({ h with objs := h.objs.modify r fun o => { o with model := ρ'.model, st := ρ'.st } }, .ok r)

/-- The part of the mutations that works in place, before the rows of ordered bounds are sorted (suprb/optimizer/rule/mutation.py:69-178). -/
def mutateInPlace (m : Mutation) (k : Kind) (z b : Pairs K d) : Except PyErr (Pairs K d) :=
  match m, k with
  | .halfnorm, .ordered => .ok (aroundMean z b)
  | .halfnorm, .unordered => .ok (aroundMean z b)
  | .halfnorm, _ => .error .typeError
  | .halfnormIncrease, .unordered => .error .typeError
  | .uniformIncrease, .unordered => .error .typeError
  | .halfnormIncrease, .centerSpread => .ok (addNoise z b)
  | .halfnormIncrease, _ => .ok (growNoise z b)
  | .uniformIncrease, _ => .ok (growNoise z b)
  | .normal, _ => .ok (addNoise z b)
  | .uniform, _ => .ok (addNoise z b)

/-- The methods `ordered_bound`, `unordered_bound`, `center_spread` and `min_percentage` of the mutations (suprb/optimizer/rule/mutation.py:69-178): changes in place; for ordered bounds the sorted
rows are a new array (83, 104, 123, 149, 168). -/
def hExecute (m : Mutation) (z : Pairs K d) (r : Nat) : HM K d M Unit := fun h =>
  match h.view r with
  | none => (h, .error .attributeError)
  | some ρ =>
    match mutateInPlace m ρ.kind z ρ.bounds with
    | .error e => (h, .error e)
    | .ok b =>
      (HM.bind (hWrite r b) fun _ => match ρ.kind with
        | .ordered => hAssign r (sortRows b)
        | _ => HM.ret ()) h

/-- suprb/optimizer/rule/mutation.py:23-30 `RuleMutation.__call__`. -/
def hMutate (m : Mutation) (z : Pairs K d) (r : Nat) : HM K d M Nat :=
  (hClone r).bind fun c => (hExecute m z c).bind fun _ => HM.ret c

/-- suprb/optimizer/rule/constraint.py:34-35 `CombinedConstraint.__call__`: both parts change the array of the rule in place (suprb/rule/matching.py:69-78, 107-125, 161-169, 203-213; the
clipping of unordered bounds changes nothing). `fbAt` is the address of the array `bounds` of `Clip`. -/
def hConstrain (minRange : K) (fbAt r : Nat) : HM K d M Nat := fun h =>
  match h.view r with
  | none => (h, .error .attributeError)
  | some ρ =>
    (HM.bind (hWrite r (ρ.kind.minRange minRange ρ.bounds)) fun _ => fun h' =>
      match h'.view r, h'.arrays[fbAt]? with
      | some ρ', some fb => (HM.bind (hWrite r (ρ'.kind.clip fb ρ'.bounds)) fun _ => HM.ret r) h'
      | _, _ => (h', .error .attributeError)) h

/-- What discovery is given: local model, rule fitness, data, minimum range, and the addresses of the feature bounds of the initialisation (`spaceAt`, suprb/rule/initialization.py:40, 86) and of the
clipping (`fbAt`, suprb/optimizer/rule/constraint.py:43, 46); both are the same array unless the user sets one of them (suprb/suprb.py:312-318). -/
structure HEnv (K : Type) (d : Nat) (M : Type) where
  learner : Learner K d M
  fitness : RuleFitness K d
  X : List (Point K d)
  y : List K
  minRange : K
  spaceAt : Nat
  fbAt : Nat

/-- suprb/optimizer/rule/base.py:90-91, suprb/optimizer/rule/rs/rs.py:91-92, suprb/optimizer/rule/ns/ns.py:148-150: a rule with the initialised condition `b`, constrained and fitted. -/
def hInitial (E : HEnv K d M) (k : Kind) (b : Pairs K d) : HM K d M Nat :=
  (hNewRule k b E.spaceAt).bind fun r => (hConstrain E.minRange E.fbAt r).bind fun r => hFit E.learner E.fitness E.X E.y r

/-- suprb/optimizer/rule/es/es.py:109, suprb/optimizer/rule/ns/ns.py:169: `self.constraint(self.mutation(rule)).fit(X, y)`. -/
def hChild (E : HEnv K d M) (m : Mutation) (r : Nat) (z : Pairs K d) : HM K d M Nat :=
  (hMutate m z r).bind fun c => (hConstrain E.minRange E.fbAt c).bind fun c => hFit E.learner E.fitness E.X E.y c

/-- `rule.fitness_` of an object (suprb/optimizer/rule/es/es.py:133; suprb/optimizer/rule/selection.py:23). -/
def RHeap.fitnessOf (h : RHeap K d M) (r : Nat) : WithBot K := ((h.view r).map ruleFitnessOf).getD ⊥

/-- suprb/optimizer/rule/es/es.py:113, suprb/optimizer/rule/ns/ns.py:132. -/
def RHeap.valid (h : RHeap K d M) (r : Nat) : Bool := ((h.view r).map validRule).getD false

/-- `self.selection(rules)[0]` (suprb/optimizer/rule/es/es.py:129, 131) for a selection that sees the rules and takes the one at the position `pick` (with everything it draws). -/
def pickRule (pick : List (Rule K d M) → Except PyErr Nat) (ρs : List (Rule K d M)) : Except PyErr (Rule K d M) :=
  match pick ρs with
  | .error e => .error e
  | .ok i => match ρs[i]? with
    | none => .error .indexError
    | some ρ => .ok ρ

/-- The same on objects (suprb/optimizer/rule/es/es.py:129, 131). -/
def RHeap.pick (h : RHeap K d M) (pick : List (Rule K d M) → Except PyErr Nat) (rs : List Nat) : Except PyErr Nat :=
  match pick (rs.filterMap h.view) with
  | .error e => .error e
  | .ok i => match rs[i]? with
    | none => .error .indexError
    | some r => .ok r

/-- suprb/optimizer/rule/selection.py:18-23 `Fittest` as a position. -/
def fittestPos (ρs : List (Rule K d M)) : Except PyErr Nat :=
  fittestFirst (fun i => ((ρs[i]?).map ruleFitnessOf).getD ⊥) (List.range ρs.length)

/-- suprb/optimizer/rule/es/es.py:104-135: one iteration of the main loop on objects (compare `esGen`). -/
def hGen (E : HEnv K d M) (op : ESOperator) (delay : Nat) (m : Mutation) (zs : List (Pairs K d)) (pick : List (Rule K d M) → Except PyErr Nat) (elitist : Nat) (w : List Nat) :
    HM K d M (GenOut Nat) :=
  (HM.each (hChild E m elitist) zs).bind fun children => HM.reads fun h =>
    let w := dequeAppend delay w elitist
    let validChildren := children.filter h.valid
    if validChildren.isEmpty then .ok (.next elitist w)
    else match op with
      | .plus => match h.pick pick (validChildren ++ [elitist]) with
        | .error e => .error e
        | .ok new => .ok (.next new w)
      | .comma => match h.pick pick validChildren with
        | .error e => .error e
        | .ok new => .ok (.next new w)
      | .amp => match h.pick pick validChildren with
        | .error e => .error e
        | .ok new =>
          if w.length = delay then
            match w with
            | [] => .error .indexError
            | e0 :: _ => if w.all (fun e => decide (h.fitnessOf e ≤ h.fitnessOf e0)) then .ok (.stop e0) else .ok (.next new w)
          else .ok (.next new w)
      | .other => .ok (.next elitist w)

/-- What is drawn in one iteration of the evolution strategy: the numbers for the children, and the choice of the selection (suprb/optimizer/rule/es/es.py:108-131). -/
abbrev ESDraw (K : Type) (d : Nat) (M : Type) := List (Pairs K d) × (List (Rule K d M) → Except PyErr Nat)

/-- suprb/optimizer/rule/es/es.py:91-137 `ES1xLambda._optimize` on objects; one element of the list per iteration. -/
def hLoop (E : HEnv K d M) (op : ESOperator) (delay : Nat) (m : Mutation) : List (ESDraw K d M) → Nat → List Nat → HM K d M Nat
  | [], elitist, _ => HM.ret elitist
  | g :: gs, elitist, w => (hGen E op delay m g.1 g.2 elitist w).bind fun
    | .stop r => HM.ret r
    | .next e w => hLoop E op delay m gs e w

/-- suprb/optimizer/rule/base.py:56-62 `_filter_invalid_rules` on objects; the acceptance only reads. -/
def hAccept (accept : Rule K d M → Except PyErr Bool) (rs : List Nat) : HM K d M (List Nat) := HM.reads fun h =>
  filterInvalid (fun r => match h.view r with | none => .error .attributeError | some ρ => accept ρ) (rs.map some)

/-- suprb/optimizer/rule/base.py:75-99 `optimize` of the evolution strategy on objects, executed sequentially (suprb/optimizer/rule/base.py:93-97 with `n_jobs=1`), after the origins were drawn; `starts` are the initialised
conditions, `streams` the draws for each rule. -/
def hDiscoverES (E : HEnv K d M) (op : ESOperator) (delay : Nat) (m : Mutation) (accept : Rule K d M → Except PyErr Bool) (k : Kind)
    (starts : List (Pairs K d)) (streams : List (List (ESDraw K d M))) : HM K d M (List Nat) :=
  (HM.each (hInitial E k) starts).bind fun initial =>
    (HM.each (fun p : Nat × List (ESDraw K d M) => hLoop E op delay m p.2 p.1 []) (initial.zip streams)).bind fun rules => hAccept accept rules

/-- suprb/optimizer/rule/rs/rs.py:78-94: one group of random rules, and the rule that `selection` takes (`size=1`); `none` if the selection returns an empty list
(suprb/optimizer/rule/selection.py:41). -/
def hGroup (E : HEnv K d M) (k : Kind) (g : List (Pairs K d) × (List (Rule K d M) → Except PyErr (Option Nat))) : HM K d M (Option Nat) :=
  (HM.each (hInitial E k) g.1).bind fun rs => HM.reads fun h =>
    match g.2 (rs.filterMap h.view) with
    | .error e => .error e
    | .ok none => .ok none
    | .ok (some i) => .ok rs[i]?

/-- suprb/optimizer/rule/rs/rs.py:67-96 `RandomSearch.optimize` on objects. -/
def hDiscoverRS (E : HEnv K d M) (accept : Rule K d M → Except PyErr Bool) (k : Kind)
    (groups : List (List (Pairs K d) × (List (Rule K d M) → Except PyErr (Option Nat)))) : HM K d M (List Nat) :=
  (HM.each (hGroup E k) groups).bind fun out => hAccept accept (out.filterMap id)

/-- suprb/optimizer/rule/crossover.py:15-39 `RuleCrossover.__call__` with `UniformCrossover` on objects: the parents themselves, or deep copies with new conditions. For other matching types than ordered
bounds `execute` is called with arguments it does not have. -/
def hRuleCrossover (rate u : K) (mask : Fin d → Bool) (a b : Nat) : HM K d M (Nat × Nat) := fun h =>
  if u < rate then
    match h.view a, h.view b with
    | some A, some B =>
      match A.kind with
      | .ordered =>
        (HM.bind (hDeepcopy a) fun a' => HM.bind (hDeepcopy b) fun b' =>
          HM.bind (hAssign a' (uniformCrossover mask A.bounds B.bounds).1) fun _ =>
          HM.bind (hAssign b' (uniformCrossover mask A.bounds B.bounds).2) fun _ => HM.ret (a', b')) h
      | _ => (h, .error .typeError)
    | _, _ => (h, .error .attributeError)
  else (h, .ok (a, b))

/-- The draws for one pair of parents (suprb/optimizer/rule/ns/ns.py:165-170). -/
structure PairDraw (K : Type) (d : Nat) where
  u : K
  mask : Fin d → Bool
  first : Pairs K d
  second : Pairs K d

/-- suprb/optimizer/rule/ns/ns.py:165-170: the two children of a pair of parents. (The crossovers of all pairs precede the mutations; as the crossover only makes new objects the order does not matter.) -/
def hBreed (E : HEnv K d M) (m : Mutation) (rate : K) (p : (Nat × Nat) × PairDraw K d) : HM K d M (Nat × Nat) :=
  (hRuleCrossover rate p.2.u p.2.mask p.1.1 p.1.2).bind fun c =>
    (hChild E m c.1 p.2.first).bind fun c1 => (hChild E m c.2 p.2.second).bind fun c2 => HM.ret (c1, c2)

/-- The choices of one iteration of novelty search (suprb/optimizer/rule/ns/ns.py:126-138) as functions of what the objects look like: positions of the parents in the population, draws for each pair of parents,
and the order of the pairs of novelty and experience (185) of the valid children and of the parents, as one number per position. These choices are modelled in `Verif.Model.Novelty`; here they are arbitrary. -/
structure NsChoice (K : Type) (d : Nat) (M : Type) where
  parents : List (Rule K d M) → Except PyErr (List Nat)
  draws : Nat → PairDraw K d
  childRank : List (Rule K d M) → Except PyErr (Nat → Nat)
  parentRank : List (Rule K d M) → Except PyErr (Nat → Nat)

/-- `l[i]` for the given positions (suprb/optimizer/rule/ns/ns.py:156). -/
def at? (l : List Nat) (positions : List Nat) : List Nat := positions.filterMap fun i => l[i]?

/-- suprb/optimizer/rule/ns/ns.py:184-186 `_get_n_best_rules`. -/
def bestRanked (rank : Nat → Nat) (l : List Nat) (n : Nat) : List Nat := (at? l (sortedDesc rank (List.range l.length))).take n

/-- suprb/optimizer/rule/ns/ns.py:164: the pairs `zip(*[iter(parents)] * 2)`. -/
def pairsOf : List Nat → List (Nat × Nat)
  | a :: b :: rest => (a, b) :: pairsOf rest
  | _ => []

/-- suprb/optimizer/rule/ns/ns.py:125-138: one iteration of novelty search on objects; the state is the population and the best children. The attributes `distances_`, `idx_` and `novelty_score_` that novelty search sets are
not part of the model. -/
def hNsStep (E : HEnv K d M) (m : Mutation) (rate : K) (mu nElitists : Nat) (c : NsChoice K d M) (s : List Nat × List Nat) : HM K d M (List Nat × List Nat) :=
  (HM.reads fun h => c.parents (s.1.filterMap h.view)).bind fun pos =>
    let parents := at? s.1 pos
    if parents = [] then HM.ret s
    else (HM.each (hBreed E m rate) (((pairsOf parents).zipIdx).map fun p => (p.1, c.draws p.2))).bind fun cs => HM.reads fun h =>
      let validChildren := (cs.flatMap fun c => [c.1, c.2]).filter h.valid
      if validChildren = [] then .ok s
      else
        match c.childRank (validChildren.filterMap h.view), c.parentRank (parents.filterMap h.view) with
        | .ok cr, .ok pr => .ok (bestRanked cr validChildren mu ++ bestRanked pr parents nElitists, bestRanked cr validChildren mu)
        | .error e, _ => .error e
        | _, .error e => .error e

/-- suprb/optimizer/rule/ns/ns.py:125-138: the loop. -/
def hNsLoop (E : HEnv K d M) (m : Mutation) (rate : K) (mu nElitists : Nat) : List (NsChoice K d M) → List Nat × List Nat → HM K d M (List Nat × List Nat)
  | [], s => HM.ret s
  | c :: cs, s => (hNsStep E m rate mu nElitists c s).bind (hNsLoop E m rate mu nElitists cs)

/-- suprb/optimizer/rule/ns/ns.py:100-153 `NoveltySearch.optimize` on objects: deep copies of the pool (108), the population (142-153), the loop, the first `n` of the best children (188-199), and the acceptance. -/
def hDiscoverNS (E : HEnv K d M) (m : Mutation) (rate : K) (mu nElitists : Nat) (accept : Rule K d M → Except PyErr Bool) (k : Kind) (pool : List Nat) (starts : List (Pairs K d))
    (choices : List (NsChoice K d M)) (n : Nat) : HM K d M (List Nat) :=
  (HM.each hDeepcopy pool).bind fun _ => (HM.each (hInitial E k) starts).bind fun population =>
    (hNsLoop E m rate mu nElitists choices (population, [])).bind fun s => hAccept accept (s.2.take n)

/-- One call of a rule discovery strategy (suprb/suprb.py:252) with everything that was drawn. -/
inductive HCall (K : Type) (d : Nat) (M : Type)
  | es (op : ESOperator) (delay : Nat) (m : Mutation) (accept : Rule K d M → Except PyErr Bool) (k : Kind) (starts : List (Pairs K d)) (streams : List (List (ESDraw K d M)))
  | rs (accept : Rule K d M → Except PyErr Bool) (k : Kind) (groups : List (List (Pairs K d) × (List (Rule K d M) → Except PyErr (Option Nat))))
  | ns (m : Mutation) (rate : K) (mu nElitists : Nat) (accept : Rule K d M → Except PyErr Bool) (k : Kind) (starts : List (Pairs K d)) (choices : List (NsChoice K d M)) (n : Nat)

/-- `self.rule_discovery_.optimize(X, y, n_rules)` (suprb/suprb.py:252). -/
def HCall.run (E : HEnv K d M) (pool : List Nat) : HCall K d M → HM K d M (List Nat)
  | .es op delay m accept k starts streams => hDiscoverES E op delay m accept k starts streams
  | .rs accept k groups => hDiscoverRS E accept k groups
  | .ns m rate mu nElitists accept k starts choices n => hDiscoverNS E m rate mu nElitists accept k pool starts choices n

/-- suprb/suprb.py:186-193, 252-255: the discovery phases of a training, one after the other; heap and pool (`self.pool_.extend(new_rules)`) after them. An exception ends the training. Solution
composition, which happens in between, only reads rules (suprb/solution/base.py:54-79, suprb/solution/mixing_model.py:87-141). -/
def hTrain (E : HEnv K d M) : List (HCall K d M) → RHeap K d M → List Nat → RHeap K d M × List Nat
  | [], h, pool => (h, pool)
  | c :: cs, h, pool =>
    match c.run E pool h with
    | (h', .error _) => (h', pool)
    | (h', .ok new) => hTrain E cs h' (pool ++ new)

end Suprb
