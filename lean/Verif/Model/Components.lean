import Verif.Py
import Mathlib.Data.Rat.Defs
import Mathlib.Algebra.Order.Ring.Rat

/-!
# Estimators and components as objects

A model of the objects that make up a configured estimator: `SupRB` with its components (suprb/suprb.py:80-106), which refer to further components. Components that are given as default arguments exist once and
are shared by everything that is constructed without an explicit component. `fit` works on clones made with `sklearn.base.clone`.

Simplifications: immutable values (numbers, strings) and arrays are values of a type `A`; attributes that are only stored and never followed (e.g. `pool_`, `elitist_`, `population_`, the parameters recorded by a logger) are values,
too. Lists of components (the loggers of a `CombinedLogger`) are objects whose attributes are the members.
-/

set_option autoImplicit false

namespace Suprb

namespace Comp

/-- Names of attributes, parameters and classes. (suprb/suprb.py:80-106) -/
abbrev Name := String

/-- The value of an attribute: a plain value, `None`, or an object. (suprb/suprb.py:95-106) -/
inductive CVal (A : Type)
  | atom (a : A)
  | none
  | ref (i : Nat)
  deriving DecidableEq

/-- `value is None` (suprb/suprb.py:316). -/
def CVal.isNone {A : Type} : CVal A → Bool
  | .none => true
  | _ => false

/-- An object: its class and attributes. (suprb/suprb.py:95-106) -/
structure CObj (A : Type) where
  cls : Name
  attrs : List (Name × CVal A)

/-- All objects of the process. (suprb/suprb.py:80-106) -/
abbrev CHeap (A : Type) := List (CObj A)

variable {A : Type}

/-- `getattr` (suprb/suprb.py:286-297). -/
def CObj.attr (o : CObj A) (n : Name) : Option (CVal A) := o.attrs.lookup n

/-- The attributes after `setattr(o, n, v)`. (suprb/suprb.py:95-106) -/
def setIn (n : Name) (v : CVal A) : List (Name × CVal A) → List (Name × CVal A)
  | [] => [(n, v)]
  | q :: rest => if q.1 = n then (n, v) :: rest else q :: setIn n v rest

/-- What is known about a class: the parameters of its constructor (`none` for classes without `get_params`, like suprb/solution/mixing_model.py:8, 43), the parameters for which `None` is replaced by a new object
(suprb/rule/initialization.py:45, suprb/solution/initialization.py:32), the other attributes set by the constructor (e.g. suprb/optimizer/solution/saga2/base.py:78, 80, suprb/optimizer/rule/ns/novelty_calculation.py:108), the exceptions it raises
(e.g. suprb/optimizer/rule/es/es.py:86-87, suprb/optimizer/rule/ns/ns.py:96-98), and those of the setters (suprb/optimizer/rule/generation_operator.py:24-35). -/
structure ClassInfo (A : Type) where
  params : Option (List Name) := some []
  fill : List Name := []
  derived : List (Name × CVal A) → List (Name × A) := fun _ => []
  check : CHeap A → List (Name × CVal A) → Option PyErr := fun _ _ => none
  setCheck : CHeap A → CObj A → Name → Option PyErr := fun _ _ _ => none

/-- Statements that change objects and return a value or raise. (suprb/suprb.py:122-215) -/
def CM (A α : Type) : Type := CHeap A → CHeap A × Except PyErr α

namespace CM

variable {α β : Type}

/-- A value (suprb/suprb.py:215). -/
def ret (a : α) : CM A α := fun h => (h, .ok a)

/-- An exception (suprb/suprb.py:147). -/
def raise (e : PyErr) : CM A α := fun h => (h, .error e)

/-- One statement after the other (suprb/suprb.py:168-180). -/
def bind (m : CM A α) (f : α → CM A β) : CM A β := fun h =>
  match m h with
  | (h', .error e) => (h', .error e)
  | (h', .ok a) => f a h'

/-- A loop that collects values (used in suprb/suprb.py:286 by `clone`). -/
def each (f : α → CM A β) : List α → CM A (List β)
  | [] => ret []
  | a :: rest => (f a).bind fun b => (each f rest).bind fun bs => ret (b :: bs)

/-- A loop (suprb/suprb.py:315-318, 321-323). -/
def forAll (f : α → CM A Unit) : List α → CM A Unit
  | [] => ret ()
  | a :: rest => (f a).bind fun _ => forAll f rest

/-- `self` of the object `i` (suprb/suprb.py:286). -/
def object (i : Nat) : CM A (CObj A) := fun h =>
  match h[i]? with
  | none => (h, .error .attributeError)
  | some o => (h, .ok o)

/-- A new object (suprb/suprb.py:168-171). -/
def alloc (o : CObj A) : CM A Nat := fun h => (h ++ [o], .ok h.length)

/-- `obj.name = value` (suprb/suprb.py:286, 178-180). -/
def setAttr (i : Nat) (n : Name) (v : CVal A) : CM A Unit := fun h =>
  (h.modify i fun o => { o with attrs := setIn n v o.attrs }, .ok ())

/-- `obj.name`; a missing attribute is an `AttributeError` (suprb/suprb.py:286). -/
def getAttr (i : Nat) (n : Name) : CM A (CVal A) := (object i).bind fun o =>
  match o.attr n with
  | none => raise .attributeError
  | some v => ret v

end CM

/-- `copy.deepcopy`, used by `clone` for values without `get_params` (suprb/suprb.py:286-297): all attributes of all objects are copied. The first argument is the recursion limit. An object that is reached twice is
copied twice here (`deepcopy` preserves such sharing). -/
def deepcopy : Nat → CVal A → CM A (CVal A)
  | _, .atom a => CM.ret (.atom a)
  | _, .none => CM.ret .none
  | 0, .ref _ => CM.raise .recursionError
  | n + 1, .ref i => (CM.object i).bind fun o =>
    (CM.each (fun q : Name × CVal A => (deepcopy n q.2).bind fun v => CM.ret (q.1, v)) o.attrs).bind fun attrs =>
      (CM.alloc { cls := o.cls, attrs := attrs }).bind fun j => CM.ret (.ref j)

/-- The constructor with all parameters given: the attributes are the parameters and some others; `clone` rejects (`RuntimeError`) a constructor that replaces a parameter, i.e. `None` by a default. (called in suprb/suprb.py:286-297) -/
def construct (T : Name → ClassInfo A) (cls : Name) (given : List (Name × CVal A)) : CM A Nat := fun h =>
  match (T cls).check h given with
  | some e => (h, .error e)
  | none =>
    if given.any fun q => decide (q.1 ∈ (T cls).fill) && q.2.isNone then (h, .error .runtimeError)
    else CM.alloc { cls := cls, attrs := given ++ ((T cls).derived given).map fun q => (q.1, .atom q.2) } h

/-- `sklearn.base.clone(value, safe=False)` (suprb/suprb.py:286-297): a new object of the same class whose parameters are clones. -/
def cloneVal (T : Name → ClassInfo A) : Nat → CVal A → CM A (CVal A)
  | _, .atom a => CM.ret (.atom a)
  | _, .none => CM.ret .none
  | 0, .ref _ => CM.raise .recursionError
  | n + 1, .ref i => (CM.object i).bind fun o =>
    match (T o.cls).params with
    | none => deepcopy (n + 1) (.ref i)
    | some ps =>
      (CM.each (fun p : Name => match o.attr p with
        | none => CM.raise .attributeError
        | some v => (cloneVal T n v).bind fun w => CM.ret (p, w)) ps).bind fun given =>
        (construct T o.cls given).bind fun j => CM.ret (.ref j)

/-- `sklearn.base.clone(value)` (suprb/suprb.py:286-297): values without `get_params` are a `TypeError`. -/
def cloneTop (T : Name → ClassInfo A) (limit : Nat) (v : CVal A) : CM A Nat :=
  match v with
  | .ref i => (CM.object i).bind fun o =>
    match (T o.cls).params with
    | none => CM.raise .typeError
    | some _ => (cloneVal T limit (.ref i)).bind fun
      | .ref j => CM.ret j
      | _ => CM.raise .typeError
  | _ => CM.raise .typeError

/-- `set_params(**{key: value})` of scikit-learn for one key, given as list of names (`key.split("__")`; suprb/suprb.py:309-310, 318, 323): unknown names are `ValueError`s; objects without `set_params` are `AttributeError`s. -/
def setParam (T : Name → ClassInfo A) : List Name → CVal A → Nat → CM A Unit
  | [], _, _ => CM.raise .valueError
  | n :: rest, v, i => (CM.object i).bind fun o =>
    match (T o.cls).params with
    | none => CM.raise .attributeError
    | some ps =>
      if n ∉ ps then CM.raise .valueError
      else match rest with
        | [] => (CM.setAttr i n v).bind fun _ => fun h =>
          match h[i]? with
          | none => (h, .error .attributeError)
          | some o' => match (T o.cls).setCheck h o' n with
            | some e => (h, .error e)
            | none => (h, .ok ())
        | _ :: _ => match o.attr n with
          | some (.ref j) => setParam T rest v j
          | _ => CM.raise .attributeError

/-- `get_params()` of scikit-learn (suprb/suprb.py:307, 315, 321): the parameters, and those of the objects among them, each as a list of names. -/
def deepParams (T : Name → ClassInfo A) (h : CHeap A) : Nat → CVal A → List (List Name × CVal A)
  | 0, _ => []
  | n + 1, .ref i =>
    match h[i]? with
    | none => []
    | some o => match (T o.cls).params with
      | none => []
      | some ps => ps.flatMap fun p => match o.attr p with
        | none => []
        | some v => (deepParams T h n v).map (fun q => (p :: q.1, q.2)) ++ [([p], v)]
  | _ + 1, _ => []

/-- The objects `fit` sets up: rule discovery, solution composition, matching type and logger. (suprb/suprb.py:168-171) -/
inductive Root
  | discovery | composition | matching | logger
  deriving DecidableEq

/-- Parameter and attribute of the estimator for each of them (suprb/suprb.py:285-297). -/
def Root.param : Root → Name
  | .discovery => "rule_discovery"
  | .composition => "solution_composition"
  | .matching => "matching_type"
  | .logger => "logger"

/-- The attribute with the clone (suprb/suprb.py:285-297). -/
def Root.attr : Root → Name
  | .discovery => "rule_discovery_"
  | .composition => "solution_composition_"
  | .matching => "matching_type_"
  | .logger => "logger_"

/-- The given component, or the default `d` (suprb/suprb.py:286, 289-291, 294, 297). -/
def orDefault (d : Nat) : CVal A → CVal A
  | .none => .ref d
  | v => v

/-- suprb/suprb.py:285-297 `_validate_rule_discovery` etc.: the default is constructed (its own components are default arguments, which exist already), a clone of the given component or of the default is stored. -/
def validate (T : Name → ClassInfo A) (limit e : Nat) (r : Root) (dflt : CObj A) : CM A Nat :=
  (CM.alloc dflt).bind fun d => (CM.getAttr e r.param).bind fun v =>
    (cloneTop T limit (orDefault d v)).bind fun c =>
      (CM.setAttr e r.attr (.ref c)).bind fun _ => CM.ret c

/-- suprb/suprb.py:304-310 `_propagate_component_parameters`. -/
def propagate (T : Name → ClassInfo A) (e rd sc : Nat) : CM A Unit :=
  (CM.getAttr e "n_jobs").bind fun v => (setParam T ["n_jobs"] v rd).bind fun _ => setParam T ["n_jobs"] v sc

/-- The characters of the key, `"__".join(path)` (suprb/suprb.py:315, 321). -/
def keyChars (path : List Name) : List Char := ("__".toList).intercalate (path.map String.toList)

/-- `key.endswith("bounds")` (suprb/suprb.py:316). -/
def isBounds (path : List Name) : Bool := "bounds".toList.isSuffixOf (keyChars path)

/-- `"matching_type" in key` (suprb/suprb.py:322). -/
def isMatchingType (path : List Name) : Bool := (keyChars path).tails.any ("matching_type".toList.isPrefixOf ·)

/-- suprb/suprb.py:312-318 `_init_bounds`; `b` are the bounds of the data. -/
def initBounds (T : Name → ClassInfo A) (limit rd : Nat) (b : A) : CM A Unit := fun h =>
  CM.forAll (fun q : List Name × CVal A => setParam T q.1 (.atom b) rd)
    ((deepParams T h limit (.ref rd)).filter fun q => isBounds q.1 && q.2.isNone) h

/-- suprb/suprb.py:320-323 `_init_matching_type`. -/
def initMatching (T : Name → ClassInfo A) (limit rd mt : Nat) : CM A Unit := fun h =>
  CM.forAll (fun q : List Name × CVal A => setParam T q.1 (.ref mt) rd) ((deepParams T h limit (.ref rd)).filter fun q => isMatchingType q.1) h

/-- The clones. (suprb/suprb.py:168-171) -/
structure Clones where
  rd : Nat
  sc : Nat
  mt : Nat
  lg : Nat

/-- The address of a clone. (suprb/suprb.py:168-171) -/
def Clones.at (c : Clones) : Root → Nat
  | .discovery => c.rd
  | .composition => c.sc
  | .matching => c.mt
  | .logger => c.lg

/-- suprb/suprb.py:168-171: the clones are made; `dflt` are the defaults (new objects). -/
def cloneAll (T : Name → ClassInfo A) (limit e : Nat) (dflt : Root → CObj A) : CM A Clones :=
  (validate T limit e .discovery (dflt .discovery)).bind fun rd =>
  (validate T limit e .composition (dflt .composition)).bind fun sc =>
  (validate T limit e .matching (dflt .matching)).bind fun mt =>
  (validate T limit e .logger (dflt .logger)).bind fun lg => CM.ret ⟨rd, sc, mt, lg⟩

/-- suprb/suprb.py:168-175: the clones are made and configured; `b` are the bounds of the data. -/
def setup (T : Name → ClassInfo A) (limit e : Nat) (dflt : Root → CObj A) (b : A) : CM A Clones :=
  (cloneAll T limit e dflt).bind fun c =>
  (propagate T e c.rd c.sc).bind fun _ => (initBounds T limit c.rd b).bind fun _ => (initMatching T limit c.rd c.mt).bind fun _ => CM.ret c

/-- The parameters of `SupRB` (suprb/suprb.py:80-94). -/
def suprbParams : List Name :=
  ["rule_discovery", "solution_composition", "matching_type", "n_iter", "n_initial_rules", "n_rules", "random_state", "verbose", "logger", "n_jobs", "early_stopping_patience", "early_stopping_delta"]

/-- The attributes of the estimator that `fit` sets itself (suprb/suprb.py:141-180, 190, 207-208, 227-228, 237-238, 332). -/
def fitAttributes : List Name :=
  ["early_stopping_counter_", "previous_fitness_", "is_error_", "elitist_", "n_features_in_", "random_state_", "rule_discovery_seeds_", "solution_composition_seeds_", "pool_",
   "rule_discovery_", "solution_composition_", "matching_type_", "logger_", "step_", "is_fitted_"]

/-- What is written during training: a plain value, `None`, or an object reached from one of the clones. (suprb/suprb.py:178-180, 249, 268) -/
inductive WVal (A : Type)
  | atom (a : A)
  | none
  | reached (r : Root) (path : List Name)

/-- The assignments of the training: to an attribute of the estimator, or to an attribute of an object that is reached from one of the clones by a list of attributes; which ones, in which order and with which values is arbitrary. Examples: suprb/suprb.py:178-180,
246-252, 265-272, suprb/optimizer/solution/saga1/base.py:95-130 (the rates), suprb/optimizer/solution/sas/base.py:74-108 (the population size), suprb/solution/mixing_model.py:88 (`input_size`). -/
inductive Write (A : Type)
  | own (n : Name) (a : A)
  | at (r : Root) (path : List Name) (n : Name) (v : WVal A)

/-- The object reached from object `i` by a list of attributes. (e.g. suprb/suprb.py:179) -/
def resolve (h : CHeap A) : List Name → Nat → Option Nat
  | [], i => if i < h.length then some i else none
  | n :: rest, i => match (h[i]?).bind fun o => o.attr n with
    | some (.ref j) => resolve h rest j
    | _ => none

/-- One assignment of the training; something that is missing is an `AttributeError`. (suprb/suprb.py:178-180) -/
def Write.run (e : Nat) (c : Clones) : Write A → CM A Unit
  | .own n a => if n ∈ fitAttributes then CM.setAttr e n (.atom a) else CM.raise .attributeError
  | .at r path n v => fun h =>
    match resolve h path (c.at r) with
    | none => (h, .error .attributeError)
    | some i => match v with
      | .atom a => CM.setAttr i n (.atom a) h
      | .none => CM.setAttr i n .none h
      | .reached r' path' => match resolve h path' (c.at r') with
        | none => (h, .error .attributeError)
        | some j => CM.setAttr i n (.ref j) h

/-- suprb/suprb.py:122-215 `fit` as far as estimator and components are concerned: attributes set at the beginning, the clones, the assignments of the training (until an exception, if there is one; where it is caught does not matter for the objects). -/
def fitObjects (T : Name → ClassInfo A) (limit e : Nat) (dflt : Root → CObj A) (b : A) (start : List (Name × A)) (training : List (Write A)) : CM A Unit :=
  (CM.forAll (fun q : Name × A => (Write.own q.1 q.2).run e ⟨0, 0, 0, 0⟩) start).bind fun _ =>
    (setup T limit e dflt b).bind fun c => CM.forAll (Write.run e c) training

/-! ## Constructing and configuring -/

/-- A call of a constructor with some of the parameters (suprb/optimizer/rule/es/es.py:50-75, suprb/suprb.py:80-106): for the others the default arguments are used; these are evaluated once, when the class is defined, and not copied. -/
def instantiate (cls : Name) (defaults given : List (Name × CVal A)) : CM A Nat :=
  CM.alloc { cls := cls, attrs := defaults.map fun q => (q.1, (given.lookup q.1).getD q.2) }

/-- suprb/wrapper.py:41-43: follow the attributes; those that do not exist are skipped. `none` stands for a plain value (number, `None`), which has none of the attributes. -/
def walkAttrs (h : CHeap A) : List Name → Nat → Option Nat
  | [], i => some i
  | n :: rest, i => match (h[i]?).bind fun o => o.attr n with
    | some (.ref j) => walkAttrs h rest j
    | some _ => none
    | none => walkAttrs h rest i

/-- suprb/wrapper.py:36-49: one keyword argument of `SupRBWrapper` (the key as list of names); an attribute that does not exist is not set (there is a warning then). -/
def wrapperSet (path : List Name) (n : Name) (v : CVal A) (i : Nat) : CM A Unit := fun h =>
  match walkAttrs h path i with
  | none => (h, .ok ())
  | some j => match (h[j]?).bind fun o => o.attr n with
    | none => (h, .ok ())
    | some _ => CM.setAttr j n v h

/-! ## Classes with conditions on their parameters -/

/-- Numbers and strings as parameters (suprb/optimizer/rule/es/es.py:50-64). -/
inductive PVal
  | num (q : ℚ)
  | str (s : String)
  deriving DecidableEq

/-- suprb/optimizer/rule/es/es.py:86-87: with the operator `&` the delay must be smaller than the number of iterations; comparing anything but numbers is a `TypeError` (strings are not compared here). -/
def esCheck (given : List (Name × CVal PVal)) : Option PyErr :=
  if given.lookup "operator" = some (.atom (.str "&")) then
    match given.lookup "delay", given.lookup "n_iter" with
    | some (.atom (.num a)), some (.atom (.num b)) => if a < b then none else some .assertionError
    | _, _ => some .typeError
  else none

/-- suprb/optimizer/rule/ns/ns.py:96-98: the number of neighbours of the novelty calculation plus two must be smaller than the number of parents. -/
def nsCheck (h : CHeap PVal) (given : List (Name × CVal PVal)) : Option PyErr :=
  match given.lookup "novelty_calculation" with
  | some (.ref i) => match (h[i]?).bind fun o => o.attr "k_neighbor" with
    | some (.atom (.num k)) => match given.lookup "lmbda" with
      | some (.atom (.num l)) => if k + 2 < l then none else some .assertionError
      | _ => some .typeError
    | none => some .attributeError
    | _ => some .typeError
  | _ => some .attributeError

/-- The classes with their parameters as far as needed: suprb/suprb.py:80-93, suprb/optimizer/rule/es/es.py:51-64, suprb/optimizer/rule/ns/ns.py:57-74, suprb/optimizer/rule/ns/novelty_calculation.py:10-18, 101-110 (which has no parameter `k_neighbor`),
suprb/optimizer/solution/ga/base.py:36-49, suprb/optimizer/solution/saga2/base.py:47-85, suprb/rule/initialization.py:33-45, suprb/solution/initialization.py:28-32, 62-68, suprb/solution/mixing_model.py:76-85, suprb/rule/matching.py:54-55, suprb/optimizer/rule/mutation.py:15-21. Classes that are not listed have no `get_params`
(like suprb/solution/mixing_model.py:8, 43). -/
def suprbClasses : Name → ClassInfo PVal := fun cls =>
  if cls = "SupRB" then { params := some ["early_stopping_delta", "early_stopping_patience", "logger", "matching_type", "n_initial_rules", "n_iter", "n_jobs", "n_rules", "random_state", "rule_discovery", "solution_composition", "verbose"] }
  else if cls = "ES1xLambda" then
    { params := some ["acceptance", "constraint", "delay", "init", "lmbda", "mutation", "n_iter", "n_jobs", "operator", "origin_generation", "random_state", "selection"], check := fun _ given => esCheck given }
  else if cls = "NoveltySearch" then
    { params := some ["acceptance", "constraint", "crossover", "init", "lmbda", "mu", "mutation", "n_elitists", "n_iter", "n_jobs", "novelty_calculation", "origin_generation", "random_state", "roh", "selection", "use_population_for_archive"],
      check := nsCheck }
  else if cls = "NoveltyCalculation" then { params := some ["archive", "k_neighbor", "novelty_search_type"] }
  else if cls = "NoveltyFitnessBiased" then
    { params := some ["archive", "novelty_bias", "novelty_search_type"],
      derived := fun given => ("k_neighbor", .num 15) :: (match given.lookup "novelty_bias" with | some (.atom (.num b)) => [("fitness_bias", .num (1 - b))] | _ => []) }
  else if cls = "GeneticAlgorithm" then
    { params := some ["archive", "crossover", "elitist_ratio", "init", "mutation", "n_iter", "n_jobs", "population_size", "random_state", "selection", "warm_start"] }
  else if cls = "saga2.SelfAdaptingGeneticAlgorithm" then
    { params := some ["archive", "crossover", "crossover_rate_max", "crossover_rate_min", "elitist_ratio", "init", "mutation", "mutation_rate_max", "mutation_rate_min", "n_iter", "n_jobs", "population_size", "random_state", "selection", "warm_start"],
      derived := fun given => (match given.lookup "mutation_rate_max" with | some (.atom a) => [("mutation_rate_current_max", a)] | _ => []) ++
        (match given.lookup "crossover_rate_min" with | some (.atom a) => [("crossover_rate_current_min", a)] | _ => []) }
  else if cls = "MeanInit" then { params := some ["bounds", "fitness", "matching_type", "model"], fill := ["model", "fitness"] }
  else if cls = "RandomInit" then { params := some ["fitness", "mixing", "p"], fill := ["mixing", "fitness"] }
  else if cls = "ErrorExperienceHeuristic" then { params := some ["experience_calculation", "experience_weight", "filter_subpopulation"] }
  else if cls = "HalfnormIncrease" then { params := some ["matching_type", "sigma"] }
  else if cls = "OrderedBound" then { params := some ["bounds"] }
  else if cls = "Elitist" ∨ cls = "ArchiveNovel" ∨ cls = "DefaultLogger" then { params := some [] }
  else { params := none }

end Comp

end Suprb
