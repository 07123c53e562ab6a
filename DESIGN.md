# Design

Target: `heidmic/suprb` (a rule-based regressor / learning classifier system in Python), read as text in `/repo`.
Everything below is a shallow Lean 4 model of Python functions that exist, one definition per function,
with the file and lines cited in the comment above each definition.

## Trusted base

* Lean's kernel, and the axioms Lean reports for the theorems: at most `propext`, `Classical.choice`, `Quot.sound`
  (the list per claim is obtained by `#print axioms`; no own axioms, no `sorry`, no `native_decide`).
* That the model below is what the Python code does. The model was written by reading, it was not run against the code.

### What is modelled, and how

* **Numbers.** Floats are elements of an arbitrary linear ordered field `K` (so every theorem holds for ℚ and ℝ);
  fitness formulas with `exp`/`log` are over ℝ. *Not modelled:* rounding (except for C154–C157), overflow/underflow and NaN propagation.
  Where the code divides by a quantity that can be zero, the model returns an explicit `none`/error for the
  zero case instead of Lean's `x/0 = 0`, or the guard of the code is modelled. `+inf` error / `-inf` fitness of a
  rule without matches are `WithTop`/`WithBot` values. Modules that only compare fitness values use an arbitrary linear order
  `F` (hence: no NaN).
* **Randomness.** Every random draw is an explicit argument (an oracle). A theorem quantifies over all draws, i.e. all seeds,
  subject only to the range of the distribution (`random() ∈ [0,1)`, half-normal `≥ 0`, a chosen index is in range).
  The stream obtained from a seed is a function of the seed (used for reproducibility).
* **Arrays.** A sample is `Fin d → K` (so the number of features is right by construction; numpy broadcasting of mismatching
  dimensions is not modelled). Data sets, pools, genomes, populations are lists. Boolean indexing is `compress`.
* **Exceptions** are values: `Except PyErr α`. `assert`, `raise`, `IndexError`, `max([])`, a missing attribute are error results.
* **Object identity** is modelled only where aliasing matters (explicit ids / heaps): archive vs. population, the wrapper's
  shared default argument, in-place mutation of parents. Elsewhere objects are values.
* **Local model** (`Ridge` etc.): an arbitrary pair of functions `fit`, `predict`, deterministic and row-wise. (C137-C141 and the
  theorems `C122_ridge` to `C125_ridge` are about `Ridge` itself: the exact minimiser of its objective, `Model/Ridge`.) Nothing else about it
  is assumed.
* **scikit-learn** enters by its documented behaviour: `clone`, `get_params` and `set_params` are modelled on objects
  (`Model/Components`, `Model/Config`), `check_X_y` is the predicate "equal lengths, at least one sample, and `finite`" (`RawData`), where the flag
  `finite` stands for everything it checks about the values: finite numbers and at least one feature (so data with `d = 0` has `finite = false`).
* **Not modelled:** plotting, text formatting, joblib internals (any schedule of independent tasks, results in submission order).

### Layout

`Verif/Model/*` definitions only (each citing code). `Verif/Lemmas/*` helper lemmas. `Verif/Props/*` one file per area with the theorems
that are claimed, in English order of `properties.jsonl`, each followed by an `example` meeting its hypotheses.
Specifications (what "box", "matched", "best", "Pareto" mean) are in `Verif/Spec.lean` and do not use model helpers.

## Modelled code

| code | model |
|------|-------|
| `suprb/rule/matching.py` (match, clip, min_range, volume_ of the four matching functions) | `Model/Matching` |
| `suprb/optimizer/rule/constraint.py` | `Model/Matching` (`constrain`) |
| `suprb/rule/initialization.py` (bounds of `MeanInit`, `NormalInit`, `HalfnormInit`) | `Model/Operators`, `Model/ES` (`initialRule`) |
| `suprb/optimizer/rule/mutation.py`, `suprb/optimizer/rule/crossover.py` | `Model/Operators` |
| `suprb/rule/base.py`, `suprb/rule/fitness.py` | `Model/Rule`, `Model/Fitness` |
| `suprb/solution/base.py`, `mixing_model.py`, `fitness.py`, `initialization.py` | `Model/Solution`, `Model/Fitness`, `Model/Composition` |
| `suprb/optimizer/rule/es/es.py`, `rule/base.py`, `rule/rs/rs.py`, `rule/selection.py`, `rule/acceptance.py` | `Model/ES`, `Model/Parallel` |
| `suprb/optimizer/rule/origin.py` | `Model/Origin` |
| `suprb/optimizer/rule/ns/*` | `Model/Novelty` |
| `suprb/optimizer/solution/base.py`, `archive.py`, `ga/*` | `Model/Composition`, `Model/Heap` |
| `suprb/optimizer/solution/saga1/*`, `saga2/*`, `saga3/*`, `sas/*` | `Model/Saga`, `Model/Sas` (on `Model/Prog`) |
| `suprb/optimizer/solution/abc/*`, `pso/*`, `gwo/*`, `rs/*`, `utils.py` | `Model/Swarm` |
| `suprb/optimizer/solution/aco/*` | `Model/Aco` |
| `suprb/suprb.py` (fit, predict, early stopping, error containment, seeds, cleanup) | `Model/SupRB` |
| `suprb/json.py` | `Model/Json`, `Model/Dump` |
| `suprb/wrapper.py` | `Model/Wrapper` |
| `suprb/utils.py` (`flatten`, `estimate_bounds`) | `Model/Utils` |
| the default components put together: `suprb/suprb.py:168-179, 312-323`, `suprb/optimizer/rule/base.py:75-99`, `suprb/optimizer/rule/origin.py:52-76` | `Model/Default` |
| the evolution strategy with every matching type, initialisation and mutation inside `fit`: `suprb/suprb.py:124-215, 320-323`, `suprb/optimizer/rule/base.py:75-99`, `suprb/optimizer/rule/es/es.py:91-137`, `suprb/rule/initialization.py:63-195` | `Model/AnyKind` |
| the evolution strategy with fitness values that may be NaN, and CPython's `sorted`: `suprb/rule/fitness.py:30-66`, `suprb/fitness.py:24-42`, `suprb/optimizer/rule/selection.py:18-23`, `suprb/optimizer/rule/es/es.py:91-137` | `Model/NanFitness` |
| `fit` with every combination of rule discovery, composition and mixing model: `suprb/suprb.py:80-106, 124-215, 252, 320-323`, using the models of the parts | `Model/Parts` |
| the evolution strategy with all of its settings: `suprb/optimizer/rule/es/es.py:51-137, suprb/optimizer/rule/base.py:75-99, suprb/optimizer/rule/constraint.py:23-58, suprb/optimizer/rule/acceptance.py:19-41, suprb/optimizer/rule/selection.py:18-74` | `Model/FreeES` |
| random search and novelty search with all of their settings: `suprb/optimizer/rule/rs/rs.py:43-96, suprb/optimizer/rule/ns/ns.py:57-172, suprb/optimizer/rule/generation_operator.py:23-35` with the parts of `Model/FreeES` | `Model/FreeSearch` |
| `suprb/logging/default.py` (`log_iteration`, `log_metric_stats`, `log_metric`), `solution.score` (r2) | `Model/Logging` |
| `suprb/optimizer/rule/selection.py` (`Fittest`, `RouletteWheel`, `Random`), `suprb/solution/mixing_model.py` (`NRandom`, `RouletteWheel`), numpy `Generator.choice` | `Model/Selection` |
| `suprb/logging/metrics.py`, `suprb/logging/combination.py` | `Model/Metrics` |
| `RuleMutation`, `RuleCrossover`, `RuleInit` as configured objects (constructor, `matching_type` setter, shape of `sigma`), `SupRB._init_bounds`, `SupRB._init_matching_type` with `get_params(deep)` / `set_params` | `Model/Config` |
| `suprb/optimizer/rule/origin.py` (all strategies with their draws), `suprb/optimizer/rule/rs/rs.py` as a component of a run, `check_random_state` and the seeding of `fit` | `Model/Search` |
| estimator and components as objects: constructors with default arguments, `clone`, `set_params`, `fit` from suprb/suprb.py:168-175 on | `Model/Components` |
| `suprb/logging/default.py` (`log_init`, `log_params`) | `Model/LogParams` |
| `SupRB._log_to_stdout` and its calls | `Model/Messages` |
| `PopulationEmptyWarning` in `SupRB._discover_rules` | `Model/Warnings` |
| Checks and warnings of `ES1xLambda.__init__`, warning in `ES1xLambda._optimize` | `Model/ESWarnings` |

Not modelled: scikit-learn, numpy and joblib themselves (their functions
enter by their documented behaviour, stated where they are used), and the numerical behaviour of floats (rounding, overflow).

## Properties

| id | plan |
|----|------|
| C01 | Four `match` functions over `Fin d → K × K`; spec = membership in an interval per dimension; plus swap invariance. |
| C02 | `minRange` then `clip` for ordered bounds; case analysis on the overlap. |
| C03 | Same; monotonicity of clip on in-bounds points. |
| C04 | **False** for the combined constraint (clip runs last). Witness at the edge; `_partial`: MinRange alone gives the floor, and half of it survives for rules created at an in-bounds origin. `C04_pool_partial` (Props/MinWidth): after every fit, with every rule discovery, every dimension of an ordered pool rule with training samples on both sides is at least `min_range` wide, so only intervals that touch the edge of the training data are affected; `C04_pool_refuted` is a whole run with such a rule. |
| C05 | **False**: `UnorderedBound.clip` discards its result. Witness; `_partial`: rules already inside stay inside; samples inside the bounds are matched as if the rule had been clipped. |
| C06 | **False**: wrong direction and wrong row indices. Witnesses; `_partial`: degenerate rules (p=q everywhere, i.e. freshly initialised). |
| C07 | Direct. |
| C08 | **False**: exact characterisation (`m ≤ (1+r)/2`). Witness and `_partial`. |
| C09 | Ordered/unordered/centre-spread true; min/percentage **false** (`2p` instead of `p(1-l)`); witness and `_partial`. |
| C10 | Initialisation + constraint + match, per representation; connected with `Rule.fit`. |
| C11 | Inductive relation "reachable by operators", invariant by induction. |
| C12 | Chains of mutations by induction; minimum/percentage **false** (witness), so the claim is stated for ordered bounds and unordered/other are recorded. |
| C13 | Direct, per mask, for ordered bounds; the parents are shown unchanged on the level of objects. **False** for the other three representations: `UniformCrossover` has a method for ordered bounds only and calls a string (`C13_refuted`). |
| C14, C15 | `Rule.fit` with its three branches; histories by induction over a list of data sets. |
| C16 | **False** because of the cache. Witness; `_partial`: fresh rules or changed match set. |
| C17–C21 | `ErrorExperienceHeuristic.__call__` on lists; sums as `List.sum`; convexity by bounding the weighted sum. |
| C22 | `[-n:]` of an argsort; **false** for n = 0; `_partial` for n ≥ 1. |
| C23–C25 | `compress`, `pad`. `C25_fit` states the effect of the argument `cleanup` for whole calls of `fit`. |
| C26–C29 | Over ℝ with `Real.exp`, `Real.log`. C26 is **false** for `wu` with both objectives 0 (0/0, `C26_wu_refuted`); true otherwise. C28: `C28_kinds_partial` and `C28_kinds_strict_partial` give the range and the order for every matching type whose region lies inside the input space; minimum/percentage rules can exceed 100 (`C28_percentage_refuted`). |
| C30 | Acceptance filter; pool invariant by induction over discovery steps; for single calls of evolution strategy, random search and novelty search, and for the pool of every fit with them (`C30_run*`, also failed or aborted fits). |
| C31–C34 | `ES1xLambda._optimize` as a loop over the lists of children; invariants by induction on generations. `Props/ConfiguredES` states C31–C33 for the configured strategies, `Props/FreeStrategy` C31, C33 and C34 with every selection, constraint, initialisation and mutation the strategy can be given. |
| C35 | Tasks as small-step machines with private state, arbitrary interleaving; confluence to the sequential result. |
| C36, C37 | Weights and normalisation; `C36_drawn` and `C36_uncovered_origins` are about the samples that become origins; C37 is **false** (`None.predict`), witness in the main loop model. |
| C38, C39 | Stable sort; `NondominatedSort` with the list mutated while iterating; **false**, witness and `_partial` (Pareto set ⊆ candidates ⊆ rules, non-empty). The same for fitted rules with their error and volume (`C39_rules_partial`). |
| C40–C42 | State machine `PopulationBasedSolutionComposition` with arbitrary `_optimize` strategy satisfying a contract; every concrete strategy is shown to satisfy it. PseudoBIC counterexample for C42. |
| C43 | **False** (population_size + n_elitists); exact size proved. |
| C44–C48 | Genetic operators on `List Bool`. C46 **false**: NPoint collapses to one cut; exact characterisation. C48 **false** for roulette wheel selection with negative fitness values: an exception for mixed signs, and the less fit are preferred if all are negative. |
| C49–C55 | `SupRB.fit/predict` as a state machine over abstract components. C50, C52, C54, C55 **false** with witnesses; exact behaviour proved. |
| C56–C59 | JSON model with string keys. C57 and C59 **false** with witnesses. |
| C60 | Object tree with `hasattr/getattr/setattr`; **false** in two ways (shared default, skipped path element); `C60_refuted_skipped` says in general what happens to a misspelt component. |
| C61, C62 | `adjust_rates` of saga1, `SagaCrossover` of saga3 (objects, because it overwrites the parent); every rate ever used is logged in the state. |
| C63 | **False** (cosine similarity divides by the sum of the lengths; NaN; children fitter than the maximum). Ranges of diversity, and of the rates given a quality in [0,1]. Props/SagaIdle follows the NaN through calls: `C63_nan_call_refuted` (a call of two or more generations whose evaluations all have the same fitness ends with NaN bounds) and `C63_idle_refuted` (the first generation of the next call then neither recombines nor mutates, for all draws, unless all fitness values are equal). |
| C64 | **False** in three ways (see below). The exact ageing rule, and sizes for which a population survives. |
| C65 | Greedy update and scouts of the bee colony; every iteration of `_optimize` through the logic of `Prog`. |
| C66 | Particle memory equals the best evaluation so far; velocities and positions clipped, for all iterations. |
| C67 | **False**: the threshold is half the genome length. Exact threshold; correct if there are as many particles as rules. |
| C68 | Pheromones after padding and after every iteration lie in `[min, max]`. |
| C69 | **False**: 0/0 if all rules have the same fitness, and then no ant ever selects a rule (unless `beta = 0`: NaN ** 0 is 1). Range of the weights otherwise. |
| C70 | Scores in [0,1] for plain and minimal-criteria novelty search, fronts exact; **false** for local competition (up to 2). `C70_pareto_survivors`, `C70_progressive_survivors` and `C70_all_survive` say for the novelty calculation as a whole which rules come back. |
| C71 | `flatten` and `estimate_bounds` against specifications by membership. |
| C72 | **False**: the filter and the experience calculation of the mixing model are parameterless or nested one level too deep and not restored. What does hold is C56. |
| C73 | All ten metaheuristics: every returned solution carries the evaluation of its own genome, whose length is the size of the pool. Proved with `Prog.Sat` (a Hoare logic for programs that evaluate genomes). |
| C74 | **False** for GA without elitists, SAS, and others; GA and saga1-3 with at least one elitist keep the best fitness. |
| C75 | Wolves: a bit on which all leaders agree to be set is set (crossover variant); whole run. |
| C76 | Overlap weights in [0,2] for ordered bounds; **false** for centre/spread bounds. |
| C77 | **False**: percentile and threshold are swapped. What is kept exactly, also for the novelty calculation as a whole (`C77_survivors_partial`). |
| C78 | Loop of novelty search over a store of shared rule objects: returned rules are accepted, valid children; the archive only grows; over whole runs it is the rules of the pool followed by at most `roh` valid children per iteration (`C78_run`). |
| C79 | The components of a default run composed into the state machine of C49–C55; invariant of all rules and totality of every step (origins can always be drawn, every child can be fitted, tournaments are never empty). Random numbers: any functions whose values numpy can return (`RunDraws.Possible`). |
| C80, C81 | C79 with C17 and C51. |
| C82 | Over ℝ with the default fitnesses where NaN is an arbitrary number: the result of `fit` does not depend on that number. |
| C83 | `min`, mean, `max`, `np.median` and `np.percentile(method="median_unbiased")` as folds and interpolation in the sorted list; a percentile is specified by counting smaller and larger values. |
| C84 | The logger runs over the ghost trace of `fit`; the recorded keys and steps are characterised exactly. |
| C85 | C84 with the invariants of C49/C54: what is logged is what the final model has. |
| C86 | `r2_score`; totality of logging over default runs (C79), which also discharges the assumption of `Model/SupRB` that the logger does not raise. |
| C87 | Probabilities are specified as proportional to the squared errors of the elitist's predictions; exact predictions make the choice uniform. |
| C88 | `choice` with weights is inverse sampling of the cumulated probabilities (as in numpy): the member drawn for a uniform `u` is the one whose interval contains `u`. Refuted for fitness sum 0. `C88_searches_partial` and `C88_searches_refuted` state the same for the selections of random search and novelty search, via `positions_fittest`, `positions_roulette`, `positions_random`; `C88_parents`: the parents of a generation are the selected rules in some order. |
| C89 | All selected rules in another order give the same mixture. Refuted for the roulette filter with a rule of fitness 0. |
| C90 | The rules used are a part of the selected rules (`List.Subperm`), to which C17 applies. Refuted for the best 0 rules. |
| C91 | Two sets of drawn positions. Refuted for random filters; proved where the filter has no choice. |
| C92 | The number of disagreements is counted rule by rule (selecting times not selecting solutions). Refuted: three solutions can have diversity 2; proved up to the bound 1 (a quarter of the squared population size instead). |
| C93 | The specification counts samples matched by some rule; consistency of stored match sets with the training data as in C09. |
| C94 | Loggers are an arbitrary state machine with failures; the combination is compared with each logger alone. |
| C95 | `set_params` with replacements and nested parameters of an arbitrary logger type. |
| C96 | `sigma` is modelled by its shape (number or array of a length); the theorem characterises exactly which configurations produce a first child (`WorksWith`). Refuted: several combinations work with no `sigma` at all. |
| C97 | Components are trees of named parameters; the specification `Val.filled` describes the configured tree top-down, the model walks `get_params(deep=True)` and calls `set_params` for every path as the code does. |
| C98 | Same method as C79 (`run_completes` with an invariant on pool and elitist). Refuted for the default squared-error origins with initial rules: then every fit ends with the error model. |
| C99 | Draws are arbitrary indices of positive probability, or arbitrary numbers in [0, 1]. |
| C100 | `random_state` is a value of one of the kinds Python distinguishes. Refuted: `Generator` and `RandomState` objects make `fit` raise. |
| C101 | Whole runs with an arbitrary strategy that meets the contract of C40; the last trace event names the elitist, and the second theorem uses `C42_monotone`. `C101_reported` adds that the reported error, complexity and fitness are those of the predictions for the training data: of the stored ones, and of `predict` if the rules were fitted on the training data. |
| C102 | The reaction is specified with the sum, length and maximum of the fitness values, not with the model of `calc_gdm`. Proved for a best fitness that is not negative; if it is 0 (all 0, or others negative) the ratio is NaN or -inf. Refuted for a negative best fitness, which `PseudoBIC` gives (`C102_negative_refuted`, `C102_bic_refuted`). |
| C103 | **False** for the bee colony, SAGA2, SAS, and odd sizes in SAGA1-3 (bugs below). Proved for whole fits with random search, grey wolves, particle swarm, ant colony, SAGA1 and SAGA3 (`TrainsOk`; total correctness of the strategies by `Prog.Runs`), and for one call of the bee colony with positive fitness (in particular `ComplexityWu` with a pool below the largest size) and of SAGA2 with at least as many solutions as elitists. Whole fits with SAGA2 complete if the population is new in every iteration, at most one elitist is kept, or no pool is empty (`C103_saga2_run_partial`); with the bee colony if no pool has the largest possible size (`C103_abc_run_partial`). Both compare the run with that of a strategy that only evaluates in the excluded situations and therefore never fails. For SAS: a call ends without error if and only if no generation before the last leaves an empty population, and otherwise it is an `IndexError` (`C103_sas_partial`); this cannot happen from two new solutions as long as the population stays below five times its initial size (`C103_sas_small_partial`). |
| C104 | `breedRules` is crossover, mutation, constraint and fit of one pair. The intervals are compared without reference to the operators. |
| C105 | **False** with warm start after an iteration with an empty pool (bug below); proved for sequences of calls with rules. |
| C106 | **False** for squared-error origins (the default) together with initial rules. Otherwise proved for whole fits (`nsDiscover` in `Model/Search`; total correctness of scoring, archive and loop in `Lemmas/Novelty`). The attributes left on the rules of the pool are arbitrary (`NSDraws.leftover`), `C106_attributes` shows that each call leaves such attributes. |
| C107 | **False** for rules found by another method (bug below). For rules found by novelty search: two runs from pools with equal rules and different leftovers are related step by step (`SameState`), so results and exceptions are equal. |
| C108 | **False** (bug below). `Model/Shape` models prediction for data with `k` features and models with `d` features, including numpy's broadcasting. Proved: the result is zeros or an error whenever `k ≠ d` (`C108_zero_or_error_partial`), never numbers computed from the data; for default models exactly when it is which (`C108_default_partial`); for `k = d` it is the usual prediction (`C108_same`). |
| C109 | `Model/Stdout` (messages as records; formatting not modelled). Proved by induction over the calls of the logger, relative to the states of the training and to the metrics of the default logger (C85, C86). |
| C110 | **False**: the warning never appears (bug below). |
| C111 | `Model/Objects`: heap of arrays and rule objects, in-place writes, `clone`, `deepcopy`, assignment of new arrays, on which evolution strategy (any selection), random search and novelty search (any choice of parents and any novelty) are executed; the heap is kept when an exception is raised. Proved with an ownership invariant (no array is the condition of two objects or also used as input space or feature bounds). `C111_evolution_strategy_values`: what is seen of the objects is what the value model `Model/ES` computes, so properties proved there hold for the objects. Not modelled: `n_jobs > 1` (joblib copies the rules), the attributes of novelty search (C107). |
| C112 | `Model/Components`: objects with a class and attributes, scikit-learn's `clone`, `get_params` and `set_params`, `fit` from the clones on (`_validate_…`, `_propagate_component_parameters`, `_init_bounds`, `_init_matching_type`) followed by an arbitrary list of assignments to attributes of the estimator set by `fit` and to objects reached from the clones. Classes are arbitrary (parameters, exceptions of constructors and setters). Proved with a set of private objects that is closed under references. That the training assigns only such attributes was checked by reading (`grep` for assignments in `suprb/`), it is an assumption of the model; `n_jobs` is assumed to be a plain value. `deepcopy` (for values without `get_params`) does not preserve sharing inside the copied value. |
| C113 | Same model with `instantiate` (default arguments exist once), `set_params` for one key and `SupRBWrapper` for one keyword argument. Refuted; proved for models that have no object in common. The tree model of C60 describes a single model without such sharing. |
| C114 | `Model/SupRB` (`SupState.predict`) with `Model/Solution`: success and values are shown to be given by a condition and a function of single samples. The filter of the selected rules is a function of these rules; the random filters draw anew in every call and are outside this property (C91). Empty batches are rejected by the check of the input and excluded. |
| C115 | `Model/Components` as for C112; classes, their parameters and the conditions in their constructors are arbitrary, and the two conditions in the code (`esCheck`, `nsCheck`) are instances. The conditions hold because `clone` calls every constructor again. Objects without `get_params` (mixing filters, fitness functions of some kinds) are copied without a constructor and are excluded. Setters of `matching_type` are C96. |
| C116 | `Model/Components`. Refuted for `set_params` (which checks nothing) and for `None`, which some constructors replace by a default object. Proved for components that are as their constructors leave them and nested at most as deep as Python's recursion limit (`C116_accepted_partial`), which holds for every object that a constructor has just made (`C116_constructed`). |
| C117 | `Model/Swarm`; `Spec.Takes i v g` says that bit `i` of `g` is `v`. The invariant is proved for everything that is evaluated (`Prog.Sat`) and for the result. "No food source can reach the limit" is `2 * n_iter < trials_limit`. |
| C118 | Refuted: zero initialisation with a search that only recombines never uses any rule (`C118_refuted`: all data, settings, discoveries and draws). Proved for random initialisation, random search, the binarisation through a sigmoid, and the genetic algorithm with bit-flip mutation (any selection and crossover draws). In Props/Reach also: SAS (if two solutions survive the selection), SAGA1 (all reachable states), SAGA3 (rates strictly between 0 and 1, parameters not redrawn), SAGA2 (first generation of a call, finite bound below 1) and the ant colony (binary and complete graph, any order, positive pheromones, two different fitness values). In Props/ReachSwarm whole runs of grey wolves with the sigmoid update, sigmoid and quantum particles (any earlier iterations and other draws), and of bees with the sigmoid update (they can visit every selection, and move there if it is fitter). Missing: SAGA2 after its bounds have left [0, 1] or become NaN (C63), SAGA3 with rates clipped to 0 or 1, pools with equal fitness in the ant colony (C69). |
| C119 | `Model/Swarm`; two runs of one position update with different `a`, `r`, `r'` are compared. |
| C120 | `Model/Solution`; `Solution.PredictsAt x v` (any batch containing `x` gives `v` for it) is used for statements about single samples from here on. `Rule.Better` compares the reported error and experience. |
| C121 | Refuted: copies count. Proved if all matching rules are copied equally often. |
| C122 | `Model/Matching`, `Model/Solution`; `Learner.Affine` is the hypothesis on the local models. |
| C123 | `Model/Rule`, `Model/Solution`; `Learner.Shifts` is the hypothesis on the local models. Refuted: samples matched by no selected rule are predicted as 0 whatever the targets, which changes the error of solutions too. Proved for rules, for samples that are matched, and for errors of solutions covering all training samples. The random search for rules is not part of the claim: the same rules are fitted on both targets. |
| C124 | As C123 with `Learner.Scales`. Refuted because of the error floor `1e-4`. Proved if all reported errors are above it. |
| C125 | As C123 with `Learner.OrderFree`. Exact arithmetic: rounding errors of sums are not modelled. |
| C126 | `Model/MixState`: the state of the generator owned by the filter of the (shared) mixing model is threaded through evaluations and further predictions; the generator `Gen` is arbitrary. Refuted for the random filters. Proved for the filters that do not draw, and for the random ones if no solution selects more rules than the filter keeps. Origins by squared error and the logger are only represented by the events `look` (predictions for some samples). |
| C127 | Combines `Model/Default` (whole training, see C79) with `Model/Dump` (see C56). Refuted for models without rules. The parameter tree of the saved model is given by `LoadableConfig`; that it belongs to the components of the training is not modelled. |
| C128 | `Model/Rule`, `Model/ES` (`acceptVariance`), `Model/Default`. Refuted because of the error floor `1e-4`; the exact condition is proved. |
| C129 | `Model/Sas`. Refuted for all settings and for the defaults: the cutoff spares all solutions whose fitness equals that at the cutoff, so a population of equal solutions that improves every second generation doubles as often. Proved: the size at most doubles per generation, and it stays below 20 times the initial size if in every generation all fitness values differ. |
| C130 | `Model/Work` counts the calls of `Solution.fit` in the programs of the metaheuristics (`Prog.evals`; the genetic algorithm is given as a program and shown to be the model of `Model/Composition`). `Spends ev p lo hi`: at most `hi` calls in every execution, at least `lo` in those without exception. For rule discovery the objects created on the heap of `Model/Objects` are counted. The refits of the archive (one solution, twice per call) come on top. SAS: see C129. |
| C131 | `Model/Rule`, `Model/Solution`. Proved for a rule (its model, error, experience and fitness depend on the matched samples only) and for predictions without filter: they depend on the selected rules containing the point only, so changing one target changes nothing outside the selected rules containing this sample. Refuted for the filter of the n best rules, which compares fitness values of rules that do not contain the point. |
| C132 | `Model/Show`: which values `__str__` shows (not the text). Refuted: `__str__` returns `None` for objects that are not fitted, which `str` rejects, and loaded rules lack `fitness_`. Proved: rules trained on data they match, solutions after `fit`, and all rules of a model trained with the default components. |
| C133 | `Model/Show.loadedFit`. Refuted for every data set with a matching sample: a loaded rule has the class of the fitness in place of an instance, so calling it constructs an object or raises. Proved: model, error and experience agree if the class can be constructed. |
| C134 | `Model/Components.setup`: cloning, `n_jobs`, `_init_bounds`, `_init_matching_type` on the heap of components, with the keys of nested parameters as text. It is shown that `key.endswith("bounds")` and `"matching_type" in key` are conditions on single names (no match across `__`), that the keys collected before the loop still lead to the same objects during it, and that nothing else changes. |
| C135 | The operators of `Model/Composition`, `Model/Saga`, `Model/Operators` and `Model/Objects` at rates 0 and 1, and whole runs `gaOptimize`, `sas` with both rates 0. That a (half-)normal distribution with scale 0 returns 0 is an assumption about numpy and scipy (`Spec.StillDraws`). Refuted for random initialisation with probability 0 and for `Halfnorm` with strength 0. |
| C136 | `Solution.predictS` (`Model/MixState`) with all `FilterKind`s and every state of the generator. C21, C122 and C125 hold for all of them (`C21_filters`, `C122_filters`, `C125_filters`); here the laws that a filter can break. Independence of the batch is proved; covered samples, non-matching rules, pool order and better rules are refuted with `NBestFitness`, with partial theorems. |
| C137 | `Lemmas/Simulate`: two runs with corresponding components have corresponding states, traces and results. `Lemmas/Relabel`: rewriting the features (`Relabel.Lawful`) commutes with rule discovery, evaluation and mixing. `change_lawful` proves the laws for reordered and rescaled features and ordered bounds. Random numbers may depend on the history of a run; `SameDraws` says that corresponding histories give the same numbers. `C137_default_partial` has no further hypotheses (ridge regression and `VolumeWu` are indifferent to the order). Other matching types: operator by operator; refuted for the minimum range of unordered bounds. `Props/SearchFeatures` (with `Lemmas/SimulateSearch`): the same for random search, novelty search, all origin strategies, and any composition strategy and mixing parameters. |
| C138 | As C137 with factors and offsets. Proved if the minimum range is converted or switched off and the local model does not depend on units; for the default configuration proved for offsets. Refuted by the absolute `min_range=1e-6` and by the penalty of ridge regression. `C138_random_partial`, `C138_novelty_partial`: other rule discovery and composition. |
| C139 | `Model/Ridge` describes sklearn's `Ridge` as the minimiser of its objective; `Lemmas/Ridge` shows that there is exactly one. The normal equations give the mean of the predictions. The same description discharges the hypotheses on local models of C122-C125 (`C122_ridge`, `C123_ridge`, `C124_ridge`, `C125_ridge`). |
| C140 | `acceptVariance` with `Model/Ridge`; `esDiscover_exact` and `run_exact` count the rules. |
| C141 | From C80 and the uniqueness of the ridge regression. |
| C142 | `acceptVariance`, `acceptMaxError`, `filterInvalid`. `Rule.ErrorFloored`: errors are at least 1e-4, which training guarantees (C14). |
| C143 | `ExpCalc` and `mixing`; `Spec.Limits` gives the limits of the three ways to count experience. |
| C144 | `Lemmas/Simulate` with the relation `SameFit`: the same rule trained on both orders. `SameSampleDraws` says that corresponding histories and probabilities give the same samples as origins and the same numbers elsewhere. `C144_default` has no hypotheses on local models (ridge regression, C125). `Props/SearchOrder`: random search (`C144_random`), novelty search (`C144_novelty`, with the assumption that distances left by earlier calls are the same) and any composition strategy and mixing parameters. |
| C145 | `acoStep` twice from the same pheromones, then `Pheromones.build` with the same draws. `Spec.TakesMore` relates the best ants of both iterations. In the complete graph the two ants must have decided alike about the rules visited before. Proved for fitness that is not negative; refuted for negative fitness (`PseudoBIC`). |
| C146 | `abcWeights`; `Spec.Prefers` describes the distribution. Proved for fitness that is not negative and not all zero; all other cases are refuted. |
| C147 | `esOptimize` with `.amp`. The history of the run is the list `cur` of C32; the theorem compares the returned rule with all of it. Proved for runs that stop early and have a valid child in each generation, and for the default rule generation, where every child is valid. Refuted if all generations run or if a generation has no valid child. |
| C148 | Two runs of `SupState.fit` with `defaultComp`, related by `SameRep` (same condition, error, fitness and local predictions, `k` times the experience). The random numbers of the two runs correspond: the same samples are drawn as origins and the other draws are equal. Proved for local models that do not notice the repetition (averages; ridge regression if `alpha` is multiplied by `k`). Refuted for ridge regression with fixed `alpha` and for capped experience. |
| C149 | Two runs of `SupState.fit` with `defaultComp` and fitness functions that differ by strictly increasing functions; the rules of the second run are those of the first with the replaced fitness (`regraded`), the attributes of the solutions likewise (`Verif/Lemmas/SimulateMap.lean`). The draws of the two runs agree as long as the histories agree except for the fitness values. Proved without early stopping and for rank, tournament or random selection (the default). `C149_parts_partial` is the same for the parts of C161 (`partsFit`): rule discovery by evolution strategy, random search or novelty search (`Verif/Lemmas/SimulateSearch.lean`: all variants but the biased one, among them the one that compares with the median; parents selected without roulette wheel), every mixing model, composition by genetic algorithm, random search, grey wolves, particle swarm or saga3; `Verif/Lemmas/OrderOnly.lean` shows for each program that it only compares fitness values. `C149_sas_partial` is the same for one call of the genetic algorithm with ageing, which calculates the median of the fitness values: comparing one of the values with it is the same as comparing it with the lower of the two middle values (`Verif/Lemmas/OrderSas.lean`). Refuted for roulette wheel selection, early stopping, bee colonies, ant colonies, saga1, saga2 (`C149_saga2_refuted`) and biased novelty, which calculate with the values. |
| C150 | Two runs of `SupState.fit` with arbitrary components whose settings differ in `n_iter` only: the trace (all calls with their seeds, pools, populations, elitists) of the shorter is a prefix of the trace of the longer (`Begins`). Proved for every fitness that ignores `max_genome_length_`; hence a bound on the final fitness. Refuted over the reals for `ComplexityWu` with its default weight, by a run with two rules. |
| C151 | The same comparison for two settings of early stopping; the counter of the more patient run is never larger. |
| C152 | `C80` with bounds on the local predictions. Proved for local models that stay in the range of their targets; for ridge regression proved that a training sample is missed by at most the square root of the number of samples times half the range. Refuted for ridge regression: targets 0, 1, 1 at 0, 1, 2. |
| C153 | `Turns` over single steps `childBounds` (mutation and constraints) with draws from the range of the distribution; the boxes are specified by the samples they contain (`HasBox`). Small shifts along the segment between the two parameter vectors, on which the constraints do nothing; `Halfnorm` by halving the distance of its mean to the box. `C153_origin_partial`: one step suffices in the default configuration. Refuted for centre/spread rules with feature bounds other than [-1, 1]. |
| C154 | `Model/Rounded`: the operations on ordered rules with every sum, difference and quotient rounded by an arbitrary monotone, idempotent function that keeps 0 (`Rounding`). `floats p` (nearest, ties to even, `p` binary digits, unbounded exponent) is shown to be one. Refuted for the minimum range: with 53 digits and a sample at 2^40 a minimum range of 2^-20 is absorbed. |
| C155 | `Model/RoundedMix`: the mixing model with every result of `+`, `-`, `*`, `/` rounded; `Sums` allows every order and bracketing of the additions. The local predictions are given numbers. `Near u k`: a factor between `(1-u)^k` and `(1+u)^k`; each term of a sum of `n` numbers is rounded at most `n - 1` times. `floats p` is shown to have relative error `2^-p`. No overflow, no underflow. An example shows that two rules which both predict 3 can together predict `3 + 2^-51` in float64, so C17 holds up to this bound only. |
| C156 | As C155, for `mean_squared_error` and the floor of the errors, in `Rounding.refit` (rules) and `Rounding.fitSolution`. |
| C157 | `Model/RoundedFitness`: `emary`, `wu` and the fitness classes with every result of `+`, `-`, `*`, `/` and `**` rounded, given the pseudo-accuracy (numpy does not specify how `exp` rounds). Emary and PseudoAccuracy: monotone for every monotone rounding. Wu: refuted by two neighbouring `float64` pseudo-accuracies with the default weight 0.3, computed step by step; what holds is that the result is within `((1+u)/(1-u))^6 - 1` of 100 times the exact harmonic mean, so larger differences are ordered correctly. Missing: the same conclusion for closer values (false). |
| C158 | `Model/Components` (class tables with the attributes that constructors compute): everything reached from a clone through parameters has attributes `given ++ derived given`, where `given` are its parameters, and these are the configured ones (C112); setting `n_jobs`, bounds and the matching type afterwards changes parameters only. The configured component itself keeps the old computed values after `set_params` (example in `Props/Derived`), so calling it directly, without `fit`, uses them. Objects without `get_params` are copied as they are. |
| C159 | `Model/AnyKind`: the evolution strategy with every matching type, initialisation (with draws) and mutation object (C96) inside whole `fit` runs with the genetic algorithm; which combinations work is the predicate `WorksWith` of C96. Initialisations and mutations may draw any numbers. With ordered bounds and `MeanInit` the discovery equals the one of C79 (`kindDiscover_default`). Scales are assumed non-negative (numpy and scipy raise otherwise). |
| C160 | `Model/NanFitness`: fitness values as numpy numbers with NaN and infinities, and `sorted` as CPython computes it for fewer than 64 elements (first run, then binary insertion), which fixes the result for comparisons that are no order, too; `pySortedDesc_eq` shows that it is the stable sorting used by the other models whenever the keys are ordered. With a constant feature every fitness is `0 / 0`: the bounds of the discovered rule are a function of the samples and draws alone. The partial theorems give the equality with the model of C31 and C32 if all features vary, or with `PseudoAccuracy`. |
| C161 | `Model/Parts`: `fit` with one of three rule discovery methods, one of eight composition methods (the genetic algorithm with any parent selection) and any mixing model, the matching type being set first as in C159. `C161_works` combines what is known about each part alone (C98, C103, C106, C159, C17); `C161_fails` and `C161_initial` are the converses for the evolution strategy and for squared-error origins with initial rules. The roulette wheel and the bee colony need fitness values that are not negative or positive, see C162. Saga2 and the genetic algorithm with ageing are left out: they can fail on their own (C103, C105). |
| C162 | Instances of C161: `C162_ranked_partial` (random parents, linear ranking, tournaments: every fitness function), `C162_complexity_partial` (all four selections with `ComplexityWu` or `ComplexityEmary`, over the reals) and `C162_bees_partial` (bee colony with `ComplexityEmary`). `C162_signs_refuted`: with the roulette wheel, training ends with the error model whenever two of the first solutions have fitness values of different sign that do not cancel out; `C162_bic_refuted` gives errors for which `PseudoBIC` does this. The bee colony with `ComplexityWu` is `C103_abc_refuted`. |
| C163 | Ridge regression is described by its objective (as in C139). `C163_rule` compares it with all affine functions; `ridge_affine` uses the normal equations for the factor 1/4 and the slope. `C163_nearly_linear` and `C163_linear` are about whole runs of all combinations of C161. Lengths are bounded by numbers whose squares are compared, so that no roots are needed. |
| C164 | `C164_refuted` is a whole run with two overlapping rules of error 2 and a model of error 5/2: samples that are predicted well count for both rules, those predicted badly for one. `Spec.VouchFor` collects what holds instead: no prediction is worse than that of the worst matching rule; the squared errors add up to at most the sum of error times number of matched samples over the rules, with equality without overlap; the mean squared error is at most k * e if at most k rules match the same sample. `C164_training_partial` proves it for all combinations of C161, `C164_reported_partial` for the error that a solution reports. |
| C165 | `C165_chance` gives the exact condition under which an ant takes a rule in the binary graph (and `1/2 + r/4` without pheromones), `C165_fitter` compares two rules of a pool, `C165_improved` two pools that differ in one rule, for both graphs: the ant's way up to the rule is the same, and the decision is monotone in both weights. Powers and square root are functions with the properties listed in `Spec.Weighting`. |
| C166 | `C166_complexityWu`, `C166_complexityEmary`, `C166_volumeWu`, `C166_volumeEmary`: the difference of the reciprocals of two weighted harmonic means changes its sign at most once in alpha squared, that of two weighted sums at most once in alpha. The direction of `wu` is the one its docstring states; `emary`, which has no such statement, goes the other way, so a value of alpha cannot be carried over from one family to the other. Solutions with as many rules as allowed have `ComplexityWu` zero whatever their errors are (`C166_full_solutions`) and are left out. |
| C167 | `C167_created_and_kept` (induction over the generations, for any breeding with two children per pair; `C167_two_children` shows that the modelled breeding is one), `C167_returned`, `C167_children_and_elitists`, and `C167_most_novel` for the selection of children and of parents. Objects are counted in the store of the model, which contains every fitted child that matches a sample. |
| C168 | Props/Duplicates. Refuted by a whole training (`C168_refuted`: the same rule is found and stored twice; nothing compares new rules with the pool, suprb/suprb.py:240-255) and by counting (`C168_crowded_refuted`: any pool with at least 2^N rules on N samples). Proved: such rules are interchangeable (`C168_alike`, `C168_pool_partial` for all working combinations of C161). |
| C169 | Props/Unused. Proved for `ComplexityWu` and `ComplexityEmary` (`C169_complexity_partial`), and for `PseudoBIC` as far as one solution is at least as accurate and not more complex (`C169_bic_partial`). Refuted for `PseudoBIC`: fitness falls with every unused rule when the error is above 1 (`C169_falls_refuted`), enough unused rules reverse the order of any two solutions of which the simpler one was fitter (`C169_order_refuted`), and whole trainings with the default components in which the fitness of the elitist falls for all draws (`C169_run_refuted`). |
| C45, C135 for the other algorithms | Props/CrossAll: the crossovers of saga1, saga2, saga3 and SAS (own copies of the code) and the mutation of saga3. Bits, lengths, identical parents and evaluation as in the genetic algorithm; the crossover of saga3 changes the rates of its first parent (`C45_saga3_parents_refuted`), everything else about existing solutions is unchanged (`C45_saga3_parents_partial`). |
| C170 | `Model/FreeES`: the evolution strategy with every origin generation, selection (fittest, roulette wheel, non-dominated sort, random), constraint (`MinRange`, `Clip` with or without bounds, `CombinedConstraint` with optional parts) and acceptance; `freeDiscover_default` shows that it is the strategy of C159 and C161 with the default parts. `C170_partial` proves the claim for all settings that `FreeES.Works` admits. Refuted for the rest: an incomplete `CombinedConstraint` fails for all data (`C170_constraint_refuted`), squared-error origins with initial rules (`C170_initial_refuted`), the roulette wheel when all fitness values are 0 (`C170_roulette_refuted`, a whole run with the volume as fitness). |
| C171 | `C171_partial` follows the constrained bounds through all generations (`freeDiscover_inv`) into the pool of any fit (`C30_run`); `Spec.Obeys` states the claim, `Spec.MostlyObeys` what is proved: everything but the width of dimensions that end at a bound when both constraints are combined, for which `C171_refuted` is a whole run. Bounds given to `Clip` are assumed in order. |
| C172 | `Model/FreeSearch`: both searches with every origin generation, matching type, initialisation, mutation, selection, constraint, acceptance, search type and archive; `freeRsDiscover_default` and `freeBreed_default` show that the default parts give the searches of C99, C105 and C106. `C172_partial` proves the claim for all settings that `FreeRS.Works` and `FreeNS.Works` admit. Refuted for the rest, each for all data: centre-spread and minimum-percentage bounds with novelty search (`C172_matching_refuted`: an exception out of `fit`), crossover of unordered bounds (`C172_crossover_refuted`), an incomplete `CombinedConstraint` (`C172_constraint_refuted`), squared-error origins with initial rules (`C172_initial_refuted`). |
| C173 | `C173_partial` follows the constrained bounds through the initial rules, crossovers and mutations (`nsOptimize_inv`, `SearchPart.discover_placed`) into the pool of any fit (`C30_run`), with `Spec.MostlyObeys` as in C171; `C173_refuted` has a whole run of each search in which `CombinedConstraint(MinRange(1), Clip())` leaves a rule half as wide. Bounds given to `Clip` are assumed in order, half-normal draws not negative. |
| C174 | From C170, C172 and the sums of C164. Proved: the squared errors are at most max(1, k / beta) times those of predicting zero, k the largest number of selected rules that match the same training sample (`C174_evolution_partial`, `C174_search_partial`); so the claim holds for k <= beta. For the second part: rules that do not overlap. Refuted for two overlapping rules with the default beta = 1 (`C174_refuted`: a whole run on targets -1, 2, -1, in which the model has R^2 = -1/8). |
| C175 | The opinion of a rule (weight and local prediction) is specified on its own, the identity proved for every batch (`C175_mixture`), and the comparison with the single rules derived (`C175_worst_rule`). |
| C176 | The weighted mean of differences that are all at most `e` is at most `e` (`mixAt_close`); filters only look at the fitness (`FilterKind.call_map`), so they keep the same rules before and after the change. The share of a single rule is stated with the opinions of C175. |
| C177 | The two predictions are compared through the opinions of C175 (`C177_moves`); the accuracy follows because the new prediction lies between the old one and the local prediction (`C177_accuracy`), and the error by adding up over the training samples, with the cached predictions of `Solution.fit` replaced by recomputed ones (C20). |
| C178 | `C178_undominated` is for all fitness functions that prefer fewer rules and smaller errors (`Spec.PrefersBoth`), `C178_complexity` for both complexity based fitnesses. Every population of the trace consists of evaluated selections of the pool of that time (`run_composedOk`), their fitness is at most that of the elitist then, and that at most the final one (C42). `ComplexityWu` is 0 for solutions that use all rules that a training can find, whatever their error; two such solutions select the same rules, so none dominates the other. |
| C179 | The argument of C178 for the elitists of any two positions of the trace (`C179_iterations`, `C179_complexity`); completion of the training is not needed. The example is a training whose elitist becomes less accurate (and smaller). |
| C180 | The inverse functions of both fitnesses as a separate specification (`Spec.largestError`, `Spec.largestShare`); the bounds for every evaluated solution (`C180_fitness`), their exactness for solutions without rules (`C180_exact`), the model of every completed training (`C180_model`, from C101), and every combination of parts of C161, for which the training completes and `predict` returns the predictions meant (`C180_parts`). |
| C181 | The argument of C180 for the rule fitnesses: for the functions (`C181_fitness`), for fitted rules inside their input space (`C181_rule`), and for all rules of the pool after every training with the default components (`C181_default`, from C79). Constant features make the volume of the input space zero and the fitness NaN (C28, C160) and are excluded. |
| C182 | The component heap of C112 with the record made after the setup (`fitLogged`). Partial: the record is exactly the set of parameters configured before `fit`, at every depth up to the recursion limit (`C182_given_partial`), and neither that training nor any later one changes what one sees of it (`C182_again_partial`). The recorded settings of a given rule discovery are those its clone is trained with, apart from `n_jobs`, matching types and empty bounds (`C182_used_partial`, from C134). Refuted: recorded components are not copied, so `set_params` changes them (`C182_set_params_refuted`); values that training replaces in its clones (`n_jobs`, matching types) are recorded as configured, not as used (`C182_used_refuted`); of default components nothing is recorded (`C182_default_refuted`). |
| C183 | `fitNotices` is `fit` together with the lines of `_log_to_stdout`; its training part is `fit` for every verbosity (`C183_same_partial`). The lines are a prefix of the list in the specification `Spec.progress`, with the number of completed iterations (`C183_any_partial`, for first trainings `C183_messages_partial`); in first trainings the numbers increase from 1 to at most `n_iter` (`C183_ordered_partial`), and after an error the last message has the number of the failed iteration (`C183_failure_partial`), except with `n_rules=0`, where the failure comes before the message (`C183_silent_refuted`). **False** for repeated trainings: `step_` is not reset, so the initial rules are announced with the last iteration's number (`C183_again_refuted`). |
| C184 | `runMarks` is the loop of `fit` with the warnings and the calls of the optimizer. The warning appears exactly when the pool is empty (`C184_exact_partial`); **false**: composition runs although the warning says that it is skipped (`C184_refuted`). |
| C185 | `esInit` are the checks and warnings of the constructor. With operator `&` a strategy made with the warning returns only the initial rule (`C185_true_partial`), and a strategy made without it can return a fitter child (`C185_can_change_partial`; with the operators `+` and `,` for every delay). **False** for `+` and `,`: with delay 1 the warning is given and rules grow (`C185_other_operators_refuted`). |
| C186 | `esLoopWarned` is the main loop with the warnings; its result is that of `esOptimize` (`C186_same`). `C186_exact` (specification `WarnsRight`) lists the rules from which generations started, which are the results of shorter runs, and characterises the warnings by `NoneUsable` (all children are made and none is usable); `C186_default` shows by the invariant "the origin is matched" that the warning never appears with the default operators. |

Properties that cannot be expressed: none of the list; convergence speed, statistical quality and running time of the learner are
not listed because they are not semantic properties of the code alone.

## Axioms

Every theorem named in `MANIFEST.json` depends on at most `propext`, `Classical.choice` and `Quot.sound` (`#print axioms`).

## Disagreements / bugs found in the code

Each entry is a fact about the code as modelled; theorems in brackets are the machine-checked witnesses.

**Rules and matching**
* `UnorderedBound.clip` discards its result, so unordered rules are never clipped [`C05_refuted`].
* `UnorderedBound.min_range` uses row indices of the wrong array and moves the bounds in the wrong direction, so it narrows
  rules and changes other dimensions [`C06_refuted_narrows`, `C06_refuted_wrong_dimension`].
* The combined constraint clips last, so the minimum range is lost at the edge of the input space [`C04_refuted`, `C04_pool_refuted`].
* `MinPercentage.volume_` uses `2p` where the matched width is `p(1-l)` [`C09_minPercentage_refuted`]. A minimum/percentage rule loses its
  origin iff some coordinate exceeds `(1+r)/2` [`C08_exact`, `C08_refuted`].
* Centre/spread and minimum/percentage clip to the constant box [-1,1], whatever the bounds of the data.
* Half-normal initialisation of unordered rules followed by `min_range` can lose the origin [`C10_unordered_halfnorm_refuted`];
  "increase" mutations of centre/spread and minimum/percentage rules can lose matched samples [`C12_centerSpread_refuted`, `C12_minPercentage_refuted`].
* `Rule.fit` reuses the statistics when the match set is unchanged even though `y` changed [`C16_refuted`]; a different number of samples
  makes the comparison of match sets fail [`C16_size_change_refuted`]. The stored predictions are stale when `X` changes with the same match set [`C20_refuted`].
* `NBestFitness` with `rule_amount=0` keeps all rules [`C22_zero_keeps_all_refuted`].
* `VolumeWu` is 0 for every rule of volume 0, whatever its accuracy; `VolumeRuleFitness` is NaN if a feature is constant [`C28_refuted`, `C28_degenerate_refuted`].
* `ComplexityFitness` raises `ZeroDivisionError` for maximum genome length 0 [`C27_zero_length`]; `PseudoBIC` is undefined for the empty pool.

**Rule discovery**
* `NondominatedSort` removes elements from the list it iterates over: dominated rules can stay [`C39_refuted`].
* `SquaredError` origins need an elitist; with a non-empty pool and no elitist (initial rules) they raise `AttributeError` [`C37_refuted`].
* ES `&`: the child selected in the stopping generation is thrown away even if it is fitter [`C32_refuted`]; `delay=0` raises `IndexError` [`C32_delay_zero_partial`].
* Novelty search: percentile and threshold of `MinimalCriteria` are swapped [`C77_refuted`]; `LocalCompetition` counts *fitter* rules, so worse rules get higher
  scores, up to a total of 2 [`C70_refuted`], and only looks at the first `range` rules of the archive; the distance of a rule to itself is among
  its k nearest; `fitness_bias` is not updated by `set_params(novelty_bias=…)`; `del rule.distance_` is a typo for `distances_`; rules whose `idx_` is at most the
  length of the archive keep stale distances.
* `RuleMutation.__init__` passes `matching_type` on before `sigma` is set, and `RuleCrossover` has no `sigma` at all: with centre/spread or minimum/percentage bounds
  both end in `AttributeError` (not modelled: attribute setters).

**Solutions**
* `NPoint` crossover of the GA swaps the parents after every cut and is equal to a single cut at the smallest index [`C46_refuted`, `C46_single_cut_partial`].
* The GA population has `population_size + n_elitists` members after the first generation [`C43_refuted`]; roulette wheel selection raises `ValueError` for mixed signs.
* Saga2: the "cosine" similarity divides by the sum of the lengths [`C63_refuted`]; the quality is NaN if no variance was ever seen [`C63_nan_refuted`], the NaN bounds survive into the next call [`C63_nan_call_refuted`] and switch off its first crossovers and mutations [`C63_idle_refuted`]; the mutation rate can fall below its
  minimum [`C63_mutation_rate_refuted`]. Saga3 overwrites the rates of the first parent in place if no crossover happens [`C45_saga3_parents_refuted`].
* SAS: a population of one dies out [`C64_single_refuted`], so can one that started with two [`C64_extinct_refuted`]; solutions above the median lose age in populations larger than
  `5·initial_population_size` [`C64_median_refuted`].
* The GA without elitists, SAS, random search, PSO, ABC scouts, GWO and ACO can lose the best solution of the population [`C74_refuted`, `C74_ga_refuted`, `C74_sas_refuted`];
  only the archive keeps it (C41).
* Binary PSO takes half of the genome length instead of half of the number of particles as majority [`C67_refuted`]; the loop over `np.nonzero(…)` runs once.
* ACO: 0/0 if all rules are equally fit; no ant ever selects a rule then (unless `beta = 0`) [`C69_refuted`, `C69_dead_refuted`]; overlaps treat centre/spread columns as bounds [`C76_refuted`].
* `n_iter=0`: PSO and GWO raise `ZeroDivisionError`, random search `ValueError`. `np.float`, `np.int`, `np.bool` do not exist in numpy ≥ 1.24.

**Estimator**
* `previous_fitness_` is never updated, so early stopping compares the fitness with 0 [`C50_refuted`].
* Initial rules of a second `fit` use the left-over `step_` of the first: refitting gives different results, and `IndexError` if `n_iter` was lowered [`C54_refuted`].
  Initial discovery and step 0 share a seed.
* `n_rules=0` is a `TypeError` inside `_catch_errors` [`C52_refuted`]; `n_iter=0` without initial rules raises `AttributeError`.
* A refit that fails during validation replaces the elitist: the model then predicts zeros [`C55_refuted`].


**Saving and wrapping**
* Loading loses the filter and experience calculation of the mixing model, so predictions change [`C57_refuted_filter`, `C72_refuted`]; components without parameters that differ from the default are
  replaced by the default; a component name that is a prefix of another (`crossover`, `crossover_rate`) makes loading fail [`C57_refuted_prefix`]; a top-level `None` becomes the string `"NoneType"` [`C57_refuted_none`].
  A numpy integer is not restored either: inside a component the default value comes back, at the top level the string `"class:numpy.int64"` [`C57_refuted_numpy`].
* A loaded model cannot be saved again [`C59_refuted_loaded`]; models without rules and failed fits cannot be saved [`C59_refuted_empty`, `C59_refuted_failed`].
* The wrapper's default `SupRB()` is one shared object [`C60_refuted_shared`]; a misspelt component of a path is skipped and an attribute of the object above is set [`C60_refuted_misspelt`].
* With a constant feature the volume of the input space is 0 and `VolumeWu` (the default rule fitness) is NaN for every rule; no exception is raised, and comparisons of
  fitness values are then all false (hence the condition in C82) [`C28_degenerate_refuted`].

**Random selection and filters**
* `RouletteWheel` rule selection returns an empty list if the fitness values sum to 0; the evolution strategy then fails with an `IndexError` [`C88_roulette_refuted`, `C88_es_refuted`].
* The `RouletteWheel` mixing filter raises `ValueError` from `predict` as soon as a selected rule has fitness 0 and no rule has to be dropped [`C89_roulette_refuted`].
* `predict` of a model with a random filter is not a function of the samples: every call draws again [`C91_refuted`].
* `genome_diversity` sums over all pairs of solutions but divides by the genome length only, so it grows with the population and is not a relative measure [`C92_refuted`]; it is NaN for an empty pool.
* `CombinedLogger.__init__` looks for nested combined loggers among the (name, logger) tuples, so its warning never fires.
* The `matching_type` setter of mutations and crossovers reads `self.sigma` (centre-spread and minimum-percentage types) before the constructor has set it, so passing these matching types to a constructor is an `AttributeError` [`C96_refuted`].
* With the default components, `UnorderedBound` ends in the error model (a `TypeError` that `fit` catches) and `CenterSpread`/`MinPercentage` raise an `AssertionError` out of `fit` [`C96_refuted_default`].
* `SigmaRange` replaces the two-element sigma by a number and so never works with the last two matching types; `Halfnorm` and `HalfnormInit` do not support them; crossovers have no sigma, so novelty search cannot be used with them [`C96_refuted`].
* `NormalInit` compares an instance with classes when it checks its sigma, so the check never fires; a mutation without matching type silently returns an unchanged copy [`C96_refuted_unconfigured`].
* A matching type that a user sets on a part of the rule discovery is silently replaced by that of the model [`C97_configured`].
* `RandomSearch` with its default origins (`SquaredError`) and `n_initial_rules > 0` always ends with the error model unless all initial rules were rejected: there are rules but no elitist yet [`C98_refuted`].
* `SupRB.fit` passes `random_state` to `np.random.SeedSequence`, which rejects the documented `Generator` and `RandomState` objects with a `TypeError` outside of the error handling of `fit` (and `check_random_state` reads the missing attribute `RandomState.bit_generator` before that) [`C100_refuted`].
- **Bee colony, ValueError when all fitness values are zero** (suprb/optimizer/solution/abc/base.py, roulette probabilities `fitness / sum(fitness)`): `ComplexityWu` is 0 for a solution that selects `n_rules * n_iter + n_initial_rules` rules, the largest possible number. When the pool is full and all solutions select all rules, the weights are 0/0 and `choice` raises. The exception is caught by `fit` and the model predicts zeros (C51). `C103_abc_refuted`; a whole run is an example in Props/Strategies.
- **An empty pool shrinks the population to one solution for good** (suprb/optimizer/solution/base.py:105-108 with `warm_start=True`): `self.population_ = [self.init(...)]`, and later iterations only pad what is there. Grey wolves, swarm, bees and ants then search with a single solution whatever `population_size` is (`C105_collapse_refuted`); SAGA2 with more than one elitist raises an `IndexError` in its second generation (`C103_saga2_refuted`); SAS dies out and raises an `IndexError` in its third generation (`C103_sas_refuted`). An empty pool occurs when all rules of the first iteration are rejected.
- **Odd `population_size` in SAGA1-3** is an `AssertionError` inside `fit`, caught there, so that the model silently predicts zeros (`C103_odd_refuted`).
- **Novelty search only works on pools it has filled itself** (suprb/optimizer/rule/ns/novelty_calculation.py:36-38 with ns.py:194-195): `archive_rule.distances_.append(...)` needs the attribute `distances_` on every rule of the pool. Rules found by another method (a pool built with random search or the evolution strategy, then continued with novelty search) have none: `AttributeError` (`C107_refuted`). Within one `fit` it works only because the clean-up deletes the misspelt `distance_`; correcting the spelling alone would make every second iteration of `fit` fail.
- **Novelty search with initial rules and squared-error origins** fails in the first iteration, as the other methods do (`C106_refuted`, see C37 and C98).
- **`predict` does not check the number of features** (suprb/suprb.py:274-283: `check_array(X)` only; `n_features_in_` is set in `fit` and never read). If the data or the training data have one feature, numpy broadcasts the comparison with the bounds, and whenever no rule matches the prediction is a vector of zeros instead of an exception (`C108_refuted`). Models whose training failed, and elitists without rules, predict zeros for any number of features.
- **The warning about nested loggers can never appear** (suprb/logging/combination.py:20-21): `isinstance(logger, CombinedLogger)` is applied to the pairs `(name, logger)` (`C110_refuted`).
- **Default components are shared between models** (e.g. `mutation=HalfnormIncrease(sigma=1.22)`, suprb/optimizer/rule/es/es.py:58): `set_params(rule_discovery__mutation__sigma=3)` or `SupRBWrapper` on one model changes every other model whose evolution strategy was constructed with the default mutation (`C113_set_params_refuted`, `C113_wrapper_refuted`), and also the training of later `SupRB()` models without any configuration (`C113_default_refuted`).
* The default logger records references (suprb/logging/default.py:19-33): after `fit`, `set_params(rule_discovery__n_iter=7)` makes the recorded rule discovery disagree with the recorded `rule_discovery__n_iter` [`C182_set_params_refuted`]. It records the configured components, not the clones that are used: with `n_jobs=4` the recorded `rule_discovery__n_jobs` is 1 [`C182_used_refuted`], and with default components only `None` is recorded [`C182_default_refuted`].
* With `n_rules=0` the first iteration fails with a `TypeError`, because `_catch_errors` then calls `_discover_rules` without the number of rules (suprb/suprb.py:219-220); the failure comes before the message, so no message tells where it happened [`C183_silent_refuted`].
* In a second training of an estimator the messages about missing bounds and initial rules carry the number of the last iteration of the first one, because `step_` is not reset (suprb/suprb.py:299-302) [`C183_again_refuted`].
* `PopulationEmptyWarning` says "Solution optimization will be skipped" (suprb/suprb.py:257-261), but nothing skips it: `_compose_solution` is called in the same iteration with an empty pool [`C184_refuted`].
* `ES1xLambda` warns about a delay below two for every operator (suprb/optimizer/rule/es/es.py:81-84), but only `&` uses the delay: with `+` and `,` rules are mutated and grow nevertheless [`C185_other_operators_refuted`].
* `set_params` does not check anything: after `ES1xLambda(n_iter=1000)` and `set_params(rule_discovery__n_iter=100)` the `AssertionError` comes out of `fit` [`C116_set_params_refuted`].
* `RandomInit(mixing=None)` is the default and means the default mixing model, but the constructor replaces the argument by an object; after `set_params(solution_composition__init__mixing=None)` scikit-learn's `clone` notices this and `fit` raises a `RuntimeError` (the same for `fitness`, and for `model` of rule initialisations) [`C116_none_refuted`].
* Uniform crossover of rules raises a `TypeError` for all matching types but ordered bounds [`C13_refuted`]; `wu` is 0/0 if both objectives are 0 [`C26_wu_refuted`].
* Roulette wheel selection of solutions divides by the sum of the fitness values: with `PseudoBIC`, whose values can be negative, it raises a `ValueError` for mixed signs, and prefers the worse solutions if all values are negative [`C48_mixed_signs_refuted`, `C48_negative_refuted`].
* `ZeroInit` together with the bee colony (`Bitwise` or `DimensionFlips`) or the particle swarm with `BinaryQuantum`: no rule is ever selected, and the trained model predicts 0 everywhere [`C118_refuted`].
* `Bitwise` makes integer genomes (`rand` is an integer array); all users of genomes accept 0/1 integers, so nothing changes.
* Not in the model, because numbers are exact there: `pseudo_accuracy` underflows to 0 for errors above about 372 (`exp(-2 * e)`), then all such solutions have the same fitness 0, and with `c_norm = 0` the weighted harmonic mean is `0/0`.
* In the cached mixing of a pool with unfitted rules, Python raises the `AttributeError` of an unfitted rule before an `IndexError` of an earlier rule; the model reports the first failing rule. Only the kind of the exception differs.
* Exact copies of a rule in the pool (nothing prevents them) count several times in the mixing [`C121_refuted`].
* Uncovered samples are predicted as 0 independently of the level of the targets, so the model depends on whether the targets are centred; a solution that leaves samples uncovered gets worse when all targets are raised [`C123_refuted`].
* The error floor of `1e-4` is absolute: with targets in small units all rules get the same error, and predictions are weighted by experience only [`C124_refuted`].
* All solutions share one mixing object, and `NRandom`/`RouletteWheel` filters own one generator (suprb/solution/mixing_model.py:32, 40) that advances with every prediction. With such a filter the training score computed by the default logger (suprb/logging/default.py:89) changes all later evaluations: training with and without logger gives different models [`C126_refuted`].
* Targets closer to zero than 0.01: the error of every rule is at least `1e-4` (suprb/rule/base.py:83) but the default acceptance compares it with the mean squared target (suprb/optimizer/rule/acceptance.py:40-41). No rule is ever accepted, training silently ends with an empty pool, and the model predicts 0 everywhere and cannot be saved (`IndexError`) [`C128_refuted`, `C127_refuted`]. The docstring says that standardised targets are expected; `fit` neither standardises nor warns.
* `Ageing` (suprb/optimizer/solution/sas/selection.py:33-46) ages the solutions beyond place 5·`initial_population_size` faster only if their fitness is strictly below that of the solution at this place. Many equally good solutions are all spared, so the population is not bounded: possible random numbers let it grow to 6553600 solutions with the default settings (100 solutions, 32 generations) [`C129_default_refuted`].
* `SolutionBase.__str__` (suprb/base.py:40-47) returns `None` if the object is not fitted, so `str` of a new or cloned rule, of a rule without a matching sample and of a new solution raises a `TypeError` [`C132_clone_refuted`, `C132_unmatched_refuted`, `C132_solution_refuted`]. Loaded rules have no `fitness_` and loaded elitists no fitted attributes, so neither can be shown [`C132_loaded_refuted`].
* Loading a model stores the fitness class and not an instance in the rules (suprb/json.py:207). Training such a rule raises a `TypeError` with `PseudoAccuracy` and stores an object as `fitness_` with `VolumeEmary` and `VolumeWu` [`C133_pseudo_accuracy_refuted`, `C133_volume_refuted`].
- `RandomInit(p=0)` can select a rule, because `random() <= p` holds for the random number 0 (suprb/solution/initialization.py:22; `C135_init_refuted`).
- `Halfnorm` draws new bounds around the centre of a rule; the smaller its `sigma`, the smaller the child, and with `sigma = 0` every rule collapses to a point instead of staying as it is (suprb/optimizer/rule/mutation.py:95-100; `C135_strength_refuted`, `C135_halfnorm_centre_partial`).
- A rule that was trained on a data set with one sample is not trained again on a data set of any size that it matches entirely (and the other way round), because the comparison with the remembered match set broadcasts the single entry (suprb/rule/base.py:70; `C16_single_sample_refuted`).
- The filters of the mixing model choose among all selected rules and not among the rules that match a sample. So a covered sample can be predicted as 0, a rule that does not match can change a prediction, and a better rule can move the prediction away from its own (suprb/solution/mixing_model.py:22-40, 92-94; `C136_covered_refuted`, `C136_only_matching_refuted`, `C136_better_refuted`). Ties of `NBestFitness` are broken by the order of the pool (`C136_order_refuted`).
- `UnorderedBound.min_range` addresses rows by their position among the too narrow ones, so the effect depends on the order of the features (suprb/rule/matching.py:110-125; `C137_unordered_refuted`).
- With the default local model the acceptance criterion `Variance(beta=1)` never rejects a rule because of its error: it rejects exactly the rules whose targets are tiny (suprb/optimizer/rule/acceptance.py:36-41; `C140_rejected_iff`).
- `SelfAdaptingGeneticAlgorithm1` divides the mean fitness by the best. If the best fitness is negative the ratio is at least 1 whatever the diversity, so mutation is always raised and crossover lowered (suprb/optimizer/solution/saga1/base.py:147-169; `C102_negative_refuted`). `PseudoBIC` is negative whenever the error exceeds 1 (suprb/solution/fitness.py:10-15; `C102_bic_refuted`).
- The ant colony adds `fitness * c` to the pheromones of the best ants. With negative fitness (`PseudoBIC`) it takes pheromone away from what the best ants did (suprb/optimizer/solution/aco/pheromones.py:18-19; `C145_refuted`).
- The onlooker bees divide the fitness values by their sum. With fitness values of both signs, or if they add up to 0, `choice` raises a `ValueError`; if all are negative the worst food sources are preferred (suprb/optimizer/solution/abc/base.py:94-98; `C146_mixed_refuted`, `C146_zero_refuted`, `C146_negative_refuted`).
- The ampersand strategy skips its stopping test in a generation without valid children, so the best rule can leave the window unseen, and if it is not stopped early it returns its last rule instead of its best (suprb/optimizer/rule/es/es.py:115-137; `C147_skipped_refuted`, `C147_exhausted_refuted`).
- The weight of the penalty of the default local model depends on the number of samples, so repeating the data changes the predictions; capped experience does not scale either (suprb/rule/initialization.py:45, suprb/solution/mixing_model.py:60; `C148_ridge_refuted`, `C148_cap_refuted`).
* C150: `max_genome_length_` is `n_rules * n_iter + n_initial_rules`, so with the complexity based fitnesses (the default) the value of a solution depends on how long the training was meant to last. Two trainings that differ in `n_iter` only already differ in their first iteration.
* C152: the default local model is linear, so predictions can leave the range of the training targets, even on training samples.
* C153, C10: the constraints of centre/spread and minimum/percentage rules confine them to [-1, 1] (spread to [0, 2]), whatever the feature bounds are. With features that are not scaled to [-1, 1] a new centre/spread rule need not match its own sample, and no rule ever matches a sample beyond 3.
* C154: the default minimum range of 1e-6 has no effect on features of the order of 1e12 (it is lost by rounding), so rules made for a sample there have width 0. They still match their sample.
* C157: `ComplexityWu` (the default fitness of solutions) is not monotone in floating-point arithmetic: with `alpha = 0.3` and one of two rules selected, the pseudo-accuracy 0.8 gives 76.22377622377624, the next larger float64 gives 76.22377622377623. The effect is in the last digits only (`suprb/fitness.py:42`).
* C160: with a constant feature `VolumeWu`, the default rule fitness (and `VolumeEmary`), is NaN for every rule. No comparison is true then: `Fittest` takes the first valid child, whatever its error [`C160_refuted`], '+' replaces rules by
  worse ones, '&' never stops before `n_iter` generations (10000 generations of 20 children for each rule by default) [`C160_first_child_refuted`], and the bounds of the rules do not depend on the targets [`C160_targets_ignored_refuted`].
* C162: `RouletteWheel` divides the fitness values by their sum without regard to their signs. `PseudoBIC` ("Can be negative") is negative for solutions with an error above 1 and positive for those with an error below one over the number of rules; a population with both makes numpy reject the probabilities, and `fit` silently returns the error model.
* C164: a model can have a larger error than each of its rules, on the samples they match: every sample counts once for the model and once for every rule that matches it.
* New rules are not compared with the pool: the same rule can be found and stored several times [`C168_refuted`]; every copy counts for the complexity and in the mixing (C121).
* `PseudoBIC` uses the length of the genome (`input_size_ = genome.shape[0]`, suprb/solution/base.py:57) where the information criterion has the number of samples (suprb/solution/fitness.py:15): rules that are not used change the fitness, the order of solutions and early stopping, and the fitness of the elitist falls although the archive keeps it [`C169_falls_refuted`, `C169_order_refuted`, `C169_run_refuted`].
* `CombinedConstraint()` has two optional arguments that are not optional: if either is left out, calling it is a `TypeError` (suprb/optimizer/rule/constraint.py:30-35), so every training ends with the model that predicts 0 [`C170_constraint_refuted`].
* Novelty search cannot be trained with centre-spread or minimum-percentage bounds: setting the matching type of its crossover reads `self.sigma`, which crossovers lack, so `fit` itself raises an `AttributeError` (suprb/optimizer/rule/generation_operator.py:23-35) [`C172_matching_refuted`]. With unordered bounds the first crossover that is drawn is a `TypeError`, after which the model predicts 0 [`C172_crossover_refuted`].
* The acceptance criterion compares each rule with predicting zero, but the mixture of accepted rules can be worse than predicting zero, and the score on the training data negative [`C174_refuted`].
* The volume of a minimum/percentage rule is not that of its region, so a rule that matches exactly the input space [0, 1] has a VolumeEmary fitness of 101 [`C28_percentage_refuted`].
