{"id": "C01", "title": "Matching is box membership", "statement": "For each of the four rule representations, a rule's match on a sample is True exactly when every feature value lies in the closed interval the representation documents: [l,u] (ordered), [min(p,q),max(p,q)] (unordered, so swapping the two numbers of any dimension never changes the answer), [c-s,c+s] (centre/spread), [l,l+p(1-l)] (minimum/percentage).", "quantifier": "every number of dimensions, every bounds array, every sample", "why_tests_cant": "samples and bounds are continuous; tests hit finitely many points and rarely the closed boundary", "anchors": ["suprb/rule/matching.py:OrderedBound.__call__", "suprb/rule/matching.py:UnorderedBound.__call__", "suprb/rule/matching.py:CenterSpread.__call__", "suprb/rule/matching.py:MinPercentage.__call__"]}
{"id": "C02", "title": "Constrained ordered rules stay ordered and inside the feature bounds", "statement": "After the combined constraint (minimum range, then clip) is applied to an ordered-bound rule with l<=u in each dimension, l<=u still holds in each dimension and both numbers lie inside the feature bounds.", "quantifier": "every rule, every non-negative min_range, every well-formed feature bounds, every dimension count", "why_tests_cant": "needs all interval/bounds overlaps incl. rules entirely outside the bounds", "anchors": ["suprb/optimizer/rule/constraint.py:CombinedConstraint.__call__", "suprb/optimizer/rule/constraint.py:Clip.__call__", "suprb/optimizer/rule/constraint.py:MinRange.__call__", "suprb/rule/matching.py:OrderedBound.clip", "suprb/rule/matching.py:OrderedBound.min_range"]}
{"id": "C03", "title": "Constraining an ordered rule never loses an in-bounds sample", "statement": "Every sample that lies inside the feature bounds and is matched by an ordered-bound rule is still matched after the combined constraint; if no dimension was below min_range and the rule overlaps the bounds in each dimension, the matched in-bounds samples are exactly the same as before.", "quantifier": "every rule, every sample inside the feature bounds, every non-negative min_range", "why_tests_cant": "set inclusion over a continuum of samples and all overlap cases", "anchors": ["suprb/optimizer/rule/constraint.py:CombinedConstraint.__call__", "suprb/rule/matching.py:OrderedBound.clip", "suprb/rule/matching.py:OrderedBound.min_range"]}
{"id": "C04", "title": "Minimum range is a floor on the width of every dimension", "statement": "After a rule discovery constrains a rule with min_range r, each dimension of the ordered interval is at least r wide.", "quantifier": "every ordered rule, every r, every feature bounds", "why_tests_cant": "the violating rules sit at the edge of the feature range, which random tests rarely check after both operators", "anchors": ["suprb/optimizer/rule/constraint.py:CombinedConstraint.__call__", "suprb/optimizer/rule/constraint.py:MinRange.__call__", "suprb/rule/matching.py:OrderedBound.min_range", "suprb/rule/matching.py:OrderedBound.clip"]}
{"id": "C05", "title": "Clipping confines unordered rules to the feature bounds", "statement": "After the clip constraint is applied to an unordered-bound rule, both numbers of every dimension lie inside the feature bounds, as they do for ordered-bound rules.", "quantifier": "every unordered rule and every feature bounds", "why_tests_cant": "requires inspecting state after every constraint call; a no-op looks right on rules already inside", "anchors": ["suprb/rule/matching.py:UnorderedBound.clip", "suprb/optimizer/rule/constraint.py:Clip.__call__"]}
{"id": "C06", "title": "Minimum range never narrows an unordered rule", "statement": "Applying the minimum-range operator to an unordered-bound rule only widens: samples matched before remain matched, and afterwards every dimension is at least min_range wide.", "quantifier": "every unordered rule, every min_range, every dimension count", "why_tests_cant": "the failures depend on which subset of dimensions is too narrow and on the order of the two numbers", "anchors": ["suprb/rule/matching.py:UnorderedBound.min_range"]}
{"id": "C07", "title": "Clipped centre/spread and minimum/percentage rules are well formed", "statement": "After clipping, a centre/spread rule has centre in [-1,1] and spread in [0,2]; a minimum/percentage rule describes an ordered interval contained in [-1,1]. Samples in [-1,1] matched by a well-formed rule stay matched by min_range followed by clip for centre/spread.", "quantifier": "every bounds array, every sample in [-1,1]^d", "why_tests_cant": "continuum of inputs", "anchors": ["suprb/rule/matching.py:CenterSpread.clip", "suprb/rule/matching.py:CenterSpread.min_range", "suprb/rule/matching.py:MinPercentage.clip"]}
{"id": "C08", "title": "A minimum/percentage rule initialised at an origin matches that origin", "statement": "The rule created at an origin inside [-1,1] and passed through the combined constraint matches the origin it was created for (otherwise it has no training sample and is useless).", "quantifier": "every origin in [-1,1], every min_range in (0,1)", "why_tests_cant": "fails only on part of the input range", "anchors": ["suprb/rule/initialization.py:MeanInit.min_percentage", "suprb/rule/matching.py:MinPercentage.min_range", "suprb/rule/matching.py:MinPercentage.clip", "suprb/rule/matching.py:MinPercentage.__call__", "suprb/optimizer/rule/constraint.py:CombinedConstraint.__call__"]}
{"id": "C09", "title": "Reported rule volume is the volume of the matched region", "statement": "A rule's volume is non-negative and equals the product over the dimensions of the lengths of the intervals it actually matches; for ordered rules it grows when the rule grows.", "quantifier": "every rule of each representation", "why_tests_cant": "algebraic identity over a continuum; wrong formula can coincide on sampled rules", "anchors": ["suprb/rule/matching.py:OrderedBound.volume_", "suprb/rule/matching.py:UnorderedBound.volume_", "suprb/rule/matching.py:CenterSpread.volume_", "suprb/rule/matching.py:MinPercentage.volume_", "suprb/rule/matching.py:MinPercentage.calculate_widths"]}
{"id": "C10", "title": "An initial rule matches the sample it was created for", "statement": "A rule initialised at an origin (mean or half-normal initialisation) and passed through the combined constraint matches the origin, for ordered, unordered and centre/spread representations, whenever the origin lies in the feature bounds; consequently fitting on data containing the origin leaves it with experience of at least one.", "quantifier": "every origin, every random draw, every min_range>=0", "why_tests_cant": "random draws and continuous origins", "anchors": ["suprb/rule/initialization.py:MeanInit", "suprb/rule/initialization.py:HalfnormInit", "suprb/optimizer/rule/constraint.py:CombinedConstraint.__call__", "suprb/rule/base.py:Rule.fit"]}
{"id": "C11", "title": "Ordered rules never become inverted", "statement": "Starting from any initialisation, no sequence of mutations, crossovers, constraints and clones ever produces an ordered-bound rule with l>u in some dimension.", "quantifier": "every sequence (any length) of operators, every random draw", "why_tests_cant": "arbitrary operator histories", "anchors": ["suprb/rule/initialization.py", "suprb/optimizer/rule/mutation.py", "suprb/optimizer/rule/crossover.py:UniformCrossover.ordered_bound", "suprb/optimizer/rule/constraint.py"]}
{"id": "C12", "title": "Increase mutations never lose a matched training sample", "statement": "HalfnormIncrease and UniformIncrease followed by the combined constraint keep every in-bounds sample matched by the parent matched by the child, for every number of successive mutations.", "quantifier": "every rule, every non-negative random draw, every number of successive mutations", "why_tests_cant": "set inclusion over arbitrary chains of random mutations", "anchors": ["suprb/optimizer/rule/mutation.py:HalfnormIncrease", "suprb/optimizer/rule/mutation.py:UniformIncrease", "suprb/optimizer/rule/constraint.py:CombinedConstraint.__call__"]}
{"id": "C13", "title": "Rule crossover exchanges whole dimension intervals", "statement": "Uniform rule crossover returns two children such that in every dimension the two child intervals are exactly the two parent intervals (kept or swapped); parents are unchanged; without crossover the parents are returned as they are.", "quantifier": "every pair of rules, every random mask", "why_tests_cant": "every mask in 2^d and every rule", "anchors": ["suprb/optimizer/rule/crossover.py:RuleCrossover.__call__", "suprb/optimizer/rule/crossover.py:UniformCrossover"]}
{"id": "C14", "title": "Fitting a rule establishes its statistics", "statement": "After fit on (X,y): the match set is the rule's match on X; if it is empty the rule is unfitted with error +inf, fitness -inf and experience 0; otherwise, for a fresh rule, it is fitted, experience is the number of matched samples, there is one stored prediction per matched sample and error is max(mean squared error on the matched samples, 1e-4).", "quantifier": "every rule, every data set, every local model", "why_tests_cant": "every data set and every learner", "anchors": ["suprb/rule/base.py:Rule.fit"]}
{"id": "C15", "title": "Rule statistics survive any history of fits", "statement": "After any sequence of fits on data sets with the same number of samples, experience equals the number of samples matched in the last fit, the stored match set is the one of the last data set, the rule is fitted exactly if that number is positive, and a fitted rule's error is finite and at least 1e-4. Refitting on the same data changes nothing.", "quantifier": "every finite history of fit calls", "why_tests_cant": "arbitrary histories; the code has a caching branch that makes the result history dependent", "anchors": ["suprb/rule/base.py:Rule.fit"]}
{"id": "C16", "title": "A refitted rule describes the data it was last fitted on", "statement": "After fit(X,y) the error and the local model of a rule are those obtained by training on the matched part of (X,y), no matter what the rule was fitted on before.", "quantifier": "every history of fit calls", "why_tests_cant": "the failing histories need two data sets with equal match set but different targets", "anchors": ["suprb/rule/base.py:Rule.fit"]}
{"id": "C17", "title": "Predictions are convex combinations of the matching local models", "statement": "For every sample matched by at least one selected fitted rule, the solution's prediction lies between the smallest and the largest local prediction of the selected rules matching it; if no selected rule matches, the prediction is exactly 0.", "quantifier": "every pool of fitted rules, every genome, every sample, every positive experience weight (default filter; for other filters see C136)", "why_tests_cant": "every pool and sample", "anchors": ["suprb/solution/mixing_model.py:ErrorExperienceHeuristic.__call__", "suprb/solution/base.py:Solution.predict"]}
{"id": "C18", "title": "Only matching rules influence a prediction", "statement": "Changing, adding or removing a selected rule that does not match a sample does not change the prediction for this sample; and the prediction of a sample does not depend on which other samples are in the batch.", "quantifier": "every pool, every sample, every batch (default filter; for other filters see C136)", "why_tests_cant": "quantifies over all perturbations", "anchors": ["suprb/solution/mixing_model.py:ErrorExperienceHeuristic.__call__"]}
{"id": "C19", "title": "Predictions do not depend on the order of the pool", "statement": "Permuting the pool together with the genome leaves every prediction unchanged.", "quantifier": "every permutation of every pool (default filter; for other filters see C136)", "why_tests_cant": "n! permutations", "anchors": ["suprb/solution/mixing_model.py:ErrorExperienceHeuristic.__call__", "suprb/solution/base.py:Solution.subpopulation"]}
{"id": "C20", "title": "Cached and uncached predictions agree on the training data", "statement": "If every selected rule was last fitted on X, predicting X from cached match sets and predictions gives the same values as recomputing matching and local predictions.", "quantifier": "every pool, genome, training set", "why_tests_cant": "every data set and pool", "anchors": ["suprb/solution/mixing_model.py:ErrorExperienceHeuristic.__call__", "suprb/rule/base.py:Rule.fit", "suprb/solution/base.py:Solution.fit"]}
{"id": "C21", "title": "The experience weight has no effect on predictions", "statement": "Predictions of the error/experience mixing model are the same for every non-zero experience weight.", "quantifier": "every pool, filter, sample and pair of non-zero weights", "why_tests_cant": "continuum of weights", "anchors": ["suprb/solution/mixing_model.py:ErrorExperienceHeuristic.get_taus", "suprb/solution/mixing_model.py:ErrorExperienceHeuristic.__call__"]}
{"id": "C22", "title": "The N-best filter keeps the N fittest rules", "statement": "NBestFitness returns exactly min(N, number of rules) of the given rules and no discarded rule is fitter than a kept one.", "quantifier": "every N>=0 and every list of rules", "why_tests_cant": "every N incl. 0 and every list", "anchors": ["suprb/solution/mixing_model.py:NBestFitness.__call__", "suprb/solution/mixing_model.py:FilterSubpopulation"]}
{"id": "C23", "title": "Padding keeps the selection", "statement": "When the pool grows, padding a genome keeps all earlier bits; the genome length becomes the pool length; zero padding leaves the selected rules and hence every prediction, the error and the complexity unchanged.", "quantifier": "every genome, every pool extension", "why_tests_cant": "every pool growth history", "anchors": ["suprb/solution/initialization.py:ZeroInit.pad", "suprb/solution/initialization.py:RandomInit.pad", "suprb/solution/initialization.py:padding_size", "suprb/optimizer/solution/archive.py:SolutionArchive.pad"]}
{"id": "C24", "title": "Solution statistics", "statement": "After a solution is fitted its error is max(MSE,1e-4), its complexity is the number of selected rules and never exceeds the pool size, and selecting rules never fails if the genome is as long as the pool and always fails otherwise.", "quantifier": "every pool, genome, training set", "why_tests_cant": "every pool and genome", "anchors": ["suprb/solution/base.py:Solution.fit", "suprb/solution/base.py:Solution.subpopulation"]}
{"id": "C25", "title": "Cleanup preserves the model", "statement": "Removing unused rules after fitting (cleanup) does not change any prediction, keeps exactly the selected rules in order, and doing it again changes nothing more.", "quantifier": "every fitted model, every query batch", "why_tests_cant": "every model and query", "anchors": ["suprb/suprb.py:SupRB._cleanup", "suprb/solution/base.py:Solution.subpopulation"]}
{"id": "C26", "title": "Fitness measures are bounded and aligned with the objectives", "statement": "With objectives in [0,1] and the documented alpha ranges the two combination functions stay in [0,1], are monotone in both objectives, and pseudo accuracy lies in (0,1] and strictly decreases with the error.", "quantifier": "every pair of objective values, every alpha, every non-negative error", "why_tests_cant": "continuum", "anchors": ["suprb/fitness.py:pseudo_accuracy", "suprb/fitness.py:emary", "suprb/fitness.py:wu"]}
{"id": "C27", "title": "Solution fitness lies in [0,100] and prefers accurate, small solutions", "statement": "For the complexity based solution fitnesses, fitness is in [0,100] as long as the complexity does not exceed the maximum genome length, is strictly larger for smaller error at equal complexity (when complexity is below the maximum) and is not smaller for smaller complexity at equal error.", "quantifier": "every error>=0, every complexity, every maximum genome length>0", "why_tests_cant": "continuum / unbounded", "anchors": ["suprb/solution/fitness.py:ComplexitySolutionFitness", "suprb/solution/fitness.py:ComplexityEmary", "suprb/solution/fitness.py:ComplexityWu", "suprb/solution/fitness.py:c_norm"]}
{"id": "C28", "title": "Rule fitness lies in [0,100]", "statement": "For a rule inside the input space with positive volume of the input space, the volume based rule fitnesses are in [0,100], larger for smaller error at equal volume and not smaller for larger volume at equal error.", "quantifier": "every error>=0, every rule inside the input space", "why_tests_cant": "continuum; fails when a feature is constant (zero input volume)", "anchors": ["suprb/rule/fitness.py:VolumeRuleFitness", "suprb/rule/fitness.py:VolumeEmary", "suprb/rule/fitness.py:VolumeWu", "suprb/rule/fitness.py:PseudoAccuracy"]}
{"id": "C29", "title": "PseudoBIC orders solutions by error and complexity", "statement": "At equal genome length, PseudoBIC fitness is larger for smaller error at equal complexity, and not larger for a more complex solution at equal error.", "quantifier": "every pair of solutions", "why_tests_cant": "continuum", "anchors": ["suprb/solution/fitness.py:PseudoBIC"]}
{"id": "C30", "title": "Every rule in the pool passed acceptance and matches data", "statement": "After any number of discovery steps every rule in the pool satisfies the acceptance criterion on the training data; with variance acceptance it matches at least one sample and its error is at most (mean of y^2 over its matched samples)/beta, i.e. with beta=1 it is no worse there than predicting 0 unless the 1e-4 error floor applies.", "quantifier": "every number of steps, every discovery outcome", "why_tests_cant": "arbitrary histories", "anchors": ["suprb/optimizer/rule/acceptance.py:Variance", "suprb/optimizer/rule/acceptance.py:MaxError", "suprb/optimizer/rule/base.py:RuleDiscovery._filter_invalid_rules", "suprb/suprb.py:SupRB._discover_rules"]}
{"id": "C31", "title": "The plus strategy never returns a worse rule than the initial one", "statement": "With operator '+' and fittest selection, the rule returned by the evolution strategy has fitness at least that of the initial rule, and the fitness of the current best never decreases from generation to generation.", "quantifier": "every initial rule, every sequence of children, every number of generations", "why_tests_cant": "arbitrary random children for arbitrarily many generations", "anchors": ["suprb/optimizer/rule/es/es.py:ES1xLambda._optimize", "suprb/optimizer/rule/selection.py:Fittest"]}
{"id": "C32", "title": "The ampersand strategy returns a local optimum of its history window", "statement": "With operator '&', if the strategy stops because of the delay, the returned rule is the one chosen delay-1 accepted generations ago (or the initial rule) and none of the rules selected since is fitter; it never evaluates more than n_iter generations; a delay of one returns the initial rule unchanged.", "quantifier": "every child sequence, every delay>=1, every n_iter", "why_tests_cant": "arbitrary runs", "anchors": ["suprb/optimizer/rule/es/es.py:ES1xLambda._optimize"]}
{"id": "C33", "title": "The evolution strategy returns only rules that match data", "statement": "For every operator, the rule returned is either the initial rule or a child with experience greater than zero.", "quantifier": "every run of every operator", "why_tests_cant": "arbitrary runs", "anchors": ["suprb/optimizer/rule/es/es.py:ES1xLambda._optimize"]}
{"id": "C34", "title": "Default evolution strategy keeps the origin covered", "statement": "With ordered bounds, mean initialisation, increase mutation and the combined constraint, the rule returned for an origin drawn from the training data matches that origin and at least all samples its initial rule matched.", "quantifier": "every run, every operator, every n_iter, every lambda>=0", "why_tests_cant": "induction over all generations and draws", "anchors": ["suprb/optimizer/rule/es/es.py:ES1xLambda._optimize", "suprb/optimizer/rule/mutation.py:HalfnormIncrease", "suprb/optimizer/rule/constraint.py:CombinedConstraint", "suprb/rule/initialization.py:MeanInit.ordered_bound"]}
{"id": "C35", "title": "Parallelism does not change the discovered rules", "statement": "The list of rules discovered is the same for every number of jobs and every completion order of the parallel per-rule optimisations, because each gets its own random stream and the results are collected in submission order.", "quantifier": "every interleaving of the parallel tasks", "why_tests_cant": "schedules", "anchors": ["suprb/optimizer/rule/base.py:ParallelSingleRuleDiscovery.optimize", "suprb/utils.py:spawn_random_states"]}
{"id": "C36", "title": "Roulette wheel origins are training samples drawn from a distribution favouring uncovered ones", "statement": "The sampling probabilities of the matching-based origin generation are non-negative and sum to one, a sample matched by fewer rules never has a smaller probability, samples matched by all rules have probability zero unless all are, and every origin is a training sample. With no rules the choice is uniform.", "quantifier": "every rule set and every data set", "why_tests_cant": "every pool and data set", "anchors": ["suprb/optimizer/rule/origin.py:RouletteWheelOrigin.__call__", "suprb/optimizer/rule/origin.py:Matching._calculate_weights", "suprb/optimizer/rule/origin.py:SquaredError._calculate_weights"]}
{"id": "C37", "title": "Squared-error origins are available as soon as the pool is non-empty", "statement": "Generating origins with the squared-error strategy never fails on a non-empty pool, in particular not in the first step after initial rules were generated.", "quantifier": "every configuration with initial rules", "why_tests_cant": "depends on the interplay of initial discovery, missing elitist and default origin strategies", "anchors": ["suprb/optimizer/rule/origin.py:SquaredError._calculate_weights", "suprb/optimizer/rule/origin.py:RouletteWheelOrigin.__call__", "suprb/suprb.py:SupRB._discover_rules"]}
{"id": "C38", "title": "Fittest selection returns the best rules", "statement": "Selecting k rules by fitness returns min(k,n) of the given rules, best first, and no unselected rule is fitter than a selected one.", "quantifier": "every k and list of rules", "why_tests_cant": "every list", "anchors": ["suprb/optimizer/rule/selection.py:Fittest"]}
{"id": "C39", "title": "Nondominated selection returns only Pareto-optimal rules", "statement": "Every rule selected by nondominated sorting (error and volume) is dominated by no other given rule, and at least one rule can always be selected from a non-empty list.", "quantifier": "every list of rules", "why_tests_cant": "the failure depends on the order in which several dominated candidates appear", "anchors": ["suprb/optimizer/rule/selection.py:NondominatedSort"]}
{"id": "C40", "title": "Genomes always fit the pool", "statement": "In every run of the main loop with any population based composition, whenever solutions are evaluated or an elitist is used by rule discovery, each genome has exactly one bit per rule in the pool at that time, so the length check can never fail.", "quantifier": "every history of pool growth and optimisation steps, every strategy that keeps lengths", "why_tests_cant": "arbitrary histories", "anchors": ["suprb/optimizer/solution/base.py:PopulationBasedSolutionComposition.optimize", "suprb/optimizer/solution/archive.py:SolutionArchive.pad", "suprb/solution/base.py:Solution.subpopulation"]}
{"id": "C41", "title": "The elitist archive remembers the best solution", "statement": "The archive never holds more than one solution; its fitness never decreases; after each update it is at least as fit as every solution in the population; and later in-place changes to the population do not alter the archived solution.", "quantifier": "every sequence of populations", "why_tests_cant": "arbitrary histories and aliasing", "anchors": ["suprb/optimizer/solution/archive.py:Elitist.__call__", "suprb/optimizer/solution/archive.py:SolutionArchive", "suprb/solution/base.py:Solution.clone"]}
{"id": "C42", "title": "The elitist's fitness never decreases during fitting", "statement": "With the elitist archive and a fitness that depends only on error and complexity (both complexity based fitnesses), the fitness of the current elitist never decreases from one iteration to the next, for every composition strategy.", "quantifier": "every run, every strategy, every pool growth", "why_tests_cant": "arbitrary runs; false for PseudoBIC because its value changes when the pool grows", "anchors": ["suprb/optimizer/solution/base.py:PopulationBasedSolutionComposition.elitist", "suprb/optimizer/solution/archive.py:Elitist", "suprb/solution/fitness.py:PseudoBIC"]}
{"id": "C43", "title": "The genetic algorithm keeps its population size", "statement": "After any number of generations the population of the genetic algorithm has population_size members.", "quantifier": "every population size, elitist ratio, number of generations", "why_tests_cant": "size drift depends on parity and elitist ratio", "anchors": ["suprb/optimizer/solution/ga/base.py:GeneticAlgorithm._optimize"]}
{"id": "C44", "title": "The genetic algorithm never loses its best solution", "statement": "If the elitist ratio keeps at least one elitist, the best fitness in the population never decreases from generation to generation.", "quantifier": "every run", "why_tests_cant": "arbitrary random operators", "anchors": ["suprb/optimizer/solution/ga/base.py:GeneticAlgorithm._optimize"]}
{"id": "C45", "title": "Crossover takes every bit from one of the parents", "statement": "For every crossover operator the child genome has the parents' length and each bit equals the bit of one of the two parents at the same position; identical parents give an identical child; parents are unchanged.", "quantifier": "every pair of parents, every random draw", "why_tests_cant": "all genomes, masks and cut points", "anchors": ["suprb/optimizer/solution/ga/crossover.py:NPoint", "suprb/optimizer/solution/ga/crossover.py:Uniform", "suprb/optimizer/solution/ga/crossover.py:SolutionCrossover.__call__"]}
{"id": "C46", "title": "N-point crossover alternates between the parents", "statement": "The child of an n-point crossover takes the parent pieces between consecutive cut points alternately from the first and the second parent.", "quantifier": "every pair of parents, every set of cut points", "why_tests_cant": "single cut tests pass; only n>=2 differs", "anchors": ["suprb/optimizer/solution/ga/crossover.py:NPoint._crossover", "suprb/optimizer/solution/ga/crossover.py:NPoint._single_point"]}
{"id": "C47", "title": "Bit flip mutation flips exactly the drawn positions", "statement": "The mutated genome differs from the parent's exactly where the uniform draw is below the mutation rate; rate 0 copies, rate 1 inverts; the parent is unchanged.", "quantifier": "every genome, rate and draw", "why_tests_cant": "2^n genomes", "anchors": ["suprb/optimizer/solution/ga/mutation.py:BitFlips", "suprb/optimizer/solution/ga/mutation.py:SolutionMutation"]}
{"id": "C48", "title": "Selection operators return population members, favouring fitness", "statement": "Every solution selection returns exactly n members of the population; each tournament winner is at least as fit as all drawn competitors; linear ranking gives weights that sum to one, are positive and strictly larger for strictly fitter members; roulette weights form a distribution when fitness is non-negative and not all zero.", "quantifier": "every population, every n, every draw", "why_tests_cant": "arbitrary populations and ties", "anchors": ["suprb/optimizer/solution/ga/selection.py:Random", "suprb/optimizer/solution/ga/selection.py:RouletteWheel", "suprb/optimizer/solution/ga/selection.py:LinearRank", "suprb/optimizer/solution/ga/selection.py:Tournament"]}
{"id": "C49", "title": "The pool only grows and stays within the announced maximum", "statement": "During a fit the pool is append-only, and after k iterations it holds at most n_initial_rules + k*n_rules rules; hence the maximum genome length used by the fitness is never exceeded.", "quantifier": "every run", "why_tests_cant": "arbitrary discovery results", "anchors": ["suprb/suprb.py:SupRB.fit", "suprb/suprb.py:SupRB._discover_rules", "suprb/optimizer/rule/base.py:ParallelSingleRuleDiscovery.optimize"]}
{"id": "C50", "title": "Early stopping", "statement": "With patience P>0, training stops after the first iteration that ends a streak of P consecutive iterations none of which improved the elitist fitness by more than delta over the previous iteration, and never stops earlier; with non-positive patience it never stops early.", "quantifier": "every fitness history", "why_tests_cant": "arbitrary fitness histories", "anchors": ["suprb/suprb.py:SupRB.check_early_stopping", "suprb/suprb.py:SupRB.fit"]}
{"id": "C51", "title": "Failures inside the learning phases are contained", "statement": "If rule discovery or composition raises any exception in any step, fit returns normally, the model counts as fitted, and predict returns one zero per query sample; otherwise predict returns the elitist's predictions, one per sample.", "quantifier": "every failing step and exception kind", "why_tests_cant": "all crash points", "anchors": ["suprb/suprb.py:SupRB._catch_errors", "suprb/suprb.py:SupRB.fit", "suprb/suprb.py:SupRB.predict"]}
{"id": "C52", "title": "A valid configuration fits without error", "statement": "Fit succeeds for all non-negative settings of n_iter, n_rules and n_initial_rules if the components do not fail.", "quantifier": "every n_iter, n_rules, n_initial_rules >= 0", "why_tests_cant": "boundary values 0 take special paths", "anchors": ["suprb/suprb.py:SupRB.fit", "suprb/suprb.py:SupRB._catch_errors"]}
{"id": "C53", "title": "Random streams of the steps are distinct", "statement": "The seeds handed to rule discovery and solution composition in the different iterations are pairwise distinct children of the user's seed, one per iteration and component.", "quantifier": "every n_iter", "why_tests_cant": "every n_iter", "anchors": ["suprb/suprb.py:SupRB.fit"]}
{"id": "C54", "title": "Fitting is reproducible", "statement": "Fitting the same estimator again with the same integer random_state and the same data gives the same model as the first fit.", "quantifier": "every configuration and data set, every history of earlier fits", "why_tests_cant": "needs fit-fit histories; state leaks between calls", "anchors": ["suprb/suprb.py:SupRB.fit", "suprb/suprb.py:SupRB._discover_rules"]}
{"id": "C55", "title": "A failed refit does not change predictions", "statement": "If fit raises because the new data is invalid, the model fitted before still predicts as before.", "quantifier": "every fitted model and every invalid data set", "why_tests_cant": "needs histories", "anchors": ["suprb/suprb.py:SupRB.fit", "suprb/suprb.py:SupRB.predict"]}
{"id": "C56", "title": "Saved models predict the same after loading", "statement": "For a non-empty model with default mixing, dumping and loading gives the same prediction for every query sample.", "quantifier": "every model and query", "why_tests_cant": "every model", "anchors": ["suprb/json.py:dump", "suprb/json.py:load", "suprb/json.py:_convert_rule_to_json", "suprb/json.py:_convert_json_to_rule", "suprb/json.py:_load_elitist"]}
{"id": "C57", "title": "Saved configurations are restored", "statement": "Dumping and loading a model restores all configuration parameters, for every choice of components.", "quantifier": "every configuration", "why_tests_cant": "combinatorial component choices and prefix related parameter names", "anchors": ["suprb/json.py:_save_config", "suprb/json.py:_deserialize_config", "suprb/json.py:_update_same_base_keys", "suprb/json.py:_get_keys_with_same_base"]}
{"id": "C58", "title": "Loading a configuration terminates", "statement": "Rebuilding the nested configuration from the flat key list always terminates, by success or by an exception.", "quantifier": "every flat configuration", "why_tests_cant": "while loop", "anchors": ["suprb/json.py:_deserialize_config"]}
{"id": "C59", "title": "Every fitted model can be saved", "statement": "Dumping succeeds for every fitted model and a loaded model can be dumped again.", "quantifier": "every fitted model", "why_tests_cant": "empty models and loaded models are special", "anchors": ["suprb/json.py:dump", "suprb/json.py:_save_input_space", "suprb/json.py:_save_elitist"]}
{"id": "C60", "title": "The wrapper sets exactly the named parameters", "statement": "Constructing through the wrapper sets each existing nested parameter named by its double-underscore path, leaves all others alone, warns about unknown names, and independent calls give independent models.", "quantifier": "every parameter list and call sequence", "why_tests_cant": "call histories and misspelt names", "anchors": ["suprb/wrapper.py:SupRBWrapper.__new__"]}
{"id": "C61", "title": "Self-adaptive rates of SAGA1 stay in range", "statement": "Mutation and crossover rate stay within their configured [min,max] for every fitness history when they start there and the multipliers are at least 1.", "quantifier": "every fitness history, all ranges of rates that are probabilities", "why_tests_cant": "arbitrary histories", "anchors": ["suprb/optimizer/solution/saga1/base.py:SelfAdaptingGeneticAlgorithm.adjust_rates"]}
{"id": "C62", "title": "Self-adaptive rates of SAGA3 stay in [0,1]", "statement": "Mutation and crossover rates of all solutions stay in [0,1] for every run.", "quantifier": "every run", "why_tests_cant": "arbitrary runs", "anchors": ["suprb/optimizer/solution/saga3/crossover.py:SagaCrossover", "suprb/optimizer/solution/saga3/solution_extension.py:SagaSolution"]}
{"id": "C63", "title": "Self-adaptive rates of SAGA2 stay in range", "statement": "The crossover and mutation rate bounds computed by the population-quality adaptation stay within the configured [min,max].", "quantifier": "every pair of successive populations", "why_tests_cant": "needs large-fitness populations", "anchors": ["suprb/optimizer/solution/saga2/base.py:SelfAdaptingGeneticAlgorithm.adjust_rates", "suprb/optimizer/solution/saga2/base.py:SelfAdaptingGeneticAlgorithm.calc_similarity"]}
{"id": "C64", "title": "Ageing never removes solutions above the median and never empties a population", "statement": "In the ageing based strategy a solution fitter than the median keeps its age, and the population never becomes empty.", "quantifier": "every population history", "why_tests_cant": "arbitrary histories", "anchors": ["suprb/optimizer/solution/sas/selection.py:Ageing", "suprb/optimizer/solution/sas/base.py:SasGeneticAlgorithm._optimize"]}
{"id": "C65", "title": "Bee colony food sources improve monotonically until abandoned", "statement": "A greedy update never replaces a food source by a less fit one; the trial counter is 0 right after an improvement and otherwise grows by one.", "quantifier": "every population and candidate list", "why_tests_cant": "arbitrary populations", "anchors": ["suprb/optimizer/solution/abc/base.py:ArtificialBeeColonyAlgorithm.greedy_update", "suprb/optimizer/solution/abc/base.py:ArtificialBeeColonyAlgorithm._optimize"]}
{"id": "C66", "title": "Particle memory and ranges", "statement": "A particle's remembered best never gets worse, sigmoid particle velocities stay within [-v_max,v_max] and positions within [0,1] for every run.", "quantifier": "every run", "why_tests_cant": "arbitrary runs", "anchors": ["suprb/optimizer/solution/pso/movement.py:ClassicalParticle", "suprb/optimizer/solution/pso/movement.py:Sigmoid"]}
{"id": "C67", "title": "The mean best genome is the majority vote of the particles", "statement": "The binary mean used by the quantum particle swarm selects a rule exactly when at least half of the particles select it.", "quantifier": "every set of particle genomes", "why_tests_cant": "depends on the relation of particle count and pool size", "anchors": ["suprb/optimizer/solution/pso/movement.py:binary_mean"]}
{"id": "C68", "title": "Pheromones stay in range", "statement": "After each iteration all pheromone values lie in [min,max], and growing the pool keeps the shape in step with the pool and preserves existing values.", "quantifier": "every run", "why_tests_cant": "arbitrary runs", "anchors": ["suprb/optimizer/solution/aco/base.py:AntColonyOptimization._optimize", "suprb/optimizer/solution/aco/base.py:AntColonyOptimization._init_pheromone_matrix"]}
{"id": "C69", "title": "The heuristic rule quality of the ant colony is always defined", "statement": "The relative fitness weights lie in [1-scale,1+scale] for every non-empty pool.", "quantifier": "every pool", "why_tests_cant": "single-rule pools and equal fitness", "anchors": ["suprb/optimizer/solution/aco/builder.py:relative_fitness"]}
{"id": "C70", "title": "Novelty scores are bounded and Pareto fronts exact", "statement": "Novelty scores lie in [0,1]; the novelty/fitness Pareto front contains exactly the rules not beaten (at least as novel and strictly fitter) by another rule; the progressive minimal criterion keeps at least half of the rules.", "quantifier": "every list of rules", "why_tests_cant": "arbitrary lists", "anchors": ["suprb/optimizer/rule/ns/novelty_calculation.py:NoveltyCalculation", "suprb/optimizer/rule/ns/novelty_calculation.py:NoveltyFitnessPareto._get_pareto_front", "suprb/optimizer/rule/ns/novelty_calculation.py:ProgressiveMinimalCriteria"]}
{"id": "C71", "title": "Flattening and bounds utilities", "statement": "flatten yields the leaves of a nested list in order for every nesting; estimate_bounds yields per-feature bounds containing every training sample and attained by some sample.", "quantifier": "every nested list / every non-empty data set", "why_tests_cant": "unbounded nesting, all data sets", "anchors": ["suprb/utils.py:flatten", "suprb/utils.py:estimate_bounds"]}
{"id": "C72", "title": "Saved models keep their mixing configuration", "statement": "For a non-empty model with any mixing configuration (rule filter, experience calculation, experience weight), dumping and loading gives the same prediction for every query sample.", "quantifier": "every model, mixing configuration and query", "why_tests_cant": "every model and configuration", "anchors": ["suprb/json.py:dump", "suprb/json.py:load", "suprb/json.py:_load_config", "suprb/solution/mixing_model.py:FilterSubpopulation"]}
{"id": "C73", "title": "Every metaheuristic returns evaluated solutions over the current pool", "statement": "Whatever the random draws and parameters, when the solution composition (genetic algorithm, self-adapting genetic algorithms 1-3 and SAS, bee colony, particle swarm, grey wolves, ant colony, random search) ends without an exception, every solution of the final population has one gene per rule of the pool and carries the error, complexity and fitness of its own genome; and it only ever evaluates genomes with one gene per rule.", "quantifier": "every strategy, parameter, draw and initial population", "why_tests_cant": "arbitrary runs of ten strategies", "anchors": ["suprb/optimizer/solution/base.py:PopulationBasedSolutionComposition", "suprb/optimizer/solution/ga/base.py:GeneticAlgorithm._optimize", "suprb/optimizer/solution/saga1/base.py", "suprb/optimizer/solution/saga2/base.py", "suprb/optimizer/solution/saga3/base.py", "suprb/optimizer/solution/sas/base.py", "suprb/optimizer/solution/abc/base.py", "suprb/optimizer/solution/pso/base.py", "suprb/optimizer/solution/gwo/base.py", "suprb/optimizer/solution/aco/base.py", "suprb/optimizer/solution/rs/base.py"]}
{"id": "C74", "title": "Solution composition does not lose the best solution", "statement": "When the solution composition ends without an exception, for every solution of the evaluated initial population there is one in the final population that is at least as fit, for every strategy, parameters and random draws.", "quantifier": "every strategy, parameter, draw and initial population", "why_tests_cant": "holds for lucky seeds, fails for others", "anchors": ["suprb/optimizer/solution/ga/base.py:GeneticAlgorithm._optimize", "suprb/optimizer/solution/saga1/base.py", "suprb/optimizer/solution/saga2/base.py", "suprb/optimizer/solution/saga3/base.py", "suprb/optimizer/solution/sas/base.py", "suprb/optimizer/solution/abc/base.py", "suprb/optimizer/solution/pso/base.py", "suprb/optimizer/solution/gwo/base.py", "suprb/optimizer/solution/aco/base.py", "suprb/optimizer/solution/rs/base.py"]}
{"id": "C75", "title": "Grey wolves keep what their leaders agree on", "statement": "With the crossover update, a rule selected by all leaders of the initial population is selected by every solution of the final population, for any number of iterations.", "quantifier": "every population, parameter and draw", "why_tests_cant": "arbitrary draws and numbers of iterations", "anchors": ["suprb/optimizer/solution/gwo/position.py:Crossover", "suprb/optimizer/solution/gwo/base.py:GreyWolfOptimizer._optimize"]}
{"id": "C76", "title": "Overlap weights of the ant colony", "statement": "The overlap heuristic of the complete ant graph gives every pair of rules two weights in [0,2] that add up to 2, (1,1) for rules disjoint in some dimension and (2,0) if one rule lies within the other, for every pool.", "quantifier": "every pool of rules, every representation", "why_tests_cant": "all representations and degenerate intervals", "anchors": ["suprb/optimizer/solution/aco/builder.py:relative_bounds_overlap"]}
{"id": "C77", "title": "Minimal criteria of novelty search", "statement": "With the minimal-criteria search type, a rule that matches at least min_examples_matched samples is never removed, at most a quarter of the rules is removed, and some rule always remains.", "quantifier": "every list of rules and every parameter", "why_tests_cant": "arbitrary lists and parameters", "anchors": ["suprb/optimizer/rule/ns/novelty_search_type.py:MinimalCriteria.filter_rules"]}
{"id": "C78", "title": "Novelty archive and results", "statement": "A novelty search run returns at most n_rules rules, each a valid offspring of two rules that passed the acceptance criterion; its archive starts as the pool, only ever grows at the end, and (unless the whole population is archived) gains at most roh rules per iteration, all of them valid offspring.", "quantifier": "every configuration, population and draw", "why_tests_cant": "arbitrary runs", "anchors": ["suprb/optimizer/rule/ns/ns.py:NoveltySearch.optimize", "suprb/optimizer/rule/ns/archive.py:ArchiveNovel"]}
{"id": "C79", "title": "The default configuration always trains", "statement": "With the default components (evolution strategy with matching origins and a growing mutation, variance acceptance with positive beta, genetic algorithm with tournament selection) and any n_iter, n_rules and population size of at least 1, the first fit of an estimator on any valid data set completes without error for every seed and all random draws; its pool has at most n_initial_rules + n_iter * n_rules rules; and every rule in it is an interval per feature within the range of the training data, matches at least one training sample, carries a local model trained on exactly the samples it matches, and has a mean squared error on them of at most the mean squared target divided by beta.", "quantifier": "every valid data set, seed, draw, local model, fitness function and admissible parameters", "why_tests_cant": "whole training runs over all draws and data sets", "anchors": ["suprb/suprb.py:SupRB.fit", "suprb/optimizer/rule/base.py:RuleDiscovery", "suprb/optimizer/rule/es/es.py:ES1xLambda", "suprb/optimizer/rule/origin.py:Matching", "suprb/optimizer/rule/acceptance.py:Variance", "suprb/optimizer/solution/ga/base.py:GeneticAlgorithm"]}
{"id": "C80", "title": "Predictions of default models", "statement": "After a fit as in C79, predict on any non-empty list of samples returns one value per sample without error: zero where no rule of the elitist matches, and otherwise a value between the smallest and the largest local prediction of the matching rules of the elitist.", "quantifier": "every valid data set, seed, draw and query", "why_tests_cant": "whole training runs and all queries", "anchors": ["suprb/suprb.py:SupRB.fit", "suprb/suprb.py:SupRB.predict", "suprb/solution/mixing_model.py:ErrorExperienceHeuristic"]}
{"id": "C81", "title": "Default models predict zero outside the training range", "statement": "After a fit as in C79, a sample that is in some feature smaller than all or larger than all training samples gets the prediction zero.", "quantifier": "every valid data set, seed, draw and query", "why_tests_cant": "whole training runs and all queries", "anchors": ["suprb/suprb.py:SupRB.predict", "suprb/suprb.py:SupRB._propagate_component_parameters", "suprb/optimizer/rule/constraint.py:CombinedConstraint", "suprb/rule/matching.py:OrderedBound"]}
{"id": "C82", "title": "Default fitness values are numbers", "statement": "If no feature is constant in the training data, no fitness computed in a fit as in C79 with the default fitness functions is NaN: all rules of the pool have the fitness VolumeWu assigns to their error and volume, the elitist has the fitness ComplexityWu assigns to its error and complexity, and all these values lie in [0,100].", "quantifier": "every valid data set with non-constant features, seed and draw", "why_tests_cant": "NaN arises only for special volumes, errors and complexities", "anchors": ["suprb/rule/fitness.py:VolumeWu", "suprb/solution/fitness.py:ComplexityWu", "suprb/fitness.py:wu", "suprb/suprb.py:SupRB.fit"]}
{"id": "C83", "title": "Logged statistics describe the values", "statement": "The statistics the default logger records for a non-empty list of values are ordered (minimum, 10th and 25th percentile, median, 75th and 90th percentile, maximum), minimum and maximum are among the values, the mean is their arithmetic mean, the percentiles split the values in the stated proportions, and none of them depends on the order of the list; an empty list is an error.", "quantifier": "every list of values", "why_tests_cant": "arbitrary lists, including ties and short lists", "anchors": ["suprb/logging/default.py:DefaultLogger.log_iteration"]}
{"id": "C84", "title": "The logged history is complete", "statement": "After training with the default logger, exactly the documented metrics are recorded for exactly the completed iterations, each for the state of that iteration: the size of the pool, the statistics of the fitness of its rules (if it is not empty), the size of the population and the statistics of fitness, error and complexity of its solutions.", "quantifier": "every run of fit, every configuration", "why_tests_cant": "arbitrary runs", "anchors": ["suprb/logging/default.py:DefaultLogger.log_iteration", "suprb/suprb.py:SupRB.fit", "suprb/suprb.py:SupRB._log_to_stdout"]}
{"id": "C85", "title": "Logged metrics of the elitist", "statement": "The logged elitist fitness is in every iteration at least the largest fitness in the population, logged pool sizes never decrease, and the last logged fitness, error, complexity and training score are those of the fitted model: the score is the coefficient of determination of its predictions on the training data.", "quantifier": "every run of fit, every strategy that returns its best solution", "why_tests_cant": "arbitrary runs", "anchors": ["suprb/logging/default.py:DefaultLogger.log_iteration", "suprb/solution/base.py:Solution.score", "suprb/suprb.py:SupRB.predict"]}
{"id": "C86", "title": "Logging does not fail; the training score", "statement": "In a fit with the default components logging never raises, and the logged training score is at most 1, is 1 exactly if all training targets are predicted exactly, and is 1 minus the quotient of the mean squared training error and the variance of the targets (so that it is consistent with the logged error).", "quantifier": "every valid data set with at least two samples, seed and draw", "why_tests_cant": "arbitrary runs, degenerate targets", "anchors": ["suprb/logging/default.py:DefaultLogger.log_iteration", "suprb/solution/base.py:Solution.score", "suprb/suprb.py:SupRB.fit"]}
{"id": "C87", "title": "Squared-error origins prefer badly predicted samples", "statement": "With the squared-error origin generation and an elitist that predicts the training samples, the probability of a training sample to become an origin is proportional to the squared difference of its target and the prediction of the elitist; if the elitist predicts all samples exactly, all samples are equally likely.", "quantifier": "every training set, every elitist", "why_tests_cant": "arbitrary predictions, including exact ones", "anchors": ["suprb/optimizer/rule/origin.py:SquaredError"]}
{"id": "C88", "title": "Rule selections return what was requested", "statement": "Asked for k rules of a non-empty list of fitted rules, every rule selection returns k members of the list: the fittest selection the k fittest, best first (all, if there are fewer), the roulette wheel members whose probability is proportional to their fitness and the random selection arbitrary ones; in particular the evolution strategy finds a parent of the next generation.", "quantifier": "every list of fitted rules, every k, every draw", "why_tests_cant": "random draws, extreme fitness values (zero, minus infinity)", "anchors": ["suprb/optimizer/rule/selection.py:Fittest", "suprb/optimizer/rule/selection.py:RouletteWheel", "suprb/optimizer/rule/selection.py:Random", "suprb/optimizer/rule/es/es.py:ES1xLambda"]}
{"id": "C89", "title": "Large filters have no influence", "statement": "If a solution selects at most as many rules as the filter of its mixing model keeps, it predicts the same as without a filter, for the filters by fitness, by chance and by roulette wheel.", "quantifier": "every solution of fitted rules, every data set, every draw", "why_tests_cant": "arbitrary pools and fitness values, random draws", "anchors": ["suprb/solution/mixing_model.py:NBestFitness", "suprb/solution/mixing_model.py:NRandom", "suprb/solution/mixing_model.py:RouletteWheel", "suprb/solution/mixing_model.py:ErrorExperienceHeuristic"]}
{"id": "C90", "title": "Filtered predictions mix at most the allowed number of selected rules", "statement": "With a filter that keeps n rules a solution of fitted rules predicts without error, and the predictions mix min(n, number of selected rules) of the selected rules: the prediction is zero where none of these matches, and otherwise between the smallest and the largest of their local predictions.", "quantifier": "every solution of fitted rules, every n, every data set, every draw", "why_tests_cant": "arbitrary pools and fitness values, random draws", "anchors": ["suprb/solution/mixing_model.py:NBestFitness", "suprb/solution/mixing_model.py:NRandom", "suprb/solution/mixing_model.py:RouletteWheel", "suprb/solution/mixing_model.py:ErrorExperienceHeuristic"]}
{"id": "C91", "title": "Predicting twice gives the same values", "statement": "A fitted model predicts the same values when asked for the same samples again.", "quantifier": "every fitted model, every mixing filter, every data set", "why_tests_cant": "hidden random states; a lucky draw hides the difference", "anchors": ["suprb/solution/mixing_model.py:NRandom", "suprb/solution/mixing_model.py:RouletteWheel", "suprb/solution/base.py:Solution.predict", "suprb/suprb.py:SupRB.predict"]}
{"id": "C92", "title": "Genome diversity", "statement": "The genome diversity of a population of solutions over a non-empty pool is a number between 0 and 1 (the relative share of rules about which pairs of solutions disagree), is 0 exactly if all solutions select the same rules, and does not depend on the order of the population.", "quantifier": "every population of solutions of one length", "why_tests_cant": "arbitrary populations, large populations", "anchors": ["suprb/logging/metrics.py:genome_diversity", "suprb/logging/metrics.py:hamming_distance"]}
{"id": "C93", "title": "Share of matched training samples", "statement": "The metric of matched training samples is the share of the training samples that are matched by at least one rule of the pool: it lies between 0 and 1, is 1 exactly if every training sample is matched, is 0 for an empty pool, and does not decrease when rules are added.", "quantifier": "every pool of rules fitted on the training data", "why_tests_cant": "arbitrary pools with overlapping rules", "anchors": ["suprb/logging/metrics.py:matched_training_samples"]}
{"id": "C94", "title": "Combined loggers do not interfere", "statement": "Training with a combined logger leaves every one of its loggers in the state in which it would be if it were the only logger, and training fails because of logging exactly if it would fail with one of the loggers alone.", "quantifier": "every list of loggers, every run", "why_tests_cant": "arbitrary loggers and runs", "anchors": ["suprb/logging/combination.py:CombinedLogger"]}
{"id": "C95", "title": "Parameters of combined loggers", "statement": "Setting parameters of a combined logger changes exactly the named loggers: a logger given by name replaces the logger of that name, a nested parameter is set on it (on the new one if both are given), names and order of the loggers are kept, unknown names are rejected, and reading a name returns its logger.", "quantifier": "every list of loggers with unique names, every assignment of parameters", "why_tests_cant": "arbitrary names and nesting", "anchors": ["suprb/logging/combination.py:CombinedLogger.set_params", "suprb/logging/combination.py:CombinedLogger.get_params"]}
{"id": "C96", "title": "Operators work with every matching type", "statement": "Every mutation, crossover and initialisation of the library can be used with every matching type: with a suitable sigma it can be constructed, it is configured by fit for the matching type of the model, and it produces new bounds without an error.", "quantifier": "every matching type, initialisation, mutation, sigma, data and draws", "why_tests_cant": "combinations of matching types and operators, most of which no test instantiates", "anchors": ["suprb/optimizer/rule/mutation.py:RuleMutation", "suprb/optimizer/rule/crossover.py:RuleCrossover", "suprb/rule/initialization.py:RuleInit", "suprb/suprb.py:SupRB._init_matching_type"]}
{"id": "C97", "title": "Configuration of the rule discovery", "statement": "When fit configures the rule discovery, the matching type of every one of its parts, however deeply nested, becomes the matching type of the model, every bounds parameter that was not set becomes the bounds of the training data, and every other parameter keeps the value it was given.", "quantifier": "every rule discovery with arbitrarily nested parts and parameters", "why_tests_cant": "arbitrary nesting and parameter names", "anchors": ["suprb/suprb.py:SupRB._init_bounds", "suprb/suprb.py:SupRB._init_matching_type"]}
{"id": "C98", "title": "Training with random search", "statement": "With valid data and at least one iteration, rule and solution, fit with random search as rule discovery completes for every seed and all random numbers; every rule of its pool is the fittest of a group of rules_generated random rules, matches training data, lies within the range of the data and passed the acceptance test.", "quantifier": "all data, seeds, random numbers, settings and origin strategies", "why_tests_cant": "whole training runs with a non-default rule discovery for all data and seeds", "anchors": ["suprb/optimizer/rule/rs/rs.py:RandomSearch.optimize", "suprb/optimizer/rule/origin.py:SquaredError", "suprb/suprb.py:SupRB.fit"]}
{"id": "C99", "title": "Origins of new rules", "statement": "The origins an origin strategy returns are as many as the rules requested, and each lies within the range of the training data in every feature; all strategies except the uniform choice from the input space return training samples only.", "quantifier": "every strategy, data, pool, elitist and random numbers", "why_tests_cant": "arbitrary pools and random numbers", "anchors": ["suprb/optimizer/rule/origin.py:UniformInputOrigin", "suprb/optimizer/rule/origin.py:UniformSamplesOrigin", "suprb/optimizer/rule/origin.py:RouletteWheelOrigin"]}
{"id": "C100", "title": "Accepted random states", "statement": "fit accepts every documented value of random_state: an integer, a RandomState or Generator instance, or None.", "quantifier": "every value of random_state, all data, components and settings", "why_tests_cant": "all kinds of values in combination with all data", "anchors": ["suprb/suprb.py:SupRB.fit", "suprb/utils.py:check_random_state"]}
{"id": "C101", "title": "The fitted model is the best solution found", "statement": "After a completed fit the model predicts with the rules of a solution of highest fitness in the last population and archive, and reports that solution's error and fitness; with the elitist archive and a fitness of error and complexity only, no elitist of any iteration had a higher fitness.", "quantifier": "all data, seeds, components, settings and composition strategies", "why_tests_cant": "all runs of all strategies", "anchors": ["suprb/suprb.py:SupRB.fit", "suprb/optimizer/solution/base.py:SolutionComposition.elitist", "suprb/optimizer/solution/archive.py:Elitist"]}
{"id": "C102", "title": "SAGA1 reacts to the diversity of the population", "statement": "When the average fitness exceeds v_max times the best fitness, SAGA1 raises the mutation rate and lowers the crossover rate as far as their bounds allow; when it is below v_min times the best fitness it does the opposite; in between both rates stay.", "quantifier": "all populations, all rates within bounds, multipliers above 1, all random numbers", "why_tests_cant": "arbitrary fitness values", "anchors": ["suprb/optimizer/solution/saga1/base.py:SelfAdaptingGeneticAlgorithm.adjust_rates"]}
{"id": "C103", "title": "Training completes with every composition strategy", "statement": "With the default rule discovery and any of the strategies random search, grey wolves, particle swarm, bee colony, ant colony, SAGA1, SAGA2, SAGA3 and SAS, fit on valid data ends without a caught error, for all data, seeds and admissible settings; the result is as described in C79.", "quantifier": "all data sets, seeds, strategies, settings and random numbers", "why_tests_cant": "no finite set of runs covers all random numbers; the failures found need a coincidence", "anchors": ["suprb/suprb.py:SupRB.fit", "suprb/optimizer/solution/rs/base.py:RandomSearch", "suprb/optimizer/solution/gwo/base.py:GreyWolfOptimizer", "suprb/optimizer/solution/pso/base.py:ParticleSwarmOptimization", "suprb/optimizer/solution/abc/base.py:ArtificialBeeColonyAlgorithm", "suprb/optimizer/solution/aco/base.py:AntColonyOptimization", "suprb/optimizer/solution/saga1/base.py:SelfAdaptingGeneticAlgorithm", "suprb/optimizer/solution/saga2/base.py:SelfAdaptingGeneticAlgorithm", "suprb/optimizer/solution/saga3/base.py:SelfAdaptingGeneticAlgorithm", "suprb/optimizer/solution/sas/base.py:SasGeneticAlgorithm"]}
{"id": "C104", "title": "Children in novelty search cover their parents", "statement": "With interval rules inside the training range and an increasing mutation, two parents have two children in novelty search; in every feature one child covers the interval of the first parent and the other that of the second parent. A training sample matched by both parents is matched by both children, and both are kept.", "quantifier": "all parents, data, masks, crossover rates and mutation draws", "why_tests_cant": "all boxes and all random numbers", "anchors": ["suprb/optimizer/rule/ns/ns.py:NoveltySearch._crossover_and_mutate", "suprb/optimizer/rule/crossover.py:UniformCrossover", "suprb/optimizer/rule/mutation.py:HalfnormIncrease"]}
{"id": "C105", "title": "The population keeps its size", "statement": "With the grey wolves, the particle swarm, the bee colony and the ant colony, the composition returns population_size solutions in every iteration.", "quantifier": "all sequences of iterations with all pools, evaluations and random numbers, with and without warm start", "why_tests_cant": "sequences of iterations of any length, some of them with an empty pool", "anchors": ["suprb/optimizer/solution/base.py:PopulationBasedSolutionComposition.optimize", "suprb/optimizer/solution/base.py:PopulationBasedSolutionComposition._init_population"]}
{"id": "C106", "title": "Training with novelty search", "statement": "With valid data and at least one iteration, rule and solution, fit with novelty search as rule discovery (any novelty calculation, search type, archive and selection operator) completes without a caught error, for every seed; every rule of the pool matches a training sample, lies within the range of the training data and passed the acceptance test, and at most n_initial_rules + n_iter * n_rules rules are found.", "quantifier": "all data sets, settings, seeds and random numbers", "why_tests_cant": "no finite set of runs covers all data and random numbers", "anchors": ["suprb/suprb.py:SupRB.fit", "suprb/optimizer/rule/ns/ns.py:NoveltySearch.optimize", "suprb/optimizer/rule/ns/novelty_calculation.py:NoveltyCalculation", "suprb/optimizer/rule/ns/archive.py:Archive"]}
{"id": "C107", "title": "Leftovers of earlier searches", "statement": "What a call of novelty search returns depends only on the rules of the pool, the data, the settings and the random numbers; not on attributes that earlier searches left on the rules of the pool, nor on which discovery method found them.", "quantifier": "all pools, leftovers, settings and random numbers", "why_tests_cant": "pairs of runs that differ in hidden attributes of shared objects", "anchors": ["suprb/optimizer/rule/ns/ns.py:NoveltySearch.optimize", "suprb/optimizer/rule/ns/ns.py:NoveltySearch._get_optimized_rules", "suprb/optimizer/rule/ns/novelty_calculation.py:NoveltyCalculation.__call__"]}
{"id": "C108", "title": "Prediction checks the number of features", "statement": "predict on data with another number of features than the training data raises a ValueError instead of returning predictions; with the right number of features it returns the same predictions as ever.", "quantifier": "all fitted models, all data and numbers of features", "why_tests_cant": "silent broadcasting depends on the numbers of features and on which rules match", "anchors": ["suprb/suprb.py:SupRB.predict", "suprb/rule/matching.py:OrderedBound.__call__", "suprb/solution/mixing_model.py:ErrorExperienceHeuristic.__call__"]}
{"id": "C109", "title": "Messages of the stdout logger", "statement": "The stdout logger does not make training with the default components fail (nor any training that the default logger does not make fail). In a completed training it prints one message per iteration, in order and numbered from 1 of n_iter, with error, fitness, complexity and training score of the elitist of that iteration (what the default logger records), and then the training score of the fitted model, which equals the score of the last iteration. The progress bar advances by one per iteration, and reaches n_iter without early stopping.", "quantifier": "all data, settings, seeds and random numbers", "why_tests_cant": "all trainings; relation of printed values to the states of training", "anchors": ["suprb/logging/stdout.py:StdoutLogger.log_iteration", "suprb/logging/stdout.py:StdoutLogger.log_final", "suprb/suprb.py:SupRB.fit"]}
{"id": "C110", "title": "Warning about nested loggers", "statement": "A combined logger warns when training starts if and only if one of its loggers is a combined logger itself.", "quantifier": "all lists of loggers", "why_tests_cant": "an isinstance test on the wrong object is silent", "anchors": ["suprb/logging/combination.py:CombinedLogger.log_init"]}
{"id": "C111", "title": "Rules in the pool never change", "statement": "Once a rule is in the pool, its condition, input space, local model, error, fitness, experience, predictions and matched samples stay the same for the rest of the training, also if the training ends with an exception, although operators change rules in place. The rules in the pool are different objects, no two of them share the array of their conditions (changing one rule changes no other), and the feature bounds are never altered.", "quantifier": "all discovery strategies, matching types, mutations, selections, data and random numbers; all sequences of discovery phases", "why_tests_cant": "aliasing between objects shows only in particular histories of operators", "anchors": ["suprb/rule/base.py:Rule.clone", "suprb/optimizer/rule/mutation.py:RuleMutation.__call__", "suprb/optimizer/rule/crossover.py:UniformCrossover.ordered_bound", "suprb/rule/matching.py:OrderedBound.clip", "suprb/suprb.py:SupRB._discover_rules"]}
{"id": "C112", "title": "fit does not change parameters", "statement": "fit never changes a constructor parameter of the estimator or of any component given to it, at any depth, also if it ends with an exception; every object that existed before, apart from the estimator, is unchanged. It works on clones that have exactly the given parameters (or those of the default components) and share no object with them. So values adapted during one training never leak into the next: a second fit starts from the same components.", "quantifier": "all estimators, component classes and nesting depths, all data, all assignments made during the training, successful or not", "why_tests_cant": "needs all nestings of components and all histories of a training that changes its components", "anchors": ["suprb/suprb.py:SupRB.fit", "suprb/suprb.py:SupRB._validate_rule_discovery", "suprb/suprb.py:SupRB._propagate_component_parameters", "suprb/suprb.py:SupRB._init_bounds", "suprb/suprb.py:SupRB._init_matching_type"]}
{"id": "C113", "title": "Configuring one model does not change another", "statement": "Setting parameters of one model (set_params with nested keys, or SupRBWrapper with keyword arguments) does not change the settings of a separately constructed model, and does not change what a model without explicit components is trained with.", "quantifier": "all models, classes, keys and values", "why_tests_cant": "the sharing of default arguments is invisible in tests that construct a single model", "anchors": ["suprb/suprb.py:SupRB.__init__", "suprb/optimizer/rule/es/es.py:ES1xLambda.__init__", "suprb/wrapper.py:SupRBWrapper.__new__"]}
{"id": "C114", "title": "Predictions are made sample by sample", "statement": "Predicting a batch succeeds exactly if predicting each of its parts succeeds, and each value is the one predicted for the sample alone. So splitting, joining, reordering or repeating samples never changes a prediction or whether predicting fails.", "quantifier": "all model states reached or not by training (unfitted, failed, with untrained rules), all deterministic filters of the selected rules, all batches", "why_tests_cant": "needs all batches, splits and model states; a value depending on its neighbours in the batch shows only for particular combinations", "anchors": ["suprb/suprb.py:SupRB.predict", "suprb/solution/base.py:Solution.predict", "suprb/solution/mixing_model.py:ErrorExperienceHeuristic.__call__"]}
{"id": "C115", "title": "Settings that a constructor rejects are not used for training", "statement": "Whenever training starts, every component (at any depth) satisfies the conditions that its constructor checks, even if it was changed with set_params or by assignment after it was made; otherwise fit raises an exception before training anything. In particular fit never trains with an evolution strategy with operator '&' and delay >= n_iter, or with a novelty search with k_neighbor + 2 >= lmbda.", "quantifier": "all classes and conditions, all component graphs, all changes made before fit", "why_tests_cant": "needs all component graphs and all sequences of changes; a component that is not validated again shows only for a particular nesting", "anchors": ["suprb/suprb.py:SupRB.fit", "suprb/optimizer/rule/es/es.py:ES1xLambda.__init__", "suprb/optimizer/rule/ns/ns.py:NoveltySearch.__init__"]}
{"id": "C116", "title": "Settings that are accepted when made are accepted by fit", "statement": "If every component was accepted by its constructor and every set_params call succeeded, then fit accepts the components: it starts training without an exception.", "quantifier": "all classes and conditions, all component graphs, all accepted changes", "why_tests_cant": "needs all component graphs and all combinations of accepted settings", "anchors": ["suprb/suprb.py:SupRB.fit", "suprb/solution/initialization.py:SolutionInit.__init__", "suprb/rule/initialization.py:RuleInit.__init__", "suprb/optimizer/rule/es/es.py:ES1xLambda.__init__"]}
{"id": "C117", "title": "Recombining moves invent nothing", "statement": "In the bee colony with the bitwise or the partial-crossover (DimensionFlips) food source update, and in the particle swarm with the binary movement, new candidates combine what the existing solutions hold: a bitwise candidate keeps the own bit where the draw is 0 and otherwise drops an own rule or adds a rule of the other source; a partial crossover copies exactly the drawn positions. Consequently a rule that all solutions leave out when the search starts is left out in all candidates and final solutions (and, for the partial crossover and the binary particles, a rule that all include stays included), as long as no food source can reach the trials limit.", "quantifier": "all genomes, draws, settings, numbers of iterations and evaluations", "why_tests_cant": "requires all runs of a randomised search; a wrong Boolean operator still gives plausible genomes", "anchors": ["suprb/optimizer/solution/abc/food.py:Bitwise", "suprb/optimizer/solution/abc/food.py:DimensionFlips", "suprb/optimizer/solution/abc/base.py:ArtificialBeeColonyAlgorithm", "suprb/optimizer/solution/pso/movement.py:BinaryQuantum"]}
{"id": "C118", "title": "Every selection of rules is within reach of the composition", "statement": "For every solution composition and initialisation offered by the library (with probabilities strictly between 0 and 1 and at least one iteration), every selection of rules from the pool can occur as a solution during training for suitable random numbers.", "quantifier": "all initialisations and compositions, all pools and target selections", "why_tests_cant": "an existence statement about random numbers; the selections that never occur cannot be seen in any number of runs", "anchors": ["suprb/solution/initialization.py:ZeroInit", "suprb/solution/initialization.py:RandomInit", "suprb/optimizer/solution/abc/food.py:Bitwise", "suprb/optimizer/solution/ga/mutation.py:BitFlips", "suprb/optimizer/solution/rs/base.py:RandomSearch", "suprb/optimizer/solution/utils.py:sigmoid_binarize"]}
{"id": "C119", "title": "Wolves ignore the encircling coefficients where there is no distance", "statement": "In the grey wolf optimiser, where neither a wolf nor any leader uses a rule, whether the wolf uses it after the position update depends only on the draws of the binarisation and of the choice between leaders, not on the iteration or on the random coefficients of the movement; with the sigmoid update it is used if and only if its draw is at most sigmoid(0).", "quantifier": "all wolves, leaders, draws, iterations and both position updates", "why_tests_cant": "requires pairs of runs with different coefficients and identical remaining draws", "anchors": ["suprb/optimizer/solution/gwo/position.py:X", "suprb/optimizer/solution/gwo/position.py:binary_X", "suprb/optimizer/solution/gwo/position.py:Crossover", "suprb/optimizer/solution/gwo/position.py:Sigmoid"]}
{"id": "C120", "title": "Accurate and experienced rules have more influence", "statement": "If one selected rule that matches a sample is replaced by a rule with the same region and the same local model but a smaller or equal error and a larger or equal experience, the prediction for the sample moves towards the local prediction of that rule and never past it; it moves strictly if the error is strictly smaller and the prediction was different before.", "quantifier": "all pools, selections, samples, experience calculations with positive values and positive experience weights (default filter; for other filters see C136)", "why_tests_cant": "requires comparing all pairs of models; a wrong weight still gives values between the local predictions", "anchors": ["suprb/solution/mixing_model.py:ErrorExperienceHeuristic._get_taus", "suprb/solution/mixing_model.py:ErrorExperienceHeuristic.__call__", "suprb/solution/mixing_model.py:CapExperience"]}
{"id": "C121", "title": "Copies of rules do not change predictions", "statement": "Predictions depend only on which rules are selected, not on how many copies of a rule the pool contains: selecting further copies of already selected rules leaves every prediction unchanged.", "quantifier": "all pools with repeated rules, selections and samples", "why_tests_cant": "pools with exact copies occur rarely in tests, and the predictions stay plausible", "anchors": ["suprb/solution/mixing_model.py:ErrorExperienceHeuristic.__call__", "suprb/suprb.py:SupRB._discover_rules"]}
{"id": "C122", "title": "Predictions are piecewise linear", "statement": "Every rule matches a convex region: with two samples it matches everything between them. With local models that are linear in the features, the prediction at any point between two samples matched by the same selected rules is the corresponding mean of the predictions for the two samples, provided no further selected rule matches the point.", "quantifier": "all matching types, bounds, pools, filters, selections, pairs of samples and points between them", "why_tests_cant": "a statement about all points of a continuum", "anchors": ["suprb/rule/matching.py:OrderedBound.__call__", "suprb/rule/matching.py:UnorderedBound.__call__", "suprb/rule/matching.py:CenterSpread.__call__", "suprb/rule/matching.py:MinPercentage.__call__", "suprb/solution/mixing_model.py:ErrorExperienceHeuristic.__call__"]}
{"id": "C123", "title": "Shifting the targets shifts the model", "statement": "With local models that follow a shift of their targets (for example linear regression with intercept), adding a constant to all training targets adds the same constant to all predictions of the fitted rules and of every selection of them, and leaves errors and fitness of rules and solutions unchanged.", "quantifier": "all data, constants, rules, selections and samples", "why_tests_cant": "compares two models for all data sets; a fallback value for uncovered samples is invisible in tests with centred targets", "anchors": ["suprb/rule/base.py:Rule.fit", "suprb/solution/base.py:Solution.fit", "suprb/solution/mixing_model.py:ErrorExperienceHeuristic.__call__"]}
{"id": "C124", "title": "Scaling the targets scales the model", "statement": "With local models that follow a scaling of their targets, multiplying all training targets by a non-zero factor multiplies all predictions of every selection of the fitted rules by this factor and the errors of solutions by its square.", "quantifier": "all data, factors, rules, selections and samples", "why_tests_cant": "compares two models for all data sets; the unit of the targets is never varied in tests", "anchors": ["suprb/rule/base.py:Rule.fit", "suprb/solution/base.py:Solution.fit", "suprb/solution/mixing_model.py:ErrorExperienceHeuristic._get_taus"]}
{"id": "C125", "title": "The order of the training samples does not matter", "statement": "With local models that do not depend on the order of their samples, fitting rules on reordered training samples (with their targets) gives the same error, fitness, experience and local predictions, and every selection of the rules the same predictions, error, complexity and fitness.", "quantifier": "all data, all reorderings, rules, selections and filters", "why_tests_cant": "all permutations of all data sets", "anchors": ["suprb/rule/base.py:Rule.fit", "suprb/solution/base.py:Solution.fit", "suprb/solution/mixing_model.py:ErrorExperienceHeuristic.__call__"]}
{"id": "C126", "title": "Watching training does not change it", "statement": "Computing predictions of solutions during training, as the default logger does for the training score in every iteration and the squared-error origins do for the elitist, does not influence any later evaluation: the choice of the logger does not influence the trained model, for every choice of the filter of the mixing model.", "quantifier": "all filters, generators, solutions, data and all interleavings of evaluations and further predictions", "why_tests_cant": "needs two complete trainings with identical seeds and different loggers, for every filter; a difference shows only in later random numbers", "anchors": ["suprb/solution/mixing_model.py:NRandom.__call__", "suprb/solution/mixing_model.py:RouletteWheel.__call__", "suprb/solution/mixing_model.py:ErrorExperienceHeuristic.__call__", "suprb/logging/default.py:DefaultLogger.log_iteration", "suprb/optimizer/rule/origin.py:SquaredError"]}
{"id": "C127", "title": "Models trained with the default configuration survive saving and loading", "statement": "Every model trained with the default components and linear local models on valid data can be saved with dump and loaded again, and the loaded model gives the same predictions as the trained one for every batch of samples.", "quantifier": "all valid data, seeds, random numbers, numbers of iterations and rules, restorable parameter settings and query batches", "why_tests_cant": "a whole training followed by a serialisation, for all data", "anchors": ["suprb/json.py:dump", "suprb/json.py:load", "suprb/suprb.py:SupRB.fit", "suprb/suprb.py:SupRB._validate_rule_discovery"]}
{"id": "C128", "title": "Rules without error are accepted", "statement": "With the default acceptance criterion a rule that matches at least one training sample and predicts every sample it matches exactly is accepted into the pool, whatever the unit of the targets.", "quantifier": "all data, rules and local models", "why_tests_cant": "the tests use standardised targets; with other units nothing fails, the model just stays empty", "anchors": ["suprb/optimizer/rule/acceptance.py:Variance.__call__", "suprb/rule/base.py:Rule.fit"]}
{"id": "C129", "title": "Ageing keeps the population bounded", "statement": "With the genetic algorithm that uses ageing instead of a fixed population size (SAS), the number of solutions in the population never exceeds a fixed multiple of the initial population size, however many generations are run.", "quantifier": "all initial populations, fitness values, mutation and crossover rates, random numbers and numbers of generations", "why_tests_cant": "the size depends on ties between fitness values over many generations; a run with few generations never shows growth", "anchors": ["suprb/optimizer/solution/sas/selection.py:Ageing.__call__", "suprb/optimizer/solution/sas/base.py:SasGeneticAlgorithm._optimize"]}
{"id": "C130", "title": "The settings determine the amount of work", "statement": "One call of a solution composition with a fixed population size evaluates a number of solutions that is bounded by its settings alone: random search, grey wolves, particle swarm and ant colony evaluate exactly the initial population plus population size times iterations, the bee colony at most three times as many per iteration, the genetic algorithms at most the elitists and the population size (SAGA2 twice the population size) per generation. One call of rule discovery creates at most n_rules*(1+n_iter*lmbda) rules with the evolution strategy, n_rules*rules_generated with random search, and for novelty search the pool, the start population and twice lmbda per iteration.", "quantifier": "all pools, data, fitness functions, random numbers, populations and settings, including executions that end with an exception", "why_tests_cant": "tests do not count evaluations, and only over all random numbers and fitness values is a bound a bound", "anchors": ["suprb/optimizer/solution/ga/base.py:GeneticAlgorithm._optimize", "suprb/optimizer/solution/gwo/base.py:GreyWolfOptimizer._optimize", "suprb/optimizer/solution/pso/base.py:ParticleSwarmOptimization._optimize", "suprb/optimizer/solution/aco/base.py:AntColonyOptimization._optimize", "suprb/optimizer/solution/abc/base.py:ArtificialBeeColonyAlgorithm._optimize", "suprb/optimizer/solution/rs/base.py:RandomSearch._optimize", "suprb/optimizer/rule/es/es.py:ES1xLambda._optimize", "suprb/optimizer/rule/ns/ns.py:NoveltySearch._optimize", "suprb/optimizer/rule/rs/rs.py:RandomSearch.optimize"]}
{"id": "C131", "title": "Training samples act locally", "statement": "A training sample influences the prediction at a point only through rules whose condition contains both: if the samples inside the selected rules that contain the point are the same (in the same order) in two data sets, rules with these conditions trained on either data set predict the same there.", "quantifier": "all rule conditions, local models, data sets, selections of rules and points", "why_tests_cant": "an outlier changes predictions in some region only; a test looks at a few points and cannot show that no prediction elsewhere depends on it", "anchors": ["suprb/rule/base.py:Rule.fit", "suprb/solution/mixing_model.py:ErrorExperienceHeuristic.__call__", "suprb/solution/mixing_model.py:NBestFitness.__call__"]}
{"id": "C132", "title": "Rules and solutions can be displayed", "statement": "str of any rule or solution returns a text with its current error and fitness and, for a rule, its experience, for a solution, its complexity.", "quantifier": "all rules and solutions in every state: created, cloned, trained on any data, part of a trained or of a loaded model", "why_tests_cant": "whether a text is produced depends on how the object came about; tests show freshly trained objects only", "anchors": ["suprb/base.py:SolutionBase.__str__", "suprb/rule/base.py:Rule._more_str_attributes", "suprb/solution/base.py:Solution._more_str_attributes", "suprb/json.py:_convert_json_to_rule", "suprb/json.py:_load_elitist"]}
{"id": "C133", "title": "Rules of loaded models can be trained", "statement": "Training a rule of a loaded model on data gives the same local model, error, experience and fitness as training a new rule with the same condition on them.", "quantifier": "all data sets, rule conditions, local models and rule fitness functions", "why_tests_cant": "loading is tested by comparing predictions; a defect in the loaded rule shows only when it is used further", "anchors": ["suprb/json.py:_convert_json_to_rule", "suprb/rule/base.py:Rule.fit", "suprb/rule/fitness.py:PseudoAccuracy.__call__"]}
{"id": "C134", "title": "Missing bounds come from the data, given ones are kept", "statement": "When training starts, every part of rule discovery, at any depth, whose bounds were left empty uses the range of the training data, and bounds given by the user are kept; every part whose matching type was left empty uses the matching type of the estimator; apart from n_jobs, all other settings are as configured.", "quantifier": "all classes of components, nested configurations (in which no part of rule discovery has a matching function of its own), estimators with given or default components, and data", "why_tests_cant": "keys of nested parameters are matched by their text; tests use one configuration with one level of nesting", "anchors": ["suprb/suprb.py:SupRB._init_bounds", "suprb/suprb.py:SupRB._init_matching_type", "suprb/suprb.py:SupRB._propagate_component_parameters", "suprb/suprb.py:SupRB._validate_rule_discovery"]}
{"id": "C135", "title": "Rates and strengths switch operators off and on", "statement": "An operator whose rate is 0 changes nothing, whatever the random numbers: crossover of solutions returns its first parent, bit flips the same selection of rules, crossover of rules the two parents, and random initialisation with probability 0 selects no rule. With rate 1 it always acts: every child is recombined, every rule changes sides, every rule is selected. A mutation of rules with strength 0 leaves the condition of a rule as it is. A genetic algorithm or SAS with both rates 0 only ever has solutions of its initial population.", "quantifier": "all rates' random numbers in [0, 1), parents, matching types, mutations, fitness functions, numbers of generations", "why_tests_cant": "a wrong comparison shows only for random numbers on the boundary, and tests with one seed cannot exclude a rare change", "anchors": ["suprb/optimizer/solution/ga/crossover.py:SolutionCrossover", "suprb/optimizer/solution/ga/mutation.py:BitFlips", "suprb/optimizer/solution/sas/base.py:SasGeneticAlgorithm", "suprb/solution/initialization.py:RandomInit", "suprb/optimizer/rule/crossover.py:RuleCrossover", "suprb/optimizer/rule/mutation.py:RuleMutation"]}
{"id": "C136", "title": "The laws of mixing hold for every filter", "statement": "Also with a filter that keeps only some of the selected rules (the best, random ones, roulette wheel), every sample matched by a selected rule is predicted between the local predictions of the selected rules matching it, and other samples as 0; selected rules that do not match a sample do not influence its prediction; the other samples of the batch and the order of the pool do not matter; and a selected rule that gets better pulls the prediction towards its own.", "quantifier": "all filters, states of their random generators, pools, selections, samples and batches, positive experience weights", "why_tests_cant": "which rules are kept depends on all of them, so a law can fail for rare combinations of fitness values only", "anchors": ["suprb/solution/mixing_model.py:NBestFitness", "suprb/solution/mixing_model.py:NRandom", "suprb/solution/mixing_model.py:RouletteWheel", "suprb/solution/mixing_model.py:ErrorExperienceHeuristic"]}
{"id": "C137", "title": "The order of the features does not matter", "statement": "Training on data with reordered columns, with the same random numbers (those drawn per feature reordered in the same way), ends in the same way and gives the same rules with reordered bounds and unchanged error, fitness and experience; predictions for reordered samples are the same.", "quantifier": "all data, all orders of the features, all settings, random numbers, matching types", "why_tests_cant": "a test compares a few orders for a few features; an indexing error can show for particular positions of a narrow dimension only", "anchors": ["suprb/rule/matching.py:UnorderedBound", "suprb/rule/matching.py:OrderedBound", "suprb/optimizer/rule/mutation.py", "suprb/rule/fitness.py:VolumeRuleFitness", "suprb/suprb.py:fit", "suprb/suprb.py:predict"]}
{"id": "C138", "title": "The units of the features do not matter", "statement": "Training on data in other units (a positive factor and an offset per feature), with the same random numbers (steps per feature converted to the new units), ends in the same way and gives the same predictions for samples in the new units.", "quantifier": "all data, all positive factors and offsets, all settings and random numbers", "why_tests_cant": "depends on how constants in the code compare with the distances between samples, for which a test has only a few values", "anchors": ["suprb/rule/matching.py:OrderedBound", "suprb/optimizer/rule/constraint.py:MinRange", "suprb/rule/fitness.py:VolumeRuleFitness", "suprb/rule/initialization.py", "suprb/suprb.py:fit", "suprb/suprb.py:predict"]}
{"id": "C139", "title": "The default local model is at least as good as every constant", "statement": "A rule trained with the default local model has an error of at most the mean squared error of any constant prediction on the samples it matches (or the error floor 1e-4), in particular at most the variance of their targets; the mean of its predictions on these samples equals the mean of their targets.", "quantifier": "all data, rules that match a sample, positive regularisation strengths", "why_tests_cant": "an inequality about an optimum for all data; tests check a few fits up to rounding", "anchors": ["suprb/rule/base.py:fit", "suprb/rule/initialization.py"]}
{"id": "C140", "title": "What the default acceptance rejects", "statement": "With the default local model and the acceptance criterion Variance with beta of at most 1 (the default), a trained rule that matches samples is rejected if and only if the mean of the squared targets of these samples is below 1e-4 * beta. So if all targets are at least sqrt(1e-4 * beta) in size nothing is rejected: rule discovery returns the requested number of rules, and the pool has n_initial_rules + k * n_rules rules after k iterations.", "quantifier": "all data, settings, pools and random numbers", "why_tests_cant": "a threshold on the data and an exact count in all runs", "anchors": ["suprb/optimizer/rule/acceptance.py:Variance", "suprb/optimizer/rule/base.py:_filter_invalid_rules", "suprb/suprb.py:fit", "suprb/rule/base.py:fit"]}
{"id": "C141", "title": "Constant targets are learned exactly", "statement": "If all targets are equal to c, every model trained with the default components predicts exactly c wherever one of its selected rules matches, and 0 elsewhere.", "quantifier": "all data with equal targets, settings and random numbers", "why_tests_cant": "holds for all selections of rules and all regions they cover", "anchors": ["suprb/rule/base.py:fit", "suprb/solution/mixing_model.py:ErrorExperienceHeuristic", "suprb/suprb.py:predict"]}
{"id": "C142", "title": "A stricter acceptance accepts fewer rules", "statement": "A trained rule accepted by Variance with some beta is accepted by Variance with every smaller non-negative beta, and a rule accepted by MaxError by MaxError with every larger limit. Rules kept after filtering with the stricter criterion are among those kept with the laxer one, in the same order. With beta = 0 exactly the rules that match a sample with a non-zero target are accepted, with a negative beta none.", "quantifier": "all data, trained rules and parameters", "why_tests_cant": "monotonicity over all pairs of parameters and all data, including the division by zero", "anchors": ["suprb/optimizer/rule/acceptance.py:Variance", "suprb/optimizer/rule/acceptance.py:MaxError", "suprb/optimizer/rule/base.py:_filter_invalid_rules"]}
{"id": "C143", "title": "What capping the experience does", "statement": "Capping the experience in the mixing of rules does not change predictions as long as the experience of all selected rules is within the limits; experience beyond a limit has the influence of the limit; the weights of two rules with equal error differ at most by the factor upper limit / lower limit.", "quantifier": "all solutions, limits, weights and samples, both ways of computing predictions", "why_tests_cant": "relates predictions for all pools and limits; a test has a few pools", "anchors": ["suprb/solution/mixing_model.py:CapExperience", "suprb/solution/mixing_model.py:CapExperienceWithDimensionality", "suprb/solution/mixing_model.py:ErrorExperienceHeuristic"]}
{"id": "C144", "title": "A whole training run does not depend on the order of the samples", "statement": "Training on the same samples in another order, with the same random numbers (the same samples drawn as origins), ends in the same way and gives the same rules (condition, error, fitness, experience, local predictions), the same selection of rules with the same error and fitness, and the same predictions.", "quantifier": "all data, all orders of the samples, settings and random numbers", "why_tests_cant": "a test compares a few orders of a few data sets; stored predictions and match sets belong to positions, an indexing error shows only for particular orders", "anchors": ["suprb/rule/base.py:fit", "suprb/optimizer/rule/origin.py:Matching", "suprb/optimizer/rule/acceptance.py:Variance", "suprb/solution/mixing_model.py:ErrorExperienceHeuristic", "suprb/utils.py:estimate_bounds", "suprb/suprb.py:fit", "suprb/suprb.py:predict"]}
{"id": "C145", "title": "The ant colony reinforces the choices of its best ants", "statement": "Other things being equal, a rule that the best ants of an iteration select is at least as likely to be selected by the next ant as if they had left it out: whenever an ant selects it after the iteration in which they left it out, it also does so, with the same random numbers, after the iteration in which they selected it. The ants whose choices count are the n fittest of the iteration.", "quantifier": "all pools, pheromones, settings, fitness functions and random numbers, both solution graphs", "why_tests_cant": "compares two iterations for all pheromone values and random numbers; tests see one", "anchors": ["suprb/optimizer/solution/aco/base.py:AntColonyOptimization._optimize", "suprb/optimizer/solution/aco/builder.py:Binary", "suprb/optimizer/solution/aco/builder.py:Complete", "suprb/optimizer/solution/aco/pheromones.py:Fitness", "suprb/optimizer/solution/aco/selection.py:NBest"]}
{"id": "C146", "title": "Onlooker bees prefer better food sources", "statement": "In the onlooker phase of the bee colony the partner is drawn from a probability distribution over the food sources in which a fitter food source is more likely than a less fit one.", "quantifier": "all populations and fitness functions", "why_tests_cant": "all combinations of fitness values, including negative ones and all zeros", "anchors": ["suprb/optimizer/solution/abc/base.py:ArtificialBeeColonyAlgorithm._optimize"]}
{"id": "C147", "title": "The ampersand strategy returns the best rule of its run", "statement": "With the & operator the returned rule is at least as fit as every rule from which a generation was started, in particular as the initial rule.", "quantifier": "all data, learners, fitness functions, mutations, delays, numbers of generations and children, and all random numbers", "why_tests_cant": "the whole history of a run of any length is compared with its result, including generations without valid children", "anchors": ["suprb/optimizer/rule/es/es.py:ES1xLambda._optimize"]}
{"id": "C148", "title": "Giving every training sample the same number of times changes nothing", "statement": "A model trained on data in which every sample occurs k times, with the same random numbers, has the same rules (with k times the experience), the same selection of them and makes the same predictions as the model trained on the samples themselves.", "quantifier": "all data, numbers of repetitions, orders of the repeated samples, configurations, learners and random numbers", "why_tests_cant": "two complete runs of any length on data of different size have to be compared step by step", "anchors": ["suprb/rule/base.py:Rule.fit", "suprb/suprb.py:SupRB.fit", "suprb/solution/mixing_model.py:ErrorExperienceHeuristic.__call__", "suprb/optimizer/rule/origin.py:RouletteWheelOrigin.__call__"]}
{"id": "C149", "title": "Only the order of the fitness values matters", "statement": "Replacing the fitness of rules and of solutions by strictly increasing functions of them, with the same random numbers, gives the same rules, the same selection of them and the same predictions.", "quantifier": "all data, configurations, learners, fitness functions, strictly increasing functions and random numbers", "why_tests_cant": "infinitely many fitness functions and runs of any length have to be compared step by step", "anchors": ["suprb/rule/fitness.py:VolumeWu", "suprb/solution/fitness.py:ComplexityWu", "suprb/optimizer/rule/es/es.py:ES1xLambda._optimize", "suprb/optimizer/solution/ga/selection.py:Tournament.__call__", "suprb/suprb.py:SupRB.fit"]}
{"id": "C150", "title": "A longer training continues the shorter one", "statement": "With the same random_state, data and other settings, a training with more iterations begins with exactly the iterations of the training with fewer: the same rules in the same order and the same best solution after each of them.", "quantifier": "all data, seeds, components, settings and numbers of iterations", "why_tests_cant": "two runs of any length have to be compared step by step", "anchors": ["suprb/suprb.py:SupRB.fit", "suprb/solution/fitness.py:ComplexitySolutionFitness"]}
{"id": "C151", "title": "Early stopping only cuts the training off", "statement": "A training with early stopping does exactly what the training without it (or with more patience or a smaller delta) does, until it ends: the same rules and best solutions; with the elitist archive and a fitness of error and complexity only, the longer one, if it completes, ends with a solution at least as good.", "quantifier": "all data, seeds, components, settings, patiences and deltas", "why_tests_cant": "two runs of any length have to be compared step by step", "anchors": ["suprb/suprb.py:SupRB.fit", "suprb/suprb.py:SupRB.check_early_stopping"]}
{"id": "C152", "title": "Predictions stay in the range of the training targets", "statement": "Wherever a rule of a model trained with the default components matches, its prediction lies between the smallest and the largest training target; elsewhere it is 0.", "quantifier": "all data, settings, random numbers and query samples", "why_tests_cant": "a single sample outside the range, of infinitely many, refutes it", "anchors": ["suprb/rule/base.py:Rule.fit", "suprb/solution/mixing_model.py:ErrorExperienceHeuristic.__call__", "suprb/suprb.py:SupRB.predict"]}
{"id": "C153", "title": "Every condition is within reach of the rule mutations", "statement": "With a positive mutation strength and minimum range, repeated mutation followed by the constraints can turn a rule whose box lies in the feature bounds and is nowhere narrower than the minimum range into a rule with exactly any other such box (for the increase mutations: any such box around its own), for every implemented combination of mutation and matching type.", "quantifier": "all boxes, feature bounds, strengths, minimum ranges and numbers of features", "why_tests_cant": "existence of random numbers for each of infinitely many targets", "anchors": ["suprb/optimizer/rule/mutation.py:RuleMutation.__call__", "suprb/optimizer/rule/constraint.py:CombinedConstraint.__call__"]}
{"id": "C154", "title": "Conditions in floating-point arithmetic", "statement": "For ordered rules (the default) and rounded arithmetic: rules made for a sample match it; initialisation, mutation, crossover and constraints never invert a rule; constrained rules lie in the feature bounds and keep their in-bounds samples; increase mutations never lose an in-bounds sample; and the rule made for a sample is at least half the minimum range wide, if the features range over as much.", "quantifier": "all monotone roundings, samples, rules, draws, feature bounds and histories", "why_tests_cant": "rounding errors show for few of the many numbers", "anchors": ["suprb/rule/matching.py:OrderedBound.min_range", "suprb/rule/matching.py:OrderedBound.clip", "suprb/optimizer/rule/mutation.py:HalfnormIncrease.ordered_bound"]}
{"id": "C155", "title": "Rounding hardly changes predictions", "statement": "In arithmetic whose operations have a relative error of at most u, the predictions of a model of n fitted rules differ from the exact mix of the local predictions by at most ((1+u)/(1-u))^(n+5) - 1 times the largest matching local prediction (in float64 with up to a million rules: by at most a billionth of it), in whatever order numpy adds; samples no rule matches are predicted exactly 0; and the order of the rules matters by at most twice as much.", "quantifier": "all roundings with relative error at most u < 1, all orders of addition, models, filters, mixing parameters and samples", "why_tests_cant": "rounding errors depend on the numbers, their order and the machine", "anchors": ["suprb/solution/mixing_model.py:ErrorExperienceHeuristic.__call__", "suprb/solution/mixing_model.py:ErrorExperienceHeuristic._get_taus", "suprb/solution/mixing_model.py:ErrorExperienceHeuristic._get_tau_sum"]}
{"id": "C156", "title": "Rounding hardly changes errors", "statement": "In arithmetic whose operations have a relative error of at most u, the recorded error of a fitted rule or solution differs from the exact one (the mean squared error of its predictions on its n samples, at least 1e-4) by at most ((1+u)/(1-u))^(n+3) - 1 times the latter (in float64 with up to a million samples: by at most a billionth of it), in whatever order the squares are added.", "quantifier": "all roundings with relative error at most u < 1, all orders of addition, targets, predictions and numbers of samples", "why_tests_cant": "rounding errors depend on the numbers, their order and the machine", "anchors": ["suprb/rule/base.py:Rule.fit", "suprb/solution/base.py:Solution.fit"]}
{"id": "C157", "title": "Rounding does not turn fitnesses around", "statement": "In floating-point arithmetic, of two solutions judged by ComplexityEmary or ComplexityWu the one that is at least as accurate (its pseudo-accuracy is at least as large) and at most as complex never gets the lower fitness; of two rules judged by PseudoAccuracy, VolumeEmary or VolumeWu the one that is at least as accurate and at least as large never gets the lower fitness.", "quantifier": "all pseudo-accuracies, complexities, volumes and admissible weights, all monotone roundings", "why_tests_cant": "neighbouring floating-point numbers are hardly ever compared in tests", "anchors": ["suprb/fitness.py:emary", "suprb/fitness.py:wu", "suprb/solution/fitness.py:ComplexitySolutionFitness.__call__", "suprb/rule/fitness.py:VolumeRuleFitness.__call__"]}
{"id": "C158", "title": "Settings changed after construction count fully in training", "statement": "When fit starts training, every component, at every depth, is as its constructor makes it from the parameters the component has at that moment, however they were set (constructor, set_params, SupRBWrapper or assignment): values that constructors compute from parameters, such as the weight of the fitness in NoveltyFitnessBiased (1 - novelty_bias) or the initial limits of the rates in the second self-adapting genetic algorithm, are those of the current parameters, never of earlier ones.", "quantifier": "all class tables, all configurations with arbitrarily nested components, all histories of changed settings", "why_tests_cant": "a test would have to change every setting of every component at every depth after construction and inspect what the training works with", "anchors": ["suprb/suprb.py:SupRB.fit", "suprb/suprb.py:SupRB._validate_rule_discovery", "suprb/optimizer/rule/ns/novelty_calculation.py:NoveltyFitnessBiased", "suprb/optimizer/solution/saga2/base.py:SelfAdaptingGeneticAlgorithm"]}
{"id": "C159", "title": "Whether a combination of matching type, initialisation and mutation can be trained is not a matter of luck", "statement": "Whether SupRB with the evolution strategy trains is decided by the matching type, the rule initialisation, the mutation with the shape of its sigma and the number of features alone. Combinations that work complete for all valid data, all seeds and all random numbers, even if initial rules or children match no samples: every rule in the pool has the configured matching type, matches training samples, is trained on them and is as accurate as the acceptance demands, and the model predicts one value per sample. Combinations that do not work never train: fit raises the same error before any rule is discovered, or always returns a model without rules that predicts zeros.", "quantifier": "all matching types, initialisations, mutations and shapes of sigma, all valid data, settings of the evolution strategy and the genetic algorithm, local models, fitnesses, seeds and random numbers", "why_tests_cant": "a combination that fails only for unlucky draws or unusual data passes any sample of runs", "anchors": ["suprb/suprb.py:SupRB.fit", "suprb/suprb.py:SupRB._init_matching_type", "suprb/optimizer/rule/base.py:ParallelSingleRuleDiscovery.optimize", "suprb/optimizer/rule/es/es.py:ES1xLambda", "suprb/rule/initialization.py:RuleInit", "suprb/optimizer/rule/mutation.py:RuleMutation"]}
{"id": "C160", "title": "A feature without variation does not blind the rule discovery", "statement": "If some feature has the same value in all training samples (an unused or padded column), the evolution strategy still searches: in each generation the default selection prefers, among children covering intervals of the same size, the one with the smaller error; '+' never replaces a rule by a worse one; '&' stops when there was no improvement for `delay` generations instead of always carrying out all `n_iter` generations; and the rules found depend on the targets.", "quantifier": "all data with a constant feature, local models, operators, delays, mutations, both rule fitnesses that use the volume and all their alpha, all origins and random numbers", "why_tests_cant": "a constant column raises no exception and the model still predicts; tests use data in which all features vary, and cannot show that no comparison between rules is ever true", "anchors": ["suprb/rule/fitness.py:VolumeRuleFitness", "suprb/rule/fitness.py:VolumeWu", "suprb/optimizer/rule/selection.py:Fittest", "suprb/optimizer/rule/es/es.py:ES1xLambda", "suprb/utils.py:estimate_bounds"]}
{"id": "C161", "title": "Rule discovery, solution composition and mixing model can be combined freely", "statement": "A rule discovery method and a solution composition method that each work on their own work together, with any admissible mixing model: `fit` completes without error for all valid data, the pool has at most `n_initial_rules + n_iter * n_rules` rules, each of the configured matching type, matching at least one training sample and with a model trained on the samples it matches and an accepted error, and predictions are 0 where no rule of the elitist matches and otherwise lie between the predictions of its matching rules. Conversely a rule discovery that fails because of its own configuration fails with every composition method and every mixing model.", "quantifier": "evolution strategy (all matching types, initialisations, mutations), random search and novelty search; genetic algorithm (all parent selections), random search, grey wolves, particle swarm, saga1, saga3, ant colony and bee colony, with settings admissible for each on its own (roulette wheel: fitness values that are not negative; bee colony: positive fitness values); all mixing models with positive weight and positive function of the experience; all data, seeds, random numbers, local models, fitness functions", "why_tests_cant": "there are dozens of combinations, each with many parameters; the tests exercise a few of them on one data set each", "anchors": ["suprb/suprb.py:SupRB.__init__", "suprb/suprb.py:SupRB.fit", "suprb/optimizer/rule/base.py:RuleDiscovery", "suprb/optimizer/solution/base.py:SolutionComposition", "suprb/solution/mixing_model.py:ErrorExperienceHeuristic"]}
{"id": "C162", "title": "Training works with every way of choosing by fitness", "statement": "The composition methods that choose by fitness do not make training fail, whatever the fitness function: the genetic algorithm with random parents, roulette wheel, linear ranking or tournaments, and the bee colony, complete on all valid data with any rule discovery and mixing model, for each of the fitness functions the library offers (`ComplexityWu`, `ComplexityEmary`, `PseudoBIC`).", "quantifier": "all selections, rule discovery methods, mixing models, admissible settings, data, seeds, random numbers; for random parents, linear ranking and tournaments every fitness function", "why_tests_cant": "whether the values of a run have both signs, or are all zero, depends on the data and on the random numbers; the tests use the default tournament and a fitness between 0 and 100", "anchors": ["suprb/optimizer/solution/ga/selection.py:RouletteWheel", "suprb/optimizer/solution/ga/selection.py:LinearRank", "suprb/optimizer/solution/ga/selection.py:Random", "suprb/optimizer/solution/abc/base.py:ArtificialBeeColonyAlgorithm", "suprb/solution/fitness.py:PseudoBIC", "suprb/solution/fitness.py:ComplexityWu", "suprb/solution/fitness.py:ComplexityEmary", "suprb/suprb.py:SupRB.fit"]}
{"id": "C163", "title": "Linear targets are learned up to the regularisation", "statement": "With the default local model, a rule's error is at most that of any affine function on the samples it matches, plus `alpha` times the squared length of its slope divided by their number (or the error floor 1e-4). If all targets come from one affine function with slope w, a trained model predicts every training sample that one of its selected rules matches up to sqrt(alpha) * |w| / 2, and every other point up to that plus |w| times the distance of the point to the training samples of those rules. If the targets are nearly linear only inside each rule, the errors at covered training samples are bounded accordingly.", "quantifier": "all data, slopes, rule discovery and composition methods, matching types, mixing models (positive weight, all rules kept), settings and random numbers; exact arithmetic", "why_tests_cant": "the bound holds for all rules that a run may come up with and all data; a test can only compare a few errors with it", "anchors": ["suprb/rule/base.py:Rule.fit", "suprb/rule/initialization.py:RuleInit", "suprb/solution/mixing_model.py:ErrorExperienceHeuristic.__call__", "suprb/suprb.py:SupRB.fit", "suprb/suprb.py:SupRB.predict"]}
{"id": "C164", "title": "The errors of the rules vouch for the model", "statement": "If every selected rule reports an error of at most e, the mean squared error of the trained model on the training samples that its selected rules match is at most e. No prediction for a matched training sample is farther from the target than that of every selected rule that matches it. The error the model reports is accounted for by the errors of its rules and the squared targets of the samples that no selected rule matches.", "quantifier": "all data, local models, rule discovery and composition methods, matching types, mixing models (positive weight, all rules kept), settings and random numbers; exact arithmetic", "why_tests_cant": "the bound concerns all rule sets that a run may come up with and every way in which they overlap; tests look at few runs", "anchors": ["suprb/rule/base.py:Rule.fit", "suprb/solution/base.py:Solution.fit", "suprb/solution/mixing_model.py:ErrorExperienceHeuristic.__call__", "suprb/suprb.py:SupRB.fit", "suprb/suprb.py:SupRB.predict"]}
{"id": "C165", "title": "Ants prefer fit rules and avoid overlapping ones", "statement": "In the binary graph an ant takes a rule if and only if its random number is at most the share of the weight for taking it, where the weights are the pheromones to the power alpha times one plus or minus half the rule's position in the range of fitness values to the power beta; a rule of which the pheromones say nothing is taken with a probability between 1/2 (worst) and 3/4 (best) by default. With the same pheromones and random number, a fitter rule is taken whenever a less fit one is. In both graphs, if a rule becomes fitter (within the range of the others) and overlaps less with them, every ant that took it before still takes it.", "quantifier": "all pools with different fitness values, positive pheromones, nonnegative exponents, orders and random numbers; exact arithmetic", "why_tests_cant": "the preference is about probabilities and about pairs of colonies that differ in one rule; tests see samples of the random choices", "anchors": ["suprb/optimizer/solution/aco/builder.py:Binary.__call__", "suprb/optimizer/solution/aco/builder.py:Complete.__call__", "suprb/optimizer/solution/aco/builder.py:relative_fitness"]}
{"id": "C166", "title": "A larger alpha moves the fittest candidate in one direction", "statement": "Compare the fittest of the same solutions for two values of alpha. With ComplexityWu and alpha at least zero, the fittest for the larger alpha has no more rules and no smaller error than the fittest for the smaller one, among solutions with fewer rules than the maximum. With ComplexityEmary and alpha in [0, 1] it is the other way round: a larger alpha gives no larger error and no fewer rules. Likewise for rules: with VolumeWu a larger alpha gives no smaller volume and no smaller error, with VolumeEmary no larger error and no larger volume.", "quantifier": "all finite sets of solutions or rules (rules of positive volume for VolumeWu), all pairs of values of alpha; exact arithmetic", "why_tests_cant": "the direction is a statement about every set of candidates and every pair of parameter values; a test compares a few settings", "anchors": ["suprb/fitness.py:wu", "suprb/fitness.py:emary", "suprb/solution/fitness.py:ComplexitySolutionFitness.__call__", "suprb/rule/fitness.py:VolumeRuleFitness.__call__"]}
{"id": "C167", "title": "What novelty search creates and keeps", "statement": "A call of novelty search fits at most 2*(lmbda // 2) new rules per generation (each pair of parents has two children, an odd parent has none), its population has at most mu + n_elitists rules after every generation in which it changes, and the call returns at most mu rules even if more are requested. The new population consists of rules created in that generation and, as elitists, of parents. With the basic and the biased novelty calculation the rules kept are the most novel ones: no rule that is dropped has a larger score than one that is kept, nor, at equal scores, a larger experience.", "quantifier": "all selections of parents of at most lmbda rules, all crossovers, mutations and archives, all numbers of generations and draws", "why_tests_cant": "the sizes must hold for every run of a random search, and the order among kept and dropped rules for every population and archive", "anchors": ["suprb/optimizer/rule/ns/ns.py:NoveltySearch._optimize", "suprb/optimizer/rule/ns/ns.py:NoveltySearch._crossover_and_mutate", "suprb/optimizer/rule/ns/ns.py:NoveltySearch._rule_selection", "suprb/optimizer/rule/ns/ns.py:NoveltySearch._get_n_best_rules"]}
{"id": "C168", "title": "No knowledge is stored twice", "statement": "Of two rules in the pool of a trained model, no matter how they were found, one matches a training sample that the other does not match. Rules that match the same training samples would be interchangeable: same local model, error, experience and predictions, and, with a fitness computed from the error only, same fitness.", "quantifier": "all data, settings, rule discoveries, composition methods and random numbers", "why_tests_cant": "which conditions a random search finds in thousands of draws, and whether two of them select the same samples, cannot be enumerated", "anchors": ["suprb/suprb.py:SupRB._discover_rules", "suprb/rule/base.py:Rule.fit", "suprb/optimizer/rule/es/es.py:ES1xLambda._optimize", "suprb/optimizer/rule/acceptance.py:Variance.__call__"]}
{"id": "C169", "title": "Rules that are not used do not count", "statement": "The fitness of a solution depends only on the rules it selects: extending the pool by rules it does not select changes neither its fitness nor which of two solutions is the fitter one. So with an elitist archive the fitness of the elitist never decreases during a training, whichever of the provided fitness functions is used.", "quantifier": "all pools, solutions, additional rules, data, settings and random numbers", "why_tests_cant": "needs a comparison over all pool extensions, and the sign of a combination of logarithms over a continuum of errors", "anchors": ["suprb/solution/base.py:Solution.fit", "suprb/solution/fitness.py:PseudoBIC", "suprb/solution/fitness.py:ComplexitySolutionFitness.__call__", "suprb/optimizer/solution/archive.py:Elitist.__call__", "suprb/optimizer/solution/archive.py:SolutionArchive.refit"]}
{"id": "C170", "title": "The parts of the evolution strategy can be combined freely", "statement": "Every origin generation, initialisation, mutation, selection, constraint, acceptance and replacement operator that the package offers can be used in the evolution strategy together with every composition method and mixing model: training completes on all valid data, and the model predicts for every sample.", "quantifier": "all combinations of the offered parts, all their numeric settings, valid data, seeds and random numbers", "why_tests_cant": "the combinations are far too many to run, and each fails only for particular draws", "anchors": ["suprb/optimizer/rule/es/es.py:ES1xLambda", "suprb/optimizer/rule/base.py:RuleDiscovery.optimize", "suprb/optimizer/rule/selection.py:RouletteWheel.__call__", "suprb/optimizer/rule/selection.py:NondominatedSort.__call__", "suprb/optimizer/rule/constraint.py:CombinedConstraint", "suprb/optimizer/rule/acceptance.py:MaxError.__call__", "suprb/optimizer/rule/origin.py:SquaredError"]}
{"id": "C171", "title": "The pool obeys the constraint and the acceptance that were set", "statement": "Every rule that a training leaves in the pool satisfies what was set for the evolution strategy: with MinRange(r) its interval is at least r wide in every dimension, with Clip it lies inside the given bounds (or the range of the training data if none are given), with CombinedConstraint both hold; and with MaxError(e) its training error is at most e, with Variance(beta) at most the mean squared target of its samples divided by beta.", "quantifier": "ordered bounds (the acceptance: all matching types), all settings, data, seeds and random numbers; also fits that fail or are aborted", "why_tests_cant": "a rule passes through arbitrarily many mutations, selections and replacements before it is stored", "anchors": ["suprb/optimizer/rule/constraint.py:MinRange.__call__", "suprb/optimizer/rule/constraint.py:Clip.__call__", "suprb/optimizer/rule/constraint.py:CombinedConstraint.__call__", "suprb/optimizer/rule/acceptance.py:MaxError.__call__", "suprb/optimizer/rule/acceptance.py:Variance.__call__", "suprb/optimizer/rule/base.py:RuleDiscovery._filter_invalid_rules", "suprb/suprb.py:SupRB._discover_rules"]}
{"id": "C172", "title": "The parts of random search and novelty search can be combined freely", "statement": "Every origin generation, matching type, initialisation, mutation, crossover, selection, constraint, acceptance, novelty search type, archive and roughness that the package offers can be used in random search and novelty search together with every composition method and mixing model: training completes on all valid data, the pool has at most the configured number of rules, all of the matching type that was set, and the model predicts between the predictions of the matching rules for every sample.", "quantifier": "all combinations of the offered parts, all their numeric settings, valid data, seeds and random numbers", "why_tests_cant": "the combinations are far too many to run, and some fail only for particular draws", "anchors": ["suprb/optimizer/rule/rs/rs.py:RandomSearch.optimize", "suprb/optimizer/rule/ns/ns.py:NoveltySearch", "suprb/optimizer/rule/selection.py:RuleSelection", "suprb/optimizer/rule/crossover.py:RuleCrossover", "suprb/optimizer/rule/generation_operator.py:GenerationOperator", "suprb/optimizer/rule/constraint.py:CombinedConstraint", "suprb/optimizer/rule/origin.py:SquaredError"]}
{"id": "C173", "title": "After random search and novelty search the pool obeys the constraint and the acceptance that were set", "statement": "Every rule that a training with random search or novelty search leaves in the pool satisfies what was set there: with MinRange(r) its interval is at least r wide in every dimension, with Clip it lies inside the given bounds (or the range of the training data if none are given), with CombinedConstraint both hold; and with MaxError(e) its training error is at most e, with Variance(beta) at most the mean squared target of its samples divided by beta.", "quantifier": "ordered bounds (the acceptance: all matching types), all settings, data, seeds and random numbers; also fits that fail or are aborted", "why_tests_cant": "in novelty search a rule passes through arbitrarily many crossovers, mutations and selections before it is stored", "anchors": ["suprb/optimizer/rule/rs/rs.py:RandomSearch.optimize", "suprb/optimizer/rule/ns/ns.py:NoveltySearch", "suprb/optimizer/rule/constraint.py:CombinedConstraint.__call__", "suprb/optimizer/rule/acceptance.py:MaxError.__call__", "suprb/optimizer/rule/acceptance.py:Variance.__call__", "suprb/optimizer/rule/base.py:RuleDiscovery._filter_invalid_rules", "suprb/suprb.py:SupRB._discover_rules"]}
{"id": "C174", "title": "A trained model is not worse than predicting zero", "statement": "With the default kind of acceptance (Variance), the squared errors of a trained model on its training data add up to at most those of predicting zero for every sample, so its score (R^2) there is not negative if the targets are centred; and with a local model that is at least as good as every constant (the default ridge regression is) the model is at least as good as every constant on the training samples that its selected rules match.", "quantifier": "all data, local models, rule discovery and composition methods, matching types, mixing models (positive weight, all rules kept), beta of at least 1, other settings and random numbers; exact arithmetic", "why_tests_cant": "rules are accepted one by one, the model mixes them where they overlap; tests show good scores on easy data", "anchors": ["suprb/optimizer/rule/acceptance.py:Variance.__call__", "suprb/solution/mixing_model.py:ErrorExperienceHeuristic.__call__", "suprb/optimizer/rule/base.py:RuleDiscovery._filter_invalid_rules", "suprb/suprb.py:SupRB.fit", "suprb/suprb.py:SupRB.predict"]}
{"id": "C175", "title": "Mixing is not worse than its rules on average", "statement": "For every sample matched by a selected rule and whatever its true value is, the squared error of the prediction equals the weighted mean (weights experience / error) of the squared errors of the selected rules that match the sample, minus the weighted mean of their squared distances from the prediction. So it is at most the weighted mean of their squared errors, it reaches it only if all of them say the same, and the model is never further off than the worst of them.", "quantifier": "all pools of fitted rules, selections, samples, true values, local models, experience calculations with positive values and positive experience weights (default filter)", "why_tests_cant": "the claim is about all true values, also of samples never seen, and all numbers of overlapping rules; a test compares a few numbers", "anchors": ["suprb/solution/mixing_model.py:ErrorExperienceHeuristic.__call__", "suprb/solution/base.py:Solution.predict", "suprb/rule/base.py:Rule.predict"]}
{"id": "C176", "title": "Predictions are as stable as the local models", "statement": "If two samples are matched by the same selected rules and each of these rules predicts values for the two samples that are at most e apart, the predictions of the model are at most e apart; with linear local models they differ by at most the largest coefficient times the sum of the differences of the features. If local models are replaced by others whose predictions for a sample are at most e away (conditions, errors, experience and fitness being the same), the prediction of the model for this sample is at most e away. Replacing the local model of a single selected rule changes the prediction for a sample it matches by its share of the weight (experience / error, among the selected rules that match the sample) times the change of its local prediction.", "quantifier": "all pools of fitted rules, selections, pairs of samples, local models, experience calculations with positive values and positive experience weights; all filters (share of a single rule: the default filter)", "why_tests_cant": "a test looks at a few pairs of samples; the bound is for all of them and for all numbers of overlapping rules", "anchors": ["suprb/solution/mixing_model.py:ErrorExperienceHeuristic.__call__", "suprb/solution/base.py:Solution.predict", "suprb/rule/base.py:Rule.predict"]}
{"id": "C177", "title": "What selecting one more rule does", "statement": "If a solution selects one more rule, predictions for samples that the rule does not match do not change. For a sample that it matches, the prediction moves towards the local prediction of the rule by its share of the weight (experience / error) among the selected rules that match the sample; if no other one does, the prediction was 0 and becomes the local prediction. So, whatever the true value is, the new prediction is not further off than the worse of the old prediction and the rule, and it is at least as accurate as before if the rule is. If the rule is at least as accurate as the solution before on every training sample that it matches, the error of the solution does not increase.", "quantifier": "all pools of fitted rules, selections, samples, true values, training data, local models, fitness functions, experience calculations with positive values and positive experience weights (default filter)", "why_tests_cant": "a test adds a rule to a few solutions; the claim is for all solutions, all true values and all numbers of overlapping rules", "anchors": ["suprb/solution/mixing_model.py:ErrorExperienceHeuristic.__call__", "suprb/solution/base.py:Solution.predict", "suprb/solution/base.py:Solution.fit"]}
{"id": "C178", "title": "The fitted model is not dominated", "statement": "With the elitist archive and a complexity based solution fitness in which both objectives count, no solution of any population or archive during a completed training dominates the solution of the fitted model: none has at most its error and selects fewer rules, and none has a smaller error and selects at most as many.", "quantifier": "all data, seeds, rule discoveries, composition strategies, settings and weights alpha (not 0 for ComplexityWu, strictly between 0 and 1 for ComplexityEmary)", "why_tests_cant": "a test sees the populations of a few trainings; the claim relates the result to every solution of every population of every training, although the pool and with it the selections grow meanwhile", "anchors": ["suprb/solution/fitness.py:ComplexityWu", "suprb/solution/fitness.py:ComplexityEmary", "suprb/optimizer/solution/archive.py:Elitist", "suprb/optimizer/solution/base.py:SolutionComposition.elitist", "suprb/suprb.py:SupRB.fit"]}
{"id": "C179", "title": "More rules only for more accuracy", "statement": "With the elitist archive and a complexity based solution fitness in which both objectives count, the elitist changes from one iteration to a later one only as follows: if it selects more rules than before its error is smaller than before, and if its error is larger than before it selects fewer rules. No solution of an earlier population or archive dominates a later elitist.", "quantifier": "all data, seeds, rule discoveries, composition strategies, settings, pairs of iterations (also of trainings that fail later) and weights alpha (not 0 for ComplexityWu, strictly between 0 and 1 for ComplexityEmary)", "why_tests_cant": "a test compares the iterations of a few trainings; the claim is for every two iterations of every training", "anchors": ["suprb/solution/fitness.py:ComplexityWu", "suprb/solution/fitness.py:ComplexityEmary", "suprb/optimizer/solution/archive.py:Elitist", "suprb/optimizer/solution/base.py:SolutionComposition.elitist", "suprb/suprb.py:SupRB.fit"]}
{"id": "C180", "title": "The fitness of the model vouches for its error and its size", "statement": "With a complexity based solution fitness the fitness F = 100 g of a trained model bounds the mean squared error of its predictions for the training data and its number of rules, relative to the maximum number of rules N: for ComplexityEmary the error is at most ln(alpha / (g - (1 - alpha))) / 2 if g > 1 - alpha, and the number of rules at most N (1 - g) / (1 - alpha); for ComplexityWu the error is at most ln((1 + alpha^2 - alpha^2 g) / g) / 2 if g > 0, and the number of rules at most N (1 + alpha^2) (1 - g) / (1 + alpha^2 - g). The bound on the error is exact for models without rules.", "quantifier": "all data, seeds, rule discoveries, composition strategies, mixing models, settings and weights alpha (not 0 for ComplexityWu, strictly between 0 and 1 for ComplexityEmary)", "why_tests_cant": "a test sees the fitness and the error of a few trained models; the claim holds for every training", "anchors": ["suprb/solution/fitness.py:ComplexityWu", "suprb/solution/fitness.py:ComplexityEmary", "suprb/fitness.py:emary", "suprb/fitness.py:wu", "suprb/solution/base.py:Solution.fit", "suprb/suprb.py:SupRB.fit", "suprb/suprb.py:SupRB.predict"]}
{"id": "C181", "title": "The fitness of a rule vouches for its error and its volume", "statement": "With a volume based rule fitness the fitness F = 100 g of a rule of the pool bounds the mean squared error of its local model on the training samples it matches and its volume, relative to the volume V of the range of the training data: for VolumeEmary the error is at most ln(alpha / (g - (1 - alpha))) / 2 if g > 1 - alpha, and the volume at least V (1 - (1 - g) / (1 - alpha)); for VolumeWu the error is at most ln((1 + alpha^2 - alpha^2 g) / g) / 2 if g > 0, and the volume at least V (1 - (1 + alpha^2) (1 - g) / (1 + alpha^2 - g)). With PseudoAccuracy the error is exactly -ln(g) / 2.", "quantifier": "all data without constant features, seeds, random numbers, local models, settings of the default rule discovery and weights alpha (not 0 for VolumeWu, strictly between 0 and 1 for VolumeEmary)", "why_tests_cant": "a test sees the fitness and the error of a few rules; the claim holds for every rule of every training", "anchors": ["suprb/rule/fitness.py:VolumeWu", "suprb/rule/fitness.py:VolumeEmary", "suprb/rule/fitness.py:PseudoAccuracy", "suprb/fitness.py:emary", "suprb/fitness.py:wu", "suprb/rule/base.py:Rule.fit", "suprb/suprb.py:SupRB.fit"]}
{"id": "C182", "title": "The recorded parameters are those of the training", "statement": "After fit the parameters recorded by the default logger are the settings the training used: every parameter of the estimator and of its components, at every depth, under its name, with the value that was configured and used. The record stays so when the estimator is trained again or its parameters are changed later.", "quantifier": "all estimators, component classes and nesting depths, all data, all trainings, successful or not, and all later trainings and calls of set_params", "why_tests_cant": "a test compares a few entries of one record; the claim is about all entries, all configurations and everything done with the estimator afterwards", "anchors": ["suprb/logging/default.py:DefaultLogger.log_init", "suprb/logging/default.py:DefaultLogger.log_params", "suprb/suprb.py:SupRB.fit", "suprb/suprb.py:SupRB._propagate_component_parameters"]}
{"id": "C183", "title": "Progress messages tell how far the training is", "statement": "From verbosity 4 fit prints exactly two messages per iteration, 'Generating n rules' and 'Optimizing populations', in this order and both beginning with [k/n_iter] in the k-th iteration, and before them, if there are initial rules, one message 'Generating n rules' with [1/n_iter]; so the numbers never decrease, and after a failure the last message tells in which iteration it happened. Below verbosity 4 none of these messages is printed; from verbosity 1 fit reports which missing bounds are estimated from the data, and below it prints nothing. The messages of a training do not depend on earlier trainings of the estimator, and the verbosity has no effect on the model.", "quantifier": "all data, components (also failing ones), settings, verbosities and numbers of earlier trainings", "why_tests_cant": "needs all outcomes of the components in all iterations, early stopping, failures and repeated training", "anchors": ["suprb/suprb.py:SupRB._log_to_stdout", "suprb/suprb.py:SupRB.fit", "suprb/suprb.py:SupRB._discover_rules", "suprb/suprb.py:SupRB._compose_solution", "suprb/suprb.py:SupRB._init_bounds"]}
{"id": "C184", "title": "The warning about an empty population is true", "statement": "fit warns that the population is empty and that solution composition will be skipped exactly if there is no rule in the pool after rules were generated; after this warning solution composition is not run in that iteration. Once a rule was found the warning does not appear any more.", "quantifier": "all rule discoveries and solution compositions (also failing ones), settings and data", "why_tests_cant": "needs rule discoveries that find nothing in some iterations and something in others, in every order", "anchors": ["suprb/suprb.py:SupRB._discover_rules", "suprb/suprb.py:SupRB._compose_solution", "suprb/suprb.py:SupRB.fit"]}
{"id": "C185", "title": "The warning about a low delay is true", "statement": "The evolution strategy warns when it is made that the volume of rules will not increase and that mutation cannot happen exactly if this is so: with the warning every rule it returns is the initial rule, whatever children are generated; without it a fitter child can be returned.", "quantifier": "all operators, delays, numbers of generations, mutations, selections, data, initial rules and random numbers", "why_tests_cant": "whether a rule can change at all depends on every possible sequence of children", "anchors": ["suprb/optimizer/rule/es/es.py:ES1xLambda.__init__", "suprb/optimizer/rule/es/es.py:ES1xLambda._optimize"]}
{"id": "C186", "title": "A generation without usable children is announced and changes nothing", "statement": "The evolution strategy warns that no valid children were generated in exactly those generations whose children match no training sample, and then goes on with (or returns) the rule it had; the warning has no effect on the result. With the default conditions, initialisation, increasing mutation, constraints and selection, at least one child and a delay of at least one, the warning never appears for rules started from training samples inside the feature bounds, and the run does not fail.", "quantifier": "all operators, delays, numbers of generations and children, data, local models, fitness functions and random numbers", "why_tests_cant": "whether some generation of some run has no usable child depends on all draws of all generations", "anchors": ["suprb/optimizer/rule/es/es.py:ES1xLambda._optimize"]}
