import Verif.Spec
import Verif.Py
import Verif.Model.Matching
import Verif.Model.Operators
import Verif.Model.Rule
import Verif.Model.Solution
import Verif.Model.Fitness
import Verif.Model.ES
import Verif.Model.Origin
import Verif.Model.Parallel
import Verif.Lemmas.Matching
import Verif.Lemmas.Rule
import Verif.Lemmas.Solution
import Verif.Props.Matching
import Verif.Props.Operators
import Verif.Props.Rule
import Verif.Props.Solution
import Verif.Props.Fitness
import Verif.Lemmas.ES
import Verif.Props.ES
import Verif.Props.Discovery
import Verif.Model.Composition
import Verif.Model.Heap
import Verif.Lemmas.Composition
import Verif.Props.Composition
import Verif.Props.GA
import Verif.Model.SupRB
import Verif.Lemmas.SupRB
import Verif.Props.SupRB
import Verif.Props.Run
import Verif.Props.Fit
import Verif.Model.Json
import Verif.Lemmas.Json
import Verif.Lemmas.JsonTree
import Verif.Lemmas.JsonRound
import Verif.Props.Json
import Verif.Model.Dump
import Verif.Props.Dump
import Verif.Model.Wrapper
import Verif.Props.Wrapper
import Verif.Model.Prog
import Verif.Lemmas.Prog
import Verif.Model.Saga
import Verif.Lemmas.Saga
import Verif.Props.Saga
import Verif.Model.Sas
import Verif.Props.Sas
import Verif.Model.Swarm
import Verif.Lemmas.Swarm
import Verif.Props.Swarm
import Verif.Model.Aco
import Verif.Props.Aco
import Verif.Props.Keep
import Verif.Model.Novelty
import Verif.Props.Novelty
import Verif.Props.NoveltyRules
import Verif.Model.Utils
import Verif.Props.Utils
import Verif.Model.Default
import Verif.Lemmas.Default
import Verif.Props.Default
import Verif.Model.Logging
import Verif.Lemmas.Logging
import Verif.Props.Logging
import Verif.Model.Selection
import Verif.Props.Selection
import Verif.Model.Metrics
import Verif.Props.Metrics
import Verif.Model.Config
import Verif.Props.Config
import Verif.Model.Search
import Verif.Props.Search
import Verif.Props.Final
import Verif.Props.FinalReport
import Verif.Lemmas.Total
import Verif.Props.Strategies
import Verif.Lemmas.Novelty
import Verif.Props.NoveltyFit
import Verif.Model.Shape
import Verif.Props.Shape
import Verif.Model.Stdout
import Verif.Props.Stdout
import Verif.Model.Objects
import Verif.Lemmas.Objects
import Verif.Props.Objects
import Verif.Model.Components
import Verif.Lemmas.Components
import Verif.Props.Components
import Verif.Props.Batch
import Verif.Props.Accept
import Verif.Props.Recombine
import Verif.Props.Influence
import Verif.Props.Metamorphic
import Verif.Props.MixState
import Verif.Props.DefaultSave
import Verif.Props.SasSize
import Verif.Props.Work
import Verif.Props.Locality
import Verif.Props.Show
import Verif.Props.Configured
import Verif.Props.Rates
import Verif.Props.Filters
import Verif.Props.SasRuns
import Verif.Props.Reach
import Verif.Lemmas.Simulate
import Verif.Lemmas.Relabel
import Verif.Model.Ridge
import Verif.Lemmas.Ridge
import Verif.Props.Ridge
import Verif.Props.Features
import Verif.Props.Strict
import Verif.Props.SampleOrder
import Verif.Props.Reinforce
import Verif.Props.Onlookers
import Verif.Props.Ampersand
import Verif.Lemmas.SimulateMap
import Verif.Props.Repeat
import Verif.Props.FitnessOrder
import Verif.Props.PoolRules
import Verif.Props.Continue
import Verif.Props.TargetRange
import Verif.Props.ReachSwarm
import Verif.Props.ReachRules
import Verif.Model.Rounded
import Verif.Props.Rounded
import Verif.Lemmas.SimulateSearch
import Verif.Props.SearchOrder
import Verif.Props.SearchFeatures
import Verif.Model.RoundedMix
import Verif.Lemmas.RoundedMix
import Verif.Props.RoundedMix
import Verif.Model.RoundedFitness
import Verif.Props.RoundedFitness
import Verif.Props.Derived
import Verif.Model.AnyKind
import Verif.Props.AnyKind
import Verif.Model.NanFitness
import Verif.Lemmas.PySort
import Verif.Props.NanFitness
import Verif.Model.Parts
import Verif.Props.Parts
import Verif.Props.Proportional
import Verif.Props.Linear
import Verif.Props.OrderParts
import Verif.Props.OrderSas
import Verif.Props.ErrorBound
import Verif.Props.AntChoice
import Verif.Props.Origins
import Verif.Props.ConfiguredES
import Verif.Props.EnoughSolutions
import Verif.Props.Alpha
import Verif.Props.NoveltySurvivors
import Verif.Props.NoveltySize
import Verif.Props.SagaIdle
import Verif.Props.Duplicates
import Verif.Props.Unused
import Verif.Props.CrossAll
import Verif.Props.MinWidth
import Verif.Model.FreeES
import Verif.Props.FreeES
import Verif.Props.FreeStrategy
import Verif.Model.FreeSearch
import Verif.Props.FreeSearch
import Verif.Props.SearchSelect
import Verif.Props.BeatsZero
import Verif.Props.Ambiguity
import Verif.Props.KindFitness
import Verif.Props.CapFilters
import Verif.Props.Stability
import Verif.Props.OneMore
import Verif.Props.Undominated
import Verif.Props.Payoff
import Verif.Props.Voucher
import Verif.Props.RuleVoucher
import Verif.Model.LogParams
import Verif.Props.LogParams
import Verif.Model.Messages
import Verif.Props.Messages
import Verif.Model.Warnings
import Verif.Props.Warnings
import Verif.Model.ESWarnings
import Verif.Props.ESWarnings
import Verif.Props.ESValid
