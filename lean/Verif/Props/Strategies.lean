import Verif.Props.Default
import Verif.Props.Swarm
import Verif.Props.Saga
import Verif.Props.Sas
import Verif.Props.Aco
import Verif.Lemmas.Total

/-!
# Claims C103 and C105: training with the other composition strategies, and the size of the population
-/

set_option autoImplicit false
set_option linter.unusedSectionVars false

namespace Suprb

open Spec

section Train

variable {K : Type} [Field K] [LinearOrder K] [IsStrictOrderedRing K] {d : Nat} {M : Type}

/-- The components with the default rule discovery and mixing, and an arbitrary composition strategy (suprb/suprb.py:80-94 with `solution_composition` given). -/
def compWith (es : ESCfg K) (D : RunDraws K d M) (L : Learner K d M) (ff : RuleFitness K d) (sf : Nat → SolFitness K)
    (strat : Seed → List (Event K d M) → Strategy K) : SupComp K d M :=
  { defaultComp es GACfg.default D L ff sf with strategy := strat }

/-- What a user can expect of the settings: at least one iteration, rule and solution; a delay of at least 1 for the operator `&`; an increasing mutation (the default). -/
structure DiscoverySettings (cfg : SupCfg K) (es : ESCfg K) : Prop where
  iter : 1 ≤ cfg.nIter
  rules : 1 ≤ cfg.nRules
  size : 1 ≤ cfg.comp.populationSize
  delay : es.operator = .amp → 1 ≤ es.delay
  mutation : IsIncrease es.mutation
  beta : 0 < es.beta

/-- The random numbers numpy can return in rule discovery. -/
structure RunDraws.DiscoveryPossible (D : RunDraws K d M) (es : ESCfg K) (sigma : K × K) : Prop where
  origins : ∀ seed hist N n probs, N ≠ 0 → IsDistribution N probs → PossibleChoice N n probs (D.origins seed hist N n probs)
  children : ∀ seed hist r g c, es.mutation.DrawOk .ordered sigma (D.children seed hist r g c)

/-- Every fit on valid data (a refit with initial rules after a longer fit is excluded, see `C52_refuted` and C54) returns a fitted model with rules as described by `PoolRule`, at most
`n_initial_rules + n_iter * n_rules` of them, and an elitist solution over them. -/
def TrainsOk (cfg : SupCfg K) (c : SupComp K d M) (beta : K) : Prop :=
  ∀ (entropy : Nat) (raw : RawData K d) (cl : Bool) (st0 : SupState K d M), (raw.finite = true ∧ raw.X.length = raw.y.length ∧ raw.X ≠ []) →
    (cfg.nInitial = 0 ∨ st0.step < cfg.nIter) →
    (st0.fit cfg c entropy raw cl).raised = none ∧ (st0.fit cfg c entropy raw cl).state.isError = false ∧ (st0.fit cfg c entropy raw cl).state.isFitted = true ∧
    (st0.fit cfg c entropy raw cl).state.pool.length ≤ cfg.nInitial + cfg.nIter * cfg.nRules ∧
    (∀ ρ ∈ (st0.fit cfg c entropy raw cl).state.pool, PoolRule c.learner raw.X raw.y beta ρ) ∧
    ∃ σ, (st0.fit cfg c entropy raw cl).state.elitist = some (.solution σ) ∧ σ.pool = (st0.fit cfg c entropy raw cl).state.pool ∧ σ.genome.length = σ.pool.length

theorem compWith_trains (cfg : SupCfg K) (es : ESCfg K) (hs : DiscoverySettings cfg es) (sigma : K × K) (D : RunDraws K d M) (hD : D.DiscoveryPossible es sigma)
    (L : Learner K d M) (ff : RuleFitness K d) (sf : Nat → SolFitness K) (strat : Seed → List (Event K d M) → Strategy K) (hg : ∀ seed hist, (strat seed hist).Good)
    (ht : ∀ seed hist, (strat seed hist).Total) : TrainsOk cfg (compWith es D L ff sf strat) es.beta := by
  intro entropy raw cl st0 hraw hinit
  obtain ⟨fb, hfb, _⟩ := estimateBounds_ok raw.X hraw.2.2
  have hc : raw.check = .ok (raw.X, raw.y) := by unfold RawData.check; rw [if_pos hraw]
  have hxy : raw.y.length = raw.X.length := hraw.2.1.symm
  have hN : raw.X.length ≠ 0 := fun h => hraw.2.2 (List.length_eq_zero_iff.mp h)
  have hnf : (compWith es D L ff sf strat).NoFailure cfg raw.X raw.y fun ρ => ρ.InPool L ff raw.X raw.y fb es.beta := by
    refine ⟨?_, ?_, fun seed hist _ _ _ => (ht seed hist).totalAt _ _⟩
    · intro seed hist el pool n _ hpool hel _
      obtain ⟨rules, h1, _, h2⟩ := esDiscover_total es hs.delay hs.mutation sigma L ff raw.X raw.y hraw.2.2 hxy fb hfb (D.origins seed hist raw.X.length n)
        (D.children seed hist) el pool n (fun probs hp => hD.origins _ _ _ _ probs hN hp) (hD.children seed hist) hel hpool
      exact ⟨rules, h1, h2⟩
    · intro pool hpool g hg
      refine eval_total cfg (compWith es D L ff sf strat) rfl ff raw.X raw.y hxy hraw.2.2 pool ?_ g hg
      intro ρ hρ
      obtain ⟨_, _, _, _, _, hm⟩ := (hpool ρ hρ).matchesData
      exact ⟨(hpool ρ hρ).fromData.fitted, hm⟩
  obtain ⟨h1, h2, h3, h4, h5⟩ := trained_result cfg (compWith es D L ff sf strat) hg (fun seed hist el pool X y n rules h => esDiscover_length _ _ _ _ _ _ _ _ _ _ _ h) hs.iter hs.rules hs.size
    entropy raw hc cl st0 hinit _ hnf
  refine ⟨h1.1, h1.2, h2, ?_, fun ρ hρ => (h4 ρ hρ).poolRule hxy hraw.2.2 hfb hs.beta, h5⟩
  unfold SupCfg.maxGenomeLength at h3
  rw [Nat.mul_comm cfg.nIter, Nat.add_comm]
  exact h3

variable (cfg : SupCfg K) (es : ESCfg K) (hs : DiscoverySettings cfg es) (sigma : K × K) (D : RunDraws K d M) (hD : D.DiscoveryPossible es sigma)
  (L : Learner K d M) (ff : RuleFitness K d) (sf : Nat → SolFitness K)

include hs hD

/-- C103 for random search: training completes for every seed and all random numbers. -/
theorem C103_rs_partial (init : InitOp K) (populationSize nIter : Nat) (hp : 1 ≤ populationSize) (hn : 1 ≤ nIter)
    (draw : Seed → List (Event K d M) → Nat → Nat → Nat → K) :
    TrainsOk cfg (compWith es D L ff sf fun seed hist => Prog.strategy fun n pop => rs init populationSize nIter (draw seed hist) n pop) es.beta :=
  compWith_trains cfg es hs sigma D hD L ff sf _ (fun _ _ => C73_rs _ _ _ _) fun _ _ => rs_total _ _ _ hp hn _

/-- C103 for the grey wolf optimizer. -/
theorem C103_gwo_partial (upd : WolfUpdate) (sig : K → K) (nLeaders : Nat) (hlead : 1 ≤ nLeaders) (draws : Seed → List (Event K d M) → List (Nat → WolfDraw K))
    (hd : ∀ seed hist, draws seed hist ≠ []) :
    TrainsOk cfg (compWith es D L ff sf fun seed hist => Prog.strategy fun _ pop => gwo upd sig nLeaders (draws seed hist) pop) es.beta :=
  compWith_trains cfg es hs sigma D hD L ff sf _ (fun _ _ => C73_gwo _ _ _ _) fun _ _ => gwo_total _ _ _ hlead _ (hd _ _)

/-- C103 for the particle swarm with any of the three movements. -/
theorem C103_pso_partial (m : Movement K) (sig : K → K) (aMin aMax : K) (init : Seed → List (Event K d M) → Nat → (Nat → K) × (Nat → K))
    (draws : Seed → List (Event K d M) → Nat → Nat → List (PSODraw K)) (hne : ∀ seed hist n size, draws seed hist n size ≠ [])
    (hd : ∀ seed hist n size, size ≠ 0 → ∀ dr ∈ draws seed hist n size, m.PossibleDraw size dr) :
    TrainsOk cfg (compWith es D L ff sf fun seed hist => Prog.strategy fun n pop =>
      (pso m sig aMin aMax (init seed hist) (draws seed hist n pop.length) pop).bind fun s => .ret (s.particles.map Particle.sol)) es.beta :=
  compWith_trains cfg es hs sigma D hD L ff sf _ (fun _ _ => psoSized_good _ _ _ _ _ _) fun _ _ => pso_total _ _ _ _ _ _ (hne _ _) (hd _ _)

/-- C103 for saga1: an even population size and multipliers other than zero (they are divisors) are needed. -/
theorem C103_saga1_partial (sc : Saga1Cfg K) (he : sc.populationSize % 2 = 0) (hp : 1 ≤ sc.populationSize) (hm : sc.mutMul ≠ 0) (hc : sc.crossMul ≠ 0) (k : Nat) (hk : 1 ≤ k)
    (draws : Seed → List (Event K d M) → Nat → Nat → List (GADraw K))
    (hd : ∀ seed hist n size, size ≠ 0 → PossibleSel sc.populationSize sc.nElitists k size ((draws seed hist n size).map GADraw.sel)) (rates : Seed → List (Event K d M) → Rates K) :
    TrainsOk cfg (compWith es D L ff sf fun seed hist => Prog.strategy fun n pop =>
      (saga1 sc (draws seed hist n pop.length) (rates seed hist) pop).bind fun s => .ret s.pop) es.beta :=
  compWith_trains cfg es hs sigma D hD L ff sf _ (fun _ _ => saga1Sized_good _ _ _) fun _ _ => saga1_total sc he hp hm hc k hk _ (hd _ _) _

/-- C103 for saga3, whatever parameters the solutions carry. -/
theorem C103_saga3_partial (sc : Saga3Cfg K) (he : sc.populationSize % 2 = 0) (hp : 1 ≤ sc.populationSize) (k : Nat) (hk : 1 ≤ k)
    (draws : Seed → List (Event K d M) → Nat → Nat → List (Saga3GenDraw K))
    (hd : ∀ seed hist n size, size ≠ 0 → PossibleSel sc.populationSize sc.nElitists k size ((draws seed hist n size).map Saga3GenDraw.sel))
    (par : Seed → List (Event K d M) → Nat → K × K × CrossMethod) :
    TrainsOk cfg (compWith es D L ff sf fun seed hist => Prog.strategy fun n pop =>
      (saga3 sc (draws seed hist n pop.length) (pop.mapIdx fun i σ => ⟨σ, (par seed hist i).1, (par seed hist i).2.1, (par seed hist i).2.2⟩)).bind fun s =>
        .ret (s.pop.map SagaObj.indiv)) es.beta := by
  refine compWith_trains cfg es hs sigma D hD L ff sf _ (fun seed hist => ?_) fun _ _ => saga3_total sc he hp k hk _ (hd _ _) _
  refine strategy_good _ fun n ev pop h => Prog.Sat.bind (saga3_sat sc (fun _ => True) (fun _ => trivial) ev n (draws seed hist n pop.length) _ ?_) fun s hs => ?_
  · intro o ho
    obtain ⟨i, hi, rfl⟩ := List.mem_mapIdx.mp ho
    exact ⟨trivial, trivial, h _ (List.getElem_mem hi)⟩
  · intro σ hσ
    obtain ⟨o, ho, rfl⟩ := List.mem_map.mp hσ
    exact (hs.1 o ho).2.2

/-- C103 for the ant colony with the default `q = 1/2` in the heuristic: the matrix kept from the previous call is one for at most as many rules (the pool only grows, C44). -/
theorem C103_aco_partial (ac : AcoCfg K) (warm : Bool) (pool : Seed → List (Event K d M) → Nat → AntPool K) (hpool : ∀ seed hist n, (pool seed hist n).fits.length = n)
    (old : Seed → List (Event K d M) → Nat → Option (Pheromones K)) (hold : ∀ seed hist n q, old seed hist n = some q → ∃ m ≤ n, q.Fits ac.graph m)
    (draws : Seed → List (Event K d M) → List (Nat → AntDraw K)) :
    TrainsOk cfg (compWith es D L ff sf fun seed hist => Prog.strategy fun n pop =>
      (aco ac warm (old seed hist n) (pool seed hist n) (draws seed hist) pop).bind fun s => .ret s.pop) es.beta := by
  refine compWith_trains cfg es hs sigma D hD L ff sf _ (fun seed hist => ?_) fun seed hist => ?_
  · have := fun n => C73_aco ac warm (old seed hist n) (pool seed hist) (hpool seed hist) (draws seed hist)
    exact ⟨fun n => (this n).lens n, fun n => (this n).evaluated n, fun n => (this n).local_ n⟩
  · refine strategy_total _ fun n ev pop hn hl hne hev => ?_
    have hlen := hpool seed hist n
    refine Prog.Runs.bind (aco_runs ac one_half_lt_one warm (old seed hist n) (pool seed hist n) ?_ (by rw [hlen]; exact hold seed hist n) (draws seed hist)
      (by rw [hlen]; exact hev) pop (by rw [hlen]; exact hl)) fun s h => Prog.Runs.ret (ne_nil_of_length h hne)
    intro h
    rw [h] at hlen
    exact hn hlen.symm

end Train

/-! ### The bee colony -/

section Greedy

variable {K : Type} [Field K] [LinearOrder K]

theorem length_greedyUpdate (new : List (Indiv K)) (src : List (Food K)) : (greedyUpdate new src).length = src.length := by
  induction new generalizing src with
  | nil => cases src <;> rfl
  | cons c cs ih =>
    cases src with
    | nil => rfl
    | cons s ss => rw [greedyUpdate, List.length_cons, ih, List.length_cons]

end Greedy

section Bees

variable {K : Type} [Field K] [LinearOrder K] [IsStrictOrderedRing K] {d : Nat} {M : Type}

/-- The partners are drawn among `size` food sources. -/
def ABCDraw.Possible (size : Nat) (z : ABCDraw K) : Prop := (∀ i ∈ z.others1, i < size) ∧ ∀ i ∈ z.others2, i < size

theorem foodGenome_ok (sig : K → K) (z : FoodDraw K) (own other : List Bool) (h : own.length = other.length) : ∃ g, z.genome sig own other = .ok g := by
  unfold FoodDraw.genome
  rw [if_neg (not_not.mpr h)]
  cases z <;> exact ⟨_, rfl⟩

theorem abcCandidates_runs (sig : K → K) {ev : Eval K} {n : Nat} (hev : TotalEval ev n) (sources : List (Food K)) (others : List Nat) (ho : ∀ i ∈ others, i < sources.length)
    (z : Nat → FoodDraw K) (h : ∀ f ∈ sources, EvLen ev n f.sol) : (abcCandidates sig sources others z).Runs ev fun new => ∀ σ ∈ new, EvLen ev n σ := by
  refine Prog.Runs.mono (fun _ h => h.2) (Prog.Runs.and_sat (P := fun _ => True) ?_ (abcCandidates_sat sig ev n sources others z h))
  unfold abcCandidates
  refine Prog.Runs.mono (fun _ _ => trivial) (Prog.Runs.each _ _ fun x hx => ?_)
  have hmem := List.of_mem_zip (mem_of_mem_zipIdx hx)
  have hlt := ho _ hmem.2
  rw [List.getElem?_eq_getElem hlt]
  dsimp only
  have h1 := (h _ hmem.1).1
  have h2 := (h _ (List.getElem_mem hlt)).1
  obtain ⟨g, hg⟩ := foodGenome_ok sig (z x.2) x.1.1.sol.genome sources[x.1.2].sol.genome (h1.trans h2.symm)
  refine Prog.Runs.bind (P := fun g' => g'.length = n) (Prog.Runs.lift ⟨g, hg, (food_genome_len _ _ _ _ _ hg).trans h1⟩) fun g' hg' => ?_
  exact Prog.Runs.mono (fun _ _ => trivial) (evaluate_runs hev _ hg')

theorem abcWeights_ok (sources : List (Food K)) (hne : sources ≠ []) (h : ∀ f ∈ sources, 0 < f.sol.fitnessD) : ∃ w, abcWeights sources = .ok w := by
  have hsum : 0 < (sources.map fun f => f.sol.fitnessD).sum := by
    refine List.sum_pos _ (fun x hx => ?_) (by simpa using hne)
    obtain ⟨f, hf, rfl⟩ := List.mem_map.mp hx
    exact h f hf
  unfold abcWeights
  dsimp only
  rw [if_neg hsum.ne', if_neg]
  · exact ⟨_, rfl⟩
  · intro hany
    obtain ⟨w, hw, hlt⟩ := List.any_eq_true.mp hany
    obtain ⟨f, hf, rfl⟩ := List.mem_map.mp hw
    exact absurd (of_decide_eq_true hlt) (not_lt.mpr (div_nonneg (h f hf).le hsum.le))

/-- All evaluations succeed and give positive fitness. -/
def PositiveEval (ev : Eval K) (n : Nat) : Prop := ∀ g : List Bool, g.length = n → ∃ s, ev g = .ok s ∧ 0 < s.fitness

theorem PositiveEval.pos {ev : Eval K} {n : Nat} (h : PositiveEval ev n) {σ : Indiv K} (hσ : EvLen ev n σ) : 0 < σ.fitnessD := by
  obtain ⟨hl, s, hs, he⟩ := hσ
  obtain ⟨s', hs', hp⟩ := h _ hl
  rw [he] at hs'
  cases hs'
  unfold Indiv.fitnessD
  rw [hs]
  exact hp

/-- C103 for the bee colony: it completes, and keeps its number of food sources, if all fitness values are positive. -/
theorem C103_abc_partial (sig : K → K) (init : InitOp K) (limit : Nat) (n : Nat) (ev : Eval K) (hev : PositiveEval ev n) (pop : List (Indiv K)) (hl : AllLen n pop)
    (hne : pop ≠ []) (draws : List (ABCDraw K)) (hd : ∀ z ∈ draws, z.Possible pop.length) :
    ∃ s, (abc sig init limit draws n pop).run ev = .ok s ∧ s.length = pop.length := by
  have hte : TotalEval ev n := fun g hg => by
    obtain ⟨s, hs, _⟩ := hev g hg
    exact ⟨s, hs⟩
  unfold abc
  refine Prog.Runs.bind' (evaluateAll_runs hte _ hl) fun pop' hpop => ?_
  refine Prog.Runs.mono (fun _ h => h.1) (Prog.Runs.forEach (fun rest (s : List (Food K)) => s.length = pop.length ∧ (∀ f ∈ s, EvLen ev n f.sol) ∧
    ∀ z ∈ rest, z.Possible pop.length) _ draws _ ⟨by rw [List.length_map, hpop.1], ?_, hd⟩ ?_)
  · intro f hf
    obtain ⟨σ, hσ, rfl⟩ := List.mem_map.mp hf
    exact hpop.2 σ hσ
  · rintro z rest s ⟨h1, h2, h3⟩
    have hz := h3 z (List.mem_cons_self ..)
    have hsne : s ≠ [] := ne_nil_of_length h1 hne
    refine Prog.Runs.mono (P := fun s' => s'.length = s.length ∧ ∀ f ∈ s', EvLen ev n f.sol)
      (fun s' h => ⟨h.1.trans h1, h.2, fun z' hz' => h3 z' (List.mem_cons_of_mem _ hz')⟩) (Prog.Runs.and_sat ?_ (abcStep_sat sig init n limit ev s z h2))
    unfold abcStep
    rw [if_neg fun h => hsne h.1]
    refine Prog.Runs.bind' (abcCandidates_runs sig hte s z.others1 (by rw [h1]; exact hz.1) z.food1 h2) fun new1 hn1 => ?_
    have hg1 := greedyUpdate_evLen hn1 h2
    have hl1 := length_greedyUpdate new1 s
    obtain ⟨w, hw⟩ := abcWeights_ok (greedyUpdate new1 s) (ne_nil_of_length hl1 hsne) fun f hf => hev.pos (hg1 f hf)
    refine Prog.Runs.bind' (P := fun _ => True) (Prog.Runs.lift ⟨w, hw, trivial⟩) fun _ _ => ?_
    refine Prog.Runs.bind' (abcCandidates_runs sig hte (greedyUpdate new1 s) z.others2 (by rw [hl1, h1]; exact hz.2) z.food2 hg1) fun new2 _ => ?_
    unfold abcScout
    refine Prog.Runs.mono (fun s' h => ?_) (Prog.Runs.each _ _ fun x _ => ?_)
    · rw [h, List.length_zipIdx, length_greedyUpdate, hl1]
    · split
      · exact Prog.Runs.bind (evaluate_runs hte _ (length_initBits ..)) fun _ _ => Prog.Runs.ret trivial
      · exact Prog.Runs.ret trivial

/-- Repeated positions: the number 0 for every food source and no changed bit. -/
def idleDraw (size : Nat) : ABCDraw K := ⟨List.replicate size 0, fun _ => .flips [], List.replicate size 0, fun _ => .flips [], fun _ _ => 0⟩

/-- If all solutions have the genome `T` of fitness zero and the drawn changes do not touch it, the probabilities of the roulette wheel are undefined. -/
theorem abc_zero (sig : K → K) (init : InitOp K) (limit : Nat) {ev : Eval K} {n : Nat} (hte : TotalEval ev n) (T : List Bool) (hT : T.length = n)
    (hzero : ∀ s, ev T = .ok s → s.fitness = 0) (pop : List (Indiv K)) (hne : pop ≠ []) (hall : ∀ σ ∈ pop, σ.genome = T) (rest : List (ABCDraw K)) :
    (abc sig init limit (idleDraw pop.length :: rest) n pop).run ev = .error .valueError := by
  have hl : AllLen n pop := fun σ hσ => by rw [hall σ hσ, hT]
  have hz : ∀ τ : Indiv K, EvLen ev n τ → τ.genome = T → τ.fitnessD = 0 := by
    rintro τ ⟨_, s, hs, he⟩ hg
    rw [hg] at he
    unfold Indiv.fitnessD
    rw [hs]
    exact hzero s he
  have hmapT : (T.mapIdx fun i b => if ([] : List Nat).contains i then T.getD i false else b) = T := by
    apply List.ext_getElem
    · simp
    · intro i h1 h2; simp
  obtain ⟨pop', hpop, ⟨hpl, hpe⟩, hpg, _⟩ := (evaluateAll_runs hte pop hl).and_sat (evaluateAll_sat ev n pop hl)
  have hgen : ∀ σ ∈ pop', σ.genome = T := by
    intro σ hσ
    have : σ.genome ∈ pop.map Indiv.genome := by rw [← hpg]; exact List.mem_map_of_mem hσ
    obtain ⟨τ, hτ, he⟩ := List.mem_map.mp this
    rw [← he]; exact hall τ hτ
  unfold abc
  rw [Prog.run_bind_ok hpop]
  change ((abcStep sig init n limit (pop'.map fun σ => (⟨σ, 0⟩ : Food K)) (idleDraw pop.length)).bind _).run ev = _
  rw [Prog.run_bind]
  generalize hsrc : pop'.map (fun σ => (⟨σ, 0⟩ : Food K)) = src
  have hsrcl : src.length = pop.length := by rw [← hsrc, List.length_map, hpl]
  have hsrcne : src ≠ [] := ne_nil_of_length hsrcl hne
  have hsrce : ∀ f ∈ src, EvLen ev n f.sol ∧ f.sol.genome = T := by
    intro f hf
    rw [← hsrc] at hf
    obtain ⟨σ, hσ, rfl⟩ := List.mem_map.mp hf
    exact ⟨hpe σ hσ, hgen σ hσ⟩
  have hpos : 0 < pop.length := List.length_pos_iff.mpr hne
  have hcand : (abcCandidates sig src (idleDraw (K := K) pop.length).others1 (idleDraw pop.length).food1).Sat ev (fun _ => True)
      fun new => ∀ τ ∈ new, τ.fitnessD = 0 := by
    unfold abcCandidates
    refine Prog.Sat.mono (fun _ => forall₂_right) _ (Prog.Sat.each (fun x : (Food K × Nat) × Nat => x.1.1 ∈ src) (fun _ (τ : Indiv K) => τ.fitnessD = 0) _ _
      (fun x hx => (List.of_mem_zip (mem_of_mem_zipIdx hx)).1) ?_)
    intro x hx
    split
    · trivial
    · rename_i other hother
      have ho := (hsrce other (List.mem_of_getElem? hother)).2
      have hx' := (hsrce _ hx).2
      refine Prog.Sat.bind (P := fun g => g = T) (Prog.Sat.lift fun g hg => ?_) fun g hg => ?_
      · unfold FoodDraw.genome idleDraw at hg
        rw [ho, hx', if_neg (not_not.mpr rfl)] at hg
        exact (Except.ok.inj hg).symm.trans hmapT
      · subst hg
        exact ⟨True.intro, fun s hs => hzero s hs⟩
  obtain ⟨new, hnew, _, hnew0⟩ := (abcCandidates_runs sig hte src (idleDraw (K := K) pop.length).others1 (fun i hi => by
    rw [(List.mem_replicate.mp hi).2, hsrcl]; exact hpos) (idleDraw pop.length).food1 fun f hf => (hsrce f hf).1).and_sat hcand
  have hw : abcWeights (greedyUpdate new src) = .error .valueError := by
    unfold abcWeights
    dsimp only
    rw [if_pos]
    refine List.sum_eq_zero fun w hw => ?_
    obtain ⟨f, hf, rfl⟩ := List.mem_map.mp hw
    rcases mem_greedyUpdate new src f hf with h | h
    · exact hnew0 _ h
    · obtain ⟨f', hf', he⟩ := List.mem_map.mp h
      rw [← he]
      exact hz _ (hsrce f' hf').1 (hsrce f' hf').2
  have : (abcStep sig init n limit src (idleDraw pop.length)).run ev = .error .valueError := by
    unfold abcStep
    rw [if_neg fun h => hsrcne h.1, Prog.run_bind_ok hnew]
    dsimp only
    rw [hw]
    rfl
  rw [this]

end Bees

section DefaultFitness

variable {d : Nat} {M : Type}

theorem runEval_fitness (cfg : SupCfg ℝ) (c : SupComp ℝ d M) (X : List (Point ℝ d)) (y : List ℝ) (pool : List (Rule ℝ d M)) (g : List Bool) (s : SolState ℝ)
    (h : runEval cfg c X y pool g = .ok s) : s.fitness = c.fitness cfg.maxGenomeLength s.error g.length (g.count true) := by
  unfold runEval evalGenome Solution.fit at h
  split at h
  · cases h
  · rename_i σ0 h0
    split at h0
    · cases h0
    · split at h0
      · cases h0
      · cases h0
        cases h
        rfl

theorem complexityWu_full (nan e : ℝ) (N n : Nat) (hN : 0 < N) : complexityWu nan N e n N = 0 := by
  have hN' : (N : ℝ) ≠ 0 := by exact_mod_cast hN.ne'
  have h1 := Real.exp_pos (-2 * e)
  have hden : (0.3 : ℝ) ^ 2 * Real.exp (-2 * e) + 0 ≠ 0 := by positivity
  unfold complexityWu
  rw [complexityFitness_eq _ _ _ hN]
  simp only [Combine.apply, wu, div_self hN', sub_self, if_neg hden, Option.map_some]
  simp

theorem complexityWu_pos (nan e : ℝ) (N n c : Nat) (hc : c < N) : 0 < complexityWu nan N e n c := by
  have hN : 0 < N := by omega
  have hN' : (0 : ℝ) < N := by exact_mod_cast hN
  have h1 := Real.exp_pos (-2 * e)
  have h2 : 0 < 1 - (c : ℝ) / (N : ℝ) := by
    rw [sub_pos, div_lt_one hN']
    exact_mod_cast hc
  have hden : 0 < (0.3 : ℝ) ^ 2 * Real.exp (-2 * e) + (1 - (c : ℝ) / (N : ℝ)) := by positivity
  unfold complexityWu
  rw [complexityFitness_eq _ _ _ hN]
  simp only [Combine.apply, wu, if_neg hden.ne', Option.map_some]
  positivity

/-- C103 fails for the bee colony with the default fitness `ComplexityWu`: when the pool has reached the largest possible size and all solutions select all rules, their fitness is zero,
and drawing by fitness raises a `ValueError` unless a changed solution is found before. -/
theorem C103_abc_refuted (cfg : SupCfg ℝ) (c : SupComp ℝ d M) (nan : ℝ) (hc : c.fitness = complexityWu nan) (X : List (Point ℝ d)) (y : List ℝ)
    (pool : List (Rule ℝ d M)) (hne : pool ≠ []) (hfull : pool.length = cfg.maxGenomeLength) (hev : TotalEval (runEval cfg c X y pool) pool.length)
    (sig : ℝ → ℝ) (init : InitOp ℝ) (limit : Nat) (pop : List (Indiv ℝ)) (hpop : pop ≠ []) (hall : ∀ σ ∈ pop, σ.genome = List.replicate pool.length true) :
    ∃ z : ABCDraw ℝ, z.Possible pop.length ∧ z.others1.length = pop.length ∧
      ∀ rest, (abc sig init limit (z :: rest) pool.length pop).run (runEval cfg c X y pool) = .error .valueError := by
  have hpos : 0 < pop.length := List.length_pos_iff.mpr hpop
  refine ⟨idleDraw pop.length, ⟨?_, ?_⟩, by simp [idleDraw], fun rest => ?_⟩
  · intro i hi; rw [(List.mem_replicate.mp hi).2]; exact hpos
  · intro i hi; rw [(List.mem_replicate.mp hi).2]; exact hpos
  · refine abc_zero sig init limit hev (List.replicate pool.length true) (by simp) (fun s hs => ?_) pop hpop hall rest
    rw [runEval_fitness cfg c X y pool _ s hs, hc, List.count_replicate_self, hfull]
    exact complexityWu_full nan _ _ _ (by rw [← hfull]; exact List.length_pos_iff.mpr hne)

/-- C103 for the bee colony with the default fitness: it completes as long as the pool is smaller than the largest possible size. -/
theorem C103_abc_default_partial (cfg : SupCfg ℝ) (c : SupComp ℝ d M) (nan : ℝ) (hc : c.fitness = complexityWu nan) (X : List (Point ℝ d)) (y : List ℝ)
    (pool : List (Rule ℝ d M)) (hsmall : pool.length < cfg.maxGenomeLength) (hev : TotalEval (runEval cfg c X y pool) pool.length)
    (sig : ℝ → ℝ) (init : InitOp ℝ) (limit : Nat) (pop : List (Indiv ℝ)) (hl : AllLen pool.length pop) (hpop : pop ≠ []) (draws : List (ABCDraw ℝ))
    (hd : ∀ z ∈ draws, z.Possible pop.length) :
    ∃ s, (abc sig init limit draws pool.length pop).run (runEval cfg c X y pool) = .ok s ∧ s.length = pop.length := by
  refine C103_abc_partial sig init limit pool.length _ (fun g hg => ?_) pop hl hpop draws hd
  obtain ⟨s, hs⟩ := hev g hg
  refine ⟨s, hs, ?_⟩
  rw [runEval_fitness cfg c X y pool g s hs, hc]
  exact complexityWu_pos nan _ _ _ _ (lt_of_le_of_lt (List.count_le_length.trans hg.le) hsmall)

end DefaultFitness

/-! ### Iterations without rules -/

section Empty

variable {K : Type} [Field K] [LinearOrder K] [IsStrictOrderedRing K]

/-- An iteration with an empty pool leaves one solution, whatever the population size. -/
theorem compOptimize_empty (cfg : CompCfg K) (draw : Nat → Nat → K) (strat : Strategy K) (ev : Eval K) (s s' : CompState K)
    (h : compOptimize cfg draw strat ev 0 s = .ok s') : ∃ σ, s'.population = some [σ] ∧ σ.genome = [] := by
  rw [compOptimize_eq] at h
  split at h
  · cases h
  · split at h
    · cases h
    · split at h
      · cases h
      · rename_i pop' hp
        split at h
        · cases h
        · cases h
          unfold popStep at hp
          rw [if_pos rfl] at hp
          unfold Indiv.fit at hp
          split at hp
          · cases hp
          · cases hp
            exact ⟨_, rfl, List.length_eq_zero_iff.mp (InitOp.length_bits _ _ _)⟩

/-- The first iteration with an empty pool succeeds if the evaluation of the empty solution does. -/
theorem compOptimize_first (cfg : CompCfg K) (draw : Nat → Nat → K) (strat : Strategy K) (ev : Eval K) (hev : TotalEval ev 0) (arch : Option (List (Indiv K)))
    (ha : arch = none ∨ arch = some []) :
    ∃ s', compOptimize cfg draw strat ev 0 ⟨none, arch⟩ = .ok s' ∧ ∀ l, s'.archive = some l → l.length ≤ 1 ∧ ∀ σ ∈ l, σ.genome = [] := by
  have hnil : (cfg.init.make (draw cfg.populationSize) 0).genome = [] := List.length_eq_zero_iff.mp (InitOp.length_bits _ _ _)
  obtain ⟨st, hst⟩ := hev [] rfl
  have hfit : (cfg.init.make (draw cfg.populationSize) 0).fit ev = .ok ⟨[], some st⟩ := by
    unfold Indiv.fit
    rw [hnil, hst]
  have hp : popStep cfg draw strat ev 0 ((List.range cfg.populationSize).map fun k => cfg.init.make (draw k) 0) = .ok [⟨[], some st⟩] := by
    unfold popStep
    rw [if_pos rfl, hfit]
    rfl
  have hi : initPopulation cfg draw 0 none = .ok ((List.range cfg.populationSize).map fun k => cfg.init.make (draw k) 0) := rfl
  rw [compOptimize_eq]
  dsimp only
  rw [hi]
  dsimp only
  rcases ha with rfl | rfl
  · have h1 : archivePrepare ev 0 (none : Option (List (Indiv K))) = .ok none := rfl
    rw [h1]
    dsimp only
    rw [hp]
    exact ⟨_, rfl, by intro l hl; cases hl⟩
  · have h1 : archivePrepare ev 0 (some [] : Option (List (Indiv K))) = .ok (some []) := rfl
    rw [h1]
    dsimp only
    rw [hp]
    dsimp only
    have h2 : archiveStore ev [(⟨[], some st⟩ : Indiv K)] (some []) = .ok (some [⟨[], some st⟩]) := by
      have h3 : archiveUpdate ([] : List (Indiv K)) [⟨[], some st⟩] = .ok [⟨[], some st⟩] := by
        obtain ⟨best, hbest⟩ := fittestIndiv_ok [(⟨[], some st⟩ : Indiv K)] (by simp) (by simp)
        have hmem := (fittestIndiv_spec _ _ hbest).1
        rw [List.mem_singleton] at hmem
        subst hmem
        unfold archiveUpdate
        rw [hbest]
        rfl
      have h4 : fitAll ev [(⟨[], some st⟩ : Indiv K)] = .ok [⟨[], some st⟩] := fitAll_of_evaluated ev _ (by
        intro σ hσ
        rw [List.mem_singleton.mp hσ]
        exact ⟨st, rfl, hst⟩)
      unfold archiveStore
      simp only [h3, h4, bind, Except.bind, pure, Except.pure]
    rw [h2]
    refine ⟨_, rfl, ?_⟩
    intro l hl
    cases hl
    simp

/-- With warm start, the next iteration works on that one solution: a metaheuristic that fails on it makes the iteration fail. -/
theorem compOptimize_single (cfg : CompCfg K) (hwarm : cfg.warmStart = true) (draw : Nat → Nat → K) (strat : Strategy K) (ev : Eval K) (n : Nat) (hn : n ≠ 0)
    (hev : TotalEval ev n) (s : CompState K) (σ : Indiv K) (hs : s.population = some [σ]) (hσ : σ.genome = [])
    (harch : ∀ l, s.archive = some l → l.length ≤ 1 ∧ ∀ τ ∈ l, τ.genome = []) (e : PyErr)
    (hfail : ∀ τ : Indiv K, τ.genome.length = n → strat n ev [τ] = .error e) : compOptimize cfg draw strat ev n s = .error e := by
  have hi : initPopulation cfg draw n s.population = .ok [{ σ with genome := σ.genome ++ cfg.init.bits (draw 0) (n - σ.genome.length) }] := by
    rw [hs]
    unfold initPopulation
    dsimp only
    rw [if_pos hwarm]
    have hpad : cfg.init.pad (draw 0) n σ = .ok { σ with genome := σ.genome ++ cfg.init.bits (draw 0) (n - σ.genome.length) } := by
      unfold InitOp.pad
      rw [if_neg (by rw [hσ]; simp)]
    change ([(σ, 0)] : List (Indiv K × Nat)).mapM (fun x => cfg.init.pad (draw x.2) n x.1) = _
    rw [List.mapM_cons, List.mapM_nil, hpad]
    rfl
  have h2 : ∃ arch, archivePrepare ev n s.archive = .ok arch := by
    cases ha : s.archive with
    | none => exact ⟨none, rfl⟩
    | some l =>
      obtain ⟨p, hp⟩ : ∃ p, archivePad n l = .ok p := mapM_total _ _ fun τ hτ => by
        unfold archivePad1
        rw [if_neg (by rw [(harch l ha).2 τ hτ]; simp)]
        exact ⟨_, rfl⟩
      obtain ⟨r, hr⟩ := fitAll_total ev n hev p (archivePad_len _ _ _ hp)
      refine ⟨some r, ?_⟩
      unfold archivePrepare
      simp only [hp, hr, bind, Except.bind, pure, Except.pure]
  obtain ⟨arch, harch'⟩ := h2
  rw [compOptimize_eq, hi]
  dsimp only
  rw [harch']
  dsimp only
  have : popStep cfg draw strat ev n [{ σ with genome := σ.genome ++ cfg.init.bits (draw 0) (n - σ.genome.length) }] = .error e := by
    unfold popStep
    rw [if_neg hn]
    refine hfail _ ?_
    rw [hσ]
    simp only [List.nil_append, List.length_nil, Nat.sub_zero]
    exact InitOp.length_bits cfg.init (draw 0) n
  rw [this]

/-- C103 fails for saga2 with warm start and more than one elitist: after a first iteration without rules, the next iteration with rules raises an `IndexError` in its second generation,
for all random numbers. -/
theorem C103_saga2_refuted (cc : CompCfg ℝ) (hwarm : cc.warmStart = true) (draw0 draw1 : Nat → Nat → ℝ) (strat0 : Strategy ℝ) (ev0 ev : Eval ℝ) (hev0 : TotalEval ev0 0)
    (arch : Option (List (Indiv ℝ))) (ha : arch = none ∨ arch = some []) (sc : Saga2Cfg) (he : sc.populationSize % 2 = 0) (hP : 1 ≤ sc.populationSize) (hE : 2 ≤ sc.nElitists)
    (k : Nat) (hk : 1 ≤ k) (d1 d2 : GADraw ℝ) (draws : List (GADraw ℝ)) (hd : PossibleSel sc.populationSize sc.nElitists k 1 ((d1 :: d2 :: draws).map GADraw.sel))
    (a b : Option ℝ) (n : Nat) (hn : n ≠ 0) (hev : TotalEval ev n) :
    ∃ s1, compOptimize cc draw0 strat0 ev0 0 ⟨none, arch⟩ = .ok s1 ∧
      compOptimize cc draw1 (Prog.strategy fun _ pop => (saga2 sc (d1 :: d2 :: draws) a b pop).bind fun s => .ret s.pop) ev n s1 = .error .indexError := by
  obtain ⟨s1, h1, harch⟩ := compOptimize_first cc draw0 strat0 ev0 hev0 arch ha
  obtain ⟨σ, h2, h3⟩ := compOptimize_empty cc draw0 strat0 ev0 _ s1 h1
  refine ⟨s1, h1, compOptimize_single cc hwarm draw1 _ ev n hn hev s1 σ h2 h3 harch .indexError fun τ hτ => ?_⟩
  unfold Prog.strategy
  rw [Prog.run_bind, saga2_fails sc he hP k hk hev [τ] (by intro x hx; rw [List.mem_singleton.mp hx]; exact hτ) (by simp) (by rw [List.length_singleton]; omega) d1 d2 draws hd]

/-- C103 for saga2: it completes if the population has at least as many solutions as elitists are kept. -/
theorem C103_saga2_partial (sc : Saga2Cfg) (he : sc.populationSize % 2 = 0) (hP : 1 ≤ sc.populationSize) (k : Nat) (hk : 1 ≤ k) (ev : Eval ℝ) (n : Nat) (hev : TotalEval ev n)
    (pop : List (Indiv ℝ)) (hl : AllLen n pop) (hne : pop ≠ []) (hsize : sc.nElitists ≤ pop.length) (draws : List (GADraw ℝ))
    (hd : PossibleSel sc.populationSize sc.nElitists k pop.length (draws.map GADraw.sel)) (a b : Option ℝ) :
    ∃ s, (saga2 sc draws a b pop).run ev = .ok s ∧ s.pop ≠ [] := saga2_runs sc he hP k hk hev pop hl hne hsize draws hd a b

/-- C103 fails for the three self-adaptive algorithms with an odd population size, for all random numbers, parameters and solutions. -/
theorem C103_odd_refuted (ev : Eval ℝ) (pop : List (Indiv ℝ)) (objs : Objs ℝ) (c1 : Saga1Cfg ℝ) (h1 : c1.populationSize % 2 = 1) (c2 : Saga2Cfg)
    (h2 : c2.populationSize % 2 = 1) (c3 : Saga3Cfg ℝ) (h3 : c3.populationSize % 2 = 1) (draws : List (GADraw ℝ)) (draws3 : List (Saga3GenDraw ℝ)) (rates : Rates ℝ) (a b : Option ℝ) :
    (saga1 c1 draws rates pop).run ev = .error .assertionError ∧ (saga2 c2 draws a b pop).run ev = .error .assertionError ∧
      (saga3 c3 draws3 objs).run ev = .error .assertionError := by
  refine ⟨?_, ?_, ?_⟩
  · unfold saga1; rw [if_neg (by omega)]; rfl
  · unfold saga2; rw [if_neg (by omega)]; rfl
  · unfold saga3; rw [if_neg (by omega)]; rfl

/-- C103 fails for the genetic algorithm with ageing and warm start: after a first iteration without rules, the next iteration with rules and at least three generations raises an
`IndexError`, because its only solution (of the initial age 3) dies in the second selection. -/
theorem C103_sas_refuted (cc : CompCfg K) (hwarm : cc.warmStart = true) (draw0 draw1 : Nat → Nat → K) (strat0 : Strategy K) (ev0 ev : Eval K) (hev0 : TotalEval ev0 0)
    (arch : Option (List (Indiv K))) (ha : arch = none ∨ arch = some []) (sc : SasCfg K) (hsize : 1 ≤ sc.initialSize) (d1 d2 d3 : SasDraw K) (draws : List (SasDraw K))
    (n : Nat) (hn : n ≠ 0) (hev : TotalEval ev n) :
    ∃ s1, compOptimize cc draw0 strat0 ev0 0 ⟨none, arch⟩ = .ok s1 ∧
      compOptimize cc draw1 (Prog.strategy fun _ pop => (sas sc (d1 :: d2 :: d3 :: draws) (pop.map fun σ => ⟨σ, 3⟩)).bind fun s => .ret (s.pop.map Aged.indiv)) ev n s1 =
        .error .indexError := by
  obtain ⟨s1, h1, harch⟩ := compOptimize_first cc draw0 strat0 ev0 hev0 arch ha
  obtain ⟨σ, h2, h3⟩ := compOptimize_empty cc draw0 strat0 ev0 _ s1 h1
  refine ⟨s1, h1, compOptimize_single cc hwarm draw1 _ ev n hn hev s1 σ h2 h3 harch .indexError fun τ hτ => ?_⟩
  obtain ⟨st, hst⟩ := hev τ.genome hτ
  have hfit : ∀ (a : Int), Aged.evaluate (⟨{ τ with st := some st }, a⟩ : Aged K) = .eval τ.genome fun s => .ret ⟨{ τ with st := some s }, a⟩ := fun _ => rfl
  have hev1 : ∀ (σ : Indiv K) (a : Int), σ.genome = τ.genome → (Aged.evaluate (⟨σ, a⟩ : Aged K)).run ev = .ok ⟨{ τ with st := some st }, a⟩ := by
    intro σ a hσ
    unfold Aged.evaluate
    rw [Prog.run_bind]
    unfold Indiv.evaluate Prog.run
    rw [hσ, hst]
    dsimp only [Prog.run]
  have heach1 : ∀ (σ : Indiv K) (a : Int), σ.genome = τ.genome → (Prog.each Aged.evaluate [(⟨σ, a⟩ : Aged K)]).run ev = .ok [⟨{ τ with st := some st }, a⟩] := by
    intro σ a hσ
    unfold Prog.each
    rw [Prog.run_bind, hev1 σ a hσ]
    rfl
  have hmed : npMedian [st.fitness] = st.fitness := by simp [npMedian, sortedAsc]
  have hage : ∀ a : Int, ageing sc.initialSize [(⟨{ τ with st := some st }, a⟩ : Aged K)] =
      .ok (if 0 < a - 2 then [⟨{ τ with st := some st }, a - 2⟩] else []) := by
    intro a
    have hcut : ¬ (sc.initialSize * 5 ≤ 1 ∧ st.fitness < st.fitness) := fun h => by omega
    have htake : ((sortedDesc (fun o : Aged K => o.indiv.fitnessD) [(⟨{ τ with st := some st }, a⟩ : Aged K)]).take (sc.initialSize * 5)).getLast? =
        some ⟨{ τ with st := some st }, a⟩ := by
      obtain ⟨m, hm⟩ : ∃ m, sc.initialSize * 5 = m + 1 := ⟨sc.initialSize * 5 - 1, by omega⟩
      rw [hm, List.perm_singleton.mp (sortedDesc_perm (fun o : Aged K => o.indiv.fitnessD) [(⟨{ τ with st := some st }, a⟩ : Aged K)])]
      simp
    unfold ageing
    rw [if_pos (by rfl)]
    dsimp only
    rw [htake]
    dsimp only
    have hna : newAge 1 (sc.initialSize * 5) st.fitness st.fitness st.fitness a = a - 2 := by
      unfold newAge
      dsimp only
      rw [if_neg hcut, if_neg (lt_irrefl _)]
      omega
    change Except.ok (([(⟨{ τ with st := some st }, newAge 1 (sc.initialSize * 5) (npMedian [st.fitness]) st.fitness st.fitness a⟩ : Aged K)]).filter fun o => decide (0 < o.age)) = _
    rw [hmed, hna, List.filter_cons]
    dsimp only [List.filter_nil]
    by_cases h : 0 < a - 2
    · rw [if_pos h, if_pos (decide_eq_true h)]
    · rw [if_neg h, if_neg (by simpa using h)]
  have hchild : ∀ (z : SasDraw K) (l : List (Indiv K)), pairs l = [] →
      sagaChildren (fun k b A B => crossoverA sc.crossRate (z.cross k b).1 (z.cross k b).2 A B) 0 (pairs l) = .ok [] := by
    intro z l hl
    rw [hl]
    rfl
  have step1 : ∀ sizes, (sasStep sc ⟨[⟨{ τ with st := some st }, 3⟩], sizes⟩ d1).run ev = .ok ⟨[⟨{ τ with st := some st }, 1⟩], sizes ++ [1]⟩ := by
    intro sizes
    unfold sasStep
    rw [Prog.run_bind_ok (a := [⟨{ τ with st := some st }, 1⟩]) (by rw [Prog.run_lift]; exact hage 3)]
    rw [Prog.run_bind_ok (a := []) (by rw [Prog.run_lift]; exact hchild d1 _ rfl)]
    rw [Prog.run_bind_ok (a := [⟨{ τ with st := some st }, 1⟩]) (heach1 _ 1 rfl)]
    rfl
  have step2 : ∀ sizes, (sasStep sc ⟨[⟨{ τ with st := some st }, 1⟩], sizes⟩ d2).run ev = .ok ⟨[], sizes ++ [1]⟩ := by
    intro sizes
    unfold sasStep
    rw [Prog.run_bind_ok (a := []) (by rw [Prog.run_lift]; exact hage 1)]
    rw [Prog.run_bind_ok (a := []) (by rw [Prog.run_lift]; exact hchild d2 _ rfl)]
    rfl
  have step3 : ∀ sizes, (sasStep sc ⟨[], sizes⟩ d3).run ev = .error .indexError := by
    intro sizes
    have : ageing sc.initialSize ([] : List (Aged K)) = .error .indexError := by
      unfold ageing
      rw [if_pos (by rfl)]
      dsimp only
      have h0 : sortedDesc (fun o : Aged K => o.indiv.fitnessD) [] = [] := rfl
      rw [h0, List.take_nil]
      rfl
    unfold sasStep
    dsimp only
    rw [this]
    rfl
  unfold Prog.strategy sas
  rw [Prog.run_bind]
  dsimp only [List.map]
  rw [Prog.run_bind_ok (heach1 τ 3 rfl), Prog.run_forEach_cons (step1 []), Prog.run_forEach_cons (step2 _)]
  have hrest : ∀ sizes, (Prog.forEach (sasStep sc) (d3 :: draws) ⟨[], sizes⟩).run ev = .error .indexError := by
    intro sizes
    change ((sasStep sc ⟨[], sizes⟩ d3).bind _).run ev = _
    rw [Prog.run_bind, step3]
  rw [hrest]

/-! ### C105 the size of the population -/

/-- One call of the composition: pool size, evaluation, random numbers, metaheuristic. -/
structure CompCall (K : Type) where
  n : Nat
  ev : Eval K
  draw : Nat → Nat → K
  strat : Strategy K

/-- Successive calls, as made by the iterations of `fit`. -/
def compCalls (cfg : CompCfg K) (calls : List (CompCall K)) (s : CompState K) : Except PyErr (CompState K) :=
  calls.foldlM (fun s c => compOptimize cfg c.draw c.strat c.ev c.n s) s

/-- A metaheuristic that returns as many solutions as it got. -/
def Strategy.KeepsSize (strat : Strategy K) : Prop := ∀ n ev pop pop', strat n ev pop = .ok pop' → pop'.length = pop.length

theorem each_length {α β : Type} (ev : Eval K) (f : α → Prog K β) (l : List α) : (Prog.each f l).Sat ev (fun _ => True) fun bs => bs.length = l.length :=
  Prog.Sat.mono (fun _ h => h.length_eq.symm) _ (Prog.Sat.each (fun _ => True) (fun _ _ => True) f l (fun _ _ => trivial) fun a _ => Prog.Sat.trivial ev (f a))

theorem keepsSize_of_sat (p : Nat → List (Indiv K) → Prog K (List (Indiv K))) (h : ∀ n ev pop, (p n pop).Sat ev (fun _ => True) fun pop' => pop'.length = pop.length) :
    (Prog.strategy p).KeepsSize := fun n ev pop pop' hr => (h n ev pop).run pop' hr

/-- The grey wolf optimizer keeps the size of the population. -/
theorem gwo_keepsSize (upd : WolfUpdate) (sig : K → K) (nLeaders : Nat) (draws : List (Nat → WolfDraw K)) :
    (Prog.strategy fun _ pop => gwo upd sig nLeaders draws pop).KeepsSize := by
  refine keepsSize_of_sat _ fun n ev pop => ?_
  unfold gwo
  refine Prog.Sat.bind' (each_length ev _ _) fun pop' hpop => ?_
  refine Prog.Sat.bind' (P := fun _ => True) (Prog.Sat.lift fun _ _ => trivial) fun step _ => ?_
  refine Prog.Sat.forEach (fun _ (s : List (Indiv K)) => s.length = pop.length) _ _ _ hpop fun d _ s hs => ?_
  unfold gwoStep
  refine Prog.Sat.bind' (P := fun l => l.length = s.length) (Prog.Sat.lift fun l hl => by rw [mapM_length _ _ _ hl, List.length_zipIdx]) fun l hl => ?_
  exact Prog.Sat.mono (fun _ h => h.trans (hl.trans hs)) _ (each_length ev _ _)

theorem move_length (m : Movement K) (sig : K → K) (a : K) (d : PSODraw K) (ps ps' : List (Particle K)) (h : m.move sig a d ps = .ok ps') : ps'.length = ps.length := by
  unfold Movement.move at h
  cases m with
  | sigmoid b c v =>
    dsimp only at h
    split at h
    · cases h
    · cases h; exact List.length_mapIdx
  | quantum =>
    dsimp only at h
    split at h
    · cases h
    · cases h; exact List.length_mapIdx
  | binary q =>
    dsimp only at h
    split at h
    · cases h
    · split at h
      · cases h
      · rename_i atts hatts
        cases h
        rw [List.length_mapIdx, List.length_zip, mapM_length _ _ _ hatts, List.length_zipIdx, min_self]

/-- The particle swarm keeps the size of the population. -/
theorem pso_keepsSize (m : Movement K) (sig : K → K) (aMin aMax : K) (init : Nat → (Nat → K) × (Nat → K)) (draws : Nat → Nat → List (PSODraw K)) :
    (Prog.strategy fun n pop => (pso m sig aMin aMax init (draws n pop.length) pop).bind fun s => .ret (s.particles.map Particle.sol)).KeepsSize := by
  refine keepsSize_of_sat _ fun n ev pop => ?_
  refine Prog.Sat.bind (P := fun s : PSOState K => s.particles.length = pop.length) ?_ fun s hs => by
    change (s.particles.map Particle.sol).length = _
    rw [List.length_map, hs]
  unfold pso
  refine Prog.Sat.bind' (each_length ev _ _) fun pop' hpop => ?_
  refine Prog.Sat.bind' (P := fun _ => True) (Prog.Sat.lift fun _ _ => trivial) fun step _ => ?_
  refine Prog.Sat.bind' (P := fun ps => ps.length = pop.length) (Prog.Sat.lift fun ps hps => by
    rw [mapM_length _ _ _ hps, List.length_zipIdx, hpop]) fun ps hps => ?_
  refine Prog.Sat.forEach (fun _ (s : PSOState K) => s.particles.length = pop.length) _ _ _ hps fun d _ s hs => ?_
  unfold psoStep
  refine Prog.Sat.bind' (P := fun l => l.length = s.particles.length) (Prog.Sat.lift fun l hl => move_length _ _ _ _ _ _ hl) fun l hl => ?_
  refine Prog.Sat.bind' (each_length ev _ _) fun l' hl' => ?_
  refine Prog.Sat.bind' (P := fun r => r.length = l'.length) (Prog.Sat.lift fun r hr => mapM_length _ _ _ hr) fun r hr => ?_
  exact hr.trans (hl'.trans (hl.trans hs))

/-- The bee colony keeps the size of the population. -/
theorem abc_keepsSize (sig : K → K) (init : InitOp K) (limit : Nat) (draws : List (ABCDraw K)) :
    (Prog.strategy fun n pop => (abc sig init limit draws n pop).bind fun s => .ret (s.map Food.sol)).KeepsSize := by
  refine keepsSize_of_sat _ fun n ev pop => ?_
  refine Prog.Sat.bind (P := fun s : List (Food K) => s.length = pop.length) ?_ fun s hs => by
    change (s.map Food.sol).length = _
    rw [List.length_map, hs]
  unfold abc
  refine Prog.Sat.bind' (each_length ev _ _) fun pop' hpop => ?_
  refine Prog.Sat.forEach (fun _ (s : List (Food K)) => s.length = pop.length) _ _ _ (by rw [List.length_map, hpop]) fun d _ s hs => ?_
  unfold abcStep
  split
  · trivial
  · refine Prog.Sat.bind' (Prog.Sat.trivial ev _) fun new1 _ => ?_
    refine Prog.Sat.bind' (P := fun _ => True) (Prog.Sat.lift fun _ _ => trivial) fun _ _ => ?_
    refine Prog.Sat.bind' (Prog.Sat.trivial ev _) fun new2 _ => ?_
    refine Prog.Sat.mono (fun l h => ?_) _ (each_length ev _ _)
    rw [h, List.length_zipIdx, length_greedyUpdate, length_greedyUpdate, hs]

/-- The ant colony keeps the size of the population. -/
theorem aco_keepsSize (ac : AcoCfg K) (warm : Bool) (old : Nat → Option (Pheromones K)) (pool : Nat → AntPool K) (draws : List (Nat → AntDraw K)) :
    (Prog.strategy fun n pop => (aco ac warm (old n) (pool n) draws pop).bind fun s => .ret s.pop).KeepsSize := by
  refine keepsSize_of_sat _ fun n ev pop => ?_
  refine Prog.Sat.bind (P := fun s : AcoState K => s.pop.length = pop.length) ?_ fun s hs => hs
  unfold aco
  refine Prog.Sat.bind' (P := fun _ => True) (Prog.Sat.lift fun _ _ => True.intro) fun p _ => ?_
  refine Prog.Sat.bind' (each_length ev _ _) fun pop' hpop => ?_
  refine Prog.Sat.forEach (fun _ (s : AcoState K) => s.pop.length = pop.length) _ draws ⟨pop', p, []⟩ hpop fun d _ s hs => ?_
  unfold acoStep
  refine Prog.Sat.bind' (P := fun l => l.length = s.pop.length) (Prog.Sat.lift fun l hl => by rw [mapM_length _ _ _ hl, List.length_zipIdx]) fun l hl => ?_
  refine Prog.Sat.bind' (each_length ev _ _) fun l' hl' => ?_
  exact hl'.trans (hl.trans hs)

/-- The population a call starts from: the old one with warm start, a new one otherwise. -/
theorem compOptimize_size (cfg : CompCfg K) (draw : Nat → Nat → K) (strat : Strategy K) (hk : strat.KeepsSize) (ev : Eval K) (n : Nat) (hn : n ≠ 0) (s s' : CompState K)
    (h : compOptimize cfg draw strat ev n s = .ok s') :
    ∃ p, s'.population = some p ∧ ((∃ old, s.population = some old ∧ old ≠ [] ∧ cfg.warmStart = true ∧ p.length = old.length) ∨ p.length = cfg.populationSize) := by
  rw [compOptimize_eq] at h
  split at h
  · cases h
  · rename_i pop hi
    split at h
    · cases h
    · split at h
      · cases h
      · rename_i pop' hp
        split at h
        · cases h
        · cases h
          unfold popStep at hp
          rw [if_neg hn] at hp
          have hlen := hk _ _ _ _ hp
          refine ⟨pop', rfl, ?_⟩
          unfold initPopulation at hi
          split at hi
          · rename_i σ rest hpop
            split at hi
            · rename_i hw
              refine Or.inl ⟨_, hpop, by simp, hw, ?_⟩
              rw [hlen, mapM_length _ _ _ hi, List.length_zipIdx]
            · cases hi
              exact Or.inr (by rw [hlen]; simp)
          · cases hi
            exact Or.inr (by rw [hlen]; simp)

/-- C105: as long as no call sees an empty pool, the population has `population_size` solutions after every call. -/
theorem C105_size_partial (cfg : CompCfg K) (calls : List (CompCall K)) (hcalls : ∀ c ∈ calls, c.n ≠ 0 ∧ c.strat.KeepsSize) (hne : calls ≠ []) (s s' : CompState K)
    (hs : s.population = none ∨ ∃ p, s.population = some p ∧ p.length = cfg.populationSize) (h : compCalls cfg calls s = .ok s') :
    ∃ p, s'.population = some p ∧ p.length = cfg.populationSize := by
  have key : ∀ (calls : List (CompCall K)) (s : CompState K), (∀ c ∈ calls, c.n ≠ 0 ∧ c.strat.KeepsSize) →
      (s.population = none ∨ ∃ p, s.population = some p ∧ p.length = cfg.populationSize) → ∀ s', compCalls cfg calls s = .ok s' →
      (calls = [] ∧ s' = s) ∨ ∃ p, s'.population = some p ∧ p.length = cfg.populationSize := by
    intro calls
    induction calls with
    | nil => intro s _ _ s' h; cases h; exact Or.inl ⟨rfl, rfl⟩
    | cons c rest ih =>
      intro s hc hs s' h
      unfold compCalls at h
      rw [List.foldlM_cons] at h
      cases h1 : compOptimize cfg c.draw c.strat c.ev c.n s with
      | error e => rw [h1] at h; cases h
      | ok s1 =>
        rw [h1] at h
        obtain ⟨h2, h3⟩ := hc c (List.mem_cons_self ..)
        obtain ⟨p, hp, hl⟩ := compOptimize_size cfg c.draw c.strat h3 c.ev c.n h2 s s1 h1
        have hl' : p.length = cfg.populationSize := by
          rcases hl with ⟨old, ho, _, _, hl⟩ | hl
          · rcases hs with hs | ⟨q, hq, hql⟩
            · rw [hs] at ho; cases ho
            · rw [hq] at ho; cases ho; rw [hl, hql]
          · exact hl
        rcases ih s1 (fun c hc' => hc c (List.mem_cons_of_mem _ hc')) (Or.inr ⟨p, hp, hl'⟩) s' h with ⟨_, rfl⟩ | h4
        · exact Or.inr ⟨p, hp, hl'⟩
        · exact Or.inr h4
  rcases key calls s hcalls hs s' h with ⟨h1, _⟩ | h1
  · exact absurd h1 hne
  · exact h1

/-- C105 fails with warm start: after an iteration without rules there is a single solution, and a metaheuristic that keeps the size of its population (particle swarm, grey wolves, bee
and ant colony) works with that one solution for the rest of the run, whatever `population_size` is. -/
theorem C105_collapse_refuted (cfg : CompCfg K) (hwarm : cfg.warmStart = true) (first : CompCall K) (hfirst : first.n = 0) (calls : List (CompCall K))
    (hcalls : ∀ c ∈ calls, c.strat.KeepsSize) (s s' : CompState K) (h : compCalls cfg (first :: calls) s = .ok s') : ∃ σ, s'.population = some [σ] := by
  have key : ∀ (calls : List (CompCall K)) (s : CompState K), (∀ c ∈ calls, c.strat.KeepsSize) → (∃ σ, s.population = some [σ]) →
      ∀ s', compCalls cfg calls s = .ok s' → ∃ σ, s'.population = some [σ] := by
    intro calls
    induction calls with
    | nil => intro s _ hs s' h; cases h; exact hs
    | cons c rest ih =>
      intro s hc hs s' h
      unfold compCalls at h
      rw [List.foldlM_cons] at h
      cases h1 : compOptimize cfg c.draw c.strat c.ev c.n s with
      | error e => rw [h1] at h; cases h
      | ok s1 =>
        rw [h1] at h
        refine ih s1 (fun c hc' => hc c (List.mem_cons_of_mem _ hc')) ?_ s' h
        by_cases hn : c.n = 0
        · rw [hn] at h1
          obtain ⟨σ, h2, _⟩ := compOptimize_empty cfg c.draw c.strat c.ev s s1 h1
          exact ⟨σ, h2⟩
        · -- a call with rules: the new population has as many solutions as the old one
          obtain ⟨σ, hσ⟩ := hs
          have h2 : compOptimize cfg c.draw c.strat c.ev c.n s = .ok s1 := h1
          rw [compOptimize_eq, hσ] at h2
          split at h2
          · cases h2
          · rename_i pop hi
            split at h2
            · cases h2
            · split at h2
              · cases h2
              · rename_i pop' hp
                split at h2
                · cases h2
                · cases h2
                  unfold popStep at hp
                  rw [if_neg hn] at hp
                  have hlen := hc c (List.mem_cons_self ..) _ _ _ _ hp
                  unfold initPopulation at hi
                  dsimp only at hi
                  rw [if_pos hwarm] at hi
                  rw [mapM_length _ _ _ hi, List.length_zipIdx] at hlen
                  exact List.length_eq_one_iff.mp hlen |>.imp fun a ha => by rw [ha]
  unfold compCalls at h
  rw [List.foldlM_cons] at h
  cases h1 : compOptimize cfg first.draw first.strat first.ev first.n s with
  | error e => rw [h1] at h; cases h
  | ok s1 =>
    rw [h1] at h
    rw [hfirst] at h1
    obtain ⟨σ, h2, _⟩ := compOptimize_empty cfg first.draw first.strat first.ev s s1 h1
    exact key calls s1 hcalls ⟨σ, h2⟩ s' h

end Empty

/-! ### Examples -/

section Examples

theorem smallDiscovery : DiscoverySettings smallCfg smallES := ⟨by decide, by decide, by decide, by decide, .inl rfl, by decide +kernel⟩

theorem smallDraws : (firstDraws 2 1 (1 / 2) : RunDraws ℚ 1 ℚ).DiscoveryPossible smallES (1, 1) :=
  have h := firstDraws_possible (M := ℚ) (d := 1) smallES rfl smallGA rfl 2 1 (1 / 2) (by norm_num) (1, 1)
  ⟨h.origins, h.children⟩

/-- The default values of the other parameters are admissible. -/
example : DiscoverySettings (K := ℝ) SupCfg.default ESCfg.default :=
  ⟨by simp [SupCfg.default], by simp [SupCfg.default], by simp [SupCfg.default], fun _ => by simp [ESCfg.default], .inl rfl, by simp [ESCfg.default]⟩

/-- The components of the example runs with the given metaheuristic. -/
def smallComp (strat : Strategy ℚ) : SupComp ℚ 1 ℚ := compWith smallES (firstDraws 2 1 (1 / 2)) meanLearner negErr (fun _ _ _ c => c) fun _ _ => strat

/-- Draws of one iteration of the swarm: all particles have the same neighbours. -/
def demoSwarm : PSODraw ℚ := ⟨fun _ => true, fun _ => ⟨fun _ => 1, fun _ => 1 / 2, fun _ => 0, fun _ => 1, true, [0, 1, 0], 0, [0, 1, 1]⟩⟩

/-- Draws of one generation of saga1 and saga3 with a population of two. -/
def demoGen : GADraw ℚ := ⟨.tournament [[0, 0], [0, 0]], fun _ _ => (0, .nPoint [1]), fun _ _ => 0⟩
def demoGen3 : Saga3GenDraw ℚ := ⟨.tournament [[0, 0], [0, 0]], fun _ _ => ⟨true, false, true, 0, 1 / 2, 1 / 4, false, 1, [0], fun _ => 0⟩, fun _ _ => 1 / 2⟩

theorem demoSel_possible (e size : Nat) (h : size ≠ 0) : PossibleSel 2 e 2 size [.tournament [[0, 0], [0, 0]], .tournament [[0, 0], [0, 0]]] :=
  ⟨⟨_, rfl⟩, ⟨rfl, by intro js hjs; simp at hjs; subst hjs; exact ⟨rfl, by intro j hj; simp at hj; omega⟩⟩, ⟨_, rfl⟩,
    ⟨rfl, by intro js hjs; simp at hjs; subst hjs; exact ⟨rfl, by intro j hj; simp at hj; omega⟩⟩, trivial⟩

/-- The hypotheses of the C103 theorems about training hold for small runs. -/
example : TrainsOk smallCfg (smallComp (Prog.strategy fun n pop => rs (.random (1 / 2)) 2 2 (fun _ _ _ => 0) n pop)) 1 :=
  C103_rs_partial smallCfg smallES smallDiscovery (1, 1) _ smallDraws meanLearner negErr _ _ 2 2 (by decide) (by decide) fun _ _ _ _ _ => 0

example : TrainsOk smallCfg (smallComp (Prog.strategy fun _ pop => gwo .crossover (fun x => x) 3 [demoWolf 1, demoWolf 0] pop)) 1 :=
  C103_gwo_partial smallCfg smallES smallDiscovery (1, 1) _ smallDraws meanLearner negErr _ _ _ 3 (by decide) (fun _ _ => [demoWolf 1, demoWolf 0]) fun _ _ => by simp

example : TrainsOk smallCfg (smallComp (Prog.strategy fun _ pop => (pso (.binary 3) (fun x => x) 0 1 (fun _ => (fun _ => 0, fun _ => 0)) [demoSwarm, demoSwarm] pop).bind
    fun s => .ret (s.particles.map Particle.sol))) 1 := by
  refine C103_pso_partial smallCfg smallES smallDiscovery (1, 1) _ smallDraws meanLearner negErr _ _ _ _ _ (fun _ _ => fun _ => (fun _ => 0, fun _ => 0))
    (fun _ _ _ _ => [demoSwarm, demoSwarm]) (fun _ _ _ _ => by simp) fun _ _ n size h dr hdr q _ k => ?_
  have : dr = demoSwarm := by simpa using hdr
  subst this
  exact ⟨⟨0, by simp [demoSwarm], by omega⟩, ⟨0, by simp [demoSwarm], by omega⟩⟩

example : TrainsOk smallCfg (smallComp (Prog.strategy fun _ pop => (saga1 demoSaga1 [demoGen, demoGen] ⟨1 / 40, 3 / 4⟩ pop).bind fun s => .ret s.pop)) 1 :=
  C103_saga1_partial smallCfg smallES smallDiscovery (1, 1) _ smallDraws meanLearner negErr _ demoSaga1 (by decide) (by decide) (by decide +kernel) (by decide +kernel) 2 (by decide)
    (fun _ _ _ _ => [demoGen, demoGen]) (fun _ _ _ size h => demoSel_possible _ size h) fun _ _ => ⟨1 / 40, 3 / 4⟩

example : TrainsOk smallCfg (smallComp (Prog.strategy fun _ pop => (saga3 ⟨2, 1, 1 / 20⟩ [demoGen3, demoGen3] (pop.mapIdx fun _ σ => ⟨σ, 1, 0, .uniform⟩)).bind
    fun s => .ret (s.pop.map SagaObj.indiv))) 1 :=
  C103_saga3_partial smallCfg smallES smallDiscovery (1, 1) _ smallDraws meanLearner negErr _ ⟨2, 1, 1 / 20⟩ (by decide) (by decide) 2 (by decide)
    (fun _ _ _ _ => [demoGen3, demoGen3]) (fun _ _ _ size h => demoSel_possible _ size h) fun _ _ _ => (1, 0, .uniform)

example : TrainsOk smallCfg (smallComp (Prog.strategy fun n pop => (aco demoAco true (some (.binary [])) ⟨List.replicate n 1, fun _ _ => some (1, 1)⟩
    [fun _ => ⟨[], fun _ => 1 / 2⟩] pop).bind fun s => .ret s.pop)) 1 :=
  C103_aco_partial smallCfg smallES smallDiscovery (1, 1) _ smallDraws meanLearner negErr _ demoAco true (fun _ _ n => ⟨List.replicate n 1, fun _ _ => some (1, 1)⟩) (by simp)
    (fun _ _ _ => some (.binary [])) (fun _ _ n q h => ⟨0, by omega, by cases h; rfl⟩) fun _ _ => [fun _ => ⟨[], fun _ => 1 / 2⟩]

/-- Fitness is positive for two rules, and bees find partners. -/
example : PositiveEval plusEval 2 ∧ ∀ z ∈ [demoABC [0], demoABC [1]], z.Possible 2 :=
  ⟨fun g _ => ⟨_, rfl, by change (0 : ℚ) < 1 + g.count true; positivity⟩, by
    intro z hz
    simp only [List.mem_cons, List.not_mem_nil, or_false] at hz
    rcases hz with rfl | rfl <;> exact ⟨by simp [demoABC], by simp [demoABC]⟩⟩

/-- A run of the bee colony over a whole fit: with fitness values that vanish when all rules of a full pool are selected (as those of `ComplexityWu`), training stops with an
error in the last iteration (it is caught by `fit` and reported, C51); with the same random numbers and positive values it completes. -/
def beeComp (sf : Nat → SolFitness ℚ) : SupComp ℚ 1 ℚ :=
  compWith smallES (firstDraws 2 1 (1 / 2)) meanLearner negErr sf fun _ _ =>
    Prog.strategy fun n pop => (abc (fun x => x) (.random (1 / 2)) 5 [idleDraw pop.length] n pop).bind fun s => .ret (s.map Food.sol)

example : (SupState.fit smallCfg (beeComp fun N _ _ c => (N : ℚ) - c) 7 ⟨[![0], ![1], ![5]], [1, 3, 7], true⟩ false {}).state.isError = true ∧
    (SupState.fit smallCfg (beeComp fun N _ _ c => (N : ℚ) - c) 7 ⟨[![0], ![1], ![5]], [1, 3, 7], true⟩ false {}).state.pool.length = 2 ∧
    (SupState.fit smallCfg (beeComp fun N _ _ c => (N : ℚ) + 1 - c) 7 ⟨[![0], ![1], ![5]], [1, 3, 7], true⟩ false {}).state.isError = false := by decide +kernel

/-- An iteration without rules, then one with two rules: the hypotheses of the refutations hold for `plusEval`, and the size of the population is 1 instead of 4 from then on. -/
example : TotalEval plusEval 0 ∧ TotalEval plusEval 2 := ⟨fun _ _ => ⟨_, rfl⟩, fun _ _ => ⟨_, rfl⟩⟩

def sizeCall (n : Nat) : CompCall ℚ := ⟨n, plusEval, fun _ _ => 0, Prog.strategy fun _ pop => gwo .crossover (fun x => x) 1 [demoWolf 1, demoWolf 0] pop⟩

example : ((compCalls ⟨4, true, .random (1 / 2)⟩ [sizeCall 0, sizeCall 2, sizeCall 3] ⟨none, some []⟩).toOption.bind CompState.population).map (List.map Indiv.genome) =
      some [[true, true, true]] ∧
    ((compCalls ⟨4, true, .random (1 / 2)⟩ [sizeCall 1, sizeCall 2, sizeCall 3] ⟨none, some []⟩).toOption.bind CompState.population).map List.length = some 4 ∧
    ((compCalls ⟨4, false, .random (1 / 2)⟩ [sizeCall 0, sizeCall 2, sizeCall 3] ⟨none, some []⟩).toOption.bind CompState.population).map List.length = some 4 := by
  decide +kernel

/-- The genetic algorithm with ageing dies out on that solution. -/
example : (compCalls ⟨4, true, .random (1 / 2)⟩ [sizeCall 0, ⟨2, plusEval, fun _ _ => 0, Prog.strategy fun _ pop =>
      (sas (sasCfg 4) [sasDraw [], sasDraw [], sasDraw []] (pop.map fun σ => ⟨σ, 3⟩)).bind fun s => .ret (s.pop.map Aged.indiv)⟩] ⟨none, some []⟩).toOption.isNone = true := by
  decide +kernel

/-- Two elitists, but one solution (`C103_saga2_refuted`); two elitists and two solutions (`C103_saga2_partial`). -/
example : PossibleSel 2 2 2 1 (([⟨.tournament [[0, 0], [0, 0]], fun _ _ => (0, .nPoint [1]), fun _ _ => 0⟩, ⟨.tournament [[0, 0], [0, 0]], fun _ _ => (0, .nPoint [1]), fun _ _ => 0⟩] :
    List (GADraw ℝ)).map GADraw.sel) ∧ TotalEval demoEval2 2 := ⟨demoSel_possible 2 1 (by decide), fun _ _ => ⟨_, rfl⟩⟩

end Examples

end Suprb
