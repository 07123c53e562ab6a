import Verif.Model.Work
import Verif.Props.Sas
import Verif.Props.GA
import Verif.Props.Strategies
import Verif.Props.Objects

/-!
# Claim C130: the work of a composition is determined by its settings
-/

set_option autoImplicit false
set_option linter.unusedSectionVars false

namespace Suprb

variable {K : Type} [Field K] [LinearOrder K]

namespace Prog

variable {α β : Type}

/-- At most `hi` evaluations; if there is a result, it satisfies `P` and there were at least `lo`. -/
def Cost (ev : Eval K) (P : α → Prop) : Nat → Nat → Prog K α → Prop
  | lo, _, ret a => lo = 0 ∧ P a
  | _, _, err _ => True
  | lo, hi, eval g k => 1 ≤ hi ∧ ∀ s, ev g = .ok s → Cost ev P (lo - 1) (hi - 1) (k s)

theorem Cost.evals_le {ev : Eval K} {P : α → Prop} {p : Prog K α} : ∀ {lo hi : Nat}, Cost ev P lo hi p → p.evals ev ≤ hi := by
  induction p with
  | ret a => intro lo hi _; exact Nat.zero_le _
  | err e => intro lo hi _; exact Nat.zero_le _
  | eval g k ih =>
    intro lo hi h
    unfold evals
    split
    · exact h.1
    · rename_i s hs
      have := ih s (h.2 s hs)
      have := h.1
      omega

theorem Cost.of_run {ev : Eval K} {P : α → Prop} {p : Prog K α} : ∀ {lo hi : Nat}, Cost ev P lo hi p → ∀ a, p.run ev = .ok a → P a ∧ lo ≤ p.evals ev := by
  induction p with
  | ret a =>
    intro lo hi h b hb
    cases hb
    exact ⟨h.2, by rw [h.1]; exact Nat.zero_le _⟩
  | err e => intro lo hi _ b hb; cases hb
  | eval g k ih =>
    intro lo hi h b hb
    unfold Prog.run at hb
    unfold evals
    cases hg : ev g with
    | error e => rw [hg] at hb; cases hb
    | ok s =>
      rw [hg] at hb
      have := ih s (h.2 s hg) b hb
      exact ⟨this.1, by dsimp only; omega⟩

theorem Cost.weaken {ev : Eval K} {P Q : α → Prop} (hPQ : ∀ a, P a → Q a) {p : Prog K α} : ∀ {lo hi lo' hi' : Nat}, lo' ≤ lo → hi ≤ hi' → Cost ev P lo hi p → Cost ev Q lo' hi' p := by
  induction p with
  | ret a => intro lo hi lo' hi' hl hh h; exact ⟨by have := h.1; omega, hPQ a h.2⟩
  | err e => intro lo hi lo' hi' hl hh h; exact True.intro
  | eval g k ih =>
    intro lo hi lo' hi' hl hh h
    exact ⟨h.1.trans hh, fun s hs => ih s (by omega) (by omega) (h.2 s hs)⟩

theorem Cost.bind {ev : Eval K} {P : α → Prop} {Q : β → Prop} {p : Prog K α} {f : α → Prog K β} {lo2 hi2 : Nat} (hf : ∀ a, P a → Cost ev Q lo2 hi2 (f a)) :
    ∀ {lo1 hi1 : Nat}, Cost ev P lo1 hi1 p → Cost ev Q (lo1 + lo2) (hi1 + hi2) (p.bind f) := by
  induction p with
  | ret a => intro lo1 hi1 h; exact Cost.weaken (fun _ h => h) (by have := h.1; omega) (by omega) (hf a h.2)
  | err e => intro lo1 hi1 h; exact True.intro
  | eval g k ih =>
    intro lo1 hi1 h
    refine ⟨by have := h.1; omega, fun s hs => ?_⟩
    have := h.1
    exact Cost.weaken (fun _ h => h) (by omega) (by omega) (ih s (h.2 s hs))

theorem Cost.bind' {ev : Eval K} {P : α → Prop} {Q : β → Prop} {p : Prog K α} {f : α → Prog K β} {lo1 hi1 lo2 hi2 : Nat} (h : Cost ev P lo1 hi1 p)
    (hf : ∀ a, P a → Cost ev Q lo2 hi2 (f a)) : Cost ev Q (lo1 + lo2) (hi1 + hi2) (p >>= f) := Cost.bind hf h

theorem Cost.ret {ev : Eval K} {P : α → Prop} {a : α} (h : P a) (hi : Nat) : Cost ev P 0 hi (ret a) := ⟨rfl, h⟩

theorem Cost.lift {ev : Eval K} {P : α → Prop} {r : Except PyErr α} (h : ∀ a, r = .ok a → P a) : Cost ev P 0 0 (lift r : Prog K α) := by
  cases r with
  | ok a => exact ⟨rfl, h a rfl⟩
  | error e => exact True.intro

/-- A step without evaluations. -/
theorem Cost.pure_then {ev : Eval K} {P : α → Prop} {Q : β → Prop} {r : Except PyErr α} {f : α → Prog K β} {lo hi : Nat} (h : ∀ a, r = .ok a → P a)
    (hf : ∀ a, P a → Cost ev Q lo hi (f a)) : Cost ev Q lo hi (Prog.lift r >>= f) := by
  have := Cost.bind' (Cost.lift (ev := ev) h) hf
  rwa [Nat.zero_add, Nat.zero_add] at this

theorem Cost.each {ev : Eval K} (R : β → Prop) (f : α → Prog K β) (lo hi : Nat) : ∀ l : List α, (∀ a ∈ l, Cost ev R lo hi (f a)) →
    Cost ev (fun bs => bs.length = l.length ∧ ∀ b ∈ bs, R b) (l.length * lo) (l.length * hi) (Prog.each f l)
  | [], _ => ⟨by simp, rfl, fun b hb => by cases hb⟩
  | a :: rest, h => by
    have h1 := h a (List.mem_cons_self ..)
    have h2 := Cost.each R f lo hi rest fun x hx => h x (List.mem_cons_of_mem _ hx)
    have h3 : Cost ev (fun bs => bs.length = (a :: rest).length ∧ ∀ b ∈ bs, R b) (lo + (rest.length * lo + 0)) (hi + (rest.length * hi + 0)) (Prog.each f (a :: rest)) := by
      refine Cost.bind (fun b hb => Cost.bind (fun bs hbs => Cost.ret ?_ 0) h2) h1
      refine ⟨by simp only [List.length_cons, hbs.1], fun x hx => ?_⟩
      rcases List.mem_cons.mp hx with rfl | hx
      · exact hb
      · exact hbs.2 x hx
    refine Cost.weaken (fun _ h => h) (le_of_eq ?_) (le_of_eq ?_) h3 <;> simp only [List.length_cons] <;> ring

theorem Cost.forEach {ev : Eval K} (I : α → Prop) (f : α → β → Prog K α) (lo hi : Nat) : ∀ (l : List β) (a : α), I a → (∀ b ∈ l, ∀ a, I a → Cost ev I lo hi (f a b)) →
    Cost ev I (l.length * lo) (l.length * hi) (Prog.forEach f l a)
  | [], a, h, _ => ⟨by simp, h⟩
  | b :: rest, a, h, hf => by
    have h1 : Cost ev I (lo + rest.length * lo) (hi + rest.length * hi) (Prog.forEach f (b :: rest) a) :=
      Cost.bind (fun a' ha' => Cost.forEach I f lo hi rest a' ha' fun x hx => hf x (List.mem_cons_of_mem _ hx)) (hf b (List.mem_cons_self ..) a h)
    refine Cost.weaken (fun _ h => h) (le_of_eq ?_) (le_of_eq ?_) h1 <;> simp only [List.length_cons] <;> ring

end Prog

open Prog Spec

theorem evaluate_cost (ev : Eval K) (σ : Indiv K) : Cost ev (fun _ => True) 1 1 σ.evaluate := ⟨le_refl _, fun _ _ => ⟨rfl, trivial⟩⟩

theorem evaluateAll_cost (ev : Eval K) (pop : List (Indiv K)) : Cost ev (fun p => p.length = pop.length) pop.length pop.length (evaluateAll pop) := by
  refine Cost.weaken (fun _ h => h.1) ?_ ?_ (Cost.each (ev := ev) (fun _ => True) Indiv.evaluate 1 1 pop fun σ _ => evaluate_cost ev σ) <;> omega

/-- What the claim says: at most `hi` evaluations, and at least `lo` if no exception was raised. -/
def Spends {α : Type} (ev : Eval K) (p : Prog K α) (lo hi : Nat) : Prop := p.evals ev ≤ hi ∧ ∀ a, p.run ev = .ok a → lo ≤ p.evals ev

theorem Prog.Cost.spends {α : Type} {ev : Eval K} {P : α → Prop} {p : Prog K α} {lo hi : Nat} (h : Cost ev P lo hi p) : Spends ev p lo hi :=
  ⟨h.evals_le, fun a ha => (h.of_run a ha).2⟩

/-! ## Swarms and colonies -/

variable [IsStrictOrderedRing K]

/-- C130 for random search: `population_size` solutions of the initial population and `n_iter` solutions for each place of the population. -/
theorem C130_rs (ev : Eval K) (init : InitOp K) (size nIter n : Nat) (draw : Nat → Nat → Nat → K) (pop : List (Indiv K)) :
    Spends ev (rs init size nIter draw n pop) (pop.length + size * nIter) (pop.length + size * nIter) := by
  unfold rs
  refine Cost.spends (P := fun _ => True) (Cost.bind' (evaluateAll_cost ev pop) fun _ _ => ?_)
  have := Cost.each (ev := ev) (fun _ => True) (fun k => rsOne init nIter n (draw k)) nIter nIter (List.range size) fun k _ => ?_
  · rw [List.length_range] at this
    exact Cost.weaken (fun _ _ => trivial) (le_refl _) (le_refl _) this
  · unfold rsOne
    have h1 := evaluateAll_cost ev ((List.range nIter).map fun j => (init.make (draw k j) n : Indiv K))
    rw [List.length_map, List.length_range] at h1
    exact Cost.bind' h1 fun _ _ => Cost.lift fun _ _ => trivial

/-- C130 for the grey wolves: `population_size` solutions at the start and in every iteration. -/
theorem C130_gwo (ev : Eval K) (upd : WolfUpdate) (sig : K → K) (nLeaders : Nat) (draws : List (Nat → WolfDraw K)) (pop : List (Indiv K)) :
    Spends ev (gwo upd sig nLeaders draws pop) (pop.length + draws.length * pop.length) (pop.length + draws.length * pop.length) := by
  unfold gwo
  refine Cost.spends (P := fun _ => True) (Cost.bind' (evaluateAll_cost ev pop) fun pop' hp => ?_)
  refine Cost.pure_then (P := fun _ => True) (fun _ _ => trivial) fun step _ => ?_
  have := Cost.forEach (ev := ev) (fun p : List (Indiv K) => p.length = pop.length) (gwoStep upd sig nLeaders step) pop.length pop.length draws.zipIdx pop' hp fun d _ p hl => ?_
  · rw [List.length_zipIdx] at this
    exact Cost.weaken (fun _ _ => trivial) (le_refl _) (le_refl _) this
  · unfold gwoStep
    refine Cost.pure_then (P := fun new : List (Indiv K) => new.length = pop.length) (fun new hnew => ?_) fun new hnew => ?_
    · rw [mapM_length _ _ _ hnew, List.length_zipIdx, hl]
    · have := evaluateAll_cost ev new
      rwa [hnew] at this

/-- C130 for the particle swarm: `population_size` solutions at the start and in every iteration. -/
theorem C130_pso (ev : Eval K) (m : Movement K) (sig : K → K) (aMin aMax : K) (init : Nat → (Nat → K) × (Nat → K)) (draws : List (PSODraw K)) (pop : List (Indiv K)) :
    Spends ev (pso m sig aMin aMax init draws pop) (pop.length + draws.length * pop.length) (pop.length + draws.length * pop.length) := by
  unfold pso
  refine Cost.spends (P := fun _ => True) (Cost.bind' (evaluateAll_cost ev pop) fun pop' hp => ?_)
  refine Cost.pure_then (P := fun _ => True) (fun _ _ => trivial) fun step _ => ?_
  refine Cost.pure_then (P := fun ps : List (Particle K) => ps.length = pop.length) (fun ps hps => ?_) fun ps hps => ?_
  · rw [mapM_length _ _ _ hps, List.length_zipIdx, hp]
  have := Cost.forEach (ev := ev) (fun s : PSOState K => s.particles.length = pop.length) (psoStep m sig aMax step) pop.length pop.length draws.zipIdx ⟨ps, [ps]⟩ hps fun d _ s hl => ?_
  · rw [List.length_zipIdx] at this
    exact Cost.weaken (fun _ _ => trivial) (le_refl _) (le_refl _) this
  · unfold psoStep
    refine Cost.pure_then (P := fun moved : List (Particle K) => moved.length = pop.length) (fun moved hm => (move_length _ _ _ _ _ _ hm).trans hl) fun moved hm => ?_
    have h1 := Cost.each (ev := ev) (fun _ => True) Particle.evaluate 1 1 moved fun p _ => Cost.bind (lo2 := 0) (hi2 := 0) (fun σ _ => Cost.ret trivial 0) (evaluate_cost ev p.sol)
    rw [hm, Nat.mul_one] at h1
    have h2 := Cost.bind' (f := fun fitted => (Prog.lift (fitted.mapM Particle.updateBest) >>= fun ps => Prog.ret (⟨ps, s.log ++ [ps]⟩ : PSOState K)))
      (Q := fun s : PSOState K => s.particles.length = pop.length) (lo2 := 0) (hi2 := 0) h1 fun fitted hf =>
      Cost.pure_then (P := fun ps : List (Particle K) => ps.length = pop.length) (fun ps hps => (mapM_length _ _ _ hps).trans hf.1) fun ps hps => ⟨rfl, hps⟩
    exact h2

/-- C130 for the ant colony: `population_size` solutions at the start and in every iteration. -/
theorem C130_aco (ev : Eval K) (cfg : AcoCfg K) (warmStart : Bool) (old : Option (Pheromones K)) (pool : AntPool K) (draws : List (Nat → AntDraw K)) (pop : List (Indiv K)) :
    Spends ev (aco cfg warmStart old pool draws pop) (pop.length + draws.length * pop.length) (pop.length + draws.length * pop.length) := by
  unfold aco
  refine Cost.spends (P := fun _ => True) (Cost.pure_then (P := fun _ => True) (fun _ _ => trivial) fun pher _ => Cost.bind' (evaluateAll_cost ev pop) fun pop' hp => ?_)
  have := Cost.forEach (ev := ev) (fun s : AcoState K => s.pop.length = pop.length) (acoStep cfg pool) pop.length pop.length draws ⟨pop', pher, []⟩ hp fun d _ s hl => ?_
  · exact Cost.weaken (fun _ _ => trivial) (le_refl _) (le_refl _) this
  · unfold acoStep
    refine Cost.pure_then (P := fun ants : List (Indiv K) => ants.length = pop.length) (fun ants ha => ?_) fun ants ha => ?_
    · rw [mapM_length _ _ _ ha, List.length_zipIdx, hl]
    · have h1 := evaluateAll_cost ev ants
      rw [ha] at h1
      exact Cost.bind' (lo2 := 0) (hi2 := 0) h1 fun p hp => ⟨rfl, hp⟩

theorem greedyUpdate_length' : ∀ (new : List (Indiv K)) (fs : List (Food K)), (greedyUpdate new fs).length = fs.length
  | [], [] => rfl
  | [], _ :: _ => rfl
  | _ :: _, [] => rfl
  | n :: ns, f :: fs => by simp only [greedyUpdate, List.length_cons, greedyUpdate_length' ns fs]

theorem abcCandidates_cost (ev : Eval K) (sig : K → K) (sources : List (Food K)) (others : List Nat) (d : Nat → FoodDraw K) :
    Cost ev (fun _ => True) (min sources.length others.length) sources.length (abcCandidates sig sources others d) := by
  unfold abcCandidates
  have h := Cost.each (ev := ev) (fun _ : Indiv K => True) (fun x : (Food K × Nat) × Nat =>
    match sources[x.1.2]? with
    | none => .err .indexError
    | some other =>
      (Prog.lift ((d x.2).genome sig x.1.1.sol.genome other.sol.genome)).bind fun g => (x.1.1.sol.withGenome g).evaluate) 1 1 (sources.zip others).zipIdx fun x _ => by
    split
    · exact True.intro
    · exact Cost.bind (lo1 := 0) (hi1 := 0) (P := fun _ => True) (fun g _ => evaluate_cost ev _) (Cost.lift fun _ _ => trivial)
  rw [List.length_zipIdx, List.length_zip, Nat.mul_one] at h
  exact Cost.weaken (fun _ _ => trivial) (le_refl _) (Nat.min_le_left _ _) h

/-- C130 for the bee colony: `population_size` solutions at the start and at most three times as many in every iteration. -/
theorem C130_abc (ev : Eval K) (sig : K → K) (init : InitOp K) (limit : Nat) (draws : List (ABCDraw K)) (n : Nat) (pop : List (Indiv K)) :
    Spends ev (abc sig init limit draws n pop) pop.length (pop.length + draws.length * (3 * pop.length)) := by
  unfold abc
  refine Cost.spends (P := fun _ => True) (Cost.weaken (lo := pop.length + draws.length * 0) (fun _ h => h) (by omega) (le_refl _) (Cost.bind' (evaluateAll_cost ev pop) fun pop' hp => ?_))
  have := Cost.forEach (ev := ev) (fun s : List (Food K) => s.length = pop.length) (abcStep sig init n limit) 0 (3 * pop.length) draws (pop'.map fun σ => ⟨σ, 0⟩)
    (by rw [List.length_map, hp]) fun d _ s hl => ?_
  · exact Cost.weaken (fun _ _ => trivial) (le_refl _) (le_refl _) this
  · unfold abcStep
    split
    · exact True.intro
    · have h1 := abcCandidates_cost ev sig s d.others1 d.food1
      rw [hl] at h1
      refine Cost.weaken (lo := 0 + (0 + 0)) (hi := pop.length + (pop.length + pop.length)) (fun _ h => h) (by omega) (by omega)
        (Cost.bind' (Cost.weaken (fun _ h => h) (Nat.zero_le _) (le_refl _) h1) fun new1 _ => ?_)
      refine Cost.pure_then (P := fun _ => True) (fun _ _ => trivial) fun _ _ => ?_
      have h2 := abcCandidates_cost ev sig (greedyUpdate new1 s) d.others2 d.food2
      rw [greedyUpdate_length', hl] at h2
      refine Cost.bind' (Cost.weaken (fun _ h => h) (Nat.zero_le _) (le_refl _) h2) fun new2 _ => ?_
      unfold abcScout
      have h3 := Cost.each (ev := ev) (fun _ : Food K => True) (fun x : Food K × Nat =>
        if limit ≤ x.1.trials then ((init.make (d.scout x.2) n).evaluate).bind fun σ => .ret ⟨σ, 0⟩ else .ret x.1) 0 1 (greedyUpdate new2 (greedyUpdate new1 s)).zipIdx fun x _ => by
        split
        · exact Cost.weaken (lo := 1 + 0) (hi := 1 + 0) (fun _ h => h) (by omega) (by omega) (Cost.bind (fun σ _ => Cost.ret trivial 0) (evaluate_cost ev _))
        · exact Cost.ret trivial 1
      rw [List.length_zipIdx, greedyUpdate_length', greedyUpdate_length', hl] at h3
      exact Cost.weaken (fun _ h => h.1) (by omega) (by omega) h3

/-! ## Genetic algorithms -/

/-- The number of solutions a selection is asked for. -/
def SelDraw.count : SelDraw → Nat
  | .random idx => idx.length
  | .roulette idx => idx.length
  | .linearRank idx => idx.length
  | .tournament idx => idx.length

theorem selectRandom_le (pop : List (Indiv K)) (idx : List Nat) (l : List (Indiv K)) (h : selectRandom pop idx = .ok l) : l.length ≤ idx.length := by
  unfold selectRandom at h
  split at h
  · cases h
  · cases h; exact List.length_filterMap_le _ _

theorem select_le (s : SelDraw) (pop l : List (Indiv K)) (h : s.run pop = .ok l) : l.length ≤ s.count := by
  cases s with
  | random idx => exact selectRandom_le pop idx l h
  | roulette idx =>
    change selectRoulette pop idx = .ok l at h
    unfold selectRoulette at h
    split at h
    · cases h
    · exact selectRandom_le pop idx l h
    · split at h
      · cases h
      · exact selectRandom_le pop idx l h
  | linearRank idx =>
    change selectLinearRank pop idx = .ok l at h
    unfold selectLinearRank at h
    split at h
    · exact selectRandom_le pop idx l h
    · cases h
  | tournament idx =>
    change selectTournament pop idx = .ok l at h
    exact le_of_eq (mapM_length _ _ _ h)

theorem gaCross_length (rate : K) (draw : Nat → Bool → K × CrossDraw K) (ps : List (Indiv K × Indiv K)) (cs : List (Indiv K)) (h : gaCross rate draw ps = .ok cs) :
    cs.length = 2 * ps.length := by
  unfold gaCross at h
  obtain ⟨two, h1, h2⟩ : ∃ two, (ps.zipIdx).mapM (fun ((A, B), k) => (do
    let c1 ← crossover rate (draw k true).1 (draw k true).2 A B
    let c2 ← crossover rate (draw k false).1 (draw k false).2 B A
    pure [c1, c2] : Except PyErr (List (Indiv K)))) = .ok two ∧ cs = two.flatten := by
    cases hh : (ps.zipIdx).mapM (fun ((A, B), k) => (do
      let c1 ← crossover rate (draw k true).1 (draw k true).2 A B
      let c2 ← crossover rate (draw k false).1 (draw k false).2 B A
      pure [c1, c2] : Except PyErr (List (Indiv K)))) with
    | error e => rw [hh] at h; cases h
    | ok two => rw [hh] at h; cases h; exact ⟨two, rfl, rfl⟩
  have hpair : ∀ n ∈ two.map List.length, n = 2 := by
    intro n hn
    obtain ⟨l, hl, rfl⟩ := List.mem_map.mp hn
    obtain ⟨⟨⟨A, B⟩, k⟩, _, hb⟩ := mem_of_mapM_ok _ _ _ h1 l hl
    cases hc1 : crossover rate (draw k true).1 (draw k true).2 A B with
    | error e => dsimp only at hb; rw [hc1] at hb; cases hb
    | ok c1 =>
      cases hc2 : crossover rate (draw k false).1 (draw k false).2 B A with
      | error e => dsimp only at hb; rw [hc1, hc2] at hb; cases hb
      | ok c2 => dsimp only at hb; rw [hc1, hc2] at hb; cases hb; rfl
  have hlen := mapM_length _ _ _ h1
  rw [List.length_zipIdx] at hlen
  rw [h2, ← hlen, List.length_flatten, List.eq_replicate_of_mem hpair, List.sum_replicate, List.length_map]
  simp [Nat.mul_comm]

theorem gaOdd_length (size : Nat) (parents children out : List (Indiv K)) (h : gaOdd size parents children = .ok out) : out.length = children.length + size % 2 := by
  unfold gaOdd at h
  split at h
  · split at h
    · cases h
    · cases h
      rw [List.length_append, List.length_singleton]
      omega
  · cases h
    omega

/-- The program is the model of the genetic algorithm. -/
theorem gaProg_run (cfg : GACfg K) (draws : List (GADraw K)) (n : Nat) (ev : Eval K) (pop : List (Indiv K)) : (gaProg cfg draws pop).run ev = gaOptimize cfg draws n ev pop := by
  have hall : ∀ l : List (Indiv K), (evaluateAll l).run ev = fitAll ev l := by
    intro l
    unfold fitAll
    induction l with
    | nil => rfl
    | cons σ rest ih =>
      change ((σ.evaluate).bind fun b => (Prog.each Indiv.evaluate rest).bind fun bs => .ret (b :: bs)).run ev = _
      rw [Prog.run_bind, List.mapM_cons]
      have h1 : (σ.evaluate).run ev = Indiv.fit ev σ := by
        unfold Indiv.evaluate Indiv.fit
        simp only [Prog.run]
        cases ev σ.genome <;> rfl
      rw [h1]
      cases Indiv.fit ev σ with
      | error e => rfl
      | ok b =>
        dsimp only
        rw [Prog.run_bind]
        have ih' : (Prog.each Indiv.evaluate rest).run ev = List.mapM (Indiv.fit ev) rest := ih
        rw [ih']
        cases List.mapM (Indiv.fit ev) rest <;> rfl
  have hstep : ∀ d p, (gaStepProg cfg p d).run ev = gaStep cfg d ev p := by
    intro d p
    unfold gaStepProg gaStep
    change ((Prog.lift _).bind _).run ev = _
    rw [Prog.run_bind, Prog.run_lift]
    by_cases hf : allFitted p = true
    · rw [if_pos hf, if_pos hf]
      dsimp only
      change ((Prog.lift _).bind _).run ev = _
      rw [Prog.run_bind, Prog.run_lift]
      cases d.sel.run p with
      | error e => rfl
      | ok parents =>
        dsimp only
        change ((Prog.lift _).bind _).run ev = _
        rw [Prog.run_bind, Prog.run_lift]
        simp only [Bind.bind, Except.bind]
        cases gaCross cfg.crossRate d.cross (pairs parents) with
        | error e => rfl
        | ok children =>
          dsimp only
          change ((Prog.lift _).bind _).run ev = _
          rw [Prog.run_bind, Prog.run_lift]
          cases gaOdd cfg.populationSize parents children with
          | error e => rfl
          | ok children' => exact hall _
    · rw [if_neg hf, if_neg hf]
  have hloop : ∀ (draws : List (GADraw K)) (p : List (Indiv K)), (Prog.forEach (gaStepProg cfg) draws p).run ev = gaLoop cfg ev draws p := by
    intro draws
    induction draws with
    | nil => intro p; rfl
    | cons d rest ih =>
      intro p
      change ((gaStepProg cfg p d).bind (Prog.forEach (gaStepProg cfg) rest)).run ev = _
      rw [Prog.run_bind, hstep]
      unfold gaLoop
      cases gaStep cfg d ev p with
      | error e => rfl
      | ok p' => exact ih p'
  unfold gaProg gaOptimize
  change ((evaluateAll pop).bind (Prog.forEach (gaStepProg cfg) draws)).run ev = _
  rw [Prog.run_bind, hall]
  cases fitAll ev pop with
  | error e => rfl
  | ok p => exact hloop draws p

/-- C130 for the genetic algorithm: `population_size` solutions at the start, and in every generation the elitists once more and at most `population_size` children. -/
theorem C130_ga (ev : Eval K) (cfg : GACfg K) (draws : List (GADraw K)) (hsel : ∀ d ∈ draws, d.sel.count = cfg.populationSize) (pop : List (Indiv K)) :
    (∀ n, (gaProg cfg draws pop).run ev = gaOptimize cfg draws n ev pop) ∧
    Spends ev (gaProg cfg draws pop) pop.length (pop.length + draws.length * (cfg.nElitists + cfg.populationSize)) := by
  refine ⟨fun n => gaProg_run cfg draws n ev pop, ?_⟩
  unfold gaProg
  refine Cost.spends (P := fun _ => True) (Cost.weaken (lo := pop.length + draws.length * 0) (fun _ h => h) (by omega) (le_refl _) (Cost.bind' (evaluateAll_cost ev pop) fun pop' _ => ?_))
  refine Cost.forEach (ev := ev) (fun _ => True) (gaStepProg cfg) 0 (cfg.nElitists + cfg.populationSize) draws pop' trivial fun d hd p _ => ?_
  unfold gaStepProg
  refine Cost.pure_then (P := fun _ => True) (fun _ _ => trivial) fun _ _ => ?_
  refine Cost.pure_then (P := fun parents : List (Indiv K) => parents.length ≤ cfg.populationSize) (fun parents hp => (select_le _ _ _ hp).trans (le_of_eq (hsel d hd))) fun parents hp => ?_
  refine Cost.pure_then (P := fun cs : List (Indiv K) => cs.length = 2 * (parents.length / 2)) (fun cs hcs => by rw [gaCross_length _ _ _ _ hcs, length_pairs]) fun cs hcs => ?_
  refine Cost.pure_then (P := fun cs' : List (Indiv K) => cs'.length ≤ cfg.populationSize) (fun cs' hcs' => ?_) fun cs' hcs' => ?_
  · rw [gaOdd_length _ _ _ _ hcs', hcs]
    omega
  · refine Cost.weaken (fun _ _ => trivial) (Nat.zero_le _) ?_ (evaluateAll_cost ev _)
    rw [List.length_append]
    have h1 := List.length_take_le cfg.nElitists (sortedDesc Indiv.fitnessD p)
    have h2 : (gaMutate cfg.mutRate d.flips cs').length = cs'.length := by simp [gaMutate]
    omega

/-- C130 for SAGA1: as for the genetic algorithm. -/
theorem C130_saga1 (ev : Eval K) (cfg : Saga1Cfg K) (draws : List (GADraw K)) (hsel : ∀ d ∈ draws, d.sel.count = cfg.populationSize) (rates : Rates K) (pop : List (Indiv K)) :
    Spends ev (saga1 cfg draws rates pop) pop.length (pop.length + draws.length * (cfg.nElitists + cfg.populationSize)) := by
  unfold saga1
  split
  rotate_left
  · exact Cost.spends (P := fun _ => True) True.intro
  refine Cost.spends (P := fun _ => True) (Cost.weaken (lo := pop.length + draws.length * 0) (fun _ h => h) (by omega) (le_refl _) (Cost.bind' (evaluateAll_cost ev pop) fun pop' _ => ?_))
  refine Cost.forEach (ev := ev) (fun _ => True) (saga1Step cfg) 0 (cfg.nElitists + cfg.populationSize) draws _ trivial fun d hd s _ => ?_
  unfold saga1Step
  refine Cost.pure_then (P := fun _ => True) (fun _ _ => trivial) fun _ _ => ?_
  refine Cost.pure_then (P := fun _ => True) (fun _ _ => trivial) fun rates _ => ?_
  refine Cost.pure_then (P := fun parents : List (Indiv K) => parents.length ≤ cfg.populationSize) (fun parents hp => (select_le _ _ _ hp).trans (le_of_eq (hsel d hd))) fun parents hp => ?_
  refine Cost.pure_then (P := fun cs : List (Indiv K) => cs.length = 2 * (parents.length / 2)) (fun cs hcs => by rw [sagaChildren_length _ _ _ _ hcs, length_pairs]) fun cs hcs => ?_
  have h1 := List.length_take_le cfg.nElitists (sortedDesc Indiv.fitnessD s.pop)
  have h2 : (gaMutate rates.mutation d.flips cs).length = cs.length := by simp [gaMutate]
  refine Cost.weaken (lo := 0 + 0) (hi := (cfg.nElitists + cfg.populationSize) + 0) (fun _ h => h) (le_refl _) (le_refl _)
    (Cost.bind' (P := fun _ => True) (Cost.weaken (fun _ _ => trivial) (Nat.zero_le _) ?_ (evaluateAll_cost ev _)) fun _ _ => Cost.ret trivial 0)
  rw [List.length_append]
  omega

/-- C130 for SAGA2: the children are fitted a second time after their mutation. -/
theorem C130_saga2 (ev : Eval ℝ) (cfg : Saga2Cfg) (draws : List (GADraw ℝ)) (hsel : ∀ d ∈ draws, d.sel.count = cfg.populationSize) (curMin curMax : Option ℝ) (pop : List (Indiv ℝ)) :
    Spends ev (saga2 cfg draws curMin curMax pop) pop.length (pop.length + draws.length * (cfg.nElitists + 2 * cfg.populationSize)) := by
  unfold saga2
  split
  rotate_left
  · exact Cost.spends (P := fun _ => True) True.intro
  refine Cost.spends (P := fun _ => True) (Cost.weaken (lo := pop.length + draws.length * 0) (fun _ h => h) (by omega) (le_refl _) (Cost.bind' (evaluateAll_cost ev pop) fun pop' _ => ?_))
  refine Cost.pure_then (P := fun _ => True) (fun _ _ => trivial) fun _ _ => ?_
  have hloop := Cost.forEach (ev := ev) (fun _ => True) (saga2Step cfg) 0 (cfg.nElitists + 2 * cfg.populationSize) draws.zipIdx ⟨pop', pop', ‹_›, variance (pop'.map Indiv.fitnessD),
    variance (pop'.map Indiv.fitnessD), curMin, curMax⟩ trivial fun d hd s _ => ?_
  · rw [List.length_zipIdx] at hloop
    exact hloop
  unfold saga2Step
  have hd' : d.1 ∈ draws := List.fst_mem_of_mem_zipIdx hd
  refine Cost.pure_then (P := fun parents : List (Indiv ℝ) => parents.length ≤ cfg.populationSize) (fun parents hp => (select_le _ _ _ hp).trans (le_of_eq (hsel d.1 hd'))) fun parents hp => ?_
  refine Cost.pure_then (P := fun cs : List (Indiv ℝ) => cs.length = 2 * (parents.length / 2)) (fun cs hcs => by rw [sagaChildren_length _ _ _ _ hcs, length_pairs]) fun cs hcs => ?_
  have h1 := List.length_take_le cfg.nElitists (sortedDesc Indiv.fitnessD s.pop)
  refine Cost.weaken (lo := 0 + (0 + 0)) (hi := cfg.populationSize + ((cfg.nElitists + cfg.populationSize) + 0)) (fun _ h => h) (le_refl _) (by omega)
    (Cost.bind' (P := fun cs' : List (Indiv ℝ) => cs'.length ≤ cfg.populationSize) (Cost.weaken (fun cs' h => ?_) (Nat.zero_le _) ?_ (evaluateAll_cost ev _)) fun cs' hcs' => ?_)
  · rw [h, hcs]; omega
  · rw [hcs]; omega
  refine Cost.bind' (P := fun _ => True) (Cost.weaken (fun _ _ => trivial) (Nat.zero_le _) ?_ (evaluateAll_cost ev _)) fun pop'' _ => ?_
  · rw [List.length_append, List.length_map, List.length_zipIdx]
    omega
  refine Cost.pure_then (P := fun _ => True) (fun _ _ => trivial) fun stats _ => ?_
  dsimp only
  split
  · exact Cost.lift fun _ _ => trivial
  · exact Cost.ret trivial 0

theorem positions_le (s : SelDraw) (pop : List (Indiv K)) (l : List Nat) (h : s.positions pop = .ok l) : l.length ≤ s.count := by
  unfold SelDraw.positions at h
  split at h
  · cases h
  · cases s with
    | random idx => cases h; exact List.length_filter_le _ _
    | roulette idx => cases h; exact List.length_filter_le _ _
    | linearRank idx => cases h; exact List.length_filter_le _ _
    | tournament idx => cases h; exact List.length_filterMap_le _ _

theorem saga3Children_length (pmr : K) (draw : Nat → Bool → Saga3Draw K) (k : Nat) (ps : List (Nat × Nat)) (h : Objs K) (r : Objs K × List Nat)
    (hr : saga3Children pmr draw k ps h = .ok r) : r.2.length = 2 * ps.length := by
  induction ps generalizing k h r with
  | nil => cases hr; rfl
  | cons p rest ih =>
    obtain ⟨a, b⟩ := p
    unfold saga3Children at hr
    split at hr
    · cases hr
    · split at hr
      · cases hr
      · split at hr
        · cases hr
        · rename_i h3 cs hcs
          cases hr
          simp only [List.length_cons, ih _ _ _ hcs]
          omega

/-- C130 for SAGA3: as for the genetic algorithm. -/
theorem C130_saga3 (ev : Eval K) (cfg : Saga3Cfg K) (draws : List (Saga3GenDraw K)) (hsel : ∀ d ∈ draws, d.sel.count = cfg.populationSize) (pop : Objs K) :
    Spends ev (saga3 cfg draws pop) pop.length (pop.length + draws.length * (cfg.nElitists + cfg.populationSize)) := by
  have hall : ∀ l : List (SagaObj K), Cost ev (fun _ => True) l.length l.length (Prog.each SagaObj.evaluate l) := by
    intro l
    have := Cost.each (ev := ev) (fun _ => True) SagaObj.evaluate 1 1 l fun o _ => Cost.bind (lo2 := 0) (hi2 := 0) (fun σ _ => Cost.ret trivial 0) (evaluate_cost ev o.indiv)
    rw [Nat.mul_one] at this
    exact Cost.weaken (fun _ _ => trivial) (le_refl _) (le_refl _) this
  unfold saga3
  split
  rotate_left
  · exact Cost.spends (P := fun _ => True) True.intro
  refine Cost.spends (P := fun _ => True) (Cost.weaken (lo := pop.length + draws.length * 0) (fun _ h => h) (by omega) (le_refl _) (Cost.bind' (hall pop) fun pop' _ => ?_))
  refine Cost.forEach (ev := ev) (fun _ => True) (saga3Step cfg) 0 (cfg.nElitists + cfg.populationSize) draws _ trivial fun d hd s _ => ?_
  unfold saga3Step
  refine Cost.pure_then (P := fun parents : List Nat => parents.length ≤ cfg.populationSize) (fun parents hp => ?_) fun parents hp => ?_
  · split at hp
    · exact (positions_le _ _ _ hp).trans (le_of_eq (hsel d hd))
    · cases hp
  refine Cost.pure_then (P := fun r : Objs K × List Nat => r.2.length = 2 * (parents.length / 2)) (fun r hr => by rw [saga3Children_length _ _ _ _ _ _ hr, length_pairs]) fun r hr => ?_
  refine Cost.weaken (lo := 0 + 0) (hi := (cfg.nElitists + cfg.populationSize) + 0) (fun _ h => h) (le_refl _) (le_refl _)
    (Cost.bind' (P := fun _ => True) (Cost.weaken (fun _ _ => trivial) (Nat.zero_le _) ?_ (hall _)) fun _ _ => Cost.ret trivial 0)
  rw [List.length_append, List.length_map, List.length_zipIdx]
  have h1 := List.length_filterMap_le (fun c => r.1[c]?) r.2
  have h2 := List.length_filterMap_le (fun c => r.1[c]?)
    ((sortedDesc (fun i => ((s.pop.map SagaObj.indiv)[i]?.map Indiv.fitnessD).getD 0) (List.range s.pop.length)).take cfg.nElitists)
  have h3 := List.length_take_le cfg.nElitists (sortedDesc (fun i => ((s.pop.map SagaObj.indiv)[i]?.map Indiv.fitnessD).getD 0) (List.range s.pop.length))
  omega

/-- The bounds are attained: two elitists of four solutions in two generations, and all three kinds of bees of a colony. -/
example : (∀ d ∈ [quietDraw, quietDraw], d.sel.count = 2) ∧ (gaProg ⟨2, 1, 9/10, 1/100⟩ [quietDraw, quietDraw] [⟨[true, false], none⟩, ⟨[true, true], none⟩]).evals countEval = 2 + 2 * (1 + 2) ∧
    (abc (fun x => x) (.random (1 / 2)) 1 [demoABC [0], demoABC [1]] 2 [⟨[true, true], none⟩, ⟨[true, true], none⟩]).evals plusEval = 2 + 2 * (3 * 2) ∧
    (gwo .crossover (fun x => x) 1 [demoWolf 1, demoWolf 0] [⟨[false, false], none⟩, ⟨[false, true], none⟩]).evals plusEval = 2 + 2 * 2 := by decide +kernel

/-- An exception ends the work early. -/
example : (gwo .crossover (fun x => x) 1 [demoWolf 1, demoWolf 0] [⟨[false, false], none⟩, ⟨[false, true], none⟩]).evals (fun _ => (.error .valueError : Except PyErr (SolState ℚ))) = 1 := by
  decide +kernel

/-! ## Rule discovery -/

/-- Whatever happens, at most `n` rule objects are created. -/
def MakesAtMost {d : Nat} {M α : Type} (n : Nat) (m : HM K d M α) : Prop := ∀ h, (m h).1.objs.length ≤ h.objs.length + n

section Rules

variable {d : Nat} {M α β : Type}

theorem MakesAtMost.mono {m : HM K d M α} {a b : Nat} (h : MakesAtMost a m) (hab : a ≤ b) : MakesAtMost b m := fun x => (h x).trans (by omega)

theorem MakesAtMost.bind {m : HM K d M α} {f : α → HM K d M β} {a b : Nat} (h1 : MakesAtMost a m) (h2 : ∀ x, MakesAtMost b (f x)) : MakesAtMost (a + b) (m.bind f) := by
  intro h
  have := h1 h
  unfold HM.bind
  split
  · rename_i h' e he
    rw [he] at this
    dsimp only at this ⊢
    omega
  · rename_i h' x he
    rw [he] at this
    have := h2 x h'
    dsimp only at *
    omega

theorem MakesAtMost.bind0 {m : HM K d M α} {f : α → HM K d M β} {b : Nat} (h1 : MakesAtMost 0 m) (h2 : ∀ x, MakesAtMost b (f x)) : MakesAtMost b (m.bind f) := by
  have := MakesAtMost.bind h1 h2
  rwa [Nat.zero_add] at this

theorem MakesAtMost.ret (a : α) : MakesAtMost 0 (HM.ret a : HM K d M α) := fun _ => le_refl _

theorem MakesAtMost.reads (f : RHeap K d M → Except PyErr α) : MakesAtMost 0 (HM.reads f) := fun _ => le_refl _

theorem MakesAtMost.each (f : α → HM K d M β) (cost : α → Nat) : ∀ l : List α, (∀ a ∈ l, MakesAtMost (cost a) (f a)) → MakesAtMost (l.map cost).sum (HM.each f l)
  | [], _ => MakesAtMost.ret []
  | a :: rest, h => by
    rw [List.map_cons, List.sum_cons]
    refine MakesAtMost.bind (h a (List.mem_cons_self ..)) fun b => ?_
    exact MakesAtMost.bind (MakesAtMost.each f cost rest fun x hx => h x (List.mem_cons_of_mem _ hx)) fun bs => MakesAtMost.ret _

theorem hNewRule_makes (k : Kind) (b : Pairs K d) (s : Nat) : MakesAtMost 1 (hNewRule (M := M) k b s) := by
  intro h
  simp [hNewRule]

theorem hClone_makes (r : Nat) : MakesAtMost 1 (hClone r : HM K d M Nat) := by
  intro h
  unfold hClone
  split
  · exact hNewRule_makes _ _ _ h
  · simp

theorem hDeepcopy_makes (r : Nat) : MakesAtMost 1 (hDeepcopy r : HM K d M Nat) := by
  intro h
  unfold hDeepcopy
  split <;> simp

theorem hWrite_makes (r : Nat) (b : Pairs K d) : MakesAtMost 0 (hWrite r b : HM K d M Unit) := by
  intro h
  unfold hWrite
  split <;> simp

theorem hAssign_makes (r : Nat) (b : Pairs K d) : MakesAtMost 0 (hAssign r b : HM K d M Unit) := by
  intro h
  unfold hAssign
  split <;> simp

theorem hFit_makes (L : Learner K d M) (ff : RuleFitness K d) (X : List (Point K d)) (y : List K) (r : Nat) : MakesAtMost 0 (hFit L ff X y r) := by
  intro h
  unfold hFit
  split
  · simp
  · split <;> simp

theorem hConstrain_makes (mr : K) (fbAt r : Nat) : MakesAtMost 0 (hConstrain mr fbAt r : HM K d M Nat) := by
  intro h
  unfold hConstrain
  split
  · simp
  · refine MakesAtMost.bind0 (b := 0) (hWrite_makes _ _) (fun _ => ?_) h
    intro h'
    dsimp only
    split
    · exact MakesAtMost.bind0 (b := 0) (hWrite_makes _ _) (fun _ => MakesAtMost.ret _) h'
    · simp

theorem hExecute_makes (m : Mutation) (z : Pairs K d) (r : Nat) : MakesAtMost 0 (hExecute m z r : HM K d M Unit) := by
  intro h
  unfold hExecute
  split
  · simp
  · split
    · simp
    · refine MakesAtMost.bind0 (b := 0) (hWrite_makes _ _) (fun _ => ?_) h
      split
      · exact hAssign_makes _ _
      · exact MakesAtMost.ret _

theorem hInitial_makes (E : HEnv K d M) (k : Kind) (b : Pairs K d) : MakesAtMost 1 (hInitial E k b) :=
  MakesAtMost.bind (b := 0) (hNewRule_makes _ _ _) fun _ => MakesAtMost.bind0 (hConstrain_makes _ _ _) fun _ => hFit_makes _ _ _ _ _

theorem hChild_makes (E : HEnv K d M) (m : Mutation) (r : Nat) (z : Pairs K d) : MakesAtMost 1 (hChild E m r z) :=
  MakesAtMost.bind (b := 0) (MakesAtMost.bind (b := 0) (hClone_makes _) fun _ => MakesAtMost.bind0 (hExecute_makes _ _ _) fun _ => MakesAtMost.ret _) fun _ =>
    MakesAtMost.bind0 (hConstrain_makes _ _ _) fun _ => hFit_makes _ _ _ _ _

theorem sum_ones (l : List α) : (l.map fun _ => 1).sum = l.length := by simp

theorem hLoop_makes (E : HEnv K d M) (op : ESOperator) (delay : Nat) (m : Mutation) : ∀ (gs : List (ESDraw K d M)) (e : Nat) (w : List Nat),
    MakesAtMost (gs.map fun g => g.1.length).sum (hLoop E op delay m gs e w)
  | [], e, _ => MakesAtMost.ret e
  | g :: gs, e, w => by
    rw [List.map_cons, List.sum_cons]
    refine MakesAtMost.bind ?_ fun out => ?_
    · have h1 := MakesAtMost.each (hChild E m e) (fun _ => 1) g.1 fun z _ => hChild_makes E m e z
      rw [sum_ones] at h1
      exact MakesAtMost.bind (b := 0) h1 fun cs => MakesAtMost.reads _
    · cases out with
      | stop r => exact MakesAtMost.mono (MakesAtMost.ret r) (Nat.zero_le _)
      | next e' w' => exact hLoop_makes E op delay m gs e' w'

theorem sum_le_of {γ : Type} (f : γ → Nat) (c : Nat) : ∀ l : List γ, (∀ x ∈ l, f x ≤ c) → (l.map f).sum ≤ l.length * c
  | [], _ => by simp
  | x :: rest, h => by
    rw [List.map_cons, List.sum_cons, List.length_cons, Nat.succ_mul]
    have h1 := h x (List.mem_cons_self ..)
    have h2 := sum_le_of f c rest fun y hy => h y (List.mem_cons_of_mem _ hy)
    omega

/-- C130 for the evolution strategy: with `n_iter` iterations and `lmbda` children each, a call for `n_rules` rules creates at most `n_rules·(1 + n_iter·lmbda)` rules. -/
theorem C130_evolution_strategy (E : HEnv K d M) (op : ESOperator) (delay : Nat) (m : Mutation) (accept : Rule K d M → Except PyErr Bool) (k : Kind) (starts : List (Pairs K d))
    (streams : List (List (ESDraw K d M))) (nIter lmbda : Nat) (hiter : ∀ s ∈ streams, s.length ≤ nIter) (hl : ∀ s ∈ streams, ∀ g ∈ s, g.1.length ≤ lmbda) (hlen : streams.length = starts.length) :
    MakesAtMost (starts.length * (1 + nIter * lmbda)) (hDiscoverES E op delay m accept k starts streams) := by
  have h1 := MakesAtMost.each (hInitial E k) (fun _ => 1) starts fun b _ => hInitial_makes E k b
  rw [sum_ones] at h1
  rw [Nat.mul_add, Nat.mul_one]
  refine MakesAtMost.bind h1 fun initial => MakesAtMost.mono (a := (starts.length * (nIter * lmbda)) + 0) (MakesAtMost.bind ?_ fun rules => MakesAtMost.reads _) (by omega)
  refine MakesAtMost.mono (MakesAtMost.each _ (fun p : Nat × List (ESDraw K d M) => (p.2.map fun g => g.1.length).sum) (initial.zip streams) fun p _ => hLoop_makes E op delay m p.2 p.1 []) ?_
  refine (sum_le_of _ (nIter * lmbda) _ fun p hp => ?_).trans ?_
  · have hp2 : p.2 ∈ streams := (List.of_mem_zip hp).2
    exact (sum_le_of _ lmbda _ fun g hg => hl p.2 hp2 g hg).trans (Nat.mul_le_mul_right _ (hiter p.2 hp2))
  · refine Nat.mul_le_mul_right _ ?_
    rw [List.length_zip, ← hlen]
    exact Nat.min_le_right _ _

/-- C130 for random search: `n_rules` groups of `rules_generated` rules. -/
theorem C130_random_rules (E : HEnv K d M) (accept : Rule K d M → Except PyErr Bool) (k : Kind) (groups : List (List (Pairs K d) × (List (Rule K d M) → Except PyErr (Option Nat))))
    (size : Nat) (hsize : ∀ g ∈ groups, g.1.length ≤ size) : MakesAtMost (groups.length * size) (hDiscoverRS E accept k groups) := by
  refine MakesAtMost.mono (a := (groups.length * size) + 0) (MakesAtMost.bind ?_ fun rules => MakesAtMost.reads _) (by omega)
  refine MakesAtMost.mono (MakesAtMost.each _ (fun g => g.1.length) groups fun g _ => ?_) (sum_le_of _ size _ hsize)
  have h1 := MakesAtMost.each (hInitial E k) (fun _ => 1) g.1 fun b _ => hInitial_makes E k b
  rw [sum_ones] at h1
  exact MakesAtMost.bind (b := 0) h1 fun cs => MakesAtMost.reads _

theorem hRuleCrossover_makes (rate u : K) (mask : Fin d → Bool) (a b : Nat) : MakesAtMost 2 (hRuleCrossover rate u mask a b : HM K d M (Nat × Nat)) := by
  intro h
  unfold hRuleCrossover
  split
  · split
    · split
      · exact MakesAtMost.bind (b := 1) (hDeepcopy_makes _) (fun _ => MakesAtMost.bind (b := 0) (hDeepcopy_makes _) fun _ => MakesAtMost.bind0 (hAssign_makes _ _) fun _ =>
          MakesAtMost.bind0 (hAssign_makes _ _) fun _ => MakesAtMost.ret _) h
      · simp
    · simp
  · simp

theorem hBreed_makes (E : HEnv K d M) (m : Mutation) (rate : K) (p : (Nat × Nat) × PairDraw K d) : MakesAtMost 4 (hBreed E m rate p) :=
  MakesAtMost.bind (b := 2) (hRuleCrossover_makes _ _ _ _ _) fun _ => MakesAtMost.bind (b := 1) (hChild_makes _ _ _ _) fun _ => MakesAtMost.bind (b := 0) (hChild_makes _ _ _ _) fun _ =>
    MakesAtMost.ret _

theorem pairsOf_length : ∀ l : List Nat, 2 * (pairsOf l).length ≤ l.length
  | [] => by simp [pairsOf]
  | [_] => by simp [pairsOf]
  | a :: b :: rest => by
    have := pairsOf_length rest
    simp only [pairsOf, List.length_cons]
    omega

theorem hNsStep_makes (E : HEnv K d M) (m : Mutation) (rate : K) (mu nElitists : Nat) (c : NsChoice K d M) (s : List Nat × List Nat) (lmbda : Nat)
    (hpar : ∀ ρs ps, c.parents ρs = .ok ps → ps.length ≤ lmbda) : MakesAtMost (2 * lmbda) (hNsStep E m rate mu nElitists c s) := by
  have key : ∀ pos : List Nat, pos.length ≤ lmbda → MakesAtMost (2 * lmbda) (HM.each (hBreed E m rate) (((pairsOf (at? s.1 pos)).zipIdx).map fun p => (p.1, c.draws p.2))) := by
    intro pos hpos
    refine MakesAtMost.mono (MakesAtMost.each (hBreed E m rate) (fun _ => 4) _ fun p _ => hBreed_makes E m rate p) ?_
    refine (sum_le_of _ 4 _ fun _ _ => le_refl _).trans ?_
    rw [List.length_map, List.length_zipIdx]
    have h2 := pairsOf_length (at? s.1 pos)
    have h3 : (at? s.1 pos).length ≤ pos.length := List.length_filterMap_le _ _
    omega
  intro h
  unfold hNsStep
  rw [HM.bind]
  simp only [HM.reads]
  cases hp : c.parents (s.1.filterMap h.view) with
  | error e => exact Nat.le_add_right _ _
  | ok pos =>
    dsimp only
    by_cases he : at? s.1 pos = []
    · rw [if_pos he]
      exact Nat.le_add_right _ _
    · rw [if_neg he]
      exact MakesAtMost.bind (b := 0) (key pos (hpar _ _ hp)) (fun cs => MakesAtMost.reads _) h

/-- C130 for novelty search: the copies of the pool, the start population, and in each of the `n_iter` iterations at most two rules for every one of the `lmbda` parents (a child of the
crossover and its mutation). -/
theorem C130_novelty_search (E : HEnv K d M) (m : Mutation) (rate : K) (mu nElitists : Nat) (accept : Rule K d M → Except PyErr Bool) (k : Kind) (pool : List Nat) (starts : List (Pairs K d))
    (choices : List (NsChoice K d M)) (n lmbda : Nat) (hpar : ∀ c ∈ choices, ∀ ρs ps, c.parents ρs = .ok ps → ps.length ≤ lmbda) :
    MakesAtMost (pool.length + (starts.length + choices.length * (2 * lmbda))) (hDiscoverNS E m rate mu nElitists accept k pool starts choices n) := by
  have h0 := MakesAtMost.each (M := M) (K := K) (d := d) hDeepcopy (fun _ => 1) pool fun r _ => hDeepcopy_makes r
  rw [sum_ones] at h0
  have h1 := MakesAtMost.each (hInitial E k) (fun _ => 1) starts fun b _ => hInitial_makes E k b
  rw [sum_ones] at h1
  refine MakesAtMost.bind h0 fun _ => MakesAtMost.bind h1 fun population => MakesAtMost.mono (a := choices.length * (2 * lmbda) + 0) (MakesAtMost.bind ?_ fun s => MakesAtMost.reads _) (by omega)
  clear h0 h1
  generalize (population, ([] : List Nat)) = s
  induction choices generalizing s with
  | nil => exact MakesAtMost.mono (MakesAtMost.ret s) (Nat.zero_le _)
  | cons c cs ih =>
    rw [List.length_cons, Nat.succ_mul, Nat.add_comm]
    refine MakesAtMost.bind ?_ fun s' => ih (fun c' hc' => hpar c' (List.mem_cons_of_mem _ hc')) s'
    exact hNsStep_makes E m rate mu nElitists c s lmbda fun ρs ps hps => hpar c (List.mem_cons_self ..) ρs ps hps

/-- The bounds are attained: after the evolution strategy (two rules, three iterations in all with two children each), random search has created two further rules and novelty search, with three
rules in the pool, three, two and four. -/
example : (hTrain objEnv [objES] { arrays := [fun _ => (0, 1)], objs := [] } []).1.objs.length = 2 + 3 * 2 ∧
    (hTrain objEnv [objES, objRS] { arrays := [fun _ => (0, 1)], objs := [] } []).1.objs.length = 8 + 1 * 2 ∧
    (hTrain objEnv [objES, objRS, objNS] { arrays := [fun _ => (0, 1)], objs := [] } []).1.objs.length = 10 + (3 + (2 + 1 * (2 * 2))) := by decide +kernel

end Rules

end Suprb
