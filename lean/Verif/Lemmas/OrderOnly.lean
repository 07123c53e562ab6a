import Verif.Lemmas.SimulateMap
import Verif.Lemmas.SimulateSearch
import Verif.Lemmas.Relabel
import Verif.Lemmas.Prog
import Verif.Model.Swarm
import Verif.Model.Saga

/-!
# Metaheuristics that use only the order of the fitness values

Random search, grey wolves, particle swarms and saga3 do the same if the attributes of all solutions are replaced in a way that keeps the order of the fitness values.
-/

set_option autoImplicit false
set_option linter.unusedSectionVars false

namespace Suprb

/-! ### Lists -/

theorem pyMax_sim {α β F F' : Type} [LT F] [DecidableLT F] [LT F'] [DecidableLT F'] {R : α → β → Prop} (ka : α → F) (kb : β → F')
    (hk : ∀ a b a' b', R a b → R a' b' → (kb b < kb b' ↔ ka a < ka a')) {l : List α} {l' : List β} (h : List.Forall₂ R l l') : Option.Rel R (pyMax ka l) (pyMax kb l') := by
  have aux : ∀ (l : List α) (l' : List β), List.Forall₂ R l l' → ∀ a b, R a b →
      R (l.foldl (fun best x => if ka best < ka x then x else best) a) (l'.foldl (fun best x => if kb best < kb x then x else best) b) := by
    intro l l' h
    induction h with
    | nil => exact fun _ _ h => h
    | @cons x y _ _ h1 _ ih =>
      intro a b hab
      rw [List.foldl_cons, List.foldl_cons]
      by_cases hc : ka a < ka x
      · rw [if_pos hc, if_pos ((hk _ _ _ _ hab h1).mpr hc)]
        exact ih _ _ h1
      · rw [if_neg hc, if_neg fun hc' => hc ((hk _ _ _ _ hab h1).mp hc')]
        exact ih _ _ hab
  cases h with
  | nil => exact .none
  | cons h1 h2 => exact .some (aux _ _ h2 _ _ h1)

theorem forall₂_zipIdx {α β : Type} {R : α → β → Prop} {l : List α} {l' : List β} (h : List.Forall₂ R l l') (k : Nat) :
    List.Forall₂ (fun x y => R x.1 y.1 ∧ y.2 = x.2) (l.zipIdx k) (l'.zipIdx k) := by
  induction h generalizing k with
  | nil => exact .nil
  | cons h1 _ ih => exact .cons ⟨h1, rfl⟩ (ih (k + 1))

theorem forall₂_mapIdx_mapIdx {α β γ δ : Type} {R : α → β → Prop} {S : γ → δ → Prop} {l : List α} {l' : List β} (h : List.Forall₂ R l l') (f : Nat → α → γ) (g : Nat → β → δ)
    (hfg : ∀ k a b, R a b → S (f k a) (g k b)) : List.Forall₂ S (l.mapIdx f) (l'.mapIdx g) := by
  rw [List.mapIdx_eq_zipIdx_map, List.mapIdx_eq_zipIdx_map]
  exact forall₂_map_map (forall₂_zipIdx h 0) _ _ fun x y hxy => by
    obtain ⟨a, i⟩ := x
    obtain ⟨b, j⟩ := y
    obtain ⟨h1, h2⟩ := hxy
    dsimp only at h2
    subst h2
    exact hfg _ _ _ h1

theorem forall₂_filterMap_getElem? {α β : Type} {R : α → β → Prop} {l : List α} {l' : List β} (h : List.Forall₂ R l l') (idx : List Nat) :
    List.Forall₂ R (idx.filterMap fun i => l[i]?) (idx.filterMap fun i => l'[i]?) := by
  induction idx with
  | nil => exact .nil
  | cons i rest ih =>
    have hi := forall₂_getElem? h i
    rw [List.filterMap_cons, List.filterMap_cons]
    revert hi
    generalize l[i]? = x
    generalize l'[i]? = x'
    intro hi
    cases hi with
    | none => exact ih
    | some h1 => exact .cons h1 ih

variable {K : Type} [Field K] [LinearOrder K]

/-! ### Programs -/

/-- With the other attributes the second program does what the first does. -/
def PSim {α β : Type} (φ : SolState K → SolState K) (R : α → β → Prop) (p : Prog K α) (p' : Prog K β) : Prop := ∀ ev, ERel R (p.run ev) (p'.run (mapEval φ ev))

section Progs

variable {φ : SolState K → SolState K} {α β γ δ : Type} {R : α → β → Prop} {S : γ → δ → Prop}

theorem PSim.ret {a : α} {b : β} (h : R a b) : PSim φ R (.ret a : Prog K α) (.ret b) := fun _ => .ok _ _ h

theorem PSim.err (e : PyErr) : PSim φ R (.err e : Prog K α) (.err e) := fun _ => .error e

theorem PSim.lift {x : Except PyErr α} {y : Except PyErr β} (h : ERel R x y) : PSim φ R (Prog.lift x : Prog K α) (Prog.lift y) := fun ev => by
  rw [Prog.run_lift, Prog.run_lift]
  exact h

theorem PSim.bind {p : Prog K α} {p' : Prog K β} (h : PSim φ R p p') {k : α → Prog K γ} {k' : β → Prog K δ} (hk : ∀ a b, R a b → PSim φ S (k a) (k' b)) :
    PSim φ S (p.bind k) (p'.bind k') := fun ev => by
  rw [Prog.run_bind, Prog.run_bind]
  have h1 := h ev
  revert h1
  generalize p.run ev = x
  generalize p'.run (mapEval φ ev) = x'
  intro h1
  cases h1 with
  | error e => exact .error e
  | ok a b hab => exact hk a b hab ev

theorem PSim.each {f : α → Prog K γ} {f' : β → Prog K δ} (hf : ∀ a b, R a b → PSim φ S (f a) (f' b)) {l : List α} {l' : List β} (h : List.Forall₂ R l l') :
    PSim φ (List.Forall₂ S) (Prog.each f l) (Prog.each f' l') := by
  induction h with
  | nil => exact .ret .nil
  | cons h1 _ ih => exact (hf _ _ h1).bind fun _ _ h2 => ih.bind fun _ _ h3 => .ret (.cons h2 h3)

theorem PSim.forEach {f : α → γ → Prog K α} {f' : β → γ → Prog K β} (l : List γ) (hf : ∀ c ∈ l, ∀ a b, R a b → PSim φ R (f a c) (f' b c)) (a : α) (b : β) (h : R a b) :
    PSim φ R (Prog.forEach f l a) (Prog.forEach f' l b) := by
  induction l generalizing a b with
  | nil => exact .ret h
  | cons c rest ih => exact (hf c (by simp) a b h).bind fun a' b' h' => ih (fun c' hc' => hf c' (by simp [hc'])) a' b' h'

end Progs

/-! ### Solutions -/

/-- The same solution with other attributes. -/
def Twin (φ : SolState K → SolState K) (σ σ' : Indiv K) : Prop := σ' = σ.mapSt φ

/-- The same evaluated solution with other attributes. -/
def FitTwin (φ : SolState K → SolState K) (σ σ' : Indiv K) : Prop := Twin φ σ σ' ∧ σ.st.isSome = true

section Strategies

variable {φ : SolState K → SolState K}

theorem Twin.genome {σ σ' : Indiv K} (h : Twin φ σ σ') : σ'.genome = σ.genome := by rw [show σ' = _ from h]; rfl

theorem twin_fresh (g : List Bool) : Twin φ (⟨g, none⟩ : Indiv K) ⟨g, none⟩ := rfl

theorem FitTwin.lt (hφ : KeepsOrder φ) (a a' b b' : Indiv K) (h : FitTwin φ a a') (h' : FitTwin φ b b') : a'.fitnessD < b'.fitnessD ↔ a.fitnessD < b.fitnessD := by
  rw [show a' = _ from h.1, show b' = _ from h'.1]
  exact fitnessD_lt hφ a b h.2 h'.2

theorem FitTwin.le (hφ : KeepsOrder φ) (a a' b b' : Indiv K) (h : FitTwin φ a a') (h' : FitTwin φ b b') : a'.fitnessD ≤ b'.fitnessD ↔ a.fitnessD ≤ b.fitnessD := by
  rw [← not_lt, ← not_lt, FitTwin.lt hφ b b' a a' h' h]

theorem evaluate_psim {σ σ' : Indiv K} (h : Twin φ σ σ') : PSim φ (FitTwin φ) σ.evaluate σ'.evaluate := fun ev => by
  have hg := h.genome
  unfold Indiv.evaluate Prog.run mapEval
  rw [hg]
  cases ev σ.genome with
  | error e => exact .error e
  | ok s => exact .ok _ _ ⟨rfl, rfl⟩

theorem evaluateAll_psim {pop pop' : List (Indiv K)} (h : List.Forall₂ (Twin φ) pop pop') : PSim φ (List.Forall₂ (FitTwin φ)) (evaluateAll pop) (evaluateAll pop') :=
  PSim.each (fun _ _ h => evaluate_psim h) h

theorem allFitted_of_twins {pop pop' : List (Indiv K)} (h : List.Forall₂ (FitTwin φ) pop pop') : allFitted pop = true ∧ pop' = pop.map (Indiv.mapSt φ) := by
  induction h with
  | nil => exact ⟨rfl, rfl⟩
  | cons h1 _ ih =>
    refine ⟨?_, ?_⟩
    · unfold allFitted
      rw [List.all_cons, h1.2, Bool.true_and]
      exact ih.1
    · rw [List.map_cons, ← ih.2, ← show _ = _ from h1.1]

theorem twins_map (pop : List (Indiv K)) : List.Forall₂ (Twin φ) pop (pop.map (Indiv.mapSt φ)) := forall₂_map_right (Indiv.mapSt φ) pop

theorem fittestIndiv_sim (hφ : KeepsOrder φ) {pop pop' : List (Indiv K)} (h : List.Forall₂ (FitTwin φ) pop pop') : ERel (FitTwin φ) (fittestIndiv pop) (fittestIndiv pop') := by
  unfold fittestIndiv
  have h1 := allFitted_of_twins h
  rw [if_pos h1.1, if_pos (by rw [h1.2, allFitted_mapSt]; exact h1.1)]
  have h2 := pyMax_sim Indiv.fitnessD Indiv.fitnessD (FitTwin.lt hφ) h
  revert h2
  generalize pyMax Indiv.fitnessD pop = x
  generalize pyMax Indiv.fitnessD pop' = x'
  intro h2
  cases h2 with
  | none => exact .error _
  | some h => exact .ok _ _ h

/-- Programs with related results give the same strategies. -/
theorem strategySim_of_psim {p p' : Nat → List (Indiv K) → Prog K (List (Indiv K))}
    (h : ∀ n pop, PSim φ (List.Forall₂ (FitTwin φ)) (p n pop) (p' n (pop.map (Indiv.mapSt φ)))) : StrategySim φ (Prog.strategy p) (Prog.strategy p') := by
  intro n ev pop
  have h1 := h n pop ev
  unfold Prog.strategy
  revert h1
  generalize (p n pop).run ev = x
  generalize (p' n (pop.map (Indiv.mapSt φ))).run (mapEval φ ev) = x'
  intro h1
  cases h1 with
  | error e => rfl
  | ok a b hab => rw [(allFitted_of_twins hab).2]; rfl

/-! ### Random search -/

theorem rsOne_psim (hφ : KeepsOrder φ) (init : InitOp K) (nIter n : Nat) (draw : Nat → Nat → K) : PSim φ (FitTwin φ) (rsOne init nIter n draw) (rsOne init nIter n draw) := by
  refine PSim.bind (evaluateAll_psim ?_) fun a b h => .lift (fittestIndiv_sim hφ h)
  exact forall₂_map_map (List.forall₂_same.mpr fun _ _ => rfl) _ _ fun a b (h : a = b) => by subst h; exact twin_fresh _

theorem rs_psim (hφ : KeepsOrder φ) (init : InitOp K) (populationSize nIter : Nat) (draw : Nat → Nat → Nat → K) (n : Nat) (pop : List (Indiv K)) :
    PSim φ (List.Forall₂ (FitTwin φ)) (rs init populationSize nIter draw n pop) (rs init populationSize nIter draw n (pop.map (Indiv.mapSt φ))) :=
  PSim.bind (evaluateAll_psim (twins_map pop)) fun _ _ _ =>
    PSim.each (fun a b (h : a = b) => by subst h; exact rsOne_psim hφ init nIter n (draw a)) (List.forall₂_same.mpr fun _ _ => rfl)

/-! ### Grey wolves -/

theorem wolfMove_sim (upd : WolfUpdate) (sig : K → K) (a : K) {leaders leaders' : List (Indiv K)} (hl : List.Forall₂ (FitTwin φ) leaders leaders') (d : WolfDraw K) {σ σ' : Indiv K}
    (h : FitTwin φ σ σ') : ERel (Twin φ) (wolfMove upd sig a leaders d σ) (wolfMove upd sig a leaders' d σ') := by
  have hl' := (allFitted_of_twins hl).2
  rw [show σ' = _ from h.1, hl']
  unfold wolfMove
  by_cases he : leaders = []
  · rw [if_pos he, if_pos (by rw [he]; rfl)]; exact .error _
  · rw [if_neg he, if_neg (by simpa using he)]
    have hm : ∀ {β : Type} (f : Nat → Indiv K → β) (hf : ∀ i τ, f i (τ.mapSt φ) = f i τ), (leaders.map (Indiv.mapSt φ)).mapIdx f = leaders.mapIdx f := by
      intro β f hf
      rw [List.mapIdx_eq_zipIdx_map, List.mapIdx_eq_zipIdx_map, List.zipIdx_map, List.map_map]
      refine List.map_congr_left fun x _ => ?_
      exact hf _ _
    cases upd with
    | sigmoid =>
      dsimp only
      refine .ok _ _ ?_
      unfold Twin Indiv.withGenome Indiv.mapSt
      dsimp only
      congr 1
      refine congrArg (sigmoidBinarize sig d.v) (congrArg (fun f => List.mapIdx f σ.genome) ?_)
      funext i b
      rw [← hm _ fun i τ => ?_]
      · rfl
      · rfl
    | crossover =>
      dsimp only
      refine .ok _ _ ?_
      unfold Twin Indiv.withGenome Indiv.mapSt
      dsimp only
      congr 1
      refine congrArg (fun f => List.mapIdx f σ.genome) ?_
      funext i b
      rw [← hm _ fun i τ => ?_]
      · rfl
      · rfl

theorem gwo_psim (hφ : KeepsOrder φ) (upd : WolfUpdate) (sig : K → K) (nLeaders : Nat) (draws : List (Nat → WolfDraw K)) (pop : List (Indiv K)) :
    PSim φ (List.Forall₂ (FitTwin φ)) (gwo upd sig nLeaders draws pop) (gwo upd sig nLeaders draws (pop.map (Indiv.mapSt φ))) := by
  refine PSim.bind (evaluateAll_psim (twins_map pop)) fun a b h => PSim.bind (PSim.lift (ERel.of_eq _)) fun step step' hstep => ?_
  subst hstep
  refine PSim.forEach _ (fun dr _ p p' hp => ?_) _ _ h
  refine PSim.bind (PSim.lift (R := List.Forall₂ (Twin φ)) ?_) fun _ _ h => evaluateAll_psim h
  refine ERel.mapM _ _ _ _ (forall₂_zipIdx hp 0) fun x y hxy => ?_
  rw [hxy.2]
  exact wolfMove_sim upd sig _ (forall₂_take _ _ _ (forall₂_sortedDesc_of_order _ _ (FitTwin.le hφ) _ _ hp)) _ hxy.1

/-! ### Particle swarm -/

/-- The same particle with other attributes of its solutions. -/
structure ParticleTwin (φ : SolState K → SolState K) (p p' : Particle K) : Prop where
  velocity : p'.velocity = p.velocity
  position : p'.position = p.position
  sol : FitTwin φ p.sol p'.sol
  bestPosition : p'.bestPosition = p.bestPosition
  best : FitTwin φ p.best p'.best

theorem clone_sim {σ σ' : Indiv K} (h : FitTwin φ σ σ') : ERel (FitTwin φ) σ.clone σ'.clone := by
  rw [show σ' = _ from h.1]
  obtain ⟨g, _ | s⟩ := σ
  · exact absurd h.2 (by simp)
  · exact .ok _ _ ⟨rfl, rfl⟩

theorem initParticle_sim (m : Movement K) (r v : Nat → K) {σ σ' : Indiv K} (h : FitTwin φ σ σ') : ERel (ParticleTwin φ) (m.initParticle r v σ) (m.initParticle r v σ') := by
  unfold Movement.initParticle
  have h1 := clone_sim h
  revert h1
  generalize σ.clone = x
  generalize σ'.clone = x'
  intro h1
  cases h1 with
  | error e => exact .error e
  | ok b b' hb =>
    dsimp only
    rw [h.1.genome]
    cases m <;> exact .ok _ _ ⟨rfl, rfl, h, rfl, hb⟩

theorem updateBest_sim (hφ : KeepsOrder φ) {p p' : Particle K} (h : ParticleTwin φ p p') : ERel (ParticleTwin φ) p.updateBest p'.updateBest := by
  unfold Particle.updateBest
  by_cases hc : p.best.fitnessD < p.sol.fitnessD
  · rw [if_pos hc, if_pos ((FitTwin.lt hφ _ _ _ _ h.best h.sol).mpr hc)]
    have h1 := clone_sim h.sol
    revert h1
    generalize p.sol.clone = x
    generalize p'.sol.clone = x'
    intro h1
    cases h1 with
    | error e => exact .error e
    | ok b b' hb => exact .ok _ _ ⟨h.velocity, h.position, h.sol, h.position, hb⟩
  · rw [if_neg hc, if_neg fun hc' => hc ((FitTwin.lt hφ _ _ _ _ h.best h.sol).mp hc')]
    exact .ok _ _ h

theorem FitTwin.setGenome {σ σ' : Indiv K} (h : FitTwin φ σ σ') (g : List Bool) : FitTwin φ { σ with genome := g } { σ' with genome := g } := by
  refine ⟨?_, h.2⟩
  rw [show σ' = _ from h.1]
  rfl

theorem bestOfSubset_sim (hφ : KeepsOrder φ) {ps ps' : List (Particle K)} (h : List.Forall₂ (ParticleTwin φ) ps ps') (idx : List Nat) :
    ERel (ParticleTwin φ) (bestOfSubset ps idx) (bestOfSubset ps' idx) := by
  unfold bestOfSubset
  have h1 := pyMax_sim (fun p : Particle K => p.best.fitnessD) (fun p : Particle K => p.best.fitnessD) (fun _ _ _ _ (h : ParticleTwin φ _ _) h' => FitTwin.lt hφ _ _ _ _ h.best h'.best)
    (forall₂_filterMap_getElem? h idx)
  revert h1
  generalize pyMax (fun p : Particle K => p.best.fitnessD) (idx.filterMap fun i => ps[i]?) = x
  generalize pyMax (fun p : Particle K => p.best.fitnessD) (idx.filterMap fun i => ps'[i]?) = x'
  intro h1
  cases h1 with
  | none => exact .error _
  | some h => exact .ok _ _ h

theorem attractor_sim (hφ : KeepsOrder φ) (pLearning : K) {ps ps' : List (Particle K)} (h : List.Forall₂ (ParticleTwin φ) ps ps') (d : MoveDraw K) {p p' : Particle K} (hp : ParticleTwin φ p p') :
    attractor pLearning ps' d p' = attractor pLearning ps d p := by
  unfold attractor
  have h1 := bestOfSubset_sim hφ h d.neighbours
  have h2 := bestOfSubset_sim hφ h d.neighbours2
  revert h1 h2
  generalize bestOfSubset ps d.neighbours = x
  generalize bestOfSubset ps' d.neighbours = x'
  generalize bestOfSubset ps d.neighbours2 = z
  generalize bestOfSubset ps' d.neighbours2 = z'
  intro h1 h2
  cases h1 with
  | error e => rfl
  | ok nb nb' hnb =>
    dsimp only
    rw [hp.best.1.genome, hnb.best.1.genome]
    cases h2 with
    | error e => rfl
    | ok nb2 nb2' hnb2 =>
      dsimp only
      rw [hnb2.best.1.genome]

theorem move_sim (hφ : KeepsOrder φ) (m : Movement K) (sig : K → K) (a : K) (d : PSODraw K) {ps ps' : List (Particle K)} (h : List.Forall₂ (ParticleTwin φ) ps ps') :
    ERel (List.Forall₂ (ParticleTwin φ)) (m.move sig a d ps) (m.move sig a d ps') := by
  have hmax := pyMax_sim (fun p : Particle K => p.sol.fitnessD) (fun p : Particle K => p.sol.fitnessD) (fun _ _ _ _ (h : ParticleTwin φ _ _) h' => FitTwin.lt hφ _ _ _ _ h.sol h'.sol) h
  cases m with
  | sigmoid b c vMax =>
    unfold Movement.move
    dsimp only
    revert hmax
    generalize pyMax (fun p : Particle K => p.sol.fitnessD) ps = x
    generalize pyMax (fun p : Particle K => p.sol.fitnessD) ps' = x'
    intro hmax
    cases hmax with
    | none => exact .error _
    | some hg =>
      refine .ok _ _ (forall₂_mapIdx_mapIdx h _ _ fun k p p' hp => ?_)
      unfold sigmoidMove
      dsimp only
      rw [hg.position, hp.position, hp.velocity, hp.bestPosition]
      exact ⟨rfl, rfl, hp.sol.setGenome _, rfl, hp.best⟩
  | quantum =>
    unfold Movement.move
    dsimp only
    revert hmax
    generalize pyMax (fun p : Particle K => p.sol.fitnessD) ps = x
    generalize pyMax (fun p : Particle K => p.sol.fitnessD) ps' = x'
    intro hmax
    cases hmax with
    | none => exact .error _
    | some hg =>
      dsimp only
      rw [hg.position]
      have hmean : ∀ i, ps'.map (fun p => p.position.getD i 0) = ps.map fun p => p.position.getD i 0 := fun i =>
        map_eq_of_forall₂ h _ _ fun p p' hp => by rw [hp.position]
      simp only [hmean]
      refine .ok _ _ (forall₂_mapIdx_mapIdx h _ _ fun k p p' hp => ?_)
      unfold quantumMove
      dsimp only
      rw [hp.position]
      exact ⟨hp.velocity, rfl, hp.sol.setGenome _, hp.bestPosition, hp.best⟩
  | binary pLearning =>
    have hgen : ps'.map (fun p => p.sol.genome) = ps.map fun p => p.sol.genome := map_eq_of_forall₂ h _ _ fun p p' hp => hp.sol.1.genome
    have hatt : (ps'.zipIdx).mapM (fun x => attractor pLearning ps' (d.move x.2) x.1) = (ps.zipIdx).mapM fun x => attractor pLearning ps (d.move x.2) x.1 :=
      mapM_sim _ _ (fun x y (hxy : ParticleTwin φ x.1 y.1 ∧ y.2 = x.2) => by rw [hxy.2]; exact attractor_sim hφ pLearning h _ hxy.1) (forall₂_zipIdx h 0)
    unfold Movement.move
    dsimp only
    cases h with
    | nil => exact .error _
    | @cons p0 p0' rest rest' h0 hrest =>
      dsimp only
      rw [hatt, hgen, h0.sol.1.genome]
      cases ((p0 :: rest).zipIdx).mapM fun x => attractor pLearning (p0 :: rest) (d.move x.2) x.1 with
      | error e => exact .error e
      | ok atts =>
        refine .ok _ _ (forall₂_mapIdx_mapIdx (R := fun x y => ParticleTwin φ x.1 y.1 ∧ y.2 = x.2) ?_ _ _ fun k x y hxy => ?_)
        · exact forall₂_zip (S := fun a b => b = a) _ _ (.cons h0 hrest) _ _ (List.forall₂_same.mpr fun _ _ => rfl)
        · obtain ⟨p, g⟩ := x
          obtain ⟨p', g'⟩ := y
          obtain ⟨hp, hg⟩ := hxy
          dsimp only at hp hg
          subst hg
          unfold binaryMove
          dsimp only
          rw [hp.sol.1.genome]
          exact ⟨hp.velocity, hp.position, hp.sol.setGenome _, hp.bestPosition, hp.best⟩

theorem particle_evaluate_psim {p p' : Particle K} (h : ParticleTwin φ p p') : PSim φ (ParticleTwin φ) p.evaluate p'.evaluate :=
  (evaluate_psim h.sol.1).bind fun _ _ hσ => .ret ⟨h.velocity, h.position, hσ, h.bestPosition, h.best⟩

theorem pso_psim (hφ : KeepsOrder φ) (m : Movement K) (sig : K → K) (aMin aMax : K) (init : Nat → (Nat → K) × (Nat → K)) (draws : List (PSODraw K)) (pop : List (Indiv K)) :
    PSim φ (fun s s' => List.Forall₂ (ParticleTwin φ) s.particles s'.particles) (pso m sig aMin aMax init draws pop) (pso m sig aMin aMax init draws (pop.map (Indiv.mapSt φ))) := by
  refine PSim.bind (evaluateAll_psim (twins_map pop)) fun a b h => PSim.bind (PSim.lift (ERel.of_eq _)) fun step step' hstep => ?_
  subst hstep
  refine PSim.bind (PSim.lift (R := List.Forall₂ (ParticleTwin φ)) ?_) fun ps ps' hps => ?_
  · refine ERel.mapM _ _ _ _ (forall₂_zipIdx h 0) fun x y hxy => ?_
    rw [hxy.2]
    exact initParticle_sim m _ _ hxy.1
  · refine PSim.forEach _ (fun dr _ s s' hs => ?_) _ _ hps
    refine PSim.bind (PSim.lift (move_sim hφ m sig _ _ hs)) fun moved moved' hm => ?_
    refine PSim.bind (PSim.each (fun _ _ => particle_evaluate_psim) hm) fun fitted fitted' hf => ?_
    refine PSim.bind (PSim.lift (ERel.mapM _ _ _ _ hf fun _ _ => updateBest_sim hφ)) fun _ _ h => .ret h

/-! ### Saga3 -/

/-- The same solution of saga3 with other attributes. -/
def SagaObj.mapSt (φ : SolState K → SolState K) (o : SagaObj K) : SagaObj K := { o with indiv := o.indiv.mapSt φ }

/-- The same evaluated solution of saga3 with other attributes. -/
def SagaTwin (φ : SolState K → SolState K) (o o' : SagaObj K) : Prop := o' = o.mapSt φ ∧ o.indiv.st.isSome = true

theorem nPointA_mapSt (idx : List Nat) (A B : Indiv K) : nPointA idx (A.mapSt φ) (B.mapSt φ) = (nPointA idx A B).mapSt φ := by
  induction idx generalizing A with
  | nil => rfl
  | cons i rest ih => exact ih (A.withGenome (singlePoint A.genome B.genome i))

theorem saga3Cross_mapSt (pmr : K) (d : Saga3Draw K) (h : Objs K) (a b : Nat) :
    saga3Cross pmr d (h.map (SagaObj.mapSt φ)) a b = (saga3Cross pmr d h a b).map fun r => (r.1.map (SagaObj.mapSt φ), r.2) := by
  unfold saga3Cross
  rw [List.getElem?_map, List.getElem?_map]
  cases h[a]? with
  | none => rfl
  | some A =>
    cases h[b]? with
    | none => rfl
    | some B =>
      dsimp only [Option.map_some]
      rw [show saga3Params pmr d (A.mapSt φ) (B.mapSt φ) = saga3Params pmr d A B from rfl]
      by_cases hc : d.rCross < (saga3Params pmr d A B).1
      · rw [if_pos hc, if_pos hc]
        cases (saga3Params pmr d A B).2.2 with
        | nPoint =>
          dsimp only
          by_cases he : d.indices = []
          · rw [if_pos he, if_pos he]
            simp [Except.map, List.map_set, SagaObj.mapSt]
          · rw [if_neg he, if_neg he]
            simp only [Except.map, List.map_append, List.map_cons, List.map_nil, List.length_map]
            rw [show (A.mapSt φ).indiv = A.indiv.mapSt φ from rfl, show (B.mapSt φ).indiv = B.indiv.mapSt φ from rfl, nPointA_mapSt]
            rfl
        | uniform =>
          dsimp only
          rw [show (A.mapSt φ).indiv.genome = A.indiv.genome from rfl, show (B.mapSt φ).indiv.genome = B.indiv.genome from rfl]
          cases uniformCross d.u A.indiv.genome B.indiv.genome with
          | error e => rfl
          | ok g =>
            simp only [Except.map, List.map_append, List.map_cons, List.map_nil, List.length_map]
            rfl
      · rw [if_neg hc, if_neg hc]
        simp [Except.map, List.map_set, SagaObj.mapSt]

theorem saga3Children_mapSt (pmr : K) (draw : Nat → Bool → Saga3Draw K) (k : Nat) (ps : List (Nat × Nat)) (h : Objs K) :
    saga3Children pmr draw k ps (h.map (SagaObj.mapSt φ)) = (saga3Children pmr draw k ps h).map fun r => (r.1.map (SagaObj.mapSt φ), r.2) := by
  induction ps generalizing k h with
  | nil => rfl
  | cons p rest ih =>
    obtain ⟨a, b⟩ := p
    unfold saga3Children
    rw [saga3Cross_mapSt]
    cases saga3Cross pmr (draw k true) h a b with
    | error e => rfl
    | ok r1 =>
      obtain ⟨h1, c1⟩ := r1
      dsimp only [Except.map]
      rw [saga3Cross_mapSt]
      cases saga3Cross pmr (draw k false) h1 b a with
      | error e => rfl
      | ok r2 =>
        obtain ⟨h2, c2⟩ := r2
        dsimp only [Except.map]
        rw [ih]
        cases saga3Children pmr draw (k + 1) rest h2 with
        | error e => rfl
        | ok r3 => rfl

theorem positions_mapSt (hφ : KeepsOrder φ) (sel : SelDraw) (hsel : sel.ByOrder) (pop : List (Indiv K)) (hpop : ∀ σ ∈ pop, σ.st.isSome = true) :
    sel.positions (pop.map (Indiv.mapSt φ)) = sel.positions pop := by
  unfold SelDraw.positions
  rw [selRun_mapSt hφ sel (.inl hsel)]
  cases sel.run pop with
  | error e => rfl
  | ok r =>
    dsimp only [Except.map]
    cases sel with
    | random idx => dsimp only; rw [List.length_map]
    | roulette idx => exact hsel.elim
    | linearRank idx => dsimp only; rw [List.length_map]
    | tournament idx =>
      dsimp only
      rw [List.length_map]
      refine congrArg Except.ok (congrArg (fun f => List.filterMap f idx) ?_)
      funext js
      have h := pyMax_sim (R := fun a b : Nat => b = a ∧ a < pop.length) (fun j => (pop[j]?.map Indiv.fitnessD).getD 0) (fun j => ((pop.map (Indiv.mapSt φ))[j]?.map Indiv.fitnessD).getD 0)
        (fun a b a' b' hab hab' => by
          obtain ⟨rfl, ha⟩ := hab
          obtain ⟨rfl, ha'⟩ := hab'
          rw [List.getElem?_map, List.getElem?_map, List.getElem?_eq_getElem ha, List.getElem?_eq_getElem ha']
          exact fitnessD_lt hφ _ _ (hpop _ (List.getElem_mem ha)) (hpop _ (List.getElem_mem ha')))
        (l := js.filter (· < pop.length)) (l' := js.filter (· < pop.length))
        (List.forall₂_same.mpr fun j hj => ⟨rfl, by simpa using (List.mem_filter.mp hj).2⟩)
      revert h
      generalize pyMax (fun j => (pop[j]?.map Indiv.fitnessD).getD 0) (js.filter (· < pop.length)) = x
      generalize pyMax (fun j => ((pop.map (Indiv.mapSt φ))[j]?.map Indiv.fitnessD).getD 0) (js.filter (· < pop.length)) = x'
      intro h
      cases h with
      | none => rfl
      | some h => rw [h.1]

theorem sagaObj_evaluate_psim {o o' : SagaObj K} (h : o' = o.mapSt φ) : PSim φ (SagaTwin φ) o.evaluate o'.evaluate := by
  subst h
  exact (evaluate_psim (show Twin φ o.indiv (o.mapSt φ).indiv from rfl)).bind fun σ σ' hσ => .ret ⟨by rw [show σ' = _ from hσ.1]; rfl, hσ.2⟩

theorem sagaTwins {pop pop' : Objs K} (h : List.Forall₂ (SagaTwin φ) pop pop') : (∀ o ∈ pop, o.indiv.st.isSome = true) ∧ pop' = pop.map (SagaObj.mapSt φ) := by
  induction h with
  | nil => exact ⟨by simp, rfl⟩
  | cons h1 _ ih =>
    refine ⟨?_, by rw [List.map_cons, ← ih.2, ← h1.1]⟩
    intro o ho
    rcases List.mem_cons.mp ho with rfl | ho
    · exact h1.2
    · exact ih.1 o ho

theorem saga3_psim (hφ : KeepsOrder φ) (cfg : Saga3Cfg K) (draws : List (Saga3GenDraw K)) (hsel : ∀ dr ∈ draws, dr.sel.ByOrder) (pop : Objs K) :
    PSim φ (fun s s' => List.Forall₂ (SagaTwin φ) s.pop s'.pop) (saga3 cfg draws pop) (saga3 cfg draws (pop.map (SagaObj.mapSt φ))) := by
  unfold saga3
  by_cases he : cfg.populationSize % 2 = 0
  · rw [if_pos he, if_pos he]
    refine PSim.bind (PSim.each (fun _ _ => sagaObj_evaluate_psim) (forall₂_map_right (SagaObj.mapSt φ) pop)) fun a b hab => ?_
    refine PSim.forEach _ (fun dr hdr s s' hs => ?_) _ _ hab
    obtain ⟨hfit, hpop⟩ := sagaTwins hs
    have hind : s'.pop.map SagaObj.indiv = (s.pop.map SagaObj.indiv).map (Indiv.mapSt φ) := by rw [hpop, List.map_map, List.map_map]; rfl
    have hfit' : ∀ σ ∈ s.pop.map SagaObj.indiv, σ.st.isSome = true := by
      intro σ hσ
      obtain ⟨o, ho, rfl⟩ := List.mem_map.mp hσ
      exact hfit o ho
    unfold saga3Step
    dsimp only
    rw [hind, allFitted_mapSt, positions_mapSt hφ _ (hsel dr hdr) _ hfit']
    refine PSim.bind (PSim.lift (ERel.of_eq _)) fun parents parents' hp => ?_
    subst hp
    have helite : sortedDesc (fun i => (((s.pop.map SagaObj.indiv).map (Indiv.mapSt φ))[i]?.map Indiv.fitnessD).getD 0) (List.range s'.pop.length) =
        sortedDesc (fun i => ((s.pop.map SagaObj.indiv)[i]?.map Indiv.fitnessD).getD 0) (List.range s.pop.length) := by
      rw [show s'.pop.length = s.pop.length by rw [hpop, List.length_map]]
      have := forall₂_sortedDesc_of_order (R := fun a b : Nat => b = a ∧ a < s.pop.length) (fun i => ((s.pop.map SagaObj.indiv)[i]?.map Indiv.fitnessD).getD 0)
        (fun i => (((s.pop.map SagaObj.indiv).map (Indiv.mapSt φ))[i]?.map Indiv.fitnessD).getD 0)
        (fun a b a' b' hab hab' => by
          obtain ⟨rfl, ha⟩ := hab
          obtain ⟨rfl, ha'⟩ := hab'
          simp only [List.getElem?_map, List.getElem?_eq_getElem ha, List.getElem?_eq_getElem ha', Option.map_some, Option.getD_some]
          exact FitTwin.le hφ _ _ _ _ ⟨rfl, hfit _ (List.getElem_mem _)⟩ ⟨rfl, hfit _ (List.getElem_mem _)⟩)
        (List.range s.pop.length) (List.range s.pop.length) (List.forall₂_same.mpr fun i hi => ⟨rfl, List.mem_range.mp hi⟩)
      have heq : ∀ l l' : List Nat, List.Forall₂ (fun a b : Nat => b = a ∧ a < s.pop.length) l l' → l' = l := by
        intro l l' h
        induction h with
        | nil => rfl
        | cons h1 _ ih => rw [h1.1, ih]
      exact heq _ _ this
    rw [helite, hpop, saga3Children_mapSt]
    refine PSim.bind (PSim.lift (R := fun r r' => r' = (r.1.map (SagaObj.mapSt φ), r.2)) ?_) fun hc hc' h => ?_
    · cases saga3Children cfg.paramRate dr.cross 0 (pairs parents') s.pop with
      | error e => exact .error e
      | ok r => exact .ok _ _ rfl
    · subst h
      dsimp only
      refine PSim.bind (PSim.each (R := fun o o' => o' = o.mapSt φ) (fun _ _ => sagaObj_evaluate_psim) ?_) fun _ _ h => .ret h
      refine forall₂_append (forall₂_filterMap_getElem? (forall₂_map_right _ _) _) ?_
      refine forall₂_map_map (forall₂_zipIdx (forall₂_filterMap_getElem? (forall₂_map_right (SagaObj.mapSt φ) hc.1) hc.2) 0) _ _ fun x y hxy => ?_
      rw [hxy.2, hxy.1]
      rfl
  · rw [if_neg he, if_neg he]
    exact .err _

end Strategies

end Suprb
