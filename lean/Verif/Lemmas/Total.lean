import Verif.Lemmas.Swarm
import Verif.Lemmas.Default
import Verif.Model.Aco

/-!
# Programs that do not fail
-/

set_option autoImplicit false
set_option linter.unusedSectionVars false

namespace Suprb

open Spec

variable {K : Type} [Field K] [LinearOrder K]

namespace Prog

variable {α β : Type}

/-- The execution succeeds and its result satisfies `P`. -/
def Runs (ev : Eval K) (P : α → Prop) (p : Prog K α) : Prop := ∃ a, p.run ev = .ok a ∧ P a

theorem Runs.ret {ev : Eval K} {P : α → Prop} {a : α} (h : P a) : Runs ev P (ret a) := ⟨a, rfl, h⟩

theorem Runs.mono {ev : Eval K} {P Q : α → Prop} {p : Prog K α} (h : ∀ a, P a → Q a) (hp : Runs ev P p) : Runs ev Q p := by
  obtain ⟨a, h1, h2⟩ := hp
  exact ⟨a, h1, h a h2⟩

theorem Runs.bind {ev : Eval K} {P : α → Prop} {Q : β → Prop} {p : Prog K α} {f : α → Prog K β} (hp : Runs ev P p) (hf : ∀ a, P a → Runs ev Q (f a)) :
    Runs ev Q (p.bind f) := by
  obtain ⟨a, h1, h2⟩ := hp
  obtain ⟨b, h3, h4⟩ := hf a h2
  exact ⟨b, by rw [run_bind, h1]; exact h3, h4⟩

theorem Runs.bind' {ev : Eval K} {P : α → Prop} {Q : β → Prop} {p : Prog K α} {f : α → Prog K β} (hp : Runs ev P p) (hf : ∀ a, P a → Runs ev Q (f a)) :
    Runs ev Q (p >>= f) := Runs.bind hp hf

theorem Runs.lift {ev : Eval K} {P : α → Prop} {r : Except PyErr α} (h : ∃ a, r = .ok a ∧ P a) : Runs ev P (lift r : Prog K α) := by
  obtain ⟨a, h1, h2⟩ := h
  exact ⟨a, by rw [run_lift, h1], h2⟩

/-- Total and partial correctness together. -/
theorem Runs.and_sat {ev : Eval K} {n : List Bool → Prop} {P Q : α → Prop} {p : Prog K α} (hp : Runs ev P p) (hs : Sat ev n Q p) : Runs ev (fun a => P a ∧ Q a) p := by
  obtain ⟨a, h1, h2⟩ := hp
  exact ⟨a, h1, h2, hs.run a h1⟩

theorem Runs.forEach {ev : Eval K} (I : List β → α → Prop) (f : α → β → Prog K α) (l : List β) (a : α) (h0 : I l a)
    (hf : ∀ b rest a, I (b :: rest) a → Runs ev (I rest) (f a b)) : Runs ev (I []) (forEach f l a) := by
  induction l generalizing a with
  | nil => exact Runs.ret h0
  | cons b rest ih => exact Runs.bind (hf b rest a h0) fun a' ha' => ih a' ha'

theorem Runs.each {ev : Eval K} (f : α → Prog K β) (l : List α) (hf : ∀ a ∈ l, Runs ev (fun _ => True) (f a)) :
    Runs ev (fun bs => bs.length = l.length) (each f l) := by
  induction l with
  | nil => exact Runs.ret rfl
  | cons a rest ih =>
    refine Runs.bind (hf a (List.mem_cons_self ..)) fun b _ => ?_
    refine Runs.bind (ih fun x hx => hf x (List.mem_cons_of_mem _ hx)) fun bs hbs => ?_
    exact Runs.ret (by simp [hbs])

end Prog

/-- Evaluations of genomes with `n` bits succeed. -/
def TotalEval (ev : Eval K) (n : Nat) : Prop := ∀ g : List Bool, g.length = n → ∃ s, ev g = .ok s

theorem evaluate_runs {ev : Eval K} {n : Nat} (hev : TotalEval ev n) (σ : Indiv K) (h : σ.genome.length = n) : σ.evaluate.Runs ev fun τ => EvLen ev n τ := by
  obtain ⟨s, hs⟩ := hev σ.genome h
  refine ⟨{ σ with st := some s }, ?_, h, s, rfl, hs⟩
  unfold Indiv.evaluate Prog.run
  rw [hs]
  rfl

theorem evaluateAll_runs {ev : Eval K} {n : Nat} (hev : TotalEval ev n) (pop : List (Indiv K)) (h : AllLen n pop) :
    (evaluateAll pop).Runs ev fun pop' => pop'.length = pop.length ∧ ∀ τ ∈ pop', EvLen ev n τ :=
  Prog.Runs.mono (fun _ h => ⟨h.1, h.2.2⟩)
    ((Prog.Runs.each Indiv.evaluate pop fun σ hσ => Prog.Runs.mono (fun _ _ => trivial) (evaluate_runs hev σ (h σ hσ))).and_sat (evaluateAll_sat ev n pop h))

/-- A program that never fails and never returns an empty population gives a strategy of this kind. -/
theorem strategy_total (p : Nat → List (Indiv K) → Prog K (List (Indiv K)))
    (h : ∀ n ev pop, n ≠ 0 → AllLen n pop → pop ≠ [] → TotalEval ev n → (p n pop).Runs ev fun pop' => pop' ≠ []) : (Prog.strategy p).Total :=
  fun n ev pop hn hl hne hev => h n ev pop hn hl hne hev

theorem ne_nil_of_length {α β : Type} {l : List α} {l' : List β} (h : l'.length = l.length) (hne : l ≠ []) : l' ≠ [] := by
  rintro rfl
  exact hne (List.length_eq_zero_iff.mp (by simpa using h.symm))

theorem evLen_fit {ev : Eval K} {n : Nat} {σ : Indiv K} (h : EvLen ev n σ) : ∃ s, σ.st = some s := by
  obtain ⟨_, s, hs, _⟩ := h
  exact ⟨s, hs⟩

/-! ## Random search -/

theorem rsOne_runs {ev : Eval K} {n : Nat} (hev : TotalEval ev n) (init : InitOp K) (nIter : Nat) (hn : 1 ≤ nIter) (draw : Nat → Nat → K) :
    (rsOne init nIter n draw).Runs ev fun _ => True := by
  unfold rsOne
  refine Prog.Runs.bind' (evaluateAll_runs hev _ ?_) fun sols hs => ?_
  · intro σ hσ
    obtain ⟨k, _, rfl⟩ := List.mem_map.mp hσ
    exact length_initBits ..
  · refine Prog.Runs.lift ?_
    obtain ⟨σ, h⟩ := fittestIndiv_ok sols (by
      rintro rfl
      have := hs.1
      simp at this
      omega) fun σ hσ => evLen_fit (hs.2 σ hσ)
    exact ⟨σ, h, trivial⟩

theorem rs_total (init : InitOp K) (populationSize nIter : Nat) (hp : 1 ≤ populationSize) (hn : 1 ≤ nIter) (draw : Nat → Nat → Nat → K) :
    (Prog.strategy fun n pop => rs init populationSize nIter draw n pop).Total := by
  refine strategy_total _ fun n ev pop _ hl _ hev => ?_
  unfold rs
  refine Prog.Runs.bind' (evaluateAll_runs hev _ hl) fun _ _ => ?_
  refine Prog.Runs.mono ?_ (Prog.Runs.each _ _ fun k _ => rsOne_runs hev init nIter hn (draw k))
  rintro l hlen rfl
  simp at hlen
  omega

/-! ## Grey wolves -/

theorem wolfMove_ok (upd : WolfUpdate) (sig : K → K) (a : K) (leaders : List (Indiv K)) (hne : leaders ≠ []) (d : WolfDraw K) (σ : Indiv K) :
    ∃ τ, wolfMove upd sig a leaders d σ = .ok τ := by
  unfold wolfMove
  rw [if_neg hne]
  cases upd <;> exact ⟨_, rfl⟩

theorem gwo_total (upd : WolfUpdate) (sig : K → K) (nLeaders : Nat) (hlead : 1 ≤ nLeaders) (draws : List (Nat → WolfDraw K)) (hd : draws ≠ []) :
    (Prog.strategy fun _ pop => gwo upd sig nLeaders draws pop).Total := by
  refine strategy_total _ fun n ev pop _ hl hne hev => ?_
  unfold gwo
  refine Prog.Runs.bind' (evaluateAll_runs hev _ hl) fun pop' hpop => ?_
  refine Prog.Runs.bind' (P := fun _ => True) (Prog.Runs.lift ⟨2 / (draws.length : K), ?_, trivial⟩) fun step _ => ?_
  · rw [if_neg fun h => hd (List.length_eq_zero_iff.mp h)]
  · refine Prog.Runs.mono (fun _ h => h.1) (Prog.Runs.forEach (fun _ s => s ≠ [] ∧ ∀ σ ∈ s, EvLen ev n σ) _ _ pop' ⟨ne_nil_of_length hpop.1 hne, hpop.2⟩ ?_)
    rintro d _ s ⟨hs1, hs2⟩
    refine Prog.Runs.mono (fun _ h => h) (Prog.Runs.and_sat ?_ (gwoStep_sat upd sig nLeaders step ev n s d hs2))
    unfold gwoStep
    have hlne : (sortedDesc Indiv.fitnessD s).take nLeaders ≠ [] := by
      intro h
      have hlen := congrArg List.length h
      rw [List.length_take, (sortedDesc_perm Indiv.fitnessD s).length_eq] at hlen
      have := List.length_pos_iff.mpr hs1
      rw [List.length_nil] at hlen
      omega
    obtain ⟨new, hnew⟩ := mapM_total (fun x : Indiv K × Nat => wolfMove upd sig (2 - (d.2 : K) * step) ((sortedDesc Indiv.fitnessD s).take nLeaders) (d.1 x.2) x.1) s.zipIdx
      fun x _ => wolfMove_ok _ _ _ _ hlne _ _
    have hlen : new.length = s.length := by rw [mapM_length _ _ _ hnew, List.length_zipIdx]
    refine Prog.Runs.bind' (P := fun l => l = new) (Prog.Runs.lift ⟨new, hnew, rfl⟩) fun l hl => ?_
    subst hl
    refine Prog.Runs.mono (fun _ h => ne_nil_of_length (h.1.trans hlen) hs1) (evaluateAll_runs hev _ ?_)
    intro τ hτ
    obtain ⟨x, hx, he⟩ := mem_of_mapM_ok _ _ _ hnew τ hτ
    rw [wolfMove_len _ _ _ _ _ _ _ he]
    exact (hs2 _ (mem_of_mem_zipIdx hx)).1

/-! ## Particle swarm -/

/-- The attractors of the binary movement are drawn among `size` particles, at least one each time. -/
def Movement.PossibleDraw (m : Movement K) (size : Nat) (d : PSODraw K) : Prop :=
  ∀ q, m = .binary q → ∀ k, (∃ i ∈ (d.move k).neighbours, i < size) ∧ ∃ i ∈ (d.move k).neighbours2, i < size

theorem pyMax_ok {α : Type} (f : α → K) (l : List α) (h : l ≠ []) : ∃ a, pyMax f l = some a := by
  cases l with
  | nil => exact absurd rfl h
  | cons a as => exact ⟨_, rfl⟩

theorem bestOfSubset_ok (ps : List (Particle K)) (idx : List Nat) (h : ∃ i ∈ idx, i < ps.length) : ∃ p, bestOfSubset ps idx = .ok p := by
  obtain ⟨i, hi, hlt⟩ := h
  obtain ⟨p, hp⟩ := pyMax_ok (fun p : Particle K => p.best.fitnessD) (idx.filterMap fun i => ps[i]?) (by
    intro hnil
    have : ps[i] ∈ idx.filterMap fun i => ps[i]? := List.mem_filterMap.mpr ⟨i, hi, List.getElem?_eq_getElem hlt⟩
    rw [hnil] at this
    cases this)
  refine ⟨p, ?_⟩
  unfold bestOfSubset
  rw [hp]

theorem attractor_ok (q : K) (ps : List (Particle K)) (d : MoveDraw K) (p : Particle K) (hp : p.best.genome ≠ []) (h1 : ∃ i ∈ d.neighbours, i < ps.length)
    (h2 : ∃ i ∈ d.neighbours2, i < ps.length) : ∃ g, attractor q ps d p = .ok g := by
  obtain ⟨a, ha⟩ := bestOfSubset_ok ps _ h1
  obtain ⟨b, hb⟩ := bestOfSubset_ok ps _ h2
  unfold attractor
  rw [ha]
  dsimp only
  split
  · rename_i he
    rw [he, if_neg hp, hb]
    exact ⟨_, rfl⟩
  · exact ⟨_, rfl⟩

theorem move_ok (m : Movement K) (sig : K → K) (a : K) (d : PSODraw K) (ps : List (Particle K)) (ev : Eval K) (n : Nat) (hn : n ≠ 0) (hne : ps ≠ [])
    (h : ∀ p ∈ ps, p.Ok ev n m) (hd : m.PossibleDraw ps.length d) : ∃ ps', m.move sig a d ps = .ok ps' ∧ ps'.length = ps.length := by
  cases m with
  | sigmoid b c v =>
    obtain ⟨g, hg⟩ := pyMax_ok (fun p : Particle K => p.sol.fitnessD) ps hne
    unfold Movement.move
    dsimp only
    rw [hg]
    exact ⟨_, rfl, by simp⟩
  | quantum =>
    obtain ⟨g, hg⟩ := pyMax_ok (fun p : Particle K => p.sol.fitnessD) ps hne
    unfold Movement.move
    dsimp only
    rw [hg]
    exact ⟨_, rfl, by simp⟩
  | binary q =>
    cases ps with
    | nil => exact absurd rfl hne
    | cons p0 rest =>
      obtain ⟨atts, hatts⟩ := mapM_total (fun x : Particle K × Nat => attractor q (p0 :: rest) (d.move x.2) x.1) (p0 :: rest).zipIdx (by
        intro x hx
        refine attractor_ok q _ _ _ ?_ (hd q rfl x.2).1 (hd q rfl x.2).2
        have := (h x.1 (mem_of_mem_zipIdx hx)).2.1.1
        intro hnil
        rw [hnil] at this
        exact hn this.symm)
      have hlen := mapM_length _ _ _ hatts
      unfold Movement.move
      dsimp only
      rw [hatts]
      refine ⟨_, rfl, ?_⟩
      rw [List.length_mapIdx, List.length_zip, hlen, List.length_zipIdx, min_self]

theorem updateBest_ok (ev : Eval K) (n : Nat) (p : Particle K) (h : EvLen ev n p.sol) : ∃ p', p.updateBest = .ok p' := by
  obtain ⟨s, hs⟩ := evLen_fit h
  unfold Particle.updateBest
  split
  · rw [Indiv.clone_ok _ _ hs]; exact ⟨_, rfl⟩
  · exact ⟨_, rfl⟩

theorem psoStep_runs (m : Movement K) (sig : K → K) (aMax step : K) {ev : Eval K} {n : Nat} (hn : n ≠ 0) (hev : TotalEval ev n) (s : PSOState K) (d : PSODraw K × Nat)
    (hne : s.particles ≠ []) (h : ∀ p ∈ s.particles, p.Ok ev n m) (hd : m.PossibleDraw s.particles.length d.1) :
    (psoStep m sig aMax step s d).Runs ev fun s' => s'.particles.length = s.particles.length := by
  unfold psoStep
  obtain ⟨moved, hm, hml⟩ := move_ok m sig (aMax - (d.2 : K) * step) d.1 s.particles ev n hn hne h hd
  have hmoved := move_moved m sig _ _ s.particles moved ev n h hm
  refine Prog.Runs.bind' (P := fun l => l = moved) (Prog.Runs.lift ⟨moved, hm, rfl⟩) fun l hl => ?_
  subst hl
  refine Prog.Runs.bind' (P := fun fitted : List (Particle K) => fitted.length = l.length ∧ ∀ p ∈ fitted, EvLen ev n p.sol) ?_ fun fitted hf => ?_
  · refine Prog.Runs.and_sat (n := HasLen n) (Prog.Runs.each _ _ fun p hp => ?_) ?_
    · exact Prog.Runs.bind (evaluate_runs hev p.sol (hmoved p hp).1) fun σ _ => Prog.Runs.ret trivial
    · exact Prog.Sat.mono (fun _ => forall₂_right) _ (Prog.Sat.each (fun p : Particle K => p.Moved ev n m) (fun _ (p : Particle K) => EvLen ev n p.sol) _ _ hmoved
        fun p hp => Prog.Sat.mono (fun _ h => h.1.1) _ (particle_evaluate_sat ev n m p hp))
  · obtain ⟨ps, hps⟩ := mapM_total Particle.updateBest fitted fun p hp => updateBest_ok ev n p (hf.2 p hp)
    refine Prog.Runs.bind' (P := fun l => l = ps) (Prog.Runs.lift ⟨ps, hps, rfl⟩) fun l hl => ?_
    subst hl
    exact Prog.Runs.ret ((mapM_length _ _ _ hps).trans (hf.1.trans hml))

theorem pso_total (m : Movement K) (sig : K → K) (aMin aMax : K) (init : Nat → (Nat → K) × (Nat → K)) (draws : Nat → Nat → List (PSODraw K))
    (hne : ∀ n size, draws n size ≠ []) (hd : ∀ n size, size ≠ 0 → ∀ d ∈ draws n size, m.PossibleDraw size d) :
    (Prog.strategy fun n pop => (pso m sig aMin aMax init (draws n pop.length) pop).bind fun s => .ret (s.particles.map Particle.sol)).Total := by
  refine strategy_total _ fun n ev pop hn hl hpne hev => ?_
  refine Prog.Runs.bind (P := fun s : PSOState K => s.particles.length = pop.length) ?_ fun s hs => Prog.Runs.ret (ne_nil_of_length (by simp [hs]) hpne)
  unfold pso
  refine Prog.Runs.bind' (evaluateAll_runs hev _ hl) fun pop' hpop => ?_
  refine Prog.Runs.bind' (P := fun _ => True) (Prog.Runs.lift ⟨_, if_neg fun h => hne n pop.length (List.length_eq_zero_iff.mp h), trivial⟩) fun step _ => ?_
  obtain ⟨ps, hps⟩ := mapM_total (fun x : Indiv K × Nat => m.initParticle (init x.2).1 (init x.2).2 x.1) pop'.zipIdx (by
    intro x hx
    obtain ⟨s, hs⟩ := evLen_fit (hpop.2 _ (mem_of_mem_zipIdx hx))
    unfold Movement.initParticle
    rw [Indiv.clone_ok _ _ hs]
    cases m <;> exact ⟨_, rfl⟩)
  have hlen : ps.length = pop.length := by rw [mapM_length _ _ _ hps, List.length_zipIdx, hpop.1]
  have hok : ∀ p ∈ ps, p.Ok ev n m := by
    intro p hp
    obtain ⟨x, hx, he⟩ := mem_of_mapM_ok _ _ _ hps p hp
    exact initParticle_ok m _ _ x.1 p ev n he (hpop.2 _ (mem_of_mem_zipIdx hx))
  refine Prog.Runs.bind' (P := fun l => l = ps) (Prog.Runs.lift ⟨ps, hps, rfl⟩) fun l hl => ?_
  subst hl
  refine Prog.Runs.mono (fun _ h => h.2.1) (Prog.Runs.forEach
    (fun rest (s : PSOState K) => (∀ x ∈ rest, x.1 ∈ draws n pop.length) ∧ s.particles.length = pop.length ∧ ∀ p ∈ s.particles, p.Ok ev n m) _ _ _
    ⟨fun x hx => mem_of_mem_zipIdx hx, hlen, hok⟩ ?_)
  rintro d rest s ⟨h1, h2, h3⟩
  refine Prog.Runs.mono ?_ (Prog.Runs.and_sat (psoStep_runs m sig aMax step hn hev s d (ne_nil_of_length h2 hpne) h3 (by
    rw [h2]; exact hd _ _ (by simpa using hpne) _ (h1 d (List.mem_cons_self ..)))) (psoStep_sat m sig aMax step ev n s d h3))
  rintro s' ⟨h4, h5⟩
  exact ⟨fun x hx => h1 x (List.mem_cons_of_mem _ hx), h4.trans h2, h5⟩

theorem psoSized_good (m : Movement K) (sig : K → K) (aMin aMax : K) (init : Nat → (Nat → K) × (Nat → K)) (draws : Nat → Nat → List (PSODraw K)) :
    (Prog.strategy fun n pop => (pso m sig aMin aMax init (draws n pop.length) pop).bind fun s => .ret (s.particles.map Particle.sol)).Good :=
  strategy_good _ fun n ev pop h => Prog.Sat.bind (pso_sat m sig aMin aMax init (draws n pop.length) n ev pop h) fun s hs σ hσ => by
    obtain ⟨p, hp, rfl⟩ := List.mem_map.mp hσ
    exact (hs p hp).1

/-! ## Ant colony -/

/-- The number of rules the pheromones are for. -/
def Pheromones.size : Pheromones K → Nat
  | .binary m => m.length
  | .complete m => m.length

/-- Pheromones the builder can work with. -/
def Pheromones.Fits (p : Pheromones K) (g : AntGraph) (n : Nat) : Prop :=
  match g, p with
  | .binary, .binary m => m.length = n
  | .complete, .complete m => m.length = n
  | _, _ => False

theorem pad_ok (cfg : AntCfg K) (g : AntGraph) (p : Option (Pheromones K)) (n : Nat) (h : ∀ q, p = some q → ∃ m ≤ n, q.Fits g m) :
    ∃ q, Pheromones.pad cfg g p n = .ok q ∧ q.Fits g n := by
  have hb : ∀ m : List (K × K), m.length ≤ n → ∃ q, (binaryPad cfg m n).map Pheromones.binary = .ok q ∧ q.Fits .binary n := by
    intro m hm
    unfold binaryPad
    rw [if_neg (by omega)]
    refine ⟨_, rfl, ?_⟩
    change (m ++ _).length = n
    simp
    omega
  have hc : ∀ m : List (List (K × K)), m.length ≤ n → ∃ q, (completePad cfg m n).map Pheromones.complete = .ok q ∧ q.Fits .complete n := by
    intro m hm
    unfold completePad
    rw [if_neg (by omega)]
    refine ⟨_, rfl, ?_⟩
    change (_ ++ _ : List (List (K × K))).length = n
    simp
    omega
  cases p with
  | none =>
    cases g with
    | binary => exact hb [] (by simp)
    | complete => exact hc [] (by simp)
  | some q =>
    obtain ⟨m, hm, hf⟩ := h q rfl
    cases g with
    | binary =>
      cases q with
      | binary l => exact hb l (by have : l.length = m := hf; omega)
      | complete l => exact hf.elim
    | complete =>
      cases q with
      | binary l => exact hf.elim
      | complete l => exact hc l (by have : l.length = m := hf; omega)

theorem Pheromones.Fits.map {p : Pheromones K} {g : AntGraph} {n : Nat} (h : p.Fits g n) (f : K → K) : (p.map f).Fits g n := by
  cases g <;> cases p
  · exact (List.length_map _).trans h
  · exact h
  · exact h
  · exact (List.length_map _).trans h

theorem Pheromones.Fits.update {p : Pheromones K} {gr : AntGraph} {n : Nat} (h : p.Fits gr n) (g : List Bool) (delta : K) : (p.update g delta).Fits gr n := by
  cases gr <;> cases p
  · exact List.length_mapIdx.trans h
  · exact h
  · exact h
  · exact List.length_mapIdx.trans h

theorem relativeFitness_ok (fits : List K) (scale : K) (hs : scale < 1) (h : fits ≠ []) :
    ∃ r, relativeFitness fits scale = .ok r ∧ ∀ eta, r = some eta → eta.length = fits.length := by
  cases fits with
  | nil => exact absurd rfl h
  | cons a as =>
    unfold relativeFitness
    rw [if_neg (not_not.mpr hs)]
    simp only [npMin, npMax]
    split
    · exact ⟨_, rfl, by simp⟩
    · refine ⟨_, rfl, ?_⟩
      intro eta he
      rw [← Option.some.inj he, List.length_map]

theorem build_ok (cfg : AntCfg K) (pool : AntPool K) (g : AntGraph) (p : Pheromones K) (hn : pool.fits ≠ []) (hp : p.Fits g pool.fits.length) (hh : (1 / 2 : K) < 1)
    (d : AntDraw K) (σ : Indiv K) : ∃ τ, p.build cfg pool d σ = .ok τ ∧ τ.genome.length = pool.fits.length := by
  obtain ⟨r, hr, hlen⟩ := relativeFitness_ok pool.fits (1 / 2) hh hn
  cases g <;> cases p with
  | binary m =>
    first
    | exact hp.elim
    | unfold Pheromones.build binaryBuild
      dsimp only
      rw [hr]
      cases r with
      | none =>
        dsimp only
        have hp' : m.length = pool.fits.length := hp
        rw [if_neg (not_not.mpr hp')]
        exact ⟨_, rfl, by simp [hp']⟩
      | some eta =>
        dsimp only
        have hp' : m.length = pool.fits.length := hp
        rw [if_neg (not_not.mpr (hp'.trans (hlen eta rfl).symm))]
        refine ⟨_, rfl, ?_⟩
        simp [hp', hlen eta rfl]
  | complete m =>
    first
    | exact hp.elim
    | unfold Pheromones.build completeBuild
      dsimp only
      rw [hr]
      exact ⟨_, rfl, by simp⟩

theorem aco_runs (cfg : AcoCfg K) (hh : (1 / 2 : K) < 1) (warm : Bool) (old : Option (Pheromones K)) (pool : AntPool K) (hn : pool.fits ≠ [])
    (hold : ∀ q, old = some q → ∃ m ≤ pool.fits.length, q.Fits cfg.graph m) (draws : List (Nat → AntDraw K)) {ev : Eval K} (hev : TotalEval ev pool.fits.length)
    (pop : List (Indiv K)) (hl : AllLen pool.fits.length pop) : (aco cfg warm old pool draws pop).Runs ev fun s => s.pop.length = pop.length := by
  unfold aco
  obtain ⟨q, hq, hfit⟩ := pad_ok cfg.ant cfg.graph (if warm then old else none) pool.fits.length (by
    intro q hq
    split at hq
    · exact hold q hq
    · cases hq)
  refine Prog.Runs.bind' (P := fun l => l = q) (Prog.Runs.lift ⟨q, hq, rfl⟩) fun q' hq' => ?_
  subst hq'
  refine Prog.Runs.bind' (evaluateAll_runs hev _ hl) fun pop' hpop => ?_
  refine Prog.Runs.mono (fun _ h => h.1) (Prog.Runs.forEach (fun _ (s : AcoState K) => s.pop.length = pop.length ∧ s.pher.Fits cfg.graph pool.fits.length) _ _ _
    ⟨hpop.1, hfit⟩ ?_)
  rintro d _ s ⟨h1, h2⟩
  unfold acoStep
  obtain ⟨ants, ha⟩ := mapM_total (fun x : Indiv K × Nat => s.pher.build cfg.ant pool (d x.2) x.1) s.pop.zipIdx fun x _ =>
    (build_ok cfg.ant pool cfg.graph s.pher hn h2 hh (d x.2) x.1).imp fun _ h => h.1
  refine Prog.Runs.bind' (P := fun l => l = ants) (Prog.Runs.lift ⟨ants, ha, rfl⟩) fun l hl => ?_
  subst hl
  refine Prog.Runs.bind' (evaluateAll_runs hev _ ?_) fun pop'' hpop'' => Prog.Runs.ret ⟨?_, ?_⟩
  · intro τ hτ
    obtain ⟨x, _, he⟩ := mem_of_mapM_ok _ _ _ ha τ hτ
    obtain ⟨τ', he', hlen⟩ := build_ok cfg.ant pool cfg.graph s.pher hn h2 hh (d x.2) x.1
    rw [he] at he'
    rw [Except.ok.inj he']
    exact hlen
  · change pop''.length = _
    rw [hpop''.1, mapM_length _ _ _ ha, List.length_zipIdx, h1]
  · refine Pheromones.Fits.map ?_ _
    have hfold : ∀ (l : List (Indiv K)) (p : Pheromones K), p.Fits cfg.graph pool.fits.length →
        (l.foldl (fun p σ => p.update σ.genome (σ.fitnessD * cfg.c)) p).Fits cfg.graph pool.fits.length := by
      intro l
      induction l with
      | nil => exact fun p hp => hp
      | cons a as ih => exact fun p hp => ih _ (hp.update _ _)
    exact hfold _ _ (h2.map _)

/-! ## Self-adapting genetic algorithms -/

section Saga

variable [IsStrictOrderedRing K]

/-- Possible draws of the selection with tournaments of size `k`: `P` tournaments of positions in the current population, which has `P` members plus the kept elitists after the first
generation. -/
def PossibleSel (P e k : Nat) : Nat → List SelDraw → Prop
  | _, [] => True
  | size, s :: rest => (∃ idx, s = .tournament idx) ∧ s.Valid P k size ∧ PossibleSel P e k (min e size + P) rest

theorem crossoverA_ok (rate r : K) (c : CrossDraw K) (A B : Indiv K) (h : A.genome.length = B.genome.length) : ∃ C, crossoverA rate r c A B = .ok C := by
  unfold crossoverA
  split
  · unfold crossApply
    cases c with
    | nPoint is => exact ⟨_, rfl⟩
    | uniform u =>
      unfold uniformCross
      dsimp only
      rw [if_neg (by simp [h])]
      exact ⟨_, rfl⟩
  · exact ⟨_, rfl⟩

theorem sagaChildren_ok (f : Nat → Bool → Indiv K → Indiv K → Except PyErr (Indiv K)) (n : Nat)
    (hf : ∀ k b A B, A.genome.length = n → B.genome.length = n → ∃ C, f k b A B = .ok C)
    (k : Nat) (ps : List (Indiv K × Indiv K)) (hp : ∀ p ∈ ps, p.1.genome.length = n ∧ p.2.genome.length = n) :
    ∃ cs, sagaChildren f k ps = .ok cs ∧ cs.length = 2 * ps.length := by
  induction ps generalizing k with
  | nil => exact ⟨[], rfl, rfl⟩
  | cons p rest ih =>
    obtain ⟨A, B⟩ := p
    have hAB := hp (A, B) (List.mem_cons_self ..)
    obtain ⟨c1, h1⟩ := hf k true A B hAB.1 hAB.2
    obtain ⟨c2, h2⟩ := hf k false B A hAB.2 hAB.1
    obtain ⟨cs, h3, h4⟩ := ih (k + 1) fun p hp' => hp p (List.mem_cons_of_mem _ hp')
    refine ⟨c1 :: c2 :: cs, ?_, by simp [h4]; omega⟩
    unfold sagaChildren
    rw [h1]; dsimp only
    rw [h2]; dsimp only
    rw [h3]

theorem gdm_ok (fs : List K) (h : fs ≠ []) : ∃ g, gdm fs = .ok g := by
  cases fs with
  | nil => exact absurd rfl h
  | cons a as => exact ⟨_, rfl⟩

theorem saga1Adjust_ok (cfg : Saga1Cfg K) (hm : cfg.mutMul ≠ 0) (hc : cfg.crossMul ≠ 0) (fs : List K) (h : fs ≠ []) (r : Rates K) :
    ∃ r', saga1Adjust cfg fs r = .ok r' := by
  obtain ⟨g, hg⟩ := gdm_ok fs h
  unfold saga1Adjust pyDiv
  rw [hg, if_neg hm, if_neg hc]
  dsimp only
  split
  · exact ⟨_, rfl⟩
  · split <;> exact ⟨_, rfl⟩

theorem saga1Step_runs (cfg : Saga1Cfg K) (he : cfg.populationSize % 2 = 0) (hm : cfg.mutMul ≠ 0) (hc : cfg.crossMul ≠ 0) (k : Nat) (hk : 1 ≤ k) {ev : Eval K} {n : Nat}
    (hev : TotalEval ev n) (s : Saga1State K) (dr : GADraw K) (hne : s.pop ≠ []) (h : ∀ σ ∈ s.pop, EvLen ev n σ) (hsel : ∃ idx, dr.sel = .tournament idx)
    (hv : dr.sel.Valid cfg.populationSize k s.pop.length) :
    (saga1Step cfg s dr).Runs ev fun s' => s'.pop.length = min cfg.nElitists s.pop.length + cfg.populationSize := by
  have hfit : ∀ σ ∈ s.pop, ∃ st, σ.st = some st := fun σ hσ => evLen_fit (h σ hσ)
  obtain ⟨idx, hidx⟩ := hsel
  rw [hidx] at hv
  obtain ⟨parents, hp, hpl⟩ := tournament_ok idx _ k hk s.pop hv hfit
  unfold saga1Step
  refine Prog.Runs.bind' (P := fun fs => fs ≠ []) (Prog.Runs.lift ⟨s.pop.map Indiv.fitnessD, if_pos ((allFitted_iff _).mpr hfit), by simpa using hne⟩) fun fs hfs => ?_
  obtain ⟨rates, hr⟩ := saga1Adjust_ok cfg hm hc fs hfs s.rates
  refine Prog.Runs.bind' (P := fun _ => True) (Prog.Runs.lift ⟨rates, hr, trivial⟩) fun rates _ => ?_
  refine Prog.Runs.bind' (P := fun l => l = parents) (Prog.Runs.lift ⟨parents, by rw [hidx]; exact hp, rfl⟩) fun l hl => ?_
  subst hl
  have hpairs := pairs_len n l fun σ hσ => (h σ (mem_select _ _ _ hp σ hσ)).1
  obtain ⟨cs, hcs, hcl⟩ := sagaChildren_ok (fun k d A B => crossoverA rates.cross (dr.cross k d).1 (dr.cross k d).2 A B) n
    (fun k b A B hA hB => crossoverA_ok _ _ _ _ _ (hA.trans hB.symm)) 0 (pairs l) hpairs
  refine Prog.Runs.bind' (P := fun l => l = cs) (Prog.Runs.lift ⟨cs, hcs, rfl⟩) fun cs' hcs' => ?_
  subst hcs'
  have hall := sagaChildren_len _ n (fun k b A B C hA hB hC => crossoverA_len _ _ _ _ _ _ n hA hB hC) _ _ cs' hpairs hcs
  refine Prog.Runs.bind' (evaluateAll_runs hev _ ?_) fun pop hpop => Prog.Runs.ret ?_
  · intro σ hσ
    rcases List.mem_append.mp hσ with hσ | hσ
    · exact (h σ (mem_sortedDesc_take _ _ _ σ hσ)).1
    · exact (gaMutate_spec _ _ cs' n hall).1 σ hσ
  · change pop.length = _
    rw [hpop.1, List.length_append, List.length_take, (sortedDesc_perm _ _).length_eq, (gaMutate_spec _ _ cs' n hall).2, hcl, length_pairs, hpl]
    omega

theorem saga1_total (cfg : Saga1Cfg K) (he : cfg.populationSize % 2 = 0) (hp : 1 ≤ cfg.populationSize) (hm : cfg.mutMul ≠ 0) (hc : cfg.crossMul ≠ 0) (k : Nat) (hk : 1 ≤ k)
    (draws : Nat → Nat → List (GADraw K)) (hd : ∀ n size, size ≠ 0 → PossibleSel cfg.populationSize cfg.nElitists k size ((draws n size).map GADraw.sel)) (rates : Rates K) :
    (Prog.strategy fun n pop => (saga1 cfg (draws n pop.length) rates pop).bind fun s => .ret s.pop).Total := by
  refine strategy_total _ fun n ev pop hn hl hpne hev => ?_
  refine Prog.Runs.bind (P := fun s : Saga1State K => s.pop ≠ []) ?_ fun s hs => Prog.Runs.ret hs
  unfold saga1
  rw [if_pos he]
  refine Prog.Runs.bind' (evaluateAll_runs hev _ hl) fun pop' hpop => ?_
  refine Prog.Runs.mono (fun _ h => h.1) (Prog.Runs.forEach (fun rest (s : Saga1State K) => s.pop ≠ [] ∧ (∀ σ ∈ s.pop, EvLen ev n σ) ∧
    PossibleSel cfg.populationSize cfg.nElitists k s.pop.length (rest.map GADraw.sel)) _ _ ⟨pop', rates, []⟩ ⟨ne_nil_of_length hpop.1 hpne, hpop.2, by
      change PossibleSel _ _ _ pop'.length _
      rw [hpop.1]; exact hd _ _ (by simpa using hpne)⟩ ?_)
  rintro d rest s ⟨h1, h2, h3, h4, h5⟩
  refine Prog.Runs.mono ?_ (Prog.Runs.and_sat (saga1Step_runs cfg he hm hc k hk hev s d h1 h2 h3 h4) (saga1Step_sat cfg ev n s d h2))
  rintro s' ⟨h6, h7⟩
  refine ⟨?_, h7, by rw [h6]; exact h5⟩
  intro h
  rw [h, List.length_nil] at h6
  omega

theorem saga1Sized_good (cfg : Saga1Cfg K) (draws : Nat → Nat → List (GADraw K)) (rates : Rates K) :
    (Prog.strategy fun n pop => (saga1 cfg (draws n pop.length) rates pop).bind fun s => .ret s.pop).Good :=
  strategy_good _ fun n ev pop h => Prog.Sat.bind (saga1_sat cfg (draws n pop.length) rates n ev pop h) fun _ hs => hs

/-- Positions of the members chosen by tournaments. -/
theorem positions_ok (idx : List (List Nat)) (P k : Nat) (hk : 1 ≤ k) (pop : List (Indiv K)) (hv : (SelDraw.tournament idx).Valid P k pop.length)
    (hfit : ∀ σ ∈ pop, ∃ s, σ.st = some s) : ∃ ps, (SelDraw.tournament idx).positions pop = .ok ps ∧ ps.length = P ∧ ∀ i ∈ ps, i < pop.length := by
  obtain ⟨l, hl, _⟩ := tournament_ok idx P k hk pop hv hfit
  unfold SelDraw.positions
  rw [hl]
  refine ⟨_, rfl, ?_, ?_⟩
  · rw [← hv.1]
    have : ∀ js ∈ idx, ∃ i, pyMax (fun j => (pop[j]?.map Indiv.fitnessD).getD 0) (js.filter (· < pop.length)) = some i := by
      intro js hjs
      apply pyMax_ok
      rw [List.filter_eq_self.mpr (fun j hj => by simpa using (hv.2 js hjs).2 j hj)]
      intro h
      have := (hv.2 js hjs).1
      rw [h] at this
      simp at this
      omega
    clear hl hv
    induction idx with
    | nil => rfl
    | cons js rest ih =>
      obtain ⟨i, hi⟩ := this js (List.mem_cons_self ..)
      rw [List.filterMap_cons, hi]
      simp only [List.length_cons]
      rw [ih fun js hjs => this js (List.mem_cons_of_mem _ hjs)]
  · intro i hi
    obtain ⟨js, _, he⟩ := List.mem_filterMap.mp hi
    have := (pyMax_spec _ _ _ he).1
    simpa using (List.mem_filter.mp this).2

theorem saga3Cross_ok (pmr : K) (d : Saga3Draw K) (h : Objs K) (a b n : Nat) (ha : a < h.length) (hb : b < h.length) (hl : ∀ o ∈ h, o.indiv.genome.length = n) :
    ∃ h' c, saga3Cross pmr d h a b = .ok (h', c) ∧ h.length ≤ h'.length ∧ c < h'.length := by
  unfold saga3Cross
  rw [List.getElem?_eq_getElem ha, List.getElem?_eq_getElem hb]
  dsimp only
  split
  · split
    · split
      · exact ⟨_, _, rfl, by simp, by simpa using ha⟩
      · exact ⟨_, _, rfl, by simp, by simp⟩
    · unfold uniformCross
      rw [if_neg (by rw [hl _ (List.getElem_mem ha), hl _ (List.getElem_mem hb)]; simp)]
      exact ⟨_, _, rfl, by simp, by simp⟩
  · exact ⟨_, _, rfl, by simp, by simpa using ha⟩

theorem saga3Children_ok (pmr : K) (draw : Nat → Bool → Saga3Draw K) (n : Nat) (k : Nat) (ps : List (Nat × Nat)) (h : Objs K)
    (hp : ∀ p ∈ ps, p.1 < h.length ∧ p.2 < h.length) (hl : ∀ o ∈ h, o.indiv.genome.length = n) :
    ∃ h' cs, saga3Children pmr draw k ps h = .ok (h', cs) ∧ cs.length = 2 * ps.length ∧ h.length ≤ h'.length ∧ ∀ c ∈ cs, c < h'.length := by
  induction ps generalizing k h with
  | nil => exact ⟨h, [], rfl, rfl, le_refl _, by simp⟩
  | cons p rest ih =>
    obtain ⟨a, b⟩ := p
    have hab := hp (a, b) (List.mem_cons_self ..)
    obtain ⟨h1, c1, e1, l1, m1⟩ := saga3Cross_ok pmr (draw k true) h a b n hab.1 hab.2 hl
    have hl1 : ∀ o ∈ h1, o.indiv.genome.length = n := fun o ho =>
      (saga3Cross_inv pmr _ h h1 a b c1 (fun _ => True) n (fun _ => trivial) (fun o ho => ⟨trivial, trivial, hl o ho⟩) e1 o ho).2.2
    obtain ⟨h2, c2, e2, l2, m2⟩ := saga3Cross_ok pmr (draw k false) h1 b a n (hab.2.trans_le l1) (hab.1.trans_le l1) hl1
    have hl2 : ∀ o ∈ h2, o.indiv.genome.length = n := fun o ho =>
      (saga3Cross_inv pmr _ h1 h2 b a c2 (fun _ => True) n (fun _ => trivial) (fun o ho => ⟨trivial, trivial, hl1 o ho⟩) e2 o ho).2.2
    obtain ⟨h3, cs, e3, n3, l3, m3⟩ := ih (k + 1) h2 (fun p hp' => ⟨(hp p (List.mem_cons_of_mem _ hp')).1.trans_le (l1.trans l2),
      (hp p (List.mem_cons_of_mem _ hp')).2.trans_le (l1.trans l2)⟩) hl2
    refine ⟨h3, c1 :: c2 :: cs, ?_, by simp [n3]; omega, l1.trans (l2.trans l3), ?_⟩
    · unfold saga3Children
      rw [e1]; dsimp only
      rw [e2]; dsimp only
      rw [e3]
    · intro c hc
      rcases List.mem_cons.mp hc with rfl | hc
      · exact m1.trans_le (l2.trans l3)
      · rcases List.mem_cons.mp hc with rfl | hc
        · exact m2.trans_le l3
        · exact m3 c hc

theorem filterMap_get_length {α : Type} (h : List α) (cs : List Nat) (hc : ∀ c ∈ cs, c < h.length) : (cs.filterMap fun c => h[c]?).length = cs.length := by
  induction cs with
  | nil => rfl
  | cons c rest ih =>
    rw [List.filterMap_cons, List.getElem?_eq_getElem (hc c (List.mem_cons_self ..))]
    simp only [List.length_cons]
    rw [ih fun c hc' => hc c (List.mem_cons_of_mem _ hc')]

theorem sagaEvaluate_runs {ev : Eval K} {n : Nat} (hev : TotalEval ev n) (os : Objs K) (h : ∀ o ∈ os, o.indiv.genome.length = n) :
    (Prog.each SagaObj.evaluate os).Runs ev fun os' => os'.length = os.length ∧ ∀ o ∈ os', EvLen ev n o.indiv :=
  Prog.Runs.mono (fun _ h => ⟨h.1, fun o ho => (h.2 o ho).2.2⟩)
    ((Prog.Runs.each SagaObj.evaluate os fun o ho => Prog.Runs.bind (evaluate_runs hev o.indiv (h o ho)) fun _ _ => Prog.Runs.ret trivial).and_sat
      (sagaEvaluate_sat (fun _ => True) ev n os fun o ho => ⟨trivial, trivial, h o ho⟩))

theorem saga3Step_runs (cfg : Saga3Cfg K) (he : cfg.populationSize % 2 = 0) (k : Nat) (hk : 1 ≤ k) {ev : Eval K} {n : Nat} (hev : TotalEval ev n) (s : Saga3State K)
    (d : Saga3GenDraw K) (h : ∀ o ∈ s.pop, EvLen ev n o.indiv) (hsel : ∃ idx, d.sel = .tournament idx) (hv : d.sel.Valid cfg.populationSize k s.pop.length) :
    (saga3Step cfg s d).Runs ev fun s' => s'.pop.length = min cfg.nElitists s.pop.length + cfg.populationSize ∧ ∀ o ∈ s'.pop, EvLen ev n o.indiv := by
  have hfit : ∀ σ ∈ s.pop.map SagaObj.indiv, ∃ st, σ.st = some st := by
    intro σ hσ
    obtain ⟨o, ho, rfl⟩ := List.mem_map.mp hσ
    exact evLen_fit (h o ho)
  obtain ⟨idx, hidx⟩ := hsel
  rw [hidx] at hv
  obtain ⟨ps, hp, hpl, hpm⟩ := positions_ok idx _ k hk (s.pop.map SagaObj.indiv) (by rw [List.length_map]; exact hv) hfit
  rw [List.length_map] at hpm
  unfold saga3Step
  refine Prog.Runs.bind' (P := fun l => l = ps) (Prog.Runs.lift ⟨ps, by rw [if_pos ((allFitted_iff _).mpr hfit), hidx]; exact hp, rfl⟩) fun l hl => ?_
  subst hl
  have hlen : ∀ o ∈ s.pop, o.indiv.genome.length = n := fun o ho => (h o ho).1
  obtain ⟨h', cs, hc, hcl, hle, hcm⟩ := saga3Children_ok cfg.paramRate d.cross n 0 (pairs l) s.pop
    (fun p hp => ⟨hpm _ (mem_pairs l p hp).1, hpm _ (mem_pairs l p hp).2⟩) hlen
  have hinv := saga3Children_inv cfg.paramRate d.cross (fun _ => True) n (fun _ => trivial) 0 _ s.pop h' cs (fun o ho => ⟨trivial, trivial, hlen o ho⟩) hc
  refine Prog.Runs.bind' (P := fun x => x = (h', cs)) (Prog.Runs.lift ⟨_, hc, rfl⟩) fun x hx => ?_
  subst hx
  refine Prog.Runs.bind' (sagaEvaluate_runs hev _ ?_) fun pop hpop => Prog.Runs.ret ⟨?_, hpop.2⟩
  · intro o ho
    rcases List.mem_append.mp ho with ho | ho
    · obtain ⟨c, _, hc'⟩ := List.mem_filterMap.mp ho
      exact (hinv o (List.mem_of_getElem? hc')).2.2
    · obtain ⟨⟨c, j⟩, hm, rfl⟩ := List.mem_map.mp ho
      obtain ⟨i, _, hc'⟩ := List.mem_filterMap.mp (List.fst_mem_of_mem_zipIdx hm)
      exact (length_bitFlips _ _ _).trans (hinv c (List.mem_of_getElem? hc')).2.2
  · change pop.length = _
    rw [hpop.1, List.length_append, List.length_map, List.length_zipIdx, filterMap_get_length _ _ hcm, hcl, length_pairs, hpl, filterMap_get_length,
      List.length_take, (sortedDesc_perm _ _).length_eq, List.length_range]
    · omega
    · intro c hc'
      have := (sortedDesc_perm _ _).subset (List.mem_of_mem_take hc')
      exact (List.mem_range.mp this).trans_le hle

theorem saga3_total (cfg : Saga3Cfg K) (he : cfg.populationSize % 2 = 0) (hp : 1 ≤ cfg.populationSize) (k : Nat) (hk : 1 ≤ k)
    (draws : Nat → Nat → List (Saga3GenDraw K)) (hd : ∀ n size, size ≠ 0 → PossibleSel cfg.populationSize cfg.nElitists k size ((draws n size).map Saga3GenDraw.sel))
    (par : Nat → K × K × CrossMethod) :
    (Prog.strategy fun n pop => (saga3 cfg (draws n pop.length) (pop.mapIdx fun i σ => ⟨σ, (par i).1, (par i).2.1, (par i).2.2⟩)).bind fun s =>
      .ret (s.pop.map SagaObj.indiv)).Total := by
  refine strategy_total _ fun n ev pop hn hl hpne hev => ?_
  refine Prog.Runs.bind (P := fun s : Saga3State K => s.pop ≠ []) ?_ fun s hs => Prog.Runs.ret (by simpa using hs)
  unfold saga3
  rw [if_pos he]
  refine Prog.Runs.bind' (sagaEvaluate_runs hev _ ?_) fun pop' hpop => ?_
  · intro o ho
    obtain ⟨i, hi, rfl⟩ := List.mem_mapIdx.mp ho
    exact hl _ (List.getElem_mem hi)
  rw [List.length_mapIdx] at hpop
  refine Prog.Runs.mono (fun _ h => h.1) (Prog.Runs.forEach (fun rest (s : Saga3State K) => s.pop ≠ [] ∧ (∀ o ∈ s.pop, EvLen ev n o.indiv) ∧
    PossibleSel cfg.populationSize cfg.nElitists k s.pop.length (rest.map Saga3GenDraw.sel)) _ _ _ ⟨ne_nil_of_length hpop.1 hpne, hpop.2, by
      change PossibleSel _ _ _ pop'.length _
      rw [hpop.1]; exact hd _ _ (by simpa using hpne)⟩ ?_)
  rintro d rest s ⟨h1, h2, h3, h4, h5⟩
  refine Prog.Runs.mono ?_ (saga3Step_runs cfg he k hk hev s d h2 h3 h4)
  rintro s' ⟨h6, h7⟩
  refine ⟨?_, h7, by rw [h6]; exact h5⟩
  intro h
  rw [h, List.length_nil] at h6
  omega

end Saga

/-! ### saga2 -/

theorem fitStats_ok (fs : List ℝ) (h : fs ≠ []) : ∃ st, fitStats fs = .ok st := by
  cases fs with
  | nil => exact absurd rfl h
  | cons a as => exact ⟨_, rfl⟩

theorem saga2Cross_ok (s : Saga2State) (cfg : Saga2Cfg) (r : ℝ) (c : CrossDraw ℝ) (A B : Indiv ℝ) (h : A.genome.length = B.genome.length) :
    ∃ C, saga2Cross s cfg r c A B = .ok C := by
  unfold saga2Cross
  split
  · exact ⟨_, rfl⟩
  · exact crossoverA_ok _ _ _ _ _ h

theorem saga2Similarity_cases (new old : List ℝ) : (old.length < new.length ∧ saga2Similarity new old = .error .indexError) ∨
    (new.length ≤ old.length ∧ ∃ x, saga2Similarity new old = .ok x) := by
  unfold saga2Similarity
  split
  · rename_i h; exact Or.inl ⟨h, rfl⟩
  · rename_i h
    refine Or.inr ⟨not_lt.mp h, ?_⟩
    dsimp only
    split <;> exact ⟨_, rfl⟩

/-- One generation up to the adjustment of the rates, which fails exactly if the new population is larger than the old one. -/
theorem saga2Step_run (cfg : Saga2Cfg) (he : cfg.populationSize % 2 = 0) (hP : 1 ≤ cfg.populationSize) (k : Nat) (hk : 1 ≤ k) {ev : Eval ℝ} {n : Nat} (hev : TotalEval ev n)
    (s : Saga2State) (d : GADraw ℝ × Nat) (h : ∀ σ ∈ s.pop, EvLen ev n σ) (hsel : ∃ idx, d.1.sel = .tournament idx) (hv : d.1.sel.Valid cfg.populationSize k s.pop.length) :
    if 0 < d.2 ∧ s.pop.length < min cfg.nElitists s.pop.length + cfg.populationSize then (saga2Step cfg s d).run ev = .error .indexError
    else (saga2Step cfg s d).Runs ev fun s' => s'.pop.length = min cfg.nElitists s.pop.length + cfg.populationSize := by
  have hfit : ∀ σ ∈ s.pop, ∃ st, σ.st = some st := fun σ hσ => evLen_fit (h σ hσ)
  obtain ⟨idx, hidx⟩ := hsel
  rw [hidx] at hv
  obtain ⟨parents, hp, hpl⟩ := tournament_ok idx _ k hk s.pop hv hfit
  have hpairs := pairs_len n parents fun σ hσ => (h σ (mem_select _ _ _ hp σ hσ)).1
  obtain ⟨cs, hcs, hcl⟩ := sagaChildren_ok (fun k b A B => saga2Cross s cfg (d.1.cross k b).1 (d.1.cross k b).2 A B) n
    (fun k b A B hA hB => saga2Cross_ok _ _ _ _ _ _ (hA.trans hB.symm)) 0 (pairs parents) hpairs
  have hall := sagaChildren_len _ n (fun k b A B C hA hB hC => saga2Cross_len _ _ _ _ _ _ _ n hA hB hC) _ _ cs hpairs hcs
  obtain ⟨cs', hcs', hcl', hce⟩ := evaluateAll_runs hev cs hall
  obtain ⟨pop, hpop, hpl', hpe⟩ := evaluateAll_runs hev ((sortedDesc Indiv.fitnessD s.pop).take cfg.nElitists ++
    (cs'.zipIdx).map fun ck => saga2Mutate s cfg (d.1.flips ck.2) ck.1) (by
      intro σ hσ
      rcases List.mem_append.mp hσ with hσ | hσ
      · exact (h σ (mem_sortedDesc_take _ _ _ σ hσ)).1
      · obtain ⟨⟨c, j⟩, hm, rfl⟩ := List.mem_map.mp hσ
        exact (saga2Mutate_len _ _ _ _).trans (hce c (List.fst_mem_of_mem_zipIdx hm)).1)
  have hlen : pop.length = min cfg.nElitists s.pop.length + cfg.populationSize := by
    rw [hpl', List.length_append, List.length_take, (sortedDesc_perm _ _).length_eq, List.length_map, List.length_zipIdx, hcl', hcl, length_pairs, hpl]
    omega
  obtain ⟨stats, hst⟩ := fitStats_ok (pop.map Indiv.fitnessD) (by
    intro hnil
    have := congrArg List.length hnil
    simp only [List.length_map, List.length_nil] at this
    omega)
  have hrun : (saga2Step cfg s d).run ev = (if 0 < d.2 then (Prog.lift (saga2Adjust cfg { s with pop := pop, old := s.pop, stats := stats }) : Prog ℝ Saga2State)
      else pure { s with pop := pop, old := s.pop, stats := stats } : Prog ℝ Saga2State).run ev := by
    unfold saga2Step
    rw [Prog.run_bind_ok (a := parents) (by rw [Prog.run_lift, hidx]; exact hp)]
    rw [Prog.run_bind_ok (a := cs) (by rw [Prog.run_lift]; exact hcs)]
    rw [Prog.run_bind_ok hcs', Prog.run_bind_ok hpop]
    rw [Prog.run_bind_ok (a := stats) (by rw [Prog.run_lift]; exact hst)]
  have hadj : ∀ st : Saga2State, (st.old.length < st.pop.length ∧ saga2Adjust cfg st = .error .indexError) ∨
      (st.pop.length ≤ st.old.length ∧ ∃ st', saga2Adjust cfg st = .ok st' ∧ st'.pop = st.pop) := by
    intro st
    unfold saga2Adjust
    dsimp only
    rcases saga2Similarity_cases (st.pop.map Indiv.fitnessD) (st.old.map Indiv.fitnessD) with ⟨h1, h2⟩ | ⟨h1, x, h2⟩
    · rw [h2]
      exact Or.inl ⟨by simpa using h1, rfl⟩
    · rw [h2]
      exact Or.inr ⟨by simpa using h1, _, rfl, rfl⟩
  rcases hadj { s with pop := pop, old := s.pop, stats := stats } with ⟨h1, h2⟩ | ⟨h1, st', h2, h3⟩
  · dsimp only at h1
    by_cases h0 : 0 < d.2
    · rw [if_pos ⟨h0, by omega⟩, hrun, if_pos h0, Prog.run_lift, h2]
    · rw [if_neg fun hc => h0 hc.1]
      exact ⟨_, by rw [hrun, if_neg h0]; rfl, hlen⟩
  · dsimp only at h1 h3
    rw [if_neg fun hc => by omega]
    by_cases h0 : 0 < d.2
    · exact ⟨st', by rw [hrun, if_pos h0, Prog.run_lift, h2], (congrArg List.length h3).trans hlen⟩
    · exact ⟨_, by rw [hrun, if_neg h0]; rfl, hlen⟩

theorem saga2_runs (cfg : Saga2Cfg) (he : cfg.populationSize % 2 = 0) (hP : 1 ≤ cfg.populationSize) (k : Nat) (hk : 1 ≤ k) {ev : Eval ℝ} {n : Nat} (hev : TotalEval ev n)
    (pop : List (Indiv ℝ)) (hl : AllLen n pop) (hne : pop ≠ []) (hsize : cfg.nElitists ≤ pop.length) (draws : List (GADraw ℝ))
    (hd : PossibleSel cfg.populationSize cfg.nElitists k pop.length (draws.map GADraw.sel)) (a b : Option ℝ) :
    (saga2 cfg draws a b pop).Runs ev fun s => s.pop ≠ [] := by
  unfold saga2
  rw [if_pos he]
  refine Prog.Runs.bind' (evaluateAll_runs hev _ hl) fun pop' hpop => ?_
  dsimp only
  obtain ⟨st, hst⟩ := fitStats_ok (pop'.map Indiv.fitnessD) (by simpa using ne_nil_of_length hpop.1 hne)
  refine Prog.Runs.bind' (P := fun _ => True) (Prog.Runs.lift ⟨st, hst, trivial⟩) fun stats _ => ?_
  refine Prog.Runs.mono (fun _ h => h.1) (Prog.Runs.forEach (fun rest (s : Saga2State) => s.pop ≠ [] ∧ (∀ σ ∈ s.pop, EvLen ev n σ) ∧ cfg.nElitists ≤ s.pop.length ∧
    (∀ d ∈ rest, 0 < d.2 ∨ ∃ tail, rest = d :: tail) ∧ (∀ d tail, rest = d :: tail → (∀ e ∈ tail, 0 < e.2) ∧ (0 < d.2 → s.pop.length = cfg.nElitists + cfg.populationSize)) ∧
    PossibleSel cfg.populationSize cfg.nElitists k s.pop.length (rest.map fun d => d.1.sel)) _ _ _ ⟨ne_nil_of_length hpop.1 hne, hpop.2, ?_, ?_, ?_, ?_⟩ ?_)
  · change cfg.nElitists ≤ pop'.length
    rw [hpop.1]; exact hsize
  · intro d hd'
    cases draws with
    | nil => simp at hd'
    | cons d0 ds =>
      rw [List.zipIdx_cons] at hd'
      rcases List.mem_cons.mp hd' with rfl | hd'
      · exact Or.inr ⟨_, List.zipIdx_cons ..⟩
      · have := List.le_snd_of_mem_zipIdx hd'
        exact Or.inl (by omega)
  · intro d tail heq
    cases draws with
    | nil => simp at heq
    | cons d0 ds =>
      rw [List.zipIdx_cons] at heq
      injection heq with h1 h2
      refine ⟨fun e he' => ?_, fun h0 => ?_⟩
      · rw [← h2] at he'
        have := List.le_snd_of_mem_zipIdx he'
        omega
      · rw [← h1] at h0
        exact absurd h0 (lt_irrefl _)
  · change PossibleSel _ _ _ pop'.length _
    rw [hpop.1]
    have : (draws.zipIdx.map fun d => d.1.sel) = draws.map GADraw.sel := by
      change draws.zipIdx.map (GADraw.sel ∘ Prod.fst) = _
      rw [← List.map_map, List.zipIdx_map_fst]
    rw [this]
    exact hd
  · rintro d rest s ⟨h1, h2, h3, h4, h5, h6, h7, h8⟩
    have hstep := saga2Step_run cfg he hP k hk hev s d h2 h6 h7
    rw [if_neg] at hstep
    · refine Prog.Runs.mono ?_ (Prog.Runs.and_sat hstep (saga2Step_sat cfg ev n s d h2))
      rintro s' ⟨h9, h10⟩
      rw [min_eq_left h3] at h9
      refine ⟨?_, h10, by omega, ?_, ?_, ?_⟩
      · intro h
        rw [h, List.length_nil] at h9
        omega
      · exact fun e he' => Or.inl ((h5 d rest rfl).1 e he')
      · intro e tail heq
        exact ⟨fun x hx => (h5 d rest rfl).1 x (by rw [heq]; exact List.mem_cons_of_mem _ hx), fun _ => h9⟩
      · rw [h9]
        rw [min_eq_left h3] at h8
        exact h8
    · rintro ⟨h9, h10⟩
      have := (h5 d rest rfl).2 h9
      rw [min_eq_left h3] at h10
      omega

theorem saga2_fails (cfg : Saga2Cfg) (he : cfg.populationSize % 2 = 0) (hP : 1 ≤ cfg.populationSize) (k : Nat) (hk : 1 ≤ k) {ev : Eval ℝ} {n : Nat} (hev : TotalEval ev n)
    (pop : List (Indiv ℝ)) (hl : AllLen n pop) (hne : pop ≠ []) (hsize : pop.length < cfg.nElitists) (d1 d2 : GADraw ℝ) (draws : List (GADraw ℝ))
    (hd : PossibleSel cfg.populationSize cfg.nElitists k pop.length ((d1 :: d2 :: draws).map GADraw.sel)) (a b : Option ℝ) :
    (saga2 cfg (d1 :: d2 :: draws) a b pop).run ev = .error .indexError := by
  unfold saga2
  rw [if_pos he]
  obtain ⟨pop', hpop, hpl, hpe⟩ := evaluateAll_runs hev pop hl
  rw [Prog.run_bind_ok hpop]
  dsimp only
  obtain ⟨st, hst⟩ := fitStats_ok (pop'.map Indiv.fitnessD) (by simpa using ne_nil_of_length hpl hne)
  rw [Prog.run_bind_ok (a := st) (by rw [Prog.run_lift]; exact hst)]
  rw [List.zipIdx_cons, List.zipIdx_cons]
  obtain ⟨h1, h2, h3, h4, _⟩ := hd
  generalize hs0 : (⟨pop', pop', st, variance (pop'.map Indiv.fitnessD), variance (pop'.map Indiv.fitnessD), a, b⟩ : Saga2State) = s0
  have hs0p : s0.pop = pop' := by rw [← hs0]
  have r1 := saga2Step_run cfg he hP k hk hev s0 (d1, 0) (by rw [hs0p]; exact hpe) h1 (by rw [hs0p, hpl]; exact h2)
  rw [if_neg (by simp)] at r1
  obtain ⟨s1, hs1, hs1l⟩ := r1
  rw [Prog.run_forEach_cons hs1]
  have hs1e := (saga2Step_sat cfg ev n s0 (d1, 0) (by rw [hs0p]; exact hpe)).run s1 hs1
  rw [hs0p, hpl] at hs1l
  have r2 := saga2Step_run cfg he hP k hk hev s1 (d2, 0 + 1) hs1e h3 (by rw [hs1l]; exact h4)
  rw [if_pos ⟨by simp, by rw [hs1l]; omega⟩] at r2
  change ((saga2Step cfg s1 (d2, 0 + 1)).bind _).run ev = _
  rw [Prog.run_bind, r2]

end Suprb
