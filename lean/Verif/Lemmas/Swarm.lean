import Verif.Model.Swarm
import Verif.Lemmas.Saga

/-!
# Lemmas about bee colony, particle swarm, grey wolves and random search
-/

set_option autoImplicit false
set_option linter.unusedSectionVars false

namespace Suprb

variable {K : Type} [Field K] [LinearOrder K]

theorem length_sigmoidBinarize (sig : K → K) (u : Nat → K) (x : List K) : (sigmoidBinarize sig u x).length = x.length := List.length_mapIdx

theorem length_initBits (op : InitOp K) (u : Nat → K) (n : Nat) : (op.make u n).genome.length = n := by
  unfold InitOp.make InitOp.bits
  cases op with
  | zero => exact List.length_replicate ..
  | random p => simp [randomBits]

/-! ## Bee colony -/

theorem food_genome_len (sig : K → K) (d : FoodDraw K) (own other g : List Bool) (h : d.genome sig own other = .ok g) : g.length = own.length := by
  unfold FoodDraw.genome at h
  split at h
  · cases h
  · cases d with
    | sigmoid r u => injection h with h; rw [← h, length_sigmoidBinarize, List.length_mapIdx]
    | bitwise r => injection h with h; rw [← h, List.length_mapIdx]
    | flips dims => injection h with h; rw [← h, List.length_mapIdx]

theorem abcCandidates_sat (sig : K → K) (ev : Eval K) (n : Nat) (sources : List (Food K)) (others : List Nat) (d : Nat → FoodDraw K)
    (h : ∀ f ∈ sources, EvLen ev n f.sol) : (abcCandidates sig sources others d).Sat ev (HasLen n) fun new => ∀ σ ∈ new, EvLen ev n σ := by
  unfold abcCandidates
  refine Prog.Sat.mono ?_ _ (Prog.Sat.each (fun x : (Food K × Nat) × Nat => x.1.1 ∈ sources) (fun _ τ => EvLen ev n τ) _ _ ?_ ?_)
  · intro new hnew σ hσ
    exact (List.forall₂_iff_get.mp hnew).2 |> fun hh => by
      obtain ⟨i, hi, rfl⟩ := List.mem_iff_getElem.mp hσ
      exact hh i (by rw [hnew.length_eq]; exact hi) hi
  · intro x hx
    have := List.mem_of_mem_drop (i := 0) hx
    obtain ⟨⟨f, o⟩, k⟩ := x
    have hx' := (List.mem_zipIdx hx)
    have : (f, o) ∈ sources.zip others := by
      rw [hx'.2.2]; exact List.getElem_mem _
    exact (List.of_mem_zip this).1
  · intro x hx
    split
    · trivial
    · refine Prog.Sat.bind (P := fun g => g.length = n) (Prog.Sat.lift fun g hg => (food_genome_len _ _ _ _ _ hg).trans (h _ hx).1) fun g hg => ?_
      exact Prog.Sat.mono (fun _ h => h.2) _ (evaluate_sat ev n _ hg)

theorem mem_greedyUpdate (new : List (Indiv K)) (src : List (Food K)) : ∀ f ∈ greedyUpdate new src, f.sol ∈ new ∨ f.sol ∈ src.map Food.sol := by
  induction new generalizing src with
  | nil =>
    intro f hf
    have : greedyUpdate ([] : List (Indiv K)) src = src := by cases src <;> rfl
    rw [this] at hf
    exact Or.inr (List.mem_map_of_mem hf)
  | cons c cs ih =>
    cases src with
    | nil => intro f hf; cases hf
    | cons s ss =>
      intro f hf
      rw [greedyUpdate] at hf
      rcases List.mem_cons.mp hf with rfl | hf
      · split
        · exact Or.inl (List.mem_cons_self ..)
        · exact Or.inr (List.mem_map_of_mem (f := Food.sol) (a := s) (List.mem_cons_self ..))
      · rcases ih ss f hf with h | h
        · exact Or.inl (List.mem_cons_of_mem _ h)
        · exact Or.inr (List.mem_cons_of_mem _ h)

theorem greedyUpdate_evLen {ev : Eval K} {n : Nat} {new : List (Indiv K)} {src : List (Food K)} (hn : ∀ σ ∈ new, EvLen ev n σ)
    (hs : ∀ f ∈ src, EvLen ev n f.sol) : ∀ f ∈ greedyUpdate new src, EvLen ev n f.sol := by
  intro f hf
  rcases mem_greedyUpdate new src f hf with h | h
  · exact hn _ h
  · obtain ⟨g, hg, he⟩ := List.mem_map.mp h
    rw [← he]; exact hs g hg

theorem forall₂_right {α β : Type} {P : β → Prop} {l : List α} {l' : List β} (h : List.Forall₂ (fun _ b => P b) l l') : ∀ b ∈ l', P b := by
  induction h with
  | nil => intro b hb; cases hb
  | cons h1 _ ih =>
    intro b hb
    rcases List.mem_cons.mp hb with rfl | hb
    · exact h1
    · exact ih b hb

theorem mem_of_mem_zipIdx {α : Type} {l : List α} {x : α × Nat} (h : x ∈ l.zipIdx) : x.1 ∈ l := by
  obtain ⟨a, k⟩ := x
  have hx := List.mem_zipIdx h
  change a ∈ l
  rw [hx.2.2]; exact List.getElem_mem _

theorem abcScout_sat (init : InitOp K) (n limit : Nat) (draw : Nat → Nat → K) (ev : Eval K) (sources : List (Food K))
    (h : ∀ f ∈ sources, EvLen ev n f.sol) : (abcScout init n limit draw sources).Sat ev (HasLen n) fun s => ∀ f ∈ s, EvLen ev n f.sol := by
  unfold abcScout
  refine Prog.Sat.mono (fun _ => forall₂_right) _ (Prog.Sat.each (fun x : Food K × Nat => x.1 ∈ sources) (fun _ (f : Food K) => EvLen ev n f.sol) _ _
    (fun x hx => mem_of_mem_zipIdx hx) ?_)
  intro x hx
  split
  · exact Prog.Sat.bind (evaluate_sat ev n _ (length_initBits ..)) fun σ hσ => hσ.2
  · exact h _ hx

theorem abcStep_sat (sig : K → K) (init : InitOp K) (n limit : Nat) (ev : Eval K) (sources : List (Food K)) (d : ABCDraw K)
    (h : ∀ f ∈ sources, EvLen ev n f.sol) : (abcStep sig init n limit sources d).Sat ev (HasLen n) fun s => ∀ f ∈ s, EvLen ev n f.sol := by
  unfold abcStep
  split
  · trivial
  · refine Prog.Sat.bind' (abcCandidates_sat sig ev n _ _ _ h) fun new1 h1 => ?_
    refine Prog.Sat.bind' (P := fun _ => True) (Prog.Sat.lift fun _ _ => trivial) fun _ _ => ?_
    refine Prog.Sat.bind' (abcCandidates_sat sig ev n _ _ _ (greedyUpdate_evLen h1 h)) fun new2 h2 => ?_
    exact abcScout_sat init n limit _ ev _ (greedyUpdate_evLen h2 (greedyUpdate_evLen h1 h))

theorem abc_sat (sig : K → K) (init : InitOp K) (limit : Nat) (draws : List (ABCDraw K)) (n : Nat) (ev : Eval K) (pop : List (Indiv K)) (h : AllLen n pop) :
    (abc sig init limit draws n pop).Sat ev (HasLen n) fun s => ∀ f ∈ s, EvLen ev n f.sol := by
  unfold abc
  refine Prog.Sat.bind' (evaluateAll_sat ev n _ h) fun pop' hpop => ?_
  refine Prog.Sat.forEach (fun _ s => ∀ f ∈ s, EvLen ev n f.sol) _ draws _ ?_ fun d _ s hs => abcStep_sat sig init n limit ev s d hs
  intro f hf
  obtain ⟨σ, hσ, rfl⟩ := List.mem_map.mp hf
  exact hpop.2 σ hσ

/-! ## Particle swarm -/

/-- The solution and the remembered best of a particle are evaluated, with `n` bits; so many coordinates has the position, except for binary particles. -/
def Particle.Ok (ev : Eval K) (n : Nat) (m : Movement K) (p : Particle K) : Prop :=
  EvLen ev n p.sol ∧ EvLen ev n p.best ∧ (p.position.length = n ∨ ∃ q, m = .binary q)

theorem clone_eq {σ τ : Indiv K} (h : σ.clone = .ok τ) : τ = σ := by
  unfold Indiv.clone at h
  cases hs : σ.st with
  | none => rw [hs] at h; cases h
  | some s => rw [hs] at h; injection h with h; rw [← h]; cases σ; cases hs; rfl

theorem initParticle_ok (m : Movement K) (r v : Nat → K) (σ : Indiv K) (p : Particle K) (ev : Eval K) (n : Nat) (h : m.initParticle r v σ = .ok p)
    (hσ : EvLen ev n σ) : p.Ok ev n m := by
  unfold Movement.initParticle at h
  cases hc : σ.clone with
  | error e => rw [hc] at h; cases h
  | ok b =>
    rw [hc] at h
    have hb := clone_eq hc
    subst hb
    cases m with
    | sigmoid b c v => injection h with h; rw [← h]; exact ⟨hσ, hσ, Or.inl (by simp [hσ.1])⟩
    | quantum => injection h with h; rw [← h]; exact ⟨hσ, hσ, Or.inl (by simp [hσ.1])⟩
    | binary q => injection h with h; rw [← h]; exact ⟨hσ, hσ, Or.inr ⟨q, rfl⟩⟩

/-- After the movement only the genome of the solution is known. -/
def Particle.Moved (ev : Eval K) (n : Nat) (m : Movement K) (p : Particle K) : Prop :=
  p.sol.genome.length = n ∧ EvLen ev n p.best ∧ (p.position.length = n ∨ ∃ q, m = .binary q)

theorem move_moved (m : Movement K) (sig : K → K) (a : K) (d : PSODraw K) (ps ps' : List (Particle K)) (ev : Eval K) (n : Nat)
    (h : ∀ p ∈ ps, p.Ok ev n m) (hm : m.move sig a d ps = .ok ps') : ∀ p ∈ ps', p.Moved ev n m := by
  unfold Movement.move at hm
  cases m with
  | sigmoid b c v =>
    dsimp only at hm
    split at hm
    · cases hm
    · injection hm with hm
      rw [← hm]
      intro p hp
      obtain ⟨k, hk, rfl⟩ := List.mem_mapIdx.mp hp
      obtain ⟨h1, h2, h3⟩ := h _ (List.getElem_mem hk)
      have h3' : ps[k].position.length = n := h3.resolve_right (by rintro ⟨q, hq⟩; cases hq)
      refine ⟨?_, h2, Or.inl ?_⟩
      · simp [sigmoidMove, length_sigmoidBinarize, h3']
      · simp [sigmoidMove, h3']
  | quantum =>
    dsimp only at hm
    split at hm
    · cases hm
    · injection hm with hm
      rw [← hm]
      intro p hp
      obtain ⟨k, hk, rfl⟩ := List.mem_mapIdx.mp hp
      obtain ⟨h1, h2, h3⟩ := h _ (List.getElem_mem hk)
      have h3' : ps[k].position.length = n := h3.resolve_right (by rintro ⟨q, hq⟩; cases hq)
      refine ⟨?_, h2, Or.inl ?_⟩
      · simp [quantumMove, length_sigmoidBinarize, h3']
      · simp [quantumMove, h3']
  | binary q =>
    cases ps with
    | nil => cases hm
    | cons p0 rest =>
      dsimp only at hm
      split at hm
      · cases hm
      · injection hm with hm
        rw [← hm]
        intro p hp
        obtain ⟨k, hk, rfl⟩ := List.mem_mapIdx.mp hp
        have hmem := (List.of_mem_zip (List.getElem_mem hk)).1
        obtain ⟨h1, h2, h3⟩ := h _ hmem
        refine ⟨?_, h2, Or.inr ⟨q, rfl⟩⟩
        simp only [binaryMove, List.length_mapIdx]
        exact h1.1

theorem particle_evaluate_sat (ev : Eval K) (n : Nat) (m : Movement K) (p : Particle K) (h : p.Moved ev n m) :
    p.evaluate.Sat ev (HasLen n) fun p' => p'.Ok ev n m ∧ p'.best = p.best ∧ p'.bestPosition = p.bestPosition ∧ p'.velocity = p.velocity ∧
      p'.position = p.position :=
  Prog.Sat.bind (evaluate_sat ev n _ h.1) fun _ hσ => ⟨⟨hσ.2, h.2.1, h.2.2⟩, rfl, rfl, rfl, rfl⟩

theorem updateBest_spec (p p' : Particle K) (h : p.updateBest = .ok p') :
    p'.velocity = p.velocity ∧ p'.position = p.position ∧ p'.sol = p.sol ∧
    ((p.best.fitnessD < p.sol.fitnessD ∧ p'.best = p.sol ∧ p'.bestPosition = p.position) ∨
      (p.sol.fitnessD ≤ p.best.fitnessD ∧ p'.best = p.best ∧ p'.bestPosition = p.bestPosition)) := by
  unfold Particle.updateBest at h
  split at h
  · rename_i hlt
    cases hc : p.sol.clone with
    | error e => rw [hc] at h; cases h
    | ok σ =>
      rw [hc] at h
      injection h with h
      rw [← h]
      exact ⟨rfl, rfl, rfl, Or.inl ⟨hlt, clone_eq hc, rfl⟩⟩
  · rename_i hnlt
    injection h with h
    rw [← h]
    exact ⟨rfl, rfl, rfl, Or.inr ⟨not_lt.mp hnlt, rfl, rfl⟩⟩

theorem psoStep_sat (m : Movement K) (sig : K → K) (aMax step : K) (ev : Eval K) (n : Nat) (s : PSOState K) (d : PSODraw K × Nat)
    (h : ∀ p ∈ s.particles, p.Ok ev n m) : (psoStep m sig aMax step s d).Sat ev (HasLen n) fun s' => ∀ p ∈ s'.particles, p.Ok ev n m := by
  unfold psoStep
  refine Prog.Sat.bind' (Prog.Sat.lift fun ps' hps' => move_moved m sig _ _ s.particles ps' ev n h hps') fun moved hmoved => ?_
  refine Prog.Sat.bind' (P := fun fitted => ∀ p ∈ fitted, p.Ok ev n m) ?_ fun fitted hf => ?_
  · exact Prog.Sat.mono (fun _ => forall₂_right) _ (Prog.Sat.each (fun p : Particle K => p.Moved ev n m) (fun _ p => p.Ok ev n m) _ _ hmoved
      fun p hp => Prog.Sat.mono (fun _ h => h.1) _ (particle_evaluate_sat ev n m p hp))
  · refine Prog.Sat.bind' (P := fun ps' : List (Particle K) => ∀ p ∈ ps', p.Ok ev n m) (Prog.Sat.lift fun ps' hps' p' hp' => ?_) fun ps' hps' => hps'
    obtain ⟨p, hp, he⟩ := mem_of_mapM_ok _ _ _ hps' p' hp'
    obtain ⟨h1, h2, h3, h4⟩ := updateBest_spec p p' he
    obtain ⟨o1, o2, o3⟩ := hf p hp
    refine ⟨h3 ▸ o1, ?_, h2 ▸ o3⟩
    rcases h4 with ⟨_, hb, _⟩ | ⟨_, hb, _⟩
    · rw [hb]; exact o1
    · rw [hb]; exact o2

theorem pso_sat (m : Movement K) (sig : K → K) (aMin aMax : K) (init : Nat → (Nat → K) × (Nat → K)) (draws : List (PSODraw K)) (n : Nat) (ev : Eval K)
    (pop : List (Indiv K)) (h : AllLen n pop) : (pso m sig aMin aMax init draws pop).Sat ev (HasLen n) fun s => ∀ p ∈ s.particles, p.Ok ev n m := by
  unfold pso
  refine Prog.Sat.bind' (evaluateAll_sat ev n _ h) fun pop' hpop => ?_
  refine Prog.Sat.bind' (P := fun _ => True) (Prog.Sat.lift fun _ _ => trivial) fun step _ => ?_
  refine Prog.Sat.bind' (P := fun ps => ∀ p ∈ ps, p.Ok ev n m) (Prog.Sat.lift fun ps hps p hp => ?_) fun ps hps => ?_
  · obtain ⟨x, hx, he⟩ := mem_of_mapM_ok _ _ _ hps p hp
    exact initParticle_ok m _ _ x.1 p ev n he (hpop.2 _ (mem_of_mem_zipIdx hx))
  · exact Prog.Sat.forEach (fun _ (s : PSOState K) => ∀ p ∈ s.particles, p.Ok ev n m) _ _ ⟨ps, [ps]⟩ hps fun d _ s hs => psoStep_sat m sig aMax step ev n s d hs

/-! ## Grey wolves -/

theorem wolfMove_len (upd : WolfUpdate) (sig : K → K) (a : K) (leaders : List (Indiv K)) (d : WolfDraw K) (σ τ : Indiv K)
    (h : wolfMove upd sig a leaders d σ = .ok τ) : τ.genome.length = σ.genome.length := by
  unfold wolfMove at h
  split at h
  · cases h
  · cases upd with
    | crossover => injection h with h; rw [← h]; simp [Indiv.withGenome]
    | sigmoid => injection h with h; rw [← h]; simp [Indiv.withGenome, length_sigmoidBinarize]

theorem gwoStep_sat (upd : WolfUpdate) (sig : K → K) (nLeaders : Nat) (step : K) (ev : Eval K) (n : Nat) (pop : List (Indiv K))
    (d : (Nat → WolfDraw K) × Nat) (h : ∀ σ ∈ pop, EvLen ev n σ) :
    (gwoStep upd sig nLeaders step pop d).Sat ev (HasLen n) fun pop' => ∀ σ ∈ pop', EvLen ev n σ := by
  unfold gwoStep
  refine Prog.Sat.bind' (P := fun new => AllLen n new) (Prog.Sat.lift fun new hnew => ?_) fun new hnew =>
    Prog.Sat.mono (fun _ h => h.2) _ (evaluateAll_sat ev n _ hnew)
  intro τ hτ
  obtain ⟨x, hx, he⟩ := mem_of_mapM_ok _ _ _ hnew τ hτ
  rw [wolfMove_len _ _ _ _ _ _ _ he]
  exact (h _ (mem_of_mem_zipIdx hx)).1

theorem gwo_sat (upd : WolfUpdate) (sig : K → K) (nLeaders : Nat) (draws : List (Nat → WolfDraw K)) (n : Nat) (ev : Eval K) (pop : List (Indiv K))
    (h : AllLen n pop) : (gwo upd sig nLeaders draws pop).Sat ev (HasLen n) fun pop' => ∀ σ ∈ pop', EvLen ev n σ := by
  unfold gwo
  refine Prog.Sat.bind' (evaluateAll_sat ev n _ h) fun pop' hpop => ?_
  refine Prog.Sat.bind' (P := fun _ => True) (Prog.Sat.lift fun _ _ => trivial) fun step _ => ?_
  exact Prog.Sat.forEach (fun _ s => ∀ σ ∈ s, EvLen ev n σ) _ _ pop' hpop.2 fun d _ s hs => gwoStep_sat upd sig nLeaders step ev n s d hs

/-! ## Random search -/

theorem fittestIndiv_spec' {pop : List (Indiv K)} {σ : Indiv K} (h : fittestIndiv pop = .ok σ) : σ ∈ pop ∧ ∀ τ ∈ pop, τ.fitnessD ≤ σ.fitnessD := by
  unfold fittestIndiv at h
  split at h
  · split at h
    · cases h
    · rename_i b hb
      injection h with h
      rw [← h]
      exact pyMax_spec _ _ _ hb
  · cases h

theorem rsOne_sat (init : InitOp K) (nIter n : Nat) (draw : Nat → Nat → K) (ev : Eval K) :
    (rsOne init nIter n draw).Sat ev (HasLen n) fun σ => EvLen ev n σ := by
  unfold rsOne
  refine Prog.Sat.bind' (evaluateAll_sat ev n _ ?_) fun sols hs => Prog.Sat.lift fun σ hσ => hs.2 σ (fittestIndiv_spec' hσ).1
  intro σ hσ
  obtain ⟨k, _, rfl⟩ := List.mem_map.mp hσ
  exact length_initBits ..

theorem rs_sat (init : InitOp K) (populationSize nIter : Nat) (draw : Nat → Nat → Nat → K) (n : Nat) (ev : Eval K) (pop : List (Indiv K))
    (h : AllLen n pop) : (rs init populationSize nIter draw n pop).Sat ev (HasLen n) fun pop' => ∀ σ ∈ pop', EvLen ev n σ := by
  unfold rs
  refine Prog.Sat.bind' (evaluateAll_sat ev n _ h) fun _ _ => ?_
  exact Prog.Sat.mono (fun _ => forall₂_right) _ (Prog.Sat.each (fun _ => True) (fun _ σ => EvLen ev n σ) _ _ (fun _ _ => trivial)
    fun k _ => rsOne_sat init nIter n (draw k) ev)

end Suprb
