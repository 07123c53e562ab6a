import Verif.Props.Reach
import Verif.Props.Strategies

/-!
# C118 for whole runs of grey wolves, sigmoid and quantum particles, and bees with the sigmoid update
-/

set_option autoImplicit false
set_option linter.unusedSectionVars false

namespace Suprb

section ReachSwarm

variable {K : Type} [Field K] [LinearOrder K] [IsStrictOrderedRing K]

theorem zipIdx_append_one {α : Type} (l : List α) (a : α) : (l ++ [a]).zipIdx = l.zipIdx ++ [(a, l.length)] := by
  rw [List.zipIdx_append]
  simp

/-! ## Grey wolves -/

theorem leaders_ne (nLeaders : Nat) (h : 1 ≤ nLeaders) (s : List (Indiv K)) (hs : s ≠ []) : (sortedDesc Indiv.fitnessD s).take nLeaders ≠ [] := by
  intro he
  have hlen := congrArg List.length he
  rw [List.length_take, (sortedDesc_perm Indiv.fitnessD s).length_eq] at hlen
  have := List.length_pos_iff.mpr hs
  rw [List.length_nil] at hlen
  omega

theorem gwoStep_runs (upd : WolfUpdate) (sig : K → K) (nLeaders : Nat) (hlead : 1 ≤ nLeaders) (step : K) {ev : Eval K} {n : Nat} (hev : TotalEval ev n) (s : List (Indiv K))
    (hne : s ≠ []) (hs : ∀ σ ∈ s, EvLen ev n σ) (d : (Nat → WolfDraw K) × Nat) :
    (gwoStep upd sig nLeaders step s d).Runs ev fun s' => s'.length = s.length ∧ ∀ σ ∈ s', EvLen ev n σ := by
  refine Prog.Runs.and_sat ?_ (gwoStep_sat upd sig nLeaders step ev n s d hs)
  unfold gwoStep
  obtain ⟨new, hnew⟩ := mapM_total (fun x : Indiv K × Nat => wolfMove upd sig (2 - (d.2 : K) * step) ((sortedDesc Indiv.fitnessD s).take nLeaders) (d.1 x.2) x.1) s.zipIdx
    fun x _ => wolfMove_ok _ _ _ _ (leaders_ne nLeaders hlead s hne) _ _
  refine Prog.Runs.bind' (P := fun l => l = new) (Prog.Runs.lift ⟨new, hnew, rfl⟩) fun l hl => ?_
  subst hl
  refine Prog.Runs.mono (fun _ h => h.1.trans ?_) (evaluateAll_runs hev _ ?_)
  · intro τ hτ
    obtain ⟨x, hx, he⟩ := mem_of_mapM_ok _ _ _ hnew τ hτ
    rw [wolfMove_len _ _ _ _ _ _ _ he]
    exact (hs _ (mem_of_mem_zipIdx hx)).1
  · rw [mapM_length _ _ _ hnew, List.length_zipIdx]

/-- C118 for grey wolves with the sigmoid update: whatever happened in earlier iterations and whatever the other draws, the draws of the binarisation can make all wolves of an
iteration equal to any selection of rules. -/
theorem C118_gwo_partial (sig : K → K) (hsig : ∀ x, 0 < sig x ∧ sig x < 1) (nLeaders : Nat) (hlead : 1 ≤ nLeaders) (ev : Eval K) (g : List Bool) (hev : TotalEval ev g.length)
    (pop : List (Indiv K)) (hl : AllLen g.length pop) (hne : pop ≠ []) (earlier : List (Nat → WolfDraw K)) (d : Nat → WolfDraw K) :
    ∃ v : Nat → Nat → K, (∀ k, Spec.Unit (v k)) ∧ ∃ pop', (gwo .sigmoid sig nLeaders (earlier ++ [fun k => { d k with v := v k }]) pop).run ev = .ok pop' ∧
      pop'.length = pop.length ∧ ∀ σ ∈ pop', σ.genome = g := by
  obtain ⟨pop0, h0, h0l, h0e⟩ := evaluateAll_runs hev pop hl
  obtain ⟨s, hs, hsl, hse⟩ := Prog.Runs.forEach (ev := ev) (fun _ s => s.length = pop.length ∧ ∀ σ ∈ s, EvLen ev g.length σ)
    (gwoStep .sigmoid sig nLeaders (2 / ((earlier.length + 1 : Nat) : K))) earlier.zipIdx pop0 ⟨h0l, h0e⟩
    fun b _ a ha => Prog.Runs.mono (fun _ h => ⟨h.1.trans ha.1, h.2⟩) (gwoStep_runs _ _ _ hlead _ hev a (ne_nil_of_length ha.1 hne) ha.2 b)
  have hsne : s ≠ [] := ne_nil_of_length hsl hne
  have hlne := leaders_ne nLeaders hlead s hsne
  have hb : ∀ k, ∃ v, Spec.Unit v ∧ ∀ σ, s[k]? = some σ →
      wolfMove .sigmoid sig (2 - (earlier.length : K) * (2 / ((earlier.length + 1 : Nat) : K))) ((sortedDesc Indiv.fitnessD s).take nLeaders) { d k with v := v } σ =
        .ok (σ.withGenome g) := by
    intro k
    cases hk : s[k]? with
    | none => exact ⟨fun _ => 0, fun _ => ⟨le_refl _, zero_lt_one⟩, fun _ h => by cases h⟩
    | some σ =>
      have hσ := hse σ (List.mem_of_getElem? hk)
      obtain ⟨v, hv, he⟩ := C118_sigmoid_partial sig hsig (σ.genome.mapIdx fun i b =>
        mean (((sortedDesc Indiv.fitnessD s).take nLeaders).mapIdx fun l leader =>
          wolfX (2 - (earlier.length : K) * (2 / ((earlier.length + 1 : Nat) : K))) ((d k).r l i) ((d k).r' l i) (leader.genome.getD i false) b)) g
        (by rw [List.length_mapIdx]; exact hσ.1)
      refine ⟨v, hv, fun τ hτ => ?_⟩
      cases hτ
      unfold wolfMove
      rw [if_neg hlne]
      dsimp only
      rw [he]
  choose v hv he using hb
  refine ⟨v, hv, ?_⟩
  have hfin : (gwoStep .sigmoid sig nLeaders (2 / ((earlier.length + 1 : Nat) : K)) s (fun k => { d k with v := v k }, earlier.length)).Runs ev
      fun pop' => pop'.length = s.length ∧ ∀ σ ∈ pop', σ.genome = g := by
    unfold gwoStep
    have hstep : ∀ x ∈ s.zipIdx, wolfMove .sigmoid sig (2 - (earlier.length : K) * (2 / ((earlier.length + 1 : Nat) : K))) ((sortedDesc Indiv.fitnessD s).take nLeaders)
        { d x.2 with v := v x.2 } x.1 = .ok (x.1.withGenome g) := fun x hx => he x.2 x.1 (List.mk_mem_zipIdx_iff_getElem?.mp hx)
    obtain ⟨new, hnew⟩ := mapM_total (fun x : Indiv K × Nat => wolfMove .sigmoid sig (2 - (earlier.length : K) * (2 / ((earlier.length + 1 : Nat) : K)))
      ((sortedDesc Indiv.fitnessD s).take nLeaders) { d x.2 with v := v x.2 } x.1) s.zipIdx fun x hx => ⟨_, hstep x hx⟩
    refine Prog.Runs.bind' (P := fun l => l = new) (Prog.Runs.lift ⟨new, hnew, rfl⟩) fun l hl => ?_
    subst hl
    have hgen : ∀ τ ∈ l, τ.genome = g := by
      intro τ hτ
      obtain ⟨x, hx, hx'⟩ := mem_of_mapM_ok _ _ _ hnew τ hτ
      rw [hstep x hx] at hx'
      rw [← Except.ok.inj hx']
      rfl
    have hlen : AllLen g.length l := fun τ hτ => by rw [hgen τ hτ]
    refine Prog.Runs.mono (fun pop'' hp => ⟨?_, ?_⟩) ((evaluateAll_runs hev l hlen).and_sat (evaluateAll_sat ev g.length l hlen))
    · rw [hp.1.1, mapM_length _ _ _ hnew, List.length_zipIdx]
    · intro σ hσ
      have hmem : σ.genome ∈ pop''.map Indiv.genome := List.mem_map.mpr ⟨σ, hσ, rfl⟩
      rw [hp.2.1] at hmem
      obtain ⟨τ, hτ, h⟩ := List.mem_map.mp hmem
      rw [← h]; exact hgen τ hτ
  obtain ⟨pop', hp1, hp2, hp3⟩ := hfin
  refine ⟨pop', ?_, hp2.trans hsl, hp3⟩
  unfold gwo
  change ((evaluateAll pop).bind fun pop => (Prog.lift _).bind fun step => _).run ev = _
  rw [Prog.run_bind, h0]
  dsimp only
  rw [Prog.run_bind, Prog.run_lift, if_neg (by simp)]
  dsimp only
  rw [zipIdx_append_one, forEach_append_one, List.length_append, List.length_singleton, hs]
  exact hp1

/-! ## Particle swarm -/

/-- C118 for sigmoid and quantum particles: whatever happened in earlier iterations and whatever the other draws, the draws of the binarisation can make all particles of an iteration
equal to any selection of rules. -/
theorem C118_pso_partial (m : Movement K) (hm : ∀ q, m ≠ .binary q) (sig : K → K) (hsig : ∀ x, 0 < sig x ∧ sig x < 1) (aMin aMax : K) (init : Nat → (Nat → K) × (Nat → K))
    (ev : Eval K) (g : List Bool) (hg : g ≠ []) (hev : TotalEval ev g.length) (pop : List (Indiv K)) (hl : AllLen g.length pop) (hne : pop ≠ [])
    (earlier : List (PSODraw K)) (d : PSODraw K) :
    ∃ u : Nat → Nat → K, (∀ k, Spec.Unit (u k)) ∧ ∃ s', (pso m sig aMin aMax init (earlier ++ [⟨d.ties, fun k => { d.move k with u := u k }⟩]) pop).run ev = .ok s' ∧
      s'.particles.length = pop.length ∧ ∀ p ∈ s'.particles, p.sol.genome = g := by
  have hn : g.length ≠ 0 := by simpa using hg
  have hpd : ∀ (size : Nat) (z : PSODraw K), m.PossibleDraw size z := fun size z q hq => absurd hq (hm q)
  obtain ⟨pop0, h0, h0l, h0e⟩ := evaluateAll_runs hev pop hl
  obtain ⟨ps, hps⟩ := mapM_total (fun x : Indiv K × Nat => m.initParticle (init x.2).1 (init x.2).2 x.1) pop0.zipIdx (by
    intro x hx
    obtain ⟨s, hs⟩ := evLen_fit (h0e _ (mem_of_mem_zipIdx hx))
    unfold Movement.initParticle
    rw [Indiv.clone_ok _ _ hs]
    cases m <;> exact ⟨_, rfl⟩)
  have hpslen : ps.length = pop.length := by rw [mapM_length _ _ _ hps, List.length_zipIdx, h0l]
  have hpsok : ∀ p ∈ ps, p.Ok ev g.length m := by
    intro p hp
    obtain ⟨x, hx, he⟩ := mem_of_mapM_ok _ _ _ hps p hp
    exact initParticle_ok m _ _ x.1 p ev _ he (h0e _ (mem_of_mem_zipIdx hx))
  obtain ⟨s, hs, hsl, hse⟩ := Prog.Runs.forEach (ev := ev) (fun _ (s : PSOState K) => s.particles.length = pop.length ∧ ∀ p ∈ s.particles, p.Ok ev g.length m)
    (psoStep m sig aMax ((aMax - aMin) / ((earlier.length + 1 : Nat) : K))) earlier.zipIdx ⟨ps, [ps]⟩ ⟨hpslen, hpsok⟩
    fun b _ a ha => Prog.Runs.mono (fun _ h => ⟨h.1.trans ha.1, h.2⟩)
      ((psoStep_runs m sig aMax _ hn hev a b (ne_nil_of_length ha.1 hne) ha.2 (hpd _ _)).and_sat (psoStep_sat m sig aMax _ ev _ a b ha.2))
  have hsne : s.particles ≠ [] := ne_nil_of_length hsl hne
  have hpos : ∀ p ∈ s.particles, p.position.length = g.length := fun p hp => (hse p hp).2.2.resolve_right (by rintro ⟨q, hq⟩; exact hm q hq)
  have hmove : ∃ u : Nat → Nat → K, (∀ k, Spec.Unit (u k)) ∧ ∃ moved, m.move sig (aMax - (earlier.length : K) * ((aMax - aMin) / ((earlier.length + 1 : Nat) : K)))
      ⟨d.ties, fun k => { d.move k with u := u k }⟩ s.particles = .ok moved ∧ ∀ p ∈ moved, p.sol.genome = g := by
    obtain ⟨best, hbest⟩ := pyMax_ok (fun p : Particle K => p.sol.fitnessD) s.particles hsne
    cases m with
    | binary q => exact absurd rfl (hm q)
    | sigmoid b c vMax =>
      have hb : ∀ k, ∃ u, Spec.Unit u ∧ ∀ p, s.particles[k]? = some p →
          (sigmoidMove sig b c vMax (aMax - (earlier.length : K) * ((aMax - aMin) / ((earlier.length + 1 : Nat) : K))) best.position { d.move k with u := u } p).sol.genome = g := by
        intro k
        cases hk : s.particles[k]? with
        | none => exact ⟨fun _ => 0, fun _ => ⟨le_refl _, zero_lt_one⟩, fun _ h => by cases h⟩
        | some p =>
          obtain ⟨u, hu, he⟩ := C118_sigmoid_partial sig hsig (sigmoidMove sig b c vMax
            (aMax - (earlier.length : K) * ((aMax - aMin) / ((earlier.length + 1 : Nat) : K))) best.position (d.move k) p).position g
            (by simp [sigmoidMove, hpos p (List.mem_of_getElem? hk)])
          refine ⟨u, hu, fun p' hp' => ?_⟩
          cases hp'
          exact he
      choose u hu he using hb
      refine ⟨u, hu, ?_⟩
      unfold Movement.move
      dsimp only
      rw [hbest]
      refine ⟨_, rfl, fun p hp => ?_⟩
      obtain ⟨k, hk, rfl⟩ := List.mem_mapIdx.mp hp
      exact he k _ (List.getElem?_eq_getElem hk)
    | quantum =>
      have hb : ∀ k, ∃ u, Spec.Unit u ∧ ∀ p, s.particles[k]? = some p →
          (quantumMove sig (aMax - (earlier.length : K) * ((aMax - aMin) / ((earlier.length + 1 : Nat) : K))) best.position
            ((List.range best.position.length).map fun i => mean (s.particles.map fun p => p.position.getD i 0)) { d.move k with u := u } p).sol.genome = g := by
        intro k
        cases hk : s.particles[k]? with
        | none => exact ⟨fun _ => 0, fun _ => ⟨le_refl _, zero_lt_one⟩, fun _ h => by cases h⟩
        | some p =>
          obtain ⟨u, hu, he⟩ := C118_sigmoid_partial sig hsig (quantumMove sig (aMax - (earlier.length : K) * ((aMax - aMin) / ((earlier.length + 1 : Nat) : K))) best.position
            ((List.range best.position.length).map fun i => mean (s.particles.map fun p => p.position.getD i 0)) (d.move k) p).position g
            (by simp [quantumMove, hpos p (List.mem_of_getElem? hk)])
          refine ⟨u, hu, fun p' hp' => ?_⟩
          cases hp'
          exact he
      choose u hu he using hb
      refine ⟨u, hu, ?_⟩
      unfold Movement.move
      dsimp only
      rw [hbest]
      refine ⟨_, rfl, fun p hp => ?_⟩
      obtain ⟨k, hk, rfl⟩ := List.mem_mapIdx.mp hp
      exact he k _ (List.getElem?_eq_getElem hk)
  obtain ⟨u, hu, moved, hmv, hgen⟩ := hmove
  refine ⟨u, hu, ?_⟩
  have hfin : (psoStep m sig aMax ((aMax - aMin) / ((earlier.length + 1 : Nat) : K)) s (⟨d.ties, fun k => { d.move k with u := u k }⟩, earlier.length)).Runs ev
      fun s' => s'.particles.length = s.particles.length ∧ ∀ p ∈ s'.particles, p.sol.genome = g := by
    obtain ⟨s', hs', hlen'⟩ := psoStep_runs m sig aMax ((aMax - aMin) / ((earlier.length + 1 : Nat) : K)) hn hev s (⟨d.ties, fun k => { d.move k with u := u k }⟩, earlier.length) hsne hse
      (hpd _ _)
    refine ⟨s', hs', hlen', ?_⟩
    have hsat : (psoStep m sig aMax ((aMax - aMin) / ((earlier.length + 1 : Nat) : K)) s (⟨d.ties, fun k => { d.move k with u := u k }⟩, earlier.length)).Sat ev (fun _ => True)
        fun s' => ∀ p ∈ s'.particles, p.sol.genome = g := by
      unfold psoStep
      refine Prog.Sat.bind' (P := fun l => l = moved) (Prog.Sat.lift fun l hl => (Except.ok.inj (hmv.symm.trans hl)).symm) fun l hl => ?_
      subst hl
      refine Prog.Sat.bind' (P := fun l : List (Particle K) => ∀ p ∈ l, p.sol.genome = g) ?_ fun fitted hf => ?_
      · refine Prog.Sat.mono (fun _ => forall₂_right) _ (Prog.Sat.each (fun p : Particle K => p.sol.genome = g) (fun _ (p : Particle K) => p.sol.genome = g) _ _ hgen ?_)
        intro p hp
        unfold Particle.evaluate Indiv.evaluate
        refine ⟨trivial, fun st _ => ?_⟩
        exact hp
      · refine Prog.Sat.bind' (P := fun l : List (Particle K) => ∀ p ∈ l, p.sol.genome = g) (Prog.Sat.lift fun l hl p hp => ?_) fun l hl => hl
        obtain ⟨q, hq, he⟩ := mem_of_mapM_ok _ _ _ hl p hp
        rw [(updateBest_spec q p he).2.2.1]
        exact hf q hq
    exact hsat.run s' hs'
  obtain ⟨s', hp1, hp2, hp3⟩ := hfin
  refine ⟨s', ?_, hp2.trans hsl, hp3⟩
  unfold pso
  change ((evaluateAll pop).bind fun pop => (Prog.lift _).bind fun step => (Prog.lift _).bind fun ps => _).run ev = _
  rw [Prog.run_bind, h0]
  dsimp only
  rw [Prog.run_bind, Prog.run_lift, if_neg (by simp)]
  dsimp only
  rw [Prog.run_bind, Prog.run_lift, hps]
  dsimp only
  rw [zipIdx_append_one, forEach_append_one, List.length_append, List.length_singleton, hs]
  exact hp1

/-! ## Bees -/

/-- The draws of the sigmoid update of one bee after another. -/
def foodDraws (rand u : Nat → Nat → K) : Nat → FoodDraw K := fun k => .sigmoid (rand k) (u k)

/-- C118 for bees with the sigmoid update: in every phase of every iteration the draws of the binarisation can make all visited solutions equal to any selection of rules, whichever
other food sources are looked at. -/
theorem C118_abc_visits_partial (sig : K → K) (hsig : ∀ x, 0 < sig x ∧ sig x < 1) (ev : Eval K) (g : List Bool) (hev : TotalEval ev g.length) (sources : List (Food K))
    (hs : ∀ f ∈ sources, EvLen ev g.length f.sol) (others : List Nat) (ho : ∀ i ∈ others, i < sources.length) (rand : Nat → Nat → K) :
    ∃ u : Nat → Nat → K, (∀ k, Spec.Unit (u k)) ∧ ∃ new, (abcCandidates sig sources others (foodDraws rand u)).run ev = .ok new ∧
      new.length = min sources.length others.length ∧ ∀ σ ∈ new, σ.genome = g ∧ EvLen ev g.length σ := by
  have hb : ∀ k, ∃ u, Spec.Unit u ∧ ∀ x, (sources.zip others)[k]? = some x → ∀ other, sources[x.2]? = some other →
      (FoodDraw.sigmoid (rand k) u).genome sig x.1.sol.genome other.sol.genome = .ok g := by
    intro k
    cases hk : (sources.zip others)[k]? with
    | none => exact ⟨fun _ => 0, fun _ => ⟨le_refl _, zero_lt_one⟩, fun _ h => by cases h⟩
    | some x =>
      have hmem := List.of_mem_zip (List.mem_of_getElem? hk)
      have hlt := ho _ hmem.2
      have h1 := (hs _ hmem.1).1
      have h2 := (hs _ (List.getElem_mem hlt)).1
      obtain ⟨u, hu, he⟩ := C118_sigmoid_partial sig hsig
        (x.1.sol.genome.mapIdx fun i b => bitVal b + rand k i * (bitVal b - bitVal (sources[x.2].sol.genome.getD i false))) g (by rw [List.length_mapIdx]; exact h1)
      refine ⟨u, hu, fun x' hx' other ho' => ?_⟩
      cases hx'
      rw [List.getElem?_eq_getElem hlt] at ho'
      cases ho'
      unfold FoodDraw.genome
      rw [if_neg (not_not.mpr (h1.trans h2.symm))]
      dsimp only
      rw [he]
  choose u hu he using hb
  refine ⟨u, hu, ?_⟩
  have hone : ∀ x ∈ (sources.zip others).zipIdx, ∃ other, sources[x.1.2]? = some other ∧
      (foodDraws rand u x.2).genome sig x.1.1.sol.genome other.sol.genome = .ok g := by
    intro x hx
    have hmem := List.of_mem_zip (mem_of_mem_zipIdx hx)
    have hlt := ho _ hmem.2
    exact ⟨_, List.getElem?_eq_getElem hlt, he x.2 x.1 (List.mk_mem_zipIdx_iff_getElem?.mp hx) _ (List.getElem?_eq_getElem hlt)⟩
  have hlen : (abcCandidates sig sources others (foodDraws rand u)).Runs ev fun new => new.length = min sources.length others.length := by
    unfold abcCandidates
    refine Prog.Runs.mono (fun new h => by rw [h, List.length_zipIdx, List.length_zip]) (Prog.Runs.each _ _ fun x hx => ?_)
    obtain ⟨other, h1, h2⟩ := hone x hx
    rw [h1]
    dsimp only
    refine Prog.Runs.bind (P := fun g' => g' = g) (Prog.Runs.lift ⟨g, h2, rfl⟩) fun g' hg' => ?_
    exact Prog.Runs.mono (fun _ _ => trivial) (evaluate_runs hev _ (by rw [hg']; rfl))
  have hgen : (abcCandidates sig sources others (foodDraws rand u)).Sat ev (fun _ => True) fun new => ∀ σ ∈ new, σ.genome = g := by
    unfold abcCandidates
    refine Prog.Sat.mono (fun _ => forall₂_right) _ (Prog.Sat.each (fun x : (Food K × Nat) × Nat => x ∈ (sources.zip others).zipIdx) (fun _ (σ : Indiv K) => σ.genome = g) _ _
      (fun x hx => hx) ?_)
    intro x hx
    obtain ⟨other, h1, h2⟩ := hone x hx
    rw [h1]
    dsimp only
    refine Prog.Sat.bind (P := fun g' => g' = g) (Prog.Sat.lift fun g' hg' => (Except.ok.inj (h2.symm.trans hg')).symm) fun g' hg' => ?_
    exact ⟨trivial, fun st _ => hg'⟩
  obtain ⟨new, hnew, hl⟩ := hlen
  exact ⟨new, hnew, hl, fun σ hσ => ⟨hgen.run new hnew σ hσ, (abcCandidates_sat sig ev _ sources others _ hs).run new hnew σ hσ⟩⟩

theorem abc_append (sig : K → K) (init : InitOp K) (limit : Nat) (ev : Eval K) (ds : List (ABCDraw K)) (d : ABCDraw K) (n : Nat) (pop : List (Indiv K)) (s : List (Food K))
    (h : (abc sig init limit ds n pop).run ev = .ok s) : (abc sig init limit (ds ++ [d]) n pop).run ev = (abcStep sig init n limit s d).run ev := by
  unfold abc at h ⊢
  change ((evaluateAll pop).bind fun pop => _).run ev = _ at h
  change ((evaluateAll pop).bind fun pop => _).run ev = _
  rw [Prog.run_bind] at h ⊢
  cases hp : (evaluateAll pop).run ev with
  | error e => rw [hp] at h; cases h
  | ok pop0 =>
    rw [hp] at h
    dsimp only at h ⊢
    rw [forEach_append_one, h]

theorem greedyUpdate_better (g : List Bool) (new : List (Indiv K)) (src : List (Food K)) (hl : new.length = src.length) (hg : ∀ σ ∈ new, σ.genome = g)
    (hlt : ∀ σ ∈ new, ∀ f ∈ src, f.sol.fitnessD < σ.fitnessD) : (∀ f ∈ greedyUpdate new src, f.sol.genome = g ∧ f.trials = 0) ∧ (greedyUpdate new src).length = src.length := by
  induction new generalizing src with
  | nil =>
    cases src with
    | nil => exact ⟨fun f hf => absurd hf List.not_mem_nil, rfl⟩
    | cons _ _ => cases hl
  | cons c cs ih =>
    cases src with
    | nil => cases hl
    | cons f fs =>
      obtain ⟨h1, h2⟩ := ih fs (by simpa using hl) (fun σ hσ => hg σ (List.mem_cons_of_mem _ hσ)) fun σ hσ x hx => hlt σ (List.mem_cons_of_mem _ hσ) x (List.mem_cons_of_mem _ hx)
      rw [greedyUpdate, if_pos (hlt c (List.mem_cons_self ..) f (List.mem_cons_self ..))]
      refine ⟨fun x hx => ?_, by simp [h2]⟩
      rcases List.mem_cons.mp hx with rfl | hx
      · exact ⟨hg c (List.mem_cons_self ..), rfl⟩
      · exact h1 x hx

theorem greedyUpdate_stays (g : List Bool) (new : List (Indiv K)) (src : List (Food K)) (hg : ∀ σ ∈ new, σ.genome = g) (hs : ∀ f ∈ src, f.sol.genome = g ∧ f.trials = 0) :
    ∀ f ∈ greedyUpdate new src, f.sol.genome = g ∧ f.trials ≤ 1 := by
  induction new generalizing src with
  | nil =>
    intro f hf
    have : greedyUpdate ([] : List (Indiv K)) src = src := by cases src <;> rfl
    rw [this] at hf
    exact ⟨(hs f hf).1, by rw [(hs f hf).2]; exact Nat.zero_le _⟩
  | cons c cs ih =>
    cases src with
    | nil => intro f hf; cases hf
    | cons s ss =>
      intro f hf
      rw [greedyUpdate] at hf
      rcases List.mem_cons.mp hf with rfl | hf
      · split
        · exact ⟨hg c (List.mem_cons_self ..), Nat.zero_le _⟩
        · have := hs s (List.mem_cons_self ..)
          exact ⟨this.1, by dsimp only; rw [this.2]⟩
      · exact ih ss (fun σ hσ => hg σ (List.mem_cons_of_mem _ hσ)) (fun x hx => hs x (List.mem_cons_of_mem _ hx)) f hf

/-- C118 for whole runs of bees with the sigmoid update: whatever happened in earlier iterations, if a selection of rules is fitter than all food sources, the draws of the binarisation
can make all food sources equal to it (bees only stay at a visited solution that is fitter, C65). -/
theorem C118_abc_partial (sig : K → K) (hsig : ∀ x, 0 < sig x ∧ sig x < 1) (init : InitOp K) (limit : Nat) (hlim : 2 ≤ limit) (ev : Eval K) (g : List Bool)
    (hev : PositiveEval ev g.length) (pop : List (Indiv K)) (hl : AllLen g.length pop) (earlier : List (ABCDraw K)) (s : List (Food K))
    (hrun : (abc sig init limit earlier g.length pop).run ev = .ok s) (hne : s ≠ []) (st : SolState K) (hst : ev g = .ok st) (hbest : ∀ f ∈ s, f.sol.fitnessD < st.fitness)
    (others1 others2 : List Nat) (ho1 : others1.length = s.length ∧ ∀ i ∈ others1, i < s.length) (ho2 : ∀ i ∈ others2, i < s.length) (rand1 rand2 : Nat → Nat → K)
    (scout : Nat → Nat → K) :
    ∃ u1 u2 : Nat → Nat → K, (∀ k, Spec.Unit (u1 k)) ∧ (∀ k, Spec.Unit (u2 k)) ∧ ∃ s',
      (abc sig init limit (earlier ++ [⟨others1, foodDraws rand1 u1, others2, foodDraws rand2 u2, scout⟩]) g.length pop).run ev = .ok s' ∧ s'.length = s.length ∧
      ∀ f ∈ s', f.sol.genome = g := by
  have hte : TotalEval ev g.length := fun g' hg' => by
    obtain ⟨s, hs, _⟩ := hev g' hg'
    exact ⟨s, hs⟩
  have hs := (abc_sat sig init limit earlier g.length ev pop hl).run s hrun
  obtain ⟨u1, hu1, new1, hn1, hl1, hg1⟩ := C118_abc_visits_partial sig hsig ev g hte s hs others1 ho1.2 rand1
  have hlt : ∀ σ ∈ new1, ∀ f ∈ s, f.sol.fitnessD < σ.fitnessD := by
    intro σ hσ f hf
    obtain ⟨hσg, _, s', hs', he⟩ := hg1 σ hσ
    rw [hσg, hst] at he
    cases he
    have : σ.fitnessD = st.fitness := by unfold Indiv.fitnessD; rw [hs']; rfl
    rw [this]
    exact hbest f hf
  obtain ⟨hgu, hgl⟩ := greedyUpdate_better g new1 s (by rw [hl1, ho1.1, min_self]) (fun σ hσ => (hg1 σ hσ).1) hlt
  have hs1 := greedyUpdate_evLen (fun σ hσ => (hg1 σ hσ).2) hs
  obtain ⟨u2, hu2, new2, hn2, _, hg2⟩ := C118_abc_visits_partial sig hsig ev g hte (greedyUpdate new1 s) hs1 others2 (by rw [hgl]; exact ho2) rand2
  refine ⟨u1, u2, hu1, hu2, ?_⟩
  rw [abc_append sig init limit ev _ _ _ _ s hrun]
  have hstay := greedyUpdate_stays g new2 (greedyUpdate new1 s) (fun σ hσ => (hg2 σ hσ).1) hgu
  obtain ⟨w, hw⟩ := abcWeights_ok (greedyUpdate new1 s) (ne_nil_of_length hgl hne) fun f hf => hev.pos (hs1 f hf)
  have hscout : (abcScout init g.length limit scout (greedyUpdate new2 (greedyUpdate new1 s))).Runs ev fun s' => s'.length = s.length ∧ ∀ f ∈ s', f.sol.genome = g := by
    unfold abcScout
    have hret : ∀ x ∈ (greedyUpdate new2 (greedyUpdate new1 s)).zipIdx, ¬ limit ≤ x.1.trials := fun x hx => by
      have := (hstay _ (mem_of_mem_zipIdx hx)).2
      omega
    refine Prog.Runs.mono (fun s' h => ⟨?_, h.2⟩) (Prog.Runs.and_sat (n := fun _ => True) (Prog.Runs.each _ _ fun x hx => ?_)
      (Q := fun s' : List (Food K) => ∀ f ∈ s', f.sol.genome = g) ?_)
    · rw [h.1, List.length_zipIdx, length_greedyUpdate, hgl]
    · rw [if_neg (hret x hx)]
      exact Prog.Runs.ret trivial
    · refine Prog.Sat.mono (fun _ => forall₂_right) _ (Prog.Sat.each (fun x : Food K × Nat => x ∈ (greedyUpdate new2 (greedyUpdate new1 s)).zipIdx)
        (fun _ (f : Food K) => f.sol.genome = g) _ _ (fun x hx => hx) ?_)
      intro x hx
      rw [if_neg (hret x hx)]
      exact (hstay _ (mem_of_mem_zipIdx hx)).1
  have hfin : (abcStep sig init g.length limit s ⟨others1, foodDraws rand1 u1, others2, foodDraws rand2 u2, scout⟩).Runs ev fun s' => s'.length = s.length ∧
      ∀ f ∈ s', f.sol.genome = g := by
    unfold abcStep
    rw [if_neg fun h => hne h.1]
    refine Prog.Runs.bind' (P := fun l => l = new1) ⟨new1, hn1, rfl⟩ fun l hl => ?_
    rw [hl]
    refine Prog.Runs.bind' (P := fun _ => True) (Prog.Runs.lift ⟨w, hw, trivial⟩) fun _ _ => ?_
    refine Prog.Runs.bind' (P := fun l => l = new2) ⟨new2, hn2, rfl⟩ fun l hl => ?_
    rw [hl]
    exact hscout
  exact hfin

/-! ## Examples -/

/-- A function strictly between 0 and 1 that can be computed. -/
def halfSig : ℚ → ℚ := fun _ => 1 / 2

theorem halfSig_unit (x : ℚ) : 0 < halfSig x ∧ halfSig x < 1 := by unfold halfSig; norm_num

/-- The hypotheses hold: two wolves with three rules, after one iteration. -/
example : ∃ v : Nat → Nat → ℚ, (∀ k, Spec.Unit (v k)) ∧ ∃ pop', (gwo .sigmoid halfSig 1 ([demoWolf 1] ++ [fun k => { demoWolf 0 k with v := v k }])
      [⟨[false, false, true], none⟩, ⟨[true, false, false], none⟩]).run plusEval = .ok pop' ∧ pop'.length = 2 ∧ ∀ σ ∈ pop', σ.genome = [true, true, false] :=
  C118_gwo_partial halfSig halfSig_unit 1 (le_refl _) plusEval [true, true, false] (fun g _ => ⟨_, rfl⟩) _ (by simp [AllLen]) (by simp) _ _

/-- The hypotheses hold: two sigmoid particles with two rules, after one iteration, and with the sigmoid function of the code. -/
example : ∃ u : Nat → Nat → ℚ, (∀ k, Spec.Unit (u k)) ∧ ∃ s', (pso (.sigmoid 1 1 1) halfSig 0 1 (fun _ => (fun _ => 1 / 2, fun _ => -1))
      ([demoMove (9 / 10)] ++ [⟨(demoMove 0).ties, fun k => { (demoMove 0).move k with u := u k }⟩]) [⟨[false, true], none⟩, ⟨[true, true], none⟩]).run plusEval = .ok s' ∧
      s'.particles.length = 2 ∧ ∀ p ∈ s'.particles, p.sol.genome = [true, false] :=
  C118_pso_partial (.sigmoid 1 1 1) (by intro q h; cases h) halfSig halfSig_unit 0 1 _ plusEval [true, false] (by simp) (fun g _ => ⟨_, rfl⟩) _ (by simp [AllLen]) (by simp) _ _

example (ev : Eval ℝ) (g : List Bool) (hg : g ≠ []) (hev : TotalEval ev g.length) (pop : List (Indiv ℝ)) (hl : AllLen g.length pop) (hne : pop ≠ []) (earlier : List (PSODraw ℝ)) (d : PSODraw ℝ) :
    ∃ u : Nat → Nat → ℝ, (∀ k, Spec.Unit (u k)) ∧ ∃ s', (pso .quantum sigmoid 0 1 (fun _ => (fun _ => 0, fun _ => 0))
      (earlier ++ [⟨d.ties, fun k => { d.move k with u := u k }⟩]) pop).run ev = .ok s' ∧ s'.particles.length = pop.length ∧ ∀ p ∈ s'.particles, p.sol.genome = g :=
  C118_pso_partial .quantum (by intro q h; cases h) sigmoid sigmoid_unit 0 1 _ ev g hg hev pop hl hne earlier d

/-- The hypotheses hold: two bees with two rules, one earlier iteration, after which both rules are not selected by every bee. -/
example : ∃ u1 u2 : Nat → Nat → ℚ, (∀ k, Spec.Unit (u1 k)) ∧ (∀ k, Spec.Unit (u2 k)) ∧ ∃ s', (abc halfSig .zero 5
      ([⟨[1, 0], fun _ => .flips [], [0, 0], fun _ => .flips [], fun _ _ => 1⟩] ++ [⟨[1, 1], foodDraws (fun _ _ => 1 / 3) u1, [0], foodDraws (fun _ _ => -1) u2, fun _ _ => 0⟩]) 2
      [⟨[false, true], none⟩, ⟨[false, false], none⟩]).run plusEval = .ok s' ∧ s'.length = 2 ∧ ∀ f ∈ s', f.sol.genome = [true, true] := by
  obtain ⟨s, hs, ht⟩ := ok_of_test ((abc halfSig .zero 5 [⟨[1, 0], fun _ => .flips [], [0, 0], fun _ => .flips [], fun _ _ => 1⟩] 2 [⟨[false, true], none⟩, ⟨[false, false], none⟩]).run plusEval)
    (fun s => s.length == 2 && s.all fun f => decide (f.sol.fitnessD < 3)) (by decide +kernel)
  rw [Bool.and_eq_true, List.all_eq_true, beq_iff_eq] at ht
  have hne : s ≠ [] := by
    rintro rfl
    simp at ht
  have := C118_abc_partial halfSig halfSig_unit .zero 5 (by decide) plusEval [true, true] (fun g _ => ⟨_, rfl, by positivity⟩) [⟨[false, true], none⟩, ⟨[false, false], none⟩]
    (by simp [AllLen]) _ s hs hne _ rfl (fun f hf => by have := of_decide_eq_true (ht.2 f hf); norm_num; exact this) [1, 1] [0] ⟨by rw [ht.1]; rfl, by rw [ht.1]; simp⟩ (by rw [ht.1]; simp)
    (fun _ _ => 1 / 3) (fun _ _ => -1) fun _ _ => 0
  rw [ht.1] at this
  exact this

end ReachSwarm

end Suprb
