import Verif.Props.GA
import Verif.Props.Sas
import Verif.Props.Swarm
import Verif.Props.Aco

/-!
# Claim C74: the fittest initial solution
-/

set_option autoImplicit false
set_option linter.unusedSectionVars false

namespace Suprb

variable {K : Type} [Field K] [LinearOrder K] [IsStrictOrderedRing K]

/-- For every solution of the (evaluated) initial population, the final population has a solution that is at least as fit. -/
def KeepsBest (S : Strategy K) : Prop :=
  ∀ (n : Nat) (ev : Eval K) (pop start final : List (Indiv K)), AllLen n pop → fitAll ev pop = .ok start → S n ev pop = .ok final →
    ∀ σ ∈ start, ∃ τ ∈ final, ∃ f g, HasFitness σ f ∧ HasFitness τ g ∧ f ≤ g

theorem evaluate_run (ev : Eval K) (σ : Indiv K) : σ.evaluate.run ev = σ.fit ev := by
  unfold Indiv.evaluate Indiv.fit
  rw [Prog.run.eq_def]
  cases h : ev σ.genome <;> simp only [h, Prog.run]

theorem evaluateAll_run (ev : Eval K) (pop : List (Indiv K)) : (evaluateAll pop).run ev = fitAll ev pop := by
  unfold evaluateAll fitAll
  induction pop with
  | nil => rfl
  | cons σ rest ih =>
    rw [Prog.each, List.mapM_cons, Prog.run_bind, evaluate_run]
    cases σ.fit ev with
    | error e => rfl
    | ok s =>
      change Prog.run ev ((Prog.each Indiv.evaluate rest).bind _) = _
      rw [Prog.run_bind, ih]
      cases h : List.mapM (Indiv.fit ev) rest <;> simp only [h] <;> rfl

theorem Prog.sat_run (ev : Eval K) {α : Type} (p : Prog K α) : p.Sat ev (fun _ => True) fun a => p.run ev = .ok a := by
  induction p with
  | ret a => rfl
  | err e => exact True.intro
  | eval g k ih =>
    refine ⟨True.intro, fun s hs => ?_⟩
    refine Prog.Sat.mono (fun a ha => ?_) _ (ih s)
    rw [Prog.run, hs]
    exact ha

theorem Prog.Sat.and {ev : Eval K} {α : Type} {n : List Bool → Prop} {P Q : α → Prop} {p : Prog K α} (h1 : p.Sat ev n P) (h2 : p.Sat ev (fun _ => True) Q) :
    p.Sat ev (fun _ => True) fun a => P a ∧ Q a := by
  induction p with
  | ret a => exact ⟨h1, h2⟩
  | err e => exact True.intro
  | eval g k ih => exact ⟨True.intro, fun s hs => ih s (h1.2 s hs) (h2.2 s hs)⟩

/-- Every solution of `a` is matched by a solution of `b` that is at least as fit. -/
def Covered (a b : List (Indiv K)) : Prop := ∀ σ ∈ a, ∃ τ ∈ b, σ.fitnessD ≤ τ.fitnessD

theorem Covered.trans {a b c : List (Indiv K)} (h1 : Covered a b) (h2 : Covered b c) : Covered a c := fun σ hσ => by
  obtain ⟨τ, hτ, hle⟩ := h1 σ hσ
  obtain ⟨ρ, hρ, hle'⟩ := h2 τ hτ
  exact ⟨ρ, hρ, hle.trans hle'⟩

theorem Evaluated.hasFitness {ev : Eval K} {σ : Indiv K} (h : Evaluated ev σ) : HasFitness σ σ.fitnessD := by
  obtain ⟨s, h1, _⟩ := h
  refine ⟨s, h1, ?_⟩
  unfold Indiv.fitnessD
  rw [h1]; rfl

theorem keepsBest_of_sat (p : Nat → List (Indiv K) → Prog K (List (Indiv K)))
    (h1 : ∀ n ev pop, AllLen n pop → (p n pop).Sat ev (HasLen n) fun pop' => ∀ σ ∈ pop', EvLen ev n σ)
    (h2 : ∀ n ev pop start, AllLen n pop → fitAll ev pop = .ok start → (p n pop).Sat ev (fun _ => True) (Covered start)) : KeepsBest (Prog.strategy p) := by
  intro n ev pop start final hl hs hf σ hσ
  obtain ⟨τ, hτ, hle⟩ := (h2 n ev pop start hl hs).run final hf σ hσ
  exact ⟨τ, hτ, _, _, ((fitAll_spec _ _ _ hs).2 σ hσ).hasFitness, ((h1 n ev pop hl).run final hf τ hτ).2.hasFitness, hle⟩

/-- Evaluating a population again keeps solutions that were evaluated. -/
theorem evaluateAll_keeps (ev : Eval K) (pop : List (Indiv K)) : (evaluateAll pop).Sat ev (fun _ => True) fun pop' => ∀ σ ∈ pop, Evaluated ev σ → σ ∈ pop' := by
  refine Prog.Sat.mono (fun pop' h σ hσ he => ?_) _ (Prog.sat_run ev (evaluateAll pop))
  rw [evaluateAll_run] at h
  obtain ⟨τ, hτ, hf⟩ := mem_of_mapM_ok' _ _ _ h σ hσ
  rw [Indiv.fit_of_evaluated ev σ he] at hf
  injection hf with hf
  rw [hf]; exact hτ

/-- The elitists make the new population cover the old one. -/
theorem elitists_cover (ev : Eval K) (k : Nat) (hk : 1 ≤ k) (pop rest : List (Indiv K)) (he : ∀ σ ∈ pop, Evaluated ev σ) :
    (evaluateAll ((sortedDesc Indiv.fitnessD pop).take k ++ rest)).Sat ev (fun _ => True) (Covered pop) := by
  refine Prog.Sat.mono (fun pop' h σ hσ => ?_) _ (evaluateAll_keeps ev _)
  obtain ⟨τ, hτ, hle⟩ := exists_best_take k hk pop σ hσ
  exact ⟨τ, h τ (List.mem_append_left _ hτ) (he τ (mem_sortedDesc_take _ _ _ τ hτ)), hle⟩

/-- C74 holds for the genetic algorithm with at least one elitist. -/
theorem C74_ga_partial (cfg : GACfg K) (hk : 1 ≤ cfg.nElitists) (draws : List (GADraw K)) : KeepsBest (gaOptimize cfg draws) := by
  intro n ev pop start final hl hs hf
  have h0 : gaOptimize cfg [] n ev pop = .ok start := by
    unfold gaOptimize
    rw [hs]; rfl
  exact C44_best_kept cfg hk n ev [] draws pop start final hl h0 hf

/-- C74 holds for saga1 with at least one elitist. -/
theorem C74_saga1_partial (cfg : Saga1Cfg K) (hk : 1 ≤ cfg.nElitists) (draws : List (GADraw K)) (rates : Rates K) :
    KeepsBest (Prog.strategy fun _ pop => (saga1 cfg draws rates pop).bind fun s => .ret s.pop) := by
  refine keepsBest_of_sat _ (fun n ev pop h => Prog.Sat.bind (saga1_sat cfg draws rates n ev pop h) fun _ hs => hs) fun n ev pop start h hstart => ?_
  refine Prog.Sat.bind (P := fun s : Saga1State K => Covered start s.pop) ?_ fun s hs => hs
  unfold saga1
  by_cases he : cfg.populationSize % 2 = 0
  · rw [if_pos he]
    refine Prog.Sat.bind' ((evaluateAll_sat ev n _ h).and (Prog.sat_run ev _)) fun pop' hpop => ?_
    have hpop' : pop' = start := by
      have := hpop.2
      rw [evaluateAll_run, hstart] at this
      injection this with this
      exact this.symm
    have := Prog.Sat.forEach (ev := ev) (n := fun _ => True) (fun (_ : List (GADraw K)) (s : Saga1State K) => (∀ σ ∈ s.pop, EvLen ev n σ) ∧ Covered start s.pop)
      (saga1Step cfg) draws ⟨pop', rates, []⟩ ⟨hpop.1.2, by rw [hpop']; exact fun σ hσ => ⟨σ, hσ, le_refl _⟩⟩ ?_
    · exact Prog.Sat.mono (fun _ h => h.2) _ this
    · intro d _ s hs
      refine Prog.Sat.and (saga1Step_sat cfg ev n s d hs.1) (Prog.Sat.mono (P := fun s' : Saga1State K => Covered s.pop s'.pop)
        (Q := fun s' : Saga1State K => Covered start s'.pop) (fun s' h' => hs.2.trans h') _ ?_)
      · unfold saga1Step
        refine Prog.Sat.bind' (Prog.Sat.trivial ev _) fun fs _ => ?_
        refine Prog.Sat.bind' (Prog.Sat.trivial ev _) fun rates _ => ?_
        refine Prog.Sat.bind' (Prog.Sat.trivial ev _) fun parents _ => ?_
        refine Prog.Sat.bind' (Prog.Sat.trivial ev _) fun cs _ => ?_
        exact Prog.Sat.bind' (elitists_cover ev cfg.nElitists hk s.pop _ fun σ hσ => (hs.1 σ hσ).2) fun pop'' hc => hc
  · rw [if_neg he]; trivial

/-- C74 holds for saga2 with at least one elitist. -/
theorem C74_saga2_partial (cfg : Saga2Cfg) (hk : 1 ≤ cfg.nElitists) (draws : List (GADraw ℝ)) (a b : Option ℝ) :
    KeepsBest (Prog.strategy fun _ pop => (saga2 cfg draws a b pop).bind fun s => .ret s.pop) := by
  refine keepsBest_of_sat _ (fun n ev pop h => Prog.Sat.bind (saga2_sat cfg draws a b n ev pop h) fun _ hs => hs) fun n ev pop start h hstart => ?_
  refine Prog.Sat.bind (P := fun s : Saga2State => Covered start s.pop) ?_ fun s hs => hs
  unfold saga2
  by_cases he : cfg.populationSize % 2 = 0
  · rw [if_pos he]
    refine Prog.Sat.bind' ((evaluateAll_sat ev n _ h).and (Prog.sat_run ev _)) fun pop' hpop => ?_
    have hpop' : pop' = start := by
      have := hpop.2
      rw [evaluateAll_run, hstart] at this
      injection this with this
      exact this.symm
    refine Prog.Sat.bind' (Prog.Sat.trivial ev _) fun stats _ => ?_
    have := Prog.Sat.forEach (ev := ev) (n := fun _ => True) (fun (_ : List (GADraw ℝ × Nat)) (s : Saga2State) => (∀ σ ∈ s.pop, EvLen ev n σ) ∧ Covered start s.pop)
      (saga2Step cfg) draws.zipIdx ⟨pop', pop', stats, variance (pop'.map Indiv.fitnessD), variance (pop'.map Indiv.fitnessD), a, b⟩
      ⟨hpop.1.2, by rw [hpop']; exact fun σ hσ => ⟨σ, hσ, le_refl _⟩⟩ ?_
    · exact Prog.Sat.mono (fun _ h => h.2) _ this
    · intro d _ s hs
      refine Prog.Sat.and (saga2Step_sat cfg ev n s d hs.1) (Prog.Sat.mono (P := fun s' : Saga2State => Covered s.pop s'.pop)
        (Q := fun s' : Saga2State => Covered start s'.pop) (fun s' h' => hs.2.trans h') _ ?_)
      · unfold saga2Step
        refine Prog.Sat.bind' (Prog.Sat.trivial ev _) fun parents _ => ?_
        refine Prog.Sat.bind' (Prog.Sat.trivial ev _) fun cs _ => ?_
        refine Prog.Sat.bind' (Prog.Sat.trivial ev _) fun cs' _ => ?_
        refine Prog.Sat.bind' (elitists_cover ev cfg.nElitists hk s.pop _ fun σ hσ => (hs.1 σ hσ).2) fun pop'' hc => ?_
        refine Prog.Sat.bind' (Prog.Sat.trivial ev _) fun stats _ => ?_
        dsimp only
        split
        · refine Prog.Sat.lift fun s' hs' => ?_
          rw [saga2Adjust_pop _ _ _ hs']
          exact hc
        · exact hc
  · rw [if_neg he]; trivial

/-! ## saga3 -/

theorem saga3Cross_indiv (pmr : K) (d : Saga3Draw K) (h h' : Objs K) (a b c : Nat) (hx : saga3Cross pmr d h a b = .ok (h', c)) (i : Nat) (o : SagaObj K)
    (ho : h[i]? = some o) : ∃ o', h'[i]? = some o' ∧ o'.indiv = o.indiv := by
  unfold saga3Cross at hx
  cases ha : h[a]? with
  | none => rw [ha] at hx; cases hx
  | some A =>
    cases hb : h[b]? with
    | none => rw [ha, hb] at hx; cases hx
    | some B =>
      rw [ha, hb] at hx
      dsimp only at hx
      have hset : ∀ x y : K, ∀ m : CrossMethod, ∃ o', (h.set a ⟨A.indiv, x, y, m⟩)[i]? = some o' ∧ o'.indiv = o.indiv := by
        intro x y m
        by_cases hai : a = i
        · subst hai
          rw [ho] at ha
          injection ha with ha
          refine ⟨⟨A.indiv, x, y, m⟩, ?_, by rw [ha]⟩
          rw [List.getElem?_set, if_pos rfl, if_pos (List.getElem?_eq_some_iff.mp ho).1]
        · exact ⟨o, by rw [List.getElem?_set, if_neg hai]; exact ho, rfl⟩
      have happ : ∀ x : SagaObj K, ∃ o', (h ++ [x])[i]? = some o' ∧ o'.indiv = o.indiv := fun x =>
        ⟨o, by rw [List.getElem?_append_left (List.getElem?_eq_some_iff.mp ho).1]; exact ho, rfl⟩
      split at hx
      · split at hx
        · split at hx
          · injection hx with hx; injection hx with h1 h2; rw [← h1]; exact hset _ _ _
          · injection hx with hx; injection hx with h1 h2; rw [← h1]; exact happ _
        · split at hx
          · cases hx
          · injection hx with hx; injection hx with h1 h2; rw [← h1]; exact happ _
      · injection hx with hx; injection hx with h1 h2; rw [← h1]; exact hset _ _ _

theorem saga3Children_indiv (pmr : K) (draw : Nat → Bool → Saga3Draw K) (k : Nat) (ps : List (Nat × Nat)) (h h' : Objs K) (cs : List Nat)
    (hx : saga3Children pmr draw k ps h = .ok (h', cs)) (i : Nat) (o : SagaObj K) (ho : h[i]? = some o) : ∃ o', h'[i]? = some o' ∧ o'.indiv = o.indiv := by
  induction ps generalizing k h cs o with
  | nil => injection hx with hx; injection hx with h1 h2; rw [← h1]; exact ⟨o, ho, rfl⟩
  | cons p rest ih =>
    obtain ⟨a, b⟩ := p
    unfold saga3Children at hx
    cases h1 : saga3Cross pmr (draw k true) h a b with
    | error e => rw [h1] at hx; cases hx
    | ok x1 =>
      obtain ⟨H1, c1⟩ := x1
      rw [h1] at hx
      dsimp only at hx
      obtain ⟨o1, ho1, e1⟩ := saga3Cross_indiv pmr _ h H1 a b c1 h1 i o ho
      cases h2 : saga3Cross pmr (draw k false) H1 b a with
      | error e => rw [h2] at hx; cases hx
      | ok x2 =>
        obtain ⟨H2, c2⟩ := x2
        rw [h2] at hx
        dsimp only at hx
        obtain ⟨o2, ho2, e2⟩ := saga3Cross_indiv pmr _ H1 H2 b a c2 h2 i o1 ho1
        cases h3 : saga3Children pmr draw (k + 1) rest H2 with
        | error e => rw [h3] at hx; cases hx
        | ok x3 =>
          obtain ⟨H3, cs3⟩ := x3
          rw [h3] at hx
          injection hx with hx
          injection hx with h4 h5
          obtain ⟨o3, ho3, e3⟩ := ih (k + 1) H2 cs3 (h4 ▸ h3) o2 ho2
          exact ⟨o3, ho3, e3.trans (e2.trans e1)⟩

theorem exists_best_take' {α : Type} (key : α → K) (k : Nat) (hk : 1 ≤ k) (l : List α) (x : α) (hx : x ∈ l) :
    ∃ y ∈ (sortedDesc key l).take k, y ∈ l ∧ key x ≤ key y := by
  have hp := sortedDesc_perm key l
  have hs := sortedDesc_pairwise key l
  cases h : sortedDesc key l with
  | nil =>
    rw [h] at hp
    have := hp.symm.subset hx
    cases this
  | cons a as =>
    rw [h] at hp hs
    refine ⟨a, ?_, hp.subset (List.mem_cons_self ..), ?_⟩
    · cases k with
      | zero => omega
      | succ k => simp
    · rcases List.mem_cons.mp (hp.symm.subset hx) with rfl | hx'
      · exact le_refl _
      · exact (List.pairwise_cons.mp hs).1 x hx'

theorem sagaEvaluate_keeps (ev : Eval K) (os : Objs K) :
    (Prog.each SagaObj.evaluate os).Sat ev (fun _ => True) fun os' => os'.map SagaObj.indiv = os'.map SagaObj.indiv ∧
      List.Forall₂ (fun o o' : SagaObj K => o'.indiv.genome = o.indiv.genome ∧ Evaluated ev o'.indiv) os os' := by
  refine Prog.Sat.mono (fun os' h => ⟨rfl, h⟩) _ (Prog.Sat.each (fun _ => True) _ _ os (fun _ _ => True.intro) fun o _ => ?_)
  exact ⟨True.intro, fun s hs => ⟨rfl, s, rfl, hs⟩⟩

theorem forall₂_right_of_mem {α β : Type} {R : α → β → Prop} {l : List α} {m : List β} (h : List.Forall₂ R l m) (x : α) (hx : x ∈ l) : ∃ y ∈ m, R x y := by
  induction h with
  | nil => cases hx
  | cons h1 _ ih =>
    rcases List.mem_cons.mp hx with rfl | hx
    · exact ⟨_, List.mem_cons_self .., h1⟩
    · obtain ⟨y, hy, hr⟩ := ih hx
      exact ⟨y, List.mem_cons_of_mem _ hy, hr⟩

theorem eq_of_genome {ev : Eval K} {σ τ : Indiv K} (hg : τ.genome = σ.genome) (h1 : Evaluated ev σ) (h2 : Evaluated ev τ) : τ = σ := by
  obtain ⟨s, hs, he⟩ := h1
  obtain ⟨t, ht, he'⟩ := h2
  rw [hg, he] at he'
  injection he' with he'
  cases σ; cases τ
  simp_all

/-- C74 holds for saga3 with at least one elitist, whatever the parameters of the initial solutions. -/
theorem C74_saga3_partial (cfg : Saga3Cfg K) (hk : 1 ≤ cfg.nElitists) (draws : List (Saga3GenDraw K)) (par : Nat → K × K × CrossMethod) :
    KeepsBest (Prog.strategy fun _ pop => (saga3 cfg draws (pop.mapIdx fun i σ => ⟨σ, (par i).1, (par i).2.1, (par i).2.2⟩)).bind fun s =>
      .ret (s.pop.map SagaObj.indiv)) := by
  have hlen : ∀ (n : Nat) (pop : List (Indiv K)), AllLen n pop → ∀ o ∈ (pop.mapIdx fun i σ => (⟨σ, (par i).1, (par i).2.1, (par i).2.2⟩ : SagaObj K)),
      True ∧ True ∧ o.indiv.genome.length = n := by
    intro n pop h o ho
    obtain ⟨i, hi, rfl⟩ := List.mem_mapIdx.mp ho
    exact ⟨trivial, trivial, h _ (List.getElem_mem hi)⟩
  refine keepsBest_of_sat _ (fun n ev pop h => Prog.Sat.bind (saga3_sat cfg (fun _ => True) (fun _ => trivial) ev n draws _ (hlen n pop h)) fun s hs σ hσ => by
    obtain ⟨o, ho, rfl⟩ := List.mem_map.mp hσ
    exact (hs.1 o ho).2.2) fun n ev pop start h hstart => ?_
  refine Prog.Sat.bind (P := fun s : Saga3State K => Covered start (s.pop.map SagaObj.indiv)) ?_ fun s hs => hs
  unfold saga3
  by_cases he : cfg.populationSize % 2 = 0
  · rw [if_pos he]
    refine Prog.Sat.bind' ((sagaEvaluate_sat (fun _ => True) ev n _ (hlen n pop h)).and (sagaEvaluate_keeps ev _)) fun pop' hpop => ?_
    have hcov : Covered start (pop'.map SagaObj.indiv) := by
      intro σ hσ
      obtain ⟨σ0, hσ0, hf⟩ := mem_of_mapM_ok _ _ _ hstart σ hσ
      obtain ⟨hg, hev⟩ := Indiv.fit_ok ev σ0 σ hf
      obtain ⟨i, hi, rfl⟩ := List.mem_iff_getElem.mp hσ0
      have hl := hpop.2.2.length_eq
      rw [List.length_mapIdx] at hl
      have := (List.forall₂_iff_get.mp hpop.2.2).2 i (by rw [List.length_mapIdx]; exact hi) (by rw [← hl]; exact hi)
      simp only [List.get_eq_getElem, List.getElem_mapIdx] at this
      have heq := eq_of_genome (ev := ev) (this.1.trans hg.symm) hev this.2
      exact ⟨_, List.mem_map_of_mem (List.getElem_mem (by rw [← hl]; exact hi)), by rw [heq]⟩
    have := Prog.Sat.forEach (ev := ev) (n := fun _ => True) (fun (_ : List (Saga3GenDraw K)) (s : Saga3State K) =>
      ((∀ o ∈ s.pop, o.Good (fun _ => True) ev n) ∧ ∀ r ∈ s.log, True ∧ True) ∧ Covered start (s.pop.map SagaObj.indiv))
      (saga3Step cfg) draws ⟨pop', pop'.map fun o => (o.crossRate, o.mutRate)⟩ ⟨⟨hpop.1, fun _ _ => ⟨trivial, trivial⟩⟩, hcov⟩ ?_
    · exact Prog.Sat.mono (fun _ h => h.2) _ this
    · intro d _ s hs
      refine Prog.Sat.and (saga3Step_sat cfg (fun _ => True) (fun _ => trivial) ev n s d hs.1.1 hs.1.2) (Prog.Sat.mono (P := fun s' : Saga3State K => Covered (s.pop.map SagaObj.indiv) (s'.pop.map SagaObj.indiv))
        (Q := fun s' : Saga3State K => Covered start (s'.pop.map SagaObj.indiv)) (fun s' h' => hs.2.trans h') _ ?_)
      · unfold saga3Step
        refine Prog.Sat.bind' (Prog.Sat.trivial ev _) fun parents _ => ?_
        refine Prog.Sat.bind' (P := fun hc => ∀ (i : Nat) (o : SagaObj K), s.pop[i]? = some o → ∃ o', hc.1[i]? = some o' ∧ o'.indiv = o.indiv)
          (Prog.Sat.lift fun hc hhc i o ho => saga3Children_indiv _ _ _ _ _ hc.1 hc.2 hhc i o ho) fun hc hhc => ?_
        refine Prog.Sat.bind' (sagaEvaluate_keeps ev _) fun pop'' hp => ?_
        intro σ hσ
        obtain ⟨o, ho, rfl⟩ := List.mem_map.mp hσ
        obtain ⟨i, hi, rfl⟩ := List.mem_iff_getElem.mp ho
        obtain ⟨j, hj, hjr, hle⟩ := exists_best_take' (fun i => ((s.pop.map SagaObj.indiv)[i]?.map Indiv.fitnessD).getD 0) cfg.nElitists hk
          (List.range s.pop.length) i (List.mem_range.mpr hi)
        have hjl := List.mem_range.mp hjr
        obtain ⟨o', ho', he'⟩ := hhc j s.pop[j] (List.getElem?_eq_getElem hjl)
        have hmem : o' ∈ ((sortedDesc (fun i => ((s.pop.map SagaObj.indiv)[i]?.map Indiv.fitnessD).getD 0) (List.range s.pop.length)).take cfg.nElitists).filterMap
            fun c => hc.1[c]? := List.mem_filterMap.mpr ⟨j, hj, ho'⟩
        obtain ⟨y, hy, hg, hev⟩ := forall₂_right_of_mem hp.2 o' (List.mem_append_left _ hmem)
        have hev' : Evaluated ev o'.indiv := by rw [he']; exact (hs.1.1 _ (List.getElem_mem hjl)).2.2.2
        refine ⟨y.indiv, List.mem_map_of_mem hy, ?_⟩
        rw [eq_of_genome hg hev' hev, he']
        simpa [List.getElem?_map, List.getElem?_eq_getElem hi, List.getElem?_eq_getElem hjl] using hle
  · rw [if_neg he]; trivial

/-- Runs with one elitist in which the other solutions get worse: the genetic algorithm, saga1 and saga3. -/
example : (gaOptimize ⟨2, 1, 0, 1⟩ [{ quietDraw with flips := fun _ _ => 0 }] 2 countEval [⟨[true, true], none⟩, ⟨[true, true], none⟩]).toOption.map
      (fun s => s.map Indiv.genome) = some [[true, true], [false, false], [false, false]] ∧
    ((saga1 ⟨2, 1, 0, 1, 1, 1, 1, 0, 1, 1⟩ [{ quietDraw with flips := fun _ _ => 0 }] ⟨1, 0⟩ [⟨[true, true], none⟩, ⟨[true, true], none⟩]).run countEval).toOption.map
      (fun s => s.pop.map Indiv.genome) = some [[true, true], [false, false], [false, false]] ∧
    ((saga3 ⟨2, 1, 0⟩ [⟨.random [0, 1], fun _ _ => ⟨true, true, true, 1, 0, 0, true, 1, [], fun _ => 0⟩, fun _ _ => 0⟩]
      [⟨⟨[true, true], none⟩, 0, 1, .nPoint⟩, ⟨⟨[true, true], none⟩, 0, 1, .nPoint⟩]).run countEval).toOption.map
      (fun s => s.pop.map fun o => o.indiv.genome) = some [[true, true], [false, false], [false, false]] := by
  decide +kernel

/-! ## The other strategies lose the best solution -/

/-- What is needed to refute `KeepsBest`: a run in which all final solutions are worse than some initial one. -/
theorem not_keepsBest (S : Strategy ℚ) (n : Nat) (ev : Eval ℚ) (pop start final : List (Indiv ℚ)) (hl : AllLen n pop) (hs : fitAll ev pop = .ok start)
    (hf : S n ev pop = .ok final) (σ : Indiv ℚ) (hσ : σ ∈ start) (hlt : ∀ τ ∈ final, τ.fitnessD < σ.fitnessD) : ¬ KeepsBest S := by
  intro h
  obtain ⟨τ, hτ, f, g, h1, h2, hle⟩ := h n ev pop start final hl hs hf σ hσ
  rw [← h1.eq, ← h2.eq] at hle
  exact absurd (hlt τ hτ) (not_lt.mpr hle)

/-- The solution with both rules of a pool of two rules, and the one with none. -/
def full : Indiv ℚ := ⟨[true, true], some ⟨0, 2, 2, 3⟩⟩
def bare : Indiv ℚ := ⟨[false, false], some ⟨0, 2, 0, 1⟩⟩

theorem lost_full (S : Strategy ℚ) (h : S 2 plusEval [⟨[true, true], none⟩] = .ok [bare]) : ¬ KeepsBest S :=
  not_keepsBest S 2 plusEval [⟨[true, true], none⟩] [full] [bare] (by simp [AllLen]) (by decide +kernel) h full (by simp) (by
    intro τ hτ
    rw [List.mem_singleton.mp hτ]
    decide +kernel)

/-- C74 is false for random search, bee colony (scouts), particle swarm, grey wolves and ant colony: each has a run that starts with the solution with both rules
(fitness 3) and ends with the one with no rule (fitness 1). -/
theorem C74_refuted :
    (¬ KeepsBest (Prog.strategy fun n pop => rs (.zero : InitOp ℚ) 1 1 (fun _ _ _ => 0) n pop)) ∧
    (¬ KeepsBest (Prog.strategy fun n pop => (abc (fun x => x) (.zero : InitOp ℚ) 2 [⟨[0], fun _ => .flips [], [0], fun _ => .flips [], fun _ _ => 0⟩] n pop).bind
      fun s => .ret (s.map Food.sol))) ∧
    (¬ KeepsBest (Prog.strategy fun _ pop => (pso (.sigmoid 1 1 1) (fun x => x) 0 1 (fun _ => (fun _ => 1 / 2, fun _ => -1)) [demoMove (9 / 10)] pop).bind
      fun s => .ret (s.particles.map Particle.sol))) ∧
    (¬ KeepsBest (Prog.strategy fun _ pop => gwo .sigmoid (fun x : ℚ => x / 2) 1 [fun _ => ⟨fun _ _ => 1 / 2, fun _ _ => 1 / 2, fun _ _ => 0, fun _ _ => 0,
      fun _ => 0, fun _ => 9 / 10⟩] pop)) ∧
    ¬ KeepsBest (Prog.strategy fun _ pop => (aco demoAco true none ⟨[1, 3], fun _ _ => some (1, 1)⟩ [fun _ => ⟨[], fun _ => 9 / 10⟩] pop).bind
      fun s => .ret s.pop) := by
  refine ⟨lost_full _ ?_, lost_full _ ?_, lost_full _ ?_, lost_full _ ?_, lost_full _ ?_⟩ <;> decide +kernel

/-- C74 is false for the genetic algorithm without elitists. -/
theorem C74_ga_refuted : ¬ KeepsBest (gaOptimize (⟨2, 0, 0, 1⟩ : GACfg ℚ) [⟨.random [0, 0], fun _ _ => (1, .nPoint []), fun _ _ => 0⟩]) := by
  refine not_keepsBest _ 2 plusEval [⟨[true, true], none⟩] [full] [bare, bare] (by simp [AllLen]) (by decide +kernel) (by decide +kernel) full (by simp) ?_
  intro τ hτ
  simp only [List.mem_cons, List.not_mem_nil, or_false, or_self] at hτ
  rw [hτ]
  decide +kernel

/-- C74 is false for SAS: a single initial solution dies out. -/
theorem C74_sas_refuted : ¬ KeepsBest (Prog.strategy fun _ pop => (sas (sasCfg 1) [sasDraw [], sasDraw []] (pop.mapIdx fun _ σ => ⟨σ, 3⟩)).bind
    fun s => .ret (s.pop.map Aged.indiv)) := by
  refine not_keepsBest _ 2 plusEval [⟨[true, true], none⟩] [full] [] (by simp [AllLen]) (by decide +kernel) ?_ full (by simp) (by simp)
  decide +kernel

end Suprb
