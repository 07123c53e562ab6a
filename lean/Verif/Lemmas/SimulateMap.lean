import Verif.Lemmas.Simulate

/-!
# Two runs of `fit` that proceed in parallel although the attributes of the solutions differ

Like `Verif.Lemmas.Simulate`, but the attributes stored with the solutions of the second run are those of the first after a function `φ` that keeps the order of the fitness values.
-/

set_option autoImplicit false
set_option linter.unusedSectionVars false

namespace Suprb

open Spec

theorem mapM_map_ok {α β : Type} (f : α → α) (h : β → β) (g g' : α → Except PyErr β) (l : List α) (hg : ∀ a ∈ l, g' (f a) = (g a).map h) :
    (l.map f).mapM g' = (l.mapM g).map (List.map h) := by
  induction l with
  | nil => rfl
  | cons a as ih =>
    rw [List.map_cons, List.mapM_cons, List.mapM_cons, hg a (by simp), ih fun b hb => hg b (by simp [hb])]
    cases g a with
    | error e => rfl
    | ok b => cases as.mapM g <;> rfl

variable {K : Type} [Field K] [LinearOrder K] {d d' : Nat} {M M' : Type}

/-- The attributes of the last evaluation replaced. -/
def Indiv.mapSt (φ : SolState K → SolState K) (σ : Indiv K) : Indiv K := { σ with st := σ.st.map φ }

/-- The attributes of the last evaluation replaced, for a population and an archive. -/
def CompState.mapSt (φ : SolState K → SolState K) (s : CompState K) : CompState K :=
  { population := s.population.map (List.map (Indiv.mapSt φ)), archive := s.archive.map (List.map (Indiv.mapSt φ)) }

/-- The evaluation with other attributes. -/
def mapEval (φ : SolState K → SolState K) (ev : Eval K) : Eval K := fun g => (ev g).map φ

/-- The replacement keeps the order of the fitness values. -/
def KeepsOrder (φ : SolState K → SolState K) : Prop := ∀ s t, (φ s).fitness < (φ t).fitness ↔ s.fitness < t.fitness

section Composition

variable {φ : SolState K → SolState K}

theorem fitnessD_lt (hφ : KeepsOrder φ) (a b : Indiv K) (ha : a.st.isSome) (hb : b.st.isSome) : (a.mapSt φ).fitnessD < (b.mapSt φ).fitnessD ↔ a.fitnessD < b.fitnessD := by
  obtain ⟨ga, _ | sa⟩ := a
  · exact absurd ha (by simp)
  obtain ⟨gb, _ | sb⟩ := b
  · exact absurd hb (by simp)
  exact hφ sa sb

theorem allFitted_mapSt (pop : List (Indiv K)) : allFitted (pop.map (Indiv.mapSt φ)) = allFitted pop := by
  unfold allFitted
  rw [List.all_map]
  congr 1
  funext σ
  simp [Indiv.mapSt]

theorem allFitted_isSome (pop : List (Indiv K)) : allFitted pop = true ↔ ∀ σ ∈ pop, σ.st.isSome = true := by
  unfold allFitted
  rw [List.all_eq_true]

theorem foldl_best_mapSt (hφ : KeepsOrder φ) (l : List (Indiv K)) (hl : ∀ σ ∈ l, σ.st.isSome = true) (b : Indiv K) (hb : b.st.isSome = true) :
    (l.map (Indiv.mapSt φ)).foldl (fun best x => if best.fitnessD < x.fitnessD then x else best) (b.mapSt φ) =
      (l.foldl (fun best x => if best.fitnessD < x.fitnessD then x else best) b).mapSt φ := by
  induction l generalizing b with
  | nil => rfl
  | cons a as ih =>
    rw [List.map_cons, List.foldl_cons, List.foldl_cons]
    have ha := hl a (by simp)
    have h := fitnessD_lt hφ b a hb ha
    by_cases hlt : b.fitnessD < a.fitnessD
    · rw [if_pos hlt, if_pos (h.mpr hlt)]
      exact ih (fun σ hσ => hl σ (by simp [hσ])) a ha
    · rw [if_neg hlt, if_neg (fun h' => hlt (h.mp h'))]
      exact ih (fun σ hσ => hl σ (by simp [hσ])) b hb

theorem fittestIndiv_mapSt (hφ : KeepsOrder φ) (pop : List (Indiv K)) : fittestIndiv (pop.map (Indiv.mapSt φ)) = (fittestIndiv pop).map (Indiv.mapSt φ) := by
  unfold fittestIndiv
  rw [allFitted_mapSt]
  by_cases h : allFitted pop = true
  · rw [if_pos h, if_pos h]
    cases pop with
    | nil => rfl
    | cons a as =>
      rw [allFitted_isSome] at h
      unfold pyMax
      rw [List.map_cons]
      dsimp only
      rw [foldl_best_mapSt hφ as (fun σ hσ => h σ (by simp [hσ])) a (h a (by simp))]
      rfl
  · rw [if_neg h, if_neg h]
    rfl

theorem fittestIndiv_fitted (pop : List (Indiv K)) (b : Indiv K) (h : fittestIndiv pop = .ok b) : b.st.isSome = true := by
  unfold fittestIndiv at h
  split at h
  · rename_i hf
    rw [allFitted_isSome] at hf
    split at h
    · cases h
    · rename_i c hc
      cases h
      exact hf _ (pyMax_spec _ _ _ hc).1
  · cases h

theorem clone_mapSt (σ : Indiv K) : (σ.mapSt φ).clone = σ.clone.map (Indiv.mapSt φ) := by
  obtain ⟨g, _ | s⟩ := σ <;> rfl

theorem archivePad_mapSt (n : Nat) (arch : List (Indiv K)) : archivePad n (arch.map (Indiv.mapSt φ)) = (archivePad n arch).map (List.map (Indiv.mapSt φ)) := by
  unfold archivePad
  refine mapM_map_ok _ _ _ _ _ fun σ _ => ?_
  unfold archivePad1
  by_cases h : n < σ.genome.length
  · rw [if_pos h, if_pos (show n < (σ.mapSt φ).genome.length from h)]; rfl
  · rw [if_neg h, if_neg (show ¬n < (σ.mapSt φ).genome.length from h)]; rfl

theorem fit_mapSt (ev : Eval K) (σ : Indiv K) : (σ.mapSt φ).fit (mapEval φ ev) = (σ.fit ev).map (Indiv.mapSt φ) := by
  unfold Indiv.fit mapEval Indiv.mapSt
  dsimp only
  cases ev σ.genome <;> rfl

/-- The attributes before an evaluation do not matter. -/
theorem fit_fresh_mapSt (ev : Eval K) (g : List Bool) : (⟨g, none⟩ : Indiv K).fit (mapEval φ ev) = ((⟨g, none⟩ : Indiv K).fit ev).map (Indiv.mapSt φ) := fit_mapSt ev ⟨g, none⟩

theorem fitAll_mapSt (ev : Eval K) (pop : List (Indiv K)) : fitAll (mapEval φ ev) (pop.map (Indiv.mapSt φ)) = (fitAll ev pop).map (List.map (Indiv.mapSt φ)) :=
  mapM_map_ok _ _ _ _ _ fun σ _ => fit_mapSt ev σ

theorem archiveUpdate_mapSt (hφ : KeepsOrder φ) (arch pop : List (Indiv K)) :
    archiveUpdate (arch.map (Indiv.mapSt φ)) (pop.map (Indiv.mapSt φ)) = (archiveUpdate arch pop).map (List.map (Indiv.mapSt φ)) := by
  unfold archiveUpdate
  rw [fittestIndiv_mapSt hφ]
  cases hb : fittestIndiv pop with
  | error e => rfl
  | ok best =>
    dsimp only [Except.map]
    have hbs := fittestIndiv_fitted _ _ hb
    cases arch with
    | nil =>
      dsimp only [List.map_nil]
      rw [clone_mapSt]
      cases best.clone <;> rfl
    | cons a rest =>
      obtain ⟨ga, _ | sa⟩ := a
      · rfl
      have h := fitnessD_lt hφ ⟨ga, some sa⟩ best rfl hbs
      change ((φ sa).fitness < _ ↔ sa.fitness < _) at h
      simp only [List.map_cons, Indiv.mapSt, Option.map_some]
      change (if (φ sa).fitness < (best.mapSt φ).fitnessD then _ else _) = _
      by_cases hlt : sa.fitness < best.fitnessD
      · rw [if_pos hlt, if_pos (h.mpr hlt)]
        obtain ⟨gb, _ | sb⟩ := best
        · rfl
        · simp [Indiv.clone, Indiv.mapSt]
      · rw [if_neg hlt, if_neg (fun h' => hlt (h.mp h'))]
        rfl

theorem initPopulation_mapSt (cfg : CompCfg K) (draw : Nat → Nat → K) (n : Nat) (old : Option (List (Indiv K))) :
    initPopulation cfg draw n (old.map (List.map (Indiv.mapSt φ))) = (initPopulation cfg draw n old).map (List.map (Indiv.mapSt φ)) := by
  have hfresh : ((List.range cfg.populationSize).map fun k => cfg.init.make (draw k) n).map (Indiv.mapSt φ) = (List.range cfg.populationSize).map fun k => cfg.init.make (draw k) n := by
    rw [List.map_map]
    rfl
  unfold initPopulation
  obtain _ | _ | ⟨σ, rest⟩ := old
  · simp only [Option.map_none, Except.map, hfresh]
  · simp only [Option.map_some, List.map_nil, Except.map, hfresh]
  simp only [Option.map_some, List.map_cons]
  by_cases h : cfg.warmStart = true
  · rw [if_pos h, if_pos h]
    have hz : (σ.mapSt φ :: rest.map (Indiv.mapSt φ)).zipIdx = ((σ :: rest).zipIdx).map fun p => (p.1.mapSt φ, p.2) := by
      rw [← List.map_cons (f := Indiv.mapSt φ), List.zipIdx_map]
      rfl
    rw [hz]
    refine (mapM_map_ok (fun p : Indiv K × Nat => (p.1.mapSt φ, p.2)) (Indiv.mapSt φ) _ _ _ fun p _ => ?_)
    dsimp only
    unfold InitOp.pad
    by_cases h : n < p.1.genome.length
    · rw [if_pos h, if_pos (show n < (p.1.mapSt φ).genome.length from h)]; rfl
    · rw [if_neg h, if_neg (show ¬n < (p.1.mapSt φ).genome.length from h)]; rfl
  · rw [if_neg h, if_neg h]
    simp only [Except.map, hfresh]

theorem archivePrepare_mapSt (ev : Eval K) (n : Nat) (arch : Option (List (Indiv K))) :
    archivePrepare (mapEval φ ev) n (arch.map (List.map (Indiv.mapSt φ))) = (archivePrepare ev n arch).map (Option.map (List.map (Indiv.mapSt φ))) := by
  cases arch with
  | none => rfl
  | some arch =>
    simp only [Option.map_some, archivePrepare]
    rw [archivePad_mapSt]
    cases archivePad n arch with
    | error e => rfl
    | ok padded =>
      change (fitAll (mapEval φ ev) (padded.map (Indiv.mapSt φ)) >>= fun r => pure (some r)) = _
      rw [fitAll_mapSt]
      change _ = Except.map _ (fitAll ev padded >>= fun r => pure (some r))
      cases fitAll ev padded <;> rfl

theorem archiveStore_mapSt (hφ : KeepsOrder φ) (ev : Eval K) (pop : List (Indiv K)) (arch : Option (List (Indiv K))) :
    archiveStore (mapEval φ ev) (pop.map (Indiv.mapSt φ)) (arch.map (List.map (Indiv.mapSt φ))) = (archiveStore ev pop arch).map (Option.map (List.map (Indiv.mapSt φ))) := by
  cases arch with
  | none => rfl
  | some arch =>
    simp only [Option.map_some, archiveStore]
    rw [archiveUpdate_mapSt hφ]
    cases archiveUpdate arch pop with
    | error e => rfl
    | ok padded =>
      change (fitAll (mapEval φ ev) (padded.map (Indiv.mapSt φ)) >>= fun r => pure (some r)) = _
      rw [fitAll_mapSt]
      change _ = Except.map _ (fitAll ev padded >>= fun r => pure (some r))
      cases fitAll ev padded <;> rfl

/-- The second metaheuristic does with the other attributes what the first does. -/
def StrategySim (φ : SolState K → SolState K) (s s' : Strategy K) : Prop := ∀ n ev pop, s' n (mapEval φ ev) (pop.map (Indiv.mapSt φ)) = (s n ev pop).map (List.map (Indiv.mapSt φ))

theorem compOptimize_mapSt (hφ : KeepsOrder φ) (cfg : CompCfg K) (draw : Nat → Nat → K) (strat strat' : Strategy K) (hs : StrategySim φ strat strat') (ev : Eval K) (n : Nat)
    (s : CompState K) : compOptimize cfg draw strat' (mapEval φ ev) n (s.mapSt φ) = (compOptimize cfg draw strat ev n s).map (CompState.mapSt φ) := by
  unfold compOptimize
  dsimp only [CompState.mapSt]
  rw [initPopulation_mapSt]
  cases initPopulation cfg draw n s.population with
  | error e => rfl
  | ok pop =>
    simp only [Except.map, bind, Except.bind]
    rw [archivePrepare_mapSt]
    cases archivePrepare ev n s.archive with
    | error e => rfl
    | ok arch =>
      simp only [Except.map]
      have htail : ∀ p : List (Indiv K), (archiveStore (mapEval φ ev) (p.map (Indiv.mapSt φ)) (arch.map (List.map (Indiv.mapSt φ))) >>= fun v =>
          (pure { population := some (p.map (Indiv.mapSt φ)), archive := v } : Except PyErr (CompState K))) =
          (archiveStore ev p arch >>= fun v => (pure { population := some p, archive := v } : Except PyErr (CompState K))).map (CompState.mapSt φ) := by
        intro p
        rw [archiveStore_mapSt hφ]
        cases archiveStore ev p arch <;> rfl
      by_cases hn : n = 0
      · rw [if_pos hn, if_pos hn]
        unfold InitOp.make
        rw [fit_fresh_mapSt]
        cases Indiv.fit ev (⟨cfg.init.bits (draw cfg.populationSize) n, none⟩ : Indiv K) with
        | error e => rfl
        | ok σ => exact htail [σ]
      · rw [if_neg hn, if_neg hn, hs]
        cases strat n ev pop with
        | error e => rfl
        | ok pop' => exact htail pop'

theorem elitist_mapSt (hφ : KeepsOrder φ) (s : CompState K) : (s.mapSt φ).elitist = s.elitist.map (Option.map (Indiv.mapSt φ)) := by
  obtain ⟨pop, arch⟩ := s
  unfold CompState.elitist CompState.mapSt
  obtain _ | _ | ⟨σ, rest⟩ := pop
  · rfl
  · rfl
  simp only [Option.map_some, List.map_cons]
  have h : σ.mapSt φ :: rest.map (Indiv.mapSt φ) ++ (arch.map (List.map (Indiv.mapSt φ))).getD [] = ((σ :: rest) ++ arch.getD []).map (Indiv.mapSt φ) := by
    cases arch <;> simp
  rw [h, fittestIndiv_mapSt hφ]
  cases fittestIndiv (σ :: rest ++ arch.getD []) <;> rfl

theorem elitist_fitted (s : CompState K) (el : Indiv K) (h : s.elitist = .ok (some el)) : el.st.isSome = true := by
  unfold CompState.elitist at h
  split at h
  · split at h
    · cases h
    · rename_i b hb
      cases h
      exact fittestIndiv_fitted _ _ hb
  · cases h

/-! ### The genetic algorithm -/

theorem nPoint_mapSt (idx : List Nat) (A B : Indiv K) : nPoint idx (A.mapSt φ) (B.mapSt φ) = (nPoint idx A B).mapSt φ := by
  cases idx with
  | nil => rfl
  | cons i rest =>
    have : ∀ (idx : List Nat) (A B : List Bool), nPoint idx (⟨A, none⟩ : Indiv K) ⟨B, none⟩ = (nPoint idx (⟨A, none⟩ : Indiv K) ⟨B, none⟩).mapSt φ := by
      intro idx
      induction idx with
      | nil => intro A B; rfl
      | cons i rest ih => intro A B; exact ih _ _
    exact this rest _ _

theorem crossover_mapSt (rate r : K) (c : CrossDraw K) (A B : Indiv K) : crossover rate r c (A.mapSt φ) (B.mapSt φ) = (crossover rate r c A B).map (Indiv.mapSt φ) := by
  unfold crossover
  by_cases h : r < rate
  · rw [if_pos h, if_pos h]
    cases c with
    | nPoint idx => simp only [nPoint_mapSt, Except.map]
    | uniform u =>
      dsimp only [Indiv.mapSt]
      cases uniformCross u A.genome B.genome <;> rfl
  · rw [if_neg h, if_neg h]
    rfl

theorem choose_mapSt (pop : List (Indiv K)) (idx : List Nat) : choose (pop.map (Indiv.mapSt φ)) idx = (choose pop idx).map (Indiv.mapSt φ) := by
  unfold choose
  rw [List.map_filterMap]
  congr 1
  funext i
  rw [List.getElem?_map]

theorem selectRandom_mapSt (pop : List (Indiv K)) (idx : List Nat) : selectRandom (pop.map (Indiv.mapSt φ)) idx = (selectRandom pop idx).map (List.map (Indiv.mapSt φ)) := by
  unfold selectRandom
  rw [choose_mapSt]
  by_cases h : pop = [] ∧ idx ≠ []
  · rw [if_pos h, if_pos (by simpa using h)]
    rfl
  · rw [if_neg h, if_neg (by simpa using h)]
    rfl

theorem selectTournament_mapSt (hφ : KeepsOrder φ) (pop : List (Indiv K)) (idx : List (List Nat)) :
    selectTournament (pop.map (Indiv.mapSt φ)) idx = (selectTournament pop idx).map (List.map (Indiv.mapSt φ)) := by
  unfold selectTournament
  have h := mapM_map_ok (α := List Nat) id (Indiv.mapSt φ) (fun js => match selectRandom pop js with | .error e => .error e | .ok competitors => fittestIndiv competitors)
    (fun js => match selectRandom (pop.map (Indiv.mapSt φ)) js with | .error e => .error e | .ok competitors => fittestIndiv competitors) idx fun js _ => by
      dsimp only [id]
      rw [selectRandom_mapSt]
      cases selectRandom pop js with
      | error e => rfl
      | ok l => exact fittestIndiv_mapSt hφ l
  rw [List.map_id] at h
  exact h

/-- The selection depends on the order of the fitness values at most: every operator except the roulette wheel. -/
def SelDraw.ByOrder : SelDraw → Prop
  | .roulette _ => False
  | _ => True

theorem selRun_mapSt (hφ : KeepsOrder φ) (sel : SelDraw) (hsel : sel.ByOrder ∨ ∀ s, (φ s).fitness = s.fitness) (pop : List (Indiv K)) :
    sel.run (pop.map (Indiv.mapSt φ)) = (sel.run pop).map (List.map (Indiv.mapSt φ)) := by
  cases sel with
  | random idx => exact selectRandom_mapSt pop idx
  | linearRank idx =>
    unfold SelDraw.run selectLinearRank
    dsimp only
    rw [allFitted_mapSt, selectRandom_mapSt]
    by_cases h : allFitted pop = true
    · rw [if_pos h, if_pos h]
    · rw [if_neg h, if_neg h]; rfl
  | tournament idx => exact selectTournament_mapSt hφ pop idx
  | roulette idx =>
    rcases hsel with h | h
    · exact h.elim
    have hfit : ∀ σ : Indiv K, (σ.mapSt φ).fitnessD = σ.fitnessD := by
      rintro ⟨g, _ | s⟩
      · rfl
      · exact h s
    have hw : rouletteWeights (pop.map (Indiv.mapSt φ)) = rouletteWeights pop := by
      unfold rouletteWeights
      rw [allFitted_mapSt]
      simp only [List.map_map, Function.comp_def, hfit]
    unfold SelDraw.run selectRoulette
    dsimp only
    rw [hw, selectRandom_mapSt]
    cases rouletteWeights pop with
    | error e => rfl
    | ok o =>
      cases o with
      | none => rfl
      | some w =>
        dsimp only
        by_cases h : w.any (fun x => decide (x < 0)) = true
        · rw [if_pos h, if_pos h]; rfl
        · rw [if_neg h, if_neg h]

theorem pairs_map {α β : Type} (f : α → β) : ∀ l : List α, pairs (l.map f) = (pairs l).map fun p => (f p.1, f p.2)
  | [] => rfl
  | [_] => rfl
  | a :: b :: rest => by
    simp only [List.map_cons, pairs]
    rw [pairs_map f rest]

theorem gaCross_mapSt (rate : K) (draw : Nat → Bool → K × CrossDraw K) (ps : List (Indiv K × Indiv K)) :
    gaCross rate draw (ps.map fun p => (p.1.mapSt φ, p.2.mapSt φ)) = (gaCross rate draw ps).map (List.map (Indiv.mapSt φ)) := by
  unfold gaCross
  rw [List.zipIdx_map]
  have h := mapM_map_ok (α := (Indiv K × Indiv K) × Nat) (fun p => ((p.1.1.mapSt φ, p.1.2.mapSt φ), p.2)) (List.map (Indiv.mapSt φ))
    (fun x => match x with | ((A, B), k) => (do
      let c1 ← crossover rate (draw k true).1 (draw k true).2 A B
      let c2 ← crossover rate (draw k false).1 (draw k false).2 B A
      pure [c1, c2] : Except PyErr (List (Indiv K))))
    (fun x => match x with | ((A, B), k) => (do
      let c1 ← crossover rate (draw k true).1 (draw k true).2 A B
      let c2 ← crossover rate (draw k false).1 (draw k false).2 B A
      pure [c1, c2] : Except PyErr (List (Indiv K)))) ps.zipIdx fun p _ => by
        obtain ⟨⟨A, B⟩, k⟩ := p
        dsimp only
        rw [crossover_mapSt, crossover_mapSt]
        cases crossover rate (draw k true).1 (draw k true).2 A B with
        | error e => rfl
        | ok c1 => cases crossover rate (draw k false).1 (draw k false).2 B A <;> rfl
  have ht : ∀ r : Except PyErr (List (List (Indiv K))), ((r.map (List.map (List.map (Indiv.mapSt φ)))) >>= fun two => (pure two.flatten : Except PyErr (List (Indiv K)))) =
      (r >>= fun two => (pure two.flatten : Except PyErr (List (Indiv K)))).map (List.map (Indiv.mapSt φ)) := by
    intro r
    cases r with
    | error e => rfl
    | ok two => simp [Except.map, bind, Except.bind, pure, Except.pure, List.map_flatten]
  exact (congrArg (fun x : Except PyErr (List (List (Indiv K))) => x >>= fun two => pure two.flatten) h).trans (ht _)

theorem gaOdd_mapSt (size : Nat) (parents children : List (Indiv K)) :
    gaOdd size (parents.map (Indiv.mapSt φ)) (children.map (Indiv.mapSt φ)) = (gaOdd size parents children).map (List.map (Indiv.mapSt φ)) := by
  unfold gaOdd
  by_cases h : size % 2 ≠ 0
  · rw [if_pos h, if_pos h, List.getLast?_map]
    cases parents.getLast? with
    | none => rfl
    | some p => simp [Except.map]
  · rw [if_neg h, if_neg h]
    rfl

theorem gaMutate_mapSt (rate : K) (flips : Nat → Nat → K) (children : List (Indiv K)) :
    gaMutate rate flips (children.map (Indiv.mapSt φ)) = (gaMutate rate flips children).map (Indiv.mapSt φ) := by
  unfold gaMutate
  rw [List.zipIdx_map, List.map_map, List.map_map]
  rfl

theorem orderedInsert_mapSt (hφ : KeepsOrder φ) (a : Indiv K) (ha : a.st.isSome = true) (l : List (Indiv K)) (hl : ∀ σ ∈ l, σ.st.isSome = true) :
    (l.map (Indiv.mapSt φ)).orderedInsert (fun a b => b.fitnessD ≤ a.fitnessD) (a.mapSt φ) = (l.orderedInsert (fun a b => b.fitnessD ≤ a.fitnessD) a).map (Indiv.mapSt φ) := by
  induction l with
  | nil => rfl
  | cons b l ih =>
    have hb := hl b (by simp)
    have h : (b.mapSt φ).fitnessD ≤ (a.mapSt φ).fitnessD ↔ b.fitnessD ≤ a.fitnessD := by
      rw [← not_lt, ← not_lt, fitnessD_lt hφ a b ha hb]
    rw [List.map_cons, List.orderedInsert_cons, List.orderedInsert_cons]
    by_cases hle : b.fitnessD ≤ a.fitnessD
    · rw [if_pos hle, if_pos (h.mpr hle)]
      rfl
    · rw [if_neg hle, if_neg (fun h' => hle (h.mp h')), ih fun σ hσ => hl σ (by simp [hσ])]
      rfl

theorem sortedDesc_mapSt (hφ : KeepsOrder φ) (l : List (Indiv K)) (hl : ∀ σ ∈ l, σ.st.isSome = true) :
    sortedDesc Indiv.fitnessD (l.map (Indiv.mapSt φ)) = (sortedDesc Indiv.fitnessD l).map (Indiv.mapSt φ) := by
  unfold sortedDesc
  induction l with
  | nil => rfl
  | cons a l ih =>
    rw [List.map_cons, List.insertionSort_cons, List.insertionSort_cons, ih fun σ hσ => hl σ (by simp [hσ])]
    exact orderedInsert_mapSt hφ a (hl a (by simp)) _ fun σ hσ => hl σ (by
      rw [List.mem_insertionSort] at hσ
      simp [hσ])

theorem gaStep_mapSt (hφ : KeepsOrder φ) (cfg : GACfg K) (dr : GADraw K) (hsel : dr.sel.ByOrder ∨ ∀ s, (φ s).fitness = s.fitness) (ev : Eval K) (pop : List (Indiv K)) :
    gaStep cfg dr (mapEval φ ev) (pop.map (Indiv.mapSt φ)) = (gaStep cfg dr ev pop).map (List.map (Indiv.mapSt φ)) := by
  unfold gaStep
  rw [allFitted_mapSt]
  by_cases h : allFitted pop = true
  · rw [if_pos h, if_pos h]
    dsimp only
    rw [sortedDesc_mapSt hφ pop ((allFitted_isSome pop).mp h), selRun_mapSt hφ _ hsel]
    cases dr.sel.run pop with
    | error e => rfl
    | ok parents =>
      simp only [Except.map, bind, Except.bind]
      rw [pairs_map, gaCross_mapSt]
      cases gaCross cfg.crossRate dr.cross (pairs parents) with
      | error e => rfl
      | ok children =>
        simp only [Except.map]
        rw [gaOdd_mapSt]
        cases gaOdd cfg.populationSize parents children with
        | error e => rfl
        | ok children' =>
          simp only [Except.map]
          rw [gaMutate_mapSt, ← List.map_take, ← List.map_append, fitAll_mapSt]
          rfl
  · rw [if_neg h, if_neg h]
    rfl

theorem gaLoop_mapSt (hφ : KeepsOrder φ) (cfg : GACfg K) (draws : List (GADraw K)) (hsel : ∀ dr ∈ draws, dr.sel.ByOrder ∨ ∀ s, (φ s).fitness = s.fitness) (ev : Eval K)
    (pop : List (Indiv K)) : gaLoop cfg (mapEval φ ev) draws (pop.map (Indiv.mapSt φ)) = (gaLoop cfg ev draws pop).map (List.map (Indiv.mapSt φ)) := by
  induction draws generalizing pop with
  | nil => rfl
  | cons dr rest ih =>
    unfold gaLoop
    rw [gaStep_mapSt hφ cfg dr (hsel dr (by simp))]
    cases gaStep cfg dr ev pop with
    | error e => rfl
    | ok pop' => exact ih (fun dr hdr => hsel dr (by simp [hdr])) pop'

theorem gaOptimize_mapSt (hφ : KeepsOrder φ) (cfg : GACfg K) (draws : List (GADraw K)) (hsel : ∀ dr ∈ draws, dr.sel.ByOrder ∨ ∀ s, (φ s).fitness = s.fitness) :
    StrategySim φ (gaOptimize cfg draws) (gaOptimize cfg draws) := by
  intro n ev pop
  unfold gaOptimize
  rw [fitAll_mapSt]
  cases fitAll ev pop with
  | error e => rfl
  | ok pop' => exact gaLoop_mapSt hφ cfg draws hsel ev pop'

end Composition

section Runs

variable (φ : SolState K → SolState K) (R : Rule K d M → Rule K d' M' → Prop)

/-- The same step of the two runs. -/
inductive MEventRel : Event K d M → Event K d' M' → Prop
  | discover (seed : Seed) (el : Option (Indiv K)) (pool : List (Rule K d M)) (pool' : List (Rule K d' M')) (n : Nat) (h : List.Forall₂ R pool pool') :
      MEventRel (.discover seed el pool n) (.discover seed (el.map (Indiv.mapSt φ)) pool' n)
  | compose (seed : Seed) (pool : List (Rule K d M)) (pool' : List (Rule K d' M')) (before : CompState K) (h : List.Forall₂ R pool pool') :
      MEventRel (.compose seed pool before) (.compose seed pool' (before.mapSt φ))
  | composed (pool : List (Rule K d M)) (pool' : List (Rule K d' M')) (result : CompState K) (el : Indiv K) (h : List.Forall₂ R pool pool') :
      MEventRel (.composed pool result el) (.composed pool' (result.mapSt φ) (el.mapSt φ))

/-- The states of the two loops agree except for the rules, which are related. -/
structure MRunRel (s : RunState K d M) (s' : RunState K d' M') : Prop where
  pool : List.Forall₂ R s.pool s'.pool
  comp : s'.comp = s.comp.mapSt φ
  counter : s'.counter = s.counter
  step : s'.step = s.step
  trace : List.Forall₂ (MEventRel φ R) s.trace s'.trace

/-- The two loops end in the same way. -/
inductive MOutRel : Outcome K d M → Outcome K d' M' → Prop
  | done (s : RunState K d M) (s' : RunState K d' M') (h : MRunRel φ R s s') : MOutRel (.done s) (.done s')
  | caught (s : RunState K d M) (s' : RunState K d' M') (h : MRunRel φ R s s') : MOutRel (.caught s) (.caught s')
  | raised (s : RunState K d M) (s' : RunState K d' M') (e : PyErr) (h : MRunRel φ R s s') : MOutRel (.raised s e) (.raised s' e)

/-- The components do the same in both runs: rule discovery gives related rules, the composition uses the same draws. -/
structure MCompSim (c : SupComp K d M) (c' : SupComp K d' M') (X : List (Point K d)) (X' : List (Point K d')) (y y' : List K) : Prop where
  discover : ∀ seed hist hist' el pool pool' n, List.Forall₂ (MEventRel φ R) hist hist' → List.Forall₂ R pool pool' →
    ERel (List.Forall₂ R) (c.discover seed hist el pool X y n) (c'.discover seed hist' (el.map (Indiv.mapSt φ)) pool' X' y' n)
  strategy : ∀ seed hist hist', List.Forall₂ (MEventRel φ R) hist hist' → StrategySim φ (c.strategy seed hist) (c'.strategy seed hist')
  init : c'.initDraw = c.initDraw

variable {φ R}

theorem discoverStep_msim (hφ : KeepsOrder φ) {c : SupComp K d M} {c' : SupComp K d' M'} {X : List (Point K d)} {X' : List (Point K d')} {y y' : List K} (hc : MCompSim φ R c c' X X' y y') (cfg : SupCfg K)
    (entropy n : Nat) (s : RunState K d M) (s' : RunState K d' M') (hs : MRunRel φ R s s') :
    MRunRel φ R (discoverStep cfg c entropy X y n s).1 (discoverStep cfg c' entropy X' y' n s').1 ∧
      (discoverStep cfg c' entropy X' y' n s').2 = (discoverStep cfg c entropy X y n s).2 := by
  unfold discoverStep
  split
  · exact ⟨hs, rfl⟩
  rw [hs.comp, hs.step, elitist_mapSt hφ]
  cases s.comp.elitist with
  | error e => exact ⟨hs, rfl⟩
  | ok el =>
    simp only [Except.map]
    cases (discoverySeeds entropy cfg.nIter)[s.step]? with
    | none => exact ⟨hs, rfl⟩
    | some seed =>
      dsimp only
      have ht := forall₂_append hs.trace (.cons (MEventRel.discover seed el _ _ n hs.pool) .nil)
      have h := hc.discover seed _ _ el _ _ n hs.trace hs.pool
      revert h
      generalize c.discover seed s.trace el s.pool X y n = a
      generalize c'.discover seed s'.trace (el.map (Indiv.mapSt φ)) s'.pool X' y' n = b
      intro h
      cases h with
      | error e => exact ⟨⟨hs.pool, rfl, hs.counter, rfl, ht⟩, rfl⟩
      | ok rs rs' h => exact ⟨⟨forall₂_append hs.pool h, rfl, hs.counter, rfl, ht⟩, rfl⟩

theorem composeStep_msim (hφ : KeepsOrder φ) {c : SupComp K d M} {c' : SupComp K d' M'} {X : List (Point K d)} {X' : List (Point K d')} {y y' : List K} (hc : MCompSim φ R c c' X X' y y') (cfg : SupCfg K)
    (ev : PoolEval K d M) (ev' : PoolEval K d' M') (hev : ∀ pool pool', List.Forall₂ R pool pool' → ev' pool' = mapEval φ (ev pool)) (entropy : Nat) (s : RunState K d M) (s' : RunState K d' M')
    (hs : MRunRel φ R s s') : MRunRel φ R (composeStep cfg c ev entropy s).1 (composeStep cfg c' ev' entropy s').1 ∧
      (composeStep cfg c' ev' entropy s').2 = (composeStep cfg c ev entropy s).2 := by
  unfold composeStep
  rw [hs.comp, hs.step, hev _ _ hs.pool, hs.pool.length_eq.symm]
  cases (compositionSeeds entropy cfg.nIter)[s.step]? with
  | none => exact ⟨hs, rfl⟩
  | some seed =>
    dsimp only
    rw [compOptimize_mapSt hφ _ _ _ _ (hc.strategy seed _ _ hs.trace), hc.init]
    have ht := forall₂_append hs.trace (.cons (MEventRel.compose seed _ _ s.comp hs.pool) .nil)
    cases compOptimize cfg.comp (c.initDraw seed) (c.strategy seed s.trace) (ev s.pool) s.pool.length s.comp with
    | error e => exact ⟨⟨hs.pool, rfl, hs.counter, rfl, ht⟩, rfl⟩
    | ok comp => exact ⟨⟨hs.pool, rfl, hs.counter, rfl, ht⟩, rfl⟩

theorem fitLoop_msim (hφ : KeepsOrder φ) {c : SupComp K d M} {c' : SupComp K d' M'} {X : List (Point K d)} {X' : List (Point K d')} {y y' : List K} (hc : MCompSim φ R c c' X X' y y') (cfg : SupCfg K)
    (hstop : ∀ (s : SolState K) (n : Nat), checkEarlyStopping cfg (φ s).fitness n = checkEarlyStopping cfg s.fitness n)
    (ev : PoolEval K d M) (ev' : PoolEval K d' M') (hev : ∀ pool pool', List.Forall₂ R pool pool' → ev' pool' = mapEval φ (ev pool)) (entropy : Nat) (steps : List Nat) (s : RunState K d M)
    (s' : RunState K d' M') (hs : MRunRel φ R s s') : MOutRel φ R (fitLoop cfg c ev entropy X y steps s) (fitLoop cfg c' ev' entropy X' y' steps s') := by
  induction steps generalizing s s' with
  | nil => exact .done _ _ hs
  | cons k rest ih =>
    unfold fitLoop
    have h1 := discoverStep_msim hφ hc cfg entropy cfg.nRules { s with step := k } { s' with step := k } ⟨hs.pool, hs.comp, hs.counter, rfl, hs.trace⟩
    revert h1
    generalize discoverStep cfg c entropy X y cfg.nRules { s with step := k } = a
    generalize discoverStep cfg c' entropy X' y' cfg.nRules { s' with step := k } = a'
    obtain ⟨s1, e1⟩ := a
    obtain ⟨s1', e1'⟩ := a'
    rintro ⟨h1, he⟩
    dsimp only at h1 he
    rw [he]
    cases e1 with
    | some e => exact .caught _ _ h1
    | none =>
      dsimp only
      have h2 := composeStep_msim hφ hc cfg ev ev' hev entropy s1 s1' h1
      revert h2
      generalize composeStep cfg c ev entropy s1 = b
      generalize composeStep cfg c' ev' entropy s1' = b'
      obtain ⟨s2, e2⟩ := b
      obtain ⟨s2', e2'⟩ := b'
      rintro ⟨h2, he⟩
      dsimp only at h2 he
      rw [he]
      cases e2 with
      | some e => exact .caught _ _ h2
      | none =>
        dsimp only
        rw [h2.comp, elitist_mapSt hφ]
        cases hel : s2.comp.elitist with
        | error e => exact .raised _ _ _ h2
        | ok o =>
          cases o with
          | none => exact .raised _ _ _ h2
          | some el =>
            simp only [Except.map, Option.map_some]
            have hfd : ∃ s, el.st = some s := Option.isSome_iff_exists.mp (elitist_fitted _ _ hel)
            have hstop' : checkEarlyStopping cfg (el.mapSt φ).fitnessD s2.counter = checkEarlyStopping cfg el.fitnessD s2.counter := by
              obtain ⟨ge, se⟩ := el
              obtain ⟨s, rfl⟩ := hfd
              exact hstop s s2.counter
            rw [h2.counter, hstop']
            have h3 : MRunRel φ R { s2 with counter := (checkEarlyStopping cfg el.fitnessD s2.counter).1, trace := s2.trace ++ [.composed s2.pool s2.comp el] }
                { s2' with comp := s2.comp.mapSt φ, counter := (checkEarlyStopping cfg el.fitnessD s2.counter).1, trace := s2'.trace ++ [.composed s2'.pool (s2.comp.mapSt φ) (el.mapSt φ)] } :=
              ⟨h2.pool, rfl, rfl, h2.step, forall₂_append h2.trace (.cons (.composed _ _ _ _ h2.pool) .nil)⟩
            split
            · exact .done _ _ h3
            · exact ih _ _ h3

theorem runFit_msim (hφ : KeepsOrder φ) {c : SupComp K d M} {c' : SupComp K d' M'} {X : List (Point K d)} {X' : List (Point K d')} {y y' : List K} (hc : MCompSim φ R c c' X X' y y') (cfg : SupCfg K)
    (hstop : ∀ (s : SolState K) (n : Nat), checkEarlyStopping cfg (φ s).fitness n = checkEarlyStopping cfg s.fitness n)
    (ev : PoolEval K d M) (ev' : PoolEval K d' M') (hev : ∀ pool pool', List.Forall₂ R pool pool' → ev' pool' = mapEval φ (ev pool)) (entropy step0 : Nat) :
    MOutRel φ R (runFit cfg c ev entropy X y step0) (runFit cfg c' ev' entropy X' y' step0) := by
  unfold runFit
  dsimp only
  have h0 : MRunRel φ R ({ step := step0, comp := { archive := if cfg.useArchive then some [] else none } } : RunState K d M)
    ({ step := step0, comp := { archive := if cfg.useArchive then some [] else none } } : RunState K d' M') := ⟨.nil, by cases cfg.useArchive <;> rfl, rfl, rfl, .nil⟩
  split
  · have h1 := discoverStep_msim hφ hc cfg entropy cfg.nInitial _ _ h0
    revert h1
    generalize discoverStep cfg c entropy X y cfg.nInitial _ = a
    generalize discoverStep cfg c' entropy X' y' cfg.nInitial _ = a'
    obtain ⟨s1, e1⟩ := a
    obtain ⟨s1', e1'⟩ := a'
    rintro ⟨h1, he⟩
    dsimp only at h1 he
    rw [he]
    cases e1 with
    | some e => exact .caught _ _ h1
    | none => exact fitLoop_msim hφ hc cfg hstop ev ev' hev entropy _ _ _ h1
  · exact fitLoop_msim hφ hc cfg hstop ev ev' hev entropy _ _ _ h0

variable (φ R)

/-- The two models select the same rules. -/
inductive MElitistRel : Elitist K d M → Elitist K d' M' → Prop
  | placeholder : MElitistRel .placeholder .placeholder
  | solution (g : List Bool) (pool : List (Rule K d M)) (pool' : List (Rule K d' M')) (st : Option (SolState K)) (h : List.Forall₂ R pool pool') :
      MElitistRel (.solution ⟨g, pool, st⟩) (.solution ⟨g, pool', st.map φ⟩)

/-- The two estimators agree except for the rules, which are related. -/
structure MStateRel (s : SupState K d M) (s' : SupState K d' M') : Prop where
  step : s'.step = s.step
  isFitted : s'.isFitted = s.isFitted
  isError : s'.isError = s.isError
  elitist : Option.Rel (MElitistRel φ R) s.elitist s'.elitist
  pool : List.Forall₂ R s.pool s'.pool
  cleaned : s'.cleaned = s.cleaned

/-- The two calls of `fit` end in the same way. -/
structure MFitRel (r : FitResult K d M) (r' : FitResult K d' M') : Prop where
  state : MStateRel φ R r.state r'.state
  trace : List.Forall₂ (MEventRel φ R) r.trace r'.trace
  raised : r'.raised = r.raised

variable {φ R}

theorem finishFit_msim (hφ : KeepsOrder φ) (st : SupState K d M) (st' : SupState K d' M') (hst : MStateRel φ R st st') (doCleanup : Bool) (s : RunState K d M) (s' : RunState K d' M') (hs : MRunRel φ R s s') :
    MFitRel φ R (finishFit st doCleanup s) (finishFit st' doCleanup s') := by
  have hst1 : MStateRel φ R { st with step := s.step, pool := s.pool } { st' with step := s'.step, pool := s'.pool } :=
    ⟨hs.step, hst.isFitted, hst.isError, hst.elitist, hs.pool, hst.cleaned⟩
  unfold finishFit
  dsimp only
  rw [hs.comp, elitist_mapSt hφ]
  cases s.comp.elitist with
  | error e => exact ⟨hst1, hs.trace, rfl⟩
  | ok o =>
    cases o with
    | none => exact ⟨hst1, hs.trace, rfl⟩
    | some el =>
      simp only [Except.map, Option.map_some]
      rw [clone_mapSt]
      cases el.clone with
      | error e => exact ⟨hst1, hs.trace, rfl⟩
      | ok b =>
        simp only [Except.map]
        split
        · unfold cleanup Solution.subpopulation
          dsimp only
          rw [hs.pool.length_eq.symm]
          by_cases hlen : b.genome.length = s.pool.length
          · have hsub := forall₂_compress _ _ hs.pool b.genome
            rw [if_pos hlen, if_pos (show (b.mapSt φ).genome.length = s.pool.length from hlen)]
            dsimp only [Indiv.mapSt]
            rw [hsub.length_eq.symm]
            exact ⟨⟨hs.step, rfl, hst.isError, .some (.solution _ _ _ _ hsub), hsub, rfl⟩, hs.trace, rfl⟩
          · rw [if_neg hlen, if_neg (show ¬(b.mapSt φ).genome.length = s.pool.length from hlen)]
            exact ⟨⟨hs.step, rfl, hst.isError, .some (.solution _ _ _ _ hs.pool), hs.pool, hst.cleaned⟩, hs.trace, rfl⟩
        · exact ⟨⟨hs.step, rfl, hst.isError, .some (.solution _ _ _ _ hs.pool), hs.pool, hst.cleaned⟩, hs.trace, rfl⟩

/-- `fit` on both data sets. -/
theorem fit_msim (hφ : KeepsOrder φ) {c : SupComp K d M} {c' : SupComp K d' M'} {raw : RawData K d} {raw' : RawData K d'} (hc : MCompSim φ R c c' raw.X raw'.X raw.y raw'.y) (cfg : SupCfg K)
    (hstop : ∀ (s : SolState K) (n : Nat), checkEarlyStopping cfg (φ s).fitness n = checkEarlyStopping cfg s.fitness n)
    (hcheck : (raw'.finite ∧ raw'.X.length = raw'.y.length ∧ raw'.X ≠ []) ↔ (raw.finite ∧ raw.X.length = raw.y.length ∧ raw.X ≠ []))
    (hev : ∀ pool pool', List.Forall₂ R pool pool' → runEval cfg c' raw'.X raw'.y pool' = mapEval φ (runEval cfg c raw.X raw.y pool)) (entropy : Nat) (doCleanup : Bool) (st0 : SupState K d M)
    (st0' : SupState K d' M') (hst : MStateRel φ R st0 st0') : MFitRel φ R (st0.fit cfg c entropy raw doCleanup) (st0'.fit cfg c' entropy raw' doCleanup) := by
  have hst1 : MStateRel φ R { st0 with isError := false, elitist := some .placeholder } { st0' with isError := false, elitist := some .placeholder } :=
    ⟨hst.step, hst.isFitted, rfl, .some .placeholder, hst.pool, hst.cleaned⟩
  unfold SupState.fit SupState.fitWith RawData.check
  dsimp only
  by_cases h : raw.finite ∧ raw.X.length = raw.y.length ∧ raw.X ≠ []
  · rw [if_pos h, if_pos (hcheck.mpr h)]
    dsimp only
    rw [hst.step]
    have hrun := runFit_msim hφ hc cfg hstop _ _ hev entropy st0.step
    revert hrun
    generalize runFit cfg c (runEval cfg c raw.X raw.y) entropy raw.X raw.y st0.step = a
    generalize runFit cfg c' (runEval cfg c' raw'.X raw'.y) entropy raw'.X raw'.y st0.step = a'
    intro hrun
    cases hrun with
    | done s s' hs =>
      have h0 : MStateRel φ R { st0 with isError := false, elitist := some .placeholder, pool := [], cleaned := false }
          { st0' with isError := false, elitist := some .placeholder, pool := [], cleaned := false } := ⟨hst.step, hst.isFitted, rfl, .some .placeholder, .nil, rfl⟩
      rw [hst.step] at h0
      exact finishFit_msim hφ _ _ h0 doCleanup s s' hs
    | caught s s' hs => exact ⟨⟨hs.step, rfl, rfl, .some .placeholder, hs.pool, rfl⟩, hs.trace, rfl⟩
    | raised s s' e hs => exact ⟨⟨hs.step, hst.isFitted, rfl, .some .placeholder, hs.pool, rfl⟩, hs.trace, rfl⟩
  · rw [if_neg h, if_neg (fun h' => h (hcheck.mp h'))]
    exact ⟨hst1, .nil, rfl⟩

theorem predict_msim {c : SupComp K d M} {c' : SupComp K d' M'} (Xq : List (Point K d)) (Xq' : List (Point K d')) (hlen : Xq'.length = Xq.length)
    (hmix : ∀ pool pool', List.Forall₂ R pool pool' → mixing c'.learner c'.mix c'.filter false Xq' pool' = mixing c.learner c.mix c.filter false Xq pool)
    (st : SupState K d M) (st' : SupState K d' M') (hst : MStateRel φ R st st') : st'.predict c' Xq' = st.predict c Xq := by
  unfold SupState.predict
  rw [hst.isFitted, hst.isError, hlen]
  have hnil : (Xq' = []) = (Xq = []) := by
    rw [← List.length_eq_zero_iff, ← List.length_eq_zero_iff (l := Xq), hlen]
  simp only [hnil]
  have h := hst.elitist
  revert h
  generalize st.elitist = e
  generalize st'.elitist = e'
  intro h
  cases h with
  | none => rfl
  | some h =>
    cases h with
    | placeholder => rfl
    | solution g pool pool' so h =>
      have : (Solution.predict c'.learner c'.mix c'.filter false ⟨g, pool', so.map φ⟩ Xq') = Solution.predict c.learner c.mix c.filter false ⟨g, pool, so⟩ Xq := by
        unfold Solution.predict Solution.subpopulation
        dsimp only
        rw [h.length_eq.symm]
        by_cases hl : g.length = pool.length
        · rw [if_pos hl, if_pos hl]
          exact hmix _ _ (forall₂_compress _ _ h g)
        · rw [if_neg hl, if_neg hl]
      simp only [this]

end Runs

end Suprb
