import Verif.Props.Run

/-!
# Properties of `fit` as a whole: C51 – C55
-/

set_option autoImplicit false
set_option linter.unusedSectionVars false

namespace Suprb

open Spec

variable {K : Type} [Field K] [LinearOrder K] [IsStrictOrderedRing K] {d : Nat} {M : Type}

/-! ### Predictions have one value per sample -/

theorem length_scatter (ms : List Bool) (vs r : List K) (h : scatter ms vs = .ok r) : r.length = ms.length := by
  induction ms generalizing vs r with
  | nil =>
    cases vs with
    | nil => cases h; rfl
    | cons v vs => cases h
  | cons m ms ih =>
    cases m with
    | false =>
      unfold scatter at h
      split at h
      · rename_i r' hr
        cases h
        simp [ih _ _ hr]
      · cases h
    | true =>
      cases vs with
      | nil => cases h
      | cons v vs =>
        unfold scatter at h
        split at h
        · rename_i r' hr
          cases h
          simp [ih _ _ hr]
        · cases h

theorem length_localPred (L : Learner K d M) (cache : Bool) (X : List (Point K d)) (ρ : Rule K d M) (p : List Bool × List K)
    (h : ρ.localPred L cache X = .ok p) : p.1.length = X.length ∧ p.2.length = X.length := by
  unfold Rule.localPred at h
  split at h
  · split at h
    · cases h
    · rename_i s hs
      split at h
      · cases h
      · rename_i hl
        have hl := not_not.mp hl
        split at h
        · rename_i row hrow
          cases h
          exact ⟨hl, by rw [length_scatter _ _ _ hrow, hl]⟩
        · cases h
  · dsimp only at h
    have hm : (ρ.matchRows X).length = X.length := by simp [Rule.matchRows]
    split at h
    · cases h
      exact ⟨hm, by simp⟩
    · split at h
      · cases h
      · split at h
        · rename_i row hrow
          cases h
          exact ⟨hm, by rw [length_scatter _ _ _ hrow, hm]⟩
        · cases h

theorem length_colSum (n : Nat) (rows : List (List K)) (h : ∀ r ∈ rows, r.length = n) : (colSum n rows).length = n := by
  induction rows with
  | nil => simp [colSum]
  | cons r rs ih =>
    have h1 := h r (List.mem_cons_self ..)
    have h2 := ih fun q hq => h q (List.mem_cons_of_mem _ hq)
    unfold colSum at h2 ⊢
    rw [List.foldr_cons, List.length_zipWith, h2, h1, min_self]

theorem mem_zipWith {α β γ : Type} (f : α → β → γ) (l : List α) (l' : List β) (c : γ) (h : c ∈ List.zipWith f l l') :
    ∃ a ∈ l, ∃ b ∈ l', c = f a b := by
  rw [List.zipWith_eq_zipWith_take_min] at h
  rw [← List.map_uncurry_zip_eq_zipWith] at h
  obtain ⟨⟨a, b⟩, hab, rfl⟩ := List.mem_map.mp h
  have := List.of_mem_zip hab
  exact ⟨a, List.mem_of_mem_take this.1, b, List.mem_of_mem_take this.2, rfl⟩

/-- A prediction has one value per sample, for every filter, caching mode and experience calculation. -/
theorem length_mixing (L : Learner K d M) (P : MixParams K) (filt : SubFilter K d M) (cache : Bool) (X : List (Point K d))
    (sub : List (Rule K d M)) (out : List K) (h : mixing L P filt cache X sub = .ok out) : out.length = X.length := by
  unfold mixing at h
  split at h
  · cases h; simp
  · split at h
    · cases h
    · rename_i sub' _
      unfold mixRules at h
      cases h1 : sub'.mapM (Rule.localPred L cache X) with
      | error e => rw [h1] at h; cases h
      | ok loc =>
        cases h2 : sub'.mapM (Rule.tau P) with
        | error e => rw [h1, h2] at h; cases h
        | ok taus =>
          rw [h1, h2] at h
          have h := (quotients_guard _ _).symm.trans h
          cases h
          have hloc : ∀ p ∈ loc, p.1.length = X.length ∧ p.2.length = X.length := by
            intro p hp
            obtain ⟨ρ, _, hρ⟩ := mem_of_mapM_ok _ _ _ h1 p hp
            exact length_localPred L cache X ρ p hρ
          rw [List.length_zipWith, List.length_map, length_colSum, length_colSum, min_self]
          · intro r hr
            obtain ⟨p, hp, t, _, rfl⟩ := mem_zipWith _ _ _ _ hr
            simp [(hloc p hp).1]
          · intro r hr
            obtain ⟨p, hp, t, _, rfl⟩ := mem_zipWith _ _ _ _ hr
            simp [(hloc p hp).2]

theorem length_predict (L : Learner K d M) (P : MixParams K) (filt : SubFilter K d M) (cache : Bool) (σ : Solution K d M) (X : List (Point K d))
    (out : List K) (h : σ.predict L P filt cache X = .ok out) : out.length = X.length := by
  unfold Solution.predict at h
  split at h
  · cases h
  · exact length_mixing _ _ _ _ _ _ _ h

/-! ### C51 failures are contained -/

/-- The call of rule discovery or composition recorded by the event raises the exception `err`. -/
def CallFails (cfg : SupCfg K) (c : SupComp K d M) (X : List (Point K d)) (y : List K) (hist : List (Event K d M)) (err : PyErr) :
    Event K d M → Prop
  | .discover seed el pool n => c.discover seed hist el pool X y n = .error err
  | .compose seed pool before =>
    compOptimize cfg.comp (c.initDraw seed) (c.strategy seed hist) (runEval cfg c X y pool) pool.length before = .error err
  | .composed _ _ _ => False

/-- Some recorded call raises: the event at position `i`, with the events before it as history. -/
def FailedCall (cfg : SupCfg K) (c : SupComp K d M) (X : List (Point K d)) (y : List K) (t : List (Event K d M)) : Prop :=
  ∃ (i : Nat) (e : Event K d M) (err : PyErr), t[i]? = some e ∧ CallFails cfg c X y (t.take i) err e

theorem failedCall_append (cfg : SupCfg K) (c : SupComp K d M) (X : List (Point K d)) (y : List K) (t : List (Event K d M)) (e : Event K d M) :
    FailedCall cfg c X y (t ++ [e]) ↔ FailedCall cfg c X y t ∨ ∃ err, CallFails cfg c X y t err e := by
  constructor
  · rintro ⟨i, e', err, hi, hf⟩
    by_cases hlt : i < t.length
    · rw [List.getElem?_append_left hlt] at hi
      rw [List.take_append_of_le_length (by omega)] at hf
      exact .inl ⟨i, e', err, hi, hf⟩
    · rw [List.getElem?_append_right (by omega), List.getElem?_singleton] at hi
      split at hi
      · cases hi
        have : i = t.length := by omega
        subst this
        rw [List.take_left' rfl] at hf
        exact .inr ⟨err, hf⟩
      · cases hi
  · rintro (⟨i, e', err, hi, hf⟩ | ⟨err, hf⟩)
    · have hlt : i < t.length := by
        by_contra hge
        rw [List.getElem?_eq_none (by omega)] at hi
        cases hi
      exact ⟨i, e', err, by rw [List.getElem?_append_left hlt]; exact hi, by rw [List.take_append_of_le_length (by omega)]; exact hf⟩
    · exact ⟨t.length, e, err, by simp, by rw [List.take_left' rfl]; exact hf⟩

theorem not_failedCall_nil (cfg : SupCfg K) (c : SupComp K d M) (X : List (Point K d)) (y : List K) : ¬ FailedCall cfg c X y [] := by
  rintro ⟨i, e, err, hi, _⟩
  simp at hi

theorem discoverStep_failed (cfg : SupCfg K) (c : SupComp K d M) (entropy : Nat) (X : List (Point K d)) (y : List K) (n : Nat)
    (s s1 : RunState K d M) (r : Option PyErr) (hs : ¬ FailedCall cfg c X y s.trace) (h : discoverStep cfg c entropy X y n s = (s1, r)) :
    (r = none → ¬ FailedCall cfg c X y s1.trace) ∧
    (r ≠ none → n ≠ 0 → (discoverySeeds entropy cfg.nIter)[s.step]? ≠ none → (∃ el, s.comp.elitist = .ok el) → FailedCall cfg c X y s1.trace) := by
  rcases discoverStep_spec _ _ _ _ _ _ _ _ _ h with ⟨rfl, e, he, hc⟩ | ⟨el, seed, a1, a2, a3, ⟨e, he, hf, rfl⟩ | ⟨rules, he, hf, rfl⟩⟩
  · refine ⟨fun h => (by rw [he] at h; cases h), fun _ h1 h2 h3 => ?_⟩
    rcases hc with hc | hc | hc
    · exact absurd hc h1
    · obtain ⟨el, hel⟩ := h3
      rw [hel] at hc; cases hc
    · exact absurd hc h2
  · refine ⟨fun h => (by rw [he] at h; cases h), fun _ _ _ _ => ?_⟩
    dsimp only
    rw [failedCall_append]
    exact .inr ⟨e, hf⟩
  · refine ⟨fun _ => ?_, fun h => absurd he h⟩
    dsimp only
    rw [failedCall_append]
    rintro (h | ⟨err, h⟩)
    · exact hs h
    · dsimp only [CallFails] at h
      rw [hf] at h; cases h

theorem composeStep_failed (cfg : SupCfg K) (c : SupComp K d M) (entropy : Nat) (X : List (Point K d)) (y : List K)
    (s s1 : RunState K d M) (r : Option PyErr) (hs : ¬ FailedCall cfg c X y s.trace)
    (h : composeStep cfg c (runEval cfg c X y) entropy s = (s1, r)) :
    (r = none → ¬ FailedCall cfg c X y s1.trace) ∧
    (r ≠ none → (compositionSeeds entropy cfg.nIter)[s.step]? ≠ none → FailedCall cfg c X y s1.trace) := by
  rcases composeStep_spec _ _ _ _ _ _ _ h with ⟨rfl, he, hc⟩ | ⟨seed, a1, ⟨e, he, hf, rfl⟩ | ⟨comp, he, hf, rfl⟩⟩
  · exact ⟨fun h => (by rw [he] at h; cases h), fun _ h2 => absurd hc h2⟩
  · refine ⟨fun h => (by rw [he] at h; cases h), fun _ _ => ?_⟩
    dsimp only
    rw [failedCall_append]
    exact .inr ⟨e, hf⟩
  · refine ⟨fun _ => ?_, fun h => absurd he h⟩
    dsimp only
    rw [failedCall_append]
    rintro (h | ⟨err, h⟩)
    · exact hs h
    · dsimp only [CallFails] at h
      rw [hf] at h; cases h

theorem getElem?_everyOther {α : Type} (l : List α) (k : Nat) : (everyOther l)[k]? = l[2 * k]? := by
  induction k generalizing l with
  | zero =>
    match l with
    | [] => rfl
    | [a] => rfl
    | a :: b :: rest => rfl
  | succ k ih =>
    match l with
    | [] => rfl
    | [a] => simp [everyOther]
    | a :: b :: rest =>
      unfold everyOther
      rw [List.getElem?_cons_succ, ih]
      have : 2 * (k + 1) = 2 * k + 1 + 1 := by omega
      rw [this, List.getElem?_cons_succ, List.getElem?_cons_succ]

theorem getElem?_discoverySeeds (entropy n k : Nat) :
    (discoverySeeds entropy n)[k]? = if k < n then some ⟨entropy, [2 * k]⟩ else none := by
  unfold discoverySeeds spawnSeeds
  rw [getElem?_everyOther, List.getElem?_map]
  split
  · rename_i h
    rw [List.getElem?_range (by omega)]; rfl
  · rw [List.getElem?_eq_none (by simp; omega)]; rfl

theorem getElem?_compositionSeeds (entropy n k : Nat) :
    (compositionSeeds entropy n)[k]? = if k < n then some ⟨entropy, [2 * k + 1]⟩ else none := by
  unfold compositionSeeds spawnSeeds
  rw [getElem?_everyOther, List.getElem?_drop, List.getElem?_map]
  split
  · rename_i h
    rw [List.getElem?_range (by omega)]
    simp; omega
  · rw [List.getElem?_eq_none (by simp; omega)]; rfl

theorem run_failed (cfg : SupCfg K) (c : SupComp K d M) (entropy : Nat) (X : List (Point K d)) (y : List K) (step0 : Nat) :
    let o := runFit cfg c (runEval cfg c X y) entropy X y step0
    (FailedCall cfg c X y o.state.trace → ∃ s, o = .caught s) ∧
    (c.GoodStrategies → cfg.nRules ≠ 0 → (cfg.nInitial ≠ 0 → step0 < cfg.nIter) → (∃ s, o = .caught s) → FailedCall cfg c X y o.state.trace) := by
  let ev := runEval cfg c X y
  let P : List Nat → RunState K d M → Prop := fun ks s =>
    ¬ FailedCall cfg c X y s.trace ∧ (c.GoodStrategies → CompOk ev s.pool s.comp) ∧ ∀ k ∈ ks, k < cfg.nIter
  let Q : Outcome K d M → Prop := fun o =>
    (FailedCall cfg c X y o.state.trace → ∃ s, o = .caught s) ∧
    (c.GoodStrategies → cfg.nRules ≠ 0 → (cfg.nInitial ≠ 0 → step0 < cfg.nIter) → (∃ s, o = .caught s) → FailedCall cfg c X y o.state.trace)
  have h0 : ¬ FailedCall cfg c X y (startState cfg step0 : RunState K d M).trace := not_failedCall_nil cfg c X y
  have hr : ∀ k ∈ List.range cfg.nIter, k < cfg.nIter := fun k hk => List.mem_range.mp hk
  refine runFit_ind cfg c ev entropy X y step0 P Q ?_ ?_ ?_ ?_ ?_ ?_ ?_ ?_ ?_
  · intro _
    exact ⟨h0, fun _ => startState_ok _ _ _ _, hr⟩
  · intro s _ h
    refine ⟨(discoverStep_failed cfg c _ _ _ _ _ _ _ h0 h).1 rfl, fun _ => ?_, hr⟩
    rw [discoverStep_comp _ _ _ _ _ _ _ _ _ h]
    exact startState_ok _ _ _ _
  · intro s e hpos h
    refine ⟨fun _ => ⟨s, rfl⟩, fun _ _ h2 _ => ?_⟩
    refine (discoverStep_failed cfg c _ _ _ _ _ _ _ h0 h).2 (by simp) (by omega) ?_ ?_
    · rw [getElem?_discoverySeeds]
      have h3 : (startState cfg step0 : RunState K d M).step < cfg.nIter := h2 (by omega)
      rw [if_pos h3]; simp
    · exact ⟨none, rfl⟩
  · intro s hP
    exact ⟨fun h => absurd h hP.1, fun _ _ _ ⟨s', hs'⟩ => by cases hs'⟩
  · intro k rest s s1 e hP h
    refine ⟨fun _ => ⟨s1, rfl⟩, fun hg h1 _ _ => ?_⟩
    refine (discoverStep_failed cfg c _ _ _ _ { s with step := k } _ _ hP.1 h).2 (by simp) h1 ?_ ?_
    · rw [getElem?_discoverySeeds, if_pos (hP.2.2 k (by simp))]; simp
    · obtain ⟨el, hel, _⟩ := (hP.2.1 hg).elitist_ok
      exact ⟨el, hel⟩
  · intro k rest s s1 s2 e hP h h'
    refine ⟨fun _ => ⟨s2, rfl⟩, fun hg h1 _ _ => ?_⟩
    have h2 := (discoverStep_failed cfg c _ _ _ _ { s with step := k } _ _ hP.1 h).1 rfl
    refine (composeStep_failed cfg c _ _ _ _ _ _ h2 h').2 (by simp) ?_
    obtain ⟨_, _, _, _, _, _, _, _, hs1, _⟩ := iteration_trace _ _ _ _ _ _ _ _ _ _ _ h h'
    rw [hs1]
    dsimp only
    rw [getElem?_compositionSeeds, if_pos (hP.2.2 k (by simp))]; simp
  · intro k rest s s1 s2 e hP h h' _
    have h2 := (discoverStep_failed cfg c _ _ _ _ { s with step := k } _ _ hP.1 h).1 rfl
    have h3 := (composeStep_failed cfg c _ _ _ _ _ _ h2 h').1 rfl
    exact ⟨fun h => absurd h h3, fun _ _ _ ⟨s', hs'⟩ => by cases hs'⟩
  all_goals
    intro k rest s s' el hP h _
    have hok : c.GoodStrategies → CompOk ev s'.pool s'.comp := fun hg => iteration_compOk cfg c hg ev entropy X y k s s' el _ (hP.2.1 hg) h
    obtain ⟨s1, s2, h1, h2, _, rfl⟩ := h
    have h3 := (discoverStep_failed cfg c _ _ _ _ { s with step := k } _ _ hP.1 h1).1 rfl
    have h4 := (composeStep_failed cfg c _ _ _ _ _ _ h3 h2).1 rfl
    have h5 : ¬ FailedCall cfg c X y (s2.trace ++ [.composed s2.pool s2.comp el]) := by
      rw [failedCall_append]
      rintro (h | ⟨err, h⟩)
      · exact h4 h
      · exact h
    first
      | exact ⟨fun h => absurd h h5, fun _ _ _ ⟨s', hs'⟩ => by cases hs'⟩
      | exact ⟨h5, hok, fun j hj => hP.2.2 j (List.mem_cons_of_mem _ hj)⟩

/-- C51: if rule discovery or composition raises any exception in any step, `fit` returns normally, the model counts as fitted, and `predict` returns one zero per query sample. -/
theorem C51_contained (cfg : SupCfg K) (c : SupComp K d M) (entropy : Nat) (raw : RawData K d) (cl : Bool) (st0 : SupState K d M)
    (h : FailedCall cfg c raw.X raw.y (st0.fit cfg c entropy raw cl).trace) :
    (st0.fit cfg c entropy raw cl).raised = none ∧ (st0.fit cfg c entropy raw cl).state.isFitted = true ∧
      ∀ Xq : List (Point K d), Xq ≠ [] → (st0.fit cfg c entropy raw cl).state.predict c Xq = .ok (Xq.map fun _ => 0) := by
  unfold SupState.fit at h ⊢
  rcases fitWith_trace cfg c (runEval cfg c) entropy raw cl st0 with ⟨_, h1⟩ | ⟨hc, ht⟩
  · rw [h1] at h; exact absurd h (not_failedCall_nil _ _ _ _)
  · rw [ht] at h
    obtain ⟨s, hs⟩ := (run_failed cfg c entropy raw.X raw.y st0.step).1 h
    unfold SupState.fitWith
    rw [hc]
    dsimp only
    rw [hs]
    refine ⟨rfl, rfl, fun Xq hq => ?_⟩
    unfold SupState.predict
    simp [hq, List.map_const']

/-- C51: in a completed fit `predict` returns the predictions of the elitist of the last iteration, one per sample. -/
theorem C51_normal (cfg : SupCfg K) (c : SupComp K d M) (hg : c.GoodStrategies) (entropy : Nat) (raw : RawData K d) (cl : Bool)
    (st0 : SupState K d M) (h : (st0.fit cfg c entropy raw cl).Completed) :
    ∃ pool comp el, (st0.fit cfg c entropy raw cl).trace.getLast? = some (.composed pool comp el) ∧
      ∀ Xq : List (Point K d), Xq ≠ [] →
        (st0.fit cfg c entropy raw cl).state.predict c Xq =
          Solution.predict c.learner c.mix c.filter false { genome := el.genome, pool := pool } Xq ∧
        ∀ out, (st0.fit cfg c entropy raw cl).state.predict c Xq = .ok out → out.length = Xq.length := by
  obtain ⟨hc, s, el, hrun, hel, ht, hfit, σ, hσ, hσ1, hσ2⟩ := completed_run _ _ _ _ _ _ _ h
  have hok : CompOk (runEval cfg c raw.X raw.y) s.pool s.comp := (run_lengths cfg c hg (runEval cfg c raw.X raw.y) entropy raw.X raw.y st0.step).2 s hrun
  have hlast : s.comp.population = none ∨ ∃ el', s.comp.elitist = .ok (some el') ∧ s.trace.getLast? = some (.composed s.pool s.comp el') := by
    have := runFit_ind cfg c (runEval cfg c raw.X raw.y) entropy raw.X raw.y st0.step
      (fun _ s => s.comp.population = none ∨ ∃ el', s.comp.elitist = .ok (some el') ∧ s.trace.getLast? = some (.composed s.pool s.comp el'))
      (fun o => ∀ s, o = .done s → s.comp.population = none ∨ ∃ el', s.comp.elitist = .ok (some el') ∧ s.trace.getLast? = some (.composed s.pool s.comp el'))
      (fun _ => .inl rfl) (fun s _ h => .inl (by rw [discoverStep_comp _ _ _ _ _ _ _ _ _ h]; rfl)) (by simp)
      (fun s hs s' h => by cases h; exact hs) (by simp) (by simp) (by simp)
      (by
        intro k rest s s' el hP h _ s'' hs''
        cases hs''
        obtain ⟨s1, s2, _, _, h3, rfl⟩ := h
        exact .inr ⟨el, h3, by simp⟩)
      (by
        intro k rest s s' el hP h _
        obtain ⟨s1, s2, _, _, h3, rfl⟩ := h
        exact .inr ⟨el, h3, by simp⟩)
    exact this s hrun
  have hlast' : s.trace.getLast? = some (.composed s.pool s.comp el) := by
    rcases hlast with h1 | ⟨el', h1, h2⟩
    · obtain ⟨pop, hp, _⟩ := elitist_mem _ _ hel
      rw [h1] at hp; cases hp
    · rw [hel] at h1
      cases h1; exact h2
  have hpred : ∀ Xq : List (Point K d), Xq ≠ [] → (st0.fit cfg c entropy raw cl).state.predict c Xq =
      Solution.predict c.learner c.mix c.filter false { genome := el.genome, pool := s.pool } Xq := by
    intro Xq hq
    unfold SupState.fit at h ⊢
    unfold SupState.predict
    rw [hfit, h.2, hσ]
    simp only [Bool.true_eq_false, if_false, hq, Bool.false_eq_true]
    cases cl with
    | false => rw [hσ1 rfl]; rfl
    | true =>
      obtain ⟨σ', h1, _, _, _, h2⟩ := C25_cleanup { genome := el.genome, pool := s.pool, st := el.st } (hok.elitist_len el hel).1
      rw [hσ2 rfl] at h1
      cases h1
      rw [h2]; rfl
  refine ⟨s.pool, s.comp, el, ?_, fun Xq hq => ⟨hpred Xq hq, fun out ho => ?_⟩⟩
  · unfold SupState.fit; rw [ht]; exact hlast'
  · rw [hpred Xq hq] at ho
    exact length_predict _ _ _ _ _ _ _ ho

/-- C51: no other failures: if no call raises (and `n_rules` is positive, and the initial discovery has a seed) the model is not marked as failed. -/
theorem C51_only_failures (cfg : SupCfg K) (c : SupComp K d M) (hg : c.GoodStrategies) (entropy : Nat) (raw : RawData K d) (cl : Bool)
    (st0 : SupState K d M) (hn : cfg.nRules ≠ 0) (hi : cfg.nInitial ≠ 0 → st0.step < cfg.nIter) :
    (st0.fit cfg c entropy raw cl).state.isError = true → FailedCall cfg c raw.X raw.y (st0.fit cfg c entropy raw cl).trace := by
  unfold SupState.fit
  intro h
  rcases fitWith_trace cfg c (runEval cfg c) entropy raw cl st0 with ⟨_, h1⟩ | ⟨hc, ht⟩
  · rw [h1] at h; cases h
  · rw [ht]
    refine (run_failed cfg c entropy raw.X raw.y st0.step).2 hg hn hi ?_
    unfold SupState.fitWith at h
    rw [hc] at h
    dsimp only at h
    cases ho : runFit cfg c (runEval cfg c raw.X raw.y) entropy raw.X raw.y st0.step with
    | caught s => exact ⟨s, rfl⟩
    | raised s e => rw [ho] at h; cases h
    | done s =>
      rw [ho] at h
      dsimp only at h
      unfold finishFit at h
      dsimp only at h
      split at h
      · cases h
      · cases h
      · split at h
        · cases h
        · split at h
          · split at h <;> cases h
          · cases h

/-- A run whose second discovery raises: contained, zeros. -/
example :
    let c : SupComp ℚ 1 ℚ := { demoComp (fun _ _ c => c) with
      discover := fun seed _ _ _ _ _ n => if seed.key = [2] then .error .keyError else .ok (List.replicate n demoRule) }
    let r := SupState.fit (demoCfg 3 0 1 (-1) 0) c 7 demoData false {}
    (r.raised = none ∧ r.state.isFitted = true ∧ r.state.isError = true ∧ r.trace.length = 4) ∧
      r.state.predict c [![0], ![5], ![1]] = .ok [0, 0, 0] := by
  decide +kernel

/-- A completed run predicts the local model. -/
example :
    let c := demoComp (fun _ _ c => c)
    let r := SupState.fit (demoCfg 3 0 1 (-1) 0) c 7 demoData true {}
    (r.raised = none ∧ r.state.isError = false ∧ r.state.cleaned = true) ∧ r.state.predict c [![0], ![5], ![1]] = .ok [2, 0, 2] := by
  decide +kernel

/-! ### C52 valid configurations -/

theorem mapM_total {α β : Type} (f : α → Except PyErr β) (l : List α) (h : ∀ a ∈ l, ∃ b, f a = .ok b) : ∃ l', l.mapM f = .ok l' := by
  induction l with
  | nil => exact ⟨[], rfl⟩
  | cons a l ih =>
    obtain ⟨b, hb⟩ := h a (List.mem_cons_self ..)
    obtain ⟨l', hl'⟩ := ih fun x hx => h x (List.mem_cons_of_mem _ hx)
    refine ⟨b :: l', ?_⟩
    rw [List.mapM_cons, hb, hl']; rfl

theorem fitAll_total (ev : Eval K) (n : Nat) (hev : ∀ g : List Bool, g.length = n → ∃ s, ev g = .ok s) (pop : List (Indiv K)) (hl : AllLen n pop) :
    ∃ pop', fitAll ev pop = .ok pop' := by
  refine mapM_total _ _ fun σ hσ => ?_
  obtain ⟨s, hs⟩ := hev σ.genome (hl σ hσ)
  unfold Indiv.fit
  rw [hs]
  exact ⟨_, rfl⟩

/-- A metaheuristic that does not fail when evaluations do not fail, and does not lose its population. -/
def Strategy.Total (strat : Strategy K) : Prop :=
  ∀ n ev pop, n ≠ 0 → AllLen n pop → pop ≠ [] → (∀ g : List Bool, g.length = n → ∃ s, ev g = .ok s) → ∃ pop', strat n ev pop = .ok pop' ∧ pop' ≠ []

/-- The same for one number of rules and one way of evaluating solutions. -/
def Strategy.TotalAt (strat : Strategy K) (n : Nat) (ev : Eval K) : Prop :=
  ∀ pop, n ≠ 0 → AllLen n pop → pop ≠ [] → (∀ g : List Bool, g.length = n → ∃ s, ev g = .ok s) → ∃ pop', strat n ev pop = .ok pop' ∧ pop' ≠ []

theorem Strategy.Total.totalAt {strat : Strategy K} (h : strat.Total) (n : Nat) (ev : Eval K) : strat.TotalAt n ev := h n ev

theorem compOptimize_total (cfg : CompCfg K) (hsize : 1 ≤ cfg.populationSize) (draw : Nat → Nat → K) (strat : Strategy K) (hg : strat.Good)
    (ev : Eval K) (n : Nat) (ht : strat.TotalAt n ev) (hev : ∀ g : List Bool, g.length = n → ∃ s, ev g = .ok s) (s : CompState K)
    (hpop : ∀ p, s.population = some p → p ≠ [] ∧ ∀ σ ∈ p, σ.genome.length ≤ n)
    (harch : ∀ l, s.archive = some l → l.length ≤ 1 ∧ ∀ σ ∈ l, σ.genome.length ≤ n) :
    ∃ s', compOptimize cfg draw strat ev n s = .ok s' ∧ ∃ p, s'.population = some p ∧ p ≠ [] := by
  have h1 : ∃ pop, initPopulation cfg draw n s.population = .ok pop ∧ pop ≠ [] := by
    have hnew : (List.range cfg.populationSize).map (fun k => cfg.init.make (draw k) n) ≠ [] := by
      intro h
      have := congrArg List.length h
      simp at this; omega
    unfold initPopulation
    split
    · rename_i σ rest hp
      split
      · obtain ⟨l', hl'⟩ := mapM_total (fun x : Indiv K × Nat => cfg.init.pad (draw x.2) n x.1) (σ :: rest).zipIdx (by
          intro x hx
          have hmem : x.1 ∈ σ :: rest := List.fst_mem_of_mem_zipIdx hx
          unfold InitOp.pad
          rw [if_neg (by have := (hpop _ hp).2 _ hmem; omega)]
          exact ⟨_, rfl⟩)
        refine ⟨l', hl', ?_⟩
        rintro rfl
        have := mapM_length _ _ _ hl'
        simp at this
      · exact ⟨_, rfl, hnew⟩
    · exact ⟨_, rfl, hnew⟩
  obtain ⟨pop, hpop1, hpop2⟩ := h1
  have hl := initPopulation_len _ _ _ _ _ hpop1
  have h2 : ∃ arch, archivePrepare ev n s.archive = .ok arch := by
    cases ha : s.archive with
    | none => exact ⟨none, rfl⟩
    | some l =>
      obtain ⟨p, hp⟩ : ∃ p, archivePad n l = .ok p := mapM_total _ _ fun σ hσ => by
        unfold archivePad1
        rw [if_neg (by have := (harch l ha).2 σ hσ; omega)]
        exact ⟨_, rfl⟩
      obtain ⟨r, hr⟩ := fitAll_total ev n hev p (archivePad_len _ _ _ hp)
      refine ⟨some r, ?_⟩
      unfold archivePrepare
      simp only [hp, hr, bind, Except.bind, pure, Except.pure]
  obtain ⟨arch, harch1⟩ := h2
  have h3 : ∃ pop', popStep cfg draw strat ev n pop = .ok pop' ∧ pop' ≠ [] := by
    unfold popStep
    split
    · obtain ⟨st, hst⟩ := hev (cfg.init.make (draw cfg.populationSize) n).genome (InitOp.length_bits _ _ _)
      unfold Indiv.fit
      rw [hst]
      exact ⟨_, rfl, by simp⟩
    · rename_i hn
      exact ht pop hn hl hpop2 hev
  obtain ⟨pop', hpop3, hpop4⟩ := h3
  obtain ⟨hl', he'⟩ := popStep_spec _ _ _ hg _ _ _ _ hl hpop3
  have h4 : ∃ arch', archiveStore ev pop' arch = .ok arch' := by
    rcases archivePrepare_spec _ _ _ _ harch1 with ⟨_, rfl⟩ | ⟨l, p, r, ha, rfl, hp, hr⟩
    · exact ⟨none, rfl⟩
    · obtain ⟨hrg, hre⟩ := fitAll_spec _ _ _ hr
      have hrl : r.length ≤ 1 := by
        rw [mapM_length _ _ _ hr, mapM_length _ _ _ hp]
        exact (harch l ha).1
      obtain ⟨best, hbest⟩ := fittestIndiv_ok pop' hpop4 fun σ hσ => by
        obtain ⟨st, h, _⟩ := he' σ hσ
        exact ⟨st, h⟩
      obtain ⟨bst, hbst, _⟩ := he' best (fittestIndiv_spec _ _ hbest).1
      have hu : ∃ u, archiveUpdate r pop' = .ok u := by
        unfold archiveUpdate
        rw [hbest]
        dsimp only
        split
        · rw [Indiv.clone_ok _ _ hbst]; exact ⟨_, rfl⟩
        · rename_i a rest
          obtain ⟨ast, hast, _⟩ := hre a (by simp)
          rw [hast]
          dsimp only
          split
          · rw [Indiv.clone_ok _ _ hbst]; exact ⟨_, rfl⟩
          · exact ⟨_, rfl⟩
      obtain ⟨u, hu⟩ := hu
      obtain ⟨a, rfl, hmem, _⟩ := archiveUpdate_spec _ _ _ hrl hu
      have hae : Evaluated ev a := by
        rcases hmem with hm | hm
        · exact hre a hm
        · exact he' a hm
      refine ⟨some [a], ?_⟩
      unfold archiveStore
      simp only [hu, fitAll_of_evaluated ev [a] (by simpa using hae), bind, Except.bind, pure, Except.pure]
  obtain ⟨arch', harch2⟩ := h4
  refine ⟨{ population := some pop', archive := arch' }, ?_, pop', rfl, hpop4⟩
  rw [compOptimize_eq, hpop1]
  dsimp only
  rw [harch1]
  dsimp only
  rw [hpop3]
  dsimp only
  rw [harch2]

/-- A component whose discovery returns at most the requested number of rules. -/
def SupComp.Bounded (c : SupComp K d M) : Prop := ∀ seed hist el pool X y n rules, c.discover seed hist el pool X y n = .ok rules → rules.length ≤ n

/-- The components do not fail on the data: discovery always returns rules with the property `good` (without initial rules, the pool is empty when there is no elitist yet), solutions made
of such rules can be evaluated, and the metaheuristic does not fail with pools of such rules (that are as small as the pools of a run). -/
structure SupComp.NoFailure (cfg : SupCfg K) (c : SupComp K d M) (X : List (Point K d)) (y : List K) (good : Rule K d M → Prop) : Prop where
  discover : ∀ seed hist el pool n, n ≠ 0 → (∀ ρ ∈ pool, good ρ) → (∀ σ : Indiv K, el = some σ → σ.genome.length = pool.length) →
    (cfg.nInitial = 0 → el = none → pool = []) → ∃ rules, c.discover seed hist el pool X y n = .ok rules ∧ ∀ ρ ∈ rules, good ρ
  eval : ∀ pool : List (Rule K d M), (∀ ρ ∈ pool, good ρ) → ∀ g : List Bool, g.length = pool.length → ∃ s, runEval cfg c X y pool g = .ok s
  strategy : ∀ seed hist (pool : List (Rule K d M)), (∀ ρ ∈ pool, good ρ) → (c.Bounded → pool.length ≤ cfg.maxGenomeLength) →
    (c.strategy seed hist).TotalAt pool.length (runEval cfg c X y pool)

theorem CompOk.bounds {ev : PoolEval K d M} {pool : List (Rule K d M)} {s : CompState K} (h : CompOk ev pool s) (n : Nat) (hn : pool.length ≤ n)
    (hne : ∀ p, s.population = some p → p ≠ []) :
    (∀ p, s.population = some p → p ≠ [] ∧ ∀ σ ∈ p, σ.genome.length ≤ n) ∧
    ∀ l, s.archive = some l → l.length ≤ 1 ∧ ∀ σ ∈ l, σ.genome.length ≤ n := by
  refine ⟨fun p hp => ⟨hne p hp, fun σ hσ => ?_⟩, fun l hl => ⟨h.archLen l hl, ?_⟩⟩
  · rw [(h.pop p hp).1 σ hσ]; exact hn
  · rcases h.arch l hl with ⟨rfl, _⟩ | ⟨a, rfl, h1, _⟩
    · simp
    · simp [h1, hn]

theorem run_completes (cfg : SupCfg K) (c : SupComp K d M) (hg : c.GoodStrategies) (entropy : Nat) (X : List (Point K d)) (y : List K) (step0 : Nat)
    (good : Rule K d M → Prop) (hnf : c.NoFailure cfg X y good) (hiter : 1 ≤ cfg.nIter) (hrules : 1 ≤ cfg.nRules) (hsize : 1 ≤ cfg.comp.populationSize)
    (hinit : cfg.nInitial = 0 ∨ step0 < cfg.nIter) :
    ∃ s el, runFit cfg c (runEval cfg c X y) entropy X y step0 = .done s ∧ s.comp.elitist = .ok (some el) ∧
      el.genome.length = s.pool.length ∧ (∃ st, el.st = some st) ∧ ∀ ρ ∈ s.pool, good ρ := by
  have hdisc : ∀ n (s : RunState K d M), n ≠ 0 → s.step < cfg.nIter → (∀ ρ ∈ s.pool, good ρ) → CompOk (runEval cfg c X y) s.pool s.comp →
      (∀ p, s.comp.population = some p → p ≠ []) → (cfg.nInitial = 0 → s.comp.population = none → s.pool = []) →
      ∀ s1 r, discoverStep cfg c entropy X y n s = (s1, r) → r = none ∧ (∀ ρ ∈ s1.pool, good ρ) ∧ s1.comp = s.comp ∧ s1.step = s.step ∧
        s.pool.length ≤ s1.pool.length ∧ (c.Bounded → s1.pool.length ≤ s.pool.length + n) := by
    intro n s hn hstep hpool hok hne hzero s1 r h
    obtain ⟨el, hel, hiff⟩ := hok.elitist_ok
    have hz : ∀ el', s.comp.elitist = .ok el' → cfg.nInitial = 0 → el' = none → s.pool = [] := by
      intro el' h1 h2 h3
      rw [hel] at h1
      rcases hiff.mp ((Except.ok.inj h1).trans h3) with h | h
      · exact hzero h2 h
      · exact absurd rfl (hne _ h)
    rcases discoverStep_spec _ _ _ _ _ _ _ _ _ h with ⟨rfl, e, he, hc⟩ | ⟨el, seed, a1, a2, a3, ⟨e, he, hf, rfl⟩ | ⟨rules, he, hf, rfl⟩⟩
    · rcases hc with hc | hc | hc
      · exact absurd hc hn
      · rw [hel] at hc; cases hc
      · rw [getElem?_discoverySeeds, if_pos hstep] at hc; cases hc
    · obtain ⟨rules, h1, _⟩ := hnf.discover seed s.trace el s.pool n hn hpool (fun σ h => (hok.elitist_len σ (by rw [a1, h])).1) (hz el a1)
      rw [hf] at h1; cases h1
    · obtain ⟨rules', h1, h2⟩ := hnf.discover seed s.trace el s.pool n hn hpool (fun σ h => (hok.elitist_len σ (by rw [a1, h])).1) (hz el a1)
      rw [hf] at h1; cases h1
      refine ⟨he, ?_, rfl, rfl, by simp, fun hb => by simpa using hb _ _ _ _ _ _ _ _ hf⟩
      intro ρ hρ
      rcases List.mem_append.mp hρ with h | h
      · exact hpool ρ h
      · exact h2 ρ h
  have hcomp : ∀ (s : RunState K d M) (old : List (Rule K d M)), s.step < cfg.nIter → (∀ ρ ∈ s.pool, good ρ) → (c.Bounded → s.pool.length ≤ cfg.maxGenomeLength) → old.length ≤ s.pool.length →
      CompOk (runEval cfg c X y) old s.comp → (∀ p, s.comp.population = some p → p ≠ []) →
      ∀ s1 r, composeStep cfg c (runEval cfg c X y) entropy s = (s1, r) → r = none ∧ s1.pool = s.pool ∧
        CompOk (runEval cfg c X y) s1.pool s1.comp ∧ ∃ p, s1.comp.population = some p ∧ p ≠ [] := by
    intro s old hstep hpool hlim hold hok hne s1 r h
    rcases composeStep_spec _ _ _ _ _ _ _ h with ⟨rfl, he, hc⟩ | ⟨seed, a1, ho⟩
    · rw [getElem?_compositionSeeds, if_pos hstep] at hc; cases hc
    · obtain ⟨hb1, hb2⟩ := hok.bounds s.pool.length hold hne
      obtain ⟨s', hs', hp⟩ := compOptimize_total cfg.comp hsize (c.initDraw seed) (c.strategy seed s.trace) (hg _ _)
        (runEval cfg c X y s.pool) s.pool.length (hnf.strategy _ _ s.pool hpool hlim) (hnf.eval s.pool hpool) s.comp hb1 hb2
      rcases ho with ⟨e, he, hf, rfl⟩ | ⟨comp, he, hf, rfl⟩
      · rw [hs'] at hf; cases hf
      · have hf' := hf
        rw [hs'] at hf'; cases hf'
        exact ⟨he, rfl, compOk_of_compose cfg.comp _ _ (hg _ _) (runEval cfg c X y) s.pool s.comp _ hok.archLen hf, hp⟩
  let ev := runEval cfg c X y
  let P : List Nat → RunState K d M → Prop := fun ks s =>
    (∀ ρ ∈ s.pool, good ρ) ∧ CompOk ev s.pool s.comp ∧ (∀ p, s.comp.population = some p → p ≠ []) ∧ (∀ k ∈ ks, k < cfg.nIter) ∧
      (ks.length < cfg.nIter → s.comp.population ≠ none) ∧ (cfg.nInitial = 0 → s.comp.population = none → s.pool = []) ∧
      (c.Bounded → s.pool.length + ks.length * cfg.nRules ≤ cfg.maxGenomeLength)
  let Q : Outcome K d M → Prop := fun o => ∃ s el, o = .done s ∧ s.comp.elitist = .ok (some el) ∧
      el.genome.length = s.pool.length ∧ (∃ st, el.st = some st) ∧ ∀ ρ ∈ s.pool, good ρ
  have hstart : (∀ ρ ∈ (startState cfg step0 : RunState K d M).pool, good ρ) := by simp [startState]
  have hok0 : CompOk ev (startState cfg step0 : RunState K d M).pool (startState cfg step0 : RunState K d M).comp := startState_ok _ _ _ _
  have hr : ∀ k ∈ List.range cfg.nIter, k < cfg.nIter := fun k hk => List.mem_range.mp hk
  have hfin : ∀ s : RunState K d M, (∀ ρ ∈ s.pool, good ρ) → CompOk ev s.pool s.comp → (∃ p, s.comp.population = some p ∧ p ≠ []) → Q (.done s) := by
    rintro s hgood hok ⟨p, hp, hne⟩
    obtain ⟨el, hel, hiff⟩ := hok.elitist_ok
    cases el with
    | none =>
      rcases hiff.mp rfl with h | h
      · rw [hp] at h; cases h
      · rw [hp] at h; cases h; exact absurd rfl hne
    | some el =>
      obtain ⟨h1, st, h2, _⟩ := hok.elitist_len el hel
      exact ⟨s, el, rfl, hel, h1, ⟨st, h2⟩, hgood⟩
  refine runFit_ind cfg c ev entropy X y step0 P Q ?_ ?_ ?_ ?_ ?_ ?_ ?_ ?_ ?_
  · intro _
    exact ⟨hstart, hok0, by simp [startState], hr, by simp, fun _ _ => rfl, fun _ => by
      simp only [startState, List.length_nil, List.length_range, SupCfg.maxGenomeLength, Nat.mul_comm cfg.nIter, Nat.zero_add]
      exact Nat.le_add_right _ _⟩
  · intro s hpos h
    obtain ⟨_, h1, h2, h3, h4, hlim⟩ := hdisc _ _ (by omega) (hinit.resolve_left (by omega)) hstart hok0 (by simp [startState]) (fun _ _ => rfl) _ _ h
    refine ⟨h1, ?_, ?_, hr, by simp, fun h => by omega, fun hb => ?_⟩
    · rw [h2]; exact startState_ok _ _ _ _
    · rw [h2]; simp [startState]
    · have := hlim hb
      simp only [startState, List.length_nil, Nat.zero_add] at this
      rw [List.length_range]
      unfold SupCfg.maxGenomeLength
      rw [Nat.mul_comm cfg.nIter]
      omega
  · intro s e hpos h
    exact absurd (hdisc _ _ (by omega) (hinit.resolve_left (by omega)) hstart hok0 (by simp [startState]) (fun _ _ => rfl) _ _ h).1 (by simp)
  · rintro s ⟨h1, h2, h3, h4, h5, h6, h7⟩
    refine hfin s h1 h2 ?_
    cases hp : s.comp.population with
    | none => exact absurd hp (h5 (by simp only [List.length_nil]; omega))
    | some p => exact ⟨p, rfl, h3 p hp⟩
  · rintro k rest s s1 e ⟨h1, h2, h3, h4, h5, h6, h7⟩ h
    exact absurd (hdisc _ { s with step := k } (by omega) (h4 k (by simp)) h1 h2 h3 h6 _ _ h).1 (by simp)
  · rintro k rest s s1 s2 e ⟨h1, h2, h3, h4, h5, h6, h7⟩ h h'
    obtain ⟨_, a1, a2, a3, a4, a5⟩ := hdisc _ { s with step := k } (by omega) (h4 k (by simp)) h1 h2 h3 h6 _ _ h
    have a6 : c.Bounded → s1.pool.length + rest.length * cfg.nRules ≤ cfg.maxGenomeLength := fun hb => by
      have h8 := a5 hb
      have h9 := h7 hb
      simp only [List.length_cons, Nat.succ_mul] at h8 h9
      omega
    have a7 : c.Bounded → s1.pool.length ≤ cfg.maxGenomeLength := fun hb => (Nat.le_add_right _ _).trans (a6 hb)
    refine absurd (hcomp s1 s.pool ?_ a1 a7 a4 ?_ ?_ _ _ h').1 (by simp)
    · rw [a3]; exact h4 k (by simp)
    · rw [a2]; exact h2
    · rw [a2]; exact h3
  · rintro k rest s s1 s2 e ⟨h1, h2, h3, h4, h5, h6, h7⟩ h h' he
    obtain ⟨_, a1, a2, a3, a4, a5⟩ := hdisc _ { s with step := k } (by omega) (h4 k (by simp)) h1 h2 h3 h6 _ _ h
    have a6 : c.Bounded → s1.pool.length + rest.length * cfg.nRules ≤ cfg.maxGenomeLength := fun hb => by
      have h8 := a5 hb
      have h9 := h7 hb
      simp only [List.length_cons, Nat.succ_mul] at h8 h9
      omega
    have a7 : c.Bounded → s1.pool.length ≤ cfg.maxGenomeLength := fun hb => (Nat.le_add_right _ _).trans (a6 hb)
    obtain ⟨_, b1, b2, b3⟩ := hcomp s1 s.pool (by rw [a3]; exact h4 k (by simp)) a1 a7 a4 (by rw [a2]; exact h2) (by rw [a2]; exact h3) _ _ h'
    obtain ⟨s', el, hs', hel, _⟩ := hfin s2 (by rw [b1]; exact a1) b2 b3
    cases hs'
    rcases he with he | ⟨he, _⟩ <;> (rw [hel] at he; cases he)
  all_goals
    rintro k rest s s' el ⟨h1, h2, h3, h4, h5, h6, h7⟩ hit _
    obtain ⟨s1, s2, h, h', hel, rfl⟩ := hit
    obtain ⟨_, a1, a2, a3, a4, a5⟩ := hdisc _ { s with step := k } (by omega) (h4 k (by simp)) h1 h2 h3 h6 _ _ h
    have a6 : c.Bounded → s1.pool.length + rest.length * cfg.nRules ≤ cfg.maxGenomeLength := fun hb => by
      have h8 := a5 hb
      have h9 := h7 hb
      simp only [List.length_cons, Nat.succ_mul] at h8 h9
      omega
    have a7 : c.Bounded → s1.pool.length ≤ cfg.maxGenomeLength := fun hb => (Nat.le_add_right _ _).trans (a6 hb)
    obtain ⟨_, b1, b2, b3⟩ := hcomp s1 s.pool (by rw [a3]; exact h4 k (by simp)) a1 a7 a4 (by rw [a2]; exact h2) (by rw [a2]; exact h3) _ _ h'
    first
      | exact hfin _ (by dsimp only; rw [b1]; exact a1) b2 b3
      | (refine ⟨?_, b2, ?_, fun j hj => h4 j (List.mem_cons_of_mem _ hj), fun _ => ?_, fun _ hp' => ?_, fun hb => ?_⟩
         · dsimp only; rw [b1]; exact a1
         · obtain ⟨p, hp, hne⟩ := b3
           intro p' hp'
           dsimp only at hp'
           rw [hp] at hp'; cases hp'; exact hne
         · obtain ⟨p, hp, _⟩ := b3
           dsimp only
           rw [hp]; simp
         · obtain ⟨p, hp, _⟩ := b3
           dsimp only at hp'
           rw [hp] at hp'; cases hp'
         · dsimp only; rw [b1]; exact a6 hb)

/-- C52 for `n_iter ≥ 1`, `n_rules ≥ 1`, `population_size ≥ 1` and, if `n_initial_rules > 0`, an estimator whose last fit did not have more iterations: with valid data and components that
do not fail, fit completes. (Missing: the excluded settings, for which it is false, see `C52_refuted`.) -/
theorem C52_fits_partial (cfg : SupCfg K) (c : SupComp K d M) (hg : c.GoodStrategies) (entropy : Nat) (raw : RawData K d) (cl : Bool) (st0 : SupState K d M)
    (good : Rule K d M → Prop) (hraw : raw.check = .ok (raw.X, raw.y)) (hnf : c.NoFailure cfg raw.X raw.y good)
    (hiter : 1 ≤ cfg.nIter) (hrules : 1 ≤ cfg.nRules) (hsize : 1 ≤ cfg.comp.populationSize) (hinit : cfg.nInitial = 0 ∨ st0.step < cfg.nIter) :
    (st0.fit cfg c entropy raw cl).Completed ∧ (st0.fit cfg c entropy raw cl).state.isFitted = true := by
  obtain ⟨s, el, hrun, hel, hlen, ⟨st, hst⟩, _⟩ := run_completes cfg c hg entropy raw.X raw.y st0.step good hnf hiter hrules hsize hinit
  unfold SupState.fit SupState.fitWith FitResult.Completed
  rw [hraw]
  dsimp only
  rw [hrun]
  dsimp only
  unfold finishFit
  rw [hel]
  dsimp only
  rw [Indiv.clone_ok el st hst]
  dsimp only
  cases cl with
  | false => exact ⟨⟨rfl, rfl⟩, rfl⟩
  | true =>
    obtain ⟨σ', h1, _⟩ := C25_cleanup ({ genome := el.genome, pool := s.pool, st := el.st } : Solution K d M) hlen
    rw [if_pos rfl, h1]
    exact ⟨⟨rfl, rfl⟩, rfl⟩

/-- A genetic algorithm without generations never fails. -/
theorem gaOptimize_nil_total (cfg : GACfg K) : Strategy.Total (gaOptimize cfg []) := by
  intro n ev pop hn hl hne hev
  obtain ⟨pop', h⟩ := fitAll_total ev n hev pop hl
  refine ⟨pop', by unfold gaOptimize; rw [h]; rfl, ?_⟩
  rintro rfl
  have := mapM_length _ _ _ h
  exact hne (List.length_eq_zero_iff.mp (by simpa using this.symm))

/-- Solutions of fitted rules that match some training sample can always be evaluated (with the default filter). -/
theorem eval_total (cfg : SupCfg K) (c : SupComp K d M) (hfilt : c.filter = filterAll) (ff : RuleFitness K d) (X : List (Point K d)) (y : List K)
    (hxy : y.length = X.length) (hne : X ≠ []) (pool : List (Rule K d M))
    (hp : ∀ ρ ∈ pool, ρ.FittedOn c.learner ff X y ∧ ∃ x ∈ X, ρ.kind.call ρ.bounds x = true) (g : List Bool) (hg : g.length = pool.length) :
    ∃ s, runEval cfg c X y pool g = .ok s := by
  obtain ⟨out, h1, h2, _⟩ := C20_default_filter_partial c.learner ff c.mix X y hxy { genome := g, pool := pool } hg hp
  unfold runEval evalGenome Solution.fit
  rw [hfilt, h2]
  dsimp only
  rw [if_neg]
  · exact ⟨_, rfl⟩
  · rw [h1, hxy]
    have : 0 < X.length := List.length_pos_iff.mpr hne
    push Not
    exact ⟨rfl, by omega⟩

/-- The components of the example run do not fail. -/
theorem demoComp_noFailure (cfg : SupCfg ℚ) (sf : SolFitness ℚ) : (demoComp sf).NoFailure cfg demoData.X demoData.y fun ρ => ρ = demoRule := by
  refine ⟨?_, ?_, fun _ _ _ _ _ => (gaOptimize_nil_total _).totalAt _ _⟩
  · intro seed hist el pool n _ _ _ _
    exact ⟨_, rfl, fun ρ hρ => (List.mem_replicate.mp hρ).2⟩
  · intro pool hp g hg
    refine eval_total cfg (demoComp sf) rfl negErr _ _ rfl (by simp [demoData]) pool ?_ g hg
    intro ρ hρ
    rw [hp ρ hρ]
    have hfit : Rule.fits meanLearner negErr (List.replicate 1 (demoData.X, demoData.y) ++ [(demoData.X, demoData.y)])
        { demoRule with st := none, model := none } = .ok demoRule := by decide +kernel
    refine ⟨⟨{ demoRule with st := none, model := none }, 1, rfl, rfl, hfit⟩, ![0], by simp [demoData], by decide +kernel⟩

/-- Hence every example run completes. -/
example (n m r : Nat) (patience : Int) (delta : ℚ) (sf : SolFitness ℚ) (entropy : Nat) (cl : Bool) :
    (SupState.fit (demoCfg (n + 1) m (r + 1) patience delta) (demoComp sf) entropy demoData cl {}).Completed :=
  (C52_fits_partial _ _ (demoComp_good sf) entropy demoData cl {} _ rfl (demoComp_noFailure _ sf) (by simp [demoCfg]) (by simp [demoCfg])
    (by simp [demoCfg]) (.inr (by simp [demoCfg]))).1

/-- C52 is false for the code. With components that never fail and valid data: (1) `n_iter = 0` makes `fit` raise an exception; (2) `n_rules = 0` is treated as a failure in
the first iteration although the initial rules could be used. -/
theorem C52_refuted :
    (SupState.fit (demoCfg 0 0 1 (-1) 0) (demoComp fun _ _ c => c) 7 demoData false {}).raised = some .attributeError ∧
    (SupState.fit (demoCfg 1 2 0 (-1) 0) (demoComp fun _ _ c => c) 7 demoData false {}).state.isError = true := by
  decide +kernel

/-! ### C53 random streams -/

/-- The component called (`true` for rule discovery) and the seed it receives. -/
def Event.call : Event K d M → Option (Bool × Seed)
  | .discover seed _ _ _ => some (true, seed)
  | .compose seed _ _ => some (false, seed)
  | .composed _ _ _ => none

/-- All calls of a run, in order. -/
def calls (t : List (Event K d M)) : List (Bool × Seed) := t.filterMap Event.call

/-- The children of the user's seed for iteration `k`: child `2k` for discovery, child `2k+1` for composition. -/
def iterCalls (entropy k : Nat) : List (Bool × Seed) := [(true, ⟨entropy, [2 * k]⟩), (false, ⟨entropy, [2 * k + 1]⟩)]

theorem calls_append (t u : List (Event K d M)) : calls (t ++ u) = calls t ++ calls u := List.filterMap_append ..

theorem prefix_flatMap_range (f : Nat → List (Bool × Seed)) (n j : Nat) (h : j < n) (l : List (Bool × Seed)) (hl : l <+: f j) :
    (List.range j).flatMap f ++ l <+: (List.range n).flatMap f := by
  have h1 : List.range n = List.range j ++ j :: (List.range' (j + 1) (n - j - 1)) := by
    have e : n = j + ((n - j - 1) + 1) := by omega
    conv_lhs => rw [e]
    rw [List.range_eq_range', List.range_eq_range', ← List.range'_append (step := 1), List.range'_succ]
    simp
  rw [h1, List.flatMap_append, List.flatMap_cons]
  refine (List.prefix_append_right_inj _).mpr ?_
  exact hl.trans (List.prefix_append _ _)

theorem discoverStep_calls (cfg : SupCfg K) (c : SupComp K d M) (entropy : Nat) (X : List (Point K d)) (y : List K) (n : Nat)
    (s s1 : RunState K d M) (r : Option PyErr) (h : discoverStep cfg c entropy X y n s = (s1, r)) :
    (r ≠ none ∧ calls s1.trace = calls s.trace) ∨ calls s1.trace = calls s.trace ++ [(true, ⟨entropy, [2 * s.step]⟩)] := by
  rcases discoverStep_spec _ _ _ _ _ _ _ _ _ h with ⟨rfl, e, he, _⟩ | ⟨el, seed, _, a2, _, ⟨_, _, _, rfl⟩ | ⟨_, _, _, rfl⟩⟩
  · exact .inl ⟨by rw [he]; simp, rfl⟩
  all_goals
    right
    rw [getElem?_discoverySeeds] at a2
    split at a2
    · cases a2
      dsimp only
      rw [calls_append]; rfl
    · cases a2

theorem composeStep_calls (cfg : SupCfg K) (c : SupComp K d M) (ev : PoolEval K d M) (entropy : Nat)
    (s s1 : RunState K d M) (r : Option PyErr) (h : composeStep cfg c ev entropy s = (s1, r)) :
    (r ≠ none ∧ calls s1.trace = calls s.trace) ∨ calls s1.trace = calls s.trace ++ [(false, ⟨entropy, [2 * s.step + 1]⟩)] := by
  rcases composeStep_spec _ _ _ _ _ _ _ h with ⟨rfl, he, _⟩ | ⟨seed, a2, ⟨_, _, _, rfl⟩ | ⟨_, _, _, rfl⟩⟩
  · exact .inl ⟨by rw [he]; simp, rfl⟩
  all_goals
    right
    rw [getElem?_compositionSeeds] at a2
    split at a2
    · cases a2
      dsimp only
      rw [calls_append]; rfl
    · cases a2

theorem discoverStep_step (cfg : SupCfg K) (c : SupComp K d M) (entropy : Nat) (X : List (Point K d)) (y : List K) (n : Nat)
    (s s1 : RunState K d M) (r : Option PyErr) (h : discoverStep cfg c entropy X y n s = (s1, r)) : s1.step = s.step := by
  rcases discoverStep_spec _ _ _ _ _ _ _ _ _ h with ⟨rfl, _⟩ | ⟨el, seed, a1, _, _, ⟨_, _, _, rfl⟩ | ⟨_, _, _, rfl⟩⟩ <;> rfl

theorem run_calls (cfg : SupCfg K) (c : SupComp K d M) (ev : PoolEval K d M) (entropy : Nat) (X : List (Point K d)) (y : List K) (step0 : Nat) :
    let o := runFit cfg c ev entropy X y step0
    ∃ init l, calls o.state.trace = init ++ l ∧ l <+: (List.range cfg.nIter).flatMap (iterCalls entropy) ∧
      (cfg.nInitial = 0 → init = []) ∧ (init = [] ∨ init = [(true, ⟨entropy, [2 * step0]⟩)]) := by
  let I : List (Bool × Seed) → Prop := fun init => (cfg.nInitial = 0 → init = []) ∧ (init = [] ∨ init = [(true, ⟨entropy, [2 * step0]⟩)])
  let P : List Nat → RunState K d M → Prop := fun ks s => ∃ j init, j + ks.length = cfg.nIter ∧ ks = List.range' j ks.length ∧
    calls s.trace = init ++ (List.range j).flatMap (iterCalls entropy) ∧ I init
  let Q : Outcome K d M → Prop := fun o => ∃ init l, calls o.state.trace = init ++ l ∧ l <+: (List.range cfg.nIter).flatMap (iterCalls entropy) ∧ I init
  have head : ∀ k rest j, k :: rest = List.range' j (k :: rest).length → k = j ∧ rest = List.range' (j + 1) rest.length := by
    intro k rest j h
    rw [List.length_cons, List.range'_succ] at h
    injection h with h1 h2
    exact ⟨h1, h2⟩
  refine runFit_ind cfg c ev entropy X y step0 P Q ?_ ?_ ?_ ?_ ?_ ?_ ?_ ?_ ?_
  · intro h
    exact ⟨0, [], by simp, by rw [List.length_range, ← List.range_eq_range'], rfl, fun _ => rfl, .inl rfl⟩
  · intro s hpos h
    rcases discoverStep_calls _ _ _ _ _ _ _ _ _ h with ⟨h1, _⟩ | h1
    · exact absurd rfl h1
    · exact ⟨0, [(true, ⟨entropy, [2 * step0]⟩)], by simp, by rw [List.length_range, ← List.range_eq_range'], h1, fun h => absurd h (by omega), .inr rfl⟩
  · intro s e hpos h
    rcases discoverStep_calls _ _ _ _ _ _ _ _ _ h with ⟨_, h1⟩ | h1
    · exact ⟨[], [], h1, List.nil_prefix, fun _ => rfl, .inl rfl⟩
    · exact ⟨[(true, ⟨entropy, [2 * step0]⟩)], [], h1, List.nil_prefix, fun h => absurd h (by omega), .inr rfl⟩
  · rintro s ⟨j, init, h1, _, h2, h3⟩
    have : j = cfg.nIter := by simpa using h1
    exact ⟨init, _, h2, by rw [this], h3⟩
  · rintro k rest s s1 e ⟨j, init, h1, h2, h3, h4⟩ h
    obtain ⟨rfl, _⟩ := head _ _ _ h2
    have hk : k < cfg.nIter := by rw [← h1]; simp
    rcases discoverStep_calls _ _ _ _ _ _ { s with step := k } _ _ h with ⟨_, h5⟩ | h5
    · refine ⟨init, _, h5.trans h3, ?_, h4⟩
      simpa using prefix_flatMap_range (iterCalls entropy) cfg.nIter k hk [] List.nil_prefix
    · refine ⟨init, _, (h5.trans (by rw [h3])).trans (List.append_assoc ..), ?_, h4⟩
      exact prefix_flatMap_range (iterCalls entropy) cfg.nIter k hk _ (by simp [iterCalls])
  · rintro k rest s s1 s2 e ⟨j, init, h1, h2, h3, h4⟩ h h'
    obtain ⟨rfl, _⟩ := head _ _ _ h2
    have hk : k < cfg.nIter := by rw [← h1]; simp
    have hs := discoverStep_step _ _ _ _ _ _ _ _ _ h
    rcases discoverStep_calls _ _ _ _ _ _ { s with step := k } _ _ h with ⟨h5, _⟩ | h5
    · exact absurd rfl h5
    · rcases composeStep_calls _ _ _ _ _ _ _ h' with ⟨_, h6⟩ | h6
      · refine ⟨init, _, h6.trans ((h5.trans (by rw [h3])).trans (List.append_assoc ..)), ?_, h4⟩
        exact prefix_flatMap_range (iterCalls entropy) cfg.nIter k hk _ (by simp [iterCalls])
      · refine ⟨init, (List.range k).flatMap (iterCalls entropy) ++ iterCalls entropy k, ?_, prefix_flatMap_range _ _ _ hk _ List.prefix_rfl, h4⟩
        show calls s2.trace = _
        rw [h6, h5, hs]
        show calls s.trace ++ _ ++ _ = _
        rw [h3]; simp [iterCalls]
  · rintro k rest s s1 s2 e ⟨j, init, h1, h2, h3, h4⟩ h h' _
    obtain ⟨rfl, _⟩ := head _ _ _ h2
    have hk : k < cfg.nIter := by rw [← h1]; simp
    have hs := discoverStep_step _ _ _ _ _ _ _ _ _ h
    rcases discoverStep_calls _ _ _ _ _ _ { s with step := k } _ _ h with ⟨h5, _⟩ | h5
    · exact absurd rfl h5
    · rcases composeStep_calls _ _ _ _ _ _ _ h' with ⟨h6, _⟩ | h6
      · exact absurd rfl h6
      · refine ⟨init, (List.range k).flatMap (iterCalls entropy) ++ iterCalls entropy k, ?_, prefix_flatMap_range _ _ _ hk _ List.prefix_rfl, h4⟩
        show calls s2.trace = _
        rw [h6, h5, hs]
        show calls s.trace ++ _ ++ _ = _
        rw [h3]; simp [iterCalls]
  all_goals
    rintro k rest s s' el ⟨j, init, h1, h2, h3, h4⟩ hit _
    obtain ⟨s1, s2, h, h', hel, rfl⟩ := hit
    obtain ⟨rfl, hrest⟩ := head _ _ _ h2
    have hk : k < cfg.nIter := by rw [← h1]; simp
    have hs := discoverStep_step _ _ _ _ _ _ _ _ _ h
    have hcalls : calls (s2.trace ++ [.composed s2.pool s2.comp el]) =
        init ++ ((List.range k).flatMap (iterCalls entropy) ++ iterCalls entropy k) := by
      rw [calls_append]
      rcases discoverStep_calls _ _ _ _ _ _ { s with step := k } _ _ h with ⟨h5, _⟩ | h5
      · exact absurd rfl h5
      · rcases composeStep_calls _ _ _ _ _ _ _ h' with ⟨h6, _⟩ | h6
        · exact absurd rfl h6
        · rw [h6, h5, hs]
          show calls s.trace ++ _ ++ _ ++ [] = _
          rw [h3]; simp [iterCalls]
    first
      | exact ⟨init, _, hcalls, prefix_flatMap_range _ _ _ hk _ List.prefix_rfl, h4⟩
      | (refine ⟨k + 1, init, ?_, hrest, ?_, h4⟩
         · rw [← h1, List.length_cons]; omega
         · dsimp only
           rw [hcalls, List.range_succ, List.flatMap_append]; simp)

/-- C53: in every fit, apart from one possible call for the initial rules, the calls of discovery and composition alternate and receive the children 0, 1, 2, … of the user's
seed, one per iteration and component. -/
theorem C53_seeds (cfg : SupCfg K) (c : SupComp K d M) (entropy : Nat) (raw : RawData K d) (cl : Bool) (st0 : SupState K d M) :
    ∃ init l, calls (st0.fit cfg c entropy raw cl).trace = init ++ l ∧ l <+: (List.range cfg.nIter).flatMap (iterCalls entropy) ∧
      init.length ≤ 1 ∧ (cfg.nInitial = 0 → init = []) ∧ ∀ p ∈ init, p.1 = true ∧ p.2.entropy = entropy := by
  unfold SupState.fit
  refine trace_of_run cfg c (runEval cfg c) entropy raw cl st0 (fun t => ∃ init l, calls t = init ++ l ∧
      l <+: (List.range cfg.nIter).flatMap (iterCalls entropy) ∧
      init.length ≤ 1 ∧ (cfg.nInitial = 0 → init = []) ∧ ∀ p ∈ init, p.1 = true ∧ p.2.entropy = entropy) ⟨[], [], rfl, List.nil_prefix, by simp, by simp, by simp⟩ ?_
  obtain ⟨init, l, h1, h2, h3, h4⟩ := run_calls cfg c (runEval cfg c raw.X raw.y) entropy raw.X raw.y st0.step
  refine ⟨init, l, h1, h2, ?_, h3, ?_⟩
  · rcases h4 with rfl | rfl <;> simp
  · rcases h4 with rfl | rfl <;> simp

theorem nodup_iterSeeds (entropy n : Nat) : (((List.range n).flatMap (iterCalls entropy)).map Prod.snd).Nodup := by
  have : ((List.range n).flatMap (iterCalls entropy)).map Prod.snd = (List.range (2 * n)).map fun i => (⟨entropy, [i]⟩ : Seed) := by
    induction n with
    | zero => rfl
    | succ n ih =>
      rw [List.range_succ, List.flatMap_append, List.map_append, ih, show 2 * (n + 1) = 2 * n + 1 + 1 by omega, List.range_succ, List.range_succ]
      simp [iterCalls]
  rw [this]
  refine (List.nodup_range).map ?_
  intro a b h
  simpa using h

/-- C53: the seeds of all iterations are pairwise distinct. -/
theorem C53_distinct (cfg : SupCfg K) (c : SupComp K d M) (entropy : Nat) (raw : RawData K d) (cl : Bool) (st0 : SupState K d M) (h0 : cfg.nInitial = 0) :
    ((calls (st0.fit cfg c entropy raw cl).trace).map Prod.snd).Nodup := by
  obtain ⟨init, l, h1, h2, _, h3, _⟩ := C53_seeds cfg c entropy raw cl st0
  rw [h1, h3 h0, List.nil_append]
  exact (nodup_iterSeeds entropy cfg.nIter).sublist (h2.sublist.map _)

/-- C53 with initial rules: all calls after the first have pairwise distinct seeds. -/
theorem C53_distinct_initial (cfg : SupCfg K) (c : SupComp K d M) (entropy : Nat) (raw : RawData K d) (cl : Bool) (st0 : SupState K d M) :
    ((calls (st0.fit cfg c entropy raw cl).trace).tail.map Prod.snd).Nodup := by
  obtain ⟨init, l, h1, h2, h3, _, _⟩ := C53_seeds cfg c entropy raw cl st0
  have hl : (l.map Prod.snd).Nodup := (nodup_iterSeeds entropy cfg.nIter).sublist (h2.sublist.map _)
  rw [h1]
  match init, h3 with
  | [], _ => exact hl.sublist ((List.tail_sublist l).map _)
  | [_], _ => exact hl

example : calls (SupState.fit (demoCfg 2 1 1 (-1) 0) (demoComp fun _ _ c => c) 7 demoData false {}).trace =
    [(true, ⟨7, [0]⟩), (true, ⟨7, [0]⟩), (false, ⟨7, [1]⟩), (true, ⟨7, [2]⟩), (false, ⟨7, [3]⟩)] := by
  decide +kernel

/-! ### C54 reproducible fits -/

theorem fitLoop_step (cfg : SupCfg K) (c : SupComp K d M) (ev : PoolEval K d M) (entropy : Nat) (X : List (Point K d)) (y : List K)
    (k : Nat) (rest : List Nat) (s : RunState K d M) (j : Nat) :
    fitLoop cfg c ev entropy X y (k :: rest) { s with step := j } = fitLoop cfg c ev entropy X y (k :: rest) s := rfl

/-- C54 for estimators without initial rules, and for estimators whose earlier fits ended in the same iteration (in particular new ones): a second fit with the same seed and data gives the
same object. (Missing: initial rules after a longer earlier fit, for which it is false, see `C54_refuted`.) -/
theorem C54_reproducible_partial (cfg : SupCfg K) (c : SupComp K d M) (entropy : Nat) (raw : RawData K d) (cl : Bool) (st0 st1 : SupState K d M)
    (hinit : cfg.nInitial = 0 ∨ st0.step = st1.step) (hok : (st0.fit cfg c entropy raw cl).raised = none) :
    st1.fit cfg c entropy raw cl = st0.fit cfg c entropy raw cl := by
  unfold SupState.fit at hok ⊢
  rcases fitWith_trace cfg c (runEval cfg c) entropy raw cl st0 with ⟨_, h1⟩ | ⟨hc, _⟩
  · rw [h1] at hok; cases hok
  · have hrun : runFit cfg c (runEval cfg c raw.X raw.y) entropy raw.X raw.y st1.step =
        runFit cfg c (runEval cfg c raw.X raw.y) entropy raw.X raw.y st0.step := by
      rcases hinit with h0 | h0
      · rw [runFit_eq, runFit_eq, if_neg (by omega), if_neg (by omega)]
        cases hn : List.range cfg.nIter with
        | nil =>
          exfalso
          unfold SupState.fitWith at hok
          rw [hc] at hok
          dsimp only at hok
          rw [runFit_eq, if_neg (by omega), hn] at hok
          cases hok
        | cons k rest => rfl
      · rw [h0]
    unfold SupState.fitWith at hok ⊢
    rw [hc] at hok ⊢
    dsimp only at hok ⊢
    rw [hrun]
    cases ho : runFit cfg c (runEval cfg c raw.X raw.y) entropy raw.X raw.y st0.step with
    | caught s => rfl
    | raised s e => rw [ho] at hok; cases hok
    | done s =>
      rw [ho] at hok
      dsimp only at hok ⊢
      unfold finishFit at hok ⊢
      dsimp only at hok ⊢
      split
      · rename_i e he
        rw [he] at hok; cases hok
      · rename_i he
        rw [he] at hok; cases hok
      · rename_i el he
        rw [he] at hok
        dsimp only at hok
        split
        · rename_i e hcl
          rw [hcl] at hok; cases hok
        · rfl

/-- Components whose discovery depends on its seed: child 2 of the seed gives a rule with another prediction. -/
def seedComp : SupComp ℚ 1 ℚ := { demoComp (fun _ _ c => c) with
  discover := fun seed _ _ _ _ _ n => .ok (List.replicate n { demoRule with model := some (if seed.key = [2] then 5 else 2) }) }

/-- C54 is false for the code: with initial rules the second fit of the same estimator with the same seed and data uses another seed for the initial rules (the iteration counter of the
first fit is not reset) and ends with another model. -/
theorem C54_refuted :
    let r0 := SupState.fit (demoCfg 2 1 1 (-1) 0) seedComp 7 demoData false {}
    let r1 := SupState.fit (demoCfg 2 1 1 (-1) 0) seedComp 7 demoData false r0.state
    r0.raised = none ∧ r0.state.isError = false ∧ r1.raised = none ∧ r1.state.isError = false ∧
      r0.state.predict seedComp [![0]] = .ok [3] ∧ r1.state.predict seedComp [![0]] = .ok [4] := by
  decide +kernel

/-- The hypotheses of `C54_reproducible_partial` hold for a refit of an estimator without initial rules. -/
example : let r0 := SupState.fit (demoCfg 2 0 1 (-1) 0) seedComp 7 demoData false {}
    r0.raised = none ∧ r0.state.step = 1 ∧ r0.state.predict seedComp [![0]] = .ok [7 / 2] := by
  decide +kernel

/-! ### C55 failed refits -/

/-- C55 (what the code does instead): if `fit` is called with invalid data on a fitted model, it raises `ValueError`, and the model still counts as fitted but predicts zero for every sample.
(Missing: the old predictions are lost, see `C55_refuted`.) -/
theorem C55_invalid_data_partial (cfg : SupCfg K) (c : SupComp K d M) (entropy : Nat) (raw : RawData K d) (cl : Bool) (st0 : SupState K d M)
    (hraw : ¬ (raw.finite = true ∧ raw.X.length = raw.y.length ∧ raw.X ≠ [])) :
    (st0.fit cfg c entropy raw cl).raised = some .valueError ∧ (st0.fit cfg c entropy raw cl).state.isFitted = st0.isFitted ∧
      (st0.fit cfg c entropy raw cl).trace = [] ∧ (st0.fit cfg c entropy raw cl).state.pool = st0.pool ∧
      (st0.isFitted = true → ∀ Xq : List (Point K d), Xq ≠ [] → (st0.fit cfg c entropy raw cl).state.predict c Xq = .ok (Xq.map fun _ => 0)) := by
  have h : raw.check = .error .valueError := by unfold RawData.check; rw [if_neg hraw]
  unfold SupState.fit
  rcases fitWith_trace cfg c (runEval cfg c) entropy raw cl st0 with ⟨_, h1⟩ | ⟨hc, _⟩
  · rw [h1]
    refine ⟨rfl, rfl, rfl, rfl, fun hf Xq hq => ?_⟩
    unfold SupState.predict
    simp [hf, hq, List.map_const']
  · rw [h] at hc; cases hc

/-- C55 is false for the code: a model that predicts 2 predicts 0 after a call of `fit` that raised because of invalid data. -/
theorem C55_refuted :
    let c := demoComp (fun _ _ c => c)
    let r0 := SupState.fit (demoCfg 1 0 1 (-1) 0) c 7 demoData false {}
    let r1 := SupState.fit (demoCfg 1 0 1 (-1) 0) c 7 { demoData with finite := false } false r0.state
    r0.raised = none ∧ r0.state.predict c [![0]] = .ok [2] ∧ r1.raised = some .valueError ∧ r1.state.predict c [![0]] = .ok [0] := by
  decide +kernel

end Suprb
