import Verif.Model.Messages
import Verif.Props.Stdout

/-!
# Claim C183: progress messages

What the messages that `fit` prints say about the training.
-/

set_option autoImplicit false
set_option linter.unusedSectionVars false

namespace Suprb

open Spec

variable {K : Type} [Field K] [LinearOrder K] [IsStrictOrderedRing K] {d : Nat} {M : Type}

/-- Specification: the two messages of the iteration with index `k`. -/
def Spec.iterationNotices (nIter nRules k : Nat) : List Notice := [⟨k + 1, nIter, .generating nRules⟩, ⟨k + 1, nIter, .optimizing⟩]

/-- Specification: the message about the initial rules, with the given number. -/
def Spec.initialNotices (number nIter nInitial : Nat) : List Notice := if nInitial = 0 then [] else [⟨number, nIter, .generating nInitial⟩]

/-- Specification: all messages of a complete training after those about missing bounds; the initial rules are announced with the given number. -/
def Spec.progress (number nIter nInitial nRules : Nat) : List Notice := Spec.initialNotices number nIter nInitial ++ (List.range nIter).flatMap (Spec.iterationNotices nIter nRules)

theorem logged_append (t u : List (Event K d M)) : loggedStates (t ++ u) = loggedStates t ++ loggedStates u := List.filterMap_append

theorem discoverStep_keeps (cfg : SupCfg K) (c : SupComp K d M) (entropy : Nat) (X : List (Point K d)) (y : List K) (n : Nat) (s : RunState K d M) :
    (discoverStep cfg c entropy X y n s).1.step = s.step ∧ loggedStates (discoverStep cfg c entropy X y n s).1.trace = loggedStates s.trace := by
  unfold discoverStep
  split
  · exact ⟨rfl, rfl⟩
  split
  · exact ⟨rfl, rfl⟩
  split
  · exact ⟨rfl, rfl⟩
  dsimp only
  split
  · exact ⟨rfl, by rw [logged_append]; simp [loggedStates]⟩
  · exact ⟨rfl, by dsimp only; rw [logged_append]; simp [loggedStates]⟩

theorem composeStep_keeps (cfg : SupCfg K) (c : SupComp K d M) (ev : PoolEval K d M) (entropy : Nat) (s : RunState K d M) :
    loggedStates (composeStep cfg c ev entropy s).1.trace = loggedStates s.trace := by
  unfold composeStep
  split
  · rfl
  dsimp only
  split
  · rw [logged_append]; simp [loggedStates]
  · dsimp only; rw [logged_append]; simp [loggedStates]

theorem loopNotices_outcome (verbose : Int) (cfg : SupCfg K) (c : SupComp K d M) (ev : PoolEval K d M) (entropy : Nat) (X : List (Point K d)) (y : List K) :
    ∀ (ks : List Nat) (s : RunState K d M), (loopNotices verbose cfg c ev entropy X y ks s).1 = fitLoop cfg c ev entropy X y ks s := by
  intro ks
  induction ks with
  | nil => intro s; rfl
  | cons k rest ih =>
    intro s
    unfold loopNotices fitLoop
    cases discoverStep cfg c entropy X y cfg.nRules { s with step := k } with
    | mk s1 x =>
      cases x with
      | some e => rfl
      | none =>
        dsimp only
        cases composeStep cfg c ev entropy s1 with
        | mk s2 x2 =>
          cases x2 with
          | some e => rfl
          | none =>
            dsimp only
            cases s2.comp.elitist with
            | error e => rfl
            | ok o =>
              cases o with
              | none => rfl
              | some el =>
                dsimp only
                split
                · rfl
                · exact ih _

theorem loopNotices_quiet (verbose : Int) (hv : ¬ 4 ≤ verbose) (cfg : SupCfg K) (c : SupComp K d M) (ev : PoolEval K d M) (entropy : Nat) (X : List (Point K d)) (y : List K) :
    ∀ (ks : List Nat) (s : RunState K d M), (loopNotices verbose cfg c ev entropy X y ks s).2 = [] := by
  intro ks
  induction ks with
  | nil => intro s; rfl
  | cons k rest ih =>
    intro s
    have ha : discoverNotices verbose cfg cfg.nRules k = [] := by unfold discoverNotices notify; rw [if_neg hv]; simp
    have hb : ∀ j, notify verbose 4 j cfg.nIter .optimizing = [] := fun j => if_neg hv
    unfold loopNotices
    simp only [ha, hb, List.append_nil, List.nil_append]
    split
    · rfl
    split
    · rfl
    split
    · rfl
    · rfl
    split
    · rfl
    · exact ih _

theorem loopNotices_spec (verbose : Int) (hv : 4 ≤ verbose) (cfg : SupCfg K) (c : SupComp K d M) (ev : PoolEval K d M) (entropy : Nat) (X : List (Point K d)) (y : List K) :
    ∀ (ks : List Nat) (s : RunState K d M), ∃ j m, (loopNotices verbose cfg c ev entropy X y ks s).2 = (ks.flatMap (Spec.iterationNotices cfg.nIter cfg.nRules)).take j ∧
      (loggedStates (loopNotices verbose cfg c ev entropy X y ks s).1.state.trace).length = (loggedStates s.trace).length + m ∧ 2 * m ≤ j ∧ j ≤ 2 * m + 2 ∧ j ≤ 2 * ks.length ∧
      ∀ s', (loopNotices verbose cfg c ev entropy X y ks s).1 = .done s' → j = 2 * m ∧ (cfg.patience ≤ 0 → m = ks.length) := by
  intro ks
  induction ks with
  | nil => intro s; exact ⟨0, 0, rfl, rfl, by omega, by omega, by simp, fun _ _ => ⟨rfl, fun _ => rfl⟩⟩
  | cons k rest ih =>
    intro s
    have hk := discoverStep_keeps cfg c entropy X y cfg.nRules { s with step := k }
    have hb : ∀ j, notify verbose 4 j cfg.nIter .optimizing = [⟨j + 1, cfg.nIter, .optimizing⟩] := fun j => if_pos hv
    unfold loopNotices
    simp only [hb, List.flatMap_cons, Spec.iterationNotices, List.length_cons]
    cases hd : discoverStep cfg c entropy X y cfg.nRules { s with step := k } with
    | mk s1 x =>
      rw [hd] at hk
      obtain ⟨hk1, hk2⟩ := hk
      dsimp only at hk1 hk2
      cases x with
      | some e =>
        dsimp only [Outcome.state]
        by_cases hn : cfg.nRules = 0
        · exact ⟨0, 0, by simp [discoverNotices, hn], by rw [hk2]; rfl, by omega, by omega, by omega, fun s' h => by cases h⟩
        · exact ⟨1, 0, by simp [discoverNotices, hn, notify, hv], by rw [hk2]; rfl, by omega, by omega, by omega, fun s' h => by cases h⟩
      | none =>
        have hn : cfg.nRules ≠ 0 := by
          intro hn
          unfold discoverStep at hd
          rw [if_pos hn] at hd
          cases hd
        have ha : discoverNotices verbose cfg cfg.nRules k = [⟨k + 1, cfg.nIter, .generating cfg.nRules⟩] := by simp [discoverNotices, hn, notify, hv]
        have hc := composeStep_keeps cfg c ev entropy s1
        simp only [ha, hk1]
        cases hd2 : composeStep cfg c ev entropy s1 with
        | mk s2 x2 =>
          rw [hd2] at hc
          dsimp only at hc
          cases x2 with
          | some e => exact ⟨2, 0, by simp, by dsimp only [Outcome.state]; rw [hc, hk2]; rfl, by omega, by omega, by omega, fun s' h => by cases h⟩
          | none =>
            dsimp only
            cases he : s2.comp.elitist with
            | error e => exact ⟨2, 0, by simp, by dsimp only [Outcome.state]; rw [hc, hk2]; rfl, by omega, by omega, by omega, fun s' h => by cases h⟩
            | ok o =>
              cases o with
              | none => exact ⟨2, 0, by simp, by dsimp only [Outcome.state]; rw [hc, hk2]; rfl, by omega, by omega, by omega, fun s' h => by cases h⟩
              | some el =>
                have ht : ∀ (p : List (Rule K d M)) (cs : CompState K), (loggedStates (s2.trace ++ [.composed p cs el])).length = (loggedStates s.trace).length + 1 := by
                  intro p cs
                  rw [logged_append, hc, hk2]
                  simp [loggedStates]
                dsimp only
                split
                · rename_i hstop
                  refine ⟨2, 1, by simp, by dsimp only [Outcome.state]; rw [ht], by omega, by omega, by omega, fun s' _ => ⟨rfl, fun hp => ?_⟩⟩
                  unfold checkEarlyStopping at hstop
                  rw [if_neg (by omega)] at hstop
                  cases hstop
                · obtain ⟨j, m, h1, h2, h3, h4, h5, h6⟩ := ih { s2 with
                    counter := (checkEarlyStopping cfg el.fitnessD s2.counter).1
                    trace := s2.trace ++ [.composed s2.pool s2.comp el] }
                  refine ⟨j + 2, m + 1, ?_, ?_, by omega, by omega, by omega, fun s' h => ?_⟩
                  · dsimp only
                    rw [h1]
                    rfl
                  · dsimp only at h2 ⊢
                    rw [h2, ht]
                    omega
                  · obtain ⟨a, b⟩ := h6 s' h
                    exact ⟨by omega, fun hp => by rw [b hp]⟩

/-- C183 (partial), the training does not depend on the messages. -/
theorem C183_same_partial (verbose : Int) (missing : List String) (cfg : SupCfg K) (c : SupComp K d M) (entropy : Nat) (raw : RawData K d) (doCleanup : Bool) (st0 : SupState K d M) :
    (st0.fitNotices verbose missing cfg c entropy raw doCleanup).1 = st0.fit cfg c entropy raw doCleanup := by
  unfold SupState.fitNotices SupState.fit SupState.fitWith
  cases hr : raw.check with
  | error e => rfl
  | ok q =>
    obtain ⟨X, y⟩ := q
    dsimp only
    have key : (runNotices verbose missing cfg c (runEval cfg c X y) entropy X y st0.step).1 = runFit cfg c (runEval cfg c X y) entropy X y st0.step := by
      unfold runNotices runFit
      dsimp only
      by_cases hn : 0 < cfg.nInitial
      · rw [if_pos hn, if_pos hn]
        cases discoverStep cfg c entropy X y cfg.nInitial { step := st0.step, comp := { archive := if cfg.useArchive then some [] else none } } with
        | mk s1 x =>
          cases x with
          | some e => rfl
          | none => exact loopNotices_outcome ..
      · rw [if_neg hn, if_neg hn]
        exact loopNotices_outcome ..
    rw [← key]
    cases runNotices verbose missing cfg c (runEval cfg c X y) entropy X y st0.step with
    | mk o p => cases o <;> rfl

theorem runNotices_spec (verbose : Int) (missing : List String) (cfg : SupCfg K) (c : SupComp K d M) (ev : PoolEval K d M) (entropy : Nat) (X : List (Point K d)) (y : List K) (step0 : Nat) :
    let r := runNotices verbose missing cfg c ev entropy X y step0
    ∃ j m, r.2 = (if 1 ≤ verbose then missing.map fun key => ⟨step0 + 1, cfg.nIter, .emptyBounds key⟩ else []) ++ (if 4 ≤ verbose then (Spec.progress (step0 + 1) cfg.nIter cfg.nInitial cfg.nRules).take j else []) ∧
      (loggedStates r.1.state.trace).length = m ∧ (Spec.initialNotices (step0 + 1) cfg.nIter cfg.nInitial).length + 2 * m ≤ j ∧ j ≤ (Spec.initialNotices (step0 + 1) cfg.nIter cfg.nInitial).length + 2 * m + 2 ∧
      ∀ s', r.1 = .done s' → j = (Spec.initialNotices (step0 + 1) cfg.nIter cfg.nInitial).length + 2 * m ∧ (cfg.patience ≤ 0 → m = cfg.nIter) := by
  intro r
  have hm : (missing.flatMap fun key => notify verbose 1 step0 cfg.nIter (.emptyBounds key)) = if 1 ≤ verbose then missing.map fun key => ⟨step0 + 1, cfg.nIter, .emptyBounds key⟩ else [] := by
    unfold notify
    split
    · exact List.map_eq_flatMap.symm
    · simp
  by_cases hi : 0 < cfg.nInitial
  · have hin : Spec.initialNotices (step0 + 1) cfg.nIter cfg.nInitial = [⟨step0 + 1, cfg.nIter, .generating cfg.nInitial⟩] := if_neg (by omega)
    have hb : discoverNotices verbose cfg cfg.nInitial step0 = if 4 ≤ verbose then [⟨step0 + 1, cfg.nIter, .generating cfg.nInitial⟩] else [] := by
      unfold discoverNotices notify
      rw [if_neg (by omega)]
    have hk := discoverStep_keeps cfg c entropy X y cfg.nInitial ({ step := step0, comp := { archive := if cfg.useArchive then some [] else none } } : RunState K d M)
    have hr : r = runNotices verbose missing cfg c ev entropy X y step0 := rfl
    unfold runNotices at hr
    dsimp only at hr
    rw [if_pos hi, hm, hb] at hr
    cases hd : discoverStep cfg c entropy X y cfg.nInitial ({ step := step0, comp := { archive := if cfg.useArchive then some [] else none } } : RunState K d M) with
    | mk s1 x =>
      rw [hd] at hk hr
      obtain ⟨_, hk2⟩ := hk
      dsimp only at hk2
      unfold Spec.progress
      rw [hin]
      cases x with
      | some e =>
        dsimp only at hr
        refine ⟨1, 0, ?_, ?_, by simp, by simp, fun s' h => ?_⟩
        · rw [hr]; simp
        · rw [hr]; dsimp only [Outcome.state]; rw [hk2]; rfl
        · rw [hr] at h; cases h
      | none =>
        dsimp only at hr
        by_cases hv : 4 ≤ verbose
        · obtain ⟨j, m, h1, h2, h3, h4, _, h6⟩ := loopNotices_spec verbose hv cfg c ev entropy X y (List.range cfg.nIter) s1
          refine ⟨j + 1, m, ?_, ?_, by simp only [List.length_singleton]; omega, by simp only [List.length_singleton]; omega, fun s' h => ?_⟩
          · rw [hr]
            simp [hv, h1]
          · rw [hr]; dsimp only; rw [h2, hk2]; simp [loggedStates]
          · rw [hr] at h
            obtain ⟨a, b⟩ := h6 s' h
            exact ⟨by simp only [List.length_singleton]; omega, fun hp => by rw [b hp, List.length_range]⟩
        · obtain ⟨j, m, _, h2, h3, h4, _, h6⟩ := loopNotices_spec 4 (le_refl _) cfg c ev entropy X y (List.range cfg.nIter) s1
          have hq := loopNotices_quiet verbose hv cfg c ev entropy X y (List.range cfg.nIter) s1
          rw [loopNotices_outcome] at h2 h6
          refine ⟨j + 1, m, ?_, ?_, by simp only [List.length_singleton]; omega, by simp only [List.length_singleton]; omega, fun s' h => ?_⟩
          · rw [hr]
            simp [hv, hq]
          · rw [hr]; dsimp only; rw [loopNotices_outcome, h2, hk2]; simp [loggedStates]
          · rw [hr] at h
            dsimp only at h
            rw [loopNotices_outcome] at h
            obtain ⟨a, b⟩ := h6 s' h
            exact ⟨by simp only [List.length_singleton]; omega, fun hp => by rw [b hp, List.length_range]⟩
  · have hin : Spec.initialNotices (step0 + 1) cfg.nIter cfg.nInitial = [] := if_pos (by omega)
    have hr : r = runNotices verbose missing cfg c ev entropy X y step0 := rfl
    unfold runNotices at hr
    dsimp only at hr
    rw [if_neg hi, hm] at hr
    unfold Spec.progress
    rw [hin]
    by_cases hv : 4 ≤ verbose
    · obtain ⟨j, m, h1, h2, h3, h4, _, h6⟩ := loopNotices_spec verbose hv cfg c ev entropy X y (List.range cfg.nIter)
        ({ step := step0, comp := { archive := if cfg.useArchive then some [] else none } } : RunState K d M)
      refine ⟨j, m, ?_, ?_, by simp only [List.length_nil]; omega, by simp only [List.length_nil]; omega, fun s' h => ?_⟩
      · rw [hr]
        simp [hv, h1]
      · rw [hr]; dsimp only; rw [h2]; simp [loggedStates]
      · rw [hr] at h
        obtain ⟨a, b⟩ := h6 s' h
        exact ⟨by simp only [List.length_nil]; omega, fun hp => by rw [b hp, List.length_range]⟩
    · obtain ⟨j, m, _, h2, h3, h4, _, h6⟩ := loopNotices_spec 4 (le_refl _) cfg c ev entropy X y (List.range cfg.nIter)
        ({ step := step0, comp := { archive := if cfg.useArchive then some [] else none } } : RunState K d M)
      have hq := loopNotices_quiet verbose hv cfg c ev entropy X y (List.range cfg.nIter)
        ({ step := step0, comp := { archive := if cfg.useArchive then some [] else none } } : RunState K d M)
      rw [loopNotices_outcome] at h2 h6
      refine ⟨j, m, ?_, ?_, by simp only [List.length_nil]; omega, by simp only [List.length_nil]; omega, fun s' h => ?_⟩
      · rw [hr]
        simp [hv, hq]
      · rw [hr]; dsimp only; rw [loopNotices_outcome, h2]; simp [loggedStates]
      · rw [hr] at h
        dsimp only at h
        rw [loopNotices_outcome] at h
        obtain ⟨a, b⟩ := h6 s' h
        exact ⟨by simp only [List.length_nil]; omega, fun hp => by rw [b hp, List.length_range]⟩

/-- C183 (partial): the messages of every training. Invalid data: none. Otherwise there are `m` completed iterations, and the messages are those about missing bounds (from verbosity 1) and the first `j` messages of a complete
training (from verbosity 4): the initial rules, both messages of every completed iteration, and at most the two of the iteration in which the training failed. A training that does not fail has no such rest, and without early stopping it has all
iterations. Missing: the messages before the first iteration carry the number of the last iteration of the previous training. -/
theorem C183_any_partial (verbose : Int) (missing : List String) (cfg : SupCfg K) (c : SupComp K d M) (entropy : Nat) (raw : RawData K d) (doCleanup : Bool) (st0 : SupState K d M) :
    let r := st0.fitNotices verbose missing cfg c entropy raw doCleanup
    (∀ e, raw.check = .error e → r.2 = []) ∧
    (∀ q, raw.check = .ok q → ∃ j, let m := (loggedStates r.1.trace).length
      let i := (Spec.initialNotices (st0.step + 1) cfg.nIter cfg.nInitial).length
      r.2 = (if 1 ≤ verbose then missing.map fun key => ⟨st0.step + 1, cfg.nIter, .emptyBounds key⟩ else []) ++ (if 4 ≤ verbose then (Spec.progress (st0.step + 1) cfg.nIter cfg.nInitial cfg.nRules).take j else []) ∧
        i + 2 * m ≤ j ∧ j ≤ i + 2 * m + 2 ∧ (r.1.raised = none → r.1.state.isError = false → j = i + 2 * m ∧ (cfg.patience ≤ 0 → m = cfg.nIter))) := by
  intro r
  have hr : r = st0.fitNotices verbose missing cfg c entropy raw doCleanup := rfl
  unfold SupState.fitNotices at hr
  refine ⟨fun e he => by rw [he] at hr; rw [hr], fun q hq => ?_⟩
  obtain ⟨X, y⟩ := q
  rw [hq] at hr
  dsimp only at hr
  obtain ⟨j, m, h1, h2, h3, h4, h5⟩ := runNotices_spec verbose missing cfg c (runEval cfg c X y) entropy X y st0.step
  cases ho : runNotices verbose missing cfg c (runEval cfg c X y) entropy X y st0.step with
  | mk o p =>
    rw [ho] at hr h1 h2 h5
    refine ⟨j, ?_⟩
    cases o with
    | caught s =>
      dsimp only [Outcome.state] at hr h1 h2
      rw [hr]
      refine ⟨h1, by dsimp only; omega, by dsimp only; omega, fun _ h => by cases h⟩
    | raised s e =>
      dsimp only [Outcome.state] at hr h1 h2
      rw [hr]
      refine ⟨h1, by dsimp only; omega, by dsimp only; omega, fun h => by cases h⟩
    | done s =>
      dsimp only [Outcome.state] at hr h1 h2
      have ht : r.1.trace = s.trace := by
        rw [hr]
        dsimp only [finishFit]
        cases s.comp.elitist with
        | error e => rfl
        | ok el =>
          cases el with
          | none => rfl
          | some el =>
            dsimp only
            cases el.clone with
            | error e => rfl
            | ok b =>
              dsimp only
              split
              · split <;> rfl
              · rfl
      obtain ⟨a, b⟩ := h5 s rfl
      refine ⟨by rw [hr]; exact h1, by rw [ht]; omega, by rw [ht]; omega, fun _ _ => ⟨by rw [ht]; omega, fun hp => by rw [ht, h2]; exact b hp⟩⟩

/-- C183 (partial): in the first training of an estimator the messages before the first iteration carry the number 1. -/
theorem C183_messages_partial (verbose : Int) (missing : List String) (cfg : SupCfg K) (c : SupComp K d M) (entropy : Nat) (raw : RawData K d) (doCleanup : Bool) (st0 : SupState K d M) (hfirst : st0.step = 0) :
    let r := st0.fitNotices verbose missing cfg c entropy raw doCleanup
    (∀ e, raw.check = .error e → r.2 = []) ∧
    (∀ q, raw.check = .ok q → ∃ j, let m := (loggedStates r.1.trace).length
      let i := (Spec.initialNotices 1 cfg.nIter cfg.nInitial).length
      r.2 = (if 1 ≤ verbose then missing.map fun key => ⟨1, cfg.nIter, .emptyBounds key⟩ else []) ++ (if 4 ≤ verbose then (Spec.progress 1 cfg.nIter cfg.nInitial cfg.nRules).take j else []) ∧
        i + 2 * m ≤ j ∧ j ≤ i + 2 * m + 2 ∧ (r.1.raised = none → r.1.state.isError = false → j = i + 2 * m ∧ (cfg.patience ≤ 0 → m = cfg.nIter))) := by
  have h := C183_any_partial verbose missing cfg c entropy raw doCleanup st0
  rw [hfirst] at h
  exact h

theorem iterationNotices_sorted (nIter nRules : Nat) : ∀ ks : List Nat, ks.Pairwise (· ≤ ·) → (ks.flatMap (Spec.iterationNotices nIter nRules)).Pairwise (fun a b => a.number ≤ b.number) := by
  intro ks
  induction ks with
  | nil => intro _; exact .nil
  | cons k rest ih =>
    intro h
    obtain ⟨h1, h2⟩ := List.pairwise_cons.mp h
    have hr : ∀ n ∈ rest.flatMap (Spec.iterationNotices nIter nRules), k + 1 ≤ n.number := by
      intro n hn
      obtain ⟨l, hl, hn⟩ := List.mem_flatMap.mp hn
      have := h1 l hl
      simp only [Spec.iterationNotices, List.mem_cons, List.not_mem_nil, or_false] at hn
      rcases hn with rfl | rfl <;> simpa using this
    show List.Pairwise _ (_ :: _ :: _)
    refine .cons ?_ (.cons hr (ih h2))
    intro n hn
    rcases List.mem_cons.mp hn with rfl | hn
    · exact le_refl _
    · exact hr n hn

/-- C183 (partial): in the first training the numbers never decrease, begin with 1 and do not exceed `n_iter` (if there is at least one iteration). -/
theorem C183_ordered_partial (verbose : Int) (missing : List String) (cfg : SupCfg K) (c : SupComp K d M) (entropy : Nat) (raw : RawData K d) (doCleanup : Bool) (st0 : SupState K d M) (hfirst : st0.step = 0) :
    let r := st0.fitNotices verbose missing cfg c entropy raw doCleanup
    r.2.Pairwise (fun a b => a.number ≤ b.number) ∧ ∀ n ∈ r.2, 1 ≤ n.number ∧ (0 < cfg.nIter → n.number ≤ cfg.nIter) ∧ n.total = cfg.nIter := by
  intro r
  obtain ⟨he, ho⟩ := C183_messages_partial verbose missing cfg c entropy raw doCleanup st0 hfirst
  cases hq : raw.check with
  | error e =>
    have : r.2 = [] := he e hq
    rw [this]
    exact ⟨.nil, fun n hn => by cases hn⟩
  | ok q =>
    obtain ⟨j, h1, _⟩ := ho q hq
    have h1 : r.2 = _ := h1
    have hA : ∀ n ∈ (if 1 ≤ verbose then missing.map fun key => (⟨1, cfg.nIter, .emptyBounds key⟩ : Notice) else []), n.number = 1 ∧ n.total = cfg.nIter := by
      intro n hn
      split at hn
      · obtain ⟨key, _, rfl⟩ := List.mem_map.mp hn
        exact ⟨rfl, rfl⟩
      · cases hn
    have hP : ∀ n ∈ Spec.progress 1 cfg.nIter cfg.nInitial cfg.nRules, 1 ≤ n.number ∧ (0 < cfg.nIter → n.number ≤ cfg.nIter) ∧ n.total = cfg.nIter := by
      intro n hn
      rcases List.mem_append.mp hn with hn | hn
      · unfold Spec.initialNotices at hn
        split at hn
        · cases hn
        · rw [List.mem_singleton] at hn
          subst hn
          exact ⟨le_refl _, fun h => h, rfl⟩
      · obtain ⟨k, hk, hn⟩ := List.mem_flatMap.mp hn
        have hk := List.mem_range.mp hk
        simp only [Spec.iterationNotices, List.mem_cons, List.not_mem_nil, or_false] at hn
        rcases hn with rfl | rfl <;> exact ⟨Nat.le_add_left _ _, fun _ => hk, rfl⟩
    have hS : (Spec.progress 1 cfg.nIter cfg.nInitial cfg.nRules).Pairwise (fun a b => a.number ≤ b.number) := by
      refine List.pairwise_append.mpr ⟨?_, iterationNotices_sorted _ _ _ (List.pairwise_lt_range.imp le_of_lt), fun a ha b hb => ?_⟩
      · unfold Spec.initialNotices
        split
        · exact .nil
        · exact List.pairwise_singleton _ _
      · have h2 := (hP b (List.mem_append.mpr (Or.inr hb))).1
        unfold Spec.initialNotices at ha
        split at ha
        · cases ha
        · rw [List.mem_singleton] at ha
          subst ha
          exact h2
    have hB : ∀ n ∈ (if 4 ≤ verbose then (Spec.progress 1 cfg.nIter cfg.nInitial cfg.nRules).take j else []), n ∈ Spec.progress 1 cfg.nIter cfg.nInitial cfg.nRules := by
      intro n hn
      split at hn
      · exact List.mem_of_mem_take hn
      · cases hn
    rw [h1]
    refine ⟨List.pairwise_append.mpr ⟨?_, ?_, fun a ha b hb => ?_⟩, fun n hn => ?_⟩
    · exact List.Pairwise.imp_of_mem (R := fun _ _ => True) (fun ha hb _ => by rw [(hA _ ha).1, (hA _ hb).1]) (List.pairwise_of_forall fun _ _ => trivial)
    · split
      · exact hS.sublist (List.take_sublist _ _)
      · exact .nil
    · rw [(hA a ha).1]
      exact (hP b (hB b hb)).1
    · rcases List.mem_append.mp hn with hn | hn
      · obtain ⟨a, b⟩ := hA n hn
        exact ⟨by rw [a], fun h => by rw [a]; exact h, b⟩
      · exact hP n (hB n hn)

theorem loopNotices_last (verbose : Int) (hv : 4 ≤ verbose) (cfg : SupCfg K) (hn : 0 < cfg.nRules) (c : SupComp K d M) (ev : PoolEval K d M) (entropy : Nat) (X : List (Point K d)) (y : List K) :
    ∀ (l a : Nat) (s s' : RunState K d M), (loopNotices verbose cfg c ev entropy X y (List.range' a l) s).1 = .caught s' →
      ∃ m n, (loggedStates s'.trace).length = (loggedStates s.trace).length + m ∧ (loopNotices verbose cfg c ev entropy X y (List.range' a l) s).2.getLast? = some n ∧ n.number = a + m + 1 := by
  intro l
  induction l with
  | zero => intro a s s' h; cases h
  | succ l ih =>
    intro a s s'
    have hk := discoverStep_keeps cfg c entropy X y cfg.nRules { s with step := a }
    have hb : ∀ j, notify verbose 4 j cfg.nIter .optimizing = [⟨j + 1, cfg.nIter, .optimizing⟩] := fun j => if_pos hv
    have ha : discoverNotices verbose cfg cfg.nRules a = [⟨a + 1, cfg.nIter, .generating cfg.nRules⟩] := by
      unfold discoverNotices notify
      rw [if_neg (by omega), if_pos hv]
    rw [List.range'_succ]
    unfold loopNotices
    simp only [hb, ha]
    cases hd : discoverStep cfg c entropy X y cfg.nRules { s with step := a } with
    | mk s1 x =>
      rw [hd] at hk
      obtain ⟨hk1, hk2⟩ := hk
      dsimp only at hk1 hk2
      cases x with
      | some e =>
        intro h
        injection h with h
        subst h
        exact ⟨0, _, by rw [hk2]; rfl, rfl, rfl⟩
      | none =>
        have hc := composeStep_keeps cfg c ev entropy s1
        simp only [hk1]
        cases hd2 : composeStep cfg c ev entropy s1 with
        | mk s2 x2 =>
          rw [hd2] at hc
          dsimp only at hc
          cases x2 with
          | some e =>
            intro h
            injection h with h
            subst h
            exact ⟨0, _, by rw [hc, hk2]; rfl, rfl, rfl⟩
          | none =>
            dsimp only
            cases he : s2.comp.elitist with
            | error e => intro h; cases h
            | ok o =>
              cases o with
              | none => intro h; cases h
              | some el =>
                have ht : ∀ (p : List (Rule K d M)) (cs : CompState K), (loggedStates (s2.trace ++ [.composed p cs el])).length = (loggedStates s.trace).length + 1 := by
                  intro p cs
                  rw [logged_append, hc, hk2]
                  simp [loggedStates]
                dsimp only
                split
                · intro h; cases h
                · intro h
                  obtain ⟨m, n, h1, h2, h3⟩ := ih (a + 1) _ s' h
                  dsimp only at h1
                  rw [ht] at h1
                  refine ⟨m + 1, n, by omega, ?_, by omega⟩
                  dsimp only
                  rw [List.getLast?_append, h2]
                  rfl

/-- C183 (partial): from verbosity 4, if the first training ends with an error (reported by a warning, not raised), the last message has the number of the iteration in which it happened, the one after the completed iterations. Missing: settings with
`n_rules=0`, with which there is no message before the failure, and exceptions that escape. -/
theorem C183_failure_partial (verbose : Int) (hv : 4 ≤ verbose) (missing : List String) (cfg : SupCfg K) (hn : 0 < cfg.nRules) (c : SupComp K d M) (entropy : Nat) (raw : RawData K d) (doCleanup : Bool)
    (st0 : SupState K d M) (hfirst : st0.step = 0) :
    let r := st0.fitNotices verbose missing cfg c entropy raw doCleanup
    r.1.state.isError = true → ∃ n, r.2.getLast? = some n ∧ n.number = (loggedStates r.1.trace).length + 1 := by
  intro r
  have hr : r = st0.fitNotices verbose missing cfg c entropy raw doCleanup := rfl
  unfold SupState.fitNotices at hr
  cases hq : raw.check with
  | error e =>
    rw [hq] at hr
    rw [hr]
    intro h
    cases h
  | ok q =>
    obtain ⟨X, y⟩ := q
    rw [hq, hfirst] at hr
    dsimp only at hr
    cases ho : runNotices verbose missing cfg c (runEval cfg c X y) entropy X y 0 with
    | mk o p =>
      rw [ho] at hr
      cases o with
      | raised s e =>
        rw [hr]
        intro h
        cases h
      | done s =>
        rw [hr]
        dsimp only [finishFit]
        cases s.comp.elitist with
        | error e => intro h; cases h
        | ok el =>
          cases el with
          | none => intro h; cases h
          | some el =>
            dsimp only
            cases el.clone with
            | error e => intro h; cases h
            | ok b =>
              dsimp only
              split
              · split <;> (intro h; cases h)
              · intro h; cases h
      | caught s =>
        intro _
        rw [hr]
        dsimp only
        unfold runNotices at ho
        dsimp only at ho
        by_cases hi : 0 < cfg.nInitial
        · have hb : discoverNotices verbose cfg cfg.nInitial 0 = [⟨1, cfg.nIter, .generating cfg.nInitial⟩] := by
            unfold discoverNotices notify
            rw [if_neg (by omega), if_pos hv]
          have hk := discoverStep_keeps cfg c entropy X y cfg.nInitial ({ step := 0, comp := { archive := if cfg.useArchive then some [] else none } } : RunState K d M)
          rw [if_pos hi, hb] at ho
          cases hd : discoverStep cfg c entropy X y cfg.nInitial ({ step := 0, comp := { archive := if cfg.useArchive then some [] else none } } : RunState K d M) with
          | mk s1 x =>
            rw [hd] at hk ho
            obtain ⟨_, hk2⟩ := hk
            dsimp only at hk2
            cases x with
            | some e =>
              injection ho with o1 o2
              injection o1 with o1
              subst o1 o2
              refine ⟨_, List.getLast?_concat, ?_⟩
              rw [hk2]
              rfl
            | none =>
              injection ho with o1 o2
              rw [List.range_eq_range'] at o1 o2
              obtain ⟨m, n, h1, h2, h3⟩ := loopNotices_last verbose hv cfg hn c _ entropy X y cfg.nIter 0 s1 s o1
              refine ⟨n, ?_, ?_⟩
              · rw [← o2, List.getLast?_append, h2]
                rfl
              · rw [h1, hk2, h3]
                simp [loggedStates]
        · rw [if_neg hi] at ho
          injection ho with o1 o2
          rw [List.range_eq_range'] at o1 o2
          obtain ⟨m, n, h1, h2, h3⟩ := loopNotices_last verbose hv cfg hn c _ entropy X y cfg.nIter 0 _ s o1
          refine ⟨n, ?_, ?_⟩
          · rw [← o2, List.getLast?_append, h2]
            rfl
          · rw [h1, h3]
            simp [loggedStates]

/-- An instance of C183: two iterations with initial rules. -/
example :
    let r := SupState.fitNotices 4 ["init__bounds"] (demoCfg 2 3 2 (-1) 0) (demoComp fun _ _ c => c) 7 demoData false {}
    r.2 = ⟨1, 2, .emptyBounds "init__bounds"⟩ :: Spec.progress 1 2 3 2 ∧ r.1.raised = none ∧ r.1.state.isError = false ∧ (loggedStates r.1.trace).length = 2 ∧ Spec.progress 1 2 3 2 =
      [⟨1, 2, .generating 3⟩, ⟨1, 2, .generating 2⟩, ⟨1, 2, .optimizing⟩, ⟨2, 2, .generating 2⟩, ⟨2, 2, .optimizing⟩] := by decide +kernel

/-- The components of the example, with a rule discovery that fails in the second iteration. -/
def failingComp : SupComp ℚ 1 ℚ :=
  { demoComp fun _ _ c => c with
    discover := fun seed history el pool X y n => if 2 < history.length then .error .valueError else (demoComp fun _ _ c => c).discover seed history el pool X y n }

/-- An instance of `C183_failure_partial`: one iteration is complete, the failure happens in the second. -/
example :
    let r := SupState.fitNotices 4 [] (demoCfg 3 3 2 (-1) 0) failingComp 7 demoData false {}
    r.1.state.isError = true ∧ (loggedStates r.1.trace).length = 1 ∧ r.2.getLast? = some ⟨2, 3, .generating 2⟩ := by decide +kernel

/-- C183 is false for `n_rules=0`: the training ends with an error in its first iteration and there is no message. -/
theorem C183_silent_refuted :
    let r := SupState.fitNotices 4 [] (demoCfg 2 0 0 (-1) 0) (demoComp fun _ _ c => c) 7 demoData false {}
    r.1.raised = none ∧ r.1.state.isError = true ∧ r.2 = [] := by decide +kernel

/-- C183 is false for an estimator that is trained again: the same training, once more, announces the initial rules and the missing bounds with the number of the last iteration, then begins with the first one. -/
theorem C183_again_refuted :
    let cfg := demoCfg 2 3 2 (-1) 0
    let r := SupState.fitNotices 4 ["init__bounds"] cfg (demoComp fun _ _ c => c) 7 demoData false {}
    let r' := r.1.state.fitNotices 4 ["init__bounds"] cfg (demoComp fun _ _ c => c) 7 demoData false
    r.1.raised = none ∧ r'.1.raised = none ∧ r'.1.state.isError = false ∧ r.2.map (·.number) = [1, 1, 1, 1, 2, 2] ∧ r'.2.map (·.number) = [2, 2, 1, 1, 2, 2] := by decide +kernel

end Suprb
