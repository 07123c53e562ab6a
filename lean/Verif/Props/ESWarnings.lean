import Verif.Model.ESWarnings
import Verif.Props.ES

/-!
# Claim C185: the warning about a low delay is true

The constructor of the evolution strategy warns that with a delay of less than two mutation does not happen and rules do not grow. This file compares the warning with what the
strategy does.
-/

set_option autoImplicit false
set_option linter.unusedSectionVars false

namespace Suprb

open Spec

theorem esInit_delay (operator : ESOperator) (delay nIter : Nat) (m : Mutation) :
    ESWarning.delayTooLow ∈ (esInit operator delay nIter m).1 ↔ delay < 2 := by
  unfold esInit
  dsimp only
  by_cases ha : operator = .amp ∧ ¬ delay < nIter
  · rw [if_pos ha]
    by_cases h : delay < 2 <;> simp [h]
  · rw [if_neg ha]
    by_cases h : delay < 2 <;> by_cases hc : operator = .comma ∧ m = .halfnormIncrease <;> simp [h, hc]

section Generic

variable {R Z S F : Type} [LinearOrder F]

/-- With a delay of zero the strategy fails as soon as there is a valid child, so a returned rule is the initial one. -/
theorem esLoop_delay_zero (P : ESParams R Z S F) (hop : P.operator = .amp) (hd : P.delay = 0) (initial r : R) :
    ∀ (gs : List (List Z × S)) (w : List R), esLoop P gs initial w = .ok r → r = initial := by
  intro gs
  induction gs with
  | nil => intro w h; cases h; rfl
  | cons g gs ih =>
    obtain ⟨zs, s⟩ := g
    intro w h
    have hdq : dequeAppend P.delay w initial = [] := by
      unfold dequeAppend
      rw [hd]
      simp
    unfold esLoop esGen at h
    dsimp only at h
    rw [hdq, hop] at h
    cases hc : zs.mapM (P.child initial) with
    | error e => rw [hc] at h; cases h
    | ok cs =>
      rw [hc] at h
      dsimp only at h
      by_cases hv : (cs.filter P.valid).isEmpty = true
      · rw [if_pos hv] at h
        exact ih [] h
      · rw [if_neg hv] at h
        cases hs : P.select (cs.filter P.valid) s with
        | error e => rw [hs] at h; cases h
        | ok new =>
          rw [hs] at h
          simp [hd] at h

/-- C185 (partial): with operator `&` the warning is true: a strategy made with it returns the initial rule whenever it returns a rule, for all children, selections and random numbers. Missing: the other operators. -/
theorem C185_true_partial (P : ESParams R Z S F) (hop : P.operator = .amp) (nIter : Nat) (m : Mutation)
    (hw : ESWarning.delayTooLow ∈ (esInit P.operator P.delay nIter m).1)
    (gens : List (List Z × S)) (initial r : R) (h : esOptimize P gens initial = .ok r) : r = initial := by
  rw [esInit_delay] at hw
  rcases Nat.lt_or_ge P.delay 1 with h0 | h1
  · exact esLoop_delay_zero P hop (by omega) initial r gens [] h
  · exact C32_delay_one_partial P hop (by omega) gens initial r h

example : ESWarning.delayTooLow ∈ (esInit .amp 1 5 .halfnormIncrease).1 ∧ (esInit .amp 1 5 .halfnormIncrease).2 = none ∧
    esOptimize (R := ℤ) (Z := ℤ) (S := Unit) ⟨.amp, 1, fun _ z => .ok z, fun c => decide (0 ≤ c), id, fun l _ => fittestFirst id l⟩
      [([-4], ()), ([5, 6], ()), ([2, 3], ())] 1 = .ok 1 := by decide +kernel

/-- A generation in which the only child `c` of `c` is `c` again: the strategy stays at `c`, or stops with it, if all rules in the deque are `c` or a less fit one. -/
theorem esLoop_stays (P : ESParams R Z S F) (hop : P.operator ≠ .other) (hd : P.operator = .amp → 1 ≤ P.delay) (initial c : R) (z : Z) (s : S)
    (hz : P.child c z = .ok c) (hv : P.valid c = true) (hfit : P.fitness initial < P.fitness c)
    (hsel : ∀ l, c ∈ l → (∀ e ∈ l, e = c ∨ e = initial) → P.select l s = .ok c) :
    ∀ (n : Nat) (w : List R), (∀ e ∈ w, e = c ∨ e = initial) → esLoop P (List.replicate n ([z], s)) c w = .ok c := by
  intro n
  induction n with
  | zero => intro w _; rfl
  | succ n ih =>
    intro w hw
    have hin : ∀ e ∈ dequeAppend P.delay w c, e = c ∨ e = initial := by
      intro e he
      unfold dequeAppend at he
      rcases List.mem_append.mp (List.mem_of_mem_drop he) with h | h
      · exact hw e h
      · exact Or.inl (List.mem_singleton.mp h)
    have hm : [z].mapM (P.child c) = .ok [c] := by
      simp only [List.mapM_cons, List.mapM_nil, hz]
      rfl
    have hf : [c].filter P.valid = [c] := by simp [hv]
    have h1 : P.select [c] s = .ok c := hsel _ (by simp) (by simp)
    have h2 : P.select ([c] ++ [c]) s = .ok c := hsel _ (by simp) (by simp)
    rw [List.replicate_succ]
    unfold esLoop esGen
    dsimp only
    rw [hm]
    dsimp only
    rw [hf, if_neg (by simp)]
    cases ho : P.operator with
    | plus => dsimp only; rw [h2]; exact ih _ hin
    | comma => dsimp only; rw [h1]; exact ih _ hin
    | other => exact absurd ho hop
    | amp =>
      dsimp only
      rw [h1]
      dsimp only
      have hc : c ∈ dequeAppend P.delay w c := by
        have := hd ho
        unfold dequeAppend
        rw [List.drop_append_of_le_length (by simp; omega)]
        simp
      by_cases hl : (dequeAppend P.delay w c).length = P.delay
      · rw [if_pos hl]
        cases hq : dequeAppend P.delay w c with
        | nil => rw [hq] at hc; cases hc
        | cons e0 t =>
          dsimp only
          rw [hq] at hc hin
          by_cases hall : ((e0 :: t).all fun e => decide (P.fitness e ≤ P.fitness e0)) = true
          · rw [if_pos hall]
            have h3 : P.fitness c ≤ P.fitness e0 := by simpa using List.all_eq_true.mp hall c hc
            rcases hin e0 List.mem_cons_self with h | h
            · rw [h]
            · rw [h] at h3
              exact absurd hfit (not_lt.mpr h3)
          · rw [if_neg hall]
            exact ih _ hin
      · rw [if_neg hl]
        exact ih _ hin

/-- C185 (partial): a strategy made without the warning can change rules: if the initial rule has a valid and fitter child, and this child can be its own child, then it is returned for some random numbers, for every number of generations. With the
operators `+` and `,` this holds for every delay, also with the warning. -/
theorem C185_can_change_partial (P : ESParams R Z S F) (hop : P.operator ≠ .other) (nIter : Nat) (m : Mutation)
    (hw : P.operator = .amp → ESWarning.delayTooLow ∉ (esInit P.operator P.delay nIter m).1)
    (initial c : R) (z z' : Z) (s : S) (hz : P.child initial z = .ok c) (hz' : P.child c z' = .ok c) (hv : P.valid c = true)
    (hfit : P.fitness initial < P.fitness c)
    (hsel : ∀ l, c ∈ l → (∀ e ∈ l, e = c ∨ e = initial) → P.select l s = .ok c) (n : Nat) :
    esOptimize P (([z], s) :: List.replicate n ([z'], s)) initial = .ok c := by
  have hd : P.operator = .amp → 2 ≤ P.delay := fun h => by
    have := hw h
    rw [esInit_delay] at this
    omega
  have stay := fun w hw' => esLoop_stays P hop (fun h => le_trans (by norm_num) (hd h)) initial c z' s hz' hv hfit hsel n w hw'
  have hin : ∀ e ∈ dequeAppend P.delay [] initial, e = c ∨ e = initial := by
    intro e he
    unfold dequeAppend at he
    exact Or.inr (List.mem_singleton.mp (List.mem_of_mem_drop he))
  have hm : [z].mapM (P.child initial) = .ok [c] := by
    simp only [List.mapM_cons, List.mapM_nil, hz]
    rfl
  have hf : [c].filter P.valid = [c] := by simp [hv]
  have h1 : P.select [c] s = .ok c := hsel _ (by simp) (by simp)
  have h2 : P.select ([c] ++ [initial]) s = .ok c := hsel _ (by simp) (by simp)
  unfold esOptimize esLoop esGen
  dsimp only
  rw [hm]
  dsimp only
  rw [hf, if_neg (by simp)]
  cases ho : P.operator with
  | plus => dsimp only; rw [h2]; exact stay _ hin
  | comma => dsimp only; rw [h1]; exact stay _ hin
  | other => exact absurd ho hop
  | amp =>
    dsimp only
    rw [h1]
    dsimp only
    have hl : (dequeAppend P.delay [] initial).length ≠ P.delay := by
      have := hd ho
      unfold dequeAppend
      simp
      omega
    rw [if_neg hl]
    exact stay _ hin

/-- The default selection meets the condition of `C185_can_change_partial`. -/
theorem fittest_selects (f : R → F) (initial c : R) (hfit : f initial < f c) (l : List R) (hc : c ∈ l) (hl : ∀ e ∈ l, e = c ∨ e = initial) :
    fittestFirst f l = .ok c := by
  obtain ⟨r, h1, h2, h3⟩ := fittestFirst_ok f l (List.ne_nil_of_mem hc)
  rcases hl r h2 with h | h
  · rw [h1, h]
  · have := h3 c hc
    rw [h] at this
    exact absurd hfit (not_lt.mpr this)

example (n : Nat) : esOptimize (R := ℤ) (Z := ℤ) (S := Unit) ⟨.amp, 2, fun e z => .ok (e + z), fun c => decide (0 ≤ c), id, fun l _ => fittestFirst id l⟩
      (([3], ()) :: List.replicate n ([0], ())) 1 = .ok 4 :=
  C185_can_change_partial _ (by decide) 5 .halfnormIncrease (fun _ => by decide) 1 4 3 0 () rfl rfl (by decide) (by decide)
    (fun l => fittest_selects id 1 4 (by decide) l) n

end Generic

/-- C185 is false for the other operators: a strategy with operator `+` (or `,`) and delay 1 is made with the warning that rules will not grow, but mutation happens and the rule `[0,1]` grows to `[0,2]`. Data `0,1,2 ↦ 0,2,1`, mean learner, fitness
`-error`. -/
theorem C185_other_operators_refuted :
    let X : List (Point ℚ 1) := [![0], ![1], ![2]]
    let y : List ℚ := [0, 2, 1]
    let run := fun op => ((intervalRule 0 1).fit meanLearner negErr X y).bind fun ρ =>
      (esOptimize (concreteES meanLearner negErr X y op 1 .halfnormIncrease 0 ![(0, 2)]) [([![(0, 1)]], ())] ρ).map fun ρ' => (ρ.bounds 0, ρ'.bounds 0)
    ESWarning.delayTooLow ∈ (esInit .plus 1 1 .halfnormIncrease).1 ∧ (esInit .plus 1 1 .halfnormIncrease).2 = none ∧
      ESWarning.delayTooLow ∈ (esInit .comma 1 1 .halfnormIncrease).1 ∧ (esInit .comma 1 1 .halfnormIncrease).2 = none ∧
      run .plus = .ok ((0, 1), (0, 2)) ∧ run .comma = .ok ((0, 1), (0, 2)) ∧ run .amp = .ok ((0, 1), (0, 1)) := by decide +kernel

end Suprb
