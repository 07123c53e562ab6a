import Verif.Model.Swarm
import Verif.Lemmas.Prog
import Mathlib.Algebra.Order.BigOperators.Group.List
import Mathlib.Tactic.Linarith
import Mathlib.Tactic.NormNum

/-!
# Claim C146: onlooker bees prefer better food sources
-/

set_option autoImplicit false
set_option linter.unusedSectionVars false

namespace Suprb

variable {K : Type} [Field K] [LinearOrder K] [IsStrictOrderedRing K]

/-- Probabilities of drawing the items of a list that prefer items with larger values. -/
structure Spec.Prefers {α : Type} (value : α → K) (l : List α) (w : List K) : Prop where
  length : w.length = l.length
  nonneg : ∀ x ∈ w, 0 ≤ x
  total : w.sum = 1
  prefers : ∀ (i j : Nat) (a b : α) (v v' : K), l[i]? = some a → l[j]? = some b → value a < value b → w[i]? = some v → w[j]? = some v' → v < v'

theorem onlooker_sum_div {α : Type} (f : α → K) (c : K) (l : List α) : (l.map fun a => f a / c).sum = (l.map f).sum / c := by
  induction l with
  | nil => simp
  | cons a as ih => rw [List.map_cons, List.sum_cons, ih, List.map_cons, List.sum_cons, add_div]

theorem abcWeights_get (sources : List (Food K)) (w : List K) (h : abcWeights sources = .ok w) :
    w = sources.map (fun f => f.sol.fitnessD / (sources.map fun f => f.sol.fitnessD).sum) ∧ (sources.map fun f => f.sol.fitnessD).sum ≠ 0 ∧ ∀ x ∈ w, 0 ≤ x := by
  unfold abcWeights at h
  dsimp only at h
  by_cases h0 : (sources.map fun f => f.sol.fitnessD).sum = 0
  · rw [if_pos h0] at h; cases h
  · rw [if_neg h0] at h
    split at h
    · cases h
    · rename_i hany
      injection h with h
      refine ⟨?_, h0, fun x hx => ?_⟩
      · rw [← h, List.map_map]; rfl
      · rw [← h] at hx
        obtain ⟨y, hy, rfl⟩ := List.mem_map.mp hx
        by_contra hneg
        exact hany (List.any_eq_true.mpr ⟨y, hy, decide_eq_true (not_le.mp hneg)⟩)

/-- C146, if no fitness is negative and not all are zero. Missing: all other cases, in which the claim is wrong, see `C146_zero_refuted`, `C146_mixed_refuted` and `C146_negative_refuted`. -/
theorem C146_partial (sources : List (Food K)) (hpos : ∀ f ∈ sources, 0 ≤ f.sol.fitnessD) (hsome : ∃ f ∈ sources, 0 < f.sol.fitnessD) :
    ∃ w, abcWeights sources = .ok w ∧ Spec.Prefers (fun f : Food K => f.sol.fitnessD) sources w := by
  have hnn : ∀ x ∈ sources.map fun f => f.sol.fitnessD, 0 ≤ x := fun x hx => by
    obtain ⟨f, hf, rfl⟩ := List.mem_map.mp hx
    exact hpos f hf
  have hS : 0 < (sources.map fun f => f.sol.fitnessD).sum := by
    obtain ⟨f, hf, h⟩ := hsome
    exact h.trans_le (List.single_le_sum hnn _ (List.mem_map_of_mem hf))
  have hok : abcWeights sources = .ok ((sources.map fun f => f.sol.fitnessD).map fun x => x / (sources.map fun f => f.sol.fitnessD).sum) := by
    unfold abcWeights
    dsimp only
    rw [if_neg hS.ne', if_neg]
    intro hany
    obtain ⟨x, hx, hlt⟩ := List.any_eq_true.mp hany
    exact absurd (of_decide_eq_true hlt) (not_lt.mpr (div_nonneg (hnn x hx) hS.le))
  obtain ⟨e, h0, hw⟩ := abcWeights_get sources _ hok
  refine ⟨_, hok, ⟨by simp, hw, ?_, ?_⟩⟩
  · rw [e, onlooker_sum_div, div_self h0]
  · intro i j a b v v' hi hj hlt hv hv'
    rw [e, List.getElem?_map, hi] at hv
    rw [e, List.getElem?_map, hj] at hv'
    rw [← Option.some.inj hv, ← Option.some.inj hv']
    exact div_lt_div_of_pos_right hlt hS

/-- C146 is violated if the fitness values add up to zero, in particular if all are zero: drawing fails. -/
theorem C146_zero_refuted (sources : List (Food K)) (h : (sources.map fun f => f.sol.fitnessD).sum = 0) : abcWeights sources = .error .valueError := by
  unfold abcWeights
  dsimp only
  rw [if_pos h]

/-- C146 is violated if there are fitness values above and below zero: drawing fails. -/
theorem C146_mixed_refuted (sources : List (Food K)) (h1 : ∃ f ∈ sources, 0 < f.sol.fitnessD) (h2 : ∃ f ∈ sources, f.sol.fitnessD < 0) : abcWeights sources = .error .valueError := by
  unfold abcWeights
  dsimp only
  by_cases h0 : (sources.map fun f => f.sol.fitnessD).sum = 0
  · rw [if_pos h0]
  · rw [if_neg h0, if_pos]
    refine List.any_eq_true.mpr ?_
    obtain ⟨f, hf, hfp⟩ := h1
    obtain ⟨g, hg, hgn⟩ := h2
    rcases lt_or_gt_of_ne h0 with hneg | hpos
    · exact ⟨_, List.mem_map_of_mem hf, decide_eq_true (div_neg_of_pos_of_neg hfp hneg)⟩
    · exact ⟨_, List.mem_map_of_mem hg, decide_eq_true (div_neg_of_neg_of_pos hgn hpos)⟩

/-- C146 is violated if all fitness values are negative: the probabilities prefer the worse food sources. -/
theorem C146_negative_refuted (sources : List (Food K)) (hne : sources ≠ []) (hneg : ∀ f ∈ sources, f.sol.fitnessD < 0) :
    ∃ w, abcWeights sources = .ok w ∧ Spec.Prefers (fun f : Food K => - f.sol.fitnessD) sources w := by
  have hsum : ∀ l : List (Food K), (∀ f ∈ l, f.sol.fitnessD < 0) → (l.map fun f => f.sol.fitnessD).sum ≤ 0 := by
    intro l hl
    induction l with
    | nil => simp
    | cons a as ih =>
      rw [List.map_cons, List.sum_cons]
      have := ih fun f hf => hl f (List.mem_cons_of_mem _ hf)
      have := hl a List.mem_cons_self
      linarith
  have hS : (sources.map fun f => f.sol.fitnessD).sum < 0 := by
    cases sources with
    | nil => exact absurd rfl hne
    | cons a as =>
      rw [List.map_cons, List.sum_cons]
      have := hsum as fun f hf => hneg f (List.mem_cons_of_mem _ hf)
      have := hneg a List.mem_cons_self
      linarith
  have hok : abcWeights sources = .ok ((sources.map fun f => f.sol.fitnessD).map fun x => x / (sources.map fun f => f.sol.fitnessD).sum) := by
    unfold abcWeights
    dsimp only
    rw [if_neg hS.ne, if_neg]
    intro hany
    obtain ⟨x, hx, hlt⟩ := List.any_eq_true.mp hany
    obtain ⟨f, hf, rfl⟩ := List.mem_map.mp hx
    exact absurd (of_decide_eq_true hlt) (not_lt.mpr (div_nonneg_of_nonpos (hneg f hf).le hS.le))
  obtain ⟨e, h0, hw⟩ := abcWeights_get sources _ hok
  refine ⟨_, hok, ⟨by simp, hw, ?_, ?_⟩⟩
  · rw [e, onlooker_sum_div, div_self h0]
  · intro i j a b v v' hi hj hlt hv hv'
    rw [e, List.getElem?_map, hi] at hv
    rw [e, List.getElem?_map, hj] at hv'
    rw [← Option.some.inj hv, ← Option.some.inj hv']
    exact div_lt_div_of_neg_of_lt hS (by linarith)

/-- A step of the bee colony ends with the same failure: there are fitness values above and below zero after the employed bees. -/
theorem C146_step_refuted (sig : K → K) (init : InitOp K) (n limit : Nat) (sources : List (Food K)) (d : ABCDraw K) (ev : Eval K) (new : List (Indiv K)) (hne : sources ≠ [])
    (h : (abcCandidates sig sources d.others1 d.food1).run ev = .ok new) (h1 : ∃ f ∈ greedyUpdate new sources, 0 < f.sol.fitnessD)
    (h2 : ∃ f ∈ greedyUpdate new sources, f.sol.fitnessD < 0) : (abcStep sig init n limit sources d).run ev = .error .valueError := by
  unfold abcStep
  rw [if_neg fun hh => hne hh.1, Prog.run_bind_ok h]
  dsimp only
  rw [C146_mixed_refuted _ h1 h2]
  rfl

/-- Three food sources. -/
def demoFood (fs : List ℚ) : List (Food ℚ) := fs.map fun f => ⟨⟨[true], some ⟨1, 1, 1, f⟩⟩, 0⟩

example : abcWeights (demoFood [10, 30, 60]) = .ok [1 / 10, 3 / 10, 6 / 10] := by decide +kernel

example : ∃ w, abcWeights (demoFood [10, 30, 0]) = .ok w ∧ Spec.Prefers (fun f : Food ℚ => f.sol.fitnessD) (demoFood [10, 30, 0]) w :=
  C146_partial _ (by decide +kernel) (by decide +kernel)

/-- The worst of the three is drawn most. -/
example : abcWeights (demoFood [-10, -30, -60]) = .ok [1 / 10, 3 / 10, 6 / 10] := by decide +kernel

example : abcWeights (demoFood [-10, 30, 60]) = .error .valueError := C146_mixed_refuted _ (by decide +kernel) (by decide +kernel)

/-- The evaluation of the example: only both rules together have a positive fitness. -/
def bothEval : Eval ℚ := fun g => .ok ⟨2, 2, g.count true, if g = [true, true] then 3 else -2⟩

/-- The first bee takes over the first rule of the second and finds a solution with positive fitness, the second bee stays with a negative one. -/
example : (abcStep id .zero 2 5 [⟨⟨[false, true], some ⟨2, 2, 1, -2⟩⟩, 0⟩, ⟨⟨[true, false], some ⟨2, 2, 1, -2⟩⟩, 0⟩]
    ⟨[1, 1], fun _ => .flips [0], [0, 0], fun _ => .flips [0], fun _ _ => (0 : ℚ)⟩).run bothEval = .error .valueError :=
  C146_step_refuted id .zero 2 5 _ _ bothEval [⟨[true, true], some ⟨2, 2, 2, 3⟩⟩, ⟨[true, false], some ⟨2, 2, 1, -2⟩⟩] (by simp) (by rfl) (by decide +kernel) (by decide +kernel)

end Suprb
