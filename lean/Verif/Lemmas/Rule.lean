import Verif.Model.Rule
import Verif.Lemmas.Matching

/-! Helper lemmas about boolean masks and `Rule.fit`. -/

set_option autoImplicit false
set_option linter.unusedSectionVars false

namespace Suprb

open Spec

theorem compress_map_self {α : Type} (p : α → Bool) (l : List α) : compress l (l.map p) = l.filter p := by
  induction l with
  | nil => rfl
  | cons a as ih =>
    simp only [List.map_cons, compress, List.filter_cons, ih]

theorem compress_zip {α β : Type} (p : α → Bool) (l : List α) (y : List β) (h : y.length = l.length) :
    compress y (l.map p) = ((l.zip y).filter (fun q => p q.1)).map Prod.snd := by
  induction l generalizing y with
  | nil => cases y <;> simp_all [compress]
  | cons a as ih =>
    cases y with
    | nil => simp at h
    | cons b bs =>
      simp only [List.map_cons, compress, List.zip_cons_cons, List.filter_cons]
      rw [ih bs (by simpa using h)]
      split_ifs <;> simp

theorem filter_zip_fst {α β : Type} (p : α → Bool) (l : List α) (y : List β) (h : y.length = l.length) :
    l.filter p = ((l.zip y).filter (fun q => p q.1)).map Prod.fst := by
  induction l generalizing y with
  | nil => simp
  | cons a as ih =>
    cases y with
    | nil => simp at h
    | cons b bs =>
      simp only [List.zip_cons_cons, List.filter_cons]
      rw [ih bs (by simpa using h)]
      split_ifs <;> simp

theorem length_compress {α : Type} (l : List α) (ms : List Bool) (h : l.length = ms.length) :
    (compress l ms).length = ms.count true := by
  induction l generalizing ms with
  | nil => cases ms <;> simp_all [compress]
  | cons a as ih =>
    cases ms with
    | nil => simp at h
    | cons b bs =>
      cases b <;> simp [compress, ih bs (by simpa using h)]

theorem compress_map {α β : Type} (f : α → β) (l : List α) (ms : List Bool) :
    (compress l ms).map f = compress (l.map f) ms := by
  induction l generalizing ms with
  | nil => cases ms <;> rfl
  | cons a as ih =>
    cases ms with
    | nil => rfl
    | cons b bs => cases b <;> simp [compress, ih]

theorem mem_of_mem_compress {α : Type} {l : List α} {ms : List Bool} {a : α} (h : a ∈ compress l ms) : a ∈ l := by
  induction l generalizing ms with
  | nil => cases ms <;> simp [compress] at h
  | cons b bs ih =>
    cases ms with
    | nil => simp [compress] at h
    | cons c cs =>
      cases c
      · exact List.mem_cons_of_mem _ (ih (by simpa [compress] using h))
      · simp only [compress, if_true, List.mem_cons] at h
        rcases h with h | h
        · exact h ▸ List.mem_cons_self ..
        · exact List.mem_cons_of_mem _ (ih h)

variable {K : Type} [Field K] [LinearOrder K] {d : Nat} {M : Type}

theorem Rule.length_matchRows (ρ : Rule K d M) (X : List (Point K d)) : (ρ.matchRows X).length = X.length := by
  simp [Rule.matchRows]

theorem npEqAll_same {a b : List Bool} (h : a.length = b.length) : npEqAll a b = .ok (a == b) := by
  unfold npEqAll; rw [if_pos h]

theorem Rule.fit_unmatched (L : Learner K d M) (ff : RuleFitness K d) (X : List (Point K d)) (y : List K) (ρ : Rule K d M)
    (h : (ρ.matchRows X).any id = false) :
    ρ.fit L ff X y = .ok { ρ with
      st := some { isFitted := false, error := ⊤, fitness := ⊥, experience := 0, pred := [], matchSet := ρ.matchRows X } } := by
  unfold Rule.fit; exact if_pos h

theorem Rule.fit_fresh (L : Learner K d M) (ff : RuleFitness K d) (X : List (Point K d)) (y : List K) (ρ : Rule K d M)
    (h : (ρ.matchRows X).any id ≠ false) (hst : ρ.st = none) :
    ρ.fit L ff X y = ρ.refit L ff X y (ρ.matchRows X) := by
  unfold Rule.fit; dsimp only; rw [if_neg h, hst]

theorem Rule.fit_again (L : Learner K d M) (ff : RuleFitness K d) (X : List (Point K d)) (y : List K) (ρ : Rule K d M)
    (h : (ρ.matchRows X).any id ≠ false) (s : RuleState K) (hst : ρ.st = some s) :
    ρ.fit L ff X y = match npEqAll s.matchSet (ρ.matchRows X) with
      | .error e => .error e
      | .ok true => .ok { ρ with st := some { s with isFitted := true } }
      | .ok false => ρ.refit L ff X y (ρ.matchRows X) := by
  unfold Rule.fit; dsimp only; rw [if_neg h, hst]; rfl

/-- Fields that describe what a rule is, not what it was fitted on. -/
def Rule.SameShape (ρ ρ' : Rule K d M) : Prop :=
  ρ'.kind = ρ.kind ∧ ρ'.bounds = ρ.bounds ∧ ρ'.inputSpace = ρ.inputSpace

end Suprb
