import Verif.Model.Solution
import Verif.Lemmas.Rule

/-! Helper lemmas: the batch computation of the mixing model, sample by sample. -/

set_option autoImplicit false
set_option linter.unusedSectionVars false

namespace Suprb

open Spec

variable {K : Type} [Field K] [LinearOrder K] {d : Nat} {M : Type}

theorem scatter_compress {α : Type} (p : α → Bool) (f : α → K) (l : List α) :
    scatter (l.map p) ((l.filter p).map f) = .ok (l.map fun x => if p x then f x else 0) := by
  induction l with
  | nil => rfl
  | cons a as ih =>
    simp only [List.map_cons, List.filter_cons]
    cases h : p a
    · simp [scatter, ih]
    · simp [scatter, ih]

theorem colSum_map {α β : Type} (X : List α) (f : β → α → K) (rs : List β) :
    colSum X.length (rs.map fun r => X.map (f r)) = X.map fun x => (rs.map fun r => f r x).sum := by
  induction rs with
  | nil =>
    simp only [List.map_nil, colSum, List.foldr_nil, List.sum_nil]
    rw [List.map_const']
  | cons r rs ih =>
    simp only [List.map_cons, List.sum_cons]
    show List.zipWith (· + ·) (X.map (f r)) (colSum X.length (rs.map fun r => X.map (f r))) = _
    rw [ih, List.zipWith_map, List.zipWith_self]

/-- After line 139 no divisor is 0. -/
theorem quotients_guard (p t : List K) :
    quotients p (t.map fun t => if t = 0 then 1 else t) = .ok (List.zipWith (· / ·) p (t.map fun t => if t = 0 then 1 else t)) := by
  unfold quotients
  refine if_neg ?_
  rw [List.any_map, List.any_eq_true]
  rintro ⟨x, _, hx⟩
  simp only [Function.comp, decide_eq_true_eq] at hx
  split_ifs at hx with h
  · exact one_ne_zero hx
  · exact h hx

/-- The prediction of a trained local model (0 for an untrained one; only used for trained ones). -/
def Rule.valueAt (L : Learner K d M) (ρ : Rule K d M) (x : Point K d) : K :=
  match ρ.model with | none => 0 | some m => L.predict m x

/-- The weight of a fitted rule (0 for a never fitted one; only used for fitted ones). -/
def Rule.tauVal (P : MixParams K) (ρ : Rule K d M) : K :=
  match ρ.st with | none => 0 | some s => invError s.error * (P.expCalc.value d s.experience * P.weight)

/-- Rules whose attributes and local model exist. -/
def Rule.Ready (ρ : Rule K d M) : Prop := ρ.st.isSome ∧ ρ.model.isSome

theorem Rule.tau_some (P : MixParams K) (ρ : Rule K d M) (h1 : ρ.st.isSome) : ρ.tau P = .ok (ρ.tauVal P) := by
  unfold Rule.tau Rule.tauVal
  cases hs : ρ.st with
  | none => rw [hs] at h1; cases h1
  | some s => rfl

theorem Rule.tau_ready (P : MixParams K) (ρ : Rule K d M) (h : ρ.Ready) : ρ.tau P = .ok (ρ.tauVal P) := ρ.tau_some P h.1

theorem Rule.localPred_uncached (L : Learner K d M) (X : List (Point K d)) (ρ : Rule K d M) (h : ρ.Ready) :
    ρ.localPred L false X = .ok (X.map (ρ.kind.call ρ.bounds),
      X.map fun x => if ρ.kind.call ρ.bounds x then ρ.valueAt L x else 0) := by
  obtain ⟨_, h2⟩ := h
  unfold Rule.localPred
  simp only [Bool.false_eq_true, if_false]
  by_cases hany : (ρ.matchRows X).any id = false
  · rw [if_pos hany]
    have hall : ∀ x ∈ X, ρ.kind.call ρ.bounds x = false := by
      simpa [Rule.matchRows, List.any_eq_false] using hany
    refine congrArg Except.ok (Prod.ext rfl ?_)
    have : X.map (fun x => if ρ.kind.call ρ.bounds x = true then ρ.valueAt L x else 0) = X.map fun _ => (0 : K) := by
      apply List.map_congr_left
      intro x hx; rw [hall x hx]; simp
    rw [this, List.map_const']
  · rw [if_neg hany]
    cases hm : ρ.model with
    | none => rw [hm] at h2; cases h2
    | some m =>
      have hv : ρ.valueAt L = L.predict m := by unfold Rule.valueAt; rw [hm]
      simp only [Rule.predict, hm, Rule.matchRows, compress_map_self]
      rw [scatter_compress, hv]

theorem mapM_ok {α β : Type} (f : α → Except PyErr β) (g : α → β) (l : List α) (h : ∀ a ∈ l, f a = .ok (g a)) :
    l.mapM f = .ok (l.map g) := by
  induction l with
  | nil => rfl
  | cons a as ih =>
    rw [List.mapM_cons, h a (List.mem_cons_self ..), ih fun b hb => h b (List.mem_cons_of_mem _ hb)]
    rfl

/-- Sum of weighted local predictions of the rules matching `x`. -/
def numAt (L : Learner K d M) (P : MixParams K) (sub : List (Rule K d M)) (x : Point K d) : K :=
  ((sub.filter fun ρ => ρ.kind.call ρ.bounds x).map fun ρ => ρ.valueAt L x * ρ.tauVal P).sum

/-- Sum of the weights of the rules matching `x`. -/
def denAt (P : MixParams K) (sub : List (Rule K d M)) (x : Point K d) : K :=
  ((sub.filter fun ρ => ρ.kind.call ρ.bounds x).map fun ρ => ρ.tauVal P).sum

/-- The prediction for one sample. -/
def mixAt (L : Learner K d M) (P : MixParams K) (sub : List (Rule K d M)) (x : Point K d) : K :=
  numAt L P sub x / (if denAt P sub x = 0 then 1 else denAt P sub x)

theorem sum_ite_filter {α : Type} (p : α → Bool) (f : α → K) (l : List α) :
    (l.map fun a => if p a then f a else 0).sum = ((l.filter p).map f).sum := by
  induction l with
  | nil => rfl
  | cons a as ih =>
    simp only [List.map_cons, List.sum_cons, List.filter_cons, ih]
    cases p a <;> simp

/-- Common final part: if every rule contributes the match vector and row described here, the result is `mixAt` sample by sample. -/
theorem mixRules_of_state (L : Learner K d M) (P : MixParams K) (cache : Bool) (X : List (Point K d))
    (sub : List (Rule K d M)) (hr : ∀ ρ ∈ sub, ρ.st.isSome)
    (hloc : ∀ ρ ∈ sub, ρ.localPred L cache X = .ok (X.map (ρ.kind.call ρ.bounds),
      X.map fun x => if ρ.kind.call ρ.bounds x then ρ.valueAt L x else 0)) :
    mixRules L P cache X sub = .ok (X.map (mixAt L P sub)) := by
  unfold mixRules
  rw [mapM_ok _ _ _ hloc, mapM_ok _ (fun ρ => ρ.tauVal P) _ fun ρ h => ρ.tau_some P (hr ρ h)]
  simp only [bind, Except.bind]
  rw [quotients_guard]
  refine congrArg Except.ok ?_
  rw [List.zipWith_map, List.zipWith_map, List.zipWith_self, List.zipWith_self]
  simp only [List.map_map]
  rw [show (fun a : Rule K d M => List.map ((fun x => x * Rule.tauVal P a) ∘ fun x => if a.kind.call a.bounds x = true then a.valueAt L x else 0) X)
      = fun a => X.map fun x => if a.kind.call a.bounds x = true then a.valueAt L x * a.tauVal P else 0 from by
        funext a; congr 1; funext x; simp only [Function.comp]; split_ifs <;> simp]
  rw [show (fun a : Rule K d M => List.map ((fun m => if m = true then Rule.tauVal P a else 0) ∘ a.kind.call a.bounds) X)
      = fun a => X.map fun x => if a.kind.call a.bounds x = true then a.tauVal P else 0 from by
        funext a; congr 1]
  rw [colSum_map X (fun (a : Rule K d M) x => if a.kind.call a.bounds x = true then a.valueAt L x * a.tauVal P else 0) sub,
      colSum_map X (fun (a : Rule K d M) x => if a.kind.call a.bounds x = true then a.tauVal P else 0) sub]
  rw [List.map_map, List.zipWith_map, List.zipWith_self]
  apply List.map_congr_left
  intro x _
  simp only [Function.comp, mixAt, numAt, denAt]
  rw [sum_ite_filter (fun ρ : Rule K d M => ρ.kind.call ρ.bounds x), sum_ite_filter (fun ρ : Rule K d M => ρ.kind.call ρ.bounds x)]
  rfl

theorem mixRules_of_local (L : Learner K d M) (P : MixParams K) (cache : Bool) (X : List (Point K d))
    (sub : List (Rule K d M)) (hr : ∀ ρ ∈ sub, ρ.Ready)
    (hloc : ∀ ρ ∈ sub, ρ.localPred L cache X = .ok (X.map (ρ.kind.call ρ.bounds),
      X.map fun x => if ρ.kind.call ρ.bounds x then ρ.valueAt L x else 0)) :
    mixRules L P cache X sub = .ok (X.map (mixAt L P sub)) := mixRules_of_state L P cache X sub (fun ρ h => (hr ρ h).1) hloc

theorem mixRules_uncached (L : Learner K d M) (P : MixParams K) (X : List (Point K d))
    (sub : List (Rule K d M)) (hr : ∀ ρ ∈ sub, ρ.Ready) :
    mixRules L P false X sub = .ok (X.map (mixAt L P sub)) :=
  mixRules_of_local L P false X sub hr fun ρ h => ρ.localPred_uncached L X (hr ρ h)

theorem mixAt_nil (L : Learner K d M) (P : MixParams K) (x : Point K d) : mixAt L P [] x = 0 := by
  simp [mixAt, numAt]

/-- Uncached mixing with the default filter, sample by sample (also covers the empty subpopulation). -/
theorem mixing_all_uncached (L : Learner K d M) (P : MixParams K) (X : List (Point K d))
    (sub : List (Rule K d M)) (hr : ∀ ρ ∈ sub, ρ.Ready) :
    mixing L P filterAll false X sub = .ok (X.map (mixAt L P sub)) := by
  unfold mixing
  cases sub with
  | nil =>
    simp only [List.isEmpty_nil, if_true]
    refine congrArg Except.ok ?_
    rw [show mixAt L P [] = fun _ => (0 : K) from funext fun x => mixAt_nil L P x, List.map_const']
  | cons a as =>
    simp only [List.isEmpty_cons, Bool.false_eq_true, if_false, filterAll]
    exact mixRules_uncached L P X _ hr

end Suprb
