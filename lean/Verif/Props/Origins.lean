import Verif.Props.Search

set_option autoImplicit false
set_option linter.unusedSectionVars false

/-!
# C36, C87: which samples become the origins of rules

The theorems about C36 and C87 in `Verif.Props.Discovery` are about the probabilities. The theorems here are about the samples that are drawn with them.
-/

namespace Suprb

open _root_.Spec (Pairs Point)

variable {K : Type} [Field K] [LinearOrder K] [IsStrictOrderedRing K] {d : Nat} {M : Type}

/-- A distribution over the samples that prefers those which fewer of the rules match, and never picks one which all of them match. If there is no rule, or all of them match all samples, it is
uniform (`none`). -/
def Spec.FavoursUncovered (rules : List (Rule K d M)) (X : List (Point K d)) (probs : Option (List K)) : Prop :=
  (probs = none ↔ ∀ x ∈ X, ∀ ρ ∈ rules, ρ.kind.call ρ.bounds x = true) ∧
  ∀ p, probs = some p → p.length = X.length ∧ (∀ q ∈ p, 0 ≤ q) ∧ p.sum = 1 ∧
    (∀ (i j : Nat) x x' q q', X[i]? = some x → X[j]? = some x' → p[i]? = some q → p[j]? = some q' → (coverage rules x < coverage rules x' ↔ q' < q)) ∧
    ∀ (i : Nat) x q, X[i]? = some x → p[i]? = some q → (q = 0 ↔ ∀ ρ ∈ rules, ρ.kind.call ρ.bounds x = true)

/-- The rows of the samples with the given numbers, in this order. -/
def Spec.RowsOf {α : Type} (X : List α) (idx : List Nat) (out : List α) : Prop :=
  out.length = idx.length ∧ ∀ (k i : Nat), idx[k]? = some i → i < X.length ∧ out[k]? = X[i]?

open Suprb.Spec (FavoursUncovered RowsOf)

theorem takeRows_rows {α : Type} (X : List α) (idx : List Nat) (out : List α) : takeRows X idx = .ok out → RowsOf X idx out := by
  induction idx generalizing out with
  | nil =>
    intro h
    cases h
    exact ⟨rfl, fun k i h => by simp at h⟩
  | cons j js ih =>
    intro h
    unfold takeRows at h ih
    rw [List.mapM_cons] at h
    cases hj : X[j]? with
    | none => rw [hj] at h; cases h
    | some x =>
      rw [hj] at h
      simp only [bind, Except.bind] at h
      split at h
      · cases h
      · rename_i rest hrest
        cases h
        obtain ⟨h1, h2⟩ := ih rest hrest
        refine ⟨by simp [h1], fun k i hk => ?_⟩
        cases k with
        | zero =>
          simp only [List.getElem?_cons_zero, Option.some.injEq] at hk
          subst hk
          exact ⟨(List.getElem?_eq_some_iff.mp hj).1, by simp [hj]⟩
        | succ k =>
          simp only [List.getElem?_cons_succ] at hk ⊢
          exact h2 k i hk

theorem drawRows_rows (X : List (Point K d)) (n : Nat) (probs : Option (List K)) (draw : Option (List K) → List Nat) (out : List (Point K d))
    (h : drawRows X n probs draw = .ok out) : RowsOf X (draw probs) out ∧ IsDistribution X.length probs := by
  unfold drawRows at h
  split at h
  · cases h
  · rename_i idx hi
    obtain ⟨rfl, hdist⟩ := rngChoice_distribution _ _ _ _ _ hi
    exact ⟨takeRows_rows _ _ _ h, hdist⟩

theorem matchingOrigins_eq (useElitist : Bool) (X : List (Point K d)) (pool : List (Rule K d M)) (elitist : Option (Indiv K)) (n : Nat) (draw : Option (List K) → List Nat)
    (L : Learner K d M) (P : MixParams K) (filt : SubFilter K d M) (y : List K) (u : Nat → Point K d) :
    matchingOrigins useElitist X pool elitist n draw = originsOf (.matching useElitist) L P filt X y pool elitist n draw u := by
  unfold matchingOrigins originsOf drawRows
  rfl

theorem matching_favours (useElitist : Bool) (X : List (Point K d)) (pool : List (Rule K d M)) (elitist : Option (Solution K d M)) (rules : List (Rule K d M))
    (hsub : OriginGroup useElitist pool elitist rules) (hc : ∀ ρ ∈ rules, ConsistentWith ρ X) :
    ∃ probs : Option (List K), matchingProbabilities useElitist X.length pool elitist = .ok probs ∧ FavoursUncovered rules X probs := by
  by_cases hne : rules = []
  · subst hne
    exact ⟨none, C36_no_rules _ _ _ _ hsub, ⟨by simp, by simp⟩, fun p hp => by cases hp⟩
  · obtain ⟨h1, h2⟩ := C36_matching_probabilities (K := K) useElitist pool elitist rules hsub X hc hne
    by_cases hall : ∀ x ∈ X, ∀ ρ ∈ rules, ρ.kind.call ρ.bounds x = true
    · exact ⟨none, h1 hall, ⟨fun _ => hall, fun _ => rfl⟩, fun p hp => by cases hp⟩
    · have hall' := hall
      push Not at hall
      obtain ⟨x, hx, ρ, hρ, hm⟩ := hall
      obtain ⟨p, a1, a2⟩ := h2 ⟨x, hx, ρ, hρ, by simpa using hm⟩
      refine ⟨some p, a1, ?_, fun q hq => by cases hq; exact a2⟩
      exact Iff.intro (fun h => nomatch h) fun h => absurd h hall'

/-- C36: the origins are the samples with the numbers the generator draws from a distribution that prefers the samples which fewer of the considered rules match. This holds for the evolution strategy
(`matchingOrigins`) and for the other methods of rule discovery (`originsOf`). -/
theorem C36_drawn (useElitist : Bool) (X : List (Point K d)) (pool : List (Rule K d M)) (elitist : Option (Indiv K)) (rules : List (Rule K d M))
    (hsub : OriginGroup useElitist pool (elitist.map fun σ => { genome := σ.genome, pool := pool, st := σ.st }) rules) (hc : ∀ ρ ∈ rules, ConsistentWith ρ X)
    (L : Learner K d M) (P : MixParams K) (filt : SubFilter K d M) (y : List K) (u : Nat → Point K d) (n : Nat) (draw : Option (List K) → List Nat) :
    ∃ probs : Option (List K), FavoursUncovered rules X probs ∧
      (∀ out, matchingOrigins useElitist X pool elitist n draw = .ok out → RowsOf X (draw probs) out) ∧
      ∀ out, originsOf (.matching useElitist) L P filt X y pool elitist n draw u = .ok out → RowsOf X (draw probs) out := by
  obtain ⟨probs, h1, h2⟩ := matching_favours useElitist X pool _ rules hsub hc
  have key : ∀ out, originsOf (.matching useElitist) L P filt X y pool elitist n draw u = .ok out → RowsOf X (draw probs) out := by
    intro out h
    unfold originsOf at h
    dsimp only at h
    rw [h1] at h
    exact (drawRows_rows _ _ _ _ _ h).1
  exact ⟨probs, h2, fun out h => key out (by rw [← matchingOrigins_eq]; exact h), key⟩

theorem mem_rowsOf {α : Type} (X : List α) (idx : List Nat) (out : List α) (h : RowsOf X idx out) (o : α) (ho : o ∈ out) : ∃ i ∈ idx, X[i]? = some o := by
  obtain ⟨k, hk⟩ := List.getElem?_of_mem ho
  have hlt : k < idx.length := by rw [← h.1]; exact (List.getElem?_eq_some_iff.mp hk).1
  obtain ⟨_, h2⟩ := h.2 k _ (List.getElem?_eq_getElem hlt)
  exact ⟨_, List.getElem_mem hlt, by rw [← h2, hk]⟩

/-- C36: as long as there is a sample which one of the considered rules does not match, rules are only started at such samples. -/
theorem C36_uncovered_origins (useElitist : Bool) (X : List (Point K d)) (pool : List (Rule K d M)) (elitist : Option (Indiv K)) (rules : List (Rule K d M))
    (hsub : OriginGroup useElitist pool (elitist.map fun σ => { genome := σ.genome, pool := pool, st := σ.st }) rules) (hc : ∀ ρ ∈ rules, ConsistentWith ρ X)
    (n : Nat) (draw : Option (List K) → List Nat) (hd : DrawsRows X.length n draw) (hex : ∃ x ∈ X, ∃ ρ ∈ rules, ρ.kind.call ρ.bounds x = false) (out : List (Point K d))
    (h : matchingOrigins useElitist X pool elitist n draw = .ok out) : ∀ o ∈ out, o ∈ X ∧ ∃ ρ ∈ rules, ρ.kind.call ρ.bounds o = false := by
  obtain ⟨probs, h1, f1, f2⟩ := matching_favours useElitist X pool _ rules hsub hc
  unfold matchingOrigins at h
  rw [h1] at h
  obtain ⟨hr, hdist⟩ := drawRows_rows X n probs draw out h
  cases probs with
  | none =>
    obtain ⟨x, hx, ρ, hρ, hm⟩ := hex
    have := f1.mp rfl x hx ρ hρ
    rw [hm] at this; cases this
  | some p =>
    intro o ho
    obtain ⟨i, hi, hX⟩ := mem_rowsOf _ _ _ hr o ho
    refine ⟨List.mem_of_getElem? hX, ?_⟩
    obtain ⟨b1, _, _, _, b5⟩ := f2 p rfl
    obtain ⟨c1, c2⟩ := (hd _ hdist).2 i hi
    have hp := List.getElem?_eq_getElem (l := p) (i := i) (by omega)
    have hq := b5 i o _ hX hp
    by_contra hall
    push Not at hall
    exact c2 p rfl (by rw [hp, hq.mpr fun ρ hρ => by simpa using hall ρ hρ])

/-- C87: as long as a sample is not predicted exactly (by the elitist, or by all rules with `use_elitist = False`), rules are only started at such samples. -/
theorem C87_origins (useElitist : Bool) (L : Learner K d M) (P : MixParams K) (filt : SubFilter K d M) (X : List (Point K d)) (y : List K) (pool : List (Rule K d M)) (σ : Indiv K)
    (rules : List (Rule K d M)) (hsub : OriginGroup useElitist pool (some { genome := σ.genome, pool := pool, st := σ.st }) rules) (hne : rules ≠ []) (pred : List K)
    (hpred : Solution.predict L P filt false { genome := if useElitist then σ.genome else List.replicate pool.length true, pool := pool, st := σ.st } X = .ok pred)
    (hl : pred.length = y.length) (hly : X.length = y.length) (hex : pred ≠ y) (n : Nat) (draw : Option (List K) → List Nat) (hd : DrawsRows X.length n draw) (u : Nat → Point K d)
    (out : List (Point K d)) (h : originsOf (.squaredError useElitist) L P filt X y pool (some σ) n draw u = .ok out) :
    ∀ o ∈ out, ∃ (i : Nat) (a t : K), X[i]? = some o ∧ pred[i]? = some a ∧ y[i]? = some t ∧ a ≠ t := by
  obtain ⟨p, a1, a2, _, _, _, a3, _⟩ := (C87_squared_error_probabilities L P filt useElitist X y pool _ rules hsub hne pred hpred hl).2 hex
  unfold originsOf at h
  dsimp only [Option.map_some] at h
  rw [a1] at h
  obtain ⟨hr, hdist⟩ := drawRows_rows X n _ draw out h
  intro o ho
  obtain ⟨i, hi, hX⟩ := mem_rowsOf _ _ _ hr o ho
  obtain ⟨c1, c2⟩ := (hd _ hdist).2 i hi
  have hp := List.getElem?_eq_getElem (l := p) (i := i) (by omega)
  have ha := List.getElem?_eq_getElem (l := pred) (i := i) (by omega)
  have ht := List.getElem?_eq_getElem (l := y) (i := i) (by omega)
  refine ⟨i, _, _, hX, ha, ht, fun heq => c2 p rfl ?_⟩
  rw [hp, (a3 i _ _ _ ha ht hp).mpr heq]

/-- Three samples and the rule for `[0, 1]`, which matches the first two; it does not predict the third one. -/
def originRule : Rule ℚ 1 ℚ :=
  { kind := .ordered, bounds := ![(0, 1)], inputSpace := ![(0, 2)], model := some 1
    st := some ⟨true, ((1 : ℚ) : WithTop ℚ), ((0 : ℚ) : WithBot ℚ), 2, [1, 1], [true, true, false]⟩ }

example : (∃ x ∈ [(![0] : Point ℚ 1), ![1], ![2]], ∃ ρ ∈ [originRule], ρ.kind.call ρ.bounds x = false) ∧
    matchingOrigins true [(![0] : Point ℚ 1), ![1], ![2]] [originRule] (some { genome := [true] }) 2 (firstPossible 2) = Except.ok [![2], ![2]] := by
  constructor
  · exact ⟨![2], by simp, originRule, by simp, by decide +kernel⟩
  · decide +kernel

example : OriginGroup true [originRule] (some { genome := [true], pool := [originRule] }) [originRule] ∧ ConsistentWith originRule [(![0] : Point ℚ 1), ![1], ![2]] := by
  refine ⟨⟨rfl, rfl⟩, ?_⟩
  exact ⟨_, rfl, by decide +kernel, by decide +kernel, by decide +kernel, rfl, fun _ => ⟨rfl, 1, rfl, by norm_num, 0, rfl⟩, fun h => by cases h⟩

example : DrawsRows (K := ℚ) 3 2 (firstPossible 2) := firstPossible_draws 3 2 (by decide)

example : originsOf (.squaredError true) meanLearner ⟨.plain, 1⟩ filterAll [(![0] : Point ℚ 1), ![1], ![2]] [1, 1, 4] [originRule] (some { genome := [true] }) 2 (firstPossible 2) (fun _ => ![0]) =
    Except.ok [![2], ![2]] := by decide +kernel

end Suprb
