import Verif.Lemmas.Solution
import Verif.Model.SupRB
import Verif.Props.SupRB

/-!
# C114: predictions are made sample by sample
-/

set_option autoImplicit false
set_option linter.unusedSectionVars false

namespace Suprb

open Spec

variable {K : Type} [Field K] [LinearOrder K] [IsStrictOrderedRing K] {d : Nat} {M : Type}

/-- The rule does not fail on these samples: it has a trained local model, or matches none of them. -/
def Rule.FineOn (X : List (Point K d)) (ρ : Rule K d M) : Prop := ρ.model.isSome ∨ ∀ x ∈ X, ρ.kind.call ρ.bounds x = false

theorem Rule.localPred_fine (L : Learner K d M) (X : List (Point K d)) (ρ : Rule K d M) (h : ρ.FineOn X) :
    ρ.localPred L false X = .ok (X.map (ρ.kind.call ρ.bounds), X.map fun x => if ρ.kind.call ρ.bounds x then ρ.valueAt L x else 0) := by
  rcases h with h | h
  · have := Rule.localPred_uncached L X { ρ with st := some ⟨true, 0, 0, 0, [], []⟩ } ⟨rfl, h⟩
    exact this
  · unfold Rule.localPred
    have hany : (ρ.matchRows X).any id = false := by simpa [Rule.matchRows, List.any_eq_false] using h
    rw [if_neg (by simp)]
    dsimp only
    rw [if_pos hany]
    refine congrArg Except.ok (Prod.ext rfl ?_)
    have : X.map (fun x => if ρ.kind.call ρ.bounds x = true then ρ.valueAt L x else 0) = X.map fun _ => (0 : K) := by
      apply List.map_congr_left
      intro x hx; rw [h x hx]; simp
    rw [this, List.map_const']

theorem Rule.fine_of_localPred (L : Learner K d M) (X : List (Point K d)) (ρ : Rule K d M) {r : List Bool × List K} (h : ρ.localPred L false X = .ok r) : ρ.FineOn X := by
  by_contra hf
  obtain ⟨h1, h2⟩ := not_or.mp hf
  unfold Rule.localPred at h
  rw [if_neg (by simp)] at h
  dsimp only at h
  have hany : ¬ (ρ.matchRows X).any id = false := fun hh => h2 (by simpa [Rule.matchRows, List.any_eq_false] using hh)
  rw [if_neg hany] at h
  have hm : ρ.model = none := by
    cases hm : ρ.model with
    | none => rfl
    | some m => rw [hm] at h1; exact absurd rfl h1
  unfold Rule.predict at h
  rw [hm] at h
  cases h

theorem mapM_all_ok {α β : Type} (f : α → Except PyErr β) : ∀ (l : List α) (r : List β), l.mapM f = .ok r → ∀ a ∈ l, ∃ b, f a = .ok b := by
  intro l
  induction l with
  | nil => intro _ _ a ha; cases ha
  | cons x xs ih =>
    intro r h a ha
    rw [List.mapM_cons] at h
    cases hx : f x with
    | error e => rw [hx] at h; cases h
    | ok b =>
      rw [hx] at h
      cases hxs : xs.mapM f with
      | error e => rw [hxs] at h; cases h
      | ok bs =>
        rcases List.mem_cons.mp ha with rfl | ha
        · exact ⟨b, hx⟩
        · exact ih bs hxs a ha

theorem mixRules_ok_iff (L : Learner K d M) (P : MixParams K) (X : List (Point K d)) (sub : List (Rule K d M)) (v : List K) :
    mixRules L P false X sub = .ok v ↔ (∀ ρ ∈ sub, ρ.st.isSome ∧ ρ.FineOn X) ∧ v = X.map (mixAt L P sub) := by
  constructor
  · intro h
    have hall : ∀ ρ ∈ sub, ρ.st.isSome ∧ ρ.FineOn X := by
      unfold mixRules at h
      cases h1 : sub.mapM (Rule.localPred L false X) with
      | error e => rw [h1] at h; cases h
      | ok loc =>
        rw [h1] at h
        cases h2 : sub.mapM (Rule.tau P) with
        | error e => rw [h2] at h; cases h
        | ok taus =>
          intro ρ hρ
          obtain ⟨r, hr⟩ := mapM_all_ok _ _ _ h1 ρ hρ
          obtain ⟨t, ht⟩ := mapM_all_ok _ _ _ h2 ρ hρ
          refine ⟨?_, ρ.fine_of_localPred L X hr⟩
          unfold Rule.tau at ht
          cases hst : ρ.st with
          | none => rw [hst] at ht; cases ht
          | some s => rfl
    refine ⟨hall, ?_⟩
    rw [mixRules_of_state L P false X sub (fun ρ hρ => (hall ρ hρ).1) fun ρ hρ => ρ.localPred_fine L X (hall ρ hρ).2] at h
    exact (Except.ok.inj h).symm
  · rintro ⟨hall, rfl⟩
    exact mixRules_of_state L P false X sub (fun ρ hρ => (hall ρ hρ).1) fun ρ hρ => ρ.localPred_fine L X (hall ρ hρ).2

/-- Whether predicting fails, and what is predicted, is determined sample by sample. -/
theorem predict_pointwise (c : SupComp K d M) (st : SupState K d M) : ∃ (fine : Point K d → Prop) (f : Point K d → K),
    ∀ (X : List (Point K d)) (v : List K), X ≠ [] → (st.predict c X = .ok v ↔ (∀ x ∈ X, fine x) ∧ v = X.map f) := by
  unfold SupState.predict
  by_cases hf : st.isFitted = false
  · refine ⟨fun _ => False, fun _ => 0, fun X v hX => ?_⟩
    rw [if_pos hf]
    refine ⟨fun h => (by cases h), fun h => ?_⟩
    obtain ⟨x, xs, rfl⟩ := List.exists_cons_of_ne_nil hX
    exact (h.1 x (by simp)).elim
  · by_cases he : st.isError
    · refine ⟨fun _ => True, fun _ => 0, fun X v hX => ?_⟩
      rw [if_neg hf, if_neg hX, if_pos he, List.map_const']
      exact ⟨fun h => ⟨fun _ _ => trivial, (Except.ok.inj h).symm⟩, fun h => by rw [h.2]⟩
    · cases hel : st.elitist with
      | none =>
        refine ⟨fun _ => False, fun _ => 0, fun X v hX => ?_⟩
        rw [if_neg hf, if_neg hX, if_neg he]
        refine ⟨fun h => (by cases h), fun h => ?_⟩
        obtain ⟨x, xs, rfl⟩ := List.exists_cons_of_ne_nil hX
        exact (h.1 x (by simp)).elim
      | some el =>
        cases el with
        | placeholder =>
          refine ⟨fun _ => True, fun _ => 0, fun X v hX => ?_⟩
          rw [if_neg hf, if_neg hX, if_neg he, List.map_const']
          exact ⟨fun h => ⟨fun _ _ => trivial, (Except.ok.inj h).symm⟩, fun h => by rw [h.2]⟩
        | solution σ =>
          have hbad : ∀ e : PyErr, (∀ X : List (Point K d), σ.predict c.learner c.mix c.filter false X = .error e) → ∃ (fine : Point K d → Prop) (f : Point K d → K),
              ∀ (X : List (Point K d)) (v : List K), X ≠ [] → (σ.predict c.learner c.mix c.filter false X = .ok v ↔ (∀ x ∈ X, fine x) ∧ v = X.map f) := by
            intro e hall
            refine ⟨fun _ => False, fun _ => 0, fun X v hX => ?_⟩
            rw [hall X]
            refine ⟨fun h => (by cases h), fun h => ?_⟩
            obtain ⟨x, xs, rfl⟩ := List.exists_cons_of_ne_nil hX
            exact (h.1 x (by simp)).elim
          have hgoal : ∃ (fine : Point K d → Prop) (f : Point K d → K),
              ∀ (X : List (Point K d)) (v : List K), X ≠ [] → (σ.predict c.learner c.mix c.filter false X = .ok v ↔ (∀ x ∈ X, fine x) ∧ v = X.map f) := by
            cases hs : σ.subpopulation with
            | error e => exact hbad e fun X => by unfold Solution.predict; rw [hs]
            | ok sub =>
              by_cases hemp : sub.isEmpty
              · refine ⟨fun _ => True, fun _ => 0, fun X v hX => ?_⟩
                unfold Solution.predict mixing
                rw [hs]
                dsimp only
                rw [if_pos hemp, List.map_const']
                exact ⟨fun h => ⟨fun _ _ => trivial, (Except.ok.inj h).symm⟩, fun h => by rw [h.2]⟩
              · cases hfl : c.filter sub with
                | error e => exact hbad e fun X => by unfold Solution.predict mixing; rw [hs]; dsimp only; rw [if_neg hemp, hfl]
                | ok sub' =>
                  refine ⟨fun x => ∀ ρ ∈ sub', ρ.st.isSome ∧ (ρ.model.isSome ∨ ρ.kind.call ρ.bounds x = false), mixAt c.learner c.mix sub', fun X v hX => ?_⟩
                  unfold Solution.predict mixing
                  rw [hs]
                  dsimp only
                  rw [if_neg hemp, hfl]
                  dsimp only
                  rw [mixRules_ok_iff]
                  refine and_congr_left fun _ => ⟨fun h x hx ρ hρ => ⟨(h ρ hρ).1, ?_⟩, fun h ρ hρ => ?_⟩
                  · rcases (h ρ hρ).2 with hm | hm
                    · exact .inl hm
                    · exact .inr (hm x hx)
                  · obtain ⟨x0, xs, hX0⟩ := List.exists_cons_of_ne_nil hX
                    refine ⟨(h x0 (by rw [hX0]; simp) ρ hρ).1, ?_⟩
                    by_cases hm : ρ.model.isSome
                    · exact .inl hm
                    · exact .inr fun x hx => ((h x hx ρ hρ).2).resolve_left hm
          obtain ⟨fine, f, hff⟩ := hgoal
          refine ⟨fine, f, fun X v hX => ?_⟩
          rw [if_neg hf, if_neg hX, if_neg he]
          exact hff X v hX

/-- Predicting two batches together is predicting them one after the other: it succeeds exactly if both parts do, with the same values. -/
theorem C114_concat (c : SupComp K d M) (st : SupState K d M) (X Y : List (Point K d)) (hX : X ≠ []) (hY : Y ≠ []) (v : List K) :
    st.predict c (X ++ Y) = .ok v ↔ ∃ vx vy, st.predict c X = .ok vx ∧ st.predict c Y = .ok vy ∧ v = vx ++ vy := by
  obtain ⟨fine, f, h⟩ := predict_pointwise c st
  rw [h (X ++ Y) v (by simp [hX])]
  constructor
  · rintro ⟨h1, h2⟩
    exact ⟨X.map f, Y.map f, (h X _ hX).mpr ⟨fun x hx => h1 x (List.mem_append_left _ hx), rfl⟩, (h Y _ hY).mpr ⟨fun x hx => h1 x (List.mem_append_right _ hx), rfl⟩, by rw [h2, List.map_append]⟩
  · rintro ⟨vx, vy, h1, h2, rfl⟩
    obtain ⟨a1, rfl⟩ := (h X vx hX).mp h1
    obtain ⟨a2, rfl⟩ := (h Y vy hY).mp h2
    refine ⟨fun x hx => ?_, (List.map_append ..).symm⟩
    rcases List.mem_append.mp hx with hx | hx
    · exact a1 x hx
    · exact a2 x hx

/-- One value per sample, and each is the value that is predicted for the sample alone. -/
theorem C114_single (c : SupComp K d M) (st : SupState K d M) (X : List (Point K d)) (v : List K) (h : st.predict c X = .ok v) :
    v.length = X.length ∧ ∀ (i : Nat) (x : Point K d), X[i]? = some x → ∃ a, v[i]? = some a ∧ st.predict c [x] = .ok [a] := by
  have hX : X ≠ [] := by
    rintro rfl
    unfold SupState.predict at h
    split_ifs at h <;> contradiction
  obtain ⟨fine, f, hp⟩ := predict_pointwise c st
  obtain ⟨h1, rfl⟩ := (hp X v hX).mp h
  refine ⟨by simp, fun i x hx => ⟨f x, by rw [List.getElem?_map, hx]; rfl, (hp [x] _ (by simp)).mpr ⟨fun y hy => ?_, rfl⟩⟩⟩
  rw [List.mem_singleton.mp hy]
  exact h1 x (List.mem_of_getElem? hx)

/-- The order of the samples does not matter, and neither do repetitions: if two batches contain the same samples, predicting succeeds for both or none, and equal samples get equal values. -/
theorem C114_order (c : SupComp K d M) (st : SupState K d M) (X Y : List (Point K d)) (hXY : ∀ x, x ∈ X ↔ x ∈ Y) (v : List K) (h : st.predict c X = .ok v) :
    ∃ w, st.predict c Y = .ok w ∧ ∀ (i j : Nat) (x : Point K d), X[i]? = some x → Y[j]? = some x → v[i]? = w[j]? := by
  have hX : X ≠ [] := by
    rintro rfl
    unfold SupState.predict at h
    split_ifs at h <;> contradiction
  have hY : Y ≠ [] := by
    obtain ⟨x, xs, rfl⟩ := List.exists_cons_of_ne_nil hX
    exact List.ne_nil_of_mem ((hXY x).mp (by simp))
  obtain ⟨fine, f, hp⟩ := predict_pointwise c st
  obtain ⟨h1, rfl⟩ := (hp X v hX).mp h
  refine ⟨Y.map f, (hp Y _ hY).mpr ⟨fun y hy => h1 y ((hXY y).mpr hy), rfl⟩, fun i j x hi hj => ?_⟩
  rw [List.getElem?_map, List.getElem?_map, hi, hj]

/-- A fitted model with two selected rules; the third rule of the pool was never trained. -/
def batchState : SupState ℚ 1 ℚ :=
  { isFitted := true, elitist := some (.solution { genome := [true, true, false], pool := [fittedRule 0 2 1 1 3, fittedRule 1 3 5 (1 / 2) 2, { fittedRule 0 3 100 1 1 with model := none }] }) }

/-- The example satisfies the hypotheses of all three theorems. -/
example : batchState.predict (demoComp fun _ _ c => c) ([![0], ![3 / 2]] ++ [![3], ![4]]) = .ok [1, 23 / 7, 5, 0] ∧ batchState.predict (demoComp fun _ _ c => c) [![0], ![3 / 2]] = .ok [1, 23 / 7] ∧
    batchState.predict (demoComp fun _ _ c => c) [![3], ![4]] = .ok [5, 0] ∧ batchState.predict (demoComp fun _ _ c => c) [![4], ![3 / 2], ![0], ![3], ![0]] = .ok [0, 23 / 7, 1, 5, 1] := by
  decide +kernel

/-- A selected rule that was never trained makes a batch fail exactly if it matches one of the samples. -/
example : let st : SupState ℚ 1 ℚ := { isFitted := true, elitist := some (.solution { genome := [true, true], pool := [fittedRule 0 2 1 1 3, { fittedRule 1 3 100 1 1 with model := none }] }) }
    st.predict (demoComp fun _ _ c => c) [![0], ![4]] = .ok [1, 0] ∧ st.predict (demoComp fun _ _ c => c) [![0], ![2]] = .error .valueError ∧ st.predict (demoComp fun _ _ c => c) [![2]] = .error .valueError := by
  decide +kernel

end Suprb
