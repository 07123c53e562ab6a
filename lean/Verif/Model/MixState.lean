import Verif.Model.Selection

/-!
# The random generator of the mixing model

All solutions of a model share one mixing object (suprb/solution/base.py:81-89 passes it on by reference), and its filter owns one random generator
(suprb/solution/mixing_model.py:9-11). The other models take the drawn indices as an argument; here the generator is a state that every call of the mixing model
reads and advances, so that the effect of one call on the next one can be stated.
-/

set_option autoImplicit false

namespace Suprb

open Spec

variable {K : Type} [Field K] [LinearOrder K] {d : Nat} {M : Type} {S : Type}

/-- A numpy generator with states `S`: the indices `Generator.choice(list of n, size, replace=False, p)` selects, and the next state
(suprb/solution/mixing_model.py:32, 40). -/
structure Gen (K S : Type) where
  choice : S → (n : Nat) → (p : Option (List K)) → (size : Nat) → List Nat × S

/-- The filters of suprb/solution/mixing_model.py:8-40. -/
inductive FilterKind
  | all
  | nBest (amount : Nat)
  | nRandom (amount : Nat)
  | roulette (amount : Nat)

/-- The weights `RouletteWheel` passes to `choice` (suprb/solution/mixing_model.py:37-38); `none` if they cannot be computed. -/
def filterWeights (sub : List (Rule K d M)) : Option (List K) :=
  if sub.all (fun ρ => ρ.st.isSome) then
    if sub.any (fun ρ => decide (ruleFitnessOf ρ = ⊥)) then none
    else match rouletteP (sub.map fun ρ => (ruleFitnessOf ρ).unbotD 0) with
      | .error _ => none
      | .ok p => some p
  else none

/-- suprb/solution/mixing_model.py:13-14, 22-26, 29-32, 35-40: the call of the filter, result and next state of its generator. Without weights `choice` raises before it
draws. -/
def FilterKind.call (G : Gen K S) (k : FilterKind) (s : S) (sub : List (Rule K d M)) : Except PyErr (List (Rule K d M)) × S :=
  match k with
  | .all => (filterAll sub, s)
  | .nBest n => (nBestFitness n sub, s)
  | .nRandom n => (filterNRandom n (G.choice s sub.length none (min sub.length n)).1 sub, (G.choice s sub.length none (min sub.length n)).2)
  | .roulette n =>
    match filterWeights sub with
    | none => (filterRoulette n [] sub, s)
    | some p => (filterRoulette n (G.choice s sub.length (some p) (min sub.length n)).1 sub, (G.choice s sub.length (some p) (min sub.length n)).2)

/-- The state of the generator after the mixing model was called for a solution (suprb/solution/mixing_model.py:90-94: the filter is only called for a non-empty
subpopulation; suprb/solution/base.py:75-79). -/
def FilterKind.after (G : Gen K S) (k : FilterKind) (s : S) (σ : Solution K d M) : S :=
  match σ.subpopulation with
  | .error _ => s
  | .ok sub => if sub.isEmpty then s else (k.call G s sub).2

/-- suprb/solution/base.py:63-73 `Solution.predict`, reading and advancing the generator of the mixing model. -/
def Solution.predictS (L : Learner K d M) (P : MixParams K) (G : Gen K S) (k : FilterKind) (cache : Bool) (σ : Solution K d M) (X : List (Point K d))
    (s : S) : Except PyErr (List K) × S :=
  (σ.predict L P (fun sub => (k.call G s sub).1) cache X, k.after G s σ)

/-- suprb/solution/base.py:54-61 `Solution.fit`, reading and advancing the generator of the mixing model. -/
def Solution.fitS (L : Learner K d M) (P : MixParams K) (G : Gen K S) (k : FilterKind) (sf : SolFitness K) (X : List (Point K d)) (y : List K)
    (σ : Solution K d M) (s : S) : Except PyErr (Solution K d M) × S :=
  (σ.fit L P (fun sub => (k.call G s sub).1) sf X y, k.after G s σ)

/-- What happens to the solutions of a model during training: a metaheuristic evaluates a solution (suprb/solution/base.py:54), or somebody looks at predictions of one,
for example `DefaultLogger.log_iteration` (suprb/logging/default.py:89 `elitist.score(X, y)`) or `SquaredError` (suprb/optimizer/rule/origin.py:97, 99). -/
inductive MixEvent (K : Type) (d : Nat) (M : Type)
  | evaluate (σ : Solution K d M)
  | look (σ : Solution K d M) (Z : List (Point K d))

/-- A sequence of such events (calls of suprb/solution/base.py:54 and 63 with one mixing object): the results of the evaluations. -/
def runEvents (L : Learner K d M) (P : MixParams K) (G : Gen K S) (k : FilterKind) (sf : SolFitness K) (X : List (Point K d)) (y : List K) :
    S → List (MixEvent K d M) → List (Except PyErr (Solution K d M))
  | _, [] => []
  | s, .evaluate σ :: evs => (σ.fitS L P G k sf X y s).1 :: runEvents L P G k sf X y (σ.fitS L P G k sf X y s).2 evs
  | s, .look σ Z :: evs => runEvents L P G k sf X y (σ.predictS L P G k false Z s).2 evs

end Suprb
