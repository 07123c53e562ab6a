import Verif.Model.Composition

/-!
# Object identity of solutions

Python solutions are mutable objects holding a reference to a mutable genome array. This module models the operations of the composition that create,
copy and change them on an explicit heap, so that statements such as "the parents are unchanged" or "the archived solution is not
altered" can be made. The value level functions of `Verif.Model.Composition` are the views of these operations (`Verif.Props.Composition`).
-/

set_option autoImplicit false

namespace Suprb

variable {K : Type} [Field K] [LinearOrder K]

/-- A solution object (suprb/solution/base.py:42-60): address of its genome array and its fitted attributes. -/
structure SolObj (K : Type) where
  genomeAt : Nat
  st : Option (SolState K) := none

/-- All genome arrays and solution objects allocated so far; addresses are positions (the objects of suprb/solution/base.py:42-52). -/
structure SHeap (K : Type) where
  arrays : List (List Bool) := []
  objs : List (SolObj K) := []

/-- What a reader of the object sees (the attributes of suprb/solution/base.py:42-61). -/
def SHeap.view (h : SHeap K) (r : Nat) : Option (Indiv K) :=
  match h.objs[r]? with
  | none => none
  | some o =>
    match h.arrays[o.genomeAt]? with
    | none => none
    | some g => some { genome := g, st := o.st }

/-- `Solution(genome=g, …)` with a newly created array: suprb/solution/initialization.py:47-52, 72-77 and `clone(genome=…)`
(suprb/solution/base.py:81-88). -/
def SHeap.alloc (h : SHeap K) (σ : Indiv K) : SHeap K × Nat :=
  ({ arrays := h.arrays ++ [σ.genome], objs := h.objs ++ [{ genomeAt := h.arrays.length, st := σ.st }] }, h.objs.length)

/-- `solution.clone()` (suprb/solution/base.py:81-98): the genome is copied, `getattr` fails for missing attributes. -/
def SHeap.clone (h : SHeap K) (r : Nat) : Except PyErr (SHeap K × Nat) :=
  match h.view r with
  | none => .error .attributeError
  | some σ =>
    match σ.st with
    | none => .error .attributeError
    | some s => .ok (h.alloc { genome := σ.genome, st := some s })

/-- Assignments that a composition performs on the solutions of its population (suprb/optimizer/solution/base.py:133-142; the other lines are given for each). -/
inductive HCmd (K : Type)
  /-- `solution.fit(X, y)`: suprb/solution/base.py:56-60. -/
  | setSt (r : Nat) (s : SolState K)
  /-- `solution.genome = array`, a new array: suprb/solution/initialization.py:55, 80-83, suprb/optimizer/solution/aco/builder.py:84, 201-202, suprb/optimizer/solution/pso/movement.py:78, 119. -/
  | setGenome (r : Nat) (g : List Bool)
  /-- `solution.genome[mask] = …`, one position at a time: suprb/optimizer/solution/pso/movement.py:214. -/
  | write (r : Nat) (i : Nat) (b : Bool)
  /-- A new solution object: `clone` or `init`. -/
  | new (σ : Indiv K)

/-- The object an assignment changes (see `HCmd`; suprb/solution/base.py:54-61). -/
def HCmd.target : HCmd K → Option Nat
  | .setSt r _ => some r
  | .setGenome r _ => some r
  | .write r _ _ => some r
  | .new _ => none

/-- Effect of an assignment (see `HCmd`; suprb/solution/base.py:54-61). -/
def HCmd.run (h : SHeap K) : HCmd K → SHeap K
  | .setSt r s => { h with objs := h.objs.modify r fun o => { o with st := some s } }
  | .setGenome r g =>
    { arrays := h.arrays ++ [g], objs := h.objs.modify r fun o => { o with genomeAt := h.arrays.length } }
  | .write r i b =>
    match h.objs[r]? with
    | none => h
    | some o => { h with arrays := h.arrays.modify o.genomeAt fun g => g.set i b }
  | .new σ => (h.alloc σ).1

/-- Position of the fittest object among `refs` (`max(new_population, key=…)`, suprb/optimizer/solution/archive.py:39). -/
def SHeap.fittest (h : SHeap K) (refs : List Nat) : Except PyErr Nat :=
  match refs.mapM h.view with
  | none => .error .attributeError
  | some vs =>
    if allFitted vs then
      match pyMax (fun p : Nat × Indiv K => p.2.fitnessD) (refs.zip vs) with
      | none => .error .valueError
      | some p => .ok p.1
    else .error .attributeError

/-- suprb/optimizer/solution/archive.py:38-45 `Elitist.__call__` on references. -/
def hArchiveUpdate (h : SHeap K) (arch pop : List Nat) : Except PyErr (SHeap K × List Nat) :=
  match h.fittest pop with
  | .error e => .error e
  | .ok best =>
    match arch with
    | [] =>
      match h.clone best with
      | .error e => .error e
      | .ok (h', r) => .ok (h', [r])
    | a :: rest =>
      match h.view a, h.view best with
      | some σ, some β =>
        match σ.st with
        | none => .error .attributeError
        | some s =>
          if s.fitness < β.fitnessD then
            match h.clone best with
            | .error e => .error e
            | .ok (h', r) => .ok (h', rest ++ [r])
          else .ok (h, a :: rest)
      | _, _ => .error .attributeError

/-- suprb/optimizer/solution/ga/crossover.py:34-36 on references: `np.append` makes a new array, `clone` a new object. -/
def hSinglePoint (h : SHeap K) (a b : Nat) (i : Nat) : Except PyErr (SHeap K × Nat) :=
  match h.view a, h.view b with
  | some A, some B => .ok (h.alloc (A.withGenome (singlePoint A.genome B.genome i)))
  | _, _ => .error .attributeError

/-- suprb/optimizer/solution/ga/crossover.py:40-43 on references. -/
def hNPoint (h : SHeap K) (a b : Nat) : List Nat → Except PyErr (SHeap K × Nat)
  | [] => .ok (h, a)
  | i :: rest =>
    match hSinglePoint h a b i with
    | .error e => .error e
    | .ok (h1, a') =>
      match hSinglePoint h1 b a' i with
      | .error e => .error e
      | .ok (h2, b') => hNPoint h2 a' b' rest

/-- suprb/optimizer/solution/ga/crossover.py:15-20 on references; without crossover the first parent itself is returned. -/
def hCrossover (h : SHeap K) (rate r : K) (c : CrossDraw K) (a b : Nat) : Except PyErr (SHeap K × Nat) :=
  if r < rate then
    match c with
    | .nPoint indices => hNPoint h a b indices
    | .uniform u =>
      match h.view a, h.view b with
      | some A, some B =>
        match uniformCross u A.genome B.genome with
        | .error e => .error e
        | .ok g => .ok (h.alloc (A.withGenome g))
      | _, _ => .error .attributeError
  else .ok (h, a)

/-- suprb/optimizer/solution/ga/mutation.py:23-26 on references. -/
def hBitFlips (h : SHeap K) (rate : K) (u : Nat → K) (r : Nat) : Except PyErr (SHeap K × Nat) :=
  match h.view r with
  | none => .error .attributeError
  | some σ => .ok (h.alloc (bitFlips rate u σ))

end Suprb
