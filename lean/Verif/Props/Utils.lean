import Verif.Model.Utils
import Mathlib.Order.Lattice
import Mathlib.Order.Defs.LinearOrder
import Mathlib.Data.List.Lex
import Mathlib.Data.Rat.Defs
import Mathlib.Algebra.Order.Ring.Rat
import Mathlib.Data.Fin.VecNotation

/-!
# Claim C71 (utilities)
-/

set_option autoImplicit false
set_option linter.unusedSectionVars false

namespace Suprb

open Spec

/-- Specification: the leaf at a path (`t[i][j]…` in Python), if there is one. -/
def Forest.at? {α : Type} : Forest α → List Nat → Option α
  | .leaf a _, [0] => some a
  | .leaf _ rest, (i + 1) :: p => rest.at? (i :: p)
  | .node inner _, 0 :: p => inner.at? p
  | .node _ rest, (i + 1) :: p => rest.at? (i :: p)
  | _, _ => none

/-- Paths of the leaves. -/
def Forest.paths {α : Type} : Forest α → List (List Nat)
  | .nil => []
  | .leaf _ rest => [0] :: rest.paths.map fun p => (p.headD 0 + 1) :: p.tail
  | .node inner rest => (inner.paths.map fun p => 0 :: p) ++ rest.paths.map fun p => (p.headD 0 + 1) :: p.tail

theorem Forest.paths_ne {α : Type} (t : Forest α) : ∀ p ∈ t.paths, p ≠ [] := by
  cases t with
  | nil => simp [paths]
  | leaf a rest => simp [paths]
  | node inner rest => simp only [paths, List.mem_append, List.mem_map]; rintro p (⟨q, _, rfl⟩ | ⟨q, _, rfl⟩) <;> simp

theorem Forest.at_nil {α : Type} (t : Forest α) : t.at? [] = none := by cases t <;> rfl

theorem Forest.mem_paths {α : Type} (t : Forest α) (p : List Nat) : p ∈ t.paths ↔ (t.at? p).isSome = true := by
  induction t generalizing p with
  | nil => simp [paths, at?]
  | leaf a rest ih =>
    simp only [paths, List.mem_cons, List.mem_map]
    match p with
    | [] => simp [at_nil]
    | [0] => simp [at?]
    | 0 :: j :: p => simp [at?]
    | (i + 1) :: p =>
      change _ ↔ (rest.at? (i :: p)).isSome = true
      rw [← ih]
      constructor
      · rintro (h | ⟨q, hq, h⟩)
        · simp at h
        · obtain ⟨h1, h2⟩ := List.cons.inj h
          cases q with
          | nil => exact absurd rfl (paths_ne rest _ hq)
          | cons k q => simp at h1 h2; rw [← h1, ← h2]; exact hq
      · intro h; exact Or.inr ⟨_, h, rfl⟩
  | node inner rest ih1 ih2 =>
    simp only [paths, List.mem_append, List.mem_map]
    match p with
    | [] => simp [at_nil]
    | 0 :: p =>
      change _ ↔ (inner.at? p).isSome = true
      rw [← ih1]
      constructor
      · rintro (⟨q, hq, h⟩ | ⟨q, hq, h⟩)
        · rw [← (List.cons.inj h).2]; exact hq
        · exact absurd (List.cons.inj h).1 (Nat.succ_ne_zero _)
      · intro h; exact Or.inl ⟨_, h, rfl⟩
    | (i + 1) :: p =>
      change _ ↔ (rest.at? (i :: p)).isSome = true
      rw [← ih2]
      constructor
      · rintro (⟨q, hq, h⟩ | ⟨q, hq, h⟩)
        · exact absurd (List.cons.inj h).1.symm (Nat.succ_ne_zero _)
        · obtain ⟨h1, h2⟩ := List.cons.inj h
          cases q with
          | nil => exact absurd rfl (paths_ne rest _ hq)
          | cons k q => simp at h1 h2; rw [← h1, ← h2]; exact hq
      · intro h; exact Or.inr ⟨_, h, rfl⟩

theorem shift_lt (p q : List Nat) (hp : p ≠ []) (hq : q ≠ []) (h : p < q) : (p.headD 0 + 1) :: p.tail < (q.headD 0 + 1) :: q.tail := by
  cases p with
  | nil => exact absurd rfl hp
  | cons a p =>
    cases q with
    | nil => exact absurd rfl hq
    | cons b q =>
      rw [List.cons_lt_cons_iff] at h
      simp only [List.headD_cons, List.tail_cons]
      rw [List.cons_lt_cons_iff]
      rcases h with h | ⟨h1, h2⟩
      · exact Or.inl (Nat.succ_lt_succ h)
      · exact Or.inr ⟨by rw [h1], h2⟩

theorem shift_sorted {α : Type} (t : Forest α) (h : t.paths.Pairwise (· < ·)) : (t.paths.map fun p => (p.headD 0 + 1) :: p.tail).Pairwise (· < ·) := by
  rw [List.pairwise_map]
  exact h.imp_of_mem fun hp hq hlt => shift_lt _ _ (t.paths_ne _ hp) (t.paths_ne _ hq) hlt

theorem Forest.paths_sorted {α : Type} (t : Forest α) : t.paths.Pairwise (· < ·) := by
  induction t with
  | nil => exact List.Pairwise.nil
  | leaf a rest ih =>
    refine List.Pairwise.cons (fun q hq => ?_) (shift_sorted rest ih)
    obtain ⟨r, _, rfl⟩ := List.mem_map.mp hq
    rw [List.cons_lt_cons_iff]
    exact Or.inl (Nat.succ_pos _)
  | node inner rest ih1 ih2 =>
    refine List.pairwise_append.mpr ⟨?_, shift_sorted rest ih2, fun p hp q hq => ?_⟩
    · rw [List.pairwise_map]
      refine ih1.imp fun h => ?_
      rw [List.cons_lt_cons_iff]
      exact Or.inr ⟨rfl, h⟩
    · obtain ⟨r, _, rfl⟩ := List.mem_map.mp hp
      obtain ⟨r', _, rfl⟩ := List.mem_map.mp hq
      rw [List.cons_lt_cons_iff]
      exact Or.inl (Nat.succ_pos _)

theorem Forest.at_shift {α : Type} (rest : Forest α) (f : List Nat → Option α) (hf : ∀ i p, f ((i + 1) :: p) = rest.at? (i :: p)) :
    (rest.paths.map fun p => (p.headD 0 + 1) :: p.tail).map f = rest.paths.map rest.at? := by
  rw [List.map_map]
  refine List.map_congr_left fun p hp => ?_
  cases p with
  | nil => exact absurd rfl (paths_ne rest _ hp)
  | cons i p => exact hf i p

theorem Forest.flatten_paths {α : Type} (t : Forest α) : t.paths.map t.at? = (flatten t).map some := by
  induction t with
  | nil => rfl
  | leaf a rest ih =>
    unfold paths flatten
    rw [List.map_cons, at_shift rest _ (fun _ _ => rfl), ih]
    rfl
  | node inner rest ih1 ih2 =>
    unfold paths flatten
    rw [List.map_append, at_shift rest _ (fun _ _ => rfl), ih2, List.map_append, ← ih1, List.map_map]
    rfl

/-- C71: flatten yields the leaves in order. There is a list of paths in lexicographic order, consisting of exactly the paths of leaves, and the sequence is the
sequence of the leaves at these paths: nothing is lost, repeated or reordered, whatever the nesting. -/
theorem C71_flatten {α : Type} (t : Forest α) :
    ∃ paths : List (List Nat), paths.Pairwise (· < ·) ∧ (∀ p, p ∈ paths ↔ (t.at? p).isSome = true) ∧ (flatten t).map some = paths.map t.at? :=
  ⟨t.paths, t.paths_sorted, t.mem_paths, t.flatten_paths.symm⟩

/-- `[1, [[2], [], 3], 4]`. -/
example : flatten (.leaf 1 (.node (.node (.leaf 2 .nil) (.node .nil (.leaf 3 .nil))) (.leaf 4 .nil))) = [1, 2, 3, 4] := by decide

example : (Forest.leaf 1 (.node (.node (.leaf 2 .nil) (.node .nil (.leaf 3 .nil))) (.leaf 4 .nil))).at? [1, 2] = some 3 := by decide

variable {K : Type} [LinearOrder K] {d : Nat}

theorem foldl_min_spec (l : List K) (a : K) : (l.foldl min a = a ∨ l.foldl min a ∈ l) ∧ l.foldl min a ≤ a ∧ ∀ x ∈ l, l.foldl min a ≤ x := by
  induction l generalizing a with
  | nil => exact ⟨Or.inl rfl, le_refl _, by simp⟩
  | cons b l ih =>
    obtain ⟨h1, h2, h3⟩ := ih (min a b)
    rw [List.foldl_cons]
    refine ⟨?_, h2.trans (min_le_left _ _), fun x hx => ?_⟩
    · rcases h1 with h1 | h1
      · rw [h1]
        rcases min_choice a b with h | h
        · exact Or.inl h
        · exact Or.inr (by rw [h]; exact List.mem_cons_self ..)
      · exact Or.inr (List.mem_cons_of_mem _ h1)
    · rcases List.mem_cons.mp hx with rfl | hx
      · exact h2.trans (min_le_right _ _)
      · exact h3 x hx

theorem foldl_max_spec (l : List K) (a : K) : (l.foldl max a = a ∨ l.foldl max a ∈ l) ∧ a ≤ l.foldl max a ∧ ∀ x ∈ l, x ≤ l.foldl max a := by
  induction l generalizing a with
  | nil => exact ⟨Or.inl rfl, le_refl _, by simp⟩
  | cons b l ih =>
    obtain ⟨h1, h2, h3⟩ := ih (max a b)
    rw [List.foldl_cons]
    refine ⟨?_, (le_max_left _ _).trans h2, fun x hx => ?_⟩
    · rcases h1 with h1 | h1
      · rw [h1]
        rcases max_choice a b with h | h
        · exact Or.inl h
        · exact Or.inr (by rw [h]; exact List.mem_cons_self ..)
      · exact Or.inr (List.mem_cons_of_mem _ h1)
    · rcases List.mem_cons.mp hx with rfl | hx
      · exact (le_max_right _ _).trans h2
      · exact h3 x hx

/-- C71: for every non-empty data set the estimated bounds contain every sample, and each bound is the value of some sample; without samples it raises ValueError. -/
theorem C71_bounds (X : List (Point K d)) :
    (X = [] → estimateBounds X = .error .valueError) ∧
    (X ≠ [] → ∃ b, estimateBounds X = .ok b ∧ (∀ x ∈ X, InBounds b x) ∧ ∀ i, (∃ x ∈ X, (b i).1 = x i) ∧ ∃ x ∈ X, (b i).2 = x i) := by
  refine ⟨fun h => h ▸ rfl, fun h => ?_⟩
  cases X with
  | nil => exact absurd rfl h
  | cons x xs =>
    refine ⟨_, rfl, fun z hz i => ?_, fun i => ⟨?_, ?_⟩⟩
    · obtain ⟨_, h2, h3⟩ := foldl_min_spec (xs.map fun z => z i) (x i)
      obtain ⟨_, h5, h6⟩ := foldl_max_spec (xs.map fun z => z i) (x i)
      rcases List.mem_cons.mp hz with rfl | hz
      · exact ⟨h2, h5⟩
      · exact ⟨h3 _ (List.mem_map.mpr ⟨z, hz, rfl⟩), h6 _ (List.mem_map.mpr ⟨z, hz, rfl⟩)⟩
    · rcases (foldl_min_spec (xs.map fun z => z i) (x i)).1 with h1 | h1
      · exact ⟨x, List.mem_cons_self .., h1⟩
      · obtain ⟨z, hz, e⟩ := List.mem_map.mp h1
        exact ⟨z, List.mem_cons_of_mem _ hz, e.symm⟩
    · rcases (foldl_max_spec (xs.map fun z => z i) (x i)).1 with h1 | h1
      · exact ⟨x, List.mem_cons_self .., h1⟩
      · obtain ⟨z, hz, e⟩ := List.mem_map.mp h1
        exact ⟨z, List.mem_cons_of_mem _ hz, e.symm⟩

example : (estimateBounds [(![1, 5] : Point ℚ 2), ![3, -1], ![2, 0]]).map (fun b => (b 0, b 1)) = .ok ((1, 3), (-1, 5)) := by decide +kernel

end Suprb
