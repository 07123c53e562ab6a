import Verif.Props.Aco
import Verif.Model.Fitness
import Mathlib.Tactic.Linarith
import Mathlib.Tactic.FieldSimp

/-!
# Claim C145: the ant colony reinforces the choices of its best ants
-/

set_option autoImplicit false
set_option linter.unusedSectionVars false

namespace Suprb

variable {K : Type} [Field K] [LinearOrder K]

/-! ## Specification -/

/-- The same fitness, the same choices apart from rule `j`, and `σ` takes rule `j` if `σ'` does. -/
structure Spec.TakesMore (j : Nat) (σ σ' : Indiv K) : Prop where
  fit : σ.fitnessD = σ'.fitnessD
  others : ∀ k, k ≠ j → σ.genome.getD k false = σ'.genome.getD k false
  takes : σ'.genome.getD j false = true → σ.genome.getD j false = true

/-- The `n` best ants of a population: the others are not better. -/
structure Spec.Best (n : Nat) (pop best : List (Indiv K)) : Prop where
  count : best.length = min n pop.length
  rest : ∃ others, pop.Perm (best ++ others) ∧ ∀ σ ∈ best, ∀ τ ∈ others, τ.fitnessD ≤ σ.fitnessD

/-! ## Columns of the pheromones -/

/-- Less pheromone for leaving out and more for taking. -/
def Leans (x x' : K × K) : Prop := x.1 ≤ x'.1 ∧ x'.2 ≤ x.2

/-- `p` favours rule `j` at least as much as `p'`. -/
def Pheromones.Favours (j : Nat) (p p' : Pheromones K) : Prop :=
  match p, p' with
  | .binary m, .binary m' => m.length = m'.length ∧ ∀ x x', m[j]? = some x → m'[j]? = some x' → Leans x x'
  | .complete m, .complete m' => List.Forall₂ (fun row row' => row.length = row'.length ∧ ∀ x x', row[j]? = some x → row'[j]? = some x' → Leans x x') m m'
  | _, _ => False

theorem favours_refl (j : Nat) (p : Pheromones K) : p.Favours j p := by
  cases p with
  | binary m => exact ⟨rfl, fun x x' h h' => by rw [h] at h'; cases h'; exact ⟨le_refl _, le_refl _⟩⟩
  | complete m => exact List.forall₂_same.mpr fun row _ => ⟨rfl, fun x x' h h' => by rw [h] at h'; cases h'; exact ⟨le_refl _, le_refl _⟩⟩

theorem favours_map (j : Nat) (f : K → K) (hf : ∀ x y, x ≤ y → f x ≤ f y) (p p' : Pheromones K) (h : p.Favours j p') : (p.map f).Favours j (p'.map f) := by
  have key : ∀ r r' : List (K × K), (r.length = r'.length ∧ ∀ x x', r[j]? = some x → r'[j]? = some x' → Leans x x') →
      (r.map fun x => (f x.1, f x.2)).length = (r'.map fun x => (f x.1, f x.2)).length ∧
      ∀ x x', (r.map fun x => (f x.1, f x.2))[j]? = some x → (r'.map fun x => (f x.1, f x.2))[j]? = some x' → Leans x x' := by
    intro r r' ⟨hl, hr⟩
    refine ⟨by simpa using hl, fun x x' hx hx' => ?_⟩
    rw [List.getElem?_map, Option.map_eq_some_iff] at hx hx'
    obtain ⟨a, ha, rfl⟩ := hx
    obtain ⟨a', ha', rfl⟩ := hx'
    have := hr a a' ha ha'
    exact ⟨hf _ _ this.1, hf _ _ this.2⟩
  cases p with
  | binary m =>
    cases p' with
    | binary m' => exact key m m' h
    | complete _ => exact h.elim
  | complete m =>
    cases p' with
    | binary _ => exact h.elim
    | complete m' =>
      refine List.forall₂_map_left_iff.mpr (List.forall₂_map_right_iff.mpr ?_)
      exact List.Forall₂.imp (fun r r' hr => key r r' hr) h

section Ordered

variable [IsStrictOrderedRing K]

theorem favours_update (j : Nat) (g g' : List Bool) (hothers : ∀ k, k ≠ j → g.getD k false = g'.getD k false) (htakes : g'.getD j false = true → g.getD j false = true)
    (delta : K) (hd : 0 ≤ delta) (p p' : Pheromones K) (h : p.Favours j p') : (p.update g delta).Favours j (p'.update g' delta) := by
  cases p with
  | binary m =>
    cases p' with
    | complete _ => exact h.elim
    | binary m' =>
      refine ⟨by simpa [binaryUpdate] using h.1, fun x x' hx hx' => ?_⟩
      unfold binaryUpdate at hx hx'
      rw [List.getElem?_mapIdx, Option.map_eq_some_iff] at hx hx'
      obtain ⟨a, ha, rfl⟩ := hx
      obtain ⟨a', ha', rfl⟩ := hx'
      obtain ⟨h1, h2⟩ := h.2 a a' ha ha'
      by_cases hb' : g'.getD j false = true
      · rw [if_pos hb', if_pos (htakes hb')]
        exact ⟨h1, by linarith⟩
      · rw [if_neg hb']
        by_cases hb : g.getD j false = true
        · rw [if_pos hb]; exact ⟨by show a.1 ≤ a'.1 + delta; linarith, by show a'.2 ≤ a.2 + delta; linarith⟩
        · rw [if_neg hb]; exact ⟨by show a.1 + delta ≤ a'.1 + delta; linarith, h2⟩
  | complete m =>
    cases p' with
    | binary _ => exact h.elim
    | complete m' =>
      refine List.forall₂_iff_get.mpr ⟨?_, ?_⟩
      · simpa [completeUpdate] using List.Forall₂.length_eq h
      · intro i hi hi'
        have hi0 : i < m.length := by simpa [completeUpdate] using hi
        have hi0' : i < m'.length := by simpa [completeUpdate] using hi'
        obtain ⟨hl, hr⟩ := (List.forall₂_iff_get.mp h).2 i hi0 hi0'
        simp only [List.get_eq_getElem, completeUpdate, List.getElem_mapIdx] at hl hr ⊢
        refine ⟨by simpa using hl, fun x x' hx hx' => ?_⟩
        rw [List.getElem?_mapIdx, Option.map_eq_some_iff] at hx hx'
        obtain ⟨a, ha, rfl⟩ := hx
        obtain ⟨a', ha', rfl⟩ := hx'
        obtain ⟨h1, h2⟩ := hr a a' ha ha'
        by_cases hb' : g'.getD j false = true
        · rw [if_pos hb', if_pos (htakes hb')]
          exact ⟨h1, by show a'.2 + delta ≤ a.2 + delta; linarith⟩
        · rw [if_neg hb']
          by_cases hb : g.getD j false = true
          · rw [if_pos hb]
            split
            · exact ⟨by show a.1 ≤ a'.1 + delta; linarith, by show a'.2 ≤ a.2 + delta; linarith⟩
            · exact ⟨h1, by show a'.2 ≤ a.2 + delta; linarith⟩
          · rw [if_neg hb]
            by_cases hij : i = j
            · rw [if_pos (Or.inr hij), if_pos (Or.inr hij)]
              exact ⟨by show a.1 + delta ≤ a'.1 + delta; linarith, h2⟩
            · rw [hothers i hij]
              by_cases hgi : g'.getD i false = true ∨ i = j
              · rw [if_pos hgi, if_pos hgi]
                exact ⟨by show a.1 + delta ≤ a'.1 + delta; linarith, h2⟩
              · rw [if_neg hgi, if_neg hgi]
                exact ⟨h1, h2⟩

theorem favours_foldl (j : Nat) (c : K) (hc : 0 ≤ c) (best best' : List (Indiv K)) (h : List.Forall₂ (Spec.TakesMore j) best best') (h0 : ∀ σ ∈ best, 0 ≤ σ.fitnessD)
    (p p' : Pheromones K) (hp : p.Favours j p') : (best.foldl (fun p σ => p.update σ.genome (σ.fitnessD * c)) p).Favours j
      (best'.foldl (fun p σ => p.update σ.genome (σ.fitnessD * c)) p') := by
  induction h generalizing p p' with
  | nil => exact hp
  | @cons σ σ' l l' hr _ ih =>
    rw [List.foldl_cons, List.foldl_cons]
    refine ih (fun τ hτ => h0 τ (List.mem_cons_of_mem _ hτ)) _ _ ?_
    rw [← hr.fit]
    exact favours_update j _ _ hr.others hr.takes _ (mul_nonneg (h0 σ List.mem_cons_self) hc) _ _ hp

/-! ## Decisions -/

/-- What is used of powers and square roots: `x ** alpha` is positive and monotone for positive numbers (`alpha ≥ 0`), the others are not negative. -/
structure AntCfg.Monotone (cfg : AntCfg K) : Prop where
  powA : ∀ x, 0 < x → 0 < cfg.powA x
  mono : ∀ x y, 0 < x → x ≤ y → cfg.powA x ≤ cfg.powA y
  powB : ∀ x, 0 ≤ x → 0 ≤ cfg.powB x
  nanB : ∀ c, cfg.nanB = some c → 0 ≤ c
  sqrt : ∀ x e, cfg.sqrt x = some e → 0 ≤ e

/-- The decision for given weights of leaving out and taking rises with the pheromones. -/
theorem decision_mono (cfg : AntCfg K) (hc : cfg.Monotone) (x x' : K × K) (hl : Leans x x') (h0 : 0 < x.1) (h1 : 0 < x'.2) (e0 e1 : K) (he0 : 0 ≤ e0) (he1 : 0 ≤ e1) (u : K)
    (h : (npDiv (cfg.powA x'.2 * e1) (cfg.powA x'.1 * e0 + cfg.powA x'.2 * e1)).ge u = true) :
    (npDiv (cfg.powA x.2 * e1) (cfg.powA x.1 * e0 + cfg.powA x.2 * e1)).ge u = true := by
  have a0 := hc.powA _ h0
  have a0' := hc.powA _ (h0.trans_le hl.1)
  have a1' := hc.powA _ h1
  have a1 := hc.powA _ (h1.trans_le hl.2)
  have m0 := hc.mono _ _ h0 hl.1
  have m1 := hc.mono _ _ h1 hl.2
  rcases eq_or_lt_of_le he1 with h1z | h1p
  · rw [← h1z] at h ⊢
    rcases eq_or_lt_of_le he0 with h0z | h0p
    · rw [← h0z] at h ⊢
      simpa using h
    · have hp : cfg.powA x.1 * e0 ≠ 0 := (mul_pos a0 h0p).ne'
      have hp' : cfg.powA x'.1 * e0 ≠ 0 := (mul_pos a0' h0p).ne'
      unfold npDiv at h ⊢
      rw [mul_zero, add_zero] at h ⊢
      rw [if_neg hp'] at h
      rw [if_neg hp]
      simpa [NpFloat.ge] using h
  · have hs : 0 < cfg.powA x.1 * e0 + cfg.powA x.2 * e1 := add_pos_of_nonneg_of_pos (mul_nonneg a0.le he0) (mul_pos a1 h1p)
    have hs' : 0 < cfg.powA x'.1 * e0 + cfg.powA x'.2 * e1 := add_pos_of_nonneg_of_pos (mul_nonneg a0'.le he0) (mul_pos a1' h1p)
    unfold npDiv at h ⊢
    rw [if_neg hs'.ne'] at h
    rw [if_neg hs.ne']
    have h' : u ≤ cfg.powA x'.2 * e1 / (cfg.powA x'.1 * e0 + cfg.powA x'.2 * e1) := of_decide_eq_true h
    refine decide_eq_true (h'.trans ?_)
    rw [div_le_div_iff₀ hs' hs]
    have k1 : cfg.powA x'.2 * e1 ≤ cfg.powA x.2 * e1 := mul_le_mul_of_nonneg_right m1 he1
    have k0 : cfg.powA x.1 * e0 ≤ cfg.powA x'.1 * e0 := mul_le_mul_of_nonneg_right m0 he0
    have := mul_le_mul k1 k0 (mul_nonneg a0.le he0) (mul_nonneg a1.le he1)
    ring_nf
    ring_nf at this
    linarith

theorem etaPow_nonneg (cfg : AntCfg K) (hc : cfg.Monotone) (e : Option K) (he : ∀ x, e = some x → 0 ≤ x) (p : K) (h : cfg.etaPow e = some p) : 0 ≤ p := by
  cases e with
  | none => exact hc.nanB p h
  | some x => rw [← Option.some.inj h]; exact hc.powB x (he x rfl)

theorem decides_mono (cfg : AntCfg K) (hc : cfg.Monotone) (x x' : K × K) (hl : Leans x x') (h0 : 0 < x.1) (h1 : 0 < x'.2) (e0 e1 : Option K) (he0 : ∀ x, e0 = some x → 0 ≤ x)
    (he1 : ∀ x, e1 = some x → 0 ≤ x) (u : K) (h : cfg.decides x' e0 e1 u = true) : cfg.decides x e0 e1 u = true := by
  unfold AntCfg.decides at h ⊢
  cases h2 : cfg.etaPow e0 with
  | none => rw [h2] at h; cases h
  | some p0 =>
    cases h3 : cfg.etaPow e1 with
    | none => rw [h2, h3] at h; cases h
    | some p1 =>
      rw [h2, h3] at h
      exact decision_mono cfg hc x x' hl h0 h1 _ _ (etaPow_nonneg cfg hc e0 he0 _ h2) (etaPow_nonneg cfg hc e1 he1 _ h3) u h

theorem weights_pos (fits : List K) (ws : List (K × K)) (h : relativeFitness fits (1 / 2) = .ok (some ws)) : ∀ w ∈ ws, 0 ≤ w.1 ∧ 0 ≤ w.2 := by
  have hne : ∃ a ∈ fits, ∃ b ∈ fits, a < b := by
    by_contra hcon
    push Not at hcon
    cases fits with
    | nil => simp [relativeFitness, npMin] at h; split at h <;> cases h
    | cons c cs =>
      have hall : c :: cs = List.replicate (cs.length + 1) c := by
        refine List.eq_replicate_iff.mpr ⟨by simp, fun b hb => ?_⟩
        exact le_antisymm (hcon _ List.mem_cons_self _ hb) (hcon _ hb _ List.mem_cons_self)
      rw [hall, C69_refuted c (1 / 2) one_half_lt_one cs.length] at h
      cases h
  obtain ⟨ws', h1, h2, h3, _⟩ := C69_partial fits (1 / 2) one_half_pos.le one_half_lt_one hne
  rw [h1] at h
  cases h
  intro w hw
  obtain ⟨a, _, b, _, _⟩ := h3 w hw
  have : (0 : K) ≤ 1 - 1 / 2 := by linarith [one_half_lt_one (α := K)]
  exact ⟨this.trans a, this.trans b⟩

theorem binaryBuild_mono (cfg : AntCfg K) (hc : cfg.Monotone) (pool : AntPool K) (j : Nat) (m m' : List (K × K)) (hf : (Pheromones.binary m).Favours j (.binary m'))
    (hm : ∀ x ∈ m, 0 < x.1 ∧ 0 < x.2) (hm' : ∀ x ∈ m', 0 < x.1 ∧ 0 < x.2) (u : Nat → K) (g g' : List Bool) (h : binaryBuild cfg pool m u = .ok g)
    (h' : binaryBuild cfg pool m' u = .ok g') (ht : g'.getD j false = true) : g.getD j false = true := by
  unfold binaryBuild at h h'
  cases hr : relativeFitness pool.fits (1 / 2) with
  | error e => rw [hr] at h; cases h
  | ok o =>
    rw [hr] at h h'
    cases o with
    | none =>
      dsimp only at h h'
      split at h'
      · cases h'
      · rename_i hl'
        rw [if_neg (by rw [hf.1]; exact hl')] at h
        injection h' with h'
        injection h with h
        rw [← h', List.getD_eq_getElem?_getD, List.getElem?_mapIdx] at ht
        rw [← h, List.getD_eq_getElem?_getD, List.getElem?_mapIdx]
        cases hx' : m'[j]? with
        | none => rw [hx'] at ht; cases ht
        | some x' =>
          rw [hx'] at ht
          have hj : j < m.length := by rw [hf.1]; exact (List.getElem?_eq_some_iff.mp hx').1
          rw [List.getElem?_eq_getElem hj]
          exact decides_mono cfg hc m[j] x' (hf.2 _ _ (List.getElem?_eq_getElem hj) hx') (hm _ (List.getElem_mem hj)).1 (hm' _ (List.mem_of_getElem? hx')).2 none none
            (fun _ h => by cases h) (fun _ h => by cases h) _ ht
    | some ws =>
      dsimp only at h h'
      by_cases hl' : m'.length ≠ ws.length
      · rw [if_pos hl'] at h'; cases h'
      have hl : ¬ m.length ≠ ws.length := by rw [hf.1]; exact hl'
      rw [if_neg hl'] at h'
      rw [if_neg hl] at h
      injection h with h
      injection h' with h'
      rw [← h', List.getD_eq_getElem?_getD, List.getElem?_mapIdx] at ht
      rw [← h, List.getD_eq_getElem?_getD, List.getElem?_mapIdx]
      cases hx' : (m'.zip ws)[j]? with
      | none => rw [hx'] at ht; cases ht
      | some y' =>
        rw [hx'] at ht
        obtain ⟨x', w⟩ := y'
        obtain ⟨hxm', hxw⟩ := List.getElem?_zip_eq_some.mp hx'
        have hj : j < m.length := by rw [hf.1]; exact (List.getElem?_eq_some_iff.mp hxm').1
        have hx : (m.zip ws)[j]? = some (m[j], w) := List.getElem?_zip_eq_some.mpr ⟨List.getElem?_eq_getElem hj, hxw⟩
        rw [hx]
        have hw := weights_pos _ _ hr w (List.mem_of_getElem? hxw)
        exact decides_mono cfg hc m[j] x' (hf.2 _ _ (List.getElem?_eq_getElem hj) hxm') (hm _ (List.getElem_mem hj)).1 (hm' _ (List.mem_of_getElem? hxm')).2
          (some w.1) (some w.2) (fun _ h => by rw [← Option.some.inj h]; exact hw.1) (fun _ h => by rw [← Option.some.inj h]; exact hw.2) (u j) ht

theorem pairSum_leans (l l' : List (K × K)) (h : List.Forall₂ (fun x x' => Leans x x' ∧ 0 < x.1 ∧ 0 < x'.2) l l') (hne : l ≠ []) :
    Leans (pairSum l) (pairSum l') ∧ 0 < (pairSum l).1 ∧ 0 < (pairSum l').2 := by
  have key : ∀ l l' : List (K × K), List.Forall₂ (fun x x' => Leans x x' ∧ 0 < x.1 ∧ 0 < x'.2) l l' → Leans (pairSum l) (pairSum l') ∧ 0 ≤ (pairSum l).1 ∧ 0 ≤ (pairSum l').2 := by
    intro l l' h
    induction h with
    | nil => exact ⟨⟨le_refl _, le_refl _⟩, le_refl _, le_refl _⟩
    | cons hr _ ih =>
      simp only [pairSum, List.map_cons, List.sum_cons, Leans] at ih ⊢
      obtain ⟨⟨a, b⟩, c, e⟩ := hr
      obtain ⟨⟨a', b'⟩, c', e'⟩ := ih
      exact ⟨⟨by linarith, by linarith⟩, by linarith, by linarith⟩
  cases h with
  | nil => exact absurd rfl hne
  | cons hr ht =>
    have ih := key _ _ ht
    simp only [pairSum, List.map_cons, List.sum_cons, Leans] at ih ⊢
    obtain ⟨⟨a, b⟩, c, e⟩ := hr
    obtain ⟨⟨a', b'⟩, c', e'⟩ := ih
    exact ⟨⟨by linarith, by linarith⟩, by linarith, by linarith⟩

theorem completeDecide_mono (cfg : AntCfg K) (hc : cfg.Monotone) (pool : AntPool K) (fitness : Option (List (K × K))) (n j : Nat) (hj : j < n) (m m' : List (List (K × K)))
    (hs : (Pheromones.complete m).Shape n .complete) (hs' : (Pheromones.complete m').Shape n .complete) (hf : (Pheromones.complete m).Favours j (.complete m'))
    (hm : ∀ row ∈ m, ∀ x ∈ row, 0 < x.1 ∧ 0 < x.2) (hm' : ∀ row ∈ m', ∀ x ∈ row, 0 < x.1 ∧ 0 < x.2) (route : List Nat) (hroute : ∀ i ∈ route, i < n) (u : K)
    (h : completeDecide cfg pool fitness m' route j u = true) : completeDecide cfg pool fitness m route j u = true := by
  have hcol : List.Forall₂ (fun x x' => Leans x x' ∧ 0 < x.1 ∧ 0 < x'.2) (m.map fun row => row.getD j (0, 0)) (m'.map fun row => row.getD j (0, 0)) := by
    refine List.forall₂_map_left_iff.mpr (List.forall₂_map_right_iff.mpr ?_)
    refine List.forall₂_iff_get.mpr ⟨List.Forall₂.length_eq hf, fun i hi hi' => ?_⟩
    obtain ⟨hl, hr⟩ := (List.forall₂_iff_get.mp hf).2 i hi hi'
    simp only [List.get_eq_getElem] at hl hr ⊢
    have h1 : j < m[i].length := by rw [hs.2 _ (List.getElem_mem hi)]; exact hj
    have h1' : j < m'[i].length := by rw [← hl]; exact h1
    rw [List.getD_eq_getElem?_getD, List.getD_eq_getElem?_getD, List.getElem?_eq_getElem h1, List.getElem?_eq_getElem h1']
    exact ⟨hr _ _ (List.getElem?_eq_getElem h1) (List.getElem?_eq_getElem h1'), (hm _ (List.getElem_mem hi) _ (List.getElem_mem h1)).1,
      (hm' _ (List.getElem_mem hi') _ (List.getElem_mem h1')).2⟩
  have hcell : ∀ i, i < n → Leans (cell m i j) (cell m' i j) ∧ 0 < (cell m i j).1 ∧ 0 < (cell m' i j).2 := by
    intro i hi
    have h1 : i < m.length := by rw [hs.1]; exact hi
    have h1' : i < m'.length := by rw [hs'.1]; exact hi
    have := (List.forall₂_iff_get.mp hcol).2 i (by simpa using h1) (by simpa using h1')
    simp only [List.get_eq_getElem, List.getElem_map] at this
    unfold cell
    rw [List.getD_eq_getElem?_getD (l := m), List.getD_eq_getElem?_getD (l := m'), List.getElem?_eq_getElem h1, List.getElem?_eq_getElem h1']
    exact this
  have hcells : ∀ l : List Nat, (∀ i ∈ l, i < n) → List.Forall₂ (fun x x' => Leans x x' ∧ 0 < x.1 ∧ 0 < x'.2) (l.map fun i => cell m i j) (l.map fun i => cell m' i j) :=
    fun l hl => List.forall₂_map_left_iff.mpr (List.forall₂_map_right_iff.mpr (List.forall₂_same.mpr fun i hi => hcell i (hl i hi)))
  have hmne : m ≠ [] := by
    intro h0
    have := hs.1
    rw [h0] at this
    simp at this
    omega
  have htau : ∀ (o : Option (K × K)) (x x' : K × K), Leans x x' → 0 < x.1 → 0 < x'.2 → cfg.weigh x' fitness o j u = true → cfg.weigh x fitness o j u = true := by
    intro o x x' hl h0 h1 hd
    have hn : cfg.decides x' none none u = true → cfg.decides x none none u = true :=
      decides_mono cfg hc x x' hl h0 h1 none none (fun _ h => by cases h) (fun _ h => by cases h) u
    cases fitness with
    | none => exact hn hd
    | some f =>
      cases o with
      | none => exact hn hd
      | some o => exact decides_mono cfg hc x x' hl h0 h1 _ _ (fun _ h => hc.sqrt _ _ h) (fun _ h => hc.sqrt _ _ h) u hd
  unfold completeDecide at h ⊢
  cases hlast : route.getLast? with
  | none =>
    rw [hlast] at h
    have hsum := pairSum_leans _ _ hcol (by simpa using hmne)
    exact htau (some (1, 1)) _ _ hsum.1 hsum.2.1 hsum.2.2 h
  | some last =>
    rw [hlast] at h
    have hlm : last < n := hroute _ (List.mem_of_getLast? hlast)
    dsimp only at h ⊢
    by_cases hp : cfg.partialRoute = true
    · rw [if_pos hp, if_pos hp] at h
      rw [if_pos hp, if_pos hp]
      have hsum := pairSum_leans _ _ (hcells (route ++ [j]) fun i hi => by
        rcases List.mem_append.mp hi with hi | hi
        · exact hroute i hi
        · rw [List.mem_singleton.mp hi]; exact hj) (by simp)
      exact htau _ _ _ hsum.1 hsum.2.1 hsum.2.2 h
    · rw [if_neg hp, if_neg hp] at h
      rw [if_neg hp, if_neg hp]
      have hsum := pairSum_leans _ _ (hcells [last, j] fun i hi => by
        rcases List.mem_cons.mp hi with hi | hi
        · rw [hi]; exact hlm
        · rw [List.mem_singleton.mp hi]; exact hj) (by simp)
      exact htau _ _ _ hsum.1 hsum.2.1 hsum.2.2 h

/-! ## The way of an ant through the complete graph -/

theorem completeRoute_append (cfg : AntCfg K) (pool : AntPool K) (fitness : Option (List (K × K))) (m : List (List (K × K))) (u : Nat → K) (pre post : List Nat) (k : Nat) (route : List Nat) :
    completeRoute cfg pool fitness m u (pre ++ post) k route = completeRoute cfg pool fitness m u post (k + pre.length) (completeRoute cfg pool fitness m u pre k route) := by
  induction pre generalizing k route with
  | nil => rfl
  | cons a as ih =>
    rw [List.cons_append, completeRoute, completeRoute, ih, List.length_cons, Nat.add_assoc, Nat.add_comm 1]

theorem completeRoute_sublist (cfg : AntCfg K) (pool : AntPool K) (fitness : Option (List (K × K))) (m : List (List (K × K))) (u : Nat → K) (l : List Nat) (k : Nat) (route : List Nat) :
    ∃ s, s.Sublist l ∧ completeRoute cfg pool fitness m u l k route = route ++ s := by
  induction l generalizing k route with
  | nil => exact ⟨[], List.Sublist.refl _, by simp [completeRoute]⟩
  | cons a as ih =>
    rw [completeRoute]
    split
    · obtain ⟨s, hs, he⟩ := ih (k + 1) (route ++ [a])
      exact ⟨a :: s, hs.cons_cons a, by rw [he]; simp⟩
    · obtain ⟨s, hs, he⟩ := ih (k + 1) route
      exact ⟨s, hs.cons a, he⟩

theorem sublist_ext {α : Type} (l : List α) (hl : l.Nodup) (s s' : List α) (hs : s.Sublist l) (hs' : s'.Sublist l) (h : ∀ a ∈ l, a ∈ s ↔ a ∈ s') : s = s' := by
  induction l generalizing s s' with
  | nil => rw [List.sublist_nil.mp hs, List.sublist_nil.mp hs']
  | cons a as ih =>
    obtain ⟨ha, hn⟩ := List.nodup_cons.mp hl
    have hin : ∀ t : List α, t.Sublist (a :: as) → (a ∈ t → ∃ r, t = a :: r ∧ r.Sublist as) ∧ (a ∉ t → t.Sublist as) := by
      intro t ht
      cases ht with
      | cons _ ht => exact ⟨fun hm => absurd (ht.subset hm) ha, fun _ => ht⟩
      | cons_cons _ ht => exact ⟨fun _ => ⟨_, rfl, ht⟩, fun hm => absurd List.mem_cons_self hm⟩
    have hmem := h a List.mem_cons_self
    by_cases hm : a ∈ s
    · obtain ⟨r, rfl, hr⟩ := (hin s hs).1 hm
      obtain ⟨r', rfl, hr'⟩ := (hin s' hs').1 (hmem.mp hm)
      congr 1
      refine ih hn r r' hr hr' fun b hb => ?_
      have hba : b ≠ a := fun hba => ha (hba ▸ hb)
      have := h b (List.mem_cons_of_mem _ hb)
      rwa [List.mem_cons, List.mem_cons, or_iff_right hba, or_iff_right hba] at this
    · exact ih hn s s' ((hin s hs).2 hm) ((hin s' hs').2 fun h' => hm (hmem.mpr h')) fun b hb => h b (List.mem_cons_of_mem _ hb)

theorem completeBuild_mono (cfg : AntCfg K) (hc : cfg.Monotone) (pool : AntPool K) (j : Nat) (m m' : List (List (K × K)))
    (hs : (Pheromones.complete m).Shape pool.fits.length .complete) (hs' : (Pheromones.complete m').Shape pool.fits.length .complete)
    (hf : (Pheromones.complete m).Favours j (.complete m')) (hm : ∀ row ∈ m, ∀ x ∈ row, 0 < x.1 ∧ 0 < x.2) (hm' : ∀ row ∈ m', ∀ x ∈ row, 0 < x.1 ∧ 0 < x.2)
    (pre post : List Nat) (horder : (pre ++ j :: post).Nodup) (hlt : ∀ i ∈ pre ++ j :: post, i < pool.fits.length) (u : Nat → K) (g g' : List Bool)
    (h : completeBuild cfg pool m (pre ++ j :: post) u = .ok g) (h' : completeBuild cfg pool m' (pre ++ j :: post) u = .ok g')
    (halike : ∀ k ∈ pre, g.getD k false = g'.getD k false) (ht : g'.getD j false = true) : g.getD j false = true := by
  have hjn : j < pool.fits.length := hlt j (by simp)
  unfold completeBuild at h h'
  cases hr : relativeFitness pool.fits (1 / 2) with
  | error e => rw [hr] at h; cases h
  | ok o =>
    rw [hr] at h h'
    generalize o = ws at h h'
    · injection h with h
      injection h' with h'
      have hget : ∀ (r : List Nat) (k : Nat), k < pool.fits.length → (((List.range pool.fits.length).map fun i => r.contains i).getD k false = true ↔ k ∈ r) := by
        intro r k hk
        rw [List.getD_eq_getElem?_getD, List.getElem?_map, List.getElem?_range hk]
        simp
      obtain ⟨hnp, hnj, hdis⟩ := List.nodup_append.mp horder
      obtain ⟨hjp, _⟩ := List.nodup_cons.mp hnj
      have hjpre : j ∉ pre := fun hj => hdis j hj j List.mem_cons_self rfl
      -- the way is the way before `j`, the decision about `j` and the rest
      have hway : ∀ M : List (List (K × K)), ∃ s, s.Sublist post ∧ completeRoute cfg pool ws M u (pre ++ j :: post) 0 [] =
          (if completeDecide cfg pool ws M (completeRoute cfg pool ws M u pre 0 []) j (u (0 + pre.length)) then completeRoute cfg pool ws M u pre 0 [] ++ [j]
            else completeRoute cfg pool ws M u pre 0 []) ++ s := by
        intro M
        rw [completeRoute_append, completeRoute]
        exact completeRoute_sublist cfg pool ws M u post _ _
      have hpre : ∀ M : List (List (K × K)), (completeRoute cfg pool ws M u pre 0 []).Sublist pre := by
        intro M
        obtain ⟨s, hs, he⟩ := completeRoute_sublist cfg pool ws M u pre 0 []
        rw [he]; exact hs
      have hmemj : ∀ M : List (List (K × K)), j ∈ completeRoute cfg pool ws M u (pre ++ j :: post) 0 [] ↔
          completeDecide cfg pool ws M (completeRoute cfg pool ws M u pre 0 []) j (u (0 + pre.length)) = true := by
        intro M
        obtain ⟨s, hs, he⟩ := hway M
        rw [he, List.mem_append]
        have h1 : j ∉ s := fun hj => hjp (hs.subset hj)
        have h2 : j ∉ completeRoute cfg pool ws M u pre 0 [] := fun hj => hjpre ((hpre M).subset hj)
        by_cases hd : completeDecide cfg pool ws M (completeRoute cfg pool ws M u pre 0 []) j (u (0 + pre.length)) = true
        · rw [if_pos hd]; exact ⟨fun _ => hd, fun _ => Or.inl (by simp)⟩
        · rw [if_neg hd]; exact ⟨fun hor => (hor.elim h2 h1).elim, fun hd' => absurd hd' hd⟩
      have hmemk : ∀ M : List (List (K × K)), ∀ k ∈ pre, k ∈ completeRoute cfg pool ws M u (pre ++ j :: post) 0 [] ↔ k ∈ completeRoute cfg pool ws M u pre 0 [] := by
        intro M k hk
        obtain ⟨s, hs, he⟩ := hway M
        rw [he, List.mem_append]
        have h1 : k ∉ s := fun hks => hdis k hk k (List.mem_cons_of_mem _ (hs.subset hks)) rfl
        have h2 : k ≠ j := fun hkj => hjpre (hkj ▸ hk)
        rw [or_iff_left h1]
        split
        · rw [List.mem_append, List.mem_singleton, or_iff_left h2]
        · exact Iff.rfl
      have hsame : completeRoute cfg pool ws m u pre 0 [] = completeRoute cfg pool ws m' u pre 0 [] := by
        refine sublist_ext pre hnp _ _ (hpre m) (hpre m') fun k hk => ?_
        rw [← hmemk m k hk, ← hmemk m' k hk]
        have hkn := hlt k (List.mem_append_left _ hk)
        rw [← hget _ k hkn, ← hget (completeRoute cfg pool ws m' u (pre ++ j :: post) 0 []) k hkn, h, h', halike k hk]
      rw [← h', hget _ j hjn, hmemj] at ht
      rw [← h, hget _ j hjn, hmemj, hsame]
      exact completeDecide_mono cfg hc pool ws pool.fits.length j hjn m m' hs hs' hf hm hm' _
        (fun i hi => hlt i (List.mem_append_left _ ((hpre m').subset hi))) _ ht

end Ordered

/-! ## The claim -/

section Claim

variable [IsStrictOrderedRing K]

theorem acoStep_pher (cfg : AcoCfg K) (pool : AntPool K) (ev : Eval K) (s t : AcoState K) (d : Nat → AntDraw K) (h : (acoStep cfg pool s d).run ev = .ok t) :
    t.pher = (((sortedDesc Indiv.fitnessD t.pop).take cfg.nBest).foldl (fun p σ => p.update σ.genome (σ.fitnessD * cfg.c)) (s.pher.map fun x => x * (1 - cfg.evaporation))).map
      (npClip cfg.minPheromone cfg.maxPheromone) := by
  have : (acoStep cfg pool s d).Sat ev (fun _ => True) fun t => t.pher =
      (((sortedDesc Indiv.fitnessD t.pop).take cfg.nBest).foldl (fun p σ => p.update σ.genome (σ.fitnessD * cfg.c)) (s.pher.map fun x => x * (1 - cfg.evaporation))).map
      (npClip cfg.minPheromone cfg.maxPheromone) := by
    unfold acoStep
    refine Prog.Sat.bind' (P := fun _ => True) (Prog.Sat.lift fun _ _ => True.intro) fun ants _ => ?_
    refine Prog.Sat.bind' (Prog.Sat.trivial ev _) fun pop _ => ?_
    exact rfl
  exact this.run t h

/-- The ants whose choices are reinforced are the best ones. -/
theorem C145_best (n : Nat) (pop : List (Indiv K)) : Spec.Best n pop ((sortedDesc Indiv.fitnessD pop).take n) where
  count := by rw [List.length_take, (sortedDesc_perm _ _).length_eq]
  rest := by
    refine ⟨(sortedDesc Indiv.fitnessD pop).drop n, ?_, ?_⟩
    · rw [List.take_append_drop]
      exact (sortedDesc_perm _ _).symm
    · intro σ hσ τ hτ
      have hp := sortedDesc_pairwise Indiv.fitnessD pop
      rw [← List.take_append_drop n (sortedDesc Indiv.fitnessD pop)] at hp
      exact (List.pairwise_append.mp hp).2.2 σ hσ τ hτ

/-- C145, if the fitness of the best ants is not negative. Missing: negative fitness, see `C145_refuted`. Two iterations start with the same pheromones; their best ants have the same fitness
and the same choices except that those of the first also take rule `j` wherever those of the second do. Then an ant that takes rule `j` after the second iteration would take it after the
first, too, with the same random numbers (in the complete graph: if it has made the same choices about the rules visited before). -/
theorem C145_partial (cfg : AcoCfg K) (hcfg : cfg.ant.Monotone) (hmin : 0 < cfg.minPheromone) (hmax : cfg.minPheromone ≤ cfg.maxPheromone) (hc : 0 ≤ cfg.c)
    (pool : AntPool K) (s s' t t' : AcoState K) (hp : s'.pher = s.pher) (hshape : s.pher.Shape pool.fits.length cfg.graph) (ev ev' : Eval K) (d d' : Nat → AntDraw K)
    (h : (acoStep cfg pool s d).run ev = .ok t) (h' : (acoStep cfg pool s' d').run ev' = .ok t') (j : Nat)
    (hbest : List.Forall₂ (Spec.TakesMore j) ((sortedDesc Indiv.fitnessD t.pop).take cfg.nBest) ((sortedDesc Indiv.fitnessD t'.pop).take cfg.nBest))
    (hpos : ∀ σ ∈ (sortedDesc Indiv.fitnessD t.pop).take cfg.nBest, 0 ≤ σ.fitnessD)
    (z : AntDraw K) (pre post : List Nat) (horder : z.order = pre ++ j :: post) (hnd : z.order.Nodup) (hlt : ∀ i ∈ z.order, i < pool.fits.length)
    (ant ant' a a' : Indiv K) (ha : t.pher.build cfg.ant pool z ant = .ok a) (ha' : t'.pher.build cfg.ant pool z ant' = .ok a')
    (halike : cfg.graph = .complete → ∀ k ∈ pre, a.genome.getD k false = a'.genome.getD k false) :
    a'.genome.getD j false = true → a.genome.getD j false = true := by
  intro ht
  have e := acoStep_pher cfg pool ev s t d h
  have e' := acoStep_pher cfg pool ev' s' t' d' h'
  rw [hp] at e'
  have hfav : t.pher.Favours j t'.pher := by
    rw [e, e']
    refine favours_map j _ (fun x y hxy => min_le_min_right _ (max_le_max_right _ hxy)) _ _ (favours_foldl j _ hc _ _ hbest hpos _ _ (favours_refl j _))
  have hsh : t.pher.Shape pool.fits.length cfg.graph := by
    rw [e]; exact map_shape _ _ _ _ (foldl_update_shape _ _ _ _ _ (map_shape _ _ _ _ hshape))
  have hsh' : t'.pher.Shape pool.fits.length cfg.graph := by
    rw [e']; exact map_shape _ _ _ _ (foldl_update_shape _ _ _ _ _ (map_shape _ _ _ _ hshape))
  have hval : ∀ (q : Pheromones K), ∀ x ∈ (q.map (npClip cfg.minPheromone cfg.maxPheromone)).values, 0 < x := by
    intro q x hx
    obtain ⟨y, _, rfl⟩ := mem_map_values _ _ x hx
    exact hmin.trans_le (le_min (le_max_right _ _) hmax)
  have hv : ∀ x ∈ t.pher.values, 0 < x := by rw [e]; exact hval _
  have hv' : ∀ x ∈ t'.pher.values, 0 < x := by rw [e']; exact hval _
  generalize t.pher = q at *
  generalize t'.pher = q' at *
  unfold Pheromones.build at ha ha'
  cases q with
  | binary m =>
    cases q' with
    | complete _ => exact hfav.elim
    | binary m' =>
      dsimp only at ha ha'
      have hpm : ∀ r : List (K × K), (∀ x ∈ (Pheromones.binary r).values, 0 < x) → ∀ x ∈ r, 0 < x.1 ∧ 0 < x.2 :=
        fun r h x hx => ⟨h _ (List.mem_flatMap.mpr ⟨x, hx, by simp⟩), h _ (List.mem_flatMap.mpr ⟨x, hx, by simp⟩)⟩
      cases hb : binaryBuild cfg.ant pool m z.u with
      | error er => rw [hb] at ha; cases ha
      | ok g =>
        cases hb' : binaryBuild cfg.ant pool m' z.u with
        | error er => rw [hb'] at ha'; cases ha'
        | ok g' =>
          rw [hb] at ha
          rw [hb'] at ha'
          injection ha with ha
          injection ha' with ha'
          rw [← ha'] at ht
          rw [← ha]
          exact binaryBuild_mono cfg.ant hcfg pool j m m' hfav (hpm m hv) (hpm m' hv') z.u g g' hb hb' ht
  | complete m =>
    cases q' with
    | binary _ => exact hfav.elim
    | complete m' =>
      have hg : cfg.graph = .complete := by
        cases hgr : cfg.graph with
        | complete => rfl
        | binary => rw [hgr] at hsh; exact hsh.elim
      rw [hg] at hsh hsh'
      dsimp only at ha ha'
      have hpm : ∀ r : List (List (K × K)), (∀ x ∈ (Pheromones.complete r).values, 0 < x) → ∀ row ∈ r, ∀ x ∈ row, 0 < x.1 ∧ 0 < x.2 :=
        fun r h row hrow x hx => ⟨h _ (List.mem_flatMap.mpr ⟨row, hrow, List.mem_flatMap.mpr ⟨x, hx, by simp⟩⟩), h _ (List.mem_flatMap.mpr ⟨row, hrow, List.mem_flatMap.mpr ⟨x, hx, by simp⟩⟩)⟩
      rw [horder] at ha ha' hnd hlt
      cases hb : completeBuild cfg.ant pool m (pre ++ j :: post) z.u with
      | error er => rw [hb] at ha; cases ha
      | ok g =>
        cases hb' : completeBuild cfg.ant pool m' (pre ++ j :: post) z.u with
        | error er => rw [hb'] at ha'; cases ha'
        | ok g' =>
          rw [hb] at ha
          rw [hb'] at ha'
          injection ha with ha
          injection ha' with ha'
          have hal := halike hg
          rw [← ha, ← ha'] at hal
          rw [← ha'] at ht
          rw [← ha]
          exact completeBuild_mono cfg.ant hcfg pool j m m' hsh hsh' hfav (hpm m hv) (hpm m' hv') pre post hnd hlt z.u g g' hb hb' hal ht

end Claim

/-- Parameters of the examples: the default amount of pheromone per fitness. -/
def demoAnts (g : AntGraph) : AcoCfg ℚ := ⟨⟨fun x => x, fun x => x, none, fun x => if 0 ≤ x then some x else none, 5, true⟩, g, 78 / 100, 10, 1 / 10, 1, 1 / 100⟩

/-- The same fitness for all. -/
def flatEval (f : ℚ) : Eval ℚ := fun g => .ok ⟨2, g.length, g.count true, f⟩

/-- The state after an iteration with a single ant that takes rule 0 or not. -/
def afterAnt (g : AntGraph) (f : ℚ) (takes : Bool) : Except PyErr (AcoState ℚ) :=
  (acoStep (demoAnts g) ⟨[1, 3], fun _ _ => some (1, 1)⟩ ⟨[⟨[false, false], none⟩], (match g with
    | .binary => .binary [(5, 5), (5, 5)]
    | .complete => .complete [[(5, 5), (5, 5)], [(5, 5), (5, 5)]]), []⟩
    fun _ => ⟨[0, 1], fun k => if k = 0 then (if takes then 0 else 1) else 0⟩).run (flatEval f)

/-- The next ant. -/
def nextAnt (g : AntGraph) (f : ℚ) (takes : Bool) (u : ℚ) : Option (List Bool) :=
  match afterAnt g f takes with
  | .error _ => none
  | .ok t => (t.pher.build (demoAnts g).ant ⟨[1, 3], fun _ _ => some (1, 1)⟩ ⟨[0, 1], fun _ => u⟩ ⟨[], none⟩).toOption.map Indiv.genome

theorem demoAnts_monotone (g : AntGraph) : (demoAnts g).ant.Monotone where
  powA := fun _ h => h
  mono := fun _ _ _ h => h
  powB := fun _ h => h
  nanB := fun _ h => by cases h
  sqrt := fun x e h => by
    by_cases hx : 0 ≤ x
    · have : (if 0 ≤ x then some x else none) = some e := h
      rw [if_pos hx] at this
      cases this
      exact hx
    · have : (if 0 ≤ x then some x else none) = some e := h
      rw [if_neg hx] at this
      cases this

/-- C145 is violated for negative fitness, as `PseudoBIC` gives for an error above 1 (`C102_bic_refuted`): the only, hence best, ant takes rule 0 in the first case and leaves it out in the
second, both with fitness -100. The next ant takes rule 0 in the second case but not in the first. This holds for both graphs. -/
theorem C145_refuted (g : AntGraph) :
    (demoAnts g).ant.Monotone ∧ 0 < (demoAnts g).minPheromone ∧ (demoAnts g).minPheromone ≤ (demoAnts g).maxPheromone ∧ 0 ≤ (demoAnts g).c ∧
    (afterAnt g (-100) true).toOption.map (fun t => t.pop.map fun σ => (σ.genome, σ.fitnessD)) = some [([true, true], -100)] ∧
    (afterAnt g (-100) false).toOption.map (fun t => t.pop.map fun σ => (σ.genome, σ.fitnessD)) = some [([false, true], -100)] ∧
    nextAnt g (-100) true (1 / 2) = some [false, false] ∧ nextAnt g (-100) false (1 / 2) = some [true, false] := by
  refine ⟨demoAnts_monotone g, ?_⟩
  cases g <;> decide +kernel

/-- With the same fitness above 0 it is the other way round. -/
example (g : AntGraph) : nextAnt g 100 true (1 / 2) = some [true, true] ∧ nextAnt g 100 false (1 / 2) = some [false, true] := by cases g <;> decide +kernel

/-- The hypotheses of `C145_partial` are met by these two iterations. -/
example (g : AntGraph) (a a' : Indiv ℚ) (t t' : AcoState ℚ) (h : afterAnt g 100 true = .ok t) (h' : afterAnt g 100 false = .ok t')
    (ha : t.pher.build (demoAnts g).ant ⟨[1, 3], fun _ _ => some (1, 1)⟩ ⟨[0, 1], fun _ => 1 / 3⟩ ⟨[], none⟩ = .ok a)
    (ha' : t'.pher.build (demoAnts g).ant ⟨[1, 3], fun _ _ => some (1, 1)⟩ ⟨[0, 1], fun _ => 1 / 3⟩ ⟨[], none⟩ = .ok a') : a'.genome.getD 0 false = true → a.genome.getD 0 false = true := by
  refine C145_partial (demoAnts g) (demoAnts_monotone g) (by cases g <;> decide +kernel) (by cases g <;> decide +kernel) (by cases g <;> decide +kernel) ⟨[1, 3], fun _ _ => some (1, 1)⟩
    _ _ t t' rfl (by cases g <;> simp [Pheromones.Shape, demoAnts]) _ _ _ _ h h' 0 ?_ ?_ ⟨[0, 1], fun _ => 1 / 3⟩ [] [1] rfl (by decide) (by decide) _ _ a a' ha ha' (by simp)
  · have e : (afterAnt g 100 true).toOption.map (fun t => ((sortedDesc Indiv.fitnessD t.pop).take 1).map fun σ => (σ.genome, σ.fitnessD)) = some [([true, true], 100)] := by
      cases g <;> decide +kernel
    have e' : (afterAnt g 100 false).toOption.map (fun t => ((sortedDesc Indiv.fitnessD t.pop).take 1).map fun σ => (σ.genome, σ.fitnessD)) = some [([false, true], 100)] := by
      cases g <;> decide +kernel
    rw [h] at e
    rw [h'] at e'
    obtain ⟨σ, r, hr, e1, e2⟩ := List.map_eq_cons_iff.mp (Option.some.inj e)
    obtain ⟨σ', r', hr', e1', e2'⟩ := List.map_eq_cons_iff.mp (Option.some.inj e')
    rw [List.map_eq_nil_iff.mp e2] at hr
    rw [List.map_eq_nil_iff.mp e2'] at hr'
    show List.Forall₂ _ ((sortedDesc Indiv.fitnessD t.pop).take 1) ((sortedDesc Indiv.fitnessD t'.pop).take 1)
    rw [hr, hr']
    rw [Prod.mk.injEq] at e1 e1'
    refine List.Forall₂.cons ⟨by rw [e1.2, e1'.2], fun k hk => ?_, fun _ => by rw [e1.1]; rfl⟩ List.Forall₂.nil
    rw [e1.1, e1'.1]
    match k, hk with
    | k + 1, _ => rfl
  · intro σ hσ
    have e : (afterAnt g 100 true).toOption.map (fun t => ((sortedDesc Indiv.fitnessD t.pop).take 1).map fun σ => σ.fitnessD) = some [100] := by
      cases g <;> decide +kernel
    rw [h] at e
    have hm : σ.fitnessD ∈ ((sortedDesc Indiv.fitnessD t.pop).take 1).map fun σ => σ.fitnessD := List.mem_map_of_mem hσ
    have e2 : (((sortedDesc Indiv.fitnessD t.pop).take 1).map fun σ => σ.fitnessD) = [100] := Option.some.inj e
    rw [e2, List.mem_singleton] at hm
    rw [hm]
    norm_num

end Suprb
