import Verif.Model.Sas
import Verif.Lemmas.Saga
import Verif.Props.Saga
import Verif.Props.Solution
import Mathlib.Data.List.GetD

/-!
# Claim C64 (and C73) for the genetic algorithm with ageing
-/

set_option autoImplicit false
set_option linter.unusedSectionVars false

namespace Suprb

variable {K : Type} [Field K] [LinearOrder K] [IsStrictOrderedRing K]

/-! ## The median -/

theorem getD_le_of_pairwise (l : List K) (h : l.Pairwise (· ≤ ·)) (i j : Nat) (hij : i ≤ j) (hj : j < l.length) : l.getD i 0 ≤ l.getD j 0 := by
  rw [List.getD_eq_getElem _ _ (lt_of_le_of_lt hij hj), List.getD_eq_getElem _ _ hj]
  rcases Nat.lt_or_ge i j with hlt | hge
  · exact List.pairwise_iff_getElem.mp h i j _ hj hlt
  · have : i = j := le_antisymm hij hge
    subst this
    exact le_refl _

/-- In a sorted list, when position `k` is not above `m`, then at most the elements after position `k` are above `m`. -/
theorem countP_above (l : List K) (h : l.Pairwise (· ≤ ·)) (k : Nat) (m : K) (hk : k < l.length) (hm : l.getD k 0 ≤ m) :
    l.countP (fun x => decide (m < x)) ≤ l.length - (k + 1) := by
  have h1 : (l.take (k + 1)).countP (fun x => decide (m < x)) = 0 := by
    rw [List.countP_eq_zero]
    intro x hx
    obtain ⟨i, hi, rfl⟩ := List.mem_iff_getElem.mp hx
    rw [List.length_take] at hi
    have hik : i ≤ k := by omega
    have := getD_le_of_pairwise l h i k hik hk
    rw [List.getD_eq_getElem _ _ (lt_of_le_of_lt hik hk)] at this
    rw [List.getElem_take]
    simpa using this.trans hm
  have h2 : l.countP (fun x => decide (m < x)) = (l.take (k + 1)).countP (fun x => decide (m < x)) + (l.drop (k + 1)).countP (fun x => decide (m < x)) := by
    rw [← List.countP_append, List.take_append_drop]
  rw [h2, h1, zero_add]
  exact (List.countP_le_length).trans (by rw [List.length_drop])

theorem countP_below (l : List K) (h : l.Pairwise (· ≤ ·)) (k : Nat) (m : K) (hk : k < l.length) (hm : m ≤ l.getD k 0) :
    l.countP (fun x => decide (x < m)) ≤ k := by
  have h1 : (l.drop k).countP (fun x => decide (x < m)) = 0 := by
    rw [List.countP_eq_zero]
    intro x hx
    obtain ⟨i, hi, rfl⟩ := List.mem_iff_getElem.mp hx
    rw [List.length_drop] at hi
    have := getD_le_of_pairwise l h k (k + i) (by omega) (by omega)
    rw [List.getD_eq_getElem _ _ (by omega : k + i < l.length)] at this
    rw [List.getElem_drop]
    simpa using hm.trans this
  have h2 : l.countP (fun x => decide (x < m)) = (l.take k).countP (fun x => decide (x < m)) + (l.drop k).countP (fun x => decide (x < m)) := by
    rw [← List.countP_append, List.take_append_drop]
  rw [h2, h1, add_zero]
  exact (List.countP_le_length).trans (by rw [List.length_take]; omega)

/-- The model of `np.median` is a median: at most half of the values are above it and at most half are below it. -/
theorem npMedian_half (l : List K) (hl : l ≠ []) :
    2 * l.countP (fun x => decide (npMedian l < x)) ≤ l.length ∧ 2 * l.countP (fun x => decide (x < npMedian l)) ≤ l.length := by
  have hperm := sortedAsc_perm (id : K → K) l
  have hpw := sortedAsc_pairwise (id : K → K) l
  have hlen := hperm.length_eq
  have hpos : 0 < l.length := List.length_pos_iff.mpr hl
  rw [← hperm.countP_eq, ← hperm.countP_eq]
  unfold npMedian
  dsimp only
  generalize hs : sortedAsc (id : K → K) l = s at *
  have hpw' : s.Pairwise (· ≤ ·) := hpw
  split
  · rename_i hodd
    have ha := countP_above s hpw' (l.length / 2) (s.getD (l.length / 2) 0) (by omega) (le_refl _)
    have hb := countP_below s hpw' (l.length / 2) (s.getD (l.length / 2) 0) (by omega) (le_refl _)
    omega
  · rename_i heven
    have hle := getD_le_of_pairwise s hpw' (l.length / 2 - 1) (l.length / 2) (by omega) (by omega)
    have ha := countP_above s hpw' (l.length / 2 - 1) ((s.getD (l.length / 2 - 1) 0 + s.getD (l.length / 2) 0) / 2) (by omega) (by linarith)
    have hb := countP_below s hpw' (l.length / 2) ((s.getD (l.length / 2 - 1) 0 + s.getD (l.length / 2) 0) / 2) (by omega) (by linarith)
    omega

/-! ## C64: one selection -/

theorem ageing_spec (size : Nat) (pop parents : List (Aged K)) (h : ageing size pop = .ok parents) :
    ∃ last ∈ pop, ((sortedDesc (fun o : Aged K => o.indiv.fitnessD) pop).take (size * 5)).getLast? = some last ∧
    parents = (pop.map fun o => Aged.mk o.indiv (newAge pop.length (size * 5) (npMedian (pop.map fun o => o.indiv.fitnessD)) last.indiv.fitnessD
      o.indiv.fitnessD o.age)).filter fun o => decide (0 < o.age) := by
  unfold ageing at h
  split at h
  · dsimp only at h
    split at h
    · cases h
    · rename_i last hlast
      injection h with h
      refine ⟨last, ?_, hlast, h.symm⟩
      exact mem_sortedDesc_take _ _ _ _ (List.mem_of_getLast? hlast)
  · cases h

/-- Fitter than the median and in a population of at most twice `top_n` solutions means being among the best `top_n`. -/
theorem not_below_top (size : Nat) (pop : List (Aged K)) (hsize : pop.length ≤ 2 * (size * 5)) (last o : Aged K) (ho : o ∈ pop)
    (hlast : ((sortedDesc (fun o : Aged K => o.indiv.fitnessD) pop).take (size * 5)).getLast? = some last)
    (hm : npMedian (pop.map fun o => o.indiv.fitnessD) < o.indiv.fitnessD) (hn : size * 5 ≤ pop.length) : last.indiv.fitnessD ≤ o.indiv.fitnessD := by
  by_contra hlt
  rw [not_le] at hlt
  set key := fun o : Aged K => o.indiv.fitnessD with hkey
  set s := sortedDesc key pop with hs
  have hperm : s.Perm pop := sortedDesc_perm key pop
  have hpw : s.Pairwise fun a b => key b ≤ key a := sortedDesc_pairwise key pop
  have hlen : s.length = pop.length := hperm.length_eq
  have hfs : pop.map key ≠ [] := by
    intro h0
    rw [List.map_eq_nil_iff] at h0
    rw [h0] at ho
    cases ho
  have hhalf := (npMedian_half (pop.map key) hfs).1
  rw [List.countP_map, List.length_map] at hhalf
  have htop : ∀ x ∈ s.take (size * 5), last.indiv.fitnessD ≤ x.indiv.fitnessD := by
    have hpt : (s.take (size * 5)).Pairwise fun a b => key b ≤ key a := List.Pairwise.sublist (List.take_sublist _ _) hpw
    obtain ⟨pre, hpre⟩ := List.getLast?_eq_some_iff.mp hlast
    rw [hpre] at hpt ⊢
    intro x hx
    rcases List.mem_append.mp hx with hx | hx
    · exact (List.pairwise_append.mp hpt).2.2 x hx last (List.mem_singleton_self _)
    · rw [List.mem_singleton.mp hx]
  have hmem : o ∈ s.drop (size * 5) := by
    have : o ∈ s := hperm.mem_iff.mpr ho
    rw [← List.take_append_drop (size * 5) s, List.mem_append] at this
    rcases this with h | h
    · exact absurd (htop o h) (not_le.mpr hlt)
    · exact h
  have hc1 : (s.take (size * 5)).countP (fun x => decide (npMedian (pop.map key) < key x)) = size * 5 := by
    rw [List.countP_eq_length.mpr]
    · rw [List.length_take, hlen]; omega
    · intro x hx
      exact decide_eq_true (hm.trans (hlt.trans_le (htop x hx)))
  have hc2 : 0 < (s.drop (size * 5)).countP (fun x => decide (npMedian (pop.map key) < key x)) := by
    rw [List.countP_pos_iff]
    exact ⟨o, hmem, decide_eq_true hm⟩
  have hc : s.countP (fun x => decide (npMedian (pop.map key) < key x)) =
      (s.take (size * 5)).countP (fun x => decide (npMedian (pop.map key) < key x)) +
      (s.drop (size * 5)).countP (fun x => decide (npMedian (pop.map key) < key x)) := by
    rw [← List.countP_append, List.take_append_drop]
  have hcp : pop.countP ((fun x => decide (npMedian (pop.map key) < x)) ∘ key) = s.countP (fun x => decide (npMedian (pop.map key) < key x)) :=
    (hperm.countP_eq _).symm
  rw [hcp] at hhalf
  omega

/-- What holds of the first part of C64: in populations of at most `2 * top_n` (ten times the initial size) solutions, a solution fitter than the median keeps
its age and stays in the population. Missing: larger populations (`C64_median_refuted`). -/
theorem C64_keeps_age_partial (size : Nat) (pop parents : List (Aged K)) (h : ageing size pop = .ok parents) (hsize : pop.length ≤ 2 * (size * 5))
    (o : Aged K) (ho : o ∈ pop) (hage : 0 < o.age) (hm : npMedian (pop.map fun o => o.indiv.fitnessD) < o.indiv.fitnessD) : o ∈ parents := by
  obtain ⟨last, _, hlast, hp⟩ := ageing_spec size pop parents h
  rw [hp, List.mem_filter]
  have hkeep : newAge pop.length (size * 5) (npMedian (pop.map fun o => o.indiv.fitnessD)) last.indiv.fitnessD o.indiv.fitnessD o.age = o.age := by
    unfold newAge
    dsimp only
    rw [if_pos hm, if_neg]
    · omega
    · rintro ⟨h1, h2⟩
      exact absurd (not_below_top size pop hsize last o ho hlast hm h1) (not_le.mpr h2)
  refine ⟨List.mem_map.mpr ⟨o, ho, ?_⟩, decide_eq_true hage⟩
  rw [hkeep]

/-- Nobody gets older than before or loses more than four years; survivors keep their solution. -/
theorem C64_ages_partial (size : Nat) (pop parents : List (Aged K)) (h : ageing size pop = .ok parents) :
    ∀ o' ∈ parents, ∃ o ∈ pop, o'.indiv = o.indiv ∧ 0 < o'.age ∧ o'.age ≤ o.age ∧ o.age - 4 ≤ o'.age := by
  obtain ⟨last, _, _, hp⟩ := ageing_spec size pop parents h
  intro o' ho'
  rw [hp, List.mem_filter] at ho'
  obtain ⟨hmem, hpos⟩ := ho'
  obtain ⟨o, ho, rfl⟩ := List.mem_map.mp hmem
  refine ⟨o, ho, rfl, of_decide_eq_true hpos, ?_, ?_⟩
  · dsimp only; unfold newAge; dsimp only; split <;> split <;> omega
  · dsimp only; unfold newAge; dsimp only; split <;> split <;> omega

/-! ## C64: runs -/

/-- Number of solutions of age three or more. -/
def youngCount (pop : List (Aged K)) : Nat := pop.countP fun o => decide (3 ≤ o.age)

theorem ageing_young (size : Nat) (pop parents : List (Aged K)) (h : ageing size pop = .ok parents) (hsize : pop.length < size * 5) :
    youngCount pop ≤ parents.length := by
  obtain ⟨last, _, _, hp⟩ := ageing_spec size pop parents h
  rw [hp, ← List.countP_eq_length_filter, List.countP_map]
  refine List.countP_mono_left ?_
  intro o _ ho
  have ho := of_decide_eq_true ho
  refine decide_eq_true ?_
  change 0 < newAge _ _ _ _ _ _
  unfold newAge
  dsimp only
  rw [if_neg (c := size * 5 ≤ pop.length ∧ _) (by rintro ⟨h1, _⟩; omega)]
  split <;> omega

theorem sagaChildren_length (f : Nat → Bool → Indiv K → Indiv K → Except PyErr (Indiv K)) (k : Nat) (ps : List (Indiv K × Indiv K))
    (cs : List (Indiv K)) (h : sagaChildren f k ps = .ok cs) : cs.length = 2 * ps.length := by
  induction ps generalizing k cs with
  | nil => injection h with h; rw [← h]; rfl
  | cons p rest ih =>
    obtain ⟨A, B⟩ := p
    unfold sagaChildren at h
    cases h1 : f k true A B with
    | error e => rw [h1] at h; cases h
    | ok c1 =>
      cases h2 : f k false B A with
      | error e => rw [h1] at h; dsimp only at h; rw [h2] at h; cases h
      | ok c2 =>
        cases h3 : sagaChildren f (k + 1) rest with
        | error e => rw [h1] at h; dsimp only at h; rw [h2, h3] at h; cases h
        | ok cs' =>
          rw [h1] at h; dsimp only at h; rw [h2, h3] at h
          injection h with h
          rw [← h]
          simp only [List.length_cons, ih (k + 1) cs' h3]
          omega

theorem agedEvaluate_ages (ev : Eval K) (os : List (Aged K)) :
    (Prog.each Aged.evaluate os).Sat ev (fun _ => True) fun os' => os'.map Aged.age = os.map Aged.age := by
  refine Prog.Sat.mono ?_ _ (Prog.Sat.each (fun _ => True) (fun o o' : Aged K => o'.age = o.age) _ os (fun _ _ => trivial) fun o _ => ?_)
  · intro os' hos
    induction hos with
    | nil => rfl
    | cons h1 _ ih => simp only [List.map_cons, h1, ih]
  · exact ⟨trivial, fun s _ => rfl⟩

theorem youngCount_map (pop : List (Aged K)) : youngCount pop = (pop.map Aged.age).countP fun a => decide (3 ≤ a) := by
  unfold youngCount
  rw [List.countP_map]
  rfl

/-- What holds of the second part of C64: a run that starts with at least two new solutions, and in which no population reaches five times the initial size,
never has an empty population; after every generation there are at least two solutions of age three. Missing: a single solution (`C64_single_refuted`) and larger
populations (`C64_extinct_refuted`). -/
theorem C64_nonempty_partial (cfg : SasCfg K) (draws : List (SasDraw K)) (ev : Eval K) (pop : List (Aged K)) (hpop : 2 ≤ youngCount pop) (s : SasState K)
    (h : (sas cfg draws pop).run ev = .ok s) (hsizes : ∀ m ∈ s.sizes, m < cfg.initialSize * 5) : 2 ≤ youngCount s.pop ∧ s.pop ≠ [] := by
  have hsat : (sas cfg draws pop).Sat ev (fun _ => True) fun s => (∀ m ∈ s.sizes, m < cfg.initialSize * 5) → 2 ≤ youngCount s.pop := by
    unfold sas
    refine Prog.Sat.bind' (agedEvaluate_ages ev pop) fun pop' hpop' => ?_
    refine Prog.Sat.forEach (fun _ (s : SasState K) => (∀ m ∈ s.sizes, m < cfg.initialSize * 5) → 2 ≤ youngCount s.pop) _ draws ⟨pop', []⟩ (fun _ => ?_) ?_
    · rw [youngCount_map] at hpop ⊢
      rw [hpop']
      exact hpop
    · intro d _ s hs
      unfold sasStep
      refine Prog.Sat.bind' (P := fun parents => ageing cfg.initialSize s.pop = .ok parents) (Prog.Sat.lift fun _ h => h) fun parents hpar => ?_
      refine Prog.Sat.bind' (P := fun cs => cs.length = 2 * (pairs (parents.map Aged.indiv)).length) (Prog.Sat.lift fun cs hcs =>
        sagaChildren_length _ _ _ cs hcs) fun cs hcs => ?_
      refine Prog.Sat.bind' (agedEvaluate_ages ev _) fun pop'' hpop'' => ?_
      intro hall
      have hlast := hall s.pop.length (List.mem_append_right _ (List.mem_singleton_self _))
      have hyoung := hs fun m hm => hall m (List.mem_append_left _ hm)
      have hp := ageing_young cfg.initialSize s.pop parents hpar hlast
      rw [length_pairs, List.length_map] at hcs
      change 2 ≤ youngCount pop''
      rw [youngCount_map, hpop'', List.map_append, List.countP_append, List.map_map]
      have h3 : ((gaMutate cfg.mutRate d.flips cs).map (Aged.age ∘ fun σ => Aged.mk σ 3)).countP (fun a => decide (3 ≤ a)) = cs.length := by
        rw [List.countP_eq_length.mpr]
        · rw [List.length_map]; simp [gaMutate]
        · intro a ha
          obtain ⟨σ, _, rfl⟩ := List.mem_map.mp ha
          rfl
      rw [h3]
      omega
  refine ⟨hsat.run s h hsizes, fun h0 => ?_⟩
  have := hsat.run s h hsizes
  rw [h0] at this
  exact absurd this (by simp [youngCount])

/-- Three rules; the fitness is the number the genome encodes. -/
def sasEval : Eval ℚ := fun g =>
  .ok ⟨1, 3, 0, (if g.getD 0 false then 1 else 0) + (if g.getD 1 false then 2 else 0) + (if g.getD 2 false then 4 else 0)⟩

/-- The genome with fitness `v`. -/
def sasGenome (v : Nat) : List Bool := [v.testBit 0, v.testBit 1, v.testBit 2]

/-- Draws without crossover in which child `k` has the bits of `masks[k]` flipped. -/
def sasDraw (masks : List Nat) : SasDraw ℚ :=
  ⟨fun _ _ => (1, .nPoint []), fun k i => if (masks.getD k 0).testBit i then 0 else 1⟩

/-- The default rates (sas/crossover.py:31, sas/base.py:47). -/
def sasCfg (size : Nat) : SasCfg ℚ := ⟨size, 9 / 10, 1 / 1000⟩

/-- What is observed of a population: fitness and age. -/
def sasView (pop : List (Aged ℚ)) : List (ℚ × Int) := pop.map fun o => (o.indiv.fitnessD, o.age)

/-- The final population of a run and the survivors of the selection after it. -/
def sasResult (size : Nat) (start : List Nat) (masks : List (List Nat)) : Except PyErr (List (ℚ × Int) × ℚ × Option (List (ℚ × Int))) :=
  match (sas (sasCfg size) (masks.map sasDraw) (start.map fun v => ⟨⟨sasGenome v, none⟩, 3⟩)).run sasEval with
  | .error e => .error e
  | .ok s => .ok (sasView s.pop, npMedian (s.pop.map fun o => o.indiv.fitnessD), (ageing size s.pop).toOption.map sasView)

/-- C64 fails in large populations: in the run with initial size 2 and four generations below, the population has 32 solutions. Six new solutions have fitness 6,
above the median 5, but ten solutions are better; the selection reduces their age from 3 to 1. -/
theorem C64_median_refuted : ∃ pop survivors, sasResult 2 [4, 4] [[7, 7], [6, 6, 1, 1], [5, 5, 2, 2, 3, 3, 3, 3],
      [3, 3, 4, 4, 5, 5, 5, 5, 6, 6, 7, 7, 7, 7, 7, 7]] = .ok (pop, 5, some survivors) ∧ (6, 3) ∈ pop ∧ (6, 3) ∉ survivors ∧ (6, 1) ∈ survivors := by
  refine ⟨((List.replicate 2 (4, 1)) ++ (List.replicate 2 (3, 1)) ++ (List.replicate 4 (2, 1)) ++ (List.replicate 8 (1, 1)) ++ (List.replicate 10 (7, 3)) ++
    List.replicate 6 (6, 3)), List.replicate 10 (7, 3) ++ List.replicate 6 (6, 1), ?_, ?_, ?_, ?_⟩ <;> decide +kernel

/-- C64 fails for a single solution: it is never fitter than the median and has no partner, so it is removed by the second selection. -/
theorem C64_single_refuted : sasResult 1 [5] [[], []] = .ok ([], 0, none) ∧ sasResult 1 [5] [[], [], []] = .error .indexError := by
  constructor <;> decide +kernel

/-- C64 fails for two solutions as well: after six generations everybody is removed at once, the next generation raises an `IndexError`. In the last selection
all eleven parents have the best fitness (which is the median) and age 1, and their ten children are worse than the ten best. -/
theorem C64_extinct_refuted :
    (∃ m, sasResult 2 [7, 6] [[2, 3], [3, 2, 1, 1], [4, 5, 7, 7, 6, 6, 6, 6], [0, 1, 2, 2, 3, 3, 3, 3, 4, 4], [6, 6, 6, 6, 6, 6, 6, 6, 6, 6], []] = .ok ([], m, none)) ∧
    sasResult 2 [7, 6] [[2, 3], [3, 2, 1, 1], [4, 5, 7, 7, 6, 6, 6, 6], [0, 1, 2, 2, 3, 3, 3, 3, 4, 4], [6, 6, 6, 6, 6, 6, 6, 6, 6, 6], [], []] =
      .error .indexError := by
  refine ⟨⟨0, ?_⟩, ?_⟩ <;> decide +kernel

/-- A run meeting the hypotheses of `C64_nonempty_partial`; the two solutions fitter than the median keep their age (`C64_keeps_age_partial`). -/
example : sasResult 2 [4, 5] [[6, 6], [5, 6, 1, 1]] =
    .ok ([(4, 1), (5, 3), (2, 1), (3, 1), (1, 3), (3, 3), (3, 3), (2, 3)], 3, some [(4, 1), (5, 3), (1, 1), (3, 1), (3, 1), (2, 1)]) := by
  decide +kernel

/-! ## C73 -/

theorem agedEvaluate_sat (ev : Eval K) (n : Nat) (os : List (Aged K)) (h : ∀ o ∈ os, o.indiv.genome.length = n) :
    (Prog.each Aged.evaluate os).Sat ev (HasLen n) fun os' => ∀ o ∈ os', EvLen ev n o.indiv := by
  refine Prog.Sat.mono ?_ _ (Prog.Sat.each (fun o : Aged K => o.indiv.genome.length = n) (fun _ o' => EvLen ev n o'.indiv) _ os h fun o ho => ?_)
  · intro os' hos
    induction hos with
    | nil => intro o ho; cases ho
    | cons h1 _ ih =>
      intro o ho
      rcases List.mem_cons.mp ho with rfl | ho
      · exact h1
      · exact ih (fun o ho => h o (List.mem_cons_of_mem _ ho)) o ho
  · exact Prog.Sat.bind (evaluate_sat ev n o.indiv ho) fun σ hσ => hσ.2

theorem ageing_indivs (size : Nat) (pop parents : List (Aged K)) (h : ageing size pop = .ok parents) : ∀ o ∈ parents, ∃ o' ∈ pop, o.indiv = o'.indiv := by
  intro o ho
  obtain ⟨o', ho', h1, _⟩ := C64_ages_partial size pop parents h o ho
  exact ⟨o', ho', h1⟩

/-- C73 for the genetic algorithm with ageing, whatever the ages at the start. -/
theorem C73_sas (cfg : SasCfg K) (draws : List (SasDraw K)) (ages : Nat → Int) :
    (Prog.strategy fun _ pop => (sas cfg draws (pop.mapIdx fun i σ => ⟨σ, ages i⟩)).bind fun s => .ret (s.pop.map Aged.indiv)).Good := by
  refine strategy_good _ fun n ev pop h => Prog.Sat.bind (P := fun s => ∀ o ∈ s.pop, EvLen ev n o.indiv) ?_ fun s hs => ?_
  · unfold sas
    refine Prog.Sat.bind' (agedEvaluate_sat ev n _ ?_) fun pop' hpop' => ?_
    · intro o ho
      obtain ⟨i, hi, rfl⟩ := List.mem_mapIdx.mp ho
      exact h _ (List.getElem_mem hi)
    refine Prog.Sat.forEach (fun _ (s : SasState K) => ∀ o ∈ s.pop, EvLen ev n o.indiv) _ draws ⟨pop', []⟩ hpop' ?_
    intro d _ s hs
    unfold sasStep
    refine Prog.Sat.bind' (P := fun parents => ∀ o ∈ parents, o.indiv.genome.length = n) (Prog.Sat.lift fun parents hpar o ho => ?_) fun parents hpar => ?_
    · obtain ⟨o', ho', h1⟩ := ageing_indivs _ _ _ hpar o ho
      rw [h1]
      exact (hs o' ho').1
    have hpl : AllLen n (parents.map Aged.indiv) := by
      intro σ hσ
      obtain ⟨o, ho, rfl⟩ := List.mem_map.mp hσ
      exact hpar o ho
    refine Prog.Sat.bind' (P := fun cs => AllLen n cs) (Prog.Sat.lift fun cs hcs => sagaChildren_len _ n
      (fun k b A B C hA hB hC => crossoverA_len _ _ _ _ _ _ n hA hB hC) _ _ cs (pairs_len n _ hpl) hcs) fun cs hcs => ?_
    refine Prog.Sat.bind' (agedEvaluate_sat ev n _ ?_) fun pop'' hpop'' => hpop''
    intro o ho
    rcases List.mem_append.mp ho with ho | ho
    · exact hpar o ho
    · obtain ⟨σ, hσ, rfl⟩ := List.mem_map.mp ho
      exact (gaMutate_spec _ _ cs n hcs).1 σ hσ
  · intro σ hσ
    obtain ⟨o, ho, rfl⟩ := List.mem_map.mp hσ
    exact hs o ho

end Suprb
