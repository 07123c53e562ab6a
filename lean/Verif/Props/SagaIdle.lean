import Verif.Props.Saga
import Verif.Props.Rates
import Verif.Props.Reach

/-!
# Claim C63: what a NaN bound of SAGA2 does to the search

The bounds are attributes that survive the call of `optimize` (suprb/optimizer/solution/saga2/base.py:78-80), so a NaN computed in one call is used by the next.
-/

set_option autoImplicit false
set_option linter.unusedSectionVars false

namespace Suprb

/-! ## Evaluation -/

/-- Evaluation of a population, member by member. -/
theorem evaluateAll_each (ev : Eval ℝ) (n : List Bool → Prop) (pop : List (Indiv ℝ)) (h : ∀ σ ∈ pop, n σ.genome) :
    (evaluateAll pop).Sat ev n fun pop' => List.Forall₂ (fun σ τ : Indiv ℝ => τ.genome = σ.genome ∧ ∃ s, ev σ.genome = .ok s ∧ τ.st = some s) pop pop' :=
  Prog.Sat.each (fun σ : Indiv ℝ => n σ.genome) (fun σ (τ : Indiv ℝ) => τ.genome = σ.genome ∧ ∃ s, ev σ.genome = .ok s ∧ τ.st = some s) _ _ h
    fun _ hσ => ⟨hσ, fun s hs => ⟨rfl, s, hs, rfl⟩⟩

theorem forall₂_mem_left {α β : Type} {R : α → β → Prop} {l : List α} {l' : List β} (h : List.Forall₂ R l l') : ∀ a ∈ l, ∃ b ∈ l', R a b := by
  induction h with
  | nil => intro a ha; cases ha
  | cons hab _ ih =>
    intro a ha
    rcases List.mem_cons.mp ha with rfl | ha
    · exact ⟨_, List.mem_cons_self .., hab⟩
    · obtain ⟨b, hb, hr⟩ := ih a ha
      exact ⟨b, List.mem_cons_of_mem _ hb, hr⟩

/-- Only what is said about the evaluated genomes changes. -/
theorem Prog.Sat.mono_evaluated {ev : Eval ℝ} {α : Type} {n m : List Bool → Prop} {P : α → Prop} (h : ∀ g, n g → m g) (p : Prog ℝ α) : p.Sat ev n P → p.Sat ev m P := by
  induction p with
  | ret a => exact id
  | err e => exact id
  | eval g k ih => exact fun hp => ⟨h g hp.1, fun s hs => ih s (hp.2 s hs)⟩

theorem sum_lt_of_le {l : List ℝ} {m : ℝ} (hle : ∀ x ∈ l, x ≤ m) (hlt : ∃ x ∈ l, x < m) : l.sum < (l.length : ℝ) * m := by
  induction l with
  | nil => obtain ⟨x, hx, _⟩ := hlt; cases hx
  | cons a rest ih =>
    have hr : rest.sum ≤ (rest.length : ℝ) * m := by
      rw [← nsmul_eq_mul]
      exact List.sum_le_card_nsmul _ _ fun x hx => hle x (List.mem_cons_of_mem _ hx)
    have ha := hle a (List.mem_cons_self ..)
    rw [List.sum_cons, List.length_cons, Nat.cast_succ]
    obtain ⟨x, hx, hxm⟩ := hlt
    rcases List.mem_cons.mp hx with rfl | hx
    · linarith
    · have := ih (fun x hx => hle x (List.mem_cons_of_mem _ hx)) ⟨x, hx, hxm⟩
      linarith

/-- The statistics of fitness values that are not all equal are three different numbers. -/
theorem fitStats_strict (fs : List ℝ) (st : FitStats) (h : fitStats fs = .ok st) (x y : ℝ) (hx : x ∈ fs) (hy : y ∈ fs) (hne : x ≠ y) :
    st.min < st.mean ∧ st.mean < st.max := by
  obtain ⟨hb, _, _⟩ := fitStats_spec fs st h
  have hm : st.mean = fs.sum / (fs.length : ℝ) := by
    cases fs with
    | nil => cases h
    | cons a as => injection h with h; rw [← h]; rfl
  have hpos : (0 : ℝ) < (fs.length : ℝ) := by rw [Nat.cast_pos]; exact List.length_pos_of_mem hx
  have hlt : (∃ z ∈ fs, z < st.max) ∧ ∃ z ∈ fs, st.min < z := by
    rcases lt_or_gt_of_ne hne with hl | hl
    · exact ⟨⟨x, hx, lt_of_lt_of_le hl (hb y hy).2⟩, y, hy, lt_of_le_of_lt (hb x hx).1 hl⟩
    · exact ⟨⟨y, hy, lt_of_lt_of_le hl (hb x hx).2⟩, x, hx, lt_of_le_of_lt (hb y hy).1 hl⟩
  constructor
  · rw [hm, lt_div_iff₀ hpos]
    have hneg := sum_lt_of_le (l := fs.map fun z => -z) (m := -st.min)
      (fun z hz => by obtain ⟨w, hw, rfl⟩ := List.mem_map.mp hz; exact neg_le_neg (hb w hw).1)
      (by obtain ⟨z, hz, hlt⟩ := hlt.2; exact ⟨-z, List.mem_map_of_mem hz, neg_lt_neg hlt⟩)
    have hs : (fs.map fun z => -z).sum = -fs.sum := by
      clear hneg hlt hpos hm hb h hx hy
      induction fs with
      | nil => simp
      | cons a as ih => rw [List.map_cons, List.sum_cons, List.sum_cons, ih]; ring
    rw [hs, List.length_map] at hneg
    linarith
  · rw [hm, div_lt_iff₀ hpos, mul_comm]
    exact sum_lt_of_le (fun z hz => (hb z hz).2) hlt.1

/-! ## Generations with NaN bounds -/

/-- C63, consequence of NaN bounds: in a population whose fitness values are not all equal, such a generation neither recombines nor mutates: for every draw, it
evaluates and keeps only selections of rules that were in the population before. -/
theorem C63_idle_step_refuted (cfg : Saga2Cfg) (s : Saga2State) (d : GADraw ℝ × Nat) (ev : Eval ℝ) (hc : s.crossCurMin = none) (hm : s.mutCurMax = none)
    (h1 : s.stats.min < s.stats.mean) (h2 : s.stats.mean < s.stats.max) :
    (saga2Step cfg s d).Sat ev (fun g => ∃ σ ∈ s.pop, g = σ.genome) fun s' => ∀ σ' ∈ s'.pop, ∃ σ ∈ s.pop, σ'.genome = σ.genome := by
  have hcross : ∀ r c A B, saga2Cross s cfg r c A B = .ok A := by
    intro r c A B
    have hr : saga2CrossRate s.crossCurMin cfg.crossMax s.stats A.fitnessD B.fitnessD = none := by
      unfold saga2CrossRate
      dsimp only
      rw [if_neg (by rintro (h | h) <;> linarith), hc]
      split <;> rfl
    unfold saga2Cross
    rw [hr]
  have hmut : ∀ u c, (saga2Mutate s cfg u c).genome = c.genome := by
    intro u c
    have hr : saga2MutRate cfg.mutMin s.mutCurMax s.stats c.fitnessD = none := by
      unfold saga2MutRate
      rw [if_neg (by intro h; linarith), hm]
      split <;> rfl
    unfold saga2Mutate
    rw [hr]
    rfl
  unfold saga2Step
  refine Prog.Sat.bind' (P := fun ps => ∀ σ ∈ ps, σ ∈ s.pop) (Prog.Sat.lift fun ps hps => mem_select _ _ _ hps) fun parents hpar => ?_
  refine Prog.Sat.bind' (P := fun cs => ∀ σ' ∈ cs, ∃ σ ∈ s.pop, σ'.genome = σ.genome) (Prog.Sat.lift fun cs hcs => ?_) fun cs hcs => ?_
  · intro σ hσ
    obtain ⟨p, hp, hor⟩ := sagaChildren_first _ (fun k b A B => hcross _ _ A B) _ _ _ hcs σ hσ
    rcases hor with rfl | rfl
    · exact ⟨_, hpar _ (mem_pairs _ _ hp).1, rfl⟩
    · exact ⟨_, hpar _ (mem_pairs _ _ hp).2, rfl⟩
  refine Prog.Sat.bind' (evaluateAll_takes ev (fun g => ∃ σ ∈ s.pop, g = σ.genome) cs hcs) fun cs' hcs' => ?_
  refine Prog.Sat.bind' (evaluateAll_takes ev (fun g => ∃ σ ∈ s.pop, g = σ.genome) _ ?_) fun pop hpop => ?_
  · intro σ hσ
    rcases List.mem_append.mp hσ with hσ | hσ
    · exact ⟨σ, mem_sortedDesc_take _ _ _ σ hσ, rfl⟩
    · obtain ⟨⟨c, k⟩, hmem, rfl⟩ := List.mem_map.mp hσ
      rw [hmut]
      exact hcs' c (List.fst_mem_of_mem_zipIdx hmem)
  refine Prog.Sat.bind' (P := fun _ => True) (Prog.Sat.lift fun _ _ => trivial) fun stats _ => ?_
  dsimp only
  split
  · refine Prog.Sat.lift fun s' hs' => ?_
    rw [saga2Adjust_pop _ _ _ hs']
    exact hpop
  · exact hpop

/-- C63 for calls: a call of `optimize` that starts with NaN bounds on a population with two different fitness values searches nothing in its first generation. -/
theorem C63_idle_refuted (cfg : Saga2Cfg) (d : GADraw ℝ) (ev : Eval ℝ) (pop : List (Indiv ℝ)) (σ τ : Indiv ℝ) (hσ : σ ∈ pop) (hτ : τ ∈ pop) (a b : SolState ℝ)
    (ha : ev σ.genome = .ok a) (hb : ev τ.genome = .ok b) (hne : a.fitness ≠ b.fitness) :
    (saga2 cfg [d] none none pop).Sat ev (fun g => ∃ ρ ∈ pop, g = ρ.genome) fun s => ∀ ρ' ∈ s.pop, ∃ ρ ∈ pop, ρ'.genome = ρ.genome := by
  unfold saga2
  split
  · refine Prog.Sat.bind' (evaluateAll_each ev (fun g => ∃ ρ ∈ pop, g = ρ.genome) pop fun ρ hρ => ⟨ρ, hρ, rfl⟩) fun pop1 hp => ?_
    refine Prog.Sat.bind' (P := fun st => fitStats (pop1.map Indiv.fitnessD) = .ok st) (Prog.Sat.lift fun _ h => h) fun st hst => ?_
    have hmem : ∀ ρ ∈ pop, ∀ c, ev ρ.genome = .ok c → c.fitness ∈ pop1.map Indiv.fitnessD := by
      intro ρ hρ c hc
      obtain ⟨ρ1, h1, _, s, hs, he⟩ := forall₂_mem_left hp ρ hρ
      rw [hc] at hs
      injection hs with hs
      refine List.mem_map.mpr ⟨ρ1, h1, ?_⟩
      rw [Indiv.fitnessD, he, hs]
      rfl
    obtain ⟨h1, h2⟩ := fitStats_strict _ st hst _ _ (hmem σ hσ a ha) (hmem τ hτ b hb) hne
    have hback : ∀ ρ1 ∈ pop1, ∃ ρ ∈ pop, ρ1.genome = ρ.genome := by
      intro ρ1 h
      obtain ⟨ρ, hρ, he, _⟩ := forall₂_mem_right hp ρ1 h
      exact ⟨ρ, hρ, he⟩
    have hstep := C63_idle_step_refuted cfg ⟨pop1, pop1, st, variance (pop1.map Indiv.fitnessD), variance (pop1.map Indiv.fitnessD), none, none⟩ (d, 0) ev rfl rfl h1 h2
    change ((saga2Step cfg _ (d, 0)).bind (Prog.forEach (saga2Step cfg) [])).Sat ev _ _
    refine Prog.Sat.bind (P := fun s' : Saga2State => ∀ σ' ∈ s'.pop, ∃ σ ∈ pop, σ'.genome = σ.genome) ?_ fun s hs => hs
    refine Prog.Sat.mono_evaluated (n := fun g => ∃ σ ∈ pop1, g = σ.genome) ?_ _ (Prog.Sat.mono ?_ _ hstep)
    · rintro g ⟨ρ1, h, rfl⟩
      exact hback ρ1 h
    · intro s' hs' ρ' hρ'
      obtain ⟨ρ1, h, he⟩ := hs' ρ' hρ'
      obtain ⟨ρ, hρ, he'⟩ := hback ρ1 h
      exact ⟨ρ, hρ, he.trans he'⟩
  · trivial

/-- The hypotheses hold for two solutions with the fitness values 10 and 30. -/
example : ind [true, false] 10 ∈ [ind [true, false] 10, ind [true, true] 30] ∧ ind [true, true] 30 ∈ [ind [true, false] 10, ind [true, true] 30] ∧
    ∃ a b, demoEval2 (ind [true, false] 10).genome = .ok a ∧ demoEval2 (ind [true, true] 30).genome = .ok b ∧ a.fitness ≠ b.fitness :=
  ⟨by simp, by simp, _, _, rfl, rfl, by norm_num [ind]⟩

/-- The hypotheses of the step hold for the statistics of these two solutions. -/
example : fitStats [10, 30] = .ok ⟨20, 10, 30⟩ ∧ (10 : ℝ) < 20 ∧ (20 : ℝ) < 30 := by
  have hmax : max (10 : ℝ) 30 = 30 := by norm_num
  have hmin : min (10 : ℝ) 30 = 10 := by norm_num
  refine ⟨?_, by norm_num, by norm_num⟩
  norm_num [fitStats, npMin, npMax, mean, hmax, hmin]

/-! ## Where NaN bounds come from -/

theorem variance_const (l : List ℝ) (f : ℝ) (h : ∀ x ∈ l, x = f) : variance l = 0 := by
  have hl : l = List.replicate l.length f := List.eq_replicate_iff.mpr ⟨rfl, h⟩
  generalize l.length = n at hl
  subst hl
  cases n with
  | zero => simp [variance, mean]
  | succ n =>
    have hn : ((n + 1 : ℕ) : ℝ) ≠ 0 := by exact_mod_cast Nat.succ_ne_zero n
    have hm : mean (List.replicate (n + 1) f) = f := by
      unfold mean
      rw [List.sum_replicate, List.length_replicate, nsmul_eq_mul]
      field_simp
    unfold variance
    rw [hm, List.map_replicate, sub_self]
    unfold mean
    rw [List.sum_replicate]
    simp

theorem saga2Adjust_const (cfg : Saga2Cfg) (s s' : Saga2State) (hv : variance (s.pop.map Indiv.fitnessD) = 0) (hm : s.varMax = 0)
    (h : saga2Adjust cfg s = .ok s') : s'.varMax = 0 ∧ s'.crossCurMin = none ∧ s'.mutCurMax = none := by
  obtain ⟨h1, h2, _⟩ := C63_nan_refuted cfg s s' hv hm h
  refine ⟨?_, h1, h2⟩
  unfold saga2Adjust at h
  dsimp only at h
  split at h
  · cases h
  · injection h with h
    rw [← h]
    unfold saga2Diversity
    dsimp only
    rw [hv, hm, if_neg (lt_irrefl _)]

/-- One generation when every evaluation gives the fitness `f`. -/
theorem saga2Step_const (cfg : Saga2Cfg) (ev : Eval ℝ) (f : ℝ) (hev : ∀ g a, ev g = .ok a → a.fitness = f) (s : Saga2State) (d : GADraw ℝ × Nat)
    (hv : s.varMax = 0) :
    (saga2Step cfg s d).Sat ev (fun _ => True) fun s' => s'.varMax = 0 ∧ (0 < d.2 → s'.crossCurMin = none ∧ s'.mutCurMax = none) := by
  unfold saga2Step
  refine Prog.Sat.bind' (P := fun _ => True) (Prog.Sat.lift fun _ _ => trivial) fun parents _ => ?_
  refine Prog.Sat.bind' (P := fun _ => True) (Prog.Sat.lift fun _ _ => trivial) fun cs _ => ?_
  refine Prog.Sat.bind' (P := fun _ => True) (Prog.Sat.trivial ev _) fun cs' _ => ?_
  refine Prog.Sat.bind' (evaluateAll_each ev (fun _ => True) _ fun _ _ => trivial) fun pop hp => ?_
  refine Prog.Sat.bind' (P := fun _ => True) (Prog.Sat.lift fun _ _ => trivial) fun stats _ => ?_
  have hvar : variance (pop.map Indiv.fitnessD) = 0 := by
    refine variance_const _ f fun x hx => ?_
    obtain ⟨σ, hσ, rfl⟩ := List.mem_map.mp hx
    obtain ⟨_, _, _, a, ha, he⟩ := forall₂_mem_right hp σ hσ
    rw [Indiv.fitnessD, he]
    exact hev _ a ha
  dsimp only
  split
  · refine Prog.Sat.lift fun s' hs' => ?_
    obtain ⟨h0, h1⟩ := saga2Adjust_const cfg { s with pop := pop, old := s.pop, stats := stats } s' hvar hv hs'
    exact ⟨h0, fun _ => h1⟩
  · rename_i hit
    exact ⟨hv, fun h => absurd h hit⟩

/-- C63 fails for whole calls: if all solutions evaluated in a call with at least two generations have the same fitness, the call ends with both bounds NaN,
whatever they were before. The next call starts with these bounds (`C63_idle_refuted`). -/
theorem C63_nan_call_refuted (cfg : Saga2Cfg) (ev : Eval ℝ) (f : ℝ) (hev : ∀ g a, ev g = .ok a → a.fitness = f) (draws : List (GADraw ℝ)) (hlen : 2 ≤ draws.length)
    (curMin curMax : Option ℝ) (pop : List (Indiv ℝ)) (s : Saga2State) (h : (saga2 cfg draws curMin curMax pop).run ev = .ok s) :
    s.crossCurMin = none ∧ s.mutCurMax = none ∧ ¬ s.BoundsIn cfg := by
  have hsat : (saga2 cfg draws curMin curMax pop).Sat ev (fun _ => True) fun s' => s'.crossCurMin = none ∧ s'.mutCurMax = none := by
    unfold saga2
    split
    · refine Prog.Sat.bind' (evaluateAll_each ev (fun _ => True) pop fun _ _ => trivial) fun pop1 hp => ?_
      refine Prog.Sat.bind' (P := fun _ => True) (Prog.Sat.lift fun _ _ => trivial) fun st _ => ?_
      have hvar : variance (pop1.map Indiv.fitnessD) = 0 := by
        refine variance_const _ f fun x hx => ?_
        obtain ⟨σ, hσ, rfl⟩ := List.mem_map.mp hx
        obtain ⟨_, _, _, a, ha, he⟩ := forall₂_mem_right hp σ hσ
        rw [Indiv.fitnessD, he]
        exact hev _ a ha
      refine Prog.Sat.mono (fun s' hs' => (hs' : _ ∧ _).2.2 rfl) _ (Prog.Sat.forEach
        (fun rest (s' : Saga2State) => s'.varMax = 0 ∧ (∃ k, rest = draws.zipIdx.drop k ∧ k ≤ draws.length ∧ (2 ≤ k → s'.crossCurMin = none ∧ s'.mutCurMax = none)) ∧
          (rest = [] → s'.crossCurMin = none ∧ s'.mutCurMax = none)) _ draws.zipIdx _ ⟨hvar, ⟨0, rfl, Nat.zero_le _, fun h => absurd h (by omega)⟩, ?_⟩ ?_)
      · intro hnil
        have hz := congrArg List.length hnil
        rw [List.length_zipIdx] at hz
        rw [hz] at hlen
        exact absurd hlen (by simp)
      · rintro x rest s' ⟨h0, ⟨k, hk, hkl, _⟩, _⟩
        have hlt : k < draws.zipIdx.length := by
          by_contra hc
          rw [List.drop_eq_nil_of_le (not_lt.mp hc)] at hk
          cases hk
        rw [List.drop_eq_getElem_cons hlt] at hk
        injection hk with hx hrest
        have hx2 : x.2 = k := by rw [hx, List.getElem_zipIdx]; simp
        rw [List.length_zipIdx] at hlt
        refine Prog.Sat.mono ?_ _ (saga2Step_const cfg ev f hev s' x h0)
        rintro s'' ⟨h1, h2⟩
        have h3 : 2 ≤ k + 1 → s''.crossCurMin = none ∧ s''.mutCurMax = none := fun h => h2 (by omega)
        refine ⟨h1, ⟨k + 1, hrest, hlt, h3⟩, fun hnil => h3 ?_⟩
        rw [hrest] at hnil
        have hz := congrArg List.length hnil
        rw [List.length_drop, List.length_zipIdx, List.length_nil] at hz
        omega
    · trivial
  obtain ⟨h1, h2⟩ := hsat.run s h
  refine ⟨h1, h2, ?_⟩
  rintro ⟨c, m, hc, _⟩
  rw [h1] at hc
  cases hc

/-- The hypotheses hold for a call with two generations that completes: tournaments among two solutions, every evaluation with fitness 5. -/
example : ∃ s, (saga2 demoSaga2 [⟨.tournament [[0, 1], [1, 0]], fun _ _ => (1, .nPoint []), fun _ _ => 1⟩, ⟨.tournament [[0, 1], [1, 0]], fun _ _ => (1, .nPoint []), fun _ _ => 1⟩]
    (some (2 / 5)) (some (1 / 10)) [⟨[true, false], none⟩, ⟨[false, true], none⟩]).run (fun _ => .ok ⟨1, 2, 0, 5⟩) = .ok s := by
  obtain ⟨s, hs, _⟩ := saga2_runs demoSaga2 rfl (by norm_num [demoSaga2]) 2 (by norm_num) (ev := fun _ => .ok ⟨1, 2, 0, 5⟩) (n := 2) (fun g _ => ⟨_, rfl⟩)
    [⟨[true, false], none⟩, ⟨[false, true], none⟩] (by intro σ hσ; fin_cases hσ <;> rfl) (by simp) (by simp [demoSaga2])
    [⟨.tournament [[0, 1], [1, 0]], fun _ _ => (1, .nPoint []), fun _ _ => 1⟩, ⟨.tournament [[0, 1], [1, 0]], fun _ _ => (1, .nPoint []), fun _ _ => 1⟩]
    (by simp [PossibleSel, SelDraw.Valid, demoSaga2]) (some (2 / 5)) (some (1 / 10))
  exact ⟨s, hs⟩

end Suprb
