import Verif.Lemmas.Logging

/-!
# Properties of the logged metrics: C83 – C86
-/

set_option autoImplicit false
set_option linter.unusedSectionVars false

namespace Suprb

open Spec

variable {K : Type} [Field K] [LinearOrder K] [IsStrictOrderedRing K] [FloorSemiring K] {d : Nat} {M : Type}

/-! ### C83 statistics -/

theorem percentile_mono (l : List K) (hne : l ≠ []) (q r : K) (h : q ≤ r) : percentile q l ≤ percentile r l := by
  have hlen : (sortedAsc id l).length = l.length := (sortedAsc_perm id l).length_eq
  have hs : (sortedAsc id l).Pairwise (· ≤ ·) := sortedAsc_pairwise id l
  have hne' : sortedAsc id l ≠ [] := by
    intro h0; rw [h0] at hlen; exact hne (List.length_eq_zero_iff.mp hlen.symm)
  refine interpolate_mono _ hs hne' _ _ ?_
  have : (l.length : K) * q ≤ (l.length : K) * r := mul_le_mul_of_nonneg_left h (Nat.cast_nonneg _)
  linarith

theorem percentile_between (l : List K) (hne : l ≠ []) (q a b : K) (ha : ∀ x ∈ l, a ≤ x) (hb : ∀ x ∈ l, x ≤ b) : a ≤ percentile q l ∧ percentile q l ≤ b := by
  have hp := sortedAsc_perm id l
  have hs : (sortedAsc id l).Pairwise (· ≤ ·) := sortedAsc_pairwise id l
  have hl : 1 ≤ (sortedAsc id l).length := by rw [hp.length_eq]; exact List.length_pos_iff.mpr hne
  have hne' : sortedAsc id l ≠ [] := List.length_pos_iff.mp hl
  obtain ⟨h1, h2⟩ := interpolate_bounds _ hs hne' ((l.length : K) * q + (1 / 3 + q * (1 - 1 / 3 - 1 / 3)) - 1)
  exact ⟨(ha _ (hp.mem_iff.mp (getD_mem _ 0 (by omega)))).trans h1, h2.trans (hb _ (hp.mem_iff.mp (getD_mem _ _ (by omega))))⟩

/-- What a percentile means: for `0 ≤ q ≤ 1`, at most `n q + 1/3 + q/3` of the `n` values are smaller and at most `n (1 - q) + 1/3 + (1 - q)/3` are larger. -/
def IsPercentile (q : K) (l : List K) (p : K) : Prop :=
  ((l.countP fun x => decide (x < p) : Nat) : K) ≤ (l.length : K) * q + (1 + q) / 3 ∧
  ((l.countP fun x => decide (p < x) : Nat) : K) ≤ (l.length : K) * (1 - q) + (1 + (1 - q)) / 3

theorem percentile_isPercentile (l : List K) (hne : l ≠ []) (q : K) (h0 : 0 ≤ q) (h1 : q ≤ 1) : IsPercentile q l (percentile q l) := by
  have hp := sortedAsc_perm id l
  have hs : (sortedAsc id l).Pairwise (· ≤ ·) := sortedAsc_pairwise id l
  have hl : 1 ≤ (sortedAsc id l).length := by rw [hp.length_eq]; exact List.length_pos_iff.mpr hne
  have hne' : sortedAsc id l ≠ [] := List.length_pos_iff.mp hl
  have hlK : (1 : K) ≤ (l.length : K) := by rw [hp.length_eq] at hl; exact_mod_cast hl
  have hq1 : 0 ≤ (l.length : K) * q := mul_nonneg (Nat.cast_nonneg _) h0
  have hq2 : (l.length : K) * q ≤ (l.length : K) := by
    have := mul_le_mul_of_nonneg_left h1 (Nat.cast_nonneg (α := K) l.length)
    linarith
  have ha := interpolate_count_lt _ hs hne' ((l.length : K) * q + (1 / 3 + q * (1 - 1 / 3 - 1 / 3)) - 1) (by linarith)
  have hb := interpolate_count_gt _ hs hne' ((l.length : K) * q + (1 / 3 + q * (1 - 1 / 3 - 1 / 3)) - 1) (by rw [hp.length_eq]; linarith)
  rw [hp.countP_eq] at ha hb
  rw [hp.length_eq] at hb
  exact ⟨ha.trans (le_of_eq (by ring)), hb.trans (le_of_eq (by ring))⟩

/-- The statistics of `log_metric_stats`: what is promised about the eight numbers. -/
structure StatsOf (l : List K) (mn mean mx median p10 p25 p75 p90 : K) : Prop where
  min_mem : mn ∈ l
  max_mem : mx ∈ l
  bounds : ∀ x ∈ l, mn ≤ x ∧ x ≤ mx
  mean_def : mean * (l.length : K) = l.sum
  mean_between : mn ≤ mean ∧ mean ≤ mx
  ordered : mn ≤ p10 ∧ p10 ≤ p25 ∧ p25 ≤ median ∧ median ≤ p75 ∧ p75 ≤ p90 ∧ p90 ≤ mx
  median_def : IsPercentile (1 / 2) l median
  p10_def : IsPercentile (1 / 10) l p10
  p25_def : IsPercentile (1 / 4) l p25
  p75_def : IsPercentile (3 / 4) l p75
  p90_def : IsPercentile (9 / 10) l p90

/-- C83: the logged statistics of any non-empty list of values are ordered: minimum, 10th, 25th percentile, median, 75th, 90th percentile, maximum; the mean lies between minimum and maximum;
the percentiles split the values accordingly. -/
theorem C83_statistics (l : List K) (hne : l ≠ []) :
    ∃ mn mean mx median p10 p25 p75 p90, metricStats l = .ok [("_min", mn), ("_mean", mean), ("_max", mx), ("_median", median), ("_percentile10", p10),
      ("_percentile25", p25), ("_percentile75", p75), ("_percentile90", p90)] ∧ StatsOf l mn mean mx median p10 p25 p75 p90 := by
  cases l with
  | nil => exact absurd rfl hne
  | cons a rest =>
    refine ⟨_, _, _, _, _, _, _, _, rfl, ?_⟩
    obtain ⟨a1, a2, a3⟩ := foldl_min_spec rest a
    obtain ⟨b1, b2, b3⟩ := foldl_max_spec rest a
    have hmin : ∀ x ∈ a :: rest, rest.foldl min a ≤ x := by
      intro x hx
      rcases List.mem_cons.mp hx with rfl | hx
      · exact a2
      · exact a3 x hx
    have hmax : ∀ x ∈ a :: rest, x ≤ rest.foldl max a := by
      intro x hx
      rcases List.mem_cons.mp hx with rfl | hx
      · exact b2
      · exact b3 x hx
    have hl : ((a :: rest).length : K) ≠ 0 := Nat.cast_ne_zero.mpr (by simp)
    have hmed := npMedian_eq (a :: rest) hne
    refine ⟨?_, ?_, fun x hx => ⟨hmin x hx, hmax x hx⟩, div_mul_cancel₀ _ hl, mean_bounds _ hne _ _ hmin hmax, ?_, ?_, ?_, ?_, ?_, ?_⟩
    · rcases a1 with h | h
      · rw [h]; exact List.mem_cons_self
      · exact List.mem_cons_of_mem _ h
    · rcases b1 with h | h
      · rw [h]; exact List.mem_cons_self
      · exact List.mem_cons_of_mem _ h
    · rw [hmed]
      exact ⟨(percentile_between _ hne _ _ _ hmin hmax).1, percentile_mono _ hne _ _ (by norm_num), percentile_mono _ hne _ _ (by norm_num),
        percentile_mono _ hne _ _ (by norm_num), percentile_mono _ hne _ _ (by norm_num), (percentile_between _ hne _ _ _ hmin hmax).2⟩
    · rw [hmed]; exact percentile_isPercentile _ hne _ (by norm_num) (by norm_num)
    · exact percentile_isPercentile _ hne _ (by norm_num) (by norm_num)
    · exact percentile_isPercentile _ hne _ (by norm_num) (by norm_num)
    · exact percentile_isPercentile _ hne _ (by norm_num) (by norm_num)
    · exact percentile_isPercentile _ hne _ (by norm_num) (by norm_num)

/-- C83, last part: there are statistics exactly for non-empty lists; for the empty list a `ValueError` is raised. -/
theorem C83_empty (l : List K) : (∃ out, metricStats l = .ok out) ↔ l ≠ [] := by
  refine ⟨?_, fun h => ?_⟩
  · rintro ⟨out, h⟩ rfl
    cases h
  · obtain ⟨_, _, _, _, _, _, _, _, h1, _⟩ := C83_statistics l h
    exact ⟨_, h1⟩

example : metricStats ([] : List ℚ) = .error .valueError := rfl

/-- C83, second part: the statistics do not depend on the order of the values. -/
theorem C83_order_irrelevant (l l' : List K) (h : l.Perm l') : metricStats l = metricStats l' := by
  have hs : sortedAsc id l = sortedAsc id l' := by
    have h1 := sortedAsc_perm id l
    have h2 := sortedAsc_perm id l'
    exact List.Perm.eq_of_pairwise (le := (· ≤ ·)) (fun a b _ _ h1 h2 => le_antisymm h1 h2) (sortedAsc_pairwise id l) (sortedAsc_pairwise id l') (h1.trans (h.trans h2.symm))
  have hlen := h.length_eq
  by_cases hne : l = []
  · subst hne; rw [h.nil_eq]
  · have hne' : l' ≠ [] := fun h0 => hne (by rw [h0] at h; exact h.eq_nil)
    obtain ⟨mn, mean, mx, med, p10, p25, p75, p90, h1, h2⟩ := C83_statistics l hne
    obtain ⟨mn', mean', mx', med', p10', p25', p75', p90', h1', h2'⟩ := C83_statistics l' hne'
    have hmn : mn = mn' := le_antisymm (h2.bounds _ (h.mem_iff.mpr h2'.min_mem)).1 (h2'.bounds _ (h.mem_iff.mp h2.min_mem)).1
    have hmx : mx = mx' := le_antisymm (h2'.bounds _ (h.mem_iff.mp h2.max_mem)).2 (h2.bounds _ (h.mem_iff.mpr h2'.max_mem)).2
    have hper : ∀ q : K, percentile q l = percentile q l' := by intro q; unfold percentile; rw [hs, hlen]
    have hmed : npMedian l = npMedian l' := by rw [npMedian_eq l hne, npMedian_eq l' hne', hper]
    have hsum : l.sum = l'.sum := h.sum_eq
    cases l with
    | nil => exact absurd rfl hne
    | cons a rest =>
      cases l' with
      | nil => exact absurd rfl hne'
      | cons a' rest' =>
        have e1 := Except.ok.inj h1
        have e2 := Except.ok.inj h1'
        have hmn1 : rest.foldl min a = rest'.foldl min a' := by
          simp only [List.cons.injEq, Prod.mk.injEq, true_and] at e1 e2
          rw [e1.1, e2.1, hmn]
        have hmx1 : rest.foldl max a = rest'.foldl max a' := by
          simp only [List.cons.injEq, Prod.mk.injEq, true_and] at e1 e2
          rw [e1.2.2.1, e2.2.2.1, hmx]
        unfold metricStats
        dsimp only
        rw [hmn1, hmx1, hsum, hlen, hmed, hper, hper, hper, hper]

example : metricStats ([3, 1, 4, 1, 5] : List ℚ) = .ok [("_min", 1), ("_mean", 14 / 5), ("_max", 5), ("_median", 3), ("_percentile10", 1), ("_percentile25", 1),
    ("_percentile75", 13 / 3), ("_percentile90", 5)] := by decide +kernel

/-! ### C84 the history -/

/-- The eight statistics of a quantity. -/
def statNames (name : String) : List String := ["_min", "_mean", "_max", "_median", "_percentile10", "_percentile25", "_percentile75", "_percentile90"].map (name ++ ·)

/-- The metrics that are logged in every iteration. -/
def iterationKeys : List String := ["pool_size", "population_size"] ++ (statNames "population_fitness" ++ statNames "population_error" ++
  statNames "population_complexity") ++ ["elitist_fitness", "elitist_error", "elitist_complexity", "training_score"]

/-- The statistics of the values `vs` are recorded at step `j`. -/
def LoggedStats (m : Metrics K) (name : String) (j : Nat) (vs : List K) : Prop :=
  ∃ mn mean mx median p10 p25 p75 p90, StatsOf vs mn mean mx median p10 p25 p75 p90 ∧ m (name ++ "_min") j = some (some mn) ∧ m (name ++ "_mean") j = some (some mean) ∧
    m (name ++ "_max") j = some (some mx) ∧ m (name ++ "_median") j = some (some median) ∧ m (name ++ "_percentile10") j = some (some p10) ∧
    m (name ++ "_percentile25") j = some (some p25) ∧ m (name ++ "_percentile75") j = some (some p75) ∧ m (name ++ "_percentile90") j = some (some p90)

theorem metricStats_keys (l : List K) (stats : List (String × K)) (h : metricStats l = .ok stats) :
    l ≠ [] ∧ stats.map Prod.fst = ["_min", "_mean", "_max", "_median", "_percentile10", "_percentile25", "_percentile75", "_percentile90"] := by
  by_cases hne : l = []
  · subst hne; cases h
  · obtain ⟨_, _, _, _, _, _, _, _, h1, _⟩ := C83_statistics l hne
    rw [h1] at h
    cases h
    exact ⟨hne, rfl⟩

theorem poolMetrics_spec (pool : List (Rule K d M)) (a : List (String × Option K)) (h : poolMetrics pool = .ok a) :
    a.map Prod.fst = (if pool = [] then ["pool_size"] else "pool_size" :: statNames "pool_fitness") ∧ ("pool_size", some (pool.length : K)) ∈ a ∧
    (pool ≠ [] → ∀ vs : List K, pool.map (fun ρ => ρ.st.map RuleState.fitness) = vs.map (fun v : K => some (v : WithBot K)) →
      ∃ stats, metricStats vs = .ok stats ∧ ∀ kv ∈ stats, ("pool_fitness" ++ kv.1, some kv.2) ∈ a) := by
  unfold poolMetrics at h
  split at h
  · cases h
    exact ⟨by simp, by simp, fun h => absurd rfl h⟩
  · rename_i ρ0 rest
    split at h
    · cases h
    · rename_i fs hfs
      split at h
      · cases h
      · rename_i stats hst
        have hk := (metricStats_keys _ _ hst).2
        cases h
        refine ⟨?_, List.mem_cons_self, fun _ vs hvs => ?_⟩
        · rw [if_neg (by simp), List.map_cons, List.map_map, statNames, ← hk, List.map_map]; rfl
        · have hfs' : fs = vs.map fun v : K => (v : WithBot K) := by
            have h1 := (mapM_ok_iff _ _ _).mp hfs
            have h2 : List.Forall₂ (fun ρ f => (ρ : Rule K d M).st.map RuleState.fitness = some f) (ρ0 :: rest) fs := by
              refine h1.imp ?_
              intro ρ f hf
              split at hf
              · cases hf
              · rename_i s hs
                rw [hs]; cases hf; rfl
            have h3 : (ρ0 :: rest).map (fun ρ => ρ.st.map RuleState.fitness) = fs.map some := by
              clear hvs hst hfs h1
              generalize ρ0 :: rest = rules at h2 ⊢
              induction h2 with
              | nil => rfl
              | cons hab _ ih => rw [List.map_cons, List.map_cons, hab, ih]
            rw [hvs] at h3
            have h4 : (vs.map fun v : K => (v : WithBot K)).map some = fs.map some := by rw [List.map_map]; exact h3
            exact (List.map_injective_iff.mpr (Option.some_injective _) h4).symm
          subst hfs'
          have e1 : ((vs.map fun v : K => (v : WithBot K)).map fun f => f.unbotD 0) = vs := by
            rw [List.map_map]
            exact List.map_id'' (fun _ => rfl) vs
          rw [e1] at hst
          refine ⟨stats, hst, fun kv hkv => List.mem_cons_of_mem _ (List.mem_map.mpr ⟨kv, hkv, ?_⟩)⟩
          rw [if_pos]
          simp

theorem popMetrics_spec (name : String) (attr : SolState K → K) (pop : List (Indiv K)) (a : List (String × Option K)) (h : popMetrics name attr pop = .ok a) :
    a.map Prod.fst = statNames name ∧ ∃ sts : List (SolState K), pop.map Indiv.st = sts.map some ∧
      ∃ stats, metricStats (sts.map attr) = .ok stats ∧ ∀ kv ∈ stats, (name ++ kv.1, some kv.2) ∈ a := by
  unfold popMetrics at h
  split at h
  · cases h
  · rename_i vs hvs
    split at h
    · cases h
    · rename_i stats hst
      have hk := (metricStats_keys _ _ hst).2
      cases h
      refine ⟨by rw [List.map_map, statNames, ← hk, List.map_map]; rfl, ?_⟩
      have h2 : ∃ sts : List (SolState K), pop.map Indiv.st = sts.map some ∧ vs = sts.map attr := by
        have h1 := (mapM_ok_iff _ _ _).mp hvs
        clear hvs hst
        induction h1 with
        | nil => exact ⟨[], rfl, rfl⟩
        | @cons σ v pop' vs' hab _ ih =>
          obtain ⟨sts, h3, h4⟩ := ih
          split at hab
          · cases hab
          · rename_i s hs
            cases hab
            exact ⟨s :: sts, by rw [List.map_cons, hs, h3, List.map_cons], by rw [h4, List.map_cons]⟩
      obtain ⟨sts, h3, rfl⟩ := h2
      exact ⟨sts, h3, stats, hst, fun kv hkv => List.mem_map.mpr ⟨kv, hkv, rfl⟩⟩

theorem populationMetrics_spec (comp : CompState K) (b : List (String × Option K)) (h : populationMetrics comp = .ok b) :
    b.map Prod.fst = "population_size" :: (statNames "population_fitness" ++ statNames "population_error" ++ statNames "population_complexity") ∧
    ∃ pop, comp.population = some pop ∧ ("population_size", some (pop.length : K)) ∈ b ∧ ∃ sts : List (SolState K), pop.map Indiv.st = sts.map some ∧
      (∃ stats, metricStats (sts.map SolState.fitness) = .ok stats ∧ ∀ kv ∈ stats, ("population_fitness" ++ kv.1, some kv.2) ∈ b) ∧
      (∃ stats, metricStats (sts.map SolState.error) = .ok stats ∧ ∀ kv ∈ stats, ("population_error" ++ kv.1, some kv.2) ∈ b) ∧
      (∃ stats, metricStats (sts.map fun s => (s.complexity : K)) = .ok stats ∧ ∀ kv ∈ stats, ("population_complexity" ++ kv.1, some kv.2) ∈ b) := by
  unfold populationMetrics at h
  split at h
  · cases h
  · rename_i pop hpop
    split at h
    · cases h
    · rename_i b1 h1
      split at h
      · cases h
      · rename_i b2 h2
        split at h
        · cases h
        · rename_i b3 h3
          cases h
          obtain ⟨k1, sts, e1, st1, m1, m1'⟩ := popMetrics_spec _ _ _ _ h1
          obtain ⟨k2, sts2, e2, st2, m2, m2'⟩ := popMetrics_spec _ _ _ _ h2
          obtain ⟨k3, sts3, e3, st3, m3, m3'⟩ := popMetrics_spec _ _ _ _ h3
          have e2' : sts2 = sts := List.map_injective_iff.mpr (Option.some_injective _) (e2.symm.trans e1)
          have e3' : sts3 = sts := List.map_injective_iff.mpr (Option.some_injective _) (e3.symm.trans e1)
          rw [e2'] at m2
          rw [e3'] at m3
          refine ⟨by simp [k1, k2, k3], pop, hpop, List.mem_cons_self, sts, e1, ⟨st1, m1, ?_⟩, ⟨st2, m2, ?_⟩, ⟨st3, m3, ?_⟩⟩
          · intro kv hkv; exact List.mem_cons_of_mem _ (List.mem_append_left _ (List.mem_append_left _ (m1' kv hkv)))
          · intro kv hkv; exact List.mem_cons_of_mem _ (List.mem_append_left _ (List.mem_append_right _ (m2' kv hkv)))
          · intro kv hkv; exact List.mem_cons_of_mem _ (List.mem_append_right _ (m3' kv hkv))

theorem elitistMetrics_spec (L : Learner K d M) (P : MixParams K) (filt : SubFilter K d M) (X : List (Point K d)) (y : List K) (pool : List (Rule K d M))
    (comp : CompState K) (c : List (String × Option K)) (h : elitistMetrics L P filt X y pool comp = .ok c) :
    ∃ el s out, comp.elitist = .ok (some el) ∧ el.st = some s ∧ Solution.predict L P filt false { genome := el.genome, pool := pool, st := el.st } X = .ok out ∧
      c = [("elitist_fitness", some s.fitness), ("elitist_error", some s.error), ("elitist_complexity", some (s.complexity : K)), ("training_score", r2Score y out)] := by
  unfold elitistMetrics at h
  split at h
  · cases h
  · cases h
  · rename_i el hel
    split at h
    · cases h
    · rename_i s hs
      split at h
      · cases h
      · rename_i out hout
        exact ⟨el, s, out, hel, hs, hout, (Except.ok.inj h).symm⟩

theorem loggedStats_of (m : Metrics K) (name : String) (j : Nat) (vs : List K) (stats : List (String × K)) (h : metricStats vs = .ok stats)
    (hm : ∀ kv ∈ stats, m (name ++ kv.1) j = some (some kv.2)) : LoggedStats m name j vs := by
  obtain ⟨hne, _⟩ := metricStats_keys _ _ h
  obtain ⟨mn, mean, mx, med, p10, p25, p75, p90, h1, h2⟩ := C83_statistics vs hne
  rw [h1] at h
  cases h
  refine ⟨mn, mean, mx, med, p10, p25, p75, p90, h2, ?_, ?_, ?_, ?_, ?_, ?_, ?_, ?_⟩
  all_goals exact hm (_, _) (by simp)

theorem keys_nodup : ("pool_size" :: statNames "pool_fitness" ++ "population_size" :: (statNames "population_fitness" ++ statNames "population_error" ++
    statNames "population_complexity") ++ ["elitist_fitness", "elitist_error", "elitist_complexity", "training_score"]).Nodup := by decide +kernel

theorem keys_nodup' : (["pool_size"] ++ "population_size" :: (statNames "population_fitness" ++ statNames "population_error" ++
    statNames "population_complexity") ++ ["elitist_fitness", "elitist_error", "elitist_complexity", "training_score"]).Nodup := by decide +kernel

/-- What is recorded at step `j` for the state after an iteration. -/
theorem logRun_step (c : SupComp K d M) (X : List (Point K d)) (y : List K) (t : List (Event K d M)) (m : Metrics K) (h : logRun c X y t = .ok m) (j : Nat)
    (pool : List (Rule K d M)) (comp : CompState K) (hj : (loggedStates t)[j]? = some (pool, comp)) :
    ∃ a b e, poolMetrics pool = .ok a ∧ populationMetrics comp = .ok b ∧ elitistMetrics c.learner c.mix c.filter X y pool comp = .ok e ∧
      (∀ kv ∈ a ++ b ++ e, m kv.1 j = some kv.2) ∧ ∀ key, m key j ≠ none ↔ key ∈ (a ++ b ++ e).map Prod.fst := by
  obtain ⟨a, b, e, ha, hb, he, m0, h1, h2⟩ := (logFrom_spec _ _ _ _ _ _ _ _ _ h).2 j pool comp hj
  simp only [Nat.zero_add] at h1 h2
  have hn : ((a ++ b ++ e).map Prod.fst).Nodup := by
    obtain ⟨k1, _⟩ := poolMetrics_spec _ _ ha
    obtain ⟨k2, _⟩ := populationMetrics_spec _ _ hb
    obtain ⟨_, _, _, _, _, _, rfl⟩ := elitistMetrics_spec _ _ _ _ _ _ _ _ he
    rw [List.map_append, List.map_append, k1, k2]
    split
    · exact keys_nodup'
    · exact keys_nodup
  have hm : ∀ kv ∈ a ++ b ++ e, m kv.1 j = some kv.2 := fun kv hkv => by rw [h2]; exact logMany_mem _ _ _ hn _ _ hkv
  refine ⟨a, b, e, ha, hb, he, hm, fun key => ⟨fun hk => ?_, fun hk => ?_⟩⟩
  · by_contra hno
    rw [h2, logMany_notin _ _ _ _ _ hno, h1] at hk
    exact hk rfl
  · obtain ⟨kv, hkv, rfl⟩ := List.mem_map.mp hk
    rw [hm kv hkv]
    simp

/-- C84: after training, the default logger has exactly one value for every metric and every iteration: at steps `0, 1, …` up to the number of iterations and at no other step. The recorded
sizes and statistics are those of the pool and the population after the iteration. -/
theorem C84_history (c : SupComp K d M) (X : List (Point K d)) (y : List K) (t : List (Event K d M)) (m : Metrics K) (h : logRun c X y t = .ok m) :
    (∀ j, (loggedStates t).length ≤ j → ∀ key, m key j = none) ∧
    ∀ j pool comp, (loggedStates t)[j]? = some (pool, comp) →
      (∀ key, m key j ≠ none ↔ key ∈ iterationKeys ∨ pool ≠ [] ∧ key ∈ statNames "pool_fitness") ∧
      m "pool_size" j = some (some (pool.length : K)) ∧
      (pool ≠ [] → ∀ vs : List K, pool.map (fun ρ => ρ.st.map RuleState.fitness) = vs.map (fun v : K => some (v : WithBot K)) → LoggedStats m "pool_fitness" j vs) ∧
      ∃ pop, comp.population = some pop ∧ m "population_size" j = some (some (pop.length : K)) ∧ ∃ sts : List (SolState K), pop.map Indiv.st = sts.map some ∧
        LoggedStats m "population_fitness" j (sts.map SolState.fitness) ∧ LoggedStats m "population_error" j (sts.map SolState.error) ∧
        LoggedStats m "population_complexity" j (sts.map fun s => (s.complexity : K)) := by
  refine ⟨fun j hj key => ?_, fun j pool comp hj => ?_⟩
  · exact (logFrom_spec _ _ _ _ _ _ _ _ _ h).1 key j (.inr (by omega))
  · obtain ⟨a, b, e, ha, hb, he, hm, hk⟩ := logRun_step c X y t m h j pool comp hj
    obtain ⟨a1, a2, a3⟩ := poolMetrics_spec _ _ ha
    obtain ⟨b1, pop, b2, b3, sts, b4, ⟨s1, c1, c1'⟩, ⟨s2, c2, c2'⟩, ⟨s3, c3, c3'⟩⟩ := populationMetrics_spec _ _ hb
    obtain ⟨el, s, out, _, _, _, rfl⟩ := elitistMetrics_spec _ _ _ _ _ _ _ _ he
    refine ⟨fun key => ?_, hm (_, _) (List.mem_append_left _ (List.mem_append_left _ a2)), fun hne vs hvs => ?_, pop, b2, hm (_, _) (List.mem_append_left _ (List.mem_append_right _ b3)), sts, b4, ?_, ?_, ?_⟩
    · rw [hk key, List.map_append, List.map_append, a1, b1]
      unfold iterationKeys
      by_cases hp : pool = []
      · rw [if_pos hp]
        simp only [List.map_cons, List.map_nil, List.mem_append, List.mem_cons, List.not_mem_nil, or_false, hp, ne_eq, not_true_eq_false, false_and]
        tauto
      · rw [if_neg hp]
        simp only [List.map_cons, List.map_nil, List.mem_append, List.mem_cons, List.not_mem_nil, or_false, hp, ne_eq, not_false_eq_true, true_and]
        tauto
    · obtain ⟨stats, h1, h2⟩ := a3 hne vs hvs
      exact loggedStats_of m _ j vs stats h1 fun kv hkv => hm (_, _) (List.mem_append_left _ (List.mem_append_left _ (h2 kv hkv)))
    · exact loggedStats_of m _ j _ s1 c1 fun kv hkv => hm (_, _) (List.mem_append_left _ (List.mem_append_right _ (c1' kv hkv)))
    · exact loggedStats_of m _ j _ s2 c2 fun kv hkv => hm (_, _) (List.mem_append_left _ (List.mem_append_right _ (c2' kv hkv)))
    · exact loggedStats_of m _ j _ s3 c3 fun kv hkv => hm (_, _) (List.mem_append_left _ (List.mem_append_right _ (c3' kv hkv)))

/-- The event ends an iteration. -/
def Event.EndsIteration : Event K d M → Bool
  | .composed _ _ _ => true
  | _ => false

/-- C84: the states the logger sees, one after the other, are those at the end of the iterations of the execution: the state of step `j` is the one in which an iteration ended after
`j` iterations had ended before. -/
theorem C84_states (t : List (Event K d M)) (j : Nat) (pool : List (Rule K d M)) (comp : CompState K) :
    (loggedStates t)[j]? = some (pool, comp) ↔ ∃ t1 el t2, t = t1 ++ .composed pool comp el :: t2 ∧ t1.countP Event.EndsIteration = j := by
  induction t generalizing j with
  | nil => simp [loggedStates]
  | cons e t ih =>
    have hskip : e.EndsIteration = false → loggedStates (e :: t) = loggedStates t := by
      intro he; cases e <;> first | rfl | cases he
    by_cases he : e.EndsIteration = true
    · cases e with
      | discover _ _ _ _ => cases he
      | compose _ _ _ => cases he
      | composed p q el =>
        have h1 : loggedStates (.composed p q el :: t) = (p, q) :: loggedStates t := rfl
        rw [h1]
        cases j with
        | zero =>
          constructor
          · intro h
            cases h
            exact ⟨[], el, t, rfl, rfl⟩
          · rintro ⟨t1, el', t2, h, h0⟩
            cases t1 with
            | nil => cases h; rfl
            | cons a t1 =>
              obtain ⟨h2, -⟩ := List.cons.inj h
              subst h2
              simp [Event.EndsIteration] at h0
        | succ j =>
          rw [List.getElem?_cons_succ, ih]
          constructor
          · rintro ⟨t1, el', t2, rfl, h0⟩
            exact ⟨.composed p q el :: t1, el', t2, rfl, by rw [List.countP_cons_of_pos rfl, h0]⟩
          · rintro ⟨t1, el', t2, h, h0⟩
            cases t1 with
            | nil => simp at h0
            | cons a t1 =>
              obtain ⟨h2, h3⟩ := List.cons.inj h
              subst h2
              exact ⟨t1, el', t2, h3, by rw [List.countP_cons_of_pos rfl] at h0; omega⟩
    · have he' : e.EndsIteration = false := by simpa using he
      rw [hskip he', ih]
      constructor
      · rintro ⟨t1, el', t2, rfl, h0⟩
        exact ⟨e :: t1, el', t2, rfl, by simp [he', h0]⟩
      · rintro ⟨t1, el', t2, h, h0⟩
        cases t1 with
        | nil =>
          obtain ⟨h2, -⟩ := List.cons.inj h
          subst h2
          cases he'
        | cons a t1 =>
          obtain ⟨h2, h3⟩ := List.cons.inj h
          subst h2
          exact ⟨t1, el', t2, h3, by simpa [he'] using h0⟩

/-- C84, second part: the number of recorded steps is the number of finished iterations. -/
theorem loggedStates_length (t : List (Event K d M)) : (loggedStates t).length = (elitistFitness t).length := by
  induction t with
  | nil => rfl
  | cons e rest ih =>
    unfold loggedStates elitistFitness at ih ⊢
    cases e <;> simp [List.filterMap_cons, ih]

/-! ### C85 the recorded elitist -/

theorem loggedStates_append (t u : List (Event K d M)) : loggedStates (t ++ u) = loggedStates t ++ loggedStates u := by
  simp [loggedStates, List.filterMap_append]

/-- Everything the logger is shown comes from a finished iteration. -/
def Event.Shown (ev : PoolEval K d M) : Event K d M → Prop
  | .composed pool comp el => comp.elitist = .ok (some el) ∧ CompOk ev pool comp
  | _ => True

theorem discoverStep_shown (cfg : SupCfg K) (c : SupComp K d M) (ev : PoolEval K d M) (entropy : Nat) (X : List (Point K d)) (y : List K) (n : Nat)
    (s s1 : RunState K d M) (r : Option PyErr) (h : discoverStep cfg c entropy X y n s = (s1, r)) :
    ((∀ e ∈ s.trace, e.Shown ev) → ∀ e ∈ s1.trace, e.Shown ev) ∧ loggedStates s1.trace = loggedStates s.trace := by
  rcases discoverStep_spec _ _ _ _ _ _ _ _ _ h with ⟨rfl, _⟩ | ⟨el, seed, a1, _, _, ⟨_, _, _, rfl⟩ | ⟨_, _, _, rfl⟩⟩
  · exact ⟨id, rfl⟩
  all_goals
    refine ⟨fun hs e he => ?_, by dsimp only; rw [loggedStates_append]; simp [loggedStates]⟩
    rcases List.mem_append.mp he with he | he
    · exact hs e he
    · rw [List.mem_singleton.mp he]; trivial

theorem composeStep_shown (cfg : SupCfg K) (c : SupComp K d M) (ev : PoolEval K d M) (entropy : Nat)
    (s s1 : RunState K d M) (r : Option PyErr) (h : composeStep cfg c ev entropy s = (s1, r)) :
    ((∀ e ∈ s.trace, e.Shown ev) → ∀ e ∈ s1.trace, e.Shown ev) ∧ loggedStates s1.trace = loggedStates s.trace := by
  rcases composeStep_spec _ _ _ _ _ _ _ h with ⟨rfl, _⟩ | ⟨seed, _, ⟨_, _, _, rfl⟩ | ⟨_, _, _, rfl⟩⟩
  · exact ⟨id, rfl⟩
  all_goals
    refine ⟨fun hs e he => ?_, by dsimp only; rw [loggedStates_append]; simp [loggedStates]⟩
    rcases List.mem_append.mp he with he | he
    · exact hs e he
    · rw [List.mem_singleton.mp he]; trivial

/-- Events, and the last state shown to the logger, of a run. -/
theorem run_shown (cfg : SupCfg K) (c : SupComp K d M) (hg : c.GoodStrategies) (ev : PoolEval K d M) (entropy : Nat)
    (X : List (Point K d)) (y : List K) (step0 : Nat) :
    let o := runFit cfg c ev entropy X y step0
    (∀ e ∈ o.state.trace, e.Shown ev) ∧
      ∀ s, o = .done s → (loggedStates s.trace = [] ∧ s.comp.population = none) ∨ (loggedStates s.trace).getLast? = some (s.pool, s.comp) := by
  have hstep : ∀ k (s s' : RunState K d M) el, CompOk ev s.pool s.comp → (∀ e ∈ s.trace, e.Shown ev) → Iteration cfg c ev entropy X y k s s' el →
      CompOk ev s'.pool s'.comp ∧ (∀ e ∈ s'.trace, e.Shown ev) ∧ (loggedStates s'.trace).getLast? = some (s'.pool, s'.comp) := by
    intro k s s' el hs ht hi
    have hok := iteration_compOk cfg c hg ev entropy X y k s s' el _ hs hi
    obtain ⟨s1, s2, h1, h2, hel, rfl⟩ := hi
    have h3 := (discoverStep_shown cfg c ev entropy X y _ _ s1 none h1).1 ht
    have h4 := (composeStep_shown cfg c ev entropy s1 s2 none h2).1 h3
    refine ⟨hok, ?_, ?_⟩
    · intro e he
      rcases List.mem_append.mp he with he | he
      · exact h4 e he
      · rw [List.mem_singleton.mp he]; exact ⟨hel, hok⟩
    · dsimp only
      rw [loggedStates_append]
      simp [loggedStates]
  refine runFit_ind cfg c ev entropy X y step0
    (fun _ s => CompOk ev s.pool s.comp ∧ (∀ e ∈ s.trace, e.Shown ev) ∧
      ((loggedStates s.trace = [] ∧ s.comp.population = none) ∨ (loggedStates s.trace).getLast? = some (s.pool, s.comp)))
    (fun o => (∀ e ∈ o.state.trace, e.Shown ev) ∧
      ∀ s, o = .done s → (loggedStates s.trace = [] ∧ s.comp.population = none) ∨ (loggedStates s.trace).getLast? = some (s.pool, s.comp))
    ?_ ?_ ?_ ?_ ?_ ?_ ?_ ?_ ?_
  · intro _
    exact ⟨startState_ok _ _ _ _, by simp [startState], .inl ⟨by simp [startState, loggedStates], by simp [startState]⟩⟩
  · intro s _ h
    have h1 := discoverStep_shown cfg c ev entropy X y _ _ s none h
    have h2 := discoverStep_comp cfg c entropy X y _ _ s none h
    refine ⟨by rw [h2]; exact startState_ok _ _ _ _, h1.1 (by simp [startState]), .inl ⟨by rw [h1.2]; simp [startState, loggedStates], by rw [h2]; simp [startState]⟩⟩
  · intro s e _ h
    exact ⟨(discoverStep_shown cfg c ev entropy X y _ _ s _ h).1 (by simp [startState]), fun s' hs' => by cases hs'⟩
  · rintro s ⟨_, h1, h2⟩
    exact ⟨h1, fun s' hs' => by cases hs'; exact h2⟩
  · rintro k rest s s1 e ⟨_, h1, _⟩ h
    exact ⟨(discoverStep_shown cfg c ev entropy X y _ _ s1 _ h).1 h1, fun s' hs' => by cases hs'⟩
  · rintro k rest s s1 s2 e ⟨_, h1, _⟩ h h'
    exact ⟨(composeStep_shown cfg c ev entropy _ s2 _ h').1 ((discoverStep_shown cfg c ev entropy X y _ _ s1 _ h).1 h1), fun s' hs' => by cases hs'⟩
  · rintro k rest s s1 s2 e ⟨_, h1, _⟩ h h' _
    exact ⟨(composeStep_shown cfg c ev entropy _ s2 _ h').1 ((discoverStep_shown cfg c ev entropy X y _ _ s1 _ h).1 h1), fun s' hs' => by cases hs'⟩
  · rintro k rest s s' el ⟨h0, h1, _⟩ hi _
    obtain ⟨_, h2, h3⟩ := hstep k s s' el h0 h1 hi
    exact ⟨h2, fun s'' hs'' => by cases hs''; exact .inr h3⟩
  · rintro k rest s s' el ⟨h0, h1, _⟩ hi _
    obtain ⟨h4, h2, h3⟩ := hstep k s s' el h0 h1 hi
    exact ⟨h4, h2, .inr h3⟩

theorem shown_index (ev : PoolEval K d M) (t : List (Event K d M)) (h : ∀ e ∈ t, e.Shown ev) (j : Nat) (pool : List (Rule K d M)) (comp : CompState K)
    (hj : (loggedStates t)[j]? = some (pool, comp)) :
    ∃ el, comp.elitist = .ok (some el) ∧ CompOk ev pool comp ∧ (elitistFitness t)[j]? = some el.fitnessD := by
  induction t generalizing j with
  | nil => simp [loggedStates] at hj
  | cons e rest ih =>
    have hr : ∀ e' ∈ rest, e'.Shown ev := fun e' he' => h e' (List.mem_cons_of_mem _ he')
    cases e with
    | discover seed el p n => exact ih hr j (by simpa [loggedStates, List.filterMap_cons] using hj)
    | compose seed p b => exact ih hr j (by simpa [loggedStates, List.filterMap_cons] using hj)
    | composed p r el =>
      have h1 : loggedStates (.composed p r el :: rest) = (p, r) :: loggedStates rest := by simp [loggedStates, List.filterMap_cons]
      have h2 : elitistFitness (.composed p r el :: rest) = el.fitnessD :: elitistFitness rest := by simp [elitistFitness, List.filterMap_cons]
      rw [h1] at hj
      rw [h2]
      cases j with
      | zero =>
        simp only [List.getElem?_cons_zero, Option.some.injEq, Prod.mk.injEq] at hj
        obtain ⟨rfl, rfl⟩ := hj
        obtain ⟨h3, h4⟩ := h _ (List.mem_cons_self)
        exact ⟨el, h3, h4, by simp⟩
      | succ j =>
        rw [List.getElem?_cons_succ] at hj ⊢
        exact ih hr j hj

theorem fit_shown (cfg : SupCfg K) (c : SupComp K d M) (hg : c.GoodStrategies) (entropy : Nat) (raw : RawData K d) (cl : Bool) (st0 : SupState K d M) :
    ∀ e ∈ (st0.fit cfg c entropy raw cl).trace, e.Shown (runEval cfg c raw.X raw.y) := by
  unfold SupState.fit
  exact trace_of_run cfg c (runEval cfg c) entropy raw cl st0 (fun t => ∀ e ∈ t, e.Shown (runEval cfg c raw.X raw.y)) (by simp) (run_shown cfg c hg _ _ _ _ _).1

theorem fitnessD_of (σ : Indiv K) (s : SolState K) (h : σ.st = some s) : σ.fitnessD = s.fitness := by
  unfold Indiv.fitnessD; rw [h]; rfl

/-- C85: the recorded fitness of the elitist is the one training uses, it is at least the recorded maximum of the population, the recorded pool size never shrinks, and the last record describes
the final model: its fitness, error and complexity, and the score of its predictions on the training data. -/
theorem C85_elitist (cfg : SupCfg K) (c : SupComp K d M) (hg : c.GoodStrategies) (entropy : Nat) (raw : RawData K d) (cl : Bool) (st0 : SupState K d M) (m : Metrics K)
    (hm : logRun c raw.X raw.y (st0.fit cfg c entropy raw cl).trace = .ok m) :
    let r := st0.fit cfg c entropy raw cl
    let n := (elitistFitness r.trace).length
    (∀ j f, (elitistFitness r.trace)[j]? = some f → m "elitist_fitness" j = some (some f) ∧ ∃ v, m "population_fitness_max" j = some (some v) ∧ v ≤ f) ∧
    (∀ i j a b, i ≤ j → m "pool_size" i = some (some a) → m "pool_size" j = some (some b) → a ≤ b) ∧
    (r.Completed → ∃ σ s out, r.state.elitist = some (.solution σ) ∧ σ.st = some s ∧ r.state.predict c raw.X = .ok out ∧ 0 < n ∧
      m "elitist_fitness" (n - 1) = some (some s.fitness) ∧ m "elitist_error" (n - 1) = some (some s.error) ∧
      m "elitist_complexity" (n - 1) = some (some (s.complexity : K)) ∧ m "training_score" (n - 1) = some (r2Score raw.y out)) := by
  intro r n
  have hsh : ∀ e ∈ r.trace, e.Shown (runEval cfg c raw.X raw.y) := fit_shown cfg c hg entropy raw cl st0
  have hlen := loggedStates_length r.trace
  have hstep := logRun_step c raw.X raw.y r.trace m hm
  have hhist := C84_history c raw.X raw.y r.trace m hm
  refine ⟨?_, ?_, ?_⟩
  · intro j f hj
    have hjl : j < (loggedStates r.trace).length := by rw [hlen]; exact (List.getElem?_eq_some_iff.mp hj).1
    obtain ⟨⟨pool, comp⟩, hst⟩ : ∃ pc, (loggedStates r.trace)[j]? = some pc := ⟨_, List.getElem?_eq_getElem hjl⟩
    obtain ⟨el, h1, h2, h3⟩ := shown_index _ _ hsh j pool comp hst
    rw [hj] at h3
    injection h3 with h3
    obtain ⟨a, b, e, _, _, he, hall, _⟩ := hstep j pool comp hst
    obtain ⟨el', s, out, h4, h5, _, rfl⟩ := elitistMetrics_spec _ _ _ _ _ _ _ _ he
    rw [h1] at h4
    obtain rfl : el = el' := by injection h4 with h4; injection h4
    have hf := fitnessD_of el s h5
    refine ⟨?_, ?_⟩
    · rw [h3, hf]; exact hall (_, _) (by simp)
    · obtain ⟨_, _, _, pop, h6, _, sts, h7, ⟨mn, mean, mx, md, p10, p25, p75, p90, hs, _, _, h8, _⟩, _⟩ := hhist.2 j pool comp hst
      refine ⟨mx, h8, ?_⟩
      obtain ⟨st, hst1, rfl⟩ := List.mem_map.mp hs.max_mem
      have : (some st) ∈ pop.map Indiv.st := by rw [h7]; exact List.mem_map.mpr ⟨st, hst1, rfl⟩
      obtain ⟨τ, hτ, hτ1⟩ := List.mem_map.mp this
      obtain ⟨pop', h9, _, _, h10⟩ := elitist_mem _ _ h1
      rw [h6] at h9
      injection h9 with h9
      have := h10 τ (List.mem_append_left _ (h9 ▸ hτ))
      rw [fitnessD_of τ st hτ1] at this
      rw [h3]; exact this
  · intro i j a b hij ha hb
    have hidx : ∀ k v, m "pool_size" k = some (some v) → ∃ pool comp, (loggedStates r.trace)[k]? = some (pool, comp) ∧ v = (pool.length : K) := by
      intro k v hk
      by_cases hkl : k < (loggedStates r.trace).length
      · obtain ⟨⟨pool, comp⟩, hst⟩ : ∃ pc, (loggedStates r.trace)[k]? = some pc := ⟨_, List.getElem?_eq_getElem hkl⟩
        have := (hhist.2 k pool comp hst).2.1
        rw [hk] at this
        exact ⟨pool, comp, hst, by injection this with this; injection this⟩
      · rw [hhist.1 k (Nat.le_of_not_lt hkl)] at hk; cases hk
    obtain ⟨p, q, h1, rfl⟩ := hidx i a ha
    obtain ⟨p', q', h2, rfl⟩ := hidx j b hb
    have hgrow : (r.trace.map Event.pool).Pairwise (· <+: ·) := (C49_append_only cfg c entropy raw st0 cl).1
    have hpw : (loggedStates r.trace).Pairwise fun x z => x.1 <+: z.1 := by
      rw [List.pairwise_map] at hgrow
      unfold loggedStates
      refine hgrow.filterMap _ ?_
      intro e e' hee b hb b' hb'
      cases e <;> simp at hb
      cases e' <;> simp at hb'
      subst hb hb'
      exact hee
    rcases Nat.lt_or_ge i j with h | h
    · obtain ⟨hi, e1⟩ := List.getElem?_eq_some_iff.mp h1
      obtain ⟨hj, e2⟩ := List.getElem?_eq_some_iff.mp h2
      have := List.pairwise_iff_getElem.mp hpw i j hi hj h
      rw [e1, e2] at this
      exact_mod_cast this.length_le
    · have : i = j := le_antisymm hij h
      subst this
      rw [h1] at h2
      injection h2 with h2
      have h3 : p = p' := congrArg Prod.fst h2
      rw [h3]
  · intro hc
    obtain ⟨hraw, s, el, hrun, hel, htr, hfit, σ, hσ, hcl0, hcl1⟩ := completed_run _ _ _ _ _ _ _ hc
    have hlast := (run_shown cfg c hg (runEval cfg c raw.X raw.y) entropy raw.X raw.y st0.step).2 s hrun
    have hne : (loggedStates s.trace).getLast? = some (s.pool, s.comp) := by
      rcases hlast with ⟨_, h1⟩ | h1
      · obtain ⟨pop, hp, _⟩ := elitist_mem _ _ hel
        rw [h1] at hp; cases hp
      · exact h1
    have htr' : r.trace = s.trace := htr
    rw [← htr', List.getLast?_eq_getElem?, hlen] at hne
    have hn : 0 < n := by
      have := (List.getElem?_eq_some_iff.mp hne).1
      rw [hlen] at this
      exact lt_of_le_of_lt (Nat.zero_le _) this
    obtain ⟨a, b, e, _, _, he, hall, _⟩ := hstep (n - 1) s.pool s.comp hne
    obtain ⟨el', st, out, h4, h5, h6, rfl⟩ := elitistMetrics_spec _ _ _ _ _ _ _ _ he
    rw [hel] at h4
    obtain rfl : el = el' := by injection h4 with h4; injection h4
    have hok := ((run_lengths cfg c hg (runEval cfg c raw.X raw.y) entropy raw.X raw.y st0.step).2 s hrun).elitist_len el hel
    have hσst : σ.st = some st ∧ σ.predict c.learner c.mix c.filter false raw.X = .ok out := by
      cases cl with
      | false => rw [hcl0 rfl]; exact ⟨h5, h6⟩
      | true =>
        have h7 := hcl1 rfl
        obtain ⟨σ', h8, _, _, _, h9⟩ := C25_cleanup ({ genome := el.genome, pool := s.pool, st := el.st } : Solution K d M) hok.1
        rw [h7] at h8
        cases h8
        refine ⟨?_, by rw [h9]; exact h6⟩
        unfold cleanup at h7
        split at h7
        · cases h7
        · cases h7; exact h5
    have hX : raw.X ≠ [] := (check_ok raw _ _ hraw).2.2.2.1
    refine ⟨σ, st, out, hσ, hσst.1, ?_, hn, hall (_, _) (by simp), hall (_, _) (by simp), hall (_, _) (by simp),
      hall ("training_score", r2Score raw.y out) (by simp)⟩
    have hfit' : r.state.isFitted = true := hfit
    have hσ' : r.state.elitist = some (.solution σ) := hσ
    unfold SupState.predict
    rw [hfit', hc.2, hσ']
    simp only [Bool.true_eq_false, if_false, if_neg hX, Bool.false_eq_true]
    exact hσst.2

/-- Recorded values of the example run with two iterations. -/
def demoLog (key : String) : Option (List (Option (Option ℚ))) :=
  let r := SupState.fit (demoCfg 2 3 2 (-1) 0) (demoComp fun _ _ c => c) 7 demoData false {}
  match logRun (demoComp fun _ _ c => c) demoData.X demoData.y r.trace with
  | .error _ => none
  | .ok m => some ((List.range 3).map (m key))

example : demoLog "pool_size" = some [some (some 5), some (some 7), none] := by decide +kernel

example : (SupState.fit (demoCfg 2 3 2 (-1) 0) (demoComp fun _ _ c => c) 7 demoData false {}).raised = none ∧
    (SupState.fit (demoCfg 2 3 2 (-1) 0) (demoComp fun _ _ c => c) 7 demoData false {}).state.isError = false ∧
    elitistFitness (SupState.fit (demoCfg 2 3 2 (-1) 0) (demoComp fun _ _ c => c) 7 demoData false {}).trace = [5, 7] := by decide +kernel

example : demoLog "elitist_fitness" = some [some (some 5), some (some 7), none] := by decide +kernel

/-! ### C86 logging succeeds; the training score -/

theorem sum_sq_nonneg (l : List K) : 0 ≤ (l.map fun a => a * a).sum := List.sum_nonneg (by
  intro x hx
  obtain ⟨a, _, rfl⟩ := List.mem_map.mp hx
  exact mul_self_nonneg a)

theorem sum_sq_eq_zero (l : List K) : (l.map fun a => a * a).sum = 0 ↔ ∀ a ∈ l, a = 0 := by
  induction l with
  | nil => simp
  | cons a rest ih =>
    rw [List.map_cons, List.sum_cons]
    have h1 := mul_self_nonneg a
    have h2 := sum_sq_nonneg rest
    constructor
    · intro h
      have h3 : a * a = 0 := by linarith
      have h4 : (rest.map fun a => a * a).sum = 0 := by linarith
      intro b hb
      rcases List.mem_cons.mp hb with rfl | hb
      · exact mul_self_eq_zero.mp h3
      · exact ih.mp h4 b hb
    · intro h
      rw [h a List.mem_cons_self, ih.mpr fun b hb => h b (List.mem_cons_of_mem _ hb)]
      ring

theorem zipWith_sq (y p : List K) : List.zipWith (fun a b => (a - b) * (a - b)) y p = (List.zipWith (fun a b => a - b) y p).map fun a => a * a := by
  rw [List.map_zipWith]

theorem residuals_zero (y p : List K) (h : p.length = y.length) : (List.zipWith (fun a b => (a - b) * (a - b)) y p).sum = 0 ↔ p = y := by
  rw [zipWith_sq, sum_sq_eq_zero]
  induction y generalizing p with
  | nil => simp [List.length_eq_zero_iff.mp h]
  | cons a y ih =>
    cases p with
    | nil => cases h
    | cons b p =>
      simp only [List.zipWith_cons_cons, List.mem_cons, forall_eq_or_imp, List.cons.injEq]
      rw [ih p (by simpa using h), sub_eq_zero, eq_comm]

/-- C86, the score: with at least two samples and one prediction per sample the training score is a number, at most 1, and 1 exactly for perfect predictions. Unless all targets are equal, it
is `1 - n * mse / sum of squared deviations from the mean`; in particular it is non-negative iff the predictions are at least as good as the mean of the targets. -/
theorem C86_score (y p : List K) (h2 : 2 ≤ y.length) (hp : p.length = y.length) :
    ∃ v, r2Score y p = some v ∧ v ≤ 1 ∧ (v = 1 ↔ p = y) ∧
      ((∃ a ∈ y, ∃ b ∈ y, a ≠ b) → v = 1 - mse y p / mse y (List.replicate y.length (y.sum / (y.length : K))) ∧
        (0 ≤ v ↔ mse y p ≤ mse y (List.replicate y.length (y.sum / (y.length : K))))) := by
  have hl : (0 : K) < (y.length : K) := by exact_mod_cast (by omega : 0 < y.length)
  set mean := y.sum / (y.length : K) with hmean
  have hden : (y.map fun a => (a - mean) * (a - mean)) = (y.map fun a => a - mean).map fun a => a * a := by rw [List.map_map]; rfl
  have hnum0 : 0 ≤ (List.zipWith (fun a b => (a - b) * (a - b)) y p).sum := by rw [zipWith_sq]; exact sum_sq_nonneg _
  have hden0 : 0 ≤ (y.map fun a => (a - mean) * (a - mean)).sum := by rw [hden]; exact sum_sq_nonneg _
  have hres := residuals_zero y p hp
  have hm1 : mse y p = (List.zipWith (fun a b => (a - b) * (a - b)) y p).sum / (y.length : K) := by
    unfold mse; simp only [pow_two]
  have hm2 : mse y (List.replicate y.length mean) = (y.map fun a => (a - mean) * (a - mean)).sum / (y.length : K) := by
    unfold mse
    simp only [pow_two]
    congr 2
    rw [List.zipWith_comm, ← List.map_const', List.zipWith_map_left]
    have : ∀ l : List K, List.zipWith (fun _ b => (b - mean) * (b - mean)) l l = l.map fun a => (a - mean) * (a - mean) := by
      intro l; rw [List.zipWith_self]
    exact this y
  have hconst : (y.map fun a => (a - mean) * (a - mean)).sum = 0 → ∀ a ∈ y, ∀ b ∈ y, a = b := by
    intro h a ha b hb
    rw [hden, sum_sq_eq_zero] at h
    have h1 := h (a - mean) (List.mem_map.mpr ⟨a, ha, rfl⟩)
    have h2 := h (b - mean) (List.mem_map.mpr ⟨b, hb, rfl⟩)
    linarith
  unfold r2Score
  rw [if_neg (by omega)]
  dsimp only
  rw [← hmean]
  by_cases hd : (y.map fun a => (a - mean) * (a - mean)).sum = 0
  · rw [if_pos hd]
    have hno : ¬ ∃ a ∈ y, ∃ b ∈ y, a ≠ b := by rintro ⟨a, ha, b, hb, hab⟩; exact hab (hconst hd a ha b hb)
    by_cases hz : (List.zipWith (fun a b => (a - b) * (a - b)) y p).sum = 0
    · rw [if_pos hz]
      exact ⟨1, rfl, le_refl _, ⟨fun _ => hres.mp hz, fun _ => rfl⟩, fun h => absurd h hno⟩
    · rw [if_neg hz]
      exact ⟨0, rfl, zero_le_one, ⟨fun h => absurd h zero_ne_one, fun h => absurd (hres.mpr h) hz⟩, fun h => absurd h hno⟩
  · rw [if_neg hd]
    have hdpos : 0 < (y.map fun a => (a - mean) * (a - mean)).sum := lt_of_le_of_ne hden0 (Ne.symm hd)
    refine ⟨_, rfl, ?_, ?_, ?_⟩
    · have := div_nonneg hnum0 hden0
      linarith
    · rw [← hres, sub_eq_self, div_eq_zero_iff]
      exact ⟨fun h => h.resolve_right hd, Or.inl⟩
    · intro _
      rw [hm1, hm2, div_div_div_cancel_right₀ (ne_of_gt hl)]
      refine ⟨rfl, ?_⟩
      rw [sub_nonneg, div_le_one hdpos, div_le_div_iff_of_pos_right hl]

example : r2Score ([1, 2, 3, 4] : List ℚ) [1, 2, 3, 3] = some (4 / 5) ∧ r2Score ([1, 1] : List ℚ) [1, 2] = some 0 := by decide +kernel

theorem mapM_ok_of {α β : Type} (f : α → Except PyErr β) (l : List α) (h : ∀ a ∈ l, ∃ b, f a = .ok b) : ∃ l', l.mapM f = .ok l' := by
  induction l with
  | nil => exact ⟨[], rfl⟩
  | cons a rest ih =>
    obtain ⟨b, hb⟩ := h a List.mem_cons_self
    obtain ⟨l', hl'⟩ := ih fun x hx => h x (List.mem_cons_of_mem _ hx)
    refine ⟨b :: l', ?_⟩
    rw [mapM_ok_iff] at hl' ⊢
    exact List.Forall₂.cons hb hl'

theorem metricStats_total (l : List K) (h : l ≠ []) : ∃ stats, metricStats l = .ok stats := by
  obtain ⟨_, _, _, _, _, _, _, _, h1, _⟩ := C83_statistics l h
  exact ⟨_, h1⟩

theorem poolMetrics_total (pool : List (Rule K d M)) (h : ∀ ρ ∈ pool, ∃ s, ρ.st = some s) : ∃ a : List (String × Option K), poolMetrics pool = .ok a := by
  unfold poolMetrics
  split
  · exact ⟨_, rfl⟩
  · rename_i ρ0 rest
    obtain ⟨fs, hfs⟩ := mapM_ok_of (fun ρ : Rule K d M => match ρ.st with | none => Except.error PyErr.attributeError | some s => .ok s.fitness) (ρ0 :: rest)
      (fun ρ hρ => by obtain ⟨s, hs⟩ := h ρ hρ; exact ⟨s.fitness, by rw [hs]⟩)
    have hlen := mapM_length _ _ _ hfs
    obtain ⟨stats, hst⟩ := metricStats_total (fs.map fun f => f.unbotD 0) (by
      intro h0
      rw [List.map_eq_nil_iff] at h0
      rw [h0] at hlen; simp at hlen)
    split
    · rename_i e he
      exact absurd (hfs.symm.trans he) (by simp)
    · rename_i fs' he
      cases hfs.symm.trans he
      rw [hst]
      exact ⟨_, rfl⟩

theorem popMetrics_total (name : String) (attr : SolState K → K) (pop : List (Indiv K)) (hne : pop ≠ []) (h : ∀ σ ∈ pop, ∃ s, σ.st = some s) :
    ∃ a, popMetrics name attr pop = .ok a := by
  unfold popMetrics
  obtain ⟨vs, hvs⟩ := mapM_ok_of (fun σ : Indiv K => match σ.st with | none => Except.error PyErr.attributeError | some s => .ok (attr s)) pop
    (fun σ hσ => by obtain ⟨s, hs⟩ := h σ hσ; exact ⟨attr s, by rw [hs]⟩)
  have hlen := mapM_length _ _ _ hvs
  obtain ⟨stats, hst⟩ := metricStats_total vs (by
    intro h0
    rw [h0] at hlen
    exact hne (List.length_eq_zero_iff.mp hlen.symm))
  split
  · rename_i e he
    exact absurd (hvs.symm.trans he) (by simp)
  · rename_i vs' he
    cases hvs.symm.trans he
    rw [hst]
    exact ⟨_, rfl⟩

/-- Logging succeeds after iterations whose pool consists of rules fitted on the data. -/
theorem logRun_total (cfg : SupCfg K) (c : SupComp K d M) (hfilt : c.filter = filterAll) (ff : RuleFitness K d) (X : List (Point K d)) (y : List K)
    (hxy : y.length = X.length) (t : List (Event K d M)) (ht : ∀ e ∈ t, e.Shown (runEval cfg c X y))
    (hp : ∀ e ∈ t, ∀ ρ ∈ e.pool, ρ.FittedOn c.learner ff X y ∧ ∃ x ∈ X, ρ.kind.call ρ.bounds x = true) : ∃ m, logRun c X y t = .ok m := by
  have key : ∀ (states : List (List (Rule K d M) × CompState K)) (k : Nat) (m : Metrics K),
      (∀ pc ∈ states, (∃ el, pc.2.elitist = .ok (some el)) ∧ CompOk (runEval cfg c X y) pc.1 pc.2 ∧
        ∀ ρ ∈ pc.1, ρ.FittedOn c.learner ff X y ∧ ∃ x ∈ X, ρ.kind.call ρ.bounds x = true) →
      ∃ m', logFrom c.learner c.mix c.filter X y k states m = .ok m' := by
    intro states
    induction states with
    | nil => intro k m _; exact ⟨m, rfl⟩
    | cons pc rest ih =>
      intro k m h
      obtain ⟨pool, comp⟩ := pc
      obtain ⟨⟨el, hel⟩, hok, hpool⟩ := h _ List.mem_cons_self
      dsimp only at hel hok hpool
      obtain ⟨a, ha⟩ := poolMetrics_total pool fun ρ hρ => by
        obtain ⟨ρ0, j, h0, _, hf⟩ := (hpool ρ hρ).1
        rw [fits_replicate _ ff X y hxy _ h0 j] at hf
        obtain ⟨ρ', e', _, hcon⟩ := fit_consistent c.learner ff X X y hxy rfl ρ0 (Or.inl h0)
        rw [hf] at e'; cases e'
        obtain ⟨s, hs, _⟩ := hcon.state
        exact ⟨s, hs⟩
      obtain ⟨pop, hpop, hne, _, _⟩ := elitist_mem _ _ hel
      have hev : ∀ σ ∈ pop, ∃ s, σ.st = some s := fun σ hσ => by
        obtain ⟨s, hs, _⟩ := (hok.pop pop hpop).2 σ hσ
        exact ⟨s, hs⟩
      obtain ⟨b1, hb1⟩ := popMetrics_total "population_fitness" SolState.fitness pop hne hev
      obtain ⟨b2, hb2⟩ := popMetrics_total "population_error" SolState.error pop hne hev
      obtain ⟨b3, hb3⟩ := popMetrics_total "population_complexity" (fun s => (s.complexity : K)) pop hne hev
      obtain ⟨hlen, st, hst, _⟩ := hok.elitist_len el hel
      obtain ⟨out, _, _, hout⟩ := C20_default_filter_partial c.learner ff c.mix X y hxy { genome := el.genome, pool := pool, st := el.st } hlen hpool
      unfold logFrom logIteration populationMetrics elitistMetrics
      rw [ha, hpop, hel]
      simp only [hb1, hb2, hb3, hst]
      rw [hst] at hout
      rw [hfilt, hout]
      dsimp only
      rw [← hfilt]
      exact ih _ _ fun pc hpc => h pc (List.mem_cons_of_mem _ hpc)
  refine key _ _ _ fun pc hpc => ?_
  unfold loggedStates at hpc
  obtain ⟨e, he, hpc⟩ := List.mem_filterMap.mp hpc
  cases e with
  | discover => simp at hpc
  | compose => simp at hpc
  | composed p r el =>
    simp only [Option.some.injEq] at hpc
    subst hpc
    obtain ⟨h1, h2⟩ := ht _ he
    exact ⟨⟨el, h1⟩, h2, hp _ he⟩

/-- C86: training with the default components and the default logger never fails because of logging. In every iteration all pool fitness values are numbers, so their statistics are recorded, and with
at least two samples with different targets the recorded training score and the recorded error of the elitist agree: the error is the mean squared error, floored at 1e-4, and the score is one minus
the mean squared error divided by the variance of the targets. -/
theorem C86_default_logging (cfg : SupCfg K) (es : ESCfg K) (ga : GACfg K) (k : Nat) (hs : DefaultSettings cfg es ga k) (sigma : K × K)
    (D : RunDraws K d M) (hD : D.Possible es ga k sigma) (L : Learner K d M) (ff : RuleFitness K d) (sf : Nat → SolFitness K) (entropy : Nat)
    (raw : RawData K d) (hraw : raw.finite = true ∧ raw.X.length = raw.y.length ∧ raw.X ≠ []) (cl : Bool) (st0 : SupState K d M)
    (hinit : cfg.nInitial = 0 ∨ st0.step < cfg.nIter) :
    ∃ m, logRun (defaultComp es ga D L ff sf) raw.X raw.y (st0.fit cfg (defaultComp es ga D L ff sf) entropy raw cl).trace = .ok m ∧
      ∀ j, j < (elitistFitness (st0.fit cfg (defaultComp es ga D L ff sf) entropy raw cl).trace).length →
        (∀ n : K, m "pool_size" j = some (some n) → n ≠ 0 → ∃ vs, LoggedStats m "pool_fitness" j vs ∧ (vs.length : K) = n) ∧
        ((∃ a ∈ raw.y, ∃ b ∈ raw.y, a ≠ b) → ∃ e : K, 0 ≤ e ∧ m "elitist_error" j = some (some (max e (1 / 10000))) ∧
          m "training_score" j = some (some (1 - e / mse raw.y (List.replicate raw.y.length (raw.y.sum / (raw.y.length : K)))))) := by
  obtain ⟨fb, hfb, _⟩ := estimateBounds_ok raw.X hraw.2.2
  have hc : raw.check = .ok (raw.X, raw.y) := by unfold RawData.check; rw [if_pos hraw]
  have hxy : raw.y.length = raw.X.length := hraw.2.1.symm
  have hg := defaultComp_good es ga D L ff sf
  have hnf := defaultComp_noFailure cfg es ga k hs sigma D hD L ff sf raw.X raw.y hraw.2.2 hxy fb hfb
  obtain ⟨s, el, hrun, _, _, _, hgood⟩ := run_completes cfg _ hg entropy raw.X raw.y st0.step _ hnf hs.iter hs.rules hs.size hinit
  have htr : (st0.fit cfg (defaultComp es ga D L ff sf) entropy raw cl).trace = s.trace := by
    unfold SupState.fit
    rcases fitWith_trace cfg (defaultComp es ga D L ff sf) (runEval cfg (defaultComp es ga D L ff sf)) entropy raw cl st0 with ⟨h1, _⟩ | ⟨_, h1⟩
    · rw [hc] at h1; cases h1
    · rw [h1, hrun]; rfl
  have hgrow := run_growing cfg (defaultComp es ga D L ff sf) (runEval cfg (defaultComp es ga D L ff sf) raw.X raw.y) entropy raw.X raw.y st0.step
  rw [hrun] at hgrow
  have hsh := fit_shown cfg (defaultComp es ga D L ff sf) hg entropy raw cl st0
  have hpools : ∀ e ∈ s.trace, ∀ ρ ∈ e.pool, ρ.FittedOn (defaultComp es ga D L ff sf).learner ff raw.X raw.y ∧ ∃ x ∈ raw.X, ρ.kind.call ρ.bounds x = true := by
    intro e he ρ hρ
    have hin := hgood ρ ((hgrow.2 e he).subset hρ)
    obtain ⟨_, _, _, _, _, hm⟩ := hin.matchesData
    exact ⟨hin.fromData.fitted, hm⟩
  rw [htr] at hsh ⊢
  obtain ⟨m, hm⟩ := logRun_total cfg (defaultComp es ga D L ff sf) rfl ff raw.X raw.y hxy s.trace hsh hpools
  refine ⟨m, hm, fun j hj => ?_⟩
  rw [← loggedStates_length] at hj
  obtain ⟨⟨pool, comp⟩, hst⟩ : ∃ pc, (loggedStates s.trace)[j]? = some pc := ⟨_, List.getElem?_eq_getElem hj⟩
  have hmem : ∃ e ∈ s.trace, e.pool = pool := by
    have := List.mem_of_getElem? hst
    unfold loggedStates at this
    obtain ⟨e, he, hpc⟩ := List.mem_filterMap.mp this
    cases e <;> simp at hpc
    obtain ⟨rfl, _⟩ := hpc
    exact ⟨_, he, rfl⟩
  obtain ⟨ev, hev, rfl⟩ := hmem
  obtain ⟨_, hps, hstat, _⟩ := (C84_history _ _ _ _ _ hm).2 j _ _ hst
  refine ⟨?_, ?_⟩
  · intro n hn hn0
    rw [hps] at hn
    have hn' : (ev.pool.length : K) = n := by injection hn with hn; injection hn
    have hne : ev.pool ≠ [] := by
      intro h0; rw [h0] at hn'; exact hn0 (by rw [← hn']; simp)
    have hvs : ∀ l : List (Rule K d M), (∀ ρ ∈ l, ρ ∈ ev.pool) →
        ∃ vs : List K, l.map (fun ρ => ρ.st.map RuleState.fitness) = vs.map (fun v : K => some (v : WithBot K)) := by
      intro l hl
      induction l with
      | nil => exact ⟨[], rfl⟩
      | cons ρ rest ih =>
        obtain ⟨vs, h1⟩ := ih fun ρ' h' => hl ρ' (List.mem_cons_of_mem _ h')
        have hin := hgood ρ ((hgrow.2 ev hev).subset (hl ρ List.mem_cons_self))
        obtain ⟨st, hst, _, _, hfit, _, hok, _⟩ := hin.fromData.consistent hxy
        obtain ⟨_, _, _, _, f, hf⟩ := hok (hfit.mpr (hpools ev hev ρ (hl ρ List.mem_cons_self)).2)
        refine ⟨f :: vs, ?_⟩
        rw [List.map_cons, List.map_cons, h1, hst, Option.map_some, hf]
    obtain ⟨vs, h1⟩ := hvs ev.pool fun _ h => h
    refine ⟨vs, hstat hne vs h1, ?_⟩
    have := congrArg List.length h1
    rw [List.length_map, List.length_map] at this
    rw [← this]; exact hn'
  · intro hdiff
    have h2 : 2 ≤ raw.y.length := by
      obtain ⟨a, ha, b, hb, hab⟩ := hdiff
      by_contra hlt
      have hle : raw.y.length ≤ 1 := by omega
      rcases Nat.le_one_iff_eq_zero_or_eq_one.mp hle with h0 | h1
      · rw [List.length_eq_zero_iff.mp h0] at ha; cases ha
      · obtain ⟨v, hv⟩ := List.length_eq_one_iff.mp h1
        rw [hv] at ha hb
        exact hab ((List.mem_singleton.mp ha).trans (List.mem_singleton.mp hb).symm)
    obtain ⟨_, _, e, _, _, he, hall, _⟩ := logRun_step _ _ _ _ _ hm j _ _ hst
    obtain ⟨el', st, out, h3, h4, h5, rfl⟩ := elitistMetrics_spec _ _ _ _ _ _ _ _ he
    obtain ⟨el2, h6, hok, _⟩ := shown_index _ _ hsh j _ _ hst
    rw [h3] at h6
    obtain rfl : el' = el2 := by injection h6 with h6; injection h6
    obtain ⟨hlen, st', hst', hevl⟩ := hok.elitist_len el' h3
    rw [h4] at hst'
    injection hst' with hst'
    subst hst'
    obtain ⟨out', ho1, ho2, ho3⟩ := C20_default_filter_partial L ff (defaultComp es ga D L ff sf).mix raw.X raw.y hxy { genome := el'.genome, pool := ev.pool, st := el'.st } hlen (hpools ev hev)
    have : out = out' := by
      have := h5.symm.trans ho3
      injection this
    subst this
    obtain ⟨v, hv, _, _, hv3⟩ := C86_score raw.y out h2 (by rw [ho1, hxy])
    have hmse : 0 ≤ mse raw.y out := by
      unfold mse
      simp only [pow_two]
      rw [zipWith_sq]
      exact div_nonneg (sum_sq_nonneg _) (Nat.cast_nonneg _)
    refine ⟨mse raw.y out, hmse, ?_, ?_⟩
    · have herr : st.error = max (mse raw.y out) (1 / 10000) := by
        have ho2' : Solution.predict L (defaultComp es ga D L ff sf).mix filterAll true { genome := el'.genome, pool := ev.pool } raw.X = .ok out := ho2
        unfold runEval evalGenome Solution.fit at hevl
        dsimp only [defaultComp] at hevl ho2'
        rw [ho2'] at hevl
        dsimp only at hevl
        rw [if_neg (by rw [ho1, hxy]; push Not; exact ⟨rfl, by omega⟩)] at hevl
        injection hevl with hevl
        rw [← hevl]
        unfold errorFloor
        rfl
      rw [← herr]
      exact hall (_, _) (by simp)
    · rw [← (hv3 hdiff).1, ← hv]
      exact hall ("training_score", r2Score raw.y out) (by simp)

/-- The hypotheses of `C86_default_logging` hold for a small run on data with different targets. -/
example : ∃ m, logRun (defaultComp smallES smallGA (firstDraws 2 1 (1 / 2)) meanLearner negErr fun _ _ _ c => c) [![0], ![1], ![5]] [1, 3, 7]
    (SupState.fit smallCfg (defaultComp smallES smallGA (firstDraws 2 1 (1 / 2)) meanLearner negErr fun _ _ _ c => c) 7
      ⟨[![0], ![1], ![5]], [1, 3, 7], true⟩ false {}).trace = .ok m :=
  let ⟨m, h, _⟩ := C86_default_logging smallCfg smallES smallGA 2
    ⟨by decide, by decide, by decide, by decide, by decide, by decide, .inl rfl, by decide +kernel⟩ (1, 1) (firstDraws 2 1 (1 / 2))
    (firstDraws_possible _ rfl _ rfl _ _ _ (by norm_num) _) meanLearner negErr (fun _ _ _ c => c) 7 ⟨[![0], ![1], ![5]], [1, 3, 7], true⟩ (by simp) false {} (.inl rfl)
  ⟨m, h⟩

end Suprb
