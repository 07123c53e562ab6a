import Verif.Props.Reinforce

/-!
# Claim C165: ants prefer fit rules and avoid overlapping ones
-/

set_option autoImplicit false
set_option linter.unusedSectionVars false

namespace Suprb

variable {K : Type} [Field K] [LinearOrder K] [IsStrictOrderedRing K]

namespace Spec

/-- `lo` and `hi` are the smallest and the largest of the fitness values, and they differ. -/
structure FitnessRange (fits : List K) (lo hi : K) : Prop where
  least : lo ∈ fits
  greatest : hi ∈ fits
  range : ∀ f ∈ fits, lo ≤ f ∧ f ≤ hi
  lt : lo < hi

/-- What is used of powers and square roots: they are defined, positive for positive and not negative for other numbers, and monotone (nonnegative exponents). -/
structure Weighting (cfg : AntCfg K) : Prop where
  powA : ∀ x, 0 < x → 0 < cfg.powA x
  powB : ∀ x, 0 < x → 0 < cfg.powB x
  powB0 : ∀ x, 0 ≤ x → 0 ≤ cfg.powB x
  mono : ∀ x y, 0 ≤ x → x ≤ y → cfg.powB x ≤ cfg.powB y
  sqrt : ∀ x, 0 ≤ x → ∃ e, cfg.sqrt x = some e ∧ 0 ≤ e ∧ (0 < x → 0 < e)
  sqrtMono : ∀ x y e e', 0 ≤ x → x ≤ y → cfg.sqrt x = some e → cfg.sqrt y = some e' → e ≤ e'

/-- The pools differ in rule `j` only: in the second it is fitter (within the range of the fitness of the others) and, for the complete graph, overlaps less with the
others. -/
structure Improved (g : AntGraph) (j : Nat) (pool pool' : AntPool K) : Prop where
  length : pool'.fits.length = pool.fits.length
  others : ∀ i, i ≠ j → pool'.fits[i]? = pool.fits[i]?
  fitter : ∀ f f', pool.fits[j]? = some f → pool'.fits[j]? = some f' → f ≤ f'
  range : ∃ lo hi, FitnessRange pool.fits lo hi ∧ FitnessRange pool'.fits lo hi
  overlap : g = .complete → ∀ i k, i ≠ j → k ≠ j → pool'.overlap i k = pool.overlap i k
  less : g = .complete → ∀ i, i ≠ j → i < pool.fits.length → ∃ o o', pool.overlap i j = some o ∧ pool'.overlap i j = some o' ∧ 0 < o'.1 ∧ o'.1 ≤ o.1 ∧ 0 ≤ o.2 ∧ o.2 ≤ o'.2

end Spec

open Suprb.Spec (FitnessRange Weighting Improved)

theorem relativeFitness_of_range (fits : List K) (lo hi : K) (h : FitnessRange fits lo hi) :
    relativeFitness fits (1 / 2) = .ok (some (fits.map fun f => (1 - (f - lo) / (hi - lo) * (1 / 2), 1 + (f - lo) / (hi - lo) * (1 / 2)))) := by
  obtain ⟨x, xs, rfl⟩ := List.exists_cons_of_ne_nil (List.ne_nil_of_mem h.least)
  have h1 : npMin (x :: xs) = .ok (xs.foldl min x) := rfl
  have h2 : npMax (x :: xs) = .ok (xs.foldl max x) := rfl
  obtain ⟨hm, hlo⟩ := npMin_eq _ _ h1
  obtain ⟨hM, hhi⟩ := npMax_eq _ _ h2
  have e1 : xs.foldl min x = lo := le_antisymm (hlo _ h.least) (h.range _ hm).1
  have e2 : xs.foldl max x = hi := le_antisymm (h.range _ hM).2 (hhi _ h.greatest)
  unfold relativeFitness
  rw [if_neg (not_not.mpr one_half_lt_one), h1, h2, e1, e2]
  dsimp only
  rw [if_neg (sub_pos.mpr h.lt).ne']

/-- The share of the range is between 0 and 1. -/
theorem share_range (fits : List K) (lo hi : K) (h : FitnessRange fits lo hi) (f : K) (hf : f ∈ fits) : 0 ≤ (f - lo) / (hi - lo) ∧ (f - lo) / (hi - lo) ≤ 1 := by
  have hp := sub_pos.mpr h.lt
  refine ⟨div_nonneg (sub_nonneg.mpr (h.range f hf).1) hp.le, ?_⟩
  rw [div_le_one hp]
  linarith [(h.range f hf).2]

/-- The decision for positive weights. -/
theorem decides_iff (cfg : AntCfg K) (tau : K × K) (e0 e1 u : K) (hpos : 0 < cfg.powA tau.1 * cfg.powB e0 + cfg.powA tau.2 * cfg.powB e1) :
    cfg.decides tau (some e0) (some e1) u = true ↔ u ≤ cfg.powA tau.2 * cfg.powB e1 / (cfg.powA tau.1 * cfg.powB e0 + cfg.powA tau.2 * cfg.powB e1) := by
  unfold AntCfg.decides AntCfg.etaPow npDiv
  dsimp only
  rw [if_neg hpos.ne']
  exact decide_eq_true_iff

/-- The chance rises with the weight of taking and falls with that of leaving out. -/
theorem chance_mono (a0 a1 e0 e1 e0' e1' : K) (h0 : 0 < a0) (h1 : 0 < a1) (hp : 0 < e0') (hl : e0' ≤ e0) (hn : 0 ≤ e1) (hg : e1 ≤ e1') :
    a1 * e1 / (a0 * e0 + a1 * e1) ≤ a1 * e1' / (a0 * e0' + a1 * e1') := by
  have k0 := mul_pos h0 hp
  have k0' := mul_le_mul_of_nonneg_left hl h0.le
  have k1 := mul_nonneg h1.le hn
  have k1' := mul_le_mul_of_nonneg_left hg h1.le
  rw [div_le_div_iff₀ (by linarith) (by linarith)]
  nlinarith [mul_le_mul k1' k0' k0.le (k1.trans k1')]

theorem decides_improved (cfg : AntCfg K) (hc : Weighting cfg) (tau : K × K) (h0 : 0 < tau.1) (h1 : 0 < tau.2) (e0 e1 e0' e1' u : K) (hp : 0 < e0') (hl : e0' ≤ e0) (hn : 0 ≤ e1) (hg : e1 ≤ e1')
    (h : cfg.decides tau (some e0) (some e1) u = true) : cfg.decides tau (some e0') (some e1') u = true := by
  have a0 := hc.powA _ h0
  have a1 := hc.powA _ h1
  have b0' := hc.powB _ hp
  have b0 := hc.mono _ _ hp.le hl
  have b1 := hc.powB0 _ hn
  have b1' := hc.mono _ _ hn hg
  have hsum : ∀ x y : K, 0 < x → 0 ≤ y → 0 < cfg.powA tau.1 * x + cfg.powA tau.2 * y := fun x y hx hy => add_pos_of_pos_of_nonneg (mul_pos a0 hx) (mul_nonneg a1.le hy)
  rw [decides_iff _ _ _ _ _ (hsum _ _ (b0'.trans_le b0) b1)] at h
  rw [decides_iff _ _ _ _ _ (hsum _ _ b0' (b1.trans b1'))]
  exact h.trans (chance_mono _ _ _ _ _ _ a0 a1 b0' b0 b1 b1')

/-! ### The binary graph -/

theorem binaryBuild_of_range (cfg : AntCfg K) (pool : AntPool K) (lo hi : K) (h : FitnessRange pool.fits lo hi) (m : List (K × K)) (hm : m.length = pool.fits.length) (u : Nat → K) :
    ∃ g, binaryBuild cfg pool m u = .ok g ∧ g.length = pool.fits.length ∧ ∀ i f x, pool.fits[i]? = some f → m[i]? = some x →
      g[i]? = some (cfg.decides x (some (1 - (f - lo) / (hi - lo) * (1 / 2))) (some (1 + (f - lo) / (hi - lo) * (1 / 2))) (u i)) := by
  unfold binaryBuild
  rw [relativeFitness_of_range _ _ _ h]
  dsimp only
  rw [if_neg (by simp [hm])]
  refine ⟨_, rfl, by simp [hm], fun i f x hf hx => ?_⟩
  rw [List.getElem?_mapIdx]
  have : (m.zip (pool.fits.map fun f => (1 - (f - lo) / (hi - lo) * (1 / 2), 1 + (f - lo) / (hi - lo) * (1 / 2))))[i]? =
      some (x, (1 - (f - lo) / (hi - lo) * (1 / 2), 1 + (f - lo) / (hi - lo) * (1 / 2))) :=
    List.getElem?_zip_eq_some.mpr ⟨hx, by rw [List.getElem?_map, hf]; rfl⟩
  rw [this]
  rfl

/-- C165, the chance of a rule in the binary graph: with the pheromones `(x₀, x₁)` for leaving it out and taking it, and the share `r` of its fitness in the range of all, an ant takes it if and only
if its random number is at most `x₁^α (1 + r/2)^β / (x₀^α (1 - r/2)^β + x₁^α (1 + r/2)^β)`. For rules of which the pheromones say nothing (`x₀ = x₁`), with `β = 1`, this is `1/2 + r/4`. -/
theorem C165_chance (cfg : AntCfg K) (hc : Weighting cfg) (pool : AntPool K) (lo hi : K) (h : FitnessRange pool.fits lo hi) (m : List (K × K)) (hlen : m.length = pool.fits.length)
    (hm : ∀ x ∈ m, 0 < x.1 ∧ 0 < x.2) (d : AntDraw K) (σ : Indiv K) :
    ∃ τ, (Pheromones.binary m).build cfg pool d σ = .ok τ ∧ τ.genome.length = pool.fits.length ∧ ∀ i f x, pool.fits[i]? = some f → m[i]? = some x →
      let r := (f - lo) / (hi - lo)
      (τ.genome[i]? = some true ↔ d.u i ≤ cfg.powA x.2 * cfg.powB (1 + r / 2) / (cfg.powA x.1 * cfg.powB (1 - r / 2) + cfg.powA x.2 * cfg.powB (1 + r / 2))) ∧
      (x.1 = x.2 → (∀ z, cfg.powB z = z) → (τ.genome[i]? = some true ↔ d.u i ≤ 1 / 2 + r / 4)) := by
  obtain ⟨g, hg, hgl, hi'⟩ := binaryBuild_of_range cfg pool lo hi h m hlen d.u
  refine ⟨{ σ with genome := g }, ?_, hgl, fun i f x hf hx => ?_⟩
  · unfold Pheromones.build
    dsimp only
    rw [hg]
  · obtain ⟨r0, r1⟩ := share_range _ _ _ h f (List.mem_of_getElem? hf)
    obtain ⟨x0, x1⟩ := hm x (List.mem_of_getElem? hx)
    have hdec : g[i]? = some true ↔
        d.u i ≤ cfg.powA x.2 * cfg.powB (1 + (f - lo) / (hi - lo) / 2) / (cfg.powA x.1 * cfg.powB (1 - (f - lo) / (hi - lo) / 2) + cfg.powA x.2 * cfg.powB (1 + (f - lo) / (hi - lo) / 2)) := by
      rw [hi' i f x hf hx, Option.some_inj, mul_one_div, decides_iff]
      exact add_pos (mul_pos (hc.powA _ x0) (hc.powB _ (by linarith))) (mul_pos (hc.powA _ x1) (hc.powB _ (by linarith)))
    refine ⟨hdec, fun hx hz => ?_⟩
    rw [hdec, hx, hz, hz]
    have ha := hc.powA _ x1
    have : cfg.powA x.2 * (1 + (f - lo) / (hi - lo) / 2) / (cfg.powA x.2 * (1 - (f - lo) / (hi - lo) / 2) + cfg.powA x.2 * (1 + (f - lo) / (hi - lo) / 2)) =
        1 / 2 + (f - lo) / (hi - lo) / 4 := by
      rw [← mul_add, mul_div_mul_left _ _ ha.ne']
      ring
    rw [this]

/-- C165, two rules in the binary graph: with the same pheromones and a random number that is not larger, an ant that takes a rule also takes each rule that is at least as fit. -/
theorem C165_fitter (cfg : AntCfg K) (hc : Weighting cfg) (pool : AntPool K) (lo hi : K) (h : FitnessRange pool.fits lo hi) (m : List (K × K)) (hlen : m.length = pool.fits.length)
    (hm : ∀ x ∈ m, 0 < x.1 ∧ 0 < x.2) (d : AntDraw K) (σ τ : Indiv K) (hτ : (Pheromones.binary m).build cfg pool d σ = .ok τ) (i j : Nat) (f f' : K) (hf : pool.fits[i]? = some f)
    (hf' : pool.fits[j]? = some f') (hff : f ≤ f') (hmm : m[i]? = m[j]?) (hu : d.u j ≤ d.u i) (ht : τ.genome[i]? = some true) : τ.genome[j]? = some true := by
  obtain ⟨g, hg, hgl, hi'⟩ := binaryBuild_of_range cfg pool lo hi h m hlen d.u
  unfold Pheromones.build at hτ
  dsimp only at hτ
  rw [hg] at hτ
  injection hτ with hτ
  subst hτ
  have hil : i < m.length := by rw [hlen]; exact (List.getElem?_eq_some_iff.mp hf).1
  have hx : m[i]? = some m[i] := List.getElem?_eq_getElem hil
  obtain ⟨x0, x1⟩ := hm _ (List.getElem_mem hil)
  dsimp only at ht ⊢
  rw [hi' i f _ hf hx] at ht
  rw [hi' j f' _ hf' (hmm ▸ hx)]
  obtain ⟨r0, r1⟩ := share_range _ _ _ h f (List.mem_of_getElem? hf)
  obtain ⟨q0, q1⟩ := share_range _ _ _ h f' (List.mem_of_getElem? hf')
  have hr : (f - lo) / (hi - lo) ≤ (f' - lo) / (hi - lo) := div_le_div_of_nonneg_right (by linarith) (sub_pos.mpr h.lt).le
  have h2 := decides_improved cfg hc m[i] x0 x1 _ _ (1 - (f' - lo) / (hi - lo) * (1 / 2)) (1 + (f' - lo) / (hi - lo) * (1 / 2)) (d.u i) (by linarith) (by linarith) (by linarith) (by linarith)
    (Option.some_inj.mp ht)
  refine congrArg some ?_
  rw [decides_iff _ _ _ _ _ (add_pos (mul_pos (hc.powA _ x0) (hc.powB _ (by linarith))) (mul_pos (hc.powA _ x1) (hc.powB _ (by linarith))))] at h2 ⊢
  exact hu.trans h2

/-! ### The complete graph -/

theorem weigh_improved (cfg : AntCfg K) (hc : Weighting cfg) (tau : K × K) (h0 : 0 < tau.1) (h1 : 0 < tau.2) (ws ws' : List (K × K)) (j : Nat) (o o' : K × K) (u : K)
    (hw : 0 < (ws'.getD j (0, 0)).1 ∧ (ws'.getD j (0, 0)).1 ≤ (ws.getD j (0, 0)).1 ∧ 0 ≤ (ws.getD j (0, 0)).2 ∧ (ws.getD j (0, 0)).2 ≤ (ws'.getD j (0, 0)).2)
    (ho : 0 < o'.1 ∧ o'.1 ≤ o.1 ∧ 0 ≤ o.2 ∧ o.2 ≤ o'.2) (h : cfg.weigh tau (some ws) (some o) j u = true) : cfg.weigh tau (some ws') (some o') j u = true := by
  obtain ⟨w0, w1, w2, w3⟩ := hw
  obtain ⟨o0, o1, o2, o3⟩ := ho
  unfold AntCfg.weigh at h ⊢
  dsimp only at h ⊢
  have k0 := mul_pos w0 o0
  have k1 := mul_le_mul w1 o1 o0.le (w0.le.trans w1)
  have k2 := mul_nonneg w2 o2
  have k3 := mul_le_mul w3 o3 o2 (w2.trans w3)
  obtain ⟨e0, he0, _, _⟩ := hc.sqrt _ (k0.le.trans k1)
  obtain ⟨e1, he1, hn, _⟩ := hc.sqrt _ k2
  obtain ⟨e0', he0', _, hp⟩ := hc.sqrt _ k0.le
  obtain ⟨e1', he1', _, _⟩ := hc.sqrt _ (k2.trans k3)
  rw [he0, he1] at h
  rw [he0', he1']
  exact decides_improved cfg hc tau h0 h1 e0 e1 e0' e1' u (hp k0) (hc.sqrtMono _ _ _ _ k0.le k1 he0' he0) hn (hc.sqrtMono _ _ _ _ k2 k3 he1 he1') h

theorem mean_improved (l : List (K × K)) (l' : List (K × K)) (hne : l ≠ []) (h : List.Forall₂ (fun o o' => 0 < o'.1 ∧ o'.1 ≤ o.1 ∧ 0 ≤ o.2 ∧ o.2 ≤ o'.2) l l') :
    0 < mean (l'.map Prod.fst) ∧ mean (l'.map Prod.fst) ≤ mean (l.map Prod.fst) ∧ 0 ≤ mean (l.map Prod.snd) ∧ mean (l.map Prod.snd) ≤ mean (l'.map Prod.snd) := by
  have hlen := h.length_eq
  have hpos : (0 : K) < l.length := Nat.cast_pos.mpr (List.length_pos_iff.mpr hne)
  have key : ∀ l l' : List (K × K), List.Forall₂ (fun o o' => 0 < o'.1 ∧ o'.1 ≤ o.1 ∧ 0 ≤ o.2 ∧ o.2 ≤ o'.2) l l' →
      0 ≤ (l'.map Prod.fst).sum ∧ (l ≠ [] → 0 < (l'.map Prod.fst).sum) ∧ (l'.map Prod.fst).sum ≤ (l.map Prod.fst).sum ∧ 0 ≤ (l.map Prod.snd).sum ∧ (l.map Prod.snd).sum ≤ (l'.map Prod.snd).sum := by
    intro l l' h
    induction h with
    | nil => simp
    | cons hr _ ih =>
      obtain ⟨a, b, c, e⟩ := hr
      obtain ⟨i1, _, i2, i3, i4⟩ := ih
      simp only [List.map_cons, List.sum_cons]
      exact ⟨by linarith, fun _ => by linarith, by linarith, by linarith, by linarith⟩
  obtain ⟨_, k1, k2, k3, k4⟩ := key l l' h
  unfold mean
  simp only [List.length_map, ← hlen]
  exact ⟨div_pos (k1 hne) hpos, div_le_div_of_nonneg_right k2 hpos.le, div_nonneg k3 hpos.le, div_le_div_of_nonneg_right k4 hpos.le⟩

theorem pairMean_some (l : List (Option (K × K))) (r : List (K × K)) (h : l = r.map some) : pairMean l = some (mean (r.map Prod.fst), mean (r.map Prod.snd)) := by
  subst h
  unfold pairMean
  rw [if_pos (by simp)]
  simp [List.filterMap_map]

variable (cfg : AntCfg K) (pool pool' : AntPool K) (ws ws' : List (K × K)) (m : List (List (K × K))) (j : Nat)

/-- The decisions about the other rules do not change. -/
theorem completeDecide_other (hov : ∀ i k, i ≠ j → k ≠ j → pool'.overlap i k = pool.overlap i k) (hws : ∀ k, k ≠ j → ws'.getD k (0, 0) = ws.getD k (0, 0)) (route : List Nat) (hr : j ∉ route)
    (k : Nat) (hk : k ≠ j) (u : K) : completeDecide cfg pool' (some ws') m route k u = completeDecide cfg pool (some ws) m route k u := by
  have hweigh : ∀ tau o, cfg.weigh tau (some ws') o k u = cfg.weigh tau (some ws) o k u := by
    intro tau o
    unfold AntCfg.weigh
    cases o with
    | none => rfl
    | some o => dsimp only; rw [hws k hk]
  have hne : ∀ i ∈ route, i ≠ j := fun i hi h => hr (h ▸ hi)
  unfold completeDecide
  dsimp only
  rw [hweigh]
  congr 1
  cases hl : route.getLast? with
  | none => rfl
  | some last =>
    dsimp only
    rw [hov last k (hne last (List.mem_of_getLast? hl)) hk, List.map_congr_left fun i hi => hov i k (hne i hi) hk]

theorem completeRoute_other (hov : ∀ i k, i ≠ j → k ≠ j → pool'.overlap i k = pool.overlap i k) (hws : ∀ k, k ≠ j → ws'.getD k (0, 0) = ws.getD k (0, 0)) (u : Nat → K) (l : List Nat) (hl : j ∉ l)
    (k : Nat) (route : List Nat) (hr : j ∉ route) : completeRoute cfg pool' (some ws') m u l k route = completeRoute cfg pool (some ws) m u l k route := by
  induction l generalizing k route with
  | nil => rfl
  | cons a as ih =>
    have ha : a ≠ j := fun h => hl (by rw [h]; exact List.mem_cons_self ..)
    rw [completeRoute, completeRoute, completeDecide_other cfg pool pool' ws ws' m j hov hws route hr a ha]
    refine ih (fun h => hl (List.mem_cons_of_mem _ h)) _ _ ?_
    split
    · intro h
      rcases List.mem_append.mp h with h | h
      · exact hr h
      · exact ha (List.mem_singleton.mp h).symm
    · exact hr

/-- The decision about the improved rule. -/
theorem completeDecide_improved (hc : Weighting cfg) (n : Nat) (hj : j < n) (hs : (Pheromones.complete m).Shape n .complete) (hm : ∀ row ∈ m, ∀ x ∈ row, 0 < x.1 ∧ 0 < x.2)
    (hless : ∀ i, i ≠ j → i < n → ∃ o o', pool.overlap i j = some o ∧ pool'.overlap i j = some o' ∧ 0 < o'.1 ∧ o'.1 ≤ o.1 ∧ 0 ≤ o.2 ∧ o.2 ≤ o'.2)
    (hw : 0 < (ws'.getD j (0, 0)).1 ∧ (ws'.getD j (0, 0)).1 ≤ (ws.getD j (0, 0)).1 ∧ 0 ≤ (ws.getD j (0, 0)).2 ∧ (ws.getD j (0, 0)).2 ≤ (ws'.getD j (0, 0)).2)
    (route : List Nat) (hr : j ∉ route) (hroute : ∀ i ∈ route, i < n) (u : K) (h : completeDecide cfg pool (some ws) m route j u = true) :
    completeDecide cfg pool' (some ws') m route j u = true := by
  have hcol : ∀ row ∈ m, 0 < (row.getD j (0, 0)).1 ∧ 0 < (row.getD j (0, 0)).2 := by
    intro row hrow
    have hjr : j < row.length := by rw [hs.2 row hrow]; exact hj
    rw [List.getD_eq_getElem?_getD, List.getElem?_eq_getElem hjr]
    exact hm row hrow _ (List.getElem_mem hjr)
  have hcell : ∀ i, i < n → 0 < (cell m i j).1 ∧ 0 < (cell m i j).2 := by
    intro i hi
    have him : i < m.length := by rw [hs.1]; exact hi
    unfold cell
    rw [List.getD_eq_getElem?_getD (l := m), List.getElem?_eq_getElem him]
    exact hcol _ (List.getElem_mem him)
  have hsum : ∀ l : List (K × K), l ≠ [] → (∀ x ∈ l, 0 < x.1 ∧ 0 < x.2) → 0 < (pairSum l).1 ∧ 0 < (pairSum l).2 := fun l hne hl =>
    (pairSum_leans l l (List.forall₂_same.mpr fun x hx => ⟨⟨le_rfl, le_rfl⟩, (hl x hx).1, (hl x hx).2⟩) hne).2
  have hne : ∀ i ∈ route, i ≠ j := fun i hi h => hr (h ▸ hi)
  unfold completeDecide at h ⊢
  cases hl : route.getLast? with
  | none =>
    rw [hl] at h
    dsimp only at h ⊢
    have hmne : m ≠ [] := by
      intro h0
      have := hs.1
      rw [h0] at this
      simp at this
      omega
    obtain ⟨t0, t1⟩ := hsum (m.map fun row => row.getD j (0, 0)) (by simpa using hmne) fun x hx => by
      obtain ⟨row, hrow, rfl⟩ := List.mem_map.mp hx
      exact hcol row hrow
    exact weigh_improved cfg hc _ t0 t1 ws ws' j (1, 1) (1, 1) u hw ⟨one_pos, le_rfl, zero_le_one, le_rfl⟩ h
  | some last =>
    rw [hl] at h
    have hlast := List.mem_of_getLast? hl
    dsimp only at h ⊢
    by_cases hp : cfg.partialRoute = true
    · rw [if_pos hp, if_pos hp] at h
      rw [if_pos hp, if_pos hp]
      obtain ⟨t0, t1⟩ := hsum ((route ++ [j]).map fun i => cell m i j) (by simp) fun x hx => by
        obtain ⟨i, hi, rfl⟩ := List.mem_map.mp hx
        rcases List.mem_append.mp hi with hi | hi
        · exact hcell i (hroute i hi)
        · rw [List.mem_singleton.mp hi]; exact hcell j hj
      have hrne : route ≠ [] := List.ne_nil_of_mem hlast
      have hex : ∀ r : List Nat, (∀ i ∈ r, i ≠ j ∧ i < n) → ∃ q q' : List (K × K), (r.map fun i => pool.overlap i j) = q.map some ∧ (r.map fun i => pool'.overlap i j) = q'.map some ∧
          (r ≠ [] → q ≠ []) ∧ List.Forall₂ (fun o o' => 0 < o'.1 ∧ o'.1 ≤ o.1 ∧ 0 ≤ o.2 ∧ o.2 ≤ o'.2) q q' := by
        intro r hr
        induction r with
        | nil => exact ⟨[], [], rfl, rfl, fun h => absurd rfl h, .nil⟩
        | cons i r ih =>
          obtain ⟨q, q', h1, h2, _, h3⟩ := ih fun i hi => hr i (List.mem_cons_of_mem _ hi)
          obtain ⟨o, o', ho, ho', h4⟩ := hless i (hr i (List.mem_cons_self ..)).1 (hr i (List.mem_cons_self ..)).2
          exact ⟨o :: q, o' :: q', by simp [ho, h1], by simp [ho', h2], fun _ => by simp, .cons h4 h3⟩
      obtain ⟨q, q', h1, h2, h3, h4⟩ := hex route fun i hi => ⟨hne i hi, hroute i hi⟩
      rw [pairMean_some _ q h1] at h
      rw [pairMean_some _ q' h2]
      exact weigh_improved cfg hc _ t0 t1 ws ws' j _ _ u hw (mean_improved q q' (h3 hrne) h4) h
    · rw [if_neg hp, if_neg hp] at h
      rw [if_neg hp, if_neg hp]
      obtain ⟨t0, t1⟩ := hsum [cell m last j, cell m j j] (by simp) fun x hx => by
        rcases List.mem_cons.mp hx with rfl | hx
        · exact hcell last (hroute last hlast)
        · rw [List.mem_singleton.mp hx]; exact hcell j hj
      obtain ⟨o, o', ho, ho', h4⟩ := hless last (hne last hlast) (hroute last hlast)
      rw [ho] at h
      rw [ho']
      exact weigh_improved cfg hc _ t0 t1 ws ws' j o o' u hw h4 h

/-- The weights of two pools that differ in rule `j`. -/
theorem weights_improved (g : AntGraph) (hi : Improved g j pool pool') (hj : j < pool.fits.length) : ∃ ws ws', relativeFitness pool.fits (1 / 2) = .ok (some ws) ∧ relativeFitness pool'.fits (1 / 2) = .ok (some ws') ∧
    ws.length = pool.fits.length ∧ ws'.length = pool.fits.length ∧ (∀ k, k ≠ j → ws'.getD k (0, 0) = ws.getD k (0, 0)) ∧
    0 < (ws'.getD j (0, 0)).1 ∧ (ws'.getD j (0, 0)).1 ≤ (ws.getD j (0, 0)).1 ∧ 0 ≤ (ws.getD j (0, 0)).2 ∧ (ws.getD j (0, 0)).2 ≤ (ws'.getD j (0, 0)).2 := by
  obtain ⟨lo, hi', h1, h2⟩ := hi.range
  refine ⟨_, _, relativeFitness_of_range _ _ _ h1, relativeFitness_of_range _ _ _ h2, by simp, by simp [hi.length], fun k hk => ?_, ?_⟩
  · rw [List.getD_eq_getElem?_getD, List.getD_eq_getElem?_getD, List.getElem?_map, List.getElem?_map, hi.others k hk]
  · have hj' : j < pool'.fits.length := by rw [hi.length]; exact hj
    have hf := hi.fitter _ _ (List.getElem?_eq_getElem hj) (List.getElem?_eq_getElem hj')
    obtain ⟨r0, r1⟩ := share_range _ _ _ h1 _ (List.getElem_mem hj)
    obtain ⟨q0, q1⟩ := share_range _ _ _ h2 _ (List.getElem_mem hj')
    have hr : (pool.fits[j] - lo) / (hi' - lo) ≤ (pool'.fits[j] - lo) / (hi' - lo) := div_le_div_of_nonneg_right (by linarith) (sub_pos.mpr h1.lt).le
    rw [List.getD_eq_getElem?_getD, List.getD_eq_getElem?_getD, List.getElem?_map, List.getElem?_map, List.getElem?_eq_getElem hj, List.getElem?_eq_getElem hj']
    simp only [Option.map_some, Option.getD_some]
    exact ⟨by linarith, by linarith, by linarith, by linarith⟩

/-- C165 for both graphs: if a rule becomes fitter (within the range of the fitness of the others) and overlaps less with the others, an ant with the same pheromones, order and random numbers that took
it before takes it now. For all settings with nonnegative exponents; the overlap is that of C76 for the complete graph. -/
theorem C165_improved (hc : Weighting cfg) (g : AntGraph) (hi : Improved g j pool pool') (p : Pheromones K) (hs : p.Shape pool.fits.length g) (hp : ∀ x ∈ p.values, 0 < x) (d : AntDraw K)
    (hd : d.order.Perm (List.range pool.fits.length)) (σ τ τ' : Indiv K) (h : p.build cfg pool d σ = .ok τ) (h' : p.build cfg pool' d σ = .ok τ') (ht : τ.genome[j]? = some true) :
    τ'.genome[j]? = some true := by
  unfold Pheromones.build at h h'
  cases p with
  | binary m =>
    cases g with
    | complete => exact hs.elim
    | binary =>
      dsimp only at h h'
      obtain ⟨lo, hi', h1, h2⟩ := hi.range
      have hlen : m.length = pool.fits.length := hs
      have hm : ∀ x ∈ m, 0 < x.1 ∧ 0 < x.2 := fun x hx => ⟨hp _ (List.mem_flatMap.mpr ⟨x, hx, by simp⟩), hp _ (List.mem_flatMap.mpr ⟨x, hx, by simp⟩)⟩
      obtain ⟨b, hb, hbl, hb'⟩ := binaryBuild_of_range cfg pool lo hi' h1 m hlen d.u
      obtain ⟨c, hc1, hcl, hc'⟩ := binaryBuild_of_range cfg pool' lo hi' h2 m (by rw [hi.length]; exact hlen) d.u
      rw [hb] at h
      rw [hc1] at h'
      injection h with h
      injection h' with h'
      subst h h'
      dsimp only at ht ⊢
      have hj : j < pool.fits.length := by rw [← hbl]; exact (List.getElem?_eq_some_iff.mp ht).1
      have hj' : j < pool'.fits.length := by rw [hi.length]; exact hj
      have hjm : j < m.length := by rw [hlen]; exact hj
      rw [hb' j _ _ (List.getElem?_eq_getElem hj) (List.getElem?_eq_getElem hjm)] at ht
      rw [hc' j _ _ (List.getElem?_eq_getElem hj') (List.getElem?_eq_getElem hjm)]
      obtain ⟨x0, x1⟩ := hm _ (List.getElem_mem hjm)
      have hf := hi.fitter _ _ (List.getElem?_eq_getElem hj) (List.getElem?_eq_getElem hj')
      obtain ⟨r0, r1⟩ := share_range _ _ _ h1 _ (List.getElem_mem hj)
      obtain ⟨q0, q1⟩ := share_range _ _ _ h2 _ (List.getElem_mem hj')
      have hr : (pool.fits[j] - lo) / (hi' - lo) ≤ (pool'.fits[j] - lo) / (hi' - lo) := div_le_div_of_nonneg_right (by linarith) (sub_pos.mpr h1.lt).le
      exact congrArg some (decides_improved cfg hc m[j] x0 x1 _ _ _ _ _ (by linarith) (by linarith) (by linarith) (by linarith) (Option.some_inj.mp ht))
  | complete m =>
    cases g with
    | binary => exact hs.elim
    | complete =>
      dsimp only at h h'
      have hm : ∀ row ∈ m, ∀ x ∈ row, 0 < x.1 ∧ 0 < x.2 := fun row hrow x hx =>
        ⟨hp _ (List.mem_flatMap.mpr ⟨row, hrow, List.mem_flatMap.mpr ⟨x, hx, by simp⟩⟩), hp _ (List.mem_flatMap.mpr ⟨row, hrow, List.mem_flatMap.mpr ⟨x, hx, by simp⟩⟩)⟩
      cases hb : completeBuild cfg pool m d.order d.u with
      | error e => rw [hb] at h; cases h
      | ok b =>
        cases hb' : completeBuild cfg pool' m d.order d.u with
        | error e => rw [hb'] at h'; cases h'
        | ok b' =>
          rw [hb] at h
          rw [hb'] at h'
          injection h with h
          injection h' with h'
          subst h h'
          dsimp only at ht ⊢
          have hj : j < pool.fits.length := by
            obtain ⟨hl, _⟩ := List.getElem?_eq_some_iff.mp ht
            unfold completeBuild at hb
            split at hb
            · cases hb
            · injection hb with hb
              rw [← hb] at hl
              simpa using hl
          obtain ⟨ws, ws', h1, h2, _, _, h3, h4⟩ := weights_improved pool pool' j .complete hi hj
          have hjo : j ∈ d.order := hd.mem_iff.mpr (List.mem_range.mpr hj)
          obtain ⟨pre, post, ho⟩ := List.append_of_mem hjo
          have hnd : (pre ++ j :: post).Nodup := by rw [← ho]; exact hd.nodup_iff.mpr List.nodup_range
          have hlt : ∀ i ∈ pre, i < pool.fits.length := fun i hi => List.mem_range.mp (hd.mem_iff.mp (by rw [ho]; exact List.mem_append_left _ hi))
          obtain ⟨_, hnj, hdis⟩ := List.nodup_append.mp hnd
          have hjpost : j ∉ post := (List.nodup_cons.mp hnj).1
          have hjpre : j ∉ pre := fun h => hdis j h j List.mem_cons_self rfl
          have hmem : ∀ (q : AntPool K) (v : List (K × K)), j ∈ completeRoute cfg q (some v) m d.u (pre ++ j :: post) 0 [] ↔
              completeDecide cfg q (some v) m (completeRoute cfg q (some v) m d.u pre 0 []) j (d.u (0 + pre.length)) = true := by
            intro q v
            rw [completeRoute_append, completeRoute]
            obtain ⟨s, hs, he⟩ := completeRoute_sublist cfg q (some v) m d.u pre 0 []
            have hj1 : j ∉ completeRoute cfg q (some v) m d.u pre 0 [] := by
              rw [he]
              exact fun h => hjpre (hs.subset (by simpa using h))
            split
            · next hdec =>
              refine ⟨fun _ => hdec, fun _ => ?_⟩
              obtain ⟨s, _, he⟩ := completeRoute_sublist cfg q (some v) m d.u post (0 + pre.length + 1) (completeRoute cfg q (some v) m d.u pre 0 [] ++ [j])
              rw [he]
              simp
            · next hdec =>
              refine ⟨fun h => ?_, fun h => absurd h hdec⟩
              obtain ⟨s, hs, he⟩ := completeRoute_sublist cfg q (some v) m d.u post (0 + pre.length + 1) (completeRoute cfg q (some v) m d.u pre 0 [])
              rw [he] at h
              rcases List.mem_append.mp h with h | h
              · exact absurd h hj1
              · exact absurd (hs.subset h) hjpost
          have hget : ∀ (n : Nat) (r : List Nat), j < n → ((((List.range n).map fun i => r.contains i))[j]? = some true ↔ j ∈ r) := fun n r hn => by
            rw [List.getElem?_map, List.getElem?_range hn]
            simp
          unfold completeBuild at hb hb'
          rw [h1] at hb
          rw [h2] at hb'
          injection hb with hb
          injection hb' with hb'
          rw [← hb, hget _ _ hj, ho, hmem] at ht
          rw [← hb', hget _ _ (by rw [hi.length]; exact hj), ho, hmem]
          rw [completeRoute_other cfg pool pool' ws ws' m j (hi.overlap rfl) h3 d.u pre hjpre 0 [] (by simp)]
          obtain ⟨s, hsub, he⟩ := completeRoute_sublist cfg pool (some ws) m d.u pre 0 []
          have hsp : ∀ i ∈ completeRoute cfg pool (some ws) m d.u pre 0 [], i ∈ pre := fun i hi => by
            rw [he] at hi
            exact hsub.subset (by simpa using hi)
          exact completeDecide_improved cfg pool pool' ws ws' m j hc pool.fits.length hj hs hm (hi.less rfl) h4 _ (fun h => hjpre (hsp j h)) (fun i h => hlt i (hsp i h)) _ ht

/-- Exponents and square root of the examples; the root is exact for the numbers 0 and 1 only and otherwise replaced by the number itself. -/
def linearAnt : AntCfg ℚ := ⟨id, id, none, some, 5, true⟩

example : Weighting linearAnt :=
  ⟨fun _ h => h, fun _ h => h, fun _ h => h, fun _ _ _ h => h, fun x h => ⟨x, rfl, h, id⟩, fun x y e e' _ h he he' => by cases he; cases he'; exact h⟩

/-- Three rules with fitness 0, 1, 4 of which the pheromones say nothing: chances 1/2, 9/16 and 3/4. An ant with the random number 3/5 for each rule takes the last one only, with 11/20 the last two. -/
example : FitnessRange [(0 : ℚ), 1, 4] 0 4 ∧ binaryBuild linearAnt ⟨[0, 1, 4], fun _ _ => none⟩ [(5, 5), (5, 5), (5, 5)] (fun _ => 3 / 5) = .ok [false, false, true] ∧
    binaryBuild linearAnt ⟨[0, 1, 4], fun _ _ => none⟩ [(5, 5), (5, 5), (5, 5)] (fun _ => 11 / 20) = .ok [false, true, true] :=
  ⟨⟨by decide, by decide, by decide +kernel, by decide +kernel⟩, by decide +kernel, by decide +kernel⟩

/-- Rule 1 of three rules becomes fitter and is moved out of rule 0: an ant that considers the rules in the order 0, 1, 2 with the random numbers 1/2 takes it now, but not before. -/
example : Improved .complete 1 ⟨[0, 1, 4], fun i j => if i = 0 ∧ j = 1 then some (2, 0) else some ((1 : ℚ), 1)⟩ ⟨[0, 2, 4], fun _ _ => some (1, 1)⟩ ∧
    completeBuild linearAnt ⟨[0, 1, 4], fun i j => if i = 0 ∧ j = 1 then some (2, 0) else some (1, 1)⟩ (List.replicate 3 (List.replicate 3 (1, 1))) [0, 1, 2] (fun _ => 1 / 2) = .ok [true, false, true] ∧
    completeBuild linearAnt ⟨[0, 2, 4], fun _ _ => some (1, 1)⟩ (List.replicate 3 (List.replicate 3 (1, 1))) [0, 1, 2] (fun _ => 1 / 2) = .ok [true, true, true] := by
  refine ⟨⟨rfl, fun i hi => ?_, fun f f' h h' => ?_, ⟨0, 4, ⟨by decide, by decide, by decide +kernel, by decide +kernel⟩, ⟨by decide, by decide, by decide +kernel, by decide +kernel⟩⟩, fun _ i k hi hk => ?_, fun _ i hi _ => ?_⟩,
    by decide +kernel, by decide +kernel⟩
  · match i, hi with
    | 0, _ => rfl
    | 1, h => exact absurd rfl h
    | 2, _ => rfl
    | k + 3, _ => rfl
  · cases h
    cases h'
    norm_num
  · simp [hk]
  · by_cases h0 : i = 0
    · exact ⟨(2, 0), (1, 1), by simp [h0], rfl, by norm_num, by norm_num, by norm_num, by norm_num⟩
    · exact ⟨(1, 1), (1, 1), by simp [h0], rfl, by norm_num, by norm_num, by norm_num, by norm_num⟩

end Suprb
