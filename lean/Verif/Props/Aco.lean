import Verif.Model.Aco
import Verif.Lemmas.Swarm
import Mathlib.Tactic.NormNum
import Mathlib.Algebra.Order.BigOperators.Ring.Finset

/-!
# Claims C68, C69, C73 and C76 for the ant colony
-/

set_option autoImplicit false
set_option linter.unusedSectionVars false

namespace Suprb

open Spec

variable {K : Type} [Field K] [LinearOrder K] {d : Nat}

/-! ## C68 -/

/-- N×2 or N×N×2. -/
def Pheromones.Shape (n : Nat) (g : AntGraph) (p : Pheromones K) : Prop :=
  match g, p with
  | .binary, .binary m => m.length = n
  | .complete, .complete m => m.length = n ∧ ∀ row ∈ m, row.length = n
  | _, _ => False

/-- The pair of pheromones (not selecting, selecting) of rule `i` or of the pair of rules `i`, `j` (`j` is ignored for the binary graph). -/
def Pheromones.at? (p : Pheromones K) (i j : Nat) : Option (K × K) :=
  match p with
  | .binary m => m[i]?
  | .complete m => (m[i]?).bind fun row => row[j]?

/-- C68 (growing): for a matrix for `n` rules and a larger pool, padding succeeds, gives a matrix for the larger pool, keeps all existing values and sets all others to
`tau0`; a smaller pool is a `ValueError`. -/
theorem C68_pad (cfg : AntCfg K) (g : AntGraph) (p : Pheromones K) (n size : Nat) (hs : p.Shape n g) :
    (n ≤ size → ∃ p', Pheromones.pad cfg g (some p) size = .ok p' ∧ p'.Shape size g ∧
      ∀ i j, i < size → j < size → p'.at? i j = if i < n ∧ (j < n ∨ g = .binary) then p.at? i j else some (cfg.tau0, cfg.tau0)) ∧
    (size < n → Pheromones.pad cfg g (some p) size = .error .valueError) := by
  cases g with
  | binary =>
    cases p with
    | complete m => exact absurd hs id
    | binary m =>
      have hm : m.length = n := hs
      subst hm
      refine ⟨fun h => ⟨.binary (m ++ List.replicate (size - m.length) (cfg.tau0, cfg.tau0)), ?_, ?_, ?_⟩, fun h => ?_⟩
      · change (binaryPad cfg m size).map _ = _
        rw [binaryPad, if_neg (not_lt.mpr h)]; rfl
      · change (m ++ _).length = size
        rw [List.length_append, List.length_replicate]; omega
      · intro i j hi hj
        change (m ++ _)[i]? = if _ then m[i]? else _
        by_cases him : i < m.length
        · rw [List.getElem?_append_left him, if_pos ⟨him, Or.inr rfl⟩]
        · rw [List.getElem?_append_right (not_lt.mp him), if_neg (fun h => him h.1), List.getElem?_replicate, if_pos (by omega)]
      · change (binaryPad cfg m size).map _ = _
        rw [binaryPad, if_pos h]; rfl
  | complete =>
    cases p with
    | binary m => exact absurd hs id
    | complete m =>
      obtain ⟨hm, hr⟩ : m.length = n ∧ ∀ row ∈ m, row.length = n := hs
      subst hm
      refine ⟨fun h => ⟨.complete (m.map (fun row => row ++ List.replicate (size - m.length) (cfg.tau0, cfg.tau0)) ++
          List.replicate (size - m.length) (List.replicate size (cfg.tau0, cfg.tau0))), ?_, ⟨?_, ?_⟩, ?_⟩, fun h => ?_⟩
      · change (completePad cfg m size).map _ = _
        rw [completePad, if_neg (not_lt.mpr h)]; rfl
      · rw [List.length_append, List.length_replicate, List.length_map]; omega
      · intro row hrow
        rcases List.mem_append.mp hrow with hrow | hrow
        · obtain ⟨r, hr', rfl⟩ := List.mem_map.mp hrow
          rw [List.length_append, List.length_replicate, hr r hr']; omega
        · rw [List.eq_of_mem_replicate hrow, List.length_replicate]
      · intro i j hi hj
        change ((_ ++ _)[i]?).bind _ = if _ then (m[i]?).bind _ else _
        by_cases him : i < m.length
        · rw [List.getElem?_append_left (by rw [List.length_map]; exact him), List.getElem?_map, List.getElem?_eq_getElem him]
          have hl := hr _ (List.getElem_mem him)
          simp only [Option.map_some, Option.bind_some]
          by_cases hjm : j < m.length
          · rw [List.getElem?_append_left (by rw [hl]; exact hjm), if_pos ⟨him, Or.inl hjm⟩]
          · rw [List.getElem?_append_right (by rw [hl]; exact not_lt.mp hjm), if_neg (by rintro ⟨_, h | h⟩; exact hjm h; cases h),
              List.getElem?_replicate, if_pos (by rw [hl]; omega)]
        · rw [List.getElem?_append_right (by rw [List.length_map]; exact not_lt.mp him), if_neg (fun h => him h.1), List.getElem?_replicate, List.length_map,
            if_pos (by omega)]
          simp only [Option.bind_some]
          rw [List.getElem?_replicate, if_pos hj]
      · change (completePad cfg m size).map _ = _
        rw [completePad, if_pos h]; rfl

/-- C68 (start): without an earlier matrix all values for the current pool are `tau0`. -/
theorem C68_start (cfg : AntCfg K) (g : AntGraph) (size : Nat) :
    ∃ p, Pheromones.pad cfg g none size = .ok p ∧ p.Shape size g ∧ ∀ i j, i < size → j < size → p.at? i j = some (cfg.tau0, cfg.tau0) := by
  cases g with
  | binary =>
    obtain ⟨p, hp, hs, hat⟩ := (C68_pad cfg .binary (.binary []) 0 size rfl).1 (Nat.zero_le _)
    refine ⟨p, hp, hs, fun i j hi hj => ?_⟩
    rw [hat i j hi hj, if_neg (by simp)]
  | complete =>
    obtain ⟨p, hp, hs, hat⟩ := (C68_pad cfg .complete (.complete []) 0 size ⟨rfl, by simp⟩).1 (Nat.zero_le _)
    refine ⟨p, hp, hs, fun i j hi hj => ?_⟩
    rw [hat i j hi hj, if_neg (by simp)]

theorem map_shape (f : K → K) (n : Nat) (g : AntGraph) (p : Pheromones K) (h : p.Shape n g) : (p.map f).Shape n g := by
  cases g <;> cases p
  · change (List.map _ _).length = n; rw [List.length_map]; exact h
  · exact absurd h id
  · exact absurd h id
  · refine ⟨by rw [List.length_map]; exact h.1, fun row hrow => ?_⟩
    obtain ⟨r, hr, rfl⟩ := List.mem_map.mp hrow
    rw [List.length_map]; exact h.2 r hr

theorem update_shape (gen : List Bool) (delta : K) (n : Nat) (g : AntGraph) (p : Pheromones K) (h : p.Shape n g) : (p.update gen delta).Shape n g := by
  cases g <;> cases p
  · change (List.mapIdx _ _).length = n; rw [List.length_mapIdx]; exact h
  · exact absurd h id
  · exact absurd h id
  · refine ⟨by rw [completeUpdate, List.length_mapIdx]; exact h.1, fun row hrow => ?_⟩
    obtain ⟨i, hi, rfl⟩ := List.mem_mapIdx.mp hrow
    rw [List.length_mapIdx]; exact h.2 _ (List.getElem_mem hi)

theorem mem_map_values (f : K → K) (p : Pheromones K) : ∀ x ∈ (p.map f).values, ∃ y ∈ p.values, x = f y := by
  intro x hx
  cases p with
  | binary m =>
    simp only [Pheromones.map, Pheromones.values, List.mem_flatMap, List.mem_map, List.mem_cons, List.not_mem_nil, or_false] at hx ⊢
    obtain ⟨_, ⟨a, ha, rfl⟩, h | h⟩ := hx
    · exact ⟨a.1, ⟨a, ha, Or.inl rfl⟩, h⟩
    · exact ⟨a.2, ⟨a, ha, Or.inr rfl⟩, h⟩
  | complete m =>
    simp only [Pheromones.map, Pheromones.values, List.mem_flatMap, List.mem_map, List.mem_cons, List.not_mem_nil, or_false] at hx ⊢
    obtain ⟨_, ⟨row, hrow, rfl⟩, y, hy, h⟩ := hx
    obtain ⟨a, ha, rfl⟩ := List.mem_map.mp hy
    rcases h with h | h
    · exact ⟨a.1, ⟨row, hrow, a, ha, Or.inl rfl⟩, h⟩
    · exact ⟨a.2, ⟨row, hrow, a, ha, Or.inr rfl⟩, h⟩

theorem foldl_update_shape (l : List (Indiv K)) (c : K) (n : Nat) (g : AntGraph) (p : Pheromones K) (h : p.Shape n g) :
    (l.foldl (fun p σ => p.update σ.genome (σ.fitnessD * c)) p).Shape n g := by
  induction l generalizing p with
  | nil => exact h
  | cons a as ih => exact ih _ (update_shape _ _ n g p h)

/-- Padding a matrix of one pair of rules for two rules. -/
example : (Pheromones.pad ⟨fun x => x, fun x => x, none, some, (5 : ℚ), true⟩ .complete (some (.complete [[(1, 2)]])) 2).toOption.map (fun p =>
    [p.at? 0 0, p.at? 0 1, p.at? 1 0, p.at? 1 1]) = some [some (1, 2), some (5, 5), some (5, 5), some (5, 5)] := by decide +kernel

/-- The state of the pheromones during a run. -/
def AcoState.Inv (cfg : AcoCfg K) (n : Nat) (s : AcoState K) : Prop :=
  s.pher.Shape n cfg.graph ∧ ∀ p ∈ s.log, p.Shape n cfg.graph ∧ ∀ x ∈ p.values, cfg.minPheromone ≤ x ∧ x ≤ cfg.maxPheromone

theorem acoStep_inv (cfg : AcoCfg K) (hc : cfg.minPheromone ≤ cfg.maxPheromone) (pool : AntPool K) (n : Nat) (ev : Eval K) (s : AcoState K)
    (d : Nat → AntDraw K) (h : s.Inv cfg n) :
    (acoStep cfg pool s d).Sat ev (fun _ => True) fun s' => s'.Inv cfg n ∧ s'.log = s.log ++ [s'.pher] := by
  unfold acoStep
  refine Prog.Sat.bind' (P := fun _ => True) (Prog.Sat.lift fun _ _ => True.intro) fun ants _ => ?_
  refine Prog.Sat.bind' (Prog.Sat.trivial ev _) fun pop _ => ?_
  have hs : ∀ p : Pheromones K, p.Shape n cfg.graph → (p.map (npClip cfg.minPheromone cfg.maxPheromone)).Shape n cfg.graph ∧
      ∀ x ∈ (p.map (npClip cfg.minPheromone cfg.maxPheromone)).values, cfg.minPheromone ≤ x ∧ x ≤ cfg.maxPheromone := by
    intro p hp
    refine ⟨map_shape _ n _ p hp, fun x hx => ?_⟩
    obtain ⟨y, _, rfl⟩ := mem_map_values _ _ x hx
    exact ⟨le_min (le_max_right _ _) hc, min_le_right _ _⟩
  have := hs _ (foldl_update_shape ((sortedDesc Indiv.fitnessD pop).take cfg.nBest) cfg.c n cfg.graph _
    (map_shape (fun x => x * (1 - cfg.evaporation)) n cfg.graph s.pher h.1))
  refine ⟨⟨this.1, fun p hp => ?_⟩, rfl⟩
  rcases List.mem_append.mp hp with hp | hp
  · exact h.2 p hp
  · rw [List.mem_singleton.mp hp]; exact this

/-- C68 (runs): for `min_pheromone <= max_pheromone`, whatever evaluations, draws and earlier matrix: if the run ends without an exception, then after each iteration
the pheromones have the shape of the pool and all values are in [min, max]; the values in the end are those after the last iteration. -/
theorem C68_run (cfg : AcoCfg K) (hc : cfg.minPheromone ≤ cfg.maxPheromone) (warm : Bool) (old : Option (Pheromones K))
    (hold : ∀ p, old = some p → ∃ n, p.Shape n cfg.graph) (pool : AntPool K) (draws : List (Nat → AntDraw K)) (pop : List (Indiv K)) (ev : Eval K)
    (s : AcoState K) (h : (aco cfg warm old pool draws pop).run ev = .ok s) :
    s.log.length = draws.length ∧ s.pher.Shape pool.fits.length cfg.graph ∧ (draws ≠ [] → s.log.getLast? = some s.pher) ∧
    ∀ p ∈ s.log, p.Shape pool.fits.length cfg.graph ∧ ∀ x ∈ p.values, cfg.minPheromone ≤ x ∧ x ≤ cfg.maxPheromone := by
  have hsat : (aco cfg warm old pool draws pop).Sat ev (fun _ => True) fun s => s.Inv cfg pool.fits.length ∧ s.log.length + 0 = draws.length ∧
      (s.log = [] ∨ s.log.getLast? = some s.pher) := by
    unfold aco
    refine Prog.Sat.bind' (P := fun p => p.Shape pool.fits.length cfg.graph) (Prog.Sat.lift fun p hp => ?_) fun p hp => ?_
    · have hnone : Pheromones.pad cfg.ant cfg.graph none pool.fits.length = .ok p → p.Shape pool.fits.length cfg.graph := by
        intro hp
        obtain ⟨p', hp', hs, _⟩ := C68_start cfg.ant cfg.graph pool.fits.length
        rw [hp'] at hp
        injection hp with hp
        rw [← hp]; exact hs
      cases warm with
      | false => exact hnone hp
      | true =>
        cases old with
        | none => exact hnone hp
        | some q =>
          obtain ⟨n, hq⟩ := hold q rfl
          rw [if_pos rfl] at hp
          rcases Nat.lt_or_ge pool.fits.length n with hlt | hge
          · rw [(C68_pad cfg.ant cfg.graph q n _ hq).2 hlt] at hp; cases hp
          · obtain ⟨p', hp', hs, _⟩ := (C68_pad cfg.ant cfg.graph q n _ hq).1 hge
            rw [hp'] at hp
            injection hp with hp
            rw [← hp]; exact hs
    refine Prog.Sat.bind' (Prog.Sat.trivial ev _) fun pop' _ => ?_
    refine Prog.Sat.forEach (fun (l : List (Nat → AntDraw K)) (s : AcoState K) => s.Inv cfg pool.fits.length ∧ s.log.length + l.length = draws.length ∧
      (s.log = [] ∨ s.log.getLast? = some s.pher)) (acoStep cfg pool) draws ⟨pop', p, []⟩ ?_ ?_
    · exact ⟨⟨hp, by simp⟩, by simp, Or.inl rfl⟩
    · intro d rest s ⟨hI, hlen, _⟩
      refine Prog.Sat.mono (fun s' hs' => ⟨hs'.1, ?_, Or.inr ?_⟩) _ (acoStep_inv cfg hc pool _ ev s d hI)
      · rw [hs'.2, List.length_append]
        simp only [List.length_cons, List.length_nil] at hlen ⊢
        omega
      · rw [hs'.2]; simp
  obtain ⟨⟨h1, h2⟩, h3, h4⟩ := hsat.run s h
  refine ⟨h3, h1, fun hd => h4.resolve_left fun h0 => hd ?_, h2⟩
  rw [h0] at h3
  exact List.length_eq_zero_iff.mp h3.symm

/-- The evaluation of the example: one plus the number of selected rules. -/
def antEval : Eval ℚ := fun g => .ok ⟨0, g.length, g.count true, 1 + g.count true⟩

/-- Parameters of the example. -/
def demoAco : AcoCfg ℚ := ⟨⟨fun x => x, fun x => x, none, some, 5, true⟩, .binary, 1 / 2, 10, 1, 1, 4⟩

/-- A run with a matrix of an earlier call for one rule: the values of the first rule are kept, the second rule starts with 5; one value is cut off at the maximum and one at the minimum. -/
example : ((aco demoAco true (some (.binary [(1, 4)])) ⟨[1, 3], fun _ _ => some (1, 1)⟩ [fun _ => ⟨[], fun _ => 1 / 2⟩] [⟨[false, false], none⟩]).run antEval).toOption.map
    (fun s => (s.pop.map Indiv.genome, s.log.map Pheromones.values)) = some ([[true, true]], [[1, 10, 5 / 2, 10]]) := by decide +kernel

/-! ## C69 -/

/-- C69 is false: for pools in which all rules have the same fitness, in particular all pools with a single rule, all weights are NaN. -/
theorem C69_refuted (c scale : K) (hs : scale < 1) (n : Nat) : relativeFitness (List.replicate (n + 1) c) scale = .ok none := by
  unfold relativeFitness
  rw [if_neg (not_not.mpr hs)]
  have h1 : npMin (List.replicate (n + 1) c) = .ok ((List.replicate n c).foldl min c) := rfl
  have h2 : npMax (List.replicate (n + 1) c) = .ok ((List.replicate n c).foldl max c) := rfl
  have e1 := List.eq_of_mem_replicate (npMin_eq _ _ h1).1
  have e2 := List.eq_of_mem_replicate (npMax_eq _ _ h2).1
  rw [h1, h2]
  dsimp only
  rw [e1, e2, sub_self, if_pos rfl]

/-- The consequence: in such pools no ant ever selects a rule, whatever the pheromones, parameters (except `beta = 0`, for which the weights are not used) and draws, with both graphs. -/
theorem C69_dead_refuted (cfg : AntCfg K) (hb : cfg.nanB = none) (c : K) (hs : (1 : K) / 2 < 1) (n : Nat) (overlap : Nat → Nat → Option (K × K)) (p : Pheromones K) (d : AntDraw K)
    (σ τ : Indiv K) (h : p.build cfg ⟨List.replicate (n + 1) c, overlap⟩ d σ = .ok τ) : τ.genome = List.replicate (n + 1) false := by
  have hf := C69_refuted c (1 / 2) hs n
  have hd : ∀ tau u, cfg.decides tau none none u = false := fun tau u => by simp only [AntCfg.decides, AntCfg.etaPow, hb]
  unfold Pheromones.build at h
  cases p with
  | binary m =>
    dsimp only at h
    rw [binaryBuild, hf] at h
    dsimp only at h
    split at h
    · cases h
    · rename_i g hg
      split at hg
      · cases hg
      · rename_i hl
        injection hg with hg
        injection h with h
        rw [← h, ← hg]
        refine List.eq_replicate_iff.mpr ⟨by simpa using not_not.mp hl, fun b hb' => ?_⟩
        obtain ⟨i, hi, rfl⟩ := List.mem_mapIdx.mp hb'
        exact hd _ _
  | complete m =>
    dsimp only at h
    have hdec : ∀ route j u, completeDecide cfg ⟨List.replicate (n + 1) c, overlap⟩ none m route j u = false := fun route j u => hd _ _
    have hroute : ∀ l k, completeRoute cfg ⟨List.replicate (n + 1) c, overlap⟩ none m d.u l k [] = [] := by
      intro l
      induction l with
      | nil => intro k; rfl
      | cons j rest ih => intro k; rw [completeRoute, hdec]; exact ih _
    rw [completeBuild, hf] at h
    dsimp only at h
    rw [hroute] at h
    injection h with h
    rw [← h]
    simp

/-- With `beta = 0` and the binary graph the pheromones alone decide in such pools. -/
example : (binaryBuild (K := ℚ) ⟨id, fun _ => 1, some 1, fun _ => none, 5, true⟩ ⟨[3, 3], fun _ _ => none⟩ [(1, 4), (4, 1)] fun _ => 1 / 2) = .ok [true, false] := by decide +kernel

/-- With an empty pool (outside C69) no ant can build a solution: the smallest fitness of no rules is an error. -/
theorem C69_empty (cfg : AntCfg K) (hs : (1 : K) / 2 < 1) (overlap : Nat → Nat → Option (K × K)) (p : Pheromones K) (d : AntDraw K) (σ : Indiv K) :
    p.build cfg ⟨[], overlap⟩ d σ = .error .valueError := by
  have h : relativeFitness ([] : List K) (1 / 2) = .error .valueError := by
    unfold relativeFitness
    rw [if_neg (not_not.mpr hs)]
    rfl
  unfold Pheromones.build
  cases p with
  | binary m => dsimp only; unfold binaryBuild; rw [h]
  | complete m => dsimp only; unfold completeBuild; rw [h]

/-- C69 holds for pools with different fitness values: there is one pair of weights for each rule, and all weights are in [1 - scale, 1 + scale]; the
weights for selecting grow with the fitness, from 1 for the worst to 1 + scale for the best rule. -/
theorem C69_partial [IsStrictOrderedRing K] (fits : List K) (scale : K) (h0 : 0 ≤ scale) (hs : scale < 1) (hne : ∃ a ∈ fits, ∃ b ∈ fits, a < b) :
    ∃ ws, relativeFitness fits scale = .ok (some ws) ∧ ws.length = fits.length ∧
      (∀ w ∈ ws, 1 - scale ≤ w.1 ∧ w.1 ≤ 1 + scale ∧ 1 - scale ≤ w.2 ∧ w.2 ≤ 1 + scale ∧ w.1 + w.2 = 2) ∧
      ∀ (i j : Nat) (f g : K) (v w : K × K), fits[i]? = some f → fits[j]? = some g → ws[i]? = some v → ws[j]? = some w → f ≤ g → v.2 ≤ w.2 := by
  obtain ⟨a, ha, b, hb, hab⟩ := hne
  have hnil : fits ≠ [] := fun h => by rw [h] at ha; cases ha
  obtain ⟨x, xs, rfl⟩ := List.exists_cons_of_ne_nil hnil
  have h1 : npMin (x :: xs) = .ok (xs.foldl min x) := rfl
  have h2 : npMax (x :: xs) = .ok (xs.foldl max x) := rfl
  obtain ⟨_, hlo⟩ := npMin_eq _ _ h1
  obtain ⟨_, hhi⟩ := npMax_eq _ _ h2
  have hpos : 0 < xs.foldl max x - xs.foldl min x := sub_pos.mpr ((hlo a ha).trans_lt (hab.trans_le (hhi b hb)))
  unfold relativeFitness
  rw [if_neg (not_not.mpr hs), h1, h2]
  dsimp only
  rw [if_neg (ne_of_gt hpos)]
  refine ⟨_, rfl, by simp, ?_, ?_⟩
  · intro w hw
    obtain ⟨f, hf, rfl⟩ := List.mem_map.mp hw
    have q0 : 0 ≤ (f - xs.foldl min x) / (xs.foldl max x - xs.foldl min x) := div_nonneg (sub_nonneg.mpr (hlo f hf)) (le_of_lt hpos)
    have q1 : (f - xs.foldl min x) / (xs.foldl max x - xs.foldl min x) ≤ 1 := by
      rw [div_le_one hpos]
      exact sub_le_sub_right (hhi f hf) _
    have r0 := mul_nonneg q0 h0
    have r1 : (f - xs.foldl min x) / (xs.foldl max x - xs.foldl min x) * scale ≤ scale := mul_le_of_le_one_left h0 q1
    refine ⟨?_, ?_, ?_, ?_, ?_⟩ <;> dsimp only <;> linarith
  · intro i j f g v w hf hg hv hw hfg
    rw [List.getElem?_map, hf] at hv
    rw [List.getElem?_map, hg] at hw
    injection hv with hv
    injection hw with hw
    rw [← hv, ← hw]
    dsimp only
    have := mul_le_mul_of_nonneg_right (div_le_div_of_nonneg_right (sub_le_sub_right hfg (xs.foldl min x)) (le_of_lt hpos)) h0
    linarith

example : relativeFitness [(2 : ℚ), 6, 4] (1 / 2) = .ok (some [(1, 1), (1 / 2, 3 / 2), (3 / 4, 5 / 4)]) := by decide +kernel

/-! ## C76 -/

/-- C76 for rules with ordered bounds (lower ≤ upper) and positive volume: the overlap weights of two rules are in [0, 2] and add up to 2; rules whose intervals
are disjoint in some dimension have weights 1; if one rule lies within the other one, the weights are 2 and 0. -/
theorem C76_ordered_partial [IsStrictOrderedRing K] (A B : Pairs K d) (hA : ∀ i, (A i).1 < (A i).2) (hB : ∀ i, (B i).1 < (B i).2) :
    ∃ w, relativeBoundsOverlap .ordered A B = some w ∧ 1 ≤ w.1 ∧ w.1 ≤ 2 ∧ 0 ≤ w.2 ∧ w.2 ≤ 1 ∧ w.1 + w.2 = 2 ∧
      ((∃ i, (A i).2 < (B i).1 ∨ (B i).2 < (A i).1) → w = (1, 1)) ∧
      ((∀ i, (A i).1 ≤ (B i).1 ∧ (B i).2 ≤ (A i).2) → w = (2, 0)) ∧ ((∀ i, (B i).1 ≤ (A i).1 ∧ (A i).2 ≤ (B i).2) → w = (2, 0)) := by
  have hvA : 0 < OrderedBound.volume A := Finset.prod_pos fun i _ => sub_pos.mpr (hA i)
  have hvB : 0 < OrderedBound.volume B := Finset.prod_pos fun i _ => sub_pos.mpr (hB i)
  have two : (1 : K) + 1 = 2 := one_add_one_eq_two
  unfold relativeBoundsOverlap
  by_cases hc : ∀ i, (A i).1 ≤ (B i).2 ∧ (B i).1 ≤ (A i).2
  · rw [if_pos hc]
    have hvol : 0 < min (OrderedBound.volume A) (OrderedBound.volume B) := lt_min hvA hvB
    dsimp only [Kind.volume]
    rw [if_neg (ne_of_gt hvol)]
    have hi0 : ∀ i, 0 ≤ min (A i).2 (B i).2 - max (A i).1 (B i).1 := fun i =>
      sub_nonneg.mpr (max_le (le_min (le_of_lt (hA i)) (hc i).1) (le_min (hc i).2 (le_of_lt (hB i))))
    have hle1 : (∏ i, (min (A i).2 (B i).2 - max (A i).1 (B i).1)) ≤ OrderedBound.volume A :=
      Finset.prod_le_prod (fun i _ => hi0 i) fun i _ => sub_le_sub (min_le_left _ _) (le_max_left _ _)
    have hle2 : (∏ i, (min (A i).2 (B i).2 - max (A i).1 (B i).1)) ≤ OrderedBound.volume B :=
      Finset.prod_le_prod (fun i _ => hi0 i) fun i _ => sub_le_sub (min_le_right _ _) (le_max_right _ _)
    have hq0 := div_nonneg (Finset.prod_nonneg fun i (_ : i ∈ Finset.univ) => hi0 i) (le_of_lt hvol)
    have hq1 := (div_le_one hvol).mpr (le_min hle1 hle2)
    refine ⟨_, rfl, ?_, ?_, ?_, ?_, ?_, ?_, ?_, ?_⟩
    · dsimp only; linarith
    · dsimp only; linarith
    · dsimp only; linarith
    · dsimp only; linarith
    · dsimp only; linarith
    · rintro ⟨i, h | h⟩
      · exact absurd h (not_lt.mpr (hc i).2)
      · exact absurd h (not_lt.mpr (hc i).1)
    · intro hin
      have e : (∏ i, (min (A i).2 (B i).2 - max (A i).1 (B i).1)) = OrderedBound.volume B := by
        refine Finset.prod_congr rfl fun i _ => ?_
        rw [min_eq_right (hin i).2, max_eq_right (hin i).1]
      have hm : min (OrderedBound.volume A) (OrderedBound.volume B) = OrderedBound.volume B := min_eq_right (e ▸ hle1)
      rw [e, hm, div_self (ne_of_gt hvB), two, sub_self]
    · intro hin
      have e : (∏ i, (min (A i).2 (B i).2 - max (A i).1 (B i).1)) = OrderedBound.volume A := by
        refine Finset.prod_congr rfl fun i _ => ?_
        rw [min_eq_left (hin i).2, max_eq_left (hin i).1]
      have hm : min (OrderedBound.volume A) (OrderedBound.volume B) = OrderedBound.volume A := min_eq_left (e ▸ hle2)
      rw [e, hm, div_self (ne_of_gt hvA), two, sub_self]
  · rw [if_neg hc]
    refine ⟨_, rfl, le_refl _, ?_, zero_le_one, le_refl _, two, fun _ => rfl, ?_, ?_⟩
    · dsimp only; linarith
    · intro hin
      exact absurd (fun i => ⟨((hin i).1.trans (le_of_lt (hB i))), (le_of_lt (hB i)).trans (hin i).2⟩) hc
    · intro hin
      exact absurd (fun i => ⟨(le_of_lt (hA i)).trans (hin i).2, (hin i).1.trans (le_of_lt (hA i))⟩) hc

/-- C76 fails for rules with zero volume (0/0) and for centre-spread bounds, whose columns are not lower and upper bound: there the weight of selecting can be
negative. -/
theorem C76_refuted : relativeBoundsOverlap .ordered (fun _ : Fin 1 => ((0 : ℚ), 0)) (fun _ => (0, 0)) = none ∧
    relativeBoundsOverlap .centerSpread (fun _ : Fin 1 => ((-1 : ℚ), 1 / 10)) (fun _ => (-1, 1 / 10)) = some (12, -10) := by
  constructor <;> decide +kernel

example : relativeBoundsOverlap .ordered (fun _ : Fin 1 => ((0 : ℚ), 2)) (fun _ => (1, 5)) = some (3 / 2, 1 / 2) := by decide +kernel

/-! ## C73 -/

theorem relativeFitness_len (fits : List K) (scale : K) (ws : List (K × K)) (h : relativeFitness fits scale = .ok (some ws)) : ws.length = fits.length := by
  unfold relativeFitness at h
  split at h
  · cases h
  · split at h
    · split at h
      · cases h
      · injection h with h
        injection h with h
        rw [← h, List.length_map]
    · cases h

theorem build_len (cfg : AntCfg K) (pool : AntPool K) (p : Pheromones K) (d : AntDraw K) (σ τ : Indiv K) (h : p.build cfg pool d σ = .ok τ) :
    τ.genome.length = pool.fits.length := by
  unfold Pheromones.build at h
  cases p with
  | binary m =>
    dsimp only at h
    cases hb : binaryBuild cfg pool m d.u with
    | error e => rw [hb] at h; cases h
    | ok g =>
      rw [hb] at h
      injection h with h
      rw [← h]
      change g.length = _
      unfold binaryBuild at hb
      split at hb
      · cases hb
      · split at hb
        · cases hb
        · rename_i hl
          injection hb with hb; rw [← hb, List.length_mapIdx, not_not.mp hl]
      · rename_i eta heta
        split at hb
        · cases hb
        · rename_i hl
          injection hb with hb
          rw [← hb, List.length_mapIdx, List.length_zip, not_not.mp hl, min_self, relativeFitness_len _ _ _ heta]
  | complete m =>
    dsimp only at h
    cases hb : completeBuild cfg pool m d.order d.u with
    | error e => rw [hb] at h; cases h
    | ok g =>
      rw [hb] at h
      injection h with h
      rw [← h]
      change g.length = _
      unfold completeBuild at hb
      split at hb
      · cases hb
      · injection hb with hb; rw [← hb, List.length_map, List.length_range]

/-- C73 for the ant colony: the pool seen by the builders has as many rules as the pool of the composition. -/
theorem C73_aco (cfg : AcoCfg K) (warm : Bool) (old : Option (Pheromones K)) (pool : Nat → AntPool K) (hpool : ∀ n, (pool n).fits.length = n)
    (draws : List (Nat → AntDraw K)) :
    (Prog.strategy fun n pop => (aco cfg warm old (pool n) draws pop).bind fun s => .ret s.pop).Good := by
  refine strategy_good _ fun n ev pop h => Prog.Sat.bind (P := fun s : AcoState K => ∀ σ ∈ s.pop, EvLen ev n σ) ?_ fun s hs => hs
  unfold aco
  refine Prog.Sat.bind' (P := fun _ => True) (Prog.Sat.lift fun _ _ => True.intro) fun p _ => ?_
  refine Prog.Sat.bind' (evaluateAll_sat ev n _ h) fun pop' hpop => ?_
  refine Prog.Sat.forEach (fun _ (s : AcoState K) => ∀ σ ∈ s.pop, EvLen ev n σ) _ draws ⟨pop', p, []⟩ hpop.2 ?_
  intro d _ s hs
  unfold acoStep
  refine Prog.Sat.bind' (P := fun ants => AllLen n ants) (Prog.Sat.lift fun ants hants τ hτ => ?_) fun ants hants => ?_
  · obtain ⟨x, hx, he⟩ := mem_of_mapM_ok _ _ _ hants τ hτ
    rw [build_len _ _ _ _ _ _ he, hpool]
  · exact Prog.Sat.bind' (evaluateAll_sat ev n _ hants) fun pop'' hpop'' => hpop''.2

end Suprb
