import Verif.Props.Swarm
import Verif.Props.Strategies
import Verif.Props.Keep

/-!
# Claims C117, C118 and C119: what the moves of searches for solutions can produce
-/

set_option autoImplicit false
set_option linter.unusedSectionVars false

namespace Suprb

variable {K : Type} [Field K] [LinearOrder K]

/-! ## C117 -/

/-- The selection includes rule `i` (`v = true`) or leaves it out (`v = false`). -/
def Spec.Takes (i : Nat) (v : Bool) (g : List Bool) : Prop := g.getD i false = v

theorem getD_mapIdx_bits (f : Nat → Bool → Bool) (g : List Bool) (i : Nat) :
    (g.mapIdx f).getD i false = if i < g.length then f i (g.getD i false) else false := by
  rw [List.getD_eq_getElem?_getD, List.getElem?_mapIdx, List.getD_eq_getElem?_getD]
  by_cases h : i < g.length
  · simp [h]
  · simp [h]

theorem getD_of_ge (g : List Bool) (i : Nat) (h : ¬ i < g.length) : g.getD i false = false := by
  rw [List.getD_eq_getElem?_getD, List.getElem?_eq_none (not_lt.mp h)]; rfl

/-- C117, candidates of the bitwise update: a rule that changes sides was included by one of the two food sources, so that rules which neither includes are not added; with the draw 0 at a
position nothing changes there, with the draw 1 a rule of the own food source is dropped and a rule of the other one is added. -/
theorem C117_bitwise (sig : K → K) (rand : Nat → Bool) (own other : List Bool) (h : own.length = other.length) :
    ∃ g, (FoodDraw.bitwise rand : FoodDraw K).genome sig own other = .ok g ∧ g.length = own.length ∧ ∀ i, i < own.length →
      (rand i = false → g.getD i false = own.getD i false) ∧
      (rand i = true → g.getD i false = (!own.getD i false && other.getD i false)) := by
  refine ⟨_, by unfold FoodDraw.genome; rw [if_neg (by simpa using h)], List.length_mapIdx, fun i hi => ?_⟩
  rw [getD_mapIdx_bits, if_pos hi]
  constructor
  · intro hr; simp [hr]
  · intro hr; rw [hr]; cases own.getD i false <;> cases other.getD i false <;> rfl

/-- Number of positions at which two genomes of the same length differ. -/
def Spec.differences (a b : List Bool) : Nat := ((List.range a.length).filter fun i => a.getD i false != b.getD i false).length

/-- C117, candidates of the partial crossover: exactly the drawn positions are taken from the other food source and all others from the own one; hence at most as many positions change as were
drawn, and none at which both agree. -/
theorem C117_flips (sig : K → K) (dims : List Nat) (own other : List Bool) (h : own.length = other.length) :
    ∃ g, (FoodDraw.flips dims : FoodDraw K).genome sig own other = .ok g ∧ g.length = own.length ∧
      (∀ i, i ∈ dims → g.getD i false = other.getD i false) ∧ (∀ i, i ∉ dims → g.getD i false = own.getD i false) ∧
      Spec.differences own g ≤ dims.length := by
  have hin : ∀ i, i ∈ dims → (own.mapIdx fun i b => if dims.contains i then other.getD i false else b).getD i false = other.getD i false := by
    intro i hi
    rw [getD_mapIdx_bits]
    split
    · rw [if_pos (by simpa using hi)]
    · rename_i hlt; rw [getD_of_ge other i (by omega)]
  have hout : ∀ i, i ∉ dims → (own.mapIdx fun i b => if dims.contains i then other.getD i false else b).getD i false = own.getD i false := by
    intro i hi
    rw [getD_mapIdx_bits]
    split
    · rw [if_neg (by simpa using hi)]
    · rename_i hlt; rw [getD_of_ge own i hlt]
  refine ⟨_, by unfold FoodDraw.genome; rw [if_neg (by simpa using h)], List.length_mapIdx, hin, hout, ?_⟩
  unfold Spec.differences
  refine ((List.nodup_range.filter _).subperm fun i hi => ?_).length_le
  by_contra hn
  have := (List.mem_filter.mp hi).2
  rw [hout i hn] at this
  simp at this

/-- The update keeps the state `v` of rules on which all food sources agree: the partial crossover for both states, the bitwise update for rules that are left out. -/
def FoodDraw.Recombines (v : Bool) : FoodDraw K → Prop
  | .sigmoid .. => False
  | .bitwise _ => v = false
  | .flips _ => True

theorem food_takes (sig : K → K) (z : FoodDraw K) (v : Bool) (hz : z.Recombines v) (i : Nat) (own other g : List Bool) (ho : Spec.Takes i v own)
    (ht : Spec.Takes i v other) (h : z.genome sig own other = .ok g) : Spec.Takes i v g := by
  have hl : own.length = other.length := by
    by_contra hne
    unfold FoodDraw.genome at h
    rw [if_pos hne] at h
    cases h
  unfold Spec.Takes at *
  cases z with
  | sigmoid r u => exact hz.elim
  | bitwise rand =>
    change v = false at hz
    subst hz
    by_cases hi : i < own.length
    · obtain ⟨g', h', _, hg⟩ := C117_bitwise sig rand own other hl
      rw [h] at h'
      cases h'
      cases hr : rand i with
      | false => rw [(hg i hi).1 hr, ho]
      | true => rw [(hg i hi).2 hr, ht]; simp
    · exact getD_of_ge g i (by rw [food_genome_len _ _ _ _ _ h]; exact hi)
  | flips dims =>
    obtain ⟨g', h', _, hin, hout, _⟩ := C117_flips sig dims own other hl
    rw [h] at h'
    cases h'
    by_cases hd : i ∈ dims
    · rw [hin i hd, ht]
    · rw [hout i hd, ho]

theorem evaluate_takes (ev : Eval K) (n : List Bool → Prop) (σ : Indiv K) (h : n σ.genome) : σ.evaluate.Sat ev n fun τ => τ.genome = σ.genome :=
  ⟨h, fun _ _ => rfl⟩

theorem evaluateAll_takes (ev : Eval K) (n : List Bool → Prop) (pop : List (Indiv K)) (h : ∀ σ ∈ pop, n σ.genome) :
    (evaluateAll pop).Sat ev n fun pop' => ∀ τ ∈ pop', n τ.genome :=
  Prog.Sat.mono (fun _ => forall₂_right) _ (Prog.Sat.each (fun σ : Indiv K => n σ.genome) (fun _ (τ : Indiv K) => n τ.genome) _ _ h
    fun σ hσ => Prog.Sat.mono (fun _ hτ => hτ ▸ hσ) _ (evaluate_takes ev n σ hσ))

theorem abcCandidates_takes (sig : K → K) (ev : Eval K) (sources : List (Food K)) (others : List Nat) (z : Nat → FoodDraw K) (i : Nat) (v : Bool)
    (hz : ∀ k, (z k).Recombines v) (h : ∀ f ∈ sources, Spec.Takes i v f.sol.genome) :
    (abcCandidates sig sources others z).Sat ev (Spec.Takes i v) fun new => ∀ σ ∈ new, Spec.Takes i v σ.genome := by
  unfold abcCandidates
  refine Prog.Sat.mono (fun _ => forall₂_right) _ (Prog.Sat.each (fun x : (Food K × Nat) × Nat => x.1.1 ∈ sources)
    (fun _ (τ : Indiv K) => Spec.Takes i v τ.genome) _ _ (fun x hx => (List.of_mem_zip (mem_of_mem_zipIdx hx)).1) ?_)
  intro x hx
  split
  · trivial
  · rename_i other ho
    refine Prog.Sat.bind (P := Spec.Takes i v) (Prog.Sat.lift fun g hg =>
      food_takes sig _ v (hz _) i _ _ g (h _ hx) (h _ (List.mem_of_getElem? ho)) hg) fun g hg => ?_
    exact Prog.Sat.mono (fun τ hτ => by rw [hτ]; exact hg) _ (evaluate_takes ev _ (x.1.1.sol.withGenome g) hg)

theorem greedyUpdate_takes {n : List Bool → Prop} {new : List (Indiv K)} {src : List (Food K)} (hn : ∀ σ ∈ new, n σ.genome)
    (hs : ∀ f ∈ src, n f.sol.genome) : ∀ f ∈ greedyUpdate new src, n f.sol.genome := by
  intro f hf
  rcases mem_greedyUpdate new src f hf with h | h
  · exact hn _ h
  · obtain ⟨g, hg, he⟩ := List.mem_map.mp h
    rw [← he]; exact hs g hg

theorem greedyUpdate_trials (t : Nat) (new : List (Indiv K)) (src : List (Food K)) (h : ∀ f ∈ src, f.trials ≤ t) :
    ∀ f ∈ greedyUpdate new src, f.trials ≤ t + 1 := by
  have hf := greedyUpdate_forall new src
  intro f' hf'
  obtain ⟨k, hk, rfl⟩ := List.mem_iff_getElem.mp hf'
  have hk' : k < src.length := by rw [hf.length_eq]; exact hk
  have := (List.forall₂_iff_get.mp hf).2 k hk' hk
  have hsrc := h _ (List.getElem_mem hk')
  rcases this.2 with h0 | h1
  · have : (greedyUpdate new src)[k].trials = 0 := h0
    omega
  · have : (greedyUpdate new src)[k].trials ≤ src[k].trials + 1 := h1
    omega

/-- No food source is given up: either the limit is out of reach, or it does not matter because new solutions leave out all rules. -/
def Spec.NoNewRules (init : InitOp K) (v : Bool) (iterations limit : Nat) : Prop := 2 * iterations < limit ∨ (v = false ∧ init = .zero)

theorem zero_takes (u : Nat → K) (n i : Nat) : Spec.Takes i false (InitOp.make (.zero : InitOp K) u n).genome := by
  change (List.replicate n false).getD i false = false
  rw [List.getD_eq_getElem?_getD, List.getElem?_replicate]
  split <;> rfl

theorem abcScout_takes (init : InitOp K) (n limit : Nat) (draw : Nat → Nat → K) (ev : Eval K) (sources : List (Food K)) (i : Nat) (v : Bool) (t : Nat)
    (ht : ∀ f ∈ sources, f.trials ≤ t) (hl : t < limit ∨ (v = false ∧ init = .zero)) (h : ∀ f ∈ sources, Spec.Takes i v f.sol.genome) :
    (abcScout init n limit draw sources).Sat ev (Spec.Takes i v) fun s => ∀ f ∈ s, f.trials ≤ t ∧ Spec.Takes i v f.sol.genome := by
  unfold abcScout
  refine Prog.Sat.mono (fun _ => forall₂_right) _ (Prog.Sat.each (fun x : Food K × Nat => x.1 ∈ sources)
    (fun _ (f : Food K) => f.trials ≤ t ∧ Spec.Takes i v f.sol.genome) _ _ (fun x hx => mem_of_mem_zipIdx hx) ?_)
  intro x hx
  split
  · rename_i hlim
    rcases hl with hl | ⟨rfl, rfl⟩
    · exact absurd (ht _ hx) (by omega)
    · exact Prog.Sat.bind (evaluate_takes ev _ _ (zero_takes ..)) fun σ hσ => ⟨Nat.zero_le _, by
        change Spec.Takes i false σ.genome; rw [hσ]; exact zero_takes ..⟩
  · exact ⟨ht _ hx, h _ hx⟩

/-- C117, bee colony: with the partial crossover (and, for rules that are left out, also with the bitwise update), a rule on whose state all solutions agree when the search starts keeps this
state in every evaluated candidate and in every final food source, as long as no food source can be given up; with zero initialisation giving up does not add rules either. -/
theorem C117_bees (sig : K → K) (init : InitOp K) (limit : Nat) (draws : List (ABCDraw K)) (n : Nat) (ev : Eval K) (pop : List (Indiv K)) (i : Nat) (v : Bool)
    (hz : ∀ z ∈ draws, ∀ k, (z.food1 k).Recombines v ∧ (z.food2 k).Recombines v) (hl : Spec.NoNewRules init v draws.length limit)
    (hp : ∀ σ ∈ pop, Spec.Takes i v σ.genome) :
    (abc sig init limit draws n pop).Sat ev (Spec.Takes i v) fun s => ∀ f ∈ s, Spec.Takes i v f.sol.genome := by
  unfold abc
  refine Prog.Sat.bind' (evaluateAll_takes ev _ pop hp) fun pop' hpop => ?_
  refine Prog.Sat.mono (P := fun s : List (Food K) => ∃ t, t + 2 * 0 ≤ 2 * draws.length ∧ (∀ z ∈ ([] : List (ABCDraw K)), z ∈ draws) ∧
    ∀ f ∈ s, f.trials ≤ t ∧ Spec.Takes i v f.sol.genome) (fun s hs f hf => by obtain ⟨t, _, _, h⟩ := hs; exact (h f hf).2) _ ?_
  refine Prog.Sat.forEach (fun rest (s : List (Food K)) => ∃ t, t + 2 * rest.length ≤ 2 * draws.length ∧ (∀ z ∈ rest, z ∈ draws) ∧
    ∀ f ∈ s, f.trials ≤ t ∧ Spec.Takes i v f.sol.genome) _ draws _ ⟨0, by omega, fun _ h => h, ?_⟩ ?_
  · intro f hf
    obtain ⟨σ, hσ, rfl⟩ := List.mem_map.mp hf
    exact ⟨le_refl _, hpop σ hσ⟩
  · rintro z rest s ⟨t, ht, hd, hs⟩
    rw [List.length_cons] at ht
    have hzd := hd z (List.mem_cons_self ..)
    unfold abcStep
    split
    · trivial
    · refine Prog.Sat.bind' (abcCandidates_takes sig ev _ _ _ i v (fun k => (hz z hzd k).1) fun f hf => (hs f hf).2) fun new1 h1 => ?_
      refine Prog.Sat.bind' (P := fun _ => True) (Prog.Sat.lift fun _ _ => trivial) fun _ _ => ?_
      have hs1 := greedyUpdate_takes (n := Spec.Takes i v) h1 fun f hf => (hs f hf).2
      refine Prog.Sat.bind' (abcCandidates_takes sig ev _ _ _ i v (fun k => (hz z hzd k).2) hs1) fun new2 h2 => ?_
      have ht1 := greedyUpdate_trials t new1 s fun f hf => (hs f hf).1
      have ht2 := greedyUpdate_trials (t + 1) new2 _ ht1
      refine Prog.Sat.mono (fun s' hs' => ⟨t + 2, by omega, fun x hx => hd x (List.mem_cons_of_mem _ hx), hs'⟩) _
        (abcScout_takes init n limit _ ev _ i v (t + 2) ht2 ?_ (greedyUpdate_takes h2 hs1))
      rcases hl with hl | hl
      · exact Or.inl (by omega)
      · exact Or.inr hl

/-! ### Particle swarm -/

/-- The solution and the remembered best of a particle have the state `v` for rule `i`. -/
def Particle.Takes (i : Nat) (v : Bool) (p : Particle K) : Prop := Spec.Takes i v p.sol.genome ∧ Spec.Takes i v p.best.genome

theorem bestOfSubset_mem (ps : List (Particle K)) (idx : List Nat) (p : Particle K) (h : bestOfSubset ps idx = .ok p) : p ∈ ps := by
  unfold bestOfSubset at h
  split at h
  · cases h
  · rename_i q hq
    injection h with h
    subst h
    obtain ⟨k, _, hk⟩ := List.mem_filterMap.mp (pyMax_spec _ _ _ hq).1
    exact List.mem_of_getElem? hk

theorem attractor_takes (pl : K) (ps : List (Particle K)) (z : MoveDraw K) (p : Particle K) (i : Nat) (v : Bool) (g : List Bool)
    (hps : ∀ q ∈ ps, q.Takes i v) (hp : p.Takes i v) (hlen : ∀ q ∈ ps, q.best.genome.length = p.best.genome.length) (h : attractor pl ps z p = .ok g) :
    Spec.Takes i v g := by
  unfold attractor at h
  split at h
  · cases h
  · rename_i nb hnb
    have hnb' := hps nb (bestOfSubset_mem _ _ _ hnb)
    have hl := hlen nb (bestOfSubset_mem _ _ _ hnb)
    have hg : Spec.Takes i v (p.best.genome.mapIdx fun i x => if z.r1 i ≤ pl then nb.best.genome.getD i false else x) := by
      unfold Spec.Takes
      rw [getD_mapIdx_bits]
      split
      · split
        · exact hnb'.2
        · exact hp.2
      · rename_i hlt
        rw [← getD_of_ge _ _ hlt]; exact hp.2
    dsimp only at h
    split at h
    · split at h
      · cases h
      · split at h
        · cases h
        · rename_i nb2 hnb2
          have hnb2' := hps nb2 (bestOfSubset_mem _ _ _ hnb2)
          injection h with h
          rw [← h]
          unfold Spec.Takes
          rw [List.getD_eq_getElem?_getD, List.getElem?_set]
          split
          · rename_i hd
            split
            · rw [hd]; exact hnb2'.2
            · rename_i hlt
              have hv : v = false := by
                have := hp.2
                unfold Spec.Takes at this
                rw [getD_of_ge _ _ (by rw [← hd]; simpa using hlt)] at this
                exact this.symm
              rw [hv]; rfl
          · rw [← List.getD_eq_getElem?_getD]; exact hg
    · injection h with h
      rw [← h]; exact hg

theorem move_takes (pl : K) (sig : K → K) (a : K) (z : PSODraw K) (ps ps' : List (Particle K)) (i : Nat) (v : Bool) (n : Nat)
    (hlen : ∀ q ∈ ps, q.best.genome.length = n) (h : ∀ q ∈ ps, q.Takes i v) (hm : (Movement.binary pl).move sig a z ps = .ok ps') : ∀ q ∈ ps', q.Takes i v := by
  unfold Movement.move at hm
  cases ps with
  | nil => cases hm
  | cons p0 rest =>
    dsimp only at hm
    split at hm
    · cases hm
    · rename_i atts hatts
      injection hm with hm
      rw [← hm]
      intro p hp
      obtain ⟨k, hk, rfl⟩ := List.mem_mapIdx.mp hp
      have hmem := List.of_mem_zip (List.getElem_mem hk)
      obtain ⟨x, hx, he⟩ := mem_of_mapM_ok _ _ _ hatts _ hmem.2
      have hxp := mem_of_mem_zipIdx hx
      have hatt := attractor_takes pl _ _ x.1 i v _ h (h _ hxp) (fun q hq => (hlen q hq).trans (hlen _ hxp).symm) he
      have hown := h _ hmem.1
      refine ⟨?_, hown.2⟩
      unfold binaryMove Spec.Takes
      dsimp only
      rw [getD_mapIdx_bits]
      split
      · split
        · exact hatt
        · exact hown.1
      · rename_i hlt
        rw [← getD_of_ge _ _ hlt]; exact hown.1

theorem psoStep_takes (pl : K) (sig : K → K) (aMax step : K) (ev : Eval K) (n : Nat) (s : PSOState K) (z : PSODraw K × Nat) (i : Nat) (v : Bool)
    (hlen : ∀ p ∈ s.particles, p.sol.genome.length = n ∧ p.best.genome.length = n) (h : ∀ p ∈ s.particles, p.Takes i v) :
    (psoStep (.binary pl) sig aMax step s z).Sat ev (Spec.Takes i v) fun s' =>
      ∀ p ∈ s'.particles, (p.sol.genome.length = n ∧ p.best.genome.length = n) ∧ p.Takes i v := by
  unfold psoStep
  refine Prog.Sat.bind' (P := fun ps : List (Particle K) => ∀ p ∈ ps, (p.sol.genome.length = n ∧ p.best.genome.length = n) ∧ p.Takes i v)
    (Prog.Sat.lift fun ps' hps' p hp => ⟨?_, move_takes pl sig _ _ _ ps' i v n (fun q hq => (hlen q hq).2) h hps' p hp⟩) fun moved hmoved => ?_
  · unfold Movement.move at hps'
    cases hs : s.particles with
    | nil => rw [hs] at hps'; cases hps'
    | cons p0 rest =>
      rw [hs] at hps'
      dsimp only at hps'
      split at hps'
      · cases hps'
      · injection hps' with hps'
        rw [← hps'] at hp
        obtain ⟨k, hk, rfl⟩ := List.mem_mapIdx.mp hp
        have hmem := (List.of_mem_zip (List.getElem_mem hk)).1
        have := hlen _ (by rw [hs]; exact hmem)
        exact ⟨by simp only [binaryMove, List.length_mapIdx]; exact this.1, this.2⟩
  · refine Prog.Sat.bind' (P := fun ps : List (Particle K) => ∀ p ∈ ps, (p.sol.genome.length = n ∧ p.best.genome.length = n) ∧ p.Takes i v) ?_ fun fitted hf => ?_
    · refine Prog.Sat.mono (fun _ => forall₂_right) _ (Prog.Sat.each
        (fun p : Particle K => (p.sol.genome.length = n ∧ p.best.genome.length = n) ∧ p.Takes i v)
        (fun _ (p : Particle K) => (p.sol.genome.length = n ∧ p.best.genome.length = n) ∧ p.Takes i v) _ _ hmoved fun p hp => ?_)
      refine Prog.Sat.bind (evaluate_takes ev _ p.sol hp.2.1) fun σ hσ => ?_
      refine ⟨⟨?_, hp.1.2⟩, ?_, hp.2.2⟩
      · change σ.genome.length = n; rw [hσ]; exact hp.1.1
      · change Spec.Takes i v σ.genome; rw [hσ]; exact hp.2.1
    · refine Prog.Sat.bind' (P := fun ps : List (Particle K) => ∀ p ∈ ps, (p.sol.genome.length = n ∧ p.best.genome.length = n) ∧ p.Takes i v)
        (Prog.Sat.lift fun ps' hps' p' hp' => ?_) fun ps' hps' => hps'
      obtain ⟨p, hp, he⟩ := mem_of_mapM_ok _ _ _ hps' p' hp'
      obtain ⟨_, _, h3, h4⟩ := updateBest_spec p p' he
      obtain ⟨⟨l1, l2⟩, o1, o2⟩ := hf p hp
      rcases h4 with ⟨_, hb, _⟩ | ⟨_, hb, _⟩
      · exact ⟨⟨h3 ▸ l1, hb ▸ l1⟩, h3 ▸ o1, hb ▸ o1⟩
      · exact ⟨⟨h3 ▸ l1, hb ▸ l2⟩, h3 ▸ o1, hb ▸ o2⟩

/-- C117, particle swarm: with the binary movement a rule on whose state all solutions agree when the search starts keeps this state in every evaluated solution, in every particle and
in every remembered best solution. -/
theorem C117_particles (pl : K) (sig : K → K) (aMin aMax : K) (init : Nat → (Nat → K) × (Nat → K)) (draws : List (PSODraw K)) (n : Nat) (ev : Eval K)
    (pop : List (Indiv K)) (hn : AllLen n pop) (i : Nat) (v : Bool) (hp : ∀ σ ∈ pop, Spec.Takes i v σ.genome) :
    (pso (.binary pl) sig aMin aMax init draws pop).Sat ev (Spec.Takes i v) fun s =>
      ∀ p ∈ s.particles, Spec.Takes i v p.sol.genome ∧ Spec.Takes i v p.best.genome := by
  unfold pso
  refine Prog.Sat.bind' (P := fun pop' : List (Indiv K) => ∀ τ ∈ pop', τ.genome.length = n ∧ Spec.Takes i v τ.genome) ?_ fun pop' hpop => ?_
  · refine Prog.Sat.mono (fun _ => forall₂_right) _ (Prog.Sat.each (fun σ : Indiv K => σ.genome.length = n ∧ Spec.Takes i v σ.genome)
      (fun _ (τ : Indiv K) => τ.genome.length = n ∧ Spec.Takes i v τ.genome) _ _ (fun σ hσ => ⟨hn σ hσ, hp σ hσ⟩)
      fun σ hσ => Prog.Sat.mono (fun τ hτ => by rw [hτ]; exact hσ) _ (evaluate_takes ev _ σ hσ.2))
  refine Prog.Sat.bind' (P := fun _ => True) (Prog.Sat.lift fun _ _ => trivial) fun step _ => ?_
  refine Prog.Sat.bind' (P := fun ps : List (Particle K) => ∀ p ∈ ps, (p.sol.genome.length = n ∧ p.best.genome.length = n) ∧ p.Takes i v)
    (Prog.Sat.lift fun ps hps p hp => ?_) fun ps hps => ?_
  · obtain ⟨x, hx, he⟩ := mem_of_mapM_ok _ _ _ hps p hp
    have hσ := hpop _ (mem_of_mem_zipIdx hx)
    unfold Movement.initParticle at he
    cases hc : x.1.clone with
    | error e => rw [hc] at he; cases he
    | ok b =>
      rw [hc] at he
      injection he with he
      have hb := clone_eq hc
      rw [← he]
      exact ⟨⟨hσ.1, hb ▸ hσ.1⟩, hσ.2, hb ▸ hσ.2⟩
  · refine Prog.Sat.mono (P := fun s : PSOState K => ∀ p ∈ s.particles, (p.sol.genome.length = n ∧ p.best.genome.length = n) ∧ p.Takes i v)
      (fun s hs p hp => (hs p hp).2) _ ?_
    exact Prog.Sat.forEach (fun _ (s : PSOState K) => ∀ p ∈ s.particles, (p.sol.genome.length = n ∧ p.best.genome.length = n) ∧ p.Takes i v) _ _ ⟨ps, [ps]⟩ hps
      fun z _ s hs => psoStep_takes pl sig aMax step ev n s z i v (fun p hp => (hs p hp).1) fun p hp => (hs p hp).2

/-! ### Examples -/

/-- A candidate of each update: the rule that neither includes (position 2) stays out. -/
example : (FoodDraw.bitwise (fun _ => true) : FoodDraw ℚ).genome (fun x => x) [true, false, false] [true, true, false] = .ok [false, true, false] ∧
    (FoodDraw.flips [1] : FoodDraw ℚ).genome (fun x => x) [true, false, false] [true, true, false] = .ok [true, true, false] ∧
    Spec.differences [true, false, false] [true, true, false] = 1 := ⟨by decide +kernel, by decide +kernel, rfl⟩

/-- The hypotheses of `C117_bees` for a rule left out by both food sources (bitwise update and partial crossover), and the result of the run. -/
example : (∀ z ∈ [demoABC [0], demoABC [1]], ∀ k, (z.food1 k).Recombines false ∧ (z.food2 k).Recombines false) ∧
    Spec.NoNewRules (.random (1 / 2) : InitOp ℚ) false 2 5 ∧
    ((abc (fun x => x) (.random (1 / 2)) 5 [demoABC [0], demoABC [1]] 3 [⟨[false, true, false], none⟩, ⟨[true, true, false], none⟩]).run plusEval).toOption.map foodView =
      some [([true, true, false], 3), ([true, true, false], 4)] := by
  refine ⟨?_, Or.inl (by decide), by decide +kernel⟩
  intro z hz k
  simp only [List.mem_cons, List.not_mem_nil, or_false] at hz
  rcases hz with rfl | rfl <;> exact ⟨trivial, rfl⟩

/-! ## C118 -/

/-- No rule is selected. -/
def Spec.Empty (g : List Bool) : Prop := ∀ i, g.getD i false = false

theorem Spec.Empty.eq {g : List Bool} (h : Spec.Empty g) : g = List.replicate g.length false := by
  refine List.eq_replicate_iff.mpr ⟨rfl, fun b hb => ?_⟩
  obtain ⟨i, hi, rfl⟩ := List.mem_iff_getElem.mp hb
  have := h i
  rwa [List.getD_eq_getElem?_getD, List.getElem?_eq_getElem hi] at this

theorem Spec.Empty.append {g : List Bool} (h : Spec.Empty g) (k : Nat) : Spec.Empty (g ++ List.replicate k false) := by
  intro i
  rw [h.eq, ← List.replicate_add, List.getD_eq_getElem?_getD, List.getElem?_replicate]
  split <;> rfl

/-- From solutions without rules the strategy produces solutions without rules. -/
def Strategy.KeepsEmpty (strat : Strategy K) : Prop := ∀ n ev pop pop', AllLen n pop → (∀ σ ∈ pop, Spec.Empty σ.genome) → strat n ev pop = .ok pop' →
  ∀ σ ∈ pop', Spec.Empty σ.genome

/-- Bees with the bitwise update or the partial crossover, and zero initialisation, whatever is drawn. -/
theorem bees_keepEmpty (sig : K → K) (limit : Nat) (draws : Nat → Nat → List (ABCDraw K))
    (hz : ∀ n size, ∀ z ∈ draws n size, ∀ k, (z.food1 k).Recombines false ∧ (z.food2 k).Recombines false) :
    (Prog.strategy fun n pop => (abc sig .zero limit (draws n pop.length) n pop).bind fun s => .ret (s.map Food.sol)).KeepsEmpty := by
  intro n ev pop pop' _ hp h σ hσ i
  have := Prog.Sat.bind (f := fun s : List (Food K) => (.ret (s.map Food.sol) : Prog K (List (Indiv K)))) (Q := fun pop' => ∀ σ ∈ pop', Spec.Takes i false σ.genome)
    (C117_bees sig .zero limit (draws n pop.length) n ev pop i false (hz n _) (Or.inr ⟨rfl, rfl⟩) fun σ hσ => hp σ hσ i) (fun s hs σ hσ => by
      obtain ⟨f, hf, rfl⟩ := List.mem_map.mp hσ
      exact hs f hf)
  exact this.run pop' h σ hσ

/-- Binary particles, whatever is drawn. -/
theorem particles_keepEmpty (pl : K) (sig : K → K) (aMin aMax : K) (init : Nat → (Nat → K) × (Nat → K)) (draws : Nat → Nat → List (PSODraw K)) :
    (Prog.strategy fun n pop => (pso (.binary pl) sig aMin aMax init (draws n pop.length) pop).bind fun s => .ret (s.particles.map Particle.sol)).KeepsEmpty := by
  intro n ev pop pop' hl hp h σ hσ i
  have := Prog.Sat.bind (f := fun s : PSOState K => (.ret (s.particles.map Particle.sol) : Prog K (List (Indiv K))))
    (Q := fun pop' => ∀ σ ∈ pop', Spec.Takes i false σ.genome)
    (C117_particles pl sig aMin aMax init (draws n pop.length) n ev pop hl i false fun σ hσ => hp σ hσ i) (fun s hs σ hσ => by
      obtain ⟨p, hp, rfl⟩ := List.mem_map.mp hσ
      exact (hs p hp).1)
  exact this.run pop' h σ hσ

/-- Population and archive hold only solutions without rules. -/
def CompState.NoRules (s : CompState K) : Prop :=
  (∀ p, s.population = some p → ∀ σ ∈ p, Spec.Empty σ.genome) ∧ ∀ l, s.archive = some l → ∀ σ ∈ l, Spec.Empty σ.genome

theorem fitAll_empty {ev : Eval K} {pop pop' : List (Indiv K)} (h : fitAll ev pop = .ok pop') (hp : ∀ σ ∈ pop, Spec.Empty σ.genome) :
    ∀ σ ∈ pop', Spec.Empty σ.genome := by
  intro σ hσ
  have := List.mem_map_of_mem (f := Indiv.genome) hσ
  rw [(fitAll_spec _ _ _ h).1] at this
  obtain ⟨τ, hτ, he⟩ := List.mem_map.mp this
  rw [← he]; exact hp τ hτ

theorem make_empty (u : Nat → K) (n : Nat) : Spec.Empty (InitOp.make (.zero : InitOp K) u n).genome := fun i => zero_takes u n i

theorem initPopulation_empty (cfg : CompCfg K) (hz : cfg.init = .zero) (draw : Nat → Nat → K) (n : Nat) (old : Option (List (Indiv K))) (pop : List (Indiv K))
    (ho : ∀ p, old = some p → ∀ σ ∈ p, Spec.Empty σ.genome) (h : initPopulation cfg draw n old = .ok pop) : ∀ σ ∈ pop, Spec.Empty σ.genome := by
  have hnew : ∀ σ ∈ (List.range cfg.populationSize).map (fun k => cfg.init.make (draw k) n), Spec.Empty σ.genome := by
    intro σ hσ
    obtain ⟨k, _, rfl⟩ := List.mem_map.mp hσ
    rw [hz]; exact make_empty _ _
  unfold initPopulation at h
  split at h
  · rename_i σ0 rest
    split at h
    · intro τ hτ
      obtain ⟨⟨ρ, k⟩, hx, he⟩ := mem_of_mapM_ok _ _ _ h τ hτ
      have hx' : Spec.Empty ρ.genome := ho _ rfl ρ (mem_of_mem_zipIdx hx)
      change cfg.init.pad (draw k) n ρ = .ok τ at he
      rw [hz] at he
      unfold InitOp.pad at he
      split at he
      · cases he
      · injection he with he
        rw [← he]
        exact hx'.append _
    · injection h with h
      rw [← h]; exact hnew
  · injection h with h
    rw [← h]; exact hnew

theorem compOptimize_noRules (cfg : CompCfg K) (hz : cfg.init = .zero) (draw : Nat → Nat → K) (strat : Strategy K) (hk : strat.KeepsEmpty) (ev : Eval K) (n : Nat)
    (s s' : CompState K) (harch : ∀ l, s.archive = some l → l.length ≤ 1) (hs : s.NoRules) (h : compOptimize cfg draw strat ev n s = .ok s') : s'.NoRules := by
  rw [compOptimize_eq] at h
  split at h
  · cases h
  · rename_i pop hpop
    have hpe := initPopulation_empty cfg hz draw n _ _ hs.1 hpop
    split at h
    · cases h
    · rename_i arch hprep
      split at h
      · cases h
      · rename_i pop' hpop'
        have hpe' : ∀ σ ∈ pop', Spec.Empty σ.genome := by
          unfold popStep at hpop'
          split at hpop'
          · rename_i hn
            cases hσ : (cfg.init.make (draw cfg.populationSize) n).fit ev with
            | error e => simp only [hσ, bind, Except.bind] at hpop'; cases hpop'
            | ok σ =>
              simp only [hσ, bind, Except.bind, pure, Except.pure, Except.ok.injEq] at hpop'
              subst hpop'
              intro τ hτ
              rw [List.mem_singleton] at hτ
              rw [hτ, (Indiv.fit_ok _ _ _ hσ).1, hz]
              exact make_empty _ _
          · exact hk n ev pop pop' (initPopulation_len _ _ _ _ _ hpop) hpe hpop'
        split at h
        · cases h
        · rename_i arch' hstore
          cases h
          refine ⟨fun p hp => by cases hp; exact hpe', fun l hl => ?_⟩
          have hae : ∀ l, arch = some l → l.length ≤ 1 ∧ ∀ σ ∈ l, Spec.Empty σ.genome := by
            intro l hl
            rcases archivePrepare_spec _ _ _ _ hprep with ⟨_, h2⟩ | ⟨l0, p, r, h1, h2, h3, h4⟩
            · rw [h2] at hl; cases hl
            · rw [h2] at hl
              cases hl
              refine ⟨by rw [mapM_length _ _ _ h4, mapM_length _ _ _ h3]; exact harch l0 h1, fitAll_empty h4 fun σ hσ => ?_⟩
              obtain ⟨τ, hτ, he⟩ := mem_of_mapM_ok _ _ _ h3 σ hσ
              unfold archivePad1 at he
              split at he
              · cases he
              · injection he with he
                rw [← he]
                exact (hs.2 l0 h1 τ hτ).append _
          dsimp only at hl
          rcases archiveStore_spec _ _ _ _ hstore with ⟨_, h2⟩ | ⟨l0, u, r, h1, h2, h3, h4⟩
          · rw [h2] at hl; cases hl
          · rw [h2] at hl
            cases hl
            refine fitAll_empty h4 fun σ hσ => ?_
            obtain ⟨a, rfl, hmem, _⟩ := archiveUpdate_spec _ _ _ (hae l0 h1).1 h3
            rw [List.mem_singleton] at hσ
            rw [hσ]
            rcases hmem with hm | hm
            · exact (hae l0 h1).2 a hm
            · exact hpe' a hm

variable {d : Nat} {M : Type}

theorem elitist_noRules (s : CompState K) (hs : s.NoRules) (el : Indiv K) (h : s.elitist = .ok (some el)) : Spec.Empty el.genome := by
  obtain ⟨pop, hp, _, hm, _⟩ := elitist_mem _ _ h
  rcases List.mem_append.mp hm with hm | hm
  · exact hs.1 _ hp _ hm
  · cases ha : s.archive with
    | none => rw [ha] at hm; simp at hm
    | some l => rw [ha] at hm; exact hs.2 l ha _ hm

/-- What is seen of a solution composition: no solution uses a rule. -/
def Event.NoRules : Event K d M → Prop
  | .composed _ s el => s.NoRules ∧ Spec.Empty el.genome
  | _ => True

/-- C118 is false: with zero initialisation and a strategy that only recombines (bees with the bitwise update or the partial crossover, binary particles: `bees_keepEmpty` and
`particles_keepEmpty`), for all data, rule discoveries, settings and random numbers, no solution of the whole training uses any rule and the trained model predicts 0 everywhere. -/
theorem C118_refuted [IsStrictOrderedRing K] (cfg : SupCfg K) (c : SupComp K d M) (hg : c.GoodStrategies) (hz : cfg.comp.init = .zero) (hk : ∀ seed hist, (c.strategy seed hist).KeepsEmpty)
    (entropy : Nat) (raw : RawData K d) (cl : Bool) (st0 : SupState K d M) (h : (st0.fit cfg c entropy raw cl).Completed) :
    (∀ e ∈ (st0.fit cfg c entropy raw cl).trace, e.NoRules) ∧
    ∀ Xq, Xq ≠ [] → (st0.fit cfg c entropy raw cl).state.predict c Xq = .ok (List.replicate Xq.length 0) := by
  have hrun : ∀ (ev : PoolEval K d M) X y step0, let o := runFit cfg c ev entropy X y step0
      (∀ s, o = .done s → (CompOk ev s.pool s.comp ∧ s.comp.NoRules) ∧ ∀ e ∈ s.trace, e.NoRules) := by
    intro ev X y step0
    have hstart : (startState cfg step0 : RunState K d M).comp.NoRules := by
      refine ⟨fun p hp => by simp [startState] at hp, fun l hl => ?_⟩
      simp only [startState] at hl
      split at hl
      · cases hl; intro σ hσ; cases hσ
      · cases hl
    have hdt : ∀ n (s s1 : RunState K d M) r, discoverStep cfg c entropy X y n s = (s1, r) → (∀ e ∈ s.trace, e.NoRules) → ∀ e ∈ s1.trace, e.NoRules := by
      intro n s s1 r h ht
      rcases discoverStep_spec _ _ _ _ _ _ _ _ _ h with ⟨rfl, _⟩ | ⟨el, seed, a1, _, _, ⟨_, _, _, rfl⟩ | ⟨_, _, _, rfl⟩⟩
      · exact ht
      all_goals
        intro e he
        rcases List.mem_append.mp he with he | he
        · exact ht e he
        · rw [List.mem_singleton] at he
          subst he
          trivial
    refine runFit_ind cfg c ev entropy X y step0
      (fun _ s => (CompOk ev s.pool s.comp ∧ s.comp.NoRules) ∧ ∀ e ∈ s.trace, e.NoRules)
      (fun o => ∀ s, o = .done s → (CompOk ev s.pool s.comp ∧ s.comp.NoRules) ∧ ∀ e ∈ s.trace, e.NoRules) ?_ ?_ ?_ ?_ ?_ ?_ ?_ ?_ ?_
    · intro _
      exact ⟨⟨startState_ok _ _ _ _, hstart⟩, by simp [startState]⟩
    · intro s _ h
      refine ⟨?_, hdt _ _ _ _ h (by simp [startState])⟩
      rw [discoverStep_comp _ _ _ _ _ _ _ _ _ h]
      exact ⟨startState_ok _ _ _ _, hstart⟩
    · intro s e _ _ s' hs'; cases hs'
    · intro s hs s' hs'; cases hs'; exact hs
    · intro k rest s s1 e _ _ s' hs'; cases hs'
    · intro k rest s s1 s2 e _ _ _ s' hs'; cases hs'
    · intro k rest s s1 s2 e _ _ _ _ s' hs'; cases hs'
    all_goals
      rintro k rest s s' el ⟨⟨h1, h2⟩, h3⟩ h _
      have hok := iteration_compOk cfg c hg ev entropy X y k s s' el s.pool h1 h
      obtain ⟨el0, seed, seed', rules, comp, _, _, _, _, _, a1, a2, rfl⟩ := iteration_spec _ _ _ _ _ _ _ _ _ _ h
      have hne := compOptimize_noRules cfg.comp hz _ _ (hk _ _) _ _ _ _ h1.archLen h2 a1
      have hev : ∀ e ∈ s.trace ++ [Event.discover seed el0 s.pool cfg.nRules, .compose seed' (s.pool ++ rules) s.comp,
          .composed (s.pool ++ rules) comp el], e.NoRules := by
        intro e he
        simp only [List.mem_append, List.mem_cons, List.not_mem_nil, or_false] at he
        rcases he with he | rfl | rfl | rfl
        · exact h3 e he
        · trivial
        · trivial
        · exact ⟨hne, elitist_noRules _ hne _ a2⟩
      first
        | exact fun s' hs' => by cases hs'; exact ⟨⟨hok, hne⟩, hev⟩
        | exact ⟨⟨hok, hne⟩, hev⟩
  obtain ⟨_, s, el, hr, hel, htr, hfit, σ, hσ, hf, ht⟩ := completed_run cfg c (runEval cfg c) entropy raw cl st0 h
  obtain ⟨⟨hok, hne⟩, hev⟩ := hrun _ _ _ _ s hr
  have hele := elitist_noRules _ hne _ hel
  have hlen := (hok.elitist_len el hel).1
  refine ⟨fun e he => hev e (htr ▸ he), fun Xq hq => ?_⟩
  have hsub : ({ genome := el.genome, pool := s.pool, st := el.st } : Solution K d M).subpopulation = .ok [] := by
    unfold Solution.subpopulation
    dsimp only
    rw [if_pos hlen, hele.eq]
    congr 1
    generalize el.genome.length = m
    generalize s.pool = pool
    induction pool generalizing m with
    | nil => cases m <;> rfl
    | cons ρ rest ih =>
      cases m with
      | zero => rfl
      | succ m => exact ih m
  have hp : σ.predict c.learner c.mix c.filter false Xq = .ok (List.replicate Xq.length 0) := by
    have h0 : ({ genome := el.genome, pool := s.pool, st := el.st } : Solution K d M).predict c.learner c.mix c.filter false Xq =
        .ok (List.replicate Xq.length 0) := by
      unfold Solution.predict
      rw [hsub]; rfl
    cases cl with
    | false => rw [hf rfl]; exact h0
    | true =>
      obtain ⟨σ', h1, _, _, _, h5⟩ := C25_cleanup ({ genome := el.genome, pool := s.pool, st := el.st } : Solution K d M) hlen
      have := (ht rfl).symm.trans h1
      cases this
      rw [h5]; exact h0
  unfold SupState.predict
  unfold SupState.fit at h ⊢
  rw [if_neg (by rw [hfit]; simp), if_neg hq, h.2, hσ]
  exact hp

/-- A training run with two rules and bees that use the partial crossover: it completes, the pool has two rules, and the model uses none. -/
def zeroBees : SupComp ℚ 1 ℚ :=
  compWith smallES (firstDraws 2 1 (1 / 2)) meanLearner negErr (fun N _ _ c => (N : ℚ) + 1 - c) fun _ _ =>
    Prog.strategy fun n pop => (abc (fun x => x) .zero 5 [⟨List.replicate pop.length 0, fun _ => .flips [0], List.replicate pop.length 0, fun _ => .bitwise fun _ => true,
      fun _ _ => 0⟩] n pop).bind fun s => .ret (s.map Food.sol)

def zeroCfg : SupCfg ℚ := { smallCfg with comp := { smallCfg.comp with init := .zero } }

example : (∀ seed hist, (zeroBees.strategy seed hist).KeepsEmpty) ∧ zeroBees.GoodStrategies ∧
    (SupState.fit zeroCfg zeroBees 7 ⟨[![0], ![1], ![5]], [1, 3, 7], true⟩ false {}).Completed ∧
    (SupState.fit zeroCfg zeroBees 7 ⟨[![0], ![1], ![5]], [1, 3, 7], true⟩ false {}).state.pool.length = 2 ∧
    (SupState.fit zeroCfg zeroBees 7 ⟨[![0], ![1], ![5]], [1, 3, 7], true⟩ false {}).state.predict zeroBees [![0], ![1]] = .ok [0, 0] := by
  refine ⟨fun _ _ => bees_keepEmpty _ _ (fun _ size => [⟨List.replicate size 0, fun _ => .flips [0], List.replicate size 0, fun _ => .bitwise fun _ => true, fun _ _ => 0⟩]) ?_,
    fun _ _ => strategy_good _ fun n ev pop h => Prog.Sat.bind (abc_sat _ _ _ _ n ev pop h) fun s hs σ hσ => ?_, ⟨by decide +kernel, by decide +kernel⟩, by decide +kernel,
    by decide +kernel⟩
  · intro n size z hz k
    rw [List.mem_singleton] at hz
    subst hz
    exact ⟨trivial, rfl⟩
  · obtain ⟨f, hf, rfl⟩ := List.mem_map.mp hσ
    exact hs f hf

/-! ### What is within reach -/

section Reach

variable [IsStrictOrderedRing K]

/-- Numbers that `random_state.random` can return. -/
def Spec.Unit (u : Nat → K) : Prop := ∀ i, 0 ≤ u i ∧ u i < 1

theorem between (p : K) (h0 : 0 ≤ p) (h1 : p < 1) : ∃ q, p < q ∧ 0 ≤ q ∧ q < 1 := by
  obtain ⟨q, hq, hq'⟩ := exists_between h1
  exact ⟨q, hq, h0.trans (le_of_lt hq), hq'⟩

/-- C118 for random initialisation: with a probability strictly between 0 and 1, every selection of rules can be drawn. -/
theorem C118_random_partial (p : K) (h0 : 0 < p) (h1 : p < 1) (g : List Bool) :
    ∃ u, Spec.Unit u ∧ (InitOp.make (.random p) u g.length).genome = g := by
  obtain ⟨q, hpq, hq0, hq1⟩ := between p (le_of_lt h0) h1
  refine ⟨fun i => if g.getD i false then 0 else q, fun i => ?_, ?_⟩
  · dsimp only
    split
    · exact ⟨le_refl _, zero_lt_one⟩
    · exact ⟨hq0, hq1⟩
  · change randomBits p ((List.range g.length).map _) = g
    unfold randomBits
    rw [List.map_map]
    refine List.ext_getElem (by simp) fun i hi hi' => ?_
    simp only [List.getElem_map, List.getElem_range, Function.comp_apply]
    rw [List.getD_eq_getElem?_getD, List.getElem?_eq_getElem hi']
    cases g[i] with
    | false => simpa using hpq
    | true => simpa using le_of_lt h0

/-- C118 for random search: every selection of rules can be the result, if it is the fittest of the `n_iter` solutions that are compared (all of which may be equal to it). -/
theorem C118_rs_partial (p : K) (h0 : 0 < p) (h1 : p < 1) (nIter size : Nat) (hn : 1 ≤ nIter) (hs : 1 ≤ size) (ev : Eval K) (g : List Bool) (hev : TotalEval ev g.length)
    (pop : List (Indiv K)) (hl : AllLen g.length pop) :
    ∃ draw, (∀ k j, Spec.Unit (draw k j)) ∧ ∃ pop', (rs (.random p) size nIter draw g.length pop).run ev = .ok pop' ∧ ∃ σ ∈ pop', σ.genome = g := by
  obtain ⟨u, hu, hg⟩ := C118_random_partial p h0 h1 g
  refine ⟨fun _ _ => u, fun _ _ => hu, ?_⟩
  have hrun : (rs (.random p) size nIter (fun _ _ => u) g.length pop).Runs ev fun pop' => pop'.length = size := by
    unfold rs
    refine Prog.Runs.bind' (evaluateAll_runs hev _ hl) fun _ _ => ?_
    exact Prog.Runs.mono (fun _ h => by simpa using h) (Prog.Runs.each _ _ fun k _ => rsOne_runs hev _ nIter hn _)
  have hsat : (rs (.random p) size nIter (fun _ _ => u) g.length pop).Sat ev (HasLen g.length) fun pop' => ∀ σ ∈ pop', σ.genome = g := by
    unfold rs
    refine Prog.Sat.bind' (evaluateAll_sat ev _ _ hl) fun _ _ => ?_
    refine Prog.Sat.mono (fun _ => forall₂_right) _ (Prog.Sat.each (fun _ => True) (fun _ (σ : Indiv K) => σ.genome = g) _ _ (fun _ _ => trivial) fun k _ => ?_)
    unfold rsOne
    refine Prog.Sat.bind' (evaluateAll_sat ev g.length _ ?_) fun sols hsols => Prog.Sat.lift fun σ hσ => ?_
    · intro σ hσ
      obtain ⟨k, _, rfl⟩ := List.mem_map.mp hσ
      rw [hg]
    · have hm : σ.genome ∈ sols.map Indiv.genome := List.mem_map.mpr ⟨σ, (fittestIndiv_spec' hσ).1, rfl⟩
      rw [hsols.1, List.map_map] at hm
      obtain ⟨k, _, hk⟩ := List.mem_map.mp hm
      rw [← hk]
      exact hg
  obtain ⟨pop', h2, h3, h4⟩ := hrun.and_sat hsat
  refine ⟨pop', h2, ?_⟩
  cases pop' with
  | nil => simp at h3; omega
  | cons σ _ => exact ⟨σ, List.mem_cons_self .., h4 σ (List.mem_cons_self ..)⟩

/-- The hypotheses hold: three solutions of four rules each are drawn twice. -/
example : ∃ draw, (∀ k j, Spec.Unit (draw k j)) ∧ ∃ pop', (rs (.random (1 / 2 : ℚ)) 2 3 draw 4 []).run plusEval = .ok pop' ∧ ∃ σ ∈ pop', σ.genome = [true, false, false, true] :=
  C118_rs_partial (1 / 2) (by decide +kernel) (by decide +kernel) 3 2 (by decide) (by decide) plusEval [true, false, false, true] (fun g _ => ⟨_, rfl⟩) [] (by simp [AllLen])

/-- C118 for the binarisation of positions (sigmoid particles, quantum particles, wolves, bees): where the sigmoid is strictly between 0 and 1, every selection of rules can be
drawn from every position. -/
theorem C118_sigmoid_partial (sig : K → K) (hsig : ∀ x, 0 < sig x ∧ sig x < 1) (x : List K) (g : List Bool) (hl : x.length = g.length) :
    ∃ u, Spec.Unit u ∧ sigmoidBinarize sig u x = g := by
  have hq : ∀ i, ∃ q, 0 ≤ q ∧ q < 1 ∧ sig (x.getD i 0) < q := fun i => by
    obtain ⟨q, h1, h2, h3⟩ := between (sig (x.getD i 0)) (le_of_lt (hsig _).1) (hsig _).2
    exact ⟨q, h2, h3, h1⟩
  choose q hq using hq
  refine ⟨fun i => if g.getD i false then 0 else q i, fun i => ?_, ?_⟩
  · dsimp only
    split
    · exact ⟨le_refl _, zero_lt_one⟩
    · exact ⟨(hq i).1, (hq i).2.1⟩
  · unfold sigmoidBinarize
    refine List.ext_getElem (by simpa using hl) fun i hi hi' => ?_
    have hx : i < x.length := by rw [hl]; exact hi'
    have h1 := (hq i).2.2
    rw [List.getD_eq_getElem?_getD, List.getElem?_eq_getElem hx, Option.getD_some] at h1
    rw [List.getElem_mapIdx]
    have hgi : g.getD i false = g[i] := by rw [List.getD_eq_getElem?_getD, List.getElem?_eq_getElem hi', Option.getD_some]
    simp only [hgi]
    cases g[i] with
    | false => simpa using h1
    | true => simpa using le_of_lt (hsig _).1

/-- C118 for the genetic algorithm: whatever the draws of selection and crossover, the draws of the mutation can make every child of a generation equal to any selection of rules. -/
theorem C118_ga_partial (cfg : GACfg K) (h0 : 0 < cfg.mutRate) (h1 : cfg.mutRate < 1) (k : Nat) (hk : 1 ≤ k) (hsize : 1 ≤ cfg.populationSize) (g : List Bool) (ev : Eval K)
    (hev : TotalEval ev g.length) (earlier : List (GADraw K)) (pop pop0 : List (Indiv K)) (hl : AllLen g.length pop)
    (hrun : gaOptimize cfg earlier g.length ev pop = .ok pop0) (idx : List (List Nat)) (hv : (SelDraw.tournament idx).Valid cfg.populationSize k pop0.length)
    (cross : Nat → Bool → K × CrossDraw K) :
    ∃ flips, (∀ j, Spec.Unit (flips j)) ∧ ∃ pop', gaOptimize cfg (earlier ++ [⟨.tournament idx, cross, flips⟩]) g.length ev pop = .ok pop' ∧ ∃ σ ∈ pop', σ.genome = g := by
  have hgood := gaOptimize_good cfg earlier
  have hl0 : AllLen g.length pop0 := hgood.1 _ _ _ _ hl hrun
  have he0 := hgood.2 _ _ _ _ hl hrun
  have hfit : ∀ σ ∈ pop0, ∃ s, σ.st = some s := fun σ hσ => ⟨_, (he0 σ hσ).choose_spec.1⟩
  obtain ⟨popz, hz⟩ := gaStep_total cfg k hk hsize ⟨.tournament idx, cross, fun _ _ => 0⟩ ev pop0 g.length hl0 ⟨idx, rfl⟩ hv hfit hev
  obtain ⟨_, parents, children, children', e1, e2, e3, _⟩ := gaStep_spec _ _ _ _ _ hz
  have hpar : AllLen g.length parents := fun σ hσ => hl0 σ (mem_select _ _ _ e1 σ hσ)
  have hps : ∀ p ∈ pairs parents, p.1.genome.length = g.length ∧ p.2.genome.length = g.length := fun p hp => ⟨hpar _ (mem_pairs _ p hp).1, hpar _ (mem_pairs _ p hp).2⟩
  obtain ⟨hcl, hclen⟩ := gaCross_len _ _ _ _ g.length hps e2
  obtain ⟨hcl', hclen'⟩ := gaOdd_spec _ _ _ _ g.length hpar hcl e3
  have hplen := select_length _ _ k _ _ hv e1
  have hpos : 0 < children'.length := by
    rw [hclen', hclen, length_pairs, hplen]
    omega
  let flips : Nat → Nat → K := fun j i => if xor (((children'.map Indiv.genome).getD j []).getD i false) (g.getD i false) then 0 else cfg.mutRate
  have hall : ∀ σ ∈ gaMutate cfg.mutRate flips children', σ.genome = g := by
    intro σ hσ
    obtain ⟨⟨c, j⟩, hm, rfl⟩ := List.mem_map.mp hσ
    obtain ⟨_, hj, hc⟩ := List.mem_zipIdx hm
    have hclen := hcl' c (List.fst_mem_of_mem_zipIdx hm)
    change (c.genome.mapIdx fun i b => xor b (decide (flips j i < cfg.mutRate))) = g
    refine List.ext_getElem (by simpa using hclen) fun i hi hi' => ?_
    have hci : i < c.genome.length := by rw [hclen]; exact hi'
    have hjc : (children'.map Indiv.genome).getD j [] = c.genome := by
      have : children'[j]? = some c := by
        rw [List.getElem?_eq_getElem (by omega)]
        exact congrArg some (by rw [hc]; rfl)
      rw [List.getD_eq_getElem?_getD, List.getElem?_map, this]
      rfl
    rw [List.getElem_mapIdx]
    have hfl : flips j i = if xor c.genome[i] g[i] then 0 else cfg.mutRate := by
      change (if xor (((children'.map Indiv.genome).getD j []).getD i false) (g.getD i false) then (0 : K) else cfg.mutRate) = _
      rw [hjc, List.getD_eq_getElem?_getD, List.getD_eq_getElem?_getD, List.getElem?_eq_getElem hci, List.getElem?_eq_getElem hi']
      rfl
    rw [hfl]
    cases c.genome[i] <;> cases g[i] <;> simp [h0]
  refine ⟨flips, fun j i => ?_, ?_⟩
  · change 0 ≤ (if _ then (0 : K) else cfg.mutRate) ∧ (if _ then (0 : K) else cfg.mutRate) < 1
    split
    · exact ⟨le_refl _, zero_lt_one⟩
    · exact ⟨le_of_lt h0, h1⟩
  · obtain ⟨pop', hp'⟩ := gaStep_total cfg k hk hsize ⟨.tournament idx, cross, flips⟩ ev pop0 g.length hl0 ⟨idx, rfl⟩ hv hfit hev
    refine ⟨pop', ?_, ?_⟩
    · unfold gaOptimize at hrun ⊢
      split at hrun
      · cases hrun
      · rename_i p0 hp0
        rw [gaLoop_append, hrun]
        dsimp only
        unfold gaLoop
        rw [hp']
        rfl
    · obtain ⟨_, parents2, children2, children2', f1, f2, f3, f4⟩ := gaStep_spec _ _ _ _ _ hp'
      rw [e1] at f1; cases f1
      rw [e2] at f2; cases f2
      rw [e3] at f3; cases f3
      obtain ⟨hgen, _⟩ := fitAll_spec _ _ _ f4
      have hm : g ∈ pop'.map Indiv.genome := by
        rw [hgen, List.map_append, List.mem_append]
        right
        have hlen := (gaMutate_spec cfg.mutRate flips children' _ hcl').2
        cases hgm : gaMutate cfg.mutRate flips children' with
        | nil => rw [hgm] at hlen; simp at hlen; omega
        | cons σ _ => exact List.mem_map.mpr ⟨σ, List.mem_cons_self .., hall σ (by rw [hgm]; exact List.mem_cons_self ..)⟩
      obtain ⟨σ, h1, h2⟩ := List.mem_map.mp hm
      exact ⟨σ, h1, h2⟩

/-- The hypotheses hold: one solution, one generation before, a tournament among the members of the population (one elitist and one child). -/
example : ∃ flips, (∀ j, Spec.Unit (flips j)) ∧ ∃ pop', gaOptimize (⟨1, 1, 9 / 10, 1 / 1000⟩ : GACfg ℚ) ([⟨.tournament [[0]], fun _ _ => (0, .nPoint []), fun _ _ => 1 / 2⟩] ++
      [⟨.tournament [[1]], fun _ _ => (0, .nPoint []), flips⟩]) 2 plusEval [⟨[false, false], none⟩] = .ok pop' ∧ ∃ σ ∈ pop', σ.genome = [true, true] :=
  C118_ga_partial ⟨1, 1, 9 / 10, 1 / 1000⟩ (by decide +kernel) (by decide +kernel) 1 (by decide) (by decide) [true, true] plusEval (fun g _ => ⟨_, rfl⟩) _ [⟨[false, false], none⟩]
    [bare, bare] (by simp [AllLen]) (by decide +kernel) [[1]] (by simp [SelDraw.Valid]) _

/-- The sigmoid of the code is strictly between 0 and 1. -/
theorem sigmoid_unit (x : ℝ) : 0 < sigmoid x ∧ sigmoid x < 1 := by
  have h := Real.exp_pos (-10 * (x - 1 / 2))
  unfold sigmoid
  refine ⟨by positivity, ?_⟩
  rw [div_lt_one (by positivity)]
  exact lt_add_of_pos_right _ h

example : ∃ u, Spec.Unit u ∧ sigmoidBinarize sigmoid u [0, 1, 1 / 3] = [true, false, true] := C118_sigmoid_partial sigmoid sigmoid_unit _ _ rfl

end Reach

/-! ## C119 -/

section Wolves

variable [IsStrictOrderedRing K]

theorem wolfX_unused (a r r' : K) : wolfX a r r' false false = 0 := by simp [wolfX, bitVal]

theorem wolfBinaryX_unused (sig : K → K) (a r r' u w : K) : wolfBinaryX sig a r r' u w false false = wolfBinaryX sig 0 0 0 u w false false := by
  simp [wolfBinaryX, bitVal]

theorem wolfSigmoid_bit (sig : K → K) (a : K) (leaders : List (Indiv K)) (d : WolfDraw K) (σ τ : Indiv K) (h : wolfMove .sigmoid sig a leaders d σ = .ok τ) (i : Nat)
    (hi : i < σ.genome.length) :
    τ.genome[i]? = some (decide (d.v i ≤ sig (mean (leaders.mapIdx fun l leader => wolfX a (d.r l i) (d.r' l i) (leader.genome.getD i false) σ.genome[i])))) := by
  unfold wolfMove at h
  split at h
  · cases h
  · injection h with h
    rw [← h]
    simp [Indiv.withGenome, sigmoidBinarize, hi]

theorem wolfCrossover_bit (sig : K → K) (a : K) (leaders : List (Indiv K)) (d : WolfDraw K) (σ τ : Indiv K) (h : wolfMove .crossover sig a leaders d σ = .ok τ) (i : Nat)
    (hi : i < σ.genome.length) :
    τ.genome[i]? = some ((leaders.mapIdx fun l leader =>
      wolfBinaryX sig a (d.r l i) (d.r' l i) (d.u l i) (d.w l i) (leader.genome.getD i false) σ.genome[i]).getD (d.pick i) false) := by
  unfold wolfMove at h
  split at h
  · cases h
  · injection h with h
    rw [← h]
    simp only [Indiv.withGenome, List.getElem?_mapIdx, List.getElem?_eq_getElem hi, Option.map_some]

/-- C119: where neither the wolf nor any leader uses a rule, the distance between them is 0: whether the moved wolf uses it depends neither on the iteration (`a`) nor on the random
coefficients of encircling (`r`, `r'`), only on the draws of the binarisation and of the choice between leaders. -/
theorem C119_unused (upd : WolfUpdate) (sig : K → K) (a a' : K) (leaders : List (Indiv K)) (d d' : WolfDraw K) (σ τ τ' : Indiv K) (i : Nat) (hi : σ.genome[i]? = some false)
    (hl : ∀ leader ∈ leaders, leader.genome[i]? = some false) (hu : ∀ l, d.u l i = d'.u l i) (hw : ∀ l, d.w l i = d'.w l i) (hp : d.pick i = d'.pick i) (hv : d.v i = d'.v i)
    (h : wolfMove upd sig a leaders d σ = .ok τ) (h' : wolfMove upd sig a' leaders d' σ = .ok τ') : τ.genome[i]? = τ'.genome[i]? := by
  obtain ⟨hi', hb⟩ := List.getElem?_eq_some_iff.mp hi
  have hlead : ∀ leader ∈ leaders, leader.genome.getD i false = false := fun leader hm => by rw [List.getD_eq_getElem?_getD, hl leader hm]; rfl
  have hmap : ∀ (β : Type) (f g : Nat → Indiv K → β), (∀ l, ∀ leader ∈ leaders, f l leader = g l leader) → leaders.mapIdx f = leaders.mapIdx g := by
    intro β f g hfg
    refine List.ext_getElem (by simp) fun j h1 h2 => ?_
    rw [List.getElem_mapIdx, List.getElem_mapIdx]
    exact hfg _ _ (List.getElem_mem _)
  cases upd with
  | sigmoid =>
    rw [wolfSigmoid_bit sig a leaders d σ τ h i hi', wolfSigmoid_bit sig a' leaders d' σ τ' h' i hi', hb, hv, hmap _ _ (fun l leader => wolfX a' (d'.r l i) (d'.r' l i) (leader.genome.getD i false) false)]
    intro l leader hm
    rw [hlead leader hm, wolfX_unused, wolfX_unused]
  | crossover =>
    rw [wolfCrossover_bit sig a leaders d σ τ h i hi', wolfCrossover_bit sig a' leaders d' σ τ' h' i hi', hb, hp, hmap _ _ (fun l leader => wolfBinaryX sig a' (d'.r l i) (d'.r' l i) (d'.u l i) (d'.w l i) (leader.genome.getD i false) false)]
    intro l leader hm
    rw [hlead leader hm, hu, hw, wolfBinaryX_unused, ← wolfBinaryX_unused sig a' (d'.r l i) (d'.r' l i)]

/-- C119: with the sigmoid update, such a rule is taken up if and only if the draw of the binarisation is at most the sigmoid of 0. -/
theorem C119_chance (sig : K → K) (a : K) (leaders : List (Indiv K)) (d : WolfDraw K) (σ τ : Indiv K) (i : Nat) (hi : σ.genome[i]? = some false)
    (hl : ∀ leader ∈ leaders, leader.genome[i]? = some false) (h : wolfMove .sigmoid sig a leaders d σ = .ok τ) : τ.genome[i]? = some (decide (d.v i ≤ sig 0)) := by
  obtain ⟨hi', hb⟩ := List.getElem?_eq_some_iff.mp hi
  rw [wolfSigmoid_bit sig a leaders d σ τ h i hi', hb]
  have : (leaders.mapIdx fun l leader => wolfX a (d.r l i) (d.r' l i) (leader.genome.getD i false) false) = leaders.mapIdx fun _ _ => (0 : K) := by
    refine List.ext_getElem (by simp) fun j h1 h2 => ?_
    rw [List.getElem_mapIdx, List.getElem_mapIdx, List.getD_eq_getElem?_getD, hl _ (List.getElem_mem _)]
    exact wolfX_unused ..
  rw [this]
  have hz : (leaders.mapIdx fun _ _ => (0 : K)).sum = 0 := List.sum_eq_zero fun x hx => by
    obtain ⟨j, hj, rfl⟩ := List.mem_mapIdx.mp hx
    rfl
  have hm : mean (leaders.mapIdx fun _ _ => (0 : K)) = 0 := by
    unfold mean
    rw [hz, zero_div]
  rw [hm]

/-- The hypotheses hold for a wolf and a leader that both do not use the second rule. -/
example : (wolfMove .sigmoid (fun x : ℚ => (x + 1) / 4) 2 [⟨[true, false], none⟩] ⟨fun _ _ => 1 / 3, fun _ _ => 1 / 5, fun _ _ => 0, fun _ _ => 0, fun _ => 0, fun _ => 1 / 5⟩
    ⟨[true, false], none⟩).toOption.map Indiv.genome = some [true, true] := by decide +kernel

end Wolves

end Suprb
