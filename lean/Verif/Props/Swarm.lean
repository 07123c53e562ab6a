import Verif.Lemmas.Swarm
import Mathlib.Tactic.NormNum

/-!
# Claims C65-C67 and C73 for bee colony, particle swarm, grey wolves and random search
-/

set_option autoImplicit false
set_option linter.unusedSectionVars false

namespace Suprb

variable {K : Type} [Field K] [LinearOrder K]

/-! ## C65 -/

/-- C65: after a greedy update every food source that got a candidate holds the candidate if it is strictly fitter, with trial counter 0, and otherwise the old
solution with a counter that is larger by one; food sources without candidate do not change and their number stays the same. -/
theorem C65_greedy (new : List (Indiv K)) (src : List (Food K)) : (greedyUpdate new src).length = src.length ∧
    ∀ (k : Nat) (f : Food K), src[k]? = some f → ∃ f', (greedyUpdate new src)[k]? = some f' ∧ f.sol.fitnessD ≤ f'.sol.fitnessD ∧
      (∀ c, new[k]? = some c → f.sol.fitnessD < c.fitnessD → f'.sol = c ∧ f'.trials = 0) ∧
      (∀ c, new[k]? = some c → c.fitnessD ≤ f.sol.fitnessD → f'.sol = f.sol ∧ f'.trials = f.trials + 1) ∧
      (new[k]? = none → f' = f) := by
  induction new generalizing src with
  | nil =>
    have : greedyUpdate ([] : List (Indiv K)) src = src := by cases src <;> rfl
    rw [this]
    refine ⟨rfl, fun k f hf => ⟨f, hf, le_refl _, ?_, ?_, fun _ => rfl⟩⟩
    · intro c hc; simp at hc
    · intro c hc; simp at hc
  | cons c cs ih =>
    cases src with
    | nil => refine ⟨rfl, fun k f hf => ?_⟩; simp at hf
    | cons s ss =>
      rw [greedyUpdate]
      refine ⟨by simp [(ih ss).1], fun k f hf => ?_⟩
      cases k with
      | zero =>
        rw [List.getElem?_cons_zero] at hf
        injection hf with hf
        subst hf
        refine ⟨_, List.getElem?_cons_zero, ?_, ?_, ?_, ?_⟩
        · split
          · rename_i h; exact le_of_lt h
          · exact le_refl _
        · intro d hd hlt
          rw [List.getElem?_cons_zero] at hd
          injection hd with hd
          subst hd
          rw [if_pos hlt]; exact ⟨rfl, rfl⟩
        · intro d hd hle
          rw [List.getElem?_cons_zero] at hd
          injection hd with hd
          subst hd
          rw [if_neg (not_lt.mpr hle)]; exact ⟨rfl, rfl⟩
        · intro h; simp at h
      | succ k =>
        rw [List.getElem?_cons_succ] at hf ⊢
        rw [List.getElem?_cons_succ]
        exact (ih ss).2 k f hf

/-- What one iteration may do with a food source: improve or keep it, or give it up after enough trials. -/
def Food.Next (limit : Nat) (f f' : Food K) : Prop :=
  f.sol.fitnessD ≤ f'.sol.fitnessD ∨ (f'.trials = 0 ∧ (limit ≤ f.trials + 2 ∨ limit ≤ 1))

theorem greedyUpdate_forall (new : List (Indiv K)) (src : List (Food K)) :
    List.Forall₂ (fun f f' : Food K => f.sol.fitnessD ≤ f'.sol.fitnessD ∧ (f'.trials = 0 ∨ f'.trials ≤ f.trials + 1)) src (greedyUpdate new src) := by
  induction new generalizing src with
  | nil =>
    have : greedyUpdate ([] : List (Indiv K)) src = src := by cases src <;> rfl
    rw [this]
    exact List.forall₂_same.mpr fun f _ => ⟨le_refl _, Or.inr (Nat.le_succ _)⟩
  | cons c cs ih =>
    cases src with
    | nil => exact .nil
    | cons s ss =>
      rw [greedyUpdate]
      refine .cons ?_ (ih ss)
      split
      · rename_i h; exact ⟨le_of_lt h, Or.inl rfl⟩
      · exact ⟨le_refl _, Or.inr (le_refl _)⟩

theorem forall₂_comp {α β γ : Type} {R : α → β → Prop} {S : β → γ → Prop} {l : List α} {m : List β} {o : List γ} (h : List.Forall₂ R l m)
    (h' : List.Forall₂ S m o) : List.Forall₂ (fun a c => ∃ b, R a b ∧ S b c) l o := by
  induction h generalizing o with
  | nil => cases h'; exact .nil
  | cons h1 _ ih =>
    cases h' with
    | cons h2 h3 => exact .cons ⟨_, h1, h2⟩ (ih h3)

theorem forall₂_zipIdx_left {α β : Type} {R : α → β → Prop} {l : List α} {l' : List β} (k : Nat)
    (h : List.Forall₂ (fun (x : α × Nat) b => R x.1 b) (l.zipIdx k) l') : List.Forall₂ R l l' := by
  induction l generalizing l' k with
  | nil => cases h; exact .nil
  | cons a as ih =>
    rw [List.zipIdx_cons] at h
    cases h with
    | cons h1 h2 => exact .cons h1 (ih (k + 1) h2)

/-- C65, one iteration: whatever the evaluations and draws, the food sources keep their number, and each is at least as fit as before, unless it was given up; it
is given up only when the trials reach the limit, and then the counter is 0. (An iteration tries at most twice; with a limit of at most one, a food source may be
given up right after an improvement.) -/
theorem C65_iteration (sig : K → K) (init : InitOp K) (n limit : Nat) (ev : Eval K) (src src' : List (Food K)) (d : ABCDraw K)
    (h : (abcStep sig init n limit src d).run ev = .ok src') : List.Forall₂ (Food.Next limit) src src' := by
  have hs : (abcStep sig init n limit src d).Sat ev (fun _ => True) fun src' => List.Forall₂ (Food.Next limit) src src' := by
    unfold abcStep
    split
    · trivial
    · refine Prog.Sat.bind' (Prog.Sat.trivial ev _) fun new1 _ => ?_
      refine Prog.Sat.bind' (Prog.Sat.trivial ev _) fun _ _ => ?_
      refine Prog.Sat.bind' (Prog.Sat.trivial ev _) fun new2 _ => ?_
      have h1 := greedyUpdate_forall new1 src
      have h2 := greedyUpdate_forall new2 (greedyUpdate new1 src)
      have h3 : (abcScout init n limit d.scout (greedyUpdate new2 (greedyUpdate new1 src))).Sat ev (fun _ => True) fun o =>
          List.Forall₂ (fun f f' : Food K => (limit ≤ f.trials ∧ f'.trials = 0) ∨ f' = f) (greedyUpdate new2 (greedyUpdate new1 src)) o := by
        unfold abcScout
        refine Prog.Sat.mono (fun _ => forall₂_zipIdx_left 0) _ (Prog.Sat.each (fun _ => True)
          (fun (x : Food K × Nat) (f' : Food K) => (limit ≤ x.1.trials ∧ f'.trials = 0) ∨ f' = x.1) _ _ (fun _ _ => True.intro) ?_)
        intro x _
        split
        · rename_i hl
          exact Prog.Sat.bind (Prog.Sat.trivial ev _) fun σ _ => Or.inl ⟨hl, rfl⟩
        · exact Or.inr rfl
      refine Prog.Sat.mono (fun o ho => ?_) _ h3
      refine (forall₂_comp h1 (forall₂_comp h2 ho)).imp ?_
      rintro f f' ⟨f1, ⟨g1, t1⟩, f2, ⟨g2, t2⟩, h⟩
      rcases h with ⟨hl, h0⟩ | rfl
      · refine Or.inr ⟨h0, ?_⟩
        rcases t1 with t1 | t1 <;> rcases t2 with t2 | t2 <;> omega
      · exact Or.inl (g1.trans g2)
  exact hs.run _ h

/-- Evaluation used in the examples: the fitness is one plus the number of selected rules. -/
def plusEval : Eval ℚ := fun g => .ok ⟨0, g.length, g.count true, 1 + g.count true⟩

/-- Draws of one iteration with flips of the first or all bits. -/
def demoABC (dims : List Nat) : ABCDraw ℚ := ⟨[1, 0], fun _ => .flips dims, [1, 1], fun _ => .bitwise fun i => i == 1, fun _ _ => 1⟩

/-- The view of food sources in the examples. -/
def foodView (l : List (Food ℚ)) : List (List Bool × Nat) := l.map fun f => (f.sol.genome, f.trials)

/-- The first food source improves in the first iteration, the second one not; after two iterations the second one is given up and replaced. -/
example : (((abc (fun x => x) (.random (1 / 2)) 4 [demoABC [0]] 2 [⟨[false, true], none⟩, ⟨[true, true], none⟩]).run plusEval).toOption.map foodView,
    ((abc (fun x => x) (.random (1 / 2)) 4 [demoABC [0], demoABC [0]] 2 [⟨[false, true], none⟩, ⟨[true, true], none⟩]).run plusEval).toOption.map foodView) =
    (some [([true, true], 1), ([true, true], 2)], some [([true, true], 3), ([false, false], 0)]) := by
  decide +kernel

/-! ## C66 -/

section Ranges

variable [IsStrictOrderedRing K]

/-- The ranges of a particle. -/
def Particle.InRange (m : Movement K) (p : Particle K) : Prop :=
  match m with
  | .sigmoid _ _ vMax => (∀ x ∈ p.velocity, -vMax ≤ x ∧ x ≤ vMax) ∧ ∀ x ∈ p.position, 0 ≤ x ∧ x ≤ 1
  | .quantum => ∀ x ∈ p.position, 0 ≤ x ∧ x ≤ 1
  | .binary _ => True

/-- The maximal velocity is not negative. -/
def Movement.Valid (m : Movement K) : Prop :=
  match m with
  | .sigmoid _ _ vMax => 0 ≤ vMax
  | _ => True

/-- What `uniform(-v_max, v_max)` and `random()` may return. -/
def Movement.InitDraws (m : Movement K) (init : Nat → (Nat → K) × (Nat → K)) : Prop :=
  (∀ k i, 0 ≤ (init k).1 i ∧ (init k).1 i ≤ 1) ∧
  match m with
  | .sigmoid _ _ vMax => ∀ k i, -vMax ≤ (init k).2 i ∧ (init k).2 i ≤ vMax
  | _ => True

theorem npClip_mem (lo hi x : K) (h : lo ≤ hi) : lo ≤ npClip lo hi x ∧ npClip lo hi x ≤ hi :=
  ⟨le_min (le_max_right _ _) h, min_le_right _ _⟩

theorem forall₂_mapIdx {α β : Type} {R : α → β → Prop} (l : List α) (f : Nat → α → β) (h : ∀ k (hk : k < l.length), R l[k] (f k l[k])) :
    List.Forall₂ R l (l.mapIdx f) := by
  rw [List.forall₂_iff_get]
  refine ⟨by simp, fun i h1 h2 => ?_⟩
  simpa using h i h1

theorem mem_mapIdx_of {α β : Type} {P : β → Prop} (l : List α) (f : Nat → α → β) (h : ∀ k a, a ∈ l → P (f k a)) : ∀ x ∈ l.mapIdx f, P x := by
  intro x hx
  obtain ⟨k, hk, rfl⟩ := List.mem_mapIdx.mp hx
  exact h k _ (List.getElem_mem hk)

/-- Movements change neither the memory of particles nor leave the ranges. -/
theorem move_rel (m : Movement K) (hm : m.Valid) (sig : K → K) (a : K) (d : PSODraw K) (ps ps' : List (Particle K)) (h : m.move sig a d ps = .ok ps') :
    List.Forall₂ (fun p q : Particle K => q.best = p.best ∧ q.bestPosition = p.bestPosition ∧ q.InRange m) ps ps' := by
  unfold Movement.move at h
  cases m with
  | sigmoid b c v =>
    dsimp only at h
    split at h
    · cases h
    · injection h with h
      rw [← h]
      refine forall₂_mapIdx _ _ fun k hk => ⟨rfl, rfl, ?_, ?_⟩
      · exact mem_mapIdx_of _ _ fun k x _ => npClip_mem _ _ _ (neg_le_self hm)
      · exact mem_mapIdx_of _ _ fun k x _ => npClip_mem _ _ _ zero_le_one
  | quantum =>
    dsimp only at h
    split at h
    · cases h
    · injection h with h
      rw [← h]
      refine forall₂_mapIdx _ _ fun k hk => ⟨rfl, rfl, ?_⟩
      exact mem_mapIdx_of _ _ fun k x _ => npClip_mem _ _ _ zero_le_one
  | binary q =>
    cases ps with
    | nil => cases h
    | cons p0 rest =>
      dsimp only at h
      split at h
      · cases h
      · rename_i atts hatts
        injection h with h
        rw [← h]
        have hl : atts.length = (p0 :: rest).length := by rw [mapM_length _ _ _ hatts, List.length_zipIdx]
        rw [List.forall₂_iff_get]
        refine ⟨by simp at hl; simp [hl], fun i h1 h2 => ?_⟩
        simp [binaryMove, Particle.InRange]

/-- What one iteration does with a particle. -/
def Particle.Next (m : Movement K) (p q : Particle K) : Prop :=
  p.best.fitnessD ≤ q.best.fitnessD ∧ q.sol.fitnessD ≤ q.best.fitnessD ∧ (q.best = p.best ∨ q.best = q.sol) ∧ q.InRange m

theorem psoStep_rel (m : Movement K) (hm : m.Valid) (sig : K → K) (aMax step : K) (ev : Eval K) (s : PSOState K) (d : PSODraw K × Nat) :
    (psoStep m sig aMax step s d).Sat ev (fun _ => True) fun s' => s'.log = s.log ++ [s'.particles] ∧
      List.Forall₂ (Particle.Next m) s.particles s'.particles := by
  unfold psoStep
  refine Prog.Sat.bind' (Prog.Sat.lift fun ps' hps' => move_rel m hm sig _ _ _ ps' hps') fun moved hmoved => ?_
  refine Prog.Sat.bind' (P := fun fitted => List.Forall₂ (fun p q : Particle K => q.best = p.best ∧ (p.InRange m → q.InRange m)) moved fitted) ?_
    fun fitted hf => ?_
  · refine Prog.Sat.each (fun _ => True) _ _ _ (fun _ _ => True.intro) fun p _ => ?_
    refine Prog.Sat.bind (Prog.Sat.trivial ev _) fun σ _ => ⟨rfl, fun h => ?_⟩
    cases m <;> exact h
  · refine Prog.Sat.bind' (P := fun ps' => List.Forall₂ (fun p q : Particle K => p.updateBest = .ok q) fitted ps')
      (Prog.Sat.lift fun ps' hps' => (mapM_ok_iff _ _ _).mp hps') fun ps' hps' => ⟨rfl, ?_⟩
    refine (forall₂_comp hmoved (forall₂_comp hf hps')).imp ?_
    rintro p q ⟨p1, ⟨e1, _, r1⟩, p2, ⟨e2, r2⟩, hu⟩
    obtain ⟨h1, h2, h3, h4⟩ := updateBest_spec p2 q hu
    have hr : q.InRange m := by
      have := r2 r1
      cases m with
      | sigmoid b c v => exact ⟨by rw [h1]; exact this.1, by rw [h2]; exact this.2⟩
      | quantum => change ∀ x ∈ q.position, _; rw [h2]; exact this
      | binary => trivial
    rcases h4 with ⟨hlt, hb, _⟩ | ⟨hle, hb, _⟩
    · refine ⟨?_, ?_, Or.inr (hb.trans h3.symm), hr⟩
      · rw [hb, ← e1, ← e2]; exact le_of_lt hlt
      · rw [hb, h3]
    · refine ⟨?_, ?_, Or.inl (hb.trans (e2.trans e1)), hr⟩
      · rw [hb, e2, e1]
      · rw [hb, h3]; exact hle

/-- The memory of every particle in `b` is at least as good as in `a`. -/
def MemoryLe (a b : List (Particle K)) : Prop := ∀ (k : Nat) (p q : Particle K), a[k]? = some p → b[k]? = some q → p.best.fitnessD ≤ q.best.fitnessD

/-- Invariant of the main loop. -/
structure PSOInv (m : Movement K) (s : PSOState K) : Prop where
  last : s.particles ∈ s.log
  lens : ∀ snap ∈ s.log, snap.length = s.particles.length
  pair : s.log.Pairwise MemoryLe
  now : ∀ snap ∈ s.log, MemoryLe snap s.particles
  each : ∀ snap ∈ s.log, ∀ p ∈ snap, p.sol.fitnessD ≤ p.best.fitnessD ∧ p.InRange m
  attained : ∀ (k : Nat) (q : Particle K), s.particles[k]? = some q → ∃ snap ∈ s.log, ∃ p, snap[k]? = some p ∧ q.best = p.sol

theorem forall₂_get? {α β : Type} {R : α → β → Prop} {l : List α} {l' : List β} (h : List.Forall₂ R l l') (k : Nat) (b : β) (hb : l'[k]? = some b) :
    ∃ a, l[k]? = some a ∧ R a b := by
  induction h generalizing k with
  | nil => simp at hb
  | cons h1 _ ih =>
    cases k with
    | zero => simp at hb; subst hb; exact ⟨_, rfl, h1⟩
    | succ k => rw [List.getElem?_cons_succ] at hb ⊢; exact ih k hb

theorem forall₂_mem_right {α β : Type} {R : α → β → Prop} {l : List α} {l' : List β} (h : List.Forall₂ R l l') : ∀ b ∈ l', ∃ a ∈ l, R a b := by
  induction h with
  | nil => intro b hb; cases hb
  | cons h1 _ ih =>
    intro b hb
    rcases List.mem_cons.mp hb with rfl | hb
    · exact ⟨_, List.mem_cons_self .., h1⟩
    · obtain ⟨a, ha, hR⟩ := ih b hb
      exact ⟨a, List.mem_cons_of_mem _ ha, hR⟩

theorem psoInv_step (m : Movement K) (s s' : PSOState K) (h : PSOInv m s) (hl : s'.log = s.log ++ [s'.particles])
    (hr : List.Forall₂ (Particle.Next m) s.particles s'.particles) : PSOInv m s' := by
  have hnow : ∀ snap ∈ s.log, MemoryLe snap s'.particles := by
    intro snap hs k p q hp hq
    obtain ⟨p', hp', hn⟩ := forall₂_get? hr k q hq
    exact (h.now snap hs k p p' hp hp').trans hn.1
  have hlen := hr.length_eq
  constructor
  · rw [hl]; simp
  · intro snap hs
    rw [hl] at hs
    rcases List.mem_append.mp hs with hs | hs
    · rw [h.lens snap hs, hlen]
    · rw [List.mem_singleton.mp hs]
  · rw [hl, List.pairwise_append]
    refine ⟨h.pair, List.pairwise_singleton _ _, fun a ha b hb => ?_⟩
    rw [List.mem_singleton.mp hb]
    exact hnow a ha
  · intro snap hs
    rw [hl] at hs
    rcases List.mem_append.mp hs with hs | hs
    · exact hnow snap hs
    · rw [List.mem_singleton.mp hs]
      intro k p q hp hq
      rw [hp] at hq
      injection hq with hq
      rw [hq]
  · intro snap hs
    rw [hl] at hs
    rcases List.mem_append.mp hs with hs | hs
    · exact h.each snap hs
    · rw [List.mem_singleton.mp hs]
      intro q hq
      obtain ⟨p, _, hn⟩ := forall₂_mem_right hr q hq
      exact ⟨hn.2.1, hn.2.2.2⟩
  · intro k q hq
    obtain ⟨p, hp, hn⟩ := forall₂_get? hr k q hq
    rw [hl]
    rcases hn.2.2.1 with hb | hb
    · obtain ⟨snap, hs, p', hp', hb'⟩ := h.attained k p hp
      exact ⟨snap, List.mem_append_left _ hs, p', hp', hb.trans hb'⟩
    · exact ⟨s'.particles, by simp, q, hq, hb⟩

theorem pso_inv (m : Movement K) (hm : m.Valid) (sig : K → K) (aMin aMax : K) (init : Nat → (Nat → K) × (Nat → K)) (hinit : m.InitDraws init)
    (draws : List (PSODraw K)) (ev : Eval K) (pop : List (Indiv K)) :
    (pso m sig aMin aMax init draws pop).Sat ev (fun _ => True) fun s => PSOInv m s ∧ s.log.length = draws.length + 1 := by
  unfold pso
  refine Prog.Sat.bind' (Prog.Sat.trivial ev _) fun pop' _ => ?_
  refine Prog.Sat.bind' (P := fun _ => True) (Prog.Sat.lift fun _ _ => trivial) fun step _ => ?_
  refine Prog.Sat.bind' (P := fun ps => ∀ p ∈ ps, p.best = p.sol ∧ p.InRange m) (Prog.Sat.lift fun ps hps p hp => ?_) fun ps hps => ?_
  · obtain ⟨x, hx, he⟩ := mem_of_mapM_ok _ _ _ hps p hp
    unfold Movement.initParticle at he
    cases hc : x.1.clone with
    | error e => rw [hc] at he; cases he
    | ok b =>
      rw [hc] at he
      have hpos : ∀ y ∈ x.1.genome.mapIdx fun i b => (bitVal b + (init x.2).1 i) / 2, (0 : K) ≤ y ∧ y ≤ 1 := by
        refine mem_mapIdx_of _ _ fun k b _ => ?_
        obtain ⟨h0, h1⟩ := hinit.1 x.2 k
        have hb : (0 : K) ≤ bitVal b ∧ (bitVal b : K) ≤ 1 := by
          unfold bitVal
          split
          · exact ⟨zero_le_one, le_refl _⟩
          · exact ⟨le_refl _, zero_le_one⟩
        refine ⟨div_nonneg (add_nonneg hb.1 h0) zero_le_two, ?_⟩
        rw [div_le_one zero_lt_two, ← one_add_one_eq_two]
        exact add_le_add hb.2 h1
      cases m with
      | sigmoid b c v =>
        injection he with he
        rw [← he]
        exact ⟨clone_eq hc, mem_mapIdx_of _ _ fun k b _ => hinit.2 x.2 k, hpos⟩
      | quantum =>
        injection he with he
        rw [← he]
        exact ⟨clone_eq hc, hpos⟩
      | binary q =>
        injection he with he
        rw [← he]
        exact ⟨clone_eq hc, True.intro⟩
  · have hf := Prog.Sat.forEach (ev := ev) (n := fun _ => True) (fun (l : List (PSODraw K × Nat)) (s : PSOState K) => PSOInv m s ∧
      s.log.length + l.length = draws.length + 1) (psoStep m sig aMax step) draws.zipIdx ⟨ps, [ps]⟩ ⟨⟨?_, ?_, ?_, ?_, ?_, ?_⟩, ?_⟩ ?_
    · exact hf
    · simp
    · intro snap hs; rw [List.mem_singleton.mp hs]
    · exact List.pairwise_singleton _ _
    · intro snap hs k p q hp hq
      rw [List.mem_singleton.mp hs] at hp
      rw [show (⟨ps, [ps]⟩ : PSOState K).particles = ps from rfl, hp] at hq
      injection hq with hq
      rw [hq]
    · intro snap hs p hp
      rw [List.mem_singleton.mp hs] at hp
      exact ⟨by rw [(hps p hp).1], (hps p hp).2⟩
    · intro k q hq
      exact ⟨ps, by simp, q, hq, (hps q (List.mem_of_getElem? hq)).1⟩
    · simp [Nat.add_comm]
    · intro d rest s ⟨hI, hlen⟩
      refine Prog.Sat.mono (fun s' hs' => ⟨psoInv_step m s s' hI hs'.1 hs'.2, ?_⟩) _ (psoStep_rel m hm sig aMax step ev s d)
      rw [hs'.1, List.length_append]
      simp only [List.length_cons, List.length_nil] at hlen ⊢
      omega

/-- C66 (memory), for every movement and every run that ends without an exception: the record has one entry for the start and one for each iteration, always
with the same number of particles; what a particle remembers is never worse than before, and never worse than the current solution of that particle; in the end, it is a
solution the particle had at the start or after some iteration. -/
theorem C66_memory (m : Movement K) (hm : m.Valid) (sig : K → K) (aMin aMax : K) (init : Nat → (Nat → K) × (Nat → K)) (hinit : m.InitDraws init)
    (draws : List (PSODraw K)) (ev : Eval K) (pop : List (Indiv K)) (s : PSOState K) (h : (pso m sig aMin aMax init draws pop).run ev = .ok s) :
    s.log.length = draws.length + 1 ∧ (∀ snap ∈ s.log, snap.length = s.particles.length) ∧
    (∀ (i j : Nat) (a b : List (Particle K)) (k : Nat) (p q : Particle K), i ≤ j → s.log[i]? = some a → s.log[j]? = some b → a[k]? = some p →
      b[k]? = some q → p.best.fitnessD ≤ q.best.fitnessD ∧ p.sol.fitnessD ≤ q.best.fitnessD) ∧
    ∀ (k : Nat) (q : Particle K), s.particles[k]? = some q → ∃ snap ∈ s.log, ∃ p, snap[k]? = some p ∧ q.best = p.sol := by
  obtain ⟨hI, hl⟩ := (pso_inv m hm sig aMin aMax init hinit draws ev pop).run s h
  refine ⟨hl, hI.lens, ?_, hI.attained⟩
  intro i j a b k p q hij ha hb hp hq
  have hpq : p.best.fitnessD ≤ q.best.fitnessD := by
    rcases Nat.lt_or_eq_of_le hij with hlt | rfl
    · obtain ⟨hi, rfl⟩ := List.getElem?_eq_some_iff.mp ha
      obtain ⟨hj, rfl⟩ := List.getElem?_eq_some_iff.mp hb
      exact List.pairwise_iff_getElem.mp hI.pair i j hi hj hlt k p q hp hq
    · rw [ha] at hb
      injection hb with hb
      rw [hb, hq] at hp
      injection hp with hp
      rw [hp]
  exact ⟨hpq, ((hI.each a (List.mem_of_getElem? ha) p (List.mem_of_getElem? hp)).1).trans hpq⟩

/-- C66 (ranges): with a non-negative maximal velocity, the velocities of sigmoid particles are always in [-v_max, v_max], and the positions of sigmoid and quantum
particles in [0, 1]. -/
theorem C66_ranges (m : Movement K) (hm : m.Valid) (sig : K → K) (aMin aMax : K) (init : Nat → (Nat → K) × (Nat → K)) (hinit : m.InitDraws init)
    (draws : List (PSODraw K)) (ev : Eval K) (pop : List (Indiv K)) (s : PSOState K) (h : (pso m sig aMin aMax init draws pop).run ev = .ok s) :
    ∀ snap ∈ s.log, ∀ p ∈ snap, p.InRange m :=
  fun snap hs p hp => (((pso_inv m hm sig aMin aMax init hinit draws ev pop).run s h).1.each snap hs p hp).2

end Ranges

/-- Draws of the examples. -/
def demoMove (u : ℚ) : PSODraw ℚ := ⟨fun _ => true, fun _ => ⟨fun _ => 1, fun _ => 1 / 2, fun _ => u, fun _ => 1, true, [0, 1], 0, [1]⟩⟩

/-- A view of a run in the examples. -/
def psoView {α : Type} (f : Particle ℚ → α) (m : Movement ℚ) (draws : List (PSODraw ℚ)) : Option (List (List α)) :=
  ((pso m (fun x => x) 0 1 (fun _ => (fun _ => 1 / 2, fun _ => -1)) draws [⟨[false, true], none⟩, ⟨[true, true], none⟩]).run plusEval).toOption.map fun s =>
    s.log.map fun ps => ps.map f

/-- A run of sigmoid particles that meets the hypotheses: the second particle gets worse and remembers its best solution. -/
example : psoView (fun p => (p.sol.genome, p.best.genome)) (.sigmoid 1 1 1) [demoMove (9 / 10), demoMove 0] = some
    [[([false, true], [false, true]), ([true, true], [true, true])], [([false, false], [false, true]), ([false, false], [true, true])],
     [([true, true], [true, true]), ([true, true], [true, true])]] := by
  decide +kernel

example : psoView (fun p => (p.position, p.velocity)) (.sigmoid 1 1 1) [demoMove (9 / 10), demoMove 0] = some
    [[([1 / 4, 3 / 4], [-1, -1]), ([3 / 4, 3 / 4], [-1, -1])], [([0, 0], [-3 / 4, -1]), ([0, 0], [-1, -1])],
     [([0, 1 / 4], [-1 / 8, 1 / 4]), ([1 / 4, 1 / 4], [1 / 4, 1 / 4])]] := by
  decide +kernel

example : (Movement.sigmoid 1 1 (1 : ℚ)).Valid ∧ (Movement.sigmoid 1 1 (1 : ℚ)).InitDraws (fun _ => (fun _ => 1 / 2, fun _ => -1)) :=
  ⟨zero_le_one, fun _ _ => ⟨by norm_num, by norm_num⟩, fun _ _ => ⟨by norm_num, by norm_num⟩⟩

/-! ## C67 -/

/-- The majority vote: a bit is set exactly when at least half of the genomes have it. -/
def majority (gs : List (List Bool)) (i : Nat) : Prop := gs.length ≤ 2 * gs.countP fun g => g.getD i false

/-- C67 is false: with three particles and one rule, a rule selected by one of three particles is in the mean; with two particles and six rules, rules that are
selected by all particles are not. -/
theorem C67_refuted : (¬ majority [[true], [false], [false]] 0 ∧ ∀ ties, binaryMean ties [[true], [false], [false]] 1 = [true]) ∧
    (majority [List.replicate 6 true, List.replicate 6 true] 0 ∧
      ∀ ties, binaryMean ties [List.replicate 6 true, List.replicate 6 true] 6 = List.replicate 6 false) := by
  refine ⟨⟨?_, fun ties => ?_⟩, ?_, fun ties => ?_⟩
  · unfold majority; decide
  · rfl
  · unfold majority; decide
  · rfl

/-- What C67 leaves: a bit of the mean is set exactly when more than half as many particles as there are rules (rounded down) select it; at equality it is drawn. -/
theorem C67_threshold_partial (ties : Nat → Bool) (gs : List (List Bool)) (n i : Nat) (hi : i < n) :
    (binaryMean ties gs n)[i]? = some true ↔ n / 2 < (gs.countP fun g => g.getD i false) ∨
      ((gs.countP fun g => g.getD i false) = n / 2 ∧ ties i = true) := by
  unfold binaryMean
  rw [List.getElem?_map, List.getElem?_range hi]
  simp only [Option.map_some, Option.some.injEq]
  split
  · rename_i h
    constructor
    · exact fun ht => Or.inr ⟨h, ht⟩
    · rintro (hlt | ht)
      · omega
      · exact ht.2
  · rename_i h
    rw [decide_eq_true_eq]
    omega

/-- C67 holds for as many particles as rules, if the number is even and the vote is not tied. -/
theorem C67_square_partial (ties : Nat → Bool) (gs : List (List Bool)) (i : Nat) (hi : i < gs.length) (he : gs.length % 2 = 0)
    (ht : 2 * (gs.countP fun g => g.getD i false) ≠ gs.length) : (binaryMean ties gs gs.length)[i]? = some true ↔ majority gs i := by
  rw [C67_threshold_partial ties gs gs.length i hi]
  unfold majority
  omega

example : binaryMean (fun _ => false) [[true, false], [true, false]] 2 = [true, false] := by decide

/-! ## Leaders of the grey wolves -/

/-- C75 for one wolf: with the crossover update, a rule selected by all leaders is selected by the moved wolf, whatever the sigmoid function, the draws
(the choices are below the number of leaders) and `a`. -/
theorem C75_wolf [IsStrictOrderedRing K] (sig : K → K) (a : K) (leaders : List (Indiv K)) (d : WolfDraw K) (σ τ : Indiv K) (i : Nat) (hi : i < σ.genome.length)
    (hd : d.pick i < leaders.length) (hl : ∀ l ∈ leaders, l.genome[i]? = some true) (h : wolfMove .crossover sig a leaders d σ = .ok τ) :
    τ.genome[i]? = some true := by
  unfold wolfMove at h
  split at h
  · cases h
  · injection h with h
    rw [← h]
    have hlead := hl _ (List.getElem_mem hd)
    simp only [Indiv.withGenome, List.getElem?_mapIdx, List.getElem?_eq_getElem hi, Option.map_some, Option.some.injEq]
    rw [List.getD_eq_getElem?_getD, List.getElem?_mapIdx, List.getElem?_eq_getElem hd]
    simp only [Option.map_some, Option.getD_some]
    rw [List.getD_eq_getElem?_getD, hlead]
    simp only [Option.getD_some, wolfBinaryX, decide_eq_true_eq]
    have hb : ∀ b : Bool, (0 : K) ≤ bitVal b := fun b => by cases b <;> simp [bitVal]
    exact le_add_of_nonneg_right (hb _)

/-- Every solution selects rule `i`. -/
def AllSelect (i : Nat) (pop : List (Indiv K)) : Prop := ∀ σ ∈ pop, σ.genome[i]? = some true

theorem gwoStep_select [IsStrictOrderedRing K] (sig : K → K) (nLeaders : Nat) (step : K) (ev : Eval K) (n i : Nat) (hi : i < n) (pop : List (Indiv K))
    (d : (Nat → WolfDraw K) × Nat) (h : AllLen n pop) (hd : ∀ k, (d.1 k).pick i < min nLeaders pop.length)
    (hl : AllSelect i ((sortedDesc Indiv.fitnessD pop).take nLeaders)) :
    (gwoStep .crossover sig nLeaders step pop d).Sat ev (HasLen n) fun pop' => AllLen n pop' ∧ pop'.length = pop.length ∧ AllSelect i pop' := by
  unfold gwoStep
  refine Prog.Sat.bind' (P := fun new => AllLen n new ∧ new.length = pop.length ∧ AllSelect i new) (Prog.Sat.lift fun new hnew => ⟨?_, ?_, ?_⟩) fun new hnew =>
    Prog.Sat.mono (fun pop' h' => ⟨fun σ hσ => (h'.2 σ hσ).1, ?_, ?_⟩) _ (evaluateAll_sat ev n _ hnew.1)
  · intro τ hτ
    obtain ⟨x, hx, he⟩ := mem_of_mapM_ok _ _ _ hnew τ hτ
    rw [wolfMove_len _ _ _ _ _ _ _ he]
    exact h _ (mem_of_mem_zipIdx hx)
  · rw [mapM_length _ _ _ hnew, List.length_zipIdx]
  · intro τ hτ
    obtain ⟨x, hx, he⟩ := mem_of_mapM_ok _ _ _ hnew τ hτ
    refine C75_wolf sig _ _ _ x.1 τ i (by rw [h _ (mem_of_mem_zipIdx hx)]; exact hi) ?_ hl he
    rw [List.length_take, (sortedDesc_perm Indiv.fitnessD pop).length_eq]
    exact hd x.2
  · rw [← hnew.2.1, ← List.length_map (f := Indiv.genome), h'.1, List.length_map]
  · intro σ hσ
    have : σ.genome ∈ new.map Indiv.genome := h'.1 ▸ List.mem_map_of_mem hσ
    obtain ⟨τ, hτ, he⟩ := List.mem_map.mp this
    rw [← he]
    exact hnew.2.2 τ hτ

/-- C75: with the crossover update, a rule that all leaders of the (evaluated) initial population select is selected by every solution of the final population,
for any number of iterations and all draws (a leader is picked among the existing ones). -/
theorem C75_run [IsStrictOrderedRing K] (sig : K → K) (nLeaders n i : Nat) (hi : i < n) (ev : Eval K) (draws : List (Nat → WolfDraw K))
    (pop start final : List (Indiv K)) (h : AllLen n pop) (hd : ∀ d ∈ draws, ∀ k, (d k).pick i < min nLeaders pop.length)
    (hs : (evaluateAll pop).run ev = .ok start) (hl : AllSelect i ((sortedDesc Indiv.fitnessD start).take nLeaders))
    (hf : (gwo .crossover sig nLeaders draws pop).run ev = .ok final) : AllSelect i final := by
  have hst := (evaluateAll_sat ev n pop h).run _ hs
  have hlen : start.length = pop.length := by rw [← List.length_map (f := Indiv.genome), hst.1, List.length_map]
  unfold gwo at hf
  rw [Prog.run_bind_ok hs] at hf
  cases hdr : draws with
  | nil => rw [hdr] at hf; cases hf
  | cons d0 rest =>
    rw [if_neg (show ¬ draws.length = 0 by rw [hdr]; exact Nat.succ_ne_zero _)] at hf
    have hf' : (Prog.forEach (gwoStep .crossover sig nLeaders (2 / (draws.length : K))) draws.zipIdx start).run ev = .ok final := hf
    have hsat := Prog.Sat.forEach (ev := ev) (n := HasLen n) (fun (l : List ((Nat → WolfDraw K) × Nat)) (s : List (Indiv K)) => (∀ d ∈ l, d ∈ draws.zipIdx) ∧
        AllLen n s ∧ s.length = pop.length ∧ AllSelect i ((sortedDesc Indiv.fitnessD s).take nLeaders) ∧ (l.length < draws.length → AllSelect i s))
      (gwoStep .crossover sig nLeaders (2 / (draws.length : K))) draws.zipIdx start
      ⟨fun d hd => hd, fun σ hσ => (hst.2 σ hσ).1, hlen, hl, fun hlt => absurd hlt (by rw [List.length_zipIdx]; exact lt_irrefl _)⟩ ?_
    · exact (hsat.run final hf').2.2.2.2 (by rw [hdr]; simp)
    · intro d l s hI
      refine Prog.Sat.mono (fun pop' h' => ⟨fun d' hd' => hI.1 d' (List.mem_cons_of_mem _ hd'), h'.1, h'.2.1.trans hI.2.2.1, fun σ hσ => ?_, fun _ => h'.2.2⟩) _
        (gwoStep_select sig nLeaders _ ev n i hi s d hI.2.1 (fun k => ?_) hI.2.2.2.1)
      · rw [hI.2.2.1]
        exact hd d.1 (mem_of_mem_zipIdx (hI.1 d (List.mem_cons_self ..))) k
      · exact h'.2.2 σ ((sortedDesc_perm Indiv.fitnessD pop').subset (List.mem_of_mem_take hσ))

/-- Draws for the grey wolves; the only leader is picked. -/
def demoWolf (r : ℚ) : Nat → WolfDraw ℚ := fun _ => ⟨fun _ _ => r, fun _ _ => r, fun _ _ => 1 / 2, fun _ _ => 9 / 10, fun _ => 0, fun _ => 0⟩

/-- The hypotheses hold for two wolves and two iterations: the leader selects the second rule, and so do both wolves at the end. -/
example : ((evaluateAll [⟨[false, false], none⟩, ⟨[false, true], none⟩]).run plusEval).toOption.map
      (fun s => ((sortedDesc Indiv.fitnessD s).take 1).map Indiv.genome) = some [[false, true]] ∧
    ((gwo .crossover (fun x => x / 2) 1 [demoWolf (1 / 2), demoWolf 0] [⟨[false, false], none⟩, ⟨[false, true], none⟩]).run plusEval).toOption.map
      (fun s => s.map Indiv.genome) = some [[false, true], [false, true]] := by
  decide +kernel

/-! ## C73 -/

/-- C73 for the bee colony. -/
theorem C73_abc (sig : K → K) (init : InitOp K) (limit : Nat) (draws : List (ABCDraw K)) :
    (Prog.strategy fun n pop => (abc sig init limit draws n pop).bind fun s => .ret (s.map Food.sol)).Good :=
  strategy_good _ fun n ev pop h => Prog.Sat.bind (abc_sat sig init limit draws n ev pop h) fun s hs σ hσ => by
    obtain ⟨f, hf, rfl⟩ := List.mem_map.mp hσ
    exact hs f hf

/-- C73 for the particle swarm with any of the three movements. -/
theorem C73_pso (m : Movement K) (sig : K → K) (aMin aMax : K) (init : Nat → (Nat → K) × (Nat → K)) (draws : List (PSODraw K)) :
    (Prog.strategy fun _ pop => (pso m sig aMin aMax init draws pop).bind fun s => .ret (s.particles.map Particle.sol)).Good :=
  strategy_good _ fun n ev pop h => Prog.Sat.bind (pso_sat m sig aMin aMax init draws n ev pop h) fun s hs σ hσ => by
    obtain ⟨p, hp, rfl⟩ := List.mem_map.mp hσ
    exact (hs p hp).1

/-- C73 for the grey wolves. -/
theorem C73_gwo (upd : WolfUpdate) (sig : K → K) (nLeaders : Nat) (draws : List (Nat → WolfDraw K)) :
    (Prog.strategy fun _ pop => gwo upd sig nLeaders draws pop).Good :=
  strategy_good _ fun n ev pop h => gwo_sat upd sig nLeaders draws n ev pop h

/-- C73 for the random search. -/
theorem C73_rs (init : InitOp K) (populationSize nIter : Nat) (draw : Nat → Nat → Nat → K) :
    (Prog.strategy fun n pop => rs init populationSize nIter draw n pop).Good :=
  strategy_good _ fun n ev pop h => rs_sat init populationSize nIter draw n ev pop h

end Suprb
