import Verif.Model.MixState
import Verif.Props.Selection

/-!
# C126: looking at solutions does not influence training
-/

set_option autoImplicit false
set_option linter.unusedSectionVars false

namespace Suprb

open Spec

variable {K : Type} [Field K] [LinearOrder K] [IsStrictOrderedRing K] {d : Nat} {M : Type} {S : Type}

/-- The generator selects, in every state, positions numpy can select: without replacement, and none of weight 0. -/
def Gen.Valid (G : Gen K S) : Prop :=
  ∀ s n p size, size ≤ n → (∀ q, p = some q → q.length = n ∧ size ≤ (q.filter fun w => decide (w ≠ 0)).length) → ChoiceOk n p false size (G.choice s n p size).1

/-- Only the evaluations. -/
def evaluationsOnly (evs : List (MixEvent K d M)) : List (MixEvent K d M) :=
  evs.filter fun e => match e with | .evaluate _ => true | .look _ _ => false

/-- C126 (partial): with the filters that do not draw (all rules, best rules), leaving out every look at predictions changes no evaluation. Missing: the random
filters with more selected rules than they keep, see `C126_refuted`. -/
theorem C126_deterministic_partial (L : Learner K d M) (P : MixParams K) (G : Gen K S) (k : FilterKind) (hk : k = .all ∨ ∃ n, k = .nBest n)
    (sf : SolFitness K) (X : List (Point K d)) (y : List K) (s : S) (evs : List (MixEvent K d M)) :
    runEvents L P G k sf X y s evs = runEvents L P G k sf X y s (evaluationsOnly evs) := by
  have hafter : ∀ (s : S) (σ : Solution K d M), k.after G s σ = s := by
    intro s σ
    unfold FilterKind.after
    cases σ.subpopulation with
    | error e => rfl
    | ok sub =>
      dsimp only
      rcases hk with rfl | ⟨n, rfl⟩ <;> split_ifs <;> rfl
  unfold evaluationsOnly
  induction evs generalizing s with
  | nil => rfl
  | cons e evs ih =>
    cases e with
    | evaluate σ =>
      rw [List.filter_cons_of_pos (by rfl)]
      simp only [runEvents]
      rw [ih]
    | look σ Z =>
      rw [List.filter_cons_of_neg (by simp)]
      simp only [runEvents, Solution.predictS]
      rw [hafter, ih]

theorem npChoice_mem {α : Type} (a : List α) (p : Option (List K)) (replace : Bool) (size : Nat) (idx : List Nat) (out : List α)
    (h : npChoice a p replace size idx = .ok out) : ∀ x ∈ out, x ∈ a := by
  have hmem : ∀ x ∈ idx.filterMap fun i => a[i]?, x ∈ a := by
    intro x hx
    obtain ⟨i, _, hi⟩ := List.mem_filterMap.mp hx
    exact List.mem_of_getElem? hi
  cases p with
  | none =>
    simp only [npChoice] at h
    split_ifs at h
    cases h
    exact hmem
  | some q =>
    simp only [npChoice] at h
    split_ifs at h
    cases h
    exact hmem

theorem FilterKind.call_mem (G : Gen K S) (k : FilterKind) (s : S) (sub out : List (Rule K d M)) (h : (k.call G s sub).1 = .ok out) : ∀ ρ ∈ out, ρ ∈ sub := by
  have hr : ∀ (n : Nat) (idx : List Nat), filterRoulette n idx sub = .ok out → ∀ ρ ∈ out, ρ ∈ sub := by
    intro n idx h
    unfold filterRoulette at h
    split_ifs at h
    split at h
    · cases h
    · exact npChoice_mem sub _ _ _ _ _ h
  cases k with
  | all => cases h; exact fun ρ h => h
  | nBest n =>
    simp only [FilterKind.call, nBestFitness] at h
    split_ifs at h
    cases h
    intro ρ hρ
    have h1 : ρ ∈ sortedAsc (fun ρ : Rule K d M => (ρ.st.map RuleState.fitness).getD ⊥) sub := by
      unfold lastSlice at hρ
      split_ifs at hρ
      · exact hρ
      · exact List.mem_of_mem_drop hρ
    exact (sortedAsc_perm _ sub).subset h1
  | nRandom n => exact npChoice_mem (K := K) sub none false _ _ _ h
  | roulette n =>
    simp only [FilterKind.call] at h
    cases hw : filterWeights sub with
    | none => rw [hw] at h; exact hr _ _ h
    | some p => rw [hw] at h; exact hr _ _ h

/-- A solution whose evaluation does not depend on the state of the generator: its rules were fitted on the training data and match some of it, and it selects at most as many
rules as the filter keeps (for the roulette wheel: and its rules have positive fitness). -/
def Solution.Small (L : Learner K d M) (ff : RuleFitness K d) (X : List (Point K d)) (y : List K) (k : FilterKind) (σ : Solution K d M) : Prop :=
  σ.genome.length = σ.pool.length ∧ (∀ ρ ∈ σ.pool, ρ.FittedOn L ff X y ∧ ∃ x ∈ X, ρ.kind.call ρ.bounds x = true) ∧
    match k with
    | .all => True
    | .nBest _ => True
    | .nRandom n => (compress σ.pool σ.genome).length ≤ n
    | .roulette n => (compress σ.pool σ.genome).length ≤ n ∧ ∀ ρ ∈ σ.pool, ∃ f, ρ.HasFitness f ∧ 0 < f

theorem fittedOn_usable (L : Learner K d M) (ff : RuleFitness K d) (X : List (Point K d)) (y : List K) (hxy : y.length = X.length) (ρ : Rule K d M)
    (h : ρ.FittedOn L ff X y) (hm : ∃ x ∈ X, ρ.kind.call ρ.bounds x = true) : ρ.Usable := by
  obtain ⟨ρ0, k, h0, _, he⟩ := h
  rw [fits_replicate L ff X y hxy ρ0 h0 k] at he
  obtain ⟨ρ', e', _, hcon⟩ := fit_consistent L ff X X y hxy rfl ρ0 (Or.inl h0)
  rw [he] at e'; cases e'
  exact usable_of_fitted ρ X hcon hm

theorem fitS_small (L : Learner K d M) (ff : RuleFitness K d) (P : MixParams K) (G : Gen K S) (hG : G.Valid) (k : FilterKind) (sf : SolFitness K)
    (X : List (Point K d)) (y : List K) (hxy : y.length = X.length) (σ : Solution K d M) (h : σ.Small L ff X y k) (s s' : S) :
    (σ.fitS L P G k sf X y s).1 = (σ.fitS L P G k sf X y s').1 := by
  obtain ⟨hlen, hp, hk⟩ := h
  have hus : ∀ ρ ∈ σ.pool, ρ.Usable := fun ρ hρ => fittedOn_usable L ff X y hxy ρ (hp ρ hρ).1 (hp ρ hρ).2
  have hcache := fun s => C20_cached_eq_uncached_partial L ff P X y hxy (fun sub => (k.call G s sub).1) (fun sub sub' h => FilterKind.call_mem G k s sub sub' h) σ hp
  have hpred : ∀ s s', σ.predict L P (fun sub => (k.call G s sub).1) false X = σ.predict L P (fun sub => (k.call G s' sub).1) false X := by
    cases k with
    | all => intro s s'; rfl
    | nBest n => intro s s'; rfl
    | nRandom n =>
      have : ∀ s, σ.predict L P (fun sub => (FilterKind.call G (.nRandom n) s sub).1) false X = σ.predict L P filterAll false X := by
        intro s
        obtain ⟨out, h1, h2⟩ := predict_neutral L P (fun sub => (FilterKind.call G (.nRandom n) s sub).1) σ hlen hus (fun hne => by
          obtain ⟨used, g1, g2, g3⟩ := nRandom_members n (compress σ.pool σ.genome) hne _ (hG s _ none _ (Nat.min_le_left _ _) (fun q hq => by cases hq))
          exact ⟨used, g1, g3.perm_of_length_le (by rw [g2]; exact le_of_eq (Nat.min_eq_left hk).symm)⟩) X
        rw [h1, h2]
      intro s s'; rw [this, this]
    | roulette n =>
      obtain ⟨hk1, hk2⟩ := hk
      choose! fits hfits using hk2
      have : ∀ s, σ.predict L P (fun sub => (FilterKind.call G (.roulette n) s sub).1) false X = σ.predict L P filterAll false X := by
        intro s
        obtain ⟨out, h1, h2⟩ := predict_neutral L P (fun sub => (FilterKind.call G (.roulette n) s sub).1) σ hlen hus (fun hne => by
          have hf : ∀ ρ ∈ compress σ.pool σ.genome, ρ.HasFitness (fits ρ) ∧ 0 < fits ρ := fun ρ h => hfits ρ (mem_of_mem_compress h)
          obtain ⟨e1, e2, e3⟩ := roulette_fitness _ fits fun ρ h => (hf ρ h).1
          generalize hsub : compress σ.pool σ.genome = sub at *
          have hpos : ∀ f ∈ sub.map fits, 0 < f := by
            intro f h
            obtain ⟨ρ, hρ, rfl⟩ := List.mem_map.mp h
            exact (hf ρ hρ).2
          obtain ⟨ρ0, rest, rfl⟩ := List.exists_cons_of_ne_nil hne
          obtain ⟨hs, hpq, _, _⟩ := rouletteP_spec ((ρ0 :: rest).map fits) (fun f h => (hpos f h).le)
            ⟨fits ρ0, List.mem_map_of_mem (List.mem_cons_self ..), hpos _ (List.mem_map_of_mem (List.mem_cons_self ..))⟩
          have hw : filterWeights (ρ0 :: rest) = some (((ρ0 :: rest).map fits).map (· / ((ρ0 :: rest).map fits).sum)) := by
            unfold filterWeights
            rw [if_pos e1, e2, if_neg (by simp), e3, hpq]
          have hnz : ∀ q ∈ ((ρ0 :: rest).map fits).map (· / ((ρ0 :: rest).map fits).sum), q ≠ 0 := by
            intro q hq
            obtain ⟨f, h, rfl⟩ := List.mem_map.mp hq
            exact (div_pos (hpos f h) hs).ne'
          obtain ⟨c1, c2, c3⟩ := hG s (ρ0 :: rest).length (some (((ρ0 :: rest).map fits).map (· / ((ρ0 :: rest).map fits).sum))) (min (ρ0 :: rest).length n) (Nat.min_le_left _ _)
            (fun q hq => by
              cases hq
              refine ⟨by simp, ?_⟩
              rw [List.filter_eq_self.mpr fun q h => by simpa using hnz q h]
              simp)
          obtain ⟨used, g1, g2, g3⟩ := roulette_members n (ρ0 :: rest) hne fits hf _ ⟨c1, fun i hi => ⟨(c2 i hi).1, fun q hq => by cases hq⟩, c3⟩
          refine ⟨used, ?_, g3.perm_of_length_le (by rw [g2]; exact le_of_eq (Nat.min_eq_left hk1).symm)⟩
          simp only [FilterKind.call]
          rw [hw]
          exact g1) X
        rw [h1, h2]
      intro s s'; rw [this, this]
  unfold Solution.fitS Solution.fit
  dsimp only
  rw [hcache s, hcache s', hpred s s']

/-- C126 (partial): with any filter and any generator, if every evaluated solution selects at most as many rules as the filter keeps, leaving out every look at predictions
changes no evaluation. -/
theorem C126_small_partial (L : Learner K d M) (ff : RuleFitness K d) (P : MixParams K) (G : Gen K S) (hG : G.Valid) (k : FilterKind) (sf : SolFitness K)
    (X : List (Point K d)) (y : List K) (hxy : y.length = X.length) (s : S) (evs : List (MixEvent K d M))
    (h : ∀ σ, MixEvent.evaluate σ ∈ evs → σ.Small L ff X y k) :
    runEvents L P G k sf X y s evs = runEvents L P G k sf X y s (evaluationsOnly evs) := by
  suffices ∀ s', runEvents L P G k sf X y s evs = runEvents L P G k sf X y s' (evaluationsOnly evs) from this s
  unfold evaluationsOnly
  induction evs generalizing s with
  | nil => intro s'; rfl
  | cons e evs ih =>
    have ih' := fun s => ih s fun σ hσ => h σ (List.mem_cons_of_mem _ hσ)
    intro s'
    cases e with
    | evaluate σ =>
      rw [List.filter_cons_of_pos (by rfl)]
      simp only [runEvents]
      rw [fitS_small L ff P G hG k sf X y hxy σ (h σ (List.mem_cons_self ..)) s s', ih']
    | look σ Z =>
      rw [List.filter_cons_of_neg (by simp)]
      simp only [runEvents]
      exact ih' _ s'

/-- Valid generators exist: the first positions of positive weight. -/
example : (⟨fun _ n p size => (((List.range n).filter fun i => match p with | none => true | some q => decide (q.getD i 0 ≠ 0)).take size, ())⟩ : Gen K Unit).Valid := by
  intro s n p size hs hp
  refine ⟨?_, fun i hi => ?_, fun _ => List.Nodup.sublist (List.take_sublist ..) (List.nodup_range.filter _)⟩
  · dsimp only
    rw [List.length_take]
    refine Nat.min_eq_left ?_
    cases p with
    | none => simpa using hs
    | some q =>
      obtain ⟨h1, h2⟩ := hp q rfl
      have hq : q = (List.range n).map fun i => q.getD i 0 := by
        apply List.ext_getElem (by simp [h1])
        intro i h3 h4
        simp [List.getD_eq_getElem?_getD, List.getElem?_eq_getElem h3]
      rw [hq, List.filter_map, List.length_map] at h2
      refine le_trans h2 (le_of_eq (congrArg List.length (List.filter_congr fun i _ => ?_)))
      simp only [Function.comp]
  · have hi' := List.mem_of_mem_take hi
    obtain ⟨a, b⟩ := List.mem_filter.mp hi'
    refine ⟨by simpa using a, ?_⟩
    rintro q rfl
    simpa using b

/-- A generator that selects the first and the last positions in turn. -/
def turnGen : Gen ℚ Bool := ⟨fun s n _ size => (if s then ((List.range n).reverse.take size) else (List.range n).take size, !s)⟩

theorem turnGen_uniform (s : Bool) (n size : Nat) (h : size ≤ n) : ChoiceOk (K := ℚ) n none false size (turnGen.choice s n none size).1 := by
  cases s
  · refine ⟨by simp [turnGen, h], fun i hi => ⟨?_, fun q hq => by cases hq⟩, fun _ => ?_⟩
    · simpa using List.mem_of_mem_take hi
    · exact List.Nodup.sublist (List.take_sublist ..) List.nodup_range
  · refine ⟨by simp [turnGen, h], fun i hi => ⟨?_, fun q hq => by cases hq⟩, fun _ => ?_⟩
    · simpa using List.mem_of_mem_take hi
    · exact List.Nodup.sublist (List.take_sublist ..) (List.nodup_reverse.mpr List.nodup_range)

/-- The rules `[0, 1/2]` and `[1/2, 1]`, fitted on the samples 0 and 1 with targets 1 and 3. -/
def lowRule : Rule ℚ 1 ℚ :=
  { intervalRule 0 (1/2) with model := some 1, st := some ⟨true, ((1/10000 : ℚ) : WithTop ℚ), ((-1/10000 : ℚ) : WithBot ℚ), 1, [1], [true, false]⟩ }

/-- See `lowRule`. -/
def highRule : Rule ℚ 1 ℚ :=
  { intervalRule (1/2) 1 with model := some 3, st := some ⟨true, ((1/10000 : ℚ) : WithTop ℚ), ((-1/10000 : ℚ) : WithBot ℚ), 1, [3], [false, true]⟩ }

/-- C126 (refuted): with a mixing model that keeps one random rule, evaluating a solution of two rules gives the error `9/2`; after one prediction (as the default logger makes in every iteration to
log the training score) the same evaluation gives `1/2`. -/
theorem C126_refuted : ∃ (σ σ₁ σ₂ : Solution ℚ 1 ℚ) (s₁ s₂ : SolState ℚ),
    (∀ ρ ∈ σ.pool, ρ.FittedOn meanLearner negErr [![0], ![1]] [1, 3]) ∧
    runEvents meanLearner ⟨.plain, 1⟩ turnGen (.nRandom 1) (fun e _ _ => -e) [![0], ![1]] [1, 3] false [.evaluate σ] = [.ok σ₁] ∧
    runEvents meanLearner ⟨.plain, 1⟩ turnGen (.nRandom 1) (fun e _ _ => -e) [![0], ![1]] [1, 3] false [.look σ [![0], ![1]], .evaluate σ] = [.ok σ₂] ∧
    σ₁.st = some s₁ ∧ σ₂.st = some s₂ ∧ s₁.error = 9/2 ∧ s₂.error = 1/2 := by
  refine ⟨{ genome := [true, true], pool := [lowRule, highRule] }, { genome := [true, true], pool := [lowRule, highRule], st := some ⟨9/2, 2, 2, -9/2⟩ },
    { genome := [true, true], pool := [lowRule, highRule], st := some ⟨1/2, 2, 2, -1/2⟩ }, _, _, ?_, by decide +kernel, by decide +kernel, rfl, rfl, rfl, rfl⟩
  intro ρ h
  simp only [List.mem_cons, List.not_mem_nil, or_false] at h
  rcases h with rfl | rfl
  · exact ⟨intervalRule 0 (1/2), 0, rfl, rfl, by decide +kernel⟩
  · exact ⟨intervalRule (1/2) 1, 0, rfl, rfl, by decide +kernel⟩

/-- The same solution is small for a filter that keeps two rules. -/
example : Solution.Small meanLearner negErr [![0], ![1]] [1, 3] (.nRandom 2) { genome := [true, true], pool := [lowRule, highRule] } := by
  refine ⟨rfl, ?_, by decide⟩
  intro ρ h
  simp only [List.mem_cons, List.not_mem_nil, or_false] at h
  rcases h with rfl | rfl
  · exact ⟨⟨intervalRule 0 (1/2), 0, rfl, rfl, by decide +kernel⟩, ![0], by simp, by decide +kernel⟩
  · exact ⟨⟨intervalRule (1/2) 1, 0, rfl, rfl, by decide +kernel⟩, ![1], by simp, by decide +kernel⟩

end Suprb
