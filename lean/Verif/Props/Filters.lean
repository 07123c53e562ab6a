import Verif.Props.Metamorphic
import Verif.Props.MixState

/-!
# Laws of mixing with filters: C21, C122 and C125 for all filters, and C136
-/

set_option autoImplicit false
set_option linter.unusedSectionVars false

namespace Suprb

open Spec

variable {K : Type} [Field K] [LinearOrder K] [IsStrictOrderedRing K] {d : Nat} {M : Type} {S : Type}

/-- A filter returns rules it was given. -/
def SubFilter.Picks (filt : SubFilter K d M) : Prop := ∀ sub kept, filt sub = .ok kept → ∀ ρ ∈ kept, ρ ∈ sub

/-- All filters of the library, with any generator in any state, return rules they were given. -/
theorem FilterKind.picks (G : Gen K S) (k : FilterKind) (s : S) : SubFilter.Picks (fun sub : List (Rule K d M) => (k.call G s sub).1) :=
  fun sub kept h => FilterKind.call_mem G k s sub kept h

/-- Predictions with a filter, in terms of the rules it keeps. -/
theorem predict_filtered (L : Learner K d M) (P : MixParams K) (filt : SubFilter K d M) (hf : filt.Picks) (σ : Solution K d M) (hlen : σ.genome.length = σ.pool.length)
    (hp : ∀ ρ ∈ σ.pool, ρ.Usable) (X : List (Point K d)) :
    (compress σ.pool σ.genome = [] ∧ σ.predict L P filt false X = .ok (X.map (mixAt L P []))) ∨
    (∃ e, filt (compress σ.pool σ.genome) = .error e ∧ σ.predict L P filt false X = .error e) ∨
    ∃ kept, compress σ.pool σ.genome ≠ [] ∧ filt (compress σ.pool σ.genome) = .ok kept ∧ (∀ ρ ∈ kept, ρ ∈ compress σ.pool σ.genome) ∧ (∀ ρ ∈ kept, ρ.Usable) ∧
      σ.predict L P filt false X = .ok (X.map (mixAt L P kept)) := by
  unfold Solution.predict Solution.subpopulation
  rw [if_pos hlen]
  simp only [mixing]
  by_cases hne : compress σ.pool σ.genome = []
  · left
    refine ⟨hne, ?_⟩
    rw [hne]
    simp only [List.isEmpty_nil, if_true]
    rw [show mixAt L P ([] : List (Rule K d M)) = fun _ => (0 : K) from funext fun x => mixAt_nil L P x, List.map_const']
  · right
    rw [if_neg (by simpa using hne)]
    cases hk : filt (compress σ.pool σ.genome) with
    | error e => left; exact ⟨e, rfl, rfl⟩
    | ok kept =>
      right
      have hm := hf _ _ hk
      have hu : ∀ ρ ∈ kept, ρ.Usable := fun ρ hρ => hp ρ (mem_of_mem_compress (hm ρ hρ))
      exact ⟨kept, hne, rfl, hm, hu, mixRules_uncached L P X kept fun ρ hρ => (hu ρ hρ).ready⟩

theorem compress_replicate_true (sub : List (Rule K d M)) : compress sub (List.replicate sub.length true) = sub := by
  induction sub with
  | nil => rfl
  | cons a l ih => simp [List.replicate_succ, compress, ih]

theorem predict_everything (L : Learner K d M) (P : MixParams K) (sub : List (Rule K d M)) (hp : ∀ ρ ∈ sub, ρ.Usable) (X : List (Point K d)) :
    Solution.predict L P filterAll false { genome := List.replicate sub.length true, pool := sub } X = .ok (X.map (mixAt L P sub)) := by
  unfold Solution.predict Solution.subpopulation
  rw [if_pos (by simp)]
  simp only [compress_replicate_true]
  exact mixing_all_uncached L P X sub fun ρ hρ => (hp ρ hρ).ready

/-- The predictions of a batch are made by some function of the samples, the same for every batch. -/
theorem predictS_fun (L : Learner K d M) (P : MixParams K) (G : Gen K S) (k : FilterKind) (s : S) (σ : Solution K d M) (hlen : σ.genome.length = σ.pool.length)
    (hp : ∀ ρ ∈ σ.pool, ρ.Usable) : ∃ F : Except PyErr (Point K d → K), ∀ X, (σ.predictS L P G k false X s).1 = F.map (fun f => X.map f) := by
  have hpk := FilterKind.picks (d := d) (M := M) G k s
  by_cases hn : compress σ.pool σ.genome = []
  · refine ⟨.ok (mixAt L P []), fun X => ?_⟩
    rcases predict_filtered L P _ hpk σ hlen hp X with ⟨_, h2⟩ | ⟨e, _, h2⟩ | ⟨kept, hn', _⟩
    · exact h2
    · unfold Solution.predict Solution.subpopulation at h2
      rw [if_pos hlen] at h2
      simp only [mixing, hn, List.isEmpty_nil, if_true] at h2
      cases h2
    · exact absurd hn hn'
  · cases hk : (k.call G s (compress σ.pool σ.genome)).1 with
    | error e =>
      refine ⟨.error e, fun X => ?_⟩
      rcases predict_filtered L P _ hpk σ hlen hp X with ⟨hn', _⟩ | ⟨e', he, h2⟩ | ⟨kept, _, hk', _⟩
      · exact absurd hn' hn
      · rw [hk] at he; cases he; exact h2
      · rw [hk] at hk'; cases hk'
    | ok kept =>
      refine ⟨.ok (mixAt L P kept), fun X => ?_⟩
      rcases predict_filtered L P _ hpk σ hlen hp X with ⟨hn', _⟩ | ⟨e', he, _⟩ | ⟨kept', _, hk', _, _, h2⟩
      · exact absurd hn' hn
      · rw [hk] at he; cases he
      · rw [hk] at hk'; cases hk'; exact h2

/-- Successful predictions mix some of the selected rules. -/
theorem predictS_kept (L : Learner K d M) (P : MixParams K) (G : Gen K S) (k : FilterKind) (s : S) (σ : Solution K d M) (hlen : σ.genome.length = σ.pool.length)
    (hp : ∀ ρ ∈ σ.pool, ρ.Usable) (X : List (Point K d)) (out : List K) (h : (σ.predictS L P G k false X s).1 = .ok out) :
    ∃ kept, (∀ ρ ∈ kept, ρ ∈ compress σ.pool σ.genome) ∧ (∀ ρ ∈ kept, ρ.Usable) ∧ out = X.map (mixAt L P kept) := by
  unfold Solution.predictS at h
  rcases predict_filtered L P _ (FilterKind.picks (d := d) (M := M) G k s) σ hlen hp X with ⟨hn, h2⟩ | ⟨e, he, h2⟩ | ⟨kept, hn, hk, hm, hu, h2⟩
  · rw [h2] at h; cases h
    exact ⟨[], fun _ h => absurd h List.not_mem_nil, fun _ h => absurd h List.not_mem_nil, rfl⟩
  · rw [h2] at h; cases h
  · rw [h2] at h; cases h
    exact ⟨kept, hm, hu, rfl⟩

/-! ## C21 with filters -/

theorem mixAt_weight (L : Learner K d M) (c : ExpCalc K) (w w' : K) (hw : w ≠ 0) (hw' : w' ≠ 0) (sub : List (Rule K d M)) (hp : ∀ ρ ∈ sub, ρ.Usable) (x : Point K d) :
    mixAt L ⟨c, w⟩ sub x = mixAt L ⟨c, w'⟩ sub x := by
  have h := C21_weight_irrelevant L c w w' hw hw' { genome := List.replicate sub.length true, pool := sub } hp [x]
  rw [predict_everything L ⟨c, w⟩ sub hp, predict_everything L ⟨c, w'⟩ sub hp] at h
  simpa using h

/-- C21 for every filter and every state of its generator: two non-zero experience weights give the same predictions (or the same error). -/
theorem C21_filters (L : Learner K d M) (c : ExpCalc K) (w w' : K) (hw : w ≠ 0) (hw' : w' ≠ 0) (G : Gen K S) (k : FilterKind) (s : S)
    (σ : Solution K d M) (hp : ∀ ρ ∈ σ.pool, ρ.Usable) (X : List (Point K d)) :
    σ.predictS L ⟨c, w⟩ G k false X s = σ.predictS L ⟨c, w'⟩ G k false X s := by
  unfold Solution.predictS
  by_cases hlen : σ.genome.length = σ.pool.length
  · refine Prod.ext ?_ rfl
    dsimp only
    have hpk := FilterKind.picks (d := d) (M := M) G k s
    rcases predict_filtered L ⟨c, w⟩ _ hpk σ hlen hp X with ⟨hn, h1⟩ | ⟨e, he, h1⟩ | ⟨kept, hn, hk, _, hu, h1⟩ <;>
      rcases predict_filtered L ⟨c, w'⟩ _ hpk σ hlen hp X with ⟨hn', h2⟩ | ⟨e', he', h2⟩ | ⟨kept', hn', hk', _, hu', h2⟩ <;>
      rw [h1, h2]
    · refine congrArg Except.ok (List.map_congr_left fun x _ => ?_); rw [mixAt_nil, mixAt_nil]
    · rename_i he'
      unfold Solution.predict Solution.subpopulation at h1 h2
      rw [if_pos hlen] at h1 h2
      simp only [mixing, hn, List.isEmpty_nil, if_true] at h1 h2
      cases h2
    · exact absurd hn hn'
    · unfold Solution.predict Solution.subpopulation at h1 h2
      rw [if_pos hlen] at h1 h2
      simp only [mixing, hn', List.isEmpty_nil, if_true] at h1 h2
      cases h1
    · rw [he] at he'; cases he'; rfl
    · rw [he] at hk'; cases hk'
    · exact absurd hn' hn
    · rw [hk] at he'; cases he'
    · rw [hk] at hk'; cases hk'
      exact congrArg Except.ok (List.map_congr_left fun x _ => mixAt_weight L c w w' hw hw' kept hu x)
  · refine Prod.ext ?_ rfl
    dsimp only
    unfold Solution.predict Solution.subpopulation
    rw [if_neg hlen]

/-! ## C122 with filters -/

/-- C122 for every filter and every state of its generator: take any batch that contains two samples matched by the same selected rules and a point between them at which no further selected rule matches. If the
batch can be predicted, the prediction for the point is the corresponding mean of the two other predictions. -/
theorem C122_filters (L : Learner K d M) (hL : L.Affine) (P : MixParams K) (G : Gen K S) (k : FilterKind) (s : S)
    (σ : Solution K d M) (hlen : σ.genome.length = σ.pool.length) (hp : ∀ ρ ∈ σ.pool, ρ.Usable)
    (x z : Point K d) (t : K) (h0 : 0 ≤ t) (h1 : t ≤ 1)
    (hsame : ∀ ρ ∈ compress σ.pool σ.genome, ρ.kind.call ρ.bounds x = ρ.kind.call ρ.bounds z)
    (hnew : ∀ ρ ∈ compress σ.pool σ.genome, ρ.kind.call ρ.bounds (pointBetween x z t) = true → ρ.kind.call ρ.bounds x = true)
    (X : List (Point K d)) (i j l : Nat) (hi : X[i]? = some x) (hj : X[j]? = some z) (hl : X[l]? = some (pointBetween x z t)) (out : List K)
    (h : (σ.predictS L P G k false X s).1 = .ok out) : ∃ u v, out[i]? = some u ∧ out[j]? = some v ∧ out[l]? = some ((1 - t) * u + t * v) := by
  obtain ⟨kept, hm, hu, rfl⟩ := predictS_kept L P G k s σ hlen hp X out h
  refine ⟨mixAt L P kept x, mixAt L P kept z, by rw [List.getElem?_map, hi]; rfl, by rw [List.getElem?_map, hj]; rfl, ?_⟩
  rw [List.getElem?_map, hl]
  refine congrArg some ?_
  let τ : Solution K d M := { genome := List.replicate kept.length true, pool := kept }
  have hτ : τ.genome.length = τ.pool.length := List.length_replicate
  have e : compress τ.pool τ.genome = kept := compress_replicate_true kept
  have := C122_piecewise_linear L hL P τ hτ hu x z t h0 h1 (by rw [e]; exact fun ρ hρ => hsame ρ (hm ρ hρ)) (by rw [e]; exact fun ρ hρ => hnew ρ (hm ρ hρ))
    (mixAt L P kept x) (mixAt L P kept z) (by rw [predictsAt_iff L P τ hτ hu, e]) (by rw [predictsAt_iff L P τ hτ hu, e])
  rw [predictsAt_iff L P τ hτ hu, e] at this
  exact this.symm

/-! ## C125 with filters -/

theorem ruleFitnessOf_map {α : Type} {f : α → Rule K d M} {ρ : α} : ((f ρ).st.map RuleState.fitness).getD ⊥ = ruleFitnessOf (f ρ) := by
  unfold ruleFitnessOf; cases (f ρ).st <;> rfl

theorem npChoice_map {α β : Type} (g : α → β) (a : List α) (p : Option (List K)) (r : Bool) (size : Nat) (idx : List Nat) :
    npChoice (a.map g) p r size idx = (npChoice a p r size idx).map (List.map g) := by
  have hm : idx.filterMap (fun i => (a.map g)[i]?) = (idx.filterMap fun i => a[i]?).map g := by
    rw [List.map_filterMap]
    congr 1
    funext i
    rw [List.getElem?_map]
  cases p with
  | none =>
    simp only [npChoice, List.length_map, hm]
    split_ifs <;> rfl
  | some p =>
    simp only [npChoice, List.length_map, hm]
    split_ifs <;> rfl

/-- A filter only looks at the fitness of the rules: two lists of rules with the same fitness values are filtered alike. -/
theorem FilterKind.call_map {α : Type} (G : Gen K S) (k : FilterKind) (s : S) (f₁ f₂ : α → Rule K d M) (sub : List α)
    (hst : ∀ ρ ∈ sub, (f₁ ρ).st.isSome ∧ (f₂ ρ).st.isSome) (hfit : ∀ ρ ∈ sub, ruleFitnessOf (f₁ ρ) = ruleFitnessOf (f₂ ρ)) :
    ∃ r : Except PyErr (List α), (∀ kept, r = .ok kept → ∀ ρ ∈ kept, ρ ∈ sub) ∧
      (k.call G s (sub.map f₁)).1 = r.map (List.map f₁) ∧ (k.call G s (sub.map f₂)).1 = r.map (List.map f₂) := by
  have hall : ∀ f : α → Rule K d M, (∀ ρ ∈ sub, (f ρ).st.isSome) → (sub.map f).all (fun ρ => ρ.st.isSome) = true := by
    intro f hf; simpa using hf
  have a1 := hall f₁ fun ρ h => (hst ρ h).1
  have a2 := hall f₂ fun ρ h => (hst ρ h).2
  cases k with
  | all => exact ⟨.ok sub, fun kept h => by cases h; exact fun _ h => h, rfl, rfl⟩
  | nBest n =>
    have hsort : ∀ f : α → Rule K d M, (∀ ρ ∈ sub, ruleFitnessOf (f₁ ρ) = ruleFitnessOf (f ρ)) →
        sortedAsc (fun ρ : Rule K d M => (ρ.st.map RuleState.fitness).getD ⊥) (sub.map f) = (sortedAsc (fun ρ => ruleFitnessOf (f₁ ρ)) sub).map f := by
      intro f hf
      unfold sortedAsc
      refine (List.map_insertionSort (r := fun a b => ruleFitnessOf (f₁ a) ≤ ruleFitnessOf (f₁ b))
        (s := fun a b : Rule K d M => (a.st.map RuleState.fitness).getD ⊥ ≤ (b.st.map RuleState.fitness).getD ⊥) f sub ?_).symm
      intro a ha b hb
      have e1 := ruleFitnessOf_map (f := f) (ρ := a)
      have e2 := ruleFitnessOf_map (f := f) (ρ := b)
      rw [e1, e2, hf a ha, hf b hb]
    have hsl : ∀ (f : α → Rule K d M) (l : List α), lastSlice n (l.map f) = (lastSlice n l).map f := by
      intro f l; unfold lastSlice; split_ifs
      · rfl
      · rw [List.length_map, List.map_drop]
    refine ⟨.ok (lastSlice n (sortedAsc (fun ρ => ruleFitnessOf (f₁ ρ)) sub)), ?_, ?_, ?_⟩
    · intro kept h ρ hρ
      cases h
      have : ρ ∈ sortedAsc (fun ρ : α => ruleFitnessOf (f₁ ρ)) sub := by
        unfold lastSlice at hρ
        split_ifs at hρ
        · exact hρ
        · exact List.mem_of_mem_drop hρ
      exact (List.perm_insertionSort _ sub).subset this
    · simp only [FilterKind.call, nBestFitness, a1, if_true, hsort f₁ fun _ _ => rfl, hsl]; rfl
    · simp only [FilterKind.call, nBestFitness, a2, if_true, hsort f₂ hfit, hsl]; rfl
  | nRandom n =>
    refine ⟨npChoice (K := K) sub none false (min sub.length n) (G.choice s sub.length none (min sub.length n)).1, fun kept h => npChoice_mem _ _ _ _ _ _ h, ?_, ?_⟩
    · simp only [FilterKind.call, filterNRandom, List.length_map, npChoice_map]
    · simp only [FilterKind.call, filterNRandom, List.length_map, npChoice_map]
  | roulette n =>
    have hw : (sub.map f₂).map (fun ρ => (ruleFitnessOf ρ).unbotD 0) = (sub.map f₁).map fun ρ => (ruleFitnessOf ρ).unbotD 0 := by
      rw [List.map_map, List.map_map]
      exact List.map_congr_left fun ρ h => by simp only [Function.comp, hfit ρ h]
    have hany : (sub.map f₂).any (fun ρ => decide (ruleFitnessOf ρ = ⊥)) = (sub.map f₁).any fun ρ => decide (ruleFitnessOf ρ = ⊥) := by
      rw [List.any_map, List.any_map, Bool.eq_iff_iff, List.any_eq_true, List.any_eq_true]
      refine exists_congr fun ρ => and_congr_right fun h => ?_
      simp only [Function.comp, hfit ρ h]
    have hfw : filterWeights (sub.map f₂) = filterWeights (sub.map f₁) := by unfold filterWeights; rw [a1, a2, hany, hw]
    have hr : ∀ idx, ∃ r : Except PyErr (List α), (∀ kept, r = .ok kept → ∀ ρ ∈ kept, ρ ∈ sub) ∧
        filterRoulette n idx (sub.map f₁) = r.map (List.map f₁) ∧ filterRoulette n idx (sub.map f₂) = r.map (List.map f₂) := by
      intro idx
      unfold filterRoulette
      rw [a1, a2, hany, hw]
      simp only [if_true, List.length_map]
      split_ifs
      · exact ⟨.error .valueError, (fun kept h => by cases h), rfl, rfl⟩
      · cases rouletteP ((sub.map f₁).map fun ρ => (ruleFitnessOf ρ).unbotD 0) with
        | error e => exact ⟨.error e, (fun kept h => by cases h), rfl, rfl⟩
        | ok p => exact ⟨_, fun kept h => npChoice_mem _ _ _ _ _ _ h, npChoice_map _ _ _ _ _ _, npChoice_map _ _ _ _ _ _⟩
    simp only [FilterKind.call, hfw, List.length_map]
    cases filterWeights (sub.map f₁) with
    | none => exact hr _
    | some p => exact hr _

/-- C125 for every filter of the mixing model: fit the same rules on the training samples in two orders. With the generator of the filter in the same state, every selection of rules makes the same predictions (or
fails with the same error), and its evaluation gives the same error, complexity and fitness (or fails likewise). -/
theorem C125_filters (L : Learner K d M) (hL : L.OrderFree) (ff : RuleFitness K d) (P : MixParams K) (sf : SolFitness K) (G : Gen K S) (k : FilterKind) (s : S) (X X' : List (Point K d)) (y y' : List K) (hxy : y.length = X.length) (hxy' : y'.length = X'.length)
    (hperm : (X.zip y).Perm (X'.zip y'))
    (rs pool₁ pool₂ : List (Rule K d M)) (h : ∀ ρ ∈ rs, ρ.FreshOn X)
    (h1 : rs.mapM (Rule.fit L ff X y) = .ok pool₁) (h2 : rs.mapM (Rule.fit L ff X' y') = .ok pool₂)
    (g : List Bool) (hg : g.length = rs.length) :
    (∀ Z, (Solution.predictS L P G k false { genome := g, pool := pool₁ } Z s).1 = (Solution.predictS L P G k false { genome := g, pool := pool₂ } Z s).1) ∧
    ((Solution.fitS L P G k sf X y { genome := g, pool := pool₁ } s).1.map Solution.st = (Solution.fitS L P G k sf X' y' { genome := g, pool := pool₂ } s).1.map Solution.st) := by
  have h' : ∀ ρ ∈ rs, ρ.FreshOn X' := fun ρ hρ => (h ρ hρ).perm hxy hperm
  have hsub : ∀ ρ ∈ compress rs g, ρ.FreshOn X := fun ρ hρ => h ρ (mem_of_mem_compress hρ)
  rw [fitAll_eq L ff X y hxy rs h h1, fitAll_eq L ff X' y' hxy' rs h' h2]
  have hfit : ∀ ρ : Rule K d M, ruleFitnessOf (ρ.fitOf L ff X y) = ruleFitnessOf (ρ.fitOf L ff X' y') := by
    intro ρ
    simp only [ruleFitnessOf, Rule.fitOf]
    rw [fitOf_perm L hL ρ hperm]
    rfl
  obtain ⟨r, hr, r1, r2⟩ := FilterKind.call_map G k s (Rule.fitOf L ff X y) (Rule.fitOf L ff X' y') (compress rs g) (fun ρ _ => ⟨rfl, rfl⟩) fun ρ _ => hfit ρ
  have hpred : ∃ F : Except PyErr (Point K d → K), ∀ Z,
      Solution.predict L P (fun sub => (k.call G s sub).1) false { genome := g, pool := rs.map (Rule.fitOf L ff X y) } Z = F.map (fun f => Z.map f) ∧
      Solution.predict L P (fun sub => (k.call G s sub).1) false { genome := g, pool := rs.map (Rule.fitOf L ff X' y') } Z = F.map (fun f => Z.map f) := by
    by_cases hn : compress rs g = []
    · refine ⟨.ok fun _ => 0, fun Z => ?_⟩
      unfold Solution.predict Solution.subpopulation
      rw [if_pos (by simpa using hg), if_pos (by simpa using hg)]
      dsimp only
      rw [← compress_map, ← compress_map, hn]
      simp [mixing, Except.map]
    · cases hrr : r with
      | error e =>
        refine ⟨.error e, fun Z => ?_⟩
        unfold Solution.predict Solution.subpopulation
        rw [if_pos (by simpa using hg), if_pos (by simpa using hg)]
        dsimp only
        rw [← compress_map, ← compress_map]
        unfold mixing
        dsimp only
        rw [r1, r2, hrr, if_neg (by simpa using hn), if_neg (by simpa using hn)]
        exact ⟨rfl, rfl⟩
      | ok kept =>
        have hk := hr kept hrr
        refine ⟨.ok (mixAt L P (kept.map (Rule.fitOf L ff X y))), fun Z => ?_⟩
        unfold Solution.predict Solution.subpopulation
        rw [if_pos (by simpa using hg), if_pos (by simpa using hg)]
        dsimp only
        rw [← compress_map, ← compress_map]
        unfold mixing
        dsimp only
        rw [r1, r2, hrr, if_neg (by simpa using hn), if_neg (by simpa using hn)]
        change mixRules L P false Z (kept.map (Rule.fitOf L ff X y)) = _ ∧ mixRules L P false Z (kept.map (Rule.fitOf L ff X' y')) = _
        rw [mixRules_uncached L P Z _ ?_, mixRules_uncached L P Z _ ?_]
        · exact ⟨rfl, congrArg Except.ok (List.map_congr_left fun x _ => mixAt_reordered L hL ff P hperm kept x)⟩
        · intro ρ hρ
          obtain ⟨q, hq, rfl⟩ := List.mem_map.mp hρ
          exact (q.fitOf_usable L ff X' y' hxy' (h' q (mem_of_mem_compress (hk q hq)))).ready
        · intro ρ hρ
          obtain ⟨q, hq, rfl⟩ := List.mem_map.mp hρ
          exact (q.fitOf_usable L ff X y hxy (hsub q (hk q hq))).ready
  obtain ⟨F, hF⟩ := hpred
  refine ⟨fun Z => (hF Z).1.trans (hF Z).2.symm, ?_⟩
  have hfo : ∀ (X : List (Point K d)) (y : List K), y.length = X.length → (∀ ρ ∈ rs, ρ.FreshOn X) → ∀ ρ ∈ rs.map (Rule.fitOf L ff X y), ρ.FittedOn L ff X y ∧ ∃ x ∈ X, ρ.kind.call ρ.bounds x = true := by
    intro X y hxy h ρ hρ
    obtain ⟨r, hr, rfl⟩ := List.mem_map.mp hρ
    exact fitOf_fittedOn L ff X y hxy r (h r hr)
  unfold Solution.fitS Solution.fit
  dsimp only
  rw [C20_cached_eq_uncached_partial L ff P X y hxy _ (FilterKind.picks G k s) _ (hfo X y hxy h), C20_cached_eq_uncached_partial L ff P X' y' hxy' _ (FilterKind.picks G k s) _ (hfo X' y' hxy' h'),
    (hF X).1, (hF X').2]
  have hlen : y'.length = y.length := by
    have := hperm.length_eq
    simp only [List.length_zip] at this
    omega
  cases F with
  | error e => rfl
  | ok f =>
    simp only [Except.map, List.length_map, ← hxy, ← hxy', hlen]
    by_cases h0 : y.length = 0
    · simp [h0]
    · rw [mse_map f X y hxy, mse_map f X' y' hxy', meanSqErr_perm f hperm]
      simp [h0]

/-! ## Examples for the theorems with filters -/

/-- A rule of the examples with the fitness `f`. -/
def ratedRule (a b v e : ℚ) (n : Nat) (f : ℚ) : Rule ℚ 1 ℚ :=
  { kind := .ordered, bounds := ![(a, b)], inputSpace := ![(0, 3)], model := some v
    st := some ⟨true, ((e : ℚ) : WithTop ℚ), ((f : ℚ) : WithBot ℚ), n, [], []⟩ }

theorem ratedRule_usable (a b v e : ℚ) (n : Nat) (f : ℚ) (he : 0 < e) (hn : 0 < n) : (ratedRule a b v e n f).Usable := ⟨_, _, e, rfl, rfl, rfl, he, hn⟩

/-- A generator for the examples: it picks the first positions. -/
def firstGen : Gen ℚ Nat := ⟨fun s _ _ size => (List.range size, s + 1)⟩

/-- Keeping two of three rules: the two best, two picked by the generator, two picked by the roulette wheel. The weight does not matter (C21), and the prediction for the middle is the mean of the predictions at both
ends (C122), where the set of selected matching rules is the same. -/
example : (∀ k ∈ [FilterKind.nBest 2, .nRandom 2, .roulette 2], ∀ w ∈ [(1 : ℚ), 7],
      (Solution.predictS meanLearner ⟨.plain, w⟩ firstGen k false { genome := [true, true, true], pool := [ratedRule 0 2 1 1 3 9, ratedRule 0 3 5 (1/2) 2 8, ratedRule 0 2 100 1 1 7] } [![0], ![1], ![2]] 0).1 = .ok [23/7, 23/7, 23/7]) ∧
    pointBetween ![0] ![2] (1/2) = (![1] : Point ℚ 1) := by
  constructor
  · decide +kernel
  · funext i; fin_cases i; simp [pointBetween]

/-- Fitting two rules on three samples in two orders (C125), keeping only the better one. -/
example : ∀ k ∈ [FilterKind.nBest 1, .nRandom 1], ∀ p₁ p₂, [intervalRule 0 1, intervalRule 1 2].mapM (Rule.fit meanLearner negErr [![0], ![1], ![2]] [0, 1, 5]) = .ok p₁ →
      [intervalRule 0 1, intervalRule 1 2].mapM (Rule.fit meanLearner negErr [![2], ![0], ![1]] [5, 0, 1]) = .ok p₂ →
      (Solution.predictS meanLearner ⟨.plain, 1⟩ firstGen k false { genome := [true, true], pool := p₁ } [![0], ![2]] 0).1 = .ok [1/2, 0] ∧
      (Solution.predictS meanLearner ⟨.plain, 1⟩ firstGen k false { genome := [true, true], pool := p₂ } [![0], ![2]] 0).1 = .ok [1/2, 0] := by
  have e1 : [intervalRule 0 1, intervalRule 1 2].mapM (Rule.fit meanLearner negErr [![0], ![1], ![2]] [0, 1, 5]) = .ok ([intervalRule 0 1, intervalRule 1 2].map (Rule.fitOf meanLearner negErr [![0], ![1], ![2]] [0, 1, 5])) := by decide +kernel
  have e2 : [intervalRule 0 1, intervalRule 1 2].mapM (Rule.fit meanLearner negErr [![2], ![0], ![1]] [5, 0, 1]) = .ok ([intervalRule 0 1, intervalRule 1 2].map (Rule.fitOf meanLearner negErr [![2], ![0], ![1]] [5, 0, 1])) := by decide +kernel
  intro k hk p₁ p₂ h1 h2
  rw [e1] at h1; rw [e2] at h2; cases h1; cases h2
  revert k
  decide +kernel

/-! ## C136 what else holds with filters -/

/-- C136 (partial): with every filter, the predicted value of a sample is 0 if no selected rule matches it, and otherwise it is 0 or lies between any bounds of the local predictions of the selected rules that match
it. Missing: that a sample matched by a selected rule gets a value between the local predictions, which is false (`C136_covered_refuted`). -/
theorem C136_convex_partial (L : Learner K d M) (P : MixParams K) (hw : 0 < P.weight) (hc : P.expCalc.Positive d) (G : Gen K S) (k : FilterKind) (s : S) (σ : Solution K d M)
    (hlen : σ.genome.length = σ.pool.length) (hp : ∀ ρ ∈ σ.pool, ρ.Usable) (X : List (Point K d)) (out : List K) (h : (σ.predictS L P G k false X s).1 = .ok out) :
    out.length = X.length ∧ ∀ x v, (x, v) ∈ X.zip out →
      ((∀ ρ ∈ compress σ.pool σ.genome, ρ.kind.call ρ.bounds x = false) → v = 0) ∧
      ∀ a b, (∀ ρ ∈ compress σ.pool σ.genome, ρ.kind.call ρ.bounds x = true → ∀ u, ρ.LocalPrediction L x u → a ≤ u ∧ u ≤ b) → v = 0 ∨ (a ≤ v ∧ v ≤ b) := by
  obtain ⟨kept, hm, hu, rfl⟩ := predictS_kept L P G k s σ hlen hp X out h
  obtain ⟨out', h1, h2, h3⟩ := C17_convex L P hw hc { genome := List.replicate kept.length true, pool := kept } (by simp) hu X
  have e : out' = X.map (mixAt L P kept) := by
    have := predict_everything L P kept hu X
    rw [this] at h1
    exact (Except.ok.inj h1).symm
  subst e
  simp only [compress_replicate_true] at h3
  refine ⟨h2, fun x v hv => ⟨fun hno => (h3 x v hv).1 fun ρ hρ => hno ρ (hm ρ hρ), fun a b hab => ?_⟩⟩
  by_cases hx : ∃ ρ ∈ kept, ρ.kind.call ρ.bounds x = true
  · exact Or.inr ((h3 x v hv).2 hx a b fun ρ hρ => hab ρ (hm ρ hρ))
  · refine Or.inl ((h3 x v hv).1 fun ρ hρ => ?_)
    cases hb : ρ.kind.call ρ.bounds x with
    | false => rfl
    | true => exact absurd ⟨ρ, hρ, hb⟩ hx

/-- C136 is false for covered samples: of two selected rules with constant local models 5 and 7 the filter keeps the better one, and the sample 3, which only the other one matches, is predicted as 0. -/
theorem C136_covered_refuted : ∃ σ : Solution ℚ 1 ℚ, σ.genome.length = σ.pool.length ∧ (∀ ρ ∈ σ.pool, ρ.Usable) ∧
    (∃ ρ ∈ compress σ.pool σ.genome, ρ.kind.call ρ.bounds ![3] = true) ∧
    (∀ ρ ∈ compress σ.pool σ.genome, ρ.kind.call ρ.bounds ![3] = true → ∀ u, ρ.LocalPrediction meanLearner ![3] u → u = 7) ∧
    (σ.predictS meanLearner ⟨.plain, 1⟩ firstGen (.nBest 1) false [![3]] 0).1 = .ok [0] := by
  refine ⟨{ genome := [true, true], pool := [ratedRule 0 2 5 1 1 2, ratedRule 2 3 7 1 1 1] }, rfl, ?_, ⟨ratedRule 2 3 7 1 1 1, by simp [compress], by decide +kernel⟩, ?_, by decide +kernel⟩
  · simp only [List.forall_mem_cons, List.not_mem_nil, false_imp_iff, implies_true, and_true]
    exact ⟨ratedRule_usable _ _ _ _ _ _ (by norm_num) (by norm_num), ratedRule_usable _ _ _ _ _ _ (by norm_num) (by norm_num)⟩
  · simp only [compress, if_true, List.forall_mem_cons, List.not_mem_nil, false_imp_iff, implies_true, and_true]
    refine ⟨fun h => absurd h (by decide +kernel), ?_⟩
    rintro _ u ⟨m, hm, rfl⟩
    cases hm
    rfl

/-- C136: with every filter and the generator in the same state, the prediction of a sample does not depend on the other samples of the batch. -/
theorem C136_batch (L : Learner K d M) (P : MixParams K) (G : Gen K S) (k : FilterKind) (s : S) (σ : Solution K d M) (hlen : σ.genome.length = σ.pool.length) (hp : ∀ ρ ∈ σ.pool, ρ.Usable)
    (x : Point K d) (X X' : List (Point K d)) (j j' : Nat) (hj : X[j]? = some x) (hj' : X'[j']? = some x) :
    (∃ e, (σ.predictS L P G k false X s).1 = .error e ∧ (σ.predictS L P G k false X' s).1 = .error e) ∨
    ∃ out out' v, (σ.predictS L P G k false X s).1 = .ok out ∧ (σ.predictS L P G k false X' s).1 = .ok out' ∧ out[j]? = some v ∧ out'[j']? = some v := by
  obtain ⟨F, hF⟩ := predictS_fun L P G k s σ hlen hp
  rw [hF X, hF X']
  cases F with
  | error e => exact Or.inl ⟨e, rfl, rfl⟩
  | ok f => exact Or.inr ⟨_, _, f x, rfl, rfl, by rw [List.getElem?_map, hj]; rfl, by rw [List.getElem?_map, hj']; rfl⟩

/-- C136 is false for rules that do not match: adding a selected rule that does not match the sample 1 changes its prediction from 5 to 0, because it displaces the matching one from the rules that are kept. -/
theorem C136_only_matching_refuted : ∃ ρ ρ' : Rule ℚ 1 ℚ, ρ.Usable ∧ ρ'.Usable ∧ ρ'.kind.call ρ'.bounds ![1] = false ∧
    (Solution.predictS meanLearner ⟨.plain, 1⟩ firstGen (.nBest 1) false { genome := [true], pool := [ρ] } [![1]] 0).1 = .ok [5] ∧
    (Solution.predictS meanLearner ⟨.plain, 1⟩ firstGen (.nBest 1) false { genome := [true, true], pool := [ρ, ρ'] } [![1]] 0).1 = .ok [0] :=
  ⟨ratedRule 0 2 5 1 1 1, ratedRule 2 3 7 1 1 2, ratedRule_usable _ _ _ _ _ _ (by norm_num) (by norm_num), ratedRule_usable _ _ _ _ _ _ (by norm_num) (by norm_num),
    by decide +kernel, by decide +kernel, by decide +kernel⟩

/-- C136 is false for the order of the pool: two rules with the same fitness. The filter keeps the one that comes last. -/
theorem C136_order_refuted : ∃ ρ ρ' : Rule ℚ 1 ℚ, ρ.Usable ∧ ρ'.Usable ∧
    (Solution.predictS meanLearner ⟨.plain, 1⟩ firstGen (.nBest 1) false { genome := [true, true], pool := [ρ, ρ'] } [![1]] 0).1 = .ok [7] ∧
    (Solution.predictS meanLearner ⟨.plain, 1⟩ firstGen (.nBest 1) false { genome := [true, true], pool := [ρ', ρ] } [![1]] 0).1 = .ok [5] :=
  ⟨ratedRule 0 2 5 1 1 1, ratedRule 0 2 7 1 1 1, ratedRule_usable _ _ _ _ _ _ (by norm_num) (by norm_num), ratedRule_usable _ _ _ _ _ _ (by norm_num) (by norm_num),
    by decide +kernel, by decide +kernel⟩

/-- C136 (partial): if the selected rules have different fitness values, a mixing model that keeps the best ones makes the same predictions for every order of the pool (permuted together with the genome). Missing: rules
of equal fitness, where it is false (`C136_order_refuted`). -/
theorem C136_order_partial (L : Learner K d M) (P : MixParams K) (G : Gen K S) (amount : Nat) (s : S)
    (σ σ' : Solution K d M) (hlen : σ.genome.length = σ.pool.length) (hlen' : σ'.genome.length = σ'.pool.length)
    (hperm : (σ.pool.zip σ.genome).Perm (σ'.pool.zip σ'.genome))
    (hdist : ∀ ρ ∈ compress σ.pool σ.genome, ∀ ρ' ∈ compress σ.pool σ.genome, ruleFitnessOf ρ = ruleFitnessOf ρ' → ρ = ρ') (X : List (Point K d)) :
    (σ.predictS L P G (.nBest amount) false X s).1 = (σ'.predictS L P G (.nBest amount) false X s).1 := by
  have hsub := compress_perm _ _ _ _ hperm
  unfold Solution.predictS Solution.predict Solution.subpopulation
  rw [if_pos hlen, if_pos hlen']
  dsimp only
  unfold mixing
  have hemp : (compress σ'.pool σ'.genome).isEmpty = (compress σ.pool σ.genome).isEmpty := by
    rw [Bool.eq_iff_iff, List.isEmpty_iff, List.isEmpty_iff]
    exact ⟨fun h => by rw [h] at hsub; exact hsub.eq_nil, fun h => by rw [h] at hsub; exact hsub.symm.eq_nil⟩
  have hall : (compress σ'.pool σ'.genome).all (fun ρ => ρ.st.isSome) = (compress σ.pool σ.genome).all (fun ρ => ρ.st.isSome) := by
    rw [Bool.eq_iff_iff, List.all_eq_true, List.all_eq_true]
    exact ⟨fun h ρ hρ => h ρ (hsub.subset hρ), fun h ρ hρ => h ρ (hsub.symm.subset hρ)⟩
  have hkey : ∀ ρ : Rule K d M, (ρ.st.map RuleState.fitness).getD ⊥ = ruleFitnessOf ρ := fun ρ => ruleFitnessOf_map (f := id) (ρ := ρ)
  have hsort : sortedAsc (fun ρ : Rule K d M => (ρ.st.map RuleState.fitness).getD ⊥) (compress σ.pool σ.genome) =
      sortedAsc (fun ρ : Rule K d M => (ρ.st.map RuleState.fitness).getD ⊥) (compress σ'.pool σ'.genome) := by
    refine List.Perm.eq_of_pairwise ?_ (sortedAsc_pairwise _ _) (sortedAsc_pairwise _ _) ((sortedAsc_perm _ _).trans (hsub.trans (sortedAsc_perm _ _).symm))
    intro a b ha hb h1 h2
    refine hdist a ((sortedAsc_perm _ _).subset ha) b (hsub.symm.subset ((sortedAsc_perm _ _).subset hb)) ?_
    rw [← hkey a, ← hkey b]
    exact le_antisymm h1 h2
  simp only [FilterKind.call, nBestFitness, hemp, hall, hsort]

/-- Two orders of three rules with different fitness values, two of which are kept. -/
example : ([ratedRule 0 2 5 1 1 1, ratedRule 0 2 7 1 1 3, ratedRule 0 3 4 1 1 2].zip [true, true, true]).Perm ([ratedRule 0 3 4 1 1 2, ratedRule 0 2 5 1 1 1, ratedRule 0 2 7 1 1 3].zip [true, true, true]) ∧
    (Solution.predictS meanLearner ⟨.plain, 1⟩ firstGen (.nBest 2) false { genome := [true, true, true], pool := [ratedRule 0 2 5 1 1 1, ratedRule 0 2 7 1 1 3, ratedRule 0 3 4 1 1 2] } [![1]] 0).1 = .ok [11/2] ∧
    (Solution.predictS meanLearner ⟨.plain, 1⟩ firstGen (.nBest 2) false { genome := [true, true, true], pool := [ratedRule 0 3 4 1 1 2, ratedRule 0 2 5 1 1 1, ratedRule 0 2 7 1 1 3] } [![1]] 0).1 = .ok [11/2] := by
  refine ⟨?_, by decide +kernel, by decide +kernel⟩
  simp only [List.zip_cons_cons, List.zip_nil_right]
  exact (List.Perm.cons _ (List.Perm.swap _ _ _)).trans (List.Perm.swap _ _ _)

/-- C136 is false for better rules: the third rule, which predicts 6, gets a smaller error and thereby a better fitness, and is now kept instead of the rule that predicts 28/3. The prediction moves away from 6, from 7 to 1. -/
theorem C136_better_refuted : ∃ (A : List (Rule ℚ 1 ℚ)) (ρ ρ' : Rule ℚ 1 ℚ), (∀ r ∈ A, r.Usable) ∧ ρ.Usable ∧ ρ'.Usable ∧ ρ.Better ρ' ∧ (∀ f f', ρ.HasFitness f → ρ'.HasFitness f' → f < f') ∧
    ρ.LocalPrediction meanLearner ![1] 6 ∧ ρ.kind.call ρ.bounds ![1] = true ∧
    (Solution.predictS meanLearner ⟨.plain, 1⟩ firstGen (.nBest 2) false { genome := [true, true, true], pool := A ++ [ρ] } [![1]] 0).1 = .ok [7] ∧
    (Solution.predictS meanLearner ⟨.plain, 1⟩ firstGen (.nBest 2) false { genome := [true, true, true], pool := A ++ [ρ'] } [![1]] 0).1 = .ok [1] := by
  refine ⟨[ratedRule 0 2 0 1 7 9, ratedRule 0 2 (28/3) (1/3) 7 2], ratedRule 0 2 6 2 1 1, ratedRule 0 2 6 (5/7) 1 3, ?_, ratedRule_usable _ _ _ _ _ _ (by norm_num) (by norm_num),
    ratedRule_usable _ _ _ _ _ _ (by norm_num) (by norm_num), ⟨rfl, rfl, rfl, _, _, rfl, rfl, ?_, le_rfl⟩, ?_, ⟨6, rfl, rfl⟩, by decide +kernel, by decide +kernel, by decide +kernel⟩
  · simp only [List.forall_mem_cons, List.not_mem_nil, false_imp_iff, implies_true, and_true]
    exact ⟨ratedRule_usable _ _ _ _ _ _ (by norm_num) (by norm_num), ratedRule_usable _ _ _ _ _ _ (by norm_num) (by norm_num)⟩
  · exact WithTop.coe_le_coe.mpr (by norm_num)
  · rintro f f' ⟨s, hs, h1⟩ ⟨s', hs', h2⟩
    cases hs; cases hs'
    rw [← WithBot.coe_lt_coe, ← h1, ← h2]
    exact WithBot.coe_lt_coe.mpr (by norm_num)

end Suprb
