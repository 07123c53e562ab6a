import Verif.Lemmas.SimulateSearch
import Verif.Props.SampleOrder

/-!
# Claim C144 for other components: random search and novelty search, all origin strategies, all composition strategies and mixing parameters
-/

set_option autoImplicit false
set_option linter.unusedSectionVars false

namespace Suprb

open _root_.Spec (Pairs Point)
open Suprb.Spec (takeAt)

variable {K : Type} [Field K] [LinearOrder K] [IsStrictOrderedRing K] {d : Nat} {M : Type}

/-! ### Specification -/

/-- The composition of two runs on the same samples in two orders uses the same random numbers, as long as what happened before corresponds. -/
def SameStrategies (L : Learner K d M) (X : List (Point K d)) (idx : List Nat) (S S' : Seed → List (Event K d M) → Strategy K) : Prop :=
  ∀ seed hist hist', List.Forall₂ (EventRel (SameFit L X (takeAt idx X))) hist hist' → S' seed hist' = S seed hist

/-- Two calls of the random search on the same samples in two orders use the same random numbers: the same samples are drawn as origins (their new positions) if the same probabilities are given. -/
structure SameRSDraws (n : Nat) (idx : List Nat) (D D' : RSDraws K d) : Prop where
  origins : ∀ g (p : Option (List K)), (∀ q ∈ p, q.length = n) → (D'.origins g (p.map (takeAt idx))).map (fun j => idx.getD j n) = D.origins g p
  uniform : D'.uniform = D.uniform
  init : D'.init = D.init

/-- Two calls of the novelty search on the same samples in two orders use the same random numbers: the same samples as origins, the same parents from the same population, the same numbers elsewhere;
and earlier calls left the same distances on the rules of the pool. -/
structure SameNSDraws (L : Learner K d M) (X : List (Point K d)) (idx : List Nat) (D D' : NSDraws K d M) : Prop where
  origins : ∀ p : Option (List K), (∀ q ∈ p, q.length = X.length) → (D'.origins (p.map (takeAt idx))).map (fun j => idx.getD j X.length) = D.origins p
  uniform : D'.uniform = D.uniform
  init : D'.init = D.init
  iterations : List.Forall₂ (fun z z' : NsDraw (Rule K d M) (BreedDraw K d) => (∀ pop pop', List.Forall₂ (SameFit L X (takeAt idx X)) pop pop' → z'.parents pop' = z.parents pop) ∧
    z'.breed = z.breed ∧ z'.archiveChildren = z.archiveChildren ∧ z'.archiveParents = z.archiveParents) D.iterations D'.iterations
  leftover : D'.leftover = D.leftover

section Sim

variable {L : Learner K d M} {X X' : List (Point K d)} {y y' : List K}

/-! ### Predictions without stored values -/

theorem localPred_cases (L : Learner K d M) (Z : List (Point K d)) (ρ : Rule K d M) (h : ρ.st.isSome) :
    (ρ.model = none ∧ (∃ x ∈ Z, ρ.kind.call ρ.bounds x = true) ∧ ρ.localPred L false Z = .error .valueError) ∨
    (¬ (ρ.model = none ∧ ∃ x ∈ Z, ρ.kind.call ρ.bounds x = true) ∧
      ρ.localPred L false Z = .ok (Z.map (ρ.kind.call ρ.bounds), Z.map fun x => if ρ.kind.call ρ.bounds x then ρ.valueAt L x else 0)) := by
  cases hm : ρ.model with
  | some m => exact .inr ⟨by simp, ρ.localPred_uncached L Z ⟨h, by rw [hm]; rfl⟩⟩
  | none =>
    by_cases hex : ∃ x ∈ Z, ρ.kind.call ρ.bounds x = true
    · refine .inl ⟨rfl, hex, ?_⟩
      have hany : ¬ (ρ.matchRows Z).any id = false := by
        obtain ⟨x, hx, hc⟩ := hex
        have : (ρ.matchRows Z).any id = true := by
          rw [List.any_eq_true]
          exact ⟨true, by unfold Rule.matchRows; exact List.mem_map.mpr ⟨x, hx, hc⟩, rfl⟩
        simp [this]
      unfold Rule.localPred Rule.predict
      simp only [Bool.false_eq_true, if_false]
      rw [if_neg hany, hm]
    · refine .inr ⟨fun h => hex h.2, ?_⟩
      have hno : ∀ x ∈ Z, ρ.kind.call ρ.bounds x = false := fun x hx => by
        cases hb : ρ.kind.call ρ.bounds x with
        | false => rfl
        | true => exact absurd ⟨x, hx, hb⟩ hex
      unfold Rule.localPred
      simp only [Bool.false_eq_true, if_false]
      rw [if_pos (by unfold Rule.matchRows; rw [List.any_map, List.any_eq_false]; intro x hx; simp [hno x hx])]
      refine congrArg Except.ok (Prod.ext rfl ?_)
      rw [show Z.map (fun x => if ρ.kind.call ρ.bounds x = true then ρ.valueAt L x else 0) = Z.map fun _ => (0 : K) from
        List.map_congr_left fun x hx => by rw [hno x hx]; simp, List.map_const']

/-- What can happen when rules predict for some samples: it fails exactly if a rule without model matches one of them. -/
theorem mixing_cases (P : MixParams K) (Z : List (Point K d)) (sub : List (Rule K d M)) (h : ∀ ρ ∈ sub, ρ.st.isSome) :
    ((∃ ρ ∈ sub, ρ.model = none ∧ ∃ x ∈ Z, ρ.kind.call ρ.bounds x = true) ∧ mixing L P filterAll false Z sub = .error .valueError) ∨
    (¬ (∃ ρ ∈ sub, ρ.model = none ∧ ∃ x ∈ Z, ρ.kind.call ρ.bounds x = true) ∧ mixing L P filterAll false Z sub = .ok (Z.map (mixAt L P sub))) := by
  by_cases hbad : ∃ ρ ∈ sub, ρ.model = none ∧ ∃ x ∈ Z, ρ.kind.call ρ.bounds x = true
  · refine .inl ⟨hbad, ?_⟩
    have hmap : sub.mapM (Rule.localPred L false Z) = .error .valueError := by
      clear P
      induction sub with
      | nil => obtain ⟨ρ, hρ, _⟩ := hbad; cases hρ
      | cons a as ih =>
        rw [List.mapM_cons]
        rcases localPred_cases L Z a (h a (List.mem_cons_self ..)) with ⟨_, _, e⟩ | ⟨hn, e⟩
        · rw [e]; rfl
        · rw [e, ih (fun ρ hρ => h ρ (List.mem_cons_of_mem _ hρ)) (by
            obtain ⟨ρ, hρ, hb⟩ := hbad
            rcases List.mem_cons.mp hρ with rfl | hρ
            · exact absurd hb hn
            · exact ⟨ρ, hρ, hb⟩)]
          rfl
    unfold mixing
    cases sub with
    | nil => obtain ⟨ρ, hρ, _⟩ := hbad; cases hρ
    | cons a as =>
      simp only [List.isEmpty_cons, Bool.false_eq_true, if_false, filterAll]
      unfold mixRules
      rw [hmap]
      rfl
  · refine .inr ⟨hbad, ?_⟩
    unfold mixing
    cases sub with
    | nil =>
      simp only [List.isEmpty_nil, if_true]
      refine congrArg Except.ok ?_
      rw [show mixAt L P [] = fun _ => (0 : K) from funext fun x => mixAt_nil L P x, List.map_const']
    | cons a as =>
      simp only [List.isEmpty_cons, Bool.false_eq_true, if_false, filterAll]
      refine mixRules_of_state L P false Z _ h fun ρ hρ => ?_
      rcases localPred_cases L Z ρ (h ρ hρ) with ⟨h1, h2, _⟩ | ⟨_, e⟩
      · exact absurd ⟨ρ, hρ, h1, h2⟩ hbad
      · exact e

theorem mixing_takeAt (P : MixParams K) (idx : List Nat) (hi : idx.Perm (List.range X.length)) (sub : List (Rule K d M)) (h : ∀ ρ ∈ sub, ρ.st.isSome) :
    mixing L P filterAll false (takeAt idx X) sub = (mixing L P filterAll false X sub).map (takeAt idx) := by
  have hp := takeAt_perm idx X hi
  have hiff : (∃ ρ ∈ sub, ρ.model = none ∧ ∃ x ∈ takeAt idx X, ρ.kind.call ρ.bounds x = true) ↔ ∃ ρ ∈ sub, ρ.model = none ∧ ∃ x ∈ X, ρ.kind.call ρ.bounds x = true := by
    simp only [hp.mem_iff]
  rcases mixing_cases (L := L) P X sub h with ⟨h1, e⟩ | ⟨h1, e⟩ <;> rcases mixing_cases (L := L) P (takeAt idx X) sub h with ⟨h2, e'⟩ | ⟨h2, e'⟩
  · rw [e, e']; rfl
  · exact absurd (hiff.mpr h1) h2
  · exact absurd (hiff.mp h2) h1
  · rw [e, e', ← takeAt_map]; rfl

/-! ### Origins -/

theorem squaredErrorWeights_order (P : MixParams K) (idx : List Nat) (hi : idx.Perm (List.range X.length)) (hxy : y.length = X.length) {pool pool' : List (Rule K d M)}
    (h : List.Forall₂ (SameFit L X (takeAt idx X)) pool pool') (use : Bool) (el : Option (Indiv K)) :
    ERel (fun w w' => w' = takeAt idx w ∧ w.length = X.length)
      (squaredErrorWeights L P filterAll use X y (el.map fun σ => { genome := σ.genome, pool := pool, st := σ.st }))
      (squaredErrorWeights L P filterAll use (takeAt idx X) (takeAt idx y) (el.map fun σ => { genome := σ.genome, pool := pool', st := σ.st })) := by
  cases el with
  | none => exact .error _
  | some σ =>
    have key : ∀ g : List Bool, ERel (fun p p' => p' = takeAt idx p ∧ p.length = X.length)
        (Solution.predict L P filterAll false { genome := g, pool := pool, st := σ.st } X) (Solution.predict L P filterAll false { genome := g, pool := pool', st := σ.st } (takeAt idx X)) := by
      intro g
      unfold Solution.predict Solution.subpopulation
      dsimp only
      rw [← h.length_eq]
      by_cases hg : g.length = pool.length
      · rw [if_pos hg, if_pos hg]
        dsimp only
        have hsub := forall₂_compress _ _ h g
        have hst := (sameFit_facts hsub).1
        rw [mixing_order P _ hsub, mixing_takeAt P idx hi _ fun ρ hρ => (hst ρ hρ).1]
        rcases mixing_cases (L := L) P X (compress pool g) fun ρ hρ => (hst ρ hρ).1 with ⟨_, e⟩ | ⟨_, e⟩
        · rw [e]; exact .error _
        · rw [e]; exact .ok _ _ ⟨rfl, by simp⟩
      · rw [if_neg hg, if_neg hg]; exact .error _
    unfold squaredErrorWeights
    dsimp only [Option.map]
    have h2 : ERel (fun p p' => p' = takeAt idx p ∧ p.length = X.length)
        (Solution.predict L P filterAll false (if use = true then { genome := σ.genome, pool := pool, st := σ.st } else { genome := List.replicate pool.length true, pool := pool, st := σ.st }) X)
        (Solution.predict L P filterAll false (if use = true then { genome := σ.genome, pool := pool', st := σ.st } else { genome := List.replicate pool'.length true, pool := pool', st := σ.st })
          (takeAt idx X)) := by
      rw [← h.length_eq]
      cases use with
      | true => exact key σ.genome
      | false => exact key (List.replicate pool.length true)
    revert h2
    generalize Solution.predict L P filterAll false _ X = x
    generalize Solution.predict L P filterAll false _ (takeAt idx X) = x'
    intro h2
    cases h2 with
    | error e => exact .error _
    | ok p p' hp =>
      obtain ⟨rfl, hl⟩ := hp
      dsimp only
      have hpl : (takeAt idx p).length = X.length := by rw [(takeAt_perm idx p (by rw [hl]; exact hi)).length_eq, hl]
      have hyl : (takeAt idx y).length = X.length := by rw [(takeAt_perm idx y (by rw [hxy]; exact hi)).length_eq, hxy]
      rw [if_neg (by rw [hl, hxy]; simp), if_neg (by rw [hpl, hyl]; simp)]
      refine .ok _ _ ⟨?_, by simp [hl, hxy]⟩
      rw [← List.map_uncurry_zip_eq_zipWith, ← List.map_uncurry_zip_eq_zipWith, takeAt_zip _ _ _ (by rw [hl, hxy]), takeAt_map]

theorem squaredErrorProbabilities_order (P : MixParams K) (idx : List Nat) (hi : idx.Perm (List.range X.length)) (hxy : y.length = X.length) {pool pool' : List (Rule K d M)}
    (h : List.Forall₂ (SameFit L X (takeAt idx X)) pool pool') (use : Bool) (el : Option (Indiv K)) :
    ERel (fun p p' => p' = p.map (takeAt idx) ∧ ∀ q ∈ p, q.length = X.length)
      (squaredErrorProbabilities L P filterAll use X y pool (el.map fun σ => { genome := σ.genome, pool := pool, st := σ.st }))
      (squaredErrorProbabilities L P filterAll use (takeAt idx X) (takeAt idx y) pool' (el.map fun σ => { genome := σ.genome, pool := pool', st := σ.st })) := by
  unfold squaredErrorProbabilities
  have h1 := subgroup_order h use el
  have h2 := squaredErrorWeights_order P idx hi hxy h use el
  revert h1 h2
  generalize originSubgroup use pool _ = x
  generalize originSubgroup use pool' _ = x'
  generalize squaredErrorWeights L P filterAll use X y _ = w
  generalize squaredErrorWeights L P filterAll use (takeAt idx X) (takeAt idx y) _ = w'
  intro h1 h2
  cases h1 with
  | error e => exact .error e
  | ok sub sub' hsub =>
    have hemp : sub'.isEmpty = sub.isEmpty := by cases hsub <;> rfl
    simp only [bind, Except.bind, hemp]
    by_cases he : sub.isEmpty = true
    · rw [if_pos he, if_pos he]
      exact .ok _ _ ⟨rfl, by simp⟩
    · rw [if_neg he, if_neg he]
      cases h2 with
      | error e => exact .error e
      | ok w w' hw =>
        obtain ⟨rfl, hl⟩ := hw
        dsimp only
        refine .ok _ _ ⟨normalise_takeAt _ _ (by rw [hl]; exact hi), ?_⟩
        intro q hq
        unfold normalise at hq
        split at hq
        · cases hq; simp [hl]
        · cases hq

theorem drawRows_order (idx : List Nat) (hi : idx.Perm (List.range X.length)) (n : Nat) (p : Option (List K)) (hq : ∀ q ∈ p, q.length = X.length) (draw draw' : Option (List K) → List Nat)
    (hd : ∀ p : Option (List K), (∀ q ∈ p, q.length = X.length) → (draw' (p.map (takeAt idx))).map (fun j => idx.getD j X.length) = draw p) :
    drawRows (takeAt idx X) n (p.map (takeAt idx)) draw' = drawRows X n p draw := by
  have hl : (takeAt idx X).length = X.length := (takeAt_perm idx X hi).length_eq
  have hlt : ∀ i ∈ idx, i < X.length := fun i h => List.mem_range.mp (hi.subset h)
  unfold drawRows
  rw [hl, ← hd p hq]
  unfold rngChoice
  by_cases h0 : X.length = 0 ∧ n ≠ 0
  · rw [if_pos h0, if_pos h0]
  · rw [if_neg h0, if_neg h0]
    cases p with
    | none => exact takeRows_takeAt idx X hlt _
    | some q =>
      have hqp : (takeAt idx q).Perm q := takeAt_perm idx q (by rw [hq q rfl]; exact hi)
      dsimp only [Option.map]
      have hany : (takeAt idx q).any (fun q => decide (q < 0)) = q.any fun q => decide (q < 0) := by
        rw [Bool.eq_iff_iff, List.any_eq_true, List.any_eq_true]
        simp only [hqp.mem_iff]
      rw [hqp.length_eq, hqp.sum_eq, hany]
      by_cases hb : q.length ≠ X.length ∨ (q.any fun q => decide (q < 0)) = true ∨ q.sum ≠ 1
      · rw [if_pos hb, if_pos hb]
      · rw [if_neg hb, if_neg hb]
        exact takeRows_takeAt idx X hlt _

theorem originsOf_order (s : OriginStrategy) (P : MixParams K) (idx : List Nat) (hi : idx.Perm (List.range X.length)) (hxy : y.length = X.length) {pool pool' : List (Rule K d M)}
    (h : List.Forall₂ (SameFit L X (takeAt idx X)) pool pool') (el : Option (Indiv K)) (n : Nat) (draw draw' : Option (List K) → List Nat) (u : Nat → Point K d)
    (hd : ∀ p : Option (List K), (∀ q ∈ p, q.length = X.length) → (draw' (p.map (takeAt idx))).map (fun j => idx.getD j X.length) = draw p) :
    originsOf s L P filterAll (takeAt idx X) (takeAt idx y) pool' el n draw' u = originsOf s L P filterAll X y pool el n draw u := by
  have hX : (takeAt idx X).Perm X := takeAt_perm idx X hi
  unfold originsOf
  dsimp only
  cases s with
  | uniformInput =>
    dsimp only
    unfold uniformInput
    rw [estimateBounds_order hX.symm]
  | uniformSamples => exact drawRows_order idx hi n none (by simp) draw draw' hd
  | matching use =>
    dsimp only
    rw [hX.length_eq]
    have h1 := matchingProbabilities_order idx hi h use el
    revert h1
    generalize matchingProbabilities use X.length pool _ = x
    generalize matchingProbabilities use X.length pool' _ = x'
    intro h1
    cases h1 with
    | error e => rfl
    | ok p p' hp =>
      obtain ⟨rfl, hq⟩ := hp
      exact drawRows_order idx hi n p hq draw draw' hd
  | squaredError use =>
    dsimp only
    have h1 := squaredErrorProbabilities_order P idx hi hxy h use el
    revert h1
    generalize squaredErrorProbabilities L P filterAll use X y pool _ = x
    generalize squaredErrorProbabilities L P filterAll use (takeAt idx X) (takeAt idx y) pool' _ = x'
    intro h1
    cases h1 with
    | error e => rfl
    | ok p p' hp =>
      obtain ⟨rfl, hq⟩ := hp
      exact drawRows_order idx hi n p hq draw draw' hd

/-! ### Random search -/

theorem rsGroup_order (cfg : RSCfg K) (hL : L.OrderFree) (ff : RuleFitness K d) (P : MixParams K) (idx : List Nat) (hi : idx.Perm (List.range X.length)) (hxy : y.length = X.length)
    {D D' : RSDraws K d} (hD : SameRSDraws X.length idx D D') {pool pool' : List (Rule K d M)} (h : List.Forall₂ (SameFit L X (takeAt idx X)) pool pool') (el : Option (Indiv K)) (fb : Pairs K d) (g : Nat) :
    ERel (List.Forall₂ (SameFit L X (takeAt idx X))) (rsGroup cfg L ff P filterAll D el pool X y fb g) (rsGroup cfg L ff P filterAll D' el pool' (takeAt idx X) (takeAt idx y) fb g) := by
  have hy : (takeAt idx y).Perm y := takeAt_perm idx y (by rw [hxy]; exact hi)
  have hX : (takeAt idx X).Perm X := takeAt_perm idx X hi
  have hxy' : (takeAt idx y).length = (takeAt idx X).length := by rw [hy.length_eq, hX.length_eq, hxy]
  have hp : (X.zip y).Perm ((takeAt idx X).zip (takeAt idx y)) := by
    rw [takeAt_zip _ _ _ hxy]
    exact (takeAt_perm idx _ (by simpa [hxy] using hi)).symm
  unfold rsGroup
  rw [hD.uniform, hD.init, originsOf_order cfg.origin P idx hi hxy h el _ (D.origins g) (D'.origins g) _ (hD.origins g)]
  cases originsOf cfg.origin L P filterAll X y pool el cfg.rulesGenerated (D.origins g) (D.uniform g) with
  | error e => exact .error e
  | ok os =>
    dsimp only
    refine ERel.mapM (R := Eq) _ _ _ _ (List.forall₂_eq_eq_eq ▸ rfl) ?_
    rintro p _ rfl
    unfold rsRule
    cases halfnormInit .ordered p.1 (D.init g p.2) with
    | error e => exact .error e
    | ok b => exact fit_order hL ff hxy hxy' hp _ rfl rfl

theorem ruleFittest_sim {A : Rule K d M → Rule K d M → Prop} (hst : ∀ ρ ρ', A ρ ρ' → ρ'.st.isSome = ρ.st.isSome) (hf : ∀ ρ ρ', A ρ ρ' → ruleFitnessOf ρ' = ruleFitnessOf ρ)
    {l l' : List (Rule K d M)} (h : List.Forall₂ A l l') (n : Nat) : ERel (List.Forall₂ A) (ruleFittest l n) (ruleFittest l' n) := by
  unfold ruleFittest
  have hall : (l'.all fun ρ => ρ.st.isSome) = l.all fun ρ => ρ.st.isSome := by
    induction h with
    | nil => rfl
    | cons h1 _ ih => rw [List.all_cons, List.all_cons, ih, hst _ _ h1]
  rw [hall]
  by_cases hc : (l.all fun ρ => ρ.st.isSome) = true
  · rw [if_pos hc, if_pos hc]
    exact .ok _ _ (forall₂_take n _ _ (forall₂_sortedDesc _ _ hf _ _ h))
  · rw [if_neg hc, if_neg hc]
    exact .error _

theorem SameFit.st_isSome {ρ ρ' : Rule K d M} (h : SameFit L X X' ρ ρ') : ρ'.st.isSome = ρ.st.isSome := by
  obtain ⟨s, s', h1, h2, _⟩ := h.st
  rw [h1, h2]
  rfl

theorem rsDiscover_order (cfg : RSCfg K) (hL : L.OrderFree) (ff : RuleFitness K d) (P : MixParams K) (idx : List Nat) (hi : idx.Perm (List.range X.length)) (hxy : y.length = X.length)
    {D D' : RSDraws K d} (hD : SameRSDraws X.length idx D D') {pool pool' : List (Rule K d M)} (h : List.Forall₂ (SameFit L X (takeAt idx X)) pool pool') (el : Option (Indiv K)) (n : Nat) :
    ERel (List.Forall₂ (SameFit L X (takeAt idx X))) (rsDiscover cfg L ff P filterAll D el pool X y n) (rsDiscover cfg L ff P filterAll D' el pool' (takeAt idx X) (takeAt idx y) n) := by
  have hy : (takeAt idx y).Perm y := takeAt_perm idx y (by rw [hxy]; exact hi)
  have hX : (takeAt idx X).Perm X := takeAt_perm idx X hi
  have hxy' : (takeAt idx y).length = (takeAt idx X).length := by rw [hy.length_eq, hX.length_eq, hxy]
  have hp : (X.zip y).Perm ((takeAt idx X).zip (takeAt idx y)) := by
    rw [takeAt_zip _ _ _ hxy]
    exact (takeAt_perm idx _ (by simpa [hxy] using hi)).symm
  unfold rsDiscover
  rw [estimateBounds_order hX.symm]
  cases estimateBounds X with
  | error e => exact .error e
  | ok fb =>
    dsimp only
    have h1 := ERel.mapM (R := Eq) (S := List.Forall₂ (SameFit L X (takeAt idx X))) (rsGroup cfg L ff P filterAll D el pool X y fb)
      (rsGroup cfg L ff P filterAll D' el pool' (takeAt idx X) (takeAt idx y) fb) (List.range n) (List.range n) (List.forall₂_eq_eq_eq ▸ rfl)
      (by rintro g _ rfl; exact rsGroup_order cfg hL ff P idx hi hxy hD h el fb g)
    revert h1
    generalize (List.range n).mapM (rsGroup cfg L ff P filterAll D el pool X y fb) = x
    generalize (List.range n).mapM (rsGroup cfg L ff P filterAll D' el pool' (takeAt idx X) (takeAt idx y) fb) = x'
    intro h1
    cases h1 with
    | error e => exact .error e
    | ok gs gs' hg =>
      exact randomSearch_sim _ _ (fun l l' _ hl => ruleFittest_sim (fun _ _ h => h.st_isSome) (fun _ _ h => h.fitnessOf) hl 1) _ _ (fun a b hab => acceptVariance_order _ hxy hxy' hp hab) _ _
        (forall₂_map_map hg _ _ fun _ _ h => ⟨h, rfl⟩)

/-! ### Novelty search -/

theorem childRule_order_of_bounds (hL : L.OrderFree) (ff : RuleFitness K d) (hxy : y.length = X.length) (hxy' : y'.length = X'.length) (hp : (X.zip y).Perm (X'.zip y')) (m : Mutation) (r : K)
    (fb : Pairs K d) {ρ ρ' : Rule K d M} (h1 : ρ'.kind = ρ.kind) (h2 : ρ'.bounds = ρ.bounds) (h3 : ρ'.inputSpace = ρ.inputSpace) (z : Pairs K d) :
    ERel (SameFit L X X') (childRule L ff X y m r fb ρ z) (childRule L ff X' y' m r fb ρ' z) := by
  unfold childRule
  rw [h1, h2]
  have hc : ρ'.clone = ρ.clone := by unfold Rule.clone; rw [h1, h2, h3]
  cases childBounds m ρ.kind r fb z ρ.bounds with
  | error e => exact .error e
  | ok b =>
    dsimp only
    rw [hc]
    exact fit_order hL ff hxy hxy' hp _ rfl rfl

theorem breedRules_order (hL : L.OrderFree) (ff : RuleFitness K d) (hxy : y.length = X.length) (hxy' : y'.length = X'.length) (hp : (X.zip y).Perm (X'.zip y')) (m : Mutation) (r rate : K)
    (fb : Pairs K d) {A A' B B' : Rule K d M} (hA : SameFit L X X' A A') (hB : SameFit L X X' B B') (z : BreedDraw K d) :
    ERel (List.Forall₂ (SameFit L X X')) (breedRules L ff X y m r rate fb A B z) (breedRules L ff X' y' m r rate fb A' B' z) := by
  unfold breedRules
  have hc : ruleCrossover A'.kind rate z.u z.mask A'.bounds B'.bounds = ruleCrossover A.kind rate z.u z.mask A.bounds B.bounds := by rw [hA.kind, hA.bounds, hB.bounds]
  rw [hc]
  cases ruleCrossover A.kind rate z.u z.mask A.bounds B.bounds with
  | error e => exact .error e
  | ok p =>
    obtain ⟨a, b⟩ := p
    dsimp only
    have h1 := childRule_order_of_bounds hL ff hxy hxy' hp m r fb (ρ := { A with bounds := a }) (ρ' := { A' with bounds := a }) hA.kind rfl hA.space z.first
    have h2 := childRule_order_of_bounds hL ff hxy hxy' hp m r fb (ρ := { B with bounds := b }) (ρ' := { B' with bounds := b }) hB.kind rfl hB.space z.second
    revert h1 h2
    generalize childRule L ff X y m r fb { A with bounds := a } z.first = c
    generalize childRule L ff X' y' m r fb _ z.first = c'
    generalize childRule L ff X y m r fb { B with bounds := b } z.second = e
    generalize childRule L ff X' y' m r fb _ z.second = e'
    intro h1 h2
    cases h1 with
    | error e => exact .error e
    | ok c1 c1' hc1 =>
      cases h2 with
      | error e => exact .error e
      | ok c2 c2' hc2 => exact .ok _ _ (.cons hc1 (.cons hc2 .nil))

theorem hamming_perm {α : Type} (p q : α → Bool) {X X' : List α} (h : X.Perm X') : (hamming (X'.map p) (X'.map q) : Except PyErr K) = hamming (X.map p) (X.map q) := by
  unfold hamming
  have e : ∀ Y : List α, ((Y.map p).zip (Y.map q)).countP (fun r => r.1 != r.2) = Y.countP fun x => p x != q x := by
    intro Y
    induction Y with
    | nil => rfl
    | cons a as ih => simp only [List.map_cons, List.zip_cons_cons, List.countP_cons, ih]
  simp only [List.length_map, e, h.countP_eq, h.length_eq]

theorem ruleView_order (hXX : X.Perm X') : NsViewSim id (SameFit L X X') (ruleView : NsView (Rule K d M) K) ruleView where
  mono := strictMono_id
  hamming := by
    intro a a' b b' ha hb
    obtain ⟨s, s', h1, h2, _, _, _, _, e1, e2⟩ := ha.st
    obtain ⟨t, t', h3, h4, _, _, _, _, e3, e4⟩ := hb.st
    show (Suprb.hamming ((a'.st.map RuleState.matchSet).getD []) ((b'.st.map RuleState.matchSet).getD []) : Except PyErr K) = Suprb.hamming ((a.st.map RuleState.matchSet).getD []) ((b.st.map RuleState.matchSet).getD [])
    rw [h1, h2, h3, h4]
    simp only [Option.map, Option.getD]
    rw [e1, e2, e3, e4]
    exact hamming_perm _ _ hXX
  matched := by
    intro a a' ha
    obtain ⟨s, s', h1, h2, _, _, _, _, e1, e2⟩ := ha.st
    show ((a'.st.map RuleState.matchSet).getD []).count true = ((a.st.map RuleState.matchSet).getD []).count true
    rw [h1, h2]
    simp only [Option.map, Option.getD]
    rw [e1, e2]
    exact (hXX.map _).symm.count_eq _
  fitness := fun _ _ h => by rw [WithBot.map_id]; exact h.fitnessOf
  experience := by
    intro a a' ha
    obtain ⟨s, s', h1, h2, _, _, _, e, _⟩ := ha.st
    show (a'.st.map RuleState.experience).getD 0 = (a.st.map RuleState.experience).getD 0
    rw [h1, h2]
    exact e

theorem nsDiscover_order (p : NSParams K) (hL : L.OrderFree) (ff : RuleFitness K d) (P : MixParams K) (idx : List Nat) (hi : idx.Perm (List.range X.length)) (hxy : y.length = X.length)
    {D D' : NSDraws K d M} (hD : SameNSDraws L X idx D D') {pool pool' : List (Rule K d M)} (h : List.Forall₂ (SameFit L X (takeAt idx X)) pool pool') (el : Option (Indiv K)) (n : Nat) :
    ERel (List.Forall₂ (SameFit L X (takeAt idx X))) (nsDiscover p L ff P filterAll D el pool X y n) (nsDiscover p L ff P filterAll D' el pool' (takeAt idx X) (takeAt idx y) n) := by
  have hy : (takeAt idx y).Perm y := takeAt_perm idx y (by rw [hxy]; exact hi)
  have hX : (takeAt idx X).Perm X := takeAt_perm idx X hi
  have hxy' : (takeAt idx y).length = (takeAt idx X).length := by rw [hy.length_eq, hX.length_eq, hxy]
  have hp : (X.zip y).Perm ((takeAt idx X).zip (takeAt idx y)) := by
    rw [takeAt_zip _ _ _ hxy]
    exact (takeAt_perm idx _ (by simpa [hxy] using hi)).symm
  unfold nsDiscover
  rw [estimateBounds_order hX.symm]
  cases estimateBounds X with
  | error e => exact .error e
  | ok fb =>
    dsimp only
    have h1 := rsGroup_order p.start hL ff P idx hi hxy (D := ⟨fun _ => D.origins, fun _ => D.uniform, fun _ => D.init⟩) (D' := ⟨fun _ => D'.origins, fun _ => D'.uniform, fun _ => D'.init⟩)
      ⟨fun _ => hD.origins, by rw [hD.uniform], by rw [hD.init]⟩ h el fb 0
    revert h1
    generalize rsGroup p.start L ff P filterAll _ el pool X y fb 0 = x
    generalize rsGroup p.start L ff P filterAll _ el pool' (takeAt idx X) (takeAt idx y) fb 0 = x'
    intro h1
    cases h1 with
    | error e => exact .error e
    | ok initial initial' hini =>
      dsimp only
      refine nsOptimize_sim (ruleView_order hX.symm) (S := Eq) ?_ p.ns (.inr rfl) _ _ ?_ _ _ (fun a b hab => acceptVariance_order _ hxy hxy' hp hab) n ?_ hini _ _ ?_
      · rintro a a' b b' z _ ha hb rfl
        exact breedRules_order hL ff hxy hxy' hp _ _ _ fb ha hb z
      · intro a b hab
        obtain ⟨s, s', h1, h2, h3, _, _, h4, _⟩ := hab.st
        unfold validRule
        rw [h1, h2]
        dsimp only
        rw [h3, h4]
      · unfold poolObjects
        rw [hD.leftover, ← h.length_eq]
        exact forall₂_map_map (forall₂_zip _ _ h _ _ (List.forall₂_eq_eq_eq ▸ rfl : List.Forall₂ Eq (List.range pool.length) (List.range pool.length))) _ _
          fun a b hab => ⟨hab.1, by rw [hab.2], by rw [hab.2], rfl⟩
      · exact hD.iterations.imp fun z z' hz => ⟨hz.1, fun i => by rw [hz.2.1], hz.2.2.1, hz.2.2.2⟩

end Sim

/-! ### C144 -/

/-- The whole training, for any rule discovery that gives corresponding rules. -/
theorem order_fit (idx : List Nat) (cfg : SupCfg K) (c c' : SupComp K d M) (hL' : c'.learner = c.learner) (hmix : c'.mix = c.mix) (hf : c.filter = filterAll) (hf' : c'.filter = filterAll)
    (hsf : c'.fitness = c.fitness) (raw : RawData K d) (hxy : raw.y.length = raw.X.length) (hi : idx.Perm (List.range raw.X.length))
    (hc : CompSim (SameFit c.learner raw.X (takeAt idx raw.X)) c c' raw.X (takeAt idx raw.X) raw.y (takeAt idx raw.y)) (entropy step : Nat) (cl : Bool) :
    let r := SupState.fit cfg c entropy raw cl { step := step }
    let r2 := SupState.fit cfg c' entropy { raw with X := takeAt idx raw.X, y := takeAt idx raw.y } cl { step := step }
    r2.raised = r.raised ∧ List.Forall₂ (Spec.SameResult c.learner) r.state.pool r2.state.pool ∧
      (∀ σ, r.state.elitist = some (.solution σ) → ∃ σ', r2.state.elitist = some (.solution σ') ∧ σ'.genome = σ.genome ∧ σ'.st = σ.st) ∧
      ∀ Xq, r2.state.predict c' Xq = r.state.predict c Xq := by
  intro r r2
  have hX : (takeAt idx raw.X).Perm raw.X := takeAt_perm idx raw.X hi
  have hy : (takeAt idx raw.y).Perm raw.y := takeAt_perm idx raw.y (by rw [hxy]; exact hi)
  have hxy' : (takeAt idx raw.y).length = (takeAt idx raw.X).length := by rw [hy.length_eq, hX.length_eq, hxy]
  have hp : (raw.X.zip raw.y).Perm ((takeAt idx raw.X).zip (takeAt idx raw.y)) := by
    rw [takeAt_zip _ _ _ hxy]
    exact (takeAt_perm idx _ (by simpa [hxy] using hi)).symm
  have h := fit_sim (raw := raw) (raw' := { raw with X := takeAt idx raw.X, y := takeAt idx raw.y }) hc cfg rfl hX.length_eq hy.length_eq
    (fun pool pool' hpool => by unfold runEval; rw [hL', hmix, hf, hf', hsf]; exact evalGenome_order _ _ hxy hxy' hp hpool) entropy cl { step := step } { step := step } ⟨rfl, rfl, rfl, .none, .nil, rfl⟩
  refine ⟨h.raised, h.state.pool.imp fun _ _ h => h.result, ?_, fun Xq => ?_⟩
  · intro σ hσ
    have he := h.state.elitist
    change Option.Rel _ r.state.elitist r2.state.elitist at he
    rw [hσ] at he
    revert he
    generalize r2.state.elitist = e
    intro he
    cases he with
    | some he =>
      cases he with
      | solution g pool pool' st _ => exact ⟨_, rfl, rfl, rfl⟩
  · exact predict_sim Xq Xq rfl (fun pool pool' hpool => by rw [hL', hmix, hf, hf']; exact mixing_order _ Xq hpool) _ _ h.state

/-- C144 with the evolution strategy, any composition strategy (given the same random numbers it does the same) and any parameters of the mixing model. -/
theorem C144_composition (idx : List Nat) (cfg : SupCfg K) (es : ESCfg K) (ga : GACfg K) (L : Learner K d M) (hL : L.OrderFree) (ff : RuleFitness K d) (sf : Nat → SolFitness K)
    (S S' : Seed → List (Event K d M) → Strategy K) (P : MixParams K)
    (raw : RawData K d) (hS : SameStrategies L raw.X idx S S') (hxy : raw.y.length = raw.X.length) (hi : idx.Perm (List.range raw.X.length)) (D D' : RunDraws K d M)
    (hD : SameSampleDraws L raw.X idx D D') (entropy step : Nat) (cl : Bool) :
    let c : SupComp K d M := { defaultComp es ga D L ff sf with strategy := S, mix := P }
    let c' : SupComp K d M := { defaultComp es ga D' L ff sf with strategy := S', mix := P }
    let r := SupState.fit cfg c entropy raw cl { step := step }
    let r2 := SupState.fit cfg c' entropy { raw with X := takeAt idx raw.X, y := takeAt idx raw.y } cl { step := step }
    r2.raised = r.raised ∧ List.Forall₂ (Spec.SameResult L) r.state.pool r2.state.pool ∧
      (∀ σ, r.state.elitist = some (.solution σ) → ∃ σ', r2.state.elitist = some (.solution σ') ∧ σ'.genome = σ.genome ∧ σ'.st = σ.st) ∧
      ∀ Xq, r2.state.predict c' Xq = r.state.predict c Xq := by
  intro c c'
  refine order_fit idx cfg c c' rfl rfl rfl rfl rfl raw hxy hi ⟨?_, hS, hD.init⟩ entropy step cl
  intro seed hist hist' el pool pool' n hh hpool
  have hX : (takeAt idx raw.X).Perm raw.X := takeAt_perm idx raw.X hi
  show ERel _ (esDiscover es L ff (D.origins seed hist raw.X.length n) (D.children seed hist) el pool raw.X raw.y n)
    (esDiscover es L ff (D'.origins seed hist' (takeAt idx raw.X).length n) (D'.children seed hist') el pool' (takeAt idx raw.X) (takeAt idx raw.y) n)
  rw [hX.length_eq, hD.children seed hist hist' hh]
  exact esDiscover_order es hL ff idx hi hxy _ _ (hD.origins seed hist hist' hh n) _ el hpool n

/-- C144 with random search as rule discovery (with any of the origin strategies) and any composition strategy. -/
theorem C144_random (idx : List Nat) (cfg : SupCfg K) (rs : RSCfg K) (ga : GACfg K) (L : Learner K d M) (hL : L.OrderFree) (ff : RuleFitness K d) (sf : Nat → SolFitness K)
    (S S' : Seed → List (Event K d M) → Strategy K)
    (raw : RawData K d) (hS : SameStrategies L raw.X idx S S') (hxy : raw.y.length = raw.X.length) (hi : idx.Perm (List.range raw.X.length)) (D D' : RunDraws K d M) (hD : D'.init = D.init)
    (R R' : Seed → List (Event K d M) → RSDraws K d)
    (hR : ∀ seed hist hist', List.Forall₂ (EventRel (SameFit L raw.X (takeAt idx raw.X))) hist hist' → SameRSDraws raw.X.length idx (R seed hist) (R' seed hist')) (entropy step : Nat) (cl : Bool) :
    let c : SupComp K d M := { rsComp rs ga R D L ff sf with strategy := S }
    let c' : SupComp K d M := { rsComp rs ga R' D' L ff sf with strategy := S' }
    let r := SupState.fit cfg c entropy raw cl { step := step }
    let r2 := SupState.fit cfg c' entropy { raw with X := takeAt idx raw.X, y := takeAt idx raw.y } cl { step := step }
    r2.raised = r.raised ∧ List.Forall₂ (Spec.SameResult L) r.state.pool r2.state.pool ∧
      (∀ σ, r.state.elitist = some (.solution σ) → ∃ σ', r2.state.elitist = some (.solution σ') ∧ σ'.genome = σ.genome ∧ σ'.st = σ.st) ∧
      ∀ Xq, r2.state.predict c' Xq = r.state.predict c Xq := by
  intro c c'
  refine order_fit idx cfg c c' rfl rfl rfl rfl rfl raw hxy hi ⟨?_, hS, hD⟩ entropy step cl
  intro seed hist hist' el pool pool' n hh hpool
  exact rsDiscover_order rs hL ff _ idx hi hxy (hR seed hist hist' hh) hpool el n

/-- C144 with novelty search as rule discovery (any variant, type, archive and origin strategy) and any composition strategy. -/
theorem C144_novelty (idx : List Nat) (cfg : SupCfg K) (p : NSParams K) (ga : GACfg K) (L : Learner K d M) (hL : L.OrderFree) (ff : RuleFitness K d) (sf : Nat → SolFitness K)
    (S S' : Seed → List (Event K d M) → Strategy K)
    (raw : RawData K d) (hS : SameStrategies L raw.X idx S S') (hxy : raw.y.length = raw.X.length) (hi : idx.Perm (List.range raw.X.length)) (D D' : RunDraws K d M) (hD : D'.init = D.init)
    (R R' : Seed → List (Event K d M) → NSDraws K d M)
    (hR : ∀ seed hist hist', List.Forall₂ (EventRel (SameFit L raw.X (takeAt idx raw.X))) hist hist' → SameNSDraws L raw.X idx (R seed hist) (R' seed hist')) (entropy step : Nat) (cl : Bool) :
    let c : SupComp K d M := { nsComp p ga R D L ff sf with strategy := S }
    let c' : SupComp K d M := { nsComp p ga R' D' L ff sf with strategy := S' }
    let r := SupState.fit cfg c entropy raw cl { step := step }
    let r2 := SupState.fit cfg c' entropy { raw with X := takeAt idx raw.X, y := takeAt idx raw.y } cl { step := step }
    r2.raised = r.raised ∧ List.Forall₂ (Spec.SameResult L) r.state.pool r2.state.pool ∧
      (∀ σ, r.state.elitist = some (.solution σ) → ∃ σ', r2.state.elitist = some (.solution σ') ∧ σ'.genome = σ.genome ∧ σ'.st = σ.st) ∧
      ∀ Xq, r2.state.predict c' Xq = r.state.predict c Xq := by
  intro c c'
  refine order_fit idx cfg c c' rfl rfl rfl rfl rfl raw hxy hi ⟨?_, hS, hD⟩ entropy step cl
  intro seed hist hist' el pool pool' n hh hpool
  exact nsDiscover_order p hL ff _ idx hi hxy (hR seed hist hist' hh) hpool el n

/-- The hypotheses can be met: three samples in another order, always the first sample (the second one in the new order) as origin, the parents the first two rules of the population. -/
example (L : Learner ℚ 1 M) (h : Pairs ℚ 1) : ([2, 0, 1] : List Nat).Perm (List.range 3) ∧
    SameRSDraws 3 [2, 0, 1] (⟨fun _ _ => List.replicate 7 0, fun _ _ _ => 1 / 2, fun _ _ => h⟩ : RSDraws ℚ 1) ⟨fun _ _ => List.replicate 7 1, fun _ _ _ => 1 / 2, fun _ _ => h⟩ ∧
    SameNSDraws L [![0], ![1], ![5]] [2, 0, 1]
      (⟨fun _ => [0, 0], fun _ _ => 1 / 2, fun _ => h, [⟨fun _ => .ok [0, 1], fun _ => ⟨1 / 2, fun _ => true, h, h⟩, .novel, .novel⟩], fun _ => ([], none)⟩ : NSDraws ℚ 1 M)
      ⟨fun _ => [1, 1], fun _ _ => 1 / 2, fun _ => h, [⟨fun _ => .ok [0, 1], fun _ => ⟨1 / 2, fun _ => true, h, h⟩, .novel, .novel⟩], fun _ => ([], none)⟩ :=
  ⟨by decide, ⟨fun _ _ _ => rfl, rfl, rfl⟩, ⟨fun _ _ => rfl, rfl, rfl, .cons ⟨fun _ _ _ => rfl, rfl, rfl, rfl⟩ .nil, rfl⟩⟩

end Suprb
