import Verif.Lemmas.Relabel
import Verif.Props.Metamorphic
import Verif.Props.Discovery
import Verif.Props.Utils
import Verif.Props.Ridge
import Verif.Props.Default

/-!
# Claim C144: the order of the training samples, for whole trainings
-/

set_option autoImplicit false
set_option linter.unusedSectionVars false

namespace Suprb

open Spec Json

/-! ### Specification -/

/-- The elements at the given positions, numpy's `a[idx]`. -/
def Spec.takeAt {α : Type} (idx : List Nat) (l : List α) : List α := idx.filterMap (l[·]?)

open Spec (takeAt)

theorem takeAt_map {α β : Type} (f : α → β) (idx : List Nat) (l : List α) : takeAt idx (l.map f) = (takeAt idx l).map f := by
  unfold takeAt
  rw [List.map_filterMap]
  congr 1
  funext i
  rw [List.getElem?_map]

theorem takeAt_perm {α : Type} (idx : List Nat) (l : List α) (h : idx.Perm (List.range l.length)) : (takeAt idx l).Perm l := by
  refine (h.filterMap _).trans (List.Perm.of_eq ?_)
  induction l using List.reverseRecOn with
  | nil => rfl
  | append_singleton l a ih =>
    clear ih h
    apply List.ext_getElem?
    intro i
    have : ∀ m : List α, (List.range m.length).filterMap (m[·]?) = m := by
      intro m
      induction m with
      | nil => rfl
      | cons b m ih =>
        rw [List.length_cons, List.range_succ_eq_map, List.filterMap_cons, List.filterMap_map]
        simp only [List.getElem?_cons_zero, Function.comp_def, List.getElem?_cons_succ, Nat.succ_eq_add_one, ih]
    rw [this]

theorem takeAt_zip {α β : Type} (idx : List Nat) (l : List α) (m : List β) (h : m.length = l.length) : (takeAt idx l).zip (takeAt idx m) = takeAt idx (l.zip m) := by
  unfold takeAt
  induction idx with
  | nil => rfl
  | cons i is ih =>
    by_cases hi : i < l.length
    · rw [List.filterMap_cons, List.filterMap_cons, List.filterMap_cons, List.getElem?_eq_getElem hi, List.getElem?_eq_getElem (h ▸ hi),
        List.getElem?_eq_getElem (by simp [h, hi])]
      simp only [List.zip_cons_cons, ih, List.getElem_zip]
    · rw [List.filterMap_cons, List.filterMap_cons, List.filterMap_cons, List.getElem?_eq_none (by omega), List.getElem?_eq_none (by omega),
        List.getElem?_eq_none (by simp [h]; omega)]
      exact ih

theorem takeAt_getElem? {α : Type} (idx : List Nat) (l : List α) (h : ∀ i ∈ idx, i < l.length) (j : Nat) : (takeAt idx l)[j]? = l[idx.getD j l.length]? := by
  unfold takeAt
  induction idx generalizing j with
  | nil => simp
  | cons i is ih =>
    have hi : i < l.length := h i (List.mem_cons_self ..)
    rw [List.filterMap_cons, List.getElem?_eq_getElem hi]
    cases j with
    | zero => simp [List.getElem?_eq_getElem hi]
    | succ j => simpa using ih (fun i h' => h i (List.mem_cons_of_mem _ h')) j

variable {K : Type} [Field K] [LinearOrder K] [IsStrictOrderedRing K] {d : Nat} {M : Type}

/-- The same rule trained on the samples in two orders: same condition, error, fitness, experience and local model. What is stored per sample (matches and predictions) belongs to the respective order. -/
structure SameFit (L : Learner K d M) (X X' : List (Point K d)) (ρ ρ' : Rule K d M) : Prop where
  kind : ρ'.kind = ρ.kind
  bounds : ρ'.bounds = ρ.bounds
  space : ρ'.inputSpace = ρ.inputSpace
  model : Option.Rel (fun m m' => ∀ x, L.predict m' x = L.predict m x) ρ.model ρ'.model
  st : ∃ s s', ρ.st = some s ∧ ρ'.st = some s' ∧ s'.isFitted = s.isFitted ∧ s'.error = s.error ∧ s'.fitness = s.fitness ∧ s'.experience = s.experience ∧
    s.matchSet = X.map (ρ.kind.call ρ.bounds) ∧ s'.matchSet = X'.map (ρ.kind.call ρ.bounds)
  loc : ρ.localPred L true X = .ok (X.map (ρ.kind.call ρ.bounds), X.map fun x => if ρ.kind.call ρ.bounds x then ρ.valueAt L x else 0)
  loc' : ρ'.localPred L true X' = .ok (X'.map (ρ'.kind.call ρ'.bounds), X'.map fun x => if ρ'.kind.call ρ'.bounds x then ρ'.valueAt L x else 0)

/-- Two runs on the same samples in two orders (`idx` are the old positions in the new order) draw the same random numbers, as long as what happened before corresponds: the same samples
as origins (their new positions) if the same probabilities are given (in the new order), and the same numbers elsewhere. -/
structure SameSampleDraws (L : Learner K d M) (X : List (Point K d)) (idx : List Nat) (D D' : RunDraws K d M) : Prop where
  origins : ∀ seed hist hist', List.Forall₂ (EventRel (SameFit L X (takeAt idx X))) hist hist' → ∀ n (p : Option (List K)), (∀ q ∈ p, q.length = X.length) →
    (D'.origins seed hist' X.length n (p.map (takeAt idx))).map (fun j => idx.getD j X.length) = D.origins seed hist X.length n p
  children : ∀ seed hist hist', List.Forall₂ (EventRel (SameFit L X (takeAt idx X))) hist hist' → D'.children seed hist' = D.children seed hist
  ga : ∀ seed hist hist', List.Forall₂ (EventRel (SameFit L X (takeAt idx X))) hist hist' → D'.ga seed hist' = D.ga seed hist
  init : D'.init = D.init

/-! ### Training one rule -/

section Sim

variable {L : Learner K d M} {X X' : List (Point K d)} {y y' : List K}

theorem cachedPred_of_fit (L : Learner K d M) (ff : RuleFitness K d) (X : List (Point K d)) (y : List K) (hxy : y.length = X.length) (ρ : Rule K d M) (h : ρ.FreshOn X) :
    (ρ.fitOf L ff X y).localPred L true X = .ok (X.map (ρ.kind.call ρ.bounds), X.map fun x => if ρ.kind.call ρ.bounds x then (ρ.fitOf L ff X y).valueAt L x else 0) := by
  refine (localPred_cached L ff X y hxy (ρ.fitOf L ff X y) ⟨ρ, 0, h.1, h.2.1, ?_⟩ h.2.2).2
  unfold Rule.fits
  simp only [List.replicate_zero, List.nil_append, List.foldlM_cons, List.foldlM_nil]
  rw [ρ.fit_fitOf L ff X y hxy h]
  rfl

theorem unmatched_local (L : Learner K d M) (X : List (Point K d)) (ρ : Rule K d M) (s : RuleState K) (hs : ρ.st = some s) (hm : s.matchSet = X.map (ρ.kind.call ρ.bounds)) (hp : s.pred = [])
    (h : ∀ x ∈ X, ρ.kind.call ρ.bounds x = false) :
    ρ.localPred L true X = .ok (X.map (ρ.kind.call ρ.bounds), X.map fun x => if ρ.kind.call ρ.bounds x then ρ.valueAt L x else 0) := by
  unfold Rule.localPred
  rw [if_pos rfl, hs]
  dsimp only
  rw [hm, hp, if_neg (by simp)]
  have hf : X.filter (ρ.kind.call ρ.bounds) = [] := List.filter_eq_nil_iff.mpr fun x hx => by rw [h x hx]; simp
  have := scatter_compress (ρ.kind.call ρ.bounds) (ρ.valueAt L) X
  rw [hf, List.map_nil] at this
  rw [this]

theorem fit_order (hL : L.OrderFree) (ff : RuleFitness K d) (hxy : y.length = X.length) (hxy' : y'.length = X'.length) (hp : (X.zip y).Perm (X'.zip y')) (ρ : Rule K d M)
    (h0 : ρ.st = none) (h1 : ρ.model = none) : ERel (SameFit L X X') (ρ.fit L ff X y) (ρ.fit L ff X' y') := by
  by_cases hex : ∃ x ∈ X, ρ.kind.call ρ.bounds x = true
  · have hf : ρ.FreshOn X := ⟨h0, h1, hex⟩
    have hf' := hf.perm hxy hp
    rw [ρ.fit_fitOf L ff X y hxy hf, ρ.fit_fitOf L ff X' y' hxy' hf']
    refine .ok _ _ ⟨rfl, rfl, rfl, .some fun x => hL _ _ x (matchedData_perm ρ hp), ⟨_, _, rfl, rfl, rfl, ?_, ?_, ?_, rfl, rfl⟩, cachedPred_of_fit L ff X y hxy ρ hf,
      cachedPred_of_fit L ff X' y' hxy' ρ hf'⟩
    · rw [fitOf_perm L hL ρ hp]
    · rw [fitOf_perm L hL ρ hp]
    · exact (matchedData_perm ρ hp).length_eq.symm
  · have hno : ∀ x ∈ X, ρ.kind.call ρ.bounds x = false := fun x hx => by
      cases hb : ρ.kind.call ρ.bounds x with
      | false => rfl
      | true => exact absurd ⟨x, hx, hb⟩ hex
    have hno' : ∀ x ∈ X', ρ.kind.call ρ.bounds x = false := fun x hx => hno x (mem_of_zip_perm hxy' hp.symm hx)
    have e : ∀ (X : List (Point K d)) (y : List K), (∀ x ∈ X, ρ.kind.call ρ.bounds x = false) → ρ.fit L ff X y =
        .ok { ρ with st := some { isFitted := false, error := ⊤, fitness := ⊥, experience := 0, pred := [], matchSet := X.map (ρ.kind.call ρ.bounds) } } := by
      intro X y h
      unfold Rule.fit Rule.matchRows
      dsimp only
      rw [if_pos]
      rw [List.any_map, List.any_eq_false]
      intro x hx
      simp [h x hx]
    rw [e X y hno, e X' y' hno']
    refine .ok _ _ ⟨rfl, rfl, rfl, ?_, ⟨_, _, rfl, rfl, rfl, rfl, rfl, rfl, rfl, rfl⟩, unmatched_local L X _ _ rfl rfl rfl hno, unmatched_local L X' _ _ rfl rfl rfl hno'⟩
    dsimp only
    rw [h1]
    exact .none

theorem childRule_order (hL : L.OrderFree) (ff : RuleFitness K d) (hxy : y.length = X.length) (hxy' : y'.length = X'.length) (hp : (X.zip y).Perm (X'.zip y')) (m : Mutation) (r : K)
    (fb : Pairs K d) {ρ ρ' : Rule K d M} (h : SameFit L X X' ρ ρ') (z : Pairs K d) : ERel (SameFit L X X') (childRule L ff X y m r fb ρ z) (childRule L ff X' y' m r fb ρ' z) := by
  unfold childRule
  rw [h.kind, h.bounds]
  have hc : ρ'.clone = ρ.clone := by unfold Rule.clone; rw [h.kind, h.bounds, h.space]
  cases childBounds m ρ.kind r fb z ρ.bounds with
  | error e => exact .error e
  | ok b =>
    dsimp only
    rw [hc]
    exact fit_order hL ff hxy hxy' hp _ rfl rfl

theorem SameFit.fitnessOf {ρ ρ' : Rule K d M} (h : SameFit L X X' ρ ρ') : ruleFitnessOf ρ' = ruleFitnessOf ρ := by
  obtain ⟨s, s', h1, h2, _, _, h3, _⟩ := h.st
  unfold ruleFitnessOf
  rw [h1, h2]
  exact h3

theorem concreteES_order (hL : L.OrderFree) (ff : RuleFitness K d) (hxy : y.length = X.length) (hxy' : y'.length = X'.length) (hp : (X.zip y).Perm (X'.zip y')) (op : ESOperator)
    (delay : Nat) (m : Mutation) (r : K) (fb : Pairs K d) :
    ESSim (SameFit L X X') (concreteES L ff X y op delay m r fb) (concreteES L ff X' y' op delay m r fb) id where
  operator := rfl
  delay := rfl
  child := fun _ _ z h => childRule_order hL ff hxy hxy' hp m r fb h z
  valid := fun a b h => by
    show validRule b = validRule a
    obtain ⟨s, s', h1, h2, h3, _, _, h4, _⟩ := h.st
    unfold validRule
    rw [h1, h2]
    dsimp only
    rw [h3, h4]
  fitness := fun _ _ _ _ h h' => by show ruleFitnessOf _ ≤ ruleFitnessOf _ ↔ ruleFitnessOf _ ≤ ruleFitnessOf _; rw [h.fitnessOf, h'.fitnessOf]
  select := fun l l' _ h => fittestFirst_sim _ _ (fun _ _ h => h.fitnessOf) l l' h

theorem acceptVariance_order (beta : K) (hxy : y.length = X.length) (hxy' : y'.length = X'.length) (hp : (X.zip y).Perm (X'.zip y')) {ρ ρ' : Rule K d M} (h : SameFit L X X' ρ ρ') :
    acceptVariance beta y' ρ' = acceptVariance beta y ρ := by
  obtain ⟨s, s', h1, h2, _, he, _, hx, hm, hm'⟩ := h.st
  unfold acceptVariance
  rw [h1, h2]
  dsimp only
  have hy : (compress y s.matchSet).Perm (compress y' s'.matchSet) := by
    rw [hm, hm', compress_zip _ _ _ hxy, compress_zip _ _ _ hxy']
    exact (hp.filter _).map _
  rw [hx, he, hm, hm', List.length_map, List.length_map, ← hm, ← hm', ← (hy.map _).sum_eq, ← hy.length_eq, hxy, hxy']
  simp only [ne_eq, not_true_eq_false, if_false]

theorem estimateBounds_order (hp : X.Perm X') : estimateBounds X' = estimateBounds X := by
  cases X with
  | nil => rw [List.nil_perm.mp hp]
  | cons a l =>
    cases X' with
    | nil => exact absurd (List.perm_nil.mp hp) (by simp)
    | cons b m =>
      simp only [estimateBounds, Except.ok.injEq]
      funext i
      have hmem : ∀ v, (v = a i ∨ v ∈ l.map fun z => z i) ↔ (v = b i ∨ v ∈ m.map fun z => z i) := by
        intro v
        have := (hp.map fun z => z i).mem_iff (a := v)
        simpa using this
      have hle : ∀ (a b : K) (l m : List K), (∀ v, (v = a ∨ v ∈ l) ↔ (v = b ∨ v ∈ m)) → m.foldl min b ≤ l.foldl min a ∧ l.foldl max a ≤ m.foldl max b := by
        intro a b l m hmem
        obtain ⟨l1, l2, l3⟩ := foldl_min_spec l a
        obtain ⟨m1, m2, m3⟩ := foldl_min_spec m b
        obtain ⟨l4, l5, l6⟩ := foldl_max_spec l a
        obtain ⟨m4, m5, m6⟩ := foldl_max_spec m b
        constructor
        · rcases (hmem _).mp l1 with h | h
          · rw [h]; exact m2
          · exact m3 _ h
        · rcases (hmem _).mp l4 with h | h
          · rw [h]; exact m5
          · exact m6 _ h
      obtain ⟨h1, h2⟩ := hle _ _ _ _ hmem
      obtain ⟨h3, h4⟩ := hle _ _ _ _ fun v => (hmem v).symm
      exact Prod.ext (le_antisymm h1 h3) (le_antisymm h4 h2)

/-! ### Drawing the origins -/

theorem subgroup_order {pool pool' : List (Rule K d M)} (h : List.Forall₂ (SameFit L X X') pool pool') (use : Bool) (el : Option (Indiv K)) :
    ERel (List.Forall₂ (SameFit L X X')) (originSubgroup use pool (el.map fun σ => { genome := σ.genome, pool := pool, st := σ.st }))
      (originSubgroup use pool' (el.map fun σ => { genome := σ.genome, pool := pool', st := σ.st })) := by
  cases el with
  | none => exact .ok _ _ h
  | some σ =>
    unfold originSubgroup Solution.subpopulation
    dsimp only [Option.map]
    rw [← h.length_eq]
    split
    · split
      · exact .ok _ _ (forall₂_compress _ _ h _)
      · exact .error _
    · exact .ok _ _ h

theorem coverage_order {sub sub' : List (Rule K d M)} (h : List.Forall₂ (SameFit L X X') sub sub') (x : Point K d) : coverage sub' x = coverage sub x := by
  unfold coverage
  induction h with
  | nil => rfl
  | cons h1 _ ih => rw [List.countP_cons, List.countP_cons, ih, h1.kind, h1.bounds]

theorem storedMatchSets_order {sub sub' : List (Rule K d M)} (h : List.Forall₂ (SameFit L X X') sub sub') :
    sub.mapM Rule.storedMatchSet = .ok (sub.map fun ρ => X.map (ρ.kind.call ρ.bounds)) ∧ sub'.mapM Rule.storedMatchSet = .ok (sub'.map fun ρ => X'.map (ρ.kind.call ρ.bounds)) := by
  induction h with
  | nil => exact ⟨rfl, rfl⟩
  | @cons a b _ _ h1 _ ih =>
    obtain ⟨s, s', e1, e2, _, _, _, _, e3, e4⟩ := h1.st
    have ea : Rule.storedMatchSet a = .ok (X.map (a.kind.call a.bounds)) := by unfold Rule.storedMatchSet; rw [e1]; dsimp only; rw [e3]
    have eb : Rule.storedMatchSet b = .ok (X'.map (b.kind.call b.bounds)) := by unfold Rule.storedMatchSet; rw [e2]; dsimp only; rw [e4, h1.kind, h1.bounds]
    rw [List.mapM_cons, List.mapM_cons, ih.1, ih.2, ea, eb]
    exact ⟨rfl, rfl⟩

theorem normalise_takeAt (idx : List Nat) (w : List K) (hi : idx.Perm (List.range w.length)) : normalise (takeAt idx w) = (normalise w).map (takeAt idx) := by
  unfold normalise
  rw [(takeAt_perm idx w hi).sum_eq]
  split
  · rw [Option.map_some, takeAt_map]
  · rfl

theorem matchingProbabilities_order (idx : List Nat) (hi : idx.Perm (List.range X.length)) {pool pool' : List (Rule K d M)} (h : List.Forall₂ (SameFit L X (takeAt idx X)) pool pool')
    (use : Bool) (el : Option (Indiv K)) :
    ERel (fun p p' => p' = p.map (takeAt idx) ∧ ∀ q ∈ p, q.length = X.length)
      (matchingProbabilities use X.length pool (el.map fun σ => { genome := σ.genome, pool := pool, st := σ.st }))
      (matchingProbabilities use X.length pool' (el.map fun σ => { genome := σ.genome, pool := pool', st := σ.st })) := by
  unfold matchingProbabilities
  have h1 := subgroup_order h use el
  revert h1
  generalize originSubgroup use pool _ = x
  generalize originSubgroup use pool' _ = x'
  intro h1
  cases h1 with
  | error e => exact .error e
  | ok sub sub' hsub =>
    have hemp : sub'.isEmpty = sub.isEmpty := by cases hsub <;> rfl
    simp only [bind, Except.bind, hemp]
    by_cases he : sub.isEmpty = true
    · rw [if_pos he, if_pos he]
      exact .ok _ _ ⟨rfl, by simp⟩
    · rw [if_neg he, if_neg he, (storedMatchSets_order hsub).1, (storedMatchSets_order hsub).2]
      dsimp only
      have hl : (takeAt idx X).length = X.length := (takeAt_perm idx X hi).length_eq
      have e1 := matchingWeights_eq X sub (by simpa using he)
      have e2 := matchingWeights_eq (takeAt idx X) sub' (by rw [← hemp] at he; simpa using he)
      rw [hl] at e2
      rw [e1, e2]
      refine .ok _ _ ⟨?_, ?_⟩
      · rw [show (fun x => sub'.length - coverage sub' x) = fun x => sub.length - coverage sub x from by
          funext x; rw [coverage_order hsub, ← hsub.length_eq], ← takeAt_map, ← takeAt_map, normalise_takeAt _ _ (by simpa using hi)]
      · intro q hq
        unfold normalise at hq
        split at hq
        · cases hq; simp
        · cases hq

theorem takeRows_takeAt {α : Type} (idx : List Nat) (X : List α) (h : ∀ i ∈ idx, i < X.length) (js : List Nat) :
    takeRows (takeAt idx X) js = takeRows X (js.map fun j => idx.getD j X.length) := by
  unfold takeRows
  rw [List.mapM_map]
  refine congrFun (congrArg List.mapM ?_) js
  funext j
  simp only [Function.comp, takeAt_getElem? idx X h j]

theorem matchingOrigins_order (idx : List Nat) (hi : idx.Perm (List.range X.length)) {pool pool' : List (Rule K d M)} (h : List.Forall₂ (SameFit L X (takeAt idx X)) pool pool')
    (use : Bool) (el : Option (Indiv K)) (n : Nat) (draw draw' : Option (List K) → List Nat)
    (hd : ∀ p : Option (List K), (∀ q ∈ p, q.length = X.length) → (draw' (p.map (takeAt idx))).map (fun j => idx.getD j X.length) = draw p) :
    matchingOrigins use (takeAt idx X) pool' el n draw' = matchingOrigins use X pool el n draw := by
  have hl : (takeAt idx X).length = X.length := (takeAt_perm idx X hi).length_eq
  unfold matchingOrigins
  rw [hl]
  have h1 := matchingProbabilities_order idx hi h use el
  revert h1
  generalize matchingProbabilities use X.length pool _ = x
  generalize matchingProbabilities use X.length pool' _ = x'
  intro h1
  cases h1 with
  | error e => rfl
  | ok p p' hp =>
    obtain ⟨rfl, hq⟩ := hp
    dsimp only
    have hlt : ∀ i ∈ idx, i < X.length := fun i h => List.mem_range.mp (hi.subset h)
    rw [← hd p hq]
    unfold rngChoice
    by_cases h0 : X.length = 0 ∧ n ≠ 0
    · rw [if_pos h0, if_pos h0]
    · rw [if_neg h0, if_neg h0]
      cases p with
      | none => exact takeRows_takeAt idx X hlt _
      | some q =>
        have hqp : (takeAt idx q).Perm q := takeAt_perm idx q (by rw [hq q rfl]; exact hi)
        dsimp only [Option.map]
        have hany : (takeAt idx q).any (fun q => decide (q < 0)) = q.any fun q => decide (q < 0) := by
          rw [Bool.eq_iff_iff, List.any_eq_true, List.any_eq_true]
          simp only [hqp.mem_iff]
        rw [hqp.length_eq, hqp.sum_eq, hany]
        by_cases hb : q.length ≠ X.length ∨ (q.any fun q => decide (q < 0)) = true ∨ q.sum ≠ 1
        · rw [if_pos hb, if_pos hb]
        · rw [if_neg hb, if_neg hb]
          exact takeRows_takeAt idx X hlt _

theorem esDiscover_order (cfg : ESCfg K) (hL : L.OrderFree) (ff : RuleFitness K d) (idx : List Nat) (hi : idx.Perm (List.range X.length)) (hxy : y.length = X.length)
    (draw draw' : Option (List K) → List Nat) (hd : ∀ p : Option (List K), (∀ q ∈ p, q.length = X.length) → (draw' (p.map (takeAt idx))).map (fun j => idx.getD j X.length) = draw p)
    (children : Nat → Nat → Nat → Pairs K d) (el : Option (Indiv K)) {pool pool' : List (Rule K d M)} (h : List.Forall₂ (SameFit L X (takeAt idx X)) pool pool') (n : Nat) :
    ERel (List.Forall₂ (SameFit L X (takeAt idx X))) (esDiscover cfg L ff draw children el pool X y n) (esDiscover cfg L ff draw' children el pool' (takeAt idx X) (takeAt idx y) n) := by
  have hy : (takeAt idx y).Perm y := takeAt_perm idx y (by rw [hxy]; exact hi)
  have hX : (takeAt idx X).Perm X := takeAt_perm idx X hi
  have hxy' : (takeAt idx y).length = (takeAt idx X).length := by rw [hy.length_eq, hX.length_eq, hxy]
  have hp : (X.zip y).Perm ((takeAt idx X).zip (takeAt idx y)) := by
    rw [takeAt_zip _ _ _ hxy]
    exact (takeAt_perm idx _ (by simpa [hxy] using hi)).symm
  unfold esDiscover
  rw [estimateBounds_order hX.symm, matchingOrigins_order idx hi h cfg.useElitist el n draw draw' hd]
  cases estimateBounds X with
  | error e => exact .error e
  | ok fb =>
    dsimp only
    cases matchingOrigins cfg.useElitist X pool el n draw with
    | error e => exact .error e
    | ok os =>
      have := discoverRules_sim (R := SameFit L X (takeAt idx X)) (initialRule L ff X y .ordered cfg.minRange fb fb)
        (initialRule L ff (takeAt idx X) (takeAt idx y) .ordered cfg.minRange fb fb) id (fun o => fit_order hL ff hxy hxy' hp _ rfl rfl)
        (fun ρ gens => (esOptimize (concreteES L ff X y cfg.operator cfg.delay cfg.mutation cfg.minRange fb) gens ρ).map some)
        (fun ρ gens => (esOptimize (concreteES L ff (takeAt idx X) (takeAt idx y) cfg.operator cfg.delay cfg.mutation cfg.minRange fb) gens ρ).map some)
        (fun gens => gens.map fun g => (g.1.map id, g.2))
        (fun a b s hab => (esOptimize_sim (concreteES_order hL ff hxy hxy' hp cfg.operator cfg.delay cfg.mutation cfg.minRange fb) s a b hab).map_some)
        (acceptVariance cfg.beta y) (acceptVariance cfg.beta (takeAt idx y)) (fun a b hab => acceptVariance_order _ hxy hxy' hp hab) os
        ((List.range n).map fun k => (List.range cfg.nIter).map fun g => ((List.range cfg.lmbda).map (children k g), ()))
      simpa [List.map_map, Function.comp_def] using this

/-! ### Predictions -/

theorem valueAt_order {ρ ρ' : Rule K d M} (h : SameFit L X X' ρ ρ') (x : Point K d) : ρ'.valueAt L x = ρ.valueAt L x := by
  have hm := h.model
  unfold Rule.valueAt
  revert hm
  generalize ρ.model = a
  generalize ρ'.model = b
  intro hm
  cases hm with
  | none => rfl
  | some hm => exact hm x

theorem tauVal_order (P : MixParams K) {ρ ρ' : Rule K d M} (h : SameFit L X X' ρ ρ') : ρ'.tauVal P = ρ.tauVal P := by
  obtain ⟨s, s', h1, h2, _, h3, _, h4, _⟩ := h.st
  unfold Rule.tauVal
  rw [h1, h2]
  dsimp only
  rw [h3, h4]

theorem mixAt_order (P : MixParams K) {sub sub' : List (Rule K d M)} (h : List.Forall₂ (SameFit L X X') sub sub') (x : Point K d) : mixAt L P sub' x = mixAt L P sub x := by
  have hf := forall₂_filter (fun ρ : Rule K d M => ρ.kind.call ρ.bounds x) (fun ρ : Rule K d M => ρ.kind.call ρ.bounds x) (fun a b h => by rw [h.kind, h.bounds]) _ _ h
  have hsum : ∀ (l l' : List (Rule K d M)) (f g : Rule K d M → K), List.Forall₂ (SameFit L X X') l l' → (∀ a b, SameFit L X X' a b → g b = f a) → (l'.map g).sum = (l.map f).sum := by
    intro l l' f g hl hfg
    induction hl with
    | nil => rfl
    | cons h1 _ ih => rw [List.map_cons, List.map_cons, List.sum_cons, List.sum_cons, ih, hfg _ _ h1]
  unfold mixAt
  have h1 : numAt L P sub' x = numAt L P sub x := hsum _ _ _ _ hf fun a b h => by rw [valueAt_order h, tauVal_order P h]
  have h2 : denAt P sub' x = denAt P sub x := hsum _ _ _ _ hf fun a b h => tauVal_order P h
  rw [h1, h2]

theorem sameFit_facts {sub sub' : List (Rule K d M)} (h : List.Forall₂ (SameFit L X X') sub sub') :
    (∀ ρ ∈ sub, ρ.st.isSome ∧ ρ.localPred L true X = .ok (X.map (ρ.kind.call ρ.bounds), X.map fun x => if ρ.kind.call ρ.bounds x then ρ.valueAt L x else 0)) ∧
    ∀ ρ ∈ sub', ρ.st.isSome ∧ ρ.localPred L true X' = .ok (X'.map (ρ.kind.call ρ.bounds), X'.map fun x => if ρ.kind.call ρ.bounds x then ρ.valueAt L x else 0) := by
  induction h with
  | nil => simp
  | cons h1 _ ih =>
    obtain ⟨s, s', e1, e2, _⟩ := h1.st
    refine ⟨fun ρ hρ => ?_, fun ρ hρ => ?_⟩
    · rcases List.mem_cons.mp hρ with rfl | hρ
      · exact ⟨by rw [e1]; rfl, h1.loc⟩
      · exact ih.1 ρ hρ
    · rcases List.mem_cons.mp hρ with rfl | hρ
      · exact ⟨by rw [e2]; rfl, h1.loc'⟩
      · exact ih.2 ρ hρ

theorem mixing_cached_order (P : MixParams K) {sub sub' : List (Rule K d M)} (h : List.Forall₂ (SameFit L X X') sub sub') :
    mixing L P filterAll true X sub = .ok (X.map (mixAt L P sub)) ∧ mixing L P filterAll true X' sub' = .ok (X'.map (mixAt L P sub)) := by
  have h2 : mixAt L P sub' = mixAt L P sub := funext fun x => mixAt_order P h x
  obtain ⟨f1, f2⟩ := sameFit_facts h
  have hm : ∀ (X : List (Point K d)) (sub : List (Rule K d M)), (∀ ρ ∈ sub, ρ.st.isSome ∧ ρ.localPred L true X = .ok (X.map (ρ.kind.call ρ.bounds),
      X.map fun x => if ρ.kind.call ρ.bounds x then ρ.valueAt L x else 0)) → mixing L P filterAll true X sub = .ok (X.map (mixAt L P sub)) := by
    intro X sub f
    unfold mixing
    cases sub with
    | nil =>
      simp only [List.isEmpty_nil, if_true]
      refine congrArg Except.ok ?_
      rw [show mixAt L P [] = fun _ => (0 : K) from funext fun x => mixAt_nil L P x, List.map_const']
    | cons a as =>
      simp only [List.isEmpty_cons, Bool.false_eq_true, if_false, filterAll]
      exact mixRules_of_state L P true X _ (fun ρ h => (f ρ h).1) fun ρ h => (f ρ h).2
  exact ⟨hm X sub f1, by rw [← h2]; exact hm X' sub' f2⟩

theorem evalGenome_order (P : MixParams K) (sf : SolFitness K) (hxy : y.length = X.length) (hxy' : y'.length = X'.length) (hp : (X.zip y).Perm (X'.zip y'))
    {pool pool' : List (Rule K d M)} (h : List.Forall₂ (SameFit L X X') pool pool') : evalGenome L P filterAll sf X' y' pool' = evalGenome L P filterAll sf X y pool := by
  funext g
  have hlen : X'.length = X.length := by
    have := hp.length_eq
    simpa [hxy, hxy'] using this.symm
  unfold evalGenome Solution.fit Solution.predict Solution.subpopulation
  dsimp only
  rw [← h.length_eq]
  by_cases hg : g.length = pool.length
  · rw [if_pos hg, if_pos hg]
    dsimp only
    obtain ⟨e1, e2⟩ := mixing_cached_order P (forall₂_compress _ _ h g)
    rw [e1, e2]
    dsimp only
    rw [List.length_map, List.length_map, mse_map _ _ _ hxy, mse_map _ _ _ hxy', meanSqErr_perm _ hp, hxy, hxy', hlen]
    by_cases hc : X.length ≠ X.length ∨ X.length = 0
    · rw [if_pos hc, if_pos hc]
    · rw [if_neg hc, if_neg hc]
  · rw [if_neg hg, if_neg hg]

theorem mixing_order (P : MixParams K) (Z : List (Point K d)) {sub sub' : List (Rule K d M)} (h : List.Forall₂ (SameFit L X X') sub sub') :
    mixing L P filterAll false Z sub' = mixing L P filterAll false Z sub := by
  unfold mixing filterAll
  have hemp : sub'.isEmpty = sub.isEmpty := by cases h <;> rfl
  rw [hemp]
  dsimp only
  unfold mixRules
  rw [mapM_sim (Rule.localPred L false Z) (Rule.localPred L false Z) ?_ h, mapM_sim (Rule.tau P) (Rule.tau P) ?_ h]
  · intro a b hab
    obtain ⟨s, s', h1, h2, _, h3, _, h4, _⟩ := hab.st
    unfold Rule.tau
    rw [h1, h2]
    dsimp only
    rw [h3, h4]
  · intro a b hab
    have hpr : ∀ Z, b.predict L Z = a.predict L Z := by
      intro Z
      have hm := hab.model
      unfold Rule.predict
      revert hm
      generalize a.model = u
      generalize b.model = v
      intro hm
      cases hm with
      | none => rfl
      | some hm => exact congrArg Except.ok (List.map_congr_left fun x _ => hm x)
    unfold Rule.localPred Rule.matchRows
    simp only [Bool.false_eq_true, if_false]
    rw [hab.kind, hab.bounds, hpr]

end Sim

/-! ### C144 -/

/-- What the rule at the same position of the other model is like: same condition, same statistics, same predictions. -/
def Spec.SameResult (L : Learner K d M) (ρ ρ' : Rule K d M) : Prop :=
  ρ'.kind = ρ.kind ∧ ρ'.bounds = ρ.bounds ∧
    (∃ s s', ρ.st = some s ∧ ρ'.st = some s' ∧ s'.isFitted = s.isFitted ∧ s'.error = s.error ∧ s'.fitness = s.fitness ∧ s'.experience = s.experience) ∧
    ∀ x v, ρ.LocalPrediction L x v ↔ ρ'.LocalPrediction L x v

theorem SameFit.result {L : Learner K d M} {X X' : List (Point K d)} {ρ ρ' : Rule K d M} (h : SameFit L X X' ρ ρ') : Spec.SameResult L ρ ρ' := by
  obtain ⟨s, s', h1, h2, h3, h4, h5, h6, _⟩ := h.st
  refine ⟨h.kind, h.bounds, ⟨s, s', h1, h2, h3, h4, h5, h6⟩, fun x v => ?_⟩
  have hm := h.model
  unfold Rule.LocalPrediction
  revert hm
  generalize ρ.model = a
  generalize ρ'.model = b
  intro hm
  cases hm with
  | none => simp
  | some hm => simp only [Option.some.injEq, exists_eq_left', hm]

/-- C144: training on the same samples in another order, with the same random numbers (the same samples drawn as origins), ends in the same way and gives the same rules (same conditions, errors, fitness,
experience, local predictions), the same selection of rules with the same error and fitness, and the same predictions. For local models that do not depend on the order of their training samples. -/
theorem C144_order (idx : List Nat) (cfg : SupCfg K) (es : ESCfg K) (ga : GACfg K) (L : Learner K d M) (hL : L.OrderFree) (ff : RuleFitness K d) (sf : Nat → SolFitness K)
    (raw : RawData K d) (hxy : raw.y.length = raw.X.length) (hi : idx.Perm (List.range raw.X.length)) (D D' : RunDraws K d M) (hD : SameSampleDraws L raw.X idx D D') (entropy step : Nat) (cl : Bool) :
    let r := SupState.fit cfg (defaultComp es ga D L ff sf) entropy raw cl { step := step }
    let r2 := SupState.fit cfg (defaultComp es ga D' L ff sf) entropy { raw with X := takeAt idx raw.X, y := takeAt idx raw.y } cl { step := step }
    r2.raised = r.raised ∧ List.Forall₂ (Spec.SameResult L) r.state.pool r2.state.pool ∧
      (∀ σ, r.state.elitist = some (.solution σ) → ∃ σ', r2.state.elitist = some (.solution σ') ∧ σ'.genome = σ.genome ∧ σ'.st = σ.st) ∧
      ∀ Xq, r2.state.predict (defaultComp es ga D' L ff sf) Xq = r.state.predict (defaultComp es ga D L ff sf) Xq := by
  intro r r2
  have hX : (takeAt idx raw.X).Perm raw.X := takeAt_perm idx raw.X hi
  have hy : (takeAt idx raw.y).Perm raw.y := takeAt_perm idx raw.y (by rw [hxy]; exact hi)
  have hxy' : (takeAt idx raw.y).length = (takeAt idx raw.X).length := by rw [hy.length_eq, hX.length_eq, hxy]
  have hp : (raw.X.zip raw.y).Perm ((takeAt idx raw.X).zip (takeAt idx raw.y)) := by
    rw [takeAt_zip _ _ _ hxy]
    exact (takeAt_perm idx _ (by simpa [hxy] using hi)).symm
  have hc : CompSim (SameFit L raw.X (takeAt idx raw.X)) (defaultComp es ga D L ff sf) (defaultComp es ga D' L ff sf) raw.X (takeAt idx raw.X) raw.y (takeAt idx raw.y) := by
    refine ⟨?_, ?_, hD.init⟩
    · intro seed hist hist' el pool pool' n hh hpool
      show ERel _ (esDiscover es L ff (D.origins seed hist raw.X.length n) (D.children seed hist) el pool raw.X raw.y n)
        (esDiscover es L ff (D'.origins seed hist' (takeAt idx raw.X).length n) (D'.children seed hist') el pool' (takeAt idx raw.X) (takeAt idx raw.y) n)
      rw [hX.length_eq, hD.children seed hist hist' hh]
      exact esDiscover_order es hL ff idx hi hxy _ _ (hD.origins seed hist hist' hh n) _ el hpool n
    · intro seed hist hist' hh
      show (fun n ev pop => gaOptimize ga (D'.ga seed hist' n pop.length) n ev pop) = fun n ev pop => gaOptimize ga (D.ga seed hist n pop.length) n ev pop
      rw [hD.ga seed hist hist' hh]
  have h := fit_sim (raw := raw) (raw' := { raw with X := takeAt idx raw.X, y := takeAt idx raw.y }) hc cfg rfl hX.length_eq hy.length_eq
    (fun pool pool' hpool => evalGenome_order _ _ hxy hxy' hp hpool) entropy cl { step := step } { step := step } ⟨rfl, rfl, rfl, .none, .nil, rfl⟩
  refine ⟨h.raised, h.state.pool.imp fun _ _ h => h.result, ?_, fun Xq => ?_⟩
  · intro σ hσ
    have he := h.state.elitist
    change Option.Rel _ r.state.elitist r2.state.elitist at he
    rw [hσ] at he
    revert he
    generalize r2.state.elitist = e
    intro he
    cases he with
    | some he =>
      cases he with
      | solution g pool pool' st _ => exact ⟨_, rfl, rfl, rfl⟩
  · exact predict_sim Xq Xq rfl (fun pool pool' hpool => mixing_order _ Xq hpool) _ _ h.state

/-- C144: the default configuration (ridge regression with `alpha = 1/100`, `VolumeWu`, `ComplexityWu`, all default parameters). -/
theorem C144_default {d : Nat} (idx : List Nat) (nan nan' : ℝ) (raw : RawData ℝ d) (hxy : raw.y.length = raw.X.length) (hi : idx.Perm (List.range raw.X.length))
    (D D' : RunDraws ℝ d (LinModel ℝ d)) (hD : SameSampleDraws (ridge (1 / 100)) raw.X idx D D') (entropy step : Nat) (cl : Bool) :
    let r := SupState.fit SupCfg.default (defaultComp ESCfg.default GACfg.default D (ridge (1 / 100)) (volumeWu nan) (complexityWu nan')) entropy raw cl { step := step }
    let r2 := SupState.fit SupCfg.default (defaultComp ESCfg.default GACfg.default D' (ridge (1 / 100)) (volumeWu nan) (complexityWu nan')) entropy
      { raw with X := takeAt idx raw.X, y := takeAt idx raw.y } cl { step := step }
    r2.raised = r.raised ∧ ∀ Xq, r2.state.predict (defaultComp ESCfg.default GACfg.default D' (ridge (1 / 100)) (volumeWu nan) (complexityWu nan')) Xq =
      r.state.predict (defaultComp ESCfg.default GACfg.default D (ridge (1 / 100)) (volumeWu nan) (complexityWu nan')) Xq := by
  intro r r2
  have h := C144_order idx SupCfg.default ESCfg.default GACfg.default (ridge (1 / 100)) (C125_ridge _ (by norm_num)) (volumeWu nan) (complexityWu nan') raw hxy hi D D' hD entropy step cl
  exact ⟨h.1, h.2.2.2⟩

/-- Three samples in another order, and a run in which always the first sample (the second one in the new order) is drawn as origin. -/
example (L : Learner ℚ 1 M) : ([2, 0, 1] : List Nat).Perm (List.range 3) ∧ takeAt [2, 0, 1] [(10 : ℚ), 11, 12] = [12, 10, 11] ∧
    SameSampleDraws L [![0], ![1], ![5]] [2, 0, 1]
      (⟨fun _ _ _ n _ => List.replicate n 0, fun _ _ _ _ _ => fun _ => (1, 2), fun _ _ _ _ => [], fun _ _ _ => 1 / 2⟩ : RunDraws ℚ 1 M)
      ⟨fun _ _ _ n _ => List.replicate n 1, fun _ _ _ _ _ => fun _ => (1, 2), fun _ _ _ _ => [], fun _ _ _ => 1 / 2⟩ :=
  ⟨by decide, by decide +kernel, fun _ _ _ _ n p _ => by simp, fun _ _ _ _ => rfl, fun _ _ _ _ => rfl, rfl⟩

end Suprb
