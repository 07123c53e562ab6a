import Verif.Props.SampleOrder
import Verif.Props.Batch

/-!
# Claim C148: every training sample given several times
-/

set_option autoImplicit false
set_option linter.unusedSectionVars false

namespace Suprb

open Json
open _root_.Spec (Pairs Point)
open Suprb.Spec (takeAt)

/-! ### Specification -/

/-- A list written down `k` times. -/
def Spec.times {α : Type} (k : Nat) (l : List α) : List α := (List.replicate k l).flatten

open Suprb.Spec (times)

section Times

variable {α β : Type} {k : Nat}

theorem times_map (f : α → β) (l : List α) : (times k l).map f = times k (l.map f) := by
  unfold times
  rw [List.map_flatten, List.map_replicate]

theorem times_filter (p : α → Bool) (l : List α) : (times k l).filter p = times k (l.filter p) := by
  unfold times
  rw [List.filter_flatten, List.map_replicate]

theorem times_length (l : List α) : (times k l).length = k * l.length := by
  unfold times
  rw [List.length_flatten, List.map_replicate, List.sum_replicate, smul_eq_mul]

theorem mem_times (hk : 0 < k) (l : List α) (a : α) : a ∈ times k l ↔ a ∈ l := by
  unfold times
  simp only [List.mem_flatten, List.mem_replicate]
  constructor
  · rintro ⟨_, ⟨_, rfl⟩, h⟩; exact h
  · intro h; exact ⟨l, ⟨by omega, rfl⟩, h⟩

theorem times_sum {K : Type} [Field K] (l : List K) : (times k l).sum = (k : K) * l.sum := by
  unfold times
  rw [List.sum_flatten, List.map_replicate, List.sum_replicate, nsmul_eq_mul]

theorem takeAt_times (idx : List Nat) (l : List α) (h : idx.Perm (times k (List.range l.length))) : (takeAt idx l).Perm (times k l) := by
  unfold takeAt
  refine (h.filterMap _).trans (List.Perm.of_eq ?_)
  have hl : (List.range l.length).filterMap (l[·]?) = l := by
    have : ∀ m : List α, (List.range m.length).filterMap (m[·]?) = m := by
      intro m
      induction m with
      | nil => rfl
      | cons b m ih =>
        rw [List.length_cons, List.range_succ_eq_map, List.filterMap_cons, List.filterMap_map]
        simp only [List.getElem?_cons_zero, Function.comp_def, List.getElem?_cons_succ, Nat.succ_eq_add_one, ih]
    exact this l
  unfold times
  rw [List.filterMap_flatten, List.map_replicate, hl]

end Times

variable {K : Type} [Field K] [LinearOrder K] [IsStrictOrderedRing K] {d : Nat} {M : Type}

/-- The second training algorithm predicts the same on samples given `k` times (in any order) as the first on the samples themselves. -/
def Learner.Repeats (k : Nat) (L L' : Learner K d M) : Prop :=
  ∀ (D D' : List (Point K d × K)) (x : Point K d), D ≠ [] → D'.Perm (times k D) →
    L'.predict (L'.fit (D'.map Prod.fst) (D'.map Prod.snd)) x = L.predict (L.fit (D.map Prod.fst) (D.map Prod.snd)) x

/-- The same rule trained on the samples and on the samples given `k` times: same condition, error, fitness and local predictions, `k` times the experience. What is stored per sample belongs to the
respective data. -/
structure SameRep (k : Nat) (L L' : Learner K d M) (X X' : List (Point K d)) (ρ ρ' : Rule K d M) : Prop where
  kind : ρ'.kind = ρ.kind
  bounds : ρ'.bounds = ρ.bounds
  space : ρ'.inputSpace = ρ.inputSpace
  model : Option.Rel (fun m m' => ∀ x, L'.predict m' x = L.predict m x) ρ.model ρ'.model
  st : ∃ s s', ρ.st = some s ∧ ρ'.st = some s' ∧ s'.isFitted = s.isFitted ∧ s'.error = s.error ∧ s'.fitness = s.fitness ∧ s'.experience = k * s.experience ∧
    s.matchSet = X.map (ρ.kind.call ρ.bounds) ∧ s'.matchSet = X'.map (ρ.kind.call ρ.bounds) ∧ 0 < s.error
  loc : ρ.localPred L true X = .ok (X.map (ρ.kind.call ρ.bounds), X.map fun x => if ρ.kind.call ρ.bounds x then ρ.valueAt L x else 0)
  loc' : ρ'.localPred L' true X' = .ok (X'.map (ρ'.kind.call ρ'.bounds), X'.map fun x => if ρ'.kind.call ρ'.bounds x then ρ'.valueAt L' x else 0)

/-- Two runs, on the samples and on the samples given `k` times (`idx` are the old positions in the new data), draw the same random numbers as long as what happened before corresponds: the same
samples as origins if the same probabilities are given (divided among the `k` copies), and the same numbers elsewhere. -/
structure SameRepeatDraws (k : Nat) (L L' : Learner K d M) (X : List (Point K d)) (idx : List Nat) (D D' : RunDraws K d M) : Prop where
  origins : ∀ seed hist hist', List.Forall₂ (EventRel (SameRep k L L' X (takeAt idx X))) hist hist' → ∀ n (p : Option (List K)), (∀ q ∈ p, q.length = X.length) →
    (D'.origins seed hist' (k * X.length) n (p.map fun q => takeAt idx (q.map (· / (k : K))))).map (fun j => idx.getD j X.length) = D.origins seed hist X.length n p
  children : ∀ seed hist hist', List.Forall₂ (EventRel (SameRep k L L' X (takeAt idx X))) hist hist' → D'.children seed hist' = D.children seed hist
  ga : ∀ seed hist hist', List.Forall₂ (EventRel (SameRep k L L' X (takeAt idx X))) hist hist' → D'.ga seed hist' = D.ga seed hist
  init : D'.init = D.init

/-! ### Training one rule -/

section Sim

variable {k : Nat} {L L' : Learner K d M} {X X' : List (Point K d)} {y y' : List K}

theorem meanSqErr_times (hk : 0 < k) (f : Point K d → K) {D D' : List (Point K d × K)} (h : D'.Perm (times k D)) : meanSqErr f D' = meanSqErr f D := by
  rw [← meanSqErr_perm f h]
  unfold meanSqErr
  rw [times_map, times_sum, times_length, Nat.cast_mul, mul_div_mul_left _ _ (by exact_mod_cast hk.ne')]

theorem matchedData_times (ρ : Rule K d M) (h : (X'.zip y').Perm (times k (X.zip y))) : (matchedData ρ X' y').Perm (times k (matchedData ρ X y)) := by
  unfold matchedData
  rw [← times_filter]
  exact h.filter _

theorem mem_of_zip_times (hk : 0 < k) (hxy' : y'.length = X'.length) (hxy : y.length = X.length) (h : (X'.zip y').Perm (times k (X.zip y))) (x : Point K d) : x ∈ X' ↔ x ∈ X := by
  have hm : ∀ (X : List (Point K d)) (y : List K), y.length = X.length → (x ∈ X ↔ ∃ q ∈ X.zip y, q.1 = x) := by
    intro X y hxy
    conv_lhs => rw [← List.map_fst_zip (l₁ := X) (l₂ := y) (by omega)]
    rw [List.mem_map]
  rw [hm X' y' hxy', hm X y hxy]
  simp only [h.mem_iff, mem_times hk]

theorem fit_repeat (hk : 0 < k) (hL : L.Repeats k L') (ff : RuleFitness K d) (hxy : y.length = X.length) (hxy' : y'.length = X'.length) (hp : (X'.zip y').Perm (times k (X.zip y)))
    (ρ : Rule K d M) (h0 : ρ.st = none) (h1 : ρ.model = none) : ERel (SameRep k L L' X X') (ρ.fit L ff X y) (ρ.fit L' ff X' y') := by
  by_cases hex : ∃ x ∈ X, ρ.kind.call ρ.bounds x = true
  · have hf : ρ.FreshOn X := ⟨h0, h1, hex⟩
    have hf' : ρ.FreshOn X' := ⟨h0, h1, by obtain ⟨x, hx, hm⟩ := hex; exact ⟨x, (mem_of_zip_times hk hxy' hxy hp x).mpr hx, hm⟩⟩
    have hne : matchedData ρ X y ≠ [] := List.ne_nil_of_length_pos (matchedData_pos X y hxy ρ hf)
    have hmd := matchedData_times ρ hp
    have hpr : ∀ x, L'.predict (L'.fit ((matchedData ρ X' y').map Prod.fst) ((matchedData ρ X' y').map Prod.snd)) x =
        L.predict (L.fit ((matchedData ρ X y).map Prod.fst) ((matchedData ρ X y).map Prod.snd)) x := fun x => hL _ _ x hne hmd
    have herr : meanSqErr (L'.predict (L'.fit ((matchedData ρ X' y').map Prod.fst) ((matchedData ρ X' y').map Prod.snd))) (matchedData ρ X' y') =
        meanSqErr (L.predict (L.fit ((matchedData ρ X y).map Prod.fst) ((matchedData ρ X y).map Prod.snd))) (matchedData ρ X y) := by
      rw [meanSqErr_times hk _ hmd]
      congr 1
      exact funext hpr
    rw [ρ.fit_fitOf L ff X y hxy hf, ρ.fit_fitOf L' ff X' y' hxy' hf']
    refine .ok _ _ ⟨rfl, rfl, rfl, .some hpr, ⟨_, _, rfl, rfl, rfl, ?_, ?_, ?_, rfl, rfl, ?_⟩, cachedPred_of_fit L ff X y hxy ρ hf, cachedPred_of_fit L' ff X' y' hxy' ρ hf'⟩
    · rw [herr]
    · rw [herr]
    · rw [hmd.length_eq, times_length]
    · rw [← WithTop.coe_zero, WithTop.coe_lt_coe]
      exact lt_of_lt_of_le (by norm_num) (le_max_right _ _)
  · have hno : ∀ x ∈ X, ρ.kind.call ρ.bounds x = false := fun x hx => by
      cases hb : ρ.kind.call ρ.bounds x with
      | false => rfl
      | true => exact absurd ⟨x, hx, hb⟩ hex
    have hno' : ∀ x ∈ X', ρ.kind.call ρ.bounds x = false := fun x hx => hno x ((mem_of_zip_times hk hxy' hxy hp x).mp hx)
    have e : ∀ (L : Learner K d M) (X : List (Point K d)) (y : List K), (∀ x ∈ X, ρ.kind.call ρ.bounds x = false) → ρ.fit L ff X y =
        .ok { ρ with st := some { isFitted := false, error := ⊤, fitness := ⊥, experience := 0, pred := [], matchSet := X.map (ρ.kind.call ρ.bounds) } } := by
      intro L X y h
      unfold Rule.fit Rule.matchRows
      dsimp only
      rw [if_pos]
      rw [List.any_map, List.any_eq_false]
      intro x hx
      simp [h x hx]
    rw [e L X y hno, e L' X' y' hno']
    refine .ok _ _ ⟨rfl, rfl, rfl, ?_, ⟨_, _, rfl, rfl, rfl, rfl, rfl, rfl, rfl, rfl, WithTop.top_pos⟩, unmatched_local L X _ _ rfl rfl rfl hno, unmatched_local L' X' _ _ rfl rfl rfl hno'⟩
    dsimp only
    rw [h1]
    exact .none

theorem childRule_repeat (hk : 0 < k) (hL : L.Repeats k L') (ff : RuleFitness K d) (hxy : y.length = X.length) (hxy' : y'.length = X'.length) (hp : (X'.zip y').Perm (times k (X.zip y)))
    (m : Mutation) (r : K) (fb : Pairs K d) {ρ ρ' : Rule K d M} (h : SameRep k L L' X X' ρ ρ') (z : Pairs K d) :
    ERel (SameRep k L L' X X') (childRule L ff X y m r fb ρ z) (childRule L' ff X' y' m r fb ρ' z) := by
  unfold childRule
  rw [h.kind, h.bounds]
  have hc : ρ'.clone = ρ.clone := by unfold Rule.clone; rw [h.kind, h.bounds, h.space]
  cases childBounds m ρ.kind r fb z ρ.bounds with
  | error e => exact .error e
  | ok b =>
    dsimp only
    rw [hc]
    exact fit_repeat hk hL ff hxy hxy' hp _ rfl rfl

theorem SameRep.fitnessOf {ρ ρ' : Rule K d M} (h : SameRep k L L' X X' ρ ρ') : ruleFitnessOf ρ' = ruleFitnessOf ρ := by
  obtain ⟨s, s', h1, h2, _, _, h3, _⟩ := h.st
  unfold ruleFitnessOf
  rw [h1, h2]
  exact h3

theorem concreteES_repeat (hk : 0 < k) (hL : L.Repeats k L') (ff : RuleFitness K d) (hxy : y.length = X.length) (hxy' : y'.length = X'.length) (hp : (X'.zip y').Perm (times k (X.zip y)))
    (op : ESOperator) (delay : Nat) (m : Mutation) (r : K) (fb : Pairs K d) :
    ESSim (SameRep k L L' X X') (concreteES L ff X y op delay m r fb) (concreteES L' ff X' y' op delay m r fb) id where
  operator := rfl
  delay := rfl
  child := fun _ _ z h => childRule_repeat hk hL ff hxy hxy' hp m r fb h z
  valid := fun a b h => by
    show validRule b = validRule a
    obtain ⟨s, s', h1, h2, h3, _, _, h4, _⟩ := h.st
    unfold validRule
    rw [h1, h2]
    dsimp only
    rw [h3, h4]
    congr 1
    simp [Nat.pos_iff_ne_zero, hk.ne']
  fitness := fun _ _ _ _ h h' => by show ruleFitnessOf _ ≤ ruleFitnessOf _ ↔ ruleFitnessOf _ ≤ ruleFitnessOf _; rw [h.fitnessOf, h'.fitnessOf]
  select := fun l l' _ h => fittestFirst_sim _ _ (fun _ _ h => h.fitnessOf) l l' h

theorem acceptVariance_repeat (hk : 0 < k) (beta : K) (hxy : y.length = X.length) (hxy' : y'.length = X'.length) (hp : (X'.zip y').Perm (times k (X.zip y))) {ρ ρ' : Rule K d M}
    (h : SameRep k L L' X X' ρ ρ') : acceptVariance beta y' ρ' = acceptVariance beta y ρ := by
  obtain ⟨s, s', h1, h2, _, he, _, hx, hm, hm', _⟩ := h.st
  have hk' : (k : K) ≠ 0 := by exact_mod_cast hk.ne'
  unfold acceptVariance
  rw [h1, h2]
  dsimp only
  have hy : (compress y' s'.matchSet).Perm (times k (compress y s.matchSet)) := by
    rw [hm, hm', compress_zip _ _ _ hxy, compress_zip _ _ _ hxy', ← times_map, ← times_filter]
    exact (hp.filter _).map _
  have hexp : s'.experience < 1 ↔ s.experience < 1 := by
    rw [hx, Nat.lt_one_iff, Nat.lt_one_iff, Nat.mul_eq_zero]
    omega
  have hl : ¬s.matchSet.length ≠ y.length := by rw [hm, List.length_map, hxy]; simp
  have hl' : ¬s'.matchSet.length ≠ y'.length := by rw [hm', List.length_map, hxy']; simp
  have hsum : ((compress y' s'.matchSet).map (· ^ 2)).sum = (k : K) * ((compress y s.matchSet).map (· ^ 2)).sum := by
    rw [(hy.map _).sum_eq, times_map, times_sum]
  have hlen : ((compress y' s'.matchSet).length : K) = (k : K) * ((compress y s.matchSet).length : K) := by
    rw [hy.length_eq, times_length, Nat.cast_mul]
  rw [if_neg hl, if_neg hl', hsum, hlen, he, mul_assoc]
  by_cases h0 : s.experience < 1
  · rw [if_pos h0, if_pos (hexp.mpr h0)]
  · rw [if_neg h0, if_neg (fun h' => h0 (hexp.mp h'))]
    by_cases hz : ((compress y s.matchSet).length : K) * beta = 0
    · rw [if_pos hz, if_pos (by rw [hz, mul_zero])]
      congr 1
      simp [hk']
    · rw [if_neg hz, if_neg (mul_ne_zero hk' hz), mul_div_mul_left _ _ hk']

theorem estimateBounds_mem (hp : ∀ x, x ∈ X' ↔ x ∈ X) : estimateBounds X' = estimateBounds X := by
  cases X with
  | nil =>
    cases X' with
    | nil => rfl
    | cons b m => exact absurd ((hp b).mp (by simp)) (by simp)
  | cons a l =>
    cases X' with
    | nil => exact absurd ((hp a).mpr (by simp)) (by simp)
    | cons b m =>
      simp only [estimateBounds, Except.ok.injEq]
      funext i
      have hmem : ∀ v, (v = a i ∨ v ∈ l.map fun z => z i) ↔ (v = b i ∨ v ∈ m.map fun z => z i) := by
        intro v
        have h1 : ∀ (a : Point K d) (l : List (Point K d)), (v = a i ∨ v ∈ l.map fun z => z i) ↔ ∃ z ∈ a :: l, v = z i := by
          intro a l
          simp only [List.mem_map, List.mem_cons, exists_eq_or_imp]
          constructor
          · rintro (h | ⟨z, h, rfl⟩)
            · exact .inl h
            · exact .inr ⟨z, h, rfl⟩
          · rintro (h | ⟨z, h, rfl⟩)
            · exact .inl h
            · exact .inr ⟨z, h, rfl⟩
        rw [h1, h1]
        simp only [hp]
      have hle : ∀ (a b : K) (l m : List K), (∀ v, (v = a ∨ v ∈ l) ↔ (v = b ∨ v ∈ m)) → m.foldl min b ≤ l.foldl min a ∧ l.foldl max a ≤ m.foldl max b := by
        intro a b l m hmem
        obtain ⟨l1, l2, l3⟩ := foldl_min_spec l a
        obtain ⟨m1, m2, m3⟩ := foldl_min_spec m b
        obtain ⟨l4, l5, l6⟩ := foldl_max_spec l a
        obtain ⟨m4, m5, m6⟩ := foldl_max_spec m b
        constructor
        · rcases (hmem _).mp l1 with h | h
          · rw [h]; exact m2
          · exact m3 _ h
        · rcases (hmem _).mp l4 with h | h
          · rw [h]; exact m5
          · exact m6 _ h
      obtain ⟨h1, h2⟩ := hle _ _ _ _ hmem
      obtain ⟨h3, h4⟩ := hle _ _ _ _ fun v => (hmem v).symm
      exact Prod.ext (le_antisymm h1 h3) (le_antisymm h4 h2)

/-! ### Drawing the origins -/

theorem subgroup_repeat {pool pool' : List (Rule K d M)} (h : List.Forall₂ (SameRep k L L' X X') pool pool') (use : Bool) (el : Option (Indiv K)) :
    ERel (List.Forall₂ (SameRep k L L' X X')) (originSubgroup use pool (el.map fun σ => { genome := σ.genome, pool := pool, st := σ.st }))
      (originSubgroup use pool' (el.map fun σ => { genome := σ.genome, pool := pool', st := σ.st })) := by
  cases el with
  | none => exact .ok _ _ h
  | some σ =>
    unfold originSubgroup Solution.subpopulation
    dsimp only [Option.map]
    rw [← h.length_eq]
    split
    · split
      · exact .ok _ _ (forall₂_compress _ _ h _)
      · exact .error _
    · exact .ok _ _ h

theorem coverage_repeat {sub sub' : List (Rule K d M)} (h : List.Forall₂ (SameRep k L L' X X') sub sub') (x : Point K d) : coverage sub' x = coverage sub x := by
  unfold coverage
  induction h with
  | nil => rfl
  | cons h1 _ ih => rw [List.countP_cons, List.countP_cons, ih, h1.kind, h1.bounds]

theorem storedMatchSets_repeat {sub sub' : List (Rule K d M)} (h : List.Forall₂ (SameRep k L L' X X') sub sub') :
    sub.mapM Rule.storedMatchSet = .ok (sub.map fun ρ => X.map (ρ.kind.call ρ.bounds)) ∧ sub'.mapM Rule.storedMatchSet = .ok (sub'.map fun ρ => X'.map (ρ.kind.call ρ.bounds)) := by
  induction h with
  | nil => exact ⟨rfl, rfl⟩
  | @cons a b _ _ h1 _ ih =>
    obtain ⟨s, s', e1, e2, _, _, _, _, e3, e4, _⟩ := h1.st
    have ea : Rule.storedMatchSet a = .ok (X.map (a.kind.call a.bounds)) := by unfold Rule.storedMatchSet; rw [e1]; dsimp only; rw [e3]
    have eb : Rule.storedMatchSet b = .ok (X'.map (b.kind.call b.bounds)) := by unfold Rule.storedMatchSet; rw [e2]; dsimp only; rw [e4, h1.kind, h1.bounds]
    rw [List.mapM_cons, List.mapM_cons, ih.1, ih.2, ea, eb]
    exact ⟨rfl, rfl⟩

theorem normalise_repeat (hk : 0 < k) (idx : List Nat) (w : List K) (hi : idx.Perm (times k (List.range w.length))) :
    normalise (takeAt idx w) = (normalise w).map fun q => takeAt idx (q.map (· / (k : K))) := by
  have hk' : (k : K) ≠ 0 := by exact_mod_cast hk.ne'
  unfold normalise
  rw [(takeAt_times idx w hi).sum_eq, times_sum]
  by_cases h : w.sum ≠ 0
  · rw [if_pos h, if_pos (mul_ne_zero hk' h), Option.map_some, ← takeAt_map, List.map_map]
    congr 2
    refine List.map_congr_left fun a _ => ?_
    simp only [Function.comp]
    rw [div_div, mul_comm]
  · rw [if_neg h, if_neg (by rw [not_not.mp h, mul_zero]; simp)]
    rfl

theorem matchingProbabilities_repeat (hk : 0 < k) (idx : List Nat) (hi : idx.Perm (times k (List.range X.length))) {pool pool' : List (Rule K d M)}
    (h : List.Forall₂ (SameRep k L L' X (takeAt idx X)) pool pool') (use : Bool) (el : Option (Indiv K)) :
    ERel (fun p p' => p' = p.map (fun q => takeAt idx (q.map (· / (k : K)))) ∧ ∀ q ∈ p, q.length = X.length)
      (matchingProbabilities use X.length pool (el.map fun σ => { genome := σ.genome, pool := pool, st := σ.st }))
      (matchingProbabilities use (takeAt idx X).length pool' (el.map fun σ => { genome := σ.genome, pool := pool', st := σ.st })) := by
  unfold matchingProbabilities
  have h1 := subgroup_repeat h use el
  revert h1
  generalize originSubgroup use pool _ = x
  generalize originSubgroup use pool' _ = x'
  intro h1
  cases h1 with
  | error e => exact .error e
  | ok sub sub' hsub =>
    have hemp : sub'.isEmpty = sub.isEmpty := by cases hsub <;> rfl
    simp only [bind, Except.bind, hemp]
    by_cases he : sub.isEmpty = true
    · rw [if_pos he, if_pos he]
      exact .ok _ _ ⟨rfl, by simp⟩
    · rw [if_neg he, if_neg he, (storedMatchSets_repeat hsub).1, (storedMatchSets_repeat hsub).2]
      dsimp only
      have e1 := matchingWeights_eq X sub (by simpa using he)
      have e2 := matchingWeights_eq (takeAt idx X) sub' (by rw [← hemp] at he; simpa using he)
      rw [e1, e2]
      refine .ok _ _ ⟨?_, ?_⟩
      · rw [show (fun x => sub'.length - coverage sub' x) = fun x => sub.length - coverage sub x from by
          funext x; rw [coverage_repeat hsub, ← hsub.length_eq], ← takeAt_map, ← takeAt_map, normalise_repeat hk _ _ (by simpa using hi)]
      · intro q hq
        unfold normalise at hq
        split at hq
        · cases hq; simp
        · cases hq

theorem matchingOrigins_repeat (hk : 0 < k) (idx : List Nat) (hi : idx.Perm (times k (List.range X.length))) {pool pool' : List (Rule K d M)}
    (h : List.Forall₂ (SameRep k L L' X (takeAt idx X)) pool pool') (use : Bool) (el : Option (Indiv K)) (n : Nat) (draw draw' : Option (List K) → List Nat)
    (hd : ∀ p : Option (List K), (∀ q ∈ p, q.length = X.length) → (draw' (p.map fun q => takeAt idx (q.map (· / (k : K))))).map (fun j => idx.getD j X.length) = draw p) :
    matchingOrigins use (takeAt idx X) pool' el n draw' = matchingOrigins use X pool el n draw := by
  have hk' : (k : K) ≠ 0 := by exact_mod_cast hk.ne'
  have hl : (takeAt idx X).length = k * X.length := by rw [(takeAt_times idx X hi).length_eq, times_length]
  unfold matchingOrigins
  have h1 := matchingProbabilities_repeat hk idx hi h use el
  revert h1
  generalize matchingProbabilities use X.length pool _ = x
  generalize matchingProbabilities use (takeAt idx X).length pool' _ = x'
  intro h1
  cases h1 with
  | error e => rfl
  | ok p p' hp =>
    obtain ⟨rfl, hq⟩ := hp
    dsimp only
    have hlt : ∀ i ∈ idx, i < X.length := fun i h => List.mem_range.mp ((mem_times hk _ _).mp (hi.subset h))
    rw [← hd p hq]
    unfold rngChoice
    have h00 : ((takeAt idx X).length = 0 ∧ n ≠ 0) ↔ (X.length = 0 ∧ n ≠ 0) := by
      rw [hl, Nat.mul_eq_zero]
      constructor
      · rintro ⟨h | h, h'⟩
        · omega
        · exact ⟨h, h'⟩
      · rintro ⟨h, h'⟩; exact ⟨.inr h, h'⟩
    by_cases h0 : X.length = 0 ∧ n ≠ 0
    · rw [if_pos h0, if_pos (h00.mpr h0)]
    · rw [if_neg h0, if_neg (fun h' => h0 (h00.mp h'))]
      cases p with
      | none => exact takeRows_takeAt idx X hlt _
      | some q =>
        have hqp : (takeAt idx (q.map (· / (k : K)))).Perm (times k (q.map (· / (k : K)))) := takeAt_times idx _ (by rw [List.length_map, hq q rfl]; exact hi)
        dsimp only [Option.map]
        have hany : (takeAt idx (q.map (· / (k : K)))).any (fun q => decide (q < 0)) = q.any fun q => decide (q < 0) := by
          rw [Bool.eq_iff_iff, List.any_eq_true, List.any_eq_true]
          simp only [hqp.mem_iff, mem_times hk, List.mem_map, decide_eq_true_eq]
          have hkp : (0 : K) < k := by exact_mod_cast hk
          constructor
          · rintro ⟨_, ⟨a, ha, rfl⟩, hlt⟩
            exact ⟨a, ha, by rwa [div_lt_iff₀ hkp, zero_mul] at hlt⟩
          · rintro ⟨a, ha, hlt⟩
            exact ⟨_, ⟨a, ha, rfl⟩, by rwa [div_lt_iff₀ hkp, zero_mul]⟩
        have hsum : (takeAt idx (q.map (· / (k : K)))).sum = q.sum := by
          rw [hqp.sum_eq, times_sum]
          have : q.map (· / (k : K)) = q.map (fun a => (k : K)⁻¹ * a) := List.map_congr_left fun a _ => by rw [div_eq_inv_mul]
          rw [this, List.sum_map_mul_left, List.map_id', ← mul_assoc, mul_inv_cancel₀ hk', one_mul]
        have hlen : (takeAt idx (q.map (· / (k : K)))).length = (takeAt idx X).length := by
          rw [hqp.length_eq, times_length, List.length_map, hq q rfl, hl]
        rw [hlen, hsum, hany]
        have hql := hq q rfl
        by_cases hb : (q.any fun q => decide (q < 0)) = true ∨ q.sum ≠ 1
        · rw [if_pos (.inr hb), if_pos (.inr hb)]
        · rw [if_neg (by simpa using hb), if_neg (by simpa [hql] using hb)]
          exact takeRows_takeAt idx X hlt _

theorem esDiscover_repeat (hk : 0 < k) (cfg : ESCfg K) (hL : L.Repeats k L') (ff : RuleFitness K d) (idx : List Nat) (hi : idx.Perm (times k (List.range X.length)))
    (hxy : y.length = X.length) (draw draw' : Option (List K) → List Nat)
    (hd : ∀ p : Option (List K), (∀ q ∈ p, q.length = X.length) → (draw' (p.map fun q => takeAt idx (q.map (· / (k : K))))).map (fun j => idx.getD j X.length) = draw p)
    (children : Nat → Nat → Nat → Pairs K d) (el : Option (Indiv K)) {pool pool' : List (Rule K d M)} (h : List.Forall₂ (SameRep k L L' X (takeAt idx X)) pool pool') (n : Nat) :
    ERel (List.Forall₂ (SameRep k L L' X (takeAt idx X))) (esDiscover cfg L ff draw children el pool X y n)
      (esDiscover cfg L' ff draw' children el pool' (takeAt idx X) (takeAt idx y) n) := by
  have hy := takeAt_times idx y (by rw [hxy]; exact hi)
  have hX := takeAt_times idx X hi
  have hxy' : (takeAt idx y).length = (takeAt idx X).length := by rw [hy.length_eq, hX.length_eq, times_length, times_length, hxy]
  have hp : ((takeAt idx X).zip (takeAt idx y)).Perm (times k (X.zip y)) := by
    rw [takeAt_zip _ _ _ hxy]
    exact takeAt_times idx _ (by simpa [hxy] using hi)
  unfold esDiscover
  rw [estimateBounds_mem (X := X) (X' := takeAt idx X) (fun x => by rw [hX.mem_iff, mem_times hk]), matchingOrigins_repeat hk idx hi h cfg.useElitist el n draw draw' hd]
  cases estimateBounds X with
  | error e => exact .error e
  | ok fb =>
    dsimp only
    cases matchingOrigins cfg.useElitist X pool el n draw with
    | error e => exact .error e
    | ok os =>
      have := discoverRules_sim (R := SameRep k L L' X (takeAt idx X)) (initialRule L ff X y .ordered cfg.minRange fb fb)
        (initialRule L' ff (takeAt idx X) (takeAt idx y) .ordered cfg.minRange fb fb) id (fun o => fit_repeat hk hL ff hxy hxy' hp _ rfl rfl)
        (fun ρ gens => (esOptimize (concreteES L ff X y cfg.operator cfg.delay cfg.mutation cfg.minRange fb) gens ρ).map some)
        (fun ρ gens => (esOptimize (concreteES L' ff (takeAt idx X) (takeAt idx y) cfg.operator cfg.delay cfg.mutation cfg.minRange fb) gens ρ).map some)
        (fun gens => gens.map fun g => (g.1.map id, g.2))
        (fun a b s hab => (esOptimize_sim (concreteES_repeat hk hL ff hxy hxy' hp cfg.operator cfg.delay cfg.mutation cfg.minRange fb) s a b hab).map_some)
        (acceptVariance cfg.beta y) (acceptVariance cfg.beta (takeAt idx y)) (fun a b hab => acceptVariance_repeat hk _ hxy hxy' hp hab) os
        ((List.range n).map fun k => (List.range cfg.nIter).map fun g => ((List.range cfg.lmbda).map (children k g), ()))
      simpa [List.map_map, Function.comp_def] using this

/-! ### Predictions -/

theorem valueAt_repeat {ρ ρ' : Rule K d M} (h : SameRep k L L' X X' ρ ρ') (x : Point K d) : ρ'.valueAt L' x = ρ.valueAt L x := by
  have hm := h.model
  unfold Rule.valueAt
  revert hm
  generalize ρ.model = a
  generalize ρ'.model = b
  intro hm
  cases hm with
  | none => rfl
  | some hm => exact hm x

theorem tauVal_repeat (w : K) {ρ ρ' : Rule K d M} (h : SameRep k L L' X X' ρ ρ') : ρ'.tauVal ⟨.plain, w⟩ = (k : K) * ρ.tauVal ⟨.plain, w⟩ := by
  obtain ⟨s, s', h1, h2, _, h3, _, h4, _⟩ := h.st
  unfold Rule.tauVal
  rw [h1, h2]
  dsimp only [ExpCalc.value]
  rw [h3, h4, Nat.cast_mul]
  ring

theorem tauVal_nonneg_repeat (w : K) (hw : 0 ≤ w) {ρ ρ' : Rule K d M} (h : SameRep k L L' X X' ρ ρ') : 0 ≤ ρ.tauVal ⟨.plain, w⟩ := by
  obtain ⟨s, s', h1, _, _, _, _, _, _, _, h5⟩ := h.st
  unfold Rule.tauVal
  rw [h1]
  dsimp only [ExpCalc.value]
  refine mul_nonneg ?_ (mul_nonneg (Nat.cast_nonneg _) hw)
  unfold invError
  revert h5
  cases s.error with
  | top => intro _; simp
  | coe e =>
    intro h5
    simp only [WithTop.map_coe, WithTop.untopD_coe]
    exact div_nonneg zero_le_one (le_of_lt (by rwa [← WithTop.coe_zero, WithTop.coe_lt_coe] at h5))

theorem mixAt_repeat (hk : 0 < k) (w : K) (hw : 0 ≤ w) {sub sub' : List (Rule K d M)} (h : List.Forall₂ (SameRep k L L' X X') sub sub') (x : Point K d) :
    mixAt L' ⟨.plain, w⟩ sub' x = mixAt L ⟨.plain, w⟩ sub x := by
  have hk' : (k : K) ≠ 0 := by exact_mod_cast hk.ne'
  have hf := forall₂_filter (fun ρ : Rule K d M => ρ.kind.call ρ.bounds x) (fun ρ : Rule K d M => ρ.kind.call ρ.bounds x) (fun a b h => by rw [h.kind, h.bounds]) _ _ h
  have hsum : ∀ (l l' : List (Rule K d M)) (f g : Rule K d M → K), List.Forall₂ (SameRep k L L' X X') l l' → (∀ a b, SameRep k L L' X X' a b → g b = (k : K) * f a) →
      (l'.map g).sum = (k : K) * (l.map f).sum := by
    intro l l' f g hl hfg
    induction hl with
    | nil => simp
    | cons h1 _ ih => rw [List.map_cons, List.map_cons, List.sum_cons, List.sum_cons, ih, hfg _ _ h1, mul_add]
  unfold mixAt
  have h1 : numAt L' ⟨.plain, w⟩ sub' x = (k : K) * numAt L ⟨.plain, w⟩ sub x := hsum _ _ _ _ hf fun a b h => by rw [valueAt_repeat h, tauVal_repeat w h]; ring
  have h2 : denAt ⟨.plain, w⟩ sub' x = (k : K) * denAt ⟨.plain, w⟩ sub x := hsum _ _ _ _ hf fun a b h => tauVal_repeat w h
  rw [h1, h2]
  by_cases hz : denAt ⟨.plain, w⟩ sub x = 0
  · have hnn : ∀ a ∈ sub.filter fun ρ => ρ.kind.call ρ.bounds x, 0 ≤ a.tauVal ⟨.plain, w⟩ := by
      have : ∀ (l l' : List (Rule K d M)), List.Forall₂ (SameRep k L L' X X') l l' → ∀ a ∈ l, 0 ≤ a.tauVal ⟨.plain, w⟩ := by
        intro l l' hl
        induction hl with
        | nil => simp
        | cons h1 _ ih =>
          intro a ha
          rcases List.mem_cons.mp ha with rfl | ha
          · exact tauVal_nonneg_repeat w hw h1
          · exact ih a ha
      exact this _ _ hf
    have hzero : ∀ a ∈ sub.filter fun ρ => ρ.kind.call ρ.bounds x, a.tauVal ⟨.plain, w⟩ = 0 := by
      intro a ha
      refine le_antisymm ?_ (hnn a ha)
      rw [← hz]
      refine List.single_le_sum (fun v hv => ?_) _ (List.mem_map_of_mem ha)
      obtain ⟨b, hb, rfl⟩ := List.mem_map.mp hv
      exact hnn b hb
    have hnum : numAt L ⟨.plain, w⟩ sub x = 0 := by
      unfold numAt
      refine List.sum_eq_zero fun v hv => ?_
      obtain ⟨a, ha, rfl⟩ := List.mem_map.mp hv
      rw [hzero a ha, mul_zero]
    rw [hnum, mul_zero, zero_div, zero_div]
  · rw [if_neg hz, if_neg (mul_ne_zero hk' hz), mul_div_mul_left _ _ hk']

theorem sameRep_facts {sub sub' : List (Rule K d M)} (h : List.Forall₂ (SameRep k L L' X X') sub sub') :
    (∀ ρ ∈ sub, ρ.st.isSome ∧ ρ.localPred L true X = .ok (X.map (ρ.kind.call ρ.bounds), X.map fun x => if ρ.kind.call ρ.bounds x then ρ.valueAt L x else 0)) ∧
    ∀ ρ ∈ sub', ρ.st.isSome ∧ ρ.localPred L' true X' = .ok (X'.map (ρ.kind.call ρ.bounds), X'.map fun x => if ρ.kind.call ρ.bounds x then ρ.valueAt L' x else 0) := by
  induction h with
  | nil => simp
  | cons h1 _ ih =>
    obtain ⟨s, s', e1, e2, _⟩ := h1.st
    refine ⟨fun ρ hρ => ?_, fun ρ hρ => ?_⟩
    · rcases List.mem_cons.mp hρ with rfl | hρ
      · exact ⟨by rw [e1]; rfl, h1.loc⟩
      · exact ih.1 ρ hρ
    · rcases List.mem_cons.mp hρ with rfl | hρ
      · exact ⟨by rw [e2]; rfl, h1.loc'⟩
      · exact ih.2 ρ hρ

theorem mixing_of_local (L : Learner K d M) (P : MixParams K) (cache : Bool) (X : List (Point K d)) (sub : List (Rule K d M)) (f : ∀ ρ ∈ sub, ρ.st.isSome ∧
    ρ.localPred L cache X = .ok (X.map (ρ.kind.call ρ.bounds), X.map fun x => if ρ.kind.call ρ.bounds x then ρ.valueAt L x else 0)) :
    mixing L P filterAll cache X sub = .ok (X.map (mixAt L P sub)) := by
  unfold mixing
  cases sub with
  | nil =>
    simp only [List.isEmpty_nil, if_true]
    refine congrArg Except.ok ?_
    rw [show mixAt L P [] = fun _ => (0 : K) from funext fun x => mixAt_nil L P x, List.map_const']
  | cons a as =>
    simp only [List.isEmpty_cons, Bool.false_eq_true, if_false, filterAll]
    exact mixRules_of_state L P cache X _ (fun ρ h => (f ρ h).1) fun ρ h => (f ρ h).2

theorem evalGenome_repeat (hk : 0 < k) (w : K) (hw : 0 ≤ w) (sf : SolFitness K) (hxy : y.length = X.length) (hxy' : y'.length = X'.length) (hp : (X'.zip y').Perm (times k (X.zip y)))
    {pool pool' : List (Rule K d M)} (h : List.Forall₂ (SameRep k L L' X X') pool pool') : evalGenome L' ⟨.plain, w⟩ filterAll sf X' y' pool' = evalGenome L ⟨.plain, w⟩ filterAll sf X y pool := by
  funext g
  have hlen : X'.length = k * X.length := by
    have := hp.length_eq
    rw [times_length] at this
    simpa [hxy, hxy'] using this
  unfold evalGenome Solution.fit Solution.predict Solution.subpopulation
  dsimp only
  rw [← h.length_eq]
  by_cases hg : g.length = pool.length
  · rw [if_pos hg, if_pos hg]
    dsimp only
    have hsub := forall₂_compress _ _ h g
    obtain ⟨f1, f2⟩ := sameRep_facts hsub
    rw [mixing_of_local L _ true X _ f1, mixing_of_local L' _ true X' _ f2, show mixAt L' ⟨.plain, w⟩ (compress pool' g) = mixAt L ⟨.plain, w⟩ (compress pool g) from
      funext fun x => mixAt_repeat hk w hw hsub x]
    dsimp only
    rw [List.length_map, List.length_map, mse_map _ _ _ hxy, mse_map _ _ _ hxy', meanSqErr_times hk _ hp]
    have hc' : (y'.length ≠ X'.length ∨ y'.length = 0) ↔ (y.length ≠ X.length ∨ y.length = 0) := by
      rw [hxy, hxy', hlen, Nat.mul_eq_zero]
      constructor
      · rintro (h | h | h)
        · exact absurd rfl h
        · omega
        · exact .inr h
      · rintro (h | h)
        · exact absurd rfl h
        · exact .inr (.inr h)
    by_cases hc : y.length ≠ X.length ∨ y.length = 0
    · rw [if_pos hc, if_pos (hc'.mpr hc)]
    · rw [if_neg hc, if_neg (fun h => hc (hc'.mp h))]
  · rw [if_neg hg, if_neg hg]

theorem localPred_repeat (Z : List (Point K d)) {a b : Rule K d M} (hab : SameRep k L L' X X' a b) : b.localPred L' false Z = a.localPred L false Z := by
  have hpr : ∀ Z, b.predict L' Z = a.predict L Z := by
    intro Z
    have hm := hab.model
    unfold Rule.predict
    revert hm
    generalize a.model = u
    generalize b.model = v
    intro hm
    cases hm with
    | none => rfl
    | some hm => exact congrArg Except.ok (List.map_congr_left fun x _ => hm x)
  unfold Rule.localPred Rule.matchRows
  simp only [Bool.false_eq_true, if_false]
  rw [hab.kind, hab.bounds, hpr]

theorem mixing_repeat (hk : 0 < k) (w : K) (hw : 0 ≤ w) (Z : List (Point K d)) {sub sub' : List (Rule K d M)} (h : List.Forall₂ (SameRep k L L' X X') sub sub') :
    mixing L' ⟨.plain, w⟩ filterAll false Z sub' = mixing L ⟨.plain, w⟩ filterAll false Z sub := by
  have hloc := mapM_sim (Rule.localPred L false Z) (Rule.localPred L' false Z) (fun _ _ hab => localPred_repeat Z hab) h
  cases hm : sub.mapM (Rule.localPred L false Z) with
  | error e =>
    have hemp : sub'.isEmpty = sub.isEmpty := by cases h <;> rfl
    unfold mixing filterAll
    rw [hemp]
    dsimp only
    unfold mixRules
    rw [hloc, hm]
    rfl
  | ok rows =>
    have f1 : ∀ ρ ∈ sub, ρ.st.isSome ∧ ρ.localPred L false Z = .ok (Z.map (ρ.kind.call ρ.bounds), Z.map fun x => if ρ.kind.call ρ.bounds x then ρ.valueAt L x else 0) := by
      intro ρ hρ
      obtain ⟨r, hr⟩ := mapM_all_ok _ _ _ hm ρ hρ
      exact ⟨((sameRep_facts h).1 ρ hρ).1, ρ.localPred_fine L Z (ρ.fine_of_localPred L Z hr)⟩
    have f2 : ∀ ρ ∈ sub', ρ.st.isSome ∧ ρ.localPred L' false Z = .ok (Z.map (ρ.kind.call ρ.bounds), Z.map fun x => if ρ.kind.call ρ.bounds x then ρ.valueAt L' x else 0) := by
      intro ρ hρ
      obtain ⟨r, hr⟩ := mapM_all_ok _ _ _ (hloc.trans hm) ρ hρ
      exact ⟨((sameRep_facts h).2 ρ hρ).1, ρ.localPred_fine L' Z (ρ.fine_of_localPred L' Z hr)⟩
    rw [mixing_of_local L _ false Z _ f1, mixing_of_local L' _ false Z _ f2]
    exact congrArg Except.ok (List.map_congr_left fun x _ => mixAt_repeat hk w hw h x)

end Sim

/-! ### C148 -/

/-- What the rule at the same position of the other model is like: same condition, error, fitness and predictions, `k` times the experience. -/
def Spec.SameButExperience (k : Nat) (L L' : Learner K d M) (ρ ρ' : Rule K d M) : Prop :=
  ρ'.kind = ρ.kind ∧ ρ'.bounds = ρ.bounds ∧
    (∃ s s', ρ.st = some s ∧ ρ'.st = some s' ∧ s'.isFitted = s.isFitted ∧ s'.error = s.error ∧ s'.fitness = s.fitness ∧ s'.experience = k * s.experience) ∧
    ∀ x v, ρ.LocalPrediction L x v ↔ ρ'.LocalPrediction L' x v

theorem SameRep.result {k : Nat} {L L' : Learner K d M} {X X' : List (Point K d)} {ρ ρ' : Rule K d M} (h : SameRep k L L' X X' ρ ρ') : Spec.SameButExperience k L L' ρ ρ' := by
  obtain ⟨s, s', h1, h2, h3, h4, h5, h6, _⟩ := h.st
  refine ⟨h.kind, h.bounds, ⟨s, s', h1, h2, h3, h4, h5, h6⟩, fun x v => ?_⟩
  have hm := h.model
  unfold Rule.LocalPrediction
  revert hm
  generalize ρ.model = a
  generalize ρ'.model = b
  intro hm
  cases hm with
  | none => simp
  | some hm => simp only [Option.some.injEq, exists_eq_left', hm]

/-- C148 (partial): training on data in which every sample occurs `k` times (in any order), with the same random numbers, ends in the same way as training on the samples themselves and gives the same
rules (same conditions, errors, fitness and local predictions, `k` times the experience), the same selection of rules with the same error and fitness, and the same predictions — for training algorithms
of the local models that do not notice the repetition (`L'` on the repeated data predicts what `L` predicts). Missing: the default local model with the same `alpha`, see `C148_ridge_refuted`, and
capped experience in the mixing, see `C148_cap_refuted`. -/
theorem C148_repeat_partial (k : Nat) (hk : 0 < k) (idx : List Nat) (cfg : SupCfg K) (es : ESCfg K) (ga : GACfg K) (L L' : Learner K d M) (hL : L.Repeats k L') (ff : RuleFitness K d)
    (sf : Nat → SolFitness K) (raw : RawData K d) (hxy : raw.y.length = raw.X.length) (hi : idx.Perm (times k (List.range raw.X.length))) (D D' : RunDraws K d M)
    (hD : SameRepeatDraws k L L' raw.X idx D D') (entropy step : Nat) (cl : Bool) :
    let r := SupState.fit cfg (defaultComp es ga D L ff sf) entropy raw cl { step := step }
    let r2 := SupState.fit cfg (defaultComp es ga D' L' ff sf) entropy { raw with X := takeAt idx raw.X, y := takeAt idx raw.y } cl { step := step }
    r2.raised = r.raised ∧ List.Forall₂ (Spec.SameButExperience k L L') r.state.pool r2.state.pool ∧
      (∀ σ, r.state.elitist = some (.solution σ) → ∃ σ', r2.state.elitist = some (.solution σ') ∧ σ'.genome = σ.genome ∧ σ'.st = σ.st) ∧
      ∀ Xq, r2.state.predict (defaultComp es ga D' L' ff sf) Xq = r.state.predict (defaultComp es ga D L ff sf) Xq := by
  intro r r2
  have hX := takeAt_times idx raw.X hi
  have hy := takeAt_times idx raw.y (by rw [hxy]; exact hi)
  have hlX : (takeAt idx raw.X).length = k * raw.X.length := by rw [hX.length_eq, times_length]
  have hlY : (takeAt idx raw.y).length = k * raw.y.length := by rw [hy.length_eq, times_length]
  have hxy' : (takeAt idx raw.y).length = (takeAt idx raw.X).length := by rw [hlX, hlY, hxy]
  have hp : ((takeAt idx raw.X).zip (takeAt idx raw.y)).Perm (times k (raw.X.zip raw.y)) := by
    rw [takeAt_zip _ _ _ hxy]
    exact takeAt_times idx _ (by simpa [hxy] using hi)
  have hc : CompSim (SameRep k L L' raw.X (takeAt idx raw.X)) (defaultComp es ga D L ff sf) (defaultComp es ga D' L' ff sf) raw.X (takeAt idx raw.X) raw.y (takeAt idx raw.y) := by
    refine ⟨?_, ?_, hD.init⟩
    · intro seed hist hist' el pool pool' n hh hpool
      show ERel _ (esDiscover es L ff (D.origins seed hist raw.X.length n) (D.children seed hist) el pool raw.X raw.y n)
        (esDiscover es L' ff (D'.origins seed hist' (takeAt idx raw.X).length n) (D'.children seed hist') el pool' (takeAt idx raw.X) (takeAt idx raw.y) n)
      rw [hlX, hD.children seed hist hist' hh]
      exact esDiscover_repeat hk es hL ff idx hi hxy _ _ (hD.origins seed hist hist' hh n) _ el hpool n
    · intro seed hist hist' hh
      show (fun n ev pop => gaOptimize ga (D'.ga seed hist' n pop.length) n ev pop) = fun n ev pop => gaOptimize ga (D.ga seed hist n pop.length) n ev pop
      rw [hD.ga seed hist hist' hh]
  have hcheck : (raw.finite ∧ (takeAt idx raw.X).length = (takeAt idx raw.y).length ∧ takeAt idx raw.X ≠ []) ↔ (raw.finite ∧ raw.X.length = raw.y.length ∧ raw.X ≠ []) := by
    rw [hxy', ← List.length_pos_iff, ← List.length_pos_iff, hlX, hxy]
    simp [hk]
  have h := fit_sim_check (raw := raw) (raw' := { raw with X := takeAt idx raw.X, y := takeAt idx raw.y }) hc cfg hcheck
    (fun pool pool' hpool => evalGenome_repeat hk 1 zero_le_one _ hxy hxy' hp hpool) entropy cl { step := step } { step := step } ⟨rfl, rfl, rfl, .none, .nil, rfl⟩
  refine ⟨h.raised, h.state.pool.imp fun _ _ h => h.result, ?_, fun Xq => ?_⟩
  · intro σ hσ
    have he := h.state.elitist
    change Option.Rel _ r.state.elitist r2.state.elitist at he
    rw [hσ] at he
    revert he
    generalize r2.state.elitist = e
    intro he
    cases he with
    | some he =>
      cases he with
      | solution g pool pool' st _ => exact ⟨_, rfl, rfl, rfl⟩
  · exact predict_sim Xq Xq rfl (fun pool pool' hpool => mixing_repeat hk 1 zero_le_one Xq hpool) _ _ h.state

/-- C148 (partial): ridge regression on samples given `k` times is ridge regression on the samples, if the penalty `alpha` is multiplied by `k` as well. -/
theorem C148_ridge_partial (k : Nat) (hk : 0 < k) (alpha : K) (ha : 0 < alpha) : (ridge alpha : Learner K d (LinModel K d)).Repeats k (ridge ((k : K) * alpha)) := by
  intro D D' x hD hp
  have hkp : (0 : K) < k := by exact_mod_cast hk
  have hz : ∀ D : List (Point K d × K), (D.map Prod.fst).zip (D.map Prod.snd) = D := zip_fst_snd
  have hD' : D' ≠ [] := by
    intro h
    subst h
    have := hp.length_eq
    rw [times_length, List.length_nil] at this
    rcases Nat.mul_eq_zero.mp this.symm with h | h
    · omega
    · exact hD (List.length_eq_zero_iff.mp h)
  have h : IsRidge ((k : K) * alpha) D' (ridgeFit alpha (D.map Prod.fst) (D.map Prod.snd)) := by
    have h0 := ridgeFit_isRidge ha (D.map Prod.fst) (D.map Prod.snd) (by simpa using hD) (by simp)
    rw [hz] at h0
    intro m'
    have hl : ∀ m : LinModel K d, ridgeLoss ((k : K) * alpha) D' m = (k : K) * ridgeLoss alpha D m := by
      intro m
      unfold ridgeLoss
      rw [(hp.map fun q => (q.2 - m.predict q.1) ^ 2).sum_eq, times_map, times_sum]
      ring
    rw [hl, hl]
    exact mul_le_mul_of_nonneg_left (h0 m') hkp.le
  show LinModel.predict (ridgeFit _ _ _) x = LinModel.predict (ridgeFit alpha _ _) x
  rw [ridgeFit_eq (mul_pos hkp ha) (D'.map Prod.fst) (D'.map Prod.snd) (by simpa using hD') (by simp) (by rw [hz]; exact h)]

/-- C148 (partial): the default configuration: repeating every sample `k` times is the same as training on the samples with the penalty of the ridge regression divided by `k`. -/
theorem C148_default_partial {d : Nat} (k : Nat) (hk : 0 < k) (idx : List Nat) (nan nan' : ℝ) (raw : RawData ℝ d) (hxy : raw.y.length = raw.X.length)
    (hi : idx.Perm (times k (List.range raw.X.length))) (D D' : RunDraws ℝ d (LinModel ℝ d)) (hD : SameRepeatDraws k (ridge (1 / 100 / (k : ℝ))) (ridge (1 / 100)) raw.X idx D D')
    (entropy step : Nat) (cl : Bool) :
    let r := SupState.fit SupCfg.default (defaultComp ESCfg.default GACfg.default D (ridge (1 / 100 / (k : ℝ))) (volumeWu nan) (complexityWu nan')) entropy raw cl { step := step }
    let r2 := SupState.fit SupCfg.default (defaultComp ESCfg.default GACfg.default D' (ridge (1 / 100)) (volumeWu nan) (complexityWu nan')) entropy
      { raw with X := takeAt idx raw.X, y := takeAt idx raw.y } cl { step := step }
    r2.raised = r.raised ∧ ∀ Xq, r2.state.predict (defaultComp ESCfg.default GACfg.default D' (ridge (1 / 100)) (volumeWu nan) (complexityWu nan')) Xq =
      r.state.predict (defaultComp ESCfg.default GACfg.default D (ridge (1 / 100 / (k : ℝ))) (volumeWu nan) (complexityWu nan')) Xq := by
  intro r r2
  have hkp : (0 : ℝ) < k := by exact_mod_cast hk
  have hR : (ridge (1 / 100 / (k : ℝ)) : Learner ℝ d (LinModel ℝ d)).Repeats k (ridge (1 / 100)) := by
    have := C148_ridge_partial (d := d) k hk (1 / 100 / (k : ℝ)) (by positivity)
    rwa [mul_div_cancel₀ _ hkp.ne'] at this
  have h := C148_repeat_partial k hk idx SupCfg.default ESCfg.default GACfg.default _ _ hR (volumeWu nan) (complexityWu nan') raw hxy hi D D' hD entropy step cl
  exact ⟨h.1, h.2.2.2⟩

/-- C148 (refuted): the default local model (ridge regression with a fixed `alpha`) is penalised less if every sample is given twice. For the targets 0 and 1 at the points 0 and 1 it predicts 101/102
for the second sample; if both samples are given twice, it predicts 201/202. -/
theorem C148_ridge_refuted : (ridge (1 / 100 : ℚ)).predict ((ridge (1 / 100)).fit [![0], ![1]] [0, 1]) (![1] : Point ℚ 1) = 101 / 102 ∧
    (ridge (1 / 100 : ℚ)).predict ((ridge (1 / 100)).fit (times 2 [![0], ![1]]) (times 2 [0, 1])) (![1] : Point ℚ 1) = 201 / 202 := by
  have h1 : IsRidge (1 / 100 : ℚ) ([(![0] : Point ℚ 1), ![1]].zip [0, 1]) ⟨![50 / 51], 1 / 102⟩ := by
    apply RidgeNormal.isRidge (by norm_num)
    intro v
    rw [ridgeForm_apply, ridgeRhs_apply]
    simp [LinModel.vec, atPoint]
    ring
  have h2 : IsRidge (1 / 100 : ℚ) ((times 2 [(![0] : Point ℚ 1), ![1]]).zip (times 2 [0, 1])) ⟨![100 / 101], 1 / 202⟩ := by
    apply RidgeNormal.isRidge (by norm_num)
    intro v
    rw [ridgeForm_apply, ridgeRhs_apply]
    simp [LinModel.vec, atPoint, times, List.replicate]
    ring
  constructor
  · show LinModel.predict (ridgeFit _ _ _) _ = _
    rw [ridgeFit_eq (by norm_num) _ _ (by simp) (by simp) h1]
    norm_num [LinModel.predict]
  · show LinModel.predict (ridgeFit _ _ _) _ = _
    rw [ridgeFit_eq (by norm_num) _ _ (by simp [times, List.replicate]) (by simp [times, List.replicate]) h2]
    norm_num [LinModel.predict]

/-- C148 (refuted): with experience capped at 2, repeating the samples raises the experience of one rule but not of the other, which changes the prediction. Two rules are trained on the samples
(0, 0) and (1, 2); the first matches one sample, the second both. -/
theorem C148_cap_refuted : let P : MixParams ℚ := ⟨.cap none (some 2), 1⟩
    let predicted (k : Nat) := [intervalRule 0 0, intervalRule 0 1].mapM (Rule.fit meanLearner negErr (times k [![0], ![1]]) (times k [0, 2])) >>= fun pool =>
      Solution.predict meanLearner P filterAll false ⟨[true, true], pool, none⟩ [![0]]
    predicted 1 = .ok [1 / 5001] ∧ predicted 2 = .ok [1 / 10001] := by
  decide +kernel

/-- C148 (partial): averaging the targets does not notice the repetition. -/
theorem C148_mean_partial (k : Nat) (hk : 0 < k) : meanLearner.Repeats k meanLearner := by
  intro D D' x _ hp
  have hkp : (0 : ℚ) < k := by exact_mod_cast hk
  show (D'.map Prod.snd).sum / ((D'.map Prod.snd).length : ℚ) = (D.map Prod.snd).sum / ((D.map Prod.snd).length : ℚ)
  rw [(hp.map Prod.snd).sum_eq, (hp.map Prod.snd).length_eq, times_map, times_sum, times_length, Nat.cast_mul, mul_div_mul_left _ _ hkp.ne']

/-- Three samples given twice, and a run in which always the first sample (the fifth one of the new data) is drawn as origin. -/
example (L L' : Learner ℚ 1 M) : ([2, 1, 2, 1, 0, 0] : List Nat).Perm (times 2 (List.range 3)) ∧ takeAt [2, 1, 2, 1, 0, 0] [(10 : ℚ), 11, 12] = [12, 11, 12, 11, 10, 10] ∧
    SameRepeatDraws 2 L L' [![0], ![1], ![5]] [2, 1, 2, 1, 0, 0]
      (⟨fun _ _ _ n _ => List.replicate n 0, fun _ _ _ _ _ => fun _ => (1, 2), fun _ _ _ _ => [], fun _ _ _ => 1 / 2⟩ : RunDraws ℚ 1 M)
      ⟨fun _ _ _ n _ => List.replicate n 4, fun _ _ _ _ _ => fun _ => (1, 2), fun _ _ _ _ => [], fun _ _ _ => 1 / 2⟩ :=
  ⟨by decide, by decide +kernel, fun _ _ _ _ n p _ => by simp, fun _ _ _ _ => rfl, fun _ _ _ _ => rfl, rfl⟩

end Suprb
