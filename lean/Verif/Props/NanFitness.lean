import Verif.Lemmas.PySort
import Verif.Lemmas.Default
import Verif.Props.Fitness
import Verif.Props.Default
import Verif.Props.ES

/-!
# C160: rule discovery on data with a feature that does not vary

The rule fitnesses with a volume divide by the volume of the input space. If a feature has the same value in all samples this is `0 / 0` for every rule, and no comparison with NaN is true.
-/

set_option autoImplicit false
set_option linter.unusedSectionVars false

namespace Suprb

open _root_.Spec (Pairs Point Ordered Inside InBounds)

/-! ### Specification -/

namespace Spec

/-- The rule reached by going on, in each generation, with the first valid child whatever it is (with the current rule if there is none), for all generations. -/
def firstChildren {R Z : Type} (child : R → Z → Except PyErr R) (valid : R → Bool) : List (List Z) → R → Except PyErr R
  | [], e => .ok e
  | zs :: gs, e => match zs.mapM (child e) with
    | .error er => .error er
    | .ok cs => firstChildren child valid gs ((cs.filter valid).headD e)

/-- Two rules with the same matching function, of which both or none can be used. -/
def SameShape {K : Type} [Field K] [LinearOrder K] {d : Nat} {M M' : Type} (a : Rule K d M) (b : Rule K d M') : Prop :=
  a.kind = b.kind ∧ a.bounds = b.bounds ∧ a.inputSpace = b.inputSpace ∧ validRule a = validRule b

end Spec

open Suprb.Spec (firstChildren SameShape)

variable {K : Type} [Field K] [LinearOrder K] [IsStrictOrderedRing K] {d : Nat} {M M' : Type}

/-! ### Rules on data with a constant feature -/

theorem estimateBounds_constant (X : List (Point K d)) (fb : Pairs K d) (hfb : estimateBounds X = .ok fb) (i : Fin d) (c : K) (hc : ∀ x ∈ X, x i = c) : fb i = (c, c) := by
  cases X with
  | nil => cases hfb
  | cons x xs =>
    cases hfb
    have hx := hc x (by simp)
    have hxs : ∀ z ∈ xs, z i = c := fun z hz => hc z (List.mem_cons_of_mem _ hz)
    have e1 : (xs.map fun z => z i).foldl min (x i) = c := by
      rw [hx]
      clear hx hc
      induction xs with
      | nil => rfl
      | cons z zs ih =>
        rw [List.map_cons, List.foldl_cons, hxs z (by simp), min_self]
        exact ih fun w hw => hxs w (List.mem_cons_of_mem _ hw)
    have e2 : (xs.map fun z => z i).foldl max (x i) = c := by
      rw [hx]
      clear hx hc e1
      induction xs with
      | nil => rfl
      | cons z zs ih =>
        rw [List.map_cons, List.foldl_cons, hxs z (by simp), max_self]
        exact ih fun w hw => hxs w (List.mem_cons_of_mem _ hw)
    exact Prod.ext e1 e2

theorem constrain_flat (r : K) (fb b : Pairs K d) (i : Fin d) (h : (fb i).1 = (fb i).2) : (constrain .ordered r fb b i).1 = (constrain .ordered r fb b i).2 := by
  unfold constrain Kind.clip OrderedBound.clip
  have : ∀ c x : K, npClip c c x = c := fun c x => le_antisymm (npClip_le _ _ _) (npClip_ge le_rfl _)
  simp only [h, this]

/-- A rule as discovery makes it on data with the bounds `fb`: its interval in feature `i` has no width. -/
structure Flat (fb : Pairs K d) (i : Fin d) (ρ : Rule K d M) : Prop where
  kind : ρ.kind = .ordered
  space : ρ.inputSpace = fb
  flat : (ρ.bounds i).1 = (ρ.bounds i).2
  error : validRule ρ = true → ∃ s e, ρ.st = some s ∧ s.error = ((e : K) : WithTop K)

/-- What `fit` makes of a new rule. -/
theorem fit_fresh (L : Learner K d M) (ff : RuleFitness K d) (X : List (Point K d)) (y : List K) (k : Kind) (b sp : Pairs K d) (ρ : Rule K d M)
    (h : Rule.fit L ff X y { kind := k, bounds := b, inputSpace := sp } = .ok ρ) :
    ρ.kind = k ∧ ρ.bounds = b ∧ ρ.inputSpace = sp ∧ ∃ s, ρ.st = some s ∧
      ((s.isFitted = false ∧ s.fitness = ⊥) ∨ (s.isFitted = true ∧ ∃ e, 0 ≤ e ∧ s.error = ((e : K) : WithTop K) ∧ s.fitness = ((ff e k b sp : K) : WithBot K))) := by
  unfold Rule.fit Rule.refit at h
  dsimp only at h
  split at h
  · cases h
    exact ⟨rfl, rfl, rfl, _, rfl, Or.inl ⟨rfl, rfl⟩⟩
  · split at h
    · cases h
    · cases h
      refine ⟨rfl, rfl, rfl, _, rfl, Or.inr ⟨rfl, _, ?_, rfl, rfl⟩⟩
      refine le_trans ?_ (le_max_right _ _)
      unfold errorFloor
      positivity

theorem flat_of_fit (L : Learner K d M) (ff : RuleFitness K d) (X : List (Point K d)) (y : List K) (fb b : Pairs K d) (i : Fin d) (hb : (b i).1 = (b i).2) (ρ : Rule K d M)
    (h : Rule.fit L ff X y { kind := .ordered, bounds := b, inputSpace := fb } = .ok ρ) : Flat fb i ρ := by
  obtain ⟨h1, h2, h3, s, hs, h4⟩ := fit_fresh L ff X y _ b fb ρ h
  refine ⟨h1, h3, by rw [h2]; exact hb, fun hv => ?_⟩
  rcases h4 with h4 | ⟨_, e, _, h5, _⟩
  · unfold validRule at hv
    rw [hs] at hv
    dsimp only at hv
    rw [h4.1] at hv
    cases hv
  · exact ⟨s, e, hs, h5⟩

theorem flat_child (L : Learner K d M) (ff : RuleFitness K d) (X : List (Point K d)) (y : List K) (m : Mutation) (r : K) (fb : Pairs K d) (i : Fin d)
    (hfb : (fb i).1 = (fb i).2) (e c : Rule K d M) (z : Pairs K d) (he : Flat fb i e) (h : childRule L ff X y m r fb e z = .ok c) : Flat fb i c := by
  unfold childRule childBounds at h
  split at h
  · cases h
  · rename_i b hb
    split at hb
    · cases hb
      unfold Rule.clone at h
      rw [he.kind, he.space] at h
      exact flat_of_fit L ff X y fb _ i (constrain_flat r fb _ i hfb) c h
    · cases hb

/-- The fitness of a usable rule without width in a feature that does not vary is NaN. -/
theorem Flat.nan {fb : Pairs K d} {i : Fin d} {ρ : Rule K d M} (h : Flat fb i ρ) (hfb : (fb i).1 = (fb i).2) (hv : validRule ρ = true) (f : Combine) (alpha : K) (acc : K → K) :
    Rule.npFitness (fun e k b sp => volumeFitnessNp f alpha (acc e) k b sp) ρ = .nan := by
  obtain ⟨s, e, hs, he⟩ := h.error hv
  have hf : s.isFitted = true := by
    unfold validRule at hv
    rw [hs] at hv
    dsimp only at hv
    exact (Bool.and_eq_true_iff.mp hv).1
  have hval : ρ.npFitness (fun e k b sp => volumeFitnessNp f alpha (acc e) k b sp) = volumeFitnessNp f alpha (acc e) ρ.kind ρ.bounds ρ.inputSpace := by
    unfold Rule.npFitness
    rw [hs]
    dsimp only
    rw [if_pos hf, he]
  rw [hval]
  have h1 : Kind.ordered.volume ρ.bounds = 0 := by
    unfold Kind.volume OrderedBound.volume
    exact Finset.prod_eq_zero (Finset.mem_univ i) (by rw [h.flat]; ring)
  have h2 : (∏ j, ((fb j).2 - (fb j).1)) = 0 := Finset.prod_eq_zero (Finset.mem_univ i) (by rw [hfb]; ring)
  unfold volumeFitnessNp
  rw [h.kind, h.space, h1, h2]
  unfold npDiv
  rw [if_pos rfl, if_pos rfl]
  cases f <;> rfl

/-! ### The search without comparisons -/

theorem npFittestFirst_nan {R : Type} (fitness : R → NpFloat K) (a : R) (l : List R) (h : ∀ r ∈ a :: l, fitness r = .nan) : npFittestFirst fitness (a :: l) = .ok a := by
  unfold npFittestFirst
  rw [pySortedDesc_incomparable _ _ fun x hx y hy => by rw [h x hx, h y hy]; rfl]
  rfl

theorem esLoop_nan {R Z : Type} (P : ESParams R Z Unit (NpFloat K)) (hop : P.operator ≠ .other) (hdelay : P.operator = .amp → 1 ≤ P.delay)
    (hsel : ∀ l s, P.select l s = npFittestFirst P.fitness l) (Q : R → Prop) (hnan : ∀ r, Q r → P.fitness r = .nan)
    (hQ : ∀ e z c, Q e → P.child e z = .ok c → P.valid c = true → Q c) (gs : List (List Z × Unit)) (e : R) (w : List R) (he : Q e) (hw : ∀ a ∈ w, Q a) :
    esLoop P gs e w = firstChildren P.child P.valid (gs.map Prod.fst) e := by
  induction gs generalizing e w with
  | nil => rfl
  | cons g gs ih =>
    obtain ⟨zs, s⟩ := g
    unfold esLoop esGen
    rw [List.map_cons]
    unfold firstChildren
    dsimp only
    have hw' : ∀ a ∈ dequeAppend P.delay w e, Q a := fun a ha => by
      rcases mem_dequeAppend _ _ _ _ ha with h | rfl
      · exact hw a h
      · exact he
    cases hcs : zs.mapM (P.child e) with
    | error er => rfl
    | ok cs =>
      dsimp only
      have hv : ∀ c ∈ cs.filter P.valid, Q c := by
        intro c hc
        obtain ⟨h1, h2⟩ := List.mem_filter.mp hc
        obtain ⟨z, _, hz⟩ := mem_of_mapM_ok _ _ _ hcs c h1
        exact hQ e z c he hz h2
      cases hval : cs.filter P.valid with
      | nil =>
        rw [if_pos (show ([] : List R).isEmpty = true from rfl)]
        exact ih e _ he hw'
      | cons a l =>
        rw [hval] at hv
        rw [if_neg (show ¬ (a :: l).isEmpty = true by simp)]
        have ha : Q a := hv a (by simp)
        cases hopc : P.operator with
        | plus =>
          dsimp only
          rw [hsel, List.cons_append, npFittestFirst_nan P.fitness a (l ++ [e]) fun r hr => hnan r (by
            rw [← List.cons_append, List.mem_append] at hr
            rcases hr with hr | hr
            · exact hv r hr
            · rw [List.mem_singleton.mp hr]; exact he)]
          exact ih a _ ha hw'
        | comma =>
          dsimp only
          rw [hsel, npFittestFirst_nan P.fitness a l fun r hr => hnan r (hv r hr)]
          exact ih a _ ha hw'
        | amp =>
          dsimp only
          rw [hsel, npFittestFirst_nan P.fitness a l fun r hr => hnan r (hv r hr)]
          dsimp only
          by_cases hlen : (dequeAppend P.delay w e).length = P.delay
          · rw [if_pos hlen]
            have h1 := hdelay hopc
            cases hdq : dequeAppend P.delay w e with
            | nil => rw [hdq] at hlen; simp at hlen; omega
            | cons e0 t =>
              dsimp only
              rw [hdq] at hw'
              rw [if_neg]
              · exact ih a _ ha hw'
              · intro hall
                rw [List.all_eq_true] at hall
                have := of_decide_eq_true (hall e0 (by simp))
                rw [hnan e0 (hw' e0 (by simp))] at this
                cases this
          · rw [if_neg hlen]
            exact ih a _ ha hw'
        | other => exact absurd hopc hop

/-- The initial rule of an origin matches the origin. -/
theorem initial_valid (L : Learner K d M) (ff : RuleFitness K d) (X : List (Point K d)) (y : List K) (hxy : y.length = X.length) (r : K) (fb : Pairs K d) (hfb : estimateBounds X = .ok fb)
    (o : Point K d) (ho : o ∈ X) (ρ0 : Rule K d M) (h0 : initialRule L ff X y .ordered r fb fb o = .ok ρ0) : validRule ρ0 = true := by
  obtain ⟨fb', e1, e2, _⟩ := estimateBounds_ok X (List.ne_nil_of_mem ho)
  rw [hfb] at e1; cases e1
  obtain ⟨ρ, _, h1, _, _, _, _, ⟨s, h2, h3, h4, _⟩, _⟩ :=
    C34_origin_kept L ff X y hxy .plus 0 (by simp) .halfnormIncrease (Or.inl rfl) (0, 0) r fb fb e2 o ho [] (by simp)
  rw [h0] at h1; cases h1
  unfold validRule
  rw [h2]
  simp [h3, h4]

/-- C160 (refuted): if some feature has the same value `c` in all samples, every usable rule (the initial one of an origin and every child) has the fitness NaN, for both rule fitnesses with a volume and every
`alpha`. -/
theorem C160_nan_refuted (X : List (Point ℝ d)) (y : List ℝ) (fb : Pairs ℝ d) (hfb : estimateBounds X = .ok fb) (i : Fin d) (c : ℝ) (hc : ∀ x ∈ X, x i = c)
    (f : Combine) (alpha : ℝ) (L : Learner ℝ d M) (ff : RuleFitness ℝ d) (m : Mutation) (r : ℝ) (o : Point ℝ d) (ρ0 : Rule ℝ d M) (h0 : initialRule L ff X y .ordered r fb fb o = .ok ρ0) :
    (validRule ρ0 = true → ρ0.npFitness (volumeNp f alpha) = .nan) ∧
    ∀ z ρ, childRule L ff X y m r fb ρ0 z = .ok ρ → validRule ρ = true → ρ.npFitness (volumeNp f alpha) = .nan := by
  have hflat : (fb i).1 = (fb i).2 := by rw [estimateBounds_constant X fb hfb i c hc]
  have q0 := flat_of_fit L ff X y fb _ i (constrain_flat r fb (meanInit .ordered o) i hflat) ρ0 h0
  exact ⟨fun hv => q0.nan hflat hv f alpha _, fun z ρ h hv => (flat_child L ff X y m r fb i hflat ρ0 ρ z q0 h).nan hflat hv f alpha _⟩

/-- C160 (refuted): then the evolution strategy, with each of its three operators, takes in every generation the first valid child whatever its error and volume are, and carries out all
generations: it never stops early and never keeps the current rule for being better. -/
theorem C160_first_child_refuted (X : List (Point ℝ d)) (y : List ℝ) (fb : Pairs ℝ d) (hfb : estimateBounds X = .ok fb) (i : Fin d) (c : ℝ) (hc : ∀ x ∈ X, x i = c)
    (f : Combine) (alpha : ℝ) (L : Learner ℝ d M) (ff : RuleFitness ℝ d) (op : ESOperator) (hop : op ≠ .other) (delay : Nat) (hdelay : op = .amp → 1 ≤ delay) (m : Mutation) (r : ℝ)
    (hxy : y.length = X.length) (o : Point ℝ d) (ho : o ∈ X) (ρ0 : Rule ℝ d M) (h0 : initialRule L ff X y .ordered r fb fb o = .ok ρ0) (gens : List (List (Pairs ℝ d) × Unit)) :
    esOptimize (npES (volumeNp f alpha) L ff X y op delay m r fb) gens ρ0 = firstChildren (childRule L ff X y m r fb) validRule (gens.map Prod.fst) ρ0 := by
  have hflat : (fb i).1 = (fb i).2 := by rw [estimateBounds_constant X fb hfb i c hc]
  have q0 := flat_of_fit L ff X y fb _ i (constrain_flat r fb (meanInit .ordered o) i hflat) ρ0 h0
  have hv := initial_valid L ff X y hxy r fb hfb o ho ρ0 h0
  exact esLoop_nan (npES (volumeNp f alpha) L ff X y op delay m r fb) hop hdelay (fun l s => rfl) (fun ρ => Flat fb i ρ ∧ validRule ρ = true)
    (fun ρ h => h.1.nan hflat h.2 f alpha _) (fun e z c' he hch hvc => ⟨flat_child L ff X y m r fb i hflat e c' z he.1 hch, hvc⟩) gens ρ0 [] ⟨q0, hv⟩ (by simp)

/-! ### The targets do not matter -/

/-- The shape of a trained rule does not depend on learner, targets and fitness. -/
theorem fit_shape (L : Learner K d M) (L' : Learner K d M') (ff ff' : RuleFitness K d) (X : List (Point K d)) (y y' : List K) (hy : y.length = X.length) (hy' : y'.length = X.length)
    (k : Kind) (b sp : Pairs K d) :
    ∃ ρ ρ', Rule.fit L ff X y { kind := k, bounds := b, inputSpace := sp } = .ok ρ ∧ Rule.fit L' ff' X y' { kind := k, bounds := b, inputSpace := sp } = .ok ρ' ∧ SameShape ρ ρ' := by
  unfold Rule.fit
  dsimp only
  by_cases h : (Rule.matchRows { kind := k, bounds := b, inputSpace := sp : Rule K d M } X).any id = false
  · have h' : (Rule.matchRows { kind := k, bounds := b, inputSpace := sp : Rule K d M' } X).any id = false := h
    rw [if_pos h, if_pos h']
    exact ⟨_, _, rfl, rfl, rfl, rfl, rfl, rfl⟩
  · have h' : ¬ (Rule.matchRows { kind := k, bounds := b, inputSpace := sp : Rule K d M' } X).any id = false := h
    rw [if_neg h, if_neg h']
    unfold Rule.refit
    rw [if_neg (not_not.mpr hy), if_neg (not_not.mpr hy')]
    exact ⟨_, _, rfl, rfl, rfl, rfl, rfl, rfl⟩

theorem child_shape (L : Learner K d M) (L' : Learner K d M') (ff ff' : RuleFitness K d) (X : List (Point K d)) (y y' : List K) (hy : y.length = X.length) (hy' : y'.length = X.length)
    (m : Mutation) (r : K) (fb : Pairs K d) (e : Rule K d M) (e' : Rule K d M') (he : SameShape e e') (z : Pairs K d) :
    (∃ er, childRule L ff X y m r fb e z = .error er ∧ childRule L' ff' X y' m r fb e' z = .error er) ∨
    ∃ ρ ρ', childRule L ff X y m r fb e z = .ok ρ ∧ childRule L' ff' X y' m r fb e' z = .ok ρ' ∧ SameShape ρ ρ' := by
  unfold childRule
  rw [← he.1, ← he.2.1]
  cases childBounds m e.kind r fb z e.bounds with
  | error er => exact Or.inl ⟨er, rfl, rfl⟩
  | ok b =>
    right
    dsimp only [Rule.clone]
    rw [← he.1, ← he.2.2.1]
    exact fit_shape L L' ff ff' X y y' hy hy' _ _ _

theorem children_shape {R R' Z : Type} (Q : R → R' → Prop) (child : R → Z → Except PyErr R) (child' : R' → Z → Except PyErr R')
    (h : ∀ e e', Q e e' → ∀ z, (∃ er, child e z = .error er ∧ child' e' z = .error er) ∨ ∃ ρ ρ', child e z = .ok ρ ∧ child' e' z = .ok ρ' ∧ Q ρ ρ') (e : R) (e' : R') (he : Q e e')
    (zs : List Z) :
    (∃ er, zs.mapM (child e) = .error er ∧ zs.mapM (child' e') = .error er) ∨ ∃ cs cs', zs.mapM (child e) = .ok cs ∧ zs.mapM (child' e') = .ok cs' ∧ List.Forall₂ Q cs cs' := by
  induction zs with
  | nil => exact Or.inr ⟨[], [], rfl, rfl, .nil⟩
  | cons z zs ih =>
    rw [List.mapM_cons, List.mapM_cons]
    rcases h e e' he z with ⟨er, h1, h2⟩ | ⟨ρ, ρ', h1, h2, h3⟩
    · exact Or.inl ⟨er, by rw [h1]; rfl, by rw [h2]; rfl⟩
    · rw [h1, h2]
      rcases ih with ⟨er, i1, i2⟩ | ⟨cs, cs', i1, i2, i3⟩
      · exact Or.inl ⟨er, by rw [i1]; rfl, by rw [i2]; rfl⟩
      · exact Or.inr ⟨ρ :: cs, ρ' :: cs', by rw [i1]; rfl, by rw [i2]; rfl, .cons h3 i3⟩

theorem firstChildren_shape {R R' Z : Type} (Q : R → R' → Prop) (valid : R → Bool) (valid' : R' → Bool) (hv : ∀ e e', Q e e' → valid e = valid' e')
    (child : R → Z → Except PyErr R) (child' : R' → Z → Except PyErr R')
    (h : ∀ e e', Q e e' → ∀ z, (∃ er, child e z = .error er ∧ child' e' z = .error er) ∨ ∃ ρ ρ', child e z = .ok ρ ∧ child' e' z = .ok ρ' ∧ Q ρ ρ') (gs : List (List Z))
    (e : R) (e' : R') (he : Q e e') :
    (∃ er, firstChildren child valid gs e = .error er ∧ firstChildren child' valid' gs e' = .error er) ∨
    ∃ ρ ρ', firstChildren child valid gs e = .ok ρ ∧ firstChildren child' valid' gs e' = .ok ρ' ∧ Q ρ ρ' := by
  induction gs generalizing e e' with
  | nil => exact Or.inr ⟨e, e', rfl, rfl, he⟩
  | cons zs gs ih =>
    unfold firstChildren
    rcases children_shape Q child child' h e e' he zs with ⟨er, h1, h2⟩ | ⟨cs, cs', h1, h2, h3⟩
    · exact Or.inl ⟨er, by rw [h1], by rw [h2]⟩
    · rw [h1, h2]
      dsimp only
      refine ih _ _ ?_
      clear h1 h2
      induction h3 with
      | nil => exact he
      | cons hq _ ih' =>
        rename_i a b l l' _
        by_cases ha : valid a = true
        · rw [List.filter_cons_of_pos ha, List.filter_cons_of_pos (by rw [← hv a b hq]; exact ha)]
          exact hq
        · rw [List.filter_cons_of_neg ha, List.filter_cons_of_neg (by rw [← hv a b hq]; exact ha)]
          exact ih'

/-- C160 (refuted): on such data the bounds of the discovered rule do not depend on the targets at all, nor on the local model: with the same draws the evolution strategy ends with the same bounds for
every two vectors of targets and all local models. -/
theorem C160_targets_ignored_refuted (X : List (Point ℝ d)) (y y' : List ℝ) (hy : y.length = X.length) (hy' : y'.length = X.length) (fb : Pairs ℝ d) (hfb : estimateBounds X = .ok fb)
    (i : Fin d) (c : ℝ) (hc : ∀ x ∈ X, x i = c) (f f' : Combine) (alpha alpha' : ℝ) (L : Learner ℝ d M) (L' : Learner ℝ d M') (ff ff' : RuleFitness ℝ d) (op : ESOperator) (hop : op ≠ .other)
    (delay : Nat) (hdelay : op = .amp → 1 ≤ delay) (m : Mutation) (r : ℝ) (o : Point ℝ d) (ho : o ∈ X) (gens : List (List (Pairs ℝ d) × Unit)) :
    ((initialRule L ff X y .ordered r fb fb o).bind fun ρ => (esOptimize (npES (volumeNp f alpha) L ff X y op delay m r fb) gens ρ).map Rule.bounds) =
      (initialRule L' ff' X y' .ordered r fb fb o).bind fun ρ => (esOptimize (npES (volumeNp f' alpha') L' ff' X y' op delay m r fb) gens ρ).map Rule.bounds := by
  obtain ⟨ρ, ρ', h1, h2, h3⟩ := fit_shape L L' ff ff' X y y' hy hy' .ordered (constrain .ordered r fb (meanInit .ordered o)) fb
  have hi : initialRule L ff X y .ordered r fb fb o = .ok ρ := h1
  have hi' : initialRule L' ff' X y' .ordered r fb fb o = .ok ρ' := h2
  rw [hi, hi']
  dsimp only [Except.bind]
  rw [C160_first_child_refuted X y fb hfb i c hc f alpha L ff op hop delay hdelay m r hy o ho ρ hi gens,
    C160_first_child_refuted X y' fb hfb i c hc f' alpha' L' ff' op hop delay hdelay m r hy' o ho ρ' hi' gens]
  rcases firstChildren_shape SameShape validRule validRule (fun e e' h => h.2.2.2) (childRule L ff X y m r fb) (childRule L' ff' X y' m r fb)
    (fun e e' he z => child_shape L L' ff ff' X y y' hy hy' m r fb e e' he z) (gens.map Prod.fst) ρ ρ' h3 with ⟨er, a1, a2⟩ | ⟨a, b, a1, a2, a3⟩
  · rw [a1, a2]; rfl
  · rw [a1, a2]
    exact congrArg Except.ok a3.2.1

/-! ### Data in which every feature varies, and the fitness without volume -/

/-- The fitness values of the other models as numpy numbers. -/
def toNp : WithBot K → NpFloat K
  | none => .negInf
  | some x => .val x

theorem toNp_lt (a b : WithBot K) : (toNp a).ltB (toNp b) = decide (a < b) := by
  cases a with
  | bot => cases b with
    | bot => exact (decide_eq_false (lt_irrefl _)).symm
    | coe y => exact (decide_eq_true (WithBot.bot_lt_coe y)).symm
  | coe x => cases b with
    | bot => exact (decide_eq_false (not_lt.mpr bot_le)).symm
    | coe y => exact decide_eq_decide.mpr WithBot.coe_lt_coe.symm

theorem toNp_le (a b : WithBot K) : toNp a ≤ toNp b ↔ a ≤ b := by
  cases a with
  | bot => cases b with
    | bot => exact ⟨fun _ => le_rfl, fun _ => rfl⟩
    | coe y => exact ⟨fun _ => bot_le, fun _ => rfl⟩
  | coe x => cases b with
    | bot =>
      refine ⟨fun h => ?_, fun h => ?_⟩
      · cases h
      · exact absurd h (not_le.mpr (WithBot.bot_lt_coe x))
    | coe y => exact ⟨fun h => WithBot.coe_le_coe.mpr (of_decide_eq_true h), fun h => decide_eq_true (WithBot.coe_le_coe.mp h)⟩

theorem npFittestFirst_eq {R : Type} (fitness : R → NpFloat K) (key : R → WithBot K) (l : List R) (h : ∀ r ∈ l, fitness r = toNp (key r)) :
    npFittestFirst fitness l = fittestFirst key l := by
  unfold npFittestFirst fittestFirst fittest
  rw [pySortedDesc_eq key _ l fun a ha b hb => by rw [h a ha, h b hb, toNp_lt]]
  rfl

/-- Two evolution strategies which differ in the fitness only, on rules where the fitness values correspond. -/
theorem esLoop_toNp {R Z : Type} (P : ESParams R Z Unit (NpFloat K)) (P' : ESParams R Z Unit (WithBot K)) (h1 : P.operator = P'.operator) (h2 : P.delay = P'.delay)
    (h3 : P.child = P'.child) (h4 : P.valid = P'.valid) (hsel : ∀ l s, P.select l s = npFittestFirst P.fitness l) (hsel' : ∀ l s, P'.select l s = fittestFirst P'.fitness l)
    (Q : R → Prop) (hfit : ∀ r, Q r → P.fitness r = toNp (P'.fitness r)) (hQ : ∀ e z c, Q e → P'.child e z = .ok c → Q c)
    (gs : List (List Z × Unit)) (e : R) (w : List R) (he : Q e) (hw : ∀ a ∈ w, Q a) : esLoop P gs e w = esLoop P' gs e w := by
  induction gs generalizing e w with
  | nil => rfl
  | cons g gs ih =>
    obtain ⟨zs, s⟩ := g
    have hw' : ∀ a ∈ dequeAppend P'.delay w e, Q a := fun a ha => by
      rcases mem_dequeAppend _ _ _ _ ha with h | rfl
      · exact hw a h
      · exact he
    have hgen : esGen P zs s e w = esGen P' zs s e w := by
      unfold esGen
      rw [h1, h2, h3, h4]
      dsimp only
      cases hcs : zs.mapM (P'.child e) with
      | error er => rfl
      | ok cs =>
        dsimp only
        have hv : ∀ c ∈ cs.filter P'.valid, Q c := by
          intro c hc
          obtain ⟨z, _, hz⟩ := mem_of_mapM_ok _ _ _ hcs c (List.mem_of_mem_filter hc)
          exact hQ e z c he hz
        have e1 : P.select (cs.filter P'.valid) s = P'.select (cs.filter P'.valid) s := by
          rw [hsel, hsel', npFittestFirst_eq _ _ _ fun r hr => hfit r (hv r hr)]
        have e2 : P.select (cs.filter P'.valid ++ [e]) s = P'.select (cs.filter P'.valid ++ [e]) s := by
          rw [hsel, hsel', npFittestFirst_eq _ _ _ fun r hr => hfit r ?_]
          rcases List.mem_append.mp hr with hr | hr
          · exact hv r hr
          · rw [List.mem_singleton.mp hr]; exact he
        have e3 : ∀ e0 ∈ dequeAppend P'.delay w e, ((dequeAppend P'.delay w e).all fun a => decide (P.fitness a ≤ P.fitness e0)) =
            ((dequeAppend P'.delay w e).all fun a => decide (P'.fitness a ≤ P'.fitness e0)) := by
          intro e0 h0
          rw [Bool.eq_iff_iff, List.all_eq_true, List.all_eq_true]
          refine forall₂_congr fun a ha => ?_
          rw [decide_eq_true_iff, decide_eq_true_iff, hfit a (hw' a ha), hfit e0 (hw' e0 h0), toNp_le]
        rw [e1, e2]
        by_cases hem : (cs.filter P'.valid).isEmpty = true
        · rw [if_pos hem, if_pos hem]
        · rw [if_neg hem, if_neg hem]
          cases P'.operator with
          | plus => rfl
          | comma => rfl
          | amp =>
            dsimp only
            cases P'.select (cs.filter P'.valid) s with
            | error er => rfl
            | ok new =>
              dsimp only
              cases hdq : dequeAppend P'.delay w e with
              | nil => rfl
              | cons e0 t =>
                rw [hdq] at e3
                dsimp only
                rw [e3 e0 (by simp)]
          | other => rfl
    unfold esLoop
    rw [hgen]
    cases hg : esGen P' zs s e w with
    | error er => rfl
    | ok out =>
      cases out with
      | stop r => rfl
      | next e' w' =>
        dsimp only
        have hm : P'.SelectsMember := fun l s r hr => by
          rw [hsel'] at hr
          exact (fittestFirst_mem _ l r hr).1
        obtain ⟨rfl, he'⟩ := esGen_next P' hm (fun _ => True) zs (fun _ _ => trivial) s e e' w w' hg
        refine ih e' _ ?_ hw'
        rcases he' with rfl | ⟨z, _, hc, _⟩
        · exact he
        · exact hQ e z e' he hc

theorem sortRows_ordered (b : Pairs K d) : Ordered (sortRows b) := by
  intro i
  unfold sortRows
  exact min_le_max

theorem mutate_ordered (m : Mutation) (z b b' : Pairs K d) (h : mutate m .ordered z b = .ok b') : Ordered b' := by
  cases m <;> (cases h; exact sortRows_ordered _)

/-- A rule as discovery makes it, with the fitness the attribute records. -/
structure Recorded (ff : RuleFitness K d) (fb : Pairs K d) (ρ : Rule K d M) : Prop where
  kind : ρ.kind = .ordered
  space : ρ.inputSpace = fb
  ordered : Ordered ρ.bounds
  inside : Inside fb ρ.bounds
  state : ∃ s, ρ.st = some s ∧ ((s.isFitted = false ∧ s.fitness = ⊥) ∨
    (s.isFitted = true ∧ ∃ e, 0 ≤ e ∧ s.error = ((e : K) : WithTop K) ∧ s.fitness = ((ff e .ordered ρ.bounds fb : K) : WithBot K)))

theorem recorded_of_fit (L : Learner K d M) (ff : RuleFitness K d) (X : List (Point K d)) (y : List K) (fb b : Pairs K d) (hb : Ordered b) (hin : Inside fb b) (ρ : Rule K d M)
    (h : Rule.fit L ff X y { kind := .ordered, bounds := b, inputSpace := fb } = .ok ρ) : Recorded ff fb ρ := by
  obtain ⟨h1, h2, h3, h4⟩ := fit_fresh L ff X y _ b fb ρ h
  subst h2
  exact ⟨h1, h3, hb, hin, h4⟩

/-- Whenever the fitness of all rules in question is a number, the evolution strategy with numpy's comparisons does what the strategy of the other models does. -/
theorem np_of_numbers (fit : K → Kind → Pairs K d → Pairs K d → NpFloat K) (ff : RuleFitness K d) (L : Learner K d M) (X : List (Point K d)) (y : List K) (op : ESOperator) (delay : Nat)
    (m : Mutation) (r : K) (fb : Pairs K d) (hfb : Ordered fb) (hnum : ∀ e b, 0 ≤ e → Ordered b → Inside fb b → fit e .ordered b fb = .val (ff e .ordered b fb))
    (o : Point K d) (ρ0 : Rule K d M) (h0 : initialRule L ff X y .ordered r fb fb o = .ok ρ0) (gens : List (List (Pairs K d) × Unit)) :
    esOptimize (npES fit L ff X y op delay m r fb) gens ρ0 = esOptimize (concreteES L ff X y op delay m r fb) gens ρ0 := by
  have q0 : Recorded ff fb ρ0 := recorded_of_fit L ff X y fb _ (C02_ordered _ fb _ (meanInit_ordered o)) (C02_inside _ fb _ hfb) ρ0 h0
  refine esLoop_toNp (npES fit L ff X y op delay m r fb) (concreteES L ff X y op delay m r fb) rfl rfl rfl rfl (fun _ _ => rfl) (fun _ _ => rfl) (Recorded ff fb) ?_ ?_ gens ρ0 [] q0 (by simp)
  · intro ρ hρ
    obtain ⟨s, hs, h | ⟨h, e, he, h1, h2⟩⟩ := hρ.state
    · change Rule.npFitness fit ρ = toNp (ruleFitnessOf ρ)
      unfold Rule.npFitness ruleFitnessOf
      rw [hs]
      dsimp only [Option.map_some, Option.getD_some]
      rw [h.1, h.2]
      rfl
    · change Rule.npFitness fit ρ = toNp (ruleFitnessOf ρ)
      unfold Rule.npFitness ruleFitnessOf
      rw [hs]
      dsimp only [Option.map_some, Option.getD_some]
      rw [if_pos h, h1, h2, hρ.kind, hρ.space]
      exact hnum e ρ.bounds he hρ.ordered hρ.inside
  · intro e z c he hc
    change childRule L ff X y m r fb e z = .ok c at hc
    unfold childRule childBounds at hc
    split at hc
    · cases hc
    · rename_i b hb
      split at hb
      · rename_i b' hb'
        cases hb
        unfold Rule.clone at hc
        rw [he.kind, he.space] at hc
        rw [he.kind] at hb'
        exact recorded_of_fit L ff X y fb _ (C02_ordered r fb b' (mutate_ordered m z _ b' hb')) (C02_inside r fb b' hfb) c hc
      · cases hb

/-- The rule fitnesses with a volume as numbers, where they are numbers. -/
noncomputable def volumeNumber (f : Combine) (alpha : ℝ) : RuleFitness ℝ d := fun e k b sp =>
  match volumeFitness f alpha k b sp e with
  | .ok (some v) => v
  | _ => 0

theorem volumeNp_number (f : Combine) (alpha : ℝ) (ha : AlphaOk f alpha) (fb b : Pairs ℝ d) (hpos : 0 < inputSpaceVolume fb) (hb : Ordered b) (hin : Inside fb b) (e : ℝ) (he : 0 ≤ e) :
    volumeNp f alpha e .ordered b fb = .val (volumeNumber f alpha e .ordered b fb) := by
  obtain ⟨v, h1, _⟩ := C28_range_partial f alpha ha b fb hb hin hpos e he
  have hv : volumeNumber f alpha e .ordered b fb = v := by unfold volumeNumber; rw [h1]
  rw [hv]
  rw [volumeFitness_eq _ _ _ _ _ _ hpos] at h1
  simp only [Except.ok.injEq, Option.map_eq_some_iff] at h1
  obtain ⟨w, hw, rfl⟩ := h1
  have hne : (∏ i, ((fb i).2 - (fb i).1)) ≠ 0 := hpos.ne'
  unfold volumeNp volumeFitnessNp npDiv
  rw [if_neg hne]
  cases f with
  | emary =>
    unfold Combine.apply emary at hw
    simp only [Option.some.injEq] at hw
    subst hw
    unfold Combine.applyNp NpFloat.scale NpFloat.shift
    dsimp only
    rw [NpFloat.val.injEq]
    unfold inputSpaceVolume
    ring
  | wu =>
    unfold Combine.apply wu at hw
    dsimp only at hw
    split at hw
    · cases hw
    · rename_i hden
      simp only [Option.some.injEq] at hw
      subst hw
      unfold Combine.applyNp npDiv NpFloat.scale
      dsimp only
      unfold inputSpaceVolume at hden
      rw [if_neg hden]
      dsimp only
      rw [NpFloat.val.injEq]
      unfold inputSpaceVolume
      ring

/-- C160 (partial): if every feature takes at least two values in the data, no fitness is NaN and the evolution strategy does what the model with ordered fitness values does (to which C31 and
C32 apply), for both rule fitnesses with a volume, all operators and mutations. -/
theorem C160_varied_partial (X : List (Point ℝ d)) (y : List ℝ) (hX : X ≠ []) (hvar : ∀ i, ∃ x ∈ X, ∃ z ∈ X, x i ≠ z i) (fb : Pairs ℝ d) (hfb : estimateBounds X = .ok fb)
    (f : Combine) (alpha : ℝ) (ha : AlphaOk f alpha) (L : Learner ℝ d M) (op : ESOperator) (delay : Nat) (m : Mutation) (r : ℝ) (o : Point ℝ d) (ρ0 : Rule ℝ d M)
    (h0 : initialRule L (volumeNumber f alpha) X y .ordered r fb fb o = .ok ρ0) (gens : List (List (Pairs ℝ d) × Unit)) :
    esOptimize (npES (volumeNp f alpha) L (volumeNumber f alpha) X y op delay m r fb) gens ρ0 =
      esOptimize (concreteES L (volumeNumber f alpha) X y op delay m r fb) gens ρ0 := by
  obtain ⟨fb', e1, _, e3⟩ := estimateBounds_ok X hX
  rw [hfb] at e1; cases e1
  have hpos := volume_pos_of_varied X hX hvar fb hfb
  exact np_of_numbers _ _ L X y op delay m r fb e3 (fun e b he hb hin => volumeNp_number f alpha ha fb b hpos hb hin e he) o ρ0 h0 gens

/-- C160 (partial): with `PseudoAccuracy`, the rule fitness without volume, the same holds for all data. -/
theorem C160_accuracy_partial (X : List (Point ℝ d)) (y : List ℝ) (hX : X ≠ []) (fb : Pairs ℝ d) (hfb : estimateBounds X = .ok fb)
    (L : Learner ℝ d M) (op : ESOperator) (delay : Nat) (m : Mutation) (r : ℝ) (o : Point ℝ d) (ρ0 : Rule ℝ d M)
    (h0 : initialRule L (fun e _ _ _ => Real.exp (-2 * e) * 100) X y .ordered r fb fb o = .ok ρ0) (gens : List (List (Pairs ℝ d) × Unit)) :
    esOptimize (npES (fun e _ _ _ => .val (Real.exp (-2 * e) * 100)) L (fun e _ _ _ => Real.exp (-2 * e) * 100) X y op delay m r fb) gens ρ0 =
      esOptimize (concreteES L (fun e _ _ _ => Real.exp (-2 * e) * 100) X y op delay m r fb) gens ρ0 := by
  obtain ⟨fb', e1, _, e3⟩ := estimateBounds_ok X hX
  rw [hfb] at e1; cases e1
  exact np_of_numbers _ _ L X y op delay m r fb e3 (fun _ _ _ _ _ => rfl) o ρ0 h0 gens

/-! ### A concrete case -/

/-- Local models predicting the mean target. -/
noncomputable def realMean : Learner ℝ 2 ℝ := ⟨fun _ y => y.sum / (y.length : ℝ), fun c _ => c⟩

/-- Three samples; the second feature is always zero. -/
def flatData : List (Point ℝ 2) := [![0, 0], ![1, 0], ![2, 0]]

theorem flatData_bounds : estimateBounds flatData = .ok ![(0, 2), (0, 0)] := by
  unfold flatData estimateBounds
  dsimp only
  congr 1
  funext i
  fin_cases i <;> simp

/-- The rule made from bounds, before training. -/
def flatRule (a b : ℝ) : Rule ℝ 2 ℝ := { kind := .ordered, bounds := ![(a, b), (0, 0)], inputSpace := ![(0, 2), (0, 0)] }

theorem flatRule_matches (a b : ℝ) : (flatRule a b).matchRows flatData = [decide (a ≤ 0 ∧ 0 ≤ b), decide (a ≤ 1 ∧ 1 ≤ b), decide (a ≤ 2 ∧ 2 ≤ b)] := by
  unfold Rule.matchRows flatRule flatData Kind.call OrderedBound.call
  simp [Fin.forall_fin_two]
  exact ⟨rfl, rfl, rfl⟩

theorem flatRule_fit (a b : ℝ) (ff : RuleFitness ℝ 2) (y : List ℝ) (ms : List Bool) (hms : (flatRule a b).matchRows flatData = ms) (hany : ms.any id = true) :
    (flatRule a b).fit realMean ff flatData y = (flatRule a b).refit realMean ff flatData y ms := by
  unfold Rule.fit
  dsimp only
  rw [hms, if_neg (by rw [hany]; simp)]
  rfl

/-- C160 (refuted), a concrete case with the default mutation and the default fitness: samples 0, 1, 2 of the first feature (the second one is constant) with targets 0, 0, 5. Of two children with intervals of the
same width the one with the error 6.25 is taken, not the one that predicts perfectly (error 0.0001), with each of the three operators. -/
theorem C160_refuted (op : ESOperator) (hop : op ≠ .other) :
    ∃ ρ0 good bad : Rule ℝ 2 ℝ,
      initialRule realMean (volumeNumber .wu 0.05) flatData [0, 0, 5] .ordered (1 / 1000000) ![(0, 2), (0, 0)] ![(0, 2), (0, 0)] ![1, 0] = .ok ρ0 ∧
      childRule realMean (volumeNumber .wu 0.05) flatData [0, 0, 5] .halfnormIncrease (1 / 1000000) ![(0, 2), (0, 0)] ρ0 ![(0, 1), (0, 0)] = .ok bad ∧
      childRule realMean (volumeNumber .wu 0.05) flatData [0, 0, 5] .halfnormIncrease (1 / 1000000) ![(0, 2), (0, 0)] ρ0 ![(1, 0), (0, 0)] = .ok good ∧
      (∀ i, (good.bounds i).2 - (good.bounds i).1 = (bad.bounds i).2 - (bad.bounds i).1) ∧
      good.st.map RuleState.error = some ((1 / 10000 : ℝ) : WithTop ℝ) ∧ bad.st.map RuleState.error = some ((25 / 4 : ℝ) : WithTop ℝ) ∧
      esOptimize (npES (volumeNp .wu 0.05) realMean (volumeNumber .wu 0.05) flatData [0, 0, 5] op 146 .halfnormIncrease (1 / 1000000) ![(0, 2), (0, 0)])
        [([![(0, 1), (0, 0)], ![(1, 0), (0, 0)]], ())] ρ0 = .ok bad := by
  have hc0 : constrain .ordered (1 / 1000000 : ℝ) ![(0, 2), (0, 0)] (meanInit .ordered ![1, 0]) = ![(1 - 1 / 2000000, 1 + 1 / 2000000), (0, 0)] := by
    funext i
    fin_cases i <;> simp [constrain, Kind.clip, Kind.minRange, OrderedBound.clip, OrderedBound.minRange, meanInit, npClip] <;> norm_num
  have hm0 : (flatRule (1 - 1 / 2000000) (1 + 1 / 2000000)).matchRows flatData = [false, true, false] := by
    rw [flatRule_matches]; norm_num
  have h0 : initialRule realMean (volumeNumber .wu 0.05) flatData [0, 0, 5] .ordered (1 / 1000000) ![(0, 2), (0, 0)] ![(0, 2), (0, 0)] ![1, 0] =
      (flatRule (1 - 1 / 2000000) (1 + 1 / 2000000)).refit realMean (volumeNumber .wu 0.05) flatData [0, 0, 5] [false, true, false] := by
    unfold initialRule
    rw [hc0]
    exact flatRule_fit _ _ _ _ _ hm0 rfl
  have hb1 : childBounds .halfnormIncrease .ordered (1 / 1000000 : ℝ) ![(0, 2), (0, 0)] ![(0, 1), (0, 0)] ![(1 - 1 / 2000000, 1 + 1 / 2000000), (0, 0)] =
      .ok ![(1 - 1 / 2000000, 2), (0, 0)] := by
    unfold childBounds mutate
    dsimp only
    congr 1
    funext i
    fin_cases i <;> simp [constrain, Kind.clip, Kind.minRange, OrderedBound.clip, OrderedBound.minRange, npClip, sortRows, growNoise] <;> norm_num
  have hb2 : childBounds .halfnormIncrease .ordered (1 / 1000000 : ℝ) ![(0, 2), (0, 0)] ![(1, 0), (0, 0)] ![(1 - 1 / 2000000, 1 + 1 / 2000000), (0, 0)] =
      .ok ![(0, 1 + 1 / 2000000), (0, 0)] := by
    unfold childBounds mutate
    dsimp only
    congr 1
    funext i
    fin_cases i <;> simp [constrain, Kind.clip, Kind.minRange, OrderedBound.clip, OrderedBound.minRange, npClip, sortRows, growNoise] <;> norm_num
  have hm1 : (flatRule (1 - 1 / 2000000) 2).matchRows flatData = [false, true, true] := by
    rw [flatRule_matches]; norm_num
  have hm2 : (flatRule 0 (1 + 1 / 2000000)).matchRows flatData = [true, true, false] := by
    rw [flatRule_matches]; norm_num
  have hc1 : ∀ ρ : Rule ℝ 2 ℝ, ρ.kind = .ordered → ρ.bounds = ![(1 - 1 / 2000000, 1 + 1 / 2000000), (0, 0)] → ρ.inputSpace = ![(0, 2), (0, 0)] →
      childRule realMean (volumeNumber .wu 0.05) flatData [0, 0, 5] .halfnormIncrease (1 / 1000000) ![(0, 2), (0, 0)] ρ ![(0, 1), (0, 0)] =
        (flatRule (1 - 1 / 2000000) 2).refit realMean (volumeNumber .wu 0.05) flatData [0, 0, 5] [false, true, true] := by
    intro ρ k1 k2 k3
    unfold childRule
    rw [k1, k2, hb1]
    dsimp only [Rule.clone]
    rw [k1, k3]
    exact flatRule_fit _ _ _ _ _ hm1 rfl
  have hc2 : ∀ ρ : Rule ℝ 2 ℝ, ρ.kind = .ordered → ρ.bounds = ![(1 - 1 / 2000000, 1 + 1 / 2000000), (0, 0)] → ρ.inputSpace = ![(0, 2), (0, 0)] →
      childRule realMean (volumeNumber .wu 0.05) flatData [0, 0, 5] .halfnormIncrease (1 / 1000000) ![(0, 2), (0, 0)] ρ ![(1, 0), (0, 0)] =
        (flatRule 0 (1 + 1 / 2000000)).refit realMean (volumeNumber .wu 0.05) flatData [0, 0, 5] [true, true, false] := by
    intro ρ k1 k2 k3
    unfold childRule
    rw [k1, k2, hb2]
    dsimp only [Rule.clone]
    rw [k1, k3]
    exact flatRule_fit _ _ _ _ _ hm2 rfl
  refine ⟨_, _, _, h0.trans rfl, (hc1 _ rfl rfl rfl).trans rfl, (hc2 _ rfl rfl rfl).trans rfl, ?_, ?_, ?_, ?_⟩
  · intro i
    fin_cases i <;> simp [flatRule] <;> norm_num
  · simp only [Option.map_some, Option.some.injEq, WithTop.coe_inj]
    simp [mse, compress, flatData, realMean, errorFloor]
  · simp only [Option.map_some, Option.some.injEq, WithTop.coe_inj]
    simp [mse, compress, flatData, realMean, errorFloor]
    norm_num
  · rw [C160_first_child_refuted flatData [0, 0, 5] _ flatData_bounds 1 0 (by simp [flatData]) .wu 0.05 realMean _ op hop 146 (by simp) .halfnormIncrease _ rfl ![1, 0] (by simp [flatData]) _
      (h0.trans rfl)]
    unfold firstChildren
    simp only [List.map_cons, List.map_nil, List.mapM_cons, List.mapM_nil]
    rw [hc1 _ rfl rfl rfl, hc2 _ rfl rfl rfl]
    rfl

/-- The conditions of `C160_nan_refuted`, `C160_first_child_refuted` and `C160_targets_ignored_refuted` for these data. -/
example : estimateBounds flatData = .ok ![(0, 2), (0, 0)] ∧ (∀ x ∈ flatData, x 1 = 0) ∧ (![1, 0] : Point ℝ 2) ∈ flatData ∧ [0, 0, 5].length = flatData.length ∧
    [5, -3, 7].length = flatData.length := ⟨flatData_bounds, by simp [flatData], by simp [flatData], rfl, rfl⟩

/-- The conditions of `C160_varied_partial`: one feature with the values 0 and 1. -/
example : (∀ i, ∃ x ∈ [(![0] : Point ℝ 1), ![1]], ∃ z ∈ [(![0] : Point ℝ 1), ![1]], x i ≠ z i) ∧ AlphaOk .wu 0.05 ∧ AlphaOk .emary 0.99 :=
  ⟨fun i => ⟨![0], by simp, ![1], by simp, by simp⟩, by unfold AlphaOk; norm_num, by unfold AlphaOk; norm_num⟩

/-- A case of `C160_accuracy_partial`: the data with the constant feature. -/
example : flatData ≠ [] ∧ ∃ ρ0 : Rule ℝ 2 ℝ, initialRule realMean (fun e _ _ _ => Real.exp (-2 * e) * 100) flatData [0, 0, 5] .ordered (1 / 1000000) ![(0, 2), (0, 0)] ![(0, 2), (0, 0)] ![1, 0] = .ok ρ0 :=
  ⟨by simp [flatData], (fit_shape realMean realMean _ (fun _ _ _ _ => 0) flatData [0, 0, 5] [0, 0, 5] rfl rfl _ _ _).imp fun _ h => h.choose_spec.1⟩

/-- The number, if it is one. -/
def NpFloat.number : NpFloat K → Option K
  | .val x => some x
  | _ => none

/-- CPython's `sorted` on a small list with a NaN in the middle: the numbers on both sides are not compared, the largest one is not first. -/
example : (pySortedDesc (fun a b => NpFloat.ltB a b) [NpFloat.val (1 : ℚ), .nan, .val 2]).map NpFloat.number = [some 1, none, some 2] := by decide +kernel

end Suprb
