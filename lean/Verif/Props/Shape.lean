import Verif.Model.Shape
import Verif.Props.Default

/-!
# Claim C108: the number of features in predictions
-/

set_option autoImplicit false
set_option linter.unusedSectionVars false

namespace Suprb

open Spec

variable {K : Type} [Field K] [LinearOrder K] [IsStrictOrderedRing K] {d k : Nat} {M : Type}

/-- The interval one row of the parameters of a rule describes. -/
def intervalSide : Kind → K × K → K × K
  | .ordered, b => b
  | .unordered, b => (min b.1 b.2, max b.1 b.2)
  | .centerSpread, b => (b.1 - b.2, b.1 + b.2)
  | .minPercentage, b => (b.1, b.1 + b.2 * (1 - b.1))

/-- Every value of the sample lies in every interval of the rule. The sample may have another number of features than the rule. -/
def Crosses (ρ : Rule K d M) (x : Point K k) : Prop := ∀ i j, (intervalSide ρ.kind (ρ.bounds i)).1 ≤ x j ∧ x j ≤ (intervalSide ρ.kind (ρ.bounds i)).2

theorem call_iff_side (kd : Kind) (b : Pairs K d) (x : Point K d) : kd.call b x = true ↔ ∀ i, (intervalSide kd (b i)).1 ≤ x i ∧ x i ≤ (intervalSide kd (b i)).2 := by
  cases kd
  · exact C01_ordered b x
  · exact C01_unordered b x
  · exact C01_centerSpread b x
  · exact C01_minPercentage b x

theorem matchShape_error (ρ : Rule K d M) (h : d ≠ k) (hd : d ≠ 1) (hk : k ≠ 1) (x : Point K k) : ρ.matchShape x = .error .valueError := by
  unfold Rule.matchShape
  rw [dif_neg h, dif_neg hd, dif_neg hk]

theorem matchShape_one (ρ : Rule K d M) (h : d ≠ k) (h1 : d = 1 ∨ k = 1) (x : Point K k) : ∃ b, ρ.matchShape x = .ok b ∧ (b = true ↔ Crosses ρ x) := by
  unfold Rule.matchShape
  rw [dif_neg h]
  by_cases hd : d = 1
  · subst hd
    rw [dif_pos rfl]
    refine ⟨_, rfl, (call_iff_side _ _ _).trans ⟨fun h i j => ?_, fun h j => h ⟨0, Nat.one_pos⟩ j⟩⟩
    rw [Subsingleton.elim i ⟨0, Nat.one_pos⟩]
    exact h j
  · have hk : k = 1 := h1.resolve_left hd
    subst hk
    rw [dif_neg hd, dif_pos rfl]
    refine ⟨_, rfl, (call_iff_side _ _ _).trans ⟨fun h i j => ?_, fun h i => h i ⟨0, Nat.one_pos⟩⟩⟩
    rw [Subsingleton.elim j ⟨0, Nat.one_pos⟩]
    exact h i

theorem matchAll_one (ρ : Rule K d M) (h : d ≠ k) (h1 : d = 1 ∨ k = 1) (X : List (Point K k)) :
    ∃ ms : List Bool, X.mapM ρ.matchShape = .ok ms ∧ ms.length = X.length ∧ (ms.any id = true ↔ ∃ x ∈ X, Crosses ρ x) := by
  induction X with
  | nil => exact ⟨[], rfl, rfl, by simp⟩
  | cons x rest ih =>
    obtain ⟨ms, e1, e2, e3⟩ := ih
    obtain ⟨b, e4, e5⟩ := matchShape_one ρ h h1 x
    refine ⟨b :: ms, ?_, by simp [e2], ?_⟩
    · rw [List.mapM_cons, e4, e1]; rfl
    · simp only [List.any_cons, id, Bool.or_eq_true, e3, e5, List.mem_cons, exists_eq_or_imp]

theorem localPredShape_error (L : Learner K d M) (ρ : Rule K d M) (h : d ≠ k) (X : List (Point K k)) (hX : X ≠ []) (hc : (d ≠ 1 ∧ k ≠ 1) ∨ ((d = 1 ∨ k = 1) ∧ ∃ x ∈ X, Crosses ρ x)) :
    ρ.localPredShape L X = .error .valueError := by
  unfold Rule.localPredShape
  rcases hc with ⟨hd, hk⟩ | ⟨h1, hx⟩
  · obtain ⟨x, rest, rfl⟩ := List.exists_cons_of_ne_nil hX
    rw [List.mapM_cons, matchShape_error ρ h hd hk x]
    rfl
  · obtain ⟨ms, e1, _, e3⟩ := matchAll_one ρ h h1 X
    rw [e1]
    dsimp only
    rw [if_neg (by simp only [e3.mpr hx, Bool.true_eq_false, not_false_eq_true])]
    have hp : ρ.predictShape L (compress X ms) = .error .valueError := by
      unfold Rule.predictShape
      cases ρ.model with
      | none => rfl
      | some m => dsimp only; rw [dif_neg h]
    rw [hp]

theorem localPredShape_none (L : Learner K d M) (ρ : Rule K d M) (h : d ≠ k) (h1 : d = 1 ∨ k = 1) (X : List (Point K k)) (hx : ¬ ∃ x ∈ X, Crosses ρ x) :
    ρ.localPredShape L X = .ok (List.replicate X.length false, List.replicate X.length 0) := by
  unfold Rule.localPredShape
  obtain ⟨ms, e1, e2, e3⟩ := matchAll_one ρ h h1 X
  have hf : ms.any id = false := by rw [← Bool.not_eq_true]; exact fun h => hx (e3.mp h)
  rw [e1]
  dsimp only
  rw [if_pos hf]
  have : ms = List.replicate X.length false := List.eq_replicate_iff.mpr ⟨e2, fun b hb => by
    have := List.any_eq_false.mp hf b hb
    simpa using this⟩
  rw [this]

theorem mapM_error_of {α β : Type} (f : α → Except PyErr β) (l : List α) (e : PyErr) (hall : ∀ a ∈ l, f a = .error e ∨ ∃ b, f a = .ok b) (hex : ∃ a ∈ l, f a = .error e) :
    l.mapM f = .error e := by
  induction l with
  | nil => obtain ⟨a, ha, _⟩ := hex; exact (List.not_mem_nil ha).elim
  | cons a rest ih =>
    rw [List.mapM_cons]
    rcases hall a (List.mem_cons_self ..) with h | ⟨b, h⟩
    · rw [h]; rfl
    · rw [h]
      obtain ⟨a', ha', he'⟩ := hex
      rcases List.mem_cons.mp ha' with rfl | ha'
      · rw [h] at he'; cases he'
      · show (rest.mapM f >>= _) = _
        rw [ih (fun x hx => hall x (List.mem_cons_of_mem _ hx)) ⟨a', ha', he'⟩]
        rfl

/-- The result for rules none of which matches anything. -/
theorem colSum_zero (n : Nat) (rows : List (List K)) (h : ∀ r ∈ rows, r = List.replicate n 0) : colSum n rows = List.replicate n 0 := by
  induction rows with
  | nil => rfl
  | cons r rest ih =>
    have h1 := h r (List.mem_cons_self ..)
    have h2 := ih fun q hq => h q (List.mem_cons_of_mem _ hq)
    unfold colSum at h2 ⊢
    rw [List.foldr_cons, h2, h1]
    simp

theorem zero_rows (n : Nat) (loc : List (List Bool × List K)) (taus : List K) (h : ∀ l ∈ loc, l = (List.replicate n false, List.replicate n 0)) :
    List.zipWith (· / ·) (colSum n (List.zipWith (fun (l : List Bool × List K) t => l.2.map (· * t)) loc taus))
      ((colSum n (List.zipWith (fun (l : List Bool × List K) t => l.1.map fun m => if m then t else 0) loc taus)).map fun t => if t = 0 then 1 else t) = List.replicate n 0 := by
  rw [colSum_zero n, colSum_zero n]
  · simp
  · intro r hr
    obtain ⟨l, hl, t, _, rfl⟩ := mem_zipWith _ _ _ _ hr
    rw [h l hl]; simp
  · intro r hr
    obtain ⟨l, hl, t, _, rfl⟩ := mem_zipWith _ _ _ _ hr
    rw [h l hl]; simp

theorem mixRulesShape_exact (L : Learner K d M) (P : MixParams K) (h : d ≠ k) (X : List (Point K k)) (hX : X ≠ []) (sub : List (Rule K d M)) (hst : ∀ ρ ∈ sub, ρ.st.isSome) :
    (((d ≠ 1 ∧ k ≠ 1) ∧ sub ≠ [] ∨ ∃ ρ ∈ sub, ∃ x ∈ X, Crosses ρ x) → mixRulesShape L P X sub = .error .valueError) ∧
    (¬ ((d ≠ 1 ∧ k ≠ 1) ∧ sub ≠ [] ∨ ∃ ρ ∈ sub, ∃ x ∈ X, Crosses ρ x) → mixRulesShape L P X sub = .ok (List.replicate X.length 0)) := by
  by_cases hdk : d ≠ 1 ∧ k ≠ 1
  · have hall : ∀ ρ ∈ sub, ρ.localPredShape L X = .error .valueError := fun ρ _ => localPredShape_error L ρ h X hX (.inl hdk)
    refine ⟨fun hc => ?_, fun hc => ?_⟩
    · have hne : sub ≠ [] := by
        rcases hc with hc | ⟨ρ, hρ, _⟩
        · exact hc.2
        · exact List.ne_nil_of_mem hρ
      obtain ⟨ρ, rest, rfl⟩ := List.exists_cons_of_ne_nil hne
      unfold mixRulesShape
      rw [mapM_error_of _ _ .valueError (fun ρ hρ => .inl (hall ρ hρ)) ⟨ρ, List.mem_cons_self .., hall ρ (List.mem_cons_self ..)⟩]
      rfl
    · have : sub = [] := by
        by_contra hne
        exact hc (.inl ⟨hdk, hne⟩)
      subst this
      unfold mixRulesShape
      exact (quotients_guard _ _).trans (congrArg Except.ok (zero_rows (K := K) X.length [] [] (fun l hl => (List.not_mem_nil hl).elim)))
  · have h1 : d = 1 ∨ k = 1 := by
      by_contra hn
      rw [not_or] at hn
      exact hdk hn
    refine ⟨fun hc => ?_, fun hc => ?_⟩
    · have hex : ∃ ρ ∈ sub, ∃ x ∈ X, Crosses ρ x := hc.resolve_left fun h => hdk h.1
      obtain ⟨ρ, hρ, hx⟩ := hex
      unfold mixRulesShape
      rw [mapM_error_of _ _ .valueError (fun ρ' hρ' => ?_) ⟨ρ, hρ, localPredShape_error L ρ h X hX (.inr ⟨h1, hx⟩)⟩]
      · rfl
      · by_cases hx' : ∃ x ∈ X, Crosses ρ' x
        · exact .inl (localPredShape_error L ρ' h X hX (.inr ⟨h1, hx'⟩))
        · exact .inr ⟨_, localPredShape_none L ρ' h h1 X hx'⟩
    · have hno : ∀ ρ ∈ sub, ρ.localPredShape L X = .ok (List.replicate X.length false, List.replicate X.length 0) := fun ρ hρ =>
        localPredShape_none L ρ h h1 X fun hx => hc (.inr ⟨ρ, hρ, hx⟩)
      obtain ⟨loc, hl⟩ := mapM_total (Rule.localPredShape L X) sub fun ρ hρ => ⟨_, hno ρ hρ⟩
      obtain ⟨taus, ht⟩ := mapM_total (Rule.tauShape k P) sub fun ρ hρ => by
        obtain ⟨s, hs⟩ := Option.isSome_iff_exists.mp (hst ρ hρ)
        unfold Rule.tauShape
        rw [hs]
        exact ⟨_, rfl⟩
      unfold mixRulesShape
      rw [hl, ht]
      refine (quotients_guard _ _).trans ?_
      rw [zero_rows X.length loc taus fun l hl' => ?_]
      obtain ⟨ρ, hρ, e⟩ := mem_of_mapM_ok _ _ _ hl l hl'
      rw [hno ρ hρ] at e
      exact (Except.ok.inj e).symm

/-- C108: with data of another number of features, `predict` never returns anything but zeros: for every object, configuration and table, it raises an exception or predicts zero for every sample. -/
theorem C108_zero_or_error_partial (c : SupComp K d M) (st : SupState K d M) (h : d ≠ k) (Xq : List (Point K k)) :
    (∃ e, st.predictShape c Xq = .error e) ∨ st.predictShape c Xq = .ok (List.replicate Xq.length 0) := by
  unfold SupState.predictShape
  split_ifs with h1 h2 h3
  · exact .inl ⟨_, rfl⟩
  · exact .inl ⟨_, rfl⟩
  · exact .inr rfl
  · rw [not_or] at h2
    cases st.elitist with
    | none => exact .inl ⟨_, rfl⟩
    | some el =>
      cases el with
      | placeholder => exact .inr rfl
      | solution σ =>
        dsimp only
        unfold Solution.predictShape
        cases σ.subpopulation with
        | error e => exact .inl ⟨_, rfl⟩
        | ok sub =>
          dsimp only
          split_ifs with h4
          · exact .inr rfl
          · cases c.filter sub with
            | error e => exact .inl ⟨_, rfl⟩
            | ok sub' =>
              dsimp only
              by_cases hst : ∀ ρ ∈ sub', ρ.st.isSome
              · by_cases hc : (d ≠ 1 ∧ k ≠ 1) ∧ sub' ≠ [] ∨ ∃ ρ ∈ sub', ∃ x ∈ Xq, Crosses ρ x
                · exact .inl ⟨_, (mixRulesShape_exact c.learner c.mix h Xq h2.1 sub' hst).1 hc⟩
                · exact .inr ((mixRulesShape_exact c.learner c.mix h Xq h2.1 sub' hst).2 hc)
              · cases hm : mixRulesShape c.learner c.mix Xq sub' with
                | error e => exact .inl ⟨_, rfl⟩
                | ok out =>
                  refine (hst fun ρ hρ => ?_).elim
                  unfold mixRulesShape at hm
                  cases hl : sub'.mapM (Rule.localPredShape c.learner Xq) with
                  | error e => rw [hl] at hm; cases hm
                  | ok loc =>
                    cases ht : sub'.mapM (Rule.tauShape k c.mix) with
                    | error e => rw [hl, ht] at hm; cases hm
                    | ok taus =>
                      by_contra hs
                      have := mapM_error_of (Rule.tauShape k c.mix) sub' .attributeError (fun ρ' _ => by
                        unfold Rule.tauShape
                        cases ρ'.st with
                        | none => exact .inl rfl
                        | some s => exact .inr ⟨_, rfl⟩) ⟨ρ, hρ, by
                          unfold Rule.tauShape
                          cases hs' : ρ.st with
                          | none => rfl
                          | some s => rw [hs'] at hs; exact (hs rfl).elim⟩
                      rw [ht] at this
                      cases this

/-- With the number of features of the training data, this is the prediction the other claims are about. -/
theorem C108_same (c : SupComp K d M) (st : SupState K d M) (hd : d ≠ 0) (Xq : List (Point K d)) : st.predictShape c Xq = st.predict c Xq := by
  have hmatch : ∀ (ρ : Rule K d M) (x : Point K d), ρ.matchShape x = .ok (ρ.kind.call ρ.bounds x) := by
    intro ρ x
    unfold Rule.matchShape
    rw [dif_pos rfl]
    rfl
  have hall : ∀ (ρ : Rule K d M) (X : List (Point K d)), X.mapM ρ.matchShape = .ok (ρ.matchRows X) := by
    intro ρ X
    induction X with
    | nil => rfl
    | cons x rest ih => rw [List.mapM_cons, hmatch, ih]; rfl
  have hpred : ∀ (ρ : Rule K d M) (X : List (Point K d)), ρ.predictShape c.learner X = ρ.predict c.learner X := by
    intro ρ X
    unfold Rule.predictShape Rule.predict
    cases ρ.model with
    | none => rfl
    | some m => dsimp only; rw [dif_pos rfl]; rfl
  have hloc : Rule.localPredShape c.learner Xq = Rule.localPred c.learner false Xq := by
    funext ρ
    unfold Rule.localPredShape Rule.localPred
    rw [hall]
    simp only [Bool.false_eq_true, if_false, hpred]
    split_ifs
    · rfl
    · cases Rule.predict c.learner ρ (compress Xq (ρ.matchRows Xq)) with
      | error e => rfl
      | ok p => cases hsc : scatter (ρ.matchRows Xq) p <;> simp only [hsc]
  have hmix : ∀ sub, mixRulesShape c.learner c.mix Xq sub = mixRules c.learner c.mix false Xq sub := by
    intro sub
    unfold mixRulesShape mixRules
    rw [hloc]
    rfl
  unfold SupState.predictShape SupState.predict
  simp only [hd, or_false]
  split_ifs with h1 h2 h3
  · rfl
  · rfl
  · rfl
  · cases st.elitist with
    | none => rfl
    | some el =>
      cases el with
      | placeholder => rfl
      | solution σ =>
        dsimp only
        unfold Solution.predictShape Solution.predict
        cases σ.subpopulation with
        | error e => rfl
        | ok sub =>
          dsimp only
          unfold mixing
          split_ifs
          · rfl
          · cases c.filter sub with
            | error e => rfl
            | ok sub' => exact hmix sub'

/-- C108 for models trained with the default components, exactly: for data with another number of features, `predict` raises a `ValueError` if the elitist selects a rule and neither number of features is
one, or if all values of a sample lie in all intervals of a rule of the elitist (one of the numbers being one); in all other cases it predicts zeros. -/
theorem C108_default_partial (cfg : SupCfg K) (es : ESCfg K) (ga : GACfg K) (t : Nat) (hs : DefaultSettings cfg es ga t) (sigma : K × K)
    (D : RunDraws K d M) (hD : D.Possible es ga t sigma) (L : Learner K d M) (ff : RuleFitness K d) (sf : Nat → SolFitness K) (entropy : Nat)
    (raw : RawData K d) (hraw : raw.finite = true ∧ raw.X.length = raw.y.length ∧ raw.X ≠ []) (cl : Bool) (st0 : SupState K d M)
    (hinit : cfg.nInitial = 0 ∨ st0.step < cfg.nIter) (h : d ≠ k) (hk : k ≠ 0) (Xq : List (Point K k)) (hq : Xq ≠ []) :
    ∃ σ, (st0.fit cfg (defaultComp es ga D L ff sf) entropy raw cl).state.elitist = some (.solution σ) ∧
      let rules := compress σ.pool σ.genome
      let out := (st0.fit cfg (defaultComp es ga D L ff sf) entropy raw cl).state.predictShape (defaultComp es ga D L ff sf) Xq
      (((d ≠ 1 ∧ k ≠ 1) ∧ rules ≠ [] ∨ ∃ ρ ∈ rules, ∃ x ∈ Xq, ∀ i j, (ρ.bounds i).1 ≤ x j ∧ x j ≤ (ρ.bounds i).2) → out = .error .valueError) ∧
      (¬ ((d ≠ 1 ∧ k ≠ 1) ∧ rules ≠ [] ∨ ∃ ρ ∈ rules, ∃ x ∈ Xq, ∀ i j, (ρ.bounds i).1 ≤ x j ∧ x j ≤ (ρ.bounds i).2) → out = .ok (List.replicate Xq.length 0)) := by
  obtain ⟨fb, hfb, _⟩ := estimateBounds_ok raw.X hraw.2.2
  have hc : raw.check = .ok (raw.X, raw.y) := by unfold RawData.check; rw [if_pos hraw]
  obtain ⟨h1, h2, _, h4, σ, h5, h6, h7⟩ := default_result cfg es ga t hs sigma D hD L ff sf entropy raw hc cl st0 hinit fb hfb
  have hpool : ∀ ρ ∈ compress σ.pool σ.genome, ρ.InPool L ff raw.X raw.y fb es.beta := fun ρ hρ => h4 ρ (h6 ▸ mem_of_mem_compress hρ)
  have hst : ∀ ρ ∈ compress σ.pool σ.genome, ρ.st.isSome := fun ρ hρ => by
    obtain ⟨s, hs, _⟩ := (hpool ρ hρ).fromData.consistent hraw.2.1.symm
    rw [hs]; rfl
  have hcross : (∃ ρ ∈ compress σ.pool σ.genome, ∃ x ∈ Xq, ∀ i j, (ρ.bounds i).1 ≤ x j ∧ x j ≤ (ρ.bounds i).2) ↔ ∃ ρ ∈ compress σ.pool σ.genome, ∃ x ∈ Xq, Crosses ρ x := by
    refine exists_congr fun ρ => and_congr_right fun hρ => exists_congr fun x => and_congr_right fun _ => ?_
    unfold Crosses
    rw [(hpool ρ hρ).fromData.kind]
    rfl
  refine ⟨σ, h5, ?_⟩
  intro rules out
  have hout : out = if rules.isEmpty then .ok (List.replicate Xq.length 0) else mixRulesShape L (defaultComp es ga D L ff sf).mix Xq rules := by
    show SupState.predictShape _ _ _ = _
    unfold SupState.predictShape
    rw [h2, h1.2, h5]
    simp only [Bool.true_eq_false, if_false, hq, hk, or_self, Bool.false_eq_true]
    unfold Solution.predictShape Solution.subpopulation
    rw [if_pos h7]
    rfl
  rw [hout, hcross]
  have hx := mixRulesShape_exact L (defaultComp es ga D L ff sf).mix h Xq hq rules hst
  by_cases he : rules = []
  · rw [he]
    refine ⟨fun hc => ?_, fun _ => rfl⟩
    rcases hc with hc | ⟨ρ, hρ, _⟩
    · exact (hc.2 rfl).elim
    · rw [show compress σ.pool σ.genome = [] from he] at hρ
      exact (List.not_mem_nil hρ).elim
  · rw [if_neg (by simpa using he)]
    exact hx

/-- C108 is false: every model trained with the default components on `d` features, whatever the data, seed and random numbers, predicts zero, without exception, for a sample with another number `k` of
features all of which exceed the training data, if `d` or `k` is one. -/
theorem C108_refuted (cfg : SupCfg K) (es : ESCfg K) (ga : GACfg K) (t : Nat) (hs : DefaultSettings cfg es ga t) (sigma : K × K)
    (D : RunDraws K d M) (hD : D.Possible es ga t sigma) (L : Learner K d M) (ff : RuleFitness K d) (sf : Nat → SolFitness K) (entropy : Nat)
    (raw : RawData K d) (hraw : raw.finite = true ∧ raw.X.length = raw.y.length ∧ raw.X ≠ []) (cl : Bool) (st0 : SupState K d M)
    (hinit : cfg.nInitial = 0 ∨ st0.step < cfg.nIter) (hd : d ≠ 0) (h : d ≠ k) (hk : k ≠ 0) (h1 : d = 1 ∨ k = 1) (x : Point K k) (hx : ∀ z ∈ raw.X, ∀ i j, z i < x j) :
    (st0.fit cfg (defaultComp es ga D L ff sf) entropy raw cl).state.predictShape (defaultComp es ga D L ff sf) [x] = .ok [0] := by
  obtain ⟨σ, hσ, h2⟩ := C108_default_partial cfg es ga t hs sigma D hD L ff sf entropy raw hraw cl st0 hinit h hk [x] (by simp)
  refine h2.2 ?_
  rintro (⟨⟨a, b⟩, _⟩ | ⟨ρ, hρ, x', hx', hc⟩)
  · exact h1.elim a b
  · obtain rfl := List.mem_singleton.mp hx'
    obtain ⟨fb, hfb, _⟩ := estimateBounds_ok raw.X hraw.2.2
    have hck : raw.check = .ok (raw.X, raw.y) := by unfold RawData.check; rw [if_pos hraw]
    obtain ⟨_, _, _, h4, σ', h5, h6, _⟩ := default_result cfg es ga t hs sigma D hD L ff sf entropy raw hck cl st0 hinit fb hfb
    rw [hσ] at h5
    cases h5
    have hp := (h4 ρ (h6 ▸ mem_of_mem_compress hρ)).poolRule hraw.2.1.symm hraw.2.2 hfb hs.beta
    obtain ⟨_, _, w, hw, hw1⟩ := hp.range ⟨0, Nat.pos_of_ne_zero hd⟩
    exact absurd (hx w hw ⟨0, _⟩ ⟨0, Nat.pos_of_ne_zero hk⟩) (not_lt.mpr ((hc _ _).2.trans hw1))

/-- The model of the example run of Props/Default, trained with one feature. -/
def shapeRun (X : List (Point ℚ k)) : Except PyErr (List ℚ) :=
  (SupState.fit smallCfg (defaultComp smallES smallGA (firstDraws 2 1 (1 / 2)) meanLearner negErr fun _ _ _ c => c) 7 ⟨[![0], ![1], ![5]], [1, 3, 7], true⟩ false {}).state.predictShape
    (defaultComp smallES smallGA (firstDraws 2 1 (1 / 2)) meanLearner negErr fun _ _ _ c => c) X

/-- Two features: zeros outside the training range and between the rules, an exception as soon as a rule matches a sample; one feature: the predictions. -/
example : shapeRun [![6, 6], ![0, 5]] = .ok [0, 0] ∧ shapeRun [![6, 6], ![1, 1]] = .error .valueError ∧ shapeRun [![0], ![1], ![6]] = .ok [1, 3, 0] := by decide +kernel

/-- The hypotheses of `C108_default_partial` and `C108_refuted` hold for this run and two features. -/
example : DefaultSettings smallCfg smallES smallGA 2 ∧ ∀ z ∈ [![(0 : ℚ)], ![1], ![5]], ∀ (i : Fin 1) (j : Fin 2), z i < (![6, 6] : Point ℚ 2) j :=
  ⟨⟨by decide, by decide, by decide, by decide, by decide, by decide, .inl rfl, by decide +kernel⟩, by decide +kernel⟩

end Suprb
