import Verif.Props.ES
import Verif.Model.Origin

/-!
# Claims C30 and C36–C39: acceptance, origins and rule selection
-/

set_option autoImplicit false
set_option linter.unusedSectionVars false

namespace Suprb

open Spec

/-! ### C30 acceptance -/

section Acceptance

theorem filterInvalid_length {R : Type} (accept : R → Except PyErr Bool) (raw : List (Option R)) (l : List R)
    (h : filterInvalid accept raw = .ok l) : l.length ≤ raw.length := by
  induction raw generalizing l with
  | nil => cases h; simp
  | cons r rs ih =>
    cases r with
    | none =>
      unfold filterInvalid at h
      have := ih l h
      simp; omega
    | some r =>
      unfold filterInvalid at h
      split at h
      · cases h
      · split at h
        · rename_i l' hl'
          cases h
          have := ih l' hl'
          simp; omega
        · cases h
      · have := ih l h
        simp; omega

theorem filterInvalid_mem {R : Type} (accept : R → Except PyErr Bool) (raw : List (Option R)) (l : List R)
    (h : filterInvalid accept raw = .ok l) : ∀ r ∈ l, some r ∈ raw ∧ accept r = .ok true := by
  induction raw generalizing l with
  | nil => cases h; simp
  | cons o raw ih =>
    cases o with
    | none =>
      unfold filterInvalid at h
      intro r hr
      obtain ⟨h1, h2⟩ := ih l h r hr
      exact ⟨List.mem_cons_of_mem _ h1, h2⟩
    | some a =>
      unfold filterInvalid at h
      cases ha : accept a with
      | error e => rw [ha] at h; cases h
      | ok b =>
        rw [ha] at h
        cases b with
        | false =>
          intro r hr
          obtain ⟨h1, h2⟩ := ih l h r hr
          exact ⟨List.mem_cons_of_mem _ h1, h2⟩
        | true =>
          dsimp only at h
          cases hf : filterInvalid accept raw with
          | error e => rw [hf] at h; cases h
          | ok l' =>
            rw [hf] at h; cases h
            intro r hr
            rcases List.mem_cons.mp hr with rfl | hr
            · exact ⟨List.mem_cons_self .., ha⟩
            · obtain ⟨h1, h2⟩ := ih l' hf r hr
              exact ⟨List.mem_cons_of_mem _ h1, h2⟩

/-- C30: whatever the discovery steps produce, every rule in the pool after any number of steps is accepted by the criterion. `steps` are the raw outcomes of the
discovery steps; each is filtered and appended to the pool. -/
theorem C30_pool_accepted {R : Type} (accept : R → Except PyErr Bool) (steps : List (List (Option R))) (pool0 pool : List R)
    (h0 : ∀ r ∈ pool0, accept r = .ok true)
    (h : steps.foldlM (fun p raw => (filterInvalid accept raw).map (p ++ ·)) pool0 = .ok pool) :
    ∀ r ∈ pool, accept r = .ok true := by
  induction steps generalizing pool0 with
  | nil => cases h; exact h0
  | cons raw steps ih =>
    rw [List.foldlM_cons] at h
    cases hf : filterInvalid accept raw with
    | error e => rw [hf] at h; cases h
    | ok l =>
      rw [hf] at h
      refine ih (pool0 ++ l) ?_ h
      intro r hr
      rcases List.mem_append.mp hr with hr | hr
      · exact h0 r hr
      · exact (filterInvalid_mem accept raw l hf r hr).2

variable {K : Type} [Field K] [LinearOrder K] [IsStrictOrderedRing K] {d : Nat} {M : Type}

/-- A rule that was trained on `(X, y)`: its attributes describe these data (or it matches no sample). -/
def Rule.TrainedOn (L : Learner K d M) (X : List (Point K d)) (y : List K) (ρ : Rule K d M) : Prop :=
  ConsistentWith ρ X ∧ ((∃ x ∈ X, ρ.kind.call ρ.bounds x = true) → DescribesData L ρ X y)

theorem trainedOn_of_fit (L : Learner K d M) (ff : RuleFitness K d) (X : List (Point K d)) (y : List K) (hxy : y.length = X.length)
    (ρ ρ' : Rule K d M) (hst : ρ.st = none) (h : ρ.fit L ff X y = .ok ρ') : ρ'.TrainedOn L X y := by
  obtain ⟨ρ1, e1, hs, hc⟩ := fit_consistent L ff X X y hxy rfl ρ (Or.inl hst)
  rw [h] at e1; cases e1
  refine ⟨hc, ?_⟩
  rintro ⟨x, hx, hm⟩
  have hm' : ρ.kind.call ρ.bounds x = true := by rw [← hs.1, ← hs.2.1]; exact hm
  obtain ⟨ρ2, e2, _, hd⟩ := C16_partial L ff X y hxy ρ (Or.inl hst) x hx hm'
  rw [h] at e2; cases e2
  exact hd

/-- C30: a rule trained on the data and accepted by `Variance(beta)` with `beta > 0` matches at least one sample, and its error — hence its mean squared error on the samples it
matches — is at most the mean of `y²` over these samples divided by `beta`. -/
theorem C30_variance (L : Learner K d M) (X : List (Point K d)) (y : List K) (hxy : y.length = X.length) (beta : K) (hb : 0 < beta)
    (ρ : Rule K d M) (ht : ρ.TrainedOn L X y) (h : acceptVariance beta y ρ = .ok true) :
    (∃ x ∈ X, ρ.kind.call ρ.bounds x = true) ∧
    ∃ s m e, ρ.st = some s ∧ ρ.model = some m ∧ s.error = ((e : K) : WithTop K) ∧
      e ≤ (((matchedData ρ X y).map fun q => q.2 ^ 2).sum / ((matchedData ρ X y).length : K)) / beta ∧
      meanSqErr (L.predict m) (matchedData ρ X y) ≤ e := by
  obtain ⟨⟨s, hs, hms, hexp, hfit, _, hok, hbad⟩, hdesc⟩ := ht
  unfold acceptVariance at h
  rw [hs] at h
  dsimp only at h
  by_cases h1 : s.experience < 1
  · rw [if_pos h1] at h; cases h
  have hpos : 0 < s.experience := by omega
  have hex : ∃ x ∈ X, ρ.kind.call ρ.bounds x = true := by
    rw [hexp] at hpos
    obtain ⟨x, hx⟩ := List.exists_mem_of_length_pos hpos
    exact ⟨x, (List.mem_filter.mp hx).1, (List.mem_filter.mp hx).2⟩
  refine ⟨hex, ?_⟩
  obtain ⟨s', m, hs', hm, _, herr⟩ := hdesc hex
  rw [hs] at hs'; cases hs'
  have hcy : compress y s.matchSet = (matchedData ρ X y).map Prod.snd := by
    rw [hms]; exact compress_zip _ X y hxy
  have hexp' : s.experience = (matchedData ρ X y).length := by
    rw [hexp, filter_zip_fst _ X y hxy, List.length_map]; rfl
  have hn : (0 : K) < ((matchedData ρ X y).length : K) := by
    rw [hexp'] at hpos; exact_mod_cast hpos
  rw [if_neg h1, if_neg (by rw [hms]; simp [hxy]), hcy, List.length_map, if_neg (mul_pos hn hb).ne', herr] at h
  refine ⟨s, m, _, hs, hm, herr, ?_, le_max_left _ _⟩
  simp only [Except.ok.injEq, decide_eq_true_eq, WithTop.coe_le_coe, List.map_map] at h
  rw [div_div]
  exact h

/-- C30: with the maximal-error criterion the error of an accepted rule is finite and at most the threshold, so it was trained and matches data. -/
theorem C30_max_error (L : Learner K d M) (X : List (Point K d)) (y : List K) (maxError : K)
    (ρ : Rule K d M) (ht : ρ.TrainedOn L X y) (h : acceptMaxError maxError ρ = .ok true) :
    (∃ x ∈ X, ρ.kind.call ρ.bounds x = true) ∧
    ∃ s e, ρ.st = some s ∧ s.isFitted = true ∧ s.error = ((e : K) : WithTop K) ∧ e ≤ maxError := by
  obtain ⟨⟨s, hs, hms, hexp, hfit, _, hok, hbad⟩, hdesc⟩ := ht
  unfold acceptMaxError at h
  rw [hs] at h
  simp only [Except.ok.injEq, decide_eq_true_eq] at h
  cases hf : s.isFitted with
  | false => rw [(hbad hf).1] at h; exact absurd h (by simp)
  | true =>
    obtain ⟨_, e, he, _⟩ := hok hf
    refine ⟨hfit.mp hf, s, e, hs, hf, he, ?_⟩
    rw [he] at h
    exact_mod_cast h

/-- C30: every rule returned by a discovery step of the evolution strategy (any operator, mutation, draws) was trained on the data and accepted; so the two theorems
above apply to it. -/
theorem C30_es_rules (L : Learner K d M) (ff : RuleFitness K d) (X : List (Point K d)) (y : List K) (hxy : y.length = X.length)
    (op : ESOperator) (delay : Nat) (m : Mutation) (r : K) (k : Kind) (fb sp : Pairs K d) (accept : Rule K d M → Except PyErr Bool)
    (origins : List (Point K d)) (streams : List (List (List (Pairs K d) × Unit))) (rules : List (Rule K d M))
    (h : discoverRules (initialRule L ff X y k r fb sp) (fun ρ g => (esOptimize (concreteES L ff X y op delay m r fb) g ρ).map some)
      accept origins streams = .ok rules) :
    ∀ ρ ∈ rules, ρ.TrainedOn L X y ∧ accept ρ = .ok true := by
  unfold discoverRules at h
  cases hi : origins.mapM (initialRule L ff X y k r fb sp) with
  | error e => rw [hi] at h; cases h
  | ok initial =>
    rw [hi] at h
    dsimp only at h
    cases ho : (initial.zip streams).mapM
        (fun p => (esOptimize (concreteES L ff X y op delay m r fb) p.2 p.1).map some) with
    | error e => rw [ho] at h; cases h
    | ok raw =>
      rw [ho] at h
      intro ρ hρ
      obtain ⟨h1, h2⟩ := filterInvalid_mem accept raw rules h ρ hρ
      refine ⟨?_, h2⟩
      obtain ⟨p, hp1, hp2⟩ := mem_of_mapM_ok _ _ _ ho (some ρ) h1
      have hp3 : p.1 ∈ initial := (List.of_mem_zip (show (p.1, p.2) ∈ initial.zip streams from hp1)).1
      obtain ⟨o, _, ho2⟩ := mem_of_mapM_ok _ _ _ hi p.1 hp3
      have hinit : p.1.TrainedOn L X y := trainedOn_of_fit L ff X y hxy _ _ rfl ho2
      cases he : esOptimize (concreteES L ff X y op delay m r fb) p.2 p.1 with
      | error e => rw [he] at hp2; cases hp2
      | ok ρ' =>
        rw [he] at hp2
        simp only [Except.map, Except.ok.injEq, Option.some.injEq] at hp2
        subst hp2
        refine esLoop_inv _ (fun l _ ρ h => (fittestFirst_mem _ l ρ h).1) (fun _ => True) (fun ρ => ρ.TrainedOn L X y) ?_ p.2
          (fun _ _ _ _ => trivial) p.1 [] hinit (by simp) ρ' he
        rintro e c _ ⟨z, _, hc, _⟩
        change childRule L ff X y m r fb e z = .ok c at hc
        unfold childRule at hc
        cases hb : childBounds m e.kind r fb z e.bounds with
        | error er => rw [hb] at hc; cases hc
        | ok b =>
          rw [hb] at hc
          exact trainedOn_of_fit L ff X y hxy _ _ rfl hc

/-- The example: on targets `0, 2` the rule `[0,1]` has error 1 and mean square 2, so it is accepted for `beta = 1` and `beta = 2` but not for `beta = 3`. -/
example : (do let ρ ← (intervalRule 0 1).fit meanLearner negErr [![0], ![1], ![2]] [0, 2, 4]
              let a ← acceptVariance 1 [0, 2, 4] ρ
              let b ← acceptVariance 2 [0, 2, 4] ρ
              let c ← acceptVariance 3 [0, 2, 4] ρ
              pure (a, b, c)) = Except.ok (true, true, false) := by decide +kernel

example : (do let ρ ← (intervalRule 5 6).fit meanLearner negErr [![0], ![1], ![2]] [0, 2, 4]
              let a ← acceptVariance 1 [0, 2, 4] ρ
              let b ← acceptMaxError 100 ρ
              pure (a, b)) = Except.ok (false, false) := by decide +kernel

end Acceptance

/-! ### C38 fittest selection -/

section Selection

variable {R F : Type} [LinearOrder F]

/-- C38: selecting `k` of `n` rules by fitness returns `min k n` of them, best first, and the remaining ones are not fitter than any selected one. -/
theorem C38_fittest (fitness : R → F) (rules : List R) (k : Nat) :
    ∃ rest, (fittest fitness rules k ++ rest).Perm rules ∧ (fittest fitness rules k).length = min k rules.length ∧
      (fittest fitness rules k).Pairwise (fun a b => fitness b ≤ fitness a) ∧
      ∀ a ∈ fittest fitness rules k, ∀ b ∈ rest, fitness b ≤ fitness a := by
  refine ⟨(sortedDesc fitness rules).drop k, ?_, ?_, ?_, ?_⟩
  · unfold fittest; rw [List.take_append_drop]; exact sortedDesc_perm fitness rules
  · unfold fittest; rw [List.length_take, (sortedDesc_perm fitness rules).length_eq]
  · exact (sortedDesc_pairwise fitness rules).sublist (List.take_sublist _ _)
  · intro a ha b hb
    have h := sortedDesc_pairwise fitness rules
    rw [← List.take_append_drop k (sortedDesc fitness rules)] at h
    exact (List.pairwise_append.mp h).2.2 a ha b hb

/-- C38: ties keep their order (Python's sort is stable): two rules of equal fitness are returned in the order in which they were given. -/
theorem C38_stable (fitness : R → F) (a b : R) (rules : List R) (hab : fitness a = fitness b) (h : [a, b].Sublist rules) :
    [a, b].Sublist (fittest fitness rules rules.length) := by
  have h1 : fittest fitness rules rules.length = sortedDesc fitness rules := by
    unfold fittest
    rw [List.take_of_length_le]
    rw [(sortedDesc_perm fitness rules).length_eq]
  rw [h1]
  have : Std.Total (fun a b : R => fitness b ≤ fitness a) := ⟨fun a b => le_total _ _⟩
  have : IsTrans R (fun a b : R => fitness b ≤ fitness a) := ⟨fun a b c h1 h2 => le_trans h2 h1⟩
  exact List.pair_sublist_insertionSort (r := fun a b : R => fitness b ≤ fitness a) hab.ge h

example : fittest (fun p : ℕ × ℤ => p.2) [(0, 3), (1, 5), (2, 3), (3, 7), (4, 5)] 3 = [(3, 7), (1, 5), (4, 5)] := by decide +kernel

/-! ### C39 nondominated selection -/

variable [DecidableEq R]

/-- `a` dominates `b`: smaller error and larger volume. -/
def Dominates (error volume : R → F) (a b : R) : Prop := error a < error b ∧ volume b < volume a

instance (error volume : R → F) (a b : R) : Decidable (Dominates error volume a b) := by unfold Dominates; infer_instance

/-- The comparison of the code (suprb/optimizer/rule/selection.py:53, 58). -/
def domB (error volume : R → F) (a b : R) : Bool := decide (error a < error b) && decide (volume b < volume a)

theorem domB_iff (error volume : R → F) (a b : R) : domB error volume a b = true ↔ Dominates error volume a b := by
  simp [domB, Dominates]

theorem nondominatedInner_sub (dom : R → R → Bool) (rule : R) (i : Nat) (cands : List R) (f : Bool) :
    ∀ a ∈ (nondominatedInner dom rule i cands f).1, a ∈ cands := by
  fun_induction nondominatedInner dom rule i cands f with
  | case1 => simp
  | case2 i cands f h h1 h2 ih => intro a ha; exact List.mem_of_mem_erase (ih a ha)
  | case3 i cands f h h1 h2 ih => exact ih
  | case4 => simp

/-- Candidates that the new rule does not dominate survive the inner loop. -/
theorem nondominatedInner_keeps (dom : R → R → Bool) (rule : R) (i : Nat) (cands : List R) (f : Bool) (a : R) (ha : a ∈ cands)
    (hd : dom rule a = false) : a ∈ (nondominatedInner dom rule i cands f).1 := by
  fun_induction nondominatedInner dom rule i cands f with
  | case1 => exact ha
  | case2 i cands f h h1 h2 ih =>
    refine ih ((List.mem_erase_of_ne ?_).mpr ha)
    rintro rfl
    rw [hd] at h2; cases h2
  | case3 i cands f h h1 h2 ih => exact ih ha
  | case4 => exact ha

/-- If no candidate dominates the new rule, it is added (the candidates are not empty). -/
theorem nondominatedInner_flag (dom : R → R → Bool) (rule : R) (i : Nat) (cands : List R) (f : Bool)
    (hno : ∀ a ∈ cands, dom a rule = false) (hf : f = true ∨ i < cands.length) :
    (nondominatedInner dom rule i cands f).2 = true := by
  fun_induction nondominatedInner dom rule i cands f with
  | case1 i cands f h h1 => rw [hno _ (List.getElem_mem h)] at h1; cases h1
  | case2 i cands f h h1 h2 ih => exact ih (fun a ha => hno a (List.mem_of_mem_erase ha)) (Or.inl rfl)
  | case3 i cands f h h1 h2 ih => exact ih hno (Or.inl rfl)
  | case4 i cands f h => rcases hf with rfl | hf
                         · rfl
                         · exact absurd hf h

theorem nondominatedStep_mem (dom : R → R → Bool) (cands : List R) (rule a : R) (h : a ∈ nondominatedStep dom cands rule) :
    a ∈ cands ∨ a = rule := by
  unfold nondominatedStep at h
  dsimp only at h
  split_ifs at h
  · rcases List.mem_append.mp h with h | h
    · exact Or.inl (nondominatedInner_sub dom rule 0 cands false a h)
    · exact Or.inr (List.mem_singleton.mp h)
  · exact Or.inl (nondominatedInner_sub dom rule 0 cands false a h)

/-- Some rule of a non-empty finite list is dominated by none. -/
theorem exists_nondominated (error volume : R → F) (l : List R) (hne : l ≠ []) :
    ∃ a ∈ l, ∀ b ∈ l, ¬ Dominates error volume b a := by
  obtain ⟨a, ha, h⟩ : ∃ a ∈ l, ∀ b ∈ l, error a ≤ error b := by
    obtain ⟨a, _, ha, hm⟩ := fittestFirst_ok (F := Fᵒᵈ) (fun a : R => OrderDual.toDual (error a)) l hne
    exact ⟨a, ha, fun b hb => hm b hb⟩
  exact ⟨a, ha, fun b hb hd => absurd hd.1 (not_lt.mpr (h b hb))⟩

/-- C39 (partial): from a non-empty list there is always something to select; every candidate is one of the given rules; and every rule that no given rule dominates is a
candidate. Missing: that *only* such rules are candidates, which is false (`C39_refuted`). -/
theorem C39_partial (error volume : R → F) (rules : List R) (hne : rules ≠ []) :
    ∃ cands, nondominatedCandidates (domB error volume) rules = .ok cands ∧ cands ≠ [] ∧ (∀ a ∈ cands, a ∈ rules) ∧
      ∀ a ∈ rules, (∀ b ∈ rules, ¬ Dominates error volume b a) → a ∈ cands := by
  cases rules with
  | nil => exact absurd rfl hne
  | cons r rs =>
    refine ⟨rs.foldl (nondominatedStep (domB error volume)) [r], rfl, ?_⟩
    have hsub : ∀ (l c : List R), ∀ a ∈ l.foldl (nondominatedStep (domB error volume)) c, a ∈ c ∨ a ∈ l := by
      intro l
      induction l with
      | nil => intro c a ha; exact Or.inl ha
      | cons x xs ih =>
        intro c a ha
        rcases ih _ a ha with h | h
        · rcases nondominatedStep_mem _ _ _ _ h with h | rfl
          · exact Or.inl h
          · exact Or.inr (List.mem_cons_self ..)
        · exact Or.inr (List.mem_cons_of_mem _ h)
    -- a rule dominated by none of `all` stays, and gets in when it is reached
    have hstep : ∀ (c : List R) (x a : R), domB error volume x a = false → a ∈ c → a ∈ nondominatedStep (domB error volume) c x := by
      intro c x a hd ha
      unfold nondominatedStep
      dsimp only
      have := nondominatedInner_keeps (domB error volume) x 0 c false a ha hd
      split_ifs
      · exact List.mem_append_left _ this
      · exact this
    have hin : ∀ (c : List R) (x : R), c ≠ [] → (∀ b ∈ c, domB error volume b x = false) → x ∈ nondominatedStep (domB error volume) c x := by
      intro c x hc hno
      unfold nondominatedStep
      dsimp only
      rw [if_pos (nondominatedInner_flag (domB error volume) x 0 c false hno (Or.inr (List.length_pos_iff.mpr hc)))]
      simp
    -- the candidate list never gets empty: every step leaves at least one candidate
    have hne' : ∀ (c : List R) (x : R), c ≠ [] → nondominatedStep (domB error volume) c x ≠ [] := by
      intro c x hc
      obtain ⟨q, hq, hqn⟩ := exists_nondominated error volume (x :: c) (by simp)
      have hqf : ∀ b ∈ x :: c, domB error volume b q = false := fun b hb => by
        rw [Bool.eq_false_iff, Ne, domB_iff]; exact hqn b hb
      rcases List.mem_cons.mp hq with rfl | hq'
      · exact List.ne_nil_of_mem (hin c q hc fun b hb => hqf b (List.mem_cons_of_mem _ hb))
      · exact List.ne_nil_of_mem (hstep c x q (hqf x (List.mem_cons_self ..)) hq')
    have hpareto' : ∀ (l c all : List R), c ≠ [] → (∀ b ∈ c, b ∈ all) → (∀ b ∈ l, b ∈ all) →
        ∀ a, (a ∈ c ∨ a ∈ l) → (∀ b ∈ all, domB error volume b a = false) →
          a ∈ l.foldl (nondominatedStep (domB error volume)) c := by
      intro l
      induction l with
      | nil => intro c all _ _ _ a ha _; rcases ha with h | h; exact h; cases h
      | cons x xs ih =>
        intro c all hc hca hla a ha hno
        have hmem : ∀ b ∈ nondominatedStep (domB error volume) c x, b ∈ all := by
          intro b hb
          rcases nondominatedStep_mem _ _ _ _ hb with h | rfl
          · exact hca b h
          · exact hla _ (List.mem_cons_self ..)
        refine ih _ all (hne' c x hc) hmem (fun b hb => hla b (List.mem_cons_of_mem _ hb)) a ?_ hno
        rcases ha with ha | ha
        · exact Or.inl (hstep c x a (hno x (hla x (List.mem_cons_self ..))) ha)
        · rcases List.mem_cons.mp ha with rfl | ha
          · exact Or.inl (hin c a hc fun b hb => hno b (hca b hb))
          · exact Or.inr ha
    have hfin : ∀ a ∈ r :: rs, (∀ b ∈ r :: rs, ¬ Dominates error volume b a) →
        a ∈ rs.foldl (nondominatedStep (domB error volume)) [r] := by
      intro a ha hno
      refine hpareto' rs [r] (r :: rs) (by simp) (by simp) (fun b hb => List.mem_cons_of_mem _ hb) a ?_ ?_
      · rcases List.mem_cons.mp ha with rfl | ha
        · exact Or.inl (by simp)
        · exact Or.inr ha
      · intro b hb
        rw [Bool.eq_false_iff, Ne, domB_iff]; exact hno b hb
    refine ⟨?_, ?_, hfin⟩
    · obtain ⟨q, hq, hqn⟩ := exists_nondominated error volume (r :: rs) hne
      exact List.ne_nil_of_mem (hfin q hq hqn)
    · intro a ha
      rcases hsub rs [r] a ha with h | h
      · rw [List.mem_singleton.mp h]; exact List.mem_cons_self ..
      · exact List.mem_cons_of_mem _ h

end Selection

/-- C39 (refuted): dominated rules can be selected, because `candidates` is modified while it is iterated over. Witness, rules given as (error, volume): `(3,2)`, `(2,1)`, `(1,3)`:
`(1,3)` dominates both others, but removing `(3,2)` makes the loop skip `(2,1)`, which stays a candidate. -/
theorem C39_refuted :
    ∃ (rules cands : List (ℤ × ℤ)) (a b : ℤ × ℤ),
      nondominatedCandidates (domB Prod.fst Prod.snd) rules = .ok cands ∧ a ∈ cands ∧ b ∈ rules ∧ Dominates Prod.fst Prod.snd b a := by
  refine ⟨[(3, 2), (2, 1), (1, 3)], [(2, 1), (1, 3)], (2, 1), (1, 3), ?_, by simp, by simp, by decide⟩
  simp [nondominatedCandidates, nondominatedStep, nondominatedInner, domB]

/-! ### C36 roulette wheel origins -/

section Origin

variable {K : Type} [Field K] [LinearOrder K] [IsStrictOrderedRing K] {d : Nat} {M : Type}

/-- Number of rules that match a sample. -/
def coverage (rules : List (Rule K d M)) (x : Point K d) : Nat := rules.countP fun ρ => ρ.kind.call ρ.bounds x

theorem matchingWeights_eq (X : List (Point K d)) (rules : List (Rule K d M)) (hne : rules ≠ []) :
    matchingWeights X.length (rules.map fun ρ => X.map (ρ.kind.call ρ.bounds)) = .ok (X.map fun x => rules.length - coverage rules x) := by
  unfold matchingWeights
  rw [if_neg (by simpa using hne), if_pos (by simp)]
  refine congrArg Except.ok (List.ext_getElem? fun i => ?_)
  simp only [List.getElem?_map]
  by_cases hi : i < X.length
  · rw [List.getElem?_range hi, List.getElem?_eq_getElem hi]
    simp only [Option.map_some, Option.some.injEq, List.countP_map]
    have h1 := List.length_eq_countP_add_countP (fun ρ : Rule K d M => ρ.kind.call ρ.bounds X[i]) (l := rules)
    unfold coverage
    have h2 : List.countP ((fun ms : List Bool => ms[i]? == some false) ∘ fun ρ : Rule K d M => X.map (ρ.kind.call ρ.bounds)) rules =
        List.countP (fun a : Rule K d M => decide ¬ (a.kind.call a.bounds X[i] = true)) rules := by
      refine List.countP_congr fun ρ _ => ?_
      simp [List.getElem?_map, List.getElem?_eq_getElem hi]
    rw [h2]; omega
  · rw [List.getElem?_eq_none (by simpa using hi), List.getElem?_eq_none (by simpa using hi)]; rfl

theorem originSubgroup_matching (n : Nat) (useElitist : Bool) (pool : List (Rule K d M)) (elitist : Option (Solution K d M))
    (sub : List (Rule K d M)) (hsub : originSubgroup useElitist pool elitist = .ok sub) (X : List (Point K d)) (hn : X.length = n)
    (hc : ∀ ρ ∈ sub, ConsistentWith ρ X) (hne : sub ≠ []) :
    matchingProbabilities useElitist n pool elitist = .ok (normalise (X.map fun x => ((sub.length - coverage sub x : Nat) : K))) := by
  unfold matchingProbabilities
  rw [hsub]
  have hms : sub.mapM Rule.storedMatchSet = .ok (sub.map fun ρ => X.map (ρ.kind.call ρ.bounds)) := by
    refine mapM_ok _ _ _ fun ρ hρ => ?_
    obtain ⟨⟨s, hs, hms, _⟩⟩ := hc ρ hρ
    unfold Rule.storedMatchSet
    rw [hs, ← hms]
  simp only [bind, Except.bind]
  rw [if_neg (by simpa using hne), hms]
  subst hn
  dsimp only
  rw [matchingWeights_eq X sub hne]
  simp [List.map_map, pure, Except.pure, Function.comp_def]

/-- The rules the probabilities are computed from: those the current elitist selects, or the whole pool without elitist or with `use_elitist = False`. -/
def OriginGroup (useElitist : Bool) (pool : List (Rule K d M)) (elitist : Option (Solution K d M)) (sub : List (Rule K d M)) : Prop :=
  match elitist, useElitist with
  | some σ, true => σ.genome.length = σ.pool.length ∧ sub = ((σ.pool.zip σ.genome).filter fun p => p.2).map Prod.fst
  | _, _ => sub = pool

theorem compress_eq_filter {α : Type} (p : List α) (g : List Bool) : compress p g = ((p.zip g).filter fun q => q.2).map Prod.fst := by
  induction p generalizing g with
  | nil => cases g <;> rfl
  | cons a as ih =>
    cases g with
    | nil => rfl
    | cons b bs => cases b <;> simp [compress, ih]

theorem originSubgroup_of_group (useElitist : Bool) (pool : List (Rule K d M)) (elitist : Option (Solution K d M)) (sub : List (Rule K d M))
    (h : OriginGroup useElitist pool elitist sub) : originSubgroup useElitist pool elitist = .ok sub := by
  unfold OriginGroup at h
  unfold originSubgroup
  cases elitist with
  | none => cases useElitist <;> (dsimp only at h ⊢; rw [h])
  | some σ =>
    cases useElitist with
    | false => dsimp only at h ⊢; rw [h]; rfl
    | true =>
      obtain ⟨h1, h2⟩ := h
      simp only [if_true]
      unfold Solution.subpopulation
      rw [if_pos h1, h2, compress_eq_filter]

/-- C36: for the rules whose matching is considered (the elitist's, or the whole pool), all fitted on the training samples `X`: if all of them match all samples, the choice is uniform. Otherwise
the probabilities are non-negative and sum to one, a sample covered by fewer rules never has a smaller probability (and a larger one if strictly fewer), and exactly the samples covered by all rules have
probability zero. -/
theorem C36_matching_probabilities (useElitist : Bool) (pool : List (Rule K d M)) (elitist : Option (Solution K d M))
    (sub : List (Rule K d M)) (hsub : OriginGroup useElitist pool elitist sub) (X : List (Point K d))
    (hc : ∀ ρ ∈ sub, ConsistentWith ρ X) (hne : sub ≠ []) :
    ((∀ x ∈ X, ∀ ρ ∈ sub, ρ.kind.call ρ.bounds x = true) → matchingProbabilities useElitist X.length pool elitist = .ok (none : Option (List K))) ∧
    ((∃ x ∈ X, ∃ ρ ∈ sub, ρ.kind.call ρ.bounds x = false) →
      ∃ p : List K, matchingProbabilities useElitist X.length pool elitist = .ok (some p) ∧ p.length = X.length ∧ (∀ q ∈ p, 0 ≤ q) ∧ p.sum = 1 ∧
        (∀ (i j : Nat) x x' q q', X[i]? = some x → X[j]? = some x' → p[i]? = some q → p[j]? = some q' →
          (coverage sub x < coverage sub x' ↔ q' < q)) ∧
        (∀ (i : Nat) x q, X[i]? = some x → p[i]? = some q → (q = 0 ↔ ∀ ρ ∈ sub, ρ.kind.call ρ.bounds x = true))) := by
  have hcov : ∀ x, coverage sub x ≤ sub.length := fun x => List.countP_le_length
  have hfull : ∀ x, coverage sub x = sub.length ↔ ∀ ρ ∈ sub, ρ.kind.call ρ.bounds x = true := fun x => by
    unfold coverage; rw [List.countP_eq_length]
  rw [originSubgroup_matching X.length useElitist pool elitist sub (originSubgroup_of_group _ _ _ _ hsub) X rfl hc hne]
  constructor
  · intro hall
    have : (X.map fun x => ((sub.length - coverage sub x : Nat) : K)).sum = 0 := by
      refine List.sum_eq_zero fun q hq => ?_
      obtain ⟨x, hx, rfl⟩ := List.mem_map.mp hq
      rw [(hfull x).mpr (hall x hx)]; simp
    unfold normalise
    rw [if_neg (by rw [this]; simp)]
  · rintro ⟨x0, hx0, ρ0, hρ0, hm0⟩
    have hpos : 0 < (X.map fun x => ((sub.length - coverage sub x : Nat) : K)).sum := by
      have h0 : coverage sub x0 ≠ sub.length := fun h => by
        have := (hfull x0).mp h ρ0 hρ0
        rw [hm0] at this; cases this
      have h1 : (1 : K) ≤ ((sub.length - coverage sub x0 : Nat) : K) := by
        have := hcov x0
        exact_mod_cast (by omega : 1 ≤ sub.length - coverage sub x0)
      refine lt_of_lt_of_le (lt_of_lt_of_le one_pos h1) ?_
      exact List.single_le_sum (by intro q hq; obtain ⟨x, _, rfl⟩ := List.mem_map.mp hq; exact Nat.cast_nonneg _) _
        (List.mem_map.mpr ⟨x0, hx0, rfl⟩)
    unfold normalise
    rw [if_pos hpos.ne']
    refine ⟨_, rfl, by simp, ?_, ?_, ?_, ?_⟩
    · intro q hq
      simp only [List.map_map, List.mem_map, Function.comp_apply] at hq
      obtain ⟨x, _, rfl⟩ := hq
      exact div_nonneg (Nat.cast_nonneg _) hpos.le
    · generalize hS : (X.map fun x => ((sub.length - coverage sub x : Nat) : K)) = w at *
      have : ∀ (l : List K) (c : K), (l.map (· / c)).sum = l.sum / c := by
        intro l c
        induction l with
        | nil => simp
        | cons a as ih => simp [ih, add_div]
      rw [this]
      exact div_self hpos.ne'
    · intro i j x x' q q' hx hx' hq hq'
      simp only [List.map_map, List.getElem?_map, hx, hx', Option.map_some, Option.some.injEq, Function.comp_apply] at hq hq'
      rw [← hq, ← hq', div_lt_div_iff_of_pos_right hpos, Nat.cast_lt]
      have h1 := hcov x
      have h2 := hcov x'
      omega
    · intro i x q hx hq
      simp only [List.map_map, List.getElem?_map, hx, Option.map_some, Option.some.injEq, Function.comp_apply] at hq
      rw [← hq, div_eq_zero_iff, or_iff_left hpos.ne', Nat.cast_eq_zero, ← hfull]
      have h1 := hcov x
      omega

/-- C36: with no rules to consider (an empty pool, or an elitist that selects none) the choice is uniform. -/
theorem C36_no_rules (n : Nat) (useElitist : Bool) (pool : List (Rule K d M)) (elitist : Option (Solution K d M))
    (hsub : OriginGroup useElitist pool elitist []) : matchingProbabilities useElitist n pool elitist = .ok (none : Option (List K)) := by
  unfold matchingProbabilities
  rw [originSubgroup_of_group _ _ _ _ hsub]
  rfl

example : OriginGroup true examplePool (some { genome := [false, false, false], pool := examplePool }) [] := ⟨rfl, rfl⟩

/-- C36: every origin is a training sample, as many are drawn as requested, and an origin of a non-uniform draw has positive probability. -/
theorem C36_origins_are_samples (X : List (Point K d)) (probs : Option (List K)) (idx : List Nat) (out : List (Point K d))
    (h : drawOrigins X probs idx = some out) :
    out.length = idx.length ∧ (∀ o ∈ out, o ∈ X) ∧
      ∀ p, probs = some p → ∀ (i : Nat) (o : Point K d), out[i]? = some o → ∃ (j : Nat) (q : K), X[j]? = some o ∧ p[j]? = some q ∧ q ≠ 0 := by
  unfold drawOrigins at h
  obtain ⟨h1, h2⟩ := mapM_option_getElem? _ _ _ h
  have hget : ∀ (i : Nat) (o : Point K d), out[i]? = some o → ∃ j : Nat, X[j]? = some o ∧ ∀ p, probs = some p → ∃ q, p[j]? = some q ∧ q ≠ 0 := by
    intro i o ho
    have hi : i < idx.length := by rw [← h1]; exact (List.getElem?_eq_some_iff.mp ho).1
    have := h2 i _ (List.getElem?_eq_getElem hi)
    rw [ho] at this
    refine ⟨idx[i], ?_⟩
    cases probs with
    | none => exact ⟨this, fun p hp => by cases hp⟩
    | some p =>
      dsimp only at this
      cases hq : p[idx[i]]? with
      | none => rw [hq] at this; cases this
      | some q =>
        rw [hq] at this
        dsimp only at this
        split_ifs at this with hq0
        exact ⟨this, fun p' hp' => by cases hp'; exact ⟨q, hq, hq0⟩⟩
  refine ⟨h1, fun o ho => ?_, fun p hp i o ho => ?_⟩
  · obtain ⟨i, hi⟩ := List.getElem?_of_mem ho
    obtain ⟨j, hj, _⟩ := hget i o hi
    exact List.mem_of_getElem? hj
  · obtain ⟨j, hj, hq⟩ := hget i o ho
    obtain ⟨q, hq1, hq2⟩ := hq p hp
    exact ⟨j, q, hj, hq1, hq2⟩

/-- Example: three samples, the rules `[0,1]` and `[1,2]`; the sample `1` is covered twice. -/
example : (do let ρ ← (intervalRule 0 1).fit meanLearner negErr [![0], ![1], ![2]] [0, 2, 4]
              let τ ← (intervalRule 1 2).fit meanLearner negErr [![0], ![1], ![2]] [0, 2, 4]
              matchingProbabilities true 3 [ρ, τ] none) = Except.ok (some [1/2, 0, 1/2]) := by decide +kernel

example : drawOrigins [(![0] : Point ℚ 1), ![1], ![2]] (some [1/2, 0, 1/2]) [2, 0, 2] = some [![2], ![0], ![2]] := by decide +kernel

/-- Example: the elitist selects only the rule `[0,1]`, so that only the sample `2` is uncovered. -/
example : (do let ρ ← (intervalRule 0 1).fit meanLearner negErr [![0], ![1], ![2]] [0, 2, 4]
              let τ ← (intervalRule 1 2).fit meanLearner negErr [![0], ![1], ![2]] [0, 2, 4]
              matchingProbabilities true 3 [ρ, τ] (some { genome := [true, false], pool := [ρ, τ] })) = Except.ok (some [0, 0, 1]) := by decide +kernel

/-! ### C37 squared-error origins -/

/-- C37 (refuted): with a non-empty pool and no elitist yet — the situation in the first step after initial rules were generated — the squared-error origins always fail. -/
theorem C37_refuted (L : Learner K d M) (P : MixParams K) (filt : SubFilter K d M) (useElitist : Bool)
    (X : List (Point K d)) (y : List K) (pool : List (Rule K d M)) (hne : pool ≠ []) :
    squaredErrorProbabilities L P filt useElitist X y pool none = .error .attributeError := by
  unfold squaredErrorProbabilities originSubgroup squaredErrorWeights
  simp only [bind, Except.bind]
  rw [if_neg (by simpa using hne)]

example : examplePool ≠ [] := by simp [examplePool]

/-- C37 (partial): once there is an elitist whose genome fits the pool and whose rules are trained, or as long as the pool is empty, the squared-error origins are available. -/
theorem C37_partial (L : Learner K d M) (P : MixParams K) (useElitist : Bool)
    (X : List (Point K d)) (y : List K) (hxy : y.length = X.length) (pool : List (Rule K d M)) (elitist : Option (Solution K d M))
    (h : pool = [] ∧ elitist = none ∨
      ∃ σ, elitist = some σ ∧ σ.pool = pool ∧ σ.genome.length = pool.length ∧ ∀ ρ ∈ pool, ρ.Usable) :
    ∃ probs, squaredErrorProbabilities L P filterAll useElitist X y pool elitist = .ok probs := by
  rcases h with ⟨rfl, rfl⟩ | ⟨σ, rfl, rfl, hlen, hu⟩
  · exact ⟨none, rfl⟩
  · have hpred : ∀ g : List Bool, g.length = σ.pool.length →
        Solution.predict L P filterAll false { σ with genome := g } X = .ok (X.map (mixAt L P (compress σ.pool g))) := by
      intro g hg
      unfold Solution.predict Solution.subpopulation
      rw [if_pos hg]
      exact mixing_all_uncached L P X _ fun ρ h => (hu ρ (mem_of_mem_compress h)).ready
    have hsub : ∃ sub, originSubgroup useElitist σ.pool (some σ) = .ok sub := by
      unfold originSubgroup Solution.subpopulation
      dsimp only
      rw [if_pos hlen]
      cases useElitist <;> exact ⟨_, rfl⟩
    obtain ⟨sub, hsub⟩ := hsub
    have hw : ∃ w, squaredErrorWeights L P filterAll useElitist X y (some σ) = .ok w := by
      unfold squaredErrorWeights
      cases useElitist with
      | true =>
        have := hpred σ.genome hlen
        simp only [if_true]
        rw [show σ = { σ with genome := σ.genome } from rfl, this]
        simp [hxy]
      | false =>
        have := hpred (List.replicate σ.pool.length true) (by simp)
        simp only [Bool.false_eq_true, if_false]
        rw [this]
        simp [hxy]
    obtain ⟨w, hw⟩ := hw
    unfold squaredErrorProbabilities
    rw [hsub, hw]
    simp only [bind, Except.bind]
    split_ifs <;> exact ⟨_, rfl⟩

example : ∃ σ : Solution ℚ 1 ℚ, σ.pool = examplePool ∧ σ.genome.length = examplePool.length ∧ ∀ ρ ∈ examplePool, ρ.Usable := by
  refine ⟨{ genome := [true, false, true], pool := examplePool }, rfl, rfl, ?_⟩
  simp only [examplePool, List.forall_mem_cons, List.not_mem_nil, false_imp_iff, implies_true, and_true]
  exact ⟨fittedRule_usable _ _ _ _ _ (by norm_num) (by norm_num), fittedRule_usable _ _ _ _ _ (by norm_num) (by norm_num),
    fittedRule_usable _ _ _ _ _ (by norm_num) (by norm_num)⟩

/-! ### C87 squared-error probabilities -/

theorem normalise_zero (w : List K) (h : ∀ q ∈ w, q = 0) : normalise w = none := by
  unfold normalise
  rw [if_neg (by rw [List.sum_eq_zero h]; simp)]

theorem normalise_spec (w : List K) (h0 : ∀ q ∈ w, 0 ≤ q) (h1 : ∃ q ∈ w, q ≠ 0) :
    ∃ p : List K, normalise w = some p ∧ p.length = w.length ∧ (∀ q ∈ p, 0 ≤ q) ∧ p.sum = 1 ∧ ∃ c : K, 0 < c ∧ ∀ i : Nat, p[i]? = (w[i]?).map (· / c) := by
  obtain ⟨q0, hq0, hne⟩ := h1
  have hpos : 0 < w.sum := lt_of_lt_of_le (lt_of_le_of_ne (h0 _ hq0) (Ne.symm hne)) (List.single_le_sum h0 _ hq0)
  refine ⟨w.map (· / w.sum), by unfold normalise; rw [if_pos hpos.ne'], by simp, ?_, ?_, w.sum, hpos, fun i => by simp⟩
  · intro q hq
    obtain ⟨x, hx, rfl⟩ := List.mem_map.mp hq
    exact div_nonneg (h0 x hx) hpos.le
  · have : ∀ (l : List K) (c : K), (l.map (· / c)).sum = l.sum / c := by
      intro l c
      induction l with
      | nil => simp
      | cons a as ih => simp [ih, add_div]
    rw [this]
    exact div_self hpos.ne'

/-- C87: let `pred` be the predictions of the elitist (or, with `use_elitist = False`, of all rules) on the training samples. If they are exact, the choice is uniform. Otherwise the probabilities are
non-negative, sum to one and are proportional to the squared errors, so that exactly the samples that are predicted exactly have probability zero, and a sample is more likely than another exactly if
its prediction is further off. -/
theorem C87_squared_error_probabilities (L : Learner K d M) (P : MixParams K) (filt : SubFilter K d M) (useElitist : Bool) (X : List (Point K d)) (y : List K)
    (pool : List (Rule K d M)) (σ : Solution K d M) (sub : List (Rule K d M)) (hsub : OriginGroup useElitist pool (some σ) sub) (hne : sub ≠ []) (pred : List K)
    (hpred : Solution.predict L P filt false { σ with genome := if useElitist then σ.genome else List.replicate σ.pool.length true } X = .ok pred)
    (hl : pred.length = y.length) :
    (pred = y → squaredErrorProbabilities L P filt useElitist X y pool (some σ) = .ok none) ∧
    (pred ≠ y → ∃ p : List K, squaredErrorProbabilities L P filt useElitist X y pool (some σ) = .ok (some p) ∧ p.length = y.length ∧ (∀ q ∈ p, 0 ≤ q) ∧ p.sum = 1 ∧
      (∃ c : K, 0 < c ∧ ∀ (i : Nat) a t, pred[i]? = some a → y[i]? = some t → p[i]? = some ((a - t) ^ 2 / c)) ∧
      (∀ (i : Nat) a t q, pred[i]? = some a → y[i]? = some t → p[i]? = some q → (q = 0 ↔ a = t)) ∧
      ∀ (i j : Nat) a a' t t' q q', pred[i]? = some a → pred[j]? = some a' → y[i]? = some t → y[j]? = some t' → p[i]? = some q → p[j]? = some q' →
        (q < q' ↔ abs (a - t) < abs (a' - t'))) := by
  have hprob : squaredErrorProbabilities L P filt useElitist X y pool (some σ) = .ok (normalise (List.zipWith (fun p t => (p - t) ^ 2) pred y)) := by
    unfold squaredErrorProbabilities
    rw [originSubgroup_of_group _ _ _ _ hsub]
    simp only [bind, Except.bind]
    rw [if_neg (by simpa using hne)]
    unfold squaredErrorWeights
    have hσ : (if useElitist = true then σ else { σ with genome := List.replicate σ.pool.length true }) =
        { σ with genome := if useElitist then σ.genome else List.replicate σ.pool.length true } := by cases useElitist <;> rfl
    dsimp only
    rw [hσ, hpred]
    simp only [ne_eq, hl, not_true_eq_false, if_false]
    rfl
  have hget : ∀ (i : Nat) a t, pred[i]? = some a → y[i]? = some t → (List.zipWith (fun p t => (p - t) ^ 2) pred y)[i]? = some ((a - t) ^ 2) := by
    intro i a t ha ht
    rw [List.getElem?_zipWith, ha, ht]
  have hmem : ∀ q ∈ List.zipWith (fun p t => (p - t) ^ 2) pred y, ∃ (i : Nat) (a t : K), pred[i]? = some a ∧ y[i]? = some t ∧ q = (a - t) ^ 2 := by
    intro q hq
    obtain ⟨i, hi⟩ := List.getElem?_of_mem hq
    rw [List.getElem?_zipWith] at hi
    cases ha : pred[i]? with
    | none => rw [ha] at hi; cases hi
    | some a =>
      cases ht : y[i]? with
      | none => rw [ha, ht] at hi; cases hi
      | some t => rw [ha, ht] at hi; exact ⟨i, a, t, ha, ht, (Option.some.inj hi).symm⟩
  rw [hprob]
  constructor
  · intro he
    rw [normalise_zero]
    intro q hq
    obtain ⟨i, a, t, ha, ht, rfl⟩ := hmem q hq
    rw [he, ht] at ha
    cases ha
    simp
  · intro hneq
    have h1 : ∃ q ∈ List.zipWith (fun p t => (p - t) ^ 2) pred y, q ≠ 0 := by
      by_contra hc
      push Not at hc
      refine hneq (List.ext_getElem? fun i => ?_)
      cases ha : pred[i]? with
      | none =>
        have := List.getElem?_eq_none_iff.mp ha
        exact (List.getElem?_eq_none_iff.mpr (by omega)).symm
      | some a =>
        have hi := (List.getElem?_eq_some_iff.mp ha).1
        have ht : y[i]? = some y[i] := List.getElem?_eq_getElem (by omega)
        have := hc _ (List.mem_of_getElem? (hget i _ _ ha ht))
        rw [ht, sub_eq_zero.mp (pow_eq_zero_iff (by decide) |>.mp this)]
    obtain ⟨p, hp, hlen, hnn, hsum, c, hc, hpi⟩ := normalise_spec _ (fun q hq => by obtain ⟨i, a, t, _, _, rfl⟩ := hmem q hq; exact sq_nonneg _) h1
    refine ⟨p, by rw [hp], by rw [hlen]; simp [hl], hnn, hsum, ⟨c, hc, fun i a t ha ht => by rw [hpi, hget i a t ha ht]; rfl⟩, ?_, ?_⟩
    · intro i a t q ha ht hq
      rw [hpi, hget i a t ha ht] at hq
      cases hq
      rw [div_eq_zero_iff, or_iff_left hc.ne', pow_eq_zero_iff (by decide), sub_eq_zero]
    · intro i j a a' t t' q q' ha ha' ht ht' hq hq'
      rw [hpi, hget i a t ha ht] at hq
      rw [hpi, hget j a' t' ha' ht'] at hq'
      cases hq; cases hq'
      rw [div_lt_div_iff_of_pos_right hc]
      exact sq_lt_sq

/-- Example: the elitist selects the rule `[0,1]` with local model 1 for the targets 0 and 2; the unmatched sample with target 4 is predicted as 0. -/
example : (do let ρ ← (intervalRule 0 1).fit meanLearner negErr [![0], ![1], ![2]] [0, 2, 4]
              squaredErrorProbabilities meanLearner ⟨.plain, 1⟩ filterAll true [![0], ![1], ![2]] [0, 2, 4] [ρ] (some { genome := [true], pool := [ρ] })) =
    Except.ok (some [1/18, 1/18, 16/18]) := by decide +kernel

end Origin

end Suprb
