import Verif.Model.FreeES
import Verif.Props.Parts
import Verif.Props.ConfiguredES
import Verif.Props.MinWidth

/-!
# Claims C170 and C171: the evolution strategy with all of its settings

Every origin strategy, matching type, initialisation, mutation, selection, constraint, acceptance and replacement operator, with every composition method and mixing model.
-/

set_option autoImplicit false
set_option linter.unusedSectionVars false

namespace Suprb
open _root_.Spec (Pairs Point InBox InBounds Ordered Inside)

/-! ### Selections -/

section Candidates
variable {R : Type} [DecidableEq R]

theorem nondominatedInner_ne_nil (dom : R → R → Bool) (rule : R) (i : Nat) (cands : List R) (flag : Bool) (h : flag = true ∨ cands ≠ []) (hi : flag = true ∨ i < cands.length) :
    (nondominatedInner dom rule i cands flag).2 = true ∨ (nondominatedInner dom rule i cands flag).1 ≠ [] := by
  fun_induction nondominatedInner dom rule i cands flag with
  | case1 i cands flag hlt hdom => exact Or.inr fun hc => by simp only at hc; rw [hc] at hlt; simp at hlt
  | case2 i cands flag hlt h1 h2 ih => exact ih (Or.inl rfl) (Or.inl rfl)
  | case3 i cands flag hlt h1 h2 ih => exact ih (Or.inl rfl) (Or.inl rfl)
  | case4 i cands flag hlt =>
    rcases hi with hi | hi
    · exact Or.inl hi
    · exact absurd hi hlt

theorem nondominatedStep_ne_nil (dom : R → R → Bool) (cands : List R) (rule : R) (h : cands ≠ []) : nondominatedStep dom cands rule ≠ [] := by
  have := nondominatedInner_ne_nil dom rule 0 cands false (Or.inr h) (Or.inr (List.length_pos_iff.mpr h))
  unfold nondominatedStep
  dsimp only
  split_ifs with hf
  · simp
  · exact this.resolve_left hf

theorem nondominatedCandidates_ok (dom : R → R → Bool) (rules : List R) (h : rules ≠ []) :
    ∃ cands, nondominatedCandidates dom rules = .ok cands ∧ cands ≠ [] ∧ ∀ a ∈ cands, a ∈ rules := by
  obtain ⟨r, rs, rfl⟩ := List.exists_cons_of_ne_nil h
  refine ⟨_, rfl, ?_⟩
  have key : ∀ (l c : List R), c ≠ [] → l.foldl (nondominatedStep dom) c ≠ [] ∧ ∀ a ∈ l.foldl (nondominatedStep dom) c, a ∈ c ∨ a ∈ l := by
    intro l
    induction l with
    | nil => exact fun c hc => ⟨hc, fun a ha => Or.inl ha⟩
    | cons x xs ih =>
      intro c hc
      obtain ⟨h1, h2⟩ := ih _ (nondominatedStep_ne_nil dom c x hc)
      refine ⟨h1, fun a ha => ?_⟩
      rcases h2 a ha with h3 | h3
      · rcases nondominatedStep_mem _ _ _ _ h3 with h4 | rfl
        · exact Or.inl h4
        · exact Or.inr (List.mem_cons_self ..)
      · exact Or.inr (List.mem_cons_of_mem _ h3)
  obtain ⟨h1, h2⟩ := key rs [r] (by simp)
  refine ⟨h1, fun a ha => ?_⟩
  rcases h2 a ha with h3 | h3
  · rw [List.mem_singleton.mp h3]; exact List.mem_cons_self ..
  · exact List.mem_cons_of_mem _ h3

end Candidates

variable {K : Type} [Field K] [LinearOrder K] [IsStrictOrderedRing K] {d : Nat} {M : Type}

theorem nondominatedFirst_mem (rules : List (Rule K d M)) (pick : Nat → Nat) (out : List (Rule K d M)) (h : nondominatedFirst rules pick = .ok out) : ∀ ρ ∈ out, ρ ∈ rules := by
  intro ρ hρ
  unfold nondominatedFirst at h
  split at h
  · cases h
  · unfold npChoice at h
    split at h
    · cases h
    · dsimp only at h
      split at h
      · cases h
      · injection h with h
        rw [← h] at hρ
        obtain ⟨i, _, hi⟩ := List.mem_filterMap.mp hρ
        obtain ⟨j, _, hj⟩ := List.mem_filterMap.mp (List.mem_of_getElem? hi)
        exact List.mem_of_getElem? hj

/-- Every selection returns a member of the given rules, if it returns. -/
theorem SelectCfg.first_mem (s : SelectCfg) (rules : List (Rule K d M)) (z : SelectDraw K) (ρ : Rule K d M) (h : s.first rules z = .ok ρ) : ρ ∈ rules := by
  unfold SelectCfg.first at h
  cases s with
  | fittest => exact (fittestFirst_mem _ rules ρ h).1
  | roulette => exact rouletteFirst_mem rules _ ρ h
  | nondominated =>
    dsimp only at h
    split at h
    · cases h
    · cases h
    · rename_i r rest hr
      injection h with h
      rw [← h]; exact nondominatedFirst_mem rules _ _ hr r (List.mem_cons_self ..)
  | random =>
    dsimp only at h
    split at h
    · cases h
    · cases h
    · rename_i r rest hr
      injection h with h
      rw [← h]
      unfold ruleRandom npChoice at hr
      split at hr
      · cases hr
      · dsimp only at hr
        split at hr
        · cases hr
        · injection hr with hr
          obtain ⟨i, _, hi⟩ := List.mem_filterMap.mp (by rw [hr]; exact List.mem_cons_self .. : r ∈ _)
          exact List.mem_of_getElem? hi

/-- The numbers numpy can return in a selection: a number in `[0, 1)` and positions of the list. -/
structure SelectDraw.Possible (z : SelectDraw K) : Prop where
  weight : 0 ≤ z.u ∧ z.u < 1
  pick : ∀ n, 0 < n → z.pick n < n

/-- Every selection finds a rule in a non-empty list of fitted rules; for the roulette wheel, if the fitness values are positive or minus infinity and not all of them are the latter. -/
theorem SelectCfg.first_ok (s : SelectCfg) (rules : List (Rule K d M)) (z : SelectDraw K) (hz : z.Possible) (hne : rules ≠ [])
    (hr : s = .roulette → (∀ ρ ∈ rules, ∃ st, ρ.st = some st ∧ (st.fitness = ⊥ ∨ ∃ f : K, st.fitness = ((f : K) : WithBot K) ∧ 0 < f)) ∧ ∃ ρ ∈ rules, ruleFitnessOf ρ ≠ ⊥) :
    ∃ ρ, s.first rules z = .ok ρ := by
  have hpos := List.length_pos_iff.mpr hne
  unfold SelectCfg.first
  cases s with
  | fittest =>
    obtain ⟨r, h1, _⟩ := fittestFirst_ok ruleFitnessOf rules hne
    exact ⟨r, h1⟩
  | roulette =>
    obtain ⟨h1, ρ0, h2, h3⟩ := hr rfl
    let fits : Rule K d M → Option K := fun ρ => ruleFitnessOf ρ
    have hf : ∀ ρ ∈ rules, ∃ st, ρ.st = some st ∧ (match fits ρ with | none => st.fitness = ⊥ | some f => st.fitness = ((f : K) : WithBot K) ∧ 0 ≤ f) := by
      intro ρ hρ
      obtain ⟨st, e1, e2⟩ := h1 ρ hρ
      refine ⟨st, e1, ?_⟩
      have e3 : fits ρ = st.fitness := by show ruleFitnessOf ρ = _; unfold ruleFitnessOf; rw [e1]; rfl
      rcases e2 with e2 | ⟨f, e2, e4⟩
      · rw [e3, e2]
      · rw [e3, e2]; exact ⟨rfl, e4.le⟩
    obtain ⟨st, e1, e2⟩ := h1 ρ0 h2
    have e3 : ruleFitnessOf ρ0 = st.fitness := by unfold ruleFitnessOf; rw [e1]; rfl
    rcases e2 with e2 | ⟨f, e2, e4⟩
    · exact absurd (e3.trans e2) h3
    · obtain ⟨_, ρ, _, _, _, h, _⟩ := C88_es_partial rules fits hf ⟨ρ0, h2, f, e3.trans e2, e4⟩ z.u hz.weight.1 hz.weight.2 (z.pick rules.length)
      exact ⟨ρ, h⟩
  | nondominated =>
    obtain ⟨cands, h1, h2, h3⟩ := nondominatedCandidates_ok (dominatesAt rules)
      (List.range rules.length) (by simpa using hne)
    have hin : ∀ (l : List Nat), (∀ i ∈ l, i < rules.length) → (l.filterMap fun i => rules[i]?).length = l.length := by
      intro l
      induction l with
      | nil => intro _; rfl
      | cons i rest ih =>
        intro hl
        rw [List.filterMap_cons, List.getElem?_eq_getElem (hl i (List.mem_cons_self ..))]
        simp only [List.length_cons]
        rw [ih fun j hj => hl j (List.mem_cons_of_mem _ hj)]
    have hlen := hin cands fun i hi => List.mem_range.mp (h3 i hi)
    have hc := List.length_pos_iff.mpr h2
    have hp := hz.pick cands.length hc
    unfold nondominatedFirst npChoice
    dsimp only
    rw [h1]
    dsimp only
    rw [if_neg (by rw [hlen]; omega), if_neg (by simp)]
    simp only [List.filterMap_cons, List.filterMap_nil]
    rw [List.getElem?_eq_getElem (by rw [hlen]; exact hp)]
    exact ⟨_, rfl⟩
  | random =>
    unfold ruleRandom npChoice
    dsimp only
    rw [if_neg (by omega), if_neg (by simp)]
    simp only [List.filterMap_cons, List.filterMap_nil]
    rw [List.getElem?_eq_getElem (hz.pick _ hpos)]
    exact ⟨_, rfl⟩

/-- The error of the rule at a position and its volume; positions without a fitted rule have both infinite. -/
def errorAt (rules : List (Rule K d M)) (i : Nat) : WithTop K := match rules[i]?.bind Rule.st with | some s => s.error | none => ⊤
def volumeAt (rules : List (Rule K d M)) (i : Nat) : WithTop K := match rules[i]? with | some ρ => if ρ.st.isSome then ((ρ.kind.volume ρ.bounds : K) : WithTop K) else ⊤ | none => ⊤

theorem dominatesAt_eq (rules : List (Rule K d M)) : dominatesAt rules = domB (errorAt rules) (volumeAt rules) := by
  funext i j
  unfold dominatesAt domB errorAt volumeAt
  cases hi : rules[i]? with
  | none => simp
  | some a =>
    cases hj : rules[j]? with
    | none => simp
    | some b =>
      unfold ruleDominates
      rw [Bool.eq_iff_iff, Bool.and_eq_true, decide_eq_true_eq, decide_eq_true_eq]
      simp only [Option.bind_some]
      cases ha : a.st with
      | none => simp
      | some s =>
        cases hb : b.st with
        | none => simp
        | some t => simp [WithTop.coe_lt_coe]

/-- C39 (partial), for the rules of the evolution strategy: non-dominated sort selects one of the given rules, and every fitted rule that no given rule dominates (a smaller error together with a larger
volume) is selected for some numbers that can be drawn. Missing as in `C39_partial`: dominated rules may be selected, too. -/
theorem C39_rules_partial (rules : List (Rule K d M)) (hst : ∀ ρ ∈ rules, ρ.st.isSome) (ρ : Rule K d M) (hρ : ρ ∈ rules)
    (hno : ∀ τ ∈ rules, ∀ s t, ρ.st = some s → τ.st = some t → ¬ (t.error < s.error ∧ ρ.kind.volume ρ.bounds < τ.kind.volume τ.bounds)) :
    (∀ z τ, SelectCfg.nondominated.first rules z = .ok τ → τ ∈ rules) ∧ ∃ z : SelectDraw K, z.Possible ∧ SelectCfg.nondominated.first rules z = .ok ρ := by
  refine ⟨fun z τ h => SelectCfg.first_mem _ rules z τ h, ?_⟩
  have hne : List.range rules.length ≠ [] := by
    have := List.length_pos_of_mem hρ
    simp only [ne_eq, List.range_eq_nil]; omega
  obtain ⟨cands, h1, h2, h3, h4⟩ := C39_partial (errorAt rules) (volumeAt rules) (List.range rules.length) hne
  rw [← dominatesAt_eq] at h1
  obtain ⟨i, hi, rfl⟩ := List.getElem_of_mem hρ
  have hc : i ∈ cands := by
    refine h4 i (List.mem_range.mpr hi) fun j hj hdom => ?_
    have hj' := List.mem_range.mp hj
    have hb := (domB_iff (errorAt rules) (volumeAt rules) j i).mpr hdom
    rw [← dominatesAt_eq] at hb
    unfold dominatesAt ruleDominates at hb
    rw [List.getElem?_eq_getElem hi, List.getElem?_eq_getElem hj'] at hb
    dsimp only at hb
    obtain ⟨s, hs⟩ := Option.isSome_iff_exists.mp (hst _ (List.getElem_mem hi))
    obtain ⟨t, ht⟩ := Option.isSome_iff_exists.mp (hst _ (List.getElem_mem hj'))
    rw [hs, ht] at hb
    dsimp only at hb
    rw [Bool.and_eq_true, decide_eq_true_eq, decide_eq_true_eq] at hb
    exact hno _ (List.getElem_mem hj') s t hs ht hb
  obtain ⟨p, hp, e⟩ := List.getElem_of_mem hc
  have hin : ∀ (l : List Nat), (∀ i ∈ l, i < rules.length) → ∀ p (hp : p < l.length), (l.filterMap fun i => rules[i]?)[p]? = rules[l[p]]? := by
    intro l
    induction l with
    | nil => intro _ p hp; exact absurd hp (by simp)
    | cons j rest ih =>
      intro hl p hp
      have hj := hl j (List.mem_cons_self ..)
      rw [List.filterMap_cons, List.getElem?_eq_getElem hj]
      cases p with
      | zero => simp [List.getElem?_eq_getElem hj]
      | succ p => simpa using ih (fun k hk => hl k (List.mem_cons_of_mem _ hk)) p (by simpa using hp)
  have hcand : ∀ j ∈ cands, j < rules.length := fun j hj => List.mem_range.mp (h3 j hj)
  refine ⟨⟨0, fun n => if n = cands.length then p else 0⟩, ⟨⟨le_refl _, zero_lt_one⟩, fun n hn => ?_⟩, ?_⟩
  · dsimp only
    split_ifs with h
    · rw [h]; exact hp
    · exact hn
  · unfold SelectCfg.first nondominatedFirst npChoice
    dsimp only
    rw [h1]
    dsimp only
    have hel := hin cands hcand p hp
    rw [e, List.getElem?_eq_getElem hi] at hel
    rw [if_neg, if_neg (by simp)]
    · simp only [if_true, List.filterMap_cons, List.filterMap_nil]
      rw [hel]
    · rintro ⟨h, _⟩
      rw [List.length_eq_zero_iff.mp h] at hel
      cases hel

/-! ### Runs of the strategy -/

/-- `esLoop_total` for selections that need possible draws and rules with the invariant, one of them valid. -/
theorem esLoop_total_of {R Z S F : Type} [LinearOrder F] (P : ESParams R Z S F) (hsel : P.SelectsMember) (D : Z → Prop) (E : S → Prop) (Q : R → Prop)
    (hchild : ∀ e z, Q e → D z → ∃ c, P.child e z = .ok c)
    (hselok : ∀ l s, E s → (∀ r ∈ l, Q r) → (∃ r ∈ l, P.valid r = true) → ∃ r, P.select l s = .ok r) (hd : P.operator = .amp → 1 ≤ P.delay)
    (hQ : ∀ e c, Q e → P.IsChild D e c → Q c) (gs : List (List Z × S)) (hD : ∀ g ∈ gs, E g.2 ∧ ∀ z ∈ g.1, D z)
    (e : R) (w : List R) (he : Q e) : ∃ r, esLoop P gs e w = .ok r := by
  induction gs generalizing e w with
  | nil => exact ⟨e, rfl⟩
  | cons g gs ih =>
    obtain ⟨zs, s⟩ := g
    have hz := (hD (zs, s) (List.mem_cons_self ..)).2
    have hs := (hD (zs, s) (List.mem_cons_self ..)).1
    have hgen : ∃ out, esGen P zs s e w = .ok out := by
      obtain ⟨cs, hcs⟩ := mapM_ok_of_all (P.child e) zs fun z hz' => hchild e z he (hz z hz')
      have hv := esGen_valid_child P D zs hz e cs hcs
      unfold esGen
      dsimp only
      rw [hcs]
      dsimp only
      split
      · exact ⟨_, rfl⟩
      · rename_i hne
        have hne' : cs.filter P.valid ≠ [] := by simpa using hne
        obtain ⟨c0, hc0⟩ := List.exists_mem_of_ne_nil _ hne'
        have hval := (List.mem_filter.mp hc0).2
        obtain ⟨r1, hr1⟩ := hselok (cs.filter P.valid ++ [e]) s hs (fun r hr => by
          rcases List.mem_append.mp hr with h | h
          · exact hQ e r he (hv r h)
          · rw [List.mem_singleton.mp h]; exact he) ⟨c0, List.mem_append_left _ hc0, hval⟩
        obtain ⟨r2, hr2⟩ := hselok (cs.filter P.valid) s hs (fun r hr => hQ e r he (hv r hr)) ⟨c0, hc0, hval⟩
        split
        · rw [hr1]; exact ⟨_, rfl⟩
        · rw [hr2]; exact ⟨_, rfl⟩
        · rename_i hop
          rw [hr2]
          dsimp only
          split
          · rename_i hlen
            split
            · rename_i hnil
              rw [hnil] at hlen
              have := hd hop
              simp at hlen; omega
            · split <;> exact ⟨_, rfl⟩
          · exact ⟨_, rfl⟩
        · exact ⟨_, rfl⟩
    obtain ⟨out, hout⟩ := hgen
    unfold esLoop
    rw [hout]
    cases out with
    | stop r => exact ⟨r, rfl⟩
    | next e' w' =>
      obtain ⟨rfl, he'⟩ := esGen_next P hsel D zs hz s e e' w w' hout
      refine ih (fun g hg => hD g (List.mem_cons_of_mem _ hg)) e' _ ?_
      rcases he' with rfl | hc
      · exact he
      · exact hQ e e' he hc

/-- A constraint with all of its parts. -/
def ConstraintCfg.Complete : ConstraintCfg K d → Prop
  | .combined r c => r.isSome ∧ c.isSome
  | _ => True

/-- A `beta` for which the acceptance by variance makes sense. -/
def AcceptCfg.Usable : AcceptCfg K → Prop
  | .maxError _ => True
  | .variance beta => 0 < beta

/-- The random numbers numpy can return. -/
structure FreeDraws.Possible (D : FreeDraws K d) (N : Nat) : Prop where
  origins : ∀ n, DrawsRows N n (D.origins n)
  uniform : ∀ k i, 0 ≤ D.uniform k i ∧ D.uniform k i ≤ 1
  selections : ∀ k g, (D.selections k g).Possible

/-- What the settings of the strategy need: a delay of at least 1 for `&`; matching type, initialisation and mutation that fit together; both parts of a combined constraint; a positive `beta`; no
squared-error origins with initial rules; and positive rule fitness for the roulette wheel. -/
structure FreeES.Works (es : FreeES K d) (cfg : SupCfg K) (ff : RuleFitness K d) : Prop where
  delay : es.operator = .amp → 1 ≤ es.delay
  kind : WorksWith es.kind es.init es.mutation d
  constraint : es.constraint.Complete
  acceptance : es.acceptance.Usable
  origin : cfg.nInitial = 0 ∨ ∀ b, es.origin ≠ .squaredError b
  fitness : es.selection = .roulette → ∀ e k b sp, 0 < ff e k b sp

/-- What acceptance means for a rule of the pool: trained on the data, at least one training sample inside, and a mean squared error on the samples inside of at most the given error, or at most the mean of
their squared targets divided by `beta`. -/
def AcceptCfg.Accepts (a : AcceptCfg K) (L : Learner K d M) (X : List (Point K d)) (y : List K) (ρ : Rule K d M) : Prop :=
  (∃ x ∈ X, ρ.kind.call ρ.bounds x = true) ∧ DescribesData L ρ X y ∧
    ∃ m, ρ.model = some m ∧ meanSqErr (L.predict m) (matchedData ρ X y) ≤
      match a with
      | .maxError e => e
      | .variance beta => ((matchedData ρ X y).map fun q => q.2 ^ 2).sum / ((matchedData ρ X y).length : K) / beta

theorem AcceptCfg.accepts_of (a : AcceptCfg K) (ha : a.Usable) (L : Learner K d M) (X : List (Point K d)) (y : List K) (hxy : y.length = X.length) (ρ : Rule K d M) (ht : ρ.TrainedOn L X y)
    (h : a.accept y ρ = .ok true) : a.Accepts L X y ρ := by
  cases a with
  | maxError e =>
    obtain ⟨hm, s, e', h1, _, h2, h3⟩ := C30_max_error L X y e ρ ht h
    have hd := ht.2 hm
    refine ⟨hm, hd, ?_⟩
    obtain ⟨s', m, g1, g2, _, g3⟩ := hd
    refine ⟨m, g2, ?_⟩
    rw [h1] at g1; cases g1
    rw [h2] at g3
    have g4 := WithTop.coe_injective g3
    exact (le_max_left _ _).trans (g4.symm.le.trans h3)
  | variance beta => exact acceptedRule_of L X y hxy beta ha ρ ht h

theorem AcceptCfg.accept_total (a : AcceptCfg K) (X : List (Point K d)) (y : List K) (hxy : y.length = X.length) (ρ : Rule K d M) (hc : ConsistentWith ρ X) : ∃ b, a.accept y ρ = .ok b := by
  cases a with
  | maxError e =>
    obtain ⟨s, hs, _⟩ := hc
    unfold AcceptCfg.accept acceptMaxError
    dsimp only
    rw [hs]
    exact ⟨_, rfl⟩
  | variance beta => exact acceptVariance_total beta X y hxy ρ hc

theorem ConstraintCfg.apply_total (c : ConstraintCfg K d) (hc : c.Complete) (fb : Pairs K d) (k : Kind) (b : Pairs K d) : ∃ b', c.apply fb k b = .ok b' := by
  cases c with
  | minRange r => exact ⟨_, rfl⟩
  | clip o => exact ⟨_, rfl⟩
  | combined r o =>
    obtain ⟨h1, h2⟩ := hc
    cases r with
    | none => cases h1
    | some r =>
      cases o with
      | none => cases h2
      | some o => exact ⟨_, rfl⟩

theorem Rule.OfKind.trained {k : Kind} {L : Learner K d M} {ff : RuleFitness K d} {X : List (Point K d)} {y : List K} (hxy : y.length = X.length) {ρ : Rule K d M}
    (h : ρ.OfKind k L ff X y) : ρ.TrainedOn L X y := by
  obtain ⟨_, ρ0, n, h0, _, hf⟩ := h
  rw [fits_replicate L ff X y hxy _ h0 n] at hf
  exact trainedOn_of_fit L ff X y hxy ρ0 ρ h0 hf

/-- A fitted rule has the fitness minus infinity and is not valid, or its fitness is the one of the rule fitness. -/
theorem Rule.OfKind.fitness {k : Kind} {L : Learner K d M} {ff : RuleFitness K d} {X : List (Point K d)} {y : List K} (hxy : y.length = X.length) {ρ : Rule K d M}
    (h : ρ.OfKind k L ff X y) : ∃ s, ρ.st = some s ∧ (s.fitness = ⊥ ∧ validRule ρ = false ∨ ∃ e k b sp, s.fitness = ((ff e k b sp : K) : WithBot K)) := by
  obtain ⟨_, ρ0, n, h0, _, hf⟩ := h
  rw [fits_replicate L ff X y hxy _ h0 n] at hf
  unfold Rule.fit at hf
  dsimp only at hf
  split at hf
  · injection hf with hf
    rw [← hf]
    exact ⟨_, rfl, Or.inl ⟨rfl, rfl⟩⟩
  · rw [h0] at hf
    dsimp only at hf
    unfold Rule.refit at hf
    split at hf
    · cases hf
    · injection hf with hf
      rw [← hf]
      exact ⟨_, rfl, Or.inr ⟨_, _, _, _, rfl⟩⟩

theorem freeInitial_total (cfg : FreeES K d) (hw : WorksWith cfg.kind cfg.init cfg.mutation d) (hc : cfg.constraint.Complete) (L : Learner K d M) (ff : RuleFitness K d)
    (X : List (Point K d)) (y : List K) (hxy : y.length = X.length) (fb : Pairs K d) (o : Point K d × Pairs K d) : ∃ ρ, freeInitial cfg L ff X y fb o = .ok ρ ∧ ρ.OfKind cfg.kind L ff X y := by
  obtain ⟨⟨b, hb⟩, _⟩ := (worksWith_split cfg.kind cfg.init cfg.mutation o.1 o.2).mp hw
  obtain ⟨b', hb'⟩ := cfg.constraint.apply_total hc fb cfg.kind b
  unfold freeInitial placedRule
  rw [hb]
  dsimp only
  rw [hb']
  exact ofKind_of_fit _ L ff X y hxy _ _

theorem freeChild_total (cfg : FreeES K d) (hk : cfg.kind = .ordered ∨ cfg.kind = .unordered ∨ cfg.mutation.sigma = .array 2) (hw : WorksWith cfg.kind .mean cfg.mutation d)
    (hc : cfg.constraint.Complete) (L : Learner K d M) (ff : RuleFitness K d) (X : List (Point K d)) (y : List K) (hxy : y.length = X.length) (fb : Pairs K d) (ρ : Rule K d M)
    (hρ : ρ.kind = cfg.kind) (z : Pairs K d) : ∃ c, freeChild cfg ⟨some cfg.mutation.sigma, some cfg.kind⟩ L ff X y fb ρ z = .ok c ∧ c.OfKind cfg.kind L ff X y := by
  obtain ⟨b', hb'⟩ := mutate_works cfg.mutation cfg.kind hw z ρ.bounds
  obtain ⟨b'', hb''⟩ := cfg.constraint.apply_total hc fb ρ.kind b'
  unfold freeChild movedRule
  rw [(callMutation_iff cfg.mutation cfg.kind z _ b' hk).mpr ⟨hb', hw⟩]
  dsimp only
  rw [hb'']
  dsimp only
  have : ({ ρ.clone with bounds := b'' } : Rule K d M) = { kind := cfg.kind, bounds := b'', inputSpace := ρ.inputSpace } := by
    unfold Rule.clone
    rw [hρ]
  rw [this]
  exact ofKind_of_fit _ L ff X y hxy _ _

theorem worksCases {k : Kind} {i : InitCfg} {m : MutationCfg} (hw : WorksWith k i m d) : k = .ordered ∨ k = .unordered ∨ m.sigma = .array 2 := by
  cases k with
  | ordered => exact Or.inl rfl
  | unordered => exact Or.inr (Or.inl rfl)
  | centerSpread => exact Or.inr (Or.inr hw.2.2.2)
  | minPercentage => exact Or.inr (Or.inr hw.2.2.2)

theorem freeES_total (cfg : SupCfg K) (es : FreeES K d) (L : Learner K d M) (ff : RuleFitness K d) (hes : es.Works cfg ff) (X : List (Point K d)) (y : List K) (hxy : y.length = X.length)
    (fb : Pairs K d) (gens : List (List (Pairs K d) × SelectDraw K)) (hg : ∀ g ∈ gens, g.2.Possible) (ρ : Rule K d M) (hρ : ρ.OfKind es.kind L ff X y) :
    ∃ ρ', esOptimize (freeES es ⟨some es.mutation.sigma, some es.kind⟩ L ff X y fb) gens ρ = .ok ρ' ∧ ρ'.OfKind es.kind L ff X y := by
  have hw' := ((worksWith_split (K := K) es.kind es.init es.mutation (fun _ => 0) (fun _ => (0, 0))).mp hes.kind).2
  have hch := fun e he z => freeChild_total es (worksCases hes.kind) hw' hes.constraint L ff X y hxy fb e he z
  have hsel : (freeES es ⟨some es.mutation.sigma, some es.kind⟩ L ff X y fb).SelectsMember := fun l z r h => es.selection.first_mem l z r h
  have hQ : ∀ e c, e.OfKind es.kind L ff X y → (freeES es ⟨some es.mutation.sigma, some es.kind⟩ L ff X y fb).IsChild (fun _ => True) e c → c.OfKind es.kind L ff X y := by
    rintro e c he ⟨z, _, hc, _⟩
    obtain ⟨c', e1, e2⟩ := hch e he.1 z
    have : freeChild es ⟨some es.mutation.sigma, some es.kind⟩ L ff X y fb e z = .ok c := hc
    rw [e1] at this; cases this
    exact e2
  obtain ⟨ρ', h'⟩ := esLoop_total_of (freeES es ⟨some es.mutation.sigma, some es.kind⟩ L ff X y fb) hsel (fun _ => True) SelectDraw.Possible (fun ρ => ρ.OfKind es.kind L ff X y)
    (fun e z he _ => by
      obtain ⟨c, e1, _⟩ := hch e he.1 z
      exact ⟨c, e1⟩)
    (fun l z hz hl hv => by
      obtain ⟨r, hr1, hr2⟩ := hv
      refine es.selection.first_ok l z hz (List.ne_nil_of_mem hr1) fun hroul => ⟨fun τ hτ => ?_, r, hr1, ?_⟩
      · obtain ⟨s, h1, h2⟩ := (hl τ hτ).fitness hxy
        refine ⟨s, h1, ?_⟩
        rcases h2 with h2 | ⟨e, k, b, sp, h2⟩
        · exact Or.inl h2.1
        · exact Or.inr ⟨_, h2, hes.fitness hroul _ _ _ _⟩
      · obtain ⟨s, h1, h2⟩ := (hl r hr1).fitness hxy
        have hr2' : validRule r = true := hr2
        rcases h2 with h2 | ⟨e, k, b, sp, h2⟩
        · rw [h2.2] at hr2'; cases hr2'
        · unfold ruleFitnessOf
          rw [h1]
          show s.fitness ≠ ⊥
          rw [h2]
          exact WithBot.coe_ne_bot) hes.delay hQ gens (fun g h => ⟨hg g h, fun _ _ => trivial⟩) ρ [] hρ
  exact ⟨ρ', h', esLoop_inv _ hsel (fun _ => True) _ hQ gens (fun _ _ _ _ => trivial) ρ [] hρ (by simp) ρ' h'⟩

/-- One call of the rule discovery. -/
theorem freeDiscover_total (cfg : SupCfg K) (es : FreeES K d) (L : Learner K d M) (ff : RuleFitness K d) (hes : es.Works cfg ff) (P : MixParams K) (X : List (Point K d)) (y : List K) (hX : X ≠ [])
    (hxy : y.length = X.length) (D : FreeDraws K d) (hD : D.Possible X.length) (elitist : Option (Indiv K)) (pool : List (Rule K d M)) (n : Nat)
    (hpool : ∀ ρ ∈ pool, ρ.OfKind es.kind L ff X y ∧ es.acceptance.accept y ρ = .ok true) (hel : ∀ σ : Indiv K, elitist = some σ → σ.genome.length = pool.length)
    (hnone : cfg.nInitial = 0 → elitist = none → pool = []) :
    ∃ rules, freeDiscover es L ff P filterAll D elitist pool X y n = .ok rules ∧ ∀ ρ ∈ rules, ρ.OfKind es.kind L ff X y ∧ es.acceptance.accept y ρ = .ok true := by
  obtain ⟨fb, hfb, _⟩ := estimateBounds_ok X hX
  obtain ⟨origins, ho⟩ := C99_available es.origin L P X hX y hxy pool
    (fun ρ hρ => ⟨(hpool ρ hρ).1.consistent hxy, (es.acceptance.accepts_of hes.acceptance L X y hxy ρ ((hpool ρ hρ).1.trained hxy) (hpool ρ hρ).2).1⟩) elitist hel
    (fun b hb => hes.origin.elim hnone fun h => absurd hb (h b)) n (D.origins n) (hD.origins n) D.uniform
  have hin := fun o => freeInitial_total es hes.kind hes.constraint L ff X y hxy fb o
  obtain ⟨initial, hi⟩ := mapM_total (freeInitial es L ff X y fb) (origins.zip ((List.range n).map D.inits)) fun o _ => by
    obtain ⟨ρ, h, _⟩ := hin o
    exact ⟨ρ, h⟩
  have hinit : ∀ ρ ∈ initial, ρ.OfKind es.kind L ff X y := by
    intro ρ hρ
    obtain ⟨o, _, h1⟩ := mem_of_mapM_ok _ _ _ hi ρ hρ
    obtain ⟨ρ', h2, h3⟩ := hin o
    rw [h1] at h2; cases h2
    exact h3
  let gens : Nat → List (List (Pairs K d) × SelectDraw K) := fun k => (List.range es.nIter).map fun g => ((List.range es.lmbda).map (D.children k g), D.selections k g)
  have hraw : ∀ p ∈ initial.zip ((List.range n).map gens), ∃ ρ,
      (esOptimize (freeES es ⟨some es.mutation.sigma, some es.kind⟩ L ff X y fb) p.2 p.1).map some = .ok (some ρ) ∧ ρ.OfKind es.kind L ff X y := by
    rintro ⟨ρ0, g⟩ hp
    obtain ⟨k, _, rfl⟩ := List.mem_map.mp (List.of_mem_zip hp).2
    obtain ⟨ρ, h1, h2⟩ := freeES_total cfg es L ff hes X y hxy fb (gens k) (fun g hg => by
      obtain ⟨j, _, rfl⟩ := List.mem_map.mp hg
      exact hD.selections k j) ρ0 (hinit ρ0 (List.of_mem_zip hp).1)
    exact ⟨ρ, by dsimp only; rw [h1]; rfl, h2⟩
  obtain ⟨raw, hr⟩ := mapM_total (fun p => (esOptimize (freeES es ⟨some es.mutation.sigma, some es.kind⟩ L ff X y fb) p.2 p.1).map some)
    (initial.zip ((List.range n).map gens)) fun p hp => by
      obtain ⟨ρ, a1, _⟩ := hraw p hp
      exact ⟨_, a1⟩
  have hrawmem : ∀ ρ, some ρ ∈ raw → ρ.OfKind es.kind L ff X y := by
    intro ρ hρ
    obtain ⟨p, hp1, hp2⟩ := mem_of_mapM_ok _ _ _ hr (some ρ) hρ
    obtain ⟨ρ', a1, a2⟩ := hraw p hp1
    rw [hp2] at a1
    simp only [Except.ok.injEq, Option.some.injEq] at a1
    subst a1
    exact a2
  obtain ⟨rules, hf⟩ := filterInvalid_total (es.acceptance.accept y) raw fun ρ hρ => es.acceptance.accept_total X y hxy ρ ((hrawmem ρ hρ).consistent hxy)
  refine ⟨rules, ?_, fun ρ hρ => ?_⟩
  · unfold freeDiscover
    rw [hfb]
    dsimp only
    rw [ho]
    dsimp only
    unfold discoverRules
    rw [hi]
    dsimp only
    rw [hr]
    exact hf
  · obtain ⟨b1, b2⟩ := filterInvalid_mem _ _ _ hf ρ hρ
    exact ⟨hrawmem ρ b1, b2⟩

theorem freeDiscover_length (es : FreeES K d) (L : Learner K d M) (ff : RuleFitness K d) (P : MixParams K) (filt : SubFilter K d M) (D : FreeDraws K d) (elitist : Option (Indiv K))
    (pool : List (Rule K d M)) (X : List (Point K d)) (y : List K) (n : Nat) (rules : List (Rule K d M)) (h : freeDiscover es L ff P filt D elitist pool X y n = .ok rules) : rules.length ≤ n := by
  unfold freeDiscover at h
  split at h
  · cases h
  · split at h
    · cases h
    · unfold discoverRules at h
      split at h
      · cases h
      · rename_i initial _
        split at h
        · cases h
        · rename_i raw hr
          have b1 := filterInvalid_length _ _ _ h
          have b2 := mapM_length _ _ _ hr
          have b3 : ∀ gens : Nat → List (List (Pairs K d) × SelectDraw K), (initial.zip ((List.range n).map gens)).length ≤ n := by simp
          exact b1.trans (b2.trans_le (b3 _))

theorem freeFit_eq (cfg : SupCfg K) (es : FreeES K d) (hk : WorksWith es.kind es.init es.mutation d) (D : Seed → List (Event K d M) → FreeDraws K d) (C : CompositionPart K d M) (P : MixParams K)
    (init : Seed → Nat → Nat → K) (L : Learner K d M) (ff : RuleFitness K d) (sf : Nat → SolFitness K) (entropy : Nat) (raw : RawData K d) (hc : raw.check = .ok (raw.X, raw.y)) (cl : Bool)
    (st0 : SupState K d M) : freeFit cfg es D C P init L ff sf entropy raw cl st0 = st0.fit cfg (freeComp es D C P init L ff sf) entropy raw cl := by
  unfold freeFit
  rw [hc]
  dsimp only
  rw [configure_eq, if_neg]
  rintro ⟨h | h, h'⟩ <;> rw [h] at hk <;> exact h' hk.2.2.2

/-- C170 (partial): for all settings of the evolution strategy that work, all working composition methods, all mixing models with a positive weight, all valid data, seeds and random numbers `fit`
completes; the pool has at most `n_initial_rules + n_iter * n_rules` rules, all of the matching type and as the acceptance demands; and the model predicts one value per sample, which is 0 where no rule
of the elitist matches and otherwise between the smallest and the largest prediction of its matching rules. Missing: the settings that `FreeES.Works` excludes, see the theorems that follow. -/
theorem C170_partial (cfg : SupCfg K) (hiter : 1 ≤ cfg.nIter) (hrules : 1 ≤ cfg.nRules) (hsize : 1 ≤ cfg.comp.populationSize) (raw : RawData K d)
    (hraw : raw.finite = true ∧ raw.X.length = raw.y.length ∧ raw.X ≠ []) (es : FreeES K d) (ff : RuleFitness K d) (hes : es.Works cfg ff) (D : Seed → List (Event K d M) → FreeDraws K d)
    (hD : ∀ seed hist, (D seed hist).Possible raw.X.length) (C : CompositionPart K d M) (sf : Nat → SolFitness K) (hC : C.Works sf (cfg.nInitial + cfg.nIter * cfg.nRules)) (P : MixParams K)
    (hP : 0 < P.weight) (hE : P.expCalc.Positive d) (init : Seed → Nat → Nat → K) (L : Learner K d M) (entropy : Nat) (cl : Bool) (st0 : SupState K d M)
    (hinit : cfg.nInitial = 0 ∨ st0.step < cfg.nIter) :
    let r := freeFit cfg es D C P init L ff sf entropy raw cl st0
    r.raised = none ∧ r.state.isError = false ∧ r.state.isFitted = true ∧ r.state.pool.length ≤ cfg.nInitial + cfg.nIter * cfg.nRules ∧
      (∀ ρ ∈ r.state.pool, ρ.kind = es.kind ∧ es.acceptance.Accepts L raw.X raw.y ρ) ∧
      ∃ σ : Solution K d M, r.state.elitist = some (.solution σ) ∧ σ.pool = r.state.pool ∧ σ.genome.length = σ.pool.length ∧
        ∀ Xq, Xq ≠ [] → ∃ out, r.state.predict (freeComp es D C P init L ff sf) Xq = .ok out ∧ out.length = Xq.length ∧
          ∀ x v, (x, v) ∈ Xq.zip out →
            ((∀ ρ ∈ compress σ.pool σ.genome, ρ.kind.call ρ.bounds x = false) → v = 0) ∧
            ((∃ ρ ∈ compress σ.pool σ.genome, ρ.kind.call ρ.bounds x = true) →
              ∀ a b, (∀ ρ ∈ compress σ.pool σ.genome, ρ.kind.call ρ.bounds x = true → ∀ u, ρ.LocalPrediction L x u → a ≤ u ∧ u ≤ b) → a ≤ v ∧ v ≤ b) := by
  have hc : raw.check = .ok (raw.X, raw.y) := by unfold RawData.check; rw [if_pos hraw]
  have hxy := hraw.2.1.symm
  have hN : cfg.nInitial + cfg.nIter * cfg.nRules = cfg.maxGenomeLength := by
    unfold SupCfg.maxGenomeLength
    rw [Nat.mul_comm cfg.nIter, Nat.add_comm]
  rw [hN] at hC
  have hacc : ∀ ρ : Rule K d M, ρ.OfKind es.kind L ff raw.X raw.y ∧ es.acceptance.accept raw.y ρ = .ok true → es.acceptance.Accepts L raw.X raw.y ρ :=
    fun ρ h => es.acceptance.accepts_of hes.acceptance L raw.X raw.y hxy ρ (h.1.trained hxy) h.2
  have hbd : (freeComp es D C P init L ff sf).Bounded := fun seed hist el pool X y n rules h => freeDiscover_length es L ff P filterAll (D seed hist) el pool X y n rules h
  have hnf : (freeComp es D C P init L ff sf).NoFailure cfg raw.X raw.y fun ρ => ρ.OfKind es.kind L ff raw.X raw.y ∧ es.acceptance.accept raw.y ρ = .ok true := by
    refine ⟨?_, ?_, fun seed hist pool _ hlen => C.total hC seed hist _ _ fun p hp g s hg h => runEval_values cfg (freeComp es D C P init L ff sf) _ _ pool p hp (hlen hbd) g hg s h⟩
    · intro seed hist el pool n _ hpool hel hnone
      exact freeDiscover_total cfg es L ff hes P raw.X raw.y hraw.2.2 hxy (D seed hist) (hD seed hist) el pool n hpool hel hnone
    · intro pool hpool g hg
      exact eval_total cfg _ rfl ff raw.X raw.y hxy hraw.2.2 pool (fun ρ hρ => ⟨(hpool ρ hρ).1.2, (hacc ρ (hpool ρ hρ)).1⟩) g hg
  obtain ⟨h1, h2, h3, h4, σ, h5, h6, h7⟩ := trained_result cfg (freeComp es D C P init L ff sf) (C.good hC)
    hbd hiter hrules hsize entropy raw hc cl st0 hinit _ hnf
  rw [freeFit_eq cfg es hes.kind D C P init L ff sf entropy raw hc cl st0]
  refine ⟨h1.1, h1.2, h2, ?_, fun ρ hρ => ⟨(h4 ρ hρ).1.1, hacc ρ (h4 ρ hρ)⟩, σ, h5, h6, h7, fun Xq hq => ?_⟩
  · rw [hN]
    exact h3
  · obtain ⟨out, h8, h9, h10⟩ := C17_convex L P hP hE σ h7
      (fun ρ hρ => by
        have hg := h4 ρ (by rw [← h6]; exact hρ)
        exact usable_of_fitted ρ raw.X (hg.1.consistent hxy) (hacc ρ hg).1) Xq
    refine ⟨out, ?_, h9, h10⟩
    unfold SupState.predict
    rw [h2, h1.2, h5]
    simp only [Bool.true_eq_false, if_false, if_neg hq, Bool.false_eq_true]
    exact h8

/-- C170 (refuted for incomplete constraints): with a `CombinedConstraint` that lacks one of its parts, as by default, every fit ends with the error model, whatever the other settings and the data. -/
theorem C170_constraint_refuted (cfg : SupCfg K) (hiter : 1 ≤ cfg.nIter) (raw : RawData K d) (hraw : raw.finite = true ∧ raw.X.length = raw.y.length ∧ raw.X ≠ []) (es : FreeES K d)
    (hk : WorksWith es.kind es.init es.mutation d) (r : Option K) (c : Option (Option (Pairs K d))) (hes : es.constraint = .combined r c) (hmiss : r = none ∨ c = none)
    (D : Seed → List (Event K d M) → FreeDraws K d) (hD : ∀ seed hist, (D seed hist).Possible raw.X.length) (C : CompositionPart K d M) (P : MixParams K) (init : Seed → Nat → Nat → K)
    (L : Learner K d M) (ff : RuleFitness K d) (sf : Nat → SolFitness K) (entropy : Nat) (cl : Bool) (st0 : SupState K d M) :
    let r := freeFit cfg es D C P init L ff sf entropy raw cl st0
    r.raised = none ∧ r.state.isError = true ∧ r.state.pool = [] := by
  have hc : raw.check = .ok (raw.X, raw.y) := by unfold RawData.check; rw [if_pos hraw]
  rw [freeFit_eq cfg es hk D C P init L ff sf entropy raw hc cl st0]
  have hap : ∀ fb b, es.constraint.apply fb es.kind b = .error .typeError := by
    intro fb b
    rw [hes]
    rcases hmiss with rfl | rfl
    · rfl
    · cases r <;> rfl
  obtain ⟨h1, h2, _, h4, _⟩ := fit_discovery_fails cfg (freeComp es D C P init L ff sf) entropy raw hc cl st0 hiter fun seed hist el pool n hn => by
    show ∃ e, freeDiscover es L ff P filterAll (D seed hist) el pool raw.X raw.y n = .error e
    unfold freeDiscover
    split
    · exact ⟨_, rfl⟩
    · rename_i fb _
      split
      · exact ⟨_, rfl⟩
      · rename_i origins ho
        obtain ⟨hlen, _⟩ := C99_origins es.origin L P filterAll raw.X raw.y pool el n ((D seed hist).origins n) ((hD seed hist).origins n) (D seed hist).uniform ((hD seed hist).uniform) origins ho
        obtain ⟨m, rfl⟩ := Nat.exists_eq_succ_of_ne_zero hn
        obtain ⟨o, os, rfl⟩ : ∃ o os, origins = o :: os := by
          cases origins with
          | nil => cases hlen
          | cons o os => exact ⟨o, os, rfl⟩
        have h0 : ∀ q : Point K d × Pairs K d, ∃ e, freeInitial es L ff raw.X raw.y fb q = .error e := by
          intro q
          unfold freeInitial placedRule
          split
          · exact ⟨_, rfl⟩
          · rw [hap]
            exact ⟨_, rfl⟩
        obtain ⟨e, he⟩ := h0 (o, (D seed hist).inits 0)
        refine ⟨e, ?_⟩
        unfold discoverRules
        have : ((o :: os).zip ((List.range (m + 1)).map (D seed hist).inits)).mapM (freeInitial es L ff raw.X raw.y fb) = .error e := by
          rw [List.range_succ_eq_map, List.map_cons, List.zip_cons_cons, List.mapM_cons, he]
          rfl
        rw [this]
  exact ⟨h1, h2, h4⟩

/-- The settings of `KindCfg` with everything else as by default. -/
def KindCfg.free (cfg : KindCfg K) : FreeES K d where
  nIter := cfg.nIter
  lmbda := cfg.lmbda
  operator := cfg.operator
  delay := cfg.delay
  origin := .matching cfg.useElitist
  kind := cfg.kind
  init := cfg.init
  mutation := cfg.mutation
  selection := .fittest
  constraint := .combined (some cfg.minRange) (some none)
  acceptance := .variance cfg.beta

theorem esGen_select {R Z S S' F : Type} [LinearOrder F] (P : ESParams R Z S F) (P' : ESParams R Z S' F) (h1 : P.operator = P'.operator) (h2 : P.delay = P'.delay) (h3 : P.child = P'.child)
    (h4 : P.valid = P'.valid) (h5 : P.fitness = P'.fitness) (zs : List Z) (s : S) (s' : S') (h6 : ∀ l, P.select l s = P'.select l s') (e : R) (w : List R) :
    esGen P zs s e w = esGen P' zs s' e w := by
  unfold esGen
  simp only [h1, h2, h3, h4, h5, h6]

theorem esLoop_select {R Z S S' F : Type} [LinearOrder F] (P : ESParams R Z S F) (P' : ESParams R Z S' F) (h1 : P.operator = P'.operator) (h2 : P.delay = P'.delay) (h3 : P.child = P'.child)
    (h4 : P.valid = P'.valid) (h5 : P.fitness = P'.fitness) (s' : S') (h6 : ∀ l s, P.select l s = P'.select l s') (gs : List (List Z × S)) (e : R) (w : List R) :
    esLoop P gs e w = esLoop P' (gs.map fun g => (g.1, s')) e w := by
  induction gs generalizing e w with
  | nil => rfl
  | cons g gs ih =>
    obtain ⟨zs, s⟩ := g
    rw [List.map_cons]
    unfold esLoop
    rw [esGen_select P P' h1 h2 h3 h4 h5 zs s s' (fun l => h6 l s) e w]
    cases esGen P' zs s' e w with
    | error er => rfl
    | ok out =>
      cases out with
      | stop r => rfl
      | next e' w' => exact ih e' w'

theorem mapM_zip_map {α β γ δ : Type} (f : α × β → Except PyErr δ) (g : α × γ → Except PyErr δ) (h : γ → β) (hfg : ∀ a c, f (a, h c) = g (a, c)) (l : List α) (m : List γ) :
    (l.zip (m.map h)).mapM f = (l.zip m).mapM g := by
  induction l generalizing m with
  | nil => rfl
  | cons a l ih =>
    cases m with
    | nil => rfl
    | cons c m => rw [List.map_cons, List.zip_cons_cons, List.zip_cons_cons, List.mapM_cons, List.mapM_cons, hfg, ih]

/-- With everything as by default, this is the rule discovery of C159 and C161. -/
theorem freeDiscover_default (cfg : KindCfg K) (L : Learner K d M) (ff : RuleFitness K d) (P : MixParams K) (filt : SubFilter K d M) (D : FreeDraws K d) (elitist : Option (Indiv K))
    (pool : List (Rule K d M)) (X : List (Point K d)) (y : List K) (n : Nat) :
    freeDiscover cfg.free L ff P filt D elitist pool X y n =
      kindDiscover cfg ⟨some cfg.mutation.sigma, some cfg.kind⟩ L ff (D.origins n) D.inits D.children elitist pool X y n := by
  unfold freeDiscover kindDiscover
  cases estimateBounds X with
  | error e => rfl
  | ok fb =>
    dsimp only
    have ho : originsOf (KindCfg.free (d := d) cfg).origin L P filt X y pool elitist n (D.origins n) D.uniform = matchingOrigins cfg.useElitist X pool elitist n (D.origins n) := rfl
    rw [ho]
    cases matchingOrigins cfg.useElitist X pool elitist n (D.origins n) with
    | error e => rfl
    | ok origins =>
      dsimp only
      have hi : freeInitial cfg.free L ff X y fb = kindInitial cfg L ff X y fb := rfl
      have hc : freeChild cfg.free ⟨some cfg.mutation.sigma, some cfg.kind⟩ L ff X y fb = kindChild cfg ⟨some cfg.mutation.sigma, some cfg.kind⟩ L ff X y fb := rfl
      unfold discoverRules
      rw [hi]
      cases (origins.zip ((List.range n).map D.inits)).mapM (kindInitial cfg L ff X y fb) with
      | error e => rfl
      | ok initial =>
        dsimp only
        have key := mapM_zip_map (fun p : Rule K d M × List (List (Pairs K d) × Unit) =>
            (esOptimize (kindES cfg ⟨some cfg.mutation.sigma, some cfg.kind⟩ L ff X y fb) p.2 p.1).map some)
          (fun p : Rule K d M × List (List (Pairs K d) × SelectDraw K) => (esOptimize (freeES cfg.free ⟨some cfg.mutation.sigma, some cfg.kind⟩ L ff X y fb) p.2 p.1).map some)
          (fun gens => gens.map fun g => (g.1, ()))
          (fun ρ gens => by
            dsimp only
            unfold esOptimize
            rw [esLoop_select (freeES cfg.free ⟨some cfg.mutation.sigma, some cfg.kind⟩ L ff X y fb) (kindES cfg ⟨some cfg.mutation.sigma, some cfg.kind⟩ L ff X y fb) rfl rfl hc rfl rfl ()
              (fun _ _ => rfl) gens ρ []])
          initial ((List.range n).map fun k => (List.range cfg.nIter).map fun g => ((List.range cfg.lmbda).map (D.children k g), D.selections k g))
        rw [List.map_map] at key
        simp only [Function.comp_def, List.map_map] at key
        rw [key]
        rfl

/-! ### C171: the pool obeys the constraint and the acceptance -/

/-- Dimension `i` of the bounds a clip is given, or of the range of the training data. -/
def Spec.ClipEnds (X : List (Point K d)) (o : Option (Pairs K d)) (i : Fin d) (lo hi : K) : Prop :=
  match o with
  | some B => B i = (lo, hi)
  | none => (∃ x ∈ X, x i = lo) ∧ (∃ x ∈ X, x i = hi) ∧ ∀ x ∈ X, lo ≤ x i ∧ x i ≤ hi

/-- What the constraints promise about an interval: `MinRange(r)` at least the width `r` in each dimension; `Clip` ends inside the bounds; the combination both. -/
def Spec.Obeys (X : List (Point K d)) (c : ConstraintCfg K d) (b : Pairs K d) : Prop :=
  (∀ r, c = .minRange r ∨ (∃ o, c = .combined (some r) o) → ∀ i, r ≤ (b i).2 - (b i).1) ∧
    ∀ o, c = .clip o ∨ (∃ r, c = .combined r (some o)) → ∀ i lo hi, Spec.ClipEnds X o i lo hi → lo ≤ (b i).1 ∧ (b i).1 ≤ (b i).2 ∧ (b i).2 ≤ hi

/-- The same, except that the combination promises the width only for the dimensions that touch neither of the bounds. -/
def Spec.MostlyObeys (X : List (Point K d)) (c : ConstraintCfg K d) (b : Pairs K d) : Prop :=
  (∀ r, c = .minRange r → ∀ i, r ≤ (b i).2 - (b i).1) ∧
    (∀ o, c = .clip o ∨ (∃ r, c = .combined r (some o)) → ∀ i lo hi, Spec.ClipEnds X o i lo hi → lo ≤ (b i).1 ∧ (b i).1 ≤ (b i).2 ∧ (b i).2 ≤ hi) ∧
    ∀ r o, c = .combined (some r) (some o) → ∀ i lo hi, Spec.ClipEnds X o i lo hi → lo < (b i).1 → (b i).2 < hi → r ≤ (b i).2 - (b i).1

/-- The bounds given to a clip, if any, are in order. -/
def ConstraintCfg.BoxOrdered (c : ConstraintCfg K d) : Prop := ∀ B, c = .clip (some B) ∨ (∃ r, c = .combined r (some (some B))) → Ordered B

/-- The bounds of the rule are constrained ones, if it is an ordered rule. -/
def Constrained (c : ConstraintCfg K d) (fb : Pairs K d) (ρ : Rule K d M) : Prop := ρ.kind = .ordered → ∃ b, Ordered b ∧ c.apply fb .ordered b = .ok ρ.bounds

theorem minRange_width (r : K) (b : Pairs K d) (hb : Ordered b) (i : Fin d) : r ≤ (Kind.ordered.minRange r b i).2 - (Kind.ordered.minRange r b i).1 := by
  by_cases hr : 0 < r
  · exact C04_minRange_partial r b hb i hr
  · change r ≤ (OrderedBound.minRange r b i).2 - (OrderedBound.minRange r b i).1
    unfold OrderedBound.minRange
    rw [if_neg hr]
    have := hb i
    linarith [not_lt.mp hr]

theorem minRange_ordered (r : K) (b : Pairs K d) (hb : Ordered b) : Ordered (Kind.ordered.minRange r b) := by
  intro i
  by_cases hr : 0 < r
  · have := minRange_width r b hb i
    linarith
  · change (OrderedBound.minRange r b i).1 ≤ (OrderedBound.minRange r b i).2
    unfold OrderedBound.minRange
    rw [if_neg hr]
    exact hb i

theorem clip_inside (B b : Pairs K d) (hb : Ordered b) (i : Fin d) (hB : (B i).1 ≤ (B i).2) :
    (B i).1 ≤ (Kind.ordered.clip B b i).1 ∧ (Kind.ordered.clip B b i).1 ≤ (Kind.ordered.clip B b i).2 ∧ (Kind.ordered.clip B b i).2 ≤ (B i).2 := by
  change (B i).1 ≤ npClip (B i).1 (B i).2 (b i).1 ∧ npClip (B i).1 (B i).2 (b i).1 ≤ npClip (B i).1 (B i).2 (b i).2 ∧ npClip (B i).1 (B i).2 (b i).2 ≤ (B i).2
  unfold npClip
  exact ⟨le_min (le_max_right _ _) hB, min_le_min (max_le_max (hb i) (le_refl _)) (le_refl _), min_le_right _ _⟩

theorem clipEnds_eq {X : List (Point K d)} {fb : Pairs K d} (hfb : estimateBounds X = .ok fb) {o : Option (Pairs K d)} {i : Fin d} {lo hi : K} (h : Spec.ClipEnds X o i lo hi) :
    (o.getD fb) i = (lo, hi) ∧ (o = none → lo ≤ hi) := by
  cases o with
  | some B => exact ⟨h, nofun⟩
  | none =>
    obtain ⟨⟨x, hx, h1⟩, ⟨x', hx', h2⟩, h3⟩ := h
    obtain ⟨fb', e, hin, hends⟩ := (C71_bounds X).2 (List.ne_nil_of_mem hx)
    rw [hfb] at e; cases e
    obtain ⟨⟨u, hu, e1⟩, v, hv, e2⟩ := hends i
    have a1 : (fb i).1 = lo := le_antisymm (h1 ▸ (hin x hx i).1) (e1 ▸ (h3 u hu).1)
    have a2 : (fb i).2 = hi := le_antisymm (e2 ▸ (h3 v hv).2) (h2 ▸ (hin x' hx' i).2)
    refine ⟨Prod.ext a1 a2, fun _ => ?_⟩
    rw [← h1]; exact (h3 x hx).2

theorem Constrained.obeys {c : ConstraintCfg K d} (hc : c.BoxOrdered) {X : List (Point K d)} {fb : Pairs K d} (hfb : estimateBounds X = .ok fb) {ρ : Rule K d M} (h : Constrained c fb ρ)
    (hk : ρ.kind = .ordered) : Spec.MostlyObeys X c ρ.bounds := by
  obtain ⟨b, hb, e⟩ := h hk
  have hclip : ∀ o, (∀ B, o = some B → Ordered B) → ∀ b', Ordered b' → ∀ i lo hi, Spec.ClipEnds X o i lo hi →
      lo ≤ (Kind.ordered.clip (o.getD fb) b' i).1 ∧ (Kind.ordered.clip (o.getD fb) b' i).1 ≤ (Kind.ordered.clip (o.getD fb) b' i).2 ∧ (Kind.ordered.clip (o.getD fb) b' i).2 ≤ hi := by
    intro o ho b' hb' i lo hi hends
    obtain ⟨e1, e2⟩ := clipEnds_eq hfb hends
    have hle : lo ≤ hi := by
      cases o with
      | none => exact e2 rfl
      | some B =>
        have h1 := ho B rfl i
        change B i = (lo, hi) at e1
        rw [e1] at h1; exact h1
    have := clip_inside (o.getD fb) b' hb' i (by rw [e1]; exact hle)
    rw [e1] at this
    exact this
  refine ⟨?_, ?_, ?_⟩
  · rintro r rfl i
    injection e with e
    rw [← e]; exact minRange_width r b hb i
  · rintro o (rfl | ⟨r, rfl⟩) i lo hi hends
    · injection e with e
      rw [← e]
      exact hclip o (fun B hB => hc B (Or.inl (by rw [hB]))) b hb i lo hi hends
    · cases r with
      | none => cases e
      | some r =>
        injection e with e
        rw [← e]
        exact hclip o (fun B hB => hc B (Or.inr ⟨some r, by rw [hB]⟩)) _ (minRange_ordered r b hb) i lo hi hends
  · rintro r o rfl i lo hi hends h1 h2
    injection e with e
    obtain ⟨e1, _⟩ := clipEnds_eq hfb hends
    have := constrain_width r (o.getD fb) b hb i
    unfold constrain at this
    rw [e] at this
    rw [e1] at this
    exact this h1 h2

theorem constrained_of_fit (L : Learner K d M) (ff : RuleFitness K d) (X : List (Point K d)) (y : List K) (c : ConstraintCfg K d) (fb : Pairs K d) (ρ ρ' : Rule K d M) (h : Constrained c fb ρ)
    (hf : ρ.fit L ff X y = .ok ρ') : Constrained c fb ρ' := by
  obtain ⟨h1, h2, _⟩ := fit_sameShape L ff X y ρ ρ' hf
  intro hk
  obtain ⟨b, hb, e⟩ := h (h1.symm.trans hk)
  exact ⟨b, hb, by rw [h2]; exact e⟩

theorem initWith_sorted (i : InitCfg) (m : Point K d) (z b : Pairs K d) (hz : ∀ σ, i = .halfnorm σ → ∀ j, 0 ≤ (z j).1 ∧ 0 ≤ (z j).2) (h : initWith i .ordered m z = .ok b) : Ordered b := by
  cases i with
  | mean =>
    injection h with h
    rw [← h]; exact meanInit_ordered m
  | normal σ =>
    change ((broadcastTo σ d).bind fun _ => Except.ok (normalInit .ordered z)) = .ok b at h
    cases hbr : broadcastTo σ d with
    | error e => rw [hbr] at h; cases h
    | ok u =>
      rw [hbr] at h
      injection h with h
      rw [← h]
      exact fun i => le_trans (min_le_left _ _) (le_max_left _ _)
  | halfnorm σ =>
    change ((broadcastTo σ d).bind fun _ => halfnormInit .ordered m z) = .ok b at h
    cases hbr : broadcastTo σ d with
    | error e => rw [hbr] at h; cases h
    | ok u =>
      rw [hbr] at h
      injection h with h
      rw [← h]
      intro j
      have := hz σ rfl j
      dsimp only
      linarith [this.1, this.2]

/-- What holds for the initial rules and is inherited by fitted children holds for all rules that are returned, and all of them are accepted. -/
theorem freeDiscover_inv (es : FreeES K d) (L : Learner K d M) (ff : RuleFitness K d) (P : MixParams K) (filt : SubFilter K d M) (D : FreeDraws K d) (elitist : Option (Indiv K))
    (pool : List (Rule K d M)) (X : List (Point K d)) (y : List K) (n : Nat) (rules : List (Rule K d M)) (h : freeDiscover es L ff P filt D elitist pool X y n = .ok rules) (fb : Pairs K d)
    (hfb : estimateBounds X = .ok fb) (Q : Rule K d M → Prop) (hinit : ∀ o k ρ, freeInitial es L ff X y fb (o, D.inits k) = .ok ρ → Q ρ)
    (hchild : ∀ ρ z c, Q ρ → freeChild es ⟨some es.mutation.sigma, some es.kind⟩ L ff X y fb ρ z = .ok c → Q c) :
    ∀ ρ ∈ rules, Q ρ ∧ es.acceptance.accept y ρ = .ok true := by
  unfold freeDiscover at h
  rw [hfb] at h
  dsimp only at h
  split at h
  · cases h
  · rename_i origins _
    unfold discoverRules at h
    split at h
    · cases h
    · rename_i initial hi
      split at h
      · cases h
      · rename_i raw ho
        intro ρ hρ
        obtain ⟨h1, hacc⟩ := filterInvalid_mem _ raw rules h ρ hρ
        refine ⟨?_, hacc⟩
        obtain ⟨p, hp1, hp2⟩ := mem_of_mapM_ok _ _ _ ho (some ρ) h1
        have hp3 := (List.of_mem_zip (show (p.1, p.2) ∈ initial.zip _ from hp1)).1
        obtain ⟨o, ho1, ho2⟩ := mem_of_mapM_ok _ _ _ hi p.1 hp3
        have hq : Q p.1 := by
          obtain ⟨k, _, hk⟩ := List.mem_map.mp (List.of_mem_zip (show (o.1, o.2) ∈ origins.zip _ from ho1)).2
          exact hinit o.1 k p.1 (by rw [hk]; exact ho2)
        beta_reduce at hp2
        cases he : esOptimize (freeES es ⟨some es.mutation.sigma, some es.kind⟩ L ff X y fb) p.2 p.1 with
        | error e => rw [he] at hp2; cases hp2
        | ok τ =>
          rw [he] at hp2
          change Except.ok (some τ) = Except.ok (some ρ) at hp2
          injection hp2 with hp2
          injection hp2 with hp2
          rw [← hp2]
          refine esLoop_inv (freeES es ⟨some es.mutation.sigma, some es.kind⟩ L ff X y fb) (fun l z r h => es.selection.first_mem l z r h) (fun _ => True) Q ?_ p.2
            (fun _ _ _ _ => trivial) p.1 [] hq (by simp) τ he
          rintro e c hQe ⟨z, _, hc, _⟩
          exact hchild e z c hQe hc

/-- Half-normal draws are not negative. -/
def FreeDraws.HalfnormOk (D : FreeDraws K d) (es : FreeES K d) : Prop := ∀ σ, es.init = .halfnorm σ → ∀ k i, 0 ≤ (D.inits k i).1 ∧ 0 ≤ (D.inits k i).2

/-- C171 (partial): after every fit (completed, failed or aborted) with all settings of the evolution strategy, every composition method and mixing model and all random numbers, every rule of the pool
has the configured matching type and is as the acceptance demands; and if it is an ordered rule, it obeys the constraint. Missing: with `CombinedConstraint` the minimum range of dimensions that end at
one of the bounds, for which it is false, see `C171_refuted`. -/
theorem C171_partial (cfg : SupCfg K) (es : FreeES K d) (hacc : es.acceptance.Usable) (hbox : es.constraint.BoxOrdered) (D : Seed → List (Event K d M) → FreeDraws K d)
    (hD : ∀ seed hist, (D seed hist).HalfnormOk es) (C : CompositionPart K d M) (P : MixParams K) (init : Seed → Nat → Nat → K) (L : Learner K d M) (ff : RuleFitness K d)
    (sf : Nat → SolFitness K) (entropy : Nat) (raw : RawData K d) (hraw : raw.check = .ok (raw.X, raw.y)) (cl : Bool) (st0 : SupState K d M) :
    ∀ ρ ∈ (freeFit cfg es D C P init L ff sf entropy raw cl st0).state.pool, ρ.kind = es.kind ∧ es.acceptance.Accepts L raw.X raw.y ρ ∧
      (es.kind = .ordered → Spec.MostlyObeys raw.X es.constraint ρ.bounds) := by
  obtain ⟨fb, hfb, _⟩ := estimateBounds_ok raw.X (check_ok raw _ _ hraw).2.2.2.1
  have hxy := check_lengths raw hraw
  intro ρ hρ
  unfold freeFit at hρ
  rw [hraw] at hρ
  dsimp only at hρ
  split at hρ
  · cases hρ
  · have key := C30_run cfg _ entropy raw hraw cl st0
      (fun ρ => (ρ.kind = es.kind ∧ ρ.TrainedOn L raw.X raw.y ∧ Constrained es.constraint fb ρ) ∧ es.acceptance.accept raw.y ρ = .ok true) ?_ ρ hρ
    · obtain ⟨⟨h1, h2, h3⟩, h4⟩ := key
      exact ⟨h1, es.acceptance.accepts_of hacc L raw.X raw.y hxy ρ h2 h4, fun hk => h3.obeys hbox hfb (h1.trans hk)⟩
    · intro seed hist el pool n rules h
      refine freeDiscover_inv es L ff P filterAll (D seed hist) el pool raw.X raw.y n rules h fb hfb _ ?_ ?_
      · intro o k τ hτ
        unfold freeInitial placedRule at hτ
        split at hτ
        · cases hτ
        · rename_i b hb
          split at hτ
          · cases hτ
          · rename_i b' hb'
            refine ⟨(fit_sameShape L ff _ _ _ _ hτ).1, trainedOn_of_fit L ff _ _ hxy _ _ rfl hτ, constrained_of_fit L ff _ _ _ fb _ _ (fun hk => ?_) hτ⟩
            change es.kind = .ordered at hk
            rw [hk] at hb hb'
            exact ⟨b, initWith_sorted es.init o _ b (fun σ hσ j => hD seed hist σ hσ k j) hb, hb'⟩
      · rintro τ z c ⟨hk1, _, _⟩ hc
        unfold freeChild movedRule at hc
        split at hc
        · cases hc
        · rename_i b hb
          split at hc
          · cases hc
          · rename_i b' hb'
            refine ⟨(fit_sameShape L ff _ _ _ _ hc).1.trans hk1, trainedOn_of_fit L ff _ _ hxy _ _ rfl hc, constrained_of_fit L ff _ _ _ fb _ _ (fun hk => ?_) hc⟩
            change τ.kind = .ordered at hk
            rw [hk] at hb'
            rw [hk1] at hk
            rw [hk] at hb
            exact ⟨b, callMutation_sorted es.mutation z _ b hb, hb'⟩

/-- C170 (refuted for squared-error origins with initial rules): unless all initial rules are rejected, `fit` ends with the error model, whatever the other settings. -/
theorem C170_initial_refuted (cfg : SupCfg K) (hiter : 1 ≤ cfg.nIter) (hrules : 1 ≤ cfg.nRules) (hinit : 0 < cfg.nInitial) (raw : RawData K d)
    (hraw : raw.finite = true ∧ raw.X.length = raw.y.length ∧ raw.X ≠ []) (es : FreeES K d) (hk : WorksWith es.kind es.init es.mutation d) (b : Bool) (ho : es.origin = .squaredError b)
    (D : Seed → List (Event K d M) → FreeDraws K d) (C : CompositionPart K d M) (P : MixParams K) (init : Seed → Nat → Nat → K) (L : Learner K d M) (ff : RuleFitness K d) (sf : Nat → SolFitness K)
    (entropy : Nat) (cl : Bool) (st0 : SupState K d M) (seed : Seed) (hseed : (discoverySeeds entropy cfg.nIter)[st0.step]? = some seed) (rules : List (Rule K d M)) (hne : rules ≠ [])
    (hdisc : freeDiscover es L ff P filterAll (D seed []) none [] raw.X raw.y cfg.nInitial = .ok rules) :
    let r := freeFit cfg es D C P init L ff sf entropy raw cl st0
    r.raised = none ∧ r.state.isError = true ∧ r.state.isFitted = true := by
  have hc : raw.check = .ok (raw.X, raw.y) := by unfold RawData.check; rw [if_pos hraw]
  rw [freeFit_eq cfg es hk D C P init L ff sf entropy raw hc cl st0]
  obtain ⟨fb, hfb, _⟩ := estimateBounds_ok raw.X hraw.2.2
  refine initial_rules_fail cfg (freeComp es D C P init L ff sf) entropy raw hraw hinit hiter hrules cl st0 seed hseed rules hdisc fun seed' hist => ⟨.attributeError, ?_⟩
  show freeDiscover es L ff P filterAll (D seed' hist) none rules raw.X raw.y cfg.nRules = _
  unfold freeDiscover
  rw [hfb]
  dsimp only
  unfold originsOf
  rw [ho]
  dsimp only
  rw [show (Option.map _ (none : Option (Indiv K)) : Option (Solution K d M)) = none from rfl, C37_refuted L P filterAll b raw.X raw.y rules hne]

/-! ### Examples and counterexamples -/

/-- The settings of the examples: two generations with one child each. -/
def freeExample (sel : SelectCfg) (c : ConstraintCfg ℚ 1) (a : AcceptCfg ℚ) (o : OriginStrategy) : FreeES ℚ 1 where
  nIter := 2
  lmbda := 1
  operator := .comma
  delay := 1
  origin := o
  kind := .ordered
  init := .mean
  mutation := ⟨.normal, .scalar, false⟩
  selection := sel
  constraint := c
  acceptance := a

/-- The first possible origins, children moved by `z`, and the first possible selections. -/
def freeExampleDraws (z : ℚ × ℚ) : FreeDraws ℚ 1 where
  origins := fun n => firstPossible n
  uniform := fun _ _ => 0
  inits := fun _ _ => (0, 0)
  children := fun _ _ _ _ => z
  selections := fun _ _ => ⟨0, fun _ => 0⟩

theorem freeExampleDraws_possible (z : ℚ × ℚ) (N : Nat) (hN : N ≠ 0) : (freeExampleDraws z).Possible N :=
  ⟨fun n => firstPossible_draws N n hN, fun _ _ => ⟨le_refl _, zero_le_one⟩, fun _ _ => ⟨⟨le_refl _, zero_lt_one⟩, fun _ h => h⟩⟩

/-- Three rules: the first two are not dominated, the third is dominated by the second; the hypotheses of `C39_rules_partial` hold for the first two. -/
example : ∀ ρ ∈ [fittedRule 0 2 5 2 2, fittedRule 0 1 5 1 2], ∀ τ ∈ [fittedRule 0 2 5 2 2, fittedRule 0 1 5 1 2, fittedRule 1 1 5 3 1], ∀ s t, ρ.st = some s → τ.st = some t →
    ¬ (t.error < s.error ∧ ρ.kind.volume ρ.bounds < τ.kind.volume τ.bounds) := by
  intro ρ hρ τ hτ s t hs ht
  simp only [List.mem_cons, List.not_mem_nil, or_false] at hρ hτ
  rcases hρ with rfl | rfl <;> rcases hτ with rfl | rfl | rfl <;> injection hs with hs <;> injection ht with ht <;> subst hs <;> subst ht <;> decide +kernel

/-- All selections, five constraints, both acceptances and all origins meet the hypotheses of `C170_partial` and of `C171_partial`, with a positive rule fitness. -/
example (sel : SelectCfg) (c : ConstraintCfg ℚ 1)
    (hc : c ∈ [.minRange (1 / 10), .clip none, .clip (some fun _ => (0, 4)), .combined (some (1 / 10)) (some none), .combined (some (1 / 10)) (some (some fun _ => (0, 4)))])
    (a : AcceptCfg ℚ) (ha : a ∈ [.maxError (1 / 100), .variance 2]) (o : OriginStrategy) :
    (freeExample sel c a o).Works smallCfg (fun e _ _ _ => 1 / (1 + e ^ 2)) ∧ c.BoxOrdered ∧ ∀ z, (freeExampleDraws z).HalfnormOk (freeExample sel c a o) := by
  refine ⟨⟨nofun, by simp [WorksWith, freeExample, InitCfg.ForIntervals, Sigma.Scales], ?_, ?_, Or.inl rfl, fun _ e _ _ _ => by positivity⟩, ?_, fun z σ h => nomatch h⟩
  · simp only [List.mem_cons, List.not_mem_nil, or_false] at hc
    rcases hc with rfl | rfl | rfl | rfl | rfl <;> simp [freeExample, ConstraintCfg.Complete]
  · simp only [List.mem_cons, List.not_mem_nil, or_false] at ha
    rcases ha with rfl | rfl <;> simp [freeExample, AcceptCfg.Usable]
  · simp only [List.mem_cons, List.not_mem_nil, or_false] at hc
    rintro B hB i
    rcases hc with rfl | rfl | rfl | rfl | rfl
    · rcases hB with h | ⟨_, h⟩ <;> cases h
    · rcases hB with h | ⟨_, h⟩ <;> cases h
    · rcases hB with h | ⟨_, h⟩
      · injection h with h; injection h with h; rw [← h]; norm_num
      · cases h
    · rcases hB with h | ⟨_, h⟩ <;> cases h
    · rcases hB with h | ⟨_, h⟩
      · cases h
      · injection h with _ h; injection h with h; injection h with h; rw [← h]; norm_num

/-- The model of the examples, trained on three samples. -/
def freeExampleFit (es : FreeES ℚ 1) (z : ℚ × ℚ) (ff : RuleFitness ℚ 1) : FitResult ℚ 1 ℚ :=
  freeFit smallCfg es (fun _ _ => freeExampleDraws z) (.ga smallGA (firstDraws 2 1 (1 / 2) : RunDraws ℚ 1 ℚ).ga) ⟨.plain, 2⟩ (fun _ _ _ => 0) meanLearner ff (fun _ _ _ c => c) 7
    ⟨[![0], ![1], ![5]], [1, 3, 7], true⟩ false {}

/-- The pools of three runs: with `MinRange(1)` the intervals leave the range of the data; with `Clip` of given bounds they stay inside these; with both the width may be less than 1. -/
example :
    (freeExampleFit (freeExample .nondominated (.minRange 1) (.maxError 1) .uniformSamples) (0, 0) negErr).state.pool.map (fun ρ => ρ.bounds 0) = [(-1 / 2, 1 / 2), (-1 / 2, 1 / 2)] ∧
      (freeExampleFit (freeExample .random (.clip (some fun _ => (-1 / 4, 4))) (.maxError 1) .uniformSamples) (-1, 1) negErr).state.pool.map (fun ρ => ρ.bounds 0) = [(-1 / 4, 2), (-1 / 4, 2)] ∧
      (freeExampleFit (freeExample .roulette (.combined (some 1) (some none)) (.variance 1) .uniformSamples) (0, -1 / 2) fun e _ _ _ => 1 / (1 + e ^ 2)).state.pool.map (fun ρ => ρ.bounds 0) =
        [(0, 1 / 2), (0, 1 / 2)] := by
  decide +kernel

/-- C171 (refuted): a rule found with `CombinedConstraint(MinRange(1), Clip())` at the edge of the data is only half as wide, so it does not obey the constraint. -/
theorem C171_refuted :
    let es := freeExample .fittest (.combined (some 1) (some none)) (.variance 1) .uniformSamples
    let r := freeExampleFit es (0, -1 / 2) negErr
    r.raised = none ∧ r.state.isError = false ∧ ∃ ρ ∈ r.state.pool, ρ.kind = .ordered ∧ ¬ Spec.Obeys [![0], ![1], ![5]] es.constraint ρ.bounds := by
  have h : (freeExampleFit (freeExample .fittest (.combined (some 1) (some none)) (.variance 1) .uniformSamples) (0, -1 / 2) negErr).raised = none ∧
      (freeExampleFit (freeExample .fittest (.combined (some 1) (some none)) (.variance 1) .uniformSamples) (0, -1 / 2) negErr).state.isError = false ∧
      ∃ ρ ∈ (freeExampleFit (freeExample .fittest (.combined (some 1) (some none)) (.variance 1) .uniformSamples) (0, -1 / 2) negErr).state.pool,
        ρ.kind = .ordered ∧ (ρ.bounds 0).2 - (ρ.bounds 0).1 = 1 / 2 := by
    decide +kernel
  obtain ⟨h1, h2, ρ, h3, h4, h5⟩ := h
  refine ⟨h1, h2, ρ, h3, h4, fun hobey => ?_⟩
  have := hobey.1 1 (Or.inr ⟨_, rfl⟩) 0
  rw [h5] at this
  norm_num at this

/-- C170 (refuted for the roulette wheel): with the default constraint and the volume as rule fitness (`VolumeEmary(alpha=0)`) a child that is moved out of the data is cut down to the smallest sample;
its fitness is 0, the selection returns nothing, and `fit` ends with the error model. With the fittest rule instead, the same run completes. -/
theorem C170_roulette_refuted :
    let ff : RuleFitness ℚ 1 := fun _ k b sp => k.volume b / ((sp 0).2 - (sp 0).1) * 100
    let es := fun sel => freeExample sel (.combined (some (1 / 1000000)) (some none)) (.variance 2) (.matching true)
    (freeExampleFit (es .roulette) (-2, -1) ff).raised = none ∧ (freeExampleFit (es .roulette) (-2, -1) ff).state.isError = true ∧
      (freeExampleFit (es .fittest) (-2, -1) ff).state.isError = false := by
  decide +kernel

/-- Example: settings that meet the hypotheses of `C170_constraint_refuted`. -/
example : WorksWith (freeExample .fittest (.combined none none) (.variance 2) .uniformSamples).kind .mean ⟨.normal, .scalar, false⟩ 1 ∧ (freeExampleDraws (0, 0)).Possible 3 ∧
    (freeExampleFit (freeExample .fittest (.combined none none) (.variance 2) .uniformSamples) (0, 0) negErr).state.isError = true :=
  ⟨by simp [WorksWith, freeExample, InitCfg.ForIntervals, Sigma.Scales], freeExampleDraws_possible _ 3 (by decide), by decide +kernel⟩

end Suprb
