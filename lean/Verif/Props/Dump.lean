import Verif.Model.Dump
import Verif.Props.Json
import Verif.Props.Fit

/-!
# C56, C59: saved models
-/

set_option autoImplicit false
set_option linter.unusedSectionVars false

namespace Suprb

open Spec Json

variable {K : Type} [Field K] [LinearOrder K] [IsStrictOrderedRing K] {d : Nat}

/-! ## C59: which models can be saved -/

/-- A fitted model as left by a completed `fit`: the elitist has been evaluated and its genome fits its pool. -/
structure SavableState (st : SupState K d (LinModel K d)) (σ : Solution K d (LinModel K d)) : Prop where
  elitist : st.elitist = some (.solution σ)
  length : σ.genome.length = σ.pool.length
  evaluated : σ.st.isSome = true
  ready : ∀ ρ ∈ compress σ.pool σ.genome, ρ.Ready
  nonempty : compress σ.pool σ.genome ≠ []

/-- What is saved of a fitted rule. -/
def ruleData (ρ : Rule K d (LinModel K d)) (r : RuleJson K d) : Prop :=
  ∃ s m, ρ.st = some s ∧ ρ.model = some m ∧ r = ⟨s.error, s.experience, ρ.bounds, s.isFitted, m.coef, m.intercept⟩

theorem ruleToJson_ok (ρ : Rule K d (LinModel K d)) (r : RuleJson K d) : ruleToJson ρ = .ok r ↔ ruleData ρ r := by
  unfold ruleToJson ruleData
  cases ρ.st with
  | none => simp
  | some s =>
    cases ρ.model with
    | none => simp
    | some m =>
      constructor
      · intro h
        cases h
        exact ⟨s, m, rfl, rfl, rfl⟩
      · rintro ⟨s', m', h1, h2, rfl⟩
        cases h1
        cases h2
        rfl

/-- **C59 (partial).** Models whose elitist has been evaluated and selects at least one rule, all selected rules being fitted, can be saved; the saved rules are exactly the selected
ones, in order, and the model predicts as before.
Missing (refuted below): models without rules, and loaded models. -/
theorem C59_dump_partial (est : Est K d) (σ : Solution K d (LinModel K d)) (h : SavableState est.state σ) :
    ∃ saved est', dump est = .ok (saved, est') ∧ saved.config = saveConfig est.params ∧
      List.Forall₂ ruleData (compress σ.pool σ.genome) saved.pool ∧
      ∀ (L : Learner K d (LinModel K d)) (X : List (Point K d)), est'.predict L X = est.predict L X := by
  obtain ⟨τ, h1, h2, h3, _, h4⟩ := C25_cleanup σ h.length
  have hsub : σ.subpopulation = .ok (compress σ.pool σ.genome) := by unfold Solution.subpopulation; rw [if_pos h.length]
  rw [hsub] at h2
  have hpool : τ.pool = compress σ.pool σ.genome := by injection h2
  have hst : τ.st = σ.st := by
    unfold cleanup at h1
    rw [hsub] at h1
    cases h1
    rfl
  obtain ⟨s, hs⟩ := Option.isSome_iff_exists.mp h.evaluated
  obtain ⟨pool, hp⟩ := mapM_total ruleToJson τ.pool (by
    rw [hpool]
    intro ρ hρ
    obtain ⟨ha, hb⟩ := h.ready ρ hρ
    obtain ⟨s, hs⟩ := Option.isSome_iff_exists.mp ha
    obtain ⟨m, hm⟩ := Option.isSome_iff_exists.mp hb
    exact ⟨_, (ruleToJson_ok ρ _).mpr ⟨s, m, hs, hm, rfl⟩⟩)
  have hall : List.Forall₂ ruleData τ.pool pool := by
    have := (mapM_ok_iff ruleToJson τ.pool pool).mp hp
    exact this.imp fun ρ r hr => (ruleToJson_ok ρ r).mp hr
  have hne : τ.pool ≠ [] := by rw [hpool]; exact h.nonempty
  have htry : tryCleanup est.state = .ok { est.state with elitist := some (.solution τ), pool := τ.pool, cleaned := true } := by
    unfold tryCleanup
    rw [h.elitist]
    dsimp only
    rw [h1]
  have hel : saveElitist ({ est.state with elitist := some (.solution τ), pool := τ.pool, cleaned := true } : SupState K d (LinModel K d)) = .ok ((s.complexity : K), s.error, s.fitness) := by
    unfold saveElitist
    dsimp only
    rw [hst, hs]
  cases hτ : τ.pool with
  | nil => exact absurd hτ hne
  | cons ρ rest =>
    refine ⟨⟨((s.complexity : K), s.error, s.fitness), saveConfig est.params, pool, ρ.inputSpace⟩,
      { est with state := { est.state with elitist := some (.solution τ), pool := τ.pool, cleaned := true } }, ?_, rfl, hpool ▸ hall, ?_⟩
    · unfold dump
      rw [htry]
      dsimp only
      rw [hel]
      dsimp only
      rw [hp]
      dsimp only
      rw [hτ]
    · intro L X
      unfold Est.predict
      dsimp only
      rw [h.elitist]
      dsimp only
      have hmix : ∀ m : Val, m.mix L X τ = m.mix L X σ := by
        intro m
        unfold Val.mix
        simp only [h4]
      simp only [hmix]

/-- **C59 (refuted 1).** No loaded model can be saved again: the loaded elitist has no `complexity_`. -/
theorem C59_refuted_loaded (W : Classes) (kinds : Str → Option Kind) (sup : Str) (saved : Saved K d) (est : Est K d) (h : load W kinds sup saved = .ok est) :
    dump est = .error .attributeError := by
  unfold load at h
  split at h
  · cases h
  · split at h
    · cases h
    · rename_i pool hpool
      split at h
      · cases h
      · split at h
        · cases h
          unfold dump tryCleanup
          dsimp only
          unfold cleanup Solution.subpopulation
          dsimp only
          rw [if_pos (by simp)]
          rfl
        · cases h

/-- **C59 (refuted 2).** Models without rules cannot be saved: this is the case for every model whose fit failed (which counts as fitted and predicts zeros, see `C51_contained`), … -/
theorem C59_refuted_failed (cfg : SupCfg K) (c : SupComp K d (LinModel K d)) (entropy : Nat) (raw : RawData K d) (cl : Bool) (st0 : SupState K d (LinModel K d))
    (ps : Params) (h : FailedCall cfg c raw.X raw.y (st0.fit cfg c entropy raw cl).trace) :
    dump ⟨ps, (st0.fit cfg c entropy raw cl).state⟩ = .error .indexError := by
  have hel : (st0.fit cfg c entropy raw cl).state.elitist = some .placeholder := by
    unfold SupState.fit at h ⊢
    rcases fitWith_trace cfg c (runEval cfg c) entropy raw cl st0 with ⟨_, h1⟩ | ⟨hc, ht⟩
    · rw [h1] at h; exact absurd h (not_failedCall_nil _ _ _ _)
    · rw [ht] at h
      obtain ⟨s, hs⟩ := (run_failed cfg c entropy raw.X raw.y st0.step).1 h
      unfold SupState.fitWith
      rw [hc]
      dsimp only
      rw [hs]
  unfold dump tryCleanup
  dsimp only
  rw [hel]
  unfold saveElitist
  dsimp only
  have : ([] : List (Rule K d (LinModel K d))).mapM ruleToJson = .ok [] := List.mapM_nil
  rw [this]

/-- **C59 (refuted 3).** … and for every evaluated elitist that selects no rule. -/
theorem C59_refuted_empty (ps : Params) (st : SupState K d (LinModel K d)) (σ : Solution K d (LinModel K d)) (hσ : st.elitist = some (.solution σ))
    (hl : σ.genome.length = σ.pool.length) (he : ∀ b ∈ σ.genome, b = false) (hs : σ.st.isSome = true) :
    dump ⟨ps, st⟩ = .error .indexError := by
  have hc : ∀ (p : List (Rule K d (LinModel K d))) (g : List Bool), (∀ b ∈ g, b = false) → compress p g = [] := by
    intro p g
    induction g generalizing p with
    | nil => intro _; cases p <;> rfl
    | cons b g ih =>
      intro h
      cases p with
      | nil => rfl
      | cons ρ p =>
        rw [compress, h b (List.mem_cons_self ..)]
        exact ih p fun x hx => h x (List.mem_cons_of_mem _ hx)
  obtain ⟨s, hs⟩ := Option.isSome_iff_exists.mp hs
  unfold dump tryCleanup
  dsimp only
  rw [hσ]
  unfold cleanup Solution.subpopulation
  dsimp only
  rw [if_pos hl, hc _ _ he]
  unfold saveElitist
  dsimp only
  rw [hs]
  dsimp only
  have : ([] : List (Rule K d (LinModel K d))).mapM ruleToJson = .ok [] := List.mapM_nil
  rw [this]

/-! ## C56: predictions of loaded models -/

theorem Json.Params.get_blank (ps : Params) (n : Str) (w : Val) (h : Dict.get ps.toList n = some w) : Dict.get ps.blank.toList n = some w.blank := by
  match ps with
  | .nil => cases h
  | .cons m u rest =>
    rw [Params.blank, Params.toList]
    rw [Params.toList] at h
    unfold Dict.get at h ⊢
    by_cases hm : m = n
    · rw [if_pos hm] at h ⊢
      cases h
      rfl
    · rw [if_neg hm] at h ⊢
      exact Json.Params.get_blank rest n w h

theorem Json.Val.attr_ok (v w : Val) (n : Str) : v.attr n = .ok w ↔ ∃ dp c ps, v = .obj dp c ps ∧ Dict.get ps.toList n = some w := by
  constructor
  · intro h
    cases v with
    | obj dp c ps =>
      unfold Val.attr at h
      dsimp only at h
      cases hg : Dict.get ps.toList n with
      | none => rw [hg] at h; cases h
      | some x => rw [hg] at h; cases h; exact ⟨dp, c, ps, rfl, hg⟩
    | _ => cases h
  · rintro ⟨dp, c, ps, rfl, h⟩
    unfold Val.attr
    dsimp only
    rw [h]

theorem Json.Val.attr_blank (v w : Val) (n : Str) (h : v.attr n = .ok w) : v.blank.attr n = .ok w.blank := by
  obtain ⟨dp, c, ps, rfl, hg⟩ := (Val.attr_ok v w n).mp h
  rw [Val.blank]
  exact (Val.attr_ok _ _ n).mpr ⟨dp, c, _, rfl, Json.Params.get_blank ps n w hg⟩

/-- The rule after saving and loading. -/
def reloaded (sp : Pairs K d) (ρ : Rule K d (LinModel K d)) : Rule K d (LinModel K d) :=
  { ρ with inputSpace := sp, st := ρ.st.map fun s => ⟨s.isFitted, s.error, ⊥, s.experience, [], []⟩ }

theorem mixAt_reloaded (L : Learner K d (LinModel K d)) (P : MixParams K) (sp : Pairs K d) (sub : List (Rule K d (LinModel K d))) (x : Point K d) :
    mixAt L P (sub.map (reloaded sp)) x = mixAt L P sub x := by
  have h1 : ∀ ρ : Rule K d (LinModel K d), (reloaded sp ρ).tauVal P = ρ.tauVal P := by
    intro ρ
    unfold reloaded Rule.tauVal
    cases ρ.st <;> rfl
  have h2 : ∀ ρ : Rule K d (LinModel K d), (reloaded sp ρ).valueAt L x = ρ.valueAt L x := fun ρ => rfl
  have h3 : ∀ l : List (Rule K d (LinModel K d)), (l.map (reloaded sp)).filter (fun ρ => ρ.kind.call ρ.bounds x) =
      (l.filter fun ρ => ρ.kind.call ρ.bounds x).map (reloaded sp) := by
    intro l
    rw [List.filter_map]
    rfl
  unfold mixAt numAt denAt
  rw [h3, List.map_map, List.map_map]
  simp only [Function.comp_def, h1, h2]

/-- The configuration names the component `c` at the given path. -/
def Names (ps : Params) (path : List Str) (c : Str) : Prop := ∃ dp qs, (path, Val.obj dp c qs) ∈ (savedParams ps).nodes []

theorem getClass_ok {W : Classes} {ps : Params} (T : TreeOk W (savedParams ps)) (path : List Str) (c : Str) (hn : Names ps path c)
    (hW : (W c).isSome = true) : getClass W ((saveConfig ps).get (joinSep path)) = .ok c := by
  obtain ⟨dp, qs, hm⟩ := hn
  have hg : (saveConfig ps).get (joinSep path) = some (.str (classPrefix ++ c)) := by
    rw [saveConfig_eq]
    exact Dict.get_of_mem _ (T.stage_nodup []) _ _ ((mem_stage _ _ _ _).mpr ⟨_, hm, rfl, rfl, rfl⟩)
  rw [hg]
  unfold getClass
  dsimp only
  rw [className_prefix]
  obtain ⟨i, hi⟩ := Option.isSome_iff_exists.mp hW
  rw [hi]

/-- Loadable models: the configuration can be restored (`Restorable`, see C57), uses a mixing model `mix` with the default filter, and names the matching type (of kind `k`),
the local model and the rule fitness, as the loader expects. -/
structure LoadableConfig (W : Classes) (kinds : Str → Option Kind) (sup : Str) (ps : Params) (k : Kind) (mix : Val) : Prop where
  restorable : Restorable W sup ps
  mixing : (Val.obj true [] ps).mixing = .ok mix
  noArrays : mix.blank = mix
  filter : ∃ f dp qs, mix.attr "filter_subpopulation".toList = .ok f ∧ f = .obj dp "suprb.solution.mixing_model.FilterSubpopulation".toList qs
  matching : ∃ c, Names ps ["matching_type".toList] c ∧ (W c).isSome = true ∧ kinds c = some k
  model : ∃ c, Names ps ["rule_discovery".toList, "init".toList, "model".toList] c ∧ (W c).isSome = true
  fitness : ∃ c, Names ps ["rule_discovery".toList, "init".toList, "fitness".toList] c ∧ (W c).isSome = true

theorem mixing_blank (ps ps' : Params) (m : Val) (hm : (Val.obj true [] ps).mixing = .ok m)
    (hn : ps'.toList.map Prod.fst = ps.toList.map Prod.fst) (hnd : (ps.toList.map Prod.fst).Nodup)
    (h : ∀ n v, (n, v) ∈ ps.toList → isLogger n = false → (n, v.blank) ∈ ps'.toList) (c : Str) : (Val.obj true c ps').mixing = .ok m.blank := by
  unfold Val.mixing at hm ⊢
  cases h1 : (Val.obj true [] ps).attr "solution_composition".toList with
  | error e => rw [h1] at hm; cases hm
  | ok v1 =>
    rw [h1] at hm
    dsimp only at hm
    obtain ⟨dp, c0, ps0, he, hg⟩ := (Val.attr_ok _ _ _).mp h1
    cases he
    have h2 : (Val.obj true c ps').attr "solution_composition".toList = .ok v1.blank := by
      refine (Val.attr_ok _ _ _).mpr ⟨true, c, ps', rfl, Dict.get_of_mem _ ?_ _ _ (h _ _ (Dict.mem_keys_of_get _ _ _ hg) (by decide))⟩
      unfold Dict.keys
      rw [hn]
      exact hnd
    rw [h2]
    dsimp only
    cases h3 : v1.attr "init".toList with
    | error e => rw [h3] at hm; cases hm
    | ok v2 =>
      rw [h3] at hm
      rw [Val.attr_blank _ _ _ h3]
      exact Val.attr_blank _ _ _ hm

/-- **C56.** Dumping and loading a fitted model with rules (and default filter) succeeds, and the loaded model gives the same predictions for every batch of query samples,
also if the experience calculation or weight of the mixing model is not the default. -/
theorem C56_predictions (W : Classes) (kinds : Str → Option Kind) (sup : Str) (est : Est K d) (k : Kind) (mix : Val) (σ : Solution K d (LinModel K d))
    (hc : LoadableConfig W kinds sup est.params k mix) (hs : SavableState est.state σ) (hk : ∀ ρ ∈ compress σ.pool σ.genome, ρ.kind = k)
    (hf : est.state.isFitted = true) (he : est.state.isError = false) :
    ∃ saved est₁ est₂, dump est = .ok (saved, est₁) ∧ load W kinds sup saved = .ok est₂ ∧
      ∀ (L : Learner K d (LinModel K d)) (X : List (Point K d)), est₂.predict L X = est.predict L X := by
  obtain ⟨saved, est₁, h1, h2, h3, _⟩ := C59_dump_partial est σ hs
  obtain ⟨ps', h4, h5, h6⟩ := C57_restored_partial W sup est.params hc.restorable
  obtain ⟨_, _, _, hnd, _⟩ := hc.restorable.cls
  have hmix := mixing_blank est.params ps' mix hc.mixing h5 hnd h6
  rw [hc.noArrays] at hmix
  have T := hc.restorable.tree
  -- the pool
  have hpool : saved.pool.mapM (jsonToRule W kinds saved) = .ok ((compress σ.pool σ.genome).map (reloaded saved.inputSpace)) := by
    obtain ⟨c1, n1, w1, k1⟩ := hc.matching
    obtain ⟨c2, n2, w2⟩ := hc.model
    obtain ⟨c3, n3, w3⟩ := hc.fitness
    have g1 := getClass_ok T _ _ n1 w1
    have g2 := getClass_ok T _ _ n2 w2
    have g3 := getClass_ok T _ _ n3 w3
    have e1 : joinSep ["matching_type".toList] = "matching_type".toList := by decide
    have e2 : joinSep ["rule_discovery".toList, "init".toList, "model".toList] = "rule_discovery__init__model".toList := by decide
    have e3 : joinSep ["rule_discovery".toList, "init".toList, "fitness".toList] = "rule_discovery__init__fitness".toList := by decide
    rw [← h2] at g1 g2 g3
    rw [e1] at g1
    rw [e2] at g2
    rw [e3] at g3
    have key : ∀ (ρ : Rule K d (LinModel K d)) (r : RuleJson K d), ρ.kind = k → ruleData ρ r → jsonToRule W kinds saved r = .ok (reloaded saved.inputSpace ρ) := by
      rintro ρ r hρ ⟨s, m, hst, hm, rfl⟩
      unfold jsonToRule loadKind
      rw [g1]
      dsimp only
      rw [k1]
      dsimp only
      rw [g2]
      dsimp only
      rw [g3]
      dsimp only
      unfold reloaded
      rw [hst, ← hρ, ← hm]
      rfl
    refine (mapM_ok_iff _ _ _).mpr ?_
    rw [List.forall₂_map_right_iff]
    have key2 : ∀ (l : List (Rule K d (LinModel K d))) (rs : List (RuleJson K d)), (∀ ρ ∈ l, ρ.kind = k) → List.Forall₂ ruleData l rs →
        List.Forall₂ (fun r ρ => jsonToRule W kinds saved r = .ok (reloaded saved.inputSpace ρ)) rs l := by
      intro l rs hl h
      induction h with
      | nil => exact .nil
      | cons h1 _ ih => exact .cons (key _ _ (hl _ (List.mem_cons_self ..)) h1) (ih fun ρ hρ => hl ρ (List.mem_cons_of_mem _ hρ))
    exact key2 _ _ hk h3
  have hmapped : ∀ ρ ∈ (compress σ.pool σ.genome).map (reloaded saved.inputSpace), ρ.Ready := by
    intro ρ hρ
    obtain ⟨ρ₀, h0, rfl⟩ := List.mem_map.mp hρ
    obtain ⟨ha, hb⟩ := hs.ready ρ₀ h0
    refine ⟨?_, hb⟩
    unfold reloaded
    dsimp only
    rw [Option.isSome_map]
    exact ha
  set pool := (compress σ.pool σ.genome).map (reloaded saved.inputSpace) with hpooldef
  refine ⟨saved, est₁, ⟨ps', { isFitted := true, elitist := some (.solution { genome := List.replicate pool.length true, pool := pool }), pool := pool }⟩, h1, ?_, ?_⟩
  · unfold load
    rw [h2, h4]
    dsimp only
    rw [hpool]
    dsimp only
    rw [hmix sup]
  · intro L X
    unfold Est.predict
    dsimp only
    rw [hf, he, hs.elitist, hmix [], hc.mixing]
    dsimp only
    have hval : mix.mix L X { genome := List.replicate pool.length true, pool := pool } = mix.mix L X σ := by
      obtain ⟨f, dp, qs, hf1, rfl⟩ := hc.filter
      unfold Val.mix
      rw [hf1]
      dsimp only
      have hsf : (Val.obj dp "suprb.solution.mixing_model.FilterSubpopulation".toList qs).subFilter (K := K) (d := d) (M := LinModel K d) = .ok filterAll := by
        unfold Val.subFilter
        dsimp only
        rw [if_pos rfl]
      rw [hsf]
      dsimp only
      have hp : ∀ P : MixParams K, Solution.predict L P filterAll false { genome := List.replicate pool.length true, pool := pool } X =
          Solution.predict L P filterAll false σ X := by
        intro P
        unfold Solution.predict Solution.subpopulation
        dsimp only
        rw [if_pos hs.length, if_pos (by simp)]
        dsimp only
        rw [compress_true, mixing_all_uncached L P X _ hmapped, mixing_all_uncached L P X _ hs.ready]
        congr 1
        exact List.map_congr_left fun x _ => mixAt_reloaded L P _ _ x
      simp only [hp]
    rw [hval]

/-! ## Completed fits -/

/-- The elitist of a completed fit can be saved if it selects some rule and the rules of the pool are fitted. -/
theorem savable_of_completed (cfg : SupCfg K) (c : SupComp K d (LinModel K d)) (hg : c.GoodStrategies) (entropy : Nat) (raw : RawData K d)
    (st0 : SupState K d (LinModel K d)) (h : (st0.fit cfg c entropy raw false).Completed) (hready : ∀ ρ ∈ (st0.fit cfg c entropy raw false).state.pool, ρ.Ready) :
    ∃ σ, (st0.fit cfg c entropy raw false).state.elitist = some (.solution σ) ∧
      (compress σ.pool σ.genome ≠ [] → SavableState (st0.fit cfg c entropy raw false).state σ) := by
  unfold SupState.fit at h hready ⊢
  obtain ⟨hc, s, el, h1, h2, _, _, σ, h3, h4, _⟩ := completed_run cfg c (runEval cfg c) entropy raw false st0 h
  have hσ := h4 rfl
  subst hσ
  have hok := (run_lengths cfg c hg (runEval cfg c raw.X raw.y) entropy raw.X raw.y st0.step).2 s h1
  obtain ⟨hl, t, ht, _⟩ := hok.elitist_len el h2
  have hpool : (st0.fitWith cfg c (runEval cfg c) entropy raw false).state.pool = s.pool := by
    unfold SupState.fitWith
    rw [hc]
    dsimp only
    rw [h1]
    dsimp only
    exact finishFit_pool _ _
  rw [hpool] at hready
  refine ⟨_, h3, fun hne => ⟨h3, hl, by dsimp only; rw [ht]; rfl, ?_, hne⟩⟩
  intro ρ hρ
  exact hready ρ (mem_of_mem_compress hρ)

/-- **C59 (partial).** Every model whose fit completed with fitted rules and an elitist that selects at least one rule can be saved. -/
theorem C59_completed_partial (cfg : SupCfg K) (c : SupComp K d (LinModel K d)) (hg : c.GoodStrategies) (entropy : Nat) (raw : RawData K d)
    (st0 : SupState K d (LinModel K d)) (ps : Params) (h : (st0.fit cfg c entropy raw false).Completed)
    (hready : ∀ ρ ∈ (st0.fit cfg c entropy raw false).state.pool, ρ.Ready) :
    ∃ σ, (st0.fit cfg c entropy raw false).state.elitist = some (.solution σ) ∧
      (compress σ.pool σ.genome ≠ [] → ∃ saved est', dump ⟨ps, (st0.fit cfg c entropy raw false).state⟩ = .ok (saved, est') ∧
        List.Forall₂ ruleData (compress σ.pool σ.genome) saved.pool) := by
  obtain ⟨σ, h1, h2⟩ := savable_of_completed cfg c hg entropy raw st0 h hready
  refine ⟨σ, h1, fun hne => ?_⟩
  obtain ⟨saved, est', h3, _, h4, _⟩ := C59_dump_partial ⟨ps, _⟩ σ (h2 hne)
  exact ⟨saved, est', h3, h4⟩

/-- **C56** for the models left by completed fits. -/
theorem C56_completed (W : Classes) (kinds : Str → Option Kind) (sup : Str) (k : Kind) (mix : Val) (cfg : SupCfg K) (c : SupComp K d (LinModel K d))
    (hg : c.GoodStrategies) (entropy : Nat) (raw : RawData K d) (st0 : SupState K d (LinModel K d)) (ps : Params) (hc : LoadableConfig W kinds sup ps k mix)
    (h : (st0.fit cfg c entropy raw false).Completed) (hready : ∀ ρ ∈ (st0.fit cfg c entropy raw false).state.pool, ρ.Ready ∧ ρ.kind = k) :
    ∃ σ, (st0.fit cfg c entropy raw false).state.elitist = some (.solution σ) ∧
      (compress σ.pool σ.genome ≠ [] → ∃ saved est₁ est₂, dump ⟨ps, (st0.fit cfg c entropy raw false).state⟩ = .ok (saved, est₁) ∧
        load W kinds sup saved = .ok est₂ ∧
        ∀ (L : Learner K d (LinModel K d)) (X : List (Point K d)), est₂.predict L X = Est.predict L ⟨ps, (st0.fit cfg c entropy raw false).state⟩ X) := by
  obtain ⟨σ, h1, h2⟩ := savable_of_completed cfg c hg entropy raw st0 h fun ρ hρ => (hready ρ hρ).1
  refine ⟨σ, h1, fun hne => ?_⟩
  refine C56_predictions W kinds sup ⟨ps, _⟩ k mix σ hc (h2 hne) ?_ ?_ h.2
  · intro ρ hρ
    refine (hready ρ ?_).2
    have hpool : (st0.fit cfg c entropy raw false).state.pool = σ.pool := by
      unfold SupState.fit at h h1 ⊢
      obtain ⟨hck, s, el, e1, e2, _, _, τ, e3, e4, _⟩ := completed_run cfg c (runEval cfg c) entropy raw false st0 h
      rw [h1] at e3
      cases e3
      rw [e4 rfl]
      unfold SupState.fitWith
      rw [hck]
      dsimp only
      rw [e1]
      exact finishFit_pool _ _
    rw [hpool]
    exact mem_of_mem_compress hρ
  · exact (completed_run cfg c (runEval cfg c) entropy raw false st0 h).2.choose_spec.choose_spec.2.2.2.1

/-! ### Examples -/

/-- Some classes of the project. -/
def dumpClasses : Classes := fun c =>
  if c = str "suprb.SupRB" then
    some ⟨true, [(str "logger", some .none), (str "matching_type", some .none), (str "n_iter", some (.num 32)), (str "random_state", some .none),
      (str "rule_discovery", some .none), (str "solution_composition", some .none)]⟩
  else if c = str "suprb.rule.matching.OrderedBound" then some ⟨true, [(str "bounds", none)]⟩
  else if c = str "sklearn.linear_model.Ridge" then some ⟨true, [(str "alpha", some (.num 1))]⟩
  else if c = str "suprb.rule.fitness.VolumeWu" then some ⟨true, [(str "alpha", some (.num (1/20)))]⟩
  else if c = str "suprb.rule.initialization.MeanInit" then some ⟨true, [(str "fitness", some .none), (str "model", some .none)]⟩
  else if c = str "suprb.ES1xLambda" then some ⟨true, [(str "init", some .none), (str "lmbda", some (.num 20))]⟩
  else if c = str "suprb.solution.mixing_model.FilterSubpopulation" then some ⟨false, [(str "rule_amount", some (.num 6))]⟩
  else if c = str "suprb.solution.mixing_model.NBestFitness" then some ⟨false, [(str "rule_amount", some (.num 6))]⟩
  else if c = str "suprb.solution.mixing_model.ExperienceCalculation" then some ⟨false, []⟩
  else if c = str "suprb.solution.mixing_model.ErrorExperienceHeuristic" then
    some ⟨true, [(str "experience_calculation", some (.obj false (str "suprb.solution.mixing_model.ExperienceCalculation") .nil)),
      (str "experience_weight", some (.num 1)),
      (str "filter_subpopulation", some (.obj false (str "suprb.solution.mixing_model.FilterSubpopulation") (.cons (str "rule_amount") (.num 6) .nil)))]⟩
  else if c = str "suprb.solution.initialization.RandomInit" then some ⟨true, [(str "mixing", some .none), (str "p", some (.num (1/2)))]⟩
  else if c = str "suprb.GeneticAlgorithm" then some ⟨true, [(str "init", some .none), (str "n_iter", some (.num 32))]⟩
  else none

/-- The matching functions among them. -/
def dumpKinds (c : Str) : Option Kind := if c = str "suprb.rule.matching.OrderedBound" then some .ordered else none

/-- The mixing model with the given filter and experience weight 2. -/
def dumpMixing (filter : Val) : Val :=
  .obj true (str "suprb.solution.mixing_model.ErrorExperienceHeuristic") (
    .cons (str "experience_calculation") (.obj false (str "suprb.solution.mixing_model.ExperienceCalculation") .nil) (
    .cons (str "experience_weight") (.num 2) (
    .cons (str "filter_subpopulation") filter .nil)))

/-- A configuration with the given filter. -/
def dumpConfig (filter : Val) : Params :=
  .cons (str "logger") .none (
  .cons (str "matching_type") (.obj true (str "suprb.rule.matching.OrderedBound") (.cons (str "bounds") (.array 7) .nil)) (
  .cons (str "n_iter") (.num 8) (
  .cons (str "random_state") (.num 42) (
  .cons (str "rule_discovery") (.obj true (str "suprb.ES1xLambda") (
    .cons (str "init") (.obj true (str "suprb.rule.initialization.MeanInit") (
      .cons (str "fitness") (.obj true (str "suprb.rule.fitness.VolumeWu") (.cons (str "alpha") (.num (1/10)) .nil)) (
      .cons (str "model") (.obj true (str "sklearn.linear_model.Ridge") (.cons (str "alpha") (.num (1/100)) .nil)) .nil))) (
    .cons (str "lmbda") (.num 16) .nil))) (
  .cons (str "solution_composition") (.obj true (str "suprb.GeneticAlgorithm") (
    .cons (str "init") (.obj true (str "suprb.solution.initialization.RandomInit") (
      .cons (str "mixing") (dumpMixing filter) (.cons (str "p") (.num (1/3)) .nil))) (
    .cons (str "n_iter") (.num 16) .nil))) .nil)))))

def dumpDefault : Val := .obj false (str "suprb.solution.mixing_model.FilterSubpopulation") (.cons (str "rule_amount") (.num 6) .nil)

def dumpBest : Val := .obj false (str "suprb.solution.mixing_model.NBestFitness") (.cons (str "rule_amount") (.num 1) .nil)

theorem dump_loadable : LoadableConfig dumpClasses dumpKinds (str "suprb.SupRB") (dumpConfig dumpDefault) .ordered (dumpMixing dumpDefault) where
  restorable :=
    { tree :=
        { names := by decide +kernel
          nodup := by decide +kernel
          nodes := nodeOk_of_test _ _ (by decide +kernel)
          top := by decide +kernel }
      top := by decide +kernel
      cls := ⟨_, rfl, by decide +kernel, by decide +kernel, by decide +kernel⟩ }
  mixing := by decide +kernel
  noArrays := by decide +kernel
  filter := ⟨dumpDefault, false, _, by decide +kernel, rfl⟩
  matching := ⟨str "suprb.rule.matching.OrderedBound", ⟨true, .cons (str "bounds") (.array 7) .nil, by decide +kernel⟩, by decide +kernel, by decide +kernel⟩
  model := ⟨str "sklearn.linear_model.Ridge", ⟨true, .cons (str "alpha") (.num (1/100)) .nil, by decide +kernel⟩, by decide +kernel⟩
  fitness := ⟨str "suprb.rule.fitness.VolumeWu", ⟨true, .cons (str "alpha") (.num (1/10)) .nil, by decide +kernel⟩, by decide +kernel⟩

/-- A fitted rule on `[0, 1]` predicting `a x + b`. -/
def dumpRule (a b e f : ℚ) : Rule ℚ 1 (LinModel ℚ 1) :=
  { kind := .ordered, bounds := ![(0, 1)], inputSpace := ![(0, 1)], model := some ⟨![a], b⟩
    st := some ⟨true, ((e : ℚ) : WithTop ℚ), ((f : ℚ) : WithBot ℚ), 2, [], [true, true]⟩ }

/-- A solution that selects the first and third of three rules. -/
def dumpSolution : Solution ℚ 1 (LinModel ℚ 1) :=
  { genome := [true, false, true], pool := [dumpRule 1 0 1 5, dumpRule 0 7 1 1, dumpRule 0 2 1 9], st := some ⟨1/10, 2, 2, 3⟩ }

/-- The model. -/
def dumpEst (filter : Val) : Est ℚ 1 :=
  ⟨dumpConfig filter, { isFitted := true, elitist := some (.solution dumpSolution), pool := dumpSolution.pool }⟩

theorem dump_savable (filter : Val) : SavableState (dumpEst filter).state dumpSolution where
  elitist := rfl
  length := rfl
  evaluated := rfl
  ready := by
    intro ρ hρ
    simp [dumpSolution, compress] at hρ
    rcases hρ with rfl | rfl <;> exact ⟨rfl, rfl⟩
  nonempty := by simp [dumpSolution, compress]

example : ∃ saved est₁ est₂, dump (dumpEst dumpDefault) = .ok (saved, est₁) ∧ load dumpClasses dumpKinds (str "suprb.SupRB") saved = .ok est₂ ∧
    ∀ (L : Learner ℚ 1 (LinModel ℚ 1)) (X : List (Point ℚ 1)), est₂.predict L X = (dumpEst dumpDefault).predict L X :=
  C56_predictions _ _ _ (dumpEst dumpDefault) .ordered _ dumpSolution dump_loadable (dump_savable _) (by
    intro ρ hρ
    simp [dumpSolution, compress] at hρ
    rcases hρ with rfl | rfl <;> rfl) rfl rfl

/-- Predictions before and after saving and loading. -/
def dumpLoadPredict (est : Est ℚ 1) (X : List (Point ℚ 1)) : Except PyErr (List ℚ) × Except PyErr (List ℚ) :=
  (est.predict (linLearner fun _ _ => ⟨fun _ => 0, 0⟩) X,
    match dump est with
    | .error e => .error e
    | .ok (saved, _) => match load dumpClasses dumpKinds (str "suprb.SupRB") saved with
      | .error e => .error e
      | .ok est' => est'.predict (linLearner fun _ _ => ⟨fun _ => 0, 0⟩) X)

/-- The model of the example predicts 1 and 3/2 for the samples 0 and 1. -/
example : dumpLoadPredict (dumpEst dumpDefault) [![0], ![1]] = (.ok [1, 3/2], .ok [1, 3/2]) := by decide +kernel

/-- **C72 (refuted).** With only the best rule used for predictions, the loaded model, which uses all rules, predicts differently. -/
theorem C72_refuted : dumpLoadPredict (dumpEst dumpBest) [![0], ![1]] = (.ok [2, 2], .ok [1, 3/2]) := by decide +kernel

/-- A run that finds the same rule again and again. -/
def linComp : SupComp ℚ 1 (LinModel ℚ 1) where
  discover := fun _ _ _ _ _ _ n => .ok (List.replicate n { dumpRule 0 2 1 5 with st := some ⟨true, ((1 : ℚ) : WithTop ℚ), ((5 : ℚ) : WithBot ℚ), 2, [2, 2], [true, true]⟩ })
  strategy := fun _ _ => gaOptimize ⟨1, 0, 0, 0⟩ []
  initDraw := fun _ _ _ => 0
  learner := linLearner fun _ _ => ⟨fun _ => 0, 0⟩
  mix := ⟨.plain, 2⟩
  filter := filterAll
  fitness := fun _ _ _ c => c

/-- Number of rules selected by the elitist, and whether all rules of the pool are fitted ordered bounds. -/
def linView : Option Nat × Bool :=
  let st := (SupState.fit (demoCfg 2 0 1 1 0) linComp 7 demoData false {}).state
  ((match st.elitist with | some (.solution σ) => some (compress σ.pool σ.genome).length | _ => none),
    st.pool.all fun ρ => ρ.st.isSome && ρ.model.isSome && decide (ρ.kind = .ordered))

/-- The hypotheses of `C56_completed` and `C59_completed_partial` hold for a run with two iterations. -/
example : (SupState.fit (demoCfg 2 0 1 1 0) linComp 7 demoData false {}).Completed ∧ linComp.GoodStrategies ∧ linView = (some 2, true) :=
  ⟨by unfold FitResult.Completed; decide +kernel, fun _ _ => gaOptimize_good _ _, by decide +kernel⟩

/-- The run as a model with the configuration above can be saved and loaded without changing its predictions. -/
example : ∃ saved est₁ est₂, dump ⟨dumpConfig dumpDefault, (SupState.fit (demoCfg 2 0 1 1 0) linComp 7 demoData false {}).state⟩ = .ok (saved, est₁) ∧
    load dumpClasses dumpKinds (str "suprb.SupRB") saved = .ok est₂ ∧
    ∀ (L : Learner ℚ 1 (LinModel ℚ 1)) (X : List (Point ℚ 1)),
      est₂.predict L X = Est.predict L ⟨dumpConfig dumpDefault, (SupState.fit (demoCfg 2 0 1 1 0) linComp 7 demoData false {}).state⟩ X := by
  have hv : linView = (some 2, true) := by decide +kernel
  obtain ⟨σ, h1, h2⟩ := C56_completed dumpClasses dumpKinds (str "suprb.SupRB") .ordered _ (demoCfg 2 0 1 1 0) linComp (fun _ _ => gaOptimize_good _ _) 7 demoData {}
    (dumpConfig dumpDefault) dump_loadable (by unfold FitResult.Completed; decide +kernel) (by
      intro ρ hρ
      have := (Prod.ext_iff.mp hv).2
      have := List.all_eq_true.mp this ρ hρ
      simp only [Bool.and_eq_true, decide_eq_true_eq] at this
      exact ⟨this.1, this.2⟩)
  refine h2 ?_
  have := (Prod.ext_iff.mp hv).1
  unfold linView at this
  dsimp only at this
  rw [h1] at this
  dsimp only at this
  intro h0
  rw [h0] at this
  cases this

end Suprb
