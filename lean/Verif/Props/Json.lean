import Verif.Lemmas.JsonRound

/-!
# C57, C58: saving and loading the configuration
-/

set_option autoImplicit false
set_option linter.unusedSectionVars false

namespace Suprb

open Json

/-! ## C58: loading terminates -/

theorem deserialize_terminates (W : Classes) (n : Nat) (d : Dict) (hn : d.keys.Nodup) (hl : d.length ≤ n) : ∃ r, deserialize W n d = some r := by
  induction n generalizing d with
  | zero =>
    have : d = [] := List.length_eq_zero_iff.mp (Nat.le_zero.mp hl)
    subst this
    exact ⟨_, rfl⟩
  | succ n ih =>
    unfold deserialize
    cases hm : more d with
    | false => exact ⟨_, rfl⟩
    | true =>
      rw [if_pos rfl]
      cases hr : Json.round W d with
      | error e => exact ⟨_, rfl⟩
      | ok d' =>
        obtain ⟨h1, h2⟩ := round_keys W d d' hn hm hr
        exact ih d' h1 (by omega)

/-- More rounds do not change the result. -/
theorem deserialize_mono (W : Classes) (n m : Nat) (d : Dict) (r : Except PyErr Dict) (h : deserialize W n d = some r) (hm : n ≤ m) :
    deserialize W m d = some r := by
  induction n generalizing d m with
  | zero =>
    unfold deserialize at h
    split at h
    · cases h
    · rename_i hmore
      cases m with
      | zero => unfold deserialize; rw [if_neg hmore]; exact h
      | succ m => unfold deserialize; rw [if_neg hmore]; exact h
  | succ n ih =>
    cases m with
    | zero => omega
    | succ m =>
      unfold deserialize at h ⊢
      split at h
      · rename_i hmore
        rw [if_pos hmore]
        cases hr : Json.round W d with
        | error e => rw [hr] at h; exact h
        | ok d' => rw [hr] at h; exact ih m d' h (by omega)
      · rename_i hmore
        rw [if_neg hmore]
        exact h

/-- **C58.** For every flat configuration (a dict: every key once) and every set of importable classes, the loop ends, by success or by an exception, after at
most as many rounds as there are keys; more rounds would not be performed. -/
theorem C58_terminates (W : Classes) (d : Dict) (hn : (d.map Prod.fst).Nodup) :
    ∃ r, ∀ n, d.length ≤ n → deserialize W n d = some r := by
  obtain ⟨r, hr⟩ := deserialize_terminates W d.length d hn le_rfl
  exact ⟨r, fun n hl => deserialize_mono W d.length n d r hr hl⟩

/-! ## C57: configurations -/

/-- Strings of the examples. -/
def str (s : String) : Str := s.toList

/-- Part of the classes of the project with part of their parameters, in alphabetical order. -/
def demoClasses : Classes := fun c =>
  if c = str "suprb.SupRB" then
    some ⟨true, [(str "logger", some .none), (str "matching_type", some .none), (str "n_iter", some (.num 32)), (str "random_state", some .none),
      (str "rule_discovery", some .none), (str "solution_composition", some .none)]⟩
  else if c = str "suprb.OrderedBound" then some ⟨true, [(str "bounds", none)]⟩
  else if c = str "suprb.NPoint" then some ⟨true, [(str "crossover_rate", some (.num (9/10))), (str "n", some (.num 2))]⟩
  else if c = str "suprb.Elitist" then some ⟨true, []⟩
  else if c = str "suprb.FilterSubpopulation" then some ⟨false, [(str "rule_amount", some (.num 6))]⟩
  else if c = str "suprb.NBestFitness" then some ⟨false, [(str "rule_amount", some (.num 6))]⟩
  else if c = str "suprb.ErrorExperienceHeuristic" then
    some ⟨true, [(str "experience_weight", some (.num 1)),
      (str "filter_subpopulation", some (.obj false (str "suprb.FilterSubpopulation") (.cons (str "rule_amount") (.num 6) .nil)))]⟩
  else if c = str "suprb.RandomInit" then some ⟨true, [(str "mixing", some .none), (str "p", some (.num (1/2)))]⟩
  else if c = str "suprb.GeneticAlgorithm" then
    some ⟨true, [(str "archive", some (.obj true (str "suprb.Elitist") .nil)), (str "crossover", some .none), (str "init", some .none),
      (str "n_iter", some (.num 32)), (str "random_state", some .none)]⟩
  else if c = str "suprb.saga1.NPoint" then some ⟨true, [(str "n", some (.num 2))]⟩
  else if c = str "suprb.saga1.SelfAdaptingGeneticAlgorithm" then
    some ⟨true, [(str "crossover", some .none), (str "crossover_rate", some (.num (3/4))), (str "n_iter", some (.num 32))]⟩
  else none

/-- A solution composition with the given mixing filter. -/
def demoGA (filter : Val) : Val :=
  .obj true (str "suprb.GeneticAlgorithm") (
    .cons (str "archive") (.obj true (str "suprb.Elitist") .nil) (
    .cons (str "crossover") (.obj true (str "suprb.NPoint") (.cons (str "crossover_rate") (.num (9/10)) (.cons (str "n") (.num 3) .nil))) (
    .cons (str "init") (.obj true (str "suprb.RandomInit") (
      .cons (str "mixing") (.obj true (str "suprb.ErrorExperienceHeuristic") (
        .cons (str "experience_weight") (.num 2) (.cons (str "filter_subpopulation") filter .nil))) (
      .cons (str "p") (.num (1/3)) .nil))) (
    .cons (str "n_iter") (.num 16) (
    .cons (str "random_state") .none .nil)))))

/-- A configuration with the given components. -/
def demoConfig (composition : Val) (state : Val) : Params :=
  .cons (str "logger") .none (
  .cons (str "matching_type") (.obj true (str "suprb.OrderedBound") (.cons (str "bounds") (.array 7) .nil)) (
  .cons (str "n_iter") (.num 8) (
  .cons (str "random_state") state (
  .cons (str "rule_discovery") (.obj true (str "suprb.NPoint") (.cons (str "crossover_rate") (.num 1) (.cons (str "n") (.num 5) .nil))) (
  .cons (str "solution_composition") composition .nil)))))

/-- The default filter. -/
def defaultFilter : Val := .obj false (str "suprb.FilterSubpopulation") (.cons (str "rule_amount") (.num 6) .nil)

/-- Only the best 3 rules are used for predictions. -/
def bestFilter : Val := .obj false (str "suprb.NBestFitness") (.cons (str "rule_amount") (.num 3) .nil)

/-- What a loaded model has as a parameter. -/
def loadedParam (W : Classes) (sup : Str) (ps : Params) (n : Str) : Option Val :=
  match loadConfig W sup (saveConfig ps) with
  | .ok (.obj _ _ ps') => Dict.get ps'.toList n
  | _ => none

/-- **C57 (refuted 1).** Components without `get_params` (the filter and the experience calculation of the mixing model) are not restored but
replaced by the default of the parameter: the loaded model uses all rules instead of the best 3. -/
theorem C57_refuted_filter :
    loadedParam demoClasses (str "suprb.SupRB") (demoConfig (demoGA bestFilter) (.num 42)) (str "solution_composition") = some (demoGA defaultFilter) ∧
      demoGA defaultFilter ≠ demoGA bestFilter := by
  decide +kernel

/-- **C57 (refuted 2).** The string test for common prefixes takes `crossover_rate` for a parameter of the component `crossover`: loading a saved
configuration with the default self-adapting genetic algorithm is a `TypeError`. -/
theorem C57_refuted_prefix :
    let c := .obj true (str "suprb.saga1.SelfAdaptingGeneticAlgorithm") (
      .cons (str "crossover") (.obj true (str "suprb.saga1.NPoint") (.cons (str "n") (.num 3) .nil)) (
      .cons (str "crossover_rate") (.num (3/4)) (.cons (str "n_iter") (.num 32) .nil)))
    loadConfig demoClasses (str "suprb.SupRB") (saveConfig (demoConfig c (.num 42))) = .error .typeError := by
  decide +kernel

/-- **C57 (refuted 3).** A top-level parameter `None` (the default of `random_state`) is loaded as the string `"NoneType"`. -/
theorem C57_refuted_none :
    loadedParam demoClasses (str "suprb.SupRB") (demoConfig (demoGA defaultFilter) .none) (str "random_state") = some (.str (str "NoneType")) := by
  decide +kernel

/-- The numpy integer `n`: an instance of a class without `get_params`. -/
def npInt (n : ℚ) : Val := .obj false (str "numpy.int64") (.cons (str "value") (.num n) .nil)

/-- `demoClasses` and the class of numpy integers. -/
def npClasses : Classes := fun c => if c = str "numpy.int64" then some ⟨false, [(str "value", some (.num 0))]⟩ else demoClasses c

/-- **C57 (refuted 4).** Numpy integers (the usual result of a parameter search) are not integers for `isinstance(value, (int, str, bool, float))`: `n_iter` of a component is replaced by the
default, `n_iter` of the model by a string. -/
theorem C57_refuted_numpy :
    let ga := fun n : Val => Val.obj true (str "suprb.GeneticAlgorithm") (
      .cons (str "archive") (.obj true (str "suprb.Elitist") .nil) (
      .cons (str "crossover") .none (
      .cons (str "init") .none (
      .cons (str "n_iter") n (
      .cons (str "random_state") .none .nil)))))
    let config := fun n m : Val => Params.cons (str "n_iter") n (.cons (str "solution_composition") (ga m) .nil)
    loadedParam npClasses (str "suprb.SupRB") (config (.num 8) (.num 16)) (str "solution_composition") = some (ga (.num 16)) ∧
      loadedParam npClasses (str "suprb.SupRB") (config (.num 8) (npInt 16)) (str "solution_composition") = some (ga (.num 32)) ∧
      loadedParam npClasses (str "suprb.SupRB") (config (npInt 8) (.num 16)) (str "n_iter") = some (.str (str "class:numpy.int64")) := by
  decide +kernel

/-! ### What is restored -/

/-- Parameters that are not saved. -/
def isLogger (n : Str) : Bool := loggerStr.isPrefixOf n

/-- Top-level values that survive: numbers, strings and components with parameters. -/
def topOk (v : Val) : Bool :=
  match v with
  | .num _ => true
  | .str _ => true
  | v => v.isPart

/-- The parameters that are saved. -/
def savedParams (ps : Params) : Params := .ofList (ps.toList.filter fun e => !isLogger e.1)

/-- Configurations that can be restored: see `ParamOk` for the nested components; on top level there are numbers, strings and components with parameters. -/
structure Restorable (W : Classes) (sup : Str) (ps : Params) : Prop where
  tree : TreeOk W (savedParams ps)
  top : ∀ e ∈ (savedParams ps).toList, topOk e.2 = true
  cls : ∃ sig, W sup = some ⟨true, sig⟩ ∧ sig.map Prod.fst = ps.toList.map Prod.fst ∧ (ps.toList.map Prod.fst).Nodup ∧
    ∀ e ∈ sig, isLogger e.1 = true → e.2.isSome = true

theorem logger_prefix (n : Str) (rest : List Str) : loggerStr.isPrefixOf (joinSep (n :: rest)) = isLogger n := by
  have key : ∀ (l n : Str) (r : Str), '_' ∉ l → l.isPrefixOf (n ++ '_' :: r) = l.isPrefixOf n := by
    intro l
    induction l with
    | nil => intro n r _; simp
    | cons c l ih =>
      intro n r hl
      rw [List.mem_cons, not_or] at hl
      cases n with
      | nil =>
        have : (c == '_') = false := by simpa using Ne.symm hl.1
        rw [List.nil_append, List.isPrefixOf_cons_cons, this]
        rfl
      | cons d n => rw [List.cons_append, List.isPrefixOf, List.isPrefixOf, ih n r hl.2]
  cases rest with
  | nil => rfl
  | cons m rest =>
    rw [joinSep_cons _ _ (by simp)]
    exact key loggerStr n _ (by decide)

theorem Json.Val.filter_nodes (m : Str) (p : List Str) (v : Val) (b : Bool) (h : isLogger m = b) :
    (v.nodes (m :: p)).filter (fun e => !loggerStr.isPrefixOf (joinSep e.1)) = if b then [] else v.nodes (m :: p) := by
  have h1 : ∀ e ∈ v.nodes (m :: p), (!loggerStr.isPrefixOf (joinSep e.1)) = !b := by
    intro e he
    obtain ⟨x, rest, hx⟩ := Val.nodes_prefix (m :: p) v e he
    rw [hx, List.cons_append, logger_prefix, h]
  cases b with
  | false =>
    rw [if_neg (by simp)]
    exact List.filter_eq_self.mpr fun e he => h1 e he
  | true =>
    rw [if_pos rfl]
    exact List.filter_eq_nil_iff.mpr fun e he => by rw [h1 e he]; simp

theorem nodes_saved (ps : Params) : (ps.nodes []).filter (fun e => !loggerStr.isPrefixOf (joinSep e.1)) = (savedParams ps).nodes [] := by
  match ps with
  | .nil => rfl
  | .cons n v rest =>
    have ih := nodes_saved rest
    unfold savedParams at ih ⊢
    rw [Params.nodes, Params.toList, List.filter_append, List.filter_cons, ih, List.nil_append, Val.filter_nodes n [] v (isLogger n) rfl]
    have : loggerStr.isPrefixOf (joinSep [n]) = isLogger n := rfl
    dsimp only
    rw [this]
    cases hl : isLogger n with
    | true => rw [if_pos rfl, if_neg (by simp), List.filter_cons_of_neg (by simp [hl])]; rfl
    | false =>
      rw [if_neg (by simp), if_pos (by simp), List.filter_cons_of_pos (by simp [hl]), Params.ofList, Params.nodes]
      rfl

theorem saveConfig_eq (ps : Params) : saveConfig ps = stage ((savedParams ps).nodes []) [] := by
  unfold saveConfig stage
  rw [Params.flat_eq, List.map_map, List.filter_map, ← nodes_saved]
  have : ∀ l : List (List Str × Val), l.filter (fun e => aliveB [] e.1) = l := fun l => List.filter_eq_self.mpr fun e _ => rfl
  rw [this]
  rfl

/-- All rounds succeed, until only the top-level parameters are left. -/
theorem deserialize_ok {W : Classes} {ps : Params} (T : TreeOk W ps) (n : Nat) (done : List (List Str)) (h0 : [] ∉ done) (r : Except PyErr Dict)
    (h : deserialize W n (stage (ps.nodes []) done) = some r) :
    ∃ done', [] ∉ done' ∧ r = .ok (stage (ps.nodes []) done') ∧ more (stage (ps.nodes []) done') = false := by
  induction n generalizing done with
  | zero =>
    unfold Json.deserialize at h
    split at h
    · cases h
    · rename_i hm
      cases h
      exact ⟨done, h0, rfl, by simpa using hm⟩
  | succ n ih =>
    unfold Json.deserialize at h
    split at h
    · rename_i hm
      obtain ⟨base, hb, hr⟩ := T.round done hm
      rw [hr] at h
      exact ih (base :: done) (by rw [List.mem_cons, not_or]; exact ⟨Ne.symm hb, h0⟩) h
    · rename_i hm
      cases h
      exact ⟨done, h0, rfl, by simpa using hm⟩

/-- **C57 (partial).** Every restorable configuration is restored: the loaded model has the same parameters, and all except the logger have the same values,
except for the contents of arrays (which are not saved).
Missing (refuted above): components without saved parameters that differ from the default, parameters whose name has the name of a sibling component as prefix,
and `None` on top level. -/
theorem C57_restored_partial (W : Classes) (sup : Str) (ps : Params) (R : Restorable W sup ps) :
    ∃ ps', loadConfig W sup (saveConfig ps) = .ok (.obj true sup ps') ∧ ps'.toList.map Prod.fst = ps.toList.map Prod.fst ∧
      ∀ n v, (n, v) ∈ ps.toList → isLogger n = false → (n, v.blank) ∈ ps'.toList := by
  have T := R.tree
  obtain ⟨sig, hW, hsig, hnames, hlog⟩ := R.cls
  obtain ⟨r, hr⟩ := deserialize_terminates W (saveConfig ps).length (saveConfig ps) (by rw [saveConfig_eq]; exact T.stage_nodup []) le_rfl
  have hr' := hr
  rw [saveConfig_eq ps] at hr'
  obtain ⟨done, h0, rfl, hmore⟩ := deserialize_ok T _ [] (by simp) r hr'
  have hlen : ∀ e ∈ (savedParams ps).nodes [], aliveB done e.1 = true → e.1.length < 2 := by
    intro e he ha
    by_contra h
    rw [(T.more_iff done).mpr ⟨e, he, ha, by omega⟩] at hmore
    cases hmore
  have hnd := T.stage_nodup done
  have hal : ∀ n : Str, aliveB done [n] = true := by
    intro n
    rw [aliveB_iff]
    intro a ha hp
    rcases List.prefix_cons_iff.mp hp with h | ⟨t, h, ht⟩
    · exact absurd (h ▸ ha) h0
    · rw [List.prefix_nil.mp ht] at h
      exact h
  have hget : ∀ n v, (n, v) ∈ (savedParams ps).toList → (stage ((savedParams ps).nodes []) done).get n = some v.blank := by
    intro n v hnv
    have hN := Params.mem_nodes_of_mem [] (savedParams ps) n v hnv
    refine Dict.get_of_mem _ hnd _ _ ((mem_stage _ _ _ _).mpr ⟨_, hN, hal n, rfl, ?_⟩)
    unfold cur
    dsimp only
    by_cases hd : [] ++ [n] ∈ done
    · rw [if_pos hd]
    · rw [if_neg hd]
      have ht := R.top _ hnv
      dsimp only at ht
      match v, ht, hN with
      | .num q, _, _ => rfl
      | .str s, _, _ => rfl
      | .obj true c (.cons a b rest), _, hN =>
        have h1 := Params.child_mem [] (savedParams ps) _ c _ a b hN (List.mem_cons_self ..)
        have h2 := hlen _ h1 (alive_child done _ a (hal n) hd)
        simp at h2
  have hsaved : ∀ n v, (n, v) ∈ (savedParams ps).toList ↔ (n, v) ∈ ps.toList ∧ isLogger n = false := by
    intro n v
    unfold savedParams
    rw [Params.toList_ofList, List.mem_filter]
    simp
  have hkeys : ∀ k ∈ (stage ((savedParams ps).nodes []) done).keys, ∃ v, (k, v) ∈ (savedParams ps).toList := by
    intro k hk
    obtain ⟨⟨k', u⟩, hku, rfl⟩ := List.mem_map.mp hk
    obtain ⟨⟨q, w⟩, he, ha, hj, _⟩ := (mem_stage _ _ _ _).mp hku
    obtain ⟨q', m, h1, h2⟩ := Params.parent [] (savedParams ps) _ _ he
    dsimp only at hj h1 ⊢
    have hl := hlen _ he ha
    dsimp only at hl
    rw [h1] at hl hj
    rcases h2 with ⟨rfl, h2⟩ | ⟨_, _, _, h2⟩
    · refine ⟨w, ?_⟩
      rw [← hj]
      exact h2
    · have := TreeOk.nonempty q' _ h2
      cases q' with
      | nil => exact absurd rfl this
      | cons a b => simp at hl; omega
  refine ⟨.ofList (ps.toList.map fun e => (e.1, if isLogger e.1 then ((Dict.get (sig.map fun q => (q.1, q.2.getD .none)) e.1).getD .none) else e.2.blank)), ?_, ?_, ?_⟩
  · unfold loadConfig
    rw [hr]
    dsimp only
    refine construct_eq W sup true sig _ _ hW ?_ ?_ ?_
    · intro k hk
      obtain ⟨v, hv⟩ := hkeys k hk
      rw [hsig]
      exact List.mem_map.mpr ⟨_, ((hsaved k v).mp hv).1, rfl⟩
    · rw [hsig, List.map_map]
      rfl
    · intro n dflt v hnd' hnv
      obtain ⟨⟨n', w⟩, hnw, he⟩ := List.mem_map.mp hnv
      dsimp only at he
      obtain ⟨rfl, rfl⟩ := Prod.mk.inj he
      cases hl : isLogger n' with
      | false =>
        rw [hget n' w ((hsaved n' w).mpr ⟨hnw, hl⟩)]
        rfl
      | true =>
        rw [Dict.get_none, Option.none_or, if_pos rfl]
        · have hs := hlog _ hnd' hl
          dsimp only at hs
          obtain ⟨x, rfl⟩ := Option.isSome_iff_exists.mp hs
          rw [Dict.get_of_mem _ ?_ n' x]
          · rfl
          · exact List.mem_map.mpr ⟨_, hnd', rfl⟩
          · unfold Dict.keys
            rw [List.map_map]
            have : (Prod.fst ∘ fun q : Str × Option Val => (q.1, q.2.getD Val.none)) = Prod.fst := rfl
            rw [this, hsig]
            exact hnames
        · intro hk
          obtain ⟨v, hv⟩ := hkeys n' hk
          rw [((hsaved n' v).mp hv).2] at hl
          cases hl
  · rw [Params.toList_ofList, List.map_map]
    rfl
  · intro n v hnv hl
    rw [Params.toList_ofList]
    refine List.mem_map.mpr ⟨_, hnv, ?_⟩
    dsimp only
    rw [hl]
    rfl

instance (W : Classes) (sig : List (Str × Option Val)) (qs : List (Str × Val)) (e : Str × Val) : Decidable (ParamOk W sig qs e) := by
  unfold ParamOk
  split <;> infer_instance

/-- Test of `NodeOk`. -/
def nodeOkB (W : Classes) (cls : Str) (qs : Params) : Bool :=
  match W cls with
  | some ⟨true, sig⟩ => decide (sig.map Prod.fst = qs.toList.map Prod.fst ∧ (qs.toList.map Prod.fst).Nodup ∧ ∀ e ∈ qs.toList, ParamOk W sig qs.toList e)
  | _ => false

theorem nodeOk_of_test (W : Classes) (ps : Params)
    (h : ∀ e ∈ ps.nodes [], (match e.2 with | .obj true cls (.cons n v rest) => nodeOkB W cls (.cons n v rest) | _ => true) = true)
    (q : List Str) (cls : Str) (qs : Params) (hm : (q, Val.obj true cls qs) ∈ ps.nodes []) (hq : qs ≠ .nil) : NodeOk W cls qs := by
  have := h _ hm
  cases qs with
  | nil => exact absurd rfl hq
  | cons n v rest =>
    dsimp only at this
    unfold nodeOkB at this
    split at this
    · rename_i sig hW
      exact ⟨sig, hW, of_decide_eq_true this⟩
    · cases this

/-- A configuration with nested components, an array, `None` inside a component and components without saved parameters. -/
theorem demo_restorable : Restorable demoClasses (str "suprb.SupRB") (demoConfig (demoGA defaultFilter) (.num 42)) where
  tree :=
    { names := by decide +kernel
      nodup := by decide +kernel
      nodes := nodeOk_of_test _ _ (by decide +kernel)
      top := by decide +kernel }
  top := by decide +kernel
  cls := ⟨_, rfl, by decide +kernel, by decide +kernel, by decide +kernel⟩

example : ∃ ps', loadConfig demoClasses (str "suprb.SupRB") (saveConfig (demoConfig (demoGA defaultFilter) (.num 42))) = .ok (.obj true (str "suprb.SupRB") ps') ∧
    (str "solution_composition", demoGA defaultFilter) ∈ ps'.toList := by
  obtain ⟨ps', h1, _, h2⟩ := C57_restored_partial _ _ _ demo_restorable
  refine ⟨ps', h1, ?_⟩
  have h3 := h2 (str "solution_composition") (demoGA defaultFilter) (by decide +kernel) (by decide +kernel)
  have h4 : (demoGA defaultFilter).blank = demoGA defaultFilter := by decide +kernel
  rw [h4] at h3
  exact h3

example : ∃ r, ∀ n, 3 ≤ n → deserialize demoClasses n [(str "a__b", .num 1), (str "____", .none), (str "", .num 2)] = some r :=
  C58_terminates demoClasses [(str "a__b", .num 1), (str "____", .none), (str "", .num 2)] (by decide +kernel)

end Suprb
