import Verif.Model.Json

/-!
# Model of `suprb/json.py`: dump and load of fitted models

Only linear local models are supported by the code (suprb/json.py:11). Writing JSON text and reading it back is the identity on the data below
(numbers are written with `repr`, arrays are nested lists; infinite numbers are written as `Infinity`).
-/

set_option autoImplicit false

namespace Suprb

namespace Json

open Spec

variable {K : Type} [Field K] [LinearOrder K] {d : Nat}

/-- A fitted linear regression (`coef_`, `intercept_`). (suprb/json.py:120-123, 226-232) -/
structure LinModel (K : Type) (d : Nat) where
  coef : Point K d
  intercept : K

/-- `predict` of a fitted linear regression for one sample. (used in suprb/rule/base.py:94-95) -/
def LinModel.predict (m : LinModel K d) (x : Point K d) : K := (∑ i, m.coef i * x i) + m.intercept

/-- Linear regression with an arbitrary training function. (suprb/json.py:11) -/
def linLearner (fit : List (Point K d) → List K → LinModel K d) : Learner K d (LinModel K d) := ⟨fit, LinModel.predict⟩

/-- suprb/json.py:114-124: what is saved of a rule. `vars(rule.match)` are the bounds for all matching functions. -/
structure RuleJson (K : Type) (d : Nat) where
  error : WithTop K
  experience : Nat
  bounds : Pairs K d
  isFitted : Bool
  coef : Point K d
  intercept : K

/-- The content of a file. `elitist` holds complexity, error and fitness (57-62). (suprb/json.py:28, 34-37) -/
structure Saved (K : Type) (d : Nat) where
  elitist : K × K × K
  config : Dict
  pool : List (RuleJson K d)
  inputSpace : Pairs K d

/-- suprb/json.py:114-124 `_convert_rule_to_json`: attributes of rules and local models that were never fitted do not exist. -/
def ruleToJson (ρ : Rule K d (LinModel K d)) : Except PyErr (RuleJson K d) :=
  match ρ.st with
  | none => .error .attributeError
  | some s =>
    match ρ.model with
    | none => .error .attributeError
    | some m => .ok ⟨s.error, s.experience, ρ.bounds, s.isFitted, m.coef, m.intercept⟩

/-- An estimator: its parameters and the attributes set by fitting. (suprb/json.py:27, 54) -/
structure Est (K : Type) (d : Nat) where
  params : Params
  state : SupState K d (LinModel K d)

/-- suprb/json.py:30-33: `_cleanup` (suprb/suprb.py:325-337) with attribute errors ignored. The optimizers are deleted last, so the attribute error of an
estimator that has none comes after everything else was done; that of an estimator without elitist comes first. -/
def tryCleanup (st : SupState K d (LinModel K d)) : Except PyErr (SupState K d (LinModel K d)) :=
  match st.elitist with
  | none => .ok st
  | some .placeholder => .ok { st with pool := [], cleaned := true }
  | some (.solution σ) =>
    match cleanup σ with
    | .error e => .error e
    | .ok τ => .ok { st with elitist := some (.solution τ), pool := τ.pool, cleaned := true }

/-- suprb/json.py:57-62 `_save_elitist`; the placeholder has the values of suprb/suprb.py:148-150. -/
def saveElitist (st : SupState K d (LinModel K d)) : Except PyErr (K × K × K) :=
  match st.elitist with
  | none => .error .attributeError
  | some .placeholder => .ok (99999, 99999, 0)
  | some (.solution σ) =>
    match σ.st with
    | none => .error .attributeError
    | some s => .ok ((s.complexity : K), s.error, s.fitness)

/-- suprb/json.py:27-42 `dump`: the file and the estimator afterwards. -/
def dump (est : Est K d) : Except PyErr (Saved K d × Est K d) :=
  match tryCleanup est.state with
  | .error e => .error e
  | .ok st =>
    match saveElitist st with
    | .error e => .error e
    | .ok el =>
      match st.pool.mapM ruleToJson with
      | .error e => .error e
      | .ok pool =>
        match st.pool with
        | [] => .error .indexError
        | ρ :: _ => .ok (⟨el, saveConfig est.params, pool, ρ.inputSpace⟩, { est with state := st })

/-- suprb/json.py:157-164 `_get_class`: the module must be importable and have the class. -/
def getClass (W : Classes) (v : Option Val) : Except PyErr Str :=
  match v with
  | none => .error .keyError
  | some (.str s) => match W (className s) with
    | none => .error .importError
    | some _ => .ok (className s)
  | some _ => .error .attributeError

/-- suprb/json.py:217-223 `_convert_matching_type`; `kinds` tells which classes are matching functions. -/
def loadKind (W : Classes) (kinds : Str → Option Kind) (config : Dict) : Except PyErr Kind :=
  match getClass W (config.get "matching_type".toList) with
  | .error e => .error e
  | .ok c => match kinds c with
    | none => .error .typeError
    | some k => .ok k

/-- suprb/json.py:201-214 `_convert_json_to_rule`. The loaded rule has no attributes `fitness_`, `pred_` and `match_set_`;
the model has the values `⊥`, `[]` and `[]` for them, which nothing below reads. -/
def jsonToRule (W : Classes) (kinds : Str → Option Kind) (saved : Saved K d) (r : RuleJson K d) : Except PyErr (Rule K d (LinModel K d)) :=
  match loadKind W kinds saved.config with
  | .error e => .error e
  | .ok k =>
    match getClass W (saved.config.get "rule_discovery__init__model".toList) with
    | .error e => .error e
    | .ok _ =>
      match getClass W (saved.config.get "rule_discovery__init__fitness".toList) with
      | .error e => .error e
      | .ok _ => .ok ⟨k, r.bounds, saved.inputSpace, some ⟨r.coef, r.intercept⟩, some ⟨r.isFitted, r.error, ⊥, r.experience, [], []⟩⟩

/-- Attribute of a component. (suprb/json.py:239-240) -/
def Val.attr (v : Val) (n : Str) : Except PyErr Val :=
  match v with
  | .obj _ _ ps => match Dict.get ps.toList n with
    | Option.none => .error .attributeError
    | some w => .ok w
  | _ => .error .attributeError

/-- suprb/json.py:239-240 `suprb.solution_composition.init.mixing`. -/
def Val.mixing (v : Val) : Except PyErr Val :=
  match v.attr "solution_composition".toList with
  | .error e => .error e
  | .ok c => match c.attr "init".toList with
    | .error e => .error e
    | .ok i => i.attr "mixing".toList

/-- suprb/json.py:45-54 `load` with `_load_pool` (194-198) and `_load_elitist` (235-241): all saved rules are selected. -/
def load (W : Classes) (kinds : Str → Option Kind) (sup : Str) (saved : Saved K d) : Except PyErr (Est K d) :=
  match loadConfig W sup saved.config with
  | .error e => .error e
  | .ok v =>
    match saved.pool.mapM (jsonToRule W kinds saved) with
    | .error e => .error e
    | .ok pool =>
      match v.mixing with
      | .error e => .error e
      | .ok _ =>
        match v with
        | .obj _ _ ps => .ok ⟨ps, { isFitted := true, elitist := some (.solution { genome := List.replicate pool.length true, pool := pool }), pool := pool }⟩
        | _ => .error .attributeError

/-! ## Mixing models as components -/

/-- The number in a parameter. (suprb/json.py:239; suprb/solution/mixing_model.py:85) -/
def Val.number (v : Val) : Option ℚ := match v with | .num q => some q | _ => Option.none

/-- Bounds of an experience calculation; anything that is not a (finite) number stands for the infinite default. (suprb/json.py:239; suprb/solution/mixing_model.py:44-46) -/
def Val.bound (v : Val) (n : Str) : Option K :=
  match v.attr n with
  | .ok w => w.number.map fun q => (q : K)
  | .error _ => Option.none

/-- The experience calculation of a mixing component (suprb/solution/mixing_model.py:43-66). -/
def Val.expCalc (v : Val) : Except PyErr (ExpCalc K) :=
  match v with
  | .obj _ c _ =>
    if c = "suprb.solution.mixing_model.ExperienceCalculation".toList then .ok .plain
    else if c = "suprb.solution.mixing_model.CapExperience".toList then .ok (.cap (v.bound "lower_bound".toList) (v.bound "upper_bound".toList))
    else if c = "suprb.solution.mixing_model.CapExperienceWithDimensionality".toList then
      .ok (.capDim (v.bound "lower_bound".toList) (v.bound "upper_bound".toList))
    else .error .notImplemented
  | _ => .error .typeError

/-- The filter of a mixing component (suprb/solution/mixing_model.py:8-26); random filters are left out here. -/
def Val.subFilter {M : Type} (v : Val) : Except PyErr (SubFilter K d M) :=
  match v with
  | .obj _ c _ =>
    if c = "suprb.solution.mixing_model.FilterSubpopulation".toList then .ok filterAll
    else if c = "suprb.solution.mixing_model.NBestFitness".toList then
      match v.attr "rule_amount".toList with
      | .ok (.num q) => .ok (nBestFitness q.num.toNat)
      | _ => .error .typeError
    else .error .notImplemented
  | _ => .error .typeError

/-- suprb/solution/mixing_model.py:76-105: the mixing function of a component. -/
def Val.mix (L : Learner K d (LinModel K d)) (v : Val) (X : List (Point K d)) (σ : Solution K d (LinModel K d)) : Except PyErr (List K) :=
  match v.attr "experience_calculation".toList with
  | .error e => .error e
  | .ok e =>
    match e.expCalc (K := K) with
    | .error e => .error e
    | .ok calc_ =>
      match v.attr "experience_weight".toList with
      | .ok (.num w) =>
        match v.attr "filter_subpopulation".toList with
        | .error e => .error e
        | .ok f => match f.subFilter (K := K) (d := d) (M := LinModel K d) with
          | .error e => .error e
          | .ok filt => σ.predict L ⟨calc_, (w : K)⟩ filt false X
      | .ok _ => .error .typeError
      | .error e => .error e

/-- suprb/suprb.py:274-283 `predict`; the mixing model of the elitist is the configured one (fitted models: suprb/solution/initialization.py:65-71 and
suprb/solution/base.py:81-100; loaded models: suprb/json.py:239). -/
def Est.predict (L : Learner K d (LinModel K d)) (est : Est K d) (Xq : List (Point K d)) : Except PyErr (List K) :=
  if est.state.isFitted = false then .error .valueError
  else if Xq = [] then .error .valueError
  else if est.state.isError then .ok (List.replicate Xq.length 0)
  else match est.state.elitist with
    | none => .error .attributeError
    | some .placeholder => .ok (List.replicate Xq.length 0)
    | some (.solution σ) =>
      match (Val.obj true [] est.params).mixing with
      | .error e => .error e
      | .ok m => m.mix L Xq σ

end Json

end Suprb
