import Verif.Model.Operators
import Verif.Model.Json

/-!
# Model of how `fit` configures the components, and of the operators' `sigma`

`suprb/optimizer/rule/generation_operator.py`, the constructors and `sigma` of `suprb/optimizer/rule/mutation.py`, `suprb/optimizer/rule/crossover.py` and
`suprb/rule/initialization.py`, and `suprb/suprb.py:304-323`.
-/

set_option autoImplicit false

namespace Suprb

open Spec

/-! ## Operators, their `sigma` and the matching type -/

/-- The attribute `sigma` of an operator: a `float`, or a one-dimensional array of length `n`. Only the shape is modelled here (the sizes enter as the draws); the scales are
taken to be non-negative. (suprb/optimizer/rule/mutation.py:18; suprb/rule/initialization.py:136, 175) -/
inductive Sigma
  | scalar
  | array (n : Nat)
  deriving DecidableEq, Repr

/-- An operator object (`GenerationOperator`): its `sigma` (`none` while the attribute does not exist) and the method `execute` is bound to (`none`: the method of the
class that does nothing). (suprb/optimizer/rule/generation_operator.py:15-35) -/
structure OperatorObj where
  sigma : Option Sigma := none
  bound : Option Kind := none
  deriving DecidableEq, Repr

/-- suprb/optimizer/rule/generation_operator.py:23-35, the setter of `matching_type` (`none` stands for `None` and for the `0` that `SigmaRange` passes, suprb/optimizer/rule/mutation.py:45). -/
def OperatorObj.setMatching (o : OperatorObj) (k : Option Kind) : Except PyErr OperatorObj :=
  match k with
  | none => .ok o
  | some .ordered => .ok { o with bound := some .ordered }
  | some .unordered => .ok { o with bound := some .unordered }
  | some k =>
    match o.sigma with
    | none => .error .attributeError
    | some .scalar => .error .assertionError
    | some (.array n) => if n = 2 then .ok { o with bound := some k } else .error .assertionError

/-- suprb/optimizer/rule/mutation.py:15-21 `RuleMutation.__init__`: the matching type is set before `sigma`. -/
def newMutation (k : Option Kind) (σ : Sigma) : Except PyErr OperatorObj :=
  match ({} : OperatorObj).setMatching k with
  | .error e => .error e
  | .ok o => .ok { o with sigma := some σ }

/-- suprb/optimizer/rule/crossover.py:11-13 `RuleCrossover.__init__`; a crossover has no `sigma`. -/
def newCrossover (k : Option Kind) : Except PyErr OperatorObj := ({} : OperatorObj).setMatching k

/-- numpy/scipy: an array of length `n` as scale of draws whose last axis has `m` elements. (suprb/optimizer/rule/mutation.py:78, 98-100, 121-122, 145, 166-167; suprb/rule/initialization.py:151, 157, 181-182) -/
def broadcastTo (σ : Sigma) (m : Nat) : Except PyErr Unit :=
  match σ with
  | .scalar => .ok ()
  | .array n => if n = 1 ∨ n = m then .ok () else .error .valueError

/-- `sigma[0]` and `sigma[1]`. (suprb/optimizer/rule/mutation.py:127-128, 132-133, 172-173, 177-178) -/
def bothEntries (σ : Sigma) : Except PyErr Unit :=
  match σ with
  | .scalar => .error .typeError
  | .array n => if 2 ≤ n then .ok () else .error .indexError

variable {K : Type} [Field K] [LinearOrder K] {d : Nat}

/-- The first `n` columns of the draws. (suprb/optimizer/rule/mutation.py:74-75, 141-142) -/
def columns (n : Nat) (z : Pairs K d) : Pairs K d := fun i => (if 0 < n then (z i).1 else 0, if 1 < n then (z i).2 else 0)

/-- suprb/optimizer/rule/mutation.py:72-75, 139-142 `individual_mutate`: as many columns as `sigma` has entries are changed. -/
def individualMutate (σ : Sigma) (z b : Pairs K d) : Except PyErr (Pairs K d) :=
  match σ with
  | .scalar => .error .attributeError
  | .array n => if n ≤ 2 then .ok (addNoise (columns n z) b) else .error .indexError

/-- suprb/optimizer/rule/mutation.py:69-178: what `execute` does when it is bound to the method for matching type `k`, with the accesses to `sigma`. -/
def executeWith (m : Mutation) (σ : Sigma) (k : Kind) (z b : Pairs K d) : Except PyErr (Pairs K d) :=
  match m, k with
  | .normal, .ordered => (broadcastTo σ 2).bind fun _ => mutate .normal .ordered z b
  | .normal, .unordered => (broadcastTo σ 2).bind fun _ => mutate .normal .unordered z b
  | .normal, .centerSpread => individualMutate σ z b
  | .normal, .minPercentage => individualMutate σ z b
  | .uniform, .ordered => (broadcastTo σ 2).bind fun _ => mutate .uniform .ordered z b
  | .uniform, .unordered => (broadcastTo σ 2).bind fun _ => mutate .uniform .unordered z b
  | .uniform, .centerSpread => individualMutate σ z b
  | .uniform, .minPercentage => individualMutate σ z b
  | .halfnorm, .ordered => (broadcastTo σ d).bind fun _ => mutate .halfnorm .ordered z b
  | .halfnorm, .unordered => (broadcastTo σ d).bind fun _ => mutate .halfnorm .unordered z b
  | .halfnorm, .centerSpread => .error .typeError
  | .halfnorm, .minPercentage => .error .typeError
  | .halfnormIncrease, .ordered => (broadcastTo σ d).bind fun _ => mutate .halfnormIncrease .ordered z b
  | .halfnormIncrease, .unordered => .error .typeError
  | .halfnormIncrease, .centerSpread => (bothEntries σ).bind fun _ => mutate .halfnormIncrease .centerSpread z b
  | .halfnormIncrease, .minPercentage => (bothEntries σ).bind fun _ => mutate .halfnormIncrease .minPercentage z b
  | .uniformIncrease, .ordered => (broadcastTo σ d).bind fun _ => mutate .uniformIncrease .ordered z b
  | .uniformIncrease, .unordered => .error .typeError
  | .uniformIncrease, .centerSpread => (bothEntries σ).bind fun _ => mutate .uniformIncrease .centerSpread z b
  | .uniformIncrease, .minPercentage => (bothEntries σ).bind fun _ => mutate .uniformIncrease .minPercentage z b

/-- suprb/optimizer/rule/mutation.py:23-33 `RuleMutation.__call__` of an object: the bounds of the mutated clone. Without a matching type the `execute` of the class is
called, which does nothing. -/
def OperatorObj.mutate (o : OperatorObj) (m : Mutation) (z b : Pairs K d) : Except PyErr (Pairs K d) :=
  match o.bound with
  | none => .ok b
  | some k =>
    match o.sigma with
    | none => .error .attributeError
    | some σ => executeWith m σ k z b

/-- A mutation as configured by the user: one of the concrete mutations, or `SigmaRange` (suprb/optimizer/rule/mutation.py:36-66) around one. -/
structure MutationCfg where
  m : Mutation
  sigma : Sigma
  range : Bool := false
  deriving DecidableEq, Repr

/-- suprb/optimizer/rule/mutation.py:50-54 `SigmaRange.__call__`: its own `sigma` is the default `0.1` of the base class (45), so a single number is drawn and becomes the `sigma`
of the mutation. -/
def callMutation (c : MutationCfg) (o : OperatorObj) (z b : Pairs K d) : Except PyErr (Pairs K d) :=
  if c.range then { o with sigma := some .scalar }.mutate c.m z b else o.mutate c.m z b

/-- The initialisations of suprb/rule/initialization.py. (suprb/rule/initialization.py:111, 127, 166) -/
inductive InitCfg
  | mean
  | normal (sigma : Sigma)
  | halfnorm (sigma : Sigma)
  deriving DecidableEq, Repr

/-- suprb/rule/initialization.py:111-195: the bounds of the generated matching function, for an initialisation with matching type `k` (the setter 51-61 never fails). -/
def initWith (c : InitCfg) (k : Kind) (m : Point K d) (z : Pairs K d) : Except PyErr (Pairs K d) :=
  match c, k with
  | .mean, k => .ok (meanInit k m)
  | .normal σ, .ordered => (broadcastTo σ d).bind fun _ => .ok (normalInit .ordered z)
  | .normal σ, .unordered => (broadcastTo σ d).bind fun _ => .ok (normalInit .unordered z)
  | .normal σ, .centerSpread => (bothEntries σ).bind fun _ => .ok (normalInit .centerSpread z)
  | .normal σ, .minPercentage => (bothEntries σ).bind fun _ => .ok (normalInit .minPercentage z)
  | .halfnorm σ, .ordered => (broadcastTo σ d).bind fun _ => halfnormInit .ordered m z
  | .halfnorm σ, .unordered => (broadcastTo σ d).bind fun _ => halfnormInit .unordered m z
  | .halfnorm _, k => halfnormInit k m z

/-- What the first steps of a training with the evolution strategy come to: an exception out of `fit`, a fit ended by an error (a model that predicts zeros), or a first child. (suprb/suprb.py:175, 186-194, 217-238) -/
inductive FirstChild (K : Type) (d : Nat)
  | raises (e : PyErr)
  | errorModel (e : PyErr)
  | child (b : Pairs K d)

/-- suprb/suprb.py:173-188: `_init_matching_type` (320-323) sets the matching type of the operators of the evolution strategy (an exception leaves `fit`), then the first rule is
initialised at an origin `m` and mutated (suprb/optimizer/rule/base.py:88-96, suprb/optimizer/rule/es/es.py:108-110; an exception is caught, suprb/suprb.py:217-238).
`zi`, `zm` are the draws; the constraint applied in between cannot fail. -/
def firstChild (i : InitCfg) (c : MutationCfg) (k : Kind) (r : K) (fb : Pairs K d) (m : Point K d) (zi zm : Pairs K d) : FirstChild K d :=
  match newMutation none c.sigma with
  | .error e => .raises e
  | .ok o =>
    match o.setMatching (some k) with
    | .error e => .raises e
    | .ok o =>
      match initWith i k m zi with
      | .error e => .errorModel e
      | .ok b =>
        match callMutation c o zm (constrain k r fb b) with
        | .error e => .errorModel e
        | .ok b' => .child (constrain k r fb b')

/-! ## Bounds and matching types of nested components -/

namespace Json

mutual
/-- sklearn `get_params()` (deep): for every parameter first the nested parameters, if the value has `get_params`, then the parameter itself. (used in suprb/suprb.py:315, 321) -/
def Val.deep : Val → List (List Str × Val)
  | .obj true _ ps => ps.deep
  | .obj false _ _ => []
  | .num _ => []
  | .str _ => []
  | .none => []
  | .array _ => []
/-- See `Val.deep` (used in suprb/suprb.py:315, 321). -/
def Params.deep : Params → List (List Str × Val)
  | .nil => []
  | .cons n v rest => v.deep.map (fun e => (n :: e.1, e.2)) ++ ([n], v) :: rest.deep
end

/-- sklearn `set_params` with one key, given as its path: unknown names are a `ValueError`, values without `set_params` an `AttributeError`. (Setters that reject a value are
modelled above.) (used in suprb/suprb.py:318, 323) -/
def setParam : List Str → Val → Val → Except PyErr Val
  | [], _, _ => .error .valueError
  | n :: rest, w, .obj true c ps =>
    match Dict.get ps.toList n with
    | Option.none => .error .valueError
    | some u =>
      match rest with
      | [] => .ok (.obj true c (.ofList (Dict.set ps.toList n w)))
      | r :: rs =>
        match setParam (r :: rs) w u with
        | .error e => .error e
        | .ok u' => .ok (.obj true c (.ofList (Dict.set ps.toList n u')))
  | _ :: _, _, _ => .error .attributeError

/-- `w in s` for strings. (suprb/suprb.py:322) -/
def hasInfix (w : Str) : Str → Bool
  | [] => w.isPrefixOf []
  | c :: s => w.isPrefixOf (c :: s) || hasInfix w s

/-- suprb/suprb.py:316 -/
def boundsStr : Str := "bounds".toList
/-- suprb/suprb.py:322 -/
def matchingTypeStr : Str := "matching_type".toList

/-- suprb/suprb.py:312-318 `_init_bounds` with the estimated bounds `b`. -/
def initBounds (b : Val) (v : Val) : Except PyErr Val :=
  v.deep.foldlM (fun v e => if boundsStr.isSuffixOf (joinSep e.1) && decide (e.2 = .none) then setParam e.1 b v else .ok v) v

/-- suprb/suprb.py:320-323 `_init_matching_type` with the matching type `m` of the model. -/
def initMatchingType (m : Val) (v : Val) : Except PyErr Val :=
  v.deep.foldlM (fun v e => if hasInfix matchingTypeStr (joinSep e.1) then setParam e.1 m v else .ok v) v

/-- suprb/suprb.py:174-175 -/
def configureDiscovery (b m : Val) (v : Val) : Except PyErr Val :=
  match initBounds b v with
  | .error e => .error e
  | .ok v => initMatchingType m v

end Json

end Suprb
