import Verif.Model.SupRB

/-!
# Model of `suprb/json.py`: configuration, rules, dump and load

Strings are lists of characters, so `split`, `count`, `startswith` and `rfind` are the real ones. A Python dict is an association list in insertion
order. Classes are given by a table of constructor signatures; constructors store their arguments (the convention of scikit-learn that all components follow;
a default of `None` that the constructor replaces by a component is entered as that component).
Numbers survive `json.dump`/`json.load` exactly (floats are written with `repr`).
-/

set_option autoImplicit false

namespace Suprb

namespace Json

/-- Python strings. (suprb/json.py:13, 133) -/
abbrev Str := List Char

mutual
/-- Parameter values. (suprb/json.py:83-91) -/
inductive Val
  /-- `int`, `bool`, `float` -/
  | num (q : ℚ)
  | str (s : Str)
  | none
  /-- `np.ndarray` with its content; `0` is the uninitialised array `np.ndarray([])` -/
  | array (content : Nat)
  /-- an instance of a class; `deep` tells whether it has `get_params` -/
  | obj (deep : Bool) (cls : Str) (ps : Params)
  deriving DecidableEq
/-- Parameters of an instance, in alphabetical order. (suprb/json.py:85) -/
inductive Params
  | nil
  | cons (n : Str) (v : Val) (rest : Params)
  deriving DecidableEq
end

/-- The parameters as a list. (suprb/json.py:85) -/
def Params.toList : Params → List (Str × Val)
  | .nil => []
  | .cons n v rest => (n, v) :: rest.toList

/-- Inverse of `toList`. (suprb/json.py:129, 137) -/
def Params.ofList : List (Str × Val) → Params
  | [] => .nil
  | (n, v) :: rest => .cons n v (ofList rest)

/-- A dict. (suprb/json.py:82) -/
abbrev Dict := List (Str × Val)

/-- `d[k]` (suprb/json.py:137, 148, 173) -/
def Dict.get (d : Dict) (k : Str) : Option Val :=
  match d with
  | [] => Option.none
  | (k', v) :: rest => if k' = k then some v else Dict.get rest k

/-- `d[k] = v` (suprb/json.py:137, 152) -/
def Dict.set (d : Dict) (k : Str) (v : Val) : Dict :=
  match d with
  | [] => [(k, v)]
  | (k', v') :: rest => if k' = k then (k', v) :: rest else (k', v') :: Dict.set rest k v

/-- `del d[k]` for an existing key. (suprb/json.py:180) -/
def Dict.del (d : Dict) (k : Str) : Dict := d.filter fun p => p.1 ≠ k

/-! ## Strings -/

/-- `"__" in s` (suprb/json.py:133) -/
def hasSep : Str → Bool
  | [] => false
  | [_] => false
  | a :: b :: r => (a == '_' && b == '_') || hasSep (b :: r)

/-- `s.count("__")`: occurrences that do not overlap, from the left. (suprb/json.py:141) -/
def countSep : Str → Nat
  | [] => 0
  | [_] => 0
  | a :: b :: r => if a = '_' ∧ b = '_' then countSep r + 1 else countSep (b :: r)

/-- Put a character in front of the first part. (suprb/json.py:142) -/
def consHead (c : Char) : List Str → List Str
  | [] => [[c]]
  | h :: t => (c :: h) :: t

/-- `s.split("__")` (suprb/json.py:142) -/
def splitSep : Str → List Str
  | [] => [[]]
  | [c] => [[c]]
  | a :: b :: r => if a = '_' ∧ b = '_' then [] :: splitSep r else consHead a (splitSep (b :: r))

/-- `"__".join(parts)` (suprb/json.py:142) -/
def joinSep : List Str → Str
  | [] => []
  | [p] => p
  | p :: q :: rest => p ++ '_' :: '_' :: joinSep (q :: rest)

/-- What follows the last `"__"`, if there is one (`s[s.rfind("__") + 2:]`). (suprb/json.py:171) -/
def afterLastSep : Str → Option Str
  | [] => Option.none
  | [_] => Option.none
  | a :: b :: r =>
    match afterLastSep (b :: r) with
    | some s => some s
    | Option.none => if a = '_' ∧ b = '_' then some r else Option.none

/-- suprb/json.py:171 `key[key.rfind("__") + 2:]`; without separator `rfind` is -1 and the first character is cut. -/
def paramName (key : Str) : Str := (afterLastSep key).getD key.tail

/-- suprb/json.py:13 -/
def classPrefix : Str := "class:".toList

/-- `s.startswith("class:")` (suprb/json.py:148, 175) -/
def isClassStr (s : Str) : Bool := classPrefix.isPrefixOf s

/-- suprb/json.py:173 -/
def noneType : Str := "NoneType".toList
/-- suprb/json.py:149 -/
def ndarrayStr : Str := "class:numpy.ndarray".toList
/-- suprb/json.py:86 -/
def loggerStr : Str := "logger".toList

/-! ## Saving the configuration -/

/-- suprb/json.py:85-91 for one value: primitive values are kept, for all others the name of the class (73-78; `None` is an instance of the builtin
class `NoneType`) is stored. -/
def Val.enc : Val → Val
  | .num q => .num q
  | .str s => .str s
  | .none => .str noneType
  | .array _ => .str ndarrayStr
  | .obj _ cls _ => .str (classPrefix ++ cls)

mutual
/-- `get_params()` of sklearn's `BaseEstimator` below a prefix: for every parameter first the nested parameters, if the value has `get_params`, then the
parameter itself; values encoded as in suprb/json.py:85-91. Keys are paths here. -/
def Val.flat : List Str → Val → List (List Str × Val)
  | p, .obj true _ ps => ps.flat p
  | _, .obj false _ _ => []
  | _, .num _ => []
  | _, .str _ => []
  | _, .none => []
  | _, .array _ => []
/-- See `Val.flat` (suprb/json.py:85-91). -/
def Params.flat : List Str → Params → List (List Str × Val)
  | _, .nil => []
  | p, .cons n v rest => v.flat (p ++ [n]) ++ (p ++ [n], v.enc) :: rest.flat p
end

/-- suprb/json.py:81-91 `_save_config`: keys joined by `"__"`, those starting with `logger` left out. -/
def saveConfig (ps : Params) : Dict :=
  ((ps.flat []).map fun e => (joinSep e.1, e.2)).filter fun e => !loggerStr.isPrefixOf e.1

/-! ## Loading the configuration -/

/-- A class: whether its instances have `get_params`, and the parameters of the constructor with their defaults. (suprb/json.py:137, 152) -/
structure ClassInfo where
  deep : Bool
  sig : List (Str × Option Val)

/-- All importable classes, by full name. (suprb/json.py:163-164) -/
abbrev Classes := Str → Option ClassInfo

/-- The parameters of a new instance. (suprb/json.py:129, 137) -/
def bindArgs (args : Dict) : List (Str × Option Val) → Except PyErr Params
  | [] => .ok .nil
  | (n, dflt) :: rest =>
    match (match args.get n with | some v => some v | Option.none => dflt) with
    | Option.none => .error .typeError
    | some v =>
      match bindArgs args rest with
      | .error e => .error e
      | .ok ps => .ok (.cons n v ps)

/-- `_get_class(name)(**args)` (suprb/json.py:157-164): unknown classes cannot be imported; unexpected or missing arguments are a `TypeError`. -/
def construct (W : Classes) (cls : Str) (args : Dict) : Except PyErr Val :=
  match W cls with
  | Option.none => .error .importError
  | some info =>
    if args.all fun a => info.sig.any fun q => decide (q.1 = a.1) then
      match bindArgs args info.sig with
      | .error e => .error e
      | .ok ps => .ok (.obj info.deep cls ps)
    else .error .typeError

/-- `full_class_name.replace(CLASS_PREFIX, "")` (suprb/json.py:158); class names do not contain the prefix again. -/
def className (s : Str) : Str := if isClassStr s then s.drop classPrefix.length else s

/-- suprb/json.py:147-154 `_update_longest_key`: the new value. -/
def updateLongest (W : Classes) (v : Val) : Except PyErr Val :=
  match v with
  | .str s =>
    if isClassStr s then
      if s = ndarrayStr then .ok (.array 0) else construct W (className s) []
    else .ok v
  | _ => .ok v

/-- suprb/json.py:185-191 `_get_keys_with_same_base`. -/
def sameBase (d : Dict) (base : Str) : List Str := (d.map Prod.fst).filter fun k => base.isPrefixOf k && decide (k ≠ base)

/-- suprb/json.py:170-182: one key of `_update_same_base_keys`. -/
def collectKey (W : Classes) (acc : Dict × Dict) (key : Str) : Except PyErr (Dict × Dict) :=
  match acc.2.get key with
  | Option.none => .error .keyError
  | some v =>
    match v with
    | .str s =>
      if s = noneType then .ok (acc.1.set (paramName key) .none, acc.2.del key)
      else if isClassStr s then
        match construct W (className s) [] with
        | .error e => .error e
        | .ok _ => .ok (acc.1, acc.2.del key)
      else .ok (acc.1.set (paramName key) v, acc.2.del key)
    | _ => .ok (acc.1.set (paramName key) v, acc.2.del key)

/-- suprb/json.py:167-182 `_update_same_base_keys`: the parameters and the remaining configuration. -/
def collect (W : Classes) (d : Dict) (base : Str) : Except PyErr (Dict × Dict) :=
  (sameBase d base).foldlM (collectKey W) (([] : Dict), d)

/-- suprb/json.py:132-144: one round of the loop in `_deserialize_config`. -/
def round (W : Classes) (d : Dict) : Except PyErr Dict :=
  match pyMax (fun e : Str × Val => countSep e.1) d with
  | Option.none => .error .valueError
  | some (longest, v) =>
    let base := joinSep (splitSep longest).dropLast
    match updateLongest W v with
    | .error e => .error e
    | .ok v' =>
      match collect W (d.set longest v') base with
      | .error e => .error e
      | .ok (params, d') =>
        match d'.get base with
        | Option.none => .error .keyError
        | some (.str s) =>
          match construct W (className s) params with
          | .error e => .error e
          | .ok o => .ok (d'.set base o)
        | some _ => .error .attributeError

/-- suprb/json.py:133: the condition of the loop. -/
def more (d : Dict) : Bool := hasSep (d.flatMap Prod.fst)

/-- suprb/json.py:132-137 `_deserialize_config` for at most `n` rounds; `none` if more rounds are needed. -/
def deserialize (W : Classes) : Nat → Dict → Option (Except PyErr Dict)
  | 0, d => if more d then Option.none else some (.ok d)
  | n + 1, d =>
    if more d then
      match round W d with
      | .error e => some (.error e)
      | .ok d' => deserialize W n d'
    else some (.ok d)

/-- suprb/json.py:127-129 `_load_config`; `sup` is the class `SupRB`. The number of rounds is the number of keys, which is always enough (`C58_terminates`). -/
def loadConfig (W : Classes) (sup : Str) (d : Dict) : Except PyErr Val :=
  match deserialize W d.length d with
  | Option.none => .error .notImplemented
  | some (.error e) => .error e
  | some (.ok d') => construct W sup d'

end Json

end Suprb
