import Verif.Model.Dump

/-!
# Model of `suprb/wrapper.py`

Models and components are parameter trees (`Json.Val`); the attributes of a component are its parameters. Simplifications: components are not shared between
places of the tree (a nested update changes one place), and there are no attributes besides parameters (methods, attributes set by fitting).
-/

set_option autoImplicit false

namespace Suprb

namespace Wrapper

open Json

/-- `key.replace("__", ".")` (suprb/wrapper.py:37) -/
def replaceSep : Str → Str
  | [] => []
  | [c] => [c]
  | a :: b :: r => if a = '_' ∧ b = '_' then '.' :: replaceSep r else a :: replaceSep (b :: r)

/-- `s.split(".")` (suprb/wrapper.py:38) -/
def splitDot : Str → List Str
  | [] => [[]]
  | c :: r => if c = '.' then [] :: splitDot r else consHead c (splitDot r)

/-- suprb/wrapper.py:37-38 -/
def keyPath (key : Str) : List Str := splitDot (replaceSep key)

/-- Value at a path of attributes, if all attributes exist. (suprb/wrapper.py:41-43) -/
def getPath : List Str → Val → Option Val
  | [], v => some v
  | n :: rest, v =>
    match v.attr n with
    | .ok w => getPath rest w
    | .error _ => none

/-- `setattr` at the end of a path (of existing attributes) of the tree. (suprb/wrapper.py:41-46) -/
def setPath : List Str → Val → Val → Val
  | [], w, _ => w
  | n :: rest, w, .obj dp c ps =>
    match Dict.get ps.toList n with
    | some u => .obj dp c (.ofList (Dict.set ps.toList n (setPath rest w u)))
    | none => .obj dp c ps
  | _ :: _, _, v => v

/-- suprb/wrapper.py:38-42: the attributes that are actually followed (others are skipped), and the object found. -/
def walk : List Str → Val → List Str × Val
  | [], v => ([], v)
  | n :: rest, v =>
    match v.attr n with
    | .ok w => (n :: (walk rest w).1, (walk rest w).2)
    | .error _ => walk rest v

/-- suprb/wrapper.py:33-49: one keyword argument; the state is the model and the names warned about. -/
def applyOne (s : Val × List Str) (kw : Str × Val) : Val × List Str :=
  if kw.1 = "print_config".toList then s
  else
    let path := keyPath kw.1
    let found := walk path.dropLast s.1
    let last := path.getLast?.getD []
    match found.2.attr last with
    | .ok _ => (setPath (found.1 ++ [last]) kw.2 s.1, s.2)
    | .error _ => (s.1, s.2 ++ [kw.1])

/-- suprb/wrapper.py:28-58 `SupRBWrapper.__new__` for a given model: the model afterwards and the warnings. -/
def configure (m : Val) (kwargs : List (Str × Val)) : Val × List Str :=
  (sortedAsc (fun kw => countSep kw.1) kwargs).foldl applyOne (m, [])

/-- suprb/wrapper.py:28: the default of the argument `suprb` is one object, created when the class is defined; it is object 0 of the store. The call changes the
object and returns it (its number). Without that object (numbers outside the store cannot occur) nothing is changed. -/
def call (store : List Val) (suprb : Option Nat) (kwargs : List (Str × Val)) : List Val × Nat :=
  let i := suprb.getD 0
  match store[i]? with
  | none => (store, i)
  | some m => (store.set i (configure m kwargs).1, i)

end Wrapper

end Suprb
