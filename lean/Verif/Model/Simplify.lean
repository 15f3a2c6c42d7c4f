import Verif.Model.Construct

/-!
# `simplify`, and `get_components` with all its arguments

`BaseTensor.py:458-527` and `BaseTensor.py:584-645`.
-/

namespace PyOGRe
variable {K : Type}

/-- `array[0]`: the first entry along the first axis.  An array without axes has none: sympy raises
`ValueError` for an index with more entries than there are axes. -/
def Arr.first [Zero K] (a : Arr K) : Py (Arr K) :=
  if a.rank = 0 then .error .valueError else a.slice (some 0 :: List.replicate (a.rank - 1) none)

/-- `BaseTensor.py:638-641`: the new components of one representation of a tensor of this rank. -/
def simplified [Zero K] (E : Engine K) (rank : Nat) (a : Arr K) : Py (Arr K) :=
  if rank = 0 then (a.map E.simp).first else .ok (a.map E.simp)

/-- `BaseTensor.py:638-641`: the body of the loops. -/
def simplifyAt [Zero K] (E : Engine K) (self : Id') (rank : Nat) (key : Id' × List Int) : PyM K Unit := do
  let a ← readComps self key.1 key.2
  let b ← PyM.lift (simplified E rank a)
  writeComps self key.1 key.2 b

/-- `BaseTensor.py:615-616`: all keys `coords`, and for each the keys of `_components[coords]`, in the order of the
two loops. -/
def Obj.representations (o : Obj K) : List (Id' × List Int) :=
  o.comps.flatMap fun p => ((o.comps.get? p.1).getD []).map fun q => (p.1, q.1)

/-- `BaseTensor.py:584-645` `simplify(tensor)` and `BaseTensor.py:516-523`, without the progress bar.  The loops only
assign to keys that exist, so that they visit the keys that were there at the beginning.  The rank is the number of
default indices. -/
def simplifyTensor [Zero K] (E : Engine K) (self : Id') : PyM K Id' := do
  let o ← getObj self
  let _ ← getObj o.coords
  o.representations.forM (simplifyAt E self o.indices.length)
  return self

/-- What `get_components` returns: an array, or a text in the modes `"mathematica"` and `"latex"`. -/
inductive Answer (K : Type)
  | array (a : Arr K)
  | text (s : String)

/-- `sympy.mathematica_code` and `sympy.latex` (with the brackets replaced) on arrays. -/
structure Printers (K : Type) where
  mathematica : Arr K → String
  latex : Arr K → String

/-- `BaseTensor.py:502-512`: the answer in the requested mode. -/
def Printers.answer (P : Printers K) (mode : String) (a : Arr K) : Answer K :=
  if mode.toLower = "sympy" then .array a
  else if mode.toLower = "mathematica" then .text (P.mathematica a)
  else .text (P.latex a)

/-- `BaseTensor.py:488-493`: `function` is what the given Python function does with one component.  `map_to_array`
refuses an expression. -/
def withFunction [Zero K] (bare : Bool) (function : Option (K → K)) (a : Arr K) : Py (Arr K) :=
  match function with
  | none => .ok a
  | some f => if bare then .error .typeError else mapToArray a f

/-- `BaseTensor.py:495-500`: `replace` is what `subs` followed by `doit` does with one component. -/
def withReplace [Zero K] (replace : Option (K → K)) (a : Arr K) : Arr K :=
  match replace with
  | none => a
  | some r => a.map r

/-- `BaseTensor.py:458-514` `get_components` with all arguments; `mode` is a string.  (`lower` is modelled for ASCII.) -/
def getComponentsWith [Zero K] [One K] [Add K] [Mul K] (E : Engine K) (P : Printers K) (self : Id')
    (coords : Option Id') (indices : Option (List Int)) (replace function : Option (K → K)) (mode : String) :
    PyM K (Answer K) := do
  if mode.toLower ∉ ["sympy", "mathematica", "latex"] then PyM.raise .valueError
  else do
    let a ← getComponents E self coords indices
    let bare ← isBare self coords
    let b ← PyM.lift (withFunction bare function a)
    return P.answer mode (withReplace replace b)

end PyOGRe
