import Verif.Model.Geodesic
import Verif.Model.Simplify
import Verif.Model.Display

/-!
# `get_components`, `show` and `list` of Lagrangians and geodesic equations

With the arguments `replace`, `function` and `mode`.
-/

namespace PyOGRe
variable {K : Type}

/-- What sympy does with the expressions of a `replace` dictionary. -/
structure Rewriter (K : Type) where
  /-- `expr.subs(rules)` for a dictionary. -/
  subs : Dict K K → K → K
  /-- `expr.diff(parameter)` (`Lagrangian.py:472-473`). -/
  rate : Sym → K → K
  /-- `expr.subs(coords._inverse_coord_functions(parameter))` (`Coordinates.py:164-206`). -/
  back : Sym → List Sym → K → K
  /-- `expr.doit()` -/
  doit : K → K

/-- A dictionary with these entries; later entries overwrite earlier ones. -/
def mergedRules [DecidableEq K] (l : List (K × K)) : Dict K K := l.foldl (fun d r => d.set r.1 r.2) []

/-- `Lagrangian.py:465-492`, `Geodesic.py:905-933` (and the same lines in `show` and `list`): the rules for the
expressions, for their first derivatives and for their second derivatives. -/
def replaceRules [DecidableEq K] (C : Curves K) (R : Rewriter K) (p : Sym) (syms : List Sym) (replace : List (K × K)) :
    Dict K K :=
  let f := replace.map fun r => (C.asFunctions p syms r.1, C.asFunctions p syms r.2)
  let df := f.map fun r => (R.rate p r.1, R.rate p r.2)
  let ddf := df.map fun r => (R.rate p r.1, R.rate p r.2)
  mergedRules ((f ++ df ++ ddf).map fun r => (R.back p syms r.1, R.back p syms r.2))

/-- `Lagrangian.py:477-492`, `Geodesic.py:918-939`: the substitution in one component.  For a `GeodesicTime` the parameter
is the first coordinate, with the velocity 1 and the acceleration 0. -/
def curveReplace [Zero K] [One K] [DecidableEq K] (C : Curves K) (R : Rewriter K) (kind : Kind) (syms : List Sym)
    (replace : List (K × K)) (x : K) : K :=
  let p := curveParameter C kind syms
  let y := R.subs (replaceRules C R p syms replace) x
  match kind with
  | .geodesicTime => R.subs [(C.var (dot p), 1), (C.var (ddot p), 0)] y
  | _ => y

section
variable [Zero K] [One K] [Add K] [Mul K] [DecidableEq K]

/-- `Lagrangian.py:427-510`, `Geodesic.py:869-959` `get_components` with all arguments; `mode` is a string and
`replace` the list of the items of the dictionary.  (`lower` is modelled for ASCII.) -/
def curveComponentsWith (E : Engine K) (C : Curves K) (R : Rewriter K) (P : Printers K) (self : Id')
    (coords : Option Id') (indices : Option (List Int)) (replace : Option (List (K × K))) (function : Option (K → K))
    (mode : String) : PyM K (Answer K) := do
  if mode.toLower ∉ ["sympy", "mathematica", "latex"] then PyM.raise .valueError
  else do
    let o ← getObj self
    let a ← curveRepresentation E C self (coords.getD o.coords) (indices.getD o.indices)
    let bare ← isBare self (some (coords.getD o.coords))
    let a ← PyM.lift (withFunction bare function a)
    let c ← getObj (coords.getD o.coords)
    let a := match replace with
      | none => a
      | some rules => a.map (curveReplace C R o.kind c.syms rules)
    return P.answer mode (a.map (C.asFunctions (curveParameter C o.kind c.syms) c.syms))

/-- `Lagrangian.py:193-234`, `292-328`, `Geodesic.py:621-669`, `727-770`: the components to be displayed.  `column` is set
by `show`, which makes a column of a vector first. -/
def curveShown (E : Engine K) (C : Curves K) (R : Rewriter K) (self coords : Id') (indices : List Int)
    (function : Option (K → K)) (replace : Option (List (K × K))) (column : Bool) : PyM K (Arr K) := do
  let o ← getObj self
  let a ← curveRepresentation E C self coords indices
  let bare ← isBare self (some coords)
  let a ← PyM.lift (match function with
    | none => .ok (match column, a.shape with
      | true, [n] => ⟨[n, 1], a.data⟩
      | _, _ => a)
    | some f => if bare then .error .typeError else if column then showWithFunction a f else mapToArray a f)
  let c ← getObj coords
  return match replace with
    | none => a
    | some rules => a.map fun x => R.doit (curveReplace C R o.kind c.syms rules x)

/-- `Lagrangian.py:175-272`, `Geodesic.py:603-707` `show`. -/
def showCurve (E : Engine K) (C : Curves K) (R : Rewriter K) (T : Typeset K) (opt : Options) (self : Id')
    (coords : Option Id') (indices : Option (List Int)) (function : Option (K → K)) (replace : Option (List (K × K))) :
    PyM K (List (Out K)) := do
  let o ← getObj self
  let coords := coords.getD o.coords
  let indices := indices.getD o.indices
  let a ← curveShown E C R self coords indices function replace true
  let label ← PyM.lift (eqSymbol T opt o indices)
  let c ← getObj coords
  return [.array o.name.toList label c.syms a]

/-- `Lagrangian.py:274-425`, `Geodesic.py:709-867` `list`.  The empty lines, which are fewer for a `GeodesicTime`, are
not modelled. -/
def listCurve [Sub K] (E : Engine K) (C : Curves K) (R : Rewriter K) (T : Typeset K) (opt : Options) (self : Id')
    (coords : Option Id') (indices : Option (List Int)) (function : Option (K → K)) (replace : Option (List (K × K))) :
    PyM K (List (Out K)) := do
  let o ← getObj self
  let coords := coords.getD o.coords
  let indices := indices.getD o.indices
  let a ← curveShown E C R self coords indices function replace false
  let home ← getObj o.coords
  let positions := allIdx (List.replicate o.indices.length home.syms.length)
  let groups ← listGroups T opt o coords indices positions a
  if opt.latex then PyM.lift (listLatex T opt o.name groups) else return listPlain o.name groups

end

end PyOGRe
