import Verif.Model.Calc
import Verif.Model.Display
import Verif.Model.Simplify

/-!
# Labels given as text, and the methods of coordinate systems

`Calc.py:49-80`, `889-975`; `Coordinates.py:45-97`, `312-404`.
-/

namespace PyOGRe
variable {K : Type}

/-- `Calc.py:75-76`: labels given as a string; the empty string means that there are none. -/
def labelsOf (ranges : List Char → Py Letters) (s : List Char) : Py (List Sym) :=
  if s = [] then .ok [] else sympySymbolsSeq ranges s

/-- `Calc.py:889-910` `PartialD` and `913-933` `CovariantD` with a string. -/
def derivativeText (ranges : List Char → Py Letters) (role : Role) (s : List Char) : Py CalcObj :=
  if s = [] then .ok ⟨role, none, []⟩
  else do
    let l ← sympySymbolsSeq ranges s
    if l.length ≠ 1 then throw .valueError else return ⟨role, none, l⟩

/-- Calling an object raises `NotImplementedError` for coordinate systems (`Coordinates.py:88-97`). -/
def requireCallable (t : Id') : PyM K Unit := fun w =>
  if (w.objs[t]?).any fun o => o.kind == .coordinates then (.error .notImplementedError, w) else (.ok (), w)

variable [CommRing K]

/-- `t("labels")`: `Tensor.py:84-98`, `Metric.py:98-112`, `Coordinates.py:88-97`, and `Calc.py:49-141`. -/
def callText (E : Engine K) (ranges : List Char → Py Letters) (t : Id') (s : List Char) : PyM K CalcObj := do
  requireCallable t
  let labels ← PyM.lift (labelsOf ranges s)
  calcInit E t labels

/-- `Calc.py:936-1027` `Calc` with the argument `indices` as a string; `none` is `None`.  The labels are checked even if
`sym.symbols` finds none in a string that is not empty. -/
def calcText (E : Engine K) (ranges : List Char → Py Letters) (x : CalcObj) (name symbol : String)
    (s : Option (List Char)) : PyM K Id' := do
  let s := s.getD []
  let labels ← PyM.lift (labelsOf ranges s)
  if s ≠ [] ∧ labels.isPerm x.labels = false then PyM.raise .valueError
  else calcResult E x name symbol labels

/-! ### Coordinate systems -/

omit [CommRing K] in
/-- `Coordinates.py:312-345` `get_components(mode)`; `none` is a mode that is not a string.  `var` is the expression that
a symbol is; the array is reshaped to a column in LaTeX. -/
def coordinatesComponents (P : Printers K) (var : Sym → K) (self : Id') (mode : Option String) :
    PyM K (Answer K) := do
  match mode with
  | none => PyM.raise .typeError
  | some mode =>
    if mode.toLower ∉ ["sympy", "mathematica", "latex"] then PyM.raise .valueError
    else do
      let o ← getObj self
      let n := o.syms.length
      let comps := o.syms.map var
      return if mode.toLower = "sympy" then .array ⟨[n], comps⟩
        else if mode.toLower = "mathematica" then .text (P.mathematica ⟨[n], comps⟩)
        else .text (P.latex ⟨[n, 1], comps⟩)

omit [CommRing K] in
/-- `Coordinates.py:347-374` `show` of a coordinate system: a column.  (There are no coordinates to be mentioned.) -/
def showCoordinates (T : Typeset K) (var : Sym → K) (opt : Options) (self : Id') : PyM K (List (Out K)) := do
  let o ← getObj self
  let label ← PyM.lift (eqSymbol T opt o o.indices)
  return [.array (o.name.toList ++ [':']) label [] ⟨[o.syms.length, 1], o.syms.map var⟩]

omit [CommRing K] in
/-- `Coordinates.py:376-404` `list` of a coordinate system.  `f"{self._symbol}^{symbol}"` is the name of a new symbol. -/
def listCoordinates (T : Typeset K) (var : Sym → K) (opt : Options) (self : Id') : PyM K (List (Out K)) := do
  let o ← getObj self
  return if opt.latex then
      [.markdown ("<div align=center style='font-size:".toList ++ intText (opt.fontSize + 2) ++ "pt'> \n\n".toList ++
        o.name.toList ++ ":".toList ++ "\n\n </div>".toList ++ "<div align=center style='font-size:".toList ++
        intText opt.fontSize ++ "pt'> \n\n $$ \n".toList ++ "\\begin{aligned} \n".toList ++
        joinText "\\\\[5pt]".toList (o.syms.map fun x => T.symbol (o.symbol ++ "^" ++ x) ++ " &= ".toList ++ T.symbol x) ++
        "\n \\end{aligned} \n $$ \n\n </div>".toList)]
    else .line (o.name.toList ++ [':']) :: o.syms.map fun x => .equation (o.symbol ++ "^" ++ x).toList (var x)

/-- One rule given by the user: an equation, `None`, or something else. -/
inductive RuleArg (K : Type)
  | rule (lhs : Sym) (rhs : K)
  | none
  | other

omit [CommRing K] in
/-- The equation or `None`. -/
def RuleArg.value : RuleArg K → Option (Sym × K)
  | .rule x e => some (x, e)
  | _ => Option.none

omit [CommRing K] in
/-- `isinstance(rule, sym.Eq)` or `rule is None`. -/
def RuleArg.ok : RuleArg K → Bool
  | .other => false
  | _ => true

omit [CommRing K] in
/-- `Coordinates.py:45-82` `Coordinates.__init__` with `transformations`, a dictionary with the rules for each target.
Simplification: the object keeps the dictionary that the caller has passed; here it is copied (see `Model/Sharing` for sessions
with the dictionaries of the caller, and C102). -/
def newCoordinatesWith (name : Arg String) (shape : Arg (List Nat)) (syms : List Sym) (indices : IndicesArg)
    (symbol : Arg String) (transformations : Dict Id' (List (RuleArg K))) : PyM K Id' := do
  PyM.lift (validateCoordinates name shape indices symbol (transformations.all fun p => p.2.all RuleArg.ok))
  register fun _ =>
    { kind := .coordinates, name := name.getD "", symbol := symbol.getD "", indices := indices.getD 1,
      coords := 0, metric := 0, comps := [], syms := syms,
      trans := transformations.map fun p => (p.1, p.2.map RuleArg.value), jac := [], alive := true }

omit [CommRing K] in
/-- `Coordinates.py:406-485` `add_coord_transformation` with rules of any type. -/
def addCoordTransformationArg (self coords : Id') (rules : Option (List (RuleArg K))) : PyM K Unit := do
  if !(← isCoordinates coords) then PyM.raise .transformationError
  else if self = coords then PyM.raise .transformationError
  else match rules with
    | none => addCoordTransformation self coords none
    | some rules =>
      if !rules.all RuleArg.ok then PyM.raise .typeError
      else addCoordTransformation self coords (some (rules.map RuleArg.value))

end PyOGRe
