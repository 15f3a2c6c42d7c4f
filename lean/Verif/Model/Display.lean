import Verif.Model.Options
import Verif.Model.Utils

/-!
# Displaying objects

`info`, `show`, `list`, `line_element` and `volume_element`.
-/

namespace PyOGRe
variable {K : Type}

/-- What appears on the screen.  Simplifications: sympy's pretty printer is not modelled (its argument is shown),
and neither is the typesetting of whole arrays and of line elements. -/
inductive Out (K : Type)
  /-- `display(Markdown(text))` -/
  | markdown (text : List Char)
  /-- `sym.pprint(text)` of a string -/
  | line (text : List Char)
  /-- `sym.pprint(sym.Eq(lhs, rhs))` for a symbol and an expression, and the empty line after it -/
  | equation (lhs : List Char) (rhs : K)
  /-- the components shown by `show`, with the name, the symbol with its indices and the coordinates -/
  | array (name label : List Char) (coords : List Sym) (comps : Arr K)
  deriving DecidableEq

/-- `sym.latex` of an expression, and of a symbol. -/
structure Typeset (K : Type) where
  expr : K → List Char
  symbol : Sym → List Char

/-- `OGReObject.py:150-156`, `159-164`: the index letters appended to the symbol; a missing letter raises
`IndexError`. -/
def withIndices (T : Typeset K) (latex : Bool) (letters : List Sym) : List Int → Nat → List Char → Py (List Char)
  | [], _, s => .ok s
  | index :: rest, i, s =>
    if index = -1 then
      match letters[i]? with
      | none => .error .indexError
      | some l => withIndices T latex letters rest (i + 1)
          (s ++ (if latex then "_{".toList ++ T.symbol l ++ "}{ }".toList else '_' :: l.toList))
    else if index = 1 then
      match letters[i]? with
      | none => .error .indexError
      | some l => withIndices T latex letters rest (i + 1)
          (s ++ (if latex then "^{".toList ++ T.symbol l ++ "}{ }".toList else '^' :: l.toList))
    else withIndices T latex letters rest (i + 1) s

/-- `OGReObject.py:138-165` `_eq_symbol`.  A single `Symbol` cannot be sliced. -/
def eqSymbol (T : Typeset K) (opt : Options) (o : Obj K) (indices : List Int) : Py (List Char) :=
  match opt.letters with
  | .one _ => .error .typeError
  | .many l =>
    let symbol := if opt.latex then (if o.symbol ≠ "" then T.symbol o.symbol else "\\square".toList)
      else (if o.symbol ≠ "" then o.symbol.toList else ['T'])
    withIndices T opt.latex (l.take o.indices.length) indices 0 symbol

variable [Zero K] [One K] [Add K] [Mul K]

/-- `BaseTensor.py:205-226` and `BaseTensor.py:287-305`: the components to be displayed.  `function` is applied with
`map_to_array`; `replace` is the substitution followed by `doit`, component by component; `column` is set by
`show`, which makes a column of a vector first.  `map_to_array` refuses an expression. -/
def shownComponents (E : Engine K) (self coords : Id') (indices : List Int) (function replace : Option (K → K))
    (column : Bool) : PyM K (Arr K) := do
  let a ← getRepresentation E self coords indices
  let bare ← isBare self coords
  let a ← PyM.lift (match function with
    | none => .ok (match column, a.shape with
      | true, [n] => ⟨[n, 1], a.data⟩
      | _, _ => a)
    | some f => if bare then .error .typeError else if column then showWithFunction a f else mapToArray a f)
  return match replace with
    | none => a
    | some f => a.map f

/-- `BaseTensor.py:183-262` `show`. -/
def showTensor (E : Engine K) (T : Typeset K) (opt : Options) (self : Id') (coords : Option Id')
    (indices : Option (List Int)) (function replace : Option (K → K)) : PyM K (List (Out K)) := do
  let o ← getObj self
  let coords := coords.getD o.coords
  let indices := indices.getD o.indices
  let a ← shownComponents E self coords indices function replace true
  let label ← PyM.lift (eqSymbol T opt o indices)
  let c ← getObj coords
  return [.array o.name.toList label c.syms a]

/-! ### `list` -/

/-- `BaseTensor.py:311-316`, `333-338`: the symbol with the coordinates of a position. -/
def positionLabel (T : Typeset K) (latex : Bool) (syms : List Sym) (symbol : List Char) (indices : List Int)
    (position : List Nat) : List Char :=
  (indices.zip position).foldl (fun s p =>
    let x := syms.getD p.2 ""
    let s := if p.1 = -1 then s ++ (if latex then "_{".toList ++ T.symbol x ++ "}{ }".toList else '_' :: x.toList) else s
    if p.1 = 1 then s ++ (if latex then "^{".toList ++ T.symbol x ++ "}{ }".toList else '^' :: x.toList) else s) symbol

/-- `BaseTensor.py:318-328`, `340-350`: component `c` with the entries `plus` and `minus` (the symbol without and with
a minus sign) is added to every group whose value is `c` or `-c`, and to a new one if there is none. -/
def addEntry {V L : Type} [Zero V] [Add V] [Sub V] [DecidableEq V] (c : V) (plus minus : L)
    (groups : Dict V (List L)) : Dict V (List L) :=
  let added := groups.map fun g => (g.1, g.2 ++ (if g.1 - c = 0 then [plus] else []) ++
    (if g.1 + c = 0 then [minus] else []))
  if groups.any fun g => decide (g.1 - c = 0) || decide (g.1 + c = 0) then added else Dict.set added c [plus]

/-- `BaseTensor.py:309-328`, `331-350`: the loop over all positions. -/
def groupEntries {V L : Type} [Zero V] [Add V] [Sub V] [DecidableEq V] (comp : List Nat → V)
    (plus minus : List Nat → L) (positions : List (List Nat)) : Dict V (List L) :=
  positions.foldl (fun groups I => if comp I ≠ 0 then addEntry (comp I) (plus I) (minus I) groups else groups) []

/-- `math.ceil(a / b)` for `b` positive. -/
def ceilDiv (a b : Nat) : Nat := (a + b - 1) / b

/-- `BaseTensor.py:370-376`: one group with `num` entries per line. -/
def groupText (num : Nat) (value : List Char) (entries : List (List Char)) : List Char :=
  (List.range (ceilDiv entries.length num)).flatMap fun i =>
    joinText " = ".toList (if num * i + num < entries.length then (entries.drop (num * i)).take num
      else entries.drop (num * i)) ++
    (if num * i + num ≥ entries.length then " &= ".toList ++ value else "= \\\\[2pt]".toList)

/-- `BaseTensor.py:363-366`: the heading. -/
def heading (opt : Options) (name : String) : List Char :=
  "<div align=center style='font-size:".toList ++ intText (opt.fontSize + 2) ++ "pt;margin-bottom:12pt'> \n\n".toList ++
    name.toList ++ ":".toList ++ "\n\n </div>".toList

/-- `BaseTensor.py:358-389`: the page with all groups in LaTeX.  Zero entries per line raise
`ZeroDivisionError`. -/
def listLatex (T : Typeset K) (opt : Options) (name : String) (groups : Dict K (List (List Char))) :
    Py (List (Out K)) :=
  if groups = [] then
    .ok [.markdown (heading opt name ++ "<div align=center style='font-size:".toList ++ intText opt.fontSize ++
      "pt'> No Non-Zero Elements </div>".toList)]
  else if opt.perLine = 0 then .error .zeroDivisionError
  else
    .ok [.markdown (heading opt name ++ "<div align=center style='font-size:".toList ++ intText opt.fontSize ++
      "pt'> \n\n $$ \n".toList ++ "\\begin{aligned} \n".toList ++
      joinText "\\\\[10pt]".toList (groups.map fun g => groupText opt.perLine.toNat (T.expr g.1) g.2) ++
      "\n \\end{aligned} \n $$ \n\n </div>".toList)]

/-- `BaseTensor.py:391-398`: without LaTeX, one equation per entry. -/
def listPlain (name : String) (groups : Dict K (List (List Char))) : List (Out K) :=
  .line (name.toList ++ ":".toList) ::
    if groups = [] then [.line "No Non-Zero Elements".toList]
    else groups.flatMap fun g => g.2.map fun e => .equation e g.1

/-- `BaseTensor.py:305-356`: the groups of non-zero components; a scalar makes one group.  The symbol and the
coordinates are only looked at when there is something to show. -/
def listGroups [Sub K] [DecidableEq K] (T : Typeset K) (opt : Options) (o : Obj K) (coords : Id')
    (indices : List Int) (positions : List (List Nat)) (a : Arr K) : PyM K (Dict K (List (List Char))) :=
  if o.indices.length = 0 then do
    let label ← PyM.lift (eqSymbol T opt o indices)
    return [(a.get [], [label])]
  else if positions.all fun I => decide (a.get I = 0) then pure []
  else do
    let symbol ← PyM.lift (eqSymbol T opt o [])
    let c ← getObj coords
    let label := positionLabel T opt.latex c.syms symbol indices
    return groupEntries a.get label (fun I => '-' :: label I) positions

/-- `BaseTensor.py:265-398` `list`.  The components have as many entries along every axis as the default
coordinates (`components[position]` would raise otherwise). -/
def listTensor [Sub K] [DecidableEq K] (E : Engine K) (T : Typeset K) (opt : Options) (self : Id')
    (coords : Option Id') (indices : Option (List Int)) (function replace : Option (K → K)) :
    PyM K (List (Out K)) := do
  let o ← getObj self
  let coords := coords.getD o.coords
  let indices := indices.getD o.indices
  let a ← shownComponents E self coords indices function replace false
  let home ← getObj o.coords
  let positions := allIdx (List.replicate o.indices.length home.syms.length)
  let groups ← listGroups T opt o coords indices positions a
  if opt.latex then PyM.lift (listLatex T opt o.name groups) else return listPlain o.name groups

/-! ### Line and volume elements -/

/-- `Metric.py:195-210`, `281-295`: the lower components in the requested coordinates, and these coordinates. -/
def lowerComponents (E : Engine K) (self : Id') (coords : Option Id') : PyM K (Id' × Arr K) := do
  let ok ← coords.elim (pure true) isCoordinates
  if !ok then PyM.raise .typeError
  else do
    let o ← getObj self
    let coords := coords.getD o.coords
    PyM.onlyIf (!(← metricCheck self coords)) (metricTransform E self coords [-1, -1])
    let a ← readComps self coords [-1, -1]
    return (coords, a)

/-- `Metric.py:251-256`: the sum over all components, with the symbols `dx` for the coordinates `x`; `var` is the
expression that a symbol is. -/
def lineSum (var : Sym → K) (syms : List Sym) (a : Arr K) : K :=
  (List.range (a.shape.getD 0 0)).foldl (fun s i =>
    (List.range (a.shape.getD 1 0)).foldl (fun s j =>
      s + a.get [i, j] * var ("d" ++ syms.getD i "") * var ("d" ++ syms.getD j "")) s) 0

/-- `Metric.py:217-227`: the same for LaTeX, with non-commuting symbols `d` and `x`; `emb` takes expressions to
expressions in these symbols.  The textual replacements in the printed result are not modelled. -/
def lineSumLatex {A : Type} [Zero A] [Add A] [Mul A] (emb : K → A) (var : Sym → A) (syms : List Sym) (a : Arr K) : A :=
  (List.range (a.shape.getD 0 0)).foldl (fun s i =>
    (List.range (a.shape.getD 1 0)).foldl (fun s j =>
      let x := syms.getD (if i < j then i else j) ""
      let y := syms.getD (if i < j then j else i) ""
      if x = y then s + emb (a.get [i, j]) * var "d" * var x * var y
      else s + emb (a.get [i, j]) * var "d" * var x * var "d" * var y) s) 0

/-- `Metric.py:183-264` `line_element` without LaTeX: the right-hand side of the equation for `ds**2`. -/
def lineElement (E : Engine K) (var : Sym → K) (self : Id') (coords : Option Id') : PyM K K := do
  let r ← lowerComponents E self coords
  let c ← getObj r.1
  return lineSum var c.syms r.2

/-- `Metric.py:183-264` `line_element` with LaTeX: the right-hand side of the equation for `ds**2`. -/
def lineElementLatex {A : Type} [Zero A] [Add A] [Mul A] (E : Engine K) (emb : K → A) (var : Sym → A) (self : Id')
    (coords : Option Id') : PyM K A := do
  let r ← lowerComponents E self coords
  let c ← getObj r.1
  return lineSumLatex emb var c.syms r.2

/-- `Metric.py:266-311` `volume_element`: the expression that is shown. -/
def volumeElement (E : Engine K) (self : Id') (coords : Option Id') : PyM K K := do
  let r ← lowerComponents E self coords
  return E.simp (E.det r.2)

/-! ### `info` -/

/-- `", ".join(names)`. -/
def commaText (names : List String) : List Char := joinText ", ".toList (names.map String.toList)

/-- The names of the classes: `self.__class__.__name__` (`Geodesic.py:24`, `216`, `408` and the other `class` lines). -/
def className : Kind → String
  | .coordinates => "Coordinates"
  | .metric => "Metric"
  | .tensor => "Tensor"
  | .christoffel => "Christoffel"
  | .lagrangian => "Lagrangian"
  | .geodesicLagrangian => "GeodesicLagrangian"
  | .geodesicChristoffel => "GeodesicChristoffel"
  | .geodesicTime => "GeodesicTime"

/-- The names of the registered objects (other than coordinate systems, which do not have these attributes) that
satisfy a condition, in the order of the registry; registered objects have all their attributes. -/
def namesOf (w : World K) (cond : Obj K → Bool) : List String :=
  w.instances.filterMap fun i => match w.objs[i]? with
    | some o => if o.kind ≠ .coordinates ∧ cond o then some o.name else none
    | none => none

/-- The names of some objects; deleted ones have none. -/
def readNames : List Id' → PyM K (List String)
  | [] => pure []
  | t :: ts => do
    let o ← getObj t
    let rest ← readNames ts
    return o.name :: rest

/-- `Coordinates.py:212-216`: the entry for the transformations, if there are any. -/
def transInfo (trans : List Id') : PyM K (Dict String (List Char)) :=
  if trans = [] then pure []
  else do
    let names ← readNames trans
    return [("Coordinate Transformations", commaText names)]

/-- `_get_info`: `OGReObject.py:123-136`, `BaseTensor.py:172-177`, `Tensor.py:199-204`, `Metric.py:166-178`,
`Coordinates.py:207-226`; the entries "Symbol", "Rank" and "Default Indices" are added by
`fullInfo` in `Model/Messages`. -/
def getInfo (self : Id') : PyM K (Dict String (List Char)) := do
  let o ← getObj self
  let w ← PyM.world
  let info : Dict String (List Char) := [("Name", o.name.toList), ("Type", (className o.kind).toList)]
  match o.kind with
  | .coordinates => do
    let trans ← transInfo (o.trans.map (·.1))
    return if w.instances = [] then info ++ trans
      else info ++ trans ++ [("Default Coordinates For", commaText (namesOf w fun p => p.coords == self))]
  | .metric => do
    let c ← getObj o.coords
    let info := info ++ [("Default Coordinates", c.name.toList)]
    return if w.instances = [] then info
      else info ++ [("Tensors Using This Metric", commaText (namesOf w fun p => p.metric == self))]
  | _ => do
    let c ← getObj o.coords
    let m ← getObj o.metric
    return info ++ [("Default Coordinates", c.name.toList), ("Metric", m.name.toList)]

end PyOGRe
