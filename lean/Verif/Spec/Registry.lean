import Verif.Model.Geodesic
import Verif.Model.Simplify
import Verif.Model.Export
import Verif.Model.Display

/-!
# The registry: what refers to what, and what users do
-/

namespace PyOGRe.Spec
variable {K : Type}

/-- An attribute of `o` is `t` or has `t` as a key: the transformations of a coordinate system, the metric, the
coordinates and the stored components of any other object. -/
def Refers (o : Obj K) (t : Id') : Prop :=
  (o.kind = .coordinates ∧ ∃ r, (t, r) ∈ o.trans) ∨
  (o.kind ≠ .coordinates ∧ (o.metric = t ∨ o.coords = t ∨ ∃ d, (t, d) ∈ o.comps))

/-- Some other registered object refers to `t`. -/
def Used (w : World K) (t : Id') : Prop :=
  ∃ i ∈ w.instances, i ≠ t ∧ ∃ o, w.objs[i]? = some o ∧ Refers o t

/-- `t` exists and is not deleted. -/
def InUse (w : World K) (t : Id') : Prop := ∃ o, w.objs[t]? = some o ∧ o.alive = true

/-- No object is registered twice, and registered objects are not deleted. -/
structure Sound (w : World K) : Prop where
  nodup : w.instances.Nodup
  inUse : ∀ i ∈ w.instances, InUse w i

/-- No registered object refers to a deleted one. -/
def NoDangling (w : World K) : Prop :=
  ∀ i ∈ w.instances, ∀ o, w.objs[i]? = some o → ∀ t, Refers o t → InUse w t

/-- Object `t` has this name. -/
def Named (w : World K) (name : String) (t : Id') : Prop := ∃ o, w.objs[t]? = some o ∧ o.name = name

/-- The expressions that users write, with all operators. -/
inductive Expr (K : Type)
  /-- `t("labels")` -/
  | tensor (t : Id') (labels : List Sym)
  /-- `v * e` and `e / u` -/
  | scale (v : K) (e : Expr K)
  /-- `e * f` -/
  | times (e f : Expr K)
  /-- `-e` -/
  | neg (e : Expr K)
  /-- `e + f` -/
  | add (e f : Expr K)
  /-- `e - f` -/
  | sub (e f : Expr K)
  /-- `e @ f` -/
  | mul (e f : Expr K)
  /-- `PartialD("a")` or `CovariantD("a")` -/
  | derivative (role : Role) (labels : List Sym)

/-- Evaluation in Python: operands from left to right; `letters` are the index letters of the options. -/
def Expr.eval [CommRing K] [DecidableEq K] [Algebra ℚ K] (E : Engine K) (letters : List Sym) :
    Expr K → PyM K CalcObj
  | .tensor t labels => calcInit E t labels
  | .scale v e => do
    let x ← e.eval E letters
    calcMul E x (.num v)
  | .times e f => do
    let x ← e.eval E letters
    let y ← f.eval E letters
    calcMul E x (.obj y)
  | .neg e => do
    let x ← e.eval E letters
    calcNeg E x
  | .add e f => do
    let x ← e.eval E letters
    let y ← f.eval E letters
    calcAddObj E x y
  | .sub e f => do
    let x ← e.eval E letters
    let y ← f.eval E letters
    calcSub E x (.obj y)
  | .mul e f => do
    let x ← e.eval E letters
    let y ← f.eval E letters
    calcMatmul E letters x y
  | .derivative role labels => PyM.lift (PyOGRe.derivative role labels)

/-- The tensors that occur in an expression. -/
def Expr.tensors : Expr K → List Id'
  | .tensor t _ => [t]
  | .scale _ e => e.tensors
  | .times e f => e.tensors ++ f.tensors
  | .neg e => e.tensors
  | .add e f => e.tensors ++ f.tensors
  | .sub e f => e.tensors ++ f.tensors
  | .mul e f => e.tensors ++ f.tensors
  | .derivative _ _ => []

/-- The functions that compute a tensor from a metric, or from a tensor. -/
inductive Computation
  | christoffel | riemann | ricci | scalar | einstein | weyl | norm

/-- The functions that compute a Lagrangian or geodesic equations from a metric. -/
inductive CurveComputation
  | lagrangian | fromLagrangian | inactive | fromChristoffel | withTime

/-- What a user does.  (`show` and `list` change the state as `get_components` does; what else they do, and what the
other functions do that only print or set options, has no effect on the objects.) -/
inductive Call (K : Type)
  /-- `Coordinates(...)` -/
  | coordinates (name : Arg String) (shape : Arg (List Nat)) (syms : List Sym) (indices : IndicesArg)
      (symbol : Arg String)
  /-- `c.add_coord_transformation(coords, rules)` -/
  | transformation (c coords : Id') (rules : Option (List (Option (Sym × K))))
  /-- `Metric(...)` -/
  | metric (name : Arg String) (comps : Arg (Arr K)) (coords : Id') (indices : IndicesArg) (symbol : Arg String)
  /-- `Tensor(...)` -/
  | tensor (name : Arg String) (comps : Arg (Arr K)) (metric coords : Id') (indices : IndicesArg)
      (symbol : Arg String)
  /-- `t.get_components(coords, indices)` -/
  | get (t : Id') (coords : Option Id') (indices : Option (List Int))
  /-- `t.change_default_indices(indices)` -/
  | setIndices (t : Id') (indices : List Int)
  /-- `t.change_default_coords(coords)` -/
  | setCoords (t coords : Id')
  /-- `t.change_name(name)` -/
  | rename (t : Id') (name : String)
  /-- `t.delete()` -/
  | delete (t : Id')
  /-- `delete_results()` -/
  | deleteResults
  /-- `clear_instances()` -/
  | clear
  /-- `Calc(e, name, symbol, indices)` -/
  | calc (e : Expr K) (name symbol : String) (indices : List Sym)
  /-- `m.calc_christoffel()` and so on, `t.calc_norm_squared()` -/
  | compute (f : Computation) (t : Id')
  /-- `m.calc_lagrangian(coords)` and so on -/
  | curve (C : Curves K) (f : CurveComputation) (m : Id') (coords : Option Id')
  /-- `l.get_components(coords, indices)` of a Lagrangian or geodesic equation -/
  | curveGet (C : Curves K) (l : Id') (coords : Option Id') (indices : Option (List Int))
  /-- `l.change_default_coords(coords)` of a Lagrangian or geodesic equation -/
  | curveCoords (C : Curves K) (l coords : Id')
  /-- `t.simplify()` -/
  | simplify (t : Id')
  /-- `t.change_symbol(symbol)` -/
  | setSymbol (t : Id') (symbol : String)
  /-- `m.line_element(coords)` -/
  | lineElement (var : Sym → K) (m : Id') (coords : Option Id')
  /-- `m.volume_element_squared(coords)` -/
  | volumeElement (m : Id') (coords : Option Id')
  /-- `import_from_string(text)`; the parser has `steps` steps -/
  | importOne (I : Importer K) (steps : Nat) (text : List Char)
  /-- `import_all_from_string(text)` -/
  | importAll (I : Importer K) (steps : Nat) (text : List Char)

/-- The objects given to a call. -/
def Call.arguments : Call K → List Id'
  | .coordinates _ _ _ _ _ => []
  | .transformation c c' _ => [c, c']
  | .metric _ _ c _ _ => [c]
  | .tensor _ _ m c _ _ => [m, c]
  | .get t c _ => t :: c.toList
  | .setIndices t _ => [t]
  | .setCoords t c => [t, c]
  | .rename t _ => [t]
  | .delete t => [t]
  | .deleteResults => []
  | .clear => []
  | .calc e _ _ _ => e.tensors
  | .compute _ t => [t]
  | .curve _ _ m c => m :: c.toList
  | .curveGet _ l c _ => l :: c.toList
  | .curveCoords _ l c => [l, c]
  | .simplify t => [t]
  | .setSymbol t _ => [t]
  | .lineElement _ m c => m :: c.toList
  | .volumeElement m c => m :: c.toList
  | .importOne _ _ _ => []
  | .importAll _ _ _ => []

/-- The function that is called. -/
def Computation.fn [CommRing K] [DecidableEq K] [Algebra ℚ K] (E : Engine K) : Computation → Id' → PyM K Id'
  | .christoffel => calcChristoffel E
  | .riemann => calcRiemann E
  | .ricci => calcRicci E
  | .scalar => calcScalar E
  | .einstein => calcEinstein E
  | .weyl => calcWeyl E
  | .norm => fun t => do
    requireTensor t
    calcNormSquared E t

/-- The function that is called. -/
def CurveComputation.fn [CommRing K] [DecidableEq K] [Algebra ℚ K] (E : Engine K) (C : Curves K) :
    CurveComputation → Id' → Option Id' → PyM K Id'
  | .lagrangian => calcLagrangian E C
  | .fromLagrangian => calcGeodesicLagrangian E C
  | .inactive => calcGeodesicInactive E C
  | .fromChristoffel => calcGeodesicChristoffel E C
  | .withTime => calcGeodesicTime E C

/-- The state after a call, whether it returned or raised.  (`get_components` of a coordinate system changes
nothing, and the methods that change defaults do not exist there.) -/
def Call.run [CommRing K] [DecidableEq K] [Algebra ℚ K] (E : Engine K) (letters : List Sym) :
    Call K → World K → World K
  | .coordinates name shape syms ix symbol, w => (newCoordinates name shape syms ix symbol w).2
  | .transformation c c' rules, w => (addCoordTransformation c c' rules w).2
  | .metric name comps c ix symbol, w => (newMetric E name comps c ix symbol w).2
  | .tensor name comps m c ix symbol, w => (newTensor .tensor name comps m c ix symbol w).2
  | .get t c ix, w => ((do requireTensor t; getComponents E t c ix) w).2
  | .setIndices t ix, w => ((do requireTensor t; changeDefaultIndices E t ix) w).2
  | .setCoords t c, w => ((do requireTensor t; changeDefaultCoords E t c) w).2
  | .rename t name, w => (changeName t name w).2
  | .delete t, w => (deleteObj t w).2
  | .deleteResults, w => (PyOGRe.deleteResults w).2
  | .clear, w => (clearInstances w).2
  | .calc e name symbol ix, w => ((do
      let x ← e.eval E letters
      calcResult E x name symbol ix) w).2
  | .compute f t, w => (f.fn E t w).2
  | .curve C f m c, w => (f.fn E C m c w).2
  | .curveGet C l c ix, w => ((do requireTensor l; curveComponents E C l c ix) w).2
  | .curveCoords C l c, w => ((do requireTensor l; curveChangeCoords E C l c) w).2
  | .simplify t, w => ((do requireTensor t; simplifyTensor E t) w).2
  | .setSymbol t symbol, w => (changeSymbol t symbol w).2
  | .lineElement var m c, w => ((do requireMetric m; PyOGRe.lineElement E var m c) w).2
  | .volumeElement m c, w => ((do requireMetric m; PyOGRe.volumeElement E m c) w).2
  | .importOne I n text, w => (importFromString E I n text w).elim w (·.2)
  | .importAll I n text, w => (importAllFromString E I n text w).elim w (·.2)

/-- The state after a sequence of calls. -/
def history [CommRing K] [DecidableEq K] [Algebra ℚ K] (E : Engine K) (letters : List Sym) :
    List (Call K) → World K → World K
  | [], w => w
  | c :: cs, w => history E letters cs (c.run E letters w)

/-- The objects given to each call are registered at that time. -/
def Proper [CommRing K] [DecidableEq K] [Algebra ℚ K] (E : Engine K) (letters : List Sym) :
    List (Call K) → World K → Prop
  | [], _ => True
  | c :: cs, w => (∀ t ∈ c.arguments, t ∈ w.instances) ∧ Proper E letters cs (c.run E letters w)

/-- A session that has just been started. -/
def fresh : World K := ⟨[], []⟩

end PyOGRe.Spec
