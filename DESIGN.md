# Design of the PyOGRe model

Code under study: `/repo/src/PyOGRe` (pinned commit). The model is in `/verif/lean/Verif`, all in the
namespace `PyOGRe`. The properties are in `properties.jsonl`, the theorems that prove them in
`MANIFEST.json`, the axioms of every theorem in `AXIOMS.md`, the wrong programs that were tried in
`seeded/LOG.jsonl`.

## 1. Layers

| modules | what they contain |
|---|---|
| `Py`, `Arr` | Python exceptions as values; sympy's dense arrays (shape and row-major data) and the sympy calls that are used: item access, slicing, `tensorproduct`, `tensorcontraction`, `permutedims`, `+`, scalar `*`, `applyfunc`. |
| `Model/Utils` | `Utils.py`: `contract`, `partial_contract`, `elements`, `map_to_array`, `zero_tensor`. |
| `Model/Core` | the pure parts of `Tensor._raise_lower`, `BaseTensor._transform_coordinates`, `Coordinates._calculate_jacobian`. |
| `Model/World` | the session: all objects ever created, the registry, the monad `PyM` of computations that change the session and may raise (an exception does not undo what was done before it). |
| `Model/Objects` | `get_components`, `_get_representation`, `_transform_coordinates` and `_raise_lower` of tensors, metrics and Christoffel symbols, the caches, `change_default_*`, `add_coord_transformation`. |
| `Model/Construct` | `Validate*` and the constructors. |
| `Model/Registry` | `delete`, `delete_results`, `clear_instances`, the loops that delete while they iterate, lookups by name. |
| `Model/Live` | which Python list is the registry, and what `get_instances` returns. |
| `Model/Calc`, `Covariant`, `Curvature` | labelled tensors (`CalcObject` with all its operators), `PartialD`, `CovariantD`, `Calc`, and the `Calc*` functions up to `CalcNormSquared`. |
| `Model/Geodesic` | `CalcLagrangian`, the three `CalcGeodesic*`, the classes in `Lagrangian.py` and `Geodesic.py`. |
| `Model/Replace` | `get_components`, `show` and `list` of these classes with `replace`, `function` and `mode`. |
| `Model/Lexer`, `Parser`, `Interpreter` | the Mathematica parser. |
| `Model/Export` | `Export.py` without the file functions. |
| `Model/Files` | the file functions of `Export.py`: an export passes through a list of states of the disk. |
| `Model/Options`, `Display` | setters of the options; `show`, `list`, `info`, line and volume element. |

`Spec/*` holds small specifications that do not use the helpers of the model, and the concrete sessions of the
examples. `Lemmas/*` holds auxiliary lemmas. `Props/*` holds the property theorems (`C01_...`), each with an
`example` (in the same file, or in `Props/ChartExamples`) that meets its hypotheses. `Verif.lean` imports
everything.

## 2. Values

A sympy expression is modelled by its mathematical value: an element of an arbitrary commutative ring `K` (a
commutative algebra over the rational numbers where the code uses rationals). The theorems hold for every such `K`.
What sympy does with expressions is a structure `Engine K` of unknown functions; the theorems assume only the
laws that they list as hypotheses:

* `EngineOK`: `simplify`/`cancel` preserve the value; when a matrix is inverted, the product with the result is
  the identity.
* `EngineTotal`: a matrix that has an inverse is inverted; a matrix with non-zero determinant has an inverse.
* `Spec.Calculus`: derivatives are additive, obey the Leibniz rule and commute.
* `Spec.SubstOK`: substitution of one symbol is a ring homomorphism that fixes other symbols and constants, and
  obeys the chain rule (used for C41, C42, C72).
* `Spec.Curves` with its laws: what sympy does with functions of the curve parameter (C42 - C45).
* `Spec.RewriterOK`: substituting a dictionary of independent rules for symbols (C87) is substituting them one after the
  other; that differentiating an expression with functions for the coordinates and writing symbols back is the derivative
  along the curve is a hypothesis about the expressions of the `replace` argument (`Differentiates`).

Theorems about shapes, exceptions, caches and the registry assume none of them. All the laws together are satisfied by
polynomials (`Spec/Poly`, `Spec/Jets`: `polyEngine_ok`, `polyEngine_total`, `polyEngine_swap`, ...), by an engine that
computes and with which whole sessions are evaluated by the kernel (`Spec/Line`), and by the engines of `Spec/Curved` and
`Props/Geodesic`; the examples use these.

Consequence: "value" means value, not form. That two expressions are displayed in the same way is not a
statement of this model, except where strings are modelled (parser, export, display).

## 3. Vocabulary of the statements

* `Agree n r a T` (`Spec/Tensors`): the array `a` is well formed, has `r` axes of length `n`, and entry `I` is `T I`.
* `Does m w Q`: the call `m` returns from state `w`, and the result and the new state satisfy `Q`; `Fails m w e`: it raises
  `e`; `Evaluates`: a formula returns a labelled tensor that denotes the given values.
* `Scene G V w` (`Spec/Calc`): in state `w` there is a metric with the geometry `G` (coordinates, symbols, matrix,
  inverse) and the tensors of the view `V`, each with its name, default coordinates, configuration and components; whatever
  has been cached agrees with it; the registry is in order. `C21_scene_metric` and `C21_scene_tensor` show that
  constructors lead to scenes, and the theorems about calls say which scene is left.
* `session`, `Op`, `Event` (`Spec/Session`): sessions of declarations and requests (C12 - C15, C67).
* `Spec.Call`, `history` (`Spec/Registry`): histories of arbitrary calls, including those that raise (C46 - C51, C60, C71): every modelled function that changes the state, with curvature, curves, `simplify` and imports.
* `_partial` in a name: the property has a further hypothesis in this theorem; the `note` in `MANIFEST.json` says what is
  missing. `_false` (and `_refused`): the property fails for the code, with the witness.

## 4. Properties

`+` proved for everything the property ranges over; `-` false of the code as stated: the negation is proved on a witness (or
for a whole class of cases), and the part that holds is a `_partial` theorem; `~` proved under the restriction given.

| id | | model | method, and what is false or missing |
|---|---|---|---|
| C01 | + | `contract` | induction over the pairs and the summed index tuples |
| C02 | + | `contract` | case analysis of the checks, exact characterisation |
| C03 | + | `partialContract` | pointwise |
| C04 | - | `partialContract` | pointwise for axes 0 and 1; a third axis is always refused |
| C05 | + | `zeroTensor` | case analysis |
| C06 | + | `elements` | induction on the shape |
| C07 | - | `mapToArray` | pointwise for hypercubes; witness: a column |
| C08 | + | `tensorRaiseLower` | induction over the axes; any history of requests |
| C09 | + | same | induction over the visited configurations; metric times inverse is the identity |
| C10 | + | caches | invariant: every stored representation is a function of the declared one |
| C11 | + | `newMetric` | law of `inv`; invariant over histories |
| C12 | - | `metricTransform` | `KeyError` and a poisoned cache when the first request is not the default configuration; sessions that avoid this: invariant |
| C13 | - | `baseTransform` | induction over the axes; sessions: one geometry explains all answers; refuted for scalars after their default coordinates were changed |
| C14, C15 | + | same | from the geometry of the session |
| C16 | - | `addCoordTransformation`, Jacobian cache | a computed Jacobian is kept when rules change (for all tensors) |
| C17 | - | `calculateJacobian` | pointwise; witness: permuted coordinates without rules |
| C18 | - | sequential substitution | independence of order for disjoint symbols; witness: exchange of two symbols |
| C19, C20 | + | `validate*`, constructors | case analysis, exact characterisation of accepted arguments |
| C21, C25, C27, C28 | + | operators of `CalcObject` | denotation of a labelled tensor at an assignment of values to labels |
| C22 | - | operators of `CalcObject` | as C21; negation and division refuted for scalars after their default coordinates were changed |
| C23 | - | `calcRsub` | `v - A` is `-A` for every `v` |
| C24, C26 | - | traces and products | denotation; false when operands or metric have other default coordinates |
| C29, C30 | - | `matmulPartial` | third label refused; wrong order of labels on the right |
| C31, C33, C34 | ~ | `matmulCovariant` | denotation, induction over the indices, tensor calculus; default configuration (-1,-1); false for intermediate results, and for (1,1), where `C31_upper_*`, `C33_upper` and `C34_upper_*` say what is computed |
| C32 | - | same | exact result; wrong order of labels |
| C35 | - | `computeChristoffel` | (-1,-1): Levi-Civita; (1,1): every component has the wrong sign |
| C36 - C39 | ~ | `compute*` | denotation, then the identities (symmetries, Bianchi) over commuting derivations, any dimension; (-1,-1). For (1,1) the wrong Christoffel symbols give wrong curvature: `C36_upper` - `C39_upper` say which, `C36_false` - `C39_false` give a metric |
| C40 | - | `calcNormSquared` | any rank; found by name |
| C41 | - | `christoffelTransform` | chain rule; `KeyError` for other configurations; exact error term after lowering |
| C42 - C44 | - | `Model/Geodesic` | jets of curves; Euler-Lagrange equals the connection form up to the metric factor; false of metrics with the same name (C42) and of metrics declared by upper components, whose equations are computed with the wrong sign (C43, C44) |
| C45 | - | `geodesicTransform` | the old components are returned, for all rules |
| C46, C49 | + | registry machine | case analysis; histories |
| C47, C48, C50, C51, C71 | - | registry machine | invariants over histories; exact count of what a delete-while-iterating loop leaves; witnesses |
| C52, C53 | - | lookups by name | invariant `NamesOK`; witnesses |
| C54, C55 | - | `Lexer` | induction over texts; witnesses |
| C56 | - | `Parser` | fuel-free statement (a linear number of steps decides), grammar; witness: `{)` loops |
| C57 | + | `Parser` | induction over expression trees |
| C58 | - | `Interpreter` | induction over nested data; witness: empty list with a space |
| C59 - C61 | - | `Export` | composition of the round trips, any registry; many witnesses |
| C62 - C64 | - | `Display`, `Options` | invariant of the grouping loop; arithmetic of line breaking; witnesses |
| C65 | - | `lineElement`, `volumeElement` | algebra; `KeyError` for metrics declared with (1,1) in new coordinates |
| C66, C69 | + | formulae of any depth | induction over formulae |
| C67 | + | sessions | invariant over sessions: one lawful geometry |
| C68 | - | `calcInit` | any number of labels is accepted |
| C70 | - | several covariant derivatives | witnesses: sums, products and second derivatives raise |
| C72 | ~ | all of the above | covariance of curvature under the chain rule; first request; counterexample with coordinates without rules at another place |
| C73 | - | `simplifyTensor` | induction over the stored representations; `ValueError` for every scalar |
| C74 | - | `getComponentsWith` | case analysis; `function` on scalars in other coordinates raises `TypeError` |
| C75 | + | argument checks of all functions | case analysis over the functions |
| C76 | - | `showTensor` | composition of C74 and the display lemmas; every vector with a function is displayed as a square array; scalars in other coordinates with a function raise `TypeError` |
| C77 | + | `Options` setters | induction over the calls; complete description of `sympy.symbols` on strings without ranges (`Lemmas/Names`) |
| C78 | + | `labelsOf`, `callText`, `derivativeText`, `calcText` | the same description of `sympy.symbols` |
| C79 | - | `newCoordinatesWith` | induction over the targets; unchecked with `indices=None` |
| C80 | + | `showCoordinates`, `listCoordinates`, `coordinatesComponents` | induction over the coordinates |
| C81 | + | `history` over all calls | what each call may do to each object (`Effect`), induction over the history |
| C82 | + | `history`, `getComponents`, `curveComponents` | stored components are overwritten by `simplify` only: components are written only where there are none (`Persists`) |
| C83 | - | `parse` | simultaneous induction over the parsers: each accounts for what it consumes; witnesses |
| C84 | - | `visit`, `replaceGreek` | finite table of names, induction over the pieces of a string: replacing one command leaves the others |
| C85 | - | `visit`, `Node.repr`, `callFunction` | induction over the argument: its text is legal Python with the same value; witnesses `f[(-x)^2]`, `Sin[Cos[x]]`, `Sin[\[Theta]]` |
| C86 | - | `callDerivative` | induction over the variables; witness: order zero |
| C87 | `Spec/Replace`, `Spec/PlaneCurves` | `curveComponentsWith`, `showCurve`, `listCurve` | the dictionary of rules is computed as a set of independent substitutions, which is the prolongation of the replacements; witnesses in the plane: `xdot` is not replaced, and a constant replaced by `y` turns `0` into `yddot` |
| C88 | `Spec.tensorRoles` | `importFromString`, `importAllFromString` | importing reads the role once and the other entries by name; induction over the objects |
| C89 | `Spec.HasNow` | `exportFile`, `exportAllFile`, `importFromFile`, `importAllFromFile` | by cases; clearing a cleared registry changes nothing |
| C90 | `Disk` | `importAllFromFile`, `importFromFile` | false for `import_all_from_file`, which clears the registry first (uses C49); by C60 for `import_from_file` |
| C91 | `Spec.HasNow` | `exportFile`: `open(..., "w")` empties the file, then pieces of the text arrive in order | induction over the pieces; false as stated, the file is empty for a time |
| C92 | the value zero | `calcEinstein`, `calcMatmul` with `CovariantD` | C31 reduces the session to components; contracted Bianchi identity with matrices of Christoffel symbols; false for default (1,1) |
| C93 | the value zero | `calcRiemann`, `calcMatmul` with `CovariantD` | for any symmetric coefficients (`Geo.Conn`), so for both default configurations |
| C94 | sum over the labels with the components of the computed Riemann tensor | `calcMatmul` twice with `calcResult` between, `calcRiemann` | commutator of two derivatives, split by pairs of labels (`twice`, `crossed`); false for default (1,1) outside the default configuration |
| C95 | the derivative of the answered Lagrangian as a combination of the answered equations, and its value under every homomorphism for which they vanish | `calcLagrangian`, `calcGeodesicLagrangian`, `calcGeodesicChristoffel`, `curveComponents` | the chain rule of `CurvesOK` and the equations of Euler and Lagrange (`rate_lagrangian`); false for the Christoffel symbols and default (1,1) |
| C96 | the components of the answer for both values of `activate`, in the terms of the metric | `calcGeodesicLagrangian`, `calcGeodesicInactive`, `unlessCurve` | as C43, with the unevaluated derivative as an arbitrary function; false of later requests because of the lookup by name |
| C97 | `Vanishes`: zero in every configuration; dimension 1, 2, 3 | `calcRiemann`, `calcEinstein`, `calcWeyl` | from the symmetries of C36 to C39; two indices of the Weyl tensor raised, its traces then determine all components; false for (1,1) |
| C98 | `Vanishes`, for metrics whose components have zero derivatives | the functions of C35 to C39 | the coefficients that the library computes are zero with either sign; C36 to C39 for arbitrary coefficients |
| C99 | `Scaled`, `Scales`: two metrics in two sessions, and the components that the same function returns | the functions of C35 to C39 | the coefficients agree, then the formulae of `Spec/Connection` one by one |
| C100 | `SameSolutions`: zero for the same values of all symbols and functions | the functions of C42 to C44 | the coefficients are zero with either sign (C98), then C43 and C44 for arbitrary coefficients |
| C101 | `Matches`, `SameSolutions` for two metrics in two sessions | the functions of C42 to C44 | as C99; the metric with its index is a unit factor of the equations from the Lagrangian |
| C102 | `begun`, `GivenOnce`, `GivenAway`, `copying` | `Shared`, `Deed` (`Model/Sharing`): sessions with the dictionaries of the caller | invariants over any actions: who uses a dictionary has its content; without sharing, a simulation by the session that copies; witnesses with one dictionary for two systems |
| C103 | `Cyclic`, `momentumRate` | the functions of C42 to C44 | the rate of the momentum is the lowered geodesic equation (`rate_cyclic`); witness for (1,1) as in C95 |
| C104 | `SameMotion`: values of the expressions for two parameters of one curve, related by the chain rule | the functions of C43 and C44 | `(ẋ⁰)²` times the equation with the time parameter is the i-th equation minus `dxⁱ/dt` times the zeroth (`reparametrised`), for arbitrary coefficients |
| C105 | `Lost`: which objects are gone | `deleteTold`, `deleteResultsTold` (`Model/Messages`) | induction over the loops; the silent model of C48 makes the same changes |
| C106 | `Entries`, `sheet`, `page`: the lines that are shown | `fullInfo`, `strObj`, `showInfo` (`Model/Messages`) | C47: everything an object refers to is in use; the dictionary of `getInfo` read in the order of `INFO_ORDER` |
| C107 | `Alike`, `OneLine` | as C106 | lines can be separated at the line breaks; numerals and tuples are injective; witness with a line break in a name |
| C108 | `truth`, `letterList`, `announced`: values as they are shown; `newLetters` and so on (as C77) | `setIndexLettersTold` and so on (`Model/Confirm`) | C77 for the values; cases of the calls |
| C109 | `screen`: the lines one below the other | `getOptions` (`Model/Confirm`) | lines can be separated at line breaks, from the front up to the letters and from the end down to the curve parameter; names in a label string have no commas; texts of tuples are injective |
| C110 | `Rescaled`: the second metric is a function times the first; `Scales`, `Concur`: how the components are related | `calcWeyl` and the functions it uses | `Geo.Data.conformal_W`: the change of the Christoffel symbols, the Riemann and Ricci tensors and the scalar by the gradient of the factor, for any calculus; example over power series |
| C111 | `Finds`: the components that are returned; `NoEntries` | `calcRicci`, `calcEinstein`, `calcRiemann`, `calcWeyl` | traces with the inverse metric, for arbitrary connection coefficients (so also for the default configuration (1,1)); example: a plane wave |
| C112 | `Layered`: the references have no circles; `InUse`, `Refers` | `clearInstances`, `deleteResults`, `deletePass`, `tryDelete` | `Pruned`: what a sequence of deletions leaves; one pass deletes at least one object that nothing refers to, so four passes delete four; three sessions in which objects survive |
| C113 | the histories of C30; `Call.clears` | `Model/Live`: `Lists`, `getInstances`, `clearLoops` (identity of the list of objects) | invariant: the present list has the contents of the registry, lists replaced earlier never change; `C113_afterwards` from the lemmas of C112 |
| C114 | `Determinants`, sums of components and derivatives of the determinant of the metric | `volumeElement`, `calcChristoffel`, `calcMatmul` with `CovariantD` | Jacobi's formula for the derivative of a determinant (`diff_det`), with the adjugate as determinant times inverse; divergence from C31; false for (1,1) |
| C115 | `StaticField`, `charge`, `chargeRate`; values are homomorphisms to any ring | `calcGeodesicChristoffel`, `calcMatmul` with `CovariantD` | chain rule along a curve; the terms with the connection cancel for every connection, so also for the wrong one of metrics with default indices (1,1) |
| C116 | differences and cyclic sums of components and derivatives | `calcMatmul` with `CovariantD` | the connection that is computed is symmetric, for both default configurations of the metric (`TorsionFree`) |
| C117 | `Refused` (raises, nothing changes), `Missing` (raises `AttributeError`, nothing changes), histories of `Call`s | all methods of objects; `Expr.eval` | a deleted object stays deleted (C81), and each method reads an attribute before it changes anything; induction over formulae. `calc_lagrangian` and the geodesic equations with given coordinates are left out: with a deleted metric they may leave a temporary tensor before they raise |
| C118 | `rulesFor`, the last content given to a list (`Act.content`), sessions in which the lists are copied (`listing`) | `Model/RuleLists`: sessions with the lists of the caller; `add_coord_transformation` | induction over the actions, with the effect of calls (C81). False in general, because the list itself is kept (witness: a list that is emptied afterwards); exact description in `C118_current` |
| C119 | sums over all tuples of indices; `TField.comp` for the opposite configuration | `CalcNormSquared`, covariant derivatives | the Leibniz rule for labelled values (C34) and the independence of contractions from the positions of the summed labels. False for metrics with default indices (1,1), with a witness |
| C120 | sums of components of the inverse metric, derivatives of the scalar and of the determinant | `PartialD`, `Calc`, `CovariantD`, `volumeElement` | the session step by step (C29, C28, C31); the trace of the Christoffel symbols (C114). False for metrics with default indices (1,1), with a witness |
| C121 | the relation `Laws` between formulae (`Spec/Algebra.lean`): one constructor per law, closed under use anywhere outside derivatives | the operators of `Calc` (C69) | induction on the use of the laws; regrouping by merging the two Einstein sums into one, swapping by the metric law of contracted labels. Witnesses that the two conditions are needed: a label common to three factors, and a sum below `PartialD` |
| C122 | `SameTensor` (`Spec/Algebra.lean`): both evaluate to labelled tensors with the same components for every choice of positions and values of the labels | `PartialD` in `Calc` (C69) | the value of a derivative is that of the components in the default configuration, moved by the metric; the rules of calculus hold there. `_sum_partial` and `_product_partial` need default positions that agree (sums) or are opposite (contracted labels); the witnesses have the metric diag(1, 1+x) |
| C123 | `Product`, `twoBlocks`, `Splits`, `ScalarsAdd` (`Spec/Product.lean`): three sessions, one for each factor and one for the product | `CalcChristoffel`, `CalcRiemannTensor`, `CalcRicciTensor`, `CalcRicciScalar`, `CalcEinsteinTensor` | what the functions return is known for any connection (C35 to C39, C99); the inverse of a block matrix, then every sum over the indices of the product is split into two and the terms with indices of both factors vanish |
| C124 | `Product`, `Pairs`, `LagrangiansAdd`, `Begins` and the law `OnlyOccurring` of substitutions (`Spec/ProductMotion.lean`): three sessions, as in C123 | `CalcLagrangian`, `CalcGeodesicFromLagrangian`, `CalcGeodesicFromChristoffel`, `CalcGeodesicWithTimeParameter` | the equations are known for any connection (C48, C101); the connection of the product has two blocks (C123), so each equation contains only the variables of one factor; the equations with the metric in front are solved for the accelerations with the inverse metric |
| C125 | `CoordsSet`, `IndicesSet`, `Ruled` (`Spec/Default.lean`): two sessions that differ in one attribute of one object | `change_default_coords`, `change_default_indices`, `get_components`, also of Lagrangians and geodesic equations | the steps of the request are read off from its success; the change takes the same steps, and requests change only caches (`Persists`) |
| C126 | `Ordinary` (in `Props/Symbols.lean`), `WellSeparated`, `labelNames`: names without separators, and the names in a string | `str_symbols`, `__call__` and `Calc` with a string | induction on the list of names: the string that joins them is split into them again |
| C127 | one axis per index, each as long as the coordinate system asked for; the shape a tensor is created with lasts | all calls of `history`, `getComponents`, `curveComponents` | invariant on the stored arrays and Jacobians (`Fits`), kept by every call (`history_fits`), for sessions whose coordinate systems have equally many coordinates; refuted otherwise by a line sent into a plane (`C127_false`) |
| C128 | `Described` (Spec/Entries.lean): what the entries of a text say about an object; `roleTable` with the default symbols | `importFromString`, `importOne`, `findComps`, the constructors | inversion of the import step by step; `findComps_ok` by induction on the listed components, nested lists against `Tabulates` |
| C129 | `Described` as for C128, with `FirstCalled` for metrics as well; `CoordinatesFirst` (Spec/Entries.lean): the order of the objects | `importAllFromString`, `importAllFromVal`, `resolve`, `importTrans` | each pass either adds objects or changes rules only (`Ext`), what is made and what a name means survive later passes (`Present.ext`, `FirstCalled.ext`), the passes are matched with the entries by induction on the list; the registry is empty at the start by C49 |
| C130 | `RuleGiven` and `EquationsFor` (Spec/Entries.lean): what a text lists as rules | `importTrans`, `addCoordTransformation`, `rulesOf`, the passes of `importAllFromVal` | invariant of the pass over the rules (`Gains`: nothing but rules changes, none is dropped, new ones have a source in the text) and what each step achieves (`Reached`), by induction on the three nested loops; the other passes keep the objects there are |
| C131 | `EquationsFor`, `Called` (Spec/Entries.lean) | `transOf`, `rulesOf`, `importCoordinates` | membership in `transOf` and the dictionary that is built, by induction on the listed transformations |

The witnesses of false properties use the smallest instance that shows the defect; where a whole class of inputs fails,
the theorem is universal (for instance `C16_old_jacobian_is_kept`, `C23_false`, `C35_upper_sign`, `C40_found_by_name`,
`C41_refused`, `C45_false`, `C50_temporaries_exact`, `C52_found_by_name`, `C60_false`, `C73_false`).

## 5. Trusted base

* The kernel of Lean 4.33.0. No axioms were added; every theorem depends on at most `propext`, `Classical.choice` and
  `Quot.sound` (listed one by one in `AXIOMS.md`, generated with `#print axioms`). No `sorry`, `native_decide`, `bv_decide`;
  some concrete sessions in examples are evaluated with `decide +kernel`, which is checked by the kernel.
* That the definitions under `Verif/Model` (with `Py`, `Arr`) say what the cited Python lines do. Each definition cites its
  lines and states its simplifications.
* Python: evaluation from left to right; dictionaries keep insertion order; assignment to a present key keeps its place;
  iterating over a list from which elements are removed skips elements; exceptions leave earlier effects in place.
* Files: opening for writing empties the file or raises and changes nothing; what has arrived in the file is always a beginning
  of what was written (in pieces of any sizes); reading turns carriage returns into line feeds.
* sympy: the array functions in `Arr` do what its comments say (in particular, too many indices, indices out of range, and bad
  permutations raise `ValueError`); `Engine` with the laws that a theorem assumes.

## 6. What is modelled, file by file

| file | modelled | not modelled |
|---|---|---|
| `Utils.py` | all functions used by the library | type checks of arguments that are not arrays |
| `OGReObject.py` | constructor, registry, validation, `delete`, `info` and `str` with all texts, `change_name`, `_eq_symbol` | `doc`; `__eq__`/`__hash__` are identity of references |
| `Coordinates.py` | constructor with initial rules, rules, Jacobians, `show`, `list`, `get_components`, `_coord_functions` as an abstract structure with laws (`Curves`) | the lists of rules inside the dictionary `transformations` are also shared with the caller (the dictionary itself is modelled in `Model/Sharing`, C102, and the lists given to `add_coord_transformation` in `Model/RuleLists`, C118; the other modules copy them, which C102 and C118 show to be the same for dictionaries and lists that are given away) |
| `BaseTensor.py` | representations, transformation, defaults, `get_components` with all arguments, `show`, `list`, `simplify` | LaTeX and pretty printing, progress bars |
| `Tensor.py`, `Metric.py`, `Christoffel.py` | all computations, constructors, `line_element`, `volume_element`, `calc_*` | printing |
| `Calc.py` | `CalcObject` with all operators, derivatives, `Calc`, all `Calc*` functions | ranges (`a0:3`) and escapes in label strings (a parameter of the model) |
| `Lagrangian.py`, `Geodesic.py` | computations, `get_components`, `show`, `list` with all arguments, transformations | empty lines of `list` |
| `MathematicaParser/*` | lexer, parser, interpreter, the text of syntax trees | `sym.sympify` of a text, functions of sympy, `sym.diff`, named characters (`\N{...}`) and surrogates in strings; the lexer runs on demand in the code but to the end first in the model, so for a text with a lexing error the code may raise a parser error for an earlier token instead |
| `Export.py` | export and import of one object and of all objects, as texts and as files (the states of the disk while a file is written) | encodings (texts are lists of characters), the kind of operating system error; sympy's `mathematica_code` (any printer whose texts the parser reads back) |
| `Options.py`, `Defaults.py` | `set_list_per_line`, `set_font_size`, `set_index_letters`, `set_curve_parameter`, `set_parallelization` with what they show, `jupyter_support`, `command_line_support`, `get_options`, `delete_results` with its messages, `clear_instances`, `get_instances` | importing `IPython` |
| `Documentation.py`, `Version.py` | - | texts |

Scalars: sympy's `tensorproduct` and `tensorcontraction` return an expression and not an array of rank zero when no index
is left. So the code stores the components of a scalar as an array in the coordinates in which it was made, and as a
bare expression in every other system. In the model all components are arrays; `Obj.isArray`, `needArray`, `requireArray`
and `isBare` (`Model/World`, `Model/Calc`) recover which of them are bare, from the order in which they were stored, and
raise what the code raises where it calls an array method on them (`Props/Scalars`).

## 7. Tests against wrong programs

`seeded/LOG.jsonl` lists edits of the model (in a scratch copy) with the theorems that failed. An edit that survived is
either equivalent (then the entry says so), led to a stronger theorem (`tightened`), or is in a part that no claim is
about (the values of hexadecimal escapes, which belong to Python; the entry says so).
