import Verif.Model.Interpreter
import Verif.Model.Registry

/-!
# Exporting and importing

`Export.py`.  Files are in `Model/Files`; what is printed to the screen is not modelled.
-/

namespace PyOGRe
variable {K : Type}

/-! ### Exporting -/

/-- `sym.mathematica_code` of an expression and of a symbol. -/
structure Printer (K : Type) where
  code : K → List Char
  symbol : Sym → List Char

/-- `f'"{s}"'`. -/
def quotedText (s : String) : List Char := '"' :: s.toList ++ ['"']

/-- `sep.join(l)`. -/
def joinText (sep : List Char) : List (List Char) → List Char
  | [] => []
  | [a] => a
  | a :: b :: l => a ++ sep ++ joinText sep (b :: l)

/-- `{a,b,...}`: `Export.py:36-47` with the separator `,`, and sympy's printer with the separator `, `. -/
def listText (sep : List Char) (l : List (List Char)) : List Char := '{' :: (joinText sep l ++ ['}'])

/-- `str(i)`. -/
def intText (i : Int) : List Char := (toString i).toList

/-- `sym.mathematica_code` of an array with at least one axis: nested lists. -/
def arrText (code : K → List Char) : List Nat → List K → List Char
  | [], x :: _ => code x
  | [], [] => []
  | d :: s, data => listText [',', ' ']
      ((List.range d).map fun i => arrText code s ((data.drop (i * s.prod)).take s.prod))

/-- `Export.py:105-112` `release_hold`. -/
def held (s : List Char) : List Char := s ++ holdMark

/-- `Export.py:132-136`: an array of rank zero is printed as a list with one entry, and an expression that is no array
(`array` is `false`, see `Obj.isArray`) without the braces. -/
def compsText (P : Printer K) (array : Bool) (a : Arr K) : List Char :=
  if array ∧ a.shape = [] then listText [',', ' '] [arrText P.code [] a.data] else arrText P.code a.shape a.data

/-- `"{}->{}".format(key, value)`. -/
def entryText (k v : List Char) : List Char := k ++ ['-', '>'] ++ v

/-- `<|...|>`. -/
def assocText (l : List (List Char)) : List Char := ['<', '|'] ++ joinText [','] l ++ ['|', '>']

/-- The names of the classes in exported text (`Export.py:69-78`). -/
def roleName : Kind → String
  | .tensor => "Tensor"
  | .metric => "Metric"
  | .coordinates => "Coordinates"
  | .lagrangian => "Lagrangian"
  | .christoffel => "Christoffel"
  | .geodesicTime => "GeodesicWithTimeParameter"
  | .geodesicChristoffel => "GeodesicFromChristoffel"
  | .geodesicLagrangian => "GeodesicFromLagrangian"

/-- `x._name`. -/
def nameOf (w : World K) (i : Id') : Py String :=
  match w.objs[i]? with
  | some o => if o.alive then .ok o.name else .error .attributeError
  | none => .error .attributeError

/-- `{name(key): value for key, value in d.items()}`: two keys with one name become one entry. -/
def byName {β γ : Type} (w : World K) (f : β → γ) : Dict Id' β → Dict String γ → Py (Dict String γ)
  | [], acc => .ok acc
  | (i, b) :: d, acc => do
    let n ← nameOf w i
    byName w f d (acc.set n (f b))

/-- `Export.py:58-63`: the dictionary of the components. -/
def exportedComps {β : Type} (w : World K) : Dict Id' (Dict (List Int) β) → Dict (List Int × String) β →
    Py (Dict (List Int × String) β)
  | [], acc => .ok acc
  | (c, d) :: comps, acc =>
    if d.isEmpty then exportedComps w comps acc
    else do
      let n ← nameOf w c
      exportedComps w comps (d.foldl (fun acc p => acc.set (p.1, n) p.2) acc)

/-- The components of an object, each with whether it is an array. -/
def Obj.marked (o : Obj K) : Dict Id' (Dict (List Int) (Bool × Arr K)) :=
  o.comps.map fun p => (p.1, p.2.map fun q => (q.1, o.isArray p.1, q.2))

/-- `iterable_to_mathematica((indices, name))`. -/
def configText (p : List Int × String) : List Char :=
  listText [','] [listText [','] (p.1.map intText), quotedText p.2]

/-- `"Components"->...`. -/
def exportComps (P : Printer K) (w : World K) (o : Obj K) : Py (List Char) := do
  if o.kind = .coordinates then
    return assocText [entryText (configText ([1], o.name)) (held (listText [',', ' '] (o.syms.map P.symbol)))]
  else do
    let d ← exportedComps w o.marked []
    return assocText (d.map fun p => entryText (configText p.1) (held (compsText P p.2.1 p.2.2)))

/-- One entry of `"Jacobians"` (`Export.py:87-92`). -/
def jacobiansText (P : Printer K) (j : Jacobians K) : List Char :=
  assocText [entryText (quotedText "Jacobian") (held (compsText P true j.J)),
    entryText (quotedText "InverseJacobian") (held (compsText P true j.Jinv)),
    entryText (quotedText "ChristoffelJacobian") (held (compsText P true j.JJ))]

/-- `{equation.lhs: equation.rhs for equation in rules if equation is not None}`. -/
def rulesDict (rules : List (Option (Sym × K))) : Dict Sym K :=
  (rules.filterMap id).foldl (fun d p => d.set p.1 p.2) []

/-- The rules of one transformation, in braces. -/
def rulesText (P : Printer K) (d : Dict Sym K) : List Char :=
  listText [','] (d.map fun p => entryText (P.symbol p.1) (held (P.code p.2)))

/-- `Export.py:50-102` `tensor_to_dict` and `Export.py:115-151` `tensor_dict_to_association`: the entries of
the exported association. -/
def exportEntries (P : Printer K) (w : World K) (o : Obj K) : Py (List (List Char)) := do
  let comps ← exportComps P w o
  let coords ← if o.kind = .coordinates then .ok o.name else nameOf w o.coords
  let common :=
    [entryText (quotedText "Components") comps,
     entryText (quotedText "DefaultCoords") (quotedText coords),
     entryText (quotedText "DefaultIndices") (held (listText [',', ' '] (o.indices.map intText))),
     entryText (quotedText "Role") (quotedText (roleName o.kind)),
     entryText (quotedText "Symbol") (held (P.symbol (if o.symbol = "" then "T" else o.symbol)))]
  if o.kind = .coordinates then do
    let jac ← byName w (jacobiansText P) o.jac []
    let trans ← byName w rulesDict o.trans []
    return common ++
      (if o.jac.isEmpty then [] else
        [entryText (quotedText "Jacobians") (assocText (jac.map fun p => entryText (quotedText p.1) p.2))]) ++
      [entryText (quotedText "CoordTransformations")
        (assocText (trans.map fun p => entryText (quotedText p.1) (rulesText P p.2)))]
  else do
    let metric ← nameOf w o.metric
    return common ++ [entryText (quotedText "Metric") (quotedText metric)]

/-- `Version.py:1`. -/
def versionText : List Char := quotedText "PyOGRe v1.0.0"

/-- `Export.py:243-259` `export_to_string`. -/
def exportObj (P : Printer K) (w : World K) (t : Id') : Py (List Char) :=
  match w.objs[t]? with
  | none => .error .attributeError
  | some o =>
    if !o.alive then .error .attributeError
    else do
      let entries ← exportEntries P w o
      return assocText [entryText (quotedText o.name)
        (assocText (entries ++ [entryText (quotedText "OGReVersion") versionText]))]

/-- The objects of the registry, in order. -/
def exportEach (P : Printer K) (w : World K) : List Id' → Py (List (List Char))
  | [] => .ok []
  | t :: l =>
    match w.objs[t]? with
    | none => .error .attributeError
    | some o => do
      let entries ← exportEntries P w o
      let rest ← exportEach P w l
      return entryText (quotedText o.name) (assocText entries) :: rest

/-- `Export.py:278-296` `export_all_to_string`: there is a comma after the options even if nothing
follows. -/
def exportAll (P : Printer K) (w : World K) : Py (List Char) := do
  let l ← exportEach P w w.instances
  return ['<', '|'] ++
    entryText (quotedText "Options") (assocText [entryText (quotedText "OGReVersion") versionText]) ++
    [','] ++ joinText [','] l ++ ['|', '>']

/-! ### Importing -/

/-- What sympy contributes to importing: `nameOf x` is the name of `x` if `x` is a `sym.Symbol`. -/
structure Importer (K : Type) extends Reader K where
  nameOf : K → Option Sym

section
variable [DecidableEq K]

mutual
/-- `a == b` for the values of the interpreter.  Simplification: dictionaries and pairs of lists are taken
to differ. -/
def Val.same : Val K → Val K → Bool
  | .num x, .num y => x == y
  | .str s, .str t => s == t
  | .eq a b, .eq c d => a == c && b == d
  | .list l, .list m => sameEach l m
  | _, _ => false
def sameEach : List (Val K) → List (Val K) → Bool
  | [], [] => true
  | a :: l, b :: m => a.same b && sameEach l m
  | _, _ => false
end

/-- `v[key]`. -/
def Val.item (v : Val K) (key : String) : Py (Val K) :=
  match v with
  | .dict d =>
    match d.find? fun p => p.1.sameKey (.str key.toList) with
    | some p => .ok p.2
    | none => .error .keyError
  | _ => .error .typeError

/-- `key in v` for a dictionary. -/
def Val.hasItem (v : Val K) (key : String) : Bool :=
  match v with
  | .dict d => d.any fun p => p.1.sameKey (.str key.toList)
  | _ => false

/-- `v[i]` for a list. -/
def Val.at (v : Val K) (i : Nat) : Py (Val K) :=
  match v with
  | .list l =>
    match l[i]? with
    | some x => .ok x
    | none => .error .indexError
  | _ => .error .typeError

end

/-- Arrays of one common shape, one after the other. -/
def stackArrs : List (Arr K) → Py (Arr K)
  | [] => .ok ⟨[0], []⟩
  | a :: l =>
    if l.all fun b => b.shape == a.shape then .ok ⟨(l.length + 1) :: a.shape, a.data ++ l.flatMap Arr.data⟩
    else .error .valueError

mutual
/-- `sym.Array(v)` of nested lists of expressions.  Simplification: other entries are taken to raise. -/
def arrayOf : Val K → Py (Arr K)
  | .num x => .ok ⟨[], [x]⟩
  | .list l =>
    match arrayOfEach l with
    | .ok as => stackArrs as
    | .error e => .error e
  | _ => .error .typeError
def arrayOfEach : List (Val K) → Py (List (Arr K))
  | [] => .ok []
  | v :: l =>
    match arrayOf v with
    | .ok a =>
      match arrayOfEach l with
      | .ok as => .ok (a :: as)
      | .error e => .error e
    | .error e => .error e
end

/-- A reference: an object, or a value read from the text (`none` if it is not a string). -/
inductive Ref
  | obj (i : Id')
  | name (s : Option String)
  deriving DecidableEq

/-- The class and the keyword arguments of one imported object. -/
structure Import (K : Type) where
  kind : Kind
  name : Arg String
  indices : List Int
  comps : Arr K
  symbol : Arg String
  coords : Option Ref
  metric : Option Ref
  trans : List (Ref × Val K)

/-- A string value. -/
def Val.string? : Val K → Option String
  | .str s => some (String.ofList s)
  | _ => none

/-- The classes (`Export.py:179-194`). -/
def roleKind (r : Option String) : Py Kind :=
  match r with
  | none => .error .keyError
  | some r =>
    if r = "Coordinates" then .ok .coordinates
    else if r = "Metric" then .ok .metric
    else if r = "Tensor" ∨ r = "Calculated" ∨ r = "NormSquared" ∨ r = "Riemann" ∨ r = "Ricci Tensor" ∨
      r = "Ricci Scalar" ∨ r = "Einstein" then .ok .tensor
    else if r = "Lagrangian" then .ok .lagrangian
    else if r = "Christoffel" then .ok .christoffel
    else if r = "GeodesicFromChristoffel" then .ok .geodesicChristoffel
    else if r = "GeodesicFromLagrangian" then .ok .geodesicLagrangian
    else if r = "GeodesicWithTimeParameter" then .ok .geodesicTime
    else .error .keyError

/-- The default symbols of the constructors. -/
def defaultSymbol : Kind → String
  | .coordinates => "x"
  | .metric => "g"
  | .tensor => "T"
  | .christoffel => "Gamma"
  | .lagrangian => "L"
  | _ => "0"

/-- The names in the registry. -/
def namedInstances (w : World K) (name : Option String) : List Id' :=
  match name with
  | none => []
  | some s => w.instances.filter fun i => (w.objs[i]?).any (hasName s)

section
variable [DecidableEq K] [CommRing K]

/-- An index: `1`, `-1`, or anything else. -/
def indexOf (x : K) : Int := if x = 1 then 1 else if x = -1 then -1 else 0

/-- `tuple(indices)`.  Simplification: anything but a list is taken to raise `TypeError`. -/
def indicesOf : Val K → Py (List Int)
  | .list l => .ok (l.map fun v => match v with | .num x => indexOf x | _ => 0)
  | _ => .error .typeError

/-- `Export.py:200-205`: the last entry with the default configuration. -/
def findComps (indices coords : Val K) : List (Val K) → List (Val K) → Option (Arr K) → Py (Option (Arr K))
  | c :: cs, r :: rs, acc => do
    let c0 ← c.at 0
    if c0.same indices then do
      let c1 ← c.at 1
      if c1.same coords then
        match r with
        | .list l =>
          match (if l.length > 1 then arrayOf r else match l with | x :: _ => arrayOf x | [] => .error .indexError) with
          | .ok a => findComps indices coords cs rs (some a)
          | .error e => .error e
        | _ => .error .typeError
      else findComps indices coords cs rs acc
    else findComps indices coords cs rs acc
  | _, _, acc => .ok acc

/-- The value of `'Symbol'`: a symbol, a string, or something else. -/
def symbolOf (I : Importer K) : Val K → Arg String
  | .str s => .val (String.ofList s)
  | .num x => match I.nameOf x with
    | some s => .val s
    | none => .other
  | _ => .other

/-- `Export.py:225-236`: the transformations, by coordinate system; every object with the name is a key. -/
def transOf (w : World K) : List (Val K × Val K) → List (Ref × Val K)
  | [] => []
  | (k, rules) :: d =>
    (match namedInstances w k.string? with
      | [] => [(Ref.name k.string?, rules)]
      | l => l.map fun i => (Ref.obj i, rules)) ++ transOf w d

/-- `Export.py:168-238`: one entry of the text. -/
def importOne (I : Importer K) (w : World K) (name tensor : Val K) : Py (Import K) := do
  let role ← tensor.item "Role"
  let kind ← roleKind role.string?
  let coords ← tensor.item "DefaultCoords"
  let indices ← tensor.item "DefaultIndices"
  let configs ← tensor.item "Components"
  let (ks, vs) ← (match configs with
    | .table ks vs => .ok (ks, vs)
    | _ => .error .valueError : Py (List (Val K) × List (Val K)))
  let found ← findComps indices coords ks vs none
  let comps ← (match found with
    | some a => .ok a
    | none => .error .exception : Py (Arr K))
  let ix ← indicesOf indices
  let symbol ← (if tensor.hasItem "Symbol" then do
      let s ← tensor.item "Symbol"
      return symbolOf I s
    else .ok (.val (defaultSymbol kind)) : Py (Arg String))
  let metric ← (if kind = .coordinates ∨ kind = .metric then .ok none
    else do
      let m ← tensor.item "Metric"
      return (match (namedInstances w m.string?).getLast? with
        | some i => some (Ref.obj i)
        | none => some (Ref.name m.string?)) : Py (Option Ref))
  let trans ← (if tensor.hasItem "CoordTransformations" then do
      let t ← tensor.item "CoordTransformations"
      match t with
      | .dict d => return transOf w d
      | _ => .error .attributeError
    else .ok [] : Py (List (Ref × Val K)))
  return { kind := kind, name := (match name.string? with | some s => .val s | none => .other),
           indices := ix, comps := comps, symbol := symbol,
           coords := if kind = .coordinates then none else some (Ref.name coords.string?),
           metric := metric, trans := trans }

/-- The loop of `string_to_tensor` over the entries. -/
def importEach (I : Importer K) (w : World K) : List (Val K × Val K) → Py (List (Import K))
  | [] => .ok []
  | (name, tensor) :: d =>
    if name.same (.str "Options".toList) then importEach I w d
    else do
      let x ← importOne I w name tensor
      let l ← importEach I w d
      return x :: l

/-- `Export.py:154-240` `string_to_tensor` after the text has been read. -/
def stringToTensors (I : Importer K) (w : World K) (v : Val K) : Py (List (Import K)) :=
  match v with
  | .dict d => importEach I w d
  | _ => .error .attributeError

/-- The rules of a transformation, when they are all equations for symbols.  Simplification: equations with
another left side are taken to raise. -/
def rulesOf (I : Importer K) : Val K → Py (List (Option (Sym × K)))
  | .list l => l.mapM fun v => match v with
    | .eq a b => match I.nameOf a with
      | some s => .ok (some (s, b))
      | none => .error .typeError
    | _ => .error .typeError
  | _ => .error .typeError

/-- The symbols of imported coordinates.  Simplification: entries that are not symbols are taken to
raise. -/
def symsOf (I : Importer K) (l : List K) : Py (List Sym) :=
  l.mapM fun x => match I.nameOf x with
    | some s => .ok s
    | none => .error .typeError

/-- `Coordinates(name=..., components=..., indices=..., symbol=..., transformations=...)`
(`Coordinates.py:45-82`).  Simplification: transformations with a string as key, which no lookup finds, are
left out. -/
def importCoordinates (I : Importer K) (x : Import K) (trans : List (Ref × Val K)) : PyM K Id' := do
  let syms ← PyM.lift (symsOf I x.comps.data)
  let rules ← PyM.lift (trans.mapM fun p => do
    let r ← rulesOf I p.2
    return (p.1, r))
  PyM.lift (validateCoordinates x.name (.val x.comps.shape) (.tuple x.indices) x.symbol true)
  register fun _ =>
    { kind := .coordinates, name := x.name.getD "", symbol := x.symbol.getD "", indices := x.indices,
      coords := 0, metric := 0, comps := [], syms := syms,
      trans := rules.foldl (fun d p => match p.1 with | .obj i => d.set i p.2 | _ => d) [],
      jac := [], alive := true }

/-- `tensor_class(**kwargs)` for the other classes; a keyword argument that the class does not have, and a
string in place of an object, raise `TypeError`. -/
def importTensor (E : Engine K) (x : Import K) : PyM K Id' := do
  if !x.trans.isEmpty then PyM.raise .typeError
  else match x.kind, x.coords, x.metric with
    | .metric, some (.obj c), _ => newMetric E x.name (.val x.comps) c (.tuple x.indices) x.symbol
    | .coordinates, _, _ => PyM.raise .typeError
    | k, some (.obj c), some (.obj m) => newTensor k x.name (.val x.comps) m c (.tuple x.indices) x.symbol
    | _, _, _ => PyM.raise .typeError

/-- The first object with a name. -/
def firstNamed (name : Option String) : PyM K (Option Id') := fun w => (.ok (namedInstances w name).head?, w)

/-- `Export.py:344-361` `import_from_string` after the text has been read. -/
def importFromVal (E : Engine K) (I : Importer K) (v : Val K) : PyM K Id' := do
  let w ← PyM.world
  let l ← PyM.lift (stringToTensors I w v)
  match l with
  | [] => PyM.raise .indexError
  | x :: _ =>
    match x.coords with
    | none => importCoordinates I x x.trans
    | some r => do
      let c ← (match r with
        | .obj i => pure (some i)
        | .name s => firstNamed s)
      match c with
      | none => PyM.raise .exception
      | some c => importTensor E { x with coords := some (.obj c) }

/-- `import_from_string`; `none` when the parser has not ended. -/
def importFromString (E : Engine K) (I : Importer K) (n : Nat) (s : List Char) (w : World K) :
    Option (Except PyErr Id' × World K) :=
  match parseStr I.toReader n s with
  | none => none
  | some (.error e) => some (.error e, w)
  | some (.ok v) => some (importFromVal E I v w)

/-- A loop over a list that is left by the first exception. -/
def forEach {α : Type} (f : α → PyM K Unit) : List α → PyM K Unit
  | [] => pure ()
  | a :: l => do
    f a
    forEach f l

/-- Replacing the name in a reference by the first object with that name. -/
def resolve (r : Option Ref) : PyM K (Option Ref) :=
  match r with
  | some (.name s) => do
    match ← firstNamed s with
    | some i => return some (.obj i)
    | none => return some (.name s)
  | r => pure r

/-- `Export.py:415-425`: the transformations of one imported coordinate system.  (The error message for a
missing target looks up a key that is not there.) -/
def importTrans (I : Importer K) (x : Import K) : PyM K Unit := do
  let w ← PyM.world
  match x.name with
  | .other => pure ()
  | .val name =>
    forEach (fun i => forEach (fun p => do
        let target ← (match p.1 with
          | .obj _ => pure none
          | .name s => firstNamed s)
        match target with
        | none => PyM.raise .keyError
        | some c => do
          let rules ← PyM.lift (rulesOf I p.2)
          addCoordTransformation i c (some rules)) x.trans)
      ((namedInstances w (some name)).filter fun i => (w.objs[i]?).any fun o => o.kind == .coordinates)

/-- `f(x)` for every element, with the results. -/
def mapEach {α β : Type} (f : α → PyM K β) : List α → PyM K (List β)
  | [] => pure []
  | a :: l => do
    let b ← f a
    let bs ← mapEach f l
    return b :: bs

/-- A class without coordinates and metrics. -/
def Import.plain (x : Import K) : Bool := !(x.kind == .coordinates || x.kind == .metric)

/-- `Export.py:395-450` `import_all_from_string` after the registry has been cleared and the text has been
read. -/
def importAllFromVal (E : Engine K) (I : Importer K) (v : Val K) : PyM K Unit := do
  let w ← PyM.world
  let l ← PyM.lift (stringToTensors I w v)
  forEach (fun x => do
    let _ ← importCoordinates I x []
    return ()) (l.filter fun x => x.kind == .coordinates)
  let l ← mapEach (fun x => do
    let c ← resolve x.coords
    return { x with coords := c }) l
  forEach (importTrans I) (l.filter fun x => x.kind == .coordinates)
  forEach (fun x => match x.coords with
    | some (.name _) => PyM.raise .exception
    | _ => pure ()) l
  forEach (fun x => do
    let _ ← importTensor E x
    return ()) (l.filter fun x => x.kind == .metric)
  let l ← mapEach (fun x => do
    let m ← resolve x.metric
    match m with
    | some (.name _) => PyM.raise .exception
    | _ => return { x with metric := m }) l
  forEach (fun x => do
    let _ ← importTensor E x
    return ()) (l.filter Import.plain)

/-- `Export.py:382-450` `import_all_from_string`; `none` when the parser has not ended. -/
def importAllFromString (E : Engine K) (I : Importer K) (n : Nat) (s : List Char) (w : World K) :
    Option (Except PyErr Unit × World K) :=
  match clearInstances w with
  | (.error e, w') => some (.error e, w')
  | (.ok _, w') =>
    match parseStr I.toReader n s with
    | none => none
    | some (.error e) => some (.error e, w')
    | some (.ok v) => some (importAllFromVal E I v w')

end

end PyOGRe
