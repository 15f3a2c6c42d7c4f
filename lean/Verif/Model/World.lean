import Verif.Model.Core

/-!
# The state of a PyOGRe session

All objects that were ever created, in order of creation (an object is referred to by its position,
which plays the role of Python's `id`), and the registry `OGReObject._instances`.  A method is a
function from states to a result or exception and a new state: an exception does not undo what was
done before it.
-/

namespace PyOGRe

/-- Python dictionaries keep the order of insertion; assigning to an existing key keeps its place. -/
abbrev Dict (α β : Type) := List (α × β)

namespace Dict
variable {α β : Type} [DecidableEq α]

/-- `d[key]`, `none` when missing. -/
def get? (d : Dict α β) (k : α) : Option β := (d.find? fun p => p.1 == k).map (·.2)

/-- `key in d`. -/
def has (d : Dict α β) (k : α) : Bool := d.any fun p => p.1 == k

/-- `d[key] = value`. -/
def set : Dict α β → α → β → Dict α β
  | [], k, v => [(k, v)]
  | p :: d, k, v => if p.1 = k then (k, v) :: d else p :: set d k v

/-- `del d[key]` for a present key. -/
def del (d : Dict α β) (k : α) : Dict α β := d.filter fun p => !(p.1 == k)

end Dict

/-- References to objects. -/
abbrev Id' := Nat

/-- The classes (`Coordinates.py`, `Metric.py`, `Tensor.py`, `Christoffel.py`, `Lagrangian.py`,
`Geodesic.py`). -/
inductive Kind
  | coordinates | metric | tensor | christoffel | lagrangian
  | geodesicLagrangian | geodesicChristoffel | geodesicTime
  deriving DecidableEq, Repr

/-- The attributes of an object (`OGReObject.py:32-63`, `Coordinates.py:45-82`, `BaseTensor.py:34-77`,
`Tensor.py:48-78`, `Metric.py:53-92`).
* `syms` is `_components[self][(1,)]` of a coordinate system, and `comps` is `_components` of the other
  objects; the components of a scalar are an array with no axes (the code also stores bare expressions).
* The three dictionaries `_jacobians`, `_inverse_jacobians`, `_christoffel_jacobians` are always written
  together and are one dictionary here.
* `alive` is false once `delete` has removed the attributes. -/
structure Obj (K : Type) where
  kind : Kind
  name : String
  symbol : String
  indices : List Int
  coords : Id'
  metric : Id'
  comps : Dict Id' (Dict (List Int) (Arr K))
  syms : List Sym
  trans : Dict Id' (List (Option (Sym × K)))
  jac : Dict Id' (Jacobians K)
  alive : Bool
  deriving DecidableEq

/-- Whether the components in the system `c` are an array.  `sym.tensorcontraction` gives an expression, not an
array, when no index is left (`BaseTensor.py:152-155`, `Lagrangian.py:101-104`), so a scalar is an array only in
the coordinates it was created in, and these are the first key of its components: transforming adds
representations at the end, and the ones that are there are not computed again. -/
def Obj.isArray {K : Type} (o : Obj K) (c : Id') : Bool := !o.indices.isEmpty || o.comps.head?.any (·.1 == c)

/-- All objects ever created, and the registry (`OGReObject._instances`). -/
structure World (K : Type) where
  objs : List (Obj K)
  instances : List Id'
  deriving DecidableEq

/-- A computation that may change the session and may raise. -/
def PyM (K α : Type) := World K → Except PyErr α × World K

namespace PyM
variable {K α β : Type}

def pure (a : α) : PyM K α := fun w => (.ok a, w)

def bind (m : PyM K α) (f : α → PyM K β) : PyM K β := fun w =>
  match m w with
  | (.ok a, w') => f a w'
  | (.error e, w') => (.error e, w')

instance : Monad (PyM K) where
  pure := PyM.pure
  bind := PyM.bind

/-- `raise`. -/
def raise (e : PyErr) : PyM K α := fun w => (.error e, w)

/-- A computation on values. -/
def lift (x : Py α) : PyM K α := fun w => (x, w)

/-- An `if` statement without `else`. -/
def onlyIf (b : Bool) (m : PyM K Unit) : PyM K Unit := if b then m else pure ()

/-- Reading the state. -/
def world : PyM K (World K) := fun w => (.ok w, w)

@[simp] theorem pure_apply (a : α) (w : World K) : (Pure.pure a : PyM K α) w = (.ok a, w) := rfl
@[simp] theorem bind_apply (m : PyM K α) (f : α → PyM K β) (w : World K) :
    (m >>= f) w = match m w with
      | (.ok a, w') => f a w'
      | (.error e, w') => (.error e, w') := rfl
@[simp] theorem raise_apply (e : PyErr) (w : World K) : (raise e : PyM K α) w = (.error e, w) := rfl
@[simp] theorem lift_apply (x : Py α) (w : World K) : (lift x : PyM K α) w = (x, w) := rfl
@[simp] theorem world_apply (w : World K) : (world : PyM K (World K)) w = (.ok w, w) := rfl

end PyM

variable {K : Type}

/-- Reading the attributes of an object: after `delete` every access raises `AttributeError`.  Simplification: this is so even
if `change_name` or `change_symbol` gave the deleted object a name or symbol again. -/
def getObj (i : Id') : PyM K (Obj K) := fun w =>
  match w.objs[i]? with
  | some o => if o.alive then (.ok o, w) else (.error .attributeError, w)
  | none => (.error .attributeError, w)

/-- Whether the representation of the tensor in these coordinates, by default its own, is an expression and no array
(see `Obj.isArray`); `map_to_array` (`Utils.py:104-105`) refuses expressions. -/
def isBare (t : Id') (c : Option Id') : PyM K Bool := fun w =>
  (.ok ((w.objs[t]?).any fun o => !o.isArray (c.getD o.coords)), w)

/-- Assigning attributes of an object. -/
def modifyObj (i : Id') (f : Obj K → Obj K) : PyM K Unit := fun w =>
  (.ok (), { w with objs := w.objs.modify i f })

/-- `d[key]`, which raises `KeyError` when the key is missing. -/
def lookup {α β : Type} [DecidableEq α] (d : Dict α β) (k : α) : PyM K β :=
  match d.get? k with
  | some v => pure v
  | none => PyM.raise .keyError

/-- `self._components[coords][indices]`. -/
def readComps (self coords : Id') (indices : List Int) : PyM K (Arr K) := do
  let o ← getObj self
  let d ← lookup o.comps coords
  lookup d indices

/-- `self._components[coords][indices] = a`; the inner dictionary must exist. -/
def writeComps (self coords : Id') (indices : List Int) (a : Arr K) : PyM K Unit := do
  let o ← getObj self
  let d ← lookup o.comps coords
  modifyObj self fun o => { o with comps := o.comps.set coords (d.set indices a) }

/-- `if coords not in self._components: self._components[coords] = {}` (`BaseTensor.py:164-165`). -/
def ensureCoords (self coords : Id') : PyM K Unit :=
  modifyObj self fun o => if o.comps.has coords then o else { o with comps := o.comps.set coords [] }

end PyOGRe
