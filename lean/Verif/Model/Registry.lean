import Verif.Model.Construct

/-!
# The registry of objects

`OGReObject.delete` and the loops in `Options.py` and `Calc.py` that delete while they iterate over the
registry.
-/

namespace PyOGRe
variable {K : Type}

/-- `OGReObject.py:212-236`: instance `o` refers to object `t`.  The attributes `_metric` and
`_coordinates` exist only on tensors, `_transformations` only on coordinate systems (whose
`_components` has the system itself as only key, and an instance is never compared with itself). -/
def Obj.uses (o : Obj K) (t : Id') : Bool :=
  if o.kind = .coordinates then o.trans.has t
  else o.comps.has t || o.metric == t || o.coords == t

/-- `OGReObject.py:203-261` `delete`.  Objects in the registry have all their attributes (an object loses
them in `delete`, which also removes it from the registry), so that reading them does not raise.  The
messages are in `Model/Messages`.  Deleting an object that is not in the registry raises in
`_instances.remove(self)` after the attributes are gone. -/
def deleteObj (t : Id') : PyM K Unit := fun w =>
  if w.instances.any fun i => i != t && (w.objs[i]?).any fun o => o.uses t then
    (.error .permissionError, w)
  else
    let objs := w.objs.modify t fun o => { o with alive := false }
    if t ∈ w.instances then (.ok (), { objs := objs, instances := w.instances.erase t })
    else (.error .valueError, { w with objs := objs })

/-- `try: instance.delete() except PermissionError: pass`. -/
def tryDelete (t : Id') : PyM K Unit := fun w =>
  match deleteObj t w with
  | (.error .permissionError, w') => (.ok (), w')
  | r => r

/-- `for instance in instances: if ...: instance.delete()`, from position `i` on.  Python's list iterator
keeps a position, so that after a deletion the element that moved to this position is skipped.  The
list never grows, so that the first argument (its length at the start) bounds the number of steps. -/
def deleteFrom (sel : Obj K → Bool) (del : Id' → PyM K Unit) : Nat → Nat → PyM K Unit
  | 0, _ => pure ()
  | fuel + 1, i => do
    let w ← PyM.world
    match w.instances[i]? with
    | none => pure ()
    | some t =>
      let o ← getObj t
      PyM.onlyIf (sel o) (del t)
      deleteFrom sel del fuel (i + 1)

/-- One such loop. -/
def deletePass (sel : Obj K → Bool) (del : Id' → PyM K Unit) : PyM K Unit := fun w =>
  deleteFrom sel del w.instances.length 0 w

/-- `instance._name == name`. -/
def hasName (name : String) (o : Obj K) : Bool := o.name == name

/-- `for _ in range(k)`. -/
def timesDo (m : PyM K Unit) : Nat → PyM K Unit
  | 0 => pure ()
  | k + 1 => do
    m
    timesDo m k

/-- `Options.py:300-328` `delete_results` with `silent=True`; the messages are in `Model/Messages`. -/
def deleteResults : PyM K Unit := timesDo (deletePass (hasName "Result") tryDelete) 4

/-- `Options.py:331-343` `clear_instances`. -/
def clearInstances : PyM K Unit := do
  deleteResults
  timesDo (deletePass (fun _ => true) tryDelete) 4
  fun w => (.ok (), { w with instances := [] })

/-- `OGReObject.py:302-317` `change_name` with a string.  (On a deleted object it sets the attribute again;
the object stays deleted here.) -/
def changeName (t : Id') (name : String) : PyM K Unit := modifyObj t fun o => { o with name := name }

/-- `OGReObject.py:319-337` `change_symbol` with a string or symbol. -/
def changeSymbol (t : Id') (symbol : String) : PyM K Unit := modifyObj t fun o => { o with symbol := symbol }

/-- `for instance in metric._instances: if instance._name == name: return instance` (`Calc.py:1043-1046`
and the other functions there). -/
def findByName (name : String) : PyM K (Option Id') := fun w =>
  (.ok (w.instances.find? fun i => (w.objs[i]?).any (hasName name)), w)

end PyOGRe
