import Verif.Model.Registry
import Verif.Model.Display

/-!
# What `delete`, `delete_results`, `info` and `str` say
-/

namespace PyOGRe
variable {K : Type}

/-! ### `delete` and `delete_results` -/

/-- `OGReObject.py:238-250`: the message of `delete`. -/
def deletedText (opt : Options) (name : String) : Out K :=
  if opt.latex then
    .markdown ("<div align=left style='font-size:".toList ++ intText (opt.fontSize + 2) ++ "pt; margin-bottom:12pt'> \n\n".toList ++
      ("__".toList ++ name.toList ++ ":__".toList) ++ "\n\n </div>".toList ++
      "<div align=left style='font-size:".toList ++ intText opt.fontSize ++ "pt'> \n\n".toList ++
      "Successfully Deleted\n\n </div>".toList)
  else .line (name.toList ++ ": Successfully Deleted.".toList)

/-- `OGReObject.py:203-261` `delete`: the messages, and what `deleteObj` does.  The message is made after the checks and
before anything is changed. -/
def deleteTold (opt : Options) (silent : Bool) (t : Id') : PyM K (List (Out K)) := fun w =>
  if w.instances.any fun i => i != t && (w.objs[i]?).any fun o => o.uses t then
    (.error .permissionError, w)
  else if silent then
    (do
      deleteObj t
      return []) w
  else
    (do
      let o ← getObj t
      deleteObj t
      return [deletedText opt o.name]) w

/-- `try: instance.delete(silent=silent); deleted += 1; except PermissionError: pass`: the number and the messages. -/
def tryDeleteTold (opt : Options) (silent : Bool) (t : Id') : PyM K (Nat × List (Out K)) := fun w =>
  match deleteTold opt silent t w with
  | (.ok out, w') => (.ok (1, out), w')
  | (.error .permissionError, w') => (.ok (0, []), w')
  | (.error e, w') => (.error e, w')

/-- `Options.py:310-316`: the loop of `deleteFrom` for the objects called `Result`, with the number and the messages. -/
def deleteFromTold (opt : Options) (silent : Bool) : Nat → Nat → PyM K (Nat × List (Out K))
  | 0, _ => pure (0, [])
  | fuel + 1, i => do
    let w ← PyM.world
    match w.instances[i]? with
    | none => pure (0, [])
    | some t =>
      let o ← getObj t
      let r ← if hasName "Result" o then tryDeleteTold opt silent t else pure (0, [])
      let s ← deleteFromTold opt silent fuel (i + 1)
      return (r.1 + s.1, r.2 ++ s.2)

/-- `for _ in range(k)`. -/
def passesTold (opt : Options) (silent : Bool) : Nat → PyM K (Nat × List (Out K))
  | 0 => pure (0, [])
  | k + 1 => do
    let w ← PyM.world
    let r ← deleteFromTold opt silent w.instances.length 0
    let s ← passesTold opt silent k
    return (r.1 + s.1, r.2 ++ s.2)

/-- `Options.py:318-328`: the last message. -/
def countText (opt : Options) (deleted : Nat) : Out K :=
  let text := "Deleted ".toList ++ intText deleted ++ " tensor(s) named 'Result'.".toList
  if opt.latex then
    .markdown ("<div align=left style='font-size:".toList ++ intText opt.fontSize ++ "pt; margin-bottom:12pt'> \n\n".toList ++ text ++
      "\n\n </div>".toList)
  else .line text

/-- `Options.py:300-328` `delete_results` with everything it shows. -/
def deleteResultsTold (opt : Options) (silent : Bool) : PyM K (List (Out K)) := do
  let r ← passesTold opt silent 4
  return r.2 ++ if silent then [] else [countText opt r.1]

/-! ### `info` and `str` -/

/-- `Options.py:32-44` `INFO_ORDER`. -/
def infoOrder : List String :=
  ["Name", "Symbol", "Type", "Rank", "Metric", "Default Coordinates", "Default Indices", "Default Coordinates For",
    "Coordinate Transformations", "Indices Symbols", "Tensors Using This Metric"]

/-- `str` of a tuple of integers. -/
def tupleText : List Int → List Char
  | [i] => '(' :: (intText i ++ [',', ')'])
  | l => '(' :: (joinText [',', ' '] (l.map intText) ++ [')'])

/-- `_get_info` with all entries: `getInfo` and `OGReObject.py:129`, `131-132`.  The order of the dictionary does not matter,
because it is only read by keys.  `_rank` is the number of axes of the components, which is that of the default indices. -/
def fullInfo (T : Typeset K) (opt : Options) (self : Id') : PyM K (Dict String (List Char)) := do
  let o ← getObj self
  let info ← getInfo self
  return info ++ [("Symbol", if opt.latex then '$' :: (T.symbol o.symbol ++ ['$']) else o.symbol.toList),
    ("Rank", intText o.indices.length), ("Default Indices", tupleText o.indices)]

/-- `OGReObject.py:77-83`: the entries in the order of `INFO_ORDER`. -/
def infoText (info : Dict String (List Char)) : List Char :=
  infoOrder.flatMap fun key => match info.get? key with
    | some value => key.toList ++ ": ".toList ++ value ++ " \n".toList
    | none => []

/-- `OGReObject.py:69-83` `__str__`. -/
def strObj (T : Typeset K) (opt : Options) (self : Id') : PyM K (List Char) := do
  let info ← fullInfo T opt self
  return infoText info

/-- `OGReObject.py:263-292` `info`. -/
def showInfo (T : Typeset K) (opt : Options) (self : Id') : PyM K (List (Out K)) := do
  let info ← fullInfo T opt self
  let o ← getObj self
  let entries := infoOrder.filterMap fun key => (info.get? key).map fun value => (key.toList, value)
  return if opt.latex then
    [.markdown ("<div align=left style='font-size:".toList ++ intText (opt.fontSize + 2) ++
      "pt; margin-bottom:12pt'> \n\n".toList ++ o.name.toList ++ ":\n\n </div>".toList ++
      "<div align=left style='font-size:".toList ++ intText (opt.fontSize - 2) ++ "pt'> \n\n".toList ++
      joinText "\n\n".toList (entries.map fun e => "__".toList ++ e.1 ++ ":__ ".toList ++ e.2) ++ "\n\n </div>".toList)]
  else .line (o.name.toList ++ [':']) :: entries.map fun e => .line (e.1 ++ ": ".toList ++ e.2)

end PyOGRe
