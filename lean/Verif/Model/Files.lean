import Verif.Model.Export

/-!
# Exporting to and importing from files (`Export.py`, `OGReObject.py:170-200`)

A disk gives the text of every file that can be read.  Writing goes through several states of the disk: `open` empties
the file, then the text arrives in pieces, as the buffer is flushed.  A process that is stopped leaves the disk in one of
these states.  The encoding is taken to cover all characters of the text, and reading and writing not to fail once the
file is open.
-/

namespace PyOGRe
variable {K : Type}

/-- The files that can be read, and the names under which a file can be opened for writing. -/
structure Disk where
  files : String → Option (List Char)
  writable : String → Bool

/-- The disk with another text in one file. -/
def Disk.put (d : Disk) (name : String) (s : List Char) : Disk :=
  { d with files := fun n => if n = name then some s else d.files n }

/-- What has been written after each flush of the buffer. -/
def flushes (done : List Char) : List (List Char) → List (List Char)
  | [] => []
  | c :: l => (done ++ c) :: flushes (done ++ c) l

/-- `Export.py:273-274`, `307-308`: `with open(filename, "w") as f: f.write(string)`; the states of the disk after `open` and
after each flush.  `cut` is how the buffer cuts the text into pieces. -/
def writeFile (cut : List Char → List (List Char)) (name : String) (s : List Char) (d : Disk) : Py (List Disk) :=
  if d.writable name then .ok (d.put name [] :: (flushes [] (cut s)).map (d.put name)) else .error .osError

/-- `OGReObject.py:180-200` and `Export.py:321-340`: `export` and `export_all` with the argument `filename`, where `text` is what
`export_to_string` or `export_all_to_string` returns.  The result, and the states of the disk that the call goes through.
The message about the success is not modelled. -/
def exportTo (text : Py (List Char)) (cut : List Char → List (List Char)) (filename : Option (Arg String)) (d : Disk) :
    Py (Option (List Char)) × List Disk :=
  match filename with
  | some .other => (.error .typeError, [d])
  | none => (text.map some, [d])
  | some (.val name) =>
    match text with
    | .error e => (.error e, [d])
    | .ok s =>
      match writeFile cut name s d with
      | .error e => (.error e, [d])
      | .ok l => (.ok none, d :: l)

section
variable [CommRing K] [DecidableEq K]

/-- `OGReObject.py:170-200` `export`, `Export.py:262-275` `export_to_file`. -/
def exportFile (P : Printer K) (w : World K) (t : Id') (cut : List Char → List (List Char)) (filename : Option (Arg String))
    (d : Disk) : Py (Option (List Char)) × List Disk :=
  exportTo (exportObj P w t) cut filename d

/-- `Export.py:312-340` `export_all`, `Export.py:299-309` `export_all_to_file`. -/
def exportAllFile (P : Printer K) (w : World K) (cut : List Char → List (List Char)) (filename : Option (Arg String))
    (d : Disk) : Py (Option (List Char)) × List Disk :=
  exportTo (exportAll P w) cut filename d

end

/-- How Python reads the ends of lines in text files. -/
def universalNewlines : List Char → List Char
  | '\r' :: '\n' :: s => '\n' :: universalNewlines s
  | '\r' :: s => '\n' :: universalNewlines s
  | c :: s => c :: universalNewlines s
  | [] => []

/-- `Export.py:376-377`, `468-469`: `with open(filename, "r") as f: string = f.read()`. -/
def readFile (d : Disk) (name : String) : Py (List Char) :=
  match d.files name with
  | none => .error .osError
  | some s => .ok (universalNewlines s)

section
variable [CommRing K] [DecidableEq K]

/-- `Export.py:364-379` `import_from_file`; `none` when the parser has not ended. -/
def importFromFile (E : Engine K) (I : Importer K) (n : Nat) (d : Disk) (filename : Arg String) (w : World K) :
    Option (Except PyErr Id' × World K) :=
  match filename with
  | .other => some (.error .typeError, w)
  | .val name =>
    match readFile d name with
    | .error e => some (.error e, w)
    | .ok s => importFromString E I n s w

/-- `Export.py:453-471` `import_all_from_file`: the registry is cleared before the argument is looked at. -/
def importAllFromFile (E : Engine K) (I : Importer K) (n : Nat) (d : Disk) (filename : Arg String) (w : World K) :
    Option (Except PyErr Unit × World K) :=
  match clearInstances w with
  | (.error e, w') => some (.error e, w')
  | (.ok _, w') =>
    match filename with
    | .other => some (.error .typeError, w')
    | .val name =>
      match readFile d name with
      | .error e => some (.error e, w')
      | .ok s => importAllFromString E I n s w'

end

end PyOGRe
