import Verif.Model.Export
import Verif.Spec.Registry
import Mathlib.Algebra.Field.Rat

/-!
# Numbers and a few symbols: a printer, a reader and an engine that can be run

Used for sessions with exporting and importing that are evaluated in full.  The expressions are rational
numbers, of which `100`, `101`, ... stand for symbols.
-/

namespace PyOGRe.Spec

/-- The symbols. -/
def codeBook : List (String × ℚ) := [("x", 100), ("y", 101), ("g", 102), ("v", 103), ("T", 104), ("u", 105)]

/-- The number of a digit. -/
def digit (c : Char) : ℚ := (c.toNat - 48 : ℚ)

/-- Printing small numbers and the symbols. -/
def codePrinter : Printer ℚ where
  code x := if x = -1 then ['-', '1'] else
    match codeBook.find? fun p => p.2 == x with
    | some p => p.1.toList
    | none => [Char.ofNat (48 + x.num.toNat)]
  symbol s := s.toList

/-- Reading them. -/
def codeImporter : Importer ℚ where
  atom w := match codeBook.find? fun p => p.1.toList == w with
    | some p => .ok p.2
    | none => if w.all Char.isDigit then .ok (w.foldl (fun n c => 10 * n + digit c) 0) else .error .syntaxError
  symbol _ := 0
  pow a _ := a
  builtin _ _ := .error .keyError
  function _ _ := .error .keyError
  diff _ _ := .error .keyError
  order _ := .error .keyError
  nameOf x := (codeBook.find? fun p => p.2 == x).map Prod.fst

/-- Constants: nothing to simplify or to substitute, all derivatives vanish, matrices of size one and two. -/
def codeEngine : Engine ℚ where
  simp x := x
  diff _ _ := 0
  subst _ _ x := x
  inv a :=
    let d := a.get [0, 0] * a.get [1, 1] - a.get [0, 1] * a.get [1, 0]
    if a.shape = [2, 2] ∧ d ≠ 0 then
      .ok ⟨[2, 2], [a.get [1, 1] / d, -a.get [0, 1] / d, -a.get [1, 0] / d, a.get [0, 0] / d]⟩
    else if a.shape = [1, 1] ∧ a.get [0, 0] ≠ 0 then .ok ⟨[1, 1], [(a.get [0, 0])⁻¹]⟩
    else .error .nonInvertibleMatrixError
  det a := if a.shape = [1, 1] then a.get [0, 0] else a.get [0, 0] * a.get [1, 1] - a.get [0, 1] * a.get [1, 0]

/-- Coordinates (object 0), a metric (object 1) and a vector (object 2) of the plane. -/
def codeCalls : List (Call ℚ) :=
  [.coordinates (.val "Plane") (.val [2]) ["x", "y"] (.tuple [1]) (.val "x"),
   .metric (.val "Flat") (.val ⟨[2, 2], [1, 0, 0, 1]⟩) 0 (.tuple [-1, -1]) (.val "g"),
   .tensor (.val "V") (.val ⟨[2], [100, 2]⟩) 1 0 (.tuple [1]) (.val "v")]

/-- The session after these calls. -/
def codeWorld : World ℚ := history codeEngine [] codeCalls fresh

end PyOGRe.Spec
