import Verif.Model.Export

/-!
# Options

`Options.py`: the options and the functions that set them.  What these functions show is in
`Model/Confirm`.
-/

namespace PyOGRe

/-- The value of `options.ALL_SYMBOLS`: what `sym.symbols` returns, a tuple of symbols or one bare symbol. -/
inductive Letters
  | one (s : Sym)
  | many (l : List Sym)
  deriving DecidableEq, Repr

/-- `Options.py:28-30`, `161-163`, `187-189`. -/
def englishIndices : List Sym :=
  ["a", "b", "c", "d", "e", "f", "g", "h", "i", "j", "k", "l", "m", "n", "o", "p", "q", "r", "s", "t", "u", "v", "w",
    "x", "y", "z"]

/-- `Options.py:174-176`. -/
def greekIndices : List Sym :=
  ["mu", "nu", "rho", "sigma", "kappa", "lambda", "alpha", "beta", "gamma", "delta", "epsilon", "zeta", "theta",
    "iota", "xi", "pi", "tau", "phi", "chi", "psi", "omega"]

/-- `Options.py:21-47` `Options`: the fields with their default values (all but `INFO_ORDER`, which no function
sets). -/
structure Options where
  latex : Bool := true
  letters : Letters := .many englishIndices
  perLine : Int := 6
  fontSize : Int := 14
  parameter : Sym := "lambda"
  parallel : Bool := false
  deriving DecidableEq, Repr

/-- `Options.py:53-75` `set_parallelization`; `none` is `None`. -/
def setParallelization (parallel : Option (Arg Bool)) (o : Options) : Py Unit × Options :=
  match parallel with
  | none => (.ok (), o)
  | some .other => (.error .typeError, o)
  | some (.val b) => (.ok (), { o with parallel := b })

/-- `Options.py:270-274` `jupyter_support`. -/
def jupyterSupport (o : Options) : Options := { o with latex := true }

/-- `Options.py:277-281` `command_line_support`. -/
def commandLineSupport (o : Options) : Options := { o with latex := false }

/-- `Options.py:78-101` `set_list_per_line`; `none` is `None`. -/
def setListPerLine (number : Option (Arg Int)) (o : Options) : Py Unit × Options :=
  match number with
  | none => (.ok (), o)
  | some .other => (.error .typeError, o)
  | some (.val n) => if n < 0 then (.error .valueError, o) else (.ok (), { o with perLine := n })

/-- `Options.py:104-125` `set_font_size`. -/
def setFontSize (size : Option (Arg Int)) (o : Options) : Py Unit × Options :=
  match size with
  | none => (.ok (), o)
  | some .other => (.error .typeError, o)
  | some (.val n) => if n < 0 then (.error .valueError, o) else (.ok (), { o with fontSize := n })

/-! ### `sym.symbols`

Not PyOGRe code: what is assumed of sympy's `symbols(names)`.  Names with `:` (ranges like `x0:3`) or a
backslash (escapes) are left to an unknown function `ranges`. -/

/-- `s.strip()`. -/
def strip (s : List Char) : List Char := ((s.dropWhile isSpace).reverse.dropWhile isSpace).reverse

/-- `s.split(sep)` for one character `sep`. -/
def splitAt1 (sep : Char) : List Char → List (List Char)
  | [] => [[]]
  | c :: cs =>
    if c = sep then [] :: splitAt1 sep cs
    else match splitAt1 sep cs with
      | [] => [[c]]
      | w :: ws => (c :: w) :: ws

/-- `s.split()`: the words between white space. -/
def words (s : List Char) : List (List Char) := (s.splitOnP isSpace).filter fun w => !w.isEmpty

/-- `sym.symbols(names)`. -/
def sympySymbols (ranges : List Char → Py Letters) (names : List Char) : Py Letters :=
  if names.any fun c => c == ':' || c == '\\' then ranges names
  else
    let names := strip names
    let seq := names.getLast? == some ','
    let names := if seq then strip names.dropLast else names
    if names = [] then .error .valueError
    else
      let parts := (splitAt1 ',' names).map strip
      if parts.any fun p => p.isEmpty then .error .valueError
      else
        let ws := (parts.flatMap words).map String.ofList
        match seq, ws with
        | false, [] => .ok (.many [])
        | false, [s] => .ok (.one s)
        | _, ws => .ok (.many ws)

/-- `Options.py:128-208` `set_index_letters`; `none` is `None`.  Simplification: `lower()` is the lower case of
ASCII letters. -/
def setIndexLetters (ranges : List Char → Py Letters) (letters : Option (Arg (List Char))) (o : Options) :
    Py Unit × Options :=
  match letters with
  | none => (.ok (), o)
  | some .other => (.error .typeError, o)
  | some (.val s) =>
    let lower := s.map Char.toLower
    if lower = "automatic".toList then (.ok (), { o with letters := .many englishIndices })
    else if lower = "greek".toList then (.ok (), { o with letters := .many greekIndices })
    else if lower = "english".toList then (.ok (), { o with letters := .many englishIndices })
    else match sympySymbols ranges s with
      | .error e => (.error e, o)
      | .ok l => (.ok (), { o with letters := l })

/-- `sym.symbols(names, seq=True)`: always a tuple. -/
def sympySymbolsSeq (ranges : List Char → Py Letters) (names : List Char) : Py (List Sym) :=
  (sympySymbols ranges names).map fun
    | .one s => [s]
    | .many l => l

/-- The argument of `set_curve_parameter`: a string, a `Symbol`, or something else. -/
inductive SymbolArg
  | text (s : List Char)
  | symbol (s : Sym)
  | other
  deriving DecidableEq

/-- `Options.py:211-259` `set_curve_parameter`; `none` is `None`.  Of several names the first is taken; an empty tuple
raises `IndexError`.  Simplification: `lower()` is the lower case of ASCII letters. -/
def setCurveParameter (ranges : List Char → Py Letters) (symbol : Option SymbolArg) (o : Options) :
    Py Unit × Options :=
  match symbol with
  | none => (.ok (), o)
  | some .other => (.error .typeError, o)
  | some (.symbol s) => (.ok (), { o with parameter := s })
  | some (.text s) =>
    if s.map Char.toLower = "automatic".toList then (.ok (), { o with parameter := "lambda" })
    else match sympySymbolsSeq ranges s with
      | .error e => (.error e, o)
      | .ok [] => (.error .indexError, o)
      | .ok (x :: _) => (.ok (), { o with parameter := x })

end PyOGRe
