import Verif.Model.Messages

/-!
# What the functions that set options show, and `get_options`
-/

namespace PyOGRe
variable {K : Type}

/-- `str` of a boolean. -/
def boolText (b : Bool) : List Char := if b then "True".toList else "False".toList

/-- `str` of a tuple, from the texts of its entries. -/
def entriesText : List (List Char) → List Char
  | [a] => '(' :: (a ++ [',', ')'])
  | l => '(' :: (joinText [',', ' '] l ++ [')'])

/-- `print(options.ALL_SYMBOLS)`: a symbol is written as its name. -/
def lettersText : Letters → List Char
  | .one s => s.toList
  | .many l => entriesText (l.map String.toList)

/-- `Options.py:148-155` and the same lines below: the index letters; `latex` is `sym.latex`. -/
def shownLetters (latex : Letters → List Char) (o : Options) : Out K :=
  if o.latex then .markdown ('$' :: (latex o.letters ++ ['$'])) else .line (lettersText o.letters)

/-- `Options.py:220-228` and the same lines below: the curve parameter. -/
def shownParameter (T : Typeset K) (o : Options) : Out K :=
  if o.latex then .markdown ('$' :: (T.symbol o.parameter ++ ['$'])) else .line o.parameter.toList

/-- `Options.py:53-75` `set_parallelization` with what it prints: the value, if there is no argument. -/
def setParallelizationTold (parallel : Option (Arg Bool)) (o : Options) : List (Out K) × Py Unit × Options :=
  match parallel with
  | none => ([.line (boolText o.parallel)], setParallelization none o)
  | some b => ([], setParallelization (some b) o)

/-- `Options.py:78-101` `set_list_per_line` with what it prints: the value, if there is no argument.  Simplification:
`True` and `False` are not taken as numbers. -/
def setListPerLineTold (number : Option (Arg Int)) (o : Options) : List (Out K) × Py Unit × Options :=
  match number with
  | none => ([.line (intText o.perLine)], setListPerLine none o)
  | some n => ([], setListPerLine (some n) o)

/-- `Options.py:104-125` `set_font_size` with what it prints: the value, if there is no argument.  Simplification:
`True` and `False` are not taken as numbers. -/
def setFontSizeTold (size : Option (Arg Int)) (o : Options) : List (Out K) × Py Unit × Options :=
  match size with
  | none => ([.line (intText o.fontSize)], setFontSize none o)
  | some n => ([], setFontSize (some n) o)

/-- `Options.py:128-208` `set_index_letters` with what it shows: each of the five branches that do not raise ends with the
letters that are valid then. -/
def setIndexLettersTold (latex : Letters → List Char) (ranges : List Char → Py Letters)
    (letters : Option (Arg (List Char))) (o : Options) : List (Out K) × Py Unit × Options :=
  match setIndexLetters ranges letters o with
  | (.ok (), o') => ([shownLetters latex o'], .ok (), o')
  | (.error e, o') => ([], .error e, o')

/-- `Options.py:211-259` `set_curve_parameter` with what it shows: each of the three branches that do not raise ends with the
parameter that is valid then. -/
def setCurveParameterTold (T : Typeset K) (ranges : List Char → Py Letters) (symbol : Option SymbolArg) (o : Options) :
    List (Out K) × Py Unit × Options :=
  match setCurveParameter ranges symbol o with
  | (.ok (), o') => ([shownParameter T o'], .ok (), o')
  | (.error e, o') => ([], .error e, o')

/-- `Options.py:284-289` `get_options`: the lines that it prints, one for each field of `Options` (`Options.py:27-47`) in the
order of the class. -/
def getOptions (o : Options) : List (List Char) :=
  ["LATEX: ".toList ++ boolText o.latex,
    "ALL_SYMBOLS: ".toList ++ lettersText o.letters,
    "CURVE_PARAMETER: ".toList ++ o.parameter.toList,
    "INFO_ORDER: ".toList ++ entriesText (infoOrder.map fun key => '\'' :: (key.toList ++ ['\''])),
    "LIST_PER_LINE: ".toList ++ intText o.perLine,
    "FONT_SIZE: ".toList ++ intText o.fontSize,
    "PARALLEL: ".toList ++ boolText o.parallel]

end PyOGRe
