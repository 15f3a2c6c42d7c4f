import Verif.Model.Options

/-!
# Strings of symbols
-/

namespace PyOGRe

/-- `Utils.py:16-37` `str_symbols(names)`: the symbols that `sym.symbols` makes of a string, joined with blanks. -/
def strSymbols (ranges : List Char → Py Letters) (names : Arg (List Char)) : Py (List Char) :=
  match names with
  | .other => throw .typeError
  | .val s => do
    let l ← sympySymbolsSeq ranges s
    return List.intercalate [' '] (l.map String.toList)

end PyOGRe
