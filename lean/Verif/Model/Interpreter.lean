import Verif.Model.Parser
import Mathlib.Algebra.Ring.Defs

/-!
# The interpreter

`MathematicaParser/Interpreter.py`: from the syntax tree to Python values.  What sympy does with names,
numbers, powers and function calls is a black box (`Reader`).
-/

namespace PyOGRe

/-- The Python values built by the interpreter: expressions, strings, lists, dictionaries, the pair of
lists that stands for an association with unhashable keys, and equations. -/
inductive Val (K : Type)
  | num (x : K)
  | str (s : List Char)
  | list (l : List (Val K))
  | dict (d : List (Val K × Val K))
  | table (keys values : List (Val K))
  | eq (a b : K)

/-- What sympy contributes.
* `atom`: `sym.sympify(text)`;
* `symbol`: `sym.Symbol(name)`;
* `pow`: `sym.Pow`;
* `builtin`: the function of sympy with the given name, such as `sym.sin`, applied to arguments;
* `function`: `sym.Function(head)` applied to arguments;
* `diff`: `sym.diff` of an expression by the listed ones, one after the other;
* `order`: the number of rounds of `range(x)`. -/
structure Reader (K : Type) where
  atom : List Char → Py K
  symbol : List Char → K
  pow : K → K → K
  builtin : List Char → List K → Py K
  function : Val K → List K → Py K
  diff : K → List K → Py K
  order : K → Py Nat

variable {K : Type}

/-- `str.replace(pat, rep)` for a non-empty pattern; `skip` characters are part of a match. -/
def strReplaceFrom (pat rep : List Char) : Nat → List Char → List Char
  | _, [] => []
  | k + 1, _ :: cs => strReplaceFrom pat rep k cs
  | 0, c :: cs =>
    if pat.isPrefixOf (c :: cs) then rep ++ strReplaceFrom pat rep (pat.length - 1) cs
    else c :: strReplaceFrom pat rep 0 cs

def strReplace (pat rep cs : List Char) : List Char := strReplaceFrom pat rep 0 cs

/-- The names of the Greek letters (`Interpreter.py:4-28`). -/
def greekNames : List String :=
  ["Alpha", "Beta", "Gamma", "Delta", "Epsilon", "Zeta", "Eta", "Theta", "Iota", "Kappa", "Lambda", "Mu",
    "Nu", "Xi", "Omicron", "Pi", "Rho", "Sigma", "Tau", "Upsilon", "Phi", "Chi", "Psi", "Omega"]

/-- `Interpreter.py:4-54` `greek_letters`. -/
def greekLetters : List (List Char × List Char) :=
  greekNames.map (fun s => (("Capital" ++ s).toList, s.toList)) ++
    greekNames.map (fun s => (s.toList, s.toList.map Char.toLower)) ++
    [("DottedSquare".toList, ['T'])]

/-- `Interpreter.py:56-106` `greek_commands`. -/
def greekCommands : List (List Char × List Char) :=
  greekNames.map (fun s => (("\\[Capital" ++ s ++ "]").toList, s.toList)) ++
    greekNames.map (fun s => (("\\[" ++ s ++ "]").toList, s.toList.map Char.toLower)) ++
    [("\\[DottedSquare]".toList, [])]

/-- `Interpreter.py:132-138` `replace_greek_commands`. -/
def replaceGreek (s : List Char) : List Char :=
  greekCommands.foldl (fun s p => strReplace p.1 p.2 s) s

/-- The value of a digit of a number in base 16. -/
def hexDigit (c : Char) : Option Nat :=
  if '0' ≤ c ∧ c ≤ '9' then some (c.toNat - 48)
  else if 'a' ≤ c ∧ c ≤ 'f' then some (c.toNat - 87)
  else if 'A' ≤ c ∧ c ≤ 'F' then some (c.toNat - 55)
  else none

/-- The escapes `\x`, `\u` and `\U` of Python, with `k` digits: the character, and the length with the letter.
Simplification: code points that are no characters (the surrogates, of which Python makes strings) raise `SyntaxError`. -/
def hexEscape (k : Nat) (cs : List Char) : Option (List Char × Nat) := do
  if cs.length < k then none
  else do
    let v ← (cs.take k).foldlM (fun v c => do return 16 * v + (← hexDigit c)) 0
    if v.isValidChar then return ([Char.ofNat v], k + 1) else none

def isOctal (c : Char) : Bool := '0' ≤ c && c ≤ '7'

/-- Up to three digits of a number in base 8. -/
def octalEscape (cs : List Char) : List Char × Nat :=
  let d := (cs.take 3).takeWhile isOctal
  ([Char.ofNat (d.foldl (fun v c => 8 * v + (c.toNat - 48)) 0)], d.length)

/-- The escapes in Python string literals: what the characters after a backslash stand for, and how many of them belong to
the escape.  Simplification: named characters (`\N{...}`) are taken to raise `SyntaxError`. -/
def escape : List Char → Option (List Char × Nat)
  | [] => none
  | c :: cs =>
    if c = '\n' then some ([], 1)
    else if c = '\\' ∨ c = '\'' ∨ c = '"' then some ([c], 1)
    else if c = 'a' then some ([Char.ofNat 7], 1)
    else if c = 'b' then some ([Char.ofNat 8], 1)
    else if c = 'f' then some ([Char.ofNat 12], 1)
    else if c = 'n' then some (['\n'], 1)
    else if c = 'r' then some (['\r'], 1)
    else if c = 't' then some (['\t'], 1)
    else if c = 'v' then some ([Char.ofNat 11], 1)
    else if c = 'x' then hexEscape 2 cs
    else if c = 'u' then hexEscape 4 cs
    else if c = 'U' then hexEscape 8 cs
    else if c = 'N' then none
    else if isOctal c then some (octalEscape (c :: cs))
    else some (['\\', c], 1)

/-- The content of a Python string literal; `stop` says where it cannot go on, and the first characters belong to an escape. -/
def unescapeFrom (stop : List Char → Bool) : Nat → List Char → Py (List Char)
  | _, [] => .ok []
  | k + 1, _ :: cs => unescapeFrom stop k cs
  | 0, c :: cs =>
    if c = '\\' then
      match escape cs with
      | none => .error .syntaxError
      | some (l, k) => do
        let tail ← unescapeFrom stop k cs
        return l ++ tail
    else if stop (c :: cs) then .error .syntaxError
    else do
      let tail ← unescapeFrom stop 0 cs
      return c :: tail

/-- The content of a literal with quote `q`. -/
def unescape (q : Char) (s : List Char) : Py (List Char) :=
  unescapeFrom (fun s => s.head? == some q || s.head? == some '\n') 0 s

/-- The content of a literal with triple quotes. -/
def unescapeLong (s : List Char) : Py (List Char) :=
  unescapeFrom (fun s => tripleQuote.isPrefixOf (s ++ tripleQuote)) 0 s

/-- `ast.literal_eval` of the text of a string token (`Interpreter.py:206-211`).  Simplification: text that is not one literal
with the same quotes at both ends is taken to raise `SyntaxError`. -/
def literalEval (s : List Char) : Py (List Char) :=
  if 6 ≤ s.length ∧ s.take 3 = tripleQuote ∧ s.drop (s.length - 3) = tripleQuote then
    unescapeLong ((s.drop 3).take (s.length - 6))
  else
    match s with
    | q :: rest =>
      if (q = '"' ∨ q = '\'') ∧ rest.getLast? = some q then unescape q rest.dropLast
      else .error .syntaxError
    | [] => .error .syntaxError

/-- The operand of an arithmetic operation.  Simplification: everything but an expression is taken to
raise `TypeError`. -/
def Val.asNum : Val K → Py K
  | .num x => .ok x
  | _ => .error .typeError

/-- `hash(key)` works. -/
def Val.hashable : Val K → Bool
  | .num _ => true
  | .str _ => true
  | .eq _ _ => true
  | _ => false

/-- Equality of dictionary keys.  Simplification: equations are taken to differ. -/
def Val.sameKey [DecidableEq K] : Val K → Val K → Bool
  | .num x, .num y => x == y
  | .str s, .str t => s == t
  | _, _ => false

/-- `d[key] = value`. -/
def setKey [DecidableEq K] : List (Val K × Val K) → Val K → Val K → List (Val K × Val K)
  | [], k, v => [(k, v)]
  | p :: d, k, v => if p.1.sameKey k then (p.1, v) :: d else p :: setKey d k v

/-- `[self.visit(child) for child in ...]`: the values, or the first error. -/
def allOf : List (Py (Val K)) → Py (List (Val K))
  | [] => .ok []
  | a :: l => do
    let x ← a
    let xs ← allOf l
    return x :: xs

/-- `{self.visit(key): self.visit(value) for key, value in zip(keys, values)}`. -/
def dictOf [DecidableEq K] :
    List (Py (Val K)) → List (Py (Val K)) → List (Val K × Val K) → Py (List (Val K × Val K))
  | k :: ks, v :: vs, d => do
    let x ← k
    let y ← v
    if x.hashable then dictOf ks vs (setKey d x y) else .error .typeError
  | _, _, d => .ok d

/-- `Interpreter.py:108-129` `known_functions`: the name in Mathematica and the name in sympy. -/
def knownFunctions : List (List Char × List Char) :=
  [("Sin", "sin"), ("Cos", "cos"), ("Tan", "tan"), ("ArcSin", "asin"), ("ArcCos", "acos"), ("ArcTan", "atan"),
    ("Sec", "sec"), ("Csc", "csc"), ("Cot", "cot"), ("Sinh", "sinh"), ("Cosh", "cosh"), ("Tanh", "tanh"),
    ("ArcSinh", "asinh"), ("ArcCosh", "acosh"), ("ArcTanh", "atanh"), ("Sech", "sech"), ("Csch", "csch"),
    ("Coth", "coth"), ("Exp", "exp"), ("Log", "log")].map fun p => (p.1.toList, p.2.toList)

/-- `", ".join(...)`, as in the text of a Python list. -/
def joinComma : List (List Char) → List Char
  | [] => []
  | [s] => s
  | s :: t :: l => s ++ ", ".toList ++ joinComma (t :: l)

mutual

/-- `Nodes.py` `__repr__`, also of `None` and of lists of nodes. -/
def Node.repr : Node → List Char
  | .none => ['N', 'o', 'n', 'e']
  | .add a b => '(' :: (a.repr ++ [' ', '+', ' '] ++ b.repr ++ [')'])
  | .sub a b => '(' :: (a.repr ++ [' ', '-', ' '] ++ b.repr ++ [')'])
  | .mul a b => '(' :: (a.repr ++ [' ', '*', ' '] ++ b.repr ++ [')'])
  | .div a b => '(' :: (a.repr ++ [' ', '/', ' '] ++ b.repr ++ [')'])
  | .pow a b => '(' :: (a.repr ++ [' ', '^', ' '] ++ b.repr ++ [')'])
  | .plus a => '+' :: '(' :: (a.repr ++ [')'])
  | .minus a => '-' :: '(' :: (a.repr ++ [')'])
  | .str s => '(' :: (s ++ [')'])
  | .expr w => w
  | .eq a b => a.repr ++ [' ', '=', ' '] ++ b.repr
  | .list l => '[' :: (joinComma (reprEach l) ++ [']'])
  | .wrapped a => a.repr
  | .assoc ks vs => ['(', '['] ++ joinComma (reprEach ks) ++ [']', ':', ' ', '['] ++ joinComma (reprEach vs) ++ [']', ')']
  | .greek none => ['G', 'R', 'E', 'E', 'K', ':', 'N', 'o', 'n', 'e']
  | .greek (some w) => ['G', 'R', 'E', 'E', 'K', ':'] ++ w
  | .func name args => '(' :: (name ++ '[' :: (joinComma (reprEach args) ++ [']', ')']))
  | .pyList l => '[' :: (joinComma (reprEach l) ++ [']'])

def reprEach : List Node → List (List Char)
  | [] => []
  | a :: l => a.repr :: reprEach l

end

section
variable [DecidableEq K] [CommRing K] (R : Reader K)

/-- `sym.sympify(node)`: what is not an expression is converted to text, and the text is read by sympy. -/
def sympifyNode (t : Node) : Py K := R.atom t.repr

/-- `[sym.sympify(child) for child in l]`. -/
def sympifyEach : List Node → Py (List K)
  | [] => .ok []
  | a :: l => do
    let x ← sympifyNode R a
    let xs ← sympifyEach l
    return x :: xs

/-- The arguments in one pair of brackets (`isinstance(..., list)` in `Interpreter.py:251,268,271`). -/
def groupArgs : Node → List Node
  | .pyList l => l
  | t => [t]

/-- `Interpreter.py:267-273`: a call of a function other than `Derivative`. -/
def callFunction (name : List Char) (args : List Node) : Py K :=
  match args with
  | [] => .error .indexError
  | g :: _ => do
    let xs ← sympifyEach R (groupArgs g)
    match knownFunctions.find? (fun p => p.1 == name) with
    | some p => R.builtin p.2 xs
    | none => R.function (.str name) xs

/-- `range(self.visit(order))`.  Simplification: a string or a list is not an order; it raises `TypeError`. -/
def rounds (v : Py (Val K)) : Py Nat := do
  let x ← v
  R.order (← x.asNum)

/-- `Interpreter.py:255-259`: each argument as often as its order says; the arguments are read again by
`sym.diff`. -/
def byEach : List (Py (Val K)) → List Node → Py (List K)
  | [], _ => .ok []
  | o :: os, args => do
    let n ← rounds R o
    match args with
    | [] => if n = 0 then byEach os [] else .error .indexError
    | a :: l => do
      let x ← sympifyNode R a
      let xs ← byEach os l
      return List.replicate n x ++ xs

/-- `Interpreter.py:250-266`: `Derivative[orders][f][arguments]`; `heads` are the values of the groups and
`orders` those of the entries of the first one, if it is a list. -/
def callDerivative (args : List Node) (heads : List (Py (Val K))) (orders : Option (List (Py (Val K)))) : Py K :=
  match args, heads with
  | _ :: _ :: g :: _, n :: f :: _ => do
    let head ← f
    let xs ← sympifyEach R (groupArgs g)
    let value ← R.function head xs
    match g with
    | .pyList l =>
      match orders with
      | none => .error .typeError
      | some os => do R.diff value (← byEach R os l)
    | a => do
      let k ← rounds R n
      let x ← sympifyNode R a
      R.diff value (List.replicate k x)
  | _, _ => .error .indexError

mutual

/-- `Interpreter.py:156-286` `visit` and the `visit_*` methods. -/
def visit : Node → Py (Val K)
  | .none => .error .attributeError
  | .add a b => do
    let x ← visit a
    let y ← visit b
    return .num ((← x.asNum) + (← y.asNum))
  | .sub a b => do
    let x ← visit a
    let y ← visit b
    return .num ((← x.asNum) + -(← y.asNum))
  | .mul a b => do
    let x ← visit a
    let y ← visit b
    return .num ((← x.asNum) * (← y.asNum))
  | .div a b => do
    let x ← visit a
    let y ← visit b
    return .num ((← x.asNum) * R.pow (← y.asNum) (-1))
  | .pow a b => do
    let x ← visit a
    let y ← visit b
    return .num (R.pow (← x.asNum) (← y.asNum))
  | .plus a => do
    let x ← visit a
    return .num (← x.asNum)
  | .minus a => do
    let x ← visit a
    return .num (-(← x.asNum))
  | .str s => do return .str (← literalEval (replaceGreek s))
  | .expr w => do return .num (← R.atom w)
  | .eq a b => do
    let x ← visit a
    let y ← visit b
    return .eq (← x.asNum) (← y.asNum)
  | .list l => do return .list (← allOf (visitEach l))
  | .wrapped _ => .error .typeError
  | .assoc ks vs =>
    match dictOf (visitEach ks) (visitEach vs) [] with
    | .ok d => .ok (.dict d)
    | .error .typeError => do
      let ks' ← allOf (visitEach ks)
      let vs' ← allOf (visitEach vs)
      return .table ks' vs'
    | .error e => .error e
  | .greek none => .error .typeError
  | .greek (some w) =>
    match greekLetters.find? (fun p => p.1 == w) with
    | some p => .ok (.num (R.symbol p.2))
    | none => .ok (.num (R.symbol w))
  | .func name args => do
    if name = "Derivative".toList then return .num (← callDerivative R args (visitEach args) (visitOrders args))
    else return .num (← callFunction R name args)
  | .pyList _ => .error .attributeError

/-- The children, each visited. -/
def visitEach : List Node → List (Py (Val K))
  | [] => []
  | a :: l => visit a :: visitEach l

/-- The entries of the first group, each visited. -/
def visitOrders : List Node → Option (List (Py (Val K)))
  | .pyList l :: _ => some (visitEach l)
  | _ => none

end

end

/-- Python's white space for `str.split()`. -/
def isSpace (c : Char) : Bool :=
  c == ' ' || (9 ≤ c.toNat && c.toNat ≤ 13) || (0x1c ≤ c.toNat && c.toNat ≤ 0x1f) || c.toNat == 0x85 ||
    c.toNat == 0xa0 || c.toNat == 0x1680 || (0x2000 ≤ c.toNat && c.toNat ≤ 0x200a) || c.toNat == 0x2028 ||
    c.toNat == 0x2029 || c.toNat == 0x202f || c.toNat == 0x205f || c.toNat == 0x3000

/-- `" ".join(string.split())`: `pending` says that white space was seen since the last word, `started`
that there was a word. -/
def squeezeFrom (started pending : Bool) : List Char → List Char
  | [] => []
  | c :: cs =>
    if isSpace c then squeezeFrom started true cs
    else if started && pending then ' ' :: c :: squeezeFrom true false cs
    else c :: squeezeFrom true false cs

def squeeze (cs : List Char) : List Char := squeezeFrom false false cs

/-- `r"\\ReleaseHold"`, with two backslashes. -/
def holdMark : List Char := "\\\\ReleaseHold".toList

/-- `Interpreter.py:141-149` `parse_str`. -/
def parseStr [DecidableEq K] [CommRing K] (R : Reader K) (n : Nat) (string : List Char) :
    Option (Py (Val K)) :=
  match tokens (squeeze (strReplace holdMark [] string)) with
  | none => none
  | some (.error e) => some (.error e)
  | some (.ok ts) =>
    match parse n ts with
    | none => none
    | some (.error e) => some (.error e)
    | some (.ok t) => some (visit R t)

end PyOGRe
