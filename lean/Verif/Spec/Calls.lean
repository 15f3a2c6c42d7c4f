import Verif.Spec.Written

/-!
# Calls and special characters in Mathematica text

Python's arithmetic, which is what sympy reads; the functions of sympy that Mathematica's stand for; strings with
special characters.
-/

namespace PyOGRe

/-- Arithmetic expressions as Python writes them, with their parentheses. -/
inductive Python
  | word (w : List Char)
  | paren (a : Python)
  | neg (a : Python)
  | add (a b : Python)
  | sub (a b : Python)
  | mul (a b : Python)
  | div (a b : Python)
  | pow (a b : Python)

/-- How it is written. -/
def Python.text : Python → List Char
  | .word w => w
  | .paren a => '(' :: (a.text ++ [')'])
  | .neg a => '-' :: a.text
  | .add a b => a.text ++ [' ', '+', ' '] ++ b.text
  | .sub a b => a.text ++ [' ', '-', ' '] ++ b.text
  | .mul a b => a.text ++ [' ', '*', ' '] ++ b.text
  | .div a b => a.text ++ [' ', '/', ' '] ++ b.text
  | .pow a b => a.text ++ [' ', '^', ' '] ++ b.text

/-- Python's precedences: where a sum (`0`), a term (`1`), a factor (`2`) or a base (`3`) is wanted. -/
def Python.Legal : Nat → Python → Prop
  | _, .word _ => True
  | _, .paren a => a.Legal 0
  | l, .neg a => l ≤ 2 ∧ a.Legal 2
  | l, .add a b => l = 0 ∧ a.Legal 0 ∧ b.Legal 1
  | l, .sub a b => l = 0 ∧ a.Legal 0 ∧ b.Legal 1
  | l, .mul a b => l ≤ 1 ∧ a.Legal 1 ∧ b.Legal 2
  | l, .div a b => l ≤ 1 ∧ a.Legal 1 ∧ b.Legal 2
  | l, .pow a b => l ≤ 2 ∧ a.Legal 3 ∧ b.Legal 2

/-- Its value. -/
def Python.value {K : Type} [Field K] (pow : K → K → K) (atom : List Char → K) : Python → K
  | .word w => atom w
  | .paren a => a.value pow atom
  | .neg a => -a.value pow atom
  | .add a b => a.value pow atom + b.value pow atom
  | .sub a b => a.value pow atom - b.value pow atom
  | .mul a b => a.value pow atom * b.value pow atom
  | .div a b => a.value pow atom / b.value pow atom
  | .pow a b => pow (a.value pow atom) (b.value pow atom)

namespace Spec

/-- No power of a negated expression, as in `(-x)^2`. -/
def PositiveBases : Arith → Prop
  | .word _ | .letter _ => True
  | .neg a => PositiveBases a
  | .add a b | .sub a b | .mul a b | .div a b => PositiveBases a ∧ PositiveBases b
  | .pow a b => (∀ c, a ≠ .neg c) ∧ PositiveBases a ∧ PositiveBases b

/-- Functions with an inverse. -/
def invertible : List String := ["Sin", "Cos", "Tan", "Sinh", "Cosh", "Tanh"]

/-- The name in sympy of Mathematica's trigonometric, hyperbolic, exponential and logarithmic functions: `Cosh` is
`cosh` and `ArcCosh` is `acosh`. -/
def sympyName (w : List Char) : Option (List Char) :=
  if String.ofList w ∈ invertible ++ ["Sec", "Csc", "Cot", "Sech", "Csch", "Coth", "Exp", "Log"] then
    some (w.map Char.toLower)
  else if w.take 3 = "Arc".toList ∧ String.ofList (w.drop 3) ∈ invertible then some ('a' :: (w.drop 3).map Char.toLower)
  else none

/-- The function of that name applied to the arguments: one of sympy's, or an undefined function. -/
def applied {K : Type} (R : Reader K) (name : List Char) (xs : List K) : Py K :=
  match sympyName name with
  | some s => R.builtin s xs
  | none => R.function (.str name) xs

/-- `name[a, b, ...]`. -/
def callText (sp : List Tok) (name : List Char) (args : List Arith) : List Tok :=
  .expr name :: .lbrace :: (commas sp (args.map (shown sp 0)) ++ [.rbrace])

/-- `Derivative[n, m, ...][f][a, b, ...]`. -/
def derivativeText (sp : List Tok) (orders : List (List Char)) (f : List Char) (args : List Arith) : List Tok :=
  .expr "Derivative".toList :: (.lbrace :: (commas sp (orders.map fun k => [.expr k]) ++ [.rbrace]) ++
    .lbrace :: ([.expr f] ++ [.rbrace]) ++ .lbrace :: (commas sp (args.map (shown sp 0)) ++ [.rbrace]))

/-- A piece of the content of a string: a character or `\[Name]`. -/
inductive Piece
  | char (c : Char)
  | special (w : List Char)

def Piece.text : Piece → List Char
  | .char c => [c]
  | .special w => '\\' :: '[' :: (w ++ [']'])

/-- What a piece stands for: `\[Alpha]` for `alpha`, `\[CapitalAlpha]` for `Alpha`, `\[DottedSquare]` for nothing, and
every other `\[Name]` for itself. -/
def Piece.spoken : Piece → List Char
  | .char c => [c]
  | .special w =>
    if IsGreek w then w.map Char.toLower
    else if w.take 7 = "Capital".toList ∧ IsGreek (w.drop 7) then w.drop 7
    else if w = "DottedSquare".toList then []
    else '\\' :: '[' :: (w ++ [']'])

/-- Characters are no backslashes, special names are words. -/
def Piece.Fair : Piece → Prop
  | .char c => c ≠ '\\'
  | .special w => Word w

end Spec
end PyOGRe
