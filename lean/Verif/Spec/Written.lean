import Verif.Spec.Grammar
import Verif.Model.Interpreter
import Mathlib.Algebra.Field.Defs

/-!
# Writing expressions, lists and associations

The printed form of arithmetic expressions, with the parentheses that the usual precedences require and no
others, and of nested lists and associations, and what they mean.
-/

namespace PyOGRe

/-- Arithmetic expressions over names, numbers and letters `\[Name]`. -/
inductive Arith
  | word (w : List Char)
  | letter (w : List Char)
  | neg (a : Arith)
  | add (a b : Arith)
  | sub (a b : Arith)
  | mul (a b : Arith)
  | div (a b : Arith)
  | pow (a b : Arith)

namespace Spec

/-- With parentheses if asked for. -/
def parens (b : Bool) (ts : List Tok) : List Tok := if b then .lparen :: (ts ++ [.rparen]) else ts

/-- The printed form where a sum (`0`), a term (`1`), a factor (`2`) or a base (`3`) is wanted.  `a - b - c`
is `(a - b) - c`, `a / b / c` is `(a / b) / c`, `a ^ b ^ c` is `a ^ (b ^ c)`, `-a ^ b` is `-(a ^ b)`, and `^`
binds tighter than `*` and `/`, which bind tighter than `+` and `-`.  `sp` is put around the binary
operators. -/
def shown (sp : List Tok) : Nat → Arith → List Tok
  | _, .word w => [.expr w]
  | _, .letter w => [.command, .lbrace, .expr w, .rbrace]
  | l, .add a b => parens (0 < l) (shown sp 0 a ++ sp ++ .plus :: (sp ++ shown sp 1 b))
  | l, .sub a b => parens (0 < l) (shown sp 0 a ++ sp ++ .minus :: (sp ++ shown sp 1 b))
  | l, .mul a b => parens (1 < l) (shown sp 1 a ++ sp ++ .multiply :: (sp ++ shown sp 2 b))
  | l, .div a b => parens (1 < l) (shown sp 1 a ++ sp ++ .divide :: (sp ++ shown sp 2 b))
  | l, .neg a => parens (2 < l) (.minus :: shown sp 2 a)
  | l, .pow a b => parens (2 < l) (shown sp 3 a ++ sp ++ .power :: (sp ++ shown sp 2 b))

/-- The names and numbers in an expression. -/
def words : Arith → List (List Char)
  | .word w => [w]
  | .letter _ => []
  | .neg a => words a
  | .add a b | .sub a b | .mul a b | .div a b | .pow a b => words a ++ words b

/-- The names between `\[` and `]` in an expression. -/
def letters : Arith → List (List Char)
  | .word _ => []
  | .letter w => [w]
  | .neg a => letters a
  | .add a b | .sub a b | .mul a b | .div a b | .pow a b => letters a ++ letters b

/-- The Greek alphabet. -/
def greekAlphabet : List String :=
  ["Alpha", "Beta", "Gamma", "Delta", "Epsilon", "Zeta", "Eta", "Theta", "Iota", "Kappa", "Lambda", "Mu", "Nu", "Xi",
    "Omicron", "Pi", "Rho", "Sigma", "Tau", "Upsilon", "Phi", "Chi", "Psi", "Omega"]

/-- A Greek letter of the given English name. -/
def IsGreek (w : List Char) : Prop := String.ofList w ∈ greekAlphabet

instance (w : List Char) : Decidable (IsGreek w) := inferInstanceAs (Decidable (_ ∈ _))

/-- The name of the symbol that `\[w]` stands for: `\[Alpha]` is `alpha`, `\[CapitalAlpha]` is `Alpha`,
`\[DottedSquare]`, Mathematica's placeholder for the symbol of a tensor, is `T`, and any other `\[Name]` is `Name`. -/
def letterName (w : List Char) : List Char :=
  if IsGreek w then w.map Char.toLower
  else if w.take 7 = "Capital".toList ∧ IsGreek (w.drop 7) then w.drop 7
  else if w = "DottedSquare".toList then ['T']
  else w

/-- The value of an expression, given the values of names and numbers, the symbols and the meaning of powers. -/
def value {K : Type} [Field K] (pow : K → K → K) (atom symbol : List Char → K) : Arith → K
  | .word w => atom w
  | .letter w => symbol (letterName w)
  | .neg a => -value pow atom symbol a
  | .add a b => value pow atom symbol a + value pow atom symbol b
  | .sub a b => value pow atom symbol a - value pow atom symbol b
  | .mul a b => value pow atom symbol a * value pow atom symbol b
  | .div a b => value pow atom symbol a / value pow atom symbol b
  | .pow a b => pow (value pow atom symbol a) (value pow atom symbol b)

end Spec

/-- Spaces are single, and come after something and before something. -/
def Calm : List Char → Prop
  | [] => True
  | [c] => isSpace c = false
  | c :: d :: cs => (isSpace c = true → c = ' ' ∧ isSpace d = false) ∧ Calm (d :: cs)

def TidyText (cs : List Char) : Prop := Calm cs ∧ ∃ c, cs.head? = some c ∧ isSpace c = false

/-- Text that is read as the tokens it was written from. -/
structure Block (ts : List Tok) : Prop where
  writable : ∀ t ∈ ts, Spec.Writable t
  separated : Spec.Separated ts
  tidy : TidyText (Spec.text ts)
  clean : ∀ rest, strReplaceFrom holdMark [] 0 (Spec.text ts ++ rest) = Spec.text ts ++ strReplaceFrom holdMark [] 0 rest

/-- Nested lists and associations of expressions and strings. -/
inductive Data
  | arith (a : Arith)
  | text (s : List Char)
  | list (l : List Data)
  | assoc (keys values : List Data)

namespace Spec

/-- Separated by commas. -/
def commas (sp : List Tok) : List (List Tok) → List Tok
  | [] => []
  | [a] => a
  | a :: b :: l => a ++ .comma :: (sp ++ commas sp (b :: l))

mutual

/-- The printed form: `{a, b}` and `<|k -> v, k' -> v'|>`; `sp` is put after commas and around operators
and arrows. -/
def written (sp : List Tok) : Data → List Tok
  | .arith a => shown sp 0 a
  | .text s => [.str (quoted s)]
  | .list l => .lcurl :: (commas sp (writtenEach sp l) ++ [.rcurl])
  | .assoc ks vs =>
    .lassoc :: (commas sp (List.zipWith (fun k v => k ++ sp ++ .arrow :: (sp ++ v)) (writtenEach sp ks)
      (writtenEach sp vs)) ++ [.rassoc])

def writtenEach (sp : List Tok) : List Data → List (List Tok)
  | [] => []
  | d :: l => written sp d :: writtenEach sp l

end

/-- Strings whose content is read back: double-quotable, without backslashes, and without white space but
single spaces. -/
def Legible (s : List Char) : Prop :=
  Quotable s ∧ '\\' ∉ s ∧ (∀ c ∈ s, isSpace c = true → c = ' ') ∧ ¬ [' ', ' '] <:+: s

mutual

/-- What the text means: numbers, strings, lists, dictionaries, and, if a key cannot be looked up because it
is itself a list or an association, the pair of the lists of the keys and the values. -/
def meaning {K : Type} [Field K] (pow : K → K → K) (atom symbol : List Char → K) : Data → Val K
  | .arith a => .num (value pow atom symbol a)
  | .text s => .str s
  | .list l => .list (meaningEach pow atom symbol l)
  | .assoc ks vs =>
    if (meaningEach pow atom symbol ks).all Val.hashable then
      .dict (List.zip (meaningEach pow atom symbol ks) (meaningEach pow atom symbol vs))
    else .table (meaningEach pow atom symbol ks) (meaningEach pow atom symbol vs)

def meaningEach {K : Type} [Field K] (pow : K → K → K) (atom symbol : List Char → K) : List Data → List (Val K)
  | [] => []
  | d :: l => meaning pow atom symbol d :: meaningEach pow atom symbol l

end

/-- Equal keys (of numbers or strings). -/
def SameKey {K : Type} : Val K → Val K → Prop
  | .num x, .num y => x = y
  | .str s, .str t => s = t
  | _, _ => False

/-- Data that can be written down: names are words, strings are legible, associations have as many values
as keys, and no key twice. -/
inductive Sensible {K : Type} [Field K] (pow : K → K → K) (atom symbol : List Char → K) : Data → Prop
  | arith {a} : (∀ w ∈ words a ++ letters a, Word w) → Sensible pow atom symbol (.arith a)
  | text {s} : Legible s → Sensible pow atom symbol (.text s)
  | list {l} : (∀ d ∈ l, Sensible pow atom symbol d) → Sensible pow atom symbol (.list l)
  | assoc {ks vs} : (∀ d ∈ ks, Sensible pow atom symbol d) → (∀ d ∈ vs, Sensible pow atom symbol d) →
      ks.length = vs.length →
      (meaningEach pow atom symbol ks).Pairwise (fun x y => ¬ SameKey x y) → Sensible pow atom symbol (.assoc ks vs)

mutual
/-- The names and numbers in the data. -/
def dataWords : Data → List (List Char)
  | .arith a => words a
  | .text _ => []
  | .list l => dataWordsEach l
  | .assoc ks vs => dataWordsEach ks ++ dataWordsEach vs
def dataWordsEach : List Data → List (List Char)
  | [] => []
  | d :: l => dataWords d ++ dataWordsEach l
end

/-- `parse_str` returns `v` on the string. -/
def ReadsAs {K : Type} [DecidableEq K] [CommRing K] (R : Reader K) (s : List Char) (v : Val K) : Prop :=
  ∃ N, ∀ n, N ≤ n → parseStr R n s = some (.ok v)

end Spec
end PyOGRe
