import Verif.Model.Parser
import Mathlib.Data.List.Basic

/-!
# Mathematica text: tokens and grammar

What a list of tokens looks like as text, and the grammar of the expressions, lists and associations that
users and `export` write.
-/

namespace PyOGRe

/-- How a token is written. -/
def Tok.text : Tok → List Char
  | .expr w => w
  | .str s => s
  | .plus => ['+'] | .minus => ['-'] | .multiply => ['*'] | .divide => ['/'] | .power => ['^']
  | .lparen => ['('] | .rparen => [')'] | .lbrace => ['['] | .rbrace => [']']
  | .lcurl => ['{'] | .rcurl => ['}'] | .lassoc => ['<', '|'] | .rassoc => ['|', '>']
  | .arrow => ['-', '>'] | .command => ['\\'] | .white => [' '] | .comma => [',']

/-- The text of a list of tokens. -/
def Spec.text (ts : List Tok) : List Char := ts.flatMap Tok.text

/-- A name or a natural number: ASCII letters and digits. -/
def Spec.Word (w : List Char) : Prop := w ≠ [] ∧ ∀ c ∈ w, c.isAlphanum = true

/-- A double-quoted string literal whose content can be read back: not empty, without double quotes and
not ending in a single quote. -/
def Spec.Quotable (s : List Char) : Prop :=
  s ≠ [] ∧ '"' ∉ s ∧ s.getLast? ≠ some '\''

/-- The literal with the given content. -/
def Spec.quoted (s : List Char) : List Char := '"' :: s ++ ['"']

/-- Tokens as the lexer produces them from numerals, names, strings and punctuation. -/
def Spec.Writable : Tok → Prop
  | .expr w => Spec.Word w
  | .str s => ∃ body, s = Spec.quoted body ∧ Spec.Quotable body
  | _ => True

def Tok.isExpr : Tok → Bool
  | .expr _ => true
  | _ => false

/-- Two words are never written one directly after the other. -/
def Spec.Separated : List Tok → Prop
  | a :: b :: ts => ¬ (a.isExpr = true ∧ b.isExpr = true) ∧ Spec.Separated (b :: ts)
  | _ => True

/-- Characters of the arithmetic part of the language. -/
def Spec.plain (c : Char) : Bool :=
  c == ' ' || c == '\n' || c == '\t' || c.isAlphanum || c == '+' || c == '-' || c == '*' || c == '/' ||
    c == '^' || c == '(' || c == ')' || c == '[' || c == ']' || c == '{' || c == '}' || c == ',' ||
    c == '\\'

/-- White space is as good as a space. -/
def Spec.spaced (c : Char) : Char := if c == '\n' || c == '\t' then ' ' else c

/-- `)`, `[`, `]` and `|>`. -/
def Spec.stray : Tok → Bool
  | .rparen | .lbrace | .rbrace | .rassoc => true
  | _ => false

/-- None of `)`, `[`, `]` and `|>` comes anywhere after a `{`. -/
def Spec.NoStray : List Tok → Prop
  | [] => True
  | t :: ts => (t = .lcurl → ∀ u ∈ ts, Spec.stray u = false) ∧ Spec.NoStray ts

end PyOGRe
