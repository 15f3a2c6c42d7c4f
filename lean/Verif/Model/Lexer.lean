import Verif.Py

/-!
# The tokens of a Mathematica expression

`MathematicaParser/Tokens.py` and `MathematicaParser/Lexer.py`.  The lexer looks at the current character
and the two following ones of an iterator; here its state is the list of the characters from the current
one on (`self.current`, `self.next`, `self.nnext` are its first three entries, `None` past the end).
A loop that has not ended within the given number of rounds is `none`.
-/

namespace PyOGRe

/-- `Tokens.py:6-28` `TokenType` with the value of the token (`Tokens.py:31-37`); the order is that of the
source. -/
inductive Tok
  | expr (word : List Char)
  | plus | minus | multiply | divide | power
  | lparen | rparen | lbrace | rbrace | lcurl | rcurl | lassoc | rassoc
  | arrow | command | white
  | str (text : List Char)
  | comma
  deriving DecidableEq, Repr

/-- `Tokens.py:36` `value`. -/
def Tok.value : Tok → Option (List Char)
  | .expr w => some w
  | .str s => some s
  | _ => none

/-- `Lexer.py:4` `WHITESPACE`. -/
def isWhite (c : Char) : Bool := c == ' ' || c == '\n' || c == '\t'

/-- `Lexer.py:5-6` `DIGITS` and `LETTERS`: the ASCII digits and letters. -/
def isWord (c : Char) : Bool := c.isAlphanum

/-- `Lexer.py:94-114`: the loop of `generate_expr`.  `n` is `decimal_count` and `acc` is `expr_str`.
A digit or letter is neither white space nor a bracket nor a comma and starts no `<|`, `|>`, `->`, so
these conditions of the loop say nothing further. -/
def exprLoop (n : Nat) (acc : List Char) : List Char → List Char × List Char
  | c :: d :: rest =>
    if isWord d then
      if c = '.' then
        if n + 1 > 1 then (acc, c :: d :: rest)
        else exprLoop (n + 1) (acc ++ [c]) (d :: rest)
      else exprLoop n (acc ++ [c]) (d :: rest)
    else (acc, c :: d :: rest)
  | cs => (acc, cs)

/-- `Lexer.py:94-124` `generate_expr`: the token and the characters from the last one of the word on. -/
def generateExpr (cs : List Char) : Tok × List Char :=
  let (acc, cs') := exprLoop 0 [] cs
  let word := acc ++ cs'.take 1
  let word := if word.head? = some '.' then '0' :: word else word
  let word := if word.getLast? = some '.' then word ++ ['0'] else word
  (.expr word, cs')

/-- Three double quotes. -/
def tripleQuote : List Char := ['"', '"', '"']

/-- `Lexer.py:136-143`: the loop of `generate_str`; `q` is the opening quote and `acc` is `string_str`. -/
def strLoop (q : List Char) (acc : List Char) : List Char → List Char × List Char
  | c :: d :: rest =>
    if [d] ≠ q ∧ (c :: d :: rest).take 3 ≠ tripleQuote then strLoop q (acc ++ [c]) (d :: rest)
    else (acc, c :: d :: rest)
  | cs => (acc, cs)

/-- `Lexer.py:126-153` `generate_str`: the token and the characters from the closing quote on.  Adding
`None` to a string raises `TypeError`. -/
def generateStr (cs : List Char) : Py (Tok × List Char) :=
  let q := if cs.take 3 = tripleQuote then tripleQuote else cs.take 1
  let (acc, cs') := strLoop q q (cs.drop q.length)
  match cs' with
  | [] => throw .typeError
  | c :: rest =>
    let acc := if c = '"' ∨ c = '\'' then acc else acc ++ [c]
    return (.str (acc ++ q), (c :: rest).drop q.length)

/-- `Lexer.py:42-92`: one round of the loop of `generate_tokens` with at least one character left.  The
result is the token, if any, and the characters after the last `self.advance()` of the round. -/
def lexStep (c : Char) (rest : List Char) : Py (Option Tok × List Char) :=
  if isWhite c then return (some .white, rest)
  else if c == '.' || isWord c then
    let (t, cs) := generateExpr (c :: rest)
    return (some t, cs.tail)
  else if c == '"' || c == '\'' then do
    let (t, cs) ← generateStr (c :: rest)
    return (some t, cs.tail)
  else if c == '+' then return (some .plus, rest)
  else if c == '-' && rest.head? != some '>' then return (some .minus, rest)
  else if c == '*' then return (some .multiply, rest)
  else if c == '/' then return (some .divide, rest)
  else if c == '^' then return (some .power, rest)
  else if c == '(' then return (some .lparen, rest)
  else if c == ')' then return (some .rparen, rest)
  else if c == '[' then return (some .lbrace, rest)
  else if c == '{' then return (some .lcurl, rest)
  else if c == '}' then return (some .rcurl, rest)
  else if c == ']' then return (some .rbrace, rest)
  else if c == '<' && rest.head? == some '|' then return (some .lassoc, rest.tail)
  else if c == '|' && rest.head? == some '>' then return (some .rassoc, rest.tail)
  else if c == '-' && rest.head? == some '>' then return (some .arrow, rest.tail)
  else if c == '\\' then return (some .command, rest)
  else if c == '<' || c == '>' || c == '|' then return (none, rest.tail)
  else if c == ',' then return (some .comma, rest)
  else throw .exception

/-- `Lexer.py:42-92` `generate_tokens`, all tokens at once, within `n` rounds.  Simplification: the
generator hands the tokens to the parser one by one, so a parse error can come before a lexing error;
here the lexing error comes first. -/
def tokensIn : Nat → List Char → Option (Py (List Tok))
  | _, [] => some (.ok [])
  | 0, _ :: _ => none
  | n + 1, c :: rest =>
    match lexStep c rest with
    | .error e => some (.error e)
    | .ok (t, rest') =>
      match tokensIn n rest' with
      | none => none
      | some (.error e) => some (.error e)
      | some (.ok ts) => some (.ok (t.toList ++ ts))

/-- `Lexer(string).generate_tokens()`: a round consumes a character, see `tokens_total`. -/
def tokens (cs : List Char) : Option (Py (List Tok)) := tokensIn cs.length cs

end PyOGRe
