import Verif.Model.Lexer

/-!
# The parser

`MathematicaParser/Nodes.py` and `MathematicaParser/MathematicaParser.py`.  The state of the parser is the
list of the tokens from the current one on.  `none` is the result of a run that has not ended within the
given fuel: the loops of the parser need not end.  Python's limit on the depth of recursion is not
modelled.
-/

namespace PyOGRe

/-- `Nodes.py`: the syntax tree.  `none` is Python's `None`, `wrapped` is a `ListNode` around a
`ListNode`, and `pyList` is a bare Python list of nodes. -/
inductive Node
  | none
  | add (a b : Node) | sub (a b : Node) | mul (a b : Node) | div (a b : Node) | pow (a b : Node)
  | plus (a : Node) | minus (a : Node)
  | str (text : List Char) | expr (word : List Char)
  | eq (a b : Node)
  | list (items : List Node) | wrapped (a : Node)
  | assoc (keys values : List Node)
  | greek (word : Option (List Char))
  | func (name : List Char) (args : List Node)
  | pyList (items : List Node)
  deriving Repr

/-- Parsers: a result or an exception with the tokens left, or not yet ended. -/
def Pr (α : Type) := List Tok → Option (Py (α × List Tok))

namespace Pr
variable {α β : Type}

def pure (a : α) : Pr α := fun ts => some (.ok (a, ts))

def bind (p : Pr α) (f : α → Pr β) : Pr β := fun ts =>
  match p ts with
  | none => none
  | some (.error e) => some (.error e)
  | some (.ok (a, ts')) => f a ts'

instance : Monad Pr where
  pure := Pr.pure
  bind := Pr.bind

/-- `raise`. -/
def raise (e : PyErr) : Pr α := fun _ => some (.error e)

/-- Not ended yet. -/
def running : Pr α := fun _ => none

end Pr

/-- `self.current.type`: `AttributeError` at the end. -/
def peek : Pr Tok
  | [] => some (.error .attributeError)
  | t :: ts => some (.ok (t, t :: ts))

/-- `MathematicaParser.py:28-37` `advance`. -/
def advance : Pr Unit := fun ts => some (.ok ((), ts.tail))

/-- `while self.current.type == TokenType.WHITESPACE: self.advance()`. -/
def skipWhite : Pr Unit
  | [] => some (.error .attributeError)
  | .white :: ts => skipWhite ts
  | t :: ts => some (.ok ((), t :: ts))

/-- Tokens before which a space multiplies (`MathematicaParser.py:106-112`). -/
def startsFactor : Option Tok → Bool
  | some (.expr _) => true
  | some .lparen => true
  | some .lassoc => true
  | some .lbrace => true
  | some .command => true
  | _ => false

/-- `if self.current.type == TokenType.COMMA: self.advance()`. -/
def skipComma : Pr Unit
  | [] => some (.error .attributeError)
  | .comma :: ts => some (.ok ((), ts))
  | t :: ts => some (.ok ((), t :: ts))

/-- `if self.current.type != t: raise Exception(...)`, then `self.advance()`. -/
def expect (t : Tok) : Pr Unit := do
  let c ← peek
  if c ≠ t then Pr.raise .exception else advance

/-- `result if result else None`: a node is true, `None` is not. -/
def Node.isNone : Node → Bool
  | .none => true
  | _ => false

/-- `MathematicaParser.py:192-198`: the branch of `factor` for `\`, after it has been consumed.
`self.nnext.type` is an `AttributeError` when there are fewer than three tokens. -/
def pGreek : Pr Node
  | [] => some (.error .attributeError)
  | .lbrace :: ts =>
    match ts with
    | x :: .rbrace :: ts' => some (.ok (.greek x.value, ts'))
    | _ :: _ :: _ => some (.ok (.none, .lbrace :: ts))
    | _ => some (.error .attributeError)
  | t :: ts => some (.ok (.none, t :: ts))

mutual

/-- `MathematicaParser.py:53-84` `expr(assoc)`. -/
def pExpr : Nat → Bool → Pr Node
  | 0, _ => Pr.running
  | n + 1, a => do
    let r ← pTerm n
    pExprLoop n a r

/-- `MathematicaParser.py:59-82`: the loop of `expr`. -/
def pExprLoop : Nat → Bool → Node → Pr Node
  | 0, _, _ => Pr.running
  | n + 1, a, r => fun ts =>
    match ts with
    | .plus :: ts' => (do
        let t ← pTerm n
        pExprLoop n a (.add r t) : Pr Node) ts'
    | .minus :: ts' => (do
        let t ← pTerm n
        pExprLoop n a (.sub r t) : Pr Node) ts'
    | .white :: ts' => pExprLoop n a r ts'
    | .lcurl :: ts' => (do
        let l ← pList n []
        pExprLoop n a (.wrapped l) : Pr Node) ts'
    | .lassoc :: ts' => (do
        let l ← pAssoc n [] []
        pExprLoop n a l : Pr Node) ts'
    | .arrow :: ts' =>
      if a then some (.ok (r, .arrow :: ts'))
      else (do
        let t ← pExpr n false
        pExprLoop n a (.eq r t) : Pr Node) ts'
    | ts => some (.ok (r, ts))

/-- `MathematicaParser.py:86-119` `term`. -/
def pTerm : Nat → Pr Node
  | 0 => Pr.running
  | n + 1 => do
    skipWhite
    let r ← pFactor n
    pTermLoop n r

/-- `MathematicaParser.py:94-117`: the loop of `term`. -/
def pTermLoop : Nat → Node → Pr Node
  | 0, _ => Pr.running
  | n + 1, r => fun ts =>
    match ts with
    | .multiply :: ts' => (do
        let t ← pFactor n
        pTermLoop n (.mul r t) : Pr Node) ts'
    | .divide :: ts' => (do
        let t ← pFactor n
        pTermLoop n (.div r t) : Pr Node) ts'
    | .white :: ts' =>
      if startsFactor ts'.head? then (do
        let t ← pFactor n
        pTermLoop n (.mul r t) : Pr Node) ts'
      else pTermLoop n r ts'
    | ts => some (.ok (r, ts))

/-- `MathematicaParser.py:121-134` `list`; `acc` is `result`. -/
def pList : Nat → List Node → Pr Node
  | 0, _ => Pr.running
  | n + 1, acc => do
    let t ← peek
    if t = .rcurl then return .list acc
    else do
      skipWhite
      let x ← pExpr n false
      skipComma
      pList n (acc ++ [x])

/-- `MathematicaParser.py:136-163` `assoc`. -/
def pAssoc : Nat → List Node → List Node → Pr Node
  | 0, _, _ => Pr.running
  | n + 1, keys, values => do
    let t ← peek
    if t = .rassoc then return .assoc keys values
    else do
      skipWhite
      let key ← pExpr n true
      skipWhite
      let t ← peek
      if t = .arrow then do
        advance
        skipWhite
        let value ← pExpr n true
        if key.isNone || value.isNone then Pr.raise .exception
        else do
          skipComma
          pAssoc n (keys ++ [key]) (values ++ [value])
      else Pr.raise .exception

/-- `MathematicaParser.py:165-236` `factor`. -/
def pFactor : Nat → Pr Node
  | 0 => Pr.running
  | n + 1 => do
    skipWhite
    let r ← pBase n
    let r ← pPower n r
    pWhitePower n r

/-- `MathematicaParser.py:171-225`: the branches of `factor` on the first token. -/
def pBase : Nat → Pr Node
  | 0 => Pr.running
  | n + 1 => fun ts =>
    match ts with
    | [] => some (.error .attributeError)
    | .str s :: ts' => some (.ok (.str s, ts'))
    | .lparen :: ts' => (do
        let r ← pExpr n false
        expect .rparen
        return r : Pr Node) ts'
    | .lcurl :: ts' => (do
        let r ← pList n []
        expect .rcurl
        return r : Pr Node) ts'
    | .lassoc :: ts' => (do
        let r ← pAssoc n [] []
        expect .rassoc
        return r : Pr Node) ts'
    | .command :: ts' => pGreek ts'
    | .expr w :: ts' =>
      match ts' with
      | .lbrace :: _ => pCalls n w [] ts'
      | _ => some (.ok (.expr w, ts'))
    | .plus :: ts' => (do
        let r ← pFactor n
        return .plus r : Pr Node) ts'
    | .minus :: ts' => (do
        let r ← pFactor n
        return .minus r : Pr Node) ts'
    | t :: ts' => some (.ok (.none, t :: ts'))

/-- `MathematicaParser.py:227-229`: `^` directly after the first part. -/
def pPower : Nat → Node → Pr Node
  | 0, _ => Pr.running
  | n + 1, r => fun ts =>
    match ts with
    | .power :: ts' => (do
        let e ← pFactor n
        return .pow r e : Pr Node) ts'
    | ts => some (.ok (r, ts))

/-- `MathematicaParser.py:230-233`: `^` after one space. -/
def pWhitePower : Nat → Node → Pr Node
  | 0, _ => Pr.running
  | n + 1, r => fun ts =>
    match ts with
    | .white :: .power :: ts' => (do
        let e ← pFactor n
        return .pow r e : Pr Node) ts'
    | ts => some (.ok (r, ts))

/-- `MathematicaParser.py:238-256` `func` after the name has been consumed; `args` are the argument
groups read so far. -/
def pCalls : Nat → List Char → List Node → Pr Node
  | 0, _, _ => Pr.running
  | n + 1, name, args => fun ts =>
    match ts with
    | .lbrace :: ts' => (do
        let a ← pExpr n false
        let g ← pArgs n [a]
        pCalls n name (args ++ [g]) : Pr Node) ts'
    | ts => some (.ok (.func name args, ts))

/-- `MathematicaParser.py:247-254`: the further arguments of one group, and its closing bracket. -/
def pArgs : Nat → List Node → Pr Node
  | 0, _ => Pr.running
  | n + 1, acc => fun ts =>
    match ts with
    | [] => some (.error .attributeError)
    | .comma :: ts' => (do
        let a ← pExpr n false
        pArgs n (acc ++ [a]) : Pr Node) ts'
    | .rbrace :: ts' => some (.ok (if acc.length = 1 then acc.headD .none else .pyList acc, ts'))
    | ts => some (.ok (if acc.length = 1 then acc.headD .none else .pyList acc, ts))

end

/-- `MathematicaParser.py:39-51` `parse`. -/
def parse (n : Nat) (ts : List Tok) : Option (Py Node) :=
  match ts with
  | [] => some (.ok .none)
  | _ =>
    match pExpr n false ts with
    | none => none
    | some (.error e) => some (.error e)
    | some (.ok (r, [])) => some (.ok r)
    | some (.ok (_, _ :: _)) => some (.error .exception)

end PyOGRe
