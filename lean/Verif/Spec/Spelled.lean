import Verif.Spec.Syntax

/-!
# What a syntax tree says

The names, numbers, strings and operators of a text and of a syntax tree, in order.
-/

namespace PyOGRe
namespace Spec

/-- Operators that have to be written. -/
def operator : Tok → Bool
  | .plus | .minus | .divide | .power | .arrow => true
  | _ => false

/-- Names, numbers, strings and operators; spaces, brackets, commas, `\` and `*` (which may be left out) are not
counted. -/
def counted : Tok → Bool
  | .expr _ | .str _ => true
  | t => operator t

/-- What is counted in a text, as it is written there. -/
def content (ts : List Tok) : List (List Char) := (ts.filter counted).map Tok.text

/-- Alternately an entry of each list. -/
def interleave {α : Type} : List α → List α → List α
  | x :: xs, y :: ys => x :: y :: interleave xs ys
  | _, _ => []

mutual

/-- What a syntax tree says, from left to right. -/
def spell : Node → List (List Char)
  | .none => []
  | .add a b => spell a ++ ['+'] :: spell b
  | .sub a b => spell a ++ ['-'] :: spell b
  | .mul a b => spell a ++ spell b
  | .div a b => spell a ++ ['/'] :: spell b
  | .pow a b => spell a ++ ['^'] :: spell b
  | .plus a => ['+'] :: spell a
  | .minus a => ['-'] :: spell a
  | .str s => [s]
  | .expr w => [w]
  | .eq a b => spell a ++ ['-', '>'] :: spell b
  | .list l => (spellEach l).flatten
  | .wrapped a => spell a
  | .assoc ks vs => (interleave (spellEach ks) ((spellEach vs).map fun v => ['-', '>'] :: v)).flatten
  | .greek w => w.toList
  | .func name args => name :: (spellEach args).flatten
  | .pyList l => (spellEach l).flatten

/-- What each of some syntax trees says. -/
def spellEach : List Node → List (List (List Char))
  | [] => []
  | x :: xs => spell x :: spellEach xs

end

/-- Tokens after which an entry or operand begins. -/
def begins : Tok → Bool
  | .plus | .minus | .multiply | .divide | .power | .lparen | .lbrace | .lcurl | .lassoc | .comma | .arrow => true
  | _ => false

/-- Lists and associations come only where an operand or entry begins, spaces aside (`ok` says whether one begins
here), and there are no operators in place of names as in `\\[+]`. -/
def Placed (ok : Bool) : List Tok → Prop
  | [] => True
  | .white :: ts => Placed ok ts
  | t :: ts => ((t = .lcurl ∨ t = .lassoc → ok = true) ∧ (t = .command → ∀ x, ts[1]? = some x → operator x = false)) ∧
      Placed (begins t) ts

end Spec
end PyOGRe
