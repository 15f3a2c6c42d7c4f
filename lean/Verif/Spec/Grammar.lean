import Verif.Spec.Syntax

/-!
# The grammar of Mathematica text

Which text (list of tokens) reads as which syntax tree.  The levels express the precedence of the
operators: a sum consists of terms, a term of factors, a factor is a base, a power or a signed factor, and
a base is a name or number, a string, `\[Name]`, a parenthesised entry, a list, an association or a call.
Sums and terms are built from the left, powers from the right.  Single spaces may be put between the parts.
-/

namespace PyOGRe
namespace Spec

/-- An optional space. -/
def Gap (sp : List Tok) : Prop := sp = [] ∨ sp = [.white]

/-- A factor before which a space means multiplication. -/
def Juxtaposable (ts : List Tok) : Prop :=
  (∃ w, ts.head? = some (.expr w)) ∨ ts.head? = some .lparen ∨ ts.head? = some .command

/-- The levels of the grammar; `groups` are the argument groups `[...][...]` of a call. -/
inductive Cat
  | base | factor | term | sum | entry | items | pairs | groups

/-- What is read: one tree, a list of trees, or the keys and the values of an association. -/
inductive Out
  | one (t : Node)
  | many (l : List Node)
  | pairs (keys values : List Node)

/-- The arguments of one group: the only one, or the list of them. -/
def group : List Node → Node
  | [t] => t
  | l => .pyList l

/-- `Reads c ts o`: the text `ts` of level `c` means `o`. -/
inductive Reads : Cat → List Tok → Out → Prop
  -- names, numbers and strings
  | word (w) : Reads .base [.expr w] (.one (.expr w))
  | lit (s) : Reads .base [.str s] (.one (.str s))
  | greek (w) : Reads .base [.command, .lbrace, .expr w, .rbrace] (.one (.greek (some w)))
  -- ( entry )
  | paren {sp ts sp' t} : Gap sp → Gap sp' → Reads .entry ts (.one t) →
      Reads .base (.lparen :: (sp ++ ts ++ sp' ++ [.rparen])) (.one t)
  -- { items }
  | emptyList : Reads .base [.lcurl, .rcurl] (.one (.list []))
  | list {sp ts sp' l} : Gap sp → Gap sp' → Reads .items ts (.many l) →
      Reads .base (.lcurl :: (sp ++ ts ++ sp' ++ [.rcurl])) (.one (.list l))
  -- <| pairs |>
  | emptyAssoc : Reads .base [.lassoc, .rassoc] (.one (.assoc [] []))
  | assoc {sp ts sp' ks vs} : Gap sp → Gap sp' → Reads .pairs ts (.pairs ks vs) →
      Reads .base (.lassoc :: (sp ++ ts ++ sp' ++ [.rassoc])) (.one (.assoc ks vs))
  -- name[...][...]
  | call {w ts l} : Reads .groups ts (.many l) → Reads .base (.expr w :: ts) (.one (.func w l))
  -- factors
  | ofBase {ts t} : Reads .base ts (.one t) → Reads .factor ts (.one t)
  | pow {ts1 sp sp' ts2 a b} : Gap sp → Gap sp' → Reads .base ts1 (.one a) → Reads .factor ts2 (.one b) →
      Reads .factor (ts1 ++ sp ++ .power :: (sp' ++ ts2)) (.one (.pow a b))
  | neg {sp ts t} : Gap sp → Reads .factor ts (.one t) →
      Reads .factor (.minus :: (sp ++ ts)) (.one (.minus t))
  | pos {sp ts t} : Gap sp → Reads .factor ts (.one t) →
      Reads .factor (.plus :: (sp ++ ts)) (.one (.plus t))
  -- terms
  | ofFactor {ts t} : Reads .factor ts (.one t) → Reads .term ts (.one t)
  | mul {ts1 sp sp' ts2 a b} : Gap sp → Gap sp' → Reads .term ts1 (.one a) → Reads .factor ts2 (.one b) →
      Reads .term (ts1 ++ sp ++ .multiply :: (sp' ++ ts2)) (.one (.mul a b))
  | div {ts1 sp sp' ts2 a b} : Gap sp → Gap sp' → Reads .term ts1 (.one a) → Reads .factor ts2 (.one b) →
      Reads .term (ts1 ++ sp ++ .divide :: (sp' ++ ts2)) (.one (.div a b))
  | juxt {ts1 ts2 a b} : Reads .term ts1 (.one a) → Reads .factor ts2 (.one b) → Juxtaposable ts2 →
      Reads .term (ts1 ++ .white :: ts2) (.one (.mul a b))
  -- sums
  | ofTerm {ts t} : Reads .term ts (.one t) → Reads .sum ts (.one t)
  | add {ts1 sp sp' ts2 a b} : Gap sp → Gap sp' → Reads .sum ts1 (.one a) → Reads .term ts2 (.one b) →
      Reads .sum (ts1 ++ sp ++ .plus :: (sp' ++ ts2)) (.one (.add a b))
  | sub {ts1 sp sp' ts2 a b} : Gap sp → Gap sp' → Reads .sum ts1 (.one a) → Reads .term ts2 (.one b) →
      Reads .sum (ts1 ++ sp ++ .minus :: (sp' ++ ts2)) (.one (.sub a b))
  -- entries: sums and rules
  | ofSum {ts t} : Reads .sum ts (.one t) → Reads .entry ts (.one t)
  | rule {ts1 sp sp' ts2 a b} : Gap sp → Gap sp' → Reads .sum ts1 (.one a) → Reads .entry ts2 (.one b) →
      Reads .entry (ts1 ++ sp ++ .arrow :: (sp' ++ ts2)) (.one (.eq a b))
  -- one or more entries, separated by commas
  | item {ts t} : Reads .entry ts (.one t) → Reads .items ts (.many [t])
  | items {ts1 sp sp' ts2 l t} : Gap sp → Gap sp' → Reads .items ts1 (.many l) →
      Reads .entry ts2 (.one t) → Reads .items (ts1 ++ sp ++ .comma :: (sp' ++ ts2)) (.many (l ++ [t]))
  -- one or more pairs key -> value, separated by commas
  | pair {ts1 sp sp' ts2 k v} : Gap sp → Gap sp' → Reads .sum ts1 (.one k) → Reads .sum ts2 (.one v) →
      Reads .pairs (ts1 ++ sp ++ .arrow :: (sp' ++ ts2)) (.pairs [k] [v])
  | pairs {ts0 sp0 sp1 ts1 sp sp' ts2 ks vs k v} : Gap sp0 → Gap sp1 → Gap sp → Gap sp' →
      Reads .pairs ts0 (.pairs ks vs) → Reads .sum ts1 (.one k) → Reads .sum ts2 (.one v) →
      Reads .pairs (ts0 ++ sp0 ++ .comma :: (sp1 ++ (ts1 ++ sp ++ .arrow :: (sp' ++ ts2))))
        (.pairs (ks ++ [k]) (vs ++ [v]))
  -- one or more groups of arguments
  | group {sp ts sp' l} : Gap sp → Gap sp' → Reads .items ts (.many l) →
      Reads .groups (.lbrace :: (sp ++ ts ++ sp' ++ [.rbrace])) (.many [group l])
  | groups {ts0 sp ts sp' gs l} : Gap sp → Gap sp' → Reads .groups ts0 (.many gs) →
      Reads .items ts (.many l) →
      Reads .groups (ts0 ++ .lbrace :: (sp ++ ts ++ sp' ++ [.rbrace])) (.many (gs ++ [group l]))

end Spec
end PyOGRe
