import Verif.Lemmas.Terminates
import Verif.Lemmas.Written
import Verif.Lemmas.Spelled
import Mathlib.Data.Rat.Init
import Mathlib.Algebra.Field.Rat

/-!
# Reading Mathematica text (C54-C58, C83)
-/

namespace PyOGRe
open Spec

/-- **C54**, totality: reading the tokens of any string ends, with tokens or an exception; the bound is one
step for every character. -/
theorem C54_total (cs : List Char) : ∃ r, tokens cs = some r ∧ ∀ m, cs.length ≤ m → tokensIn m cs = some r := by
  obtain ⟨r, h⟩ := tokensIn_total cs.length cs (Nat.le_refl _)
  exact ⟨r, h _ (Nat.le_refl _), h⟩

/-- **C54**, tokens of printed tokens: the tokens of the printed form of a list of tokens are that list.  Two
names or numbers are not written one directly after the other, and strings are double-quoted, with a content
that is not empty, has no double quote and does not end in a single quote. -/
theorem C54_printed (ts : List Tok) (hw : ∀ t ∈ ts, Writable t) (hsep : Separated ts) :
    tokens (text ts) = some (.ok ts) :=
  tokens_text ts hw hsep

example : text [.lcurl, .expr ['x', '2'], .comma, .str (quoted ['a']), .rcurl] = "{x2,\"a\"}".toList ∧
    (∀ t ∈ [Tok.lcurl, .expr ['x', '2'], .comma, .str (quoted ['a']), .rcurl], Writable t) ∧
    Separated [.lcurl, .expr ['x', '2'], .comma, .str (quoted ['a']), .rcurl] := by
  refine ⟨by decide, ?_, ?_⟩
  · intro t ht
    simp only [List.mem_cons, List.not_mem_nil, or_false] at ht
    rcases ht with rfl | rfl | rfl | rfl | rfl
    · trivial
    · exact ⟨by decide, by decide⟩
    · trivial
    · exact ⟨_, rfl, by decide, by decide, by decide⟩
    · trivial
  · simp [Separated, Tok.isExpr]

/-- **C54**, every character accounted for: the tokens of any text of letters, digits, white space and the
characters `+ - * / ^ ( ) [ ] { } , \` spell that text, white space being read as spaces. -/
theorem C54_accounted (cs : List Char) (h : ∀ c ∈ cs, plain c = true) :
    ∃ ts, tokens cs = some (.ok ts) ∧ text ts = cs.map spaced := by
  obtain ⟨ts, h1, h2, _⟩ := tokens_plain cs.length cs (Nat.le_refl _) h
  exact ⟨ts, h1, h2⟩

example : ∀ c ∈ "(a + b1)^2/Sin[x]".toList, plain c = true := by decide

/-- **C54**, unknown characters are refused: text with any other character, besides dots, angle brackets,
bars and quotes, raises. -/
theorem C54_unknown (cs : List Char) (h : ∀ c ∈ cs, c ≠ '<' ∧ c ≠ '>' ∧ c ≠ '|' ∧ c ≠ '"' ∧ c ≠ '\'')
    (hc : ∃ c ∈ cs, plain c = false ∧ c ≠ '.') : tokens cs = some (.error .exception) :=
  tokens_unknown cs.length cs (Nat.le_refl _) h hc

example : (∀ c ∈ "my_name".toList, c ≠ '<' ∧ c ≠ '>' ∧ c ≠ '|' ∧ c ≠ '"' ∧ c ≠ '\'') ∧
    ∃ c ∈ "my_name".toList, plain c = false ∧ c ≠ '.' := by decide

/-- C54 is false as stated: `>` and the character after it disappear without an error. -/
theorem C54_false : tokens "a>b".toList = some (.ok [.expr ['a']]) := by decide +kernel

/-- C54 is false as stated: a decimal number becomes two numbers. -/
theorem C54_decimal_false : tokens "1.5".toList = some (.ok [.expr ['1'], .expr ['0', '.', '5']]) := by
  decide +kernel

/-- **C55**: a double-quoted string, anywhere in a text, is one token with exactly that content, provided it
is not empty, has no double quote inside and does not end in a single quote. -/
theorem C55_partial (s : List Char) (hs : Quotable s) (before after : List Tok)
    (hb : ∀ t ∈ before, Writable t) (ha : ∀ t ∈ after, Writable t) (hsb : Separated before)
    (hsa : Separated after) :
    tokens (text before ++ ('"' :: s ++ ['"']) ++ text after) =
      some (.ok (before ++ .str ('"' :: s ++ ['"']) :: after)) := by
  have h := tokens_text (before ++ .str (quoted s) :: after) (by
    intro t ht
    rcases List.mem_append.1 ht with ht | ht
    · exact hb t ht
    · rcases List.mem_cons.1 ht with rfl | ht
      · exact ⟨s, rfl, hs⟩
      · exact ha t ht) (separated_append rfl hsb hsa)
  rw [text_append, text_cons, ← List.append_assoc] at h
  exact h

example : Quotable "it's [x] -> 5".toList := ⟨by decide +kernel, by decide +kernel, by decide +kernel⟩

/-- **C55**, the value: reading such a string, if it also has no backslash and no white space but single
spaces, returns exactly that content. -/
theorem C55_content {K : Type} [DecidableEq K] [CommRing K] (R : Reader K) (s : List Char) (hs : Legible s) :
    ReadsAs R ('"' :: s ++ ['"']) (.str s) := by
  have h := readsAs_block R (Block.str hs) (.ofSum (.ofTerm (.ofFactor (.ofBase (.lit _)))))
    (v := .str s) (by rw [visit, literalEval_quoted hs]; rfl)
  have e : text [.str (quoted s)] = '"' :: s ++ ['"'] := by simp [text, Tok.text, quoted]
  rw [e] at h
  exact h

theorem legible_iff_check (s : List Char) :
    (s ≠ [] ∧ '"' ∉ s ∧ s.getLast? ≠ some '\'') ∧ '\\' ∉ s ∧ (∀ c ∈ s, isSpace c = true → c = ' ') ∧
      ¬ [' ', ' '] <:+: s ↔ Legible s := Iff.rfl

example : Legible "Kerr metric, a = J/M".toList :=
  (legible_iff_check _).1 (by decide +kernel)

/-- C55 is false as stated: a content that ends in a single quote loses it. -/
theorem C55_false : tokens "\"x'\"".toList = some (.ok [.str "\"x\"".toList]) := by decide +kernel

/-- C55 is false as stated: an empty string takes in what follows it. -/
theorem C55_empty_false :
    tokens "{\"\",b}".toList = some (.ok [.lcurl, .str "\"\",b}\"".toList]) := by
  decide +kernel

/-- C55, the other direction, is false too: a string that is never closed is accepted. -/
theorem C55_open_false : tokens "\"abc".toList = some (.ok [.str "\"abc\"".toList]) := by decide +kernel

/-- Reading a string with two spaces inside returns another one. -/
theorem C55_spaces_false {K : Type} [DecidableEq K] [CommRing K] (R : Reader K) (n : Nat) (hn : 20 ≤ n) :
    parseStr R n "\"a  b\"".toList =
      some (.ok (.str "a b".toList)) := by
  have h1 : tokens (squeeze (strReplace holdMark [] "\"a  b\"".toList)) = some (.ok [.str "\"a b\"".toList]) := by
    decide +kernel
  have h2 : parse n [.str "\"a b\"".toList] = some (.ok (.str "\"a b\"".toList)) := parse_mono hn rfl
  have h3 : literalEval (replaceGreek "\"a b\"".toList) = .ok "a b".toList := by decide +kernel
  unfold parseStr
  simp only [h1, h2]
  rw [visit, h3]
  rfl

/-- Reading a string with a backslash and an `n` inside returns one with a line break. -/
theorem C55_escape_false {K : Type} [DecidableEq K] [CommRing K] (R : Reader K) (n : Nat) (hn : 20 ≤ n) :
    parseStr R n "\"a\\nb\"".toList =
      some (.ok (.str "a\nb".toList)) := by
  have h1 : tokens (squeeze (strReplace holdMark [] "\"a\\nb\"".toList)) = some (.ok [.str "\"a\\nb\"".toList]) := by
    decide +kernel
  have h2 : parse n [.str "\"a\\nb\"".toList] = some (.ok (.str "\"a\\nb\"".toList)) := parse_mono hn rfl
  have h3 : literalEval (replaceGreek "\"a\\nb\"".toList) = .ok "a\nb".toList := by decide +kernel
  unfold parseStr
  simp only [h1, h2]
  rw [visit, h3]
  rfl

/-- Reading a string with a backslash and digits inside returns one with another character. -/
theorem C55_number_false {K : Type} [DecidableEq K] [CommRing K] (R : Reader K) (n : Nat) (hn : 20 ≤ n) :
    parseStr R n "\"a\\101\"".toList =
      some (.ok (.str "aA".toList)) := by
  have h1 : tokens (squeeze (strReplace holdMark [] "\"a\\101\"".toList)) = some (.ok [.str "\"a\\101\"".toList]) := by
    decide +kernel
  have h2 : parse n [.str "\"a\\101\"".toList] = some (.ok (.str "\"a\\101\"".toList)) := parse_mono hn rfl
  have h3 : literalEval (replaceGreek "\"a\\101\"".toList) = .ok "aA".toList := by decide +kernel
  unfold parseStr
  simp only [h1, h2]
  rw [visit, h3]
  rfl

/-- Reading the string `C:\users` raises an exception. -/
theorem C55_path_false {K : Type} [DecidableEq K] [CommRing K] (R : Reader K) (n : Nat) (hn : 20 ≤ n) :
    parseStr R n "\"C:\\users\"".toList =
      some (.error .syntaxError) := by
  have h1 : tokens (squeeze (strReplace holdMark [] "\"C:\\users\"".toList)) = some (.ok [.str "\"C:\\users\"".toList]) := by
    decide +kernel
  have h2 : parse n [.str "\"C:\\users\"".toList] = some (.ok (.str "\"C:\\users\"".toList)) := parse_mono hn rfl
  have h3 : literalEval (replaceGreek "\"C:\\users\"".toList) = .error .syntaxError := by decide +kernel
  unfold parseStr
  simp only [h1, h2]
  rw [visit, h3]
  rfl

/-- **C56**: whether parsing ends is decided within a number of steps linear in the number of tokens: more
steps change nothing, so a run that has not ended by then never ends. -/
theorem C56_settled (ts : List Tok) (n : Nat) (h : 8 * ts.length + 4 ≤ n) :
    parse n ts = parse (8 * ts.length + 4) ts :=
  parse_settled h

/-- **C56**: parsing terminates with a tree or an exception for every list of tokens in which none of
`)`, `[`, `]` and `|>` comes after a `{`. -/
theorem C56_partial (ts : List Tok) (h : NoStray ts) :
    ∃ r, ∀ n, 8 * ts.length + 4 ≤ n → parse n ts = some r := by
  obtain ⟨r, hr⟩ := parse_total h
  exact ⟨r, fun n hn => by rw [parse_settled hn, hr]⟩

example : NoStray [.expr ['a'], .lbrace, .rbrace, .rparen, .lcurl, .lcurl, .comma, .arrow] := by
  simp [NoStray, stray]

/-- **C56**: parsing terminates for every text that the grammar gives a meaning to, brackets of any kind
included. -/
theorem C56_grammar (ts : List Tok) (t : Node) (h : Reads .entry ts (.one t)) :
    ∀ n, 8 * ts.length + 4 ≤ n → parse n ts = some (.ok t) := by
  obtain ⟨N, hN⟩ := parse_reads h gap_nil gap_nil
  intro n hn
  have h1 := hN (max N n) (Nat.le_max_left _ _)
  simp only [List.nil_append, List.append_nil] at h1
  rw [parse_settled hn, ← parse_settled (n := max N n) (by omega), h1]

/-- C56 is false as stated: on `{)`, whatever follows, the parser never ends, however long it runs. -/
theorem C56_false (rest : List Tok) : ∀ n, parse n (.lcurl :: .rparen :: rest) = none := by
  have h0 : pExpr 6 false (.rparen :: rest) = some (.ok (.none, .rparen :: rest)) := by rfl
  have h1 : ∀ m acc, pList m acc (.rparen :: rest) = none :=
    pList_stuck (by decide) (by decide) (by decide) h0
  have bind_none : ∀ {p : Pr Node} {f : Node → Pr Node} {ts : List Tok}, p ts = none → (p >>= f) ts = none := by
    intro p f ts h
    show Pr.bind p f ts = none
    unfold Pr.bind
    rw [h]
  have h2 : ∀ m, pBase m (.lcurl :: .rparen :: rest) = none := by
    intro m
    cases m with
    | zero => rw [pBase]; rfl
    | succ m => rw [pBase]; exact bind_none (h1 m [])
  have h3 : ∀ m, pFactor m (.lcurl :: .rparen :: rest) = none := by
    intro m
    cases m with
    | zero => rw [pFactor]; rfl
    | succ m => rw [pFactor]; exact bind_none (p := pBase m) (h2 m)
  have h4 : ∀ m, pTerm m (.lcurl :: .rparen :: rest) = none := by
    intro m
    cases m with
    | zero => rw [pTerm]; rfl
    | succ m => rw [pTerm]; exact bind_none (p := pFactor m) (h3 m)
  have h5 : ∀ m, pExpr m false (.lcurl :: .rparen :: rest) = none := by
    intro m
    cases m with
    | zero => rw [pExpr]; rfl
    | succ m => rw [pExpr]; exact bind_none (h4 m)
  intro n
  unfold parse
  rw [h5 n]

/-- **C57**, structure: text that the grammar with the usual precedences reads as a tree is parsed to that
tree; spaces may be put between the parts, and a space between two factors multiplies. -/
theorem C57_grammar (ts : List Tok) (t : Node) (h : Reads .entry ts (.one t)) (sp sp' : List Tok)
    (hsp : Gap sp) (hsp' : Gap sp') : ∃ N, ∀ n, N ≤ n → parse n (sp ++ ts ++ sp') = some (.ok t) :=
  parse_reads h hsp hsp'

/-- **C57**: reading the printed form of an arithmetic expression, with no more parentheses than the usual
precedences require and with or without spaces around the operators, gives the value of the expression. -/
theorem C57 {K : Type} [DecidableEq K] [Field K] (R : Reader K) (atom : List Char → K)
    (hpow : ∀ b, R.pow b (-1) = b⁻¹) (a : Arith) (hw : ∀ w ∈ words a ++ letters a, Word w)
    (hatom : ∀ w ∈ words a, R.atom w = .ok (atom w)) (sp : List Tok) (hsp : Gap sp) :
    ReadsAs R (text (shown sp 0 a)) (.num (value R.pow atom R.symbol a)) :=
  readsAs_block R (block_shown hsp a 0 hw) (.ofSum (reads_shown hsp a 0)) (visit_arith R atom hpow a hatom)

/-- Natural numbers as numbers, names as `0`. -/
def digitReader : Reader ℚ where
  atom w := .ok (w.foldl (fun n c => 10 * n + (c.toNat - 48 : ℚ)) 0)
  symbol _ := 0
  pow a b := if 0 ≤ b then a ^ b.num.toNat else (a ^ (-b).num.toNat)⁻¹
  builtin _ _ := .ok 0
  function _ _ := .ok 0
  diff _ _ := .ok 0
  order x := .ok x.num.toNat

/-- `-2^3^2-(7-5)-3/4/2*5`. -/
def sampleArith : Arith :=
  .sub (.sub (.neg (.pow (.word ['2']) (.pow (.word ['3']) (.word ['2']))))
    (.sub (.word ['7']) (.word ['5'])))
    (.mul (.div (.div (.word ['3']) (.word ['4'])) (.word ['2'])) (.word ['5']))

example : String.ofList (text (shown [] 0 sampleArith)) = "-2^3^2-(7-5)-3/4/2*5" ∧
    (∀ w ∈ words sampleArith ++ letters sampleArith, Word w) ∧
    value digitReader.pow (fun w => w.foldl (fun n c => 10 * n + (c.toNat - 48 : ℚ)) 0) digitReader.symbol sampleArith =
      -(2 ^ 9) - 2 - 15 / 8 := by
  refine ⟨by decide +kernel, ?_, by decide +kernel⟩
  intro w hw
  have : w.length = 1 ∧ ∀ c ∈ w, c.isAlphanum = true := by
    revert w; decide +kernel
  exact ⟨fun e => by rw [e] at this; exact absurd this.1 (by decide), this.2⟩

/-- `\[Alpha]^2-\[CapitalOmega]/x1`. -/
example : String.ofList (text (shown [] 0 (.sub (.pow (.letter "Alpha".toList) (.word ['2']))
      (.div (.letter "CapitalOmega".toList) (.word ['x', '1']))))) = "\\[Alpha]^2-\\[CapitalOmega]/x1" ∧
    (∀ pow (atom symbol : List Char → ℚ), value pow atom symbol (.sub (.pow (.letter "Alpha".toList) (.word ['2']))
      (.div (.letter "CapitalOmega".toList) (.word ['x', '1']))) =
      pow (symbol "alpha".toList) (atom ['2']) - symbol "Omega".toList / atom ['x', '1']) := by
  refine ⟨by decide +kernel, fun pow atom symbol => ?_⟩
  have e1 : letterName "Alpha".toList = "alpha".toList := by decide +kernel
  have e2 : letterName "CapitalOmega".toList = "Omega".toList := by decide +kernel
  rw [value, value, value, value, value, value, value, e1, e2]

example : (∀ b, digitReader.pow b (-1) = b⁻¹) := by
  intro b
  unfold digitReader
  simp only []
  rw [if_neg (by decide +kernel)]
  have : (- -1 : ℚ).num.toNat = 1 := by decide +kernel
  rw [this, pow_one]

/-- **C58**: reading the printed form of nested lists and associations gives back the same nesting, order and
entries: lists as lists, associations as dictionaries in the written order, or, if some key is itself a list
or an association, as the pair of the keys and the values. -/
theorem C58_partial {K : Type} [DecidableEq K] [Field K] (R : Reader K) (atom : List Char → K)
    (hpow : ∀ b, R.pow b (-1) = b⁻¹) (d : Data) (h : Sensible R.pow atom R.symbol d)
    (hatom : ∀ w ∈ dataWords d, R.atom w = .ok (atom w)) (sp : List Tok) (hsp : Gap sp) :
    ReadsAs R (text (written sp d)) (meaning R.pow atom R.symbol d) :=
  readsAs_block R (written_ok hsp h).1 (.ofSum (written_ok hsp h).2) (visit_data R atom hpow h hatom)

/-- `<|{{-1,1},"Cart"}->{a,{}},{{1,1},"Cart"}->"q"|>`. -/
def sampleData : Data :=
  .assoc [.list [.list [.arith (.neg (.word ['1'])), .arith (.word ['1'])], .text "Cart".toList],
      .list [.list [.arith (.word ['1']), .arith (.word ['1'])], .text "Cart".toList]]
    [.list [.arith (.word ['a']), .list []], .text ['q']]

example : String.ofList (text (written [] sampleData)) = "<|{{-1,1},\"Cart\"}->{a,{}},{{1,1},\"Cart\"}->\"q\"|>" := by
  decide +kernel

example (pow : ℚ → ℚ → ℚ) (atom symbol : List Char → ℚ) : Sensible pow atom symbol sampleData := by
  have w1 : Word ['1'] := ⟨by decide, by decide⟩
  have wa : Word ['a'] := ⟨by decide, by decide⟩
  have q : Legible ['q'] := (legible_iff_check _).1 (by decide +kernel)
  have cart : Legible "Cart".toList := (legible_iff_check _).1 (by decide +kernel)
  have n1 : ∀ w, w ∈ words (.word ['1']) ++ letters (.word ['1']) → Word w := by simpa [words, letters] using w1
  refine .assoc ?_ ?_ rfl ?_
  · simp only [List.mem_cons, List.not_mem_nil, or_false]
    rintro d (rfl | rfl)
    · refine .list ?_
      simp only [List.mem_cons, List.not_mem_nil, or_false]
      rintro d (rfl | rfl)
      · refine .list ?_
        simp only [List.mem_cons, List.not_mem_nil, or_false]
        rintro d (rfl | rfl)
        · exact .arith (by simpa [words, letters] using w1)
        · exact .arith n1
      · exact .text cart
    · refine .list ?_
      simp only [List.mem_cons, List.not_mem_nil, or_false]
      rintro d (rfl | rfl)
      · refine .list ?_
        simp only [List.mem_cons, List.not_mem_nil, or_false]
        rintro d (rfl | rfl) <;> exact .arith n1
      · exact .text cart
  · simp only [List.mem_cons, List.not_mem_nil, or_false]
    rintro d (rfl | rfl)
    · refine .list ?_
      simp only [List.mem_cons, List.not_mem_nil, or_false]
      rintro d (rfl | rfl)
      · exact .arith (by simpa [words, letters] using wa)
      · exact .list (by simp)
    · exact .text q
  · simp [meaningEach, meaning, SameKey]

/-- C58 is false as stated: an empty list with a space inside is read as a list with one entry, which cannot
be evaluated. -/
theorem C58_false {K : Type} [DecidableEq K] [CommRing K] (R : Reader K) (n : Nat) (hn : 20 ≤ n) :
    parseStr R n "{ }".toList = some (.error .attributeError) := by
  have h1 : tokens (squeeze (strReplace holdMark [] "{ }".toList)) = some (.ok [.lcurl, .white, .rcurl]) := by
    decide +kernel
  have h2 : parse n [.lcurl, .white, .rcurl] = some (.ok (.list [.none])) := parse_mono hn rfl
  unfold parseStr
  simp only [h1, h2]
  rw [visit, visitEach, allOf, visit]
  rfl

/-- **C83**: nothing in an accepted text is lost, added or moved: the names, numbers, strings and operators of the tree,
from left to right, are those of the text.  Lists and associations may only stand where an operand or an entry begins,
and operators not in place of names as in `\[+]`. -/
theorem C83_whole_text_partial (n : Nat) (ts : List Tok) (t : Node) (hp : Placed true ts)
    (h : parse n ts = some (.ok t)) : spell t = content ts :=
  parse_says hp h

/-- `{a+b, <|"k"->f[x y]|>}` meets the hypotheses. -/
example : Placed true [.lcurl, .expr ['a'], .plus, .expr ['b'], .comma, .white, .lassoc, .str ['k'], .arrow,
      .expr ['f'], .lbrace, .expr ['x'], .white, .expr ['y'], .rbrace, .rassoc, .rcurl] ∧
    (∃ t, parse 200 [.lcurl, .expr ['a'], .plus, .expr ['b'], .comma, .white, .lassoc, .str ['k'], .arrow,
      .expr ['f'], .lbrace, .expr ['x'], .white, .expr ['y'], .rbrace, .rassoc, .rcurl] = some (.ok t) ∧
      spell t = [['a'], ['+'], ['b'], ['k'], ['-', '>'], ['f'], ['x'], ['y']]) :=
  ⟨by simp [Placed, begins], _, rfl, rfl⟩

/-- C83 is false as stated: a name before a list is lost, and so is the bracket that closes the list. -/
theorem C83_false (n : Nat) (hn : 40 ≤ n) : ∃ t,
    parse n [.lcurl, .expr ['a'], .white, .lcurl, .expr ['b'], .rcurl] = some (.ok t) ∧ spell t = [['b']] :=
  ⟨.list [.wrapped (.list [.expr ['b']])], parse_mono hn rfl, rfl⟩

/-- C83 is false as stated: an operator in place of a name is lost. -/
theorem C83_operator_false (n : Nat) (hn : 20 ≤ n) :
    ∃ t, parse n [.command, .lbrace, .plus, .rbrace] = some (.ok t) ∧ spell t = [] :=
  ⟨.greek none, parse_mono hn rfl, rfl⟩

/-- C83 is false as stated: brackets that do not match are accepted. -/
theorem C83_brackets_false (n : Nat) (hn : 20 ≤ n) :
    ∃ t, parse n [.lparen, .expr ['f'], .lbrace, .expr ['a'], .rparen] = some (.ok t) :=
  ⟨.func ['f'] [.expr ['a']], parse_mono hn rfl⟩

end PyOGRe
