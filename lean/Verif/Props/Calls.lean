import Verif.Lemmas.Specials
import Verif.Props.Parser

/-!
# Calls and special characters in Mathematica text

C84 (Greek letters), C85 (function calls) and C86 (derivatives).  The specification is `Spec/Calls.lean`.
-/

namespace PyOGRe
open Spec

section
variable {K : Type} [DecidableEq K]

/-- **C84** (expressions): `\[Alpha]` is the symbol `alpha`, `\[CapitalAlpha]` is the symbol `Alpha`, and `\[Name]` is
`Name` for other names.  C57 says the same of letters inside larger expressions. -/
theorem C84_letters [CommRing K] (R : Reader K) (w : List Char) (hw : Word w) :
    ReadsAs R ('\\' :: '[' :: (w ++ [']'])) (.num (R.symbol (letterName w))) := by
  have h := readsAs_block R (Block.letter hw) (.ofSum (.ofTerm (.ofFactor (.ofBase (.greek w)))))
    (v := .num (R.symbol (letterName w))) (by
      rw [visit, letterName_eq]
      generalize greekLetters.find? (fun p => p.1 == w) = y
      rcases y with _ | p <;> rfl)
  have e : text [.command, .lbrace, .expr w, .rbrace] = '\\' :: '[' :: (w ++ [']']) := by simp [text, Tok.text]
  rw [e] at h
  exact h

example : letterName "Theta".toList = "theta".toList ∧ letterName "CapitalTheta".toList = "Theta".toList ∧
    letterName "ScriptL".toList = "ScriptL".toList ∧ letterName "DottedSquare".toList = ['T'] ∧
    Word "Theta".toList := ⟨by decide +kernel, by decide +kernel, by decide +kernel, by decide +kernel, by
      decide, by decide⟩

/-- **C84** (strings): inside a string `\[Alpha]` is read as `alpha` and `\[CapitalAlpha]` as `Alpha`, any number of
times and anywhere; `\[DottedSquare]` disappears, and other special characters stay as they are. -/
theorem C84_strings [CommRing K] (R : Reader K) (l : List Piece) (hl : ∀ p ∈ l, p.Fair)
    (hq : Quotable (l.flatMap Piece.text)) (hs : ∀ c ∈ l.flatMap Piece.text, isSpace c = true → c = ' ')
    (hs' : ¬ [' ', ' '] <:+: l.flatMap Piece.text) :
    ReadsAs R ('"' :: l.flatMap Piece.text ++ ['"']) (.str (l.flatMap Piece.spoken)) := by
  have h := readsAs_block R (Block.pieces hl hq ⟨hs, hs'⟩) (.ofSum (.ofTerm (.ofFactor (.ofBase (.lit _)))))
    (v := .str (l.flatMap Piece.spoken)) (by rw [visit, literalEval_pieces hl hq hs]; rfl)
  have e : text [.str (quoted (piecesText l))] = '"' :: l.flatMap Piece.text ++ ['"'] := by
    simp [text, Tok.text, quoted, piecesText]
  rw [e] at h
  exact h

/-- `"\[CapitalGamma] of \[Alpha]\[Beta]"`. -/
def samplePieces : List Piece :=
  .special "CapitalGamma".toList :: (" of ".toList.map .char ++ [.special "Alpha".toList, .special "Beta".toList])

example : String.ofList (samplePieces.flatMap Piece.text) = "\\[CapitalGamma] of \\[Alpha]\\[Beta]" ∧
    String.ofList (samplePieces.flatMap Piece.spoken) = "Gamma of alphabeta" ∧
    Quotable (samplePieces.flatMap Piece.text) ∧
    (∀ c ∈ samplePieces.flatMap Piece.text, isSpace c = true → c = ' ') ∧
    ¬ [' ', ' '] <:+: samplePieces.flatMap Piece.text :=
  ⟨by decide +kernel, by decide +kernel, ⟨by decide +kernel, by decide +kernel, by decide +kernel⟩, by decide +kernel,
    by decide +kernel⟩

example : ∀ p ∈ samplePieces, p.Fair := by
  intro p hp
  simp only [samplePieces, List.mem_cons, List.mem_append, List.mem_map, List.not_mem_nil, or_false] at hp
  rcases hp with rfl | ⟨c, hc, rfl⟩ | rfl | rfl
  · exact ⟨by decide, by decide⟩
  · revert c
    show ∀ c, c ∈ " of ".toList → c ≠ '\\'
    decide
  · exact ⟨by decide, by decide⟩
  · exact ⟨by decide, by decide⟩

/-! ### Function calls -/

/-- **C85**: `f[a, b, ...]` is the function applied to the values of the arguments, where `Sin`, `ArcSinh` and so on are
sympy's functions and other names are undefined functions.  The arguments are handed to sympy as Python text; for
arguments without calls, letters `\[Name]` and powers of negated expressions this text has, by Python's rules, the value
of the argument. -/
theorem C85_partial [Field K] (R : Reader K) (atom : List Char → K) (name : List Char) (hn : Word name)
    (hd : name ≠ "Derivative".toList) (l : List Arith) (hl : l ≠ []) (hw : ∀ a ∈ l, ∀ w ∈ words a, Word w)
    (hletters : ∀ a ∈ l, letters a = []) (hbases : ∀ a ∈ l, PositiveBases a) (sp : List Tok) (hsp : Gap sp) :
    ∃ python : Arith → Python,
      (∀ a ∈ l, (python a).Legal 0 ∧ (python a).value R.pow atom = value R.pow atom R.symbol a) ∧
      ((∀ a ∈ l, R.atom (python a).text = .ok ((python a).value R.pow atom)) →
        ∀ y, applied R name (l.map (value R.pow atom R.symbol)) = .ok y →
          ReadsAs R (text (callText sp name l)) (.num y)) := by
  refine ⟨Arith.python, fun a ha => ⟨legal_mono _ (Nat.zero_le 2) (legal_python a (hbases a ha)).1,
    value_python R.pow atom R.symbol a (hletters a ha)⟩, fun h y hy => ?_⟩
  refine readsAs_block R (callText_block hsp hn hl (fun a ha w hw' => hw a ha w ?_))
    (.ofSum (.ofTerm (.ofFactor (.ofBase (callText_reads hsp name hl)))))
    (visit_call R hd atom hl (fun a ha => sympifyNode_arith (hletters a ha) (h a ha)) hy)
  rw [hletters a ha, List.append_nil] at hw'
  exact hw'

/-- `ArcTan[2*x^2-y,-z]`. -/
example : String.ofList (text (callText [] "ArcTan".toList [.sub (.mul (.word ['2']) (.pow (.word ['x']) (.word ['2'])))
      (.word ['y']), .neg (.word ['z'])])) = "ArcTan[2*x^2-y,-z]" ∧
    (∀ (R : Reader ℚ) x, applied R "ArcTan".toList [x] = R.builtin "atan".toList [x]) ∧
    (∀ (R : Reader ℚ) x, applied R "f".toList [x] = R.function (.str ['f']) [x]) := by
  have e1 : sympyName "ArcTan".toList = some "atan".toList := by decide +kernel
  have e2 : sympyName "f".toList = none := by decide +kernel
  refine ⟨by decide +kernel, fun R x => ?_, fun R x => ?_⟩
  · rw [applied, e1]
  · rw [applied, e2]; rfl

example : PositiveBases (.sub (.mul (.word ['2']) (.pow (.word ['x']) (.word ['2']))) (.word ['y'])) ∧
    letters (.sub (.mul (.word ['2']) (.pow (.word ['x']) (.word ['2']))) (.word ['y'])) = [] :=
  ⟨⟨⟨trivial, fun c hc => (nomatch hc), trivial, trivial⟩, trivial⟩, rfl⟩

/-- C85 is false as stated: in `f[(-x)^2]` sympy is handed `(-(x) ^ 2)`, which by Python's rules is `-(x ^ 2)`. -/
theorem C85_false [Field K] (R : Reader K) (atom : List Char → K) :
    ∃ p : Python, p.Legal 0 ∧ p.value R.pow atom = -R.pow (atom ['x']) (atom ['2']) ∧
      (R.atom p.text = .ok (p.value R.pow atom) →
        ∀ y, R.function (.str ['f']) [-R.pow (atom ['x']) (atom ['2'])] = .ok y →
          ReadsAs R "f[(-x)^2]".toList (.num y)) := by
  refine ⟨.paren (.neg (.pow (.paren (.word ['x'])) (.word ['2']))), ⟨by omega, by omega, trivial, trivial⟩, rfl,
    fun h y hy => ?_⟩
  have hb := callText_block (sp := []) gap_nil (name := ['f']) ⟨by decide, by decide⟩
    (l := [.pow (.neg (.word ['x'])) (.word ['2'])]) (by simp) (by
      intro a ha w hw
      rw [List.mem_singleton.1 ha] at hw
      simp [words, letters] at hw
      rcases hw with rfl | rfl <;> exact ⟨by decide, by decide⟩)
  have hr := callText_reads (sp := []) gap_nil ['f'] (l := [.pow (.neg (.word ['x'])) (.word ['2'])]) (by simp)
  have e : text (callText [] ['f'] [.pow (.neg (.word ['x'])) (.word ['2'])]) = "f[(-x)^2]".toList := by decide +kernel
  rw [← e]
  refine readsAs_block R hb (.ofSum (.ofTerm (.ofFactor (.ofBase hr)))) ?_
  have hs : sympifyNode R (Arith.node (.pow (.neg (.word ['x'])) (.word ['2']))) =
      .ok (-R.pow (atom ['x']) (atom ['2'])) := by
    rw [sympifyNode, repr_python _ rfl]
    exact h
  have hf : knownFunctions.find? (fun p => p.1 == ['f']) = none := by decide +kernel
  have hx : sympifyEach R (groupArgs (group ([Arith.pow (.neg (.word ['x'])) (.word ['2'])].map Arith.node))) =
      .ok [-R.pow (atom ['x']) (atom ['2'])] := by
    rw [groupArgs_group (by simp)]
    rw [List.map_cons, List.map_nil, sympifyEach, hs]; rfl
  rw [visit, if_neg (by decide), callFunction, hx]
  simp only [py_ok_bind, hf, hy]
  rfl

/-- C85 is false as stated: for a call inside a call sympy is handed the text `(Cos[x])`, and it refuses that. -/
theorem C85_nested_false [CommRing K] (R : Reader K) (e : PyErr) (he : R.atom "(Cos[x])".toList = .error e) :
    ∃ N, ∀ n, N ≤ n → parseStr R n "Sin[Cos[x]]".toList = some (.error e) := by
  refine ⟨40, fun n hn => ?_⟩
  have h1 : tokens (squeeze (strReplace holdMark [] "Sin[Cos[x]]".toList)) =
      some (.ok [.expr "Sin".toList, .lbrace, .expr "Cos".toList, .lbrace, .expr ['x'], .rbrace, .rbrace]) := by
    decide +kernel
  have h2 : parse n [.expr "Sin".toList, .lbrace, .expr "Cos".toList, .lbrace, .expr ['x'], .rbrace, .rbrace] =
      some (.ok (.func "Sin".toList [.func "Cos".toList [.expr ['x']]])) := parse_mono hn rfl
  have h3 : sympifyNode R (.func "Cos".toList [.expr ['x']]) = .error e := by
    rw [sympifyNode, ← he]
    congr 1
  unfold parseStr
  simp only [h1, h2]
  rw [visit, if_neg (by decide), callFunction]
  have h4 : groupArgs (.func "Cos".toList [.expr ['x']]) = [.func "Cos".toList [.expr ['x']]] := rfl
  rw [h4, sympifyEach, h3]
  rfl

/-- C85 is false as stated: for a Greek letter inside a call sympy is handed the text `GREEK:Theta`, and it refuses
that. -/
theorem C85_letter_false [CommRing K] (R : Reader K) (e : PyErr) (he : R.atom "GREEK:Theta".toList = .error e) :
    ∃ N, ∀ n, N ≤ n → parseStr R n "Sin[\\[Theta]]".toList = some (.error e) := by
  refine ⟨40, fun n hn => ?_⟩
  have h1 : tokens (squeeze (strReplace holdMark [] "Sin[\\[Theta]]".toList)) =
      some (.ok [.expr "Sin".toList, .lbrace, .command, .lbrace, .expr "Theta".toList, .rbrace, .rbrace]) := by
    decide +kernel
  have h2 : parse n [.expr "Sin".toList, .lbrace, .command, .lbrace, .expr "Theta".toList, .rbrace, .rbrace] =
      some (.ok (.func "Sin".toList [.greek (some "Theta".toList)])) := parse_mono hn rfl
  have h3 : sympifyNode R (.greek (some "Theta".toList)) = .error e := by
    rw [sympifyNode, ← he]
    congr 1
  unfold parseStr
  simp only [h1, h2]
  rw [visit, if_neg (by decide), callFunction]
  have h4 : groupArgs (.greek (some "Theta".toList)) = [.greek (some "Theta".toList)] := rfl
  rw [h4, sympifyEach, h3]
  rfl

/-! ### Derivatives -/

theorem derivative_readsAs [Field K] (R : Reader K) {v : Arith → K} (f : List Char) (hf : Word f) (F : K)
    (hF : R.atom f = .ok F) (l : List Slot) (hl : l ≠ [])
    (hn : ∀ q ∈ l, Word q.numeral ∧ rounds R (visit R (.expr q.numeral)) = .ok q.order)
    (hw : ∀ q ∈ l, ∀ w ∈ words q.arg, Word w) (hletters : ∀ q ∈ l, letters q.arg = [])
    (hs : ∀ q ∈ l, sympifyNode R q.arg.node = .ok (v q.arg)) (sp : List Tok) (hsp : Gap sp) (y z : K)
    (hy : R.function (.num F) (l.map fun q => v q.arg) = .ok y)
    (hz : R.diff y (l.flatMap fun q => List.replicate q.order (v q.arg)) = .ok z) :
    ReadsAs R (text (derivativeText sp (l.map Slot.numeral) f (l.map Slot.arg))) (.num z) := by
  have hb : Block (derivativeText sp (l.map Slot.numeral) f (l.map Slot.arg)) := by
    have b1 : Block (.expr "Derivative".toList :: .lbrace ::
        (commas sp ((l.map Slot.numeral).map fun k => [.expr k]) ++ [.rbrace])) :=
      Block.call hsp ⟨by decide, by decide⟩ (by simpa using hl) (by
        intro b hb
        obtain ⟨k, hk, rfl⟩ := List.mem_map.1 hb
        obtain ⟨q, hq, rfl⟩ := List.mem_map.1 hk
        exact Block.word (hn q hq).1)
    have b2 := Block.more hsp b1 (l := [[.expr f]]) (by simp) (by
      intro b hb
      rw [List.mem_singleton.1 hb]
      exact Block.word hf)
    have b3 := Block.more hsp b2 (l := (l.map Slot.arg).map (shown sp 0)) (by simpa using hl) (by
      intro b hb
      obtain ⟨a, ha, rfl⟩ := List.mem_map.1 hb
      obtain ⟨q, hq, rfl⟩ := List.mem_map.1 ha
      refine block_shown hsp _ 0 (fun w hw' => hw q hq w ?_)
      rw [hletters q hq, List.append_nil] at hw'
      exact hw')
    simpa [derivativeText, commas] using b3
  have hr : Reads .base (derivativeText sp (l.map Slot.numeral) f (l.map Slot.arg))
      (.one (.func "Derivative".toList [group (l.map fun q => .expr q.numeral), .expr f,
        group (l.map fun q => q.arg.node)])) := by
    have r1 := reads_group hsp (l := l.map fun q => (([.expr q.numeral] : List Tok), Node.expr q.numeral))
      (by simpa using hl) (by
        intro p hp
        obtain ⟨q, _, rfl⟩ := List.mem_map.1 hp
        exact .ofSum (.ofTerm (.ofFactor (.ofBase (.word _)))))
    have r2 := reads_groups hsp r1 (l := [(([.expr f] : List Tok), Node.expr f)]) (by simp) (by
      intro p hp
      rw [List.mem_singleton.1 hp]
      exact .ofSum (.ofTerm (.ofFactor (.ofBase (.word _)))))
    have r3 := reads_groups hsp r2 (l := argTexts sp (l.map Slot.arg)) (by simpa [argTexts] using hl)
      (argTexts_reads hsp _)
    rw [argTexts_fst, argTexts_snd] at r3
    have := Reads.call (w := "Derivative".toList) r3
    simpa [derivativeText, commas, group, Function.comp_def] using this
  exact readsAs_block R hb (.ofSum (.ofTerm (.ofFactor (.ofBase hr))))
    (visit_derivative R hF hl (fun q hq => ⟨(hn q hq).2, hs q hq⟩) hy hz)

/-- **C86**: `Derivative[n, m, ...][f][a, b, ...]` is the function `f` of the values of the arguments, differentiated `n`
times by the first argument, `m` times by the second, and so on.  The arguments are as in C85. -/
theorem C86_partial [Field K] (R : Reader K) (atom : List Char → K) (f : List Char) (hf : Word f) (F : K)
    (hF : R.atom f = .ok F) (l : List Slot) (hl : l ≠ [])
    (hn : ∀ q ∈ l, Word q.numeral ∧ R.atom q.numeral = .ok (atom q.numeral) ∧ R.order (atom q.numeral) = .ok q.order)
    (hw : ∀ q ∈ l, ∀ w ∈ words q.arg, Word w) (hletters : ∀ q ∈ l, letters q.arg = [])
    (hbases : ∀ q ∈ l, PositiveBases q.arg) (sp : List Tok) (hsp : Gap sp) :
    ∃ python : Arith → Python,
      (∀ q ∈ l, (python q.arg).Legal 0 ∧ (python q.arg).value R.pow atom = value R.pow atom R.symbol q.arg) ∧
      ((∀ q ∈ l, R.atom (python q.arg).text = .ok ((python q.arg).value R.pow atom)) →
        ∀ y z, R.function (.num F) (l.map fun q => value R.pow atom R.symbol q.arg) = .ok y →
          R.diff y (l.flatMap fun q => List.replicate q.order (value R.pow atom R.symbol q.arg)) = .ok z →
          ReadsAs R (text (derivativeText sp (l.map Slot.numeral) f (l.map Slot.arg))) (.num z)) := by
  refine ⟨Arith.python, fun q hq => ⟨legal_mono _ (Nat.zero_le 2) (legal_python _ (hbases q hq)).1,
    value_python R.pow atom R.symbol _ (hletters q hq)⟩, fun h y z hy hz => ?_⟩
  refine derivative_readsAs R f hf F hF l hl (fun q hq => ⟨(hn q hq).1, ?_⟩) hw hletters
    (fun q hq => sympifyNode_arith (hletters q hq) (h q hq)) sp hsp y z hy hz
  have h1 := hn q hq
  rw [rounds, visit, h1.2.1]
  exact h1.2.2

/-- `Derivative[2,1][f][r,t+1]`. -/
example : String.ofList (text (derivativeText [] [['2'], ['1']] ['f'] [.word ['r'], .add (.word ['t']) (.word ['1'])])) =
    "Derivative[2,1][f][r,t+1]" ∧
    ([⟨['2'], 2, .word ['r']⟩, ⟨['1'], 1, .add (.word ['t']) (.word ['1'])⟩] : List Slot).flatMap
      (fun q => List.replicate q.order q.arg) = [.word ['r'], .word ['r'], .add (.word ['t']) (.word ['1'])] :=
  ⟨by decide +kernel, rfl⟩

/-- C86 is false as stated: for order zero sympy is asked to differentiate by no variable, and it then takes the only
one, so `Derivative[0][f][x]` is the first derivative. -/
theorem C86_false [Field K] (R : Reader K) (atom : List Char → K) (F y z : K) (hF : R.atom ['f'] = .ok F)
    (hx : R.atom ['x'] = .ok (atom ['x'])) (h0 : R.atom ['0'] = .ok (atom ['0'])) (ho : R.order (atom ['0']) = .ok 0)
    (hy : R.function (.num F) [atom ['x']] = .ok y) (hd : R.diff y [] = R.diff y [atom ['x']])
    (hz : R.diff y [atom ['x']] = .ok z) : ReadsAs R "Derivative[0][f][x]".toList (.num z) := by
  have h := derivative_readsAs R (v := fun _ => atom ['x']) ['f'] ⟨by decide, by decide⟩ F hF [⟨['0'], 0, .word ['x']⟩]
    (by simp)
    (by
      intro q hq
      rw [List.mem_singleton.1 hq, rounds, visit, h0]
      exact ⟨⟨by decide, by decide⟩, ho⟩)
    (by
      intro q hq w hw
      rw [List.mem_singleton.1 hq] at hw
      simp [words] at hw
      rw [hw]
      exact ⟨by decide, by decide⟩)
    (by
      intro q hq
      rw [List.mem_singleton.1 hq]
      rfl)
    (by
      intro q hq
      rw [List.mem_singleton.1 hq, sympifyNode]
      simp only [Arith.node, Node.repr, hx]) [] gap_nil y z hy (by rw [← hz, ← hd]; rfl)
  have e : text (derivativeText [] [['0']] ['f'] [.word ['x']]) = "Derivative[0][f][x]".toList := by decide +kernel
  rw [← e]
  exact h

end
end PyOGRe
