import Verif.Spec.Written
import Verif.Lemmas.Lexer
import Verif.Lemmas.Parser
import Verif.Lemmas.Grammar

/-!
# Reading printed text back
-/

namespace PyOGRe
open Spec

/-! ### Replacing and squeezing -/

theorem strReplaceFrom_skip {p : Char} {pat rep : List Char} : ∀ (a b : List Char), p ∉ a →
    strReplaceFrom (p :: pat) rep 0 (a ++ b) = a ++ strReplaceFrom (p :: pat) rep 0 b
  | [], _, _ => rfl
  | c :: a, b, h => by
    have hc : p ≠ c := fun e => h (by simp [e])
    have : (p :: pat).isPrefixOf (c :: (a ++ b)) = false := by
      simp [List.isPrefixOf, hc]
    rw [List.cons_append, strReplaceFrom, this, if_neg (by simp),
      strReplaceFrom_skip a b (fun h' => h (List.mem_cons_of_mem _ h'))]
    rfl

theorem strReplaceFrom_none {p : Char} {pat rep : List Char} (a : List Char) (h : p ∉ a) :
    strReplaceFrom (p :: pat) rep 0 a = a := by
  have := strReplaceFrom_skip (rep := rep) (pat := pat) a [] h
  simpa [strReplaceFrom] using this

theorem strReplaceFrom_drop (pat rep : List Char) : ∀ (k : Nat) (cs : List Char),
    strReplaceFrom pat rep k cs = strReplaceFrom pat rep 0 (cs.drop k)
  | 0, _ => rfl
  | k + 1, [] => by simp [strReplaceFrom]
  | k + 1, c :: cs => by rw [strReplaceFrom, strReplaceFrom_drop pat rep k cs]; rfl

theorem strReplaceFrom_match {p : Char} {pat rep : List Char} (b : List Char) :
    strReplaceFrom (p :: pat) rep 0 (p :: pat ++ b) = rep ++ strReplaceFrom (p :: pat) rep 0 b := by
  have : (p :: pat).isPrefixOf (p :: (pat ++ b)) = true := by
    rw [List.isPrefixOf_iff_prefix]; exact ⟨b, rfl⟩
  rw [List.cons_append, strReplaceFrom, this, if_pos rfl, strReplaceFrom_drop]
  simp

theorem squeeze_calm : ∀ {cs : List Char}, Calm cs → squeezeFrom true false cs = cs
  | [], _ => rfl
  | [c], h => by
    rw [squeezeFrom, if_neg (by rw [show isSpace c = false from h]; simp)]; rfl
  | c :: d :: cs, h => by
    obtain ⟨h1, h2⟩ := h
    rcases hc : isSpace c with _ | _
    · rw [squeezeFrom, hc, if_neg (by simp)]
      simp only [Bool.and_false]
      rw [if_neg (by simp), squeeze_calm h2]
    · obtain ⟨e, hd⟩ := h1 hc
      subst e
      rw [squeezeFrom, hc, if_pos rfl, squeezeFrom, hd, if_neg (by simp)]
      have : squeezeFrom true false (d :: cs) = d :: cs := squeeze_calm h2
      rw [squeezeFrom, hd, if_neg (by simp)] at this
      simp only [Bool.and_false] at this
      rw [if_neg (by simp)] at this
      simp only [Bool.and_true]
      rw [if_pos trivial, this]

theorem squeeze_tidy {cs : List Char} (h : TidyText cs) : squeeze cs = cs := by
  obtain ⟨h1, c, h2, hc⟩ := h
  rcases cs with _ | ⟨d, cs⟩
  · cases h2
  · cases h2
    have := squeeze_calm h1
    rw [squeezeFrom, hc, if_neg (by simp)] at this
    simp only [Bool.and_false] at this
    rw [if_neg (by simp)] at this
    rw [squeeze, squeezeFrom, hc, if_neg (by simp)]
    simpa using this

theorem Calm.append : ∀ {a b : List Char}, Calm a → Calm b → Calm (a ++ b)
  | [], _, _, hb => hb
  | [c], [], ha, _ => ha
  | [c], d :: b, ha, hb => by
    refine ⟨fun h => ?_, hb⟩
    rw [show isSpace c = false from ha] at h
    cases h
  | c :: d :: a, b, ha, hb => ⟨ha.1, Calm.append ha.2 hb⟩

theorem TidyText.append {a b : List Char} (ha : TidyText a) (hb : Calm b) : TidyText (a ++ b) := by
  obtain ⟨h1, c, h2, hc⟩ := ha
  refine ⟨h1.append hb, c, ?_, hc⟩
  rcases a with _ | ⟨d, a⟩
  · cases h2
  · exact h2

theorem TidyText.space {b : List Char} (hb : TidyText b) : Calm (' ' :: b) := by
  obtain ⟨h1, c, h2, hc⟩ := hb
  rcases b with _ | ⟨d, b⟩
  · cases h2
  · cases h2
    exact ⟨fun _ => ⟨rfl, hc⟩, h1⟩

/-! ### Blocks of tokens -/

/-- Removing the marks of held code from `s` leaves `u`, in any context. -/
def Cleared (s u : List Char) : Prop :=
  ∀ rest, strReplaceFrom holdMark [] 0 (s ++ rest) = u ++ strReplaceFrom holdMark [] 0 rest

theorem Cleared.append {s u s' u' : List Char} (h : Cleared s u) (h' : Cleared s' u') :
    Cleared (s ++ s') (u ++ u') := by
  intro rest
  rw [List.append_assoc, h, h', List.append_assoc]

theorem Cleared.nil : Cleared [] [] := fun _ => rfl

theorem Cleared.clean {s : List Char} (h : '\\' ∉ s) : Cleared s s := fun rest => strReplaceFrom_skip s rest h

theorem Cleared.eq {s u : List Char} (h : Cleared s u) : strReplace holdMark [] s = u := by
  have := h []
  simpa [strReplace, strReplaceFrom] using this

theorem separated_append {t : Tok} (ht : t.isExpr = false) : ∀ {a b : List Tok}, Separated a → Separated b →
    Separated (a ++ t :: b)
  | [], [], _, _ => trivial
  | [], u :: b, _, hb => ⟨by simp [ht], hb⟩
  | [c], b, _, hb => by
    refine ⟨by simp [ht], ?_⟩
    exact separated_append (a := []) ht trivial hb
  | c :: d :: a, b, ha, hb => ⟨ha.1, separated_append ht ha.2 hb⟩

theorem separated_cons {t : Tok} (ht : t.isExpr = false) {b : List Tok} (hb : Separated b) :
    Separated (t :: b) := separated_append (a := []) ht trivial hb

/-- Operators, commas and brackets. -/
def Tok.mark : Tok → Bool
  | .expr _ | .str _ | .white | .command => false
  | _ => true

theorem mark_isExpr {t : Tok} (h : t.mark = true) : t.isExpr = false := by cases t <;> first | rfl | cases h

theorem mark_text {t : Tok} (h : t.mark = true) : TidyText t.text ∧ '\\' ∉ t.text := by
  have one : ∀ c : Char, isSpace c = false → TidyText [c] := fun c hc => ⟨hc, c, rfl, hc⟩
  have two : ∀ c d : Char, isSpace c = false → isSpace d = false → TidyText [c, d] := by
    refine fun c d hc hd => ⟨⟨fun h => ?_, hd⟩, c, rfl, hc⟩
    rw [hc] at h; cases h
  cases t <;> first
    | (simp only [Tok.mark, Bool.false_eq_true] at h; done)
    | (refine ⟨one _ ?_, ?_⟩ <;> decide)
    | (refine ⟨two _ _ ?_ ?_, ?_⟩ <;> decide)

theorem TidyText.calm {a : List Char} (h : TidyText a) : Calm a := h.1

theorem text_append (a b : List Tok) : text (a ++ b) = text a ++ text b := by simp [text]
theorem text_cons (t : Tok) (b : List Tok) : text (t :: b) = t.text ++ text b := by simp [text]

theorem Block.single {t : Tok} (h : t.mark = true) : Block [t] := by
  refine ⟨?_, trivial, ?_, ?_⟩
  · intro u hu
    simp only [List.mem_singleton] at hu
    subst hu
    cases u <;> first | trivial | cases h
  · rw [text_cons]; exact (mark_text h).1.append trivial
  · rw [text_cons, text, List.flatMap_nil, List.append_nil]; exact Cleared.clean (mark_text h).2

theorem gap_text {sp : List Tok} (h : Gap sp) : text sp = [] ∨ text sp = [' '] := by
  rcases h with rfl | rfl
  · exact Or.inl rfl
  · exact Or.inr rfl

theorem gap_separated {sp : List Tok} (h : Gap sp) {b : List Tok} (hb : Separated b) : Separated (sp ++ b) := by
  rcases h with rfl | rfl
  · exact hb
  · exact separated_cons rfl hb

theorem gap_writable {sp : List Tok} (h : Gap sp) : ∀ t ∈ sp, Writable t := by
  rcases h with rfl | rfl
  · intro t ht; cases ht
  · intro t ht
    simp only [List.mem_singleton] at ht
    subst ht; trivial

theorem gap_calm {sp : List Tok} (h : Gap sp) {b : List Char} (hb : TidyText b) : Calm (text sp ++ b) := by
  rcases gap_text h with e | e <;> rw [e]
  · exact hb.1
  · exact hb.space

theorem gap_clean {sp : List Tok} (h : Gap sp) : '\\' ∉ text sp := by
  rcases gap_text h with e | e <;> rw [e] <;> decide

theorem Block.cleared {ts : List Tok} (h : Block ts) : Cleared (text ts) (text ts) := h.clean

/-- `a t b` with spaces around the mark. -/
theorem Block.join {a b sp sp' : List Tok} {t : Tok} (ha : Block a) (hb : Block b) (h : Gap sp) (h' : Gap sp')
    (ht : t.mark = true) : Block (a ++ sp ++ t :: (sp' ++ b)) := by
  have h1 : Separated (t :: (sp' ++ b)) := separated_cons (mark_isExpr ht) (gap_separated h' hb.separated)
  refine ⟨?_, ?_, ?_, ?_⟩
  · intro u hu
    simp only [List.mem_append, List.mem_cons] at hu
    rcases hu with (hu | hu) | hu | hu | hu
    · exact ha.writable u hu
    · exact gap_writable h u hu
    · exact (Block.single ht).writable u (by simp [hu])
    · exact gap_writable h' u hu
    · exact hb.writable u hu
  · rcases h with rfl | rfl
    · rw [List.append_nil]
      exact separated_append (mark_isExpr ht) ha.separated (gap_separated h' hb.separated)
    · rw [List.append_assoc]
      exact separated_append rfl ha.separated h1
  · rw [List.append_assoc, text_append, text_append, text_cons, text_append]
    refine ha.tidy.append (gap_calm h ?_)
    exact (mark_text ht).1.append (gap_calm h' hb.tidy)
  · rw [List.append_assoc, text_append, text_append, text_cons, text_append]
    exact ha.cleared.append ((Cleared.clean (gap_clean h)).append
      ((Cleared.clean (mark_text ht).2).append ((Cleared.clean (gap_clean h')).append hb.cleared)))

theorem gap_nil : Gap [] := Or.inl rfl

/-- `t b`. -/
theorem Block.prefix {b : List Tok} {t : Tok} (hb : Block b) (ht : t.mark = true) : Block (t :: b) := by
  refine ⟨?_, separated_cons (mark_isExpr ht) hb.separated, ?_, ?_⟩
  · intro u hu
    rcases List.mem_cons.1 hu with rfl | hu
    · exact (Block.single ht).writable u (by simp)
    · exact hb.writable u hu
  · rw [text_cons]; exact (mark_text ht).1.append hb.tidy.1
  · rw [text_cons]; exact (Cleared.clean (mark_text ht).2).append hb.cleared

/-- `b t`. -/
theorem Block.suffix {b : List Tok} {t : Tok} (hb : Block b) (ht : t.mark = true) : Block (b ++ [t]) := by
  refine ⟨?_, separated_append (mark_isExpr ht) hb.separated trivial, ?_, ?_⟩
  · intro u hu
    rcases List.mem_append.1 hu with hu | hu
    · exact hb.writable u hu
    · exact (Block.single ht).writable u hu
  · rw [text_append]; exact hb.tidy.append (Block.single ht).tidy.1
  · rw [text_append]; exact hb.cleared.append (Block.single ht).cleared

theorem isAlphanum_space {c : Char} (h : c.isAlphanum = true) : isSpace c = false ∧ c ≠ '\\' := by
  have h1 : (0x30 ≤ c.toNat ∧ c.toNat ≤ 0x39) ∨ (0x41 ≤ c.toNat ∧ c.toNat ≤ 0x5a) ∨
      (0x61 ≤ c.toNat ∧ c.toNat ≤ 0x7a) := by
    simp only [Char.isAlphanum, Char.isAlpha, Char.isUpper, Char.isLower, Char.isDigit, Bool.or_eq_true,
      Bool.and_eq_true, decide_eq_true_eq, ge_iff_le] at h
    simp only [UInt32.le_iff_toNat_le] at h
    change _ ∨ _ at h
    rcases h with (h | h) | h
    · exact Or.inr (Or.inl h)
    · exact Or.inr (Or.inr h)
    · exact Or.inl h
  constructor
  · unfold isSpace
    have h2 : (c == ' ') = false := by
      rw [beq_eq_false_iff_ne]
      rintro rfl
      revert h1; decide
    rw [h2]
    simp only [Bool.false_or, Bool.or_eq_false_iff, Bool.and_eq_false_iff, decide_eq_false_iff_not,
      beq_eq_false_iff_ne]
    omega
  · rintro rfl
    revert h; decide

theorem calm_all : ∀ {w : List Char}, (∀ c ∈ w, isSpace c = false) → Calm w
  | [], _ => trivial
  | [c], h => h c (by simp)
  | c :: d :: w, h => by
    refine ⟨fun hc => ?_, calm_all (fun x hx => h x (List.mem_cons_of_mem _ hx))⟩
    rw [h c (by simp)] at hc
    cases hc

theorem Block.word {w : List Char} (h : Word w) : Block [.expr w] := by
  have ht : text [.expr w] = w := by simp [text, Tok.text]
  refine ⟨?_, trivial, ?_, ?_⟩
  · intro t ht
    simp only [List.mem_singleton] at ht
    subst ht; exact h
  · rw [ht]
    refine ⟨calm_all (fun c hc => (isAlphanum_space (h.2 c hc)).1), ?_⟩
    obtain ⟨c, w, rfl⟩ := List.exists_cons_of_ne_nil h.1
    exact ⟨c, rfl, (isAlphanum_space (h.2 c (by simp))).1⟩
  · rw [ht]
    refine Cleared.clean (fun hc => ?_)
    exact (isAlphanum_space (h.2 _ hc)).2 rfl

theorem held_bracket (l : List Char) : strReplaceFrom holdMark [] 0 ('\\' :: '[' :: l) =
    '\\' :: strReplaceFrom holdMark [] 0 ('[' :: l) := by
  rw [strReplaceFrom, if_neg]
  have : holdMark = '\\' :: '\\' :: "ReleaseHold".toList := by decide +kernel
  rw [this]
  simp [List.isPrefixOf]

/-- `\\[w]`. -/
theorem Block.letter {w : List Char} (h : Word w) : Block [.command, .lbrace, .expr w, .rbrace] := by
  have hb : Block [.lbrace, .expr w, .rbrace] := ((Block.word h).suffix rfl).prefix rfl
  refine ⟨?_, separated_cons rfl hb.separated, ?_, ?_⟩
  · intro u hu
    rcases List.mem_cons.1 hu with rfl | hu
    · trivial
    · exact hb.writable u hu
  · rw [text_cons]
    have : TidyText ['\\'] := ⟨by show isSpace '\\' = false; decide, '\\', rfl, by decide⟩
    exact this.append hb.tidy.1
  · intro rest
    rw [text_cons, List.append_assoc, List.append_assoc, ← hb.clean rest]
    have e : ∃ l, text [.lbrace, .expr w, .rbrace] = '[' :: l := ⟨w ++ [']'], by simp [text, Tok.text]⟩
    obtain ⟨l, e⟩ := e
    rw [e]
    exact held_bracket _

theorem calm_legible : ∀ {s : List Char}, (∀ c ∈ s, isSpace c = true → c = ' ') → ¬ [' ', ' '] <:+: s →
    Calm (s ++ ['"'])
  | [], _, _ => by show isSpace '"' = false; decide
  | [c], h, _ => ⟨fun hc => ⟨h c (by simp) hc, by decide⟩, by show isSpace '"' = false; decide⟩
  | c :: d :: s, h, h' => by
    refine ⟨fun hc => ⟨h c (by simp) hc, ?_⟩, ?_⟩
    · rcases hd : isSpace d with _ | _
      · rfl
      · exact absurd ⟨[], s, by simp [h c (by simp) hc, h d (by simp) hd]⟩ h'
    · refine calm_legible (fun x hx => h x (List.mem_cons_of_mem _ hx)) ?_
      rintro ⟨u, v, e⟩
      exact h' ⟨c :: u, v, by simp [← e]⟩

theorem Block.str {s : List Char} (h : Legible s) : Block [.str (quoted s)] := by
  have ht : text [.str (quoted s)] = '"' :: (s ++ ['"']) := by simp [text, Tok.text, quoted]
  refine ⟨?_, trivial, ?_, ?_⟩
  · intro t ht
    simp only [List.mem_singleton] at ht
    subst ht; exact ⟨s, rfl, h.1⟩
  · rw [ht]
    have hq : isSpace '"' = false := by decide
    refine ⟨?_, '"', rfl, hq⟩
    exact Calm.append (a := ['"']) hq (calm_legible h.2.2.1 h.2.2.2)
  · rw [ht]
    refine Cleared.clean ?_
    simp only [List.mem_cons, List.mem_append, List.not_mem_nil, or_false, not_or]
    exact ⟨by decide, h.2.1, by decide⟩

/-! ### String literals -/

theorem greekCommands_head : ∀ p ∈ greekCommands, p.1.head? = some '\\' := by decide +kernel

theorem replaceGreek_clean {s : List Char} (h : '\\' ∉ s) : replaceGreek s = s := by
  unfold replaceGreek
  have : ∀ (l : List (List Char × List Char)), (∀ p ∈ l, p.1.head? = some '\\') →
      l.foldl (fun s p => strReplace p.1 p.2 s) s = s := by
    intro l
    induction l with
    | nil => intro _; rfl
    | cons p l ih =>
      intro hl
      have hp := hl p (by simp)
      rcases hq : p.1 with _ | ⟨c, pat⟩
      · rw [hq] at hp; cases hp
      · rw [hq] at hp
        cases hp
        rw [List.foldl_cons, hq, strReplace, strReplaceFrom_none _ h]
        exact ih (fun x hx => hl x (List.mem_cons_of_mem _ hx))
  exact this _ greekCommands_head

/-- The characters at which a literal with double quotes cannot go on. -/
theorem stop_double {c : Char} {cs : List Char} (h1 : c ≠ '"') (h2 : c ≠ '\n') :
    ((c :: cs).head? == some '"' || (c :: cs).head? == some '\n') = false := by simp [h1, h2]

theorem unescape_cons {c : Char} {s r : List Char} (h : c ≠ '\\') (h1 : c ≠ '"') (h2 : c ≠ '\n') (hs : unescape '"' s = .ok r) :
    unescape '"' (c :: s) = .ok (c :: r) := by
  unfold unescape at hs ⊢
  rw [unescapeFrom, if_neg h, if_neg (by rw [stop_double h1 h2]; decide), hs]
  rfl

theorem unescape_clean : ∀ {s : List Char}, '\\' ∉ s → '"' ∉ s → '\n' ∉ s → unescape '"' s = .ok s
  | [], _, _, _ => rfl
  | c :: s, h1, h2, h3 => by
    refine unescape_cons (fun e => h1 (by simp [e])) (fun e => h2 (by simp [e])) (fun e => h3 (by simp [e])) ?_
    exact unescape_clean (s := s) (fun h => h1 (List.mem_cons_of_mem _ h))
      (fun h => h2 (List.mem_cons_of_mem _ h)) (fun h => h3 (List.mem_cons_of_mem _ h))

/-- A literal with double quotes, that is not one with triple quotes. -/
theorem literalEval_double {s : List Char} (h : s.head? ≠ some '"') : literalEval (quoted s) = unescape '"' s := by
  unfold literalEval quoted
  rw [if_neg]
  · simp only [List.cons_append]
    rw [if_pos (by simp), List.dropLast_concat]
  · rintro ⟨hl, ht, -⟩
    rcases s with _ | ⟨c, s⟩
    · simp at hl
    · simp [tripleQuote] at ht h
      exact h ht.1

theorem literalEval_quoted {s : List Char} (h : Legible s) : literalEval (replaceGreek (quoted s)) = .ok s := by
  have hq : '\\' ∉ quoted s := by
    unfold quoted
    simp only [List.cons_append, List.mem_cons, List.mem_append, List.not_mem_nil, or_false, not_or]
    exact ⟨by decide, h.2.1, by decide⟩
  rw [replaceGreek_clean hq, literalEval_double fun e => h.1.2.1 (List.mem_of_mem_head? e)]
  refine unescape_clean h.2.1 h.1.2.1 (fun hn => ?_)
  exact absurd (h.2.2.1 _ hn (by decide)) (by decide)

/-! ### From text to value -/

section
variable {K : Type} [DecidableEq K] [CommRing K]

/-- Text marked with `\\ReleaseHold` in places. -/
theorem readsAs_held (R : Reader K) {s : List Char} {ts : List Tok} {t : Node} {v : Val K} (hb : Block ts)
    (hs : strReplace holdMark [] s = text ts) (hr : Reads .entry ts (.one t)) (hv : visit R t = .ok v) :
    ReadsAs R s v := by
  obtain ⟨N, hN⟩ := parse_reads hr gap_nil gap_nil
  refine ⟨N, fun n hn => ?_⟩
  unfold parseStr
  rw [hs, squeeze_tidy hb.tidy, tokens_text _ hb.writable hb.separated]
  have := hN n hn
  simp only [List.nil_append, List.append_nil] at this
  simp only [this, hv]

theorem readsAs_block (R : Reader K) {ts : List Tok} {t : Node} {v : Val K} (hb : Block ts)
    (hr : Reads .entry ts (.one t)) (hv : visit R t = .ok v) : ReadsAs R (text ts) v :=
  readsAs_held R hb hb.cleared.eq hr hv

end

/-! ### Arithmetic -/

/-- The tree of an expression. -/
def Arith.node : Arith → Node
  | .word w => .expr w
  | .letter w => .greek (some w)
  | .neg a => .minus a.node
  | .add a b => .add a.node b.node
  | .sub a b => .sub a.node b.node
  | .mul a b => .mul a.node b.node
  | .div a b => .div a.node b.node
  | .pow a b => .pow a.node b.node

/-- The level of the grammar a number stands for. -/
def levelCat : Nat → Cat
  | 0 => .sum
  | 1 => .term
  | 2 => .factor
  | _ => .base

theorem reads_lift {ts : List Tok} {t : Node} : ∀ {k l : Nat}, l ≤ k → Reads (levelCat k) ts (.one t) →
    Reads (levelCat l) ts (.one t) := by
  have step : ∀ k, Reads (levelCat (k + 1)) ts (.one t) → Reads (levelCat k) ts (.one t) := by
    intro k h
    match k with
    | 0 => exact .ofTerm h
    | 1 => exact .ofFactor h
    | 2 => exact .ofBase h
    | _ + 3 => exact h
  intro k l hkl h
  induction hkl with
  | refl => exact h
  | step _ ih => exact ih (step _ h)

theorem reads_parens {ts : List Tok} {t : Node} {k l : Nat} (hk : k ≤ 3) (h : Reads (levelCat k) ts (.one t)) :
    Reads (levelCat l) (parens (decide (k < l)) ts) (.one t) := by
  unfold parens
  by_cases hl : k < l
  · rw [if_pos (by simpa using hl)]
    have h1 := Reads.paren (sp := []) (sp' := []) gap_nil gap_nil (.ofSum (reads_lift (Nat.zero_le k) h))
    simp only [List.nil_append, List.append_nil] at h1
    rcases Nat.lt_or_ge 3 l with h3 | h3
    · match l, h3 with
      | l' + 4, _ => exact h1
    · exact reads_lift h3 h1
  · rw [if_neg (by simpa using hl)]
    exact reads_lift (by omega) h

theorem block_parens {ts : List Tok} (h : Block ts) (b : Bool) : Block (parens b ts) := by
  unfold parens
  split_ifs
  · exact (h.suffix rfl).prefix rfl
  · exact h

theorem reads_shown {sp : List Tok} (hsp : Gap sp) : ∀ (a : Arith) (l : Nat),
    Reads (levelCat l) (shown sp l a) (.one a.node)
  | .word w, l => by
    rcases Nat.lt_or_ge 3 l with h3 | h3
    · match l, h3 with
      | l' + 4, _ => exact .word w
    · exact reads_lift h3 (.word w)
  | .letter w, l => by
    rcases Nat.lt_or_ge 3 l with h3 | h3
    · match l, h3 with
      | l' + 4, _ => exact .greek w
    · exact reads_lift h3 (.greek w)
  | .neg a, l => by
    have h : Reads .factor (.minus :: shown sp 2 a) _ :=
      Reads.neg (sp := []) gap_nil (reads_shown hsp a 2)
    exact reads_parens (k := 2) (by omega) h
  | .add a b, l => reads_parens (k := 0) (by omega) (.add hsp hsp (reads_shown hsp a 0) (reads_shown hsp b 1))
  | .sub a b, l => reads_parens (k := 0) (by omega) (.sub hsp hsp (reads_shown hsp a 0) (reads_shown hsp b 1))
  | .mul a b, l => reads_parens (k := 1) (by omega) (.mul hsp hsp (reads_shown hsp a 1) (reads_shown hsp b 2))
  | .div a b, l => reads_parens (k := 1) (by omega) (.div hsp hsp (reads_shown hsp a 1) (reads_shown hsp b 2))
  | .pow a b, l => reads_parens (k := 2) (by omega) (.pow hsp hsp (reads_shown hsp a 3) (reads_shown hsp b 2))

theorem block_shown {sp : List Tok} (hsp : Gap sp) : ∀ (a : Arith) (l : Nat), (∀ w ∈ words a ++ letters a, Word w) →
    Block (shown sp l a)
  | .word w, l, h => Block.word (h w (by simp [words]))
  | .letter w, l, h => Block.letter (h w (by simp [letters]))
  | .neg a, l, h => block_parens ((block_shown hsp a 2 h).prefix rfl) _
  | .add a b, l, h | .sub a b, l, h | .mul a b, l, h | .div a b, l, h | .pow a b, l, h => by
    exact block_parens (Block.join
      (block_shown hsp a _ (fun w hw => h w (by
        simp only [words, letters, List.mem_append] at hw ⊢; tauto)))
      (block_shown hsp b _ (fun w hw => h w (by
        simp only [words, letters, List.mem_append] at hw ⊢; tauto))) hsp hsp rfl) _

section
variable {K : Type} [DecidableEq K] [Field K]

theorem letterName_known : ∀ w ∈ greekLetters.map Prod.fst,
    letterName w = ((greekLetters.find? (fun p => p.1 == w)).map Prod.snd).getD w := by decide +kernel

theorem greekAlphabet_known : ∀ g ∈ greekAlphabet, g.toList ∈ greekLetters.map Prod.fst ∧
    "Capital".toList ++ g.toList ∈ greekLetters.map Prod.fst := by decide +kernel

theorem letterName_eq (w : List Char) :
    letterName w = ((greekLetters.find? (fun p => p.1 == w)).map Prod.snd).getD w := by
  by_cases hw : w ∈ greekLetters.map Prod.fst
  · exact letterName_known w hw
  · have h1 : greekLetters.find? (fun p => p.1 == w) = none := by
      rw [List.find?_eq_none]
      intro p hp he
      exact hw (List.mem_map.2 ⟨p, hp, by simpa using he⟩)
    rw [h1, letterName, if_neg, if_neg, if_neg]
    · rfl
    · rintro rfl
      exact hw (by decide +kernel)
    · rintro ⟨h7, hg⟩
      have := (greekAlphabet_known _ hg).2
      have e : "Capital".toList ++ (String.ofList (w.drop 7)).toList = w := by
        rw [← h7, String.toList_ofList, List.take_append_drop]
      exact hw (e ▸ this)
    · intro hg
      have := (greekAlphabet_known _ hg).1
      rw [String.toList_ofList] at this
      exact hw this

theorem visit_letter (R : Reader K) (w : List Char) :
    (match greekLetters.find? (fun p => p.1 == w) with
    | some p => .ok (.num (R.symbol p.2))
    | none => .ok (.num (R.symbol w)) : Py (Val K)) = .ok (.num (R.symbol (letterName w))) := by
  rw [letterName_eq]
  generalize greekLetters.find? (fun p => p.1 == w) = y
  rcases y with _ | p <;> rfl

theorem visit_arith (R : Reader K) (atom : List Char → K) (hp : ∀ b, R.pow b (-1) = b⁻¹) : ∀ (a : Arith),
    (∀ w ∈ words a, R.atom w = .ok (atom w)) → visit R a.node = .ok (.num (value R.pow atom R.symbol a))
  | .word w, h => by
    show visit R (.expr w) = _
    rw [visit, h w (by simp [words])]; rfl
  | .letter w, _ => by
    show visit R (.greek (some w)) = _
    rw [visit, value]
    exact visit_letter R w
  | .neg a, h => by
    show visit R (.minus _) = _
    rw [visit, visit_arith R atom hp a h]; rfl
  | .add a b, h => by
    show visit R (.add _ _) = _
    rw [visit, visit_arith R atom hp a (fun w hw => h w (by simp [words, hw])),
      visit_arith R atom hp b (fun w hw => h w (by simp [words, hw]))]; rfl
  | .sub a b, h => by
    show visit R (.sub _ _) = _
    rw [visit, visit_arith R atom hp a (fun w hw => h w (by simp [words, hw])),
      visit_arith R atom hp b (fun w hw => h w (by simp [words, hw])), value, sub_eq_add_neg]; rfl
  | .mul a b, h => by
    show visit R (.mul _ _) = _
    rw [visit, visit_arith R atom hp a (fun w hw => h w (by simp [words, hw])),
      visit_arith R atom hp b (fun w hw => h w (by simp [words, hw]))]; rfl
  | .div a b, h => by
    show visit R (.div _ _) = _
    rw [visit, visit_arith R atom hp a (fun w hw => h w (by simp [words, hw])),
      visit_arith R atom hp b (fun w hw => h w (by simp [words, hw])), value, div_eq_mul_inv, ← hp]; rfl
  | .pow a b, h => by
    show visit R (.pow _ _) = _
    rw [visit, visit_arith R atom hp a (fun w hw => h w (by simp [words, hw])),
      visit_arith R atom hp b (fun w hw => h w (by simp [words, hw]))]; rfl

end

end PyOGRe
