import Verif.Lemmas.Calls

/-!
# Strings with special characters
-/

namespace PyOGRe
open Spec

def piecesText (l : List Piece) : List Char := l.flatMap Piece.text

theorem piecesText_cons (p : Piece) (l : List Piece) : piecesText (p :: l) = p.text ++ piecesText l := by
  simp [piecesText]

theorem piecesText_append (a b : List Piece) : piecesText (a ++ b) = piecesText a ++ piecesText b := by
  simp [piecesText]

theorem piecesText_chars (s : List Char) : piecesText (s.map Piece.char) = s := by
  induction s with
  | nil => rfl
  | cons c s ih => rw [List.map_cons, piecesText_cons, ih]; rfl

theorem word_not_bracket {w : List Char} (h : Word w) : ']' ∉ w ∧ '\\' ∉ w := by
  constructor
  · intro hc
    exact absurd (h.2 _ hc) (by decide)
  · intro hc
    exact absurd (h.2 _ hc) (by decide)

theorem prefix_bracket : ∀ {v w rest : List Char}, ']' ∉ v → ']' ∉ w →
    (v ++ [']']).isPrefixOf (w ++ ']' :: rest) = true → v = w
  | [], [], _, _, _, _ => rfl
  | [], c :: w, _, _, hw, h => by
    simp [List.isPrefixOf] at h
    exact absurd (h ▸ List.mem_cons_self) hw
  | c :: v, [], _, hv, _, h => by
    simp [List.isPrefixOf] at h
    exact absurd (h.1 ▸ List.mem_cons_self) hv
  | c :: v, d :: w, rest, hv, hw, h => by
    simp only [List.cons_append, List.isPrefixOf, Bool.and_eq_true, beq_iff_eq] at h
    rw [h.1, prefix_bracket (fun h' => hv (List.mem_cons_of_mem _ h')) (fun h' => hw (List.mem_cons_of_mem _ h')) h.2]

/-- What replacing one command does to a piece. -/
def swapPiece (v r : List Char) : Piece → List Piece
  | .char c => [.char c]
  | .special w => if w = v then r.map .char else [.special w]

theorem strReplace_pieces {v r : List Char} (hv : Word v) : ∀ {l : List Piece}, (∀ p ∈ l, p.Fair) →
    strReplaceFrom ('\\' :: '[' :: (v ++ [']'])) r 0 (piecesText l) = piecesText (l.flatMap (swapPiece v r))
  | [], _ => rfl
  | .char c :: l, h => by
    have hc : c ≠ '\\' := h (.char c) (by simp)
    have := strReplaceFrom_skip (p := '\\') (pat := '[' :: (v ++ [']'])) (rep := r) [c] (piecesText l)
      (by simpa using hc.symm)
    rw [piecesText_cons, List.flatMap_cons, piecesText_append,
      ← strReplace_pieces hv (l := l) (fun p hp => h p (List.mem_cons_of_mem _ hp))]
    exact this
  | .special w :: l, h => by
    have hw : Word w := h (.special w) (by simp)
    rw [piecesText_cons, List.flatMap_cons, piecesText_append,
      ← strReplace_pieces hv (l := l) (fun p hp => h p (List.mem_cons_of_mem _ hp))]
    by_cases e : w = v
    · subst e
      have e1 : swapPiece w r (.special w) = r.map .char := if_pos rfl
      rw [e1, piecesText_chars]
      exact strReplaceFrom_match (p := '\\') (pat := '[' :: (w ++ [']'])) (piecesText l)
    · have e1 : swapPiece v r (.special w) = [.special w] := if_neg e
      have e2 : piecesText [.special w] = '\\' :: '[' :: (w ++ [']']) := by simp [piecesText, Piece.text]
      rw [e1, e2]
      show strReplaceFrom _ r 0 ('\\' :: (('[' :: (w ++ [']'])) ++ piecesText l)) = _
      rw [strReplaceFrom, if_neg]
      · have := strReplaceFrom_skip (p := '\\') (pat := '[' :: (v ++ [']'])) (rep := r) ('[' :: (w ++ [']']))
          (piecesText l) (by
            simp only [List.mem_cons, List.mem_append, List.not_mem_nil, or_false, not_or]
            exact ⟨by decide, (word_not_bracket hw).2, by decide⟩)
        rw [this]; rfl
      · intro hp
        simp only [List.cons_append, List.isPrefixOf, Bool.and_eq_true, beq_self_eq_true, true_and] at hp
        rw [List.append_assoc] at hp
        exact e (prefix_bracket (word_not_bracket hv).1 (word_not_bracket hw).1 hp).symm

theorem swapPiece_fair {v r : List Char} (hr : '\\' ∉ r) {l : List Piece} (h : ∀ p ∈ l, p.Fair) :
    ∀ p ∈ l.flatMap (swapPiece v r), p.Fair := by
  intro p hp
  obtain ⟨q, hq, hp⟩ := List.mem_flatMap.1 hp
  have hq' := h q hq
  cases q with
  | char c =>
    simp only [swapPiece, List.mem_singleton] at hp
    rw [hp]; exact hq'
  | special w =>
    simp only [swapPiece] at hp
    split_ifs at hp with e
    · obtain ⟨c, hc, rfl⟩ := List.mem_map.1 hp
      intro e'
      rw [e'] at hc
      exact hr hc
    · simp only [List.mem_singleton] at hp
      rw [hp]; exact hq'

/-- What replacing several commands, one after the other, does to a piece. -/
def swapAll : List (List Char × List Char) → Piece → List Piece
  | [], p => [p]
  | c :: cs, p => (swapPiece c.1 c.2 p).flatMap (swapAll cs)

theorem foldl_pieces : ∀ (cs : List (List Char × List Char)), (∀ c ∈ cs, Word c.1 ∧ '\\' ∉ c.2) →
    ∀ {l : List Piece}, (∀ p ∈ l, p.Fair) →
    (cs.map fun c => (('\\' :: '[' :: (c.1 ++ [']']) : List Char), c.2)).foldl (fun s p => strReplace p.1 p.2 s)
      (piecesText l) = piecesText (l.flatMap (swapAll cs))
  | [], _, l, _ => by
    have : l.flatMap (swapAll []) = l := by
      show l.flatMap (fun p => [p]) = l
      simp
    rw [this]; rfl
  | c :: cs, hc, l, hl => by
    have h1 := hc c (by simp)
    rw [List.map_cons, List.foldl_cons]
    show List.foldl _ (strReplaceFrom ('\\' :: '[' :: (c.1 ++ [']'])) c.2 0 (piecesText l)) _ = _
    rw [strReplace_pieces h1.1 hl, foldl_pieces cs (fun x hx => hc x (List.mem_cons_of_mem _ hx))
      (swapPiece_fair h1.2 hl), List.flatMap_assoc]
    rfl

theorem swapAll_char (c : Char) : ∀ cs, swapAll cs (.char c) = [.char c]
  | [] => rfl
  | d :: cs => by
    show [Piece.char c].flatMap (swapAll cs) = _
    rw [List.flatMap_singleton, swapAll_char c cs]

theorem flatMap_swapAll_chars (cs : List (List Char × List Char)) (s : List Char) :
    (s.map Piece.char).flatMap (swapAll cs) = s.map .char := by
  induction s with
  | nil => rfl
  | cons c s ih => rw [List.map_cons, List.flatMap_cons, ih, swapAll_char]; rfl

theorem swapAll_special (w : List Char) : ∀ cs, swapAll cs (.special w) =
    match cs.find? (fun c => c.1 == w) with
    | some c => c.2.map .char
    | none => [.special w]
  | [] => rfl
  | c :: cs => by
    rw [swapAll, swapPiece]
    by_cases e : w = c.1
    · rw [if_pos e, flatMap_swapAll_chars, List.find?_cons_of_pos (by simp [e])]
    · rw [if_neg e, List.flatMap_singleton, swapAll_special w cs, List.find?_cons_of_neg (by simp; exact fun h => e h.symm)]

/-- The commands by the name between the brackets. -/
def commandNames : List (List Char × List Char) :=
  greekNames.map (fun s => (("Capital" ++ s).toList, s.toList)) ++
    greekNames.map (fun s => (s.toList, s.toList.map Char.toLower)) ++
    [("DottedSquare".toList, [])]

theorem greekCommands_eq :
    greekCommands = commandNames.map fun c => (('\\' :: '[' :: (c.1 ++ [']']) : List Char), c.2) := by
  decide +kernel

theorem commandNames_ok : ∀ c ∈ commandNames, (c.1 ≠ [] ∧ ∀ x ∈ c.1, x.isAlphanum = true) ∧
    ∀ x ∈ c.2, x.isAlphanum = true := by decide +kernel

theorem spoken_known : ∀ w ∈ commandNames.map Prod.fst, some (Piece.spoken (.special w)) =
    (commandNames.find? (fun c => c.1 == w)).map Prod.snd := by decide +kernel

theorem greekAlphabet_commands : ∀ g ∈ greekAlphabet, g.toList ∈ commandNames.map Prod.fst ∧
    "Capital".toList ++ g.toList ∈ commandNames.map Prod.fst := by decide +kernel

theorem swapAll_known {w : List Char} (h : w ∈ commandNames.map Prod.fst) :
    swapAll commandNames (.special w) = (Piece.spoken (.special w)).map .char ∧
      ∀ c ∈ Piece.spoken (.special w), c.isAlphanum = true := by
  have hs := spoken_known w h
  rw [swapAll_special]
  rcases hf : commandNames.find? (fun c => c.1 == w) with _ | c
  · rw [hf] at hs; cases hs
  · rw [hf, Option.map_some, Option.some.injEq] at hs
    rw [hs]
    refine ⟨by simp only [hf], (commandNames_ok c (List.mem_of_find?_eq_some hf)).2⟩

theorem swapAll_unknown {w : List Char} (h : w ∉ commandNames.map Prod.fst) :
    swapAll commandNames (.special w) = [.special w] := by
  have : commandNames.find? (fun c => c.1 == w) = none := by
    rw [List.find?_eq_none]
    intro c hc he
    exact h (List.mem_map.2 ⟨c, hc, by simpa using he⟩)
  rw [swapAll_special, this]

theorem spoken_unknown {w : List Char} (hw : w ∉ commandNames.map Prod.fst) :
    Piece.spoken (.special w) = Piece.text (.special w) := by
  rw [Piece.spoken, if_neg, if_neg, if_neg]
  · rfl
  · rintro rfl
    exact hw (by decide +kernel)
  · rintro ⟨h7, hg⟩
    have := (greekAlphabet_commands _ hg).2
    have e : "Capital".toList ++ (String.ofList (w.drop 7)).toList = w := by
      rw [← h7, String.toList_ofList, List.take_append_drop]
    exact hw (e ▸ this)
  · intro hg
    have := (greekAlphabet_commands _ hg).1
    rw [String.toList_ofList] at this
    exact hw this

theorem swapAll_spoken (p : Piece) : (swapAll commandNames p).flatMap Piece.text = p.spoken := by
  cases p with
  | char c => rw [swapAll_char, List.flatMap_singleton]; rfl
  | special w =>
    by_cases hw : w ∈ commandNames.map Prod.fst
    · rw [(swapAll_known hw).1]
      exact piecesText_chars _
    · rw [swapAll_unknown hw, spoken_unknown hw, List.flatMap_singleton]

theorem swapAll_fair {p q : Piece} (hq : q.Fair) (hp : p ∈ swapAll commandNames q) :
    p.Fair ∧ ∀ c, p = .char c → c.isAlphanum = true ∨ q = .char c := by
  cases q with
  | char c =>
    rw [swapAll_char, List.mem_singleton] at hp
    rw [hp]
    exact ⟨hq, fun d hd => Or.inr hd⟩
  | special w =>
    by_cases hw : w ∈ commandNames.map Prod.fst
    · rw [(swapAll_known hw).1] at hp
      obtain ⟨c, hc, rfl⟩ := List.mem_map.1 hp
      have := (swapAll_known hw).2 c hc
      refine ⟨fun hc' => ?_, fun d hd => by cases hd; exact Or.inl this⟩
      rw [hc'] at this
      exact absurd this (by decide)
    · rw [swapAll_unknown hw, List.mem_singleton] at hp
      rw [hp]
      exact ⟨hq, fun d hd => by cases hd⟩

theorem replaceGreek_swap' {cs : List (List Char × List Char)}
    (e : greekCommands = cs.map fun c => (('\\' :: '[' :: (c.1 ++ [']']) : List Char), c.2))
    (hcs : ∀ c ∈ cs, (c.1 ≠ [] ∧ ∀ x ∈ c.1, x.isAlphanum = true) ∧ ∀ x ∈ c.2, x.isAlphanum = true)
    {l : List Piece} (h : ∀ p ∈ l, p.Fair) :
    replaceGreek (piecesText l) = piecesText (l.flatMap (swapAll cs)) := by
  unfold replaceGreek
  rw [e]
  refine foldl_pieces cs (fun c hc => ?_) h
  have := hcs c hc
  exact ⟨this.1, fun hx => absurd (this.2 _ hx) (by decide)⟩

theorem replaceGreek_swap {l : List Piece} (h : ∀ p ∈ l, p.Fair) :
    replaceGreek (piecesText l) = piecesText (l.flatMap (swapAll commandNames)) :=
  replaceGreek_swap' greekCommands_eq commandNames_ok h

/-- The text after all replacements. -/
theorem replaceGreek_pieces {l : List Piece} (h : ∀ p ∈ l, p.Fair) :
    replaceGreek (piecesText l) = l.flatMap Piece.spoken ∧
      ∃ l' : List Piece, replaceGreek (piecesText l) = piecesText l' ∧ ∀ p ∈ l', p.Fair ∧
        ∀ c, p = .char c → c.isAlphanum = true ∨ Piece.char c ∈ l := by
  have e := replaceGreek_swap h
  constructor
  · rw [e]
    have e2 : (fun p => (swapAll commandNames p).flatMap Piece.text) = Piece.spoken := funext swapAll_spoken
    rw [piecesText, List.flatMap_assoc, e2]
  · refine ⟨_, e, ?_⟩
    intro p hp
    obtain ⟨q, hq, hp⟩ := List.mem_flatMap.1 hp
    have := swapAll_fair (h q hq) hp
    refine ⟨this.1, fun c hc => ?_⟩
    rcases this.2 c hc with h1 | h1
    · exact Or.inl h1
    · exact Or.inr (h1 ▸ hq)

theorem unescape_pieces : ∀ {l : List Piece}, (∀ p ∈ l, p.Fair) → (∀ c, Piece.char c ∈ l → c ≠ '"' ∧ c ≠ '\n') →
    unescape '"' (piecesText l) = .ok (piecesText l)
  | [], _, _ => rfl
  | .char c :: l, h, hq => by
    have hc : c ≠ '\\' := h (.char c) (by simp)
    have hc' := hq c (by simp)
    have ih := unescape_pieces (l := l) (fun p hp => h p (List.mem_cons_of_mem _ hp))
      (fun d hd => hq d (List.mem_cons_of_mem _ hd))
    rw [piecesText_cons]
    show unescape '"' (c :: piecesText l) = _
    exact unescape_cons hc hc'.1 hc'.2 ih
  | .special w :: l, h, hq => by
    have hw : Word w := h (.special w) (by simp)
    have ih := unescape_pieces (l := l) (fun p hp => h p (List.mem_cons_of_mem _ hp))
      (fun d hd => hq d (List.mem_cons_of_mem _ hd))
    have step : ∀ {a : List Char}, (∀ c ∈ a, c ≠ '\\' ∧ c ≠ '"' ∧ c ≠ '\n') →
        unescape '"' (a ++ piecesText l) = .ok (a ++ piecesText l) := by
      intro a ha
      induction a with
      | nil => exact ih
      | cons c a iha =>
        have hc := ha c (by simp)
        exact unescape_cons hc.1 hc.2.1 hc.2.2 (iha fun x hx => ha x (List.mem_cons_of_mem _ hx))
    rw [piecesText_cons]
    show unescape '"' ('\\' :: '[' :: ((w ++ [']']) ++ piecesText l)) = _
    have hstep := step (a := w ++ [']']) ?_
    · unfold unescape at hstep ⊢
      rw [unescapeFrom, if_pos rfl, show ∀ r, escape ('[' :: r) = some (['\\', '['], 1) from fun r => rfl]
      simp only []
      rw [unescapeFrom, hstep]
      rfl
    · intro c hc
      rcases List.mem_append.1 hc with hc | hc
      · have := hw.2 c hc
        refine ⟨?_, ?_, ?_⟩ <;> rintro rfl <;> exact absurd this (by decide)
      · have : c = ']' := by simpa using hc
        subst this
        decide

theorem cleared_pieces : ∀ {l : List Piece}, (∀ p ∈ l, p.Fair) → Cleared (piecesText l) (piecesText l)
  | [], _ => Cleared.nil
  | .char c :: l, h => by
    rw [piecesText_cons]
    have hc : c ≠ '\\' := h (.char c) (by simp)
    exact (Cleared.clean (s := [c]) (by simpa using hc.symm)).append
      (cleared_pieces (fun p hp => h p (List.mem_cons_of_mem _ hp)))
  | .special w :: l, h => by
    rw [piecesText_cons]
    have hw : Word w := h (.special w) (by simp)
    refine Cleared.append (fun rest => ?_) (cleared_pieces (fun p hp => h p (List.mem_cons_of_mem _ hp)))
    show strReplaceFrom holdMark [] 0 ('\\' :: '[' :: ((w ++ [']']) ++ rest)) = _
    rw [held_bracket]
    have := Cleared.clean (s := '[' :: (w ++ [']'])) (by
      simp only [List.mem_cons, List.mem_append, List.not_mem_nil, or_false, not_or]
      exact ⟨by decide, (word_not_bracket hw).2, by decide⟩) rest
    simp only [List.cons_append] at this
    rw [this]; rfl

/-- A string with special characters is one token. -/
theorem Block.pieces {l : List Piece} (h : ∀ p ∈ l, p.Fair) (hq : Quotable (piecesText l))
    (hs : (∀ c ∈ piecesText l, isSpace c = true → c = ' ') ∧ ¬ [' ', ' '] <:+: piecesText l) :
    Block [.str (quoted (piecesText l))] := by
  have ht : text [.str (quoted (piecesText l))] = '"' :: (piecesText l ++ ['"']) := by
    simp [text, Tok.text, quoted]
  refine ⟨?_, trivial, ?_, ?_⟩
  · intro t ht
    simp only [List.mem_singleton] at ht
    subst ht; exact ⟨_, rfl, hq⟩
  · rw [ht]
    have hq : isSpace '"' = false := by decide
    refine ⟨?_, '"', rfl, hq⟩
    exact Calm.append (a := ['"']) hq (calm_legible hs.1 hs.2)
  · rw [ht]
    exact ((Cleared.clean (s := ['"']) (by decide)).append (cleared_pieces h)).append
      (Cleared.clean (s := ['"']) (by decide))

theorem mem_piecesText {c : Char} {l : List Piece} (h : Piece.char c ∈ l) : c ∈ piecesText l :=
  List.mem_flatMap.2 ⟨_, h, by simp [Piece.text]⟩

theorem literalEval_pieces {l : List Piece} (h : ∀ p ∈ l, p.Fair) (hq : Quotable (piecesText l))
    (hs : ∀ c ∈ piecesText l, isSpace c = true → c = ' ') :
    literalEval (replaceGreek (quoted (piecesText l))) = .ok (l.flatMap Piece.spoken) := by
  have e : quoted (piecesText l) = piecesText (.char '"' :: (l ++ [.char '"'])) := by
    simp [quoted, piecesText, Piece.text]
  have hf : ∀ p ∈ Piece.char '"' :: (l ++ [.char '"']), p.Fair := by
    intro p hp
    simp only [List.mem_cons, List.mem_append, List.not_mem_nil, or_false] at hp
    rcases hp with rfl | hp | rfl
    · show '"' ≠ '\\'; decide
    · exact h p hp
    · show '"' ≠ '\\'; decide
  rw [e, (replaceGreek_pieces hf).1]
  have e2 : (Piece.char '"' :: (l ++ [.char '"'])).flatMap Piece.spoken =
      '"' :: (l.flatMap Piece.spoken ++ ['"']) := by simp [Piece.spoken]
  rw [e2]
  obtain ⟨h1, l', h2, h3⟩ := replaceGreek_pieces h
  rw [← h1, h2]
  show literalEval (quoted (piecesText l')) = _
  have hch : ∀ c, Piece.char c ∈ l' → c ≠ '"' ∧ c ≠ '\n' := by
    intro c hc
    rcases (h3 _ hc).2 c rfl with h4 | h4
    · constructor <;> rintro rfl <;> exact absurd h4 (by decide)
    · constructor
      · rintro rfl
        exact hq.2.1 (mem_piecesText h4)
      · rintro rfl
        exact absurd (hs _ (mem_piecesText h4) (by decide)) (by decide)
  rw [literalEval_double]
  · exact unescape_pieces (fun p hp => (h3 p hp).1) hch
  · rcases l' with _ | ⟨c | w, l'⟩
    · simp [piecesText]
    · intro e
      refine (hch c (by simp)).1 ?_
      simpa [piecesText, Piece.text] using e
    · simp [piecesText, Piece.text]

end PyOGRe
