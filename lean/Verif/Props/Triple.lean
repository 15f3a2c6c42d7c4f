import Verif.Props.Parser

/-!
# Strings in triple quotes: C55
-/

namespace PyOGRe
open Spec

theorem strLoop_triple : ∀ {s : List Char} (_ : '"' ∉ s) (acc : List Char),
    strLoop tripleQuote acc (s ++ tripleQuote) = (acc ++ s, tripleQuote)
  | [], _, acc => by
    show strLoop tripleQuote acc ['"', '"', '"'] = _
    rw [strLoop, if_neg (by decide), List.append_nil]
    rfl
  | c :: s, h, acc => by
    have hc : c ≠ '"' := fun e => h (by simp [e])
    obtain ⟨d, r, e⟩ : ∃ d r, s ++ tripleQuote = d :: r := by
      rcases s with _ | ⟨d, r⟩
      · exact ⟨_, _, rfl⟩
      · exact ⟨_, _, rfl⟩
    rw [List.cons_append, e, strLoop, if_pos, ← e, strLoop_triple (fun hm => h (List.mem_cons_of_mem _ hm))]
    · simp
    · refine ⟨by simp [tripleQuote], fun h => hc ?_⟩
      simp [tripleQuote] at h
      exact h.1

theorem tokens_triple {s : List Char} (h : '"' ∉ s) :
    tokens (tripleQuote ++ s ++ tripleQuote) = some (.ok [.str (tripleQuote ++ s ++ tripleQuote)]) := by
  have hg : generateStr (tripleQuote ++ s ++ tripleQuote) = .ok (.str (tripleQuote ++ s ++ tripleQuote), []) := by
    have e : (tripleQuote ++ s ++ tripleQuote).take 3 = tripleQuote := rfl
    have e2 : (tripleQuote ++ s ++ tripleQuote).drop tripleQuote.length = s ++ tripleQuote := rfl
    unfold generateStr
    simp only [e, if_true, e2, strLoop_triple h]
    rfl
  have hl : lexStep '"' (['"', '"'] ++ s ++ tripleQuote) = .ok (some (.str (tripleQuote ++ s ++ tripleQuote)), []) := by
    unfold lexStep
    rw [if_neg (by decide), if_neg (by decide), if_pos (by decide)]
    show (do let (t, cs) ← generateStr (tripleQuote ++ s ++ tripleQuote); return (some t, cs.tail)) = _
    rw [hg]
    rfl
  show tokensIn ((['"', '"'] ++ s ++ tripleQuote).length + 1) ('"' :: (['"', '"'] ++ s ++ tripleQuote)) = _
  rw [tokensIn, hl]
  rfl

theorem unescapeLong_clean : ∀ {s : List Char}, '\\' ∉ s → '"' ∉ s → unescapeLong s = .ok s
  | [], _, _ => rfl
  | c :: s, h1, h2 => by
    have ih := unescapeLong_clean (s := s) (fun h => h1 (List.mem_cons_of_mem _ h)) (fun h => h2 (List.mem_cons_of_mem _ h))
    have hc : c ≠ '"' := fun e => h2 (by simp [e])
    unfold unescapeLong at ih ⊢
    rw [unescapeFrom, if_neg (fun e => h1 (by simp [e])), if_neg, ih]
    · rfl
    · simp [tripleQuote, List.isPrefixOf, Ne.symm hc]

/-- **C55**, the value of a string in triple quotes: reading it, if it has no double quote, no backslash and no white space but
single spaces, returns exactly that content, even if it is empty or ends in a single quote. -/
theorem C55_triple {K : Type} [DecidableEq K] [CommRing K] (R : Reader K) (s : List Char) (h1 : '"' ∉ s) (h2 : '\\' ∉ s)
    (h3 : ∀ c ∈ s, isSpace c = true → c = ' ') (h4 : ¬ [' ', ' '] <:+: s) :
    ReadsAs R ("\"\"\"".toList ++ s ++ "\"\"\"".toList) (.str s) := by
  have e0 : "\"\"\"".toList = tripleQuote := by decide
  rw [e0]
  have hb : '\\' ∉ tripleQuote ++ s ++ tripleQuote := by
    simp only [List.mem_append, not_or]
    exact ⟨⟨by decide, h2⟩, by decide⟩
  refine ⟨20, fun n hn => ?_⟩
  have e1 : strReplace holdMark [] (tripleQuote ++ s ++ tripleQuote) = tripleQuote ++ s ++ tripleQuote := (Cleared.clean hb).eq
  have hq : isSpace '"' = false := by decide
  have e2 : squeeze (tripleQuote ++ s ++ tripleQuote) = tripleQuote ++ s ++ tripleQuote := by
    refine squeeze_tidy ⟨?_, '"', rfl, hq⟩
    have c1 : Calm tripleQuote := ⟨fun h => (by rw [hq] at h; cases h), fun h => (by rw [hq] at h; cases h), hq⟩
    have c2 : Calm (s ++ tripleQuote) := by
      have : s ++ tripleQuote = (s ++ ['"']) ++ ['"', '"'] := by simp [tripleQuote]
      rw [this]
      exact Calm.append (calm_legible h3 h4) ⟨fun h => (by rw [hq] at h; cases h), hq⟩
    rw [List.append_assoc]
    exact Calm.append c1 c2
  have e3 : parse n [.str (tripleQuote ++ s ++ tripleQuote)] = some (.ok (.str (tripleQuote ++ s ++ tripleQuote))) :=
    parse_mono hn rfl
  have e4 : literalEval (replaceGreek (tripleQuote ++ s ++ tripleQuote)) = .ok s := by
    rw [replaceGreek_clean hb]
    unfold literalEval
    have l : (tripleQuote ++ s ++ tripleQuote).length = s.length + 6 := by simp [tripleQuote]
    have d : (tripleQuote ++ s ++ tripleQuote).drop (s.length + 6 - 3) = tripleQuote := by
      have : (tripleQuote ++ s).length = s.length + 6 - 3 := by simp [tripleQuote]
      rw [← this, List.drop_left]
    have t : ((tripleQuote ++ s ++ tripleQuote).drop 3).take (s.length + 6 - 6) = s := by
      show (s ++ tripleQuote).take s.length = s
      simp
    rw [l, d, t, if_pos ⟨by omega, rfl, rfl⟩]
    exact unescapeLong_clean h2 h1
  unfold parseStr
  rw [e1, e2, tokens_triple h1]
  simp only [e3]
  rw [visit, e4]
  rfl

example : '"' ∉ "it's x'".toList ∧ '\\' ∉ "it's x'".toList ∧ (∀ c ∈ "it's x'".toList, isSpace c = true → c = ' ') ∧
    ¬ [' ', ' '] <:+: "it's x'".toList := by decide +kernel

/-- A string in triple quotes takes in the character that follows it. -/
theorem C55_triple_false :
    tokens "{\"\"\"a\"\"\",b}".toList = some (.ok [.lcurl, .str "\"\"\"a\"\"\"".toList, .expr ['b'], .rcurl]) := by
  decide +kernel

end PyOGRe
