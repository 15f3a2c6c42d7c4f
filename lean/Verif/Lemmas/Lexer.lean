import Verif.Spec.Syntax
import Mathlib.Order.Basic
import Mathlib.Data.List.TakeWhile

/-!
# Lemmas about the lexer
-/

namespace PyOGRe
open Spec

theorem exprLoop_suffix (n : Nat) (acc cs : List Char) : (exprLoop n acc cs).2 <:+ cs := by
  fun_induction exprLoop n acc cs with
  | case1 => exact List.suffix_refl _
  | case2 n acc d rest _ _ ih => exact ih.trans (List.suffix_cons _ _)
  | case3 n acc c d rest _ _ ih => exact ih.trans (List.suffix_cons _ _)
  | case4 => exact List.suffix_refl _
  | case5 => exact List.suffix_refl _

theorem strLoop_suffix (q acc cs : List Char) : (strLoop q acc cs).2 <:+ cs := by
  fun_induction strLoop q acc cs with
  | case1 acc c d rest _ ih => exact ih.trans (List.suffix_cons _ _)
  | case2 => exact List.suffix_refl _
  | case3 => exact List.suffix_refl _

theorem generateExpr_suffix (c : Char) (rest : List Char) :
    (generateExpr (c :: rest)).2.tail.length ≤ rest.length := by
  have h := (exprLoop_suffix 0 [] (c :: rest)).length_le
  simp only [generateExpr, List.length_tail, List.length_cons] at h ⊢
  omega

theorem generateStr_suffix {c : Char} {rest cs : List Char} {t : Tok}
    (h : generateStr (c :: rest) = .ok (t, cs)) : cs.tail.length ≤ rest.length := by
  unfold generateStr at h
  generalize hq : (if List.take 3 (c :: rest) = tripleQuote then tripleQuote else List.take 1 (c :: rest))
    = q at h
  have hq1 : 1 ≤ q.length := by
    rw [← hq]; split <;> simp [tripleQuote]
  have hs := (strLoop_suffix q q ((c :: rest).drop q.length)).length_le
  rcases hr : strLoop q q ((c :: rest).drop q.length) with ⟨acc, cs'⟩
  rw [hr] at hs
  simp only [hr] at h
  cases cs' with
  | nil => simp at h
  | cons d rest' =>
    simp only [py_pure, Except.ok.injEq, Prod.mk.injEq] at h
    rw [← h.2]
    simp only [List.length_cons, List.length_drop, List.length_tail] at hs ⊢
    omega

theorem ite_ok {α : Type} {b : Bool} {x y : Py α} {p : α} {P : Prop} (hx : x = .ok p → P)
    (hy : y = .ok p → P) : (if b then x else y) = .ok p → P := by
  cases b
  · exact hy
  · exact hx

/-- A round of the lexer leaves fewer characters. -/
theorem lexStep_length {c : Char} {rest rest' : List Char} {t : Option Tok} :
    lexStep c rest = .ok (t, rest') → rest'.length ≤ rest.length := by
  have h0 : ∀ t' : Option Tok, (pure (t', rest) : Py _) = .ok (t, rest') →
      rest'.length ≤ rest.length := by
    rintro t' h; cases h; exact Nat.le_refl _
  have h1 : ∀ t' : Option Tok, (pure (t', rest.tail) : Py _) = .ok (t, rest') →
      rest'.length ≤ rest.length := by
    rintro t' h; cases h; simp
  unfold lexStep
  refine ite_ok (h0 _) (ite_ok (fun h => ?_) (ite_ok (fun h => ?_) ?_))
  · have := generateExpr_suffix c rest
    cases h; exact this
  · cases hg : generateStr (c :: rest) with
    | error e => rw [hg] at h; simp at h
    | ok p =>
      obtain ⟨t', cs⟩ := p
      rw [hg] at h
      simp only [py_ok_bind, py_pure, Except.ok.injEq, Prod.mk.injEq] at h
      rw [← h.2]; exact generateStr_suffix hg
  iterate 11 refine ite_ok (h0 _) ?_
  iterate 3 refine ite_ok (h1 _) ?_
  refine ite_ok (h0 _) (ite_ok (h1 _) (ite_ok (h0 _) ?_))
  rintro h; cases h

/-- The lexer ends, and more rounds change nothing. -/
theorem tokensIn_total : ∀ (n : Nat) (cs : List Char), cs.length ≤ n →
    ∃ r, ∀ m, cs.length ≤ m → tokensIn m cs = some r := by
  intro n
  induction n with
  | zero =>
    intro cs h
    have : cs = [] := List.length_eq_zero_iff.mp (by omega)
    subst this
    exact ⟨.ok [], fun m _ => by cases m <;> rfl⟩
  | succ n ih =>
    intro cs h
    cases cs with
    | nil => exact ⟨.ok [], fun m _ => by cases m <;> rfl⟩
    | cons c rest =>
      cases hs : lexStep c rest with
      | error e =>
        refine ⟨.error e, fun m hm => ?_⟩
        cases m with
        | zero => simp at hm
        | succ m => simp only [tokensIn, hs]
      | ok p =>
        obtain ⟨t, rest'⟩ := p
        have hl := lexStep_length hs
        simp only [List.length_cons] at h
        obtain ⟨r, hr⟩ := ih rest' (by omega)
        refine ⟨(match r with | .error e => .error e | .ok ts => .ok (t.toList ++ ts)), fun m hm => ?_⟩
        cases m with
        | zero => simp at hm
        | succ m =>
          simp only [List.length_cons] at hm
          simp only [tokensIn, hs, hr m (by omega)]
          cases r <;> rfl

theorem tokens_step {c : Char} {rest rest' : List Char} {t : Option Tok}
    (h : lexStep c rest = .ok (t, rest')) :
    tokens (c :: rest) = (tokens rest').map fun r => match r with
      | .error e => .error e
      | .ok ts => .ok (t.toList ++ ts) := by
  obtain ⟨r, hr⟩ := tokensIn_total _ rest' (Nat.le_refl _)
  have hl := lexStep_length h
  unfold tokens
  rw [hr _ (Nat.le_refl _)]
  simp only [List.length_cons, tokensIn, h, hr _ hl, Option.map_some]
  cases r <;> rfl

theorem tokens_ok {c : Char} {rest rest' : List Char} {t : Tok} {ts : List Tok}
    (h : lexStep c rest = .ok (some t, rest')) (hr : tokens rest' = some (.ok ts)) :
    tokens (c :: rest) = some (.ok (t :: ts)) := by
  rw [tokens_step h, hr]; rfl

theorem tokens_error {c : Char} {rest : List Char} {e : PyErr}
    (h : lexStep c rest = .error e) : tokens (c :: rest) = some (.error e) := by
  simp only [tokens, List.length_cons, tokensIn, h]

/-- Reading a word. -/
theorem exprLoop_word (acc : List Char) : ∀ (w : List Char) (c : Char) (rest : List Char),
    c ≠ '.' → (∀ d ∈ w, d.isAlphanum = true) → (∀ d, rest.head? = some d → isWord d = false) →
    exprLoop 0 acc (c :: w ++ rest) = (acc ++ (c :: w).dropLast, [(c :: w).getLast (by simp)] ++ rest) := by
  intro w
  induction w generalizing acc with
  | nil =>
    intro c rest hc _ hr
    cases rest with
    | nil => simp [exprLoop]
    | cons d rest =>
      have : isWord d = false := hr d rfl
      simp [exprLoop, this]
  | cons d w ih =>
    intro c rest hc hw hr
    have hd : d.isAlphanum = true := hw d (by simp)
    have hd' : isWord d = true := hd
    have hdot : d ≠ '.' := by rintro rfl; revert hd; decide
    rw [show c :: (d :: w) ++ rest = c :: d :: (w ++ rest) from rfl, exprLoop, if_pos hd', if_neg hc]
    have := ih (acc ++ [c]) d rest hdot (fun x hx => hw x (by simp [hx])) hr
    rw [show d :: (w ++ rest) = d :: w ++ rest from rfl, this]
    simp

theorem isWord_not {c : Char} (h : c.isAlphanum = true) :
    isWhite c = false ∧ c ≠ '.' := by
  constructor
  · by_contra hc
    simp only [isWhite, Bool.not_eq_false, Bool.or_eq_true, beq_iff_eq] at hc
    rcases hc with (rfl | rfl) | rfl <;> revert h <;> decide
  · rintro rfl; revert h; decide

theorem lexStep_word {c : Char} {w rest : List Char} (hw : ∀ d ∈ c :: w, d.isAlphanum = true)
    (hr : ∀ d, rest.head? = some d → isWord d = false) :
    lexStep c (w ++ rest) = .ok (some (.expr (c :: w)), rest) := by
  have hc := hw c (by simp)
  obtain ⟨h1, h2⟩ := isWord_not hc
  have hl : ((c :: w).getLast (by simp)) ≠ '.' := by
    intro h
    have := hw _ (List.getLast_mem (l := c :: w) (by simp))
    rw [h] at this; revert this; decide
  have hE : generateExpr (c :: (w ++ rest)) = (.expr (c :: w), (c :: w).getLast (by simp) :: rest) := by
    have := exprLoop_word [] w c rest h2 (fun d hd => hw d (by simp [hd])) hr
    rw [show c :: w ++ rest = c :: (w ++ rest) from rfl] at this
    unfold generateExpr
    rw [this]
    have hcat : [] ++ (c :: w).dropLast ++ List.take 1 ([(c :: w).getLast (by simp)] ++ rest) = c :: w := by
      simp only [List.nil_append, List.singleton_append, List.take_succ_cons, List.take_zero]
      exact List.dropLast_append_getLast (by simp)
    simp only [hcat]
    have e1 : (c :: w).head? ≠ some '.' := by simpa using h2
    have e2 : (c :: w).getLast? ≠ some '.' := by
      rw [List.getLast?_eq_some_getLast (by simp)]
      simpa using hl
    rw [if_neg e1, if_neg e2]
    rfl
  unfold lexStep
  have hd : isWord c = true := hc
  rw [h1, if_neg (by simp), if_pos (by simp [hd]), hE]
  rfl

/-- Reading a string literal. -/
theorem strLoop_body (acc : List Char) : ∀ (s : List Char) (c : Char) (rest : List Char),
    '"' ∉ c :: s → strLoop ['"'] acc (c :: s ++ '"' :: rest) =
      (acc ++ (c :: s).dropLast, [(c :: s).getLast (by simp)] ++ '"' :: rest) := by
  intro s
  induction s generalizing acc with
  | nil =>
    intro c rest _
    simp [strLoop]
  | cons d s ih =>
    intro c rest h
    simp only [List.mem_cons, not_or] at h
    have h1 : ([d] : List Char) ≠ ['"'] := by
      intro h'; exact h.2.1 (by simpa using h'.symm)
    have h2 : (c :: d :: (s ++ '"' :: rest)).take 3 ≠ tripleQuote := by
      intro h'
      simp only [tripleQuote, List.take_succ_cons, List.cons.injEq] at h'
      exact h.1 h'.1.symm
    rw [show c :: (d :: s) ++ '"' :: rest = c :: d :: (s ++ '"' :: rest) from rfl, strLoop,
      if_pos ⟨h1, h2⟩]
    have := ih (acc ++ [c]) d rest (by simp [h.2])
    rw [show d :: (s ++ '"' :: rest) = d :: s ++ '"' :: rest from rfl, this]
    simp

theorem lexStep_str {s : List Char} (hs : Quotable s) (rest : List Char) :
    lexStep '"' (s ++ '"' :: rest) = .ok (some (.str (quoted s)), rest) := by
  obtain ⟨h0, h1, h2⟩ := hs
  obtain ⟨c, s, rfl⟩ := List.exists_cons_of_ne_nil h0
  have hq : ('"' :: (c :: s ++ '"' :: rest)).take 3 ≠ tripleQuote := by
    intro h'
    simp only [tripleQuote, List.cons_append, List.take_succ_cons, List.cons.injEq] at h'
    exact h1 (by simp [h'.2.1])
  have hl : (c :: s).getLast (by simp) ≠ '"' := by
    intro h; exact h1 (h ▸ List.getLast_mem (by simp))
  have hl' : (c :: s).getLast (by simp) ≠ '\'' := by
    intro h
    rw [List.getLast?_eq_some_getLast (by simp)] at h2
    exact h2 (by rw [h])
  have hE : generateStr ('"' :: (c :: s ++ '"' :: rest)) =
      .ok (.str (quoted (c :: s)), '"' :: rest) := by
    unfold generateStr
    rw [if_neg hq]
    simp only [List.take_succ_cons, List.take_zero, List.length_cons, List.length_nil, List.drop_succ_cons,
      List.drop_zero, Nat.zero_add]
    rw [strLoop_body _ s c rest h1]
    simp only [List.singleton_append]
    rw [if_neg (by simp [hl, hl'])]
    simp only [py_pure, quoted]
    congr 3
    have := List.dropLast_append_getLast (l := c :: s) (by simp)
    show '"' :: ((c :: s).dropLast ++ [(c :: s).getLast _]) ++ ['"'] = _
    rw [this]
  unfold lexStep
  rw [if_neg (by decide), if_neg (by decide), if_pos (by decide), hE]
  rfl

theorem text_head (t : Tok) (ts : List Tok) (ht : Writable t) (hx : t.isExpr = false) :
    ∀ d, (text (t :: ts)).head? = some d → isWord d = false := by
  intro d h
  cases t with
  | expr w => simp [Tok.isExpr] at hx
  | str s =>
    obtain ⟨b, rfl, _⟩ := ht
    simp only [text, List.flatMap_cons, Tok.text, quoted, List.cons_append, List.head?_cons,
      Option.some.injEq] at h
    subst h; decide
  | _ =>
    simp only [text, List.flatMap_cons, Tok.text, List.cons_append, List.head?_cons,
      Option.some.injEq, List.nil_append] at h
    subst h; decide

theorem text_head_gt (ts : List Tok) (ht : ∀ t ∈ ts, Writable t) : (text ts).head? ≠ some '>' := by
  cases ts with
  | nil => simp [text]
  | cons t ts =>
    cases t with
    | expr w =>
      obtain ⟨h0, h1⟩ := ht (.expr w) (by simp)
      obtain ⟨c, w, rfl⟩ := List.exists_cons_of_ne_nil h0
      simp only [text, List.flatMap_cons, Tok.text, List.cons_append, List.head?_cons, ne_eq,
        Option.some.injEq]
      rintro rfl
      have := h1 '>' (by simp)
      revert this; decide
    | str s =>
      obtain ⟨b, rfl, _⟩ := ht (.str s) (by simp)
      simp [text, Tok.text, quoted]
    | _ => simp [text, Tok.text]

/-- The tokens of the text of a list of tokens are that list. -/
theorem tokens_text (ts : List Tok) (hw : ∀ t ∈ ts, Writable t) (hsep : Separated ts) :
    tokens (text ts) = some (.ok ts) := by
  induction ts with
  | nil => rfl
  | cons t ts ih =>
    have hw' : ∀ t ∈ ts, Writable t := fun x hx => hw x (by simp [hx])
    have hsep' : Separated ts := by
      cases ts with
      | nil => trivial
      | cons b ts => exact hsep.2
    have ih := ih hw' hsep'
    cases t with
    | expr w =>
      obtain ⟨h0, h1⟩ := hw (.expr w) (by simp)
      obtain ⟨c, w, rfl⟩ := List.exists_cons_of_ne_nil h0
      refine tokens_ok (lexStep_word h1 ?_) ih
      cases ts with
      | nil => simp
      | cons b ts =>
        refine text_head b ts (hw b (by simp)) ?_
        have := hsep.1
        simpa [Tok.isExpr] using this
    | str s =>
      obtain ⟨b, rfl, hb⟩ := hw (.str s) (by simp)
      have := lexStep_str hb (text ts)
      refine tokens_ok ?_ ih
      show lexStep '"' ((b ++ ['"']) ++ text ts) = _
      rw [List.append_assoc]
      exact this
    | minus =>
      refine tokens_ok (rest' := text ts) ?_ ih
      have := text_head_gt ts hw'
      show lexStep '-' (text ts) = _
      unfold lexStep
      rw [if_neg (by decide), if_neg (by decide), if_neg (by decide), if_neg (by decide),
        if_pos (by simpa using this)]
      rfl
    | _ => exact tokens_ok (rest' := text ts) rfl ih

theorem takeWhile_word {c : Char} {rest : List Char} (hc : c.isAlphanum = true) :
    ∃ w rest', c :: rest = c :: w ++ rest' ∧ (∀ d ∈ c :: w, d.isAlphanum = true) ∧
      (∀ d, rest'.head? = some d → isWord d = false) ∧ rest'.length ≤ rest.length := by
  refine ⟨rest.takeWhile isWord, rest.dropWhile isWord, ?_, ?_, ?_, ?_⟩
  · rw [List.cons_append, List.takeWhile_append_dropWhile]
  · intro d hd
    rcases List.mem_cons.mp hd with rfl | hd
    · exact hc
    · exact List.mem_takeWhile_imp hd
  · intro d hd
    have := List.head?_dropWhile_not isWord rest
    rw [hd] at this
    exact this
  · exact (List.dropWhile_suffix _).length_le

/-- Text of the arithmetic part of the language is read completely. -/
theorem tokens_plain : ∀ (n : Nat) (cs : List Char), cs.length ≤ n → (∀ c ∈ cs, plain c = true) →
    ∃ ts, tokens cs = some (.ok ts) ∧ text ts = cs.map spaced ∧ ∀ t ∈ ts, Writable t := by
  intro n
  induction n with
  | zero =>
    intro cs h _
    have : cs = [] := List.length_eq_zero_iff.mp (by omega)
    subst this
    exact ⟨[], rfl, rfl, by simp⟩
  | succ n ih =>
    intro cs h hp
    cases cs with
    | nil => exact ⟨[], rfl, rfl, by simp⟩
    | cons c rest =>
      simp only [List.length_cons] at h
      have hrest : ∀ c ∈ rest, plain c = true := fun d hd => hp d (by simp [hd])
      have single : ∀ t : Tok, lexStep c rest = .ok (some t, rest) → t.text = [spaced c] → Writable t →
          ∃ ts, tokens (c :: rest) = some (.ok ts) ∧ text ts = (c :: rest).map spaced ∧
            ∀ t ∈ ts, Writable t := by
        intro t hl ht hw
        obtain ⟨ts, h1, h2, h3⟩ := ih rest (by omega) hrest
        refine ⟨t :: ts, tokens_ok hl h1, ?_, ?_⟩
        · rw [text, List.flatMap_cons, ht, ← text, h2]; rfl
        · intro x hx
          rcases List.mem_cons.mp hx with rfl | hx
          · exact hw
          · exact h3 x hx
      have hc := hp c (by simp)
      simp only [plain, Bool.or_eq_true, beq_iff_eq] at hc
      have hgt : rest.head? ≠ some '>' := by
        intro hg
        have := hrest '>' (List.mem_of_head? hg)
        revert this; decide
      rcases hc with (((((((((((((((rfl|rfl)|rfl)|ha)|rfl)|rfl)|rfl)|rfl)|rfl)|rfl)|rfl)|rfl)|rfl)|rfl)|rfl)|rfl)|rfl
      · exact single .white rfl rfl trivial
      · exact single .white rfl rfl trivial
      · exact single .white rfl rfl trivial
      · obtain ⟨w, rest', he, hw, hr, hl⟩ := takeWhile_word (rest := rest) ha
        have he' : rest = w ++ rest' := by simpa using he
        obtain ⟨ts, h1, h2, h3⟩ := ih rest' (by omega)
          (fun d hd => hrest d (by rw [he']; exact List.mem_append_right _ hd))
        refine ⟨.expr (c :: w) :: ts, ?_, ?_, ?_⟩
        · rw [he']
          exact tokens_ok (lexStep_word hw hr) h1
        · have hsp : ∀ d ∈ c :: w, spaced d = d := by
            intro d hd
            have := hw d hd
            unfold spaced
            rw [if_neg]
            simp only [Bool.or_eq_true, beq_iff_eq]
            rintro (rfl | rfl) <;> revert this <;> decide
          rw [text, List.flatMap_cons, ← text, h2, he, List.map_append]
          congr 1
          exact (List.map_congr_left hsp).symm ▸ (List.map_id _).symm
        · intro x hx
          rcases List.mem_cons.mp hx with rfl | hx
          · exact ⟨by simp, hw⟩
          · exact h3 x hx
      · exact single .plus rfl rfl trivial
      · refine single .minus ?_ rfl trivial
        unfold lexStep
        rw [if_neg (by decide), if_neg (by decide), if_neg (by decide), if_neg (by decide),
          if_pos (by simpa using hgt)]
        rfl
      · exact single .multiply rfl rfl trivial
      · exact single .divide rfl rfl trivial
      · exact single .power rfl rfl trivial
      · exact single .lparen rfl rfl trivial
      · exact single .rparen rfl rfl trivial
      · exact single .lbrace rfl rfl trivial
      · exact single .rbrace rfl rfl trivial
      · exact single .lcurl rfl rfl trivial
      · exact single .rcurl rfl rfl trivial
      · exact single .comma rfl rfl trivial
      · exact single .command rfl rfl trivial

/-- The characters consumed by a word are digits, letters and points. -/
theorem exprLoop_consumed (n : Nat) (acc cs : List Char) :
    ∃ pre, cs = pre ++ (exprLoop n acc cs).2 ∧
      ∀ d ∈ (pre ++ (exprLoop n acc cs).2.take 1).tail, d.isAlphanum = true := by
  fun_induction exprLoop n acc cs with
  | case1 => exact ⟨[], rfl, by simp⟩
  | case2 n acc d rest hd _ ih =>
    obtain ⟨pre, h1, h2⟩ := ih
    refine ⟨'.' :: pre, by rw [List.cons_append, ← h1], ?_⟩
    rw [List.cons_append, List.tail_cons]
    intro x hx
    cases pre with
    | nil =>
      rw [List.nil_append] at h1 hx
      rw [← h1] at hx
      simp only [List.take_succ_cons, List.take_zero, List.mem_singleton] at hx
      subst hx; exact hd
    | cons p pre =>
      rw [List.cons_append] at hx h1
      injection h1 with e1 e2
      rcases List.mem_cons.mp hx with rfl | hx
      · rw [← e1]; exact hd
      · exact h2 x (by simpa using hx)
  | case3 n acc c d rest hd _ ih =>
    obtain ⟨pre, h1, h2⟩ := ih
    refine ⟨c :: pre, by rw [List.cons_append, ← h1], ?_⟩
    rw [List.cons_append, List.tail_cons]
    intro x hx
    cases pre with
    | nil =>
      rw [List.nil_append] at h1 hx
      rw [← h1] at hx
      simp only [List.take_succ_cons, List.take_zero, List.mem_singleton] at hx
      subst hx; exact hd
    | cons p pre =>
      rw [List.cons_append] at hx h1
      injection h1 with e1 e2
      rcases List.mem_cons.mp hx with rfl | hx
      · rw [← e1]; exact hd
      · exact h2 x (by simpa using hx)
  | case4 => exact ⟨[], rfl, by simp⟩
  | case5 n acc cs h =>
    refine ⟨[], rfl, ?_⟩
    cases cs with
    | nil => simp
    | cons c cs => simp

theorem generateExpr_consumed (c : Char) (rest : List Char) (x : Char) (hx : x ∈ rest)
    (hn : x.isAlphanum = false) : x ∈ (generateExpr (c :: rest)).2.tail := by
  show x ∈ (exprLoop 0 [] (c :: rest)).2.tail
  obtain ⟨pre, h1, h2⟩ := exprLoop_consumed 0 [] (c :: rest)
  generalize (exprLoop 0 [] (c :: rest)).2 = cs' at h1 h2 ⊢
  have hne : ∀ d ∈ (pre ++ cs'.take 1).tail, d ≠ x := by
    rintro d hd rfl
    rw [h2 d hd] at hn; cases hn
  have hsplit : rest = (pre ++ cs'.take 1).tail ++ cs'.tail := by
    have e : c :: rest = (pre ++ cs'.take 1) ++ cs'.tail := by
      rw [h1, List.append_assoc, ← List.drop_one, List.take_append_drop]
    cases hp : pre ++ cs'.take 1 with
    | nil =>
      have hc : cs' = [] := by
        cases cs' with
        | nil => rfl
        | cons a b => simp at hp
      have hpre : pre = [] := (List.append_eq_nil_iff.mp hp).1
      rw [hc, hpre] at h1
      cases h1
    | cons a l =>
      rw [hp, List.cons_append] at e
      injection e
  rw [hsplit] at hx
  rcases List.mem_append.mp hx with h | h
  · exact absurd rfl (hne x h)
  · exact h

/-- Characters outside the language. -/
theorem tokens_unknown : ∀ (n : Nat) (cs : List Char), cs.length ≤ n →
    (∀ c ∈ cs, c ≠ '<' ∧ c ≠ '>' ∧ c ≠ '|' ∧ c ≠ '"' ∧ c ≠ '\'') →
    (∃ c ∈ cs, plain c = false ∧ c ≠ '.') → tokens cs = some (.error .exception) := by
  intro n
  induction n with
  | zero =>
    rintro cs h _ ⟨c, hc, _⟩
    have : cs = [] := List.length_eq_zero_iff.mp (by omega)
    subst this; cases hc
  | succ n ih =>
    rintro cs h hm ⟨x, hx, hp, hdot⟩
    cases cs with
    | nil => cases hx
    | cons c rest =>
      simp only [List.length_cons] at h
      have hm' : ∀ c ∈ rest, c ≠ '<' ∧ c ≠ '>' ∧ c ≠ '|' ∧ c ≠ '"' ∧ c ≠ '\'' :=
        fun d hd => hm d (by simp [hd])
      have hxa : x.isAlphanum = false := by
        cases ha : x.isAlphanum with
        | false => rfl
        | true => simp [plain, ha] at hp
      have one : ∀ t : Tok, c ≠ x → lexStep c rest = .ok (some t, rest) →
          tokens (c :: rest) = some (.error .exception) := by
        intro t hne hl
        have hx' : x ∈ rest := by
          rcases List.mem_cons.mp hx with h | h
          · exact absurd h.symm hne
          · exact h
        rw [tokens_step hl, ih rest (by omega) hm' ⟨x, hx', hp, hdot⟩]; rfl
      have hgt : rest.head? ≠ some '>' := by
        intro hg
        exact (hm' '>' (List.mem_of_head? hg)).2.1 rfl
      by_cases hc : plain c = true ∨ c = '.'
      · have hne : c ≠ x := by
          rintro rfl
          rcases hc with h | h
          · rw [hp] at h; cases h
          · exact hdot h
        have hx' : x ∈ rest := by
          rcases List.mem_cons.mp hx with h | h
          · exact absurd h.symm hne
          · exact h
        by_cases ha : c.isAlphanum = true ∨ c = '.'
        · have hstep : lexStep c rest =
              .ok (some (generateExpr (c :: rest)).1, (generateExpr (c :: rest)).2.tail) := by
            have hw : isWhite c = false := by
              rcases ha with h | rfl
              · exact (isWord_not h).1
              · decide
            unfold lexStep
            rw [hw, if_neg (by simp), if_pos]
            · rfl
            · simp only [Bool.or_eq_true, beq_iff_eq]
              exact ha.symm
          have hl := lexStep_length hstep
          rw [tokens_step hstep, ih _ (by omega) ?_ ⟨x, generateExpr_consumed c rest x hx' hxa, hp, hdot⟩]
          · rfl
          · intro d hd
            have hsuf : (exprLoop 0 [] (c :: rest)).2 <:+ c :: rest := exprLoop_suffix _ _ _
            exact hm d (hsuf.subset (List.mem_of_mem_tail hd))
        · simp only [not_or, Bool.not_eq_true] at ha
          have hc' : plain c = true := hc.resolve_right ha.2
          simp only [plain, Bool.or_eq_true, beq_iff_eq, ha.1] at hc'
          rcases hc' with (((((((((((((((rfl|rfl)|rfl)|ha)|rfl)|rfl)|rfl)|rfl)|rfl)|rfl)|rfl)|rfl)|rfl)|rfl)|rfl)|rfl)|rfl
          · exact one .white hne rfl
          · exact one .white hne rfl
          · exact one .white hne rfl
          · cases ha
          · exact one .plus hne rfl
          · refine one .minus hne ?_
            unfold lexStep
            rw [if_neg (by decide), if_neg (by decide), if_neg (by decide), if_neg (by decide),
              if_pos (by simpa using hgt)]
            rfl
          · exact one .multiply hne rfl
          · exact one .divide hne rfl
          · exact one .power hne rfl
          · exact one .lparen hne rfl
          · exact one .rparen hne rfl
          · exact one .lbrace hne rfl
          · exact one .rbrace hne rfl
          · exact one .lcurl hne rfl
          · exact one .rcurl hne rfl
          · exact one .comma hne rfl
          · exact one .command hne rfl
      · simp only [not_or, Bool.not_eq_true] at hc
        obtain ⟨hpl, hd⟩ := hc
        have hm0 := hm c (by simp)
        simp only [plain, Bool.or_eq_false_iff] at hpl
        refine tokens_error ?_
        obtain ⟨⟨⟨⟨⟨⟨⟨⟨⟨⟨⟨⟨⟨⟨⟨⟨a1, a2⟩, a3⟩, a4⟩, a5⟩, a6⟩, a7⟩, a8⟩, a9⟩, a10⟩, a11⟩, a12⟩, a13⟩, a14⟩, a15⟩, a16⟩, a17⟩ := hpl
        have b1 : (c == '.') = false := by simpa using hd
        have b2 : (c == '<') = false := by simpa using hm0.1
        have b3 : (c == '>') = false := by simpa using hm0.2.1
        have b4 : (c == '|') = false := by simpa using hm0.2.2.1
        have b5 : (c == '"') = false := by simpa using hm0.2.2.2.1
        have b6 : (c == '\'') = false := by simpa using hm0.2.2.2.2
        have b7 : isWord c = false := a4
        unfold lexStep isWhite
        rw [a1, a2, a3, a5, a6, a7, a8, a9, a10, a11, a12, a13, a14, a15, a16, a17, b1, b2, b3, b4, b5, b6,
          b7]
        rfl

end PyOGRe
