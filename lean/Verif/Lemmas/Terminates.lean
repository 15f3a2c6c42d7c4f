import Verif.Lemmas.Parser

/-!
# When parsing ends
-/

namespace PyOGRe
open Spec

variable {α β : Type}

theorem NoStray.tail {t : Tok} {ts : List Tok} (h : NoStray (t :: ts)) : NoStray ts := h.2

theorem NoStray.suffix {ts ts' : List Tok} (h : NoStray ts) (hs : ts' <:+ ts) : NoStray ts' := by
  obtain ⟨pre, rfl⟩ := hs
  induction pre with
  | nil => exact h
  | cons t pre ih => exact ih h.2

theorem bind_ends {p : Pr α} {f : α → Pr β} {ts : List Tok} (h : p ts ≠ none)
    (hf : ∀ v ts', p ts = some (.ok (v, ts')) → f v ts' ≠ none) : (p >>= f) ts ≠ none := by
  rw [Pr.bind_apply]
  cases hp : p ts with
  | none => exact absurd hp h
  | some x =>
    cases x with
    | error e => simp
    | ok y => exact hf y.1 y.2 hp

theorem peek_ne (ts : List Tok) : peek ts ≠ none := by cases ts <;> simp [peek]
theorem skipWhite_ne (ts : List Tok) : skipWhite ts ≠ none := by
  induction ts with
  | nil => simp [skipWhite]
  | cons t ts ih => cases t <;> first | exact ih | simp [skipWhite]
theorem skipComma_ne (ts : List Tok) : skipComma ts ≠ none := by
  cases ts with
  | nil => simp [skipComma]
  | cons t ts => cases t <;> simp [skipComma]
theorem expect_ne (t : Tok) (ts : List Tok) : expect t ts ≠ none :=
  bind_ends (peek_ne ts) fun v ts' _ => by split <;> simp [advance]
theorem pGreek_ne (ts : List Tok) : pGreek ts ≠ none := by
  unfold pGreek
  split
  · simp
  · split <;> simp
  · simp

structure AllTotal (n : Nat) : Prop where
  expr : ∀ a ts, NoStray ts → 8 * ts.length + 4 ≤ n → pExpr n a ts ≠ none
  exprLoop : ∀ a r ts, NoStray ts → 8 * ts.length + 3 ≤ n → pExprLoop n a r ts ≠ none
  term : ∀ ts, NoStray ts → 8 * ts.length + 3 ≤ n → pTerm n ts ≠ none
  termLoop : ∀ r ts, NoStray ts → 8 * ts.length + 2 ≤ n → pTermLoop n r ts ≠ none
  list : ∀ acc ts, (∀ t ∈ ts, stray t = false) → NoStray ts → 8 * ts.length + 5 ≤ n → pList n acc ts ≠ none
  assoc : ∀ k v ts, NoStray ts → 8 * ts.length + 5 ≤ n → pAssoc n k v ts ≠ none
  factor : ∀ ts, NoStray ts → 8 * ts.length + 2 ≤ n → pFactor n ts ≠ none
  base : ∀ ts, NoStray ts → 8 * ts.length + 1 ≤ n → pBase n ts ≠ none
  power : ∀ r ts, NoStray ts → 8 * ts.length + 1 ≤ n → pPower n r ts ≠ none
  whitePower : ∀ r ts, NoStray ts → 8 * ts.length + 1 ≤ n → pWhitePower n r ts ≠ none
  calls : ∀ w args ts, NoStray ts → 8 * ts.length + 1 ≤ n → pCalls n w args ts ≠ none
  args : ∀ acc ts, NoStray ts → 8 * ts.length + 1 ≤ n → pArgs n acc ts ≠ none

theorem allTotal (n : Nat) : AllTotal n := by
  induction n with
  | zero => constructor <;> intros <;> omega
  | succ n ih =>
    have E := allEnd n
    constructor
    · intro a ts s h
      rw [pExpr]
      refine bind_ends (ih.term ts s (by omega)) fun r ts1 h1 => ?_
      have e := E.term ts r ts1 h1
      exact ih.exprLoop a r ts1 (NoStray.suffix s e) (by have := e.length_le; omega)
    · intro a r ts s h
      rw [pExprLoop]
      dsimp only
      split
      · rename_i ts'
        simp only [List.length_cons] at h
        refine bind_ends (ih.term ts' s.2 (by omega)) fun x ts1 h1 => ?_
        have e := E.term _ _ ts1 h1
        exact ih.exprLoop _ _ ts1 (NoStray.suffix s.2 e) (by have := e.length_le; omega)
      · rename_i ts'
        simp only [List.length_cons] at h
        refine bind_ends (ih.term ts' s.2 (by omega)) fun x ts1 h1 => ?_
        have e := E.term _ _ ts1 h1
        exact ih.exprLoop _ _ ts1 (NoStray.suffix s.2 e) (by have := e.length_le; omega)
      · simp only [List.length_cons] at h
        exact ih.exprLoop _ _ _ s.2 (by omega)
      · rename_i ts'
        simp only [List.length_cons] at h
        refine bind_ends (ih.list _ ts' (s.1 rfl) s.2 (by omega)) fun x ts1 h1 => ?_
        have e := E.list _ _ _ ts1 h1
        exact ih.exprLoop _ _ ts1 (NoStray.suffix s.2 e) (by have := e.length_le; omega)
      · rename_i ts'
        simp only [List.length_cons] at h
        refine bind_ends (ih.assoc _ _ ts' s.2 (by omega)) fun x ts1 h1 => ?_
        have e := E.assoc _ _ _ _ ts1 h1
        exact ih.exprLoop _ _ ts1 (NoStray.suffix s.2 e) (by have := e.length_le; omega)
      · rename_i ts'
        simp only [List.length_cons] at h
        split
        · simp
        · refine bind_ends (ih.expr _ ts' s.2 (by omega)) fun x ts1 h1 => ?_
          have e := E.expr _ _ _ ts1 h1
          exact ih.exprLoop _ _ ts1 (NoStray.suffix s.2 e) (by have := e.length_le; omega)
      · simp
    · intro ts s h
      rw [pTerm]
      refine bind_ends (skipWhite_ne ts) fun u ts0 h0 => ?_
      have e0 := Ends.skipWhite _ _ _ h0
      have s0 := NoStray.suffix s e0
      have l0 := e0.length_le
      refine bind_ends (ih.factor _ s0 (by omega)) fun x ts1 h1 => ?_
      have e := E.factor _ _ _ h1
      exact ih.termLoop _ ts1 (NoStray.suffix s0 e) (by have := e.length_le; omega)
    · intro r ts s h
      rw [pTermLoop]
      dsimp only
      split
      · rename_i ts'
        simp only [List.length_cons] at h
        refine bind_ends (ih.factor ts' s.2 (by omega)) fun x ts1 h1 => ?_
        have e := E.factor _ _ ts1 h1
        exact ih.termLoop _ ts1 (NoStray.suffix s.2 e) (by have := e.length_le; omega)
      · rename_i ts'
        simp only [List.length_cons] at h
        refine bind_ends (ih.factor ts' s.2 (by omega)) fun x ts1 h1 => ?_
        have e := E.factor _ _ ts1 h1
        exact ih.termLoop _ ts1 (NoStray.suffix s.2 e) (by have := e.length_le; omega)
      · rename_i ts'
        simp only [List.length_cons] at h
        split
        · refine bind_ends (ih.factor ts' s.2 (by omega)) fun x ts1 h1 => ?_
          have e := E.factor _ _ ts1 h1
          exact ih.termLoop _ ts1 (NoStray.suffix s.2 e) (by have := e.length_le; omega)
        · exact ih.termLoop _ _ s.2 (by omega)
      · simp
    · intro acc ts c s h
      rw [pList]
      refine bind_ends (peek_ne ts) fun t ts0 h0 => ?_
      obtain ⟨rfl, l, rfl⟩ := peek_eq h0
      by_cases ht : t = .rcurl
      · rw [if_pos ht]; simp
      rw [if_neg ht]
      refine bind_ends (skipWhite_ne _) fun u ts1 h1 => ?_
      have e1 := Ends.skipWhite _ _ _ h1
      have s1 := NoStray.suffix s e1
      have l1 := e1.length_le
      simp only [List.length_cons] at h l1
      refine bind_ends (ih.expr _ _ s1 (by omega)) fun x ts2 h2 => ?_
      have e2 := E.expr _ _ _ _ h2
      have s2 := NoStray.suffix s1 e2
      have l2 := e2.length_le
      refine bind_ends (skipComma_ne _) fun u ts3 h3 => ?_
      have e3 := Ends.skipComma _ _ _ h3
      have s3 := NoStray.suffix s2 e3
      have c3 : ∀ t ∈ ts3, stray t = false := fun t ht => c t ((e3.trans (e2.trans e1)).subset ht)
      rcases skipComma_eq h3 with ⟨rfl, t', l', rfl, hc⟩ | h3'
      · rcases skipWhite_eq h1 with ⟨hw, rfl⟩ | h1'
        · by_cases hl : (t' :: l').length = (t :: l).length
          · have e := e2.eq_of_length hl
            injection e with i1 i2
            subst i1 i2
            have hp := pExpr_progress h2
            have hs := c3 t' (by simp)
            exfalso
            revert hp hs ht hc
            cases t' <;> simp [Tok.stops, stray]
          · refine ih.list _ _ c3 s3 ?_
            simp only [List.length_cons] at hl l2 ⊢
            omega
        · refine ih.list _ _ c3 s3 ?_
          simp only [List.length_cons] at l2 ⊢
          omega
      · exact ih.list _ _ c3 s3 (by omega)
    · intro k v ts s h
      rw [pAssoc]
      refine bind_ends (peek_ne ts) fun t ts0 h0 => ?_
      obtain ⟨rfl, l, rfl⟩ := peek_eq h0
      by_cases ht : t = .rassoc
      · rw [if_pos ht]; simp
      rw [if_neg ht]
      refine bind_ends (skipWhite_ne _) fun u ts1 h1 => ?_
      have e1 := Ends.skipWhite _ _ _ h1
      have s1 := NoStray.suffix s e1
      have l1 := e1.length_le
      refine bind_ends (ih.expr _ _ s1 (by omega)) fun x ts2 h2 => ?_
      have e2 := E.expr _ _ _ _ h2
      have s2 := NoStray.suffix s1 e2
      have l2 := e2.length_le
      refine bind_ends (skipWhite_ne _) fun u ts3 h3 => ?_
      have e3 := Ends.skipWhite _ _ _ h3
      have s3 := NoStray.suffix s2 e3
      have l3 := e3.length_le
      refine bind_ends (peek_ne _) fun t' ts4 h4 => ?_
      obtain ⟨rfl, l', rfl⟩ := peek_eq h4
      by_cases ha : t' = .arrow
      · rw [if_pos ha]
        refine bind_ends (by simp [advance]) fun u ts5 h5 => ?_
        cases h5
        refine bind_ends (skipWhite_ne _) fun u ts6 h6 => ?_
        have e6 := Ends.skipWhite _ _ _ h6
        have s6 := NoStray.suffix (NoStray.tail s3) e6
        have l6 := e6.length_le
        simp only [List.length_cons, List.tail_cons] at *
        refine bind_ends (ih.expr _ _ s6 (by omega)) fun y ts7 h7 => ?_
        have e7 := E.expr _ _ _ _ h7
        have s7 := NoStray.suffix s6 e7
        have l7 := e7.length_le
        by_cases hn : (x.isNone || y.isNone) = true
        · rw [if_pos hn]; simp
        · rw [if_neg hn]
          refine bind_ends (skipComma_ne _) fun u ts8 h8 => ?_
          have e8 := Ends.skipComma _ _ _ h8
          exact ih.assoc _ _ _ (NoStray.suffix s7 e8) (by have := e8.length_le; omega)
      · rw [if_neg ha]; simp
    · intro ts s h
      rw [pFactor]
      refine bind_ends (skipWhite_ne _) fun u ts0 h0 => ?_
      have e0 := Ends.skipWhite _ _ _ h0
      have s0 := NoStray.suffix s e0
      have l0 := e0.length_le
      refine bind_ends (ih.base _ s0 (by omega)) fun x ts1 h1 => ?_
      have e1 := E.base _ _ _ h1
      have s1 := NoStray.suffix s0 e1
      have l1 := e1.length_le
      refine bind_ends (ih.power _ _ s1 (by omega)) fun x ts2 h2 => ?_
      have e2 := E.power _ _ _ _ h2
      exact ih.whitePower _ _ (NoStray.suffix s1 e2) (by have := e2.length_le; omega)
    · intro ts s h
      rw [pBase]
      dsimp only
      split
      · simp
      · simp
      · simp only [List.length_cons] at h
        exact bind_ends (ih.expr _ _ s.2 (by omega)) fun _ _ _ =>
          bind_ends (expect_ne _ _) fun _ _ _ => by simp
      · simp only [List.length_cons] at h
        exact bind_ends (ih.list _ _ (s.1 rfl) s.2 (by omega)) fun _ _ _ =>
          bind_ends (expect_ne _ _) fun _ _ _ => by simp
      · simp only [List.length_cons] at h
        exact bind_ends (ih.assoc _ _ _ s.2 (by omega)) fun _ _ _ =>
          bind_ends (expect_ne _ _) fun _ _ _ => by simp
      · exact pGreek_ne _
      · simp only [List.length_cons] at h
        split
        · simp only [List.length_cons] at h
          exact ih.calls _ _ _ s.2 (by simp only [List.length_cons]; omega)
        · simp
      · simp only [List.length_cons] at h
        exact bind_ends (ih.factor _ s.2 (by omega)) fun _ _ _ => by simp
      · simp only [List.length_cons] at h
        exact bind_ends (ih.factor _ s.2 (by omega)) fun _ _ _ => by simp
      · simp
    · intro r ts s h
      rw [pPower]
      dsimp only
      split
      · simp only [List.length_cons] at h
        exact bind_ends (ih.factor _ s.2 (by omega)) fun _ _ _ => by simp
      · simp
    · intro r ts s h
      rw [pWhitePower]
      dsimp only
      split
      · simp only [List.length_cons] at h
        exact bind_ends (ih.factor _ s.2.2 (by omega)) fun _ _ _ => by simp
      · simp
    · intro w args ts s h
      rw [pCalls]
      dsimp only
      split
      · simp only [List.length_cons] at h
        refine bind_ends (ih.expr _ _ s.2 (by omega)) fun x ts1 h1 => ?_
        have e1 := E.expr _ _ _ _ h1
        have s1 := NoStray.suffix s.2 e1
        have l1 := e1.length_le
        refine bind_ends (ih.args _ _ s1 (by omega)) fun y ts2 h2 => ?_
        have e2 := E.args _ _ _ _ h2
        exact ih.calls _ _ _ (NoStray.suffix s1 e2) (by have := e2.length_le; omega)
      · simp
    · intro acc ts s h
      rw [pArgs]
      dsimp only
      split
      · simp
      · simp only [List.length_cons] at h
        refine bind_ends (ih.expr _ _ s.2 (by omega)) fun x ts1 h1 => ?_
        have e1 := E.expr _ _ _ _ h1
        exact ih.args _ _ (NoStray.suffix s.2 e1) (by have := e1.length_le; omega)
      · simp
      · simp

theorem parse_total {ts : List Tok} (h : NoStray ts) : ∃ r, parse (8 * ts.length + 4) ts = some r := by
  unfold parse
  split
  · exact ⟨_, rfl⟩
  · have := (allTotal _).expr false ts h (Nat.le_refl _)
    cases hp : pExpr (8 * ts.length + 4) false ts with
    | none => exact absurd hp this
    | some x =>
      cases x with
      | error e => exact ⟨_, rfl⟩
      | ok y =>
        obtain ⟨r, rest⟩ := y
        cases rest <;> exact ⟨_, rfl⟩

end PyOGRe
