import Verif.Spec.Spelled
import Verif.Lemmas.Parser

/-! Helper lemmas: what is read says what was written. -/

namespace PyOGRe
open Spec

theorem content_cons (t : Tok) (ts : List Tok) :
    content (t :: ts) = (if counted t then [t.text] else []) ++ content ts := by
  unfold content
  cases h : counted t <;> simp [h]

theorem spellEach_append (l l' : List Node) : spellEach (l ++ l') = spellEach l ++ spellEach l' := by
  induction l with
  | nil => rfl
  | cons x l ih => simp only [List.cons_append, spellEach, ih]

theorem spellEach_length (l : List Node) : (spellEach l).length = l.length := by
  induction l with
  | nil => rfl
  | cons x l ih => simp only [spellEach, List.length_cons, ih]

theorem interleave_append {α : Type} : ∀ {a b a' b' : List α}, a.length = b.length →
    interleave (a ++ a') (b ++ b') = interleave a b ++ interleave a' b'
  | [], [], _, _, _ => rfl
  | x :: a, y :: b, a', b', h => by
    simp only [List.cons_append, interleave]
    rw [interleave_append (by simpa using h)]

theorem placed_weaken {b : Bool} {ts : List Tok} (h : Placed false ts) : Placed b ts := by
  induction ts with
  | nil => trivial
  | cons t ts ih =>
    cases t <;> first | exact ih h | exact ⟨⟨fun e => absurd (h.1.1 e) (by simp), h.1.2⟩, h.2⟩

/-- A token that is neither a space nor opens a list or association. -/
theorem placed_other {b : Bool} {t : Tok} {ts : List Tok} (h : Placed b (t :: ts)) (h1 : t ≠ .white)
    (h2 : t ≠ .lcurl) (h3 : t ≠ .lassoc) : Placed false (t :: ts) := by
  cases t <;> first | exact absurd rfl h1 | exact absurd rfl h2 | exact absurd rfl h3 | exact ⟨⟨by simp, h.1.2⟩, h.2⟩

theorem placed_tail {b : Bool} {t : Tok} {ts : List Tok} (h : Placed b (t :: ts)) (h1 : t ≠ .white) :
    Placed (begins t) ts := by
  cases t <;> first | exact absurd rfl h1 | exact h.2

theorem placed_true {b : Bool} {ts : List Tok} (h : Placed b ts) : Placed true ts := by
  cases b with
  | true => exact h
  | false => exact placed_weaken h

/-- The parser `p` accounts for what it consumes. -/
def Accounts (p : Pr Node) : Prop := ∀ b ts r ts', Placed b ts → p ts = some (.ok (r, ts')) →
  Placed false ts' ∧ content ts = spell r ++ content ts'

theorem pbind_inv {α β : Type} {p : Pr α} {f : α → Pr β} {ts ts' : List Tok} {r : β}
    (h : (p >>= f) ts = some (.ok (r, ts'))) : ∃ a ts1, p ts = some (.ok (a, ts1)) ∧ f a ts1 = some (.ok (r, ts')) := by
  rw [Pr.bind_apply] at h
  cases hp : p ts with
  | none => rw [hp] at h; cases h
  | some x =>
    rw [hp] at h
    cases x with
    | error e => cases h
    | ok y => exact ⟨y.1, y.2, rfl, h⟩

theorem skipWhite_says {b : Bool} {ts ts' : List Tok} {u : Unit} (hb : Placed b ts)
    (h : skipWhite ts = some (.ok (u, ts'))) : Placed b ts' ∧ content ts = content ts' ∧ ts'.head? ≠ some .white := by
  induction ts with
  | nil => cases h
  | cons t ts ih =>
    cases t <;> first
      | exact ih hb h
      | (simp only [skipWhite, Option.some.injEq, Except.ok.injEq, Prod.mk.injEq, true_and] at h
         subst h
         exact ⟨hb, rfl, by simp⟩)

theorem skipComma_says {ts ts' : List Tok} {u : Unit} (hb : Placed false ts)
    (h : skipComma ts = some (.ok (u, ts'))) : Placed true ts' ∧ content ts = content ts' := by
  cases ts with
  | nil => cases h
  | cons t ts =>
    cases t <;> first
      | (simp only [skipComma, Option.some.injEq, Except.ok.injEq, Prod.mk.injEq, true_and] at h
         subst h
         first
           | exact ⟨hb.2, rfl⟩
           | exact ⟨placed_true hb, rfl⟩)

theorem peek_says {ts ts' : List Tok} {t : Tok} (h : peek ts = some (.ok (t, ts'))) :
    ts' = ts ∧ ts.head? = some t := by
  cases ts with
  | nil => cases h
  | cons x ts => simp only [peek, Option.some.injEq, Except.ok.injEq, Prod.mk.injEq] at h; obtain ⟨rfl, rfl⟩ := h; simp

theorem expect_says {t : Tok} {ts ts' : List Tok} {u : Unit} (h : expect t ts = some (.ok (u, ts'))) :
    ts = t :: ts' := by
  unfold expect at h
  obtain ⟨c, ts1, h1, h2⟩ := pbind_inv h
  obtain ⟨rfl, h3⟩ := peek_says h1
  split_ifs at h2 with hc
  · cases h2
  · cases ts1 with
    | nil => cases h3
    | cons x ts =>
      simp only [advance, List.tail_cons, Option.some.injEq, Except.ok.injEq, Prod.mk.injEq, true_and] at h2
      simp only [List.head?_cons, Option.some.injEq] at h3
      rw [← h2, h3, not_not.1 hc]

theorem pGreek_says {b : Bool} {ts ts' : List Tok} {r : Node} (hb : Placed b (.command :: ts))
    (h : pGreek ts = some (.ok (r, ts'))) : Placed false ts' ∧ content (.command :: ts) = spell r ++ content ts' := by
  have hb' : Placed false ts := hb.2
  unfold pGreek at h
  split at h
  · cases h
  · rename_i ts1
    split at h
    · rename_i x ts2
      simp only [Option.some.injEq, Except.ok.injEq, Prod.mk.injEq] at h
      obtain ⟨rfl, rfl⟩ := h
      constructor
      · have h1 : Placed true (x :: .rbrace :: ts2) := hb'.2
        cases x <;> first | exact h1.2.2 | exact h1.2
      · simp only [content_cons]
        have hx := hb.1.2 rfl x rfl
        cases x <;> simp_all [counted, operator, Tok.value, spell, Tok.text]
    · simp only [Option.some.injEq, Except.ok.injEq, Prod.mk.injEq] at h
      obtain ⟨rfl, rfl⟩ := h
      exact ⟨hb', by simp [content_cons, counted, operator, spell]⟩
    · cases h
  · simp only [Option.some.injEq, Except.ok.injEq, Prod.mk.injEq] at h
    obtain ⟨rfl, rfl⟩ := h
    exact ⟨hb', by simp [content_cons, counted, operator, spell]⟩

structure AllSay (n : Nat) : Prop where
  expr : ∀ a, Accounts (pExpr n a)
  exprLoop : ∀ a r0 ts r ts', Placed false ts → pExprLoop n a r0 ts = some (.ok (r, ts')) →
    Placed false ts' ∧ spell r0 ++ content ts = spell r ++ content ts'
  term : Accounts (pTerm n)
  termLoop : ∀ r0 ts r ts', Placed false ts → pTermLoop n r0 ts = some (.ok (r, ts')) →
    Placed false ts' ∧ spell r0 ++ content ts = spell r ++ content ts'
  list : ∀ acc b ts r ts', Placed b ts → pList n acc ts = some (.ok (r, ts')) →
    Placed false ts' ∧ (spellEach acc).flatten ++ content ts = spell r ++ content ts'
  assoc : ∀ ks vs b ts r ts', ks.length = vs.length → Placed b ts → pAssoc n ks vs ts = some (.ok (r, ts')) →
    Placed false ts' ∧ spell (.assoc ks vs) ++ content ts = spell r ++ content ts'
  factor : Accounts (pFactor n)
  base : ∀ b ts r ts', Placed b ts → ts.head? ≠ some .white → pBase n ts = some (.ok (r, ts')) →
    Placed false ts' ∧ content ts = spell r ++ content ts'
  power : ∀ r0 ts r ts', Placed false ts → pPower n r0 ts = some (.ok (r, ts')) →
    Placed false ts' ∧ spell r0 ++ content ts = spell r ++ content ts'
  whitePower : ∀ r0 ts r ts', Placed false ts → pWhitePower n r0 ts = some (.ok (r, ts')) →
    Placed false ts' ∧ spell r0 ++ content ts = spell r ++ content ts'
  calls : ∀ w args ts r ts', Placed false ts → pCalls n w args ts = some (.ok (r, ts')) →
    Placed false ts' ∧ spell (.func w args) ++ content ts = spell r ++ content ts'
  args : ∀ acc ts r ts', Placed false ts → pArgs n acc ts = some (.ok (r, ts')) →
    Placed false ts' ∧ (spellEach acc).flatten ++ content ts = spell r ++ content ts'

theorem spell_group (acc : List Node) :
    spell (if acc.length = 1 then acc.headD .none else .pyList acc) = (spellEach acc).flatten := by
  split_ifs with h
  · obtain ⟨x, rfl⟩ := List.length_eq_one_iff.1 h
    simp [spellEach]
  · rw [spell]

/-- The result of a parser that consumes nothing. -/
theorem stays_put {r r' : Node} {ts ts' : List Tok} (h : (some (.ok (r, ts)) : Option (Py (Node × List Tok))) =
    some (.ok (r', ts'))) : r = r' ∧ ts = ts' := by
  simpa using h

theorem allSay (n : Nat) : AllSay n := by
  induction n with
  | zero =>
    constructor <;> (try unfold Accounts) <;> intros <;> rename_i h <;>
      first
        | (rw [pExpr] at h; cases h) | (rw [pExprLoop] at h; cases h) | (rw [pTerm] at h; cases h)
        | (rw [pTermLoop] at h; cases h) | (rw [pList] at h; cases h) | (rw [pAssoc] at h; cases h)
        | (rw [pFactor] at h; cases h) | (rw [pBase] at h; cases h) | (rw [pPower] at h; cases h)
        | (rw [pWhitePower] at h; cases h) | (rw [pCalls] at h; cases h) | (rw [pArgs] at h; cases h)
  | succ n ih =>
    constructor
    · intro a b ts r ts' hb h
      rw [pExpr] at h
      obtain ⟨x, ts1, h1, h2⟩ := pbind_inv h
      obtain ⟨p1, c1⟩ := ih.term _ _ _ _ hb h1
      obtain ⟨p2, c2⟩ := ih.exprLoop _ _ _ _ _ p1 h2
      exact ⟨p2, c1.trans c2⟩
    · intro a r0 ts r ts' hb h
      rw [pExprLoop] at h
      dsimp only at h
      split at h
      · rename_i ts0
        obtain ⟨x, ts1, h1, h2⟩ := pbind_inv h
        obtain ⟨p1, c1⟩ := ih.term _ _ _ _ hb.2 h1
        obtain ⟨p2, c2⟩ := ih.exprLoop _ _ _ _ _ p1 h2
        refine ⟨p2, Eq.trans ?_ c2⟩
        simp [content_cons, counted, operator, Tok.text, c1, spell]
      · rename_i ts0
        obtain ⟨x, ts1, h1, h2⟩ := pbind_inv h
        obtain ⟨p1, c1⟩ := ih.term _ _ _ _ hb.2 h1
        obtain ⟨p2, c2⟩ := ih.exprLoop _ _ _ _ _ p1 h2
        refine ⟨p2, Eq.trans ?_ c2⟩
        simp [content_cons, counted, operator, Tok.text, c1, spell]
      · rename_i ts0
        obtain ⟨p2, c2⟩ := ih.exprLoop _ _ ts0 _ _ hb h
        exact ⟨p2, by simpa [content_cons, counted, operator] using c2⟩
      · exact absurd (hb.1.1 (Or.inl rfl)) (by simp)
      · exact absurd (hb.1.1 (Or.inr rfl)) (by simp)
      · split_ifs at h with ha
        · obtain ⟨rfl, rfl⟩ := stays_put h
          exact ⟨hb, rfl⟩
        · obtain ⟨x, ts1, h1, h2⟩ := pbind_inv h
          obtain ⟨p1, c1⟩ := ih.expr _ _ _ _ _ hb.2 h1
          obtain ⟨p2, c2⟩ := ih.exprLoop _ _ _ _ _ p1 h2
          refine ⟨p2, Eq.trans ?_ c2⟩
          simp [content_cons, counted, operator, Tok.text, c1, spell]
      · obtain ⟨rfl, rfl⟩ := stays_put h
        exact ⟨hb, rfl⟩
    · intro b ts r ts' hb h
      rw [pTerm] at h
      obtain ⟨u, ts0, h0, g1⟩ := pbind_inv h
      obtain ⟨p0, c0, -⟩ := skipWhite_says hb h0
      obtain ⟨x, ts1, h1, h2⟩ := pbind_inv g1
      obtain ⟨p1, c1⟩ := ih.factor _ _ _ _ p0 h1
      obtain ⟨p2, c2⟩ := ih.termLoop _ _ _ _ p1 h2
      exact ⟨p2, (c0.trans c1).trans c2⟩
    · intro r0 ts r ts' hb h
      rw [pTermLoop] at h
      dsimp only at h
      split at h
      · obtain ⟨x, ts1, h1, h2⟩ := pbind_inv h
        obtain ⟨p1, c1⟩ := ih.factor _ _ _ _ hb.2 h1
        obtain ⟨p2, c2⟩ := ih.termLoop _ _ _ _ p1 h2
        refine ⟨p2, Eq.trans ?_ c2⟩
        simp [content_cons, counted, operator, c1, spell]
      · obtain ⟨x, ts1, h1, h2⟩ := pbind_inv h
        obtain ⟨p1, c1⟩ := ih.factor _ _ _ _ hb.2 h1
        obtain ⟨p2, c2⟩ := ih.termLoop _ _ _ _ p1 h2
        refine ⟨p2, Eq.trans ?_ c2⟩
        simp [content_cons, counted, operator, Tok.text, c1, spell]
      · rename_i ts0
        split_ifs at h with hs
        · obtain ⟨x, ts1, h1, h2⟩ := pbind_inv h
          obtain ⟨p1, c1⟩ := ih.factor false ts0 _ _ hb h1
          obtain ⟨p2, c2⟩ := ih.termLoop _ _ _ _ p1 h2
          refine ⟨p2, Eq.trans ?_ c2⟩
          simp [content_cons, counted, operator, c1, spell]
        · obtain ⟨p2, c2⟩ := ih.termLoop _ ts0 _ _ hb h
          exact ⟨p2, by simpa [content_cons, counted, operator] using c2⟩
      · obtain ⟨rfl, rfl⟩ := stays_put h
        exact ⟨hb, rfl⟩
    · intro acc b ts r ts' hb h
      rw [pList] at h
      obtain ⟨t, ts0, h0, g2⟩ := pbind_inv h
      obtain ⟨rfl, ht⟩ := peek_says h0
      split_ifs at g2 with hc
      · obtain ⟨rfl, rfl⟩ := stays_put g2
        subst hc
        cases ts0 with
        | nil => cases ht
        | cons x ts =>
          simp only [List.head?_cons, Option.some.injEq] at ht
          subst ht
          exact ⟨placed_other hb (by simp) (by simp) (by simp), by rw [spell]⟩
      · obtain ⟨u, ts1, h1, g3⟩ := pbind_inv g2
        obtain ⟨p1, c1, -⟩ := skipWhite_says hb h1
        obtain ⟨x, ts2, h2, g4⟩ := pbind_inv g3
        obtain ⟨p2, c2⟩ := ih.expr _ _ _ _ _ p1 h2
        obtain ⟨v, ts3, h3, g5⟩ := pbind_inv g4
        obtain ⟨p3, c3⟩ := skipComma_says p2 h3
        obtain ⟨p4, c4⟩ := ih.list _ _ _ _ _ p3 g5
        refine ⟨p4, Eq.trans ?_ c4⟩
        rw [spellEach_append, c1, c2, c3]
        simp [spellEach]
    · intro ks vs b ts r ts' hl hb h
      rw [pAssoc] at h
      obtain ⟨t, ts0, h0, g6⟩ := pbind_inv h
      obtain ⟨rfl, ht⟩ := peek_says h0
      split_ifs at g6 with hc
      · obtain ⟨rfl, rfl⟩ := stays_put g6
        subst hc
        cases ts0 with
        | nil => cases ht
        | cons x ts =>
          simp only [List.head?_cons, Option.some.injEq] at ht
          subst ht
          exact ⟨placed_other hb (by simp) (by simp) (by simp), rfl⟩
      · obtain ⟨u, ts1, h1, g7⟩ := pbind_inv g6
        obtain ⟨p1, c1, -⟩ := skipWhite_says hb h1
        obtain ⟨k, ts2, h2, g8⟩ := pbind_inv g7
        obtain ⟨p2, c2⟩ := ih.expr _ _ _ _ _ p1 h2
        obtain ⟨u', ts3, h3, g9⟩ := pbind_inv g8
        obtain ⟨p3, c3, -⟩ := skipWhite_says p2 h3
        obtain ⟨t', ts4, h4, g10⟩ := pbind_inv g9
        obtain ⟨rfl, ht'⟩ := peek_says h4
        split_ifs at g10 with hc'
        · obtain ⟨u2, ts5, h5, g11⟩ := pbind_inv g10
          subst hc'
          cases ts4 with
          | nil => cases ht'
          | cons y ts4 =>
            simp only [List.head?_cons, Option.some.injEq] at ht'
            subst ht'
            simp only [advance, List.tail_cons, Option.some.injEq, Except.ok.injEq, Prod.mk.injEq, true_and] at h5
            subst h5
            obtain ⟨u3, ts6, h6, g12⟩ := pbind_inv g11
            obtain ⟨p6, c6, -⟩ := skipWhite_says p3.2 h6
            obtain ⟨v, ts7, h7, g13⟩ := pbind_inv g12
            obtain ⟨p7, c7⟩ := ih.expr _ _ _ _ _ p6 h7
            split_ifs at g13 with hn
            · cases g13
            · obtain ⟨u4, ts8, h8, g14⟩ := pbind_inv g13
              obtain ⟨p8, c8⟩ := skipComma_says p7 h8
              obtain ⟨p9, c9⟩ := ih.assoc _ _ _ _ _ _ (by simp [hl]) p8 g14
              refine ⟨p9, Eq.trans ?_ c9⟩
              rw [c1, c2, c3, content_cons, c6, c7, c8, spell, spell, spellEach_append, spellEach_append, List.map_append,
                interleave_append (by rw [List.length_map, spellEach_length, spellEach_length, hl])]
              simp [spellEach, interleave, counted, operator, Tok.text]
        · cases g10
    · intro b ts r ts' hb h
      rw [pFactor] at h
      obtain ⟨u, ts0, h0, g15⟩ := pbind_inv h
      obtain ⟨p0, c0, hw⟩ := skipWhite_says hb h0
      obtain ⟨x, ts1, h1, g16⟩ := pbind_inv g15
      obtain ⟨p1, c1⟩ := ih.base _ _ _ _ p0 hw h1
      obtain ⟨y, ts2, h2, g17⟩ := pbind_inv g16
      obtain ⟨p2, c2⟩ := ih.power _ _ _ _ p1 h2
      obtain ⟨p3, c3⟩ := ih.whitePower _ _ _ _ p2 g17
      exact ⟨p3, ((c0.trans c1).trans c2).trans c3⟩
    · intro b ts r ts' hb hw h
      rw [pBase.eq_def] at h
      dsimp only at h
      split at h
      · cases h
      · obtain ⟨rfl, rfl⟩ := stays_put h
        exact ⟨hb.2, by simp [content_cons, counted, operator, Tok.text, spell]⟩
      · obtain ⟨x, ts1, h1, g18⟩ := pbind_inv h
        obtain ⟨p1, c1⟩ := ih.expr _ _ _ _ _ hb.2 h1
        obtain ⟨u, ts2, h2, g19⟩ := pbind_inv g18
        obtain rfl := expect_says h2
        obtain ⟨rfl, rfl⟩ := stays_put g19
        exact ⟨p1.2, by simpa [content_cons, counted, operator] using c1⟩
      · obtain ⟨x, ts1, h1, g20⟩ := pbind_inv h
        obtain ⟨p1, c1⟩ := ih.list _ _ _ _ _ hb.2 h1
        obtain ⟨u, ts2, h2, g21⟩ := pbind_inv g20
        obtain rfl := expect_says h2
        obtain ⟨rfl, rfl⟩ := stays_put g21
        exact ⟨p1.2, by simpa [content_cons, counted, operator, spellEach] using c1⟩
      · obtain ⟨x, ts1, h1, g22⟩ := pbind_inv h
        obtain ⟨p1, c1⟩ := ih.assoc _ _ _ _ _ _ rfl hb.2 h1
        obtain ⟨u, ts2, h2, g23⟩ := pbind_inv g22
        obtain rfl := expect_says h2
        obtain ⟨rfl, rfl⟩ := stays_put g23
        exact ⟨p1.2, by simpa [content_cons, counted, operator, spell, spellEach, interleave] using c1⟩
      · exact pGreek_says hb h
      · split at h
        · obtain ⟨p1, c1⟩ := ih.calls _ _ _ _ _ hb.2 h
          exact ⟨p1, by simpa [content_cons, counted, operator, Tok.text, spell, spellEach] using c1⟩
        · obtain ⟨rfl, rfl⟩ := stays_put h
          exact ⟨hb.2, by simp [content_cons, counted, operator, Tok.text, spell]⟩
      · obtain ⟨x, ts1, h1, g24⟩ := pbind_inv h
        obtain ⟨p1, c1⟩ := ih.factor _ _ _ _ hb.2 h1
        obtain ⟨rfl, rfl⟩ := stays_put g24
        exact ⟨p1, by simp [content_cons, counted, operator, Tok.text, c1, spell]⟩
      · obtain ⟨x, ts1, h1, g25⟩ := pbind_inv h
        obtain ⟨p1, c1⟩ := ih.factor _ _ _ _ hb.2 h1
        obtain ⟨rfl, rfl⟩ := stays_put g25
        exact ⟨p1, by simp [content_cons, counted, operator, Tok.text, c1, spell]⟩
      · rename_i t ts0 n1 n2 n3 n4 n5 n6 n7 n8
        obtain ⟨rfl, rfl⟩ := stays_put h
        exact ⟨placed_other hb (by rintro rfl; exact hw rfl) (by rintro rfl; simp_all) (by rintro rfl; simp_all),
          by simp [spell]⟩
    · intro r0 ts r ts' hb h
      rw [pPower] at h
      dsimp only at h
      split at h
      · obtain ⟨x, ts1, h1, g26⟩ := pbind_inv h
        obtain ⟨p1, c1⟩ := ih.factor _ _ _ _ hb.2 h1
        obtain ⟨rfl, rfl⟩ := stays_put g26
        exact ⟨p1, by simp [content_cons, counted, operator, Tok.text, c1, spell]⟩
      · obtain ⟨rfl, rfl⟩ := stays_put h
        exact ⟨hb, rfl⟩
    · intro r0 ts r ts' hb h
      rw [pWhitePower] at h
      dsimp only at h
      split at h
      · obtain ⟨x, ts1, h1, g27⟩ := pbind_inv h
        have hb' : Placed true _ := hb.2
        obtain ⟨p1, c1⟩ := ih.factor _ _ _ _ hb' h1
        obtain ⟨rfl, rfl⟩ := stays_put g27
        exact ⟨p1, by simp [content_cons, counted, operator, Tok.text, c1, spell]⟩
      · obtain ⟨rfl, rfl⟩ := stays_put h
        exact ⟨hb, rfl⟩
    · intro w args ts r ts' hb h
      rw [pCalls] at h
      dsimp only at h
      split at h
      · obtain ⟨x, ts1, h1, g28⟩ := pbind_inv h
        obtain ⟨p1, c1⟩ := ih.expr _ _ _ _ _ hb.2 h1
        obtain ⟨g, ts2, h2, g29⟩ := pbind_inv g28
        obtain ⟨p2, c2⟩ := ih.args _ _ _ _ p1 h2
        obtain ⟨p3, c3⟩ := ih.calls _ _ _ _ _ p2 g29
        refine ⟨p3, Eq.trans ?_ c3⟩
        simp only [spellEach, List.flatten_cons, List.flatten_nil, List.append_nil] at c2
        simp [content_cons, counted, operator, c1, c2, spell, spellEach, spellEach_append]
      · obtain ⟨rfl, rfl⟩ := stays_put h
        exact ⟨hb, rfl⟩
    · intro acc ts r ts' hb h
      rw [pArgs] at h
      dsimp only at h
      split at h
      · cases h
      · obtain ⟨x, ts1, h1, g30⟩ := pbind_inv h
        obtain ⟨p1, c1⟩ := ih.expr _ _ _ _ _ hb.2 h1
        obtain ⟨p2, c2⟩ := ih.args _ _ _ _ p1 g30
        refine ⟨p2, Eq.trans ?_ c2⟩
        simp [content_cons, counted, operator, c1, spellEach, spellEach_append]
      · obtain ⟨rfl, rfl⟩ := stays_put h
        exact ⟨hb.2, by rw [spell_group]; simp [content_cons, counted, operator]⟩
      · obtain ⟨rfl, rfl⟩ := stays_put h
        exact ⟨hb, by rw [spell_group]⟩

/-- What is parsed says what was written. -/
theorem parse_says {n : Nat} {ts : List Tok} {r : Node} (hp : Placed true ts) (h : parse n ts = some (.ok r)) :
    spell r = content ts := by
  unfold parse at h
  split at h
  · cases h; simp [content, spell]
  · generalize e : pExpr n false ts = x at h
    rcases x with _ | _ | ⟨r', _ | ⟨t, ts'⟩⟩
    · cases h
    · cases h
    · cases h
      have := ((allSay n).expr _ _ _ _ _ hp e).2
      simpa [content] using this.symm
    · cases h

end PyOGRe
