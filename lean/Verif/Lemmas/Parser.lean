import Verif.Lemmas.Lexer

/-!
# Lemmas about the parser: fuel, progress, termination
-/

namespace PyOGRe

variable {α β : Type}

@[simp] theorem Pr.pure_apply (a : α) (ts : List Tok) : (Pure.pure a : Pr α) ts = some (.ok (a, ts)) := rfl

theorem Pr.bind_apply (p : Pr α) (f : α → Pr β) (ts : List Tok) :
    (p >>= f) ts = match p ts with
      | none => none
      | some (.error e) => some (.error e)
      | some (.ok (a, ts')) => f a ts' := rfl

@[simp] theorem Pr.raise_apply (e : PyErr) (ts : List Tok) : (Pr.raise e : Pr α) ts = some (.error e) := rfl

/-- More fuel can only turn "not ended" into a result. -/
def Le (p q : Pr α) : Prop := ∀ ts r, p ts = some r → q ts = some r

theorem Le.refl (p : Pr α) : Le p p := fun _ _ h => h

theorem Le.running (q : Pr α) : Le Pr.running q := fun _ _ h => by cases h

theorem Le.bind {p q : Pr α} {f g : α → Pr β} (h : Le p q) (hf : ∀ a, Le (f a) (g a)) :
    Le (p >>= f) (q >>= g) := by
  intro ts r hr
  rw [Pr.bind_apply] at hr ⊢
  cases hp : p ts with
  | none => rw [hp] at hr; cases hr
  | some x =>
    rw [h ts x hp]
    rw [hp] at hr
    cases x with
    | error e => exact hr
    | ok y => exact hf y.1 y.2 r hr

theorem Le.ite {c : Prop} [Decidable c] {p q p' q' : Pr α} (h : Le p q) (h' : Le p' q') :
    Le (if c then p else p') (if c then q else q') := by
  split
  · exact h
  · exact h'

structure Mono (n : Nat) : Prop where
  expr : ∀ a, Le (pExpr n a) (pExpr (n + 1) a)
  exprLoop : ∀ a r, Le (pExprLoop n a r) (pExprLoop (n + 1) a r)
  term : Le (pTerm n) (pTerm (n + 1))
  termLoop : ∀ r, Le (pTermLoop n r) (pTermLoop (n + 1) r)
  list : ∀ acc, Le (pList n acc) (pList (n + 1) acc)
  assoc : ∀ k v, Le (pAssoc n k v) (pAssoc (n + 1) k v)
  factor : Le (pFactor n) (pFactor (n + 1))
  base : Le (pBase n) (pBase (n + 1))
  power : ∀ r, Le (pPower n r) (pPower (n + 1) r)
  whitePower : ∀ r, Le (pWhitePower n r) (pWhitePower (n + 1) r)
  calls : ∀ w args, Le (pCalls n w args) (pCalls (n + 1) w args)
  args : ∀ acc, Le (pArgs n acc) (pArgs (n + 1) acc)

theorem mono (n : Nat) : Mono n := by
  induction n with
  | zero =>
    constructor <;> intros <;> intro ts r h
    · rw [pExpr] at h; cases h
    · rw [pExprLoop] at h; cases h
    · rw [pTerm] at h; cases h
    · rw [pTermLoop] at h; cases h
    · rw [pList] at h; cases h
    · rw [pAssoc] at h; cases h
    · rw [pFactor] at h; cases h
    · rw [pBase] at h; cases h
    · rw [pPower] at h; cases h
    · rw [pWhitePower] at h; cases h
    · rw [pCalls] at h; cases h
    · rw [pArgs] at h; cases h
  | succ n ih =>
    constructor
    · intro a
      rw [pExpr, pExpr]
      exact ih.term.bind fun r => ih.exprLoop a r
    · intro a r
      rw [pExprLoop, pExprLoop]
      intro ts x
      dsimp only
      split
      · exact (ih.term.bind fun _ => ih.exprLoop _ _) _ _
      · exact (ih.term.bind fun _ => ih.exprLoop _ _) _ _
      · exact ih.exprLoop _ _ _ _
      · exact ((ih.list _).bind fun _ => ih.exprLoop _ _) _ _
      · exact ((ih.assoc _ _).bind fun _ => ih.exprLoop _ _) _ _
      · split
        · exact id
        · exact ((ih.expr _).bind fun _ => ih.exprLoop _ _) _ _
      · exact id
    · rw [pTerm, pTerm]
      exact (Le.refl _).bind fun _ => ih.factor.bind fun _ => ih.termLoop _
    · intro r
      rw [pTermLoop, pTermLoop]
      intro ts x
      dsimp only
      split
      · exact (ih.factor.bind fun _ => ih.termLoop _) _ _
      · exact (ih.factor.bind fun _ => ih.termLoop _) _ _
      · split
        · exact (ih.factor.bind fun _ => ih.termLoop _) _ _
        · exact ih.termLoop _ _ _
      · exact id
    · intro acc
      rw [pList, pList]
      exact (Le.refl _).bind fun t => Le.ite (Le.refl _) <|
        (Le.refl _).bind fun _ => (ih.expr _).bind fun _ => (Le.refl _).bind fun _ => ih.list _
    · intro k v
      rw [pAssoc, pAssoc]
      exact (Le.refl _).bind fun t => Le.ite (Le.refl _) <|
        (Le.refl _).bind fun _ => (ih.expr _).bind fun _ => (Le.refl _).bind fun _ =>
        (Le.refl _).bind fun _ => Le.ite
          ((Le.refl _).bind fun _ => (Le.refl _).bind fun _ => (ih.expr _).bind fun _ =>
            Le.ite (Le.refl _) ((Le.refl _).bind fun _ => ih.assoc _ _)) (Le.refl _)
    · rw [pFactor, pFactor]
      exact (Le.refl _).bind fun _ => ih.base.bind fun _ => (ih.power _).bind fun _ => ih.whitePower _
    · rw [pBase, pBase]
      intro ts x
      dsimp only
      split
      · exact id
      · exact id
      · exact ((ih.expr _).bind fun _ => Le.refl _) _ _
      · exact ((ih.list _).bind fun _ => Le.refl _) _ _
      · exact ((ih.assoc _ _).bind fun _ => Le.refl _) _ _
      · exact id
      · split
        · exact ih.calls _ _ _ _
        · exact id
      · exact (ih.factor.bind fun _ => Le.refl _) _ _
      · exact (ih.factor.bind fun _ => Le.refl _) _ _
      · exact id
    · intro r
      rw [pPower, pPower]
      intro ts x
      dsimp only
      split
      · exact (ih.factor.bind fun _ => Le.refl _) _ _
      · exact id
    · intro r
      rw [pWhitePower, pWhitePower]
      intro ts x
      dsimp only
      split
      · exact (ih.factor.bind fun _ => Le.refl _) _ _
      · exact id
    · intro w args
      rw [pCalls, pCalls]
      intro ts x
      dsimp only
      split
      · exact ((ih.expr _).bind fun _ => (ih.args _).bind fun _ => ih.calls _ _) _ _
      · exact id
    · intro acc
      rw [pArgs, pArgs]
      intro ts x
      dsimp only
      split
      · exact id
      · exact ((ih.expr _).bind fun _ => ih.args _) _ _
      · exact id
      · exact id

theorem le_of_le {p : Nat → Pr α} (h : ∀ n, Le (p n) (p (n + 1))) {n m : Nat} (hnm : n ≤ m) :
    Le (p n) (p m) := by
  induction hnm with
  | refl => exact Le.refl _
  | step _ ih => exact fun ts r hr => h _ ts r (ih ts r hr)

theorem pExpr_mono {n m : Nat} (h : n ≤ m) (a : Bool) : Le (pExpr n a) (pExpr m a) :=
  le_of_le (p := fun n => pExpr n a) (fun n => (mono n).expr a) h

/-- The tokens left are the end of the tokens given. -/
def Ends (p : Pr α) : Prop := ∀ ts v ts', p ts = some (.ok (v, ts')) → ts' <:+ ts

theorem Ends.bind {p : Pr α} {f : α → Pr β} (hp : Ends p) (hf : ∀ a, Ends (f a)) : Ends (p >>= f) := by
  intro ts v ts' h
  rw [Pr.bind_apply] at h
  cases hx : p ts with
  | none => rw [hx] at h; cases h
  | some x =>
    rw [hx] at h
    cases x with
    | error e => cases h
    | ok y => exact (hf y.1 y.2 v ts' h).trans (hp ts y.1 y.2 hx)

theorem Ends.ite {c : Prop} [Decidable c] {p q : Pr α} (h : Ends p) (h' : Ends q) :
    Ends (if c then p else q) := by
  split
  · exact h
  · exact h'

theorem Ends.pure (a : α) : Ends (Pure.pure a : Pr α) := by
  intro ts v ts' h; cases h; exact List.suffix_refl _

theorem Ends.raise (e : PyErr) : Ends (Pr.raise e : Pr α) := by
  intro ts v ts' h; cases h

theorem Ends.peek : Ends peek := by
  intro ts v ts' h
  cases ts with
  | nil => cases h
  | cons t ts => cases h; exact List.suffix_refl _

theorem Ends.advance : Ends advance := by
  intro ts v ts' h; cases h; exact List.tail_suffix _

theorem Ends.skipWhite : Ends skipWhite := by
  intro ts
  induction ts with
  | nil => intro v ts' h; cases h
  | cons t ts ih =>
    intro v ts' h
    cases t with
    | white => exact (ih v ts' h).trans (List.suffix_cons _ _)
    | _ => cases h; exact List.suffix_refl _

theorem Ends.skipComma : Ends skipComma := by
  intro ts v ts' h
  cases ts with
  | nil => cases h
  | cons t ts =>
    cases t with
    | comma => cases h; exact List.suffix_cons _ _
    | _ => cases h; exact List.suffix_refl _

theorem Ends.expect (t : Tok) : Ends (expect t) :=
  Ends.peek.bind fun _ => Ends.ite (Ends.raise _) Ends.advance

theorem Ends.pGreek : Ends pGreek := by
  intro ts v ts' h
  unfold PyOGRe.pGreek at h
  split at h
  · cases h
  · split at h
    · cases h
      exact (List.suffix_cons _ _).trans ((List.suffix_cons _ _).trans (List.suffix_cons _ _))
    · cases h; exact List.suffix_refl _
    · cases h
  · cases h; exact List.suffix_refl _

structure AllEnd (n : Nat) : Prop where
  expr : ∀ a, Ends (pExpr n a)
  exprLoop : ∀ a r, Ends (pExprLoop n a r)
  term : Ends (pTerm n)
  termLoop : ∀ r, Ends (pTermLoop n r)
  list : ∀ acc, Ends (pList n acc)
  assoc : ∀ k v, Ends (pAssoc n k v)
  factor : Ends (pFactor n)
  base : Ends (pBase n)
  power : ∀ r, Ends (pPower n r)
  whitePower : ∀ r, Ends (pWhitePower n r)
  calls : ∀ w args, Ends (pCalls n w args)
  args : ∀ acc, Ends (pArgs n acc)

theorem ends_tail {p : Pr α} (h : Ends p) {t : Tok} {ts ts' : List Tok} {v : α}
    (hp : p ts = some (.ok (v, ts'))) : ts' <:+ t :: ts := (h ts v ts' hp).trans (List.suffix_cons _ _)

theorem allEnd (n : Nat) : AllEnd n := by
  induction n with
  | zero =>
    constructor <;> intros <;> intro ts v ts' h
    · rw [pExpr] at h; cases h
    · rw [pExprLoop] at h; cases h
    · rw [pTerm] at h; cases h
    · rw [pTermLoop] at h; cases h
    · rw [pList] at h; cases h
    · rw [pAssoc] at h; cases h
    · rw [pFactor] at h; cases h
    · rw [pBase] at h; cases h
    · rw [pPower] at h; cases h
    · rw [pWhitePower] at h; cases h
    · rw [pCalls] at h; cases h
    · rw [pArgs] at h; cases h
  | succ n ih =>
    constructor
    · intro a
      rw [pExpr]
      exact ih.term.bind fun r => ih.exprLoop a r
    · intro a r
      rw [pExprLoop]
      intro ts v ts' h
      dsimp only at h
      split at h
      · exact ends_tail (ih.term.bind fun _ => ih.exprLoop _ _) h
      · exact ends_tail (ih.term.bind fun _ => ih.exprLoop _ _) h
      · exact ends_tail (ih.exprLoop _ _) h
      · exact ends_tail ((ih.list _).bind fun _ => ih.exprLoop _ _) h
      · exact ends_tail ((ih.assoc _ _).bind fun _ => ih.exprLoop _ _) h
      · split at h
        · cases h; exact List.suffix_refl _
        · exact ends_tail ((ih.expr _).bind fun _ => ih.exprLoop _ _) h
      · cases h; exact List.suffix_refl _
    · rw [pTerm]
      exact Ends.skipWhite.bind fun _ => ih.factor.bind fun _ => ih.termLoop _
    · intro r
      rw [pTermLoop]
      intro ts v ts' h
      dsimp only at h
      split at h
      · exact ends_tail (ih.factor.bind fun _ => ih.termLoop _) h
      · exact ends_tail (ih.factor.bind fun _ => ih.termLoop _) h
      · split at h
        · exact ends_tail (ih.factor.bind fun _ => ih.termLoop _) h
        · exact ends_tail (ih.termLoop _) h
      · cases h; exact List.suffix_refl _
    · intro acc
      rw [pList]
      exact Ends.peek.bind fun t => Ends.ite (Ends.pure _) <|
        Ends.skipWhite.bind fun _ => (ih.expr _).bind fun _ => Ends.skipComma.bind fun _ => ih.list _
    · intro k v
      rw [pAssoc]
      exact Ends.peek.bind fun t => Ends.ite (Ends.pure _) <|
        Ends.skipWhite.bind fun _ => (ih.expr _).bind fun _ => Ends.skipWhite.bind fun _ =>
        Ends.peek.bind fun _ => Ends.ite
          (Ends.advance.bind fun _ => Ends.skipWhite.bind fun _ => (ih.expr _).bind fun _ =>
            Ends.ite (Ends.raise _) (Ends.skipComma.bind fun _ => ih.assoc _ _)) (Ends.raise _)
    · rw [pFactor]
      exact Ends.skipWhite.bind fun _ => ih.base.bind fun _ => (ih.power _).bind fun _ => ih.whitePower _
    · rw [pBase]
      intro ts v ts' h
      dsimp only at h
      split at h
      · cases h
      · cases h; exact List.suffix_cons _ _
      · exact ends_tail ((ih.expr _).bind fun _ => (Ends.expect _).bind fun _ => Ends.pure _) h
      · exact ends_tail ((ih.list _).bind fun _ => (Ends.expect _).bind fun _ => Ends.pure _) h
      · exact ends_tail ((ih.assoc _ _).bind fun _ => (Ends.expect _).bind fun _ => Ends.pure _) h
      · exact ends_tail Ends.pGreek h
      · split at h
        · exact ends_tail (ih.calls _ _) h
        · cases h; exact List.suffix_cons _ _
      · exact ends_tail (ih.factor.bind fun _ => Ends.pure _) h
      · exact ends_tail (ih.factor.bind fun _ => Ends.pure _) h
      · cases h; exact List.suffix_refl _
    · intro r
      rw [pPower]
      intro ts v ts' h
      dsimp only at h
      split at h
      · exact ends_tail (ih.factor.bind fun _ => Ends.pure _) h
      · cases h; exact List.suffix_refl _
    · intro r
      rw [pWhitePower]
      intro ts v ts' h
      dsimp only at h
      split at h
      · exact (ends_tail (ih.factor.bind fun _ => Ends.pure _) h).trans (List.suffix_cons _ _)
      · cases h; exact List.suffix_refl _
    · intro w args
      rw [pCalls]
      intro ts v ts' h
      dsimp only at h
      split at h
      · exact ends_tail ((ih.expr _).bind fun _ => (ih.args _).bind fun _ => ih.calls _ _) h
      · cases h; exact List.suffix_refl _
    · intro acc
      rw [pArgs]
      intro ts v ts' h
      dsimp only at h
      split at h
      · cases h
      · exact ends_tail ((ih.expr _).bind fun _ => ih.args _) h
      · cases h; exact List.suffix_cons _ _
      · cases h; exact List.suffix_refl _

/-- Two runs of the same parser that both ended ended alike. -/
theorem pExpr_agree {n m : Nat} {a : Bool} {ts : List Tok} {r r' : Py (Node × List Tok)}
    (h : pExpr n a ts = some r) (h' : pExpr m a ts = some r') : r = r' := by
  rcases Nat.le_total n m with hl | hl
  · have := pExpr_mono hl a ts r h
    rw [h'] at this; injection this with this; exact this.symm
  · have := pExpr_mono hl a ts r' h'
    rw [h] at this; injection this

/-- Reading an element of a list without consuming anything is repeated for ever. -/
theorem pList_stuck {k : Nat} {x : Node} {t : Tok} {ts : List Tok} (ht : t ≠ .rcurl) (hw : t ≠ .white)
    (hc : t ≠ .comma) (h : pExpr k false (t :: ts) = some (.ok (x, t :: ts))) :
    ∀ m acc, pList m acc (t :: ts) = none := by
  intro m
  induction m with
  | zero => intro acc; rw [pList]; rfl
  | succ m ih =>
    intro acc
    have hs : skipWhite (t :: ts) = some (.ok ((), t :: ts)) := by
      cases t <;> first | rfl | exact absurd rfl hw
    have hk : skipComma (t :: ts) = some (.ok ((), t :: ts)) := by
      cases t <;> first | rfl | exact absurd rfl hc
    rw [pList, Pr.bind_apply]
    show (if t = .rcurl then _ else _ : Pr Node) (t :: ts) = none
    rw [if_neg ht, Pr.bind_apply, hs]
    show (pExpr m false >>= _ : Pr Node) (t :: ts) = none
    rw [Pr.bind_apply]
    cases hm : pExpr m false (t :: ts) with
    | none => rfl
    | some r =>
      have := pExpr_agree hm h
      subst this
      show (skipComma >>= _ : Pr Node) (t :: ts) = none
      rw [Pr.bind_apply, hk]
      exact ih _

theorem bind_congr {p q : Pr α} {f g : α → Pr β} {ts : List Tok} (h : p ts = q ts)
    (hf : ∀ v ts', p ts = some (.ok (v, ts')) → f v ts' = g v ts') :
    (p >>= f) ts = (q >>= g) ts := by
  rw [Pr.bind_apply, Pr.bind_apply, ← h]
  cases hp : p ts with
  | none => rfl
  | some x =>
    cases x with
    | error e => rfl
    | ok y => exact hf y.1 y.2 hp

/-- The parser has settled: more fuel does not change the result. -/
structure Settled (n : Nat) : Prop where
  expr : ∀ a ts, 8 * ts.length + 4 ≤ n → pExpr n a ts = pExpr (n + 1) a ts
  exprLoop : ∀ a r ts, 8 * ts.length + 3 ≤ n → pExprLoop n a r ts = pExprLoop (n + 1) a r ts
  term : ∀ ts, 8 * ts.length + 3 ≤ n → pTerm n ts = pTerm (n + 1) ts
  termLoop : ∀ r ts, 8 * ts.length + 2 ≤ n → pTermLoop n r ts = pTermLoop (n + 1) r ts
  list : ∀ acc ts, 8 * ts.length + 5 ≤ n → pList n acc ts = pList (n + 1) acc ts
  assoc : ∀ k v ts, 8 * ts.length + 5 ≤ n → pAssoc n k v ts = pAssoc (n + 1) k v ts
  factor : ∀ ts, 8 * ts.length + 2 ≤ n → pFactor n ts = pFactor (n + 1) ts
  base : ∀ ts, 8 * ts.length + 1 ≤ n → pBase n ts = pBase (n + 1) ts
  power : ∀ r ts, 8 * ts.length + 1 ≤ n → pPower n r ts = pPower (n + 1) r ts
  whitePower : ∀ r ts, 8 * ts.length + 1 ≤ n → pWhitePower n r ts = pWhitePower (n + 1) r ts
  calls : ∀ w args ts, 8 * ts.length + 1 ≤ n → pCalls n w args ts = pCalls (n + 1) w args ts
  args : ∀ acc ts, 8 * ts.length + 1 ≤ n → pArgs n acc ts = pArgs (n + 1) acc ts

theorem peek_eq {ts ts' : List Tok} {t : Tok} (h : peek ts = some (.ok (t, ts'))) :
    ts' = ts ∧ ∃ l, ts = t :: l := by
  cases ts with
  | nil => cases h
  | cons a l => cases h; exact ⟨rfl, l, rfl⟩

theorem skipWhite_eq {t : Tok} {ts ts' : List Tok} (h : skipWhite (t :: ts) = some (.ok ((), ts'))) :
    (t ≠ .white ∧ ts' = t :: ts) ∨ ts'.length ≤ ts.length := by
  cases t with
  | white => exact .inr (Ends.skipWhite ts _ _ h).length_le
  | _ => cases h; exact .inl ⟨by simp, rfl⟩

theorem skipComma_eq {ts ts' : List Tok} (h : skipComma ts = some (.ok ((), ts'))) :
    (ts' = ts ∧ ∃ t l, ts = t :: l ∧ t ≠ .comma) ∨ ts'.length < ts.length := by
  cases ts with
  | nil => cases h
  | cons t ts =>
    cases t with
    | comma => cases h; exact .inr (by simp)
    | _ => cases h; exact .inl ⟨rfl, _, _, rfl, by simp⟩

theorem settled (n : Nat) : Settled n := by
  induction n with
  | zero => constructor <;> intros <;> omega
  | succ n ih =>
    have E := allEnd n
    constructor
    · intro a ts h
      rw [pExpr, pExpr]
      refine bind_congr (ih.term ts (by omega)) fun r ts1 h1 => ih.exprLoop a r ts1 ?_
      have := (E.term ts r ts1 h1).length_le; omega
    · intro a r ts h
      rw [pExprLoop, pExprLoop]
      dsimp only
      split
      · rename_i ts'
        simp only [List.length_cons] at h
        refine bind_congr (ih.term ts' (by omega)) fun x ts1 h1 => ih.exprLoop _ _ ts1 ?_
        have := (E.term _ _ ts1 h1).length_le; omega
      · rename_i ts'
        simp only [List.length_cons] at h
        refine bind_congr (ih.term ts' (by omega)) fun x ts1 h1 => ih.exprLoop _ _ ts1 ?_
        have := (E.term _ _ ts1 h1).length_le; omega
      · simp only [List.length_cons] at h
        exact ih.exprLoop _ _ _ (by omega)
      · rename_i ts'
        simp only [List.length_cons] at h
        refine bind_congr (ih.list _ ts' (by omega)) fun x ts1 h1 => ih.exprLoop _ _ ts1 ?_
        have := (E.list _ _ _ ts1 h1).length_le; omega
      · rename_i ts'
        simp only [List.length_cons] at h
        refine bind_congr (ih.assoc _ _ ts' (by omega)) fun x ts1 h1 => ih.exprLoop _ _ ts1 ?_
        have := (E.assoc _ _ _ _ ts1 h1).length_le; omega
      · rename_i ts'
        simp only [List.length_cons] at h
        split
        · rfl
        · refine bind_congr (ih.expr _ ts' (by omega)) fun x ts1 h1 => ih.exprLoop _ _ ts1 ?_
          have := (E.expr _ _ _ ts1 h1).length_le; omega
      · rfl
    · intro ts h
      rw [pTerm, pTerm]
      refine bind_congr rfl fun u ts0 h0 => ?_
      have l0 := (Ends.skipWhite _ _ _ h0).length_le
      refine bind_congr (ih.factor _ (by omega)) fun x ts1 h1 => ih.termLoop _ ts1 ?_
      have := (E.factor _ _ _ h1).length_le; omega
    · intro r ts h
      rw [pTermLoop, pTermLoop]
      dsimp only
      split
      · rename_i ts'
        simp only [List.length_cons] at h
        refine bind_congr (ih.factor ts' (by omega)) fun x ts1 h1 => ih.termLoop _ ts1 ?_
        have := (E.factor _ _ ts1 h1).length_le; omega
      · rename_i ts'
        simp only [List.length_cons] at h
        refine bind_congr (ih.factor ts' (by omega)) fun x ts1 h1 => ih.termLoop _ ts1 ?_
        have := (E.factor _ _ ts1 h1).length_le; omega
      · rename_i ts'
        simp only [List.length_cons] at h
        split
        · refine bind_congr (ih.factor ts' (by omega)) fun x ts1 h1 => ih.termLoop _ ts1 ?_
          have := (E.factor _ _ ts1 h1).length_le; omega
        · exact ih.termLoop _ _ (by omega)
      · rfl
    · intro acc ts h
      rw [pList, pList]
      refine bind_congr rfl fun t ts0 h0 => ?_
      obtain ⟨rfl, l, rfl⟩ := peek_eq h0
      by_cases ht : t = .rcurl
      · rw [if_pos ht, if_pos ht]
      rw [if_neg ht, if_neg ht]
      refine bind_congr rfl fun u ts1 h1 => ?_
      have l1 := (Ends.skipWhite _ _ _ h1).length_le
      simp only [List.length_cons] at h l1
      refine bind_congr (ih.expr _ _ (by omega)) fun x ts2 h2 => ?_
      have s2 := E.expr _ _ _ _ h2
      have l2 := s2.length_le
      refine bind_congr rfl fun u ts3 h3 => ?_
      rcases skipComma_eq h3 with ⟨rfl, t', l', rfl, hc⟩ | h3'
      · rcases skipWhite_eq h1 with ⟨hw, rfl⟩ | h1'
        · by_cases hl : (t' :: l').length = (t :: l).length
          · have e := s2.eq_of_length hl
            injection e with e1 e2
            subst e1 e2
            rw [pList_stuck ht hw hc h2, pList_stuck ht hw hc h2]
          · refine ih.list _ _ ?_
            simp only [List.length_cons] at hl l2 ⊢
            omega
        · refine ih.list _ _ ?_
          simp only [List.length_cons] at l2 ⊢
          omega
      · exact ih.list _ _ (by omega)
    · intro k v ts h
      rw [pAssoc, pAssoc]
      refine bind_congr rfl fun t ts0 h0 => ?_
      obtain ⟨rfl, l, rfl⟩ := peek_eq h0
      by_cases ht : t = .rassoc
      · rw [if_pos ht, if_pos ht]
      rw [if_neg ht, if_neg ht]
      refine bind_congr rfl fun u ts1 h1 => ?_
      have l1 := (Ends.skipWhite _ _ _ h1).length_le
      refine bind_congr (ih.expr _ _ (by omega)) fun x ts2 h2 => ?_
      have l2 := (E.expr _ _ _ _ h2).length_le
      refine bind_congr rfl fun u ts3 h3 => ?_
      have l3 := (Ends.skipWhite _ _ _ h3).length_le
      refine bind_congr rfl fun t' ts4 h4 => ?_
      obtain ⟨rfl, l', rfl⟩ := peek_eq h4
      by_cases ha : t' = .arrow
      · rw [if_pos ha, if_pos ha]
        refine bind_congr rfl fun u ts5 h5 => ?_
        cases h5
        refine bind_congr rfl fun u ts6 h6 => ?_
        have l6 := (Ends.skipWhite _ _ _ h6).length_le
        simp only [List.length_cons, List.tail_cons] at *
        refine bind_congr (ih.expr _ _ (by omega)) fun y ts7 h7 => ?_
        have l7 := (E.expr _ _ _ _ h7).length_le
        by_cases hn : (x.isNone || y.isNone) = true
        · rw [if_pos hn, if_pos hn]
        · rw [if_neg hn, if_neg hn]
          refine bind_congr rfl fun u ts8 h8 => ih.assoc _ _ _ ?_
          have l8 := (Ends.skipComma _ _ _ h8).length_le
          omega
      · rw [if_neg ha, if_neg ha]
    · intro ts h
      rw [pFactor, pFactor]
      refine bind_congr rfl fun u ts0 h0 => ?_
      have l0 := (Ends.skipWhite _ _ _ h0).length_le
      refine bind_congr (ih.base _ (by omega)) fun x ts1 h1 => ?_
      have l1 := (E.base _ _ _ h1).length_le
      refine bind_congr (ih.power _ _ (by omega)) fun x ts2 h2 => ih.whitePower _ _ ?_
      have l2 := (E.power _ _ _ _ h2).length_le
      omega
    · intro ts h
      rw [pBase, pBase]
      dsimp only
      split
      · rfl
      · rfl
      · simp only [List.length_cons] at h
        exact bind_congr (ih.expr _ _ (by omega)) fun _ _ _ => rfl
      · simp only [List.length_cons] at h
        exact bind_congr (ih.list _ _ (by omega)) fun _ _ _ => rfl
      · simp only [List.length_cons] at h
        exact bind_congr (ih.assoc _ _ _ (by omega)) fun _ _ _ => rfl
      · rfl
      · simp only [List.length_cons] at h
        split
        · simp only [List.length_cons] at h
          exact ih.calls _ _ _ (by simp only [List.length_cons]; omega)
        · rfl
      · simp only [List.length_cons] at h
        exact bind_congr (ih.factor _ (by omega)) fun _ _ _ => rfl
      · simp only [List.length_cons] at h
        exact bind_congr (ih.factor _ (by omega)) fun _ _ _ => rfl
      · rfl
    · intro r ts h
      rw [pPower, pPower]
      dsimp only
      split
      · simp only [List.length_cons] at h
        exact bind_congr (ih.factor _ (by omega)) fun _ _ _ => rfl
      · rfl
    · intro r ts h
      rw [pWhitePower, pWhitePower]
      dsimp only
      split
      · simp only [List.length_cons] at h
        exact bind_congr (ih.factor _ (by omega)) fun _ _ _ => rfl
      · rfl
    · intro w args ts h
      rw [pCalls, pCalls]
      dsimp only
      split
      · simp only [List.length_cons] at h
        refine bind_congr (ih.expr _ _ (by omega)) fun x ts1 h1 => ?_
        have l1 := (E.expr _ _ _ _ h1).length_le
        refine bind_congr (ih.args _ _ (by omega)) fun y ts2 h2 => ih.calls _ _ _ ?_
        have l2 := (E.args _ _ _ _ h2).length_le
        omega
      · rfl
    · intro acc ts h
      rw [pArgs, pArgs]
      dsimp only
      split
      · rfl
      · simp only [List.length_cons] at h
        refine bind_congr (ih.expr _ _ (by omega)) fun x ts1 h1 => ih.args _ _ ?_
        have l1 := (E.expr _ _ _ _ h1).length_le
        omega
      · rfl
      · rfl

theorem pExpr_settled {a : Bool} {ts : List Tok} {n : Nat} (h : 8 * ts.length + 4 ≤ n) :
    pExpr n a ts = pExpr (8 * ts.length + 4) a ts := by
  induction h with
  | refl => rfl
  | step hk ih => rw [← ih, ← (settled _).expr a ts hk]

/-- The result of a run long enough is the result of every longer run. -/
theorem parse_settled {ts : List Tok} {n : Nat} (h : 8 * ts.length + 4 ≤ n) :
    parse n ts = parse (8 * ts.length + 4) ts := by
  unfold parse
  rw [pExpr_settled h]

theorem parse_mono {n m : Nat} (h : n ≤ m) {ts : List Tok} {r : Py Node} (hr : parse n ts = some r) :
    parse m ts = some r := by
  unfold parse at hr ⊢
  split at hr
  · exact hr
  · cases hp : pExpr n false ts with
    | none => rw [hp] at hr; cases hr
    | some x =>
      rw [pExpr_mono h false ts x hp]
      rw [hp] at hr
      exact hr

theorem not_cons_suffix {t : Tok} {l : List Tok} (h : t :: l <:+ l) : False := by
  have := h.length_le
  simp only [List.length_cons] at this
  omega

/-- Tokens at which an element of a list ends, or which cannot start one. -/
def Tok.stops : Tok → Bool
  | .rparen | .lbrace | .rbrace | .rassoc | .rcurl | .comma => true
  | _ => false

/-- Reading an expression makes progress except before a closing bracket or a comma. -/
theorem pExpr_progress {n : Nat} {x : Node} {t : Tok} {l : List Tok}
    (h : pExpr n false (t :: l) = some (.ok (x, t :: l))) : t.stops = true := by
  cases n with
  | zero => rw [pExpr] at h; cases h
  | succ n =>
  rw [pExpr, Pr.bind_apply] at h
  cases h1 : pTerm n (t :: l) with
  | none => rw [h1] at h; cases h
  | some y =>
  rw [h1] at h
  cases y with
  | error e => cases h
  | ok y =>
  obtain ⟨r, ts1⟩ := y
  have h : pExprLoop n false r ts1 = some (.ok (x, t :: l)) := h
  have e1 : ts1 = t :: l :=
    ((allEnd n).term _ _ _ h1).eq_of_length_le ((allEnd n).exprLoop _ _ _ _ _ h).length_le
  subst e1
  cases n with
  | zero => rw [pTerm] at h1; cases h1
  | succ n =>
  rw [pTerm, Pr.bind_apply] at h1
  cases h2 : skipWhite (t :: l) with
  | none => rw [h2] at h1; cases h1
  | some y =>
  rw [h2] at h1
  cases y with
  | error e => cases h1
  | ok y =>
  obtain ⟨⟨⟩, ts2⟩ := y
  have h1 : (pFactor n >>= fun r => pTermLoop n r) ts2 = some (.ok (r, t :: l)) := h1
  have e2 : ts2 = t :: l := (Ends.skipWhite _ _ _ h2).eq_of_length_le
    (((allEnd n).factor.bind fun r => (allEnd n).termLoop r) _ _ _ h1).length_le
  subst e2
  rw [Pr.bind_apply] at h1
  cases h3 : pFactor n (t :: l) with
  | none => rw [h3] at h1; cases h1
  | some y =>
  rw [h3] at h1
  cases y with
  | error e => cases h1
  | ok y =>
  obtain ⟨r3, ts3⟩ := y
  have h1 : pTermLoop n r3 ts3 = some (.ok (r, t :: l)) := h1
  have e3 : ts3 = t :: l :=
    ((allEnd n).factor _ _ _ h3).eq_of_length_le ((allEnd n).termLoop _ _ _ _ h1).length_le
  subst e3
  cases n with
  | zero => rw [pFactor] at h3; cases h3
  | succ n =>
  rw [pFactor, Pr.bind_apply, h2] at h3
  have h3 : (pBase n >>= fun r => pPower n r >>= fun r => pWhitePower n r) (t :: l) =
      some (.ok (r3, t :: l)) := h3
  rw [Pr.bind_apply] at h3
  cases h4 : pBase n (t :: l) with
  | none => rw [h4] at h3; cases h3
  | some y =>
  rw [h4] at h3
  cases y with
  | error e => cases h3
  | ok y =>
  obtain ⟨r4, ts4⟩ := y
  have h3 : (pPower n r4 >>= fun r => pWhitePower n r) ts4 = some (.ok (r3, t :: l)) := h3
  have e4 : ts4 = t :: l := ((allEnd n).base _ _ _ h4).eq_of_length_le
    ((((allEnd n).power r4).bind fun r => (allEnd n).whitePower r) _ _ _ h3).length_le
  subst e4
  cases n with
  | zero => rw [pBase] at h4; cases h4
  | succ n =>
  have E := allEnd n
  rw [pBase] at h4
  have key : ∀ {p : Pr Node} {v : Node}, Ends p → p l = some (.ok (v, t :: l)) → False :=
    fun hp h => not_cons_suffix (hp _ _ _ h)
  cases t with
  | rparen => rfl
  | lbrace => rfl
  | rbrace => rfl
  | rassoc => rfl
  | rcurl => rfl
  | comma => rfl
  | str s =>
    simp only [Option.some.injEq, Except.ok.injEq, Prod.mk.injEq] at h4
    exact absurd (congrArg List.length h4.2) (by simp)
  | lparen => exact (key ((E.expr _).bind fun _ => (Ends.expect _).bind fun _ => Ends.pure _) h4).elim
  | lcurl => exact (key ((E.list _).bind fun _ => (Ends.expect _).bind fun _ => Ends.pure _) h4).elim
  | lassoc => exact (key ((E.assoc _ _).bind fun _ => (Ends.expect _).bind fun _ => Ends.pure _) h4).elim
  | command => exact (key Ends.pGreek h4).elim
  | expr w =>
    dsimp only at h4
    split at h4
    · exact (key (E.calls _ _) h4).elim
    · simp only [Option.some.injEq, Except.ok.injEq, Prod.mk.injEq] at h4
      exact absurd (congrArg List.length h4.2) (by simp)
  | plus => exact (key (E.factor.bind fun _ => Ends.pure _) h4).elim
  | minus => exact (key (E.factor.bind fun _ => Ends.pure _) h4).elim
  | multiply =>
    rw [pTermLoop] at h1
    exact (key ((allEnd _).factor.bind fun _ => (allEnd _).termLoop _) h1).elim
  | divide =>
    rw [pTermLoop] at h1
    exact (key ((allEnd _).factor.bind fun _ => (allEnd _).termLoop _) h1).elim
  | white => exact (not_cons_suffix (Ends.skipWhite _ _ _ (show skipWhite l = _ from h2))).elim
  | arrow =>
    rw [pExprLoop] at h
    exact (key (((allEnd _).expr _).bind fun _ => (allEnd _).exprLoop _ _) h).elim
  | power =>
    rw [Pr.bind_apply, pPower] at h3
    cases h5 : (do let e ← pFactor n; return .pow r4 e : Pr Node) l with
    | none => simp only [h5] at h3; cases h3
    | some y =>
      simp only [h5] at h3
      cases y with
      | error e => cases h3
      | ok y =>
        have h3 : pWhitePower (n + 1) y.1 y.2 = some (.ok (r3, .power :: l)) := h3
        have s1 := (allEnd _).whitePower _ _ _ _ h3
        have s2 := (E.factor.bind fun _ => Ends.pure _) _ _ _ h5
        exact (not_cons_suffix (s1.trans s2)).elim

end PyOGRe
