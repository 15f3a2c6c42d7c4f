import Verif.Lemmas.Parser
import Verif.Spec.Grammar

/-!
# The parser reads the grammar
-/

namespace PyOGRe
open Spec

/-- The parser returns the tree and leaves `rest`, with all fuel from some amount on. -/
def Parses (p : Nat → Pr Node) (ts : List Tok) (v : Node) (rest : List Tok) : Prop :=
  ∃ N, ∀ n, N ≤ n → p n ts = some (.ok (v, rest))

theorem Parses.succ {p : Nat → Pr Node} {ts rest : List Tok} {v : Node}
    (h : Parses (fun n => p (n + 1)) ts v rest) : Parses p ts v rest := by
  obtain ⟨N, h⟩ := h
  refine ⟨N + 1, fun n hn => ?_⟩
  obtain ⟨m, rfl⟩ : ∃ m, n = m + 1 := ⟨n - 1, by omega⟩
  exact h m (by omega)

theorem Parses.bind {p : Nat → Pr Node} {f : Node → Nat → Pr Node} {ts ts1 rest : List Tok} {v r : Node}
    (hp : Parses p ts v ts1) (hf : Parses (f v) ts1 r rest) :
    Parses (fun n => p n >>= fun v => f v n) ts r rest := by
  obtain ⟨N, hp⟩ := hp
  obtain ⟨M, hf⟩ := hf
  refine ⟨N + M, fun n hn => ?_⟩
  show (p n >>= fun v => f v n) ts = _
  rw [Pr.bind_apply, hp n (by omega)]
  exact hf n (by omega)

theorem Parses.pure {ts : List Tok} {v : Node} : Parses (fun _ => (Pure.pure v : Pr Node)) ts v ts :=
  ⟨0, fun _ _ => rfl⟩

/-- The first token of a text. -/
def Starts (ts : List Tok) : Prop := ∃ t l, ts = t :: l ∧ t ≠ .white ∧ t ≠ .rcurl ∧ t ≠ .rassoc

theorem Starts.append {ts : List Tok} (h : Starts ts) (rest : List Tok) : Starts (ts ++ rest) := by
  obtain ⟨t, l, rfl, h⟩ := h
  exact ⟨t, l ++ rest, rfl, h⟩

theorem reads_starts {c : Cat} {ts : List Tok} {o : Out} (h : Reads c ts o) : Starts ts := by
  induction h with
  | word | lit | greek | emptyList | emptyAssoc => exact ⟨_, _, rfl, by simp⟩
  | paren | list | assoc | call | neg | pos | group => exact ⟨_, _, rfl, by simp⟩
  | ofBase _ ih | ofFactor _ ih | ofTerm _ ih | ofSum _ ih | item _ ih => exact ih
  | pow _ _ _ _ ih _ | mul _ _ _ _ ih _ | div _ _ _ _ ih _ | add _ _ _ _ ih _ | sub _ _ _ _ ih _
  | rule _ _ _ _ ih _ | items _ _ _ _ ih _ | pair _ _ _ _ ih _ => exact (ih.append _).append _
  | juxt _ _ _ ih _ => exact ih.append _
  | pairs _ _ _ _ _ _ _ ih _ _ => exact (ih.append _).append _
  | groups _ _ _ _ ih _ => exact ih.append _

/-- No text reads as `None`. -/
theorem reads_some {c : Cat} {ts : List Tok} {o : Out} (h : Reads c ts o) :
    ∀ t, o = .one t → t.isNone = false := by
  induction h with
  | ofBase _ ih | ofFactor _ ih | ofTerm _ ih | ofSum _ ih | paren _ _ _ ih => exact ih
  | _ => intro t ht; first | (cases ht; rfl) | cases ht

theorem skipWhite_starts {ts : List Tok} (h : Starts ts) {sp : List Tok} (hsp : Gap sp) :
    skipWhite (sp ++ ts) = some (.ok ((), ts)) := by
  obtain ⟨t, l, rfl, ht, -⟩ := h
  have : skipWhite (t :: l) = some (.ok ((), t :: l)) := by
    cases t <;> first | rfl | exact absurd rfl ht
  rcases hsp with rfl | rfl <;> exact this

/-- What may follow a base. -/
def FollowB (rest : List Tok) : Prop := rest.head? ≠ some .lbrace

/-- What may follow a factor. -/
def FollowF (rest : List Tok) : Prop :=
  rest.head? ≠ some .lbrace ∧ rest.head? ≠ some .power ∧ rest.take 2 ≠ [.white, .power]

/-- Tokens at which a term ends, perhaps after a space. -/
def StopT (rest : List Tok) : Prop := ∀ t, rest.head? = some t →
  t = .plus ∨ t = .minus ∨ t = .arrow ∨ t = .rparen ∨ t = .rbrace ∨ t = .rcurl ∨ t = .rassoc ∨ t = .comma

/-- Tokens at which an entry ends, perhaps after a space. -/
def StopE (rest : List Tok) : Prop := ∀ t, rest.head? = some t →
  t = .rparen ∨ t = .rbrace ∨ t = .rcurl ∨ t = .rassoc ∨ t = .comma

theorem StopE.stopT {rest : List Tok} (h : StopE rest) : StopT rest := by
  intro t ht
  rcases h t ht with h | h | h | h | h <;> simp [h]

theorem StopT.followF {rest sp : List Tok} (h : StopT rest) (hsp : Gap sp) : FollowF (sp ++ rest) := by
  cases rest with
  | nil => rcases hsp with rfl | rfl <;> simp [FollowF]
  | cons t rest =>
    have := h t rfl
    rcases hsp with rfl | rfl <;>
      rcases this with rfl | rfl | rfl | rfl | rfl | rfl | rfl | rfl <;> simp [FollowF]

theorem FollowF.followB {rest : List Tok} (h : FollowF rest) : FollowB rest := h.1

/-! Rules for the functions of the parser -/

theorem parses_factor {ts ts1 rest sp : List Tok} {v : Node} (hs : Starts ts) (hsp : Gap sp)
    (h : Parses pBase ts v ts1)
    (h' : Parses (fun n => pPower n v >>= fun r => pWhitePower n r) ts1 r rest) :
    Parses pFactor (sp ++ ts) r rest := by
  refine Parses.succ ?_
  have h2 := Parses.bind (f := fun v n => pPower n v >>= fun r => pWhitePower n r) h h'
  obtain ⟨N, h2⟩ := h2
  refine ⟨N, fun n hn => ?_⟩
  show pFactor (n + 1) (sp ++ ts) = _
  rw [pFactor, Pr.bind_apply, skipWhite_starts hs hsp]
  exact h2 n hn

theorem parses_noPower {rest : List Tok} {v : Node} (h : FollowF rest) :
    Parses (fun n => pPower n v >>= fun r => pWhitePower n r) rest v rest := by
  refine ⟨1, fun n hn => ?_⟩
  obtain ⟨m, rfl⟩ : ∃ m, n = m + 1 := ⟨n - 1, by omega⟩
  have h1 : pPower (m + 1) v rest = some (.ok (v, rest)) := by
    rw [pPower]
    cases rest with
    | nil => rfl
    | cons t rest =>
      cases t <;> first | rfl | (exact absurd rfl h.2.1)
  show (pPower (m + 1) v >>= fun r => pWhitePower (m + 1) r) rest = _
  rw [Pr.bind_apply, h1]
  show pWhitePower (m + 1) v rest = _
  rw [pWhitePower]
  match rest, h with
  | [], _ => rfl
  | [t], _ => cases t <;> rfl
  | t :: u :: rest, h =>
    cases t <;> first | rfl | skip
    cases u <;> first | rfl | (exact absurd rfl h.2.2)

theorem parses_power {sp ts rest : List Tok} {a b : Node} (hsp : Gap sp) (hf : FollowF rest)
    (h : Parses pFactor ts b rest) :
    Parses (fun n => pPower n a >>= fun r => pWhitePower n r) (sp ++ .power :: ts) (.pow a b) rest := by
  obtain ⟨N, h⟩ := h
  rcases hsp with rfl | rfl
  · have h1 : Parses (fun n => pPower n a) (.power :: ts) (.pow a b) rest := by
      refine Parses.succ ⟨N, fun n hn => ?_⟩
      show pPower (n + 1) a (.power :: ts) = _
      rw [pPower]
      show (pFactor n >>= _ : Pr Node) ts = _
      rw [Pr.bind_apply, h n hn]
      rfl
    have h2 : Parses (fun n => pWhitePower n (.pow a b)) rest (.pow a b) rest := by
      refine Parses.succ ⟨0, fun n hn => ?_⟩
      show pWhitePower (n + 1) _ rest = _
      rw [pWhitePower]
      match rest, hf with
      | [], _ => rfl
      | [t], _ => cases t <;> rfl
      | t :: u :: rest, h =>
        cases t <;> first | rfl | skip
        cases u <;> first | rfl | (exact absurd rfl h.2.2)
    exact Parses.bind (f := fun v n => pWhitePower n v) h1 h2
  · have h1 : Parses (fun n => pPower n a) (.white :: .power :: ts) a (.white :: .power :: ts) := by
      refine Parses.succ ⟨0, fun n hn => ?_⟩
      show pPower (n + 1) a _ = _
      rw [pPower]
    have h2 : Parses (fun n => pWhitePower n a) (.white :: .power :: ts) (.pow a b) rest := by
      refine Parses.succ ⟨N, fun n hn => ?_⟩
      show pWhitePower (n + 1) _ _ = _
      rw [pWhitePower]
      show (pFactor n >>= _ : Pr Node) ts = _
      rw [Pr.bind_apply, h n hn]
      rfl
    exact Parses.bind (f := fun v n => pWhitePower n v) h1 h2

theorem parses_term {ts ts1 rest sp : List Tok} {v r : Node} (hs : Starts ts) (hsp : Gap sp)
    (h : Parses pFactor ts v ts1) (h' : Parses (fun n => pTermLoop n v) ts1 r rest) :
    Parses pTerm (sp ++ ts) r rest := by
  refine Parses.succ ?_
  have h2 := Parses.bind (f := fun v n => pTermLoop n v) h h'
  obtain ⟨N, h2⟩ := h2
  refine ⟨N, fun n hn => ?_⟩
  show pTerm (n + 1) (sp ++ ts) = _
  rw [pTerm, Pr.bind_apply, skipWhite_starts hs hsp]
  exact h2 n hn

theorem parses_factor_gap {ts rest sp : List Tok} {v : Node} (hs : Starts ts) (hsp : Gap sp)
    (h : Parses pFactor ts v rest) : Parses pFactor (sp ++ ts) v rest := by
  rcases hsp with rfl | rfl
  · exact h
  obtain ⟨N, h⟩ := h
  refine Parses.succ ⟨N, fun n hn => ?_⟩
  have := h (n + 1) (by omega)
  show pFactor (n + 1) ([.white] ++ ts) = _
  rw [pFactor, Pr.bind_apply] at this ⊢
  rw [skipWhite_starts (sp := [.white]) hs (.inr rfl)]
  rw [show ts = [] ++ ts from rfl, skipWhite_starts (sp := []) hs (.inl rfl)] at this
  exact this

theorem parses_termStop {rest sp : List Tok} {v : Node} (hsp : Gap sp) (h : StopT rest) :
    Parses (fun n => pTermLoop n v) (sp ++ rest) v rest := by
  have h0 : Parses (fun n => pTermLoop n v) rest v rest := by
    refine Parses.succ ⟨0, fun n hn => ?_⟩
    show pTermLoop (n + 1) v rest = _
    rw [pTermLoop]
    cases rest with
    | nil => rfl
    | cons t rest =>
      rcases h t rfl with rfl | rfl | rfl | rfl | rfl | rfl | rfl | rfl <;> rfl
  rcases hsp with rfl | rfl
  · exact h0
  · obtain ⟨N, h0⟩ := h0
    refine Parses.succ ⟨N, fun n hn => ?_⟩
    show pTermLoop (n + 1) v (.white :: rest) = _
    rw [pTermLoop]
    have : startsFactor rest.head? = false := by
      cases rest with
      | nil => rfl
      | cons t rest =>
        rcases h t rfl with rfl | rfl | rfl | rfl | rfl | rfl | rfl | rfl <;> rfl
    simp only [this]
    exact h0 n hn

theorem parses_termOp {ts ts1 rest sp : List Tok} {v b r : Node} (op : Tok) (c : Node → Node → Node)
    (hop : (op = .multiply ∧ c = Node.mul) ∨ (op = .divide ∧ c = Node.div)) (hsp : Gap sp)
    (h : Parses pFactor ts b ts1) (h' : Parses (fun n => pTermLoop n (c v b)) ts1 r rest) :
    Parses (fun n => pTermLoop n v) (sp ++ op :: ts) r rest := by
  have h0 : Parses (fun n => pTermLoop n v) (op :: ts) r rest := by
    obtain ⟨N, h2⟩ := Parses.bind (f := fun b n => pTermLoop n (c v b)) h h'
    refine Parses.succ ⟨N, fun n hn => ?_⟩
    show pTermLoop (n + 1) v (op :: ts) = _
    rw [pTermLoop]
    rcases hop with ⟨rfl, rfl⟩ | ⟨rfl, rfl⟩ <;> exact h2 n hn
  rcases hsp with rfl | rfl
  · exact h0
  · obtain ⟨N, h0⟩ := h0
    refine Parses.succ ⟨N, fun n hn => ?_⟩
    show pTermLoop (n + 1) v (.white :: op :: ts) = _
    rw [pTermLoop]
    rcases hop with ⟨rfl, rfl⟩ | ⟨rfl, rfl⟩ <;> exact h0 n hn

theorem parses_juxt {ts ts1 rest : List Tok} {v b r : Node} (hj : startsFactor ts.head? = true)
    (h : Parses pFactor ts b ts1) (h' : Parses (fun n => pTermLoop n (.mul v b)) ts1 r rest) :
    Parses (fun n => pTermLoop n v) (.white :: ts) r rest := by
  obtain ⟨N, h2⟩ := Parses.bind (f := fun b n => pTermLoop n (.mul v b)) h h'
  refine Parses.succ ⟨N, fun n hn => ?_⟩
  show pTermLoop (n + 1) v (.white :: ts) = _
  rw [pTermLoop]
  simp only [hj]
  exact h2 n hn

theorem parses_expr {a : Bool} {ts ts1 rest : List Tok} {v r : Node} (h : Parses pTerm ts v ts1)
    (h' : Parses (fun n => pExprLoop n a v) ts1 r rest) : Parses (fun n => pExpr n a) ts r rest := by
  obtain ⟨N, h2⟩ := Parses.bind (f := fun v n => pExprLoop n a v) h h'
  refine Parses.succ ⟨N, fun n hn => ?_⟩
  show pExpr (n + 1) a ts = _
  rw [pExpr]
  exact h2 n hn

theorem parses_sumOp {a : Bool} {ts ts1 rest : List Tok} {v b r : Node} (op : Tok) (c : Node → Node → Node)
    (hop : (op = .plus ∧ c = Node.add) ∨ (op = .minus ∧ c = Node.sub))
    (h : Parses pTerm ts b ts1) (h' : Parses (fun n => pExprLoop n a (c v b)) ts1 r rest) :
    Parses (fun n => pExprLoop n a v) (op :: ts) r rest := by
  obtain ⟨N, h2⟩ := Parses.bind (f := fun b n => pExprLoop n a (c v b)) h h'
  refine Parses.succ ⟨N, fun n hn => ?_⟩
  show pExprLoop (n + 1) a v (op :: ts) = _
  rw [pExprLoop]
  rcases hop with ⟨rfl, rfl⟩ | ⟨rfl, rfl⟩ <;> exact h2 n hn

theorem parses_exprStop {a : Bool} {rest : List Tok} {v : Node} (h : StopE rest) :
    Parses (fun n => pExprLoop n a v) rest v rest := by
  refine Parses.succ ⟨0, fun n hn => ?_⟩
  show pExprLoop (n + 1) a v rest = _
  rw [pExprLoop]
  cases rest with
  | nil => rfl
  | cons t rest =>
    rcases h t rfl with rfl | rfl | rfl | rfl | rfl <;> rfl

theorem parses_exprArrow {rest : List Tok} {v : Node} :
    Parses (fun n => pExprLoop n true v) (.arrow :: rest) v (.arrow :: rest) := by
  refine Parses.succ ⟨0, fun n hn => ?_⟩
  show pExprLoop (n + 1) true v (.arrow :: rest) = _
  rw [pExprLoop]
  rfl

theorem parses_rule {ts ts1 rest : List Tok} {v b r : Node} (h : Parses (fun n => pExpr n false) ts b ts1)
    (h' : Parses (fun n => pExprLoop n false (.eq v b)) ts1 r rest) :
    Parses (fun n => pExprLoop n false v) (.arrow :: ts) r rest := by
  obtain ⟨N, h2⟩ := Parses.bind (f := fun b n => pExprLoop n false (.eq v b)) h h'
  refine Parses.succ ⟨N, fun n hn => ?_⟩
  show pExprLoop (n + 1) false v (.arrow :: ts) = _
  rw [pExprLoop]
  exact h2 n hn

/-- A leading space does not matter to `expr`. -/
theorem parses_expr_gap {a : Bool} {ts rest sp : List Tok} {v : Node} (hs : Starts ts) (hsp : Gap sp)
    (h : Parses (fun n => pExpr n a) ts v rest) : Parses (fun n => pExpr n a) (sp ++ ts) v rest := by
  rcases hsp with rfl | rfl
  · exact h
  obtain ⟨N, h⟩ := h
  refine ⟨N + 2, fun n hn => ?_⟩
  obtain ⟨m, rfl⟩ : ∃ m, n = m + 2 := ⟨n - 2, by omega⟩
  have := h (m + 2) (by omega)
  show pExpr (m + 1 + 1) a ([.white] ++ ts) = _
  have this : pExpr (m + 1 + 1) a ts = _ := this
  rw [pExpr, Pr.bind_apply, pTerm, Pr.bind_apply] at this ⊢
  rw [skipWhite_starts (sp := [.white]) hs (.inr rfl)]
  rw [show skipWhite ts = skipWhite ([] ++ ts) from rfl, skipWhite_starts (sp := []) hs (.inl rfl)] at this
  exact this

theorem parses_term_gap {ts rest sp : List Tok} {v : Node} (hs : Starts ts) (hsp : Gap sp)
    (h : Parses pTerm ts v rest) : Parses pTerm (sp ++ ts) v rest := by
  rcases hsp with rfl | rfl
  · exact h
  obtain ⟨N, h⟩ := h
  refine Parses.succ ⟨N, fun n hn => ?_⟩
  have := h (n + 1) (by omega)
  show pTerm (n + 1) ([.white] ++ ts) = _
  rw [pTerm, Pr.bind_apply] at this ⊢
  rw [skipWhite_starts (sp := [.white]) hs (.inr rfl)]
  rw [show skipWhite ts = skipWhite ([] ++ ts) from rfl, skipWhite_starts (sp := []) hs (.inl rfl)] at this
  exact this

theorem parses_arg_gap {ts rest sp : List Tok} {v : Node} (hs : Starts ts) (hsp : Gap sp)
    (h : Parses (fun n => pExpr n false >>= fun a => pArgs n [a]) ts v rest) :
    Parses (fun n => pExpr n false >>= fun a => pArgs n [a]) (sp ++ ts) v rest := by
  rcases hsp with rfl | rfl
  · exact h
  obtain ⟨N, h⟩ := h
  refine ⟨N + 2, fun n hn => ?_⟩
  obtain ⟨m, rfl⟩ : ∃ m, n = m + 2 := ⟨n - 2, by omega⟩
  have := h (m + 2) (by omega)
  have this : (pExpr (m + 1 + 1) false >>= fun a => pArgs (m + 1 + 1) [a]) ts = _ := this
  show (pExpr (m + 1 + 1) false >>= fun a => pArgs (m + 1 + 1) [a]) ([.white] ++ ts) = _
  have e : pExpr (m + 1 + 1) false ([.white] ++ ts) = pExpr (m + 1 + 1) false ts := by
    rw [pExpr, Pr.bind_apply, Pr.bind_apply, pTerm, Pr.bind_apply, Pr.bind_apply]
    rw [skipWhite_starts (sp := [.white]) hs (.inr rfl)]
    rw [show skipWhite ts = skipWhite ([] ++ ts) from rfl, skipWhite_starts (sp := []) hs (.inl rfl)]
  rw [Pr.bind_apply, e]
  rw [Pr.bind_apply] at this
  exact this

theorem parses_listEnd {acc : List Node} {rest : List Tok} :
    Parses (fun n => pList n acc) (.rcurl :: rest) (.list acc) (.rcurl :: rest) := by
  refine Parses.succ ⟨0, fun n hn => ?_⟩
  show pList (n + 1) acc _ = _
  rw [pList]
  rfl

theorem starts_gap_ne {ts sp : List Tok} (hs : Starts ts) (hsp : Gap sp) :
    ∃ t l, sp ++ ts = t :: l ∧ t ≠ .rcurl ∧ t ≠ .rassoc := by
  obtain ⟨t, l, rfl, h1, h2, h3⟩ := hs
  rcases hsp with rfl | rfl
  · exact ⟨t, l, rfl, h2, h3⟩
  · exact ⟨_, _, rfl, by simp⟩

theorem parses_list {acc : List Node} {sp ts rest0 rest1 rest : List Tok} {x r : Node} (hs : Starts ts)
    (hsp : Gap sp) (h : Parses (fun n => pExpr n false) ts x rest0)
    (hc : skipComma rest0 = some (.ok ((), rest1)))
    (h' : Parses (fun n => pList n (acc ++ [x])) rest1 r rest) :
    Parses (fun n => pList n acc) (sp ++ ts) r rest := by
  obtain ⟨N, h⟩ := h
  obtain ⟨M, h'⟩ := h'
  refine Parses.succ ⟨N + M, fun n hn => ?_⟩
  show pList (n + 1) acc (sp ++ ts) = _
  obtain ⟨t, l, e, hne, -⟩ := starts_gap_ne hs hsp
  have hw := skipWhite_starts hs hsp
  rw [pList, Pr.bind_apply, e]
  show (if t = .rcurl then _ else _ : Pr Node) (t :: l) = _
  rw [if_neg hne, ← e, Pr.bind_apply, hw]
  show (pExpr n false >>= _ : Pr Node) ts = _
  rw [Pr.bind_apply, show pExpr n false ts = _ from h n (by omega)]
  show (skipComma >>= _ : Pr Node) rest0 = _
  rw [Pr.bind_apply, hc]
  exact h' n (by omega)

theorem parses_assocEnd {ks vs : List Node} {rest : List Tok} :
    Parses (fun n => pAssoc n ks vs) (.rassoc :: rest) (.assoc ks vs) (.rassoc :: rest) := by
  refine Parses.succ ⟨0, fun n hn => ?_⟩
  show pAssoc (n + 1) ks vs _ = _
  rw [pAssoc]
  rfl

theorem parses_assoc {ks vs : List Node} {sp sp' ts1 ts2 rest0 rest1 rest : List Tok} {k v r : Node}
    (hs : Starts ts1) (hsp : Gap sp) (hs2 : Starts ts2) (hsp' : Gap sp') (hk : k.isNone = false)
    (hv : v.isNone = false) (h1 : Parses (fun n => pExpr n true) ts1 k (.arrow :: (sp' ++ ts2)))
    (h2 : Parses (fun n => pExpr n true) ts2 v rest0)
    (hc : skipComma rest0 = some (.ok ((), rest1)))
    (h' : Parses (fun n => pAssoc n (ks ++ [k]) (vs ++ [v])) rest1 r rest) :
    Parses (fun n => pAssoc n ks vs) (sp ++ ts1) r rest := by
  obtain ⟨N, h1⟩ := h1
  obtain ⟨L, h2⟩ := h2
  obtain ⟨M, h'⟩ := h'
  refine Parses.succ ⟨N + L + M, fun n hn => ?_⟩
  show pAssoc (n + 1) ks vs (sp ++ ts1) = _
  obtain ⟨t, l, e, -, hne⟩ := starts_gap_ne hs hsp
  have hw := skipWhite_starts hs hsp
  rw [pAssoc, Pr.bind_apply, e]
  show (if t = .rassoc then _ else _ : Pr Node) (t :: l) = _
  rw [if_neg hne, ← e, Pr.bind_apply, hw]
  show (pExpr n true >>= _ : Pr Node) ts1 = _
  rw [Pr.bind_apply, show pExpr n true ts1 = _ from h1 n (by omega)]
  show (skipWhite >>= _ : Pr Node) (.arrow :: (sp' ++ ts2)) = _
  rw [Pr.bind_apply]
  show (peek >>= _ : Pr Node) (.arrow :: (sp' ++ ts2)) = _
  rw [Pr.bind_apply]
  show (if Tok.arrow = .arrow then _ else _ : Pr Node) (.arrow :: (sp' ++ ts2)) = _
  rw [if_pos rfl, Pr.bind_apply]
  show (skipWhite >>= _ : Pr Node) (sp' ++ ts2) = _
  rw [Pr.bind_apply, skipWhite_starts hs2 hsp']
  show (pExpr n true >>= _ : Pr Node) ts2 = _
  rw [Pr.bind_apply, show pExpr n true ts2 = _ from h2 n (by omega)]
  show (if (k.isNone || v.isNone) = true then _ else _ : Pr Node) rest0 = _
  rw [if_neg (by simp [hk, hv]), Pr.bind_apply, hc]
  exact h' n (by omega)

theorem parses_args {acc : List Node} {ts ts1 rest : List Tok} {b r : Node}
    (h : Parses (fun n => pExpr n false) ts b ts1)
    (h' : Parses (fun n => pArgs n (acc ++ [b])) ts1 r rest) :
    Parses (fun n => pArgs n acc) (.comma :: ts) r rest := by
  obtain ⟨N, h2⟩ := Parses.bind (f := fun b n => pArgs n (acc ++ [b])) h h'
  refine Parses.succ ⟨N, fun n hn => ?_⟩
  show pArgs (n + 1) acc (.comma :: ts) = _
  rw [pArgs]
  exact h2 n hn

theorem parses_argsEnd {acc : List Node} {rest : List Tok} :
    Parses (fun n => pArgs n acc) (.rbrace :: rest) (Spec.group acc) rest := by
  refine Parses.succ ⟨0, fun n hn => ?_⟩
  show pArgs (n + 1) acc _ = _
  rw [pArgs]
  match acc with
  | [] => rfl
  | [t] => rfl
  | t :: u :: l => rfl

theorem parses_calls {w : List Char} {args : List Node} {ts ts1 rest : List Tok} {g r : Node}
    (h : Parses (fun n => pExpr n false >>= fun a => pArgs n [a]) ts g ts1)
    (h' : Parses (fun n => pCalls n w (args ++ [g])) ts1 r rest) :
    Parses (fun n => pCalls n w args) (.lbrace :: ts) r rest := by
  obtain ⟨N, h⟩ := h
  obtain ⟨M, h'⟩ := h'
  refine Parses.succ ⟨N + M, fun n hn => ?_⟩
  show pCalls (n + 1) w args (.lbrace :: ts) = _
  rw [pCalls]
  have h1 := h n (by omega)
  have h2 := h' n (by omega)
  show (pExpr n false >>= fun a => pArgs n [a] >>= fun g => pCalls n w (args ++ [g])) ts = _
  have h1 : (pExpr n false >>= fun a => pArgs n [a]) ts = _ := h1
  rw [Pr.bind_apply] at h1 ⊢
  cases he : pExpr n false ts with
  | none => rw [he] at h1; cases h1
  | some x =>
    rw [he] at h1
    cases x with
    | error e => cases h1
    | ok y =>
      have h1 : pArgs n [y.1] y.2 = some (.ok (g, ts1)) := h1
      show (pArgs n [y.1] >>= _ : Pr Node) y.2 = _
      rw [Pr.bind_apply, h1]
      exact h2

theorem parses_callsEnd {w : List Char} {args : List Node} {rest : List Tok} (h : FollowB rest) :
    Parses (fun n => pCalls n w args) rest (.func w args) rest := by
  refine Parses.succ ⟨0, fun n hn => ?_⟩
  show pCalls (n + 1) w args rest = _
  rw [pCalls]
  cases rest with
  | nil => rfl
  | cons t rest => cases t <;> first | rfl | exact absurd rfl h

theorem parses_close {p : Nat → Pr Node} {t : Tok} {ts rest : List Tok} {v : Node}
    (h : Parses p ts v (t :: rest)) :
    Parses (fun n => (do let r ← p n; expect t; return r : Pr Node)) ts v rest := by
  obtain ⟨N, h⟩ := h
  refine ⟨N, fun n hn => ?_⟩
  show (p n >>= _ : Pr Node) ts = _
  rw [Pr.bind_apply, h n hn]
  show (expect t >>= _ : Pr Node) (t :: rest) = _
  have : expect t (t :: rest) = some (.ok ((), rest)) := by
    show (peek >>= fun c => if c ≠ t then Pr.raise .exception else advance) (t :: rest) = _
    rw [Pr.bind_apply]
    show (if t ≠ t then Pr.raise .exception else advance : Pr Unit) (t :: rest) = _
    rw [if_neg (by simp)]
    rfl
  rw [Pr.bind_apply, this]
  rfl

/-- What the levels of the grammar mean for the parser. -/
def Meant : Cat → List Tok → Out → Prop
  | .base, ts, .one t => ∀ rest, FollowB rest → Parses pBase (ts ++ rest) t rest
  | .factor, ts, .one t => ∀ rest, FollowF rest → Parses pFactor (ts ++ rest) t rest
  | .term, ts, .one t => ∀ rest r rest', FollowF rest → Parses (fun n => pTermLoop n t) rest r rest' →
      Parses pTerm (ts ++ rest) r rest'
  | .sum, ts, .one t => ∀ a sp rest r rest', Gap sp → StopT rest →
      Parses (fun n => pExprLoop n a t) rest r rest' →
      Parses (fun n => pExpr n a) (ts ++ (sp ++ rest)) r rest'
  | .entry, ts, .one t => ∀ sp rest, Gap sp → StopE rest →
      Parses (fun n => pExpr n false) (ts ++ (sp ++ rest)) t rest
  | .items, ts, .many l => (∀ acc sp0 sp rest rest1 r rest', Gap sp0 → Gap sp → StopE rest →
      skipComma rest = some (.ok ((), rest1)) → Parses (fun n => pList n (acc ++ l)) rest1 r rest' →
      Parses (fun n => pList n acc) (sp0 ++ (ts ++ (sp ++ rest))) r rest') ∧
      (∀ sp rest r rest', Gap sp → StopE rest → Parses (fun n => pArgs n l) rest r rest' →
      Parses (fun n => pExpr n false >>= fun a => pArgs n [a]) (ts ++ (sp ++ rest)) r rest')
  | .pairs, ts, .pairs ks vs => ∀ aks avs sp0 sp rest rest1 r rest', Gap sp0 → Gap sp → StopE rest →
      skipComma rest = some (.ok ((), rest1)) →
      Parses (fun n => pAssoc n (aks ++ ks) (avs ++ vs)) rest1 r rest' →
      Parses (fun n => pAssoc n aks avs) (sp0 ++ (ts ++ (sp ++ rest))) r rest'
  | .groups, ts, .many gs => ∀ w args rest r rest', Parses (fun n => pCalls n w (args ++ gs)) rest r rest' →
      Parses (fun n => pCalls n w args) (ts ++ rest) r rest'
  | _, _, _ => False

theorem parses_base {ts rest : List Tok} {v : Node} {q : Nat → Pr Node}
    (hq : ∀ n, pBase (n + 1) ts = q n ts) (h : Parses q ts v rest) : Parses pBase ts v rest := by
  obtain ⟨N, h⟩ := h
  refine Parses.succ ⟨N, fun n hn => ?_⟩
  show pBase (n + 1) ts = _
  rw [hq, h n hn]

theorem parses_base_tail {t : Tok} {ts rest : List Tok} {v : Node} {q : Nat → Pr Node}
    (hq : ∀ n, pBase (n + 1) (t :: ts) = q n ts) (h : Parses q ts v rest) :
    Parses pBase (t :: ts) v rest := by
  obtain ⟨N, h⟩ := h
  refine Parses.succ ⟨N, fun n hn => ?_⟩
  show pBase (n + 1) (t :: ts) = _
  rw [hq, h n hn]

theorem stopE_cons {t : Tok} {rest : List Tok}
    (h : t = .rparen ∨ t = .rbrace ∨ t = .rcurl ∨ t = .rassoc ∨ t = .comma) : StopE (t :: rest) := by
  intro u hu
  simp only [List.head?_cons, Option.some.injEq] at hu
  subst hu; exact h

theorem stopT_cons {t : Tok} {rest : List Tok}
    (h : t = .plus ∨ t = .minus ∨ t = .arrow ∨ t = .rparen ∨ t = .rbrace ∨ t = .rcurl ∨ t = .rassoc ∨
      t = .comma) : StopT (t :: rest) := by
  intro u hu
  simp only [List.head?_cons, Option.some.injEq] at hu
  subst hu; exact h

theorem parses_sign {ts rest sp : List Tok} {b : Node} (op : Tok) (c : Node → Node)
    (hop : (op = .plus ∧ c = Node.plus) ∨ (op = .minus ∧ c = Node.minus))
    (h : Parses pFactor (sp ++ ts) b rest) : Parses pBase (op :: (sp ++ ts)) (c b) rest := by
  refine parses_base_tail (q := fun n => (do let r ← pFactor n; return c r : Pr Node)) ?_ ?_
  · intro n
    rw [pBase]
    rcases hop with ⟨rfl, rfl⟩ | ⟨rfl, rfl⟩ <;> rfl
  · exact Parses.bind (f := fun v _ => (Pure.pure (c v) : Pr Node)) h Parses.pure

theorem juxt_starts {ts : List Tok} (h : Juxtaposable ts) (rest : List Tok) :
    startsFactor (ts ++ rest).head? = true := by
  cases ts with
  | nil => rcases h with ⟨w, h⟩ | h | h <;> cases h
  | cons t ts =>
    rcases h with ⟨w, h⟩ | h | h <;> (cases h; rfl)

theorem groups_lbrace {c : Cat} {ts : List Tok} {o : Out} (h : Reads c ts o) (hc : c = .groups) :
    ∃ l, ts = .lbrace :: l := by
  induction h with
  | group => exact ⟨_, rfl⟩
  | groups _ _ _ _ ih _ =>
    obtain ⟨l, rfl⟩ := ih rfl
    exact ⟨_, rfl⟩
  | _ => cases hc

/-- The parser reads every text of the grammar as the grammar says. -/
theorem reads_meant {c : Cat} {ts : List Tok} {o : Out} (h : Reads c ts o) : Meant c ts o := by
  induction h with
  | word w =>
    intro rest hf
    refine parses_base (q := fun _ _ => some (.ok (.expr w, rest))) ?_ ⟨0, fun _ _ => rfl⟩
    intro n
    rw [pBase]
    cases rest with
    | nil => rfl
    | cons t rest => cases t <;> first | rfl | exact absurd rfl hf
  | lit s =>
    intro rest hf
    refine parses_base (q := fun _ _ => some (.ok (.str s, rest))) ?_ ⟨0, fun _ _ => rfl⟩
    intro n
    rw [pBase]
    rfl
  | greek w =>
    intro rest hf
    refine parses_base (q := fun _ _ => some (.ok (.greek (some w), rest))) ?_ ⟨0, fun _ _ => rfl⟩
    intro n
    rw [pBase]
    rfl
  | @paren sp ts sp' t hsp hsp' h ih =>
    intro rest hf
    have he := ih sp' (.rparen :: rest) hsp' (stopE_cons (by simp))
    have hg := parses_expr_gap ((reads_starts h).append (sp' ++ .rparen :: rest)) hsp he
    rw [show (Tok.lparen :: (sp ++ ts ++ sp' ++ [.rparen])) ++ rest =
      .lparen :: (sp ++ (ts ++ (sp' ++ .rparen :: rest))) by simp]
    exact parses_base_tail (fun n => by rw [pBase]) (parses_close hg)
  | emptyList =>
    intro rest hf
    exact parses_base_tail (q := fun n => (do let r ← pList n []; expect .rcurl; return r : Pr Node))
      (ts := .rcurl :: rest) (fun n => by rw [pBase]) (parses_close parses_listEnd)
  | @list sp ts sp' l hsp hsp' h ih =>
    intro rest hf
    have he := ih.1 [] sp sp' (.rcurl :: rest) (.rcurl :: rest) _ _ hsp hsp' (stopE_cons (by simp)) rfl
      parses_listEnd
    rw [show (Tok.lcurl :: (sp ++ ts ++ sp' ++ [.rcurl])) ++ rest =
      .lcurl :: (sp ++ (ts ++ (sp' ++ .rcurl :: rest))) by simp]
    exact parses_base_tail (fun n => by rw [pBase]) (parses_close he)
  | emptyAssoc =>
    intro rest hf
    exact parses_base_tail
      (q := fun n => (do let r ← pAssoc n [] []; expect .rassoc; return r : Pr Node))
      (ts := .rassoc :: rest) (fun n => by rw [pBase]) (parses_close parses_assocEnd)
  | @assoc sp ts sp' ks vs hsp hsp' h ih =>
    intro rest hf
    have he := ih [] [] sp sp' (.rassoc :: rest) (.rassoc :: rest) _ _ hsp hsp' (stopE_cons (by simp)) rfl
      parses_assocEnd
    rw [show (Tok.lassoc :: (sp ++ ts ++ sp' ++ [.rassoc])) ++ rest =
      .lassoc :: (sp ++ (ts ++ (sp' ++ .rassoc :: rest))) by simp]
    exact parses_base_tail (fun n => by rw [pBase]) (parses_close he)
  | @call w ts l h ih =>
    intro rest hf
    have hc := ih w [] rest _ _ (parses_callsEnd hf)
    refine parses_base_tail (ts := ts ++ rest) (q := fun n => pCalls n w []) ?_ hc
    intro n
    obtain ⟨l', rfl⟩ := groups_lbrace h rfl
    rw [pBase]
    rfl
  | @ofBase ts t h ih =>
    intro rest hf
    have := parses_factor (sp := []) ((reads_starts h).append rest) (.inl rfl) (ih rest hf.followB)
      (parses_noPower hf)
    exact this
  | @pow ts1 sp sp' ts2 a b hsp hsp' h1 h2 ih1 ih2 =>
    intro rest hf
    have hB : FollowB (sp ++ .power :: (sp' ++ (ts2 ++ rest))) := by
      rcases hsp with rfl | rfl <;> simp [FollowB]
    rw [show (ts1 ++ sp ++ Tok.power :: (sp' ++ ts2)) ++ rest =
      [] ++ (ts1 ++ (sp ++ .power :: (sp' ++ (ts2 ++ rest)))) by simp]
    exact parses_factor ((reads_starts h1).append _) (.inl rfl) (ih1 _ hB)
      (parses_power hsp hf (parses_factor_gap ((reads_starts h2).append _) hsp' (ih2 rest hf)))
  | @neg sp ts t hsp h ih =>
    intro rest hf
    have := parses_sign .minus Node.minus (.inr ⟨rfl, rfl⟩)
      (parses_factor_gap ((reads_starts h).append _) hsp (ih rest hf))
    rw [show (Tok.minus :: (sp ++ ts)) ++ rest = [] ++ (.minus :: (sp ++ (ts ++ rest))) by simp]
    exact parses_factor ⟨_, _, rfl, by simp⟩ (.inl rfl) this (parses_noPower hf)
  | @pos sp ts t hsp h ih =>
    intro rest hf
    have := parses_sign .plus Node.plus (.inl ⟨rfl, rfl⟩)
      (parses_factor_gap ((reads_starts h).append _) hsp (ih rest hf))
    rw [show (Tok.plus :: (sp ++ ts)) ++ rest = [] ++ (.plus :: (sp ++ (ts ++ rest))) by simp]
    exact parses_factor ⟨_, _, rfl, by simp⟩ (.inl rfl) this (parses_noPower hf)
  | @ofFactor ts t h ih =>
    intro rest r rest' hf hl
    exact parses_term (sp := []) ((reads_starts h).append rest) (.inl rfl) (ih rest hf) hl
  | @mul ts1 sp sp' ts2 a b hsp hsp' h1 h2 ih1 ih2 =>
    intro rest r rest' hf hl
    rw [show (ts1 ++ sp ++ Tok.multiply :: (sp' ++ ts2)) ++ rest =
      ts1 ++ (sp ++ .multiply :: (sp' ++ (ts2 ++ rest))) by simp]
    refine ih1 _ r rest' ?_ (parses_termOp .multiply Node.mul (.inl ⟨rfl, rfl⟩) hsp
      (parses_factor_gap ((reads_starts h2).append _) hsp' (ih2 rest hf)) hl)
    rcases hsp with rfl | rfl <;> simp [FollowF]
  | @div ts1 sp sp' ts2 a b hsp hsp' h1 h2 ih1 ih2 =>
    intro rest r rest' hf hl
    rw [show (ts1 ++ sp ++ Tok.divide :: (sp' ++ ts2)) ++ rest =
      ts1 ++ (sp ++ .divide :: (sp' ++ (ts2 ++ rest))) by simp]
    refine ih1 _ r rest' ?_ (parses_termOp .divide Node.div (.inr ⟨rfl, rfl⟩) hsp
      (parses_factor_gap ((reads_starts h2).append _) hsp' (ih2 rest hf)) hl)
    rcases hsp with rfl | rfl <;> simp [FollowF]
  | @juxt ts1 ts2 a b h1 h2 hj ih1 ih2 =>
    intro rest r rest' hf hl
    rw [show (ts1 ++ Tok.white :: ts2) ++ rest = ts1 ++ (.white :: (ts2 ++ rest)) by simp]
    refine ih1 _ r rest' ?_ (parses_juxt (juxt_starts hj rest) (ih2 rest hf) hl)
    have := juxt_starts hj rest
    refine ⟨by simp, by simp, ?_⟩
    intro hp
    cases hq : ts2 ++ rest with
    | nil => rw [hq] at hp; simp at hp
    | cons u v =>
      rw [hq] at hp this
      simp only [List.take_succ_cons, List.take_zero, List.cons.injEq, true_and, and_true] at hp
      subst hp
      simp [startsFactor] at this
  | @ofTerm ts t h ih =>
    intro a sp rest r rest' hsp hs hl
    exact parses_expr (ih _ _ _ (hs.followF hsp) (parses_termStop hsp hs)) hl
  | @add ts1 sp sp' ts2 a b hsp hsp' h1 h2 ih1 ih2 =>
    intro f sp2 rest r rest' hsp2 hs hl
    rw [show (ts1 ++ sp ++ Tok.plus :: (sp' ++ ts2)) ++ (sp2 ++ rest) =
      ts1 ++ (sp ++ .plus :: (sp' ++ (ts2 ++ (sp2 ++ rest)))) by simp]
    refine ih1 f sp _ r rest' hsp (stopT_cons (by simp))
      (parses_sumOp .plus Node.add (.inl ⟨rfl, rfl⟩) ?_ hl)
    have ht := ih2 (sp2 ++ rest) _ _ (hs.followF hsp2) (parses_termStop hsp2 hs)
    exact parses_term_gap ((reads_starts h2).append _) hsp' ht
  | @sub ts1 sp sp' ts2 a b hsp hsp' h1 h2 ih1 ih2 =>
    intro f sp2 rest r rest' hsp2 hs hl
    rw [show (ts1 ++ sp ++ Tok.minus :: (sp' ++ ts2)) ++ (sp2 ++ rest) =
      ts1 ++ (sp ++ .minus :: (sp' ++ (ts2 ++ (sp2 ++ rest)))) by simp]
    refine ih1 f sp _ r rest' hsp (stopT_cons (by simp))
      (parses_sumOp .minus Node.sub (.inr ⟨rfl, rfl⟩) ?_ hl)
    have ht := ih2 (sp2 ++ rest) _ _ (hs.followF hsp2) (parses_termStop hsp2 hs)
    exact parses_term_gap ((reads_starts h2).append _) hsp' ht
  | @ofSum ts t h ih =>
    intro sp rest hsp hs
    exact ih false sp rest t rest hsp hs.stopT (parses_exprStop hs)
  | @rule ts1 sp sp' ts2 a b hsp hsp' h1 h2 ih1 ih2 =>
    intro sp2 rest hsp2 hs
    rw [show (ts1 ++ sp ++ Tok.arrow :: (sp' ++ ts2)) ++ (sp2 ++ rest) =
      ts1 ++ (sp ++ .arrow :: (sp' ++ (ts2 ++ (sp2 ++ rest)))) by simp]
    refine ih1 false sp _ _ _ hsp (stopT_cons (by simp)) (parses_rule ?_ (parses_exprStop hs))
    exact parses_expr_gap ((reads_starts h2).append _) hsp' (ih2 sp2 rest hsp2 hs)
  | @item ts t h ih =>
    refine ⟨?_, ?_⟩
    · intro acc sp0 sp rest rest1 r rest' hsp0 hsp hs hc hl
      exact parses_list ((reads_starts h).append _) hsp0 (ih sp rest hsp hs) hc hl
    · intro sp rest r rest' hsp hs hl
      exact Parses.bind (f := fun a n => pArgs n [a]) (ih sp rest hsp hs) hl
  | @items ts1 sp sp' ts2 l t hsp hsp' h1 h2 ih1 ih2 =>
    refine ⟨?_, ?_⟩
    · intro acc sp0 sp2 rest rest1 r rest' hsp0 hsp2 hs hc hl
      rw [show sp0 ++ ((ts1 ++ sp ++ Tok.comma :: (sp' ++ ts2)) ++ (sp2 ++ rest)) =
        sp0 ++ (ts1 ++ (sp ++ .comma :: (sp' ++ (ts2 ++ (sp2 ++ rest))))) by simp]
      refine ih1.1 acc sp0 sp _ (sp' ++ (ts2 ++ (sp2 ++ rest))) r rest' hsp0 hsp (stopE_cons (by simp)) rfl ?_
      refine parses_list ((reads_starts h2).append _) hsp' (ih2 sp2 rest hsp2 hs) hc ?_
      rw [List.append_assoc]; exact hl
    · intro sp2 rest r rest' hsp2 hs hl
      rw [show (ts1 ++ sp ++ Tok.comma :: (sp' ++ ts2)) ++ (sp2 ++ rest) =
        ts1 ++ (sp ++ .comma :: (sp' ++ (ts2 ++ (sp2 ++ rest)))) by simp]
      refine ih1.2 sp _ r rest' hsp (stopE_cons (by simp)) (parses_args ?_ hl)
      exact parses_expr_gap ((reads_starts h2).append _) hsp' (ih2 sp2 rest hsp2 hs)
  | @pair ts1 sp sp' ts2 k v hsp hsp' h1 h2 ih1 ih2 =>
    intro aks avs sp0 sp2 rest rest1 r rest' hsp0 hsp2 hs hc hl
    rw [show sp0 ++ ((ts1 ++ sp ++ Tok.arrow :: (sp' ++ ts2)) ++ (sp2 ++ rest)) =
      sp0 ++ (ts1 ++ (sp ++ .arrow :: (sp' ++ (ts2 ++ (sp2 ++ rest))))) by simp]
    exact parses_assoc ((reads_starts h1).append _) hsp0 ((reads_starts h2).append _) hsp'
      (reads_some h1 _ rfl) (reads_some h2 _ rfl)
      (ih1 true sp _ _ _ hsp (stopT_cons (by simp)) parses_exprArrow)
      (ih2 true sp2 rest _ _ hsp2 hs.stopT (parses_exprStop hs)) hc hl
  | @pairs ts0 sp0 sp1 ts1 sp sp' ts2 ks vs k v hsp0 hsp1 hsp hsp' h0 h1 h2 ih0 ih1 ih2 =>
    intro aks avs spa sp2 rest rest1 r rest' hspa hsp2 hs hc hl
    rw [show spa ++ ((ts0 ++ sp0 ++ Tok.comma :: (sp1 ++ (ts1 ++ sp ++ Tok.arrow :: (sp' ++ ts2)))) ++
        (sp2 ++ rest)) =
      spa ++ (ts0 ++ (sp0 ++ .comma :: (sp1 ++ (ts1 ++ (sp ++ .arrow :: (sp' ++ (ts2 ++ (sp2 ++ rest)))))))) by
        simp]
    refine ih0 aks avs spa sp0 _ (sp1 ++ (ts1 ++ (sp ++ .arrow :: (sp' ++ (ts2 ++ (sp2 ++ rest)))))) r rest'
      hspa hsp0 (stopE_cons (by simp)) rfl ?_
    refine parses_assoc ((reads_starts h1).append _) hsp1 ((reads_starts h2).append _) hsp'
      (reads_some h1 _ rfl) (reads_some h2 _ rfl)
      (ih1 true sp _ _ _ hsp (stopT_cons (by simp)) parses_exprArrow)
      (ih2 true sp2 rest _ _ hsp2 hs.stopT (parses_exprStop hs)) hc ?_
    rw [List.append_assoc, List.append_assoc]; exact hl
  | @group sp ts sp' l hsp hsp' h ih =>
    intro w args rest r rest' hl
    rw [show (Tok.lbrace :: (sp ++ ts ++ sp' ++ [.rbrace])) ++ rest =
      .lbrace :: (sp ++ (ts ++ (sp' ++ .rbrace :: rest))) by simp]
    have ha := ih.2 sp' (.rbrace :: rest) _ _ hsp' (stopE_cons (by simp)) parses_argsEnd
    exact parses_calls (parses_arg_gap ((reads_starts h).append _) hsp ha) hl
  | @groups ts0 sp ts sp' gs l hsp hsp' h0 h ih0 ih =>
    intro w args rest r rest' hl
    rw [show (ts0 ++ Tok.lbrace :: (sp ++ ts ++ sp' ++ [.rbrace])) ++ rest =
      ts0 ++ (.lbrace :: (sp ++ (ts ++ (sp' ++ .rbrace :: rest)))) by simp]
    refine ih0 w args _ r rest' ?_
    have ha := ih.2 sp' (.rbrace :: rest) _ _ hsp' (stopE_cons (by simp)) parses_argsEnd
    refine parses_calls (parses_arg_gap ((reads_starts h).append _) hsp ha) ?_
    rw [List.append_assoc]; exact hl

/-- Parsing an entry. -/
theorem parse_reads {ts : List Tok} {t : Node} (h : Reads .entry ts (.one t)) {sp sp' : List Tok}
    (hsp : Gap sp) (hsp' : Gap sp') : ∃ N, ∀ n, N ≤ n → parse n (sp ++ ts ++ sp') = some (.ok t) := by
  have hm := reads_meant h sp' [] hsp' (by intro t ht; cases ht)
  have hg := parses_expr_gap ((reads_starts h).append _) hsp hm
  obtain ⟨N, hN⟩ := hg
  refine ⟨N, fun n hn => ?_⟩
  have hn' : pExpr n false (sp ++ (ts ++ (sp' ++ []))) = _ := hN n hn
  rw [List.append_nil, ← List.append_assoc] at hn'
  unfold parse
  split
  · rename_i he
    obtain ⟨u, l, e, -⟩ := reads_starts h
    rw [e] at he; simp at he
  · rw [hn']

end PyOGRe
