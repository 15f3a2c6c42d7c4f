import Verif.Lemmas.Written
import Verif.Model.Export

/-!
# What exported text says
-/

namespace PyOGRe
open Spec

theorem Cleared.mark : Cleared holdMark [] := fun rest => strReplaceFrom_match rest

theorem Cleared.held {s u : List Char} (h : Cleared s u) : Cleared (held s) u := by
  have := h.append Cleared.mark
  simpa [PyOGRe.held] using this

section
variable {K : Type} [DecidableEq K] [CommRing K]

/-- The text `s` is read as the value `v`, also as a part of other text. -/
def Says (R : Reader K) (s : List Char) (v : Val K) : Prop :=
  ∃ ts t, Cleared s (text ts) ∧ Block ts ∧ Reads .sum ts (.one t) ∧ visit R t = .ok v

theorem Says.readsAs {R : Reader K} {s : List Char} {v : Val K} (h : Says R s v) : ReadsAs R s v := by
  obtain ⟨ts, t, h1, h2, h3, h4⟩ := h
  exact readsAs_held R h2 h1.eq (.ofSum h3) h4

theorem Says.held {R : Reader K} {s : List Char} {v : Val K} (h : Says R s v) : Says R (held s) v := by
  obtain ⟨ts, t, h1, h2, h3, h4⟩ := h
  exact ⟨ts, t, h1.held, h2, h3, h4⟩

theorem says_quoted (R : Reader K) {s : String} (h : Legible s.toList) : Says R (quotedText s) (.str s.toList) := by
  have hb := Block.str h
  have e : text [.str (quoted s.toList)] = quotedText s := by simp [text, Tok.text, quoted, quotedText]
  refine ⟨[.str (quoted s.toList)], _, ?_, hb, .ofTerm (.ofFactor (.ofBase (.lit _))), ?_⟩
  · rw [e]
    exact (by rw [← e]; exact hb.cleared)
  · rw [visit, literalEval_quoted h]; rfl

theorem says_word (R : Reader K) {w : List Char} (h : Word w) {x : K} (hx : R.atom w = .ok x) :
    Says R w (.num x) := by
  have e : text [.expr w] = w := by simp [text, Tok.text]
  refine ⟨[.expr w], _, ?_, Block.word h, .ofTerm (.ofFactor (.ofBase (.word _))), ?_⟩
  · rw [e]
    exact (by rw [← e]; exact (Block.word h).cleared)
  · rw [visit, hx]; rfl

theorem says_neg (R : Reader K) {w : List Char} (h : Word w) {x : K} (hx : R.atom w = .ok x) :
    Says R ('-' :: w) (.num (-x)) := by
  have hb : Block (.minus :: [.expr w]) := (Block.word h).prefix rfl
  have e : text (.minus :: [.expr w]) = '-' :: w := by simp [text, Tok.text]
  refine ⟨.minus :: [.expr w], _, ?_, hb, .ofTerm (.ofFactor (.neg (sp := []) gap_nil (.ofBase (.word _)))), ?_⟩
  · rw [e]
    exact (by rw [← e]; exact hb.cleared)
  · rw [visit, visit, hx]; rfl

theorem says_index (R : Reader K) (h1 : R.atom ['1'] = .ok 1) {i : Int} (hi : i = 1 ∨ i = -1) :
    Says R (intText i) (.num (i : K)) := by
  have hw : Word ['1'] := ⟨by decide, by decide⟩
  rcases hi with rfl | rfl
  · have := says_word R hw h1
    rw [show ((1 : Int) : K) = 1 by norm_num]
    exact this
  · have := says_neg R hw h1
    rw [show ((-1 : Int) : K) = -1 by norm_num]
    exact this

/-! ### Lists of texts -/

/-- What a list of texts says. -/
abbrev SaysAll (R : Reader K) (l : List (List Char)) (vs : List (Val K)) : Prop := List.Forall₂ (Says R) l vs

/-- The tokens and the tree behind a text. -/
structure Shape where
  toks : List Tok
  tree : Node

theorem saysAll_shapes {R : Reader K} {l : List (List Char)} {vs : List (Val K)} (h : SaysAll R l vs) :
    ∃ ps : List (List Tok × Node), List.Forall₂ (fun s p => Cleared s (text p.1)) l ps ∧
      (∀ p ∈ ps, Block p.1 ∧ Reads .sum p.1 (.one p.2)) ∧
      allOf (visitEach R (ps.map Prod.snd)) = .ok vs ∧ ps.length = vs.length := by
  induction h with
  | nil => exact ⟨[], .nil, by simp, rfl, rfl⟩
  | @cons s v l vs h _ ih =>
    obtain ⟨ts, t, h1, h2, h3, h4⟩ := h
    obtain ⟨ps, g1, g2, g3, g4⟩ := ih
    refine ⟨(ts, t) :: ps, .cons h1 g1, ?_, ?_, by simp [g4]⟩
    · intro p hp
      rcases List.mem_cons.1 hp with rfl | hp
      · exact ⟨h2, h3⟩
      · exact g2 p hp
    · rw [List.map_cons, visitEach, allOf, h4, g3]; rfl

theorem cleared_join {sp : List Tok} {sep : List Char} (hsep : sep = ',' :: text sp) (hsp : Gap sp) :
    ∀ {l : List (List Char)} {ps : List (List Tok)}, List.Forall₂ (fun s p => Cleared s (text p)) l ps →
      Cleared (joinText sep l) (text (commas sp ps))
  | [], _, h => by cases h; exact Cleared.nil
  | [a], _, h => by
    cases h with
    | cons h h' => cases h'; exact h
  | a :: b :: l, _, h => by
    cases h with
    | @cons _ p _ ps h h' =>
      rcases ps with _ | ⟨q, ps⟩
      · cases h'
      · have ih := cleared_join hsep hsp h'
        rw [joinText, commas, text_append, text_cons, text_append]
        have hs : Cleared sep (Tok.comma.text ++ text sp) := by
          rw [hsep]
          refine Cleared.clean ?_
          rw [List.mem_cons, not_or]
          exact ⟨by decide, gap_clean hsp⟩
        have := (h.append hs).append ih
        simpa using this

theorem forall₂_map_right {α β γ : Type} {r : α → γ → Prop} {f : β → γ} : ∀ {l : List α} {ps : List β},
    List.Forall₂ (fun a b => r a (f b)) l ps → List.Forall₂ r l (ps.map f)
  | _, _, .nil => .nil
  | _, _, .cons h h' => .cons h (forall₂_map_right h')

theorem says_list {R : Reader K} {sp : List Tok} {sep : List Char} (hsep : sep = ',' :: text sp) (hsp : Gap sp)
    {l : List (List Char)} {vs : List (Val K)} (h : SaysAll R l vs) : Says R (listText sep l) (.list vs) := by
  obtain ⟨ps, g1, g2, g3, _⟩ := saysAll_shapes h
  refine ⟨.lcurl :: (commas sp (ps.map Prod.fst) ++ [.rcurl]), .list (ps.map Prod.snd), ?_, ?_, ?_, ?_⟩
  · have h1 := cleared_join hsep hsp (forall₂_map_right (f := Prod.fst) g1)
    have h2 := ((Cleared.clean (s := ['{']) (by decide)).append h1).append (Cleared.clean (s := ['}']) (by decide))
    rw [text_cons, text_append]
    simpa [listText, text, Tok.text] using h2
  · refine block_enclosed hsp ?_ rfl rfl
    intro a ha
    obtain ⟨p, hp, rfl⟩ := List.mem_map.1 ha
    exact (g2 p hp).1
  · exact .ofTerm (.ofFactor (.ofBase (reads_list hsp ps (fun p hp => .ofSum (g2 p hp).2))))
  · rw [visit, g3]; rfl

theorem gap_white : Gap [.white] := Or.inr rfl

theorem dictOf_shapes {R : Reader K} : ∀ {ks vs : List Node} {kv vv : List (Val K)} {d : List (Val K × Val K)},
    allOf (visitEach R ks) = .ok kv → allOf (visitEach R vs) = .ok vv → kv.length = vv.length →
    (∀ x ∈ kv, x.hashable = true) → (d.map Prod.fst ++ kv).Pairwise (fun x y => ¬ SameKey x y) →
    dictOf (visitEach R ks) (visitEach R vs) d = .ok (d ++ kv.zip vv) := by
  have split : ∀ {k : Node} {ks : List Node} {kv : List (Val K)}, allOf (visitEach R (k :: ks)) = .ok kv →
      ∃ x kv', kv = x :: kv' ∧ visit R k = .ok x ∧ allOf (visitEach R ks) = .ok kv' := by
    intro k ks kv h
    rw [visitEach, allOf] at h
    rcases hk : visit R k with e | x
    · rw [hk] at h; cases h
    · rw [hk] at h
      rcases hks : allOf (visitEach R ks) with e | kv'
      · rw [hks] at h; cases h
      · rw [hks] at h
        cases h
        exact ⟨x, kv', rfl, rfl, rfl⟩
  intro ks
  induction ks with
  | nil =>
    intro vs kv vv d h1 h2 hl _ _
    cases h1
    rcases vv with _ | ⟨v, vv⟩
    · simp [visitEach, dictOf]
    · cases hl
  | cons k ks ih =>
    intro vs kv vv d h1 h2 hl hh hp
    obtain ⟨x, kv', rfl, hx, h1'⟩ := split h1
    rcases vv with _ | ⟨y, vv⟩
    · cases hl
    · rcases vs with _ | ⟨v, vs⟩
      · cases h2
      · obtain ⟨y', vv', e, hy, h2'⟩ := split h2
        cases e
        rw [visitEach, visitEach, dictOf, hx, hy]
        show (if x.hashable = true then _ else _) = _
        rw [if_pos (hh x (by simp)), setKey_new, ih h1' h2' (by simpa using hl)
          (fun z hz => hh z (List.mem_cons_of_mem _ hz))]
        · simp
        · simpa using hp
        · intro p hp'
          rw [List.pairwise_append] at hp
          have := hp.2.2 p.1 (List.mem_map_of_mem hp') x (by simp)
          rw [← sameKey_iff] at this
          simpa using this

theorem dictOf_shapes_unhashable {R : Reader K} {ks vs : List Node} {x : Val K} {kv vv : List (Val K)}
    {d : List (Val K × Val K)} (h1 : allOf (visitEach R ks) = .ok (x :: kv)) (h2 : allOf (visitEach R vs) = .ok vv)
    (hl : vv ≠ []) (hx : x.hashable = false) :
    dictOf (visitEach R ks) (visitEach R vs) d = .error .typeError := by
  rcases ks with _ | ⟨k, ks⟩
  · cases h1
  · rcases vs with _ | ⟨v, vs⟩
    · cases h2; exact absurd rfl hl
    · rw [visitEach, allOf] at h1 h2
      rw [visitEach, visitEach, dictOf]
      rcases hk : visit R k with e | x'
      · rw [hk] at h1; cases h1
      · rcases hv : visit R v with e | y
        · rw [hv] at h2; cases h2
        · rw [hk] at h1
          rcases hks : allOf (visitEach R ks) with e | kv'
          · rw [hks] at h1; cases h1
          · rw [hks] at h1
            cases h1
            show (if x.hashable = true then _ else _) = _
            rw [hx, if_neg (by simp)]

theorem cleared_entries {l : List (List Char × List Char)} {ps qs : List (List Tok × Node)}
    (h1 : List.Forall₂ (fun s p => Cleared s (text p.1)) (l.map Prod.fst) ps)
    (h2 : List.Forall₂ (fun s p => Cleared s (text p.1)) (l.map Prod.snd) qs) :
    List.Forall₂ (fun s p => Cleared s (text p)) (l.map fun p => entryText p.1 p.2)
      ((ps.zip qs).map (PairText.text [])) := by
  induction l generalizing ps qs with
  | nil => cases h1; exact .nil
  | cons a l ih =>
    rcases ps with _ | ⟨p, ps⟩
    · cases h1
    · rcases qs with _ | ⟨q, qs⟩
      · cases h2
      · cases h1 with
        | cons h1 h1' =>
          cases h2 with
          | cons h2 h2' =>
            refine .cons ?_ (ih h1' h2')
            have := (h1.append (Cleared.clean (s := ['-', '>']) (by decide))).append h2
            simpa [entryText, PairText.text, text, Tok.text] using this

/-- Keys and values that say something. -/
theorem says_assoc {R : Reader K} {l : List (List Char × List Char)} {ks vs : List (Val K)} {v : Val K}
    (hk : SaysAll R (l.map Prod.fst) ks) (hv : SaysAll R (l.map Prod.snd) vs)
    (hval : ∀ nk nv : List Node, allOf (visitEach R nk) = .ok ks → allOf (visitEach R nv) = .ok vs →
      visit R (.assoc nk nv) = .ok v) :
    Says R (assocText (l.map fun p => entryText p.1 p.2)) v := by
  obtain ⟨ps, g1, g2, g3, g4⟩ := saysAll_shapes hk
  obtain ⟨qs, k1, k2, k3, k4⟩ := saysAll_shapes hv
  have hlen : ps.length = qs.length := by
    rw [← g1.length_eq, ← k1.length_eq]; simp
  refine ⟨.lassoc :: (commas [] ((ps.zip qs).map (PairText.text [])) ++ [.rassoc]),
    .assoc (ps.map Prod.snd) (qs.map Prod.snd), ?_, ?_, ?_, hval _ _ g3 k3⟩
  · have h1 := cleared_join (sp := []) rfl gap_nil (cleared_entries g1 k1)
    have h2 := ((Cleared.clean (s := ['<', '|']) (by decide)).append h1).append
      (Cleared.clean (s := ['|', '>']) (by decide))
    rw [text_cons, text_append]
    simpa [assocText, text, Tok.text] using h2
  · refine block_enclosed gap_nil ?_ rfl rfl
    intro a ha
    obtain ⟨p, hp, rfl⟩ := List.mem_map.1 ha
    have hp' := List.of_mem_zip (a := p.1) (b := p.2) hp
    exact Block.join (g2 _ hp'.1).1 (k2 _ hp'.2).1 gap_nil gap_nil rfl
  · have := reads_assoc gap_nil (ps.zip qs) (fun p hp => by
      have hp' := List.of_mem_zip (a := p.1) (b := p.2) hp
      exact ⟨(g2 _ hp'.1).2, (k2 _ hp'.2).2⟩)
    have e1 : (ps.zip qs).map (fun p => p.1.2) = ps.map Prod.snd := by
      conv_rhs => rw [← zip_fst hlen]
      rw [List.map_map]; rfl
    have e2 : (ps.zip qs).map (fun p => p.2.2) = qs.map Prod.snd := by
      conv_rhs => rw [← zip_snd hlen]
      rw [List.map_map]; rfl
    rw [e1, e2] at this
    exact .ofTerm (.ofFactor (.ofBase this))

theorem says_dict {R : Reader K} {l : List (List Char × List Char)} {ks vs : List (Val K)}
    (hk : SaysAll R (l.map Prod.fst) ks) (hv : SaysAll R (l.map Prod.snd) vs)
    (hh : ∀ x ∈ ks, x.hashable = true) (hp : ks.Pairwise (fun x y => ¬ SameKey x y)) :
    Says R (assocText (l.map fun p => entryText p.1 p.2)) (.dict (ks.zip vs)) := by
  have hlen : ks.length = vs.length := by
    rw [← hk.length_eq, ← hv.length_eq]; simp
  refine says_assoc hk hv (fun nk nv h1 h2 => ?_)
  rw [visit, dictOf_shapes h1 h2 hlen hh (by simpa using hp)]
  rfl

theorem says_table {R : Reader K} {l : List (List Char × List Char)} {x : Val K} {ks vs : List (Val K)}
    (hk : SaysAll R (l.map Prod.fst) (x :: ks)) (hv : SaysAll R (l.map Prod.snd) vs)
    (hh : x.hashable = false) :
    Says R (assocText (l.map fun p => entryText p.1 p.2)) (.table (x :: ks) vs) := by
  have hlen : (x :: ks).length = vs.length := by
    rw [← hk.length_eq, ← hv.length_eq]; simp
  refine says_assoc hk hv (fun nk nv h1 h2 => ?_)
  rw [visit, dictOf_shapes_unhashable h1 h2 (by rintro rfl; cases hlen) hh]
  simp only [h1, h2]
  rfl

/-- `{a->b,c->d}`. -/
theorem says_rules {R : Reader K} {l : List (List Char × List Char)} {ks vs : List K}
    (hk : SaysAll R (l.map Prod.fst) (ks.map Val.num)) (hv : SaysAll R (l.map Prod.snd) (vs.map Val.num)) :
    Says R (listText [','] (l.map fun p => entryText p.1 p.2))
      (.list ((ks.zip vs).map fun p => Val.eq p.1 p.2)) := by
  obtain ⟨ps, g1, g2, g3, g4⟩ := saysAll_shapes hk
  obtain ⟨qs, k1, k2, k3, k4⟩ := saysAll_shapes hv
  have hlen : ps.length = qs.length := by
    rw [← g1.length_eq, ← k1.length_eq]; simp
  refine ⟨.lcurl :: (commas [] ((ps.zip qs).map (PairText.text [])) ++ [.rcurl]),
    .list ((ps.zip qs).map fun p => Node.eq p.1.2 p.2.2), ?_, ?_, ?_, ?_⟩
  · have h1 := cleared_join (sp := []) rfl gap_nil (cleared_entries g1 k1)
    have h2 := ((Cleared.clean (s := ['{']) (by decide)).append h1).append
      (Cleared.clean (s := ['}']) (by decide))
    rw [text_cons, text_append]
    simpa [listText, text, Tok.text] using h2
  · refine block_enclosed gap_nil ?_ rfl rfl
    intro a ha
    obtain ⟨p, hp, rfl⟩ := List.mem_map.1 ha
    have hp' := List.of_mem_zip (a := p.1) (b := p.2) hp
    exact Block.join (g2 _ hp'.1).1 (k2 _ hp'.2).1 gap_nil gap_nil rfl
  · have := reads_list gap_nil ((ps.zip qs).map fun p => (PairText.text [] p, Node.eq p.1.2 p.2.2)) (by
      intro q hq
      obtain ⟨p, hp, rfl⟩ := List.mem_map.1 hq
      have hp' := List.of_mem_zip (a := p.1) (b := p.2) hp
      exact .rule gap_nil gap_nil (g2 _ hp'.1).2 (.ofSum (k2 _ hp'.2).2))
    rw [List.map_map, List.map_map] at this
    exact .ofTerm (.ofFactor (.ofBase this))
  · rw [visit]
    suffices h : allOf (visitEach R ((ps.zip qs).map fun p => Node.eq p.1.2 p.2.2)) =
        .ok ((ks.zip vs).map fun p => Val.eq p.1 p.2) by rw [h]; rfl
    clear g1 g2 k1 k2 hk hv
    simp only [List.length_map] at g4 k4
    clear hlen
    induction ps generalizing qs ks vs with
    | nil =>
      rcases ks with _ | ⟨k, ks⟩
      · rfl
      · cases g4
    | cons p ps ih =>
      rcases ks with _ | ⟨k, ks⟩
      · cases g4
      · rcases qs with _ | ⟨q, qs⟩
        · rcases vs with _ | ⟨v, vs⟩
          · rfl
          · cases k4
        · rcases vs with _ | ⟨v, vs⟩
          · cases k4
          · rw [List.map_cons, visitEach, allOf] at g3 k3
            rcases hp : visit R p.2 with e | x
            · rw [hp] at g3; cases g3
            rcases hq : visit R q.2 with e | y
            · rw [hq] at k3; cases k3
            rcases hps : allOf (visitEach R (ps.map Prod.snd)) with e | xs
            · rw [hp, hps] at g3; cases g3
            rcases hqs : allOf (visitEach R (qs.map Prod.snd)) with e | ys
            · rw [hq, hqs] at k3; cases k3
            rw [hp, hps] at g3
            rw [hq, hqs] at k3
            cases g3
            cases k3
            have := ih hps qs hqs (by simpa using g4) (by simpa using k4)
            rw [List.zip_cons_cons, List.map_cons, visitEach, allOf, visit, hp, hq, this]
            rfl

end

end PyOGRe
