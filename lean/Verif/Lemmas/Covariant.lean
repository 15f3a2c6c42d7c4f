import Verif.Lemmas.Provided
import Verif.Spec.Covariant

/-! Helper lemmas: the covariant derivative. -/

namespace PyOGRe
open Spec Finset
variable {K : Type} [CommRing K] [DecidableEq K] [Algebra ℚ K] {E : Engine K} {G : Ground K} {V : View K} {w : World K}

/-- The positions that the labels have in the default configuration of the covariant derivative. -/
structure DefaultOn (p : Sym) (labels : List Sym) (ix : List Int) (pos : Sym → Int) : Prop where
  positions : Positions pos
  first : pos p = -1
  rest : labels.map pos = ix

omit [DecidableEq K] [Algebra ℚ K] in
theorem at_pos {D : TField K} {l : List Sym} {pos pos' : Sym → Int} (h : ∀ s ∈ l, pos s = pos' s) (ρ : Sym → Nat) :
    D.at G l pos ρ = D.at G l pos' ρ := by
  unfold TField.at
  rw [List.map_congr_left h]

theorem mem_set_nodup {l : List Sym} (hl : l.Nodup) {j : Nat} (hj : j < l.length) {d x : Sym} :
    x ∈ l.set j d ↔ x = d ∨ x ∈ l ∧ x ≠ l[j] := by
  constructor
  · intro h
    obtain ⟨i, hi, rfl⟩ := List.mem_iff_getElem.1 h
    rw [List.getElem_set]
    rw [List.length_set] at hi
    by_cases hij : j = i
    · rw [if_pos hij]; exact Or.inl rfl
    · rw [if_neg hij]
      exact Or.inr ⟨List.getElem_mem _, fun hc => hij ((List.Nodup.getElem_inj_iff hl).1 hc).symm⟩
  · rintro (rfl | ⟨h1, h2⟩)
    · exact List.mem_set hj _
    · obtain ⟨i, hi, rfl⟩ := List.mem_iff_getElem.1 h1
      have hij : j ≠ i := fun hc => h2 (by subst hc; rfl)
      rw [← List.getElem_set_ne hij (by simpa using hi)]
      exact List.getElem_mem _

theorem perm_replace {l : List Sym} (hl : l.Nodup) {j : Nat} (hj : j < l.length) {p d : Sym} (hp : p ∉ l) (hd : d ∉ l)
    (hpd : p ≠ d) {h : List Sym} (hh : h = [l[j], p, d] ∨ h = [d, p, l[j]]) :
    sharedOf h (l.set j d) = [d] ∧ (unshared h (l.set j d)).Perm (p :: l) ∧ h.Nodup ∧ (l.set j d).Nodup := by
  have hs : ∀ x, x ∈ l.set j d ↔ x = d ∨ x ∈ l ∧ x ≠ l[j] := fun x => mem_set_nodup hl hj
  have hlj : l[j] ∈ l := List.getElem_mem hj
  have h1 : l[j] ≠ p := fun hc => hp (hc ▸ hlj)
  have h2 : l[j] ≠ d := fun hc => hd (hc ▸ hlj)
  have hn : (l.set j d).Nodup := List.Nodup.set hl hd
  have hhn : h.Nodup := by rcases hh with rfl | rfl <;> simp [h1, h2, hpd, h1.symm, h2.symm, hpd.symm]
  have hm : ∀ x, x ∈ h ↔ x = l[j] ∨ x = p ∨ x = d := by
    intro x
    rcases hh with rfl | rfl <;> simp <;> tauto
  refine ⟨?_, ?_, hhn, hn⟩
  · unfold sharedOf
    have e1 : decide (l[j] ∈ l.set j d) = false := by simp [hs, h2]
    have e2 : decide (p ∈ l.set j d) = false := by simp [hs, hpd, hp]
    have e3 : decide (d ∈ l.set j d) = true := by simp [hs]
    rcases hh with rfl | rfl <;> simp only [List.filter_cons, e1, e2, e3] <;> rfl
  · refine (List.perm_ext_iff_of_nodup (nodup_unshared hhn hn) (List.nodup_cons.2 ⟨hp, hl⟩)).2 fun x => ?_
    rw [mem_unshared, hm, hs, List.mem_cons]
    constructor
    · rintro (⟨rfl | rfl | rfl, h4⟩ | ⟨h4, h5⟩)
      · exact Or.inr hlj
      · exact Or.inl rfl
      · exact absurd (Or.inl rfl) h4
      · rcases h4 with rfl | h4
        · exact absurd (Or.inr (Or.inr rfl)) h5
        · exact Or.inr h4.1
    · rintro (rfl | h4)
      · exact Or.inl ⟨Or.inr (Or.inl rfl), by rintro (h | ⟨h, -⟩); exacts [hpd h, hp h]⟩
      · have h5 : x ≠ p := fun hc => hp (hc ▸ h4)
        have h6 : x ≠ d := fun hc => hd (hc ▸ h4)
        by_cases h7 : x = l[j]
        · exact Or.inl ⟨Or.inl h7, by rintro (h | ⟨-, h⟩); exacts [h6 h, h h7]⟩
        · exact Or.inr ⟨Or.inr ⟨h4, h7⟩, by rintro (h | h | h); exacts [h7 h, h5 h, h6 h]⟩

/-- One term of the covariant derivative. -/
theorem evaluates_term (hE : ∀ x, E.simp x = x) (hS : Scene G V w) {c t : Id'} {C D : TField K}
    {γ : List Nat → K} (hc : InView G V c [1, -1, -1] γ C) (ht : V t = some D) (hD : D.coords = G.c)
    {l : List Sym} (hl : l.Nodup) (hlen : l.length = D.ix.length) {j : Nat} (hj : j < l.length) {p d : Sym}
    (hp : p ∉ l) (hd : d ∉ l) (hpd : p ≠ d) {h : List Sym}
    (hh : h = [l[j], p, d] ∧ D.ix.getD j 1 = 1 ∨ h = [d, p, l[j]] ∧ D.ix.getD j 1 = -1) :
    Evaluates G V w (covariantTerm E c t (h, l.set j d)) fun l' D' => l'.Perm (p :: l) ∧
      ∀ pos ρ, DefaultOn p l D.ix pos → Values G.n ρ → D'.at G l' pos ρ = ∑ k ∈ range G.n,
        γ (h.map (Function.update ρ d k)) * D.val ((l.set j d).map (Function.update ρ d k)) := by
  obtain ⟨q1, q2, q3, q4⟩ := perm_replace hl hj hp hd hpd (hh.imp And.left And.left)
  have hh3 : h.length = 3 := by rcases hh with ⟨rfl, -⟩ | ⟨rfl, -⟩ <;> rfl
  unfold covariantTerm
  refine evaluates_bind (evaluates_init hE hS hc.view hc.coords q3 (by rw [hh3, hc.cfg]; rfl)) ?_
  rintro x V1 t1 D1 w1 hS1 hV1 - hx ⟨hx1, hx2⟩
  obtain rfl : C = D1 := hx2.symm
  refine evaluates_bind (evaluates_init hE hS1 (hV1 _ _ ht) hD q4 (by rw [List.length_set, hlen])) ?_
  rintro y V2 t2 D2 w2 hS2 hV2 - hy ⟨hy1, hy2⟩
  obtain rfl : D = D2 := hy2.symm
  refine evaluates_mono (evaluates_matmul hE hS2 (denotes_extends hx hV2) hy) ?_
  rintro l' D' ⟨e1, -, e3⟩
  rw [hx1, hy1] at e1
  rw [e1]
  refine ⟨q2, fun pos ρ hpos hρ => ?_⟩
  have hdl : d ∉ unshared h (l.set j d) := fun hc => by
    rcases List.mem_cons.1 (q2.mem_iff.1 hc) with h | h
    exacts [hpd h.symm, hd h]
  obtain ⟨v, hv, hγ, hDj⟩ : ∃ v : Int, (v = 1 ∨ v = -1) ∧ h.map (Function.update pos d v) = [1, -1, -1] ∧
      -v = D.ix.getD j 1 := by
    have hlj : l[j] ∈ l := List.getElem_mem hj
    have h1 : l[j] ≠ d := fun hc => hd (hc ▸ hlj)
    have h2 : pos l[j] = D.ix.getD j 1 := by
      rw [← hpos.rest, List.getD_eq_getElem?_getD, List.getElem?_map, List.getElem?_eq_getElem hj]; rfl
    rcases hh with ⟨rfl, h3⟩ | ⟨rfl, h3⟩
    · exact ⟨-1, Or.inr rfl, by
        simp only [List.map_cons, List.map_nil, Function.update_of_ne h1, Function.update_of_ne hpd,
          Function.update_self, h2, h3, hpos.first], by rw [h3]; rfl⟩
    · exact ⟨1, Or.inl rfl, by
        simp only [List.map_cons, List.map_nil, Function.update_of_ne h1, Function.update_of_ne hpd,
          Function.update_self, h2, h3, hpos.first], by rw [h3]⟩
  rw [at_pos (pos' := Function.update pos d v) fun s hs => (Function.update_of_ne (ne_of_mem_of_not_mem hs hdl) _ _).symm,
    ← e1, e3 _ _ (positions_update hpos.positions d hv) hρ, hx1, hy1, q1]
  show sumOver G.n [d] _ ρ = _
  show ∑ k ∈ range G.n, _ = _
  refine sum_congr rfl fun k hk => ?_
  have hρ' : Values G.n (Function.update ρ d k) := by
    intro s
    by_cases hs : s = d
    · subst hs; simpa using mem_range.1 hk
    · rw [Function.update_of_ne hs]; exact hρ s
  show C.at G h _ _ * D.at G (l.set j d) _ _ = _
  have hset : (l.set j d).map (turned [d] (Function.update pos d v)) = D.ix := by
    rw [← hpos.rest]
    apply List.ext_getElem (by simp)
    intro i h1 h2
    rw [List.getElem_map, List.getElem_set, List.getElem_map]
    rw [List.length_map] at h2
    by_cases hij : j = i
    · subst hij
      rw [if_pos rfl]
      have h3 : pos l[j] = D.ix.getD j 1 := by
        rw [← hpos.rest, List.getD_eq_getElem?_getD, List.getElem?_map, List.getElem?_eq_getElem hj]; rfl
      simp [turned, h3, hDj]
    · rw [if_neg hij]
      have h3 : l[i] ≠ d := fun hc => hd (hc ▸ List.getElem_mem h2)
      simp [turned, h3]
  unfold TField.at
  rw [hγ, hset, ← hc.cfg, comp_self (values_map hρ' h) (by rw [hc.cfg]; simpa using hh3), comp_self]
  · rw [hc.val _ (by simpa using hh3) (values_map hρ' h)]
  · exact values_map hρ' _
  · simp [hlen]

/-- The value of a term without labels. -/
theorem set_values {l : List Sym} {d : Sym} (hd : d ∉ l) (ρ : Sym → Nat) (j k : Nat) :
    (l.set j d).map (Function.update ρ d k) = (l.map ρ).set j k := by
  apply List.ext_getElem (by simp)
  intro i h1 h2
  rw [List.getElem_map, List.getElem_set, List.getElem_set, List.getElem_map]
  by_cases hij : j = i
  · rw [if_pos hij, if_pos hij]; simp
  · rw [if_neg hij, if_neg hij]
    have h3 : l[i]'(by simpa using h1) ≠ d := fun hc => hd (hc ▸ List.getElem_mem _)
    rw [Function.update_of_ne h3]

/-- A labelled tensor with the labels `p :: l` in some order and known values. -/
def TermOf (G : Ground K) (V : View K) (p : Sym) (l : List Sym) (ix : List Int) (T : (Sym → Nat) → K) (x : CalcObj) :
    Prop :=
  ∃ u B, Denotes G V x u B ∧ x.labels.Perm (p :: l) ∧
    ∀ pos ρ, DefaultOn p l ix pos → Values G.n ρ → B.at G x.labels pos ρ = T ρ

omit [DecidableEq K] [Algebra ℚ K] in
theorem termOf_extends {V' : View K} (hV : V.Extends V') {p : Sym} {l : List Sym} {ix : List Int}
    {T : (Sym → Nat) → K} {x : CalcObj} (h : TermOf G V p l ix T x) : TermOf G V' p l ix T x := by
  obtain ⟨u, B, h1, h2, h3⟩ := h
  exact ⟨u, B, denotes_extends h1 hV, h2, h3⟩

omit [DecidableEq K] [Algebra ℚ K] in
/-- The terms one after the other. -/
theorem does_terms {p : Sym} {l : List Sym} {ix : List Int} {c t : Id'} {T : List Sym × List Sym → (Sym → Nat) → K}
    {V0 : View K} (lss : List (List Sym × List Sym))
    (h : ∀ ls ∈ lss, ∀ V w, Scene G V w → V0.Extends V → Evaluates G V w (covariantTerm E c t ls) fun l' D' =>
      l'.Perm (p :: l) ∧ ∀ pos ρ, DefaultOn p l ix pos → Values G.n ρ → D'.at G l' pos ρ = T ls ρ) :
    ∀ {V : View K} {w : World K}, Scene G V w → V0.Extends V →
      Does (covariantTerms E c t lss) w fun xs w' => ∃ V', Scene G V' w' ∧ V.Extends V' ∧ OnlyTemps w w' ∧
        List.Forall₂ (fun ls x => TermOf G V' p l ix (T ls) x) lss xs := by
  induction lss with
  | nil => exact fun hS _ => Does.pure ⟨_, hS, extends_refl _, onlyTemps_refl _, List.Forall₂.nil⟩
  | cons ls lss ih =>
    intro V w hS hV
    unfold covariantTerms
    refine Does.bind (h ls (by simp) V w hS hV) ?_
    rintro x w1 ⟨V1, u, B, h1, h2, h3, h4, h5, h6⟩
    refine Does.bind (ih (fun ls' hls => h ls' (by simp [hls])) h1 (extends_trans hV h2)) ?_
    rintro xs w2 ⟨V2, k1, k2, k3, k4⟩
    exact Does.pure ⟨V2, k1, extends_trans h2 k2, onlyTemps_trans h3 k3,
      List.Forall₂.cons (termOf_extends k2 ⟨u, B, h4, h5, h6⟩) k4⟩

omit [DecidableEq K] [Algebra ℚ K] in
/-- Their sum. -/
theorem does_addAll (hE : ∀ x, E.simp x = x) {p : Sym} {l : List Sym} {ix : List Int}
    {T : List Sym × List Sym → (Sym → Nat) → K} {lss : List (List Sym × List Sym)} :
    ∀ {V : View K} {w : World K} {xs : List CalcObj} {x : CalcObj} {T0 : (Sym → Nat) → K}, Scene G V w →
      List.Forall₂ (fun ls x => TermOf G V p l ix (T ls) x) lss xs → TermOf G V p l ix T0 x →
      Does (addAll E x xs) w fun z w' => ∃ V', Scene G V' w' ∧ V.Extends V' ∧ OnlyTemps w w' ∧
        TermOf G V' p l ix (fun ρ => T0 ρ + (lss.map fun ls => T ls ρ).sum) z ∧ z.labels = x.labels := by
  induction lss with
  | nil =>
    intro V w xs x T0 hS hxs hx
    cases hxs
    exact Does.pure ⟨V, hS, extends_refl _, onlyTemps_refl _, by simpa using hx, rfl⟩
  | cons ls lss ih =>
    intro V w xs x T0 hS hxs hx
    cases hxs with
    | cons hy hys =>
      rename_i y ys
      obtain ⟨u, A, h1, h2, h3⟩ := hx
      obtain ⟨v, B, k1, k2, k3⟩ := hy
      unfold addAll
      refine Does.bind (evaluates_add hE hS h1 k1.toNames (k2.trans h2.symm)) ?_
      rintro z w1 ⟨V1, u', D, e1, e2, e3, e4, e5, e6, e7⟩
      refine Does.mono (ih (T0 := fun ρ => T0 ρ + T ls ρ) e1 (hys.imp fun _ _ => termOf_extends e2)
        ⟨u', D, e4, by rw [e5]; exact h2, fun pos ρ hp hρ => ?_⟩) ?_
      · rw [e7 pos ρ hp.positions hρ, h3 pos ρ hp hρ, k3 pos ρ hp hρ]
      · rintro z' w2 ⟨V2, q1, q2, q3, q4, q5⟩
        refine ⟨V2, q1, extends_trans e2 q2, onlyTemps_trans e3 q3, ?_, q5.trans e5⟩
        simpa [List.map_cons, List.sum_cons, add_assoc] using q4

omit [Algebra ℚ K] in
/-- A labelled tensor plus or minus such a sum. -/
theorem does_addSum (hE : ∀ x, E.simp x = x) {p : Sym} {l : List Sym} {ix : List Int} {c t : Id'}
    {T : List Sym × List Sym → (Sym → Nat) → K} {lss : List (List Sym × List Sym)} {V0 : View K}
    (h : ∀ ls ∈ lss, ∀ V w, Scene G V w → V0.Extends V → Evaluates G V w (covariantTerm E c t ls) fun l' D' =>
      l'.Perm (p :: l) ∧ ∀ pos ρ, DefaultOn p l ix pos → Values G.n ρ → D'.at G l' pos ρ = T ls ρ)
    (hS : Scene G V w) (hV : V0.Extends V) {x : CalcObj} {T0 : (Sym → Nat) → K} {u : Id'} {A : TField K}
    (hx : Denotes G V x u A) (hxl : x.labels = p :: l)
    (hxv : ∀ pos ρ, DefaultOn p l ix pos → Values G.n ρ → A.at G x.labels pos ρ = T0 ρ)
    {op : CalcObj → CalcArg K → PyM K CalcObj} {ε : K} (h0 : ∀ x, op x (.num 0) = pure x)
    (hop : ∀ {V : View K} {w : World K} {x y : CalcObj} {u v : Id'} {A B : TField K}, Scene G V w →
      Denotes G V x u A → Denotes G V y v B → y.labels.Perm x.labels →
      Evaluates G V w (op x (.obj y)) fun l D => l = x.labels ∧ D.ix = A.ix ∧ ∀ pos ρ, Positions pos →
      Values G.n ρ → D.at G l pos ρ = A.at G x.labels pos ρ + ε * B.at G y.labels pos ρ)
    {α : Type} {k : CalcObj → PyM K α} {Q : α → World K → Prop}
    (hk : ∀ z w' V' u' D, Scene G V' w' → V.Extends V' → OnlyTemps w w' → z.labels = p :: l → Denotes G V' z u' D →
      D.ix = A.ix → (∀ pos ρ, DefaultOn p l ix pos → Values G.n ρ →
        D.at G z.labels pos ρ = T0 ρ + ε * (lss.map fun ls => T ls ρ).sum) → Does (k z) w' Q) :
    Does (do
      let xs ← covariantTerms E c t lss
      let s ← sumCalc E xs
      let z ← op x s
      k z) w Q := by
  refine Does.bind (does_terms lss h hS hV) ?_
  rintro xs w1 ⟨V1, h1, h2, h3, h4⟩
  rcases h4 with _ | ⟨hy, hys⟩
  · unfold sumCalc
    refine Does.step (a := CalcArg.num 0) rfl ?_
    refine Does.step (a := x) (by rw [h0]; rfl) ?_
    refine hk x w1 V1 u A h1 h2 h3 hxl (denotes_extends hx h2) rfl ?_
    simpa using hxv
  · rename_i ls y lss ys
    unfold sumCalc
    have hz : calcAdd E y (.num 0) w1 = (.ok y, w1) := by unfold calcAdd; dsimp only; rw [if_pos rfl]; rfl
    rw [pyM_bind_assoc]
    refine Does.step hz ?_
    rw [pyM_bind_assoc]
    refine Does.bind (does_addAll hE h1 hys hy) ?_
    rintro s w2 ⟨V2, e1, e2, e3, ⟨v, B, f1, f2, f3⟩, -⟩
    refine Does.step (a := CalcArg.obj s) rfl ?_
    refine Does.bind (hop e1 (denotes_extends hx (extends_trans h2 e2)) f1 (by rw [hxl]; exact f2)) ?_
    rintro z w3 ⟨V3, u', D, q1, q2, q3, q4, q5, q6, q7⟩
    refine hk z w3 V3 u' D q1 (extends_trans h2 (extends_trans e2 q2)) (onlyTemps_trans h3 (onlyTemps_trans e3 q3))
      (q5.trans hxl) q4 q6 fun pos ρ hp hρ => ?_
    rw [q7 pos ρ hp.positions hρ, hxv pos ρ hp hρ, f3 pos ρ hp hρ]
    simp only [List.map_cons, List.sum_cons]

theorem zip_zipIdx {α β : Type} (l : List α) (r : List β) (h : l.length = r.length) (a : α) (b : β) :
    (l.zip r).zipIdx = (List.range l.length).map fun j => ((l.getD j a, r.getD j b), j) := by
  apply List.ext_getElem (by simp [h])
  intro i h1 h2
  have h3 : i < l.length := by simpa using h2
  rw [List.getElem_zipIdx, List.getElem_map, List.getElem_zip, List.getElem_range]
  simp [h3, h ▸ h3]

omit [DecidableEq K] [Algebra ℚ K] in
theorem sum_filter_range {β : Type} (n : Nat) (f : Nat → β) (p : β → Bool) (g : β → K) :
    ((((List.range n).map f).filter p).map g).sum = ∑ j ∈ range n, if p (f j) then g (f j) else 0 := by
  induction n with
  | zero => rfl
  | succ n ih =>
    rw [List.range_succ, List.map_append, List.filter_append, List.map_append, List.sum_append, ih, sum_range_succ]
    congr 1
    by_cases h : p (f n) <;> simp [h]

omit [DecidableEq K] [Algebra ℚ K] in
theorem sum_covariantLabels {p d : Sym} {l : List Sym} {ix : List Int} (h : l.length = ix.length) (sign : Int)
    (T : List Sym × List Sym → K) :
    ((covariantLabels p d l ix sign).map T).sum = ∑ j ∈ range ix.length, if ix.getD j 1 = sign then
      T (if sign = 1 then [l.getD j "", p, d] else [d, p, l.getD j ""], l.set j d) else 0 := by
  unfold covariantLabels
  rw [List.map_map, zip_zipIdx l ix h "" 1, sum_filter_range, h]
  refine sum_congr rfl fun j _ => ?_
  by_cases hj : ix.getD j 1 = sign
  · rw [if_pos hj, if_pos (by simpa using hj)]; rfl
  · rw [if_neg hj, if_neg (by simpa using hj)]

omit [CommRing K] [DecidableEq K] [Algebra ℚ K] in
theorem mem_covariantLabels {p d : Sym} {l : List Sym} {ix : List Int} (h : l.length = ix.length) {sign : Int}
    {ls : List Sym × List Sym} (hls : ls ∈ covariantLabels p d l ix sign) :
    ∃ j, ∃ hj : j < l.length, ix.getD j 1 = sign ∧
      ls = (if sign = 1 then [l[j], p, d] else [d, p, l[j]], l.set j d) := by
  unfold covariantLabels at hls
  rw [zip_zipIdx l ix h "" 1, List.mem_map] at hls
  obtain ⟨q, hq, rfl⟩ := hls
  rw [List.mem_filter, List.mem_map] at hq
  obtain ⟨⟨j, hj, rfl⟩, h2⟩ := hq
  rw [List.mem_range] at hj
  refine ⟨j, hj, by simpa using h2, ?_⟩
  simp [hj]

theorem freeLabels_new {a : Sym} {l : List Sym} (ha : a ∉ l) : freeLabels [a] l = a :: l := by
  unfold freeLabels
  have e1 : [a].filter (fun s => !(l.contains s)) = [a] := by simp [ha]
  rw [e1]
  have : l.filter (fun s => !([a].contains s)) = l := List.filter_eq_self.2 fun s hs => by
    have : s ≠ a := by rintro rfl; exact ha hs
    simp [this]
  rw [this]; rfl

theorem freeLabels_old {a : Sym} {l : List Sym} (ha : a ∈ l) :
    freeLabels [a] l = l.filter fun s => decide (s ≠ a) := by
  unfold freeLabels
  have e1 : [a].filter (fun s => !(l.contains s)) = [] := by simp [ha]
  rw [e1, List.nil_append]
  exact List.filter_congr fun s _ => by rw [Bool.eq_iff_iff]; simp

omit [DecidableEq K] [Algebra ℚ K] in
theorem map_assign (ρ : Sym → Nat) {l : List Sym} (hn : l.Nodup) {J : List Nat} (hJ : J.length = l.length) :
    l.map (assign ρ l J) = J := by
  apply List.ext_getElem (by rw [List.length_map, hJ])
  intro i h1 h2
  rw [List.getElem_map, assign_apply ρ l hn J hJ, if_pos (List.getElem_mem _), hn.idxOf_getElem]
  simp [h2]

/-- The sum of all terms. -/
theorem does_covariantSum (hE : ∀ x, E.simp x = x) (hS : Scene G V w) {c t : Id'} {C D : TField K}
    (hc : InView G V c [1, -1, -1] (christoffelComps E G) C) {y : CalcObj} (hy : Denotes G V y t D) {p d : Sym}
    (hp : p ∉ y.labels) (hd : d ∉ y.labels) (hpd : p ≠ d) {α : Type} {k : CalcObj → PyM K α} {Q : α → World K → Prop}
    (hk : ∀ x w' V' u X, Scene G V' w' → V.Extends V' → OnlyTemps w w' → Denotes G V' x u X → X.ix = -1 :: D.ix →
      (∀ i I, i < G.n → I.length = D.ix.length → (∀ x ∈ I, x < G.n) →
        X.val (i :: I) = covariant E G D.ix D.val i I) → Does (k x) w' Q) :
    Does (do
      let x ← matmulPartial E [p] y (freeLabels [p] y.labels)
      let upper ← covariantTerms E c t (covariantLabels p d y.labels D.ix 1)
      let upper ← sumCalc E upper
      let x ← calcAdd E x upper
      let lower ← covariantTerms E c t (covariantLabels p d y.labels D.ix (-1))
      let lower ← sumCalc E lower
      let x ← calcSub E x lower
      k x) w Q := by
  have hcfg := scene_config hS hy.field
  have hpl : (p :: y.labels).Nodup := List.nodup_cons.2 ⟨hp, hy.nodup⟩
  rw [freeLabels_new hp]
  refine Does.bind (evaluates_gradient hE hS hy hp (List.Perm.refl _)) ?_
  rintro x w1 ⟨V1, u, A, hS1, hV1, hT1, hx, hx1, hx2, hx3⟩
  have hterm : ∀ sign : Int, sign = 1 ∨ sign = -1 → ∀ ls ∈ covariantLabels p d y.labels D.ix sign, ∀ V' w',
      Scene G V' w' → V1.Extends V' → Evaluates G V' w' (covariantTerm E c t ls) fun l' D' =>
      l'.Perm (p :: y.labels) ∧ ∀ pos ρ, DefaultOn p y.labels D.ix pos → Values G.n ρ → D'.at G l' pos ρ =
        ∑ k ∈ range G.n, christoffelComps E G (ls.1.map (Function.update ρ d k)) *
          D.val (ls.2.map (Function.update ρ d k)) := by
    intro sign hsign ls hls V' w' hS' hV'
    obtain ⟨j, hj, h1, rfl⟩ := mem_covariantLabels hy.length hls
    have hV := extends_trans hV1 hV'
    refine evaluates_term hE hS' (C := C) ⟨hV _ _ hc.view, hc.coords, hc.cfg, hc.val⟩ (hV _ _ hy.field) hy.coords hy.nodup
      hy.length hj hp hd hpd ?_
    rcases hsign with rfl | rfl
    · exact Or.inl ⟨by simp, h1⟩
    · exact Or.inr ⟨by simp, h1⟩
  refine does_addSum (T0 := fun ρ => E.diff (G.syms.getD (ρ p) "") (D.val (y.labels.map ρ))) (ix := D.ix)
    hE (hterm 1 (Or.inl rfl)) hS1 (extends_refl V1) hx hx1 (fun pos ρ hpos hρ => ?_) (op := calcAdd E) (ε := 1) (fun x => by
      unfold calcAdd; dsimp only; rw [if_pos rfl]) (fun hS hx hy hp => by
      refine evaluates_mono (evaluates_add hE hS hx hy.toNames hp) ?_
      rintro l D ⟨h1, h2, h3⟩
      exact ⟨h1, h2, fun pos ρ hp hρ => by rw [h3 pos ρ hp hρ, one_mul]⟩) ?_
  · unfold TField.at
    rw [hx1, List.map_cons, hpos.first, hpos.rest, ← hx2, comp_self (values_map hρ _) (by simp [hx2, hy.length])]
    exact hx3 _ _ (hρ p) (by simp [hy.length]) (values_map hρ _)
  · intro x2 w2 V2 u2 X2 hS2 hV2 hT2 hl2 hx2' hix2 hv2
    refine does_addSum (V0 := V1) (V := V2) (ix := D.ix) hE (hterm (-1) (Or.inr rfl)) hS2 hV2 hx2' hl2 hv2
      (op := calcSub E) (ε := -1) (fun x => by unfold calcSub; dsimp only; rw [if_pos rfl]) (fun hS hx hy hp => by
      refine evaluates_mono (evaluates_sub hE hS hx hy hp) ?_
      rintro l D ⟨h1, h2, h3⟩
      exact ⟨h1, h2, fun pos ρ hp hρ => by rw [h3 pos ρ hp hρ]; ring⟩) ?_
    intro x3 w3 V3 u3 X3 hS3 hV3 hT3 hl3 hx3' hix3 hv3
    refine hk x3 w3 V3 u3 X3 hS3 (extends_trans hV1 (extends_trans hV2 hV3))
      (onlyTemps_trans hT1 (onlyTemps_trans hT2 hT3)) hx3' (hix3.trans (hix2.trans hx2)) fun i I hi hI hIn => ?_
    have hJ : (i :: I).length = (p :: y.labels).length := by simp [hI, hy.length]
    have hJn : ∀ x ∈ i :: I, x < G.n := by simpa [hi] using hIn
    have hρ := values_assign (ρ := fun _ => 0) (n := G.n) (fun _ => hS.pos) (p :: y.labels) (i :: I) hJn
    have hmap := map_assign (fun _ => 0) hpl hJ
    set ρ := assign (fun _ => 0) (p :: y.labels) (i :: I) with hρdef
    rw [List.map_cons] at hmap
    have hρp : ρ p = i := (List.cons.inj hmap).1
    have hρl : y.labels.map ρ = I := (List.cons.inj hmap).2
    have hcfg' : Config (-1 :: D.ix).length (-1 :: D.ix) := ⟨rfl, by
      intro x hx
      rcases List.mem_cons.1 hx with rfl | hx
      · exact Or.inr rfl
      · exact hcfg.2 x hx⟩
    have hpos0 := map_posOf hpl (ix := -1 :: D.ix) (by simp [hy.length])
    rw [List.map_cons] at hpos0
    have hdef : DefaultOn p y.labels D.ix (posOf (p :: y.labels) (-1 :: D.ix)) :=
      ⟨positions_posOf _ hcfg', (List.cons.inj hpos0).1, (List.cons.inj hpos0).2⟩
    have hX : X3.ix = -1 :: D.ix := hix3.trans (hix2.trans hx2)
    have hv := hv3 _ ρ hdef hρ
    unfold TField.at at hv
    rw [hl3, List.map_cons, hdef.first, hdef.rest, ← hX, comp_self (values_map hρ _) (by simp [hX, hy.length]),
      List.map_cons, hρp, hρl] at hv
    rw [hv, sum_covariantLabels hy.length, sum_covariantLabels hy.length]
    unfold covariant
    rw [one_mul, neg_one_mul, add_assoc, ← sub_eq_add_neg, ← sum_sub_distrib]
    refine congrArg₂ _ rfl (sum_congr rfl fun j hj => ?_)
    have hj' : j < y.labels.length := by rw [hy.length]; exact mem_range.1 hj
    have hIj : I.getD j 0 = ρ (y.labels.getD j "") := by
      rw [← hρl, List.getD_eq_getElem?_getD, List.getElem?_map, List.getD_eq_getElem?_getD, List.getElem?_eq_getElem hj']
      rfl
    have hlj : y.labels.getD j "" ≠ d := by
      rw [List.getD_eq_getElem?_getD, List.getElem?_eq_getElem hj']
      exact fun hc => hd (hc ▸ List.getElem_mem hj')
    have hcj : D.ix.getD j 1 = 1 ∨ D.ix.getD j 1 = -1 := by
      rw [List.getD_eq_getElem?_getD, List.getElem?_eq_getElem (hy.length ▸ hj')]
      exact hcfg.2 _ (List.getElem_mem _)
    rcases hcj with h | h
    · rw [h]
      simp only [if_true, show ¬ ((1 : Int) = -1) by decide, if_false, sub_zero]
      refine sum_congr rfl fun k _ => ?_
      rw [set_values hd, hρl]
      simp only [List.map_cons, List.map_nil, Function.update_of_ne hlj, Function.update_of_ne hpd, Function.update_self,
        hρp, ← hIj]
      rfl
    · rw [h]
      simp only [if_true, show ¬ ((-1 : Int) = 1) by decide, if_false, zero_sub]
      refine congrArg _ (sum_congr rfl fun k _ => ?_)
      rw [set_values hd, hρl]
      simp only [List.map_cons, List.map_nil, Function.update_of_ne hlj, Function.update_of_ne hpd, Function.update_self,
        hρp, ← hIj]
      rfl

/-- The covariant derivative; `R` are the labels that the sum of all terms gets. -/
theorem derives_covariant (hE : ∀ x, E.simp x = x) (hS : Scene G V w) {Dm : TField K} (hm : LowerMetric G V Dm)
    (hN : NamesOK E G V w Dm.name) {y : CalcObj} {t : Id'} {D : TField K} (hy : Denotes G V y t D)
    (hyn : D.name ≠ "TEMP") {letters d R result : List Sym} {ps : List Sym → Py Sym} {p dm : Sym}
    (h0 : tupleGet (dummySymbols letters (y.labels ++ d)) 0 = .ok dm)
    (hps : ps (dummySymbols letters (y.labels ++ d)) = .ok p) (hp : p ∉ y.labels) (hdm : dm ∉ y.labels) (hpd : p ≠ dm)
    (hRl : R.length = y.labels.length + 1) (hR2 : ∀ s, R.count s ≤ 2) (hres : result = single R)
    (hcfg : (if (sharedLabels d y.labels).isEmpty then -1 :: keptIndices D.ix y.labels result
      else keptIndices D.ix y.labels result) = singleIndices R (-1 :: D.ix)) :
    Derives E G V w Dm.name (matmulCovariant E letters d y ps R result) fun l D' => l = single R ∧
      D'.ix = singleIndices R (-1 :: D.ix) ∧ ∀ pos ρ cfg, Positions pos → Values G.n ρ → Opposed R pos cfg →
        D'.at G l pos ρ = sumOver G.n (repeated R) (fun ρ' => (nabla E G D).comp G cfg (R.map ρ')) ρ := by
  obtain ⟨oy, ey1, -, ey3⟩ := tensorOf_ok hS hy.toNames
  unfold matmulCovariant
  refine Does.step ey1 ?_
  dsimp only
  rw [ey3.metric]
  refine Does.bind (provides_christoffel hE hS hm hN) ?_
  rintro c w1 ⟨V1, C, hS1, hK1, hL1, hN1, hc1, ⟨oc, hc2, -, hc3⟩, hC⟩
  have hy1 : Denotes G V1 y t D := ⟨⟨hy.role, hy.tensor, hK1 _ _ hy.field hyn, hy.nodup, hy.length⟩, hy.coords⟩
  have hm1 := hK1 _ _ hm.view hm.name
  refine Does.lift h0 (Does.lift hps ?_)
  obtain ⟨oy1, ey1, -, ey3⟩ := tensorOf_ok hS1 hy1.toNames
  refine Does.step ey1 ?_
  dsimp only
  rw [ey3.indices]
  refine does_covariantSum hE hS1 hC hy1 hp hdm hpd ?_
  intro x w2 V2 u X hS2 hV2 hT2 hx hXix hX
  obtain ⟨ox, ex1, -, ex3⟩ := tensorOf_ok hS2 hx.toNames
  refine Does.step ex1 ?_
  dsimp only
  refine Does.bind (evaluates_trace hE hS2 (hV2 _ _ hm1) hm.coords hx.field hx.coords
    (by rw [hRl, hXix]; simp [hy.length]) hR2) ?_
  rintro z w3 ⟨V3, u3, Z, hS3, hV3, hT3, hz, hz1, hz2, hz3⟩
  refine Does.bind (yields_calc hE hS3 hz (name := "Result") (symbol := "") (by decide) (indices := result)
    (Or.inr (by rw [hz1, hres]))) ?_
  rintro r w4 ⟨V4, R4, hS4, hK4, hL4, hr4, hrV, hrc, hrn, hrq⟩
  obtain ⟨hrix, hrat⟩ := hrq result (by rw [hz1, hres]; split_ifs with h <;> simp [h])
  refine Does.bind (scene_getDefault hE hS4 hrV hrc) ?_
  rintro a w5 ⟨hS5, hF5, ha⟩
  have hy5 : Denotes G V4 y t D := ⟨⟨hy.role, hy.tensor, hK4 _ _ (hV3 _ _ (hV2 _ _ hy1.field)) hyn, hy.nodup,
    hy.length⟩, hy.coords⟩
  obtain ⟨oy5, ey1, -, ey3⟩ := tensorOf_ok hS5 hy5.toNames
  refine Does.step ey1 ?_
  dsimp only
  rw [ey3.indices, ey3.metric, ey3.coords, hy.coords, hcfg, simp_map ha.1 hE]
  have hzc := scene_config hS3 hz.field
  have hrix' : R4.ix = singleIndices R (-1 :: D.ix) := by
    rw [hrix, hz1, hres, ← hz1, map_posOf hz.nodup hz.length, hz2, hXix]
  have hcR := scene_config hS4 hrV
  rw [hrix'] at hcR ha
  -- the deletion of the intermediate tensor
  have hr5 := new_leaves hr4 (fun o ho => by rw [scene_object_name hS4 hrV ho, hrn]; decide)
    (leaves_onlyTemps (new := fun _ => False) hS4.registry (onlyTemps_frame hF5))
  obtain ⟨n1, n2, orr, n3, n4⟩ := hr5
  obtain ⟨d1, d2⟩ := scene_delete hS5 n2 n3 (by rcases n4 with h | h <;> rw [h] <;> decide)
    (by rcases n4 with h | h <;> rw [h] <;> decide)
  refine Does.bind (Q := fun _ w' => w' = afterDelete r w5) ⟨_, _, d1, rfl⟩ ?_
  rintro _ w6 rfl
  refine Does.mono (evaluates_temp hE d2 ha.1 ha.2.1 hcR "T" (labels := result) (by rw [hres, ← hz1]; exact hz.nodup)
    (by rw [hres, ← hz1, hz.length, hz2, hXix])) ?_
  rintro z' w7 ⟨V7, u7, D7, hS7, hV7, hT7, hd7, h71, h72⟩
  have hL15 : Leaves (· = r) w1 w5 := by
    refine leaves_mono (leaves_trans (leaves_onlyTemps (new := fun _ => False) hS1.registry (onlyTemps_trans hT2 hT3))
      (leaves_trans hL4 (leaves_onlyTemps (new := fun _ => False) hS4.registry (onlyTemps_frame hF5)))) ?_
    rintro i - - (h | h | h)
    exacts [h.elim, h, h.elim]
  have hlen13 : w1.objs.length ≤ w3.objs.length :=
    leaves_length (leaves_onlyTemps (new := fun _ => False) hS1.registry (onlyTemps_trans hT2 hT3))
  have hL17 : Leaves (fun _ => False) w1 w7 := by
    refine leaves_mono (leaves_trans (leaves_deleteNew hS5.registry hL15 (le_trans hlen13 n1))
      (leaves_onlyTemps (new := fun _ => False) d2.registry hT7)) ?_
    rintro i - - (⟨h, h'⟩ | h)
    exacts [h' h, h]
  have hK17 : V1.Keeps V7 := by
    intro s Ds hs hsn
    refine hV7 _ _ ?_
    unfold View.drop
    have hst : s ≠ r := fun hc => by
      have := view_lt hS1 hs
      rw [hc] at this
      exact absurd this (not_lt.2 (le_trans hlen13 n1))
    rw [if_neg hst]
    exact hK4 _ _ (hV3 _ _ (hV2 _ _ hs)) hsn
  refine ⟨V7, u7, D7, hS7, keeps_trans hK1 hK17, ?_, ?_, hd7, by rw [h71, hres], by rw [h72], fun pos ρ cfg hpos hρ hop => ?_⟩
  · refine leaves_derived hL1 (leaves_mono hL17 fun _ _ _ h => h.elim)
  · exact namesOK_leaves hS1 hN1 hK17 hL17 fun _ _ _ h => h.elim
  · rw [h71]
    have e1 : D7.at G result pos ρ = R4.at G result pos ρ := by
      refine at_congr (by rw [h72, hrix']) (by rw [← h71, hd7.length]) (fun J hJ hJn => ?_) pos ρ
      rw [h72] at hJ ⊢
      exact ha.2.2 J hJ hJn
    rw [e1, hrat pos ρ hpos hρ, hz3 pos ρ cfg hpos hρ hop]
    refine congrArg (fun f => sumOver G.n (repeated R) f ρ) (funext fun ρ' => ?_)
    unfold TField.comp
    rw [hXix]
    refine applyFactors_congr _ _ _ fun J hJ hJn => ?_
    rw [List.length_map, hRl] at hJ
    cases J with
    | nil => simp at hJ
    | cons i I => exact hX i I (hJn i (by simp)) (by simpa [hy.length] using hJ) fun x hx => hJn x (by simp [hx])

/-- There are enough letters for the dummy symbols. -/
theorem dummySymbols_two {letters used : List Sym} (hn : letters.Nodup) {u v : Sym} (hu : u ∈ letters) (hv : v ∈ letters)
    (huv : u ≠ v) (hu' : u ∉ used) (hv' : v ∉ used) :
    ∃ s t, dummySymbols letters used = [s, t] ∧ s ≠ t ∧ s ∉ used ∧ t ∉ used := by
  unfold dummySymbols
  have hm : ∀ x, x ∈ letters.filter (fun s => !used.contains s) ↔ x ∈ letters ∧ x ∉ used := by
    intro x; simp
  have hnd : (letters.filter fun s => !used.contains s).Nodup := hn.filter _
  generalize letters.filter (fun s => !used.contains s) = L at hm hnd
  match L, hm, hnd with
  | [], hm, _ => exact absurd ((hm u).2 ⟨hu, hu'⟩) (by simp)
  | [x], hm, _ =>
    have h1 := (hm u).2 ⟨hu, hu'⟩
    have h2 := (hm v).2 ⟨hv, hv'⟩
    rw [List.mem_singleton] at h1 h2
    exact absurd (h1.trans h2.symm) huv
  | x :: y :: L, hm, hnd =>
    refine ⟨x, y, rfl, ?_, ((hm x).1 (by simp)).2, ((hm y).1 (by simp)).2⟩
    rintro rfl
    simp at hnd

theorem single_old {a : Sym} {l : List Sym} (hl : l.Nodup) (ha : a ∈ l) :
    single (a :: l) = (l.filter fun s => decide (s ≠ a)) ∧ repeated (a :: l) = [a] ∧ ∀ s, (a :: l).count s ≤ 2 := by
  have hc : ∀ s ∈ l, l.count s = 1 := fun s hs => List.count_eq_one_of_mem hl hs
  have hle := List.nodup_iff_count_le_one.1 hl
  refine ⟨?_, ?_, fun s => ?_⟩
  · unfold single
    rw [List.filter_cons, if_neg (by simp [hc a ha])]
    refine List.filter_congr fun s hs => ?_
    rw [List.count_cons, hc s hs]
    by_cases h : s = a
    · simp [h]
    · simp [h, Ne.symm h]
  · refine List.perm_singleton.1 ((List.perm_ext_iff_of_nodup ?_ (List.nodup_singleton a)).2 fun x => ?_)
    · unfold repeated; exact List.nodup_dedup _
    · rw [mem_repeated, List.count_cons, List.mem_singleton]
      by_cases h : a = x
      · subst h; simp [hc a ha]
      · simp only [beq_iff_eq, h, if_false]
        have := hle x
        constructor
        · intro h'; omega
        · rintro rfl; exact absurd rfl h
  · rw [List.count_cons]
    have := hle s
    split_ifs <;> omega

theorem positionsIn_map (l : List Sym) (f : Sym → Int) (s : Sym) :
    positionsIn l (l.map f) s = List.replicate (l.count s) (f s) := by
  unfold positionsIn
  induction l with
  | nil => rfl
  | cons x l ih =>
    rw [List.map_cons, List.zip_cons_cons, List.filter_cons, List.count_cons]
    by_cases h : x = s
    · subst h
      simp only [decide_true, if_true, List.map_cons, ih, beq_self_eq_true]
      rfl
    · simp only [h, decide_false, Bool.false_eq_true, if_false, ih, beq_iff_eq, Nat.add_zero]

theorem opposed_old {a : Sym} {l : List Sym} (hl : l.Nodup) (ha : a ∈ l) (pos : Sym → Int) :
    Opposed (a :: l) pos (-1 :: l.map (Function.update pos a 1)) := by
  have hc : ∀ s ∈ l, l.count s = 1 := fun s hs => List.count_eq_one_of_mem hl hs
  have hz : ∀ s, positionsIn (a :: l) (-1 :: l.map (Function.update pos a 1)) s =
      if s = a then [-1, 1] else List.replicate (l.count s) (pos s) := by
    intro s
    have h := positionsIn_map l (Function.update pos a 1) s
    unfold positionsIn at h ⊢
    rw [List.zip_cons_cons, List.filter_cons]
    by_cases hs : s = a
    · subst hs
      simp only [decide_true, if_true, List.map_cons, h, hc s ha, Function.update_self]
      rfl
    · simp only [Ne.symm hs, decide_false, Bool.false_eq_true, if_false, h, hs, Function.update_of_ne (show s ≠ a from hs)]
  refine ⟨by simp, fun s hs => ?_, fun s hs => ?_⟩
  · rw [hz]
    have hsa : s ≠ a := by
      rintro rfl
      simp [hc s ha] at hs
    rw [if_neg hsa]
    rw [List.count_cons, if_neg (by simpa using Ne.symm hsa)] at hs
    rw [show l.count s = 1 by omega]
    rfl
  · rw [hz]
    by_cases hsa : s = a
    · rw [if_pos hsa]; exact Or.inr rfl
    · rw [List.count_cons, if_neg (by simpa using Ne.symm hsa)] at hs
      have := List.nodup_iff_count_le_one.1 hl s
      omega

theorem singleIndices_old {a : Sym} {l : List Sym} (hl : l.Nodup) (ha : a ∈ l) {ix : List Int} (hix : l.length = ix.length)
    (i : Int) : keptIndices ix l (l.filter fun s => decide (s ≠ a)) = singleIndices (a :: l) (i :: ix) := by
  have hc : ∀ s ∈ l, l.count s = 1 := fun s hs => List.count_eq_one_of_mem hl hs
  rw [keptIndices_eq hl hix]
  unfold singleIndices
  rw [List.zip_cons_cons, List.filter_cons, if_neg (by simp [hc a ha])]
  have : l.zip ix = l.map fun s => (s, posOf l ix s) := by
    have hzip : ∀ (m : List Sym) (f : Sym → Int), m.zip (m.map f) = m.map fun s => (s, f s) := by
      intro m f
      induction m with
      | nil => rfl
      | cons x m ih => rw [List.map_cons, List.zip_cons_cons, ih]; rfl
    conv_lhs => rw [← map_posOf hl hix]
    exact hzip _ _
  rw [this, List.filter_map, List.map_map]
  show _ = List.map (posOf l ix) _
  congr 1
  refine List.filter_congr fun s hs => ?_
  simp only [Function.comp_def, List.count_cons, hc s hs, List.mem_filter, hs, true_and, decide_eq_true_eq]
  by_cases h : s = a
  · simp [h]
  · simp [h, Ne.symm h]

/-- The covariant derivative with a new label. -/
theorem derives_gradient (hE : ∀ x, E.simp x = x) (hS : Scene G V w) {Dm : TField K} (hm : LowerMetric G V Dm)
    (hN : NamesOK E G V w Dm.name) {y : CalcObj} {t : Id'} {D : TField K} (hy : Denotes G V y t D)
    (hyn : D.name ≠ "TEMP") {letters R : List Sym} {a : Sym} {ps : List Sym → Py Sym} {p dm : Sym}
    (h0 : tupleGet (dummySymbols letters (y.labels ++ [a])) 0 = .ok dm)
    (hps : ps (dummySymbols letters (y.labels ++ [a])) = .ok p) (hp : p ∉ y.labels) (hdm : dm ∉ y.labels) (hpd : p ≠ dm)
    (ha : a ∉ y.labels) (hR : R.Perm (a :: y.labels)) :
    Derives E G V w Dm.name (matmulCovariant E letters [a] y ps R R) fun l D' => l = R ∧ D'.ix = -1 :: D.ix ∧
      ∀ pos ρ, Positions pos → Values G.n ρ → D'.at G l pos ρ = (nabla E G D).at G R pos ρ := by
  have hnd : R.Nodup := hR.nodup_iff.2 (List.nodup_cons.2 ⟨ha, hy.nodup⟩)
  have hlen : R.length = y.labels.length + 1 := by rw [hR.length_eq]; rfl
  have hix : singleIndices R (-1 :: D.ix) = -1 :: D.ix :=
    singleIndices_nodup hnd (by rw [hlen, hy.length]; rfl)
  refine Does.mono (derives_covariant hE hS hm hN hy hyn h0 hps hp hdm hpd hlen
    (fun s => le_trans (List.nodup_iff_count_le_one.1 hnd s) (by decide)) (single_nodup hnd).symm ?_) ?_
  · have : sharedLabels [a] y.labels = [] := by unfold sharedLabels; simp [ha]
    rw [this, hix, kept_all hy.nodup hy.length fun s hs => hR.mem_iff.2 (by simp [hs])]
    rfl
  · rintro z w' ⟨V', t', D', h1, h2, h3, h4, h5, h6, h7, h8⟩
    refine ⟨V', t', D', h1, h2, h3, h4, h5, h6.trans (single_nodup hnd), h7.trans hix, fun pos ρ hpos hρ => ?_⟩
    have hop : Opposed R pos (R.map pos) := by
      have hc : ∀ s, positionsIn R (R.map pos) s = List.replicate (R.count s) (pos s) := fun s => positionsIn_map R pos s
      refine ⟨by simp, fun s hs => by rw [hc, hs]; rfl, fun s hs => ?_⟩
      have := List.nodup_iff_count_le_one.1 hnd s
      omega
    rw [h8 pos ρ _ hpos hρ hop, repeated_nodup hnd]
    rfl

/-- The covariant divergence. -/
theorem derives_divergence (hE : ∀ x, E.simp x = x) (hS : Scene G V w) {Dm : TField K} (hm : LowerMetric G V Dm)
    (hN : NamesOK E G V w Dm.name) {y : CalcObj} {t : Id'} {D : TField K} (hy : Denotes G V y t D)
    (hyn : D.name ≠ "TEMP") {letters : List Sym} {a : Sym} {ps : List Sym → Py Sym} {p dm : Sym}
    (h0 : tupleGet (dummySymbols letters (y.labels ++ [a])) 0 = .ok dm)
    (hps : ps (dummySymbols letters (y.labels ++ [a])) = .ok p) (hp : p ∉ y.labels) (hdm : dm ∉ y.labels) (hpd : p ≠ dm)
    (ha : a ∈ y.labels) :
    Derives E G V w Dm.name (matmulCovariant E letters [a] y ps (a :: y.labels) (freeLabels [a] y.labels)) fun l D' =>
      l = (y.labels.filter fun s => decide (s ≠ a)) ∧ D'.ix = l.map (posOf y.labels D.ix) ∧
      ∀ pos ρ, Positions pos → Values G.n ρ → D'.at G l pos ρ = ∑ k ∈ range G.n, (nabla E G D).comp G
        (-1 :: y.labels.map (Function.update pos a 1)) (k :: y.labels.map (Function.update ρ a k)) := by
  obtain ⟨s1, s2, s3⟩ := single_old hy.nodup ha
  have hf := freeLabels_old ha
  have hk := singleIndices_old hy.nodup ha hy.length (-1)
  refine Does.mono (derives_covariant hE hS hm hN hy hyn h0 hps hp hdm hpd rfl s3 (hf.trans s1.symm) ?_) ?_
  · have : sharedLabels [a] y.labels = [a] := by unfold sharedLabels; simp [ha]
    rw [this, hf, ← hk]
    rfl
  · rintro z w' ⟨V', t', D', h1, h2, h3, h4, h5, h6, h7, h8⟩
    refine ⟨V', t', D', h1, h2, h3, h4, h5, h6.trans s1, ?_, fun pos ρ hpos hρ => ?_⟩
    · rw [h7, ← hk, keptIndices_eq hy.nodup hy.length, h6.trans s1]
      congr 1
      exact List.filter_congr fun s hs => by simp [hs]
    · rw [h8 pos ρ _ hpos hρ (opposed_old hy.nodup ha pos), s2]
      show (∑ k ∈ range G.n, _) = _
      refine sum_congr rfl fun k _ => ?_
      simp only [sumOver, List.map_cons, Function.update_self]

end PyOGRe
