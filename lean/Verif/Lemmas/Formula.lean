import Verif.Spec.Formula
import Verif.Lemmas.Trace

/-! # Nested formulae: evaluation and meaning agree -/

namespace PyOGRe
open Spec Finset
variable {K : Type} [CommRing K] {E : Engine K} {G : Ground K} {V : View K} {w : World K} {F : Id' → TField K}

theorem mean_labels (f : Formula K) : (f.mean E G F).labels = f.labels := by
  induction f with
  | tensor t labels => rfl
  | scale v f ih => exact ih
  | neg f ih => exact ih
  | add f g ih _ => exact ih
  | sub f g ih _ => exact ih
  | mul f g ih ih' => simp only [Formula.mean, Meaning.mul, Formula.labels, ih, ih']
  | diff a f ih =>
    simp only [Formula.mean, Meaning.diff, Formula.labels, ih]
    split_ifs <;> rfl

theorem formulaOK_extends {V' : View K} (hV : V.Extends V') {f : Formula K} (h : f.OK G V F) : f.OK G V' F := by
  induction f with
  | tensor t labels => exact ⟨hV _ _ h.1, h.2.1, h.2.2.1, h.2.2.2.1, h.2.2.2.2.imp id fun k => ⟨hV _ _ k.1, k.2⟩⟩
  | scale v f ih => exact ih h
  | neg f ih => exact ih h
  | add f g ih ih' => exact ⟨ih h.1, ih' h.2.1, h.2.2⟩
  | sub f g ih ih' => exact ⟨ih h.1, ih' h.2.1, h.2.2⟩
  | mul f g ih ih' => exact ⟨ih h.1, ih' h.2⟩
  | diff a f ih => exact ⟨ih h.1, h.2⟩

theorem idxOf_first {labels : List Sym} {s : Sym} {p0 p1 : Nat} (h01 : p0 < p1) (h1 : p1 < labels.length)
    (hp : ∀ i, i < labels.length → (labels.getD i "" = s ↔ i ∈ [p0, p1])) : labels.idxOf s = p0 := by
  have e0 : labels.getD p0 "" = s := (hp p0 (by omega)).2 (by simp)
  have h0 : p0 < labels.length := by omega
  have hm : s ∈ labels := by
    rw [← e0, List.getD_eq_getElem?_getD, List.getElem?_eq_getElem h0]
    exact List.getElem_mem _
  have hlt := List.idxOf_lt_length_iff.2 hm
  have e1 : labels.getD (labels.idxOf s) "" = s := by
    rw [List.getD_eq_getElem?_getD, List.getElem?_eq_getElem hlt]; simp
  have h2 := (hp _ hlt).1 e1
  have h3 : labels.idxOf s ≤ p0 := by
    by_contra hc
    push Not at hc
    have h4 := List.not_of_lt_findIdx (p := fun x => x == s) (xs := labels) (i := p0) (by simpa [List.idxOf] using hc)
    rw [List.getD_eq_getElem?_getD, List.getElem?_eq_getElem h0] at e0
    simp only [Option.getD_some] at e0
    simp [e0] at h4
  simp only [List.mem_cons, List.not_mem_nil, or_false] at h2
  omega

theorem traceConfig_length (labels : List Sym) (pos : Sym → Int) : (traceConfig labels pos).length = labels.length := by
  simp [traceConfig]

theorem traceConfig_getD (labels : List Sym) (pos : Sym → Int) {i : Nat} (hi : i < labels.length) :
    (traceConfig labels pos).getD i 1 =
      if labels.count (labels.getD i "") = 1 then pos (labels.getD i "")
      else if labels.idxOf (labels.getD i "") = i then 1 else -1 := by
  unfold traceConfig
  rw [List.getD_eq_getElem?_getD, List.getElem?_map, List.getElem?_zipIdx, List.getElem?_eq_getElem hi,
    List.getD_eq_getElem?_getD, List.getElem?_eq_getElem hi]
  simp

theorem opposed_traceConfig (labels : List Sym) (pos : Sym → Int) : Opposed labels pos (traceConfig labels pos) := by
  refine ⟨traceConfig_length _ _, fun s hs => ?_, fun s hs => ?_⟩
  · rw [positionsIn_eq (traceConfig_length _ _)]
    have hl := (positionsOf_length labels s).trans hs
    obtain ⟨p, hp⟩ := List.length_eq_one_iff.1 hl
    have hm : p ∈ positionsOf labels s := by rw [hp]; simp
    unfold positionsOf at hm
    rw [List.mem_filter, List.mem_range] at hm
    have he : labels.getD p "" = s := by simpa using hm.2
    rw [hp, List.map_singleton, traceConfig_getD _ _ hm.1, he, if_pos hs]
  · obtain ⟨p0, p1, e, h01, h1, hp⟩ := positionsOf_two hs
    have hi := idxOf_first h01 h1 hp
    left
    rw [positionsIn_eq (traceConfig_length _ _), e, List.map_cons, List.map_singleton,
      traceConfig_getD _ _ (by omega), traceConfig_getD _ _ h1, (hp p0 (by omega)).2 (by simp), (hp p1 h1).2 (by simp)]
    have hne : p0 ≠ p1 := by omega
    simp [hs, hi, hne]

/-- Only the components at valid places matter. -/
theorem at_congr {A B : TField K} (hix : A.ix = B.ix) {labels : List Sym} (hl : labels.length = A.ix.length)
    (h : ∀ J, J.length = A.ix.length → (∀ x ∈ J, x < G.n) → A.val J = B.val J) (pos : Sym → Int)
    (ρ : Sym → Nat) : A.at G labels pos ρ = B.at G labels pos ρ := by
  unfold TField.at TField.comp
  rw [hix]
  exact applyFactors_congr _ _ _ fun s h1 h2 => h s (by simpa [hl] using h1) h2

/-- The components in the default configuration from the meaning. -/
theorem val_comps (hS : Scene G V w) {D : TField K} {M : Meaning K} (hn : M.labels.Nodup)
    (hl : M.labels.length = D.ix.length) (hD : Config D.ix.length D.ix) (hix : D.ix = M.ix)
    (h : ∀ pos ρ, Positions pos → Values G.n ρ → D.at G M.labels pos ρ = M.value pos ρ) {J : List Nat}
    (hJ : J.length = D.ix.length) (hJn : ∀ x ∈ J, x < G.n) : D.val J = M.comps J := by
  have hv : Values G.n (fun s => J.getD (M.labels.idxOf s) 0) := by
    intro s
    show J.getD (M.labels.idxOf s) 0 < G.n
    rw [List.getD_eq_getElem?_getD]
    cases hx : J[M.labels.idxOf s]? with
    | none => exact hS.pos
    | some y => exact hJn y (List.mem_of_getElem? hx)
  have he : M.labels.map (fun s => J.getD (M.labels.idxOf s) 0) = J := by
    apply List.ext_getElem (by simp [hJ, hl])
    intro i h1 h2
    simp only [List.getElem_map]
    rw [List.Nodup.idxOf_getElem hn, List.getD_eq_getElem?_getD, List.getElem?_eq_getElem h2]
    rfl
  unfold Meaning.comps
  rw [← hix, ← h _ _ (positions_posOf _ hD) hv, at_posOf hn hl hv, he]

theorem traceConfig_nodup {labels : List Sym} (hn : labels.Nodup) (pos : Sym → Int) :
    traceConfig labels pos = labels.map pos := by
  apply List.ext_getElem (by simp [traceConfig])
  intro i h1 h2
  simp only [traceConfig, List.getElem_map, List.getElem_zipIdx]
  rw [if_pos (List.count_eq_one_of_mem hn (List.getElem_mem _))]

/-- A tensor with distinct labels. -/
theorem tensor_value (t : Id') {labels : List Sym} (hn : labels.Nodup) (pos : Sym → Int) (ρ : Sym → Nat) :
    ((Formula.tensor t labels).mean E G F).value pos ρ = (F t).at G labels pos ρ := by
  show sumOver G.n (repeated labels) _ ρ = _
  rw [repeated_nodup hn]
  show (F t).comp G (traceConfig labels pos) (labels.map ρ) = _
  rw [traceConfig_nodup hn]
  rfl

theorem tensor_ix {t : Id'} {labels : List Sym} (hn : labels.Nodup) (hl : labels.length = (F t).ix.length) :
    ((Formula.tensor t labels).mean E G F).ix = (F t).ix := by
  show ((labels.zip (F t).ix).filter fun p => decide (labels.count p.1 = 1)).map (·.2) = _
  rw [List.filter_eq_self.2, List.map_snd_zip hl.ge]
  intro p hp
  rw [List.count_eq_one_of_mem hn (List.of_mem_zip hp).1]
  simp

/-- Evaluating a formula gives what it means. -/
theorem formula_evaluatesWith [DecidableEq K] (hE : ∀ x, E.simp x = x) {mul : CalcObj → CalcObj → PyM K CalcObj}
    {diff : Sym → CalcObj → PyM K CalcObj}
    (hmul : ∀ x y, x.role = .tensor → y.role = .tensor → mul x y = matmulTensors E x y)
    (hdiff : ∀ a x, x.role = .tensor → diff a x = matmulPartial E [a] x (freeLabels [a] x.labels)) (f : Formula K) :
    ∀ {V : View K} {w : World K}, Scene G V w → f.OK G V F →
    Evaluates G V w (f.runWith E mul diff) fun l D => l = f.labels ∧ D.ix = (f.mean E G F).ix ∧
      ∀ pos ρ, Positions pos → Values G.n ρ → D.at G l pos ρ = (f.mean E G F).value pos ρ := by
  induction f with
  | tensor t labels =>
    intro V w hS h
    obtain ⟨h1, h2, h3, h4, h5⟩ := h
    rcases h5 with hn | ⟨h5, h6⟩
    · refine evaluates_mono (evaluates_init hE hS h1 h2 hn h3) ?_
      rintro l D ⟨rfl, rfl⟩
      exact ⟨(single_nodup hn).symm, (tensor_ix hn h3).symm, fun pos ρ hp hρ => (tensor_value t hn pos ρ).symm⟩
    refine evaluates_mono (evaluates_trace hE hS h5 h6 h1 h2 h3 h4) ?_
    rintro l D ⟨rfl, k2, k3⟩
    exact ⟨rfl, k2, fun pos ρ hp hρ => k3 pos ρ _ hp hρ (opposed_traceConfig _ _)⟩
  | scale v f ih =>
    intro V w hS h
    refine evaluates_bind (ih hS h) fun z V' t D w' hS' hV hT hz ⟨k1, k2, k3⟩ => ?_
    refine evaluates_mono (evaluates_mulNum hE hS' hz v) ?_
    rintro l D' ⟨rfl, j2, j3⟩
    exact ⟨k1, j2.trans k2, fun pos ρ hp hρ => by rw [j3 pos ρ hp hρ, k3 pos ρ hp hρ]; rfl⟩
  | neg f ih =>
    intro V w hS h
    refine evaluates_bind (ih hS h) fun z V' t D w' hS' hV hT hz ⟨k1, k2, k3⟩ => ?_
    refine evaluates_mono (evaluates_neg hE hS' hz) ?_
    rintro l D' ⟨rfl, j2, j3⟩
    exact ⟨k1, j2.trans k2, fun pos ρ hp hρ => by rw [j3 pos ρ hp hρ, k3 pos ρ hp hρ]; rfl⟩
  | add f g ih ih' =>
    intro V w hS h
    refine evaluates_bind (ih hS h.1) fun z V' t D w' hS' hV hT hz ⟨k1, k2, k3⟩ => ?_
    refine evaluates_bind (ih' hS' (formulaOK_extends hV h.2.1)) fun y V'' u B w'' hS'' hV' hT' hy ⟨i1, i2, i3⟩ => ?_
    refine evaluates_mono (evaluates_add hE hS'' (denotes_extends hz hV') hy.toNames (by rw [k1, i1]; exact h.2.2)) ?_
    rintro l D' ⟨rfl, j2, j3⟩
    exact ⟨k1, j2.trans k2, fun pos ρ hp hρ => by rw [j3 pos ρ hp hρ, k3 pos ρ hp hρ, i3 pos ρ hp hρ]; rfl⟩
  | sub f g ih ih' =>
    intro V w hS h
    refine evaluates_bind (ih hS h.1) fun z V' t D w' hS' hV hT hz ⟨k1, k2, k3⟩ => ?_
    refine evaluates_bind (ih' hS' (formulaOK_extends hV h.2.1)) fun y V'' u B w'' hS'' hV' hT' hy ⟨i1, i2, i3⟩ => ?_
    refine evaluates_mono (evaluates_sub hE hS'' (denotes_extends hz hV') hy (by rw [k1, i1]; exact h.2.2)) ?_
    rintro l D' ⟨rfl, j2, j3⟩
    exact ⟨k1, j2.trans k2, fun pos ρ hp hρ => by rw [j3 pos ρ hp hρ, k3 pos ρ hp hρ, i3 pos ρ hp hρ]; rfl⟩
  | mul f g ih ih' =>
    intro V w hS h
    refine evaluates_bind (ih hS h.1) fun z V' t D w' hS' hV hT hz ⟨k1, k2, k3⟩ => ?_
    refine evaluates_bind (ih' hS' (formulaOK_extends hV h.2)) fun y V'' u B w'' hS'' hV' hT' hy ⟨i1, i2, i3⟩ => ?_
    rw [hmul _ _ hz.role hy.role]
    refine evaluates_mono (evaluates_matmul hE hS'' (denotes_extends hz hV') hy) ?_
    rintro l D' ⟨rfl, j2, j3⟩
    refine ⟨by rw [k1, i1]; rfl, ?_, fun pos ρ hp hρ => ?_⟩
    · rw [j2]
      simp only [Formula.mean, Meaning.mul, mean_labels, ← k1, ← i1, ← k2, ← i2, unshared, List.map_append]
      congr 1
      · refine List.map_congr_left fun s hs => ?_
        unfold posOf2
        rw [if_pos (List.mem_filter.1 hs).1]
      · refine List.map_congr_left fun s hs => ?_
        unfold posOf2
        rw [if_neg (by simpa using (List.mem_filter.1 hs).2)]
    · rw [j3 pos ρ hp hρ]
      simp only [Formula.mean, Meaning.mul, mean_labels, ← k1, ← i1]
      unfold contracted
      refine sumOver_congr hρ fun ρ' hρ' _ => ?_
      rw [k3 pos ρ' hp hρ', i3 _ ρ' (positions_turned hp _) hρ']
  | diff a f ih =>
    intro V w hS h
    refine evaluates_bind (ih hS h.1) fun z V' t D w' hS' hV hT hz ⟨k1, k2, k3⟩ => ?_
    rw [hdiff _ _ hz.role]
    have hD := scene_config hS' hz.field
    by_cases ha : a ∈ f.labels
    · have ha' : a ∈ z.labels := by rw [k1]; exact ha
      have hfree : freeLabels [a] z.labels = z.labels.filter fun s => decide (s ≠ a) := by
        unfold freeLabels
        have e1 : [a].filter (fun s => !(z.labels.contains s)) = [] := by simp [ha']
        rw [e1, List.nil_append]
        exact List.filter_congr fun s _ => by rw [Bool.eq_iff_iff]; simp
      refine evaluates_mono (evaluates_divergence hE hS' hz ha' (by rw [k1]; exact h.2 ha) hfree) ?_
      rintro l D' ⟨rfl, j2, j3⟩
      simp only [Formula.mean, Formula.labels, Meaning.diff, mean_labels, if_pos ha]
      rw [hfree] at j2 j3 ⊢
      refine ⟨by rw [k1], by rw [j2, k1, k2]; rfl, fun pos ρ hp hρ => ?_⟩
      have hnl : (z.labels.filter fun s => decide (s ≠ a)).Nodup := hz.nodup.filter _
      have hll : (z.labels.filter fun s => decide (s ≠ a)).length = D'.ix.length := by rw [j2]; simp
      rw [← k1]
      refine at_congr (by rw [j2, k2]) hll (fun J hJ hJn => ?_) pos ρ
      dsimp only
      have hv : Values G.n (fun s => J.getD ((z.labels.filter fun s => decide (s ≠ a)).idxOf s) 0) := by
        intro s
        show J.getD _ 0 < G.n
        rw [List.getD_eq_getElem?_getD]
        cases hx : J[(z.labels.filter fun s => decide (s ≠ a)).idxOf s]? with
        | none => exact hS.pos
        | some y => exact hJn y (List.mem_of_getElem? hx)
      have he : (z.labels.filter fun s => decide (s ≠ a)).map
          (fun s => J.getD ((z.labels.filter fun s => decide (s ≠ a)).idxOf s) 0) = J := by
        apply List.ext_getElem (by rw [List.length_map, hll, hJ])
        intro i h1 h2
        simp only [List.getElem_map]
        rw [List.Nodup.idxOf_getElem hnl, List.getD_eq_getElem?_getD, List.getElem?_eq_getElem h2]
        rfl
      have := j3 _ hv
      unfold TField.value at this
      rw [he] at this
      rw [this]
      refine Finset.sum_congr rfl fun k hk => ?_
      rw [← k2, k3 _ _ (positions_update (positions_posOf _ hD) _ (Or.inl rfl)) (values_update hv _ (Finset.mem_range.1 hk))]
    · have ha' : a ∉ z.labels := by rw [k1]; exact ha
      have hfree : freeLabels [a] z.labels = a :: z.labels := by
        unfold freeLabels
        have e1 : [a].filter (fun s => !(z.labels.contains s)) = [a] := by simp [ha']
        rw [e1]
        have : z.labels.filter (fun s => !([a].contains s)) = z.labels := List.filter_eq_self.2 fun s hs => by
          have : s ≠ a := by rintro rfl; exact ha' hs
          simp [this]
        rw [this]; rfl
      rw [hfree]
      refine evaluates_mono (evaluates_gradient hE hS' hz ha' (List.Perm.refl _)) ?_
      rintro l D' ⟨rfl, j2, j3⟩
      simp only [Formula.mean, Formula.labels, Meaning.diff, mean_labels, if_neg ha]
      refine ⟨by rw [k1], by rw [j2, k2]; rfl, fun pos ρ hp hρ => ?_⟩
      rw [← k1]
      refine at_congr (by rw [j2, k2]) (by rw [j2]; simp [hz.length]) (fun J hJ hJn => ?_) pos ρ
      rw [j2] at hJ
      cases J with
      | nil => simp at hJ
      | cons i I =>
        dsimp only [List.headD_cons, List.tail_cons]
        have hI : I.length = D.ix.length := by simpa using hJ
        rw [j3 i I (hJn i (by simp)) hI fun x hx => hJn x (by simp [hx])]
        congr 1
        refine val_comps hS ?_ ?_ hD k2 ?_ hI fun x hx => hJn x (by simp [hx])
        · rw [mean_labels, ← k1]; exact hz.nodup
        · rw [mean_labels, ← k1]; exact hz.length
        · intro pos ρ hp hρ; rw [mean_labels, ← k1]; exact k3 pos ρ hp hρ

theorem formula_evaluates [DecidableEq K] (hE : ∀ x, E.simp x = x) {f : Formula K} (hS : Scene G V w)
    (h : f.OK G V F) : Evaluates G V w (f.run E) fun l D => l = f.labels ∧ D.ix = (f.mean E G F).ix ∧
      ∀ pos ρ, Positions pos → Values G.n ρ → D.at G l pos ρ = (f.mean E G F).value pos ρ :=
  formula_evaluatesWith hE (fun _ _ _ _ => rfl) (fun _ _ _ => rfl) f hS h

theorem formula_eval [DecidableEq K] [Algebra ℚ K] (hE : ∀ x, E.simp x = x) (letters : List Sym) {f : Formula K}
    (hS : Scene G V w) (h : f.OK G V F) :
    Evaluates G V w (f.eval E letters) fun l D => l = f.labels ∧ D.ix = (f.mean E G F).ix ∧
      ∀ pos ρ, Positions pos → Values G.n ρ → D.at G l pos ρ = (f.mean E G F).value pos ρ := by
  refine formula_evaluatesWith hE (fun x y hx hy => ?_) (fun a x hx => ?_) f hS h
  · unfold calcMatmul
    rw [hx, hy]
  · show calcMatmul E letters ⟨.partialD, none, [a]⟩ x = _
    unfold calcMatmul
    rw [hx]

end PyOGRe
