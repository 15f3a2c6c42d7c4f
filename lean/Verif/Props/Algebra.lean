import Verif.Lemmas.Differentiated
import Verif.Props.Formula
import Verif.Props.NormRate

/-!
# The laws of tensor algebra

C121 (formulae that are equal by the laws of algebra evaluate to the same tensor).  The specification is
`Spec/Algebra.lean`.
-/

namespace PyOGRe
open Spec Finset MvPolynomial
variable {K : Type} [CommRing K] {E : Engine K} {G : Ground K} {V : View K} {w : World K} {F : Id' → TField K}

/-- Formulae with the same labels and values. -/
theorem sameTensor_mean [DecidableEq K] [Algebra ℚ K] (hE : EngineOK E) (hS : Scene G V w) (letters : List Sym)
    {f f' : Formula K} (hf : f.OK G V F) (hf' : f'.OK G V F) (hl : f'.labels.Perm f.labels)
    (h : ∀ pos ρ, Positions pos → Values G.n ρ → (f.mean E G F).value pos ρ = (f'.mean E G F).value pos ρ) :
    SameTensor G V w (f.eval E letters) (f'.eval E letters) := by
  refine ⟨f.labels, (f.mean E G F).value, evaluates_mono (C69_formula hE hS letters hf) ?_,
    evaluates_mono (C69_formula hE hS letters hf') ?_⟩
  · rintro l D ⟨rfl, -, k3⟩
    exact ⟨.refl _, k3⟩
  · rintro l D ⟨rfl, -, k3⟩
    exact ⟨hl, fun pos ρ hp hρ => (k3 pos ρ hp hρ).trans (h pos ρ hp hρ).symm⟩

omit [CommRing K] in
/-- The session determines the tensor that a labelled tensor denotes. -/
theorem denotes_unique [CommRing K] {G : Ground K} {V V' : View K} {w : World K} {x : CalcObj} {t t' : Id'} {D D' : TField K}
    (hS : Scene G V w) (hS' : Scene G V' w) (hx : Denotes G V x t D) (hx' : Denotes G V' x t' D') (pos : Sym → Int) (ρ : Sym → Nat) :
    D.at G x.labels pos ρ = D'.at G x.labels pos ρ := by
  have ht : t = t' := by
    have := hx.tensor.symm.trans hx'.tensor
    simpa using this
  subst ht
  obtain ⟨o, h1, h2⟩ := hS.shows t D hx.field
  obtain ⟨o', h1', h2'⟩ := hS'.shows t D' hx'.field
  have ho : o = o' := by
    rw [h1] at h1'
    simpa using h1'
  subst ho
  have hix : D.ix = D'.ix := h2.indices.symm.trans h2'.indices
  refine at_congr hix hx.length (fun J hJ hJn => ?_) pos ρ
  obtain ⟨d, d1, -, d3, d4, -⟩ := h2.stored
  obtain ⟨d', d1', -, d3', d4', -⟩ := h2'.stored
  obtain ⟨a, ha⟩ := d4 hx.coords
  have hd : d = d' := by
    rw [d1] at d1'
    simpa using d1'
  subst hd
  have e := (d3 _ _ ha).2.2.2 J hJ hJn
  have e' := (d3' _ _ (hix ▸ ha)).2.2.2 J (hix ▸ hJ) hJn
  rw [comp_self hJn hJ] at e
  rw [comp_self hJn (hix ▸ hJ)] at e'
  exact e.symm.trans e'

/-- Formulae with different values. -/
theorem notSame [DecidableEq K] [Algebra ℚ K] (hE : EngineOK E) (hS : Scene G V w) (letters : List Sym)
    {f f' : Formula K} (hf : f.OK G V F) (hf' : f'.OK G V F) {pos : Sym → Int} (hp : Positions pos) {ρ : Sym → Nat}
    (hρ : Values G.n ρ) (h : (f.mean E G F).value pos ρ ≠ (f'.mean E G F).value pos ρ) :
    ¬ SameTensor G V w (f.eval E letters) (f'.eval E letters) := by
  rintro ⟨l, T, h1, h2⟩
  have key : ∀ {f : Formula K}, f.OK G V F → (Evaluates G V w (f.eval E letters) fun l' D => l'.Perm l ∧
      ∀ pos ρ, Positions pos → Values G.n ρ → D.at G l' pos ρ = T pos ρ) → (f.mean E G F).value pos ρ = T pos ρ := by
    intro f hf h1
    obtain ⟨z, w1, e1, V1, t1, D1, s1, -, -, d1, a1, -, b1⟩ := C69_formula hE hS letters hf
    obtain ⟨z', w1', e1', V1', t1', D1', s1', -, -, d1', -, b1'⟩ := h1
    rw [e1] at e1'
    obtain ⟨rfl, rfl⟩ : z = z' ∧ w1 = w1' := by simpa using e1'
    rw [← b1 pos ρ hp hρ, ← b1' pos ρ hp hρ]
    exact denotes_unique s1 s1' d1 d1' pos ρ
  exact h ((key hf h1).trans (key hf' h2).symm)

/-- **C121** Two formulae that are equal by the laws of tensor algebra evaluate, from the same session, to the same labelled
tensor `T`: at every assignment of positions and values to the labels.  If one of them makes sense, so does the other. -/
theorem C121_laws [DecidableEq K] [Algebra ℚ K] (hE : EngineOK E) (hS : Scene G V w) (letters : List Sym)
    {f f' : Formula K} (hf : f.OK G V F) (hr : Laws f f') :
    SameTensor G V w (f.eval E letters) (f'.eval E letters) := by
  obtain ⟨h1, h2⟩ := laws_mean (F := F) hE.simp_eq hS hr
  obtain ⟨h3, h4⟩ := h2 hf
  exact sameTensor_mean hE hS letters hf (h1.1 hf) h3 fun pos ρ hp hρ => (h4 pos ρ hp hρ).symm

theorem yields_mono {m : PyM K Id'} {P Q : TField K → Prop} (h : Yields G V w m P) (hPQ : ∀ D, P D → Q D) : Yields G V w m Q :=
  Does.mono h fun _ _ ⟨V', D, h1, h2, h3, h4, h5, h6, h7⟩ => ⟨V', D, h1, h2, h3, h4, h5, h6, hPQ _ h7⟩

/-- **C121** The tensors that `Calc` makes of the two formulae have the same components in every configuration. -/
theorem C121_calc [DecidableEq K] [Algebra ℚ K] (hE : EngineOK E) (hS : Scene G V w) (letters : List Sym)
    {f f' : Formula K} (hf : f.OK G V F) (hr : Laws f f') {name symbol : String} (hname : name ≠ "TEMP") {order : List Sym}
    (hne : order ≠ []) (hi : order.Perm f.labels) :
    ∃ T : List Int → List Nat → K,
      (Yields G V w (do let x ← f.eval E letters; calcResult E x name symbol order) fun D => ∀ cfg J,
        Config order.length cfg → J.length = order.length → (∀ j ∈ J, j < G.n) → D.comp G cfg J = T cfg J) ∧
      Yields G V w (do let x ← f'.eval E letters; calcResult E x name symbol order) fun D => ∀ cfg J,
        Config order.length cfg → J.length = order.length → (∀ j ∈ J, j < G.n) → D.comp G cfg J = T cfg J := by
  obtain ⟨h1, h2⟩ := laws_mean (F := F) hE.simp_eq hS hr
  obtain ⟨h3, h4⟩ := h2 hf
  have hnd : order.Nodup := hi.nodup_iff.2 (mean_facts hE.simp_eq hS hf).1
  have key : ∀ (D : TField K), (∀ pos ρ, Positions pos → Values G.n ρ → D.at G order pos ρ = (f.mean E G F).value pos ρ) →
      ∀ cfg J, Config order.length cfg → J.length = order.length → (∀ j ∈ J, j < G.n) → D.comp G cfg J =
        (f.mean E G F).value (posOf order cfg) fun s => J.getD (order.idxOf s) 0 := by
    intro D hD cfg J hc hJ hJn
    rw [← hD _ _ (positions_posOf _ hc) (values_getD hS.pos hJn _)]
    unfold TField.at
    rw [map_posOf hnd hc.1.symm]
    congr 1
    apply List.ext_getElem (by simp [hJ])
    intro i k1 k2
    rw [List.getElem_map, List.Nodup.idxOf_getElem hnd, List.getD_eq_getElem?_getD, List.getElem?_eq_getElem k1]
    rfl
  refine ⟨fun cfg J => (f.mean E G F).value (posOf order cfg) fun s => J.getD (order.idxOf s) 0, yields_mono (C69_calc hE hS letters hf hname hne hi) ?_,
    yields_mono (C69_calc hE hS letters (h1.1 hf) hname hne (hi.trans h3.symm)) ?_⟩
  · rintro D ⟨-, -, k3⟩
    exact key D k3
  · rintro D ⟨-, -, k3⟩
    exact key D fun pos ρ hp hρ => (k3 pos ρ hp hρ).trans (h4 pos ρ hp hρ)

/-- The tensors of the plane. -/
noncomputable def Spec.planeFields (t : Id') : TField Poly :=
  if t = 2 then ⟨"Flat", 0, [-1, -1], flat.get⟩ else if t = 3 then ⟨"V", 0, [1], aVector.get⟩ else ⟨"T", 0, [1, -1], aTensor.get⟩

theorem plane_ok {G : Ground Poly} {V : View Poly} (hc : G.c = 0) (h3 : V 3 = some ⟨"V", 0, [1], aVector.get⟩)
    (h4 : V 4 = some ⟨"T", 0, [1, -1], aTensor.get⟩) (a b c : Sym) (hbc : b ≠ c) :
    (Formula.tensor 3 [a]).OK G V planeFields ∧ (Formula.tensor 4 [b, c]).OK G V planeFields := by
  refine ⟨⟨h3, hc.symm, rfl, fun s => ?_, Or.inl (by simp)⟩, ⟨h4, hc.symm, rfl, fun s => ?_, Or.inl (by simp [hbc])⟩⟩
  · have := List.count_le_length (a := s) (l := [a])
    simp only [List.length_singleton] at this
    omega
  · exact List.count_le_length (a := s) (l := [b, c])

/-- C121: `(V(a) @ T(a b)) @ (V(b) + V(b))` and `V(a) @ (2 * (V(b) @ T(a b)))`. -/
example : ∃ (G : Ground Poly) (V : View Poly) (w : World Poly) (F : Id' → TField Poly) (f f' : Formula Poly), Scene G V w ∧
    f.OK G V F ∧ Laws f f' ∧ f = .mul (.mul (.tensor 3 ["a"]) (.tensor 4 ["a", "b"])) (.add (.tensor 3 ["b"]) (.tensor 3 ["b"])) ∧
    f' = .mul (.tensor 3 ["a"]) (.scale 2 (.mul (.tensor 3 ["b"]) (.tensor 4 ["a", "b"]))) := by
  obtain ⟨G, V, w, hS, h1, h2, h3, h4, h5, h6, h7, h8⟩ := plane
  obtain ⟨k1, k2⟩ := plane_ok h2 h7 h8 "a" "a" "b" (by decide)
  obtain ⟨k3, -⟩ := plane_ok h2 h7 h8 "b" "a" "b" (by decide)
  refine ⟨G, V, w, planeFields, .mul (.mul (.tensor 3 ["a"]) (.tensor 4 ["a", "b"])) (.add (.tensor 3 ["b"]) (.tensor 3 ["b"])), _, hS,
    ⟨⟨k1, k2⟩, k3, k3, .refl _⟩, ?_, rfl, rfl⟩
  refine .trans (.mul_assoc _ _ _ (by decide)) (.mul (.refl _) ?_)
  refine .trans (.mul (.refl _) (?_ : Laws _ (.scale (2 : Poly) (.tensor 3 ["b"])))) (.trans (.mul_scale _ _ _) (.scale _ (.mul_comm _ _)))
  refine .trans (.add (.symm (.scale_one _)) (.symm (.scale_one _))) ?_
  have h := Laws.symm (Laws.add_scale 1 1 (.tensor 3 ["b"] : Formula Poly))
  rwa [one_add_one_eq_two] at h

/-- **C121** A label that is common to three factors: `(V(a) @ V(a)) @ T(a b)` and `V(a) @ (V(a) @ T(a b))` have the same labels
but different values. -/
theorem C121_threefold_false : ∃ (E : Engine Poly) (G : Ground Poly) (V : View Poly) (w : World Poly) (F : Id' → TField Poly)
    (f g h : Formula Poly), EngineOK E ∧ Scene G V w ∧ f.OK G V F ∧ g.OK G V F ∧ h.OK G V F ∧
    (Formula.mul (.mul f g) h).labels = ["a", "b"] ∧ (Formula.mul f (.mul g h)).labels = ["a", "b"] ∧ ∀ letters,
    ¬ SameTensor G V w ((Formula.mul (.mul f g) h).eval E letters) ((Formula.mul f (.mul g h)).eval E letters) := by
  obtain ⟨G, V, w, hS, h1, h2, h3, h4, h5, h6, h7, h8⟩ := plane
  obtain ⟨k1, k2⟩ := plane_ok h2 h7 h8 "a" "a" "b" (by decide)
  refine ⟨polyEngine, G, V, w, planeFields, .tensor 3 ["a"], .tensor 3 ["a"], .tensor 4 ["a", "b"], polyEngine_ok, hS, k1, k1, k2,
    by decide, by decide, fun letters => notSame polyEngine_ok hS letters (f := .mul (.mul _ _) _) (f' := .mul _ (.mul _ _))
      ⟨⟨k1, k1⟩, k2⟩ ⟨k1, k1, k2⟩ (pos := fun s => if s = "b" then -1 else 1) (fun s => by dsimp only; split_ifs <;> simp)
      (ρ := fun _ => 0) (fun _ => hS.pos) ?_⟩
  have v0 : aVector.get [0] = X "x" * X "y" := rfl
  have v1 : aVector.get [1] = 3 := rfl
  have t0 : aTensor.get [0, 0] = X "x" := rfl
  have t1 : aTensor.get [1, 0] = 5 := rfl
  have hA : ∀ (pos : Sym → Int) (ρ : Sym → Nat), ((Formula.tensor 3 ["a"]).mean polyEngine G planeFields).value pos ρ =
      (planeFields 3).at G ["a"] pos ρ := tensor_value 3 (by decide)
  have hT : ∀ (pos : Sym → Int) (ρ : Sym → Nat), ((Formula.tensor 4 ["a", "b"]).mean polyEngine G planeFields).value pos ρ =
      (planeFields 4).at G ["a", "b"] pos ρ := tensor_value 4 (by decide)
  have hVat : ∀ (pos : Sym → Int) (ρ : Sym → Nat), (pos "a" = 1 ∨ pos "a" = -1) → ρ "a" < 2 → (planeFields 3).at G ["a"] pos ρ = aVector.get [ρ "a"] := by
    intro pos ρ hp hr
    unfold TField.at TField.comp
    rcases hp with hp | hp <;> simp only [planeFields, List.map_cons, List.map_nil, hp, List.zipWith_cons_cons,
      List.zipWith_nil_left, applyFactors_cons, applyFactors_nil, h1, sum_range_succ, sum_range_zero] <;>
      interval_cases ρ "a" <;> simp [indexFactor, h5, delta, applyFactors_cons, applyFactors_nil, sum_range_succ]
  have hTat : ∀ (pos : Sym → Int) (ρ : Sym → Nat), (pos "a" = 1 ∨ pos "a" = -1) → pos "b" = -1 → ρ "a" < 2 → ρ "b" < 2 → (planeFields 4).at G ["a", "b"] pos ρ = aTensor.get [ρ "a", ρ "b"] := by
    intro pos ρ hp hb hr hr'
    unfold TField.at TField.comp
    rcases hp with hp | hp <;> simp only [planeFields, List.map_cons, List.map_nil, hp, hb, List.zipWith_cons_cons,
      List.zipWith_nil_left, applyFactors_cons, applyFactors_nil, h1, sum_range_succ, sum_range_zero] <;>
      interval_cases ρ "a" <;> interval_cases ρ "b" <;> simp [indexFactor, h5, delta, applyFactors_cons, applyFactors_nil, sum_range_succ]
  have e1 : ∀ pos ρ, ((Formula.mul (.mul (.tensor 3 ["a"]) (.tensor 3 ["a"])) (.tensor 4 ["a", "b"])).mean polyEngine G
      planeFields).value pos ρ = (∑ k ∈ range G.n, (planeFields 3).at G ["a"] pos (Function.update ρ "a" k) *
        (planeFields 3).at G ["a"] (turned ["a"] pos) (Function.update ρ "a" k)) * (planeFields 4).at G ["a", "b"] (turned [] pos) ρ := by
    intro pos ρ
    rw [← hT]
    simp only [← hA]
    rfl
  have e2 : ∀ pos ρ, ((Formula.mul (.tensor 3 ["a"]) (.mul (.tensor 3 ["a"]) (.tensor 4 ["a", "b"]))).mean polyEngine G
      planeFields).value pos ρ = (planeFields 3).at G ["a"] pos ρ * ∑ k ∈ range G.n,
        (planeFields 3).at G ["a"] (turned [] pos) (Function.update ρ "a" k) *
        (planeFields 4).at G ["a", "b"] (turned ["a"] (turned [] pos)) (Function.update ρ "a" k) := by
    intro pos ρ
    simp only [← hA, ← hT]
    rfl
  rw [e1, e2, h1, sum_range_succ, sum_range_one, sum_range_succ, sum_range_one]
  repeat rw [hVat _ _ (by simp [turned]) (by simp)]
  repeat rw [hTat _ _ (by simp [turned]) (by simp [turned]) (by simp) (by simp)]
  simp only [Function.update_self, Function.update_of_ne (show "b" ≠ "a" by decide), v0, v1, t0, t1]
  intro h
  have h := congrArg (MvPolynomial.eval fun s => if s = "x" then 1 else 0) h
  simp only [map_mul, map_add, eval_X, map_ofNat, if_pos rfl, if_neg (show ¬ "y" = "x" by decide)] at h
  norm_num at h

/-- The vector zero. -/
noncomputable def nothing : Arr (PowerSeries ℚ) := ⟨[2], [0, 0]⟩

/-- A session with the metric `diag(1, 1+x)`, the vector `v = (0, 1)` for upper indices and the vector `z = (0, 0)` for lower ones. -/
theorem slanted : ∃ (G : Ground (PowerSeries ℚ)) (V : View (PowerSeries ℚ)) (w : World (PowerSeries ℚ)) (F : Id' → TField (PowerSeries ℚ))
    (t u : Id'), Scene G V w ∧ G.n = 2 ∧ G.syms = ["x", "y"] ∧ (∀ i j, G.g i j = entry stretched i j) ∧
    F t = ⟨"V", G.c, [1], secondUnit.get⟩ ∧ F u = ⟨"Z", G.c, [-1], nothing.get⟩ ∧ (Formula.tensor t ["a"]).OK G V F ∧
    (Formula.tensor u ["a"]).OK G V F := by
  obtain ⟨G, V, w, h1, h2, h3, h4, h5, h6, -, h8⟩ := plainDeclared_names seriesDiff (syms := ["x", "y"]) (a := stretched)
    (b := unstretched) rfl rfl stretched_symm stretched_inverse (Or.inl rfl) (by simp)
  have hn : G.n = 2 := h2
  obtain ⟨o, w1, -, hS1, -, -, -, -, -, hx⟩ := scene_new h1 (kind := .tensor) (Or.inl rfl) "V" "v" (a := secondUnit) (ix := [1])
    (f := secondUnit.get) ⟨rfl, by rw [hn]; rfl, fun _ _ _ => rfl⟩ ⟨rfl, by simp⟩
  obtain ⟨o2, w2, -, hS2, -, -, -, -, -, hx2⟩ := scene_new hS1 (kind := .tensor) (Or.inl rfl) "Z" "z" (a := nothing) (ix := [-1])
    (f := nothing.get) ⟨rfl, by rw [hn]; rfl, fun _ _ _ => rfl⟩ ⟨rfl, by simp⟩
  set t := w.objs.length with ht
  set u := w1.objs.length with hu
  have hv := hx2 t _ (if_pos rfl : View.add V t ⟨"V", G.c, [1], secondUnit.get⟩ t = some _)
  set V2 := View.add (View.add V t ⟨"V", G.c, [1], secondUnit.get⟩) u ⟨"Z", G.c, [-1], nothing.get⟩ with hV2
  have hz : V2 u = some ⟨"Z", G.c, [-1], nothing.get⟩ := if_pos rfl
  have htu : t ≠ u := by
    intro e
    rw [e, hz] at hv
    simp at hv
  let F : Id' → TField (PowerSeries ℚ) := fun i => if i = t then ⟨"V", G.c, [1], secondUnit.get⟩ else ⟨"Z", G.c, [-1], nothing.get⟩
  have hFt : F t = ⟨"V", G.c, [1], secondUnit.get⟩ := if_pos rfl
  have hFu : F u = ⟨"Z", G.c, [-1], nothing.get⟩ := if_neg (Ne.symm htu)
  have hcount : ∀ s : Sym, ["a"].count s ≤ 2 := fun s => by
    have := List.count_le_length (a := s) (l := ["a"])
    simp only [List.length_singleton] at this
    omega
  exact ⟨G, V2, w2, F, t, u, hS2, hn, h3, h6 rfl, hFt, hFu,
    ⟨by rw [hFt]; exact hv, by rw [hFt], by rw [hFt]; rfl, hcount, Or.inl (by simp)⟩,
    ⟨by rw [hFu]; exact hz, by rw [hFu], by rw [hFu]; rfl, hcount, Or.inl (by simp)⟩⟩

section
variable {G : Ground (PowerSeries ℚ)} {V : View (PowerSeries ℚ)} {w : World (PowerSeries ℚ)} {F : Id' → TField (PowerSeries ℚ)} {t u : Id'}

theorem slanted_zero (hn : G.n = 2) (hFu : F u = ⟨"Z", G.c, [-1], nothing.get⟩) (pos : Sym → Int) (ρ : Sym → Nat) :
    (F u).at G ["a"] pos ρ = 0 := by
  have z0 : nothing.get [0] = 0 := rfl
  have z1 : nothing.get [1] = 0 := rfl
  unfold TField.at TField.comp
  simp [hFu, applyFactors_cons, applyFactors_nil, hn, sum_range_succ, z0, z1]

theorem slanted_lower (hn : G.n = 2) (hg : ∀ i j, G.g i j = entry stretched i j) (hFt : F t = ⟨"V", G.c, [1], secondUnit.get⟩)
    {pos : Sym → Int} (hp : pos "a" = -1) {ρ : Sym → Nat} (hρ : ρ "a" < 2) :
    (F t).at G ["a"] pos ρ = if ρ "a" = 1 then onePlus else 0 := by
  have v0 : secondUnit.get [0] = 0 := rfl
  have v1 : secondUnit.get [1] = 1 := rfl
  have g00 : G.g 0 0 = 1 := hg 0 0
  have g01 : G.g 0 1 = 0 := hg 0 1
  have g0 : G.g 1 0 = 0 := hg 1 0
  have g1 : G.g 1 1 = onePlus := hg 1 1
  unfold TField.at TField.comp
  simp only [List.map_cons, List.map_nil, hp, hFt]
  interval_cases ρ "a" <;> simp [applyFactors_cons, applyFactors_nil, hn, sum_range_succ, v0, v1, indexFactor, g00, g01, g0, g1]

theorem slanted_upper (hn : G.n = 2) (hFt : F t = ⟨"V", G.c, [1], secondUnit.get⟩)
    {pos : Sym → Int} (hp : pos "a" = 1) {ρ : Sym → Nat} (hρ : ρ "a" < 2) :
    (F t).at G ["a"] pos ρ = if ρ "a" = 1 then 1 else 0 := by
  have v0 : secondUnit.get [0] = 0 := rfl
  have v1 : secondUnit.get [1] = 1 := rfl
  unfold TField.at TField.comp
  simp only [List.map_cons, List.map_nil, hp, hFt]
  interval_cases ρ "a" <;> simp [applyFactors_cons, applyFactors_nil, hn, sum_range_succ, v0, v1, indexFactor, delta]

theorem series_zero (s : Sym) : (plainEngine seriesDiff).diff s 0 = 0 := by
  have := seriesDiff_calculus.add s 0 0
  rw [add_zero] at this
  exact left_eq_add.1 this

theorem series_one (s : Sym) : (plainEngine seriesDiff).diff s 1 = 0 := by
  have := seriesDiff_calculus.mul s 1 1
  rw [mul_one, mul_one, one_mul] at this
  exact left_eq_add.1 this

/-- The components of `v` are constant. -/
theorem slanted_rate (hS : Scene G V w) (hn : G.n = 2) (hFt : F t = ⟨"V", G.c, [1], secondUnit.get⟩)
    (k1 : (Formula.tensor t ["a"]).OK G V F) {pos : Sym → Int} (hp : Positions pos) (hc : pos "c" = -1) {ρ : Sym → Nat} (hρ : Values G.n ρ) :
    ((Formula.diff "c" (.tensor t ["a"])).mean (plainEngine seriesDiff) G F).value pos ρ = 0 := by
  have hl : "c" ∉ single ["a"] := by decide
  have hE := plainEngine_ok seriesDiff
  obtain ⟨n1, A, n2, n3, n4⟩ := mean_at hE.simp_eq hS (f := .diff "c" (.tensor t ["a"])) (F := F) ⟨k1, fun h => absurd h hl⟩
  have hp1 := positions_update hp "a" (Or.inl rfl : (1 : Int) = 1 ∨ (1 : Int) = -1)
  have hu : pos = Function.update (Function.update pos "a" 1) "a" (pos "a") := by simp
  rw [n4 _ _ hp hρ, hu, n2 "a" (by show "a" ∈ ["c", "a"]; simp) _ _ _ hp1 hρ (hp "a")]
  refine sum_eq_zero fun k hk => ?_
  have hk : k < G.n := mem_range.1 hk
  have hρk := values_update hρ "a" hk
  rw [← n4 _ _ hp1 hρk, diff_default hE.simp_eq hS k1 hl hp1 (by rw [Function.update_of_ne (by decide), hc]) hρk
    (by rw [tensor_ix (by simp) (by rw [hFt]; rfl), hFt]; rfl), tensor_value t (by simp),
    slanted_upper hn hFt (by simp) (by simpa [hn] using hk)]
  unfold Ground.d
  split_ifs
  · rw [series_one, mul_zero]
  · rw [series_zero, mul_zero]

/-- Also with `z` added to it. -/
theorem slanted_sum_rate (hS : Scene G V w) (hn : G.n = 2) (hFt : F t = ⟨"V", G.c, [1], secondUnit.get⟩)
    (hFu : F u = ⟨"Z", G.c, [-1], nothing.get⟩) (k1 : (Formula.tensor t ["a"]).OK G V F) (k2 : (Formula.tensor u ["a"]).OK G V F)
    {pos : Sym → Int} (hp : Positions pos) (hc : pos "c" = -1) {ρ : Sym → Nat} (hρ : Values G.n ρ) :
    ((Formula.diff "c" (.add (.tensor t ["a"]) (.tensor u ["a"]))).mean (plainEngine seriesDiff) G F).value pos ρ = 0 := by
  have hl : "c" ∉ single ["a"] := by decide
  have hE := plainEngine_ok seriesDiff
  rw [← slanted_rate hS hn hFt k1 hp hc hρ]
  let pos0 : Sym → Int := fun s => if s = "a" then 1 else -1
  have hp0 : Positions pos0 := by
    intro s
    dsimp only [pos0]
    split_ifs <;> simp
  have hix : ["a"].map pos0 = ((Formula.tensor t ["a"]).mean (plainEngine seriesDiff) G F).ix := by
    rw [tensor_ix (by simp) (by rw [hFt]; rfl), hFt]; rfl
  refine mean_ext hE.simp_eq hS (f := .diff "c" (.add (.tensor t ["a"]) (.tensor u ["a"]))) (g := .diff "c" (.tensor t ["a"]))
    ⟨⟨k1, k2, .refl _⟩, fun h => absurd h hl⟩ ⟨k1, fun h => absurd h hl⟩ (.refl _) hp0 (fun ρ hρ => ?_) hp hρ
  rw [diff_default hE.simp_eq hS (f := .add _ _) ⟨k1, k2, .refl _⟩ hl hp0 rfl hρ hix, diff_default hE.simp_eq hS k1 hl hp0 rfl hρ hix]
  show (plainEngine seriesDiff).diff _ (_ + ((Formula.tensor u ["a"]).mean (plainEngine seriesDiff) G F).value _ _) = _
  rw [tensor_value u (by simp), slanted_zero hn hFu, add_zero]
  rfl

/-- The other sum is differentiated with lower indices. -/
theorem slanted_other (hS : Scene G V w) (hn : G.n = 2) (hs : G.syms = ["x", "y"]) (hg : ∀ i j, G.g i j = entry stretched i j)
    (hFt : F t = ⟨"V", G.c, [1], secondUnit.get⟩)
    (hFu : F u = ⟨"Z", G.c, [-1], nothing.get⟩) (k1 : (Formula.tensor t ["a"]).OK G V F) (k2 : (Formula.tensor u ["a"]).OK G V F) :
    ((Formula.diff "c" (.add (.tensor u ["a"]) (.tensor t ["a"]))).mean (plainEngine seriesDiff) G F).value (fun _ => -1)
        (fun s => if s = "a" then 1 else 0) = 1 := by
  have hl : "c" ∉ single ["a"] := by decide
  have hE := plainEngine_ok seriesDiff
  rw [diff_default hE.simp_eq hS (f := .add _ _) ⟨k2, k1, .refl _⟩ hl (fun _ => Or.inr rfl) rfl
    (fun s => by split_ifs <;> omega) (by
      show _ = ((Formula.tensor u ["a"]).mean (plainEngine seriesDiff) G F).ix
      rw [tensor_ix (by simp) (by rw [hFu]; rfl), hFu]; rfl)]
  show (plainEngine seriesDiff).diff _ (((Formula.tensor u ["a"]).mean (plainEngine seriesDiff) G F).value _ _ +
    ((Formula.tensor t ["a"]).mean (plainEngine seriesDiff) G F).value _ _) = 1
  rw [tensor_value u (by simp), tensor_value t (by simp), slanted_zero hn hFu, zero_add, hs, slanted_lower hn hg hFt rfl (by simp)]
  exact onePlus_diff

end

/-- **C121** The laws are not for use below a derivative: with the metric `diag(1, 1+x)`, the vector `v = (0, 1)` for upper indices and
the vector `z = (0, 0)` for lower ones, `PartialD(c) @ (v(a) + z(a))` and `PartialD(c) @ (z(a) + v(a))` differ. -/
theorem C121_derivative_false : ∃ (E : Engine (PowerSeries ℚ)) (G : Ground (PowerSeries ℚ)) (V : View (PowerSeries ℚ))
    (w : World (PowerSeries ℚ)) (F : Id' → TField (PowerSeries ℚ)) (f g : Formula (PowerSeries ℚ)), EngineOK E ∧ Calculus E ∧
    Scene G V w ∧ (Formula.add f g).OK G V F ∧ f.labels = ["a"] ∧ ∀ letters,
    ¬ SameTensor G V w ((Formula.diff "c" (.add f g)).eval E letters) ((Formula.diff "c" (.add g f)).eval E letters) := by
  obtain ⟨G, V, w, F, t, u, hS, hn, hs, hg, hFt, hFu, k1, k2⟩ := slanted
  have hE := plainEngine_ok seriesDiff
  have hl : "c" ∉ single ["a"] := by decide
  have hρ : Values G.n fun s : Sym => if s = "a" then 1 else 0 := fun s => by dsimp only; split_ifs <;> omega
  refine ⟨plainEngine seriesDiff, G, V, w, F, .tensor t ["a"], .tensor u ["a"], hE, seriesDiff_calculus, hS, ⟨k1, k2, .refl _⟩, rfl,
    fun letters => notSame hE hS letters (f := .diff "c" (.add _ _)) (f' := .diff "c" (.add _ _))
      ⟨⟨k1, k2, .refl _⟩, fun h => absurd h hl⟩ ⟨⟨k2, k1, .refl _⟩, fun h => absurd h hl⟩ (fun _ => Or.inr rfl) hρ ?_⟩
  rw [slanted_sum_rate hS hn hFt hFu k1 k2 (fun _ => Or.inr rfl) rfl hρ, slanted_other hS hn hs hg hFt hFu k1 k2]
  exact zero_ne_one

end PyOGRe
