import Verif.Lemmas.Leibniz
import Verif.Props.Formula
import Verif.Props.Curvature

/-!
# Covariant derivatives: C31, C32, C33, C34

`letters` are the index letters of the options, from which the dummy labels are taken; at least two of them
must not be in use.
-/

namespace PyOGRe
open Spec Finset
variable {K : Type} [CommRing K] [DecidableEq K] [Algebra ℚ K] {E : Engine K} {G : Ground K} {V : View K}
  {w : World K} {Dm D : TField K}

/-! ## C31: from the left -/

/-- **C31** (for a tensor of the session and a metric with the default configuration (-1,-1)) The covariant
derivative with a label `a` that the tensor does not have. -/
theorem C31_gradient_partial (hE : EngineOK E) (hS : Scene G V w) (hm : LowerMetric G V Dm)
    (hN : NamesOK E G V w Dm.name) {letters : List Sym} {d y : CalcObj} {t : Id'} {a : Sym}
    (hd : derivative .covariantD [a] = .ok d) (hy : Denotes G V y t D) (hyn : D.name ≠ "TEMP")
    (hln : letters.Nodup) {u v : Sym} (hu : u ∈ letters) (hv : v ∈ letters) (huv : u ≠ v)
    (hu' : u ∉ y.labels ++ [a]) (hv' : v ∉ y.labels ++ [a]) (ha : a ∉ y.labels) :
    Derives E G V w Dm.name (calcMatmul E letters d y) fun l D' => l = a :: y.labels ∧ D'.ix = -1 :: D.ix ∧
      ∀ pos ρ, Positions pos → Values G.n ρ → D'.at G l pos ρ = (nabla E G D).at G (a :: y.labels) pos ρ := by
  cases hd
  obtain ⟨s1, s2, hs, h12, h1, h2⟩ := dummySymbols_two hln hu hv huv hu' hv'
  simp only [List.mem_append, List.mem_singleton, not_or] at h1 h2
  have h0 : tupleGet (dummySymbols letters (y.labels ++ [a])) 0 = .ok s1 := by rw [hs]; rfl
  unfold calcMatmul
  rw [hy.role]
  show Derives E G V w Dm.name (matmulCovariant E letters [a] y (leftPartialSymbol [a] y.labels) ([a] ++ y.labels)
    (freeLabels [a] y.labels)) _
  rw [freeLabels_new ha]
  have hps : ∃ p, leftPartialSymbol [a] y.labels (dummySymbols letters (y.labels ++ [a])) = .ok p ∧ p ∉ y.labels ∧
      p ≠ s1 := by
    unfold leftPartialSymbol
    by_cases hl : y.labels = []
    · rw [if_neg (by simpa using hl), hs]
      exact ⟨s2, rfl, h2.1, h12.symm⟩
    · rw [if_pos hl]
      refine ⟨a, ?_, ha, Ne.symm h1.2⟩
      show (if a ∈ y.labels then _ else _) = _
      rw [if_neg ha]
      rfl
  obtain ⟨p, hp1, hp2, hp3⟩ := hps
  exact derives_gradient hE.simp_eq hS hm hN hy hyn h0 hp1 hp2 h1.1 hp3 ha (List.Perm.refl _)

/-- **C31** (for a tensor of the session and a metric with the default configuration (-1,-1)) The covariant
divergence: `a` is one of the labels of the tensor, and summed over. -/
theorem C31_divergence_partial (hE : EngineOK E) (hS : Scene G V w) (hm : LowerMetric G V Dm)
    (hN : NamesOK E G V w Dm.name) {letters : List Sym} {d y : CalcObj} {t : Id'} {a : Sym}
    (hd : derivative .covariantD [a] = .ok d) (hy : Denotes G V y t D) (hyn : D.name ≠ "TEMP")
    (hln : letters.Nodup) {u v : Sym} (hu : u ∈ letters) (hv : v ∈ letters) (huv : u ≠ v)
    (hu' : u ∉ y.labels ++ [a]) (hv' : v ∉ y.labels ++ [a]) (ha : a ∈ y.labels) :
    Derives E G V w Dm.name (calcMatmul E letters d y) fun l D' =>
      l = (y.labels.filter fun s => decide (s ≠ a)) ∧ D'.ix = l.map (posOf y.labels D.ix) ∧
      ∀ pos ρ, Positions pos → Values G.n ρ → D'.at G l pos ρ = ∑ k ∈ range G.n, (nabla E G D).comp G
        (-1 :: y.labels.map (Function.update pos a 1)) (k :: y.labels.map (Function.update ρ a k)) := by
  cases hd
  obtain ⟨s1, s2, hs, h12, h1, h2⟩ := dummySymbols_two hln hu hv huv hu' hv'
  simp only [List.mem_append, List.mem_singleton, not_or] at h1 h2
  have h0 : tupleGet (dummySymbols letters (y.labels ++ [a])) 0 = .ok s1 := by rw [hs]; rfl
  unfold calcMatmul
  rw [hy.role]
  show Derives E G V w Dm.name (matmulCovariant E letters [a] y (leftPartialSymbol [a] y.labels) ([a] ++ y.labels)
    (freeLabels [a] y.labels)) _
  have hl : y.labels ≠ [] := fun h => by rw [h] at ha; cases ha
  refine derives_divergence hE.simp_eq hS hm hN hy hyn h0 (p := s2) ?_ h2.1 h1.1 h12.symm ha
  unfold leftPartialSymbol
  rw [if_pos hl]
  show (if a ∈ y.labels then _ else _) = _
  rw [if_pos ha, hs]
  rfl

/-! ## C32: from the right -/

/-- What the covariant derivative from the right gives: the covariant derivative with the labels in the wrong
order, that of the derivative being the last one. -/
theorem C32_right_derivative (hE : EngineOK E) (hS : Scene G V w) (hm : LowerMetric G V Dm)
    (hN : NamesOK E G V w Dm.name) {letters : List Sym} {d y : CalcObj} {t : Id'} {a : Sym}
    (hd : derivative .covariantD [a] = .ok d) (hy : Denotes G V y t D) (hyn : D.name ≠ "TEMP")
    (hln : letters.Nodup) {u v : Sym} (hu : u ∈ letters) (hv : v ∈ letters) (huv : u ≠ v)
    (hu' : u ∉ y.labels ++ [a]) (hv' : v ∉ y.labels ++ [a]) (ha : a ∉ y.labels) :
    Derives E G V w Dm.name (calcMatmul E letters y d) fun l D' => l = y.labels ++ [a] ∧ D'.ix = -1 :: D.ix ∧
      ∀ pos ρ, Positions pos → Values G.n ρ → D'.at G l pos ρ = (nabla E G D).at G (y.labels ++ [a]) pos ρ := by
  cases hd
  obtain ⟨s1, s2, hs, h12, h1, h2⟩ := dummySymbols_two hln hu hv huv hu' hv'
  simp only [List.mem_append, List.mem_singleton, not_or] at h1 h2
  have h0 : tupleGet (dummySymbols letters (y.labels ++ [a])) 0 = .ok s1 := by rw [hs]; rfl
  unfold calcMatmul
  rw [hy.role]
  show Derives E G V w Dm.name (matmulCovariant E letters [a] y (rightPartialSymbol [a]) (y.labels ++ [a])
    (freeLabels y.labels [a])) _
  have hf : freeLabels y.labels [a] = y.labels ++ [a] := by
    rw [freeLabels_eq]
    unfold unshared
    rw [List.filter_eq_self.2 (by simpa using fun s h => by rintro rfl; exact ha h), List.filter_eq_self.2 (by simpa using ha)]
  rw [hf]
  refine derives_gradient hE.simp_eq hS hm hN hy hyn h0 (p := s2) ?_ h2.1 h1.1 h12.symm ha
    (List.perm_append_comm (l₁ := y.labels) (l₂ := [a]))
  unfold rightPartialSymbol
  show (if a ∈ [a] then _ else _) = _
  rw [if_pos (by simp), hs]
  rfl

/-- **C32** (part that holds) For scalars, and for the divergence of a vector.  Missing: `C32_false`. -/
theorem C32_right_derivative_partial (letters : List Sym) {d y : CalcObj} {a : Sym}
    (hd : derivative .covariantD [a] = .ok d) (hy : y.role = .tensor) (ha : y.labels = [] ∨ y.labels = [a]) :
    calcMatmul E letters y d = calcMatmul E letters d y := by
  cases hd
  unfold calcMatmul
  rw [hy]
  show matmulCovariant E letters [a] y (rightPartialSymbol [a]) (y.labels ++ [a]) (freeLabels y.labels [a]) =
    matmulCovariant E letters [a] y (leftPartialSymbol [a] y.labels) ([a] ++ y.labels) (freeLabels [a] y.labels)
  have hr : rightPartialSymbol [a] = leftPartialSymbol [a] y.labels := by
    funext ds
    unfold rightPartialSymbol leftPartialSymbol
    rcases ha with ha | ha
    · rw [ha, if_neg (by simp)]
      show (if a ∈ [a] then _ else _) = _
      rw [if_pos (by simp)]
    · rw [ha, if_pos (by simp)]
  rw [hr]
  rcases ha with ha | ha <;> rw [ha] <;> rfl

/-- The covariant derivative of the vector field of the plane is the partial one. -/
theorem Spec.plane_nabla {G : Ground Poly} {V : View Poly} {w : World Poly} (hS : Scene G V w) (hn : G.n = 2)
    (hg : ∀ i j, i < 2 → j < 2 → G.g i j = delta i j) (hs : G.syms = ["x", "y"]) {k j : Nat} (hk : k < 2) (hj : j < 2) :
    (nabla polyEngine G ⟨"V", 0, [1], aVector.get⟩).val [k, j] =
      MvPolynomial.pderiv (["x", "y"].getD k "") (aVector.get [j]) := by
  have hd : ∀ k i j, k < 2 → i < 2 → j < 2 → G.d polyEngine k (G.g i j) = 0 := by
    intro k i j hk hi hj
    rw [hg i j hi hj]
    unfold delta
    split_ifs
    · exact d_one polyEngine_calculus _
    · exact d_zero polyEngine_calculus _
  have hC : ∀ l k i, k < 2 → i < 2 → christoffel polyEngine G l k i = 0 := by
    intro l k i hk hi
    unfold christoffel
    rw [hn, Finset.sum_eq_zero, mul_zero]
    intro s hs
    have hs : s < 2 := by simpa using hs
    rw [hd _ _ _ hk hi hs, hd _ _ _ hi hs hk, hd _ _ _ hs hk hi]
    simp
  show covariant polyEngine G [1] aVector.get k [j] = _
  unfold covariant
  rw [Finset.sum_eq_zero]
  · unfold Ground.d
    rw [hs, add_zero]; rfl
  · intro i hi
    have hi : i = 0 := by simpa using hi
    subst hi
    simp only [List.getD_cons_zero, if_true]
    refine Finset.sum_eq_zero fun l hl => ?_
    rw [hC _ _ _ hk (by rw [← hn]; simpa using hl), zero_mul]

/-- **C32** is false of the code: in the flat plane, `∇_a V^b` at `a = 1`, `b = 0` is `x` from the left, but 0 from
the right. -/
theorem C32_false : ∃ (G : Ground Poly) (V : View Poly) (w : World Poly) (Dm A : TField Poly) (d : CalcObj)
    (letters : List Sym) (ρ : Sym → Nat), Scene G V w ∧ LowerMetric G V Dm ∧
    Denotes G V ⟨.tensor, some 3, ["b"]⟩ 3 A ∧ derivative .covariantD ["a"] = .ok d ∧ Values G.n ρ ∧
    (Derives polyEngine G V w Dm.name (calcMatmul polyEngine letters d ⟨.tensor, some 3, ["b"]⟩) fun l D =>
      D.value l ρ = MvPolynomial.X "x") ∧
    Derives polyEngine G V w Dm.name (calcMatmul polyEngine letters ⟨.tensor, some 3, ["b"]⟩ d) fun l D =>
      D.value l ρ = 0 := by
  obtain ⟨G, V, w, hS, h1, h2, h3, h4, h5, h6, h7, h8, h9⟩ := plane_named
  have hA : Denotes G V ⟨.tensor, some 3, ["b"]⟩ 3 ⟨"V", 0, [1], aVector.get⟩ :=
    ⟨⟨rfl, rfl, h7, by simp, rfl⟩, h2.symm⟩
  have hm : LowerMetric G V ⟨"Flat", 0, [-1, -1], flat.get⟩ := ⟨by rw [h3]; exact h6, by decide, h2.symm, rfl⟩
  have hN : NamesOK polyEngine G V w "Flat" := by
    intro q i hi o ho hn
    have := h9 i o ho
    rw [hn] at this
    cases q <;> exact absurd this (by decide)
  have hρ : Values G.n fun s => if s = "a" then 1 else 0 := by
    intro s; rw [h1]; dsimp only; split_ifs <;> decide
  have hval : ∀ {D' : TField Poly} {l : List Sym} {x y : Sym}, x ≠ y → l = [x, y] → D'.ix = [-1, 1] →
      (∀ pos ρ, Positions pos → Values G.n ρ → D'.at G l pos ρ =
        (nabla polyEngine G ⟨"V", 0, [1], aVector.get⟩).at G [x, y] pos ρ) →
      D'.value l (fun s => if s = "a" then 1 else 0) = MvPolynomial.pderiv
        (["x", "y"].getD (if x = "a" then 1 else 0) "") (aVector.get [if y = "a" then 1 else 0]) := by
    rintro D' l x y hxy rfl hix h
    have h := h (fun s => if s = x then -1 else 1) _
      (by intro s; dsimp only; split_ifs <;> simp) hρ
    unfold TField.at at h
    simp only [List.map_cons, List.map_nil, if_true, hxy.symm, if_false] at h
    have e0 : ∀ s : Sym, (if s = "a" then 1 else 0) < 2 := by intro s; split_ifs <;> decide
    have e1 : ∀ z ∈ [if x = "a" then 1 else 0, if y = "a" then 1 else 0], z < G.n := by
      rw [h1]
      intro z hz
      rcases List.mem_cons.1 hz with rfl | hz
      · exact e0 x
      · rw [List.mem_singleton.1 hz]; exact e0 y
    rw [← hix, comp_self e1 (by rw [hix]; rfl), hix] at h
    rw [show D'.value [x, y] _ = D'.val [_, _] from rfl, h]
    refine Eq.trans (comp_self (D := nabla polyEngine G ⟨"V", 0, [1], aVector.get⟩) e1 rfl) ?_
    exact plane_nabla hS h1 h5 h4 (e0 x) (e0 y)
  refine ⟨G, V, w, _, _, _, ["a", "b", "c", "d"], fun s => if s = "a" then 1 else 0, hS, hm, hA, rfl, hρ, ?_, ?_⟩
  · refine Does.mono (C31_gradient_partial polyEngine_ok hS hm hN rfl hA (by decide) (by decide)
      (u := "c") (v := "d") (by decide) (by decide) (by decide) (by decide) (by decide) (by decide)) ?_
    rintro z w' ⟨V', t', D', k1, k2, k3, k4, k5, k6, k7, k8⟩
    refine ⟨V', t', D', k1, k2, k3, k4, k5, ?_⟩
    refine (hval (by decide) k6 k7 k8).trans ?_
    show MvPolynomial.pderiv "y" (MvPolynomial.X "x" * MvPolynomial.X "y" : Poly) = _
    have : MvPolynomial.pderiv "y" (MvPolynomial.X "x" : Poly) = 0 := MvPolynomial.pderiv_X_of_ne (by decide)
    simp [this]
  · refine Does.mono (C32_right_derivative polyEngine_ok hS hm hN rfl hA (by decide) (by decide)
      (u := "c") (v := "d") (by decide) (by decide) (by decide) (by decide) (by decide) (by decide)) ?_
    rintro z w' ⟨V', t', D', k1, k2, k3, k4, k5, k6, k7, k8⟩
    refine ⟨V', t', D', k1, k2, k3, k4, k5, ?_⟩
    refine (hval (by decide) k6 k7 k8).trans ?_
    show MvPolynomial.pderiv "x" (3 : Poly) = 0
    rw [show (3 : Poly) = MvPolynomial.C 3 from rfl, MvPolynomial.pderiv_C]

/-- C31, C32: the hypotheses hold for a curved metric, its tensor being the metric itself, and the letters of the
options. -/
example : ∃ (G : Ground Poly) (V : View Poly) (w : World Poly) (Dm : TField Poly) (y d : CalcObj) (letters : List Sym),
    EngineOK polyEngine ∧ Calculus polyEngine ∧ Scene G V w ∧ LowerMetric G V Dm ∧ NamesOK polyEngine G V w Dm.name ∧
    Denotes G V y G.m Dm ∧ Dm.name ≠ "TEMP" ∧ derivative .covariantD ["a"] = .ok d ∧ letters.Nodup ∧
    "d" ∈ letters ∧ "e" ∈ letters ∧ y.labels = ["b", "c"] ∧
    christoffel polyEngine G 2 0 1 ≠ 0 := by
  obtain ⟨G, V, w, h1, h2, -, h3, h4, h5⟩ := curved
  refine ⟨G, V, w, _, ⟨.tensor, some G.m, ["b", "c"]⟩, _, ["a", "b", "c", "d", "e"], polyEngine_ok, polyEngine_calculus,
    h1, h3, curved_names h4, ⟨⟨rfl, rfl, h3.view, by simp, rfl⟩, h3.coords⟩, h3.name, rfl, by decide, by decide,
    by decide, rfl, ?_⟩
  rw [h5]
  exact curved_half

/-! ## C33: metric compatibility -/

/-- **C33** (for metrics with the default configuration (-1,-1)) The covariant derivative of the metric
vanishes, in every configuration. -/
theorem C33_metric_compatibility_partial (hE : EngineOK E) (hC : Calculus E) (hS : Scene G V w)
    (hm : LowerMetric G V Dm) (hN : NamesOK E G V w Dm.name) {letters : List Sym} {d : CalcObj} {a b c : Sym}
    (hd : derivative .covariantD [a] = .ok d) (hln : letters.Nodup) {u v : Sym} (hu : u ∈ letters)
    (hv : v ∈ letters) (huv : u ≠ v) (hu' : u ∉ [b, c, a]) (hv' : v ∉ [b, c, a]) (hbc : b ≠ c) (hab : a ≠ b)
    (hac : a ≠ c) :
    Derives E G V w Dm.name (calcMatmul E letters d ⟨.tensor, some G.m, [b, c]⟩) fun l D' =>
      l = [a, b, c] ∧ ∀ cfg J, Config 3 cfg → J.length = 3 → (∀ x ∈ J, x < G.n) → D'.comp G cfg J = 0 := by
  have hy : Denotes G V ⟨.tensor, some G.m, [b, c]⟩ G.m Dm :=
    ⟨⟨rfl, rfl, hm.view, by simp [hbc], by rw [hm.ix]; rfl⟩, hm.coords⟩
  refine Does.mono (C31_gradient_partial hE hS hm hN hd hy hm.name hln hu hv huv hu' hv' (by simp [hab, hac])) ?_
  rintro z w' ⟨V', t', D', h1, h2, h3, h4, h5, h6, h7, h8⟩
  refine ⟨V', t', D', h1, h2, h3, h4, h5, h6, fun cfg J hcfg hJ hJn => ?_⟩
  obtain ⟨x, y, z', rfl⟩ := List.length_eq_three.1 hJ
  obtain ⟨p, q, r, rfl⟩ := List.length_eq_three.1 hcfg.1
  have hpos : Positions fun s => if s = a then p else if s = b then q else r := by
    intro s
    dsimp only
    split_ifs
    · exact hcfg.2 p (by simp)
    · exact hcfg.2 q (by simp)
    · exact hcfg.2 r (by simp)
  have hρ : Values G.n fun s => if s = a then x else if s = b then y else z' := by
    intro s
    dsimp only
    split_ifs
    · exact hJn x (by simp)
    · exact hJn y (by simp)
    · exact hJn z' (by simp)
  have := h8 _ _ hpos hρ
  rw [h6] at this
  unfold TField.at at this
  simp only [List.map_cons, List.map_nil, if_true, hab.symm, hac.symm, hbc.symm, if_false] at this
  refine this.trans ?_
  unfold TField.comp
  rw [applyFactors_congr (T' := fun _ => 0)]
  · unfold applyFactors; simp
  · intro s hs hsn
    obtain ⟨k, i, j, rfl⟩ := List.length_eq_three.1 hs
    obtain ⟨-, -, hc⟩ := scene_metric_comp hS hm.view
    have hv : ∀ i j, i < G.n → j < G.n → Dm.val [i, j] = G.g i j := fun i j hi hj => by
      rw [← (hc i j hi hj).1, ← hm.ix, comp_self (by simp [hi, hj]) (by rw [hm.ix]; rfl)]
    have hk : k < G.n := hsn k (by simp)
    have hi : i < G.n := hsn i (by simp)
    have hj : j < G.n := hsn j (by simp)
    show covariant E G Dm.ix Dm.val k [i, j] = 0
    unfold covariant
    rw [hm.ix]
    simp only [List.length_cons, List.length_nil, sum_range_succ, sum_range_zero, List.getD_cons_zero,
      List.getD_cons_succ, List.set_cons_zero, List.set_cons_succ, show ¬ ((-1 : Int) = 1) by decide, if_false, zero_add]
    rw [hv i j hi hj, d_metric hC hS.inverse hS.symm hk hi hj]
    have e1 : ∑ l ∈ range G.n, christoffel E G l k i * Dm.val [l, j] = ∑ l ∈ range G.n, christoffel E G l k i * G.g l j :=
      sum_congr rfl fun l hl => by rw [hv l j (by simpa using hl) hj]
    have e2 : ∑ l ∈ range G.n, christoffel E G l k j * Dm.val [i, l] = ∑ l ∈ range G.n, G.g i l * christoffel E G l k j :=
      sum_congr rfl fun l hl => by rw [hv i l hi (by simpa using hl)]; ring
    rw [e1, e2]
    ring

/-- C33: the hypotheses hold for a curved metric. -/
example : ∃ (G : Ground Poly) (V : View Poly) (w : World Poly) (Dm : TField Poly), EngineOK polyEngine ∧
    Calculus polyEngine ∧ Scene G V w ∧ LowerMetric G V Dm ∧ NamesOK polyEngine G V w Dm.name ∧
    christoffel polyEngine G 2 0 1 ≠ 0 := by
  obtain ⟨G, V, w, h1, h2, -, h3, h4, h5⟩ := curved
  exact ⟨G, V, w, _, polyEngine_ok, polyEngine_calculus, h1, h3, curved_names h4, by rw [h5]; exact curved_half⟩

/-! ## C34: the Leibniz rule -/

/-- The covariant derivative of the tensor that `Calc` makes of a formula. -/
theorem covariant_of_calc (hE : EngineOK E) (hC : Calculus E) (hS : Scene G V w) (hm : LowerMetric G V Dm)
    (hN : NamesOK E G V w Dm.name) {F : Id' → TField K} {f : Formula K} (hf : f.OK G V F) {name symbol : String}
    (hname : name ≠ "TEMP") (hnew : ∀ q : Quantity, name ≠ Dm.name ++ q.suffix) {order : List Sym} (hne : order ≠ [])
    (hi : order.Perm f.labels) {letters : List Sym} {a : Sym} (hln : letters.Nodup) {u v : Sym} (hu : u ∈ letters)
    (hv : v ∈ letters) (huv : u ≠ v) (hu' : u ∉ order ++ [a]) (hv' : v ∉ order ++ [a]) (ha : a ∉ order) :
    Does (do
      let x ← f.eval E letters
      let r ← calcResult E x name symbol order
      let y ← calcInit E r order
      let d ← PyM.lift (derivative .covariantD [a])
      calcMatmul E letters d y) w fun z w' => ∃ V' t D, Scene G V' w' ∧ V.Keeps V' ∧ Denotes G V' z t D ∧
        z.labels = a :: order ∧ ∀ pos ρ, Positions pos → Values G.n ρ → pos a = -1 →
          D.at G z.labels pos ρ = covariantAt E G a order (f.mean E G F).value pos ρ := by
  have h1 := C69_calc hE hS letters hf (symbol := symbol) hname hne hi
  rw [← pyM_bind_assoc]
  refine Does.bind h1 ?_
  rintro r w1 ⟨V1, D1, hS1, hK1, hL1, hr1, hv1, hc1, hn1, hix1, hat1⟩
  have hlen : order.length = D1.ix.length := by rw [hix1]; simp
  have hnd : order.Nodup := by
    obtain ⟨z, w', -, V', t, D, -, -, -, hz, hl, -⟩ := C69_formula hE hS letters hf
    rw [hi.nodup_iff, ← hl]
    exact hz.nodup
  refine Does.bind (evaluates_init hE.simp_eq hS1 hv1 hc1 hnd hlen) ?_
  rintro y w2 ⟨V2, t2, D2, hS2, hV2, hT2, hy2, hl2, rfl⟩
  refine Does.lift (a := ⟨.covariantD, none, [a]⟩) rfl ?_
  have hN1 : NamesOK E G V1 w1 Dm.name := by
    refine namesOK_leaves hS hN hK1 hL1 ?_
    rintro i - - rfl o ho q hq
    rw [scene_object_name hS1 hv1 ho, hn1] at hq
    exact absurd hq (hnew q)
  have hK2 : V1.Keeps V2 := fun s D h _ => hV2 s D h
  have hN2 : NamesOK E G V2 w2 Dm.name := namesOK_leaves hS1 hN1 hK2
    (leaves_onlyTemps (new := fun _ => False) hS1.registry hT2) fun _ _ _ h => h.elim
  have hm2 : LowerMetric G V2 Dm := ⟨hK2 _ _ (hK1 _ _ hm.view hm.name) hm.name, hm.name, hm.coords, hm.ix⟩
  refine Does.mono (C31_gradient_partial hE hS2 hm2 hN2 rfl hy2 (by rw [hn1]; exact hname) hln hu hv huv
    (by rw [hl2]; exact hu') (by rw [hl2]; exact hv') (by rw [hl2]; exact ha)) ?_
  rintro z w3 ⟨V3, t3, D3, hS3, hK3, -, -, hz3, hl3, -, hat3⟩
  rw [hl2] at hl3 hat3
  refine ⟨V3, t3, D3, hS3, keeps_trans hK1 (keeps_trans hK2 hK3), hz3, hl3, fun pos ρ hpos hρ hpa => ?_⟩
  rw [hat3 pos ρ hpos hρ, nabla_at hC hS.inverse hS.symm (scene_config hS2 hy2.field) ha hnd hlen hpos hpa hρ]
  exact covariantAt_congr (fun ρ' h => hat1 pos ρ' hpos h) hρ

/-- **C34** (for metrics with the default configuration (-1,-1)) The covariant derivative of a sum is the sum of
the covariant derivatives: with `P = Calc(A(lA) + B(lB), indices=order)`, the value of `CovariantD(a) @ P(order)`. -/
theorem C34_sum_partial (hE : EngineOK E) (hC : Calculus E) (hS : Scene G V w) (hm : LowerMetric G V Dm)
    (hN : NamesOK E G V w Dm.name) {A B : Id'} {lA lB : List Sym} {DA DB : TField K}
    (hA : Denotes G V ⟨.tensor, some A, lA⟩ A DA) (hB : Denotes G V ⟨.tensor, some B, lB⟩ B DB) (hAB : lB.Perm lA)
    {name symbol : String} (hname : name ≠ "TEMP") (hnew : ∀ q : Quantity, name ≠ Dm.name ++ q.suffix)
    {order : List Sym} (hne : order ≠ []) (hi : order.Perm lA) {letters : List Sym} {a : Sym} (hln : letters.Nodup)
    {u v : Sym} (hu : u ∈ letters) (hv : v ∈ letters) (huv : u ≠ v) (hu' : u ∉ order ++ [a])
    (hv' : v ∉ order ++ [a]) (ha : a ∉ order) :
    Does (do
      let x ← (Formula.add (.tensor A lA) (.tensor B lB)).eval E letters
      let r ← calcResult E x name symbol order
      let y ← calcInit E r order
      let d ← PyM.lift (derivative .covariantD [a])
      calcMatmul E letters d y) w fun z w' => ∃ V' t D, Scene G V' w' ∧ V.Keeps V' ∧ Denotes G V' z t D ∧
        z.labels = a :: order ∧ ∀ pos ρ, Positions pos → Values G.n ρ →
          D.at G z.labels pos ρ = (nabla E G DA).at G (a :: lA) pos ρ + (nabla E G DB).at G (a :: lB) pos ρ := by
  obtain ⟨F, hFA, hFB⟩ : ∃ F : Id' → TField K, F A = DA ∧ F B = DB :=
    ⟨fun t => (V t).getD DA, congrArg (·.getD DA) hA.field, congrArg (·.getD DA) hB.field⟩
  have haA : a ∉ lA := fun h => ha (hi.mem_iff.2 h)
  have haB : a ∉ lB := fun h => haA (hAB.mem_iff.1 h)
  have hf : (Formula.add (.tensor A lA) (.tensor B lB)).OK G V F := by
    refine ⟨⟨by rw [hFA]; exact hA.field, by rw [hFA]; exact hA.coords, by rw [hFA]; exact hA.length,
      fun s => le_trans (List.nodup_iff_count_le_one.1 hA.nodup s) (by decide), Or.inl hA.nodup⟩,
      ⟨by rw [hFB]; exact hB.field, by rw [hFB]; exact hB.coords, by rw [hFB]; exact hB.length,
      fun s => le_trans (List.nodup_iff_count_le_one.1 hB.nodup s) (by decide), Or.inl hB.nodup⟩, ?_⟩
    show (single lB).Perm (single lA)
    rw [single_nodup hA.nodup, single_nodup hB.nodup]
    exact hAB
  refine Does.mono (covariant_of_calc hE hC hS hm hN hf hname hnew hne ?_ hln hu hv huv hu' hv' ha) ?_
  · show order.Perm (single lA)
    rw [single_nodup hA.nodup]
    exact hi
  rintro z w' ⟨V', t, D, h1, h2, h3, h4, h5⟩
  have hcA := scene_config hS hA.field
  have hcB := scene_config hS hB.field
  refine ⟨V', t, D, h1, h2, h3, h4, fun pos ρ hpos hρ => ?_⟩
  rw [h4] at h5 ⊢
  refine lawful_one (a := a) (T := D.at G (a :: order)) (T' := fun pos ρ => (nabla E G DA).at G (a :: lA) pos ρ +
    (nabla E G DB).at G (a :: lB) pos ρ) ?_ ?_ ?_ hpos hρ
  · have := lawful_at h1.inverse (scene_config h1 h3.field) h3.nodup h3.length
    rw [h4] at this
    exact lawful_subset this (by simp)
  · exact lawful_add
      (lawful_subset (nabla_lawful hS.inverse hcA haA hA.nodup hA.length) (by simp))
      (lawful_subset (nabla_lawful hS.inverse hcB haB hB.nodup hB.length) (by simp))
  · intro pos ρ hpos hρ hpa
    rw [h5 pos ρ hpos hρ hpa, nabla_at hC hS.inverse hS.symm hcA haA hA.nodup hA.length hpos hpa hρ,
      nabla_at hC hS.inverse hS.symm hcB haB hB.nodup hB.length hpos hpa hρ,
      covariantAt_perm hi, covariantAt_perm hAB, ← covariantAt_add hC]
    refine covariantAt_congr (fun ρ' _ => ?_) hρ
    show (Formula.mean E G F (.tensor A lA)).value pos ρ' +
      (Formula.mean E G F (.tensor B lB)).value pos ρ' = _
    rw [tensor_value A hA.nodup, tensor_value B hB.nodup, hFA, hFB]

/-- **C34** (for metrics with the default configuration (-1,-1)) The Leibniz rule: with `P = Calc(A(lA) @ B(lB),
indices=order)`, the value of `CovariantD(a) @ P(order)`.  Labels that A and B share are summed over; if there are
none, this is the outer product. -/
theorem C34_product_partial (hE : EngineOK E) (hC : Calculus E) (hS : Scene G V w) (hm : LowerMetric G V Dm)
    (hN : NamesOK E G V w Dm.name) {A B : Id'} {lA lB : List Sym} {DA DB : TField K}
    (hA : Denotes G V ⟨.tensor, some A, lA⟩ A DA) (hB : Denotes G V ⟨.tensor, some B, lB⟩ B DB)
    {name symbol : String} (hname : name ≠ "TEMP") (hnew : ∀ q : Quantity, name ≠ Dm.name ++ q.suffix)
    {order : List Sym} (hne : order ≠ []) (hi : order.Perm (unshared lA lB)) {letters : List Sym} {a : Sym}
    (hln : letters.Nodup) {u v : Sym} (hu : u ∈ letters) (hv : v ∈ letters) (huv : u ≠ v) (hu' : u ∉ order ++ [a])
    (hv' : v ∉ order ++ [a]) (haA : a ∉ lA) (haB : a ∉ lB) :
    Does (do
      let x ← (Formula.mul (.tensor A lA) (.tensor B lB)).eval E letters
      let r ← calcResult E x name symbol order
      let y ← calcInit E r order
      let d ← PyM.lift (derivative .covariantD [a])
      calcMatmul E letters d y) w fun z w' => ∃ V' t D, Scene G V' w' ∧ V.Keeps V' ∧ Denotes G V' z t D ∧
        z.labels = a :: order ∧ ∀ pos ρ, Positions pos → Values G.n ρ → D.at G z.labels pos ρ =
          contracted G (sharedOf lA lB) ((nabla E G DA).at G (a :: lA)) (DB.at G lB) pos ρ +
          contracted G (sharedOf lA lB) (DA.at G lA) ((nabla E G DB).at G (a :: lB)) pos ρ := by
  obtain ⟨F, hFA, hFB⟩ : ∃ F : Id' → TField K, F A = DA ∧ F B = DB :=
    ⟨fun t => (V t).getD DA, congrArg (·.getD DA) hA.field, congrArg (·.getD DA) hB.field⟩
  have ha : a ∉ order := fun h => by
    rcases mem_unshared.1 (hi.mem_iff.1 h) with h' | h'
    · exact haA h'.1
    · exact haB h'.1
  have hf : (Formula.mul (.tensor A lA) (.tensor B lB)).OK G V F :=
    ⟨⟨by rw [hFA]; exact hA.field, by rw [hFA]; exact hA.coords, by rw [hFA]; exact hA.length,
      fun s => le_trans (List.nodup_iff_count_le_one.1 hA.nodup s) (by decide), Or.inl hA.nodup⟩,
      ⟨by rw [hFB]; exact hB.field, by rw [hFB]; exact hB.coords, by rw [hFB]; exact hB.length,
      fun s => le_trans (List.nodup_iff_count_le_one.1 hB.nodup s) (by decide), Or.inl hB.nodup⟩⟩
  have hlab : (Formula.mul (.tensor A lA) (.tensor B lB) : Formula K).labels = unshared lA lB := by
    show unshared (single lA) (single lB) = _
    rw [single_nodup hA.nodup, single_nodup hB.nodup]
  refine Does.mono (covariant_of_calc hE hC hS hm hN hf hname hnew hne (by rw [hlab]; exact hi) hln hu hv huv hu' hv' ha) ?_
  rintro z w' ⟨V', t, D, h1, h2, h3, h4, h5⟩
  have hcA := scene_config hS hA.field
  have hcB := scene_config hS hB.field
  have hss : ∀ s, s ∈ sharedOf lA lB ↔ s ∈ lA ∧ s ∈ lB := fun s => mem_sharedOf
  have hsn : (sharedOf lA lB).Nodup := nodup_sharedOf hA.nodup lB
  have haS : a ∉ sharedOf lA lB := fun h => haA ((hss a).1 h).1
  have oA := onlyOn_at (G := G) DA lA
  have oB := onlyOn_at (G := G) DB lB
  refine ⟨V', t, D, h1, h2, h3, h4, fun pos ρ hpos hρ => ?_⟩
  rw [h4] at h5 ⊢
  refine lawful_one (a := a) (T := D.at G (a :: order)) (T' := fun pos ρ =>
    contracted G (sharedOf lA lB) ((nabla E G DA).at G (a :: lA)) (DB.at G lB) pos ρ +
    contracted G (sharedOf lA lB) (DA.at G lA) ((nabla E G DB).at G (a :: lB)) pos ρ) ?_ ?_ ?_ hpos hρ
  · have := lawful_at h1.inverse (scene_config h1 h3.field) h3.nodup h3.length
    rw [h4] at this
    exact lawful_subset this (by simp)
  · refine lawful_add (lawful_contracted (nabla_lawful hS.inverse hcA haA hA.nodup hA.length)
      (lawful_at hS.inverse hcB hB.nodup hB.length) (onlyOn_at _ _) oB ?_)
      (lawful_contracted (lawful_at hS.inverse hcA hA.nodup hA.length)
        (nabla_lawful hS.inverse hcB haB hB.nodup hB.length) oA (onlyOn_at _ _) ?_)
    · intro s hs
      rw [List.mem_singleton.1 hs]
      exact ⟨haS, Or.inl ⟨by simp, haB⟩⟩
    · intro s hs
      rw [List.mem_singleton.1 hs]
      exact ⟨haS, Or.inr ⟨by simp, haA⟩⟩
  · intro pos ρ hpos hρ hpa
    rw [h5 pos ρ hpos hρ hpa, covariantAt_perm hi]
    have hval : ∀ ρ', (Formula.mean E G F (.mul (.tensor A lA) (.tensor B lB))).value pos ρ' =
        contracted G (sharedOf lA lB) (DA.at G lA) (DB.at G lB) pos ρ' := by
      intro ρ'
      show contracted G (sharedOf (single lA) (single lB)) _ _ pos ρ' = _
      rw [single_nodup hA.nodup, single_nodup hB.nodup]
      unfold contracted
      congr 1
      funext ρ''
      rw [tensor_value A hA.nodup, tensor_value B hB.nodup, hFA, hFB]
    rw [covariantAt_congr (T' := contracted G (sharedOf lA lB) (DA.at G lA) (DB.at G lB)) (fun ρ' _ => hval ρ') hρ,
      covariantAt_contracted hC oA oB haA haB hsn hss (fun s => mem_unshared) hpos hρ]
    have hpt := positions_turned hpos (sharedOf lA lB)
    have hpta : turned (sharedOf lA lB) pos a = -1 := by unfold turned; rw [if_neg haS, hpa]
    congr 1
    · refine sumOver_congr hρ fun ρ' hρ' _ => ?_
      rw [nabla_at hC hS.inverse hS.symm hcA haA hA.nodup hA.length hpos hpa hρ']
    · refine sumOver_congr hρ fun ρ' hρ' _ => ?_
      rw [nabla_at hC hS.inverse hS.symm hcB haB hB.nodup hB.length hpt hpta hρ']

/-- C34: the hypotheses hold for products and sums of the metric with itself. -/
example : ∃ (G : Ground Poly) (V : View Poly) (w : World Poly) (Dm : TField Poly), EngineOK polyEngine ∧
    Calculus polyEngine ∧ Scene G V w ∧ LowerMetric G V Dm ∧ NamesOK polyEngine G V w Dm.name ∧
    Denotes G V ⟨.tensor, some G.m, ["b", "c"]⟩ G.m Dm ∧ Denotes G V ⟨.tensor, some G.m, ["c", "b"]⟩ G.m Dm ∧
    Denotes G V ⟨.tensor, some G.m, ["c", "d"]⟩ G.m Dm ∧ ["b", "d"].Perm (unshared ["b", "c"] ["c", "d"]) ∧
    (∀ q : Quantity, "P" ≠ Dm.name ++ q.suffix) ∧ christoffel polyEngine G 2 0 1 ≠ 0 := by
  obtain ⟨G, V, w, h1, h2, -, h3, h4, h5⟩ := curved
  exact ⟨G, V, w, _, polyEngine_ok, polyEngine_calculus, h1, h3, curved_names h4,
    ⟨⟨rfl, rfl, h3.view, by simp, rfl⟩, h3.coords⟩, ⟨⟨rfl, rfl, h3.view, by simp, rfl⟩, h3.coords⟩,
    ⟨⟨rfl, rfl, h3.view, by simp, rfl⟩, h3.coords⟩, by decide, fun q => by cases q <;> decide,
    by rw [h5]; exact curved_half⟩

end PyOGRe
