import Verif.Lemmas.Nil
import Verif.Lemmas.AnyCovariant
import Verif.Props.Covariant
import Verif.Props.Curvature

/-!
# Curvature of metrics whose default indices are upper: C36 to C39

For these metrics `CalcChristoffel` returns the Christoffel symbols with the wrong sign (C35).  Here is what the other
functions compute from them.
-/

namespace PyOGRe
open Spec Finset
variable {K : Type} [CommRing K] [DecidableEq K] [Algebra ℚ K] {E : Engine K} {G : Ground K} {V : View K} {w : World K}
  {Dm : TField K}

/-- The Christoffel symbols with the wrong sign. -/
def Spec.minusGamma (E : Engine K) (G : Ground K) (l m n : Nat) : K := -christoffel E G l m n

theorem gives_opposite (hE : ∀ x, E.simp x = x) (hC : Calculus E) (hix : Dm.ix = [1, 1]) :
    GivesConnection E G (minusGamma E G) Dm := by
  intro V w hS hm
  refine Does.mono (does_upperChristoffel hE hC hS ⟨hm.view, hm.name, hm.coords, hix⟩) ?_
  rintro r w' ⟨V', D', h1, h2, h3, h4, h5, h6, h7, h8, h9, h10⟩
  refine ⟨V', D', h1, h2, h3, h4, h5, h6, h7, h8, h9, fun J hJ hJn => ?_⟩
  match J, hJ, hJn with
  | [a, b, c], _, hJn => exact h10 a b c (hJn a (by simp)) (hJn b (by simp)) (hJn c (by simp))

omit [DecidableEq K] in
theorem noNames_for {Γ : Nat → Nat → Nat → K} {base : String} (h : NoNames w base) : NamesFor E G Γ V w base :=
  fun q i hi o ho hn => absurd hn (h q i hi o ho)

theorem returns_for {q : Quantity} {m : PyM K Id'} {base : String} {P : TField K → Prop} {Γ : Nat → Nat → Nat → K}
    (h : ProvidesFor E G Γ V w base m q)
    (hP : ∀ D, (∀ J, J.length = q.ix.length → (∀ x ∈ J, x < G.n) → D.val J = q.compsOf E G Γ J) → P D) :
    Returns G w m q.ix P := by
  refine Does.mono h ?_
  rintro r w' ⟨V', D, h1, -, -, -, h2, -, h3⟩
  exact ⟨V', D, h1, h2, h3.view, h3.coords, h3.cfg, hP D h3.val⟩

omit [DecidableEq K] [Algebra ℚ K] in
theorem calculus_neg (hC : Calculus E) (s : Sym) (x : K) : E.diff s (-x) = -E.diff s x := by
  have h0 : E.diff s 0 = 0 := by
    have := hC.add s 0 0
    rw [add_zero] at this
    exact left_eq_add.1 this
  have := hC.add s x (-x)
  rw [add_neg_cancel, h0] at this
  exact (neg_eq_of_add_eq_zero_right this.symm).symm

omit [DecidableEq K] in
theorem riemann_opposite (hC : Calculus E) (r s m n : Nat) :
    riemannOf E G (minusGamma E G) r s m n = riemann E G r s m n - 2 * slope E G r s m n := by
  unfold riemannOf riemann minusGamma slope Ground.d
  rw [calculus_neg hC, calculus_neg hC]
  simp only [neg_mul_neg]
  ring

omit [DecidableEq K] in
theorem ricci_opposite (hC : Calculus E) (m n : Nat) :
    ricciOf E G (minusGamma E G) m n = ricci E G m n - 2 * ∑ l ∈ range G.n, slope E G l m l n := by
  unfold ricciOf ricci
  rw [Finset.mul_sum, ← Finset.sum_sub_distrib]
  exact Finset.sum_congr rfl fun l _ => riemann_opposite hC l m l n

omit [DecidableEq K] in
theorem scalar_opposite (hC : Calculus E) :
    scalarOf E G (minusGamma E G) = scalarCurvature E G -
      2 * ∑ m ∈ range G.n, ∑ n ∈ range G.n, G.gi m n * ∑ l ∈ range G.n, slope E G l m l n := by
  unfold scalarOf scalarCurvature
  rw [Finset.mul_sum, ← Finset.sum_sub_distrib]
  refine Finset.sum_congr rfl fun m _ => ?_
  rw [Finset.mul_sum, ← Finset.sum_sub_distrib]
  refine Finset.sum_congr rfl fun n _ => ?_
  rw [ricci_opposite hC]
  ring

/-- **C36** for metrics with default configuration (1,1): the derivatives of the Christoffel symbols have the wrong sign, the
products the right one. -/
theorem C36_upper (hE : EngineOK E) (hC : Calculus E) (hS : Scene G V w) (hm : UpperMetric G V Dm)
    (hN : NoNames w Dm.name) :
    Returns G w (calcRiemann E G.m) [1, -1, -1, -1] fun D =>
      ∀ r s m n, r < G.n → s < G.n → m < G.n → n < G.n → D.val [r, s, m, n] = riemann E G r s m n -
        2 * (G.d E m (christoffel E G r n s) - G.d E n (christoffel E G r m s)) :=
  returns_for (anyProvides_riemann hE.simp_eq (gives_opposite hE.simp_eq hC hm.ix) hS ⟨hm.view, hm.name, hm.coords⟩
    (noNames_for hN)) fun D hD r s m n hr hs hm' hn =>
      (hD [r, s, m, n] rfl (by simp [hr, hs, hm', hn])).trans (riemann_opposite hC r s m n)

/-- **C37** for metrics with default configuration (1,1). -/
theorem C37_upper (hE : EngineOK E) (hC : Calculus E) (hS : Scene G V w) (hm : UpperMetric G V Dm)
    (hN : NoNames w Dm.name) :
    (Returns G w (calcRicci E G.m) [-1, -1] fun D =>
      ∀ m n, m < G.n → n < G.n → D.val [m, n] = ricci E G m n - 2 * ∑ l ∈ range G.n,
        (G.d E l (christoffel E G l n m) - G.d E n (christoffel E G l l m))) ∧
    Returns G w (calcScalar E G.m) [] fun D => D.val [] = scalarCurvature E G -
      2 * ∑ m ∈ range G.n, ∑ n ∈ range G.n, G.gi m n * ∑ l ∈ range G.n,
        (G.d E l (christoffel E G l n m) - G.d E n (christoffel E G l l m)) :=
  ⟨returns_for (anyProvides_ricci hE.simp_eq (gives_opposite hE.simp_eq hC hm.ix) hS ⟨hm.view, hm.name, hm.coords⟩
    (noNames_for hN)) fun D hD m n hm' hn => (hD [m, n] rfl (by simp [hm', hn])).trans (ricci_opposite hC m n),
  returns_for (anyProvides_scalar hE.simp_eq (gives_opposite hE.simp_eq hC hm.ix) hS ⟨hm.view, hm.name, hm.coords⟩
    (noNames_for hN)) fun D hD => (hD [] rfl (by simp)).trans (scalar_opposite hC)⟩

/-- **C38** for metrics with default configuration (1,1): the Einstein tensor of the wrong Ricci tensor. -/
theorem C38_upper (hE : EngineOK E) (hC : Calculus E) (hS : Scene G V w) (hm : UpperMetric G V Dm)
    (hN : NoNames w Dm.name) :
    Returns G w (calcEinstein E G.m) [-1, -1] fun D =>
      ∀ m n, m < G.n → n < G.n → D.val [m, n] = einsteinOf E G (minusGamma E G) m n :=
  returns_for (anyProvides_einstein hE.simp_eq (gives_opposite hE.simp_eq hC hm.ix) hS ⟨hm.view, hm.name, hm.coords⟩
    (noNames_for hN)) fun D hD m n hm' hn => hD [m, n] rfl (by simp [hm', hn])

/-- **C39** for metrics with default configuration (1,1): the Weyl tensor of the wrong Riemann tensor. -/
theorem C39_upper (hE : EngineOK E) (hC : Calculus E) (hS : Scene G V w) (hm : UpperMetric G V Dm)
    (hN : NoNames w Dm.name) (hn : 2 < G.n) :
    Returns G w (calcWeyl E G.m) [-1, -1, -1, -1] fun D =>
      ∀ i k l m, i < G.n → k < G.n → l < G.n → m < G.n → D.val [i, k, l, m] = weylOf E G (minusGamma E G) i k l m := by
  refine Does.mono (anyProvides_weyl hE.simp_eq (gives_opposite hE.simp_eq hC hm.ix) hS ⟨hm.view, hm.name, hm.coords⟩
    (noNames_for hN) hn) ?_
  rintro r w' ⟨V', D, h1, -, -, h2, -, h3⟩
  exact ⟨V', D, h1, h2, h3.view, h3.coords, h3.cfg, fun i k l m hi hk hl hm' =>
    h3.val [i, k, l, m] rfl (by simp [hi, hk, hl, hm'])⟩

/-- The hypotheses hold after a metric with upper components has been declared, whose derivative terms do not vanish. -/
example : ∃ (G : Ground Poly) (V : View Poly) (w : World Poly) (Dm : TField Poly), EngineOK polyEngine ∧
    Calculus polyEngine ∧ Scene G V w ∧ UpperMetric G V Dm ∧ NoNames w Dm.name ∧ 2 < G.n ∧
    ∑ l ∈ range G.n, slope polyEngine G l 1 l 1 = -1 := by
  obtain ⟨G, V, w, hS, hG, hm, hN⟩ := curved_table
  exact ⟨G, V, w, _, polyEngine_ok, polyEngine_calculus, hS, hm, hN, by rw [hG.n]; decide,
    nil_ricciSlope hG 1 1 (by decide) (by decide)⟩

/-! ## These tensors are wrong -/

theorem two_ne : (2 : Poly) ≠ 0 := two_ne_zero

theorem nil_riemann {G : Ground Poly} (h : NilGround G) : slope polyEngine G 2 1 2 1 = -1 := by
  rw [nil_slope h 2 1 2 1 (by decide) (by decide) (by decide) (by decide)]
  have h2 := rat_half
  unfold nilGamma
  simp
  linear_combination -h2

theorem nil_scalarSlope {G : Ground Poly} (h : NilGround G) :
    ∑ m ∈ range G.n, ∑ n ∈ range G.n, G.gi m n * ∑ l ∈ range G.n, slope polyEngine G l m l n = -1 := by
  have hn := h.n
  have : ∀ m ∈ range G.n, ∀ n ∈ range G.n, G.gi m n * ∑ l ∈ range G.n, slope polyEngine G l m l n =
      G.gi m n * if m = 1 ∧ n = 1 then -1 else 0 := fun m hm n hn' => by
    rw [nil_ricciSlope h m n (by rw [← hn]; exact Finset.mem_range.1 hm) (by rw [← hn]; exact Finset.mem_range.1 hn')]
  rw [Finset.sum_congr rfl fun m hm => Finset.sum_congr rfl fun n hn => this m hm n hn, hn]
  have h11 : entry nil 1 1 = 1 := rfl
  simp [Finset.sum_range_succ, h.gi, h11]

theorem nil_wrong {G : Ground Poly} (h : NilGround G) :
    einsteinOf polyEngine G (minusGamma polyEngine G) 2 2 ≠ einstein polyEngine G 2 2 ∧
    weylOf polyEngine G (minusGamma polyEngine G) 2 1 2 1 ≠ weyl polyEngine G 2 1 2 1 := by
  have hC := polyEngine_calculus
  have hn := h.n
  have hsc := scalar_opposite (E := polyEngine) (G := G) hC
  have hR : ∀ m n, m < 3 → n < 3 → ricciOf polyEngine G (minusGamma polyEngine G) m n = ricci polyEngine G m n -
      2 * if m = 1 ∧ n = 1 then -1 else 0 := fun m n hm hn' => by
    rw [ricci_opposite hC, nil_ricciSlope h m n hm hn']
  have h2 := rat_half_two
  rw [nil_scalarSlope h] at hsc
  constructor
  · unfold einsteinOf einstein
    rw [hR 2 2 (by decide) (by decide), hsc, h.g22, if_neg (by decide)]
    intro e
    exact one_ne_zero (α := Poly) (by linear_combination -e - h2)
  · have hr := riemann_opposite (E := polyEngine) (G := G) hC 2 1 2 1
    rw [nil_riemann h] at hr
    have c1 : rat (1 / ((3 : ℕ) - 2 : ℚ)) = (1 : Poly) := by norm_num [rat]
    have c2 : rat (1 / (((3 : ℕ) - 2 : ℚ) * ((3 : ℕ) - 1 : ℚ))) = (rat (1 / 2) : Poly) := by norm_num
    unfold weylOf weyl
    rw [hR 2 1 (by decide) (by decide), hR 2 2 (by decide) (by decide), hR 1 2 (by decide) (by decide),
      hR 1 1 (by decide) (by decide), hsc, hn, c1, c2]
    simp only [Finset.sum_range_succ, Finset.sum_range_zero, h.g20, h.g21, h.g22, h.g12, h.g11, hr]
    intro e
    have hl : riemannLow polyEngine G 2 1 2 1 = riemann polyEngine G 2 1 2 1 := by
      unfold riemannLow
      rw [hn]
      simp [Finset.sum_range_succ, h.g20, h.g21, h.g22]
    rw [hl] at e
    have e' : (1 : Poly) + MvPolynomial.X "z" * MvPolynomial.X "z" = 0 := by
      simp only [show ((2 : Nat) = 1) = False by decide, false_and, and_false, and_true, if_true, if_false] at e
      linear_combination e - (1 + MvPolynomial.X "z" * MvPolynomial.X "z") * h2
    have := congrArg (MvPolynomial.eval fun _ => (0 : ℚ)) e'
    simp at this

/-- **C36** is false of the metric with default configuration (1,1) and the components `nil`: the Riemann tensor is wrong. -/
theorem C36_false : ∃ (E : Engine Poly) (G : Ground Poly) (V : View Poly) (w : World Poly) (Dm : TField Poly),
    EngineOK E ∧ Calculus E ∧ Scene G V w ∧ AnyMetric G V Dm ∧
    Returns G w (calcRiemann E G.m) [1, -1, -1, -1] fun D => D.val [2, 1, 2, 1] ≠ riemann E G 2 1 2 1 := by
  obtain ⟨G, V, w, hS, hG, hm, hN⟩ := curved_table
  have hn := hG.n
  refine ⟨polyEngine, G, V, w, _, polyEngine_ok, polyEngine_calculus, hS, ⟨hm.view, hm.name, hm.coords⟩, ?_⟩
  refine Does.mono (C36_upper polyEngine_ok polyEngine_calculus hS hm hN) ?_
  rintro r w' ⟨V', D, e1, e2, e3, e4, e5, e6⟩
  refine ⟨V', D, e1, e2, e3, e4, e5, ?_⟩
  show D.val [2, 1, 2, 1] ≠ _
  rw [e6 2 1 2 1 (by omega) (by omega) (by omega) (by omega)]
  intro h
  have := nil_riemann hG
  unfold slope at this
  rw [this] at h
  exact two_ne (by linear_combination h)

/-- **C37** is false of the same metric: the Ricci tensor and the Ricci scalar are wrong. -/
theorem C37_false : ∃ (E : Engine Poly) (G : Ground Poly) (V : View Poly) (w : World Poly) (Dm : TField Poly),
    EngineOK E ∧ Calculus E ∧ Scene G V w ∧ AnyMetric G V Dm ∧
    (Returns G w (calcRicci E G.m) [-1, -1] fun D => D.val [1, 1] ≠ ricci E G 1 1) ∧
    Returns G w (calcScalar E G.m) [] fun D => D.val [] ≠ scalarCurvature E G := by
  obtain ⟨G, V, w, hS, hG, hm, hN⟩ := curved_table
  have hn := hG.n
  refine ⟨polyEngine, G, V, w, _, polyEngine_ok, polyEngine_calculus, hS, ⟨hm.view, hm.name, hm.coords⟩, ?_, ?_⟩
  · refine Does.mono (C37_upper polyEngine_ok polyEngine_calculus hS hm hN).1 ?_
    rintro r w' ⟨V', D, e1, e2, e3, e4, e5, e6⟩
    refine ⟨V', D, e1, e2, e3, e4, e5, ?_⟩
    show D.val [1, 1] ≠ _
    rw [e6 1 1 (by omega) (by omega)]
    intro h
    have := nil_ricciSlope hG 1 1 (by decide) (by decide)
    unfold slope at this
    rw [this] at h
    exact two_ne (by simp at h)
  · refine Does.mono (C37_upper polyEngine_ok polyEngine_calculus hS hm hN).2 ?_
    rintro r w' ⟨V', D, e1, e2, e3, e4, e5, e6⟩
    refine ⟨V', D, e1, e2, e3, e4, e5, ?_⟩
    show D.val [] ≠ _
    rw [e6]
    intro h
    have := nil_scalarSlope hG
    unfold slope at this
    rw [this] at h
    exact two_ne (by linear_combination h)

/-- **C38** is false of the same metric: the Einstein tensor is wrong. -/
theorem C38_false : ∃ (E : Engine Poly) (G : Ground Poly) (V : View Poly) (w : World Poly) (Dm : TField Poly),
    EngineOK E ∧ Calculus E ∧ Scene G V w ∧ AnyMetric G V Dm ∧
    Returns G w (calcEinstein E G.m) [-1, -1] fun D => D.val [2, 2] ≠ einstein E G 2 2 := by
  obtain ⟨G, V, w, hS, hG, hm, hN⟩ := curved_table
  have hn := hG.n
  refine ⟨polyEngine, G, V, w, _, polyEngine_ok, polyEngine_calculus, hS, ⟨hm.view, hm.name, hm.coords⟩, ?_⟩
  refine Does.mono (C38_upper polyEngine_ok polyEngine_calculus hS hm hN) ?_
  rintro r w' ⟨V', D, e1, e2, e3, e4, e5, e6⟩
  refine ⟨V', D, e1, e2, e3, e4, e5, ?_⟩
  show D.val [2, 2] ≠ _
  rw [e6 2 2 (by omega) (by omega)]
  exact (nil_wrong hG).1

/-- **C39** is false of the same metric: the Weyl tensor is wrong (in three dimensions it should be zero). -/
theorem C39_false : ∃ (E : Engine Poly) (G : Ground Poly) (V : View Poly) (w : World Poly) (Dm : TField Poly),
    EngineOK E ∧ Calculus E ∧ Scene G V w ∧ AnyMetric G V Dm ∧ 2 < G.n ∧
    Returns G w (calcWeyl E G.m) [-1, -1, -1, -1] fun D => D.val [2, 1, 2, 1] ≠ weyl E G 2 1 2 1 := by
  obtain ⟨G, V, w, hS, hG, hm, hN⟩ := curved_table
  have hn := hG.n
  refine ⟨polyEngine, G, V, w, _, polyEngine_ok, polyEngine_calculus, hS, ⟨hm.view, hm.name, hm.coords⟩, by omega, ?_⟩
  refine Does.mono (C39_upper polyEngine_ok polyEngine_calculus hS hm hN (by omega)) ?_
  rintro r w' ⟨V', D, e1, e2, e3, e4, e5, e6⟩
  refine ⟨V', D, e1, e2, e3, e4, e5, ?_⟩
  show D.val [2, 1, 2, 1] ≠ _
  rw [e6 2 1 2 1 (by omega) (by omega) (by omega) (by omega)]
  exact (nil_wrong hG).2

/-! ## Covariant derivatives -/

/-- **C31** for metrics with default configuration (1,1): the covariant derivative is computed with the opposite of the
Christoffel symbols.  (a) The label is new. -/
theorem C31_upper_gradient (hE : EngineOK E) (hC : Calculus E) (hS : Scene G V w) (hm : UpperMetric G V Dm)
    (hN : NamesFor E G (minusGamma E G) V w Dm.name) {letters : List Sym} {d y : CalcObj} {t : Id'} {a : Sym} {D : TField K}
    (hd : derivative .covariantD [a] = .ok d) (hy : Denotes G V y t D) (hyn : D.name ≠ "TEMP")
    (hln : letters.Nodup) {u v : Sym} (hu : u ∈ letters) (hv : v ∈ letters) (huv : u ≠ v)
    (hu' : u ∉ y.labels ++ [a]) (hv' : v ∉ y.labels ++ [a]) (ha : a ∉ y.labels) :
    DerivesFor E G (minusGamma E G) V w Dm.name (calcMatmul E letters d y) fun l D' => l = a :: y.labels ∧
      D'.ix = -1 :: D.ix ∧ ∀ pos ρ, Positions pos → Values G.n ρ →
        D'.at G l pos ρ = (nablaOf E G (minusGamma E G) D).at G (a :: y.labels) pos ρ := by
  cases hd
  obtain ⟨s1, s2, hs, h12, h1, h2⟩ := dummySymbols_two hln hu hv huv hu' hv'
  simp only [List.mem_append, List.mem_singleton, not_or] at h1 h2
  have h0 : tupleGet (dummySymbols letters (y.labels ++ [a])) 0 = .ok s1 := by rw [hs]; rfl
  unfold calcMatmul
  rw [hy.role]
  show DerivesFor E G (minusGamma E G) V w Dm.name (matmulCovariant E letters [a] y (leftPartialSymbol [a] y.labels)
    ([a] ++ y.labels) (freeLabels [a] y.labels)) _
  rw [freeLabels_new ha]
  have hps : ∃ p, leftPartialSymbol [a] y.labels (dummySymbols letters (y.labels ++ [a])) = .ok p ∧ p ∉ y.labels ∧
      p ≠ s1 := by
    unfold leftPartialSymbol
    by_cases hl : y.labels = []
    · rw [if_neg (by simpa using hl), hs]
      exact ⟨s2, rfl, h2.1, h12.symm⟩
    · rw [if_pos hl]
      refine ⟨a, ?_, ha, Ne.symm h1.2⟩
      show (if a ∈ y.labels then _ else _) = _
      rw [if_neg ha]
      rfl
  obtain ⟨p, hp1, hp2, hp3⟩ := hps
  exact derives_anyGradient hE.simp_eq hS (gives_opposite hE.simp_eq hC hm.ix) ⟨hm.view, hm.name, hm.coords⟩ hN hy hyn h0
    hp1 hp2 h1.1 hp3 ha (List.Perm.refl _)

/-- (b) The label is one of the labels of the tensor, and summed over. -/
theorem C31_upper_divergence (hE : EngineOK E) (hC : Calculus E) (hS : Scene G V w) (hm : UpperMetric G V Dm)
    (hN : NamesFor E G (minusGamma E G) V w Dm.name) {letters : List Sym} {d y : CalcObj} {t : Id'} {a : Sym} {D : TField K}
    (hd : derivative .covariantD [a] = .ok d) (hy : Denotes G V y t D) (hyn : D.name ≠ "TEMP")
    (hln : letters.Nodup) {u v : Sym} (hu : u ∈ letters) (hv : v ∈ letters) (huv : u ≠ v)
    (hu' : u ∉ y.labels ++ [a]) (hv' : v ∉ y.labels ++ [a]) (ha : a ∈ y.labels) :
    DerivesFor E G (minusGamma E G) V w Dm.name (calcMatmul E letters d y) fun l D' =>
      l = (y.labels.filter fun s => decide (s ≠ a)) ∧ D'.ix = l.map (posOf y.labels D.ix) ∧
      ∀ pos ρ, Positions pos → Values G.n ρ → D'.at G l pos ρ = ∑ k ∈ range G.n,
        (nablaOf E G (minusGamma E G) D).comp G (-1 :: y.labels.map (Function.update pos a 1))
          (k :: y.labels.map (Function.update ρ a k)) := by
  cases hd
  obtain ⟨s1, s2, hs, h12, h1, h2⟩ := dummySymbols_two hln hu hv huv hu' hv'
  simp only [List.mem_append, List.mem_singleton, not_or] at h1 h2
  have h0 : tupleGet (dummySymbols letters (y.labels ++ [a])) 0 = .ok s1 := by rw [hs]; rfl
  unfold calcMatmul
  rw [hy.role]
  show DerivesFor E G (minusGamma E G) V w Dm.name (matmulCovariant E letters [a] y (leftPartialSymbol [a] y.labels)
    ([a] ++ y.labels) (freeLabels [a] y.labels)) _
  have hl : y.labels ≠ [] := fun h => by rw [h] at ha; cases ha
  refine derives_anyDivergence hE.simp_eq hS (gives_opposite hE.simp_eq hC hm.ix) ⟨hm.view, hm.name, hm.coords⟩ hN hy hyn
    h0 (p := s2) ?_ h2.1 h1.1 h12.symm ha
  unfold leftPartialSymbol
  rw [if_pos hl]
  show (if a ∈ y.labels then _ else _) = _
  rw [if_pos ha, hs]
  rfl

/-- The derivative of the metric with the opposite of the Christoffel symbols. -/
theorem upper_value (hC : Calculus E) (hS : Scene G V w) (hm : UpperMetric G V Dm) {k i j : Nat} (hk : k < G.n) (hi : i < G.n)
    (hj : j < G.n) : covariantOf E G (minusGamma E G) Dm.ix Dm.val k [i, j] = 2 * G.d E k (G.gi i j) := by
  obtain ⟨-, -, hc⟩ := scene_metric_comp hS hm.view
  have hv : ∀ i j, i < G.n → j < G.n → Dm.val [i, j] = G.gi i j := fun i j hi hj => by
    rw [← (hc i j hi hj).2.1, ← hm.ix, comp_self (by simp [hi, hj]) (by rw [hm.ix]; rfl)]
  unfold covariantOf
  rw [hm.ix]
  simp only [List.length_cons, List.length_nil, sum_range_succ, sum_range_zero, List.getD_cons_zero,
    List.getD_cons_succ, List.set_cons_zero, List.set_cons_succ, if_true, zero_add]
  have e1 : ∑ l ∈ range G.n, minusGamma E G i k l * Dm.val [l, j] = -∑ l ∈ range G.n, christoffel E G i k l * G.gi l j := by
    rw [← sum_neg_distrib]
    exact sum_congr rfl fun l hl => by rw [hv l j (by simpa using hl) hj]; unfold minusGamma; ring
  have e2 : ∑ l ∈ range G.n, minusGamma E G j k l * Dm.val [i, l] = -∑ l ∈ range G.n, G.gi i l * christoffel E G j k l := by
    rw [← sum_neg_distrib]
    exact sum_congr rfl fun l hl => by rw [hv i l hi (by simpa using hl)]; unfold minusGamma; ring
  rw [hv i j hi hj, e1, e2, d_inverse hC hS.inverse hS.symm hk hi hj]
  ring

/-- **C33** for metrics with default configuration (1,1): the covariant derivative of the metric does not vanish, it is
twice the partial derivative of its components. -/
theorem C33_upper (hE : EngineOK E) (hC : Calculus E) (hS : Scene G V w) (hm : UpperMetric G V Dm)
    (hN : NamesFor E G (minusGamma E G) V w Dm.name) {letters : List Sym} {d : CalcObj} {a b c : Sym}
    (hd : derivative .covariantD [a] = .ok d) (hln : letters.Nodup) {u v : Sym} (hu : u ∈ letters)
    (hv : v ∈ letters) (huv : u ≠ v) (hu' : u ∉ [b, c, a]) (hv' : v ∉ [b, c, a]) (hbc : b ≠ c) (hab : a ≠ b)
    (hac : a ≠ c) :
    DerivesFor E G (minusGamma E G) V w Dm.name (calcMatmul E letters d ⟨.tensor, some G.m, [b, c]⟩) fun l D' =>
      l = [a, b, c] ∧ D'.ix = [-1, 1, 1] ∧ ∀ k i j, k < G.n → i < G.n → j < G.n →
        D'.val [k, i, j] = 2 * G.d E k (G.gi i j) := by
  have hy : Denotes G V ⟨.tensor, some G.m, [b, c]⟩ G.m Dm :=
    ⟨⟨rfl, rfl, hm.view, by simp [hbc], by rw [hm.ix]; rfl⟩, hm.coords⟩
  refine Does.mono (C31_upper_gradient hE hC hS hm hN hd hy hm.name hln hu hv huv hu' hv' (by simp [hab, hac])) ?_
  rintro z w' ⟨V', t', D', h1, h2, h3, h4, h5, h6, h7, h8⟩
  rw [hm.ix] at h7
  refine ⟨V', t', D', h1, h2, h3, h4, h5, h6, h7, fun k i j hk hi hj => ?_⟩
  have hpos : Positions fun s => if s = a then -1 else if s = b then 1 else 1 := by
    intro s
    dsimp only
    split_ifs <;> simp
  have hρ : Values G.n fun s => if s = a then k else if s = b then i else j := by
    intro s
    dsimp only
    split_ifs <;> assumption
  have := h8 _ _ hpos hρ
  rw [h6] at this
  unfold TField.at at this
  simp only [List.map_cons, List.map_nil, if_true, hab.symm, hac.symm, hbc.symm, if_false] at this
  have e1 : D'.comp G [-1, 1, 1] [k, i, j] = D'.val [k, i, j] := by
    rw [← h7, comp_self (by simp [hk, hi, hj]) (by rw [h7]; rfl)]
  have e2 : (nablaOf E G (minusGamma E G) Dm).comp G [-1, 1, 1] [k, i, j] = covariantOf E G (minusGamma E G) Dm.ix Dm.val k [i, j] := by
    have hix : (nablaOf E G (minusGamma E G) Dm).ix = [-1, 1, 1] := by show -1 :: Dm.ix = _; rw [hm.ix]
    rw [← hix, comp_self (by simp [hk, hi, hj]) (by rw [hix]; rfl)]
    rfl
  rw [e1, e2] at this
  rw [this]
  exact upper_value hC hS hm hk hi hj

/-- The covariant derivative of the metric vanishes, if it is computed correctly. -/
theorem upper_nabla (hC : Calculus E) (hS : Scene G V w) (hm : UpperMetric G V Dm) {k i j : Nat} (hk : k < G.n) (hi : i < G.n)
    (hj : j < G.n) : (nabla E G Dm).val [k, i, j] = 0 := by
  obtain ⟨-, -, hc⟩ := scene_metric_comp hS hm.view
  have hv : ∀ i j, i < G.n → j < G.n → Dm.val [i, j] = G.gi i j := fun i j hi hj => by
    rw [← (hc i j hi hj).2.1, ← hm.ix, comp_self (by simp [hi, hj]) (by rw [hm.ix]; rfl)]
  show covariant E G Dm.ix Dm.val k [i, j] = 0
  unfold covariant
  rw [hm.ix]
  simp only [List.length_cons, List.length_nil, sum_range_succ, sum_range_zero, List.getD_cons_zero,
    List.getD_cons_succ, List.set_cons_zero, List.set_cons_succ, if_true, zero_add]
  have e1 : ∑ l ∈ range G.n, christoffel E G i k l * Dm.val [l, j] = ∑ l ∈ range G.n, christoffel E G i k l * G.gi l j :=
    sum_congr rfl fun l hl => by rw [hv l j (by simpa using hl) hj]
  have e2 : ∑ l ∈ range G.n, christoffel E G j k l * Dm.val [i, l] = ∑ l ∈ range G.n, G.gi i l * christoffel E G j k l :=
    sum_congr rfl fun l hl => by rw [hv i l hi (by simpa using hl)]; ring
  rw [hv i j hi hj, e1, e2, d_inverse hC hS.inverse hS.symm hk hi hj]
  ring

/-- **C33**, and with it **C31**, is false of the metric with upper components `nil`: `∇_2 g^01` is 2. -/
theorem C33_false : ∃ (E : Engine Poly) (G : Ground Poly) (V : View Poly) (w : World Poly) (Dm : TField Poly)
    (letters : List Sym) (d : CalcObj), EngineOK E ∧ Calculus E ∧ Scene G V w ∧ AnyMetric G V Dm ∧
    derivative .covariantD ["a"] = .ok d ∧
    (nabla E G Dm).val [2, 0, 1] = 0 ∧
    Does (calcMatmul E letters d ⟨.tensor, some G.m, ["b", "c"]⟩) w fun z w' => ∃ V' t D, Scene G V' w' ∧
      Denotes G V' z t D ∧ z.labels = ["a", "b", "c"] ∧ D.ix = (nabla E G Dm).ix ∧ D.val [2, 0, 1] = 2 := by
  obtain ⟨G, V, w, hS, hG, hm, hN⟩ := curved_table
  have hn := hG.n
  refine ⟨polyEngine, G, V, w, _, ["a", "b", "c", "d", "e"], _, polyEngine_ok, polyEngine_calculus, hS,
    ⟨hm.view, hm.name, hm.coords⟩, rfl, ?_, ?_⟩
  · exact upper_nabla polyEngine_calculus hS hm (by omega) (by omega) (by omega)
  · refine Does.mono (C33_upper polyEngine_ok polyEngine_calculus hS hm (noNames_for hN) rfl (by decide) (u := "d")
      (v := "e") (by decide) (by decide) (by decide) (by decide) (by decide) (by decide) (by decide) (by decide)) ?_
    rintro z w' ⟨V', t, D, e1, -, -, -, e2, e3, e4, e5⟩
    refine ⟨V', t, D, e1, e2, e3, e4, ?_⟩
    rw [e5 2 0 1 (by omega) (by omega) (by omega), (nil_d hG _).2.2, hG.gi, show entry nil 0 1 = MvPolynomial.X "z" from rfl]
    simp

end PyOGRe
