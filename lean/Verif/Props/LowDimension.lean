import Verif.Lemmas.LowDimension
import Verif.Props.Constant
import Verif.Props.UpperIdentities

/-!
# Curvature in one, two and three dimensions: C97
-/

namespace PyOGRe
open Spec Finset MvPolynomial
variable {K : Type} [CommRing K] [DecidableEq K] [Algebra ℚ K] {E : Engine K} {G : Ground K} {V : View K} {w : World K}
  {Dm : TField K}

/-- **C97** (for metrics with the default configuration (-1,-1)) In one dimension the Riemann tensor vanishes, in two
dimensions the Einstein tensor, and in three dimensions the Weyl tensor. -/
theorem C97_dimensions_partial (hE : EngineOK E) (hC : Calculus E) (hS : Scene G V w) (hm : LowerMetric G V Dm)
    (hN : NamesOK E G V w Dm.name) :
    (G.n = 1 → Returns G w (calcRiemann E G.m) [1, -1, -1, -1] (Vanishes G)) ∧
    (G.n = 2 → Returns G w (calcEinstein E G.m) [-1, -1] (Vanishes G)) ∧
    (G.n = 3 → Returns G w (calcWeyl E G.m) [-1, -1, -1, -1] (Vanishes G)) := by
  refine ⟨fun hn => ?_, fun hn => ?_, fun hn => ?_⟩
  · refine returns_of_provides (provides_riemann hE.simp_eq hS hm hN) fun D hD hix => vanishes_val fun J hJ hJn => ?_
    rw [hix] at hJ
    rw [hD J hJ hJn]
    match J, hJ, hJn with
    | [a, b, c, d], _, hJn =>
      have ha := hJn a (by simp)
      have hb := hJn b (by simp)
      have hc := hJn c (by simp)
      have hd := hJn d (by simp)
      obtain rfl : a = 0 := by omega
      obtain rfl : b = 0 := by omega
      obtain rfl : c = 0 := by omega
      obtain rfl : d = 0 := by omega
      exact riemann_one hC hS.inverse hS.symm hn
  · refine returns_of_provides (provides_einstein hE.simp_eq hS hm hN) fun D hD hix => vanishes_val fun J hJ hJn => ?_
    rw [hix] at hJ
    rw [hD J hJ hJn]
    match J, hJ, hJn with
    | [a, b], _, hJn =>
      rw [hn] at hJn
      exact einstein_two hC hS.inverse hS.symm hn (hJn a (by simp)) (hJn b (by simp))
  · refine returns_weyl hE.simp_eq (gives_christoffel hE.simp_eq hm.ix) hS ⟨hm.view, hm.name, hm.coords⟩
      (namesFor_christoffel hN) (by omega) fun D hix hD => vanishes_val fun J hJ hJn => ?_
    rw [hix] at hJ
    rw [hD J hJ hJn]
    match J, hJ, hJn with
    | [a, b, c, d], _, hJn =>
      rw [hn] at hJn
      exact weyl_three hC hS.inverse hS.symm hn (hJn a (by simp)) (hJn b (by simp)) (hJn c (by simp)) (hJn d (by simp))

/-- **C97** in one dimension, for metrics with default configuration (1,1). -/
theorem C97_one_upper (hE : EngineOK E) (hC : Calculus E) (hS : Scene G V w) (hm : UpperMetric G V Dm)
    (hN : NamesFor E G (minusGamma E G) V w Dm.name) (hn : G.n = 1) :
    Returns G w (calcRiemann E G.m) [1, -1, -1, -1] (Vanishes G) := by
  refine Does.mono (anyProvides_riemann hE.simp_eq (gives_opposite hE.simp_eq hC hm.ix) hS ⟨hm.view, hm.name, hm.coords⟩ hN) ?_
  rintro r w' ⟨V', D, h1, -, -, -, h2, -, h3⟩
  refine ⟨V', D, h1, h2, h3.view, h3.coords, h3.cfg, vanishes_val fun J hJ hJn => ?_⟩
  rw [h3.cfg] at hJ
  rw [h3.val J hJ hJn]
  match J, hJ, hJn with
  | [a, b, c, d], _, hJn =>
    have hc := hJn c (by simp)
    have hd := hJn d (by simp)
    obtain rfl : c = 0 := by omega
    obtain rfl : d = 0 := by omega
    exact half_zero (riemannOf_antisymm _ a b 0 0)

/-- A line, a plane with a metric that is not constant, and a space. -/
example : (∃ (G : Ground Poly) (V : View Poly) (w : World Poly) (Dm : TField Poly), EngineOK polyEngine ∧ Calculus polyEngine ∧
      Scene G V w ∧ LowerMetric G V Dm ∧ NamesOK polyEngine G V w Dm.name ∧ G.n = 1) ∧
    (∃ (G : Ground Poly) (V : View Poly) (w : World Poly) (Dm : TField Poly), EngineOK polyEngine ∧ Calculus polyEngine ∧
      Scene G V w ∧ UpperMetric G V Dm ∧ NamesFor polyEngine G (minusGamma polyEngine G) V w Dm.name ∧ G.n = 1) ∧
    (∃ (G : Ground Poly) (V : View Poly) (w : World Poly) (Dm : TField Poly), EngineOK polyEngine ∧ Calculus polyEngine ∧
      Scene G V w ∧ LowerMetric G V Dm ∧ NamesOK polyEngine G V w Dm.name ∧ G.n = 2 ∧ G.g 0 0 = X "x" * X "x") ∧
    ∃ (G : Ground Poly) (V : View Poly) (w : World Poly) (Dm : TField Poly), EngineOK polyEngine ∧ Calculus polyEngine ∧
      Scene G V w ∧ LowerMetric G V Dm ∧ NamesOK polyEngine G V w Dm.name ∧ G.n = 3 ∧
      christoffel polyEngine G 2 0 1 = -rat (1 / 2) := by
  have hl : ∀ i j, i < 1 → j < 1 → entry (⟨[1, 1], [1]⟩ : Arr Poly) i j = entry ⟨[1, 1], [1]⟩ j i := by
    intro i j hi hj
    interval_cases i <;> interval_cases j <;> rfl
  have hl' : Inverse 1 (fun i j => (⟨[1, 1], [1]⟩ : Arr Poly).get [i, j]) (fun i j => (⟨[1, 1], [1]⟩ : Arr Poly).get [i, j]) := by
    intro i j hi hj
    interval_cases i <;> interval_cases j <;> simp [matMul, delta, Arr.get, ravel]
  refine ⟨?_, ?_, ?_, ?_⟩
  · obtain ⟨G, V, w, h1, h2, -, h4, h5, -, -⟩ := declared (syms := ["x"]) (a := ⟨[1, 1], [1]⟩) rfl rfl hl hl' (Or.inl rfl) (by simp)
    exact ⟨G, V, w, _, polyEngine_ok, polyEngine_calculus, h1, ⟨h4.view, h4.name, h4.coords, rfl⟩,
      fun q i hi o ho hn => absurd hn (h5 q i hi o ho), h2⟩
  · obtain ⟨G, V, w, h1, h2, -, h4, h5, -, -⟩ := declared (syms := ["x"]) (a := ⟨[1, 1], [1]⟩) rfl rfl hl hl' (Or.inr rfl) (by simp)
    exact ⟨G, V, w, _, polyEngine_ok, polyEngine_calculus, h1, ⟨h4.view, h4.name, h4.coords, rfl⟩, noNames_for h5, h2⟩
  · obtain ⟨G, V, w, h1, h2, -, h4, h5, h6, -⟩ := declared (syms := ["x", "y"]) (a := leaf) rfl rfl leaf_symm leaf_inverse
      (Or.inl rfl) (by simp)
    exact ⟨G, V, w, _, polyEngine_ok, polyEngine_calculus, h1, ⟨h4.view, h4.name, h4.coords, rfl⟩,
      fun q i hi o ho hn => absurd hn (h5 q i hi o ho), h2, h6 rfl 0 0⟩
  · obtain ⟨G, V, w, h1, h2, -, h4, h5, h6⟩ := curved
    refine ⟨G, V, w, _, polyEngine_ok, polyEngine_calculus, h1, h4, fun q i hi o ho hn => ?_, h2, h6⟩
    rcases h5 i hi o ho with h | h <;> rw [h] at hn <;> cases q <;> exact absurd hn (by decide)

/-- **C97** is false for metrics with default configuration (1,1): the Einstein tensor of the metric with upper components
`x² ∂x² + 2 ∂x ∂y`, and the Weyl tensor of the metric with upper components `nil`, are not zero. -/
theorem C97_false :
    (∃ (E : Engine Poly) (G : Ground Poly) (V : View Poly) (w : World Poly) (Dm : TField Poly), EngineOK E ∧ Calculus E ∧
      Scene G V w ∧ UpperMetric G V Dm ∧ NoNames w Dm.name ∧ G.n = 2 ∧
      Returns G w (calcEinstein E G.m) [-1, -1] fun D => ¬ Vanishes G D) ∧
    ∃ (E : Engine Poly) (G : Ground Poly) (V : View Poly) (w : World Poly) (Dm : TField Poly), EngineOK E ∧ Calculus E ∧
      Scene G V w ∧ UpperMetric G V Dm ∧ NoNames w Dm.name ∧ G.n = 3 ∧
      Returns G w (calcWeyl E G.m) [-1, -1, -1, -1] fun D => ¬ Vanishes G D := by
  constructor
  · obtain ⟨G, V, w, hS, hG, hm, hN⟩ := leaf_names_table
    have hN := leaf_noNames hN
    refine ⟨polyEngine, G, V, w, _, polyEngine_ok, polyEngine_calculus, hS, hm, hN, hG.n, ?_⟩
    refine Does.mono (C38_upper polyEngine_ok polyEngine_calculus hS hm hN) ?_
    rintro r w' ⟨V', D, h1, h2, h3, h4, h5, h6⟩
    refine ⟨V', D, h1, h2, h3, h4, h5, fun hv => ?_⟩
    have hlt : 1 < G.n := by rw [hG.n]; decide
    have e := hv [-1, -1] [1, 1] (by rw [h5]; exact ⟨rfl, by simp⟩) (by rw [h5]; rfl) (by simp [hlt])
    rw [← h5, comp_self (by simp [hlt]) (by rw [h5]; rfl), h6 1 1 hlt hlt] at e
    obtain ⟨E0, E1, E2, E3⟩ := leaf_einstein hG (Γ := minusGamma polyEngine G) fun l m n => leaf_christoffel hG l m n
    rw [E3] at e
    have hx : (X "x" : Poly) ≠ 0 := X_ne_zero _
    simp [hx] at e
  · obtain ⟨G, V, w, hS, hG, hm, hN⟩ := curved_table
    refine ⟨polyEngine, G, V, w, _, polyEngine_ok, polyEngine_calculus, hS, hm, hN, hG.n, ?_⟩
    have hlt : 2 < G.n := by rw [hG.n]; decide
    have hl1 : 1 < G.n := by omega
    refine Does.mono (C39_upper polyEngine_ok polyEngine_calculus hS hm hN hlt) ?_
    rintro r w' ⟨V', D, h1, h2, h3, h4, h5, h6⟩
    refine ⟨V', D, h1, h2, h3, h4, h5, fun hv => ?_⟩
    have e := hv [-1, -1, -1, -1] [2, 1, 2, 1] (by rw [h5]; exact ⟨rfl, by simp⟩) (by rw [h5]; rfl) (by simp [hlt, hl1])
    rw [← h5, comp_self (by simp [hlt, hl1]) (by rw [h5]; rfl), h6 2 1 2 1 hlt hl1 hlt hl1] at e
    refine (nil_wrong hG).2 ?_
    rw [e]
    exact (weyl_three polyEngine_calculus hS.inverse hS.symm hG.n (by decide) (by decide) (by decide) (by decide)).symm

end PyOGRe
