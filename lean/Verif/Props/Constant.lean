import Verif.Lemmas.Constant
import Verif.Spec.Declared

/-!
# Constant metrics and constant factors: C98, C99
-/

namespace PyOGRe
open Spec Finset MvPolynomial
variable {K : Type} [CommRing K] [DecidableEq K] [Algebra ℚ K] {E : Engine K} {G G' : Ground K} {V V' : View K}
  {w w' : World K} {Dm Dm' : TField K}

omit [DecidableEq K] [Algebra ℚ K] in
theorem vanishes_val {D : TField K} (h : ∀ J, J.length = D.ix.length → (∀ x ∈ J, x < G.n) → D.val J = 0) : Vanishes G D :=
  fun cfg _ _ hJ _ => comp_zero h cfg hJ

theorem returns_weyl {Γ : Nat → Nat → Nat → K} {P : TField K → Prop} (hE : ∀ x, E.simp x = x)
    (hΓ : GivesConnection E G Γ Dm) (hS : Scene G V w) (hm : AnyMetric G V Dm) (hc : NamesFor E G Γ V w Dm.name)
    (hn : 2 < G.n)
    (hP : ∀ D, D.ix = [-1, -1, -1, -1] → (∀ J, J.length = 4 → (∀ x ∈ J, x < G.n) → D.val J = Quantity.compsOf E G Γ .weyl J) →
      P D) : Returns G w (calcWeyl E G.m) [-1, -1, -1, -1] P := by
  refine Does.mono (anyProvides_weyl hE hΓ hS hm hc hn) ?_
  rintro r w' ⟨V', D, h1, -, -, h2, -, h3⟩
  exact ⟨V', D, h1, h2, h3.view, h3.coords, h3.cfg, hP D h3.cfg h3.val⟩

/-! ## C98: constant metrics are flat -/

theorem returns_zero {q : Quantity} {m : PyM K Id'} (hC : Calculus E) (h : ProvidesFor E G (fun _ _ _ => 0) V w Dm.name m q) :
    Returns G w m q.ix (Vanishes G) := by
  refine Does.mono h ?_
  rintro r w' ⟨V', D, h1, -, -, -, h2, -, h3⟩
  refine ⟨V', D, h1, h2, h3.view, h3.coords, h3.cfg, vanishes_val fun J hJ hJn => ?_⟩
  rw [h3.cfg] at hJ
  rw [h3.val J hJ hJn]
  exact compsOf_zero hC q J

/-- **C98** If all derivatives of the components of the metric vanish (with either default configuration), then so do its
Christoffel symbols and its curvature.  Objects that already have the names of these tensors are supposed to be zero. -/
theorem C98_flat (hE : EngineOK E) (hC : Calculus E) (hS : Scene G V w) (hm : AnyMetric G V Dm)
    (hix : Dm.ix = [-1, -1] ∨ Dm.ix = [1, 1]) (hN : NamesFor E G (fun _ _ _ => 0) V w Dm.name)
    (hg : ∀ k i j, k < G.n → i < G.n → j < G.n → E.diff (G.syms.getD k "") (Dm.val [i, j]) = 0) :
    Returns G w (calcChristoffel E G.m) [1, -1, -1] (Vanishes G) ∧
    Returns G w (calcRiemann E G.m) [1, -1, -1, -1] (Vanishes G) ∧
    Returns G w (calcRicci E G.m) [-1, -1] (Vanishes G) ∧
    Returns G w (calcScalar E G.m) [] (Vanishes G) ∧
    Returns G w (calcEinstein E G.m) [-1, -1] (Vanishes G) ∧
    (2 < G.n → Returns G w (calcWeyl E G.m) [-1, -1, -1, -1] (Vanishes G)) := by
  have hΓ := gives_zero hE.simp_eq hC hix (constant_lower hC hS hm hix hg)
  refine ⟨returns_zero hC (anyProvides_christoffel hΓ hS hm hN), returns_zero hC (anyProvides_riemann hE.simp_eq hΓ hS hm hN),
    returns_zero hC (anyProvides_ricci hE.simp_eq hΓ hS hm hN), returns_zero hC (anyProvides_scalar hE.simp_eq hΓ hS hm hN),
    returns_zero hC (anyProvides_einstein hE.simp_eq hΓ hS hm hN), fun hn => ?_⟩
  refine returns_weyl hE.simp_eq hΓ hS hm hN hn fun D hD hv => vanishes_val fun J hJ hJn => ?_
  rw [hD] at hJ
  rw [hv J hJ hJn]
  exact compsOf_zero hC .weyl J

/-- The components of a constant metric in oblique coordinates of space, and of its inverse. -/
noncomputable def oblique : Arr Poly := ⟨[3, 3], [1, 2, 0, 2, 5, 0, 0, 0, 1]⟩
noncomputable def obliqueInv : Arr Poly := ⟨[3, 3], [5, -2, 0, -2, 1, 0, 0, 0, 1]⟩

theorem oblique_inverse : Inverse 3 (fun i j => oblique.get [i, j]) (fun i j => obliqueInv.get [i, j]) := by
  intro i j hi hj
  interval_cases i <;> interval_cases j <;>
    simp [matMul, Finset.sum_range_succ, delta, oblique, obliqueInv, Arr.get, ravel] <;> ring

theorem oblique_symm (i j : Nat) (hi : i < 3) (hj : j < 3) : entry oblique i j = entry oblique j i := by
  interval_cases i <;> interval_cases j <;> rfl

/-- A metric with constant components, not diagonal, with either default configuration. -/
example (ix : List Int) (hix : ix = [-1, -1] ∨ ix = [1, 1]) :
    ∃ (G : Ground Poly) (V : View Poly) (w : World Poly) (Dm : TField Poly), EngineOK polyEngine ∧ Calculus polyEngine ∧
      Scene G V w ∧ AnyMetric G V Dm ∧ Dm.ix = ix ∧ NamesFor polyEngine G (fun _ _ _ => 0) V w Dm.name ∧ 2 < G.n ∧
      (∀ k i j, k < G.n → i < G.n → j < G.n → polyEngine.diff (G.syms.getD k "") (Dm.val [i, j]) = 0) ∧
      Dm.val [0, 1] = 2 := by
  obtain ⟨G, V, w, h1, h2, h3, h4, h5, -, -⟩ := declared (syms := ["x", "y", "z"]) (a := oblique) rfl rfl oblique_symm
    oblique_inverse hix (by simp)
  refine ⟨G, V, w, _, polyEngine_ok, polyEngine_calculus, h1, h4, rfl, noNames_for h5, by rw [h2]; decide, ?_, rfl⟩
  intro k i j _ hi hj
  rw [h2] at hi hj
  show pderiv _ (oblique.get [i, j]) = 0
  have h : ∀ n : ℕ, pderiv (G.syms.getD k "") (n : Poly) = 0 := fun n => by
    rw [show ((n : ℕ) : Poly) = C (n : ℚ) from (map_natCast C n).symm, pderiv_C]
  have hi : i < 3 := hi
  have hj : j < 3 := hj
  have := h 2
  have := h 5
  interval_cases i <;> interval_cases j <;> simp [oblique, Arr.get, ravel] <;> assumption

/-! ## C99: constant factors -/

theorem scales_of {Γ Γ' : Nat → Nat → Nat → K} {q : Quantity} {f : Id' → PyM K Id'} {base base' : String} {x : K}
    (h : ProvidesFor E G Γ V w base (f G.m) q) (h' : ProvidesFor E G' Γ' V' w' base' (f G'.m) q) (hn : G'.n = G.n)
    (he : ∀ J, J.length = q.ix.length → (∀ i ∈ J, i < G.n) → q.compsOf E G' Γ' J = x * q.compsOf E G Γ J) :
    Scales G G' w w' f q.ix x := by
  refine ⟨q.compsOf E G Γ, returns_for h fun D hD => hD, returns_for h' fun D hD J hJ hJn => ?_⟩
  rw [hD J hJ (by rw [hn]; exact hJn), he J hJ hJn]

/-- The same, with any connections that agree. -/
theorem any_scaled {Γ Γ' : Nat → Nat → Nat → K} {c c' : K} (hE : EngineOK E) (hS : Scene G V w) (hS' : Scene G' V' w')
    (hm : AnyMetric G V Dm) (hm' : AnyMetric G' V' Dm') (hΓ : GivesConnection E G Γ Dm) (hΓ' : GivesConnection E G' Γ' Dm')
    (hN : NamesFor E G Γ V w Dm.name) (hN' : NamesFor E G' Γ' V' w' Dm'.name) (h : Scaled E G G' c c')
    (he : ∀ l m n, l < G.n → m < G.n → n < G.n → Γ' l m n = Γ l m n) :
    Scales G G' w w' (calcChristoffel E) [1, -1, -1] 1 ∧ Scales G G' w w' (calcRiemann E) [1, -1, -1, -1] 1 ∧
    Scales G G' w w' (calcRicci E) [-1, -1] 1 ∧ Scales G G' w w' (calcScalar E) [] c' ∧
    Scales G G' w w' (calcEinstein E) [-1, -1] 1 ∧ (2 < G.n → Scales G G' w w' (calcWeyl E) [-1, -1, -1, -1] c) := by
  have hi := hS.inverse
  have hi' := hS'.inverse
  refine ⟨scales_of (anyProvides_christoffel hΓ hS hm hN) (anyProvides_christoffel hΓ' hS' hm' hN') h.n ?_,
    scales_of (anyProvides_riemann hE.simp_eq hΓ hS hm hN) (anyProvides_riemann hE.simp_eq hΓ' hS' hm' hN') h.n ?_,
    scales_of (anyProvides_ricci hE.simp_eq hΓ hS hm hN) (anyProvides_ricci hE.simp_eq hΓ' hS' hm' hN') h.n ?_,
    scales_of (anyProvides_scalar hE.simp_eq hΓ hS hm hN) (anyProvides_scalar hE.simp_eq hΓ' hS' hm' hN') h.n ?_,
    scales_of (anyProvides_einstein hE.simp_eq hΓ hS hm hN) (anyProvides_einstein hE.simp_eq hΓ' hS' hm' hN') h.n ?_,
    fun hn => ⟨Quantity.compsOf E G Γ .weyl, returns_weyl hE.simp_eq hΓ hS hm hN hn fun D _ hD => hD,
      returns_weyl hE.simp_eq hΓ' hS' hm' hN' (by rw [h.n]; exact hn) fun D _ hD J hJ hJn => ?_⟩⟩
  · intro J hJ hJn
    match J, hJ, hJn with
    | [a, b, d], _, hJn =>
      rw [one_mul]
      exact he a b d (hJn a (by simp)) (hJn b (by simp)) (hJn d (by simp))
  · intro J hJ hJn
    match J, hJ, hJn with
    | [a, b, d, e], _, hJn =>
      rw [one_mul]
      exact scaled_riemann h he (hJn a (by simp)) (hJn b (by simp)) (hJn d (by simp)) (hJn e (by simp))
  · intro J hJ hJn
    match J, hJ, hJn with
    | [a, b], _, hJn =>
      rw [one_mul]
      exact scaled_ricci h he (hJn a (by simp)) (hJn b (by simp))
  · intro J hJ hJn
    exact scaled_scalar h hi hi' he
  · intro J hJ hJn
    match J, hJ, hJn with
    | [a, b], _, hJn =>
      rw [one_mul]
      exact scaled_einstein h hi hi' he (hJn a (by simp)) (hJn b (by simp))
  · rw [hD J hJ (by rw [h.n]; exact hJn)]
    match J, hJ, hJn with
    | [a, b, d, e], _, hJn =>
      exact scaled_weyl h hi hi' he (hJn a (by simp)) (hJn b (by simp)) (hJn d (by simp)) (hJn e (by simp))

/-- **C99** Of two metrics with default configuration (-1,-1), the second of which is `c` times the first with a constant `c`,
the Christoffel symbols and the Riemann, Ricci and Einstein tensors are the same; the Ricci scalar of the second is `1/c` times
that of the first, its Weyl tensor `c` times. -/
theorem C99_scaled {c c' : K} (hE : EngineOK E) (hC : Calculus E) (hS : Scene G V w) (hS' : Scene G' V' w')
    (hm : LowerMetric G V Dm) (hm' : LowerMetric G' V' Dm') (hN : NamesOK E G V w Dm.name)
    (hN' : NamesOK E G' V' w' Dm'.name) (h : Scaled E G G' c c') :
    Scales G G' w w' (calcChristoffel E) [1, -1, -1] 1 ∧ Scales G G' w w' (calcRiemann E) [1, -1, -1, -1] 1 ∧
    Scales G G' w w' (calcRicci E) [-1, -1] 1 ∧ Scales G G' w w' (calcScalar E) [] c' ∧
    Scales G G' w w' (calcEinstein E) [-1, -1] 1 ∧ (2 < G.n → Scales G G' w w' (calcWeyl E) [-1, -1, -1, -1] c) :=
  any_scaled hE hS hS' ⟨hm.view, hm.name, hm.coords⟩ ⟨hm'.view, hm'.name, hm'.coords⟩ (gives_christoffel hE.simp_eq hm.ix)
    (gives_christoffel hE.simp_eq hm'.ix) (namesFor_christoffel hN) (namesFor_christoffel hN') h
    fun _ _ _ hl hm hn => scaled_christoffel hC h hS.inverse hS'.inverse hl hm hn

/-- **C99** for two metrics with default configuration (1,1): the same, although these tensors are not those of the metrics
(C35 to C39). -/
theorem C99_scaled_upper {c c' : K} (hE : EngineOK E) (hC : Calculus E) (hS : Scene G V w) (hS' : Scene G' V' w')
    (hm : UpperMetric G V Dm) (hm' : UpperMetric G' V' Dm') (hN : NamesFor E G (minusGamma E G) V w Dm.name)
    (hN' : NamesFor E G' (minusGamma E G') V' w' Dm'.name) (h : Scaled E G G' c c') :
    Scales G G' w w' (calcChristoffel E) [1, -1, -1] 1 ∧ Scales G G' w w' (calcRiemann E) [1, -1, -1, -1] 1 ∧
    Scales G G' w w' (calcRicci E) [-1, -1] 1 ∧ Scales G G' w w' (calcScalar E) [] c' ∧
    Scales G G' w w' (calcEinstein E) [-1, -1] 1 ∧ (2 < G.n → Scales G G' w w' (calcWeyl E) [-1, -1, -1, -1] c) :=
  any_scaled hE hS hS' ⟨hm.view, hm.name, hm.coords⟩ ⟨hm'.view, hm'.name, hm'.coords⟩ (gives_opposite hE.simp_eq hC hm.ix)
    (gives_opposite hE.simp_eq hC hm'.ix) hN hN' h
    fun _ _ _ hl hm hn => congrArg Neg.neg (scaled_christoffel hC h hS.inverse hS'.inverse hl hm hn)

/-- Four times the metric `nil`, and its inverse. -/
noncomputable def nilFour : Arr Poly := nil.map (4 * ·)
noncomputable def nilQuarter : Arr Poly := nilInv.map (C (1 / 4) * ·)

theorem nilFour_get (i j : Nat) (hi : i < 3) (hj : j < 3) : entry nilFour i j = 4 * entry nil i j := by
  interval_cases i <;> interval_cases j <;> rfl

theorem nilQuarter_get (i j : Nat) (hi : i < 3) (hj : j < 3) : nilQuarter.get [i, j] = C (1 / 4) * nilInv.get [i, j] := by
  interval_cases i <;> interval_cases j <;> rfl

theorem four_quarter : (4 : Poly) * C (1 / 4) = 1 := by
  rw [show (4 : Poly) = C 4 from (map_ofNat C 4).symm, ← C_mul]
  norm_num

theorem nilFour_inverse : Inverse 3 (fun i j => nilFour.get [i, j]) (fun i j => nilQuarter.get [i, j]) := by
  intro i j hi hj
  obtain ⟨h1, h2⟩ := nil_inverse i j hi hj
  rw [← h1]
  constructor
  · unfold matMul
    refine sum_congr rfl fun l hl => ?_
    have hl : l < 3 := by simpa using hl
    dsimp only
    rw [nilQuarter_get l j hl hj, show nilFour.get [i, l] = 4 * nil.get [i, l] from nilFour_get i l hi hl]
    linear_combination nil.get [i, l] * nilInv.get [l, j] * four_quarter
  · rw [h1, ← h2]
    unfold matMul
    refine sum_congr rfl fun l hl => ?_
    have hl : l < 3 := by simpa using hl
    dsimp only
    rw [nilQuarter_get i l hi hl, show nilFour.get [l, j] = 4 * nil.get [l, j] from nilFour_get l j hl hj]
    linear_combination nil.get [l, j] * nilInv.get [i, l] * four_quarter

theorem nilFour_symm (i j : Nat) (hi : i < 3) (hj : j < 3) : entry nilFour i j = entry nilFour j i := by
  rw [nilFour_get i j hi hj, nilFour_get j i hj hi, nil_symm i j hi hj]

/-- Two metrics with default configuration (-1,-1) whose components are not constant. -/
example : ∃ (G G' : Ground Poly) (V V' : View Poly) (w w' : World Poly) (Dm Dm' : TField Poly), EngineOK polyEngine ∧
    Calculus polyEngine ∧ Scene G V w ∧ Scene G' V' w' ∧ LowerMetric G V Dm ∧ LowerMetric G' V' Dm' ∧
    NamesOK polyEngine G V w Dm.name ∧ NamesOK polyEngine G' V' w' Dm'.name ∧ Scaled polyEngine G G' 4 (C (1 / 4)) ∧
    2 < G.n ∧ ∀ i j, i < 3 → j < 3 → G.g i j = entry nil i j := by
  obtain ⟨G, V, w, h1, h2, h3, h4, h5, h6, -⟩ := declared (syms := ["x", "y", "z"]) (a := nil) rfl rfl nil_symm
    nil_inverse (Or.inl rfl) (by simp)
  obtain ⟨G', V', w', h1', h2', h3', h4', h5', h6', -⟩ := declared (syms := ["x", "y", "z"]) (a := nilFour) rfl rfl nilFour_symm
    nilFour_inverse (Or.inl rfl) (by simp)
  refine ⟨G, G', V, V', w, w', _, _, polyEngine_ok, polyEngine_calculus, h1, h1', ⟨h4.view, h4.name, h4.coords, rfl⟩,
    ⟨h4'.view, h4'.name, h4'.coords, rfl⟩, fun q i hi o ho hn => absurd hn (h5 q i hi o ho),
    fun q i hi o ho hn => absurd hn (h5' q i hi o ho), ⟨by rw [h2, h2'], by rw [h3, h3'], four_quarter, ?_, ?_⟩,
    by rw [h2]; decide, fun i j _ _ => h6 rfl i j⟩
  · intro k _
    show pderiv _ (4 : Poly) = 0
    rw [show (4 : Poly) = C 4 from (map_ofNat C 4).symm, pderiv_C]
  · intro i j hi hj
    rw [h2] at hi hj
    rw [h6 rfl, h6' rfl]
    exact nilFour_get i j hi hj

/-- The same with default configuration (1,1). -/
example : ∃ (G G' : Ground Poly) (V V' : View Poly) (w w' : World Poly) (Dm Dm' : TField Poly), EngineOK polyEngine ∧
    Calculus polyEngine ∧ Scene G V w ∧ Scene G' V' w' ∧ UpperMetric G V Dm ∧ UpperMetric G' V' Dm' ∧
    NamesFor polyEngine G (minusGamma polyEngine G) V w Dm.name ∧
    NamesFor polyEngine G' (minusGamma polyEngine G') V' w' Dm'.name ∧ Scaled polyEngine G G' (C (1 / 4)) 4 ∧
    2 < G.n ∧ ∀ i j, i < 3 → j < 3 → G.gi i j = entry nil i j := by
  obtain ⟨G, V, w, h1, h2, h3, h4, h5, -, h6⟩ := declared (syms := ["x", "y", "z"]) (a := nil) rfl rfl nil_symm
    nil_inverse (Or.inr rfl) (by simp)
  obtain ⟨G', V', w', h1', h2', h3', h4', h5', -, h6'⟩ := declared (syms := ["x", "y", "z"]) (a := nilFour) rfl rfl nilFour_symm
    nilFour_inverse (Or.inr rfl) (by simp)
  refine ⟨G, G', V, V', w, w', _, _, polyEngine_ok, polyEngine_calculus, h1, h1', ⟨h4.view, h4.name, h4.coords, rfl⟩,
    ⟨h4'.view, h4'.name, h4'.coords, rfl⟩, noNames_for h5, noNames_for h5',
    ⟨by rw [h2, h2'], by rw [h3, h3'], by rw [mul_comm]; exact four_quarter, ?_, ?_⟩,
    by rw [h2]; decide, fun i j _ _ => h6 rfl i j⟩
  · intro k _
    exact pderiv_C
  · intro i j hi hj
    have hn : G'.n = G.n := by rw [h2, h2']
    have hi' := h1'.inverse
    rw [hn] at hi'
    have e := inverse_unique (n := G.n) (M := G.gi) (N := G.g) (N' := fun i j => 4 * G'.g i j)
      (fun i j hi hj => (h1.inverse i j hi hj).symm) (fun i j hi hj => ?_) i j hi hj
    · rw [e]
      linear_combination -(G'.g i j) * four_quarter
    · obtain ⟨e1, e2⟩ := hi' i j hi hj
      constructor
      · rw [← e2]
        unfold matMul
        refine sum_congr rfl fun l hl => ?_
        have hl : l < G.n := by simpa using hl
        rw [h6 rfl, h6' rfl, nilFour_get i l (by rw [h2] at hi; exact hi) (by rw [h2] at hl; exact hl)]
        ring
      · rw [← e1]
        unfold matMul
        refine sum_congr rfl fun l hl => ?_
        have hl : l < G.n := by simpa using hl
        rw [h6 rfl, h6' rfl, nilFour_get l j (by rw [h2] at hl; exact hl) (by rw [h2] at hj; exact hj)]
        ring

end PyOGRe
