import Verif.Props.Conformal

/-!
# Vacuum: C111
-/

namespace PyOGRe
open Spec Finset MvPolynomial
variable {K : Type} [CommRing K] [DecidableEq K] [Algebra ℚ K] {E : Engine K} {G : Ground K} {V : View K}
  {w : World K} {Dm : TField K}

/-- The function `f` returns a tensor whose components in configuration `cfg` are `T`. -/
def Spec.Finds (G : Ground K) (w : World K) (f : Id' → PyM K Id') (ix cfg : List Int) (T : List Nat → K) : Prop :=
  Returns G w (f G.m) ix fun D => ∀ J, J.length = ix.length → (∀ i ∈ J, i < G.n) → D.comp G cfg J = T J

/-- The matrix `T` is zero. -/
def Spec.NoEntries (n : Nat) (T : List Nat → K) : Prop := ∀ i j, i < n → j < n → T [i, j] = 0

omit [DecidableEq K] in
/-- The trace of the Ricci tensor, if it is a multiple of the metric. -/
theorem scalarOf_multiple {Γ : Nat → Nat → Nat → K} {a x : K} (hi : Inverse G.n G.g G.gi)
    (hs : ∀ i j, i < G.n → j < G.n → G.g i j = G.g j i)
    (h : ∀ i j, i < G.n → j < G.n → a * ricciOf E G Γ i j = x * G.g i j) : a * scalarOf E G Γ = x * rat (G.n : ℚ) := by
  unfold scalarOf
  have e : ∀ i ∈ range G.n, ∑ j ∈ range G.n, a * (G.gi i j * ricciOf E G Γ i j) = x := by
    intro i hi'
    have hi' : i < G.n := by simpa using hi'
    have e := (hi i i hi' hi').2
    unfold matMul delta at e
    rw [if_pos rfl] at e
    calc _ = ∑ j ∈ range G.n, x * (G.gi i j * G.g j i) := by
          refine sum_congr rfl fun j hj => ?_
          have hj : j < G.n := by simpa using hj
          rw [← hs i j hi' hj]
          linear_combination (G.gi i j) * h i j hi' hj
      _ = x := by rw [← mul_sum, e, mul_one]
  rw [mul_sum]
  calc _ = ∑ i ∈ range G.n, x := sum_congr rfl fun i hi' => by rw [mul_sum]; exact e i hi'
    _ = _ := by rw [sum_const, card_range, nsmul_eq_mul, mul_comm]; unfold rat; rw [map_natCast]

omit [DecidableEq K] in
/-- Einstein's equations with a cosmological constant. -/
theorem einsteinOf_iff {Γ : Nat → Nat → Nat → K} {x : K} (hi : Inverse G.n G.g G.gi)
    (hs : ∀ i j, i < G.n → j < G.n → G.g i j = G.g j i) (hn : G.n ≠ 2) :
    (∀ i j, i < G.n → j < G.n → einsteinOf E G Γ i j + x * G.g i j = 0) ↔
    ∀ i j, i < G.n → j < G.n → rat ((G.n : ℚ) - 2) * ricciOf E G Γ i j = 2 * x * G.g i j := by
  have h2 : rat (1 / 2) * 2 = (1 : K) := by
    unfold rat
    rw [show (2 : K) = algebraMap ℚ K 2 from (map_ofNat _ 2).symm, ← map_mul]
    norm_num
  have hr : rat ((G.n : ℚ) - 2) = (rat (G.n : ℚ) - 2 : K) := by
    unfold rat
    rw [map_sub, map_ofNat]
  have hu : rat (1 / ((G.n : ℚ) - 2)) * rat ((G.n : ℚ) - 2) = (1 : K) := by
    unfold rat
    rw [← map_mul]
    have : (G.n : ℚ) - 2 ≠ 0 := by
      intro h
      apply hn
      have : (G.n : ℚ) = 2 := by linarith
      exact_mod_cast this
    rw [one_div, inv_mul_cancel₀ this, map_one]
  constructor
  · intro h
    have e := scalarOf_multiple (E := E) (Γ := Γ) (a := 1) (x := rat (1 / 2) * scalarOf E G Γ - x) hi hs fun i j h1 h2 => by
      have := h i j h1 h2
      unfold einsteinOf at this
      linear_combination this
    have e' : rat ((G.n : ℚ) - 2) * scalarOf E G Γ = 2 * x * rat (G.n : ℚ) := by
      rw [hr]
      linear_combination (-2) * e - rat (G.n : ℚ) * scalarOf E G Γ * h2
    intro i j h1 h3
    have := h i j h1 h3
    unfold einsteinOf at this
    linear_combination rat ((G.n : ℚ) - 2) * this + (rat (1 / 2) * G.g i j) * e' + (x * G.g i j) * (rat (G.n : ℚ) * h2 - hr)
  · intro h
    have e := scalarOf_multiple (E := E) (Γ := Γ) hi hs h
    intro i j h1 h3
    have h' := h i j h1 h3
    have : rat ((G.n : ℚ) - 2) * (einsteinOf E G Γ i j + x * G.g i j) = 0 := by
      unfold einsteinOf
      linear_combination h' - (rat (1 / 2) * G.g i j) * e + (x * G.g i j) * (hr - rat (G.n : ℚ) * h2)
    linear_combination rat (1 / ((G.n : ℚ) - 2)) * this - (einsteinOf E G Γ i j + x * G.g i j) * hu

/-- For any connection that is computed. -/
theorem vacuum_any {Γ : Nat → Nat → Nat → K} (hE : EngineOK E) (hS : Scene G V w) (hm : AnyMetric G V Dm)
    (hΓ : GivesConnection E G Γ Dm) (hN : NamesFor E G Γ V w Dm.name) :
    ∃ R T, Finds G w (calcRicci E) [-1, -1] [-1, -1] R ∧ Finds G w (calcEinstein E) [-1, -1] [-1, -1] T ∧
      (G.n ≠ 2 → ∀ x : K, (∀ i j, i < G.n → j < G.n → T [i, j] + x * G.g i j = 0) ↔
        ∀ i j, i < G.n → j < G.n → rat ((G.n : ℚ) - 2) * R [i, j] = 2 * x * G.g i j) ∧
      (2 < G.n → NoEntries G.n R → ∃ S, Finds G w (calcRiemann E) [1, -1, -1, -1] [1, -1, -1, -1] S ∧
        Finds G w (calcWeyl E) [-1, -1, -1, -1] [1, -1, -1, -1] S) := by
  have hi := hS.inverse
  have two : ∀ {D : TField K} {J : List Nat} {f : Nat → Nat → K}, D.ix = [-1, -1] →
      (∀ J, J.length = 2 → (∀ x ∈ J, x < G.n) → D.val J = f (J.getD 0 0) (J.getD 1 0)) → J.length = 2 →
      (∀ x ∈ J, x < G.n) → D.comp G [-1, -1] J = f (J.getD 0 0) (J.getD 1 0) := by
    intro D J f hD hv hJ hJn
    rw [← hD, comp_self hJn (by rw [hD]; exact hJ), hv J hJ hJn]
  refine ⟨fun J => ricciOf E G Γ (J.getD 0 0) (J.getD 1 0), fun J => einsteinOf E G Γ (J.getD 0 0) (J.getD 1 0), ?_, ?_,
    fun hn x => einsteinOf_iff hi hS.symm hn, fun hn hR => ?_⟩
  · refine Does.mono (anyProvides_ricci hE.simp_eq hΓ hS hm hN) ?_
    rintro r w' ⟨V', D, h1, -, -, -, h2, -, h3⟩
    exact ⟨V', D, h1, h2, h3.view, h3.coords, h3.cfg, fun J hJ hJn => two h3.cfg h3.val hJ hJn⟩
  · refine Does.mono (anyProvides_einstein hE.simp_eq hΓ hS hm hN) ?_
    rintro r w' ⟨V', D, h1, -, -, -, h2, -, h3⟩
    exact ⟨V', D, h1, h2, h3.view, h3.coords, h3.cfg, fun J hJ hJn => two h3.cfg h3.val hJ hJn⟩
  · have hR : ∀ i j, i < G.n → j < G.n → ricciOf E G Γ i j = 0 := hR
    have hscal : scalarOf E G Γ = 0 := by
      unfold scalarOf
      refine sum_eq_zero fun i hi => sum_eq_zero fun j hj => ?_
      rw [hR i j (by simpa using hi) (by simpa using hj), mul_zero]
    refine ⟨Quantity.compsOf E G Γ .riemann, ?_, ?_⟩
    · refine Does.mono (anyProvides_riemann hE.simp_eq hΓ hS hm hN) ?_
      rintro r w' ⟨V', D, h1, -, -, -, h2, -, h3⟩
      have hc : D.ix = [1, -1, -1, -1] := h3.cfg
      refine ⟨V', D, h1, h2, h3.view, h3.coords, hc, fun J hJ hJn => ?_⟩
      rw [← hc, comp_self hJn (by rw [hc]; exact hJ), h3.val J hJ hJn]
    · refine returns_weyl hE.simp_eq hΓ hS hm hN hn fun D hD hv J hJ hJn => ?_
      match J, hJ, hJn with
      | [a, b, c, d], _, hJn =>
        have k1 := hJn a (by simp)
        have k2 := hJn b (by simp)
        have k3 := hJn c (by simp)
        have k4 := hJn d (by simp)
        have e : ∀ k ∈ range G.n, G.gi a k * D.val [k, b, c, d] =
            ∑ r ∈ range G.n, G.gi a k * G.g k r * riemannOf E G Γ r b c d := by
          intro k hk
          have hk : k < G.n := by simpa using hk
          rw [hv [k, b, c, d] rfl (by
            intro x hx
            simp only [List.mem_cons, List.not_mem_nil, or_false] at hx
            rcases hx with rfl | rfl | rfl | rfl <;> assumption)]
          show G.gi a k * weylOf E G Γ k b c d = _
          unfold weylOf
          rw [hR k d hk k4, hR k c hk k3, hR b c k2 k3, hR b d k2 k4, hscal]
          simp only [zero_mul, sub_zero, add_zero, mul_zero, mul_sum, mul_assoc]
        rw [comp_raise hD k2 k3 k4, sum_congr rfl e, sum_comm]
        have e' : ∀ r ∈ range G.n, ∑ k ∈ range G.n, G.gi a k * G.g k r * riemannOf E G Γ r b c d =
            (if a = r then 1 else 0) * riemannOf E G Γ r b c d := by
          intro r hr
          rw [← sum_mul]
          exact congrArg (· * _) (hi a r k1 (by simpa using hr)).2
        rw [sum_congr rfl e']
        simp only [ite_mul, one_mul, zero_mul]
        rw [sum_ite_eq, if_pos (by simpa using k1)]
        rfl

/-- **C111** The Einstein tensor is `-x` times the metric exactly if the Ricci tensor is `2x/(n-2)` times the metric, except in
two dimensions; and if the Ricci tensor vanishes, then the Weyl tensor with the first index up is the Riemann tensor.  For both
default configurations of the metric, although the connection is wrong for the second one. -/
theorem C111_vacuum (hE : EngineOK E) (hC : Calculus E) (hS : Scene G V w) (hm : AnyMetric G V Dm)
    (hN : (Dm.ix = [-1, -1] ∧ NamesOK E G V w Dm.name) ∨ (Dm.ix = [1, 1] ∧ NoNames w Dm.name)) :
    ∃ R T, Finds G w (calcRicci E) [-1, -1] [-1, -1] R ∧ Finds G w (calcEinstein E) [-1, -1] [-1, -1] T ∧
      (G.n ≠ 2 → ∀ x : K, (∀ i j, i < G.n → j < G.n → T [i, j] + x * G.g i j = 0) ↔
        ∀ i j, i < G.n → j < G.n → rat ((G.n : ℚ) - 2) * R [i, j] = 2 * x * G.g i j) ∧
      (2 < G.n → NoEntries G.n R → ∃ S, Finds G w (calcRiemann E) [1, -1, -1, -1] [1, -1, -1, -1] S ∧
        Finds G w (calcWeyl E) [-1, -1, -1, -1] [1, -1, -1, -1] S) := by
  rcases hN with ⟨h, hN⟩ | ⟨h, hN⟩
  · exact vacuum_any hE hS hm (gives_christoffel hE.simp_eq h) (namesFor_christoffel hN)
  · exact vacuum_any hE hS hm (gives_opposite hE.simp_eq hC h) (noNames_for hN)

/-! ### Example: a plane wave -/

/-- The metric `(x² - y²) du² + 2 du dv + dx² + dy²`. -/
noncomputable def wave : Arr Poly :=
  ⟨[4, 4], [X "x" * X "x" - X "y" * X "y", 1, 0, 0, 1, 0, 0, 0, 0, 0, 1, 0, 0, 0, 0, 1]⟩
noncomputable def waveInv : Arr Poly :=
  ⟨[4, 4], [0, 1, 0, 0, 1, X "y" * X "y" - X "x" * X "x", 0, 0, 0, 0, 1, 0, 0, 0, 0, 1]⟩

theorem wave_inverse : Inverse 4 (fun i j => wave.get [i, j]) (fun i j => waveInv.get [i, j]) := by
  intro i j hi hj
  interval_cases i <;> interval_cases j <;> constructor <;>
    simp [matMul, Finset.sum_range_succ, delta, wave, waveInv, Arr.get, ravel]

theorem wave_symm (i j : Nat) (hi : i < 4) (hj : j < 4) : entry wave i j = entry wave j i := by
  interval_cases i <;> interval_cases j <;> rfl

/-- Its Christoffel symbols. -/
noncomputable def waveGamma (l m n : Nat) : Poly :=
  if l = 1 then
    (if (m = 0 ∧ n = 2) ∨ (m = 2 ∧ n = 0) then X "x" else if (m = 0 ∧ n = 3) ∨ (m = 3 ∧ n = 0) then -X "y" else 0)
  else if l = 2 ∧ m = 0 ∧ n = 0 then -X "x"
  else if l = 3 ∧ m = 0 ∧ n = 0 then X "y" else 0

theorem wave_christoffel {G : Ground Poly} (hn : G.n = 4) (hs : G.syms = ["u", "v", "x", "y"])
    (hg : ∀ i j, G.g i j = entry wave i j) (hi : Inverse G.n G.g G.gi) (l m n : Nat) (hl : l < 4) (hm : m < 4) (hn' : n < 4) :
    christoffel polyEngine G l m n = waveGamma l m n := by
  have hgi : ∀ i j, i < 4 → j < 4 → G.gi i j = entry waveInv i j := by
    intro i j h1 h2
    rw [hn] at hi
    refine inverse_unique hi ?_ i j h1 h2
    refine inverse_congr wave_inverse (fun i j _ _ => (hg i j).symm) fun _ _ _ _ => rfl
  have h2 := rat_half_two
  have d : ∀ k p, G.d polyEngine k p = pderiv (["u", "v", "x", "y"].getD k "") p := by
    intro k p
    unfold Ground.d
    rw [hs]
    rfl
  unfold christoffel waveGamma
  rw [hn]
  simp only [Finset.sum_range_succ, Finset.sum_range_zero, hg, d]
  rw [hgi l 0 hl (by decide), hgi l 1 hl (by decide), hgi l 2 hl (by decide), hgi l 3 hl (by decide)]
  interval_cases l <;> interval_cases m <;> interval_cases n <;>
    simp [entry, wave, waveInv, Arr.get, ravel, pderiv_X, Pi.single_apply, -one_div]
  all_goals first
    | linear_combination X "x" * h2
    | linear_combination -X "x" * h2
    | linear_combination X "y" * h2
    | linear_combination -X "y" * h2

theorem wave_riemann {G : Ground Poly} (hn : G.n = 4) {Γ : Nat → Nat → Nat → Poly}
    (hΓ : ∀ l m n, l < 4 → m < 4 → n < 4 → Γ l m n = waveGamma l m n) {r s m n : Nat} (h1 : r < 4) (h2 : s < 4) (h3 : m < 4)
    (h4 : n < 4) : riemannOf polyEngine G Γ r s m n =
      G.d polyEngine m (waveGamma r n s) - G.d polyEngine n (waveGamma r m s) +
      ∑ l ∈ range 4, waveGamma r m l * waveGamma l n s - ∑ l ∈ range 4, waveGamma r n l * waveGamma l m s := by
  have e1 : ∑ l ∈ range 4, Γ r m l * Γ l n s = ∑ l ∈ range 4, waveGamma r m l * waveGamma l n s :=
    sum_congr rfl fun l hl => by rw [hΓ r m l h1 h3 (by simpa using hl), hΓ l n s (by simpa using hl) h4 h2]
  have e2 : ∑ l ∈ range 4, Γ r n l * Γ l m s = ∑ l ∈ range 4, waveGamma r n l * waveGamma l m s :=
    sum_congr rfl fun l hl => by rw [hΓ r n l h1 h4 (by simpa using hl), hΓ l m s (by simpa using hl) h3 h2]
  unfold riemannOf
  rw [hn, hΓ r n s h1 h4 h2, hΓ r m s h1 h3 h2, e1, e2]

/-- The Ricci tensor is zero, the Riemann tensor is not. -/
theorem wave_ricci {G : Ground Poly} (hn : G.n = 4) (hs : G.syms = ["u", "v", "x", "y"]) {Γ : Nat → Nat → Nat → Poly}
    (hΓ : ∀ l m n, l < 4 → m < 4 → n < 4 → Γ l m n = waveGamma l m n) :
    (∀ i j, i < 4 → j < 4 → ricciOf polyEngine G Γ i j = 0) ∧ riemannOf polyEngine G Γ 2 0 2 0 = -1 := by
  have d : ∀ k p, G.d polyEngine k p = pderiv (["u", "v", "x", "y"].getD k "") p := by
    intro k p
    unfold Ground.d
    rw [hs]
    rfl
  have e := fun r s m n => wave_riemann hn hΓ (r := r) (s := s) (m := m) (n := n)
  constructor
  · intro i j h1 h2
    unfold ricciOf
    rw [hn]
    simp only [Finset.sum_range_succ, Finset.sum_range_zero]
    rw [e 0 i 0 j (by decide) h1 (by decide) h2, e 1 i 1 j (by decide) h1 (by decide) h2,
      e 2 i 2 j (by decide) h1 (by decide) h2, e 3 i 3 j (by decide) h1 (by decide) h2]
    simp only [d, Finset.sum_range_succ, Finset.sum_range_zero]
    interval_cases i <;> interval_cases j <;> simp [waveGamma, pderiv_X, Pi.single_apply]
  · rw [e 2 0 2 0 (by decide) (by decide) (by decide) (by decide)]
    simp [d, Finset.sum_range_succ, waveGamma, pderiv_X, Pi.single_apply]

/-- C111: a plane wave, which is a vacuum with curvature; and the same components with upper indices. -/
example : (∃ (G : Ground Poly) (V : View Poly) (w : World Poly) (Dm : TField Poly), EngineOK polyEngine ∧ Calculus polyEngine ∧
      Scene G V w ∧ AnyMetric G V Dm ∧ Dm.ix = [-1, -1] ∧ NamesOK polyEngine G V w Dm.name ∧ 2 < G.n ∧
      (∀ i j, i < G.n → j < G.n → ricci polyEngine G i j = 0) ∧ riemann polyEngine G 2 0 2 0 = -1) ∧
    ∃ (G : Ground Poly) (V : View Poly) (w : World Poly) (Dm : TField Poly), EngineOK polyEngine ∧ Calculus polyEngine ∧
      Scene G V w ∧ AnyMetric G V Dm ∧ Dm.ix = [1, 1] ∧ NoNames w Dm.name ∧ 2 < G.n := by
  constructor
  · obtain ⟨G, V, w, h1, h2, h3, h4, h5, h6, -⟩ := declared (syms := ["u", "v", "x", "y"]) (a := wave) rfl rfl wave_symm
      wave_inverse (Or.inl rfl) (by simp)
    obtain ⟨e1, e2⟩ := wave_ricci h2 h3 (wave_christoffel h2 h3 (h6 rfl) h1.inverse)
    refine ⟨G, V, w, _, polyEngine_ok, polyEngine_calculus, h1, h4, rfl, fun q i hi o ho hn => absurd hn (h5 q i hi o ho),
      by rw [h2]; decide, ?_, e2⟩
    rw [h2]
    exact e1
  · obtain ⟨G, V, w, h1, h2, -, h4, h5, -, -⟩ := declared (syms := ["u", "v", "x", "y"]) (a := wave) rfl rfl wave_symm
      wave_inverse (Or.inr rfl) (by simp)
    exact ⟨G, V, w, _, polyEngine_ok, polyEngine_calculus, h1, h4, rfl, h5, by rw [h2]; decide⟩

end PyOGRe
