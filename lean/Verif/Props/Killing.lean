import Verif.Props.Cyclic

/-!
# Killing vectors and geodesics: C115
-/

namespace PyOGRe
open Spec Finset
variable {K : Type} [CommRing K] [DecidableEq K] [Algebra ℚ K] {E : Engine K} {G : Ground K} {V : View K}
  {w : World K} {C : Curves K} {Dm D : TField K} {Γ : Nat → Nat → Nat → K}

/-- The components of a tensor with one index depend only on the coordinates. -/
def Spec.StaticField (E : Engine K) (C : Curves K) (G : Ground K) (D : TField K) : Prop :=
  ∀ k, k < G.n → E.diff C.parameter (D.val [k]) = 0 ∧
    ∀ s ∈ G.syms, E.diff (dot s) (D.val [k]) = 0 ∧ E.diff (ddot s) (D.val [k]) = 0

/-- The sum of the components times the velocities, with functions of the curve parameter for the coordinates. -/
def Spec.charge (C : Curves K) (G : Ground K) (D : TField K) : K :=
  C.asFunctions C.parameter G.syms (∑ k ∈ range G.n, D.val [k] * C.var (dot (G.syms.getD k "")))

/-- Its derivative by the curve parameter, with symbols for functions and back. -/
def Spec.chargeRate (C : Curves K) (G : Ground K) (D : TField K) : K :=
  C.asFunctions C.parameter G.syms (C.asSymbols G.syms (C.rate (charge C G D)))

omit [DecidableEq K] in
theorem diff_charge (hC : Calculus E) (hO : CurvesOK E C G.syms) (s : Sym) :
    E.diff s (∑ k ∈ range G.n, D.val [k] * C.var (dot (G.syms.getD k ""))) =
      ∑ k ∈ range G.n, (E.diff s (D.val [k]) * G.speed C k + D.val [k] * if s = dot (G.syms.getD k "") then 1 else 0) := by
  have h0 : E.diff s 0 = 0 := by simpa using hC.add s 0 0
  refine Eq.trans (map_sum (⟨⟨E.diff s, h0⟩, hC.add s⟩ : K →+ K) _ _) (sum_congr rfl fun k _ => ?_)
  show E.diff s _ = _
  rw [hC.mul, hO.var]
  rfl

omit [DecidableEq K] in
/-- `d/dλ (ξ_k ẋ^k) = ∇_i ξ_j ẋ^i ẋ^j + ξ_k (ẍ^k + Γ^k_{ij} ẋ^i ẋ^j)` for every connection. -/
theorem rate_charge (hC : Calculus E) (hd : G.syms.length = G.n) (hO : CurvesOK E C G.syms) (hP : ProperNames C G.syms)
    (hix : D.ix = [-1]) (hT : StaticField E C G D) :
    C.asSymbols G.syms (C.rate (charge C G D)) =
      ∑ i ∈ range G.n, ∑ j ∈ range G.n, (nablaOf E G Γ D).val [i, j] * G.speed C i * G.speed C j +
        ∑ k ∈ range G.n, D.val [k] * geodesicOf C G Γ k := by
  have hA := apart_of (C := C) hd hP
  have hdd : ∀ t ∈ G.syms, ∀ j, j < G.n → ddot t ≠ dot (G.syms.getD j "") := by
    intro t ht j hj
    obtain ⟨k, hk, rfl⟩ := List.mem_iff_getElem.1 ht
    have := hA.ddots k j (hd ▸ hk) hj
    rwa [show G.syms.getD k "" = G.syms[k] by simp [List.getD_eq_getElem?_getD, hk]] at this
  have hz : ∀ s, (∀ k, k < G.n → E.diff s (D.val [k]) = 0) → (∀ k, k < G.n → s ≠ dot (G.syms.getD k "")) →
      E.diff s (∑ k ∈ range G.n, D.val [k] * C.var (dot (G.syms.getD k ""))) = 0 := by
    intro s h1 h2
    rw [diff_charge hC hO]
    exact sum_eq_zero fun k hk => by rw [h1 k (mem_range.1 hk), if_neg (h2 k (mem_range.1 hk))]; ring
  unfold charge
  rw [hO.chain _ (fun t ht => hz _ (fun k hk => ((hT k hk).2 t ht).2) (hdd t ht)) (hz _ (fun k hk => (hT k hk).1) hA.param),
    sum_syms hd]
  have e1 : ∀ l ∈ range G.n,
      E.diff (G.syms.getD l "") (∑ k ∈ range G.n, D.val [k] * C.var (dot (G.syms.getD k ""))) * C.var (dot (G.syms.getD l "")) +
      E.diff (dot (G.syms.getD l "")) (∑ k ∈ range G.n, D.val [k] * C.var (dot (G.syms.getD k ""))) *
        C.var (ddot (G.syms.getD l "")) =
      ∑ j ∈ range G.n, G.d E l (D.val [j]) * G.speed C l * G.speed C j + D.val [l] * G.accel C l := by
    intro l hl
    have hl := mem_range.1 hl
    have a1 : E.diff (G.syms.getD l "") (∑ k ∈ range G.n, D.val [k] * C.var (dot (G.syms.getD k ""))) =
        ∑ k ∈ range G.n, G.d E l (D.val [k]) * G.speed C k := by
      rw [diff_charge hC hO]
      exact sum_congr rfl fun k hk => by rw [if_neg (hA.coord l k hl (mem_range.1 hk)), mul_zero, add_zero]; rfl
    have a2 : E.diff (dot (G.syms.getD l "")) (∑ k ∈ range G.n, D.val [k] * C.var (dot (G.syms.getD k ""))) = D.val [l] := by
      rw [diff_charge hC hO, sum_eq_single l]
      · rw [((hT l hl).2 _ (getD_mem hd hl)).1, if_pos rfl]; ring
      · intro k hk hne
        rw [((hT k (mem_range.1 hk)).2 _ (getD_mem hd hl)).1, if_neg, zero_mul, mul_zero, add_zero]
        exact fun h => hne (hA.dots l k hl (mem_range.1 hk) h).symm
      · intro h; exact absurd (mem_range.2 hl) h
    rw [a1, a2, sum_mul]
    refine congrArg₂ _ (sum_congr rfl fun k _ => ?_) rfl
    show _ * G.speed C l = _
    ring
  have e2 : ∀ i j, (nablaOf E G Γ D).val [i, j] = G.d E i (D.val [j]) - ∑ l ∈ range G.n, Γ l i j * D.val [l] := by
    intro i j
    unfold nablaOf covariantOf
    rw [hix]
    simp [sub_eq_add_neg]
  have e3 : ∑ k ∈ range G.n, D.val [k] * geodesicOf C G Γ k = ∑ k ∈ range G.n, D.val [k] * G.accel C k +
      ∑ i ∈ range G.n, ∑ j ∈ range G.n, (∑ l ∈ range G.n, Γ l i j * D.val [l]) * G.speed C i * G.speed C j := by
    unfold geodesicOf
    simp only [mul_add, sum_add_distrib, mul_sum, sum_mul]
    refine congrArg _ ?_
    rw [sum_comm]
    refine sum_congr rfl fun i _ => ?_
    rw [sum_comm]
    exact sum_congr rfl fun j _ => sum_congr rfl fun l _ => by ring
  rw [sum_congr rfl e1, sum_add_distrib, e3]
  simp only [e2, sub_mul, sum_sub_distrib]
  ring

omit [DecidableEq K] in
/-- Antisymmetric matrices. -/
theorem sum_antisymm {n : Nat} {f : Nat → Nat → K} {v : Nat → K} (h : ∀ i j, i < n → j < n → f i j + f j i = 0) :
    ∑ i ∈ range n, ∑ j ∈ range n, f i j * v i * v j = 0 := by
  have h2 : (2 : K) * ∑ i ∈ range n, ∑ j ∈ range n, f i j * v i * v j = 0 := by
    rw [two_mul]
    conv_lhs => rhs; rw [sum_comm]
    simp only [← sum_add_distrib]
    refine sum_eq_zero fun i hi => sum_eq_zero fun j hj => ?_
    linear_combination (v i * v j) * h i j (mem_range.1 hi) (mem_range.1 hj)
  have h3 : (rat (1 / 2) * 2 : K) = 1 := by
    unfold rat
    rw [← map_ofNat (algebraMap ℚ K) 2, ← map_mul]
    norm_num
  have := congrArg (rat (1 / 2) * ·) h2
  rwa [← mul_assoc, h3, one_mul, mul_zero] at this

/-- The geodesic equations and the covariant derivative, for any connection that is computed. -/
theorem does_killing (hE : EngineOK E) (hC : Calculus E) (hS : Scene G V w) (hO : CurvesOK E C G.syms)
    (hP : ProperNames C G.syms) (hm : AnyMetric G V Dm) (hΓ : GivesConnection E G Γ Dm) (hN : NamesFor E G Γ V w Dm.name)
    (hU : Unnamed w (· == .geodesicChristoffel) (Dm.name ++ " Geodesic From Christoffel"))
    {letters : List Sym} {d : CalcObj} {t : Id'} {a b : Sym} (hd : derivative .covariantD [a] = .ok d)
    (hy : Denotes G V ⟨.tensor, some t, [b]⟩ t D) (hyn : D.name ≠ "TEMP") (hix : D.ix = [-1]) (hT : StaticField E C G D)
    (hln : letters.Nodup) {u v : Sym} (hu : u ∈ letters) (hv : v ∈ letters) (huv : u ≠ v) (hu' : u ∉ [b, a]) (hv' : v ∉ [b, a])
    (hab : a ≠ b) :
    Does (do
      let r ← calcGeodesicChristoffel E C G.m none
      let y ← curveComponents E C r none none
      let z ← calcMatmul E letters d ⟨.tensor, some t, [b]⟩
      return (y, z)) w fun (y, z) w' => y.shape = [G.n] ∧ ∃ V' t' D', Scene G V' w' ∧ Denotes G V' z t' D' ∧
        z.labels = [a, b] ∧ D'.ix = [-1, -1] ∧
        (∃ u : Nat → K, (∀ i, i < G.n → IsUnit (u i)) ∧ chargeRate C G D =
          C.asFunctions C.parameter G.syms (∑ i ∈ range G.n, ∑ j ∈ range G.n,
            D'.val [i, j] * C.var (dot (G.syms.getD i "")) * C.var (dot (G.syms.getD j ""))) +
          ∑ k ∈ range G.n, C.asFunctions C.parameter G.syms (D.val [k]) * (u k * y.get [k])) ∧
        ((∀ i j, i < G.n → j < G.n → D'.val [i, j] + D'.val [j, i] = 0) →
          ∀ (R : Type) [CommRing R] (φ : K →+* R), (∀ i, i < G.n → φ (y.get [i]) = 0) → φ (chargeRate C G D) = 0) := by
  refine Does.bind (anyGiven_geodesicChristoffel hE.simp_eq hΓ hS C hm hN (Or.inr rfl) (namesCurve_unnamed hU)) ?_
  rintro s w2 ⟨V2, k1, k2, -, k4, k5, k6, -⟩
  obtain ⟨y, f1, f2⟩ := holds_components (E := E) (C := C) k1 k6 (Or.inl rfl) (Or.inl rfl)
  refine Does.step f1 ?_
  have hy2 : Denotes G V2 ⟨.tensor, some t, [b]⟩ t D := ⟨⟨hy.role, hy.tensor, k2 _ _ hy.field hyn, hy.nodup, hy.length⟩, hy.coords⟩
  refine Does.bind (anyGradient hE k1 hΓ (anyMetric_keeps hm k2) k4 hd hy2 hyn hln hu hv huv hu' hv' (by simpa using hab)) ?_
  rintro z w3 ⟨V3, t3, D3, l1, -, -, -, l5, l6, l7, l8⟩
  have hz : z.labels = [a, b] := l6
  have hD3 : D3.ix = [-1, -1] := by rw [l7, hix]
  have hval : ∀ i j, i < G.n → j < G.n → D3.val [i, j] = (nablaOf E G Γ D).val [i, j] := by
    intro i j hi hj
    have := l8 (fun _ => -1) (Function.update (fun _ => i) b j) (fun _ => Or.inr rfl) fun s => by
      by_cases hs : s = b
      · rw [hs, Function.update_self]; exact hj
      · rw [Function.update_of_ne hs]; exact hi
    unfold TField.at at this
    rw [hz] at this
    simp only [List.map_cons, List.map_nil, Function.update_self, Function.update_of_ne hab] at this
    have hn : (nablaOf E G Γ D).ix = [-1, -1] := by unfold nablaOf; rw [hix]
    rw [← hD3, comp_self (by simp [hi, hj]) (by rw [hD3]; rfl)] at this
    rw [this, hD3, ← hn, comp_self (by simp [hi, hj]) (by rw [hn]; rfl)]
  obtain ⟨u, hu, hs⟩ := conserved_sum (functionsHom hO C.parameter) (n := G.n) (y := fun i => y.get [i])
    (e := geodesicOf C G Γ) fun i hi => by
      obtain ⟨u, hu, hu'⟩ := hO.clear (geodesicOf C G Γ i)
      exact ⟨u, hu, (f2.2.2 [i] rfl (by simpa using hi)).trans (congrArg (C.asFunctions C.parameter G.syms) hu')⟩
  have key : chargeRate C G D = C.asFunctions C.parameter G.syms (∑ i ∈ range G.n, ∑ j ∈ range G.n,
        D3.val [i, j] * C.var (dot (G.syms.getD i "")) * C.var (dot (G.syms.getD j ""))) +
      ∑ k ∈ range G.n, C.asFunctions C.parameter G.syms (D.val [k]) * (u k * y.get [k]) := by
    unfold chargeRate
    rw [rate_charge (Γ := Γ) hC k1.dim hO hP hix hT, hO.add]
    refine congrArg₂ _ (congrArg _ (sum_congr rfl fun i hi => sum_congr rfl fun j hj => ?_)) (hs fun k => D.val [k])
    rw [hval i j (mem_range.1 hi) (mem_range.1 hj)]
    rfl
  refine Does.pure ⟨f2.2.1, V3, t3, D3, l1, l5, hz, hD3, ⟨u, hu, key⟩, fun hK R _ φ h => ?_⟩
  rw [key, sum_antisymm hK, show C.asFunctions C.parameter G.syms 0 = 0 from map_zero (functionsHom hO C.parameter), zero_add,
    map_sum]
  exact sum_eq_zero fun i hi => by rw [map_mul, map_mul, h i (mem_range.1 hi), mul_zero, mul_zero]

/-- **C115** For every vector with default indices (-1,), the derivative of the sum of its components times the velocities along a
curve is `z_{ij} ẋ^i ẋ^j`, where `z` is the covariant derivative of the vector, up to multiples of the geodesic equations `y`.  So if `z` is
antisymmetric (a Killing vector), then the sum is constant for all values of coordinates, velocities and accelerations
(homomorphisms `φ` to any ring) for which the equations hold.  For both default configurations of the metric, although the connection is wrong
for the second one. -/
theorem C115_killing (hE : EngineOK E) (hC : Calculus E) (hS : Scene G V w) (hO : CurvesOK E C G.syms)
    (hP : ProperNames C G.syms) (hm : AnyMetric G V Dm)
    (hN : (Dm.ix = [-1, -1] ∧ NamesOK E G V w Dm.name) ∨ (Dm.ix = [1, 1] ∧ NoNames w Dm.name))
    (hU : Unnamed w (· == .geodesicChristoffel) (Dm.name ++ " Geodesic From Christoffel"))
    {letters : List Sym} {d : CalcObj} {t : Id'} {a b : Sym} (hd : derivative .covariantD [a] = .ok d)
    (hy : Denotes G V ⟨.tensor, some t, [b]⟩ t D) (hyn : D.name ≠ "TEMP") (hix : D.ix = [-1]) (hT : StaticField E C G D)
    (hln : letters.Nodup) {u v : Sym} (hu : u ∈ letters) (hv : v ∈ letters) (huv : u ≠ v) (hu' : u ∉ [b, a]) (hv' : v ∉ [b, a])
    (hab : a ≠ b) :
    Does (do
      let r ← calcGeodesicChristoffel E C G.m none
      let y ← curveComponents E C r none none
      let z ← calcMatmul E letters d ⟨.tensor, some t, [b]⟩
      return (y, z)) w fun (y, z) w' => y.shape = [G.n] ∧ ∃ V' t' D', Scene G V' w' ∧ Denotes G V' z t' D' ∧
        z.labels = [a, b] ∧ D'.ix = [-1, -1] ∧
        (∃ u : Nat → K, (∀ i, i < G.n → IsUnit (u i)) ∧ chargeRate C G D =
          C.asFunctions C.parameter G.syms (∑ i ∈ range G.n, ∑ j ∈ range G.n,
            D'.val [i, j] * C.var (dot (G.syms.getD i "")) * C.var (dot (G.syms.getD j ""))) +
          ∑ k ∈ range G.n, C.asFunctions C.parameter G.syms (D.val [k]) * (u k * y.get [k])) ∧
        ((∀ i j, i < G.n → j < G.n → D'.val [i, j] + D'.val [j, i] = 0) →
          ∀ (R : Type) [CommRing R] (φ : K →+* R), (∀ i, i < G.n → φ (y.get [i]) = 0) → φ (chargeRate C G D) = 0) := by
  rcases hN with ⟨h1, h2⟩ | ⟨h1, h2⟩
  · exact does_killing hE hC hS hO hP hm (gives_christoffel hE.simp_eq h1) (namesFor_christoffel h2) hU hd hy hyn hix hT hln hu hv huv
      hu' hv' hab
  · exact does_killing hE hC hS hO hP hm (gives_opposite hE.simp_eq hC h1) (noNames_for h2) hU hd hy hyn hix hT hln hu hv huv
      hu' hv' hab

/-! ## A Killing vector -/

omit [DecidableEq K] in
/-- If the metric does not depend on the `m`-th coordinate, the vector with components `g_{mk}` is a Killing vector. -/
theorem killing_cyclic (hi : Inverse G.n G.g G.gi) (hs : ∀ i j, i < G.n → j < G.n → G.g i j = G.g j i) {m : Nat}
    (hm : m < G.n) (hy : Cyclic E G m) (hix : D.ix = [-1]) (hD : ∀ k, k < G.n → D.val [k] = G.g m k) {i j : Nat} (h1 : i < G.n)
    (h2 : j < G.n) : (nabla E G D).val [i, j] + (nabla E G D).val [j, i] = 0 := by
  have h3 : (2 * rat (1 / 2) : K) = 1 := by
    unfold rat
    rw [← map_ofNat (algebraMap ℚ K) 2, ← map_mul]
    norm_num
  have key : ∀ p q, p < G.n → q < G.n → 2 * ∑ l ∈ range G.n, christoffel E G l p q * D.val [l] =
      G.d E p (G.g m q) + G.d E q (G.g m p) := by
    intro p q hp hq
    have e1 : ∀ l ∈ range G.n, 2 * (christoffel E G l p q * D.val [l]) = ∑ s ∈ range G.n, G.g m l * G.gi l s *
        (G.d E p (G.g q s) + G.d E q (G.g s p) - G.d E s (G.g p q)) := by
      intro l hl
      unfold christoffel
      rw [hD l (mem_range.1 hl), ← mul_assoc, ← mul_assoc, h3, one_mul, sum_mul]
      exact sum_congr rfl fun s _ => by ring
    rw [mul_sum, sum_congr rfl e1, sum_comm]
    have e2 : ∀ s ∈ range G.n, ∑ l ∈ range G.n, G.g m l * G.gi l s *
        (G.d E p (G.g q s) + G.d E q (G.g s p) - G.d E s (G.g p q)) =
        (if m = s then 1 else 0) * (G.d E p (G.g q s) + G.d E q (G.g s p) - G.d E s (G.g p q)) := by
      intro s hs'
      rw [← sum_mul]
      exact congrArg (· * _) (hi m s hm (mem_range.1 hs')).1
    rw [sum_congr rfl e2]
    simp only [ite_mul, one_mul, zero_mul]
    rw [sum_ite_eq, if_pos (mem_range.2 hm), hs q m hq hm, show G.d E m (G.g p q) = 0 from hy p q hp hq]
    ring
  have e3 : ∀ p q, p < G.n → q < G.n → (nabla E G D).val [p, q] =
      G.d E p (G.g m q) - ∑ l ∈ range G.n, christoffel E G l p q * D.val [l] := by
    intro p q hp hq
    unfold nabla covariant
    rw [hix]
    simp [sub_eq_add_neg, hD q hq]
  rw [e3 i j h1 h2, e3 j i h2 h1]
  have a1 := key i j h1 h2
  have a2 := key j i h2 h1
  have a3 : ∀ x y z : K, 2 * x = z → 2 * y = z → z - x - y = 0 := by
    intro x y z hx hy
    have : x = y := by
      have h := congrArg (rat (1 / 2) * ·) (hx.trans hy.symm)
      have h4 : (rat (1 / 2) * 2 : K) = 1 := by rw [mul_comm]; exact h3
      simpa only [← mul_assoc, h4, one_mul] using h
    linear_combination -hx + (1 : K) * this
  have := a3 _ _ _ a1 (a2.trans (add_comm _ _))
  linear_combination this

/-- C115: the metric `nil`, which does not depend on x, and the vector with components `g_{0k}`. -/
example : ∃ (E : Engine Poly) (C : Curves Poly) (G : Ground Poly) (V : View Poly) (w : World Poly) (Dm D : TField Poly) (t : Id')
    (d : CalcObj), EngineOK E ∧ Calculus E ∧ Scene G V w ∧ CurvesOK E C G.syms ∧ ProperNames C G.syms ∧ AnyMetric G V Dm ∧
    Dm.ix = [-1, -1] ∧ NamesOK E G V w Dm.name ∧
    Unnamed w (· == .geodesicChristoffel) (Dm.name ++ " Geodesic From Christoffel") ∧ derivative .covariantD ["a"] = .ok d ∧
    Denotes G V ⟨.tensor, some t, ["b"]⟩ t D ∧ D.name ≠ "TEMP" ∧ D.ix = [-1] ∧ StaticField E C G D ∧
    christoffel E G 2 0 1 ≠ 0 ∧ D.val [1] = MvPolynomial.X "z" ∧
    ∀ i j, i < G.n → j < G.n → (nabla E G D).val [i, j] + (nabla E G D).val [j, i] = 0 := by
  obtain ⟨G, V, w, h1, h2, -, h3, h4, h5, h6, h7⟩ := curved_full
  obtain ⟨o, w', -, hS', hi, ho, ho', -, -, hx⟩ := scene_new h1 (kind := .tensor) (Or.inl rfl) "V" "v"
    (a := ⟨[3], [1 + MvPolynomial.X "z" * MvPolynomial.X "z", MvPolynomial.X "z", 0]⟩) (ix := [-1])
    (f := fun J => entry nil 0 (J.getD 0 0)) ⟨rfl, by rw [h2]; rfl, by
      intro J k1 k2
      obtain ⟨k, rfl⟩ := List.length_eq_one_iff.1 k1
      have hk : k < 3 := by rw [← h2]; simpa using k2
      interval_cases k <;> rfl⟩ ⟨rfl, by simp⟩
  have hnames : ∀ i ∈ w'.instances, ∀ o, w'.objs[i]? = some o → o.name = "Cartesian" ∨ o.name = "Nil" ∨ o.name = "V" := by
    intro i hi' oi hoi
    rw [hi, List.mem_append] at hi'
    rcases hi' with hi' | hi'
    · obtain ⟨oi', e1, -⟩ := h1.registry.inUse i hi'
      have e2 := getElem?_append_old (x := o) e1
      rw [← ho, hoi] at e2
      cases e2
      exact (h4 i hi' _ e1).imp id Or.inl
    · have : i = w.objs.length := by simpa using hi'
      rw [this, ho, getElem?_append_length] at hoi
      cases hoi
      exact Or.inr (Or.inr ho')
  refine ⟨polyEngine, polyCurves, G, _, w', _, ⟨"V", G.c, [-1], fun J => entry nil 0 (J.getD 0 0)⟩, w.objs.length, _, polyEngine_ok,
    polyEngine_calculus, hS', by rw [h6]; exact polyCurves_ok, by rw [h6]; exact polyCurves_names,
    ⟨hx _ _ h3.view, h3.name, h3.coords⟩, rfl, ?_, ?_, rfl, ⟨⟨rfl, rfl, if_pos rfl, by simp, rfl⟩, rfl⟩,
    (by decide : "V" ≠ "TEMP"), rfl, ?_, by rw [h5]; exact curved_half, rfl, ?_⟩
  · intro q i hi' oi hoi hname
    exfalso
    rcases hnames i hi' oi hoi with h | h | h <;> rw [h] at hname <;> cases q <;> exact absurd hname (by decide)
  · intro i hi' oi hoi _ hname
    rcases hnames i hi' oi hoi with h | h | h <;> rw [h] at hname <;> exact absurd hname (by decide)
  · have hT := nil_static h6 h2 h7
    intro k hk
    have := hT 0 k (by rw [h2]; decide) hk
    rw [h7] at this
    exact this
  · intro i j hi hj
    exact killing_cyclic h1.inverse h1.symm (m := 0) (by rw [h2]; decide) (nil_cyclic h6 h2 h7 (Or.inl rfl)) rfl
      (fun k _ => (h7 0 k).symm) hi hj

end PyOGRe
