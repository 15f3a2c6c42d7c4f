import Verif.Props.Straight
import Verif.Props.Conserved

/-!
# Geodesics with the time as parameter are geodesics: C104
-/

namespace PyOGRe
open Spec Finset
variable {K : Type} [CommRing K] [DecidableEq K] [Algebra ℚ K] {E : Engine K} {G : Ground K} {V : View K}
  {w : World K} {C : Curves K} {Dm : TField K} {Γ : Nat → Nat → Nat → K}

/-- Two motions at the same point of the same curve: `φ` has the values of the coordinates, velocities and accelerations when the
curve has any parameter, and `ψ` when the parameter is the zeroth coordinate.  The inverse metric and the derivatives of the metric have
the same values, and the velocities and accelerations are related by the chain rule: `dxⁱ/dt = ẋⁱ / ẋ⁰` and
`d²xⁱ/dt² = (ẍⁱ - dxⁱ/dt ẍ⁰) / (ẋ⁰)²`. -/
structure Spec.SameMotion (E : Engine K) (C : Curves K) (G : Ground K) {R : Type} [CommRing R] (φ ψ : K →+* R) : Prop where
  inverse : ∀ i j, i < G.n → j < G.n → φ (C.asFunctions C.parameter G.syms (G.gi i j)) =
    ψ (C.asFunctions (G.syms.getD 0 "") G.syms (G.gi i j))
  slopes : ∀ k i j, k < G.n → i < G.n → j < G.n → φ (C.asFunctions C.parameter G.syms (G.d E k (G.g i j))) =
    ψ (C.asFunctions (G.syms.getD 0 "") G.syms (G.d E k (G.g i j)))
  moves : IsUnit (φ (C.asFunctions C.parameter G.syms (G.speed C 0)))
  velocity : ∀ i, 0 < i → i < G.n → φ (C.asFunctions C.parameter G.syms (G.speed C 0)) *
    ψ (C.asFunctions (G.syms.getD 0 "") G.syms (G.speed C i)) = φ (C.asFunctions C.parameter G.syms (G.speed C i))
  acceleration : ∀ i, 0 < i → i < G.n → φ (C.asFunctions C.parameter G.syms (G.speed C 0)) ^ 2 *
    ψ (C.asFunctions (G.syms.getD 0 "") G.syms (G.accel C i)) = φ (C.asFunctions C.parameter G.syms (G.accel C i)) -
      ψ (C.asFunctions (G.syms.getD 0 "") G.syms (G.speed C i)) * φ (C.asFunctions C.parameter G.syms (G.accel C 0))

omit [DecidableEq K] [Algebra ℚ K] in
/-- `(ẋ⁰)²` times the equation with the time as parameter. -/
theorem reparametrised {R : Type} [CommRing R] {n : Nat} (hn : 0 < n) {γ γ' : Nat → Nat → Nat → R} {v a s b : Nat → R}
    (hγ : ∀ l m k, l < n → m < n → k < n → γ l m k = γ' l m k) (hs0 : s 0 = 1) (hb0 : b 0 = 0)
    (hv : ∀ i, i < n → v 0 * s i = v i) (ha : ∀ i, 0 < i → i < n → v 0 ^ 2 * b i = a i - s i * a 0) {i : Nat} (hi : i < n) :
    v 0 ^ 2 * (b i + ∑ m ∈ range n, ∑ k ∈ range n, (γ' i m k - γ' 0 m k * s i) * s m * s k) =
      (a i + ∑ m ∈ range n, ∑ k ∈ range n, γ i m k * v m * v k) -
        s i * (a 0 + ∑ m ∈ range n, ∑ k ∈ range n, γ 0 m k * v m * v k) := by
  have e1 : v 0 ^ 2 * b i = a i - s i * a 0 := by
    rcases Nat.eq_zero_or_pos i with rfl | h
    · rw [hs0, hb0]; ring
    · exact ha i h hi
  have e2 : v 0 ^ 2 * ∑ m ∈ range n, ∑ k ∈ range n, (γ' i m k - γ' 0 m k * s i) * s m * s k =
      ∑ m ∈ range n, ∑ k ∈ range n, γ i m k * v m * v k - s i * ∑ m ∈ range n, ∑ k ∈ range n, γ 0 m k * v m * v k := by
    rw [mul_sum, mul_sum, ← sum_sub_distrib]
    refine sum_congr rfl fun m hm => ?_
    rw [mul_sum, mul_sum, ← sum_sub_distrib]
    refine sum_congr rfl fun k hk => ?_
    rw [hγ i m k hi (mem_range.1 hm) (mem_range.1 hk), hγ 0 m k hn (mem_range.1 hm) (mem_range.1 hk),
      ← hv m (mem_range.1 hm), ← hv k (mem_range.1 hk)]
    ring
  rw [mul_add, e1, e2]
  ring

omit [DecidableEq K] in
theorem sameMotion_christoffel (hO : CurvesOK E C G.syms) {R : Type} [CommRing R] {φ ψ : K →+* R} (h : SameMotion E C G φ ψ)
    (l m n : Nat) (hl : l < G.n) (hm : m < G.n) (hn : n < G.n) :
    φ (C.asFunctions C.parameter G.syms (christoffel E G l m n)) =
      ψ (C.asFunctions (G.syms.getD 0 "") G.syms (christoffel E G l m n)) := by
  have h0 : ∀ q : ℚ, (φ.comp (functionsHom hO C.parameter)) (rat q) = (ψ.comp (functionsHom hO (G.syms.getD 0 ""))) (rat q) :=
    fun q => by
      letI : Algebra ℚ R := (φ.comp (algebraMap ℚ K)).toAlgebra
      exact (RingHom.congr_fun (Subsingleton.elim (((φ.comp (functionsHom hO C.parameter)).comp (algebraMap ℚ K)))
        ((ψ.comp (functionsHom hO (G.syms.getD 0 ""))).comp (algebraMap ℚ K))) q)
  have h1 : ∀ i j, i < G.n → j < G.n → (φ.comp (functionsHom hO C.parameter)) (G.gi i j) =
    (ψ.comp (functionsHom hO (G.syms.getD 0 ""))) (G.gi i j) := h.inverse
  have h2 : ∀ k i j, k < G.n → i < G.n → j < G.n → (φ.comp (functionsHom hO C.parameter)) (G.d E k (G.g i j)) =
    (ψ.comp (functionsHom hO (G.syms.getD 0 ""))) (G.d E k (G.g i j)) := h.slopes
  show (φ.comp (functionsHom hO C.parameter)) (christoffel E G l m n) =
    (ψ.comp (functionsHom hO (G.syms.getD 0 ""))) (christoffel E G l m n)
  generalize φ.comp (functionsHom hO C.parameter) = φ' at *
  generalize ψ.comp (functionsHom hO (G.syms.getD 0 "")) = ψ' at *
  unfold christoffel
  rw [map_mul, map_mul, h0, map_sum, map_sum]
  congr 1
  refine sum_congr rfl fun s hs => ?_
  have hs := mem_range.1 hs
  simp only [map_mul, map_add, map_sub, h1 l s hl hs, h2 m n s hm hn hs, h2 n m s hn hm hs, h2 n s m hn hs hm,
    h2 m s n hm hs hn, h2 s m n hs hm hn, h2 s n m hs hn hm]

/-- **C104** (both default configurations that a metric can have): at every point of every curve, the geodesic equations hold for a
parameter of the curve exactly if the equations with the time as parameter hold and the zeroth geodesic equation does, which says that the
parameter is affine. -/
theorem C104_time (hE : EngineOK E) (hC : Calculus E) (hS : Scene G V w) (hO : CurvesOK E C G.syms)
    (hm : AnyMetric G V Dm) (hix : Dm.ix = [-1, -1] ∨ Dm.ix = [1, 1]) (hN : NoNames w Dm.name)
    (hU : Unnamed w (· == .geodesicChristoffel) (Dm.name ++ " Geodesic From Christoffel"))
    (hU' : Unnamed w (· == .geodesicTime) (Dm.name ++ " Geodesic With Time Parameter")) :
    Does (do
      let r ← calcGeodesicChristoffel E C G.m none
      let x ← curveComponents E C r none none
      let t ← calcGeodesicTime E C G.m none
      let y ← curveComponents E C t none none
      return (x, y)) w fun (x, y) _ => x.shape = [G.n] ∧ y.shape = [G.n] ∧
        ∀ (R : Type) [CommRing R] (φ ψ : K →+* R), SameMotion E C G φ ψ →
          ((∀ i, i < G.n → φ (x.get [i]) = 0) ↔ (∀ i, i < G.n → ψ (y.get [i]) = 0) ∧ φ (x.get [0]) = 0) := by
  obtain ⟨Γ, hΓ, hpt⟩ : ∃ Γ, GivesConnection E G Γ Dm ∧ ∀ (R : Type) [CommRing R] (φ ψ : K →+* R), SameMotion E C G φ ψ →
      ∀ l m n, l < G.n → m < G.n → n < G.n → φ (C.asFunctions C.parameter G.syms (Γ l m n)) =
        ψ (C.asFunctions (G.syms.getD 0 "") G.syms (Γ l m n)) := by
    rcases hix with h1 | h1
    · exact ⟨_, gives_christoffel hE.simp_eq h1, fun R _ φ ψ h => sameMotion_christoffel hO h⟩
    · refine ⟨_, gives_opposite hE.simp_eq hC h1, fun R _ φ ψ h l m n hl hm hn => ?_⟩
      have := sameMotion_christoffel hO h l m n hl hm hn
      show φ (functionsHom hO C.parameter (-christoffel E G l m n)) =
        ψ (functionsHom hO (G.syms.getD 0 "") (-christoffel E G l m n))
      rw [map_neg, map_neg, map_neg, map_neg]
      exact congrArg Neg.neg this
  have hQ : NamesFor E G Γ V w Dm.name := noNames_for hN
  refine Does.bind (anyGiven_geodesicChristoffel hE.simp_eq hΓ hS C hm hQ (Or.inr rfl) (namesCurve_unnamed hU)) ?_
  intro l w1 hg
  have hU1 := anyUnnamed_given hg (sel := (· == .geodesicTime)) (name' := Dm.name ++ " Geodesic With Time Parameter") rfl
    (suffix_ne (by decide) _) (fun hc => absurd (append_cancel hc) (by decide))
    (suffix_not_quantity (by intro q; cases q <;> decide) _) hU'
  obtain ⟨V1, h1, h2, -, h4, h5, h6, h7⟩ := hg
  obtain ⟨a, e1, e2⟩ := holds_components (E := E) (C := C) h1 h6 (Or.inl rfl) (Or.inl rfl)
  refine Does.step e1 ?_
  refine Does.bind (anyGiven_geodesicTime hE.simp_eq hΓ h1 C (anyMetric_keeps hm h2) h4 (Or.inr rfl)
    (namesCurve_unnamed hU1)) ?_
  rintro s w2 ⟨V2, k1, k2, -, k4, k5, k6, -⟩
  obtain ⟨b, f1, f2⟩ := holds_components (E := E) (C := C) k1 k6 (Or.inl rfl) (Or.inl rfl)
  refine Does.step f1 (Does.pure ⟨e2.2.1, f2.2.1, fun R _ φ ψ h => ?_⟩)
  set φ' := φ.comp (functionsHom hO C.parameter) with hφ
  set ψ' := ψ.comp (functionsHom hO (G.syms.getD 0 "")) with hψ
  have hx : ∀ i, i < G.n → (φ (a.get [i]) = 0 ↔ φ' (geodesicOf C G Γ i) = 0) := fun i hi => by
    obtain ⟨u, hu, hu'⟩ := hO.clear (geodesicOf C G Γ i)
    have e : φ (a.get [i]) = φ' (u * geodesicOf C G Γ i) :=
      congrArg φ ((e2.2.2 [i] rfl (by simpa using hi)).trans (congrArg (C.asFunctions C.parameter G.syms) hu'))
    rw [e, map_mul]
    exact (hu.map φ').mul_right_eq_zero
  have hy : ∀ i, i < G.n → (ψ (b.get [i]) = 0 ↔ ψ' (geodesicTOf C G Γ i) = 0) := fun i hi => by
    obtain ⟨u, hu, hu'⟩ := hO.clear (geodesicTOf C G Γ i)
    have e : ψ (b.get [i]) = ψ' (u * geodesicTOf C G Γ i) :=
      congrArg ψ ((f2.2.2 [i] rfl (by simpa using hi)).trans (congrArg (C.asFunctions (G.syms.getD 0 "") G.syms) hu'))
    rw [e, map_mul]
    exact (hu.map ψ').mul_right_eq_zero
  have key : ∀ i, i < G.n → φ' (G.speed C 0) ^ 2 * ψ' (geodesicTOf C G Γ i) =
      φ' (geodesicOf C G Γ i) - ψ' (G.speedT C i) * φ' (geodesicOf C G Γ 0) := fun i hi => by
    have := reparametrised hS.pos (γ := fun l m n => φ' (Γ l m n)) (γ' := fun l m n => ψ' (Γ l m n))
      (v := fun i => φ' (G.speed C i)) (a := fun i => φ' (G.accel C i)) (s := fun i => ψ' (G.speedT C i))
      (b := fun i => ψ' (G.accelT C i)) (fun l m n hl hm hn => hpt R φ ψ h l m n hl hm hn) (by simp [Ground.speedT])
      (by simp [Ground.accelT]) (fun i hi => ?_) (fun i h0 hi => ?_) hi
    · unfold geodesicTOf geodesicOf
      simpa only [map_add, map_sum, map_mul, map_sub] using this
    · rcases Nat.eq_zero_or_pos i with rfl | h0
      · simp [Ground.speedT]
      · rw [Ground.speedT, if_neg (by omega)]
        exact h.velocity i h0 hi
    · rw [Ground.speedT, Ground.accelT, if_neg (by omega), if_neg (by omega)]
      exact h.acceleration i h0 hi
  have hu : IsUnit (φ' (G.speed C 0) ^ 2) := h.moves.pow 2
  constructor
  · intro hall
    refine ⟨fun i hi => (hy i hi).2 ?_, hall 0 hS.pos⟩
    have := key i hi
    rw [(hx i hi).1 (hall i hi), (hx 0 hS.pos).1 (hall 0 hS.pos), mul_zero, sub_zero] at this
    exact hu.mul_right_eq_zero.1 this
  · rintro ⟨hall, h0⟩ i hi
    refine (hx i hi).2 ?_
    have := key i hi
    rw [(hy i hi).1 (hall i hi), (hx 0 hS.pos).1 h0, mul_zero, mul_zero, sub_zero] at this
    exact this.symm

/-- At the origin with velocity (2, 2, 2) and acceleration (4, 4, -4). -/
def fastMotion (s : Sym) : ℚ :=
  if s = "xdot" ∨ s = "ydot" ∨ s = "zdot" then 2 else if s = "xddot" ∨ s = "yddot" then 4 else if s = "zddot" then -4 else 0

/-- The same motion with `x` as parameter: `dy/dx = dz/dx = 1`, `d²y/dx² = 0` and `d²z/dx² = -2`. -/
def timeMotion (s : Sym) : ℚ :=
  if s = "ydot" ∨ s = "zdot" then 1 else if s = "zddot" then -2 else 0

noncomputable def fastValue : Poly →+* ℚ := MvPolynomial.eval fun s => fastMotion (jet.symm s)
noncomputable def timeValue : Poly →+* ℚ := MvPolynomial.eval fun s => if s = "x" then 0 else timeMotion (jet.symm s)

theorem fastValue_eq (syms : List Sym) (p : Poly) :
    fastValue (polyCurves.asFunctions "lambda" syms p) = MvPolynomial.eval fastMotion p := by
  rw [polyCurves_functions]
  unfold fastValue toFunctions
  exact eval_back jet _ p

theorem timeValue_eq (syms : List Sym) (p : Poly) :
    timeValue (polyCurves.asFunctions "x" syms p) = MvPolynomial.eval timeMotion p := by
  show timeValue (MvPolynomial.aeval (fun t => if t = "x" then (MvPolynomial.X t : Poly) else MvPolynomial.X (jet t)) p) = _
  have hx : timeMotion (jet.symm "x") = 0 := by
    rw [show jet.symm "x" = "x(lambda)" by decide]
    decide
  have : (timeValue.comp (MvPolynomial.aeval (R := ℚ)
      (fun t => if t = "x" then (MvPolynomial.X t : Poly) else MvPolynomial.X (jet t))).toRingHom) =
      (MvPolynomial.eval timeMotion : Poly →+* ℚ) := by
    refine MvPolynomial.ringHom_ext (fun q => ?_) (fun t => ?_)
    · simp [timeValue, MvPolynomial.algebraMap_eq]
    · show timeValue (MvPolynomial.aeval (R := ℚ) _ (MvPolynomial.X t)) = _
      rw [MvPolynomial.aeval_X, MvPolynomial.eval_X]
      unfold timeValue
      split_ifs with h
      · rw [MvPolynomial.eval_X, if_pos h, h]
        decide
      · rw [MvPolynomial.eval_X]
        split_ifs with h'
        · rw [← hx, ← h', Equiv.symm_apply_apply]
        · rw [Equiv.symm_apply_apply]
  exact RingHom.congr_fun this p

theorem nil_sameMotion {G : Ground Poly} (h : NilGround G) : SameMotion polyEngine polyCurves G fastValue timeValue := by
  have hz : fastMotion "z" = timeMotion "z" := by decide
  have h0 : G.syms.getD 0 "" = "x" := by rw [h.syms]; rfl
  have e1 : ∀ p, fastValue (polyCurves.asFunctions polyCurves.parameter G.syms p) = MvPolynomial.eval fastMotion p :=
    fastValue_eq _
  have e2 : ∀ p, timeValue (polyCurves.asFunctions (G.syms.getD 0 "") G.syms p) = MvPolynomial.eval timeMotion p := by
    rw [h0]; exact timeValue_eq _
  have hs : ∀ (f : Sym → ℚ) i, MvPolynomial.eval f (G.speed polyCurves i) = f (dot (["x", "y", "z"].getD i "")) := by
    intro f i
    unfold Ground.speed
    rw [h.syms]
    exact MvPolynomial.eval_X _
  have ha : ∀ (f : Sym → ℚ) i, MvPolynomial.eval f (G.accel polyCurves i) = f (ddot (["x", "y", "z"].getD i "")) := by
    intro f i
    unfold Ground.accel
    rw [h.syms]
    exact MvPolynomial.eval_X _
  refine ⟨fun i j hi hj => ?_, fun k i j hk hi hj => ?_, ?_, fun i h0 hi => ?_, fun i h0 hi => ?_⟩
  · rw [e1, e2, h.gi]
    rw [h.n] at hi hj
    interval_cases i <;> interval_cases j <;> simp [entry, nil, Arr.get, ravel, hz]
  · rw [e1, e2]
    rw [h.n] at hi hj hk
    have hd : ∀ p : Poly, G.d polyEngine 0 p = MvPolynomial.pderiv "x" p ∧ G.d polyEngine 1 p = MvPolynomial.pderiv "y" p ∧
        G.d polyEngine 2 p = MvPolynomial.pderiv "z" p := by
      intro p
      unfold Ground.d
      rw [h.syms]
      exact ⟨rfl, rfl, rfl⟩
    interval_cases i <;> interval_cases j <;> interval_cases k <;>
      simp [h.g00, h.g01, h.g02, h.g10, h.g11, h.g12, h.g20, h.g21, h.g22, hd, hz, MvPolynomial.pderiv_X, Pi.single_apply]
  · rw [e1, hs]
    exact isUnit_iff_ne_zero.2 (by decide)
  · rw [e1, e1, e2, hs, hs, hs]
    rw [h.n] at hi
    interval_cases i <;> decide +kernel
  · rw [e1, e1, e1, e2, e2, hs, hs, ha, ha, ha]
    rw [h.n] at hi
    interval_cases i <;> decide +kernel

/-- The hypotheses of `C104_time` hold of a metric whose Christoffel symbols are not 0, and there are two motions at the same point of the
same curve, with another parameter than the time. -/
example : ∃ (E : Engine Poly) (C : Curves Poly) (G : Ground Poly) (V : View Poly) (w : World Poly) (Dm : TField Poly)
    (φ ψ : Poly →+* ℚ), EngineOK E ∧ Calculus E ∧ CurvesOK E C G.syms ∧ Scene G V w ∧ AnyMetric G V Dm ∧
    (Dm.ix = [-1, -1] ∨ Dm.ix = [1, 1]) ∧ NoNames w Dm.name ∧
    Unnamed w (· == .geodesicChristoffel) (Dm.name ++ " Geodesic From Christoffel") ∧
    Unnamed w (· == .geodesicTime) (Dm.name ++ " Geodesic With Time Parameter") ∧
    SameMotion E C G φ ψ ∧ φ (C.asFunctions C.parameter G.syms (G.speed C 0)) = 2 ∧
    christoffel E G 2 0 1 ≠ 0 := by
  obtain ⟨G, V, w, hS, hG, hm, h4⟩ := curved_names_table
  have hU : ∀ sel name, name ≠ "Cartesian" → name ≠ "Nil" → Unnamed w sel name := by
    intro sel name k1 k2 i hi o ho _ hn
    rcases h4 i hi o ho with h | h
    · exact k1 (hn ▸ h)
    · exact k2 (hn ▸ h)
  refine ⟨polyEngine, polyCurves, G, V, w, _, fastValue, timeValue, polyEngine_ok, polyEngine_calculus,
    by rw [hG.syms]; exact polyCurves_ok, hS, ⟨hm.view, hm.name, hm.coords⟩, Or.inr hm.ix, ?_,
    hU _ _ (by decide) (by decide), hU _ _ (by decide) (by decide), nil_sameMotion hG, ?_, ?_⟩
  · intro q i hi o ho hn
    rcases h4 i hi o ho with h | h <;> rw [h] at hn <;> cases q <;> exact absurd hn (by decide)
  · refine (fastValue_eq _ _).trans ?_
    unfold Ground.speed
    rw [hG.syms]
    refine (MvPolynomial.eval_X _).trans ?_
    decide
  · rw [nil_christoffel hG 2 0 1 (by decide) (by decide) (by decide)]
    simpa [nilGamma] using neg_ne_zero.1 curved_half

end PyOGRe
