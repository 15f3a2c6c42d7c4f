import Verif.Props.Vacuum
import Verif.Props.Conformal
import Verif.Props.Covariant
import Verif.Lemmas.Display

/-!
# Divergences and the volume element: C114
-/

namespace PyOGRe
open Spec Finset
variable {K : Type} [CommRing K] [DecidableEq K] [Algebra ℚ K] {E : Engine K} {G : Ground K} {V : View K}
  {w : World K} {Dm D : TField K}

/-- The engine knows the determinants of invertible matrices. -/
def Spec.Determinants (E : Engine K) : Prop :=
  ∀ (n : Nat) (a : Arr K), a.shape = [n, n] → (∃ N, Inverse n (entry a) N) → E.det a = determinant n a

/-! ## The derivative of a determinant -/

omit [DecidableEq K] [Algebra ℚ K] in
theorem diff_prod (hC : Calculus E) (s : Sym) {ι : Type} [DecidableEq ι] (f : ι → K) (t : Finset ι) :
    E.diff s (∏ i ∈ t, f i) = ∑ k ∈ t, E.diff s (f k) * ∏ i ∈ t.erase k, f i := by
  induction t using Finset.induction_on with
  | empty =>
    have := hC.mul s 1 1
    simpa using this
  | insert a t ha ih =>
    rw [prod_insert ha, hC.mul, ih, sum_insert ha, erase_insert ha, mul_sum]
    refine congrArg _ (sum_congr rfl fun k hk => ?_)
    have hne : a ≠ k := fun h => ha (h ▸ hk)
    rw [erase_insert_of_ne hne, prod_insert fun h => ha (mem_of_mem_erase h)]
    ring

omit [DecidableEq K] [Algebra ℚ K] in
theorem diff_sum' (hC : Calculus E) (s : Sym) {ι : Type} (f : ι → K) (t : Finset ι) :
    E.diff s (∑ i ∈ t, f i) = ∑ i ∈ t, E.diff s (f i) :=
  map_sum (⟨⟨E.diff s, by simpa using hC.add s 0 0⟩, hC.add s⟩ : K →+ K) f t

omit [DecidableEq K] [Algebra ℚ K] in
/-- Jacobi's formula. -/
theorem diff_det (hC : Calculus E) (s : Sym) {n : Nat} (M : Matrix (Fin n) (Fin n) K) :
    E.diff s M.det = ∑ k, ∑ i, M.adjugate k i * E.diff s (M i k) := by
  have hneg : ∀ x, E.diff s (-x) = -E.diff s x := map_neg (⟨⟨E.diff s, by simpa using hC.add s 0 0⟩, hC.add s⟩ : K →+ K)
  have hsign : ∀ (σ : Equiv.Perm (Fin n)) (x : K), E.diff s (((Equiv.Perm.sign σ : ℤ) : K) * x) =
      ((Equiv.Perm.sign σ : ℤ) : K) * E.diff s x := by
    intro σ x
    rcases Int.units_eq_one_or (Equiv.Perm.sign σ) with h | h <;> rw [h] <;> simp [hneg]
  rw [Matrix.det_apply', diff_sum' hC]
  have h1 : ∀ k : Fin n, ∑ i, M.adjugate k i * E.diff s (M i k) = (M.updateCol k fun i => E.diff s (M i k)).det := by
    intro k
    rw [← Matrix.cramer_apply, Matrix.cramer_eq_adjugate_mulVec]
    rfl
  rw [sum_congr rfl fun k _ => h1 k]
  simp only [Matrix.det_apply']
  rw [sum_comm]
  refine sum_congr rfl fun σ _ => ?_
  rw [hsign, diff_prod hC, mul_sum]
  refine sum_congr rfl fun k _ => ?_
  rw [← mul_prod_erase univ _ (mem_univ k), Matrix.updateCol_self]
  refine congrArg _ (congrArg _ (prod_congr rfl fun i hi => ?_))
  rw [Matrix.updateCol_ne (ne_of_mem_erase hi)]

omit [DecidableEq K] in
/-- `2 det(g) Γ^a_{ak} = ∂_k det(g)`. -/
theorem christoffel_trace (hC : Calculus E) (hi : Inverse G.n G.g G.gi)
    (hs : ∀ i j, i < G.n → j < G.n → G.g i j = G.g j i) (k : Nat) (hk : k < G.n) :
    2 * (toMat G.n G.g).det * ∑ a ∈ range G.n, christoffel E G a a k = G.d E k (toMat G.n G.g).det := by
  have hgi := inverse_symm hi hs
  have h2 : (2 * rat (1 / 2) : K) = 1 := by
    unfold rat
    rw [← map_ofNat (algebraMap ℚ K) 2, ← map_mul]
    norm_num
  have hadj : (toMat G.n G.g).adjugate = (toMat G.n G.g).det • toMat G.n G.gi := by
    calc _ = (toMat G.n G.g).adjugate * (toMat G.n G.g * toMat G.n G.gi) := by rw [(inverse_iff.1 hi).1, mul_one]
      _ = _ := by rw [← mul_assoc, Matrix.adjugate_mul, Matrix.smul_mul, one_mul]
  have e1 : G.d E k (toMat G.n G.g).det =
      (toMat G.n G.g).det * ∑ a ∈ range G.n, ∑ s ∈ range G.n, G.gi a s * G.d E k (G.g s a) := by
    unfold Ground.d
    rw [diff_det hC, hadj, sum_range, mul_sum]
    refine sum_congr rfl fun a _ => ?_
    rw [sum_range, mul_sum]
    exact sum_congr rfl fun s _ => mul_assoc _ _ _
  have e2 : 2 * ∑ a ∈ range G.n, christoffel E G a a k =
      ∑ a ∈ range G.n, ∑ s ∈ range G.n, G.gi a s * G.d E k (G.g s a) := by
    unfold christoffel
    rw [← mul_sum, ← mul_assoc, h2, one_mul]
    have e3 : ∑ a ∈ range G.n, ∑ s ∈ range G.n, G.gi a s * G.d E a (G.g k s) =
        ∑ a ∈ range G.n, ∑ s ∈ range G.n, G.gi a s * G.d E s (G.g a k) := by
      rw [sum_comm]
      refine sum_congr rfl fun a ha => sum_congr rfl fun s hs' => ?_
      have ha : a < G.n := by simpa using ha
      have hs' : s < G.n := by simpa using hs'
      rw [hgi s a hs' ha, hs k a hk ha]
    calc _ = ∑ a ∈ range G.n, ∑ s ∈ range G.n, G.gi a s * G.d E a (G.g k s) +
          ∑ a ∈ range G.n, ∑ s ∈ range G.n, G.gi a s * G.d E k (G.g s a) -
          ∑ a ∈ range G.n, ∑ s ∈ range G.n, G.gi a s * G.d E s (G.g a k) := by
          simp only [← sum_add_distrib, ← sum_sub_distrib]
          exact sum_congr rfl fun a _ => sum_congr rfl fun s _ => by ring
      _ = _ := by rw [e3]; ring
  rw [e1, ← e2]
  ring

/-- What `volume_element` shows for the metric of a session. -/
theorem scene_volume (hE : EngineOK E) (hD : Determinants E) (hS : Scene G V w) (hm : AnyMetric G V Dm) :
    volumeElement E G.m none w = (.ok (toMat G.n G.g).det, w) := by
  obtain ⟨om, dm, g, gi, h1, h2, h3, h4, -, h5, -, h6⟩ := scene_metric_read hS
  obtain ⟨o, ho, hsh⟩ := hS.shows _ _ hm.view
  rw [h1] at ho; cases ho
  have hc : om.coords = G.c := hsh.coords.trans hm.coords
  have hdet : E.det g = (toMat G.n G.g).det := by
    have hi : Inverse G.n (entry g) G.gi := inverse_congr hS.inverse (fun i j hi hj => (h6 i j hi hj).1.symm)
      fun _ _ _ _ => rfl
    rw [hD G.n g h5 ⟨_, hi⟩]
    unfold determinant
    congr 1
    ext i j
    exact (h6 i j i.2 j.2).1
  unfold volumeElement lowerComponents
  refine PyM.then_ok (a := (G.c, g)) (w' := w) ?_ ?_
  · refine PyM.then_ok (a := true) rfl ?_
    simp only [Bool.not_true, Bool.false_eq_true, if_false]
    refine PyM.then_ok (getObj_ok h1 h2) ?_
    show (do
      PyM.onlyIf (!(← metricCheck G.m om.coords)) (metricTransform E G.m om.coords [-1, -1])
      let a ← readComps G.m om.coords [-1, -1]
      return (om.coords, a)) w = _
    rw [hc]
    refine PyM.then_ok (a := true) (w' := w) ?_ ?_
    · unfold metricCheck
      refine PyM.then_ok (getObj_ok h1 h2) ?_
      rw [(Dict.has_iff _ _).2 ⟨dm, h3⟩]
      rfl
    · refine PyM.then_ok (a := ()) (w' := w) rfl ?_
      exact PyM.then_ok (readComps_ok h1 h2 h3 h4) rfl
  · rw [hE.simp_eq, hdet]
    rfl

/-- The Christoffel symbols and the volume element, for any connection that is computed. -/
theorem does_volume {Γ : Nat → Nat → Nat → K} {P : K × Arr K → Prop} (hE : EngineOK E) (hD : Determinants E)
    (hS : Scene G V w) (hm : AnyMetric G V Dm) (hΓ : GivesConnection E G Γ Dm) (hN : NamesFor E G Γ V w Dm.name)
    (hP : ∀ x : Arr K, x.shape = [G.n, G.n, G.n] → (∀ a b c, a < G.n → b < G.n → c < G.n → x.get [a, b, c] = Γ a b c) →
      P ((toMat G.n G.g).det, x)) :
    Does (do
      let v ← volumeElement E G.m none
      let r ← calcChristoffel E G.m
      let x ← getComponents E r none none
      return (v, x)) w fun r _ => P r := by
  refine Does.step (scene_volume hE hD hS hm) ?_
  refine Does.bind (anyProvides_christoffel hΓ hS hm hN) ?_
  rintro r w' ⟨V', D, h1, -, -, -, -, -, h3⟩
  refine Does.bind (scene_getDefault hE.simp_eq h1 h3.view h3.coords) ?_
  rintro x w'' ⟨-, -, -, k2, k3⟩
  have hc : D.ix = [1, -1, -1] := h3.cfg
  refine Does.pure (hP x (by rw [k2, hc]; rfl) fun a b c ha hb hc' => ?_)
  rw [k3 [a, b, c] (by rw [hc]; rfl) (by simp [ha, hb, hc']), h3.val [a, b, c] rfl (by simp [ha, hb, hc'])]
  rfl

/-- **C114** (for metrics with the default configuration (-1,-1)) Twice the volume element `v` (the determinant of the
metric) times the trace of the Christoffel symbols `x` is the derivative of `v`. -/
theorem C114_trace_partial (hE : EngineOK E) (hC : Calculus E) (hD : Determinants E) (hS : Scene G V w)
    (hm : LowerMetric G V Dm) (hN : NamesOK E G V w Dm.name) :
    Does (do
      let v ← volumeElement E G.m none
      let r ← calcChristoffel E G.m
      let x ← getComponents E r none none
      return (v, x)) w fun (v, x) _ => x.shape = [G.n, G.n, G.n] ∧ ∀ k, k < G.n →
        2 * v * ∑ a ∈ range G.n, x.get [a, a, k] = E.diff (G.syms.getD k "") v := by
  refine does_volume hE hD hS ⟨hm.view, hm.name, hm.coords⟩ (gives_christoffel hE.simp_eq hm.ix) (namesFor_christoffel hN)
    fun x hs hx => ⟨hs, fun k hk => ?_⟩
  refine Eq.trans ?_ (christoffel_trace hC hS.inverse hS.symm k hk)
  exact congrArg _ (sum_congr rfl fun a ha => hx a a k (by simpa using ha) (by simpa using ha) hk)

/-- **C114** for metrics with the default configuration (1,1): the trace has the wrong sign. -/
theorem C114_upper (hE : EngineOK E) (hC : Calculus E) (hD : Determinants E) (hS : Scene G V w)
    (hm : UpperMetric G V Dm) (hN : NamesFor E G (minusGamma E G) V w Dm.name) :
    Does (do
      let v ← volumeElement E G.m none
      let r ← calcChristoffel E G.m
      let x ← getComponents E r none none
      return (v, x)) w fun (v, x) _ => x.shape = [G.n, G.n, G.n] ∧ ∀ k, k < G.n →
        2 * v * ∑ a ∈ range G.n, x.get [a, a, k] = -E.diff (G.syms.getD k "") v := by
  refine does_volume hE hD hS ⟨hm.view, hm.name, hm.coords⟩ (gives_opposite hE.simp_eq hC hm.ix) hN
    fun x hs hx => ⟨hs, fun k hk => ?_⟩
  have h := christoffel_trace hC hS.inverse hS.symm k hk
  have e : ∑ a ∈ range G.n, x.get [a, a, k] = -∑ a ∈ range G.n, christoffel E G a a k := by
    rw [← sum_neg_distrib]
    exact sum_congr rfl fun a ha => hx a a k (by simpa using ha) (by simpa using ha) hk
  unfold Ground.d at h
  rw [e]
  linear_combination -h

/-- **C114** (for metrics with the default configuration (-1,-1)) The covariant divergence of a vector with upper index, and the
volume element `v`: `2 v ∇_a V^a = 2 v ∂_a V^a + V^a ∂_a v`. -/
theorem C114_divergence_partial (hE : EngineOK E) (hC : Calculus E) (hD : Determinants E) (hS : Scene G V w)
    (hm : LowerMetric G V Dm) (hN : NamesOK E G V w Dm.name) {letters : List Sym} {d y : CalcObj} {t : Id'} {a : Sym}
    (hd : derivative .covariantD [a] = .ok d) (hy : Denotes G V y t D) (hyn : D.name ≠ "TEMP") (hix : D.ix = [1])
    (hya : y.labels = [a]) (hln : letters.Nodup) {u v : Sym} (hu : u ∈ letters) (hv : v ∈ letters) (huv : u ≠ v)
    (hu' : u ≠ a) (hv' : v ≠ a) :
    Does (do
      let v ← volumeElement E G.m none
      let z ← calcMatmul E letters d y
      return (v, z)) w fun (v, z) w' => ∃ V' t' D', Scene G V' w' ∧ Denotes G V' z t' D' ∧ z.labels = [] ∧ D'.ix = [] ∧
        2 * v * D'.val [] = 2 * v * ∑ k ∈ range G.n, E.diff (G.syms.getD k "") (D.val [k]) +
          ∑ k ∈ range G.n, D.val [k] * E.diff (G.syms.getD k "") v := by
  refine Does.step (scene_volume hE hD hS ⟨hm.view, hm.name, hm.coords⟩) ?_
  refine Does.bind (C31_divergence_partial hE hS hm hN hd hy hyn hln hu hv huv (by simp [hya, hu']) (by simp [hya, hv'])
    (by simp [hya])) ?_
  rintro z w' ⟨V', t', D', h1, -, -, -, h5, h6, h7, h8⟩
  have hz : z.labels = [] := by rw [h6, hya]; simp
  have hD' : D'.ix = [] := by rw [h7, hz]; rfl
  refine Does.pure ⟨V', t', D', h1, h5, hz, hD', ?_⟩
  have h8 := h8 (fun _ => 1) (fun _ => 0) (fun _ => Or.inl rfl) fun _ => hS.pos
  have e0 : D'.at G z.labels (fun _ => 1) (fun _ => 0) = D'.val [] := by
    unfold TField.at
    rw [hz]
    show D'.comp G [] [] = D'.val []
    rw [← hD', comp_self (by simp) (by rw [hD']; rfl)]
  rw [e0, hya] at h8
  have e1 : ∀ k ∈ range G.n, (nabla E G D).comp G
      (-1 :: [a].map (Function.update (fun _ => (1 : Int)) a 1)) (k :: [a].map (Function.update (fun _ => 0) a k)) =
      G.d E k (D.val [k]) + ∑ l ∈ range G.n, christoffel E G k k l * D.val [l] := by
    intro k hk
    have hk : k < G.n := by simpa using hk
    have hnx : (nabla E G D).ix = [-1, 1] := by unfold nabla; rw [hix]
    simp only [List.map_cons, List.map_nil, Function.update_self]
    rw [← hnx, comp_self (by simp [hk]) (by rw [hnx]; rfl)]
    unfold nabla covariant
    rw [hix]
    simp
  rw [h8, sum_congr rfl e1, sum_add_distrib, sum_comm, mul_add]
  refine congrArg₂ _ rfl ?_
  rw [mul_sum]
  refine sum_congr rfl fun k hk => ?_
  have := christoffel_trace hC hS.inverse hS.symm k (by simpa using hk)
  rw [← sum_mul]
  unfold Ground.d at this
  linear_combination (D.val [k]) * this

/-! ## Examples -/

theorem plainEngine_determinants (d : Sym → K → K) : Determinants (plainEngine d) := by
  rintro n a hs ⟨N, hN⟩
  unfold plainEngine
  dsimp only
  rw [if_pos ⟨n, hs, N, hN⟩, hs]
  rfl

/-- The components `diag(1, 1+x)` and their inverse. -/
noncomputable def stretched : Arr (PowerSeries ℚ) := ⟨[2, 2], [1, 0, 0, onePlus]⟩
noncomputable def unstretched : Arr (PowerSeries ℚ) := ⟨[2, 2], [1, 0, 0, oneOver]⟩

theorem stretched_inverse :
    Inverse 2 (fun i j => stretched.get [i, j]) (fun i j => unstretched.get [i, j]) := by
  have h1 : oneOver * onePlus = 1 := by rw [mul_comm]; exact onePlus_inv
  intro i j hi hj
  interval_cases i <;> interval_cases j <;>
    simp [matMul, Finset.sum_range_succ, delta, stretched, unstretched, Arr.get, ravel, onePlus_inv, h1]

theorem stretched_symm (i j : Nat) (hi : i < 2) (hj : j < 2) : entry stretched i j = entry stretched j i := by
  interval_cases i <;> interval_cases j <;> rfl

theorem stretched_det : (toMat 2 (entry stretched)).det = onePlus := by
  rw [Matrix.det_fin_two]
  show 1 * onePlus - 0 * 0 = onePlus
  ring

theorem oneOver_diff : seriesDiff "x" oneOver ≠ 0 := by
  intro h
  have h1 := seriesDiff_calculus.mul "x" onePlus oneOver
  change seriesDiff "x" (onePlus * oneOver) = seriesDiff "x" onePlus * oneOver + onePlus * seriesDiff "x" oneOver at h1
  have h2 : seriesDiff "x" (1 : PowerSeries ℚ) = 0 := by
    unfold seriesDiff
    rw [if_pos rfl, show (1 : PowerSeries ℚ) = PowerSeries.C 1 from rfl, PowerSeries.derivative_C]
  rw [onePlus_inv, h2, onePlus_diff, h, one_mul, mul_zero, add_zero] at h1
  have := onePlus_inv
  rw [← h1, mul_zero] at this
  exact zero_ne_one this

/-- The first component of the vector is 1+x, the second one is zero. -/
noncomputable def growing : Arr (PowerSeries ℚ) := ⟨[2], [onePlus, 0]⟩

/-- C114: a metric and a vector whose components are not constant. -/
example : ∃ (E : Engine (PowerSeries ℚ)) (G : Ground (PowerSeries ℚ)) (V : View (PowerSeries ℚ)) (w : World (PowerSeries ℚ))
    (Dm D : TField (PowerSeries ℚ)) (t : Id') (d : CalcObj), EngineOK E ∧ Calculus E ∧ Determinants E ∧ Scene G V w ∧
    LowerMetric G V Dm ∧ NamesOK E G V w Dm.name ∧ derivative .covariantD ["a"] = .ok d ∧
    Denotes G V ⟨.tensor, some t, ["a"]⟩ t D ∧ D.name ≠ "TEMP" ∧ D.ix = [1] ∧ D.val [0] = onePlus ∧
    (toMat G.n G.g).det = onePlus ∧ E.diff (G.syms.getD 0 "") onePlus = 1 := by
  obtain ⟨G, V, w, h1, h2, h3, h4, h5, h6, -⟩ := plainDeclared seriesDiff (syms := ["x", "y"]) (a := stretched)
    (b := unstretched) rfl rfl stretched_symm stretched_inverse (Or.inl rfl) (by simp)
  have hn : G.n = 2 := h2
  obtain ⟨o, w', -, hS', hi, ho, ho', -, -, hx⟩ := scene_new h1 (kind := .tensor) (Or.inl rfl) "V" "v" (a := growing) (ix := [1])
    (f := growing.get) ⟨rfl, by rw [hn]; rfl, fun _ _ _ => rfl⟩ ⟨rfl, by simp⟩
  refine ⟨plainEngine seriesDiff, G, _, w', _, ⟨"V", G.c, [1], growing.get⟩, w.objs.length, _, plainEngine_ok _,
    seriesDiff_calculus, plainEngine_determinants _, hS', ⟨hx _ _ h4.view, h4.name, h4.coords, rfl⟩, ?_, rfl,
    ⟨⟨rfl, rfl, if_pos rfl, by simp, rfl⟩, rfl⟩, (by decide : "V" ≠ "TEMP"), rfl, rfl, ?_, ?_⟩
  · intro q i hi' oi hoi hname
    exfalso
    rw [hi, List.mem_append] at hi'
    rcases hi' with hi' | hi'
    · obtain ⟨oi', e1, -⟩ := h1.registry.inUse i hi'
      have e2 := getElem?_append_old (x := o) e1
      rw [← ho, hoi] at e2
      cases e2
      exact h5 q i hi' _ e1 hname
    · have : i = w.objs.length := by simpa using hi'
      rw [this, ho, getElem?_append_length] at hoi
      cases hoi
      rw [ho'] at hname
      revert hname
      cases q <;> exact (by decide)
  · have : G.g = entry stretched := funext fun i => funext fun j => h6 rfl i j
    rw [hn, this]
    exact stretched_det
  · rw [h3]
    exact onePlus_diff

/-- **C114** is false: with the components `diag(1, 1+x)` for upper indices the sign is the opposite one. -/
theorem C114_false : ∃ (E : Engine (PowerSeries ℚ)) (G : Ground (PowerSeries ℚ)) (V : View (PowerSeries ℚ))
    (w : World (PowerSeries ℚ)) (Dm : TField (PowerSeries ℚ)), EngineOK E ∧ Calculus E ∧ Determinants E ∧ Scene G V w ∧
    AnyMetric G V Dm ∧ NoNames w Dm.name ∧
    ¬ Does (do
      let v ← volumeElement E G.m none
      let r ← calcChristoffel E G.m
      let x ← getComponents E r none none
      return (v, x)) w fun (v, x) _ => ∀ k, k < G.n →
        2 * v * ∑ a ∈ range G.n, x.get [a, a, k] = E.diff (G.syms.getD k "") v := by
  obtain ⟨G, V, w, h1, h2, h3, h4, h5, -, h7⟩ := plainDeclared seriesDiff (syms := ["x", "y"]) (a := stretched)
    (b := unstretched) rfl rfl stretched_symm stretched_inverse (Or.inr rfl) (by simp)
  have hn : G.n = 2 := h2
  refine ⟨plainEngine seriesDiff, G, V, w, _, plainEngine_ok _, seriesDiff_calculus, plainEngine_determinants _, h1, h4, h5, ?_⟩
  have hdet : (toMat G.n G.g).det = oneOver := by
    have e : G.gi = entry stretched := funext fun i => funext fun j => h7 rfl i j
    have e1 := congrArg Matrix.det (inverse_iff.1 h1.inverse).1
    rw [Matrix.det_mul, Matrix.det_one] at e1
    have e2 : (toMat G.n G.gi).det = onePlus := by
      rw [hn, e]
      exact stretched_det
    rw [e2] at e1
    linear_combination oneOver * e1 - (toMat G.n G.g).det * onePlus_inv
  rintro ⟨⟨v, x⟩, w', k1, k2⟩
  obtain ⟨⟨v', x'⟩, w'', k3, k4⟩ := does_volume (P := fun r => r.1 = oneOver ∧ ∀ k, k < G.n →
      2 * r.1 * ∑ a ∈ range G.n, r.2.get [a, a, k] = -seriesDiff (G.syms.getD k "") r.1) (plainEngine_ok _)
    (plainEngine_determinants _) h1 h4 (gives_opposite (plainEngine_ok _).simp_eq seriesDiff_calculus rfl)
    (noNames_for h5) (fun x hs hx => ⟨hdet, fun k hk => by
      have h := christoffel_trace seriesDiff_calculus h1.inverse h1.symm k hk
      have e : ∑ a ∈ range G.n, x.get [a, a, k] = -∑ a ∈ range G.n, christoffel (plainEngine seriesDiff) G a a k := by
        rw [← sum_neg_distrib]
        exact sum_congr rfl fun a ha => hx a a k (by simpa using ha) (by simpa using ha) hk
      change 2 * (toMat G.n G.g).det * _ = seriesDiff _ _ at h
      rw [e]
      linear_combination -h⟩)
  rw [k1] at k3
  cases k3
  have p0 : 0 < G.n := h1.pos
  have p1 := k2 0 p0
  have p2 := k4.2 0 p0
  have p3 : v = oneOver := k4.1
  change _ = seriesDiff _ v at p1
  dsimp only at p2
  rw [p1, p3, h3] at p2
  change seriesDiff "x" oneOver = -seriesDiff "x" oneOver at p2
  have h0 : (2 : PowerSeries ℚ) * seriesDiff "x" oneOver = 0 := by linear_combination p2
  rcases mul_eq_zero.1 h0 with h | h
  · have := congrArg (PowerSeries.constantCoeff (R := ℚ)) h
    rw [map_ofNat, map_zero] at this
    exact absurd this (by norm_num)
  · exact oneOver_diff h

end PyOGRe
