import Verif.Props.NormRate
import Verif.Props.Calc

/-!
# Divergences of vectors with any default indices, and the Laplace operator: C114, C120
-/

namespace PyOGRe
open Spec Finset
variable {K : Type} [CommRing K] [DecidableEq K] [Algebra ℚ K] {E : Engine K} {G : Ground K} {V : View K}
  {w : World K} {Dm D : TField K}

/-- The divergence of a vector, for any connection. -/
theorem any_vector_divergence {Γ : Nat → Nat → Nat → K} (hE : EngineOK E) (hS : Scene G V w) (hm : AnyMetric G V Dm)
    (hΓ : GivesConnection E G Γ Dm) (hN : NamesFor E G Γ V w Dm.name) {letters : List Sym} {d y : CalcObj} {t : Id'} {a : Sym}
    (hd : derivative .covariantD [a] = .ok d) (hy : Denotes G V y t D) (hyn : D.name ≠ "TEMP")
    (hya : y.labels = [a]) (hln : letters.Nodup) {u v : Sym} (hu : u ∈ letters) (hv : v ∈ letters) (huv : u ≠ v)
    (hu' : u ≠ a) (hv' : v ≠ a) :
    Does (calcMatmul E letters d y) w fun z w' => ∃ V' t' D', Scene G V' w' ∧ Denotes G V' z t' D' ∧ z.labels = [] ∧ D'.ix = [] ∧
      D'.val [] = ∑ k ∈ range G.n, (nablaOf E G Γ D).comp G [-1, 1] [k, k] := by
  refine Does.mono (anyDivergence hE hS hΓ hm hN hd hy hyn hln hu hv huv (by simp [hya, hu']) (by simp [hya, hv'])
    (by simp [hya])) ?_
  rintro z w' ⟨V', t', D', h1, -, -, -, h5, h6, h7, h8⟩
  have hz : z.labels = [] := by rw [h6, hya]; simp
  have hD' : D'.ix = [] := by rw [h7, hz]; rfl
  refine ⟨V', t', D', h1, h5, hz, hD', ?_⟩
  have h8 := h8 (fun _ => 1) (fun _ => 0) (fun _ => Or.inl rfl) fun _ => hS.pos
  have e0 : D'.at G z.labels (fun _ => 1) (fun _ => 0) = D'.val [] := by
    unfold TField.at
    rw [hz]
    show D'.comp G [] [] = D'.val []
    rw [← hD', comp_self (by simp) (by rw [hD']; rfl)]
  rw [e0, hya] at h8
  rw [h8]
  simp

/-- The trace of the covariant derivative of a vector, with its upper components. -/
theorem nabla_trace (hC : Calculus E) (hi : Inverse G.n G.g G.gi) (hs : ∀ i j, i < G.n → j < G.n → G.g i j = G.g j i)
    (hD : Config D.ix.length D.ix) (hl : D.ix.length = 1) {k : Nat} (hk : k < G.n) :
    (nabla E G D).comp G [-1, 1] [k, k] =
      G.d E k (D.comp G [1] [k]) + ∑ l ∈ range G.n, christoffel E G k k l * D.comp G [1] [l] := by
  have hpos : Positions fun s => if s = "b" then -1 else 1 := by
    intro s
    dsimp only
    split_ifs <;> simp
  have e := nabla_at (E := E) (labels := ["a"]) (a := "b") (pos := fun s => if s = "b" then -1 else 1) (ρ := fun _ => k) hC hi hs
    hD (by simp) (by simp) (by rw [hl]; rfl) hpos (by simp) fun _ => hk
  have f1 : (nabla E G D).at G ["b", "a"] (fun s => if s = "b" then -1 else 1) (fun _ => k) =
      (nabla E G D).comp G [-1, 1] [k, k] := by
    unfold TField.at
    simp
  rw [← f1, e]
  unfold covariantAt TField.at
  simp

/-- The trace and the determinant. -/
theorem trace_volume (hC : Calculus E) (hi : Inverse G.n G.g G.gi) (hs : ∀ i j, i < G.n → j < G.n → G.g i j = G.g j i)
    (hD : Config D.ix.length D.ix) (hl : D.ix.length = 1) :
    2 * (toMat G.n G.g).det * ∑ k ∈ range G.n, (nablaOf E G (christoffel E G) D).comp G [-1, 1] [k, k] =
      2 * (toMat G.n G.g).det * ∑ k ∈ range G.n, E.diff (G.syms.getD k "") (D.comp G [1] [k]) +
        ∑ k ∈ range G.n, D.comp G [1] [k] * E.diff (G.syms.getD k "") (toMat G.n G.g).det := by
  show _ * ∑ k ∈ range G.n, (nabla E G D).comp G [-1, 1] [k, k] = _
  rw [sum_congr rfl fun k hk => nabla_trace hC hi hs hD hl (k := k) (by simpa using hk), sum_add_distrib, sum_comm, mul_add]
  refine congrArg₂ _ rfl ?_
  rw [mul_sum]
  refine sum_congr rfl fun k hk => ?_
  have := christoffel_trace hC hi hs k (by simpa using hk)
  rw [← sum_mul]
  unfold Ground.d at this
  linear_combination (D.comp G [1] [k]) * this

/-- **C114** (for metrics with the default configuration (-1,-1)) The covariant divergence of a vector with any default index, and the volume
element `v`: `2 v ∇_a V^a = 2 v ∂_a V^a + V^a ∂_a v` with the upper components of `V`. -/
theorem C114_vector_partial (hE : EngineOK E) (hC : Calculus E) (hD : Determinants E) (hS : Scene G V w)
    (hm : LowerMetric G V Dm) (hN : NamesOK E G V w Dm.name) {letters : List Sym} {d y : CalcObj} {t : Id'} {a : Sym}
    (hd : derivative .covariantD [a] = .ok d) (hy : Denotes G V y t D) (hyn : D.name ≠ "TEMP")
    (hya : y.labels = [a]) (hln : letters.Nodup) {u v : Sym} (hu : u ∈ letters) (hv : v ∈ letters) (huv : u ≠ v)
    (hu' : u ≠ a) (hv' : v ≠ a) :
    Does (do
      let v ← volumeElement E G.m none
      let z ← calcMatmul E letters d y
      return (v, z)) w fun (v, z) w' => ∃ V' t' D', Scene G V' w' ∧ Denotes G V' z t' D' ∧ z.labels = [] ∧ D'.ix = [] ∧
        2 * v * D'.val [] = 2 * v * ∑ k ∈ range G.n, E.diff (G.syms.getD k "") (D.comp G [1] [k]) +
          ∑ k ∈ range G.n, D.comp G [1] [k] * E.diff (G.syms.getD k "") v := by
  refine Does.step (scene_volume hE hD hS ⟨hm.view, hm.name, hm.coords⟩) ?_
  refine Does.bind (any_vector_divergence hE hS ⟨hm.view, hm.name, hm.coords⟩ (gives_christoffel hE.simp_eq hm.ix)
    (namesFor_christoffel hN) hd hy hyn hya hln hu hv huv hu' hv') ?_
  rintro z w' ⟨V', t', D', h1, h2, h3, h4, h5⟩
  refine Does.pure ⟨V', t', D', h1, h2, h3, h4, ?_⟩
  rw [h5]
  exact trace_volume hC hS.inverse hS.symm (scene_config hS hy.field) (by rw [← hy.length, hya]; rfl)

/-- `D` is the gradient of the scalar `f`. -/
def Gradient (E : Engine K) (G : Ground K) (D : TField K) (f : K) : Prop :=
  D.ix = [-1] ∧ ∀ i, i < G.n → D.val [i] = E.diff (G.syms.getD i "") f

omit [DecidableEq K] [Algebra ℚ K] in
theorem gradient_comp {f : K} (h : Gradient E G D f) {k : Nat} :
    D.comp G [1] [k] = ∑ l ∈ range G.n, G.gi k l * E.diff (G.syms.getD l "") f := by
  unfold TField.comp
  rw [h.1]
  simp only [List.zipWith_cons_cons, List.zipWith_nil_left, applyFactors_cons, applyFactors_nil]
  refine sum_congr rfl fun l hl => ?_
  rw [h.2 l (by simpa using hl)]
  simp [indexFactor]

omit [DecidableEq K] in
theorem gradient_nabla {Γ : Nat → Nat → Nat → K} {f : K} (h : Gradient E G D f) {k : Nat} (hk : k < G.n) :
    (nablaOf E G Γ D).comp G [-1, 1] [k, k] = ∑ l ∈ range G.n, G.gi k l *
      (E.diff (G.syms.getD k "") (E.diff (G.syms.getD l "") f) - ∑ m ∈ range G.n, Γ m k l * E.diff (G.syms.getD m "") f) := by
  have e : ∀ l, l < G.n → covariantOf E G Γ [-1] D.val k [l] =
      E.diff (G.syms.getD k "") (E.diff (G.syms.getD l "") f) - ∑ m ∈ range G.n, Γ m k l * E.diff (G.syms.getD m "") f := by
    intro l hl
    unfold covariantOf
    have : ∑ m ∈ range G.n, Γ m k l * D.val [m] = ∑ m ∈ range G.n, Γ m k l * E.diff (G.syms.getD m "") f :=
      sum_congr rfl fun m hm => by rw [h.2 m (by simpa using hm)]
    simp [Ground.d, h.2 l hl, this, sub_eq_add_neg]
  unfold TField.comp nablaOf
  rw [h.1]
  simp only [List.zipWith_cons_cons, List.zipWith_nil_left, applyFactors_cons, applyFactors_nil]
  rw [sum_eq_single k (fun b _ hb => by simp [indexFactor, delta, hb.symm]) fun h => absurd (mem_range.2 hk) h]
  have e1 : indexFactor G.g G.gi (-1) (-1) k k = 1 := by simp [indexFactor, delta]
  rw [e1, one_mul]
  refine sum_congr rfl fun l hl => ?_
  rw [show indexFactor G.g G.gi (-1) 1 k l = G.gi k l by simp [indexFactor]]
  exact congrArg _ (e l (by simpa using hl))

/-- The session for the Laplace operator, for any connection. -/
theorem any_laplace {Γ : Nat → Nat → Nat → K} (hE : EngineOK E) (hD : Determinants E) (hS : Scene G V w)
    (hm : AnyMetric G V Dm) (hΓ : GivesConnection E G Γ Dm) (hN : NamesFor E G Γ V w Dm.name) {letters : List Sym} {t : Id'}
    (ht : V t = some D) (htc : D.coords = G.c) (hix : D.ix = []) {name symbol : String} (hname : name ≠ "TEMP")
    (hnew : ∀ q : Quantity, name ≠ Dm.name ++ q.suffix) {a b : Sym} (hln : letters.Nodup) {u v : Sym} (hu : u ∈ letters)
    (hv : v ∈ letters) (huv : u ≠ v) (hu' : u ≠ a) (hv' : v ≠ a) :
    Does (do
      let v ← volumeElement E G.m none
      let x ← calcInit E t []
      let p ← PyM.lift (derivative .partialD [b])
      let x ← calcMatmul E letters p x
      let r ← calcResult E x name symbol []
      let y ← calcInit E r [a]
      let d ← PyM.lift (derivative .covariantD [a])
      let z ← calcMatmul E letters d y
      return (v, z)) w fun (v, z) w' => v = (toMat G.n G.g).det ∧ ∃ V' t' D', Scene G V' w' ∧ Denotes G V' z t' D' ∧
        z.labels = [] ∧ D'.ix = [] ∧ ∃ D4, Gradient E G D4 (D.val []) ∧
        D'.val [] = ∑ k ∈ range G.n, (nablaOf E G Γ D4).comp G [-1, 1] [k, k] := by
  refine Does.step (scene_volume hE hD hS hm) ?_
  refine Does.bind (evaluates_init hE.simp_eq hS ht htc (labels := []) (by simp) (by rw [hix]; rfl)) ?_
  rintro x w1 ⟨V1, t1, D1, hS1, hV1, hT1, hx1, hl1, hD1⟩
  subst hD1
  refine Does.lift (a := ⟨.partialD, none, [b]⟩) rfl ?_
  refine Does.bind (C29_gradient hE hS1 letters rfl hx1 (by rw [hl1]; simp)) ?_
  rintro x2 w2 ⟨V2, t2, D2, hS2, hV2, hT2, hx2, hl2, hix2, hval2⟩
  rw [hl1] at hl2 hval2
  rw [hix] at hix2
  refine Does.bind (C28_same_order hE hS2 hx2 hname) ?_
  rintro r w3 ⟨V3, D3, hS3, hK3, hL3, hr3, hv3, hc3, hn3, hix3, hat3⟩
  rw [hix2] at hix3
  refine Does.bind (evaluates_init hE.simp_eq hS3 hv3 hc3 (labels := [a]) (by simp) (by rw [hix3]; rfl)) ?_
  rintro y w4 ⟨V4, t4, D4, hS4, hV4, hT4, hy4, hl4, hD4⟩
  subst hD4
  refine Does.lift (a := ⟨.covariantD, none, [a]⟩) rfl ?_
  have hK1 : V.Keeps V1 := keeps_extends hV1
  have hN1 : NamesFor E G Γ V1 w1 Dm.name := namesFor_leaves hS hN hK1
    (leaves_onlyTemps (new := fun _ => False) hS.registry hT1) fun _ _ _ h => h.elim
  have hN2 : NamesFor E G Γ V2 w2 Dm.name := namesFor_leaves hS1 hN1 (keeps_extends hV2)
    (leaves_onlyTemps (new := fun _ => False) hS1.registry hT2) fun _ _ _ h => h.elim
  have hN3 : NamesFor E G Γ V3 w3 Dm.name := by
    refine namesFor_leaves hS2 hN2 hK3 hL3 ?_
    rintro i - - rfl o ho q hq
    rw [scene_object_name hS3 hv3 ho, hn3] at hq
    exact absurd hq (hnew q)
  have hN4 : NamesFor E G Γ V4 w4 Dm.name := namesFor_leaves hS3 hN3 (keeps_extends hV4)
    (leaves_onlyTemps (new := fun _ => False) hS3.registry hT4) fun _ _ _ h => h.elim
  have hK : V.Keeps V4 := keeps_trans hK1 (keeps_trans (keeps_extends hV2) (keeps_trans hK3 (keeps_extends hV4)))
  refine Does.bind (any_vector_divergence hE hS4 (anyMetric_keeps hm hK) hΓ hN4 rfl hy4
    (by rw [hn3]; exact hname) hl4 hln hu hv huv hu' hv') ?_
  rintro z w5 ⟨V5, t5, D5, hS5, hz5, hl5, hix5, hval5⟩
  refine Does.pure ⟨rfl, V5, t5, D5, hS5, hz5, hl5, hix5, D4, ⟨hix3, ?_⟩, hval5⟩
  intro i hi
  have f1 := hat3 (fun _ => -1) (fun _ => i) (fun _ => Or.inr rfl) fun _ => hi
  have f2 := hval2 (fun _ => i) fun _ => hi
  rw [hl2] at f1 f2
  unfold TField.at at f1
  unfold TField.value at f2
  have g4 := comp_self (G := G) (D := D4) (J := [i]) (by simp [hi]) (by rw [hix3]; rfl)
  have g2 := comp_self (G := G) (D := D2) (J := [i]) (by simp [hi]) (by rw [hix2]; rfl)
  rw [hix3] at g4
  rw [hix2] at g2
  rw [← g4]
  refine f1.trans (g2.trans ?_)
  simpa using f2

/-- **C120** (for metrics with the default configuration (-1,-1)) The Laplace operator: with the volume element `v`, the divergence of the
gradient of a scalar `f` is `g^{kl} (∂_k ∂_l f - Γ^m_{kl} ∂_m f)`, and satisfies
`2 v ∇_a ∇^a f = 2 v ∂_k (g^{kl} ∂_l f) + g^{kl} ∂_l f ∂_k v`. -/
theorem C120_laplace_partial (hE : EngineOK E) (hC : Calculus E) (hD : Determinants E) (hS : Scene G V w)
    (hm : LowerMetric G V Dm) (hN : NamesOK E G V w Dm.name) {letters : List Sym} {t : Id'} (ht : V t = some D)
    (htc : D.coords = G.c) (hix : D.ix = []) {name symbol : String} (hname : name ≠ "TEMP")
    (hnew : ∀ q : Quantity, name ≠ Dm.name ++ q.suffix) {a b : Sym} (hln : letters.Nodup) {u v : Sym} (hu : u ∈ letters)
    (hv : v ∈ letters) (huv : u ≠ v) (hu' : u ≠ a) (hv' : v ≠ a) :
    Does (do
      let v ← volumeElement E G.m none
      let x ← calcInit E t []
      let p ← PyM.lift (derivative .partialD [b])
      let x ← calcMatmul E letters p x
      let r ← calcResult E x name symbol []
      let y ← calcInit E r [a]
      let d ← PyM.lift (derivative .covariantD [a])
      let z ← calcMatmul E letters d y
      return (v, z)) w fun (v, z) w' => ∃ V' t' D', Scene G V' w' ∧ Denotes G V' z t' D' ∧ z.labels = [] ∧ D'.ix = [] ∧
        D'.val [] = ∑ k ∈ range G.n, ∑ l ∈ range G.n, G.gi k l * (E.diff (G.syms.getD k "") (E.diff (G.syms.getD l "") (D.val [])) -
          ∑ m ∈ range G.n, christoffel E G m k l * E.diff (G.syms.getD m "") (D.val [])) ∧
        2 * v * D'.val [] = 2 * v * ∑ k ∈ range G.n, E.diff (G.syms.getD k "")
            (∑ l ∈ range G.n, G.gi k l * E.diff (G.syms.getD l "") (D.val [])) +
          ∑ k ∈ range G.n, (∑ l ∈ range G.n, G.gi k l * E.diff (G.syms.getD l "") (D.val [])) * E.diff (G.syms.getD k "") v := by
  refine Does.mono (any_laplace hE hD hS ⟨hm.view, hm.name, hm.coords⟩ (gives_christoffel hE.simp_eq hm.ix)
    (namesFor_christoffel hN) ht htc hix hname hnew hln hu hv huv hu' hv') ?_
  rintro ⟨x, z⟩ w' ⟨rfl, V', t', D', h1, h2, h3, h4, D4, h5, h6⟩
  refine ⟨V', t', D', h1, h2, h3, h4, ?_, ?_⟩
  · rw [h6]
    exact sum_congr rfl fun k hk => gradient_nabla h5 (by simpa using hk)
  · rw [h6, trace_volume hC hS.inverse hS.symm (by rw [h5.1]; exact ⟨rfl, by simp⟩) (by rw [h5.1]; rfl)]
    simp only [gradient_comp h5]

/-- The scalar 1+x. -/
noncomputable def rising : Arr (PowerSeries ℚ) := ⟨[], [onePlus]⟩

/-- A session with the metric `diag(1, 1+x)`, for lower or for upper indices, and the scalar `1+x`. -/
theorem rising_session {ix : List Int} (hix : ix = [-1, -1] ∨ ix = [1, 1]) : ∃ (G : Ground (PowerSeries ℚ)) (V : View (PowerSeries ℚ))
    (w : World (PowerSeries ℚ)) (t : Id'), Scene G V w ∧ G.n = 2 ∧ G.syms = ["x", "y"] ∧
    AnyMetric G V ⟨"Given", 0, ix, stretched.get⟩ ∧ NoNames w "Given" ∧ V t = some ⟨"F", G.c, [], rising.get⟩ ∧
    (ix = [-1, -1] → ∀ i j, G.g i j = entry stretched i j) ∧ (ix = [1, 1] → ∀ i j, G.gi i j = entry stretched i j) := by
  obtain ⟨G, V, w, h1, h2, h3, h4, h5, h6, h7, h8⟩ := plainDeclared_names seriesDiff (syms := ["x", "y"]) (a := stretched)
    (b := unstretched) rfl rfl stretched_symm stretched_inverse hix (by simp)
  have hn : G.n = 2 := h2
  obtain ⟨o, w', -, hS', hi, ho, ho', -, -, hx⟩ := scene_new h1 (kind := .tensor) (Or.inl rfl) "F" "f" (a := rising) (ix := [])
    (f := rising.get) ⟨rfl, rfl, fun _ _ _ => rfl⟩ ⟨rfl, by simp⟩
  have N := names_new hi ho h1.registry (P := fun s => s ∈ ["Chart", "Given", "F"])
    (fun i hi o ho => by rcases h8 i hi o ho with h | h <;> simp [h]) (by simp [ho'])
  refine ⟨G, _, w', w.objs.length, hS', hn, h3, ⟨hx _ _ h4.view, h4.name, h4.coords⟩, ?_, if_pos rfl, h6, h7⟩
  intro q i hi' oi hoi hname
  have := N i hi' oi hoi
  rw [hname] at this
  revert this
  cases q <;> exact (by decide)

/-- C120: a metric and a scalar that are not constant. -/
example : ∃ (E : Engine (PowerSeries ℚ)) (G : Ground (PowerSeries ℚ)) (V : View (PowerSeries ℚ)) (w : World (PowerSeries ℚ))
    (Dm D : TField (PowerSeries ℚ)) (t : Id'), EngineOK E ∧ Calculus E ∧ Determinants E ∧ Scene G V w ∧
    LowerMetric G V Dm ∧ NamesOK E G V w Dm.name ∧ V t = some D ∧ D.coords = G.c ∧ D.ix = [] ∧ "W" ≠ "TEMP" ∧
    (∀ q : Quantity, "W" ≠ Dm.name ++ q.suffix) ∧ E.diff (G.syms.getD 0 "") (D.val []) = 1 ∧ (toMat G.n G.g).det = onePlus := by
  obtain ⟨G, V, w, t, h1, h2, h3, h4, h5, h6, h7, -⟩ := rising_session (Or.inl rfl)
  refine ⟨plainEngine seriesDiff, G, V, w, _, _, t, plainEngine_ok _, seriesDiff_calculus, plainEngine_determinants _, h1,
    ⟨h4.view, h4.name, h4.coords, rfl⟩, fun q i hi o ho hn => absurd hn (h5 q i hi o ho), h6, rfl, rfl, by decide, ?_, ?_, ?_⟩
  · intro q
    cases q <;> exact (by decide)
  · rw [h3]
    exact onePlus_diff
  · have : G.g = entry stretched := funext fun i => funext fun j => h7 rfl i j
    rw [h2, this]
    exact stretched_det

/-- **C120** is false: with the components `diag(1, 1+x)` of the metric for upper indices, the divergence of the gradient of `1+x` has
the wrong sign. -/
theorem C120_false : ∃ (E : Engine (PowerSeries ℚ)) (G : Ground (PowerSeries ℚ)) (V : View (PowerSeries ℚ))
    (w : World (PowerSeries ℚ)) (Dm D : TField (PowerSeries ℚ)) (t : Id'), EngineOK E ∧ Calculus E ∧ Determinants E ∧ Scene G V w ∧
    AnyMetric G V Dm ∧ NoNames w Dm.name ∧ V t = some D ∧ D.coords = G.c ∧ D.ix = [] ∧
    Does (do
      let v ← volumeElement E G.m none
      let x ← calcInit E t []
      let p ← PyM.lift (derivative .partialD ["b"])
      let x ← calcMatmul E ["u", "v"] p x
      let r ← calcResult E x "W" "w" []
      let y ← calcInit E r ["a"]
      let d ← PyM.lift (derivative .covariantD ["a"])
      let z ← calcMatmul E ["u", "v"] d y
      return (v, z)) w fun (v, z) w' => ∃ V' t' D', Scene G V' w' ∧ Denotes G V' z t' D' ∧ z.labels = [] ∧ D'.ix = [] ∧
        2 * v * ∑ k ∈ range G.n, E.diff (G.syms.getD k "")
            (∑ l ∈ range G.n, G.gi k l * E.diff (G.syms.getD l "") (D.val [])) +
          ∑ k ∈ range G.n, (∑ l ∈ range G.n, G.gi k l * E.diff (G.syms.getD l "") (D.val [])) * E.diff (G.syms.getD k "") v ≠ 0 ∧
        2 * v * D'.val [] = -(2 * v * ∑ k ∈ range G.n, E.diff (G.syms.getD k "")
            (∑ l ∈ range G.n, G.gi k l * E.diff (G.syms.getD l "") (D.val [])) +
          ∑ k ∈ range G.n, (∑ l ∈ range G.n, G.gi k l * E.diff (G.syms.getD l "") (D.val [])) * E.diff (G.syms.getD k "") v) := by
  obtain ⟨G, V, w, t, h1, h2, h3, h4, h5, h6, -, h7⟩ := rising_session (Or.inr rfl)
  refine ⟨plainEngine seriesDiff, G, V, w, _, _, t, plainEngine_ok _, seriesDiff_calculus, plainEngine_determinants _, h1, h4, h5, h6,
    rfl, rfl, ?_⟩
  refine Does.mono (any_laplace (plainEngine_ok _) (plainEngine_determinants _) h1 h4
    (gives_opposite (plainEngine_ok _).simp_eq seriesDiff_calculus rfl) (noNames_for h5) h6 rfl rfl (by decide : "W" ≠ "TEMP")
    (fun q => by cases q <;> exact (by decide)) (u := "u") (v := "v") (by simp) (by simp) (by simp) (by decide) (by decide) (by decide)) ?_
  rintro ⟨x, z⟩ w' ⟨rfl, V', t', D', k1, k2, k3, k4, D4, k5, k6⟩
  have hdet : (toMat G.n G.g).det = oneOver := by
    have e : G.gi = entry stretched := funext fun i => funext fun j => h7 rfl i j
    have e1 := congrArg Matrix.det (inverse_iff.1 h1.inverse).1
    rw [Matrix.det_mul, Matrix.det_one] at e1
    have e2 : (toMat G.n G.gi).det = onePlus := by
      rw [h2, e]
      exact stretched_det
    rw [e2] at e1
    linear_combination oneOver * e1 - (toMat G.n G.g).det * onePlus_inv
  have hT := trace_volume seriesDiff_calculus h1.inverse h1.symm (D := D4) (by rw [k5.1]; exact ⟨rfl, by simp⟩) (by rw [k5.1]; rfl)
  simp only [gradient_comp k5] at hT
  have d0 : seriesDiff "x" onePlus = 1 := onePlus_diff
  have d1 : seriesDiff "y" onePlus = 0 := if_neg (by decide)
  have dd : ∀ s, seriesDiff s (1 : PowerSeries ℚ) = 0 := by
    intro s
    unfold seriesDiff
    rw [show (1 : PowerSeries ℚ) = PowerSeries.C 1 from rfl, PowerSeries.derivative_C]
    simp
  have dz : ∀ s, seriesDiff s (0 : PowerSeries ℚ) = 0 := by
    intro s
    unfold seriesDiff
    simp
  have hf : ∀ l, l < G.n → seriesDiff (G.syms.getD l "") onePlus = 0 ∨ seriesDiff (G.syms.getD l "") onePlus = 1 := by
    rw [h2, h3]
    intro l hl
    interval_cases l
    · exact Or.inr d0
    · exact Or.inl d1
  have hsum : ∑ k ∈ range G.n, (nablaOf (plainEngine seriesDiff) G (minusGamma (plainEngine seriesDiff) G) D4).comp G [-1, 1] [k, k] =
      -∑ k ∈ range G.n, (nablaOf (plainEngine seriesDiff) G (christoffel (plainEngine seriesDiff) G) D4).comp G [-1, 1] [k, k] := by
    rw [← sum_neg_distrib]
    refine sum_congr rfl fun k hk => ?_
    have hk : k < G.n := by simpa using hk
    rw [gradient_nabla k5 hk, gradient_nabla k5 hk, ← sum_neg_distrib]
    refine sum_congr rfl fun l hl => ?_
    have e : (plainEngine seriesDiff).diff (G.syms.getD k "") ((plainEngine seriesDiff).diff (G.syms.getD l "") (rising.get [])) = 0 := by
      show seriesDiff _ (seriesDiff _ onePlus) = 0
      rcases hf l (by simpa using hl) with h | h <;> rw [h]
      · exact dz _
      · exact dd _
    show G.gi k l * (_ - _) = -(G.gi k l * (_ - _))
    dsimp only at *
    rw [e]
    unfold minusGamma
    simp only [neg_mul, sum_neg_distrib]
    ring
  refine ⟨V', t', D', k1, k2, k3, k4, ?_, ?_⟩
  · dsimp only
    rw [hdet]
    have e : ∀ k, k < 2 → ∑ l ∈ range G.n, G.gi k l * (plainEngine seriesDiff).diff (G.syms.getD l "") (rising.get []) =
        if k = 0 then 1 else 0 := by
      intro k hk
      rw [h2, h3]
      show ∑ l ∈ range 2, G.gi k l * seriesDiff (["x", "y"].getD l "") onePlus = _
      rw [sum_range_succ, sum_range_succ, sum_range_zero, h7 rfl, h7 rfl]
      show 0 + entry stretched k 0 * seriesDiff "x" onePlus + entry stretched k 1 * seriesDiff "y" onePlus = _
      rw [d0, d1]
      interval_cases k
      · show 0 + 1 * 1 + 0 * 0 = (1 : PowerSeries ℚ)
        ring
      · show 0 + 0 * 1 + onePlus * 0 = (0 : PowerSeries ℚ)
        ring
    have e0 := e 0 (by simp)
    have e1 := e 1 (by simp)
    simp only [h2, sum_range_succ _ 1, sum_range_one] at e0 e1 ⊢
    rw [e0, e1, h3]
    intro h
    refine oneOver_diff ?_
    rw [if_pos trivial, if_neg (by decide)] at h
    have a0 : (plainEngine seriesDiff).diff (["x", "y"].getD 0 "") 1 = 0 := dd "x"
    have a1 : (plainEngine seriesDiff).diff (["x", "y"].getD 1 "") 0 = 0 := dz "y"
    rw [a0, a1] at h
    have a2 : (plainEngine seriesDiff).diff (["x", "y"].getD 0 "") oneOver = seriesDiff "x" oneOver := rfl
    rw [a2] at h
    simpa using h
  · dsimp only
    rw [k6, hsum, mul_neg, hT]

end PyOGRe
