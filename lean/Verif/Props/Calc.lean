import Verif.Spec.Plane
import Verif.Lemmas.Trace
import Verif.Model.Covariant
import Verif.Props.Utils

/-!
# Tensor formulae: C21-C30, C66, C68

The session is in some state `w` in which the metric of the formula and the tensors `V` are what they should
be (`Scene`), all in one coordinate system.  Such states are reached by declaring a metric and tensors
(`C21_scene_metric`, `C21_scene_tensor`), and every theorem says that the state after evaluating the formula is such
a state again.  The tensors denoted by formulae are compared at every assignment of positions and values to
the labels.
-/

namespace PyOGRe
open Spec Finset
variable {K : Type} [CommRing K] {E : Engine K} {G : Ground K} {V : View K} {w w' : World K}

/-! ## Reaching a scene -/

/-- Declaring a metric in a session whose registry is in order sets the scene. -/
theorem C21_scene_metric [DecidableEq K] (hE : EngineOK E) (hR : RegistryOK w) {name symbol : String} {a : Arr K} {m c : Id'}
    {ix : List Int} (ha : a.WF) (hname : name ≠ "TEMP") {oc : Obj K} (hoc : w.objs[c]? = some oc)
    (hal : oc.alive = true) (hne : oc.syms ≠ [])
    (h : newMetric E (.val name) (.val a) c (.tuple ix) (.val symbol) w = (.ok m, w')) :
    ∃ G V, Scene G V w' ∧ G.c = c ∧ G.m = m ∧ G.syms = oc.syms ∧ V m = some ⟨name, c, ix, a.get⟩ := by
  obtain ⟨b, -, hS⟩ := scene_start hE hR ha hname hoc hal hne h
  exact ⟨_, _, hS, rfl, rfl, rfl, by simp⟩

/-- Declaring a tensor of this metric in these coordinates adds it to the scene. -/
theorem C21_scene_tensor (hS : Scene G V w) (name symbol : String) {a : Arr K} {ix : List Int} (ha : a.WF)
    (hs : a.shape = List.replicate ix.length G.n) (hix : Config ix.length ix) :
    Does (newTensor .tensor (.val name) (.val a) G.m G.c (.tuple ix) (.val symbol)) w fun t w' =>
      ∃ V', Scene G V' w' ∧ V.Extends V' ∧ V' t = some ⟨name, G.c, ix, a.get⟩ := by
  obtain ⟨o, w', h1, h2, -, -, -, -, -, h3⟩ := scene_new hS (kind := .tensor) (Or.inl rfl) name symbol
    (a := a) (f := a.get) ⟨ha, hs, fun _ _ _ => rfl⟩ hix
  exact ⟨_, w', h1, _, h2, h3, by simp [View.add]⟩

/-! ## C21: addition -/

/-- **C21** The sum of two labelled tensors with the same labels in any order, and with any configurations. -/
theorem C21_addition [DecidableEq K] (hE : EngineOK E) (hS : Scene G V w) {x y : CalcObj} {t u : Id'} {A B : TField K}
    (hx : Denotes G V x t A) (hy : Denotes G V y u B) (hp : y.labels.Perm x.labels) :
    Evaluates G V w (calcAdd E x (.obj y)) fun l D => l = x.labels ∧ D.ix = A.ix ∧ ∀ pos ρ, Positions pos →
      Values G.n ρ → D.at G l pos ρ = A.at G x.labels pos ρ + B.at G y.labels pos ρ :=
  evaluates_add hE.simp_eq hS hx hy.toNames hp

/-- **C21** Different label sets are refused. -/
theorem C21_refuses_labels [DecidableEq K] (hS : Scene G V w) {x y : CalcObj} {t u : Id'} {A B : TField K}
    (hx : Names V x t A) (hy : Names V y u B) (hp : ¬ y.labels.Perm x.labels) :
    Fails (calcAdd E x (.obj y)) w .valueError := by
  show Fails (calcAddObj E x y) w .valueError
  unfold calcAddObj
  rw [if_neg (by rw [hx.role, hy.role]; simp)]
  refine Fails.step (metricAttr_ok hS hx) (Fails.step (metricAttr_ok hS hy) ?_)
  rw [if_neg (by simp)]
  obtain ⟨ox, tx, -, hox⟩ := tensorOf_ok hS hx
  obtain ⟨oy, ty, -, hoy⟩ := tensorOf_ok hS hy
  refine Fails.step tx (Fails.step ty ?_)
  dsimp only
  rw [hox.indices, hoy.indices]
  by_cases hl : A.ix.length = B.ix.length
  · rw [if_neg (by simpa using hl), if_pos]
    · exact ⟨w, rfl⟩
    · have h1 := hx.length
      have h2 := hy.length
      have hne : y.labels ≠ [] ∧ x.labels ≠ [] := by
        constructor <;> intro h
        · apply hp
          rw [h] at h2 ⊢
          rw [List.length_nil, ← hl, ← h1] at h2
          rw [List.eq_nil_of_length_eq_zero h2.symm]
        · apply hp
          rw [h] at h1 ⊢
          rw [List.length_nil, hl, ← h2] at h1
          rw [List.eq_nil_of_length_eq_zero h1.symm]
      refine ⟨hne.1, hne.2, ?_⟩
      rw [← Bool.not_eq_true, List.isPerm_iff]
      exact hp
  · rw [if_pos (by simpa using hl)]
    exact ⟨w, rfl⟩

/-- **C21** So are different ranks. -/
theorem C21_refuses_ranks [DecidableEq K] (hS : Scene G V w) {x y : CalcObj} {t u : Id'} {A B : TField K}
    (hx : Names V x t A) (hy : Names V y u B) (hr : A.ix.length ≠ B.ix.length) :
    Fails (calcAdd E x (.obj y)) w .valueError :=
  C21_refuses_labels hS hx hy fun h => hr (by rw [← hx.length, ← hy.length]; exact h.length_eq.symm)

/-- **C21** And different metrics. -/
theorem C21_refuses_metrics [DecidableEq K] {x y : CalcObj} {t u : Id'} {ot ou : Obj K}
    (hx : x.tensor = some t) (hy : y.tensor = some u) (ht : w.objs[t]? = some ot) (hu : w.objs[u]? = some ou)
    (hat : ot.alive = true) (hau : ou.alive = true) (hm : ot.metric ≠ ou.metric) :
    Fails (calcAdd E x (.obj y)) w .valueError := by
  show Fails (calcAddObj E x y) w .valueError
  unfold calcAddObj
  by_cases hr : x.role ≠ .tensor ∨ y.role ≠ .tensor
  · rw [if_pos hr]
    exact ⟨w, rfl⟩
  · rw [if_neg hr]
    have h1 : metricAttr x w = (.ok (some ot.metric), w) := by unfold metricAttr; simp [hx, ht, hat]
    have h2 : metricAttr y w = (.ok (some ou.metric), w) := by unfold metricAttr; simp [hy, hu, hau]
    refine Fails.step h1 (Fails.step h2 ?_)
    rw [if_pos (by simpa using hm)]
    exact ⟨w, rfl⟩

/-- **C21** A derivative cannot be added. -/
theorem C21_refuses_derivatives [DecidableEq K] {x y : CalcObj} (h : x.role ≠ .tensor ∨ y.role ≠ .tensor) :
    Fails (calcAdd E x (.obj y)) w .valueError := by
  show Fails (calcAddObj E x y) w .valueError
  unfold calcAddObj
  rw [if_pos h]
  exact ⟨w, rfl⟩

/-- C21: the tensor `T` of the plane labelled with `a b` and with `b a`. -/
theorem Spec.plane_labels : ∃ (G : Ground Poly) (V : View Poly) (w : World Poly) (A B : TField Poly), Scene G V w ∧
    Denotes G V ⟨.tensor, some 3, ["a"]⟩ 3 A ∧ Denotes G V ⟨.tensor, some 4, ["a", "b"]⟩ 4 B ∧
    Denotes G V ⟨.tensor, some 4, ["b", "a"]⟩ 4 B ∧ A.val [0] = MvPolynomial.X "x" * MvPolynomial.X "y" ∧
    B.ix = [1, -1] ∧ B.val [0, 1] = MvPolynomial.X "y" ^ 2 ∧ A.ix = [1] ∧ A.val [1] = 3 ∧ G.n = 2 ∧
    G.syms = ["x", "y"] := by
  obtain ⟨G, V, w, hS, h1, h2, h3, h4, h5, h6, h7, h8⟩ := plane
  exact ⟨G, V, w, _, _, hS, ⟨⟨rfl, rfl, h7, by simp, rfl⟩, h2.symm⟩, ⟨⟨rfl, rfl, h8, by simp, rfl⟩, h2.symm⟩,
    ⟨⟨rfl, rfl, h8, by simp, rfl⟩, h2.symm⟩, rfl, rfl, rfl, rfl, rfl, h1, h4⟩

example : ∃ (G : Ground Poly) (V : View Poly) (w : World Poly) (x y : CalcObj) (A B : TField Poly), Scene G V w ∧
    Denotes G V x 4 A ∧ Denotes G V y 4 B ∧ y.labels.Perm x.labels ∧ y.labels ≠ x.labels := by
  obtain ⟨G, V, w, A, B, hS, h1, h2, h3, -⟩ := plane_labels
  exact ⟨G, V, w, _, _, B, B, hS, h2, h3, by decide, by decide⟩

/-- C21: `T(a b)` and `V(a)` have different labels and ranks. -/
example : ∃ (G : Ground Poly) (V : View Poly) (w : World Poly) (x y : CalcObj) (A B : TField Poly), Scene G V w ∧
    Names V x 3 A ∧ Names V y 4 B ∧ ¬ y.labels.Perm x.labels ∧ A.ix.length ≠ B.ix.length := by
  obtain ⟨G, V, w, A, B, hS, h1, h2, h3, -, h4, -, h5, -⟩ := plane_labels
  exact ⟨G, V, w, _, _, A, B, hS, h1.toNames, h2.toNames, by decide, by rw [h4, h5]; decide⟩

/-! ## C22, C23: negation, subtraction and scaling -/

/-- **C22** `-A`. -/
theorem C22_negation_partial (hE : EngineOK E) (hS : Scene G V w) {x : CalcObj} {t : Id'} {A : TField K} (hx : Denotes G V x t A) :
    Evaluates G V w (calcNeg E x) fun l D => l = x.labels ∧ D.ix = A.ix ∧ ∀ pos ρ, Positions pos →
      Values G.n ρ → D.at G l pos ρ = -A.at G x.labels pos ρ := evaluates_neg hE.simp_eq hS hx

/-- **C22** `A - B`. -/
theorem C22_subtraction [DecidableEq K] (hE : EngineOK E) (hS : Scene G V w) {x y : CalcObj} {t u : Id'}
    {A B : TField K} (hx : Denotes G V x t A) (hy : Denotes G V y u B) (hp : y.labels.Perm x.labels) :
    Evaluates G V w (calcSub E x (.obj y)) fun l D => l = x.labels ∧ D.ix = A.ix ∧ ∀ pos ρ, Positions pos →
      Values G.n ρ → D.at G l pos ρ = A.at G x.labels pos ρ - B.at G y.labels pos ρ :=
  evaluates_sub hE.simp_eq hS hx hy hp

/-- **C22** `v * A` and `A * v` for an expression `v`. -/
theorem C22_scaling (hE : EngineOK E) (hS : Scene G V w) {x : CalcObj} {t : Id'} {A : TField K} (hx : Denotes G V x t A)
    (v : K) :
    Evaluates G V w (calcMul E x (.num v)) fun l D => l = x.labels ∧ D.ix = A.ix ∧ ∀ pos ρ, Positions pos →
      Values G.n ρ → D.at G l pos ρ = v * A.at G x.labels pos ρ := evaluates_mulNum hE.simp_eq hS hx v

/-- **C22** `A / v`: `v` times the result is `A`. -/
theorem C22_division_partial (hE : EngineOK E) (hS : Scene G V w) {x : CalcObj} {t : Id'} {A : TField K} (hx : Denotes G V x t A)
    {v u : K} (hv : v * u = 1) :
    Evaluates G V w (calcDiv E x u) fun l D => l = x.labels ∧ D.ix = A.ix ∧ ∀ pos ρ, Positions pos →
      Values G.n ρ → v * D.at G l pos ρ = A.at G x.labels pos ρ := by
  refine evaluates_step (requireArray_ok hS hx.toNames) ?_
  refine evaluates_mono (evaluates_mulNum hE.simp_eq hS hx u) ?_
  rintro l D ⟨h1, h2, h3⟩
  refine ⟨h1, h2, fun pos ρ hp hρ => ?_⟩
  rw [h3 pos ρ hp hρ, ← mul_assoc, hv, one_mul]

/-- **C22** `A * B` where one of them is a scalar. -/
theorem C22_scalar_product (hE : EngineOK E) (hS : Scene G V w) {x y : CalcObj} {t u : Id'} {A B : TField K}
    (hx : Denotes G V x t A) (hy : Denotes G V y u B) (h0 : A.ix = [] ∨ B.ix = []) :
    Evaluates G V w (calcMul E x (.obj y)) fun l D => l = x.labels ++ y.labels ∧ D.ix = A.ix ++ B.ix ∧
      ∀ pos ρ, Positions pos → Values G.n ρ →
        D.at G l pos ρ = A.at G x.labels pos ρ * B.at G y.labels pos ρ := evaluates_mulScalar hE.simp_eq hS hx hy h0

/-- **C22** The product of two tensors that are no scalars is refused. -/
theorem C22_product_refused (hS : Scene G V w) {x y : CalcObj} {t u : Id'} {A B : TField K}
    (hx : Names V x t A) (hy : Names V y u B) (hA : A.ix ≠ []) (hB : B.ix ≠ []) :
    Fails (calcMul E x (.obj y)) w .valueError := by
  unfold calcMul
  dsimp only
  rw [if_neg (by rw [hx.role]; simp)]
  obtain ⟨ox, tx, -, hox⟩ := tensorOf_ok hS hx
  obtain ⟨oy, ty, -, hoy⟩ := tensorOf_ok hS hy
  refine Fails.step ty (Fails.step tx ?_)
  dsimp only
  rw [hox.indices, hoy.indices, if_pos ⟨List.length_pos_iff.2 hB, List.length_pos_iff.2 hA⟩]
  exact ⟨w, rfl⟩

/-- **C23** is false of the code: `v - A` is never refused, and it is `-A` whatever the number `v` is. -/
theorem C23_false (hE : EngineOK E) (hS : Scene G V w) {x : CalcObj} {t : Id'} {A : TField K} (hx : Denotes G V x t A)
    (v : K) :
    Evaluates G V w (calcRsub E x (.num v)) fun l D => l = x.labels ∧ D.ix = A.ix ∧ ∀ pos ρ, Positions pos →
      Values G.n ρ → D.at G l pos ρ = -A.at G x.labels pos ρ := evaluates_neg hE.simp_eq hS hx

/-- **C23**, what is true: `A - v` and `A + v` are refused unless `v` is 0.  Missing: `C23_false`. -/
theorem C23_numbers_refused_partial [DecidableEq K] (x : CalcObj) {v : K} (hv : v ≠ 0) :
    Fails (calcSub E x (.num v)) w .typeError ∧ Fails (calcAdd E x (.num v)) w .typeError ∧
      calcSub E x (.num 0) w = (.ok x, w) ∧ calcAdd E x (.num 0) w = (.ok x, w) := by
  unfold calcSub calcAdd
  dsimp only
  rw [if_neg hv, if_pos rfl]
  exact ⟨⟨w, rfl⟩, ⟨w, rfl⟩, rfl, rfl⟩

/-- C22, C23: the hypotheses hold for the vector field of the plane. -/
example : ∃ (G : Ground Poly) (V : View Poly) (w : World Poly) (x : CalcObj) (A : TField Poly), Scene G V w ∧
    Denotes G V x 3 A ∧ A.val [0] = MvPolynomial.X "x" * MvPolynomial.X "y" := by
  obtain ⟨G, V, w, A, B, hS, h1, h2, h3, h4, -⟩ := plane_labels
  exact ⟨G, V, w, _, A, hS, h1, h4⟩

/-! ## C24: traces -/

/-- **C24** (part that holds) A tensor with repeated labels, each at most twice, is the sum over the repeated
labels of the components in which of each pair one is upper and the other one lower.
Missing: the metric must have the same default coordinates as the tensor (`C24_false`). -/
theorem C24_trace_partial (hE : EngineOK E) (hS : Scene G V w) {Dm : TField K} (hm : V G.m = some Dm)
    (hmc : Dm.coords = G.c) {t : Id'} {D : TField K} (ht : V t = some D) (hc : D.coords = G.c) {labels : List Sym}
    (hl : labels.length = D.ix.length) (h2 : ∀ s, labels.count s ≤ 2) :
    Evaluates G V w (calcInit E t labels) fun l D' => l = single labels ∧
      D'.ix = ((labels.zip D.ix).filter fun p => decide (labels.count p.1 = 1)).map (·.2) ∧
      ∀ pos ρ cfg, Positions pos → Values G.n ρ → Opposed labels pos cfg →
        D'.at G l pos ρ = sumOver G.n (repeated labels) (fun ρ' => D.comp G cfg (labels.map ρ')) ρ :=
  evaluates_trace hE.simp_eq hS hm hmc ht hc hl h2

/-- **C24** A label that occurs more than twice is refused. -/
theorem C24_label_thrice_refused (hE : EngineOK E) (hS : Scene G V w) {Dm : TField K} (hm : V G.m = some Dm)
    (hmc : Dm.coords = G.c) {t : Id'} {D : TField K} (ht : V t = some D) (hc : D.coords = G.c) {labels : List Sym}
    (hl : labels.length = D.ix.length) (h2 : ∃ s, 2 < labels.count s) :
    Fails (calcInit E t labels) w .valueError := fails_trace hE.simp_eq hS hm hmc ht hc hl h2

/-- C24: `T(a a)`; the configurations with one upper and one lower index. -/
example : ∃ (G : Ground Poly) (V : View Poly) (w : World Poly) (Dm D : TField Poly), Scene G V w ∧ V G.m = some Dm ∧
    Dm.coords = G.c ∧ V 4 = some D ∧ D.coords = G.c ∧ ["a", "a"].length = D.ix.length ∧
    (∀ s, ["a", "a"].count s ≤ 2) ∧ Opposed ["a", "a"] (fun _ => 1) [1, -1] := by
  obtain ⟨G, V, w, hS, h1, h2, h3, h4, h5, h6, h7, h8⟩ := plane
  refine ⟨G, V, w, _, _, hS, by rw [h3]; exact h6, h2.symm, h8, h2.symm, rfl, fun s => ?_, rfl, fun s hs => ?_,
    fun s hs => ?_⟩
  · exact List.count_le_length
  · rw [List.count_cons, List.count_cons] at hs
    by_cases h : "a" = s <;> simp [h] at hs
  · rw [List.count_cons, List.count_cons] at hs
    by_cases h : "a" = s
    · subst h; left; decide
    · simp [h] at hs

/-! ## C25, C27: products -/

/-- **C25** The product of two labelled tensors: shared labels are summed over, with opposite positions; the
other ones keep their order and configurations. -/
theorem C25_product [DecidableEq K] [Algebra ℚ K] (hE : EngineOK E) (hS : Scene G V w) (letters : List Sym) {x y : CalcObj}
    {t u : Id'} {A B : TField K} (hx : Denotes G V x t A) (hy : Denotes G V y u B) :
    Evaluates G V w (calcMatmul E letters x y) fun l D =>
      l = (x.labels.filter fun s => decide (s ∉ y.labels)) ++ (y.labels.filter fun s => decide (s ∉ x.labels)) ∧
      D.ix = (x.labels.filter fun s => decide (s ∉ y.labels)).map (posOf x.labels A.ix) ++
        (y.labels.filter fun s => decide (s ∉ x.labels)).map (posOf y.labels B.ix) ∧
      ∀ pos ρ, Positions pos → Values G.n ρ → D.at G l pos ρ =
        contracted G (sharedOf x.labels y.labels) (A.at G x.labels) (B.at G y.labels) pos ρ := by
  unfold calcMatmul
  rw [hx.role, hy.role]
  refine evaluates_mono (evaluates_matmul hE.simp_eq hS hx hy) ?_
  rintro l D ⟨h1, h2, h3⟩
  refine ⟨h1, ?_, h3⟩
  rw [h2, h1]
  unfold unshared
  rw [List.map_append]
  congr 1
  · refine List.map_congr_left fun s hs => ?_
    simp only [List.mem_filter] at hs
    simp [posOf2, hs.1]
  · refine List.map_congr_left fun s hs => ?_
    simp only [List.mem_filter, decide_eq_true_eq] at hs
    simp [posOf2, hs.2]

/-- Different metrics are refused. -/
theorem C25_refuses_metrics [DecidableEq K] [Algebra ℚ K] (letters : List Sym) {x y : CalcObj} {t u : Id'}
    {ot ou : Obj K} (rx : x.role = .tensor) (ry : y.role = .tensor)
    (hx : x.tensor = some t) (hy : y.tensor = some u) (ht : w.objs[t]? = some ot) (hu : w.objs[u]? = some ou)
    (hat : ot.alive = true) (hau : ou.alive = true) (hm : ot.metric ≠ ou.metric) :
    Fails (calcMatmul E letters x y) w .valueError := by
  unfold calcMatmul
  rw [rx, ry]
  show Fails (matmulTensors E x y) w .valueError
  unfold matmulTensors
  have h1 : metricAttr x w = (.ok (some ot.metric), w) := by unfold metricAttr; simp [hx, ht, hat]
  have h2 : metricAttr y w = (.ok (some ou.metric), w) := by unfold metricAttr; simp [hy, hu, hau]
  refine Fails.step h1 (Fails.step h2 ?_)
  rw [if_pos (by simpa using hm)]
  exact ⟨w, rfl⟩

/-- C25: `V(a) @ T(a b)` of the plane shares a label. -/
example : ∃ (G : Ground Poly) (V : View Poly) (w : World Poly) (x y : CalcObj) (A B : TField Poly), Scene G V w ∧
    Denotes G V x 3 A ∧ Denotes G V y 4 B ∧ sharedOf x.labels y.labels = ["a"] := by
  obtain ⟨G, V, w, A, B, hS, h1, h2, h3, -⟩ := plane_labels
  exact ⟨G, V, w, _, _, A, B, hS, h1, h2, rfl⟩

/-- The product in the other order. -/
theorem contracted_comm (hS : Scene G V w) {x y : CalcObj} {t u : Id'} {A B : TField K} (hx : Denotes G V x t A)
    (hy : Denotes G V y u B) {pos : Sym → Int} (hp : Positions pos) {ρ : Sym → Nat} (hρ : Values G.n ρ) :
    contracted G (sharedOf y.labels x.labels) (B.at G y.labels) (A.at G x.labels) pos ρ =
      contracted G (sharedOf x.labels y.labels) (A.at G x.labels) (B.at G y.labels) pos ρ := by
  have hperm : (sharedOf y.labels x.labels).Perm (sharedOf x.labels y.labels) := by
    refine (List.perm_ext_iff_of_nodup (hy.nodup.filter _) (hx.nodup.filter _)).2 fun s => ?_
    simp [and_comm]
  have hmem : ∀ s, s ∈ sharedOf y.labels x.labels ↔ s ∈ sharedOf x.labels y.labels := fun s => hperm.mem_iff
  have hturn : ∀ p : Sym → Int, turned (sharedOf y.labels x.labels) p = turned (sharedOf x.labels y.labels) p := by
    intro p
    funext s
    unfold turned
    simp only [hmem]
  rw [contracted_congr hS.inverse hS.symm (pos' := turned (sharedOf x.labels y.labels) pos)
    (lA := y.labels) (lB := x.labels) ?_ ?_ (lawful_at hS.inverse (scene_config hS hy.field) hy.nodup hy.length)
    (lawful_at hS.inverse (scene_config hS hx.field) hx.nodup hx.length) (onlyOn_at B y.labels) (onlyOn_at A x.labels)
    hp (positions_turned hp _) ?_ hρ]
  · unfold contracted
    rw [sumOver_perm hperm]
    congr 1
    funext ρ'
    rw [hturn, mul_comm]
    congr 2
    funext s
    unfold turned
    split_ifs <;> simp
  · intro s hs
    simp only [sharedOf, List.mem_filter] at hs
    exact hs.1
  · intro s hs
    simp only [sharedOf, List.mem_filter, decide_eq_true_eq] at hs
    exact hs.2
  · intro s _ hs
    unfold turned
    rw [if_neg (fun h => hs ((hmem s).2 h))]

/-- **C27** `A @ B` and `B @ A` denote the same labelled tensor `T`: at every assignment of positions and values
to the labels. -/
theorem C27_products_commute [DecidableEq K] [Algebra ℚ K] (hE : EngineOK E) (hS : Scene G V w) (letters : List Sym)
    {x y : CalcObj} {t u : Id'} {A B : TField K} (hx : Denotes G V x t A) (hy : Denotes G V y u B) :
    ∃ T : (Sym → Int) → (Sym → Nat) → K, ∃ labels : List Sym,
      (Evaluates G V w (calcMatmul E letters x y) fun l D => l.Perm labels ∧
        ∀ pos ρ, Positions pos → Values G.n ρ → D.at G l pos ρ = T pos ρ) ∧
      Evaluates G V w (calcMatmul E letters y x) fun l D => l.Perm labels ∧
        ∀ pos ρ, Positions pos → Values G.n ρ → D.at G l pos ρ = T pos ρ := by
  refine ⟨contracted G (sharedOf x.labels y.labels) (A.at G x.labels) (B.at G y.labels), unshared x.labels y.labels,
    evaluates_mono (C25_product hE hS letters hx hy) ?_, evaluates_mono (C25_product hE hS letters hy hx) ?_⟩
  · rintro l D ⟨h1, -, h3⟩
    exact ⟨h1 ▸ List.Perm.refl _, h3⟩
  · rintro l D ⟨h1, -, h3⟩
    refine ⟨?_, fun pos ρ hp hρ => (h3 pos ρ hp hρ).trans (contracted_comm hS hx hy hp hρ)⟩
    rw [h1]
    exact List.perm_append_comm

/-! ## C28: reordering -/

/-- **C28** `Calc(expr, indices=order)`: the labels of the result are in the requested order, each with its own
position. -/
theorem C28_reorder (hE : EngineOK E) (hS : Scene G V w) {x : CalcObj} {t : Id'} {D : TField K}
    (hx : Denotes G V x t D) {name symbol : String} (hname : name ≠ "TEMP") {order : List Sym}
    (hne : order ≠ []) (hi : order.Perm x.labels) :
    Yields G V w (calcResult E x name symbol order) fun D' => D'.name = name ∧
      D'.ix = order.map (posOf x.labels D.ix) ∧
      ∀ pos ρ, Positions pos → Values G.n ρ → D'.at G order pos ρ = D.at G x.labels pos ρ := by
  refine Does.mono (yields_calc hE.simp_eq hS hx hname (Or.inr hi)) ?_
  rintro r w1 ⟨V', D', h1, h2, h3, h4, h5, h6, h7, h8⟩
  refine ⟨V', D', h1, h2, h3, h4, h5, h6, h7, h8 order ?_⟩
  rw [if_neg hne]

/-- **C28** Without an order the labels keep theirs. -/
theorem C28_same_order (hE : EngineOK E) (hS : Scene G V w) {x : CalcObj} {t : Id'} {D : TField K}
    (hx : Denotes G V x t D) {name symbol : String} (hname : name ≠ "TEMP") :
    Yields G V w (calcResult E x name symbol []) fun D' => D'.name = name ∧ D'.ix = D.ix ∧
      ∀ pos ρ, Positions pos → Values G.n ρ → D'.at G x.labels pos ρ = D.at G x.labels pos ρ := by
  refine Does.mono (yields_calc hE.simp_eq hS hx hname (Or.inl rfl)) ?_
  rintro r w1 ⟨V', D', h1, h2, h3, h4, h5, h6, h7, h8⟩
  have := h8 x.labels (by rw [if_pos rfl])
  rw [map_posOf hx.nodup hx.length] at this
  exact ⟨V', D', h1, h2, h3, h4, h5, h6, h7, this⟩

/-- **C28** Any other order is refused. -/
theorem C28_other_order_refused (x : CalcObj) (name symbol : String) {order : List Sym} (hne : order ≠ [])
    (hi : ¬ order.Perm x.labels) : calcResult E x name symbol order w = (.error .valueError, w) := by
  unfold calcResult
  have hp : order.isPerm x.labels = false := by
    rw [← Bool.not_eq_true, List.isPerm_iff]
    exact hi
  rw [if_pos ⟨hne, hp⟩]
  rfl

/-- C28: `T(a b)` of the plane in the order `b a`; the orders `a` and `a c` are refused. -/
example : ∃ (G : Ground Poly) (V : View Poly) (w : World Poly) (x : CalcObj) (A : TField Poly), Scene G V w ∧
    Denotes G V x 4 A ∧ ["b", "a"].Perm x.labels ∧ ¬ ["a"].Perm x.labels ∧ ¬ ["a", "c"].Perm x.labels := by
  obtain ⟨G, V, w, A, B, hS, h1, h2, h3, -⟩ := plane_labels
  exact ⟨G, V, w, _, B, hS, h2, by decide, by decide, by decide⟩

/-! ## C29, C30: partial derivatives -/

/-- **C29** The derivative of a tensor with a label that is not among those of the tensor.  The value is that of
the components in the default configurations. -/
theorem C29_gradient [DecidableEq K] [Algebra ℚ K] (hE : EngineOK E) (hS : Scene G V w) (letters : List Sym)
    {d y : CalcObj} {u : Id'} {B : TField K} {a : Sym} (hd : derivative .partialD [a] = .ok d)
    (hy : Denotes G V y u B) (ha : a ∉ y.labels) :
    Evaluates G V w (calcMatmul E letters d y) fun l D => l = a :: y.labels ∧ D.ix = -1 :: B.ix ∧
      ∀ ρ, Values G.n ρ → D.value l ρ = E.diff (G.syms.getD (ρ a) "") (B.value y.labels ρ) := by
  cases hd
  unfold calcMatmul
  rw [hy.role]
  have hf : freeLabels [a] y.labels = a :: y.labels := by
    unfold freeLabels
    have : y.labels.filter (fun s => !([a].contains s)) = y.labels := List.filter_eq_self.2 fun s hs => by
      simp only [List.contains_cons, List.contains_nil, Bool.or_false, Bool.not_eq_true', beq_eq_false_iff_ne]
      rintro rfl
      exact ha hs
    rw [this]
    simp [ha]
  show Evaluates G V w (matmulPartial E [a] y (freeLabels [a] y.labels)) _
  rw [hf]
  refine evaluates_mono (evaluates_gradient hE.simp_eq hS hy ha (List.Perm.refl _)) ?_
  rintro l D ⟨rfl, h2, h3⟩
  refine ⟨rfl, h2, fun ρ hρ => ?_⟩
  exact h3 (ρ a) (y.labels.map ρ) (hρ a) (by simpa using hy.length) (values_map hρ _)

/-- **C29** (part that holds) The divergence: the label of the derivative is one of the first two labels of the
tensor.  Missing: `C29_false`. -/
theorem C29_divergence_partial [DecidableEq K] [Algebra ℚ K] (hE : EngineOK E) (hS : Scene G V w) (letters : List Sym)
    {d y : CalcObj} {u : Id'} {B : TField K} {a : Sym} (hd : derivative .partialD [a] = .ok d)
    (hy : Denotes G V y u B) (ha : a ∈ y.labels) (hk : y.labels.idxOf a ≤ 1) :
    Evaluates G V w (calcMatmul E letters d y) fun l D => l = (y.labels.filter fun s => decide (s ≠ a)) ∧
      D.ix = l.map (posOf y.labels B.ix) ∧
      ∀ ρ, Values G.n ρ → D.value l ρ = ∑ k ∈ range G.n, E.diff (G.syms.getD k "")
        (B.at G y.labels (Function.update (posOf y.labels B.ix) a 1) (Function.update ρ a k)) := by
  cases hd
  unfold calcMatmul
  rw [hy.role]
  have hf : freeLabels [a] y.labels = y.labels.filter fun s => decide (s ≠ a) := by
    unfold freeLabels
    have : y.labels.filter (fun s => !([a].contains s)) = y.labels.filter fun s => decide (s ≠ a) := by
      refine List.filter_congr fun s _ => ?_
      rw [Bool.eq_iff_iff]; simp
    rw [this]
    simp [ha]
  show Evaluates G V w (matmulPartial E [a] y (freeLabels [a] y.labels)) _
  rw [hf]
  exact evaluates_divergence hE.simp_eq hS hy ha hk rfl

/-- **C29** is false of the code: the divergence over the third label or a later one is refused, always. -/
theorem C29_false [DecidableEq K] [Algebra ℚ K] (hE : EngineOK E) (hS : Scene G V w) (letters : List Sym)
    {d y : CalcObj} {u : Id'} {B : TField K} {a : Sym} (hd : derivative .partialD [a] = .ok d)
    (hy : Denotes G V y u B) (ha : a ∈ y.labels) (hk : 2 ≤ y.labels.idxOf a) :
    Fails (calcMatmul E letters d y) w .valueError := by
  cases hd
  unfold calcMatmul
  rw [hy.role]
  show Fails (matmulPartial E [a] y (freeLabels [a] y.labels)) w .valueError
  unfold matmulPartial
  obtain ⟨o, h1, -, hsh⟩ := tensorOf_ok hS hy.toNames
  refine Fails.step h1 ?_
  dsimp only
  have hax : derivativeAxis [a] y.labels = .ok (some (y.labels.idxOf a)) := by
    unfold derivativeAxis
    have : sharedLabels y.labels [a] = [a] := by
      unfold sharedLabels
      have h : y.labels.filter (fun s => [a].contains s) = y.labels.filter (fun s => s == a) :=
        List.filter_congr fun s _ => by rw [Bool.eq_iff_iff]; simp
      rw [h, List.filter_beq, List.count_eq_one_of_mem hy.nodup ha]; rfl
    rw [this]
    simp only [labelPos_ok ha]; rfl
  have hlt : y.labels.idxOf a < B.ix.length := by rw [← hy.length]; exact List.idxOf_lt_length_iff.2 ha
  have hcfg : Config B.ix.length (B.ix.set (y.labels.idxOf a) 1) := config_set hsh.config _ (Or.inl rfl)
  refine Fails.lift hax (Fails.lift (a := B.ix.set (y.labels.idxOf a) 1) ?_ ?_)
  · rw [hsh.indices]; unfold derivativeIndices; dsimp only; rw [if_pos hlt]
  rw [hsh.coords, hy.coords]
  refine Fails.bind (scene_getComponents hE.simp_eq hS hy.field hcfg) ?_
  rintro b w1 ⟨hS1, -, hb⟩
  obtain ⟨oc, c1, -, c3, c4⟩ := hS1.chart
  refine Fails.step (getObj_ok c1 c3) (Fails.liftError ?_)
  exact C04_divergence_axis2_refused E _ b _ hk (by unfold Arr.rank; rw [hb.2.1, List.length_replicate]; exact hlt)

/-- What the derivative from the right gives: the labels are those of the tensor followed by that of the
derivative, but the first axis is the one of the derivative. -/
theorem C30_right_derivative [DecidableEq K] [Algebra ℚ K] (hE : EngineOK E) (hS : Scene G V w) (letters : List Sym)
    {d y : CalcObj} {u : Id'} {B : TField K} {a : Sym} (hd : derivative .partialD [a] = .ok d)
    (hy : Denotes G V y u B) (ha : a ∉ y.labels) :
    Evaluates G V w (calcMatmul E letters y d) fun l D => l = y.labels ++ [a] ∧ D.ix = -1 :: B.ix ∧
      ∀ i I, i < G.n → I.length = B.ix.length → (∀ x ∈ I, x < G.n) →
        D.val (i :: I) = E.diff (G.syms.getD i "") (B.val I) := by
  cases hd
  unfold calcMatmul
  rw [hy.role]
  have hf : freeLabels y.labels [a] = y.labels ++ [a] := by
    unfold freeLabels
    have : y.labels.filter (fun s => !([a].contains s)) = y.labels := List.filter_eq_self.2 fun s hs => by
      simp only [List.contains_cons, List.contains_nil, Bool.or_false, Bool.not_eq_true', beq_eq_false_iff_ne]
      rintro rfl
      exact ha hs
    rw [this]
    simp [ha]
  show Evaluates G V w (matmulPartial E [a] y (freeLabels y.labels [a])) _
  rw [hf]
  exact evaluates_gradient hE.simp_eq hS hy ha (by simpa using (List.perm_append_comm (l₁ := y.labels) (l₂ := [a])))

/-- **C30** (part that holds) The derivative from the right is that from the left for scalars and when the label
is contracted.  Missing: `C30_false`. -/
theorem C30_right_derivative_partial [DecidableEq K] [Algebra ℚ K] (letters : List Sym)
    {d y : CalcObj} {a : Sym} (hd : derivative .partialD [a] = .ok d) (hy : y.role = .tensor)
    (ha : a ∈ y.labels ∨ y.labels = []) : calcMatmul E letters y d = calcMatmul E letters d y := by
  cases hd
  unfold calcMatmul
  rw [hy]
  show matmulPartial E [a] y (freeLabels y.labels [a]) = matmulPartial E [a] y (freeLabels [a] y.labels)
  congr 1
  rcases ha with ha | ha
  · unfold freeLabels
    simp [ha]
  · rw [ha]; rfl

/-- **C30** is false of the code: in the plane, `∂_a V^b` at `a = 1`, `b = 0` is `x` from the left, but 0 from the
right. -/
theorem C30_false : ∃ (G : Ground Poly) (V : View Poly) (w : World Poly) (A : TField Poly) (d : CalcObj) (ρ : Sym → Nat),
    Scene G V w ∧ Denotes G V ⟨.tensor, some 3, ["b"]⟩ 3 A ∧ derivative .partialD ["a"] = .ok d ∧ Values G.n ρ ∧
    (Evaluates G V w (calcMatmul polyEngine [] d ⟨.tensor, some 3, ["b"]⟩) fun l D =>
      D.value l ρ = MvPolynomial.X "x") ∧
    Evaluates G V w (calcMatmul polyEngine [] ⟨.tensor, some 3, ["b"]⟩ d) fun l D => D.value l ρ = 0 := by
  obtain ⟨G, V, w, hS, h1, h2, h3, h4, h5, h6, h7, h8⟩ := plane
  have hA : Denotes G V ⟨.tensor, some 3, ["b"]⟩ 3 ⟨"V", 0, [1], aVector.get⟩ :=
    ⟨⟨rfl, rfl, h7, by simp, rfl⟩, h2.symm⟩
  refine ⟨G, V, w, _, _, fun s => if s = "a" then 1 else 0, hS, hA, rfl, ?_, ?_, ?_⟩
  · intro s; rw [h1]; dsimp only; split_ifs <;> decide
  · refine evaluates_mono (C29_gradient polyEngine_ok hS [] rfl hA (by decide)) ?_
    rintro l D ⟨-, -, h⟩
    rw [h _ (by intro s; rw [h1]; dsimp only; split_ifs <;> decide), h4]
    show MvPolynomial.pderiv "y" (MvPolynomial.X "x" * MvPolynomial.X "y" : Poly) = _
    have : MvPolynomial.pderiv "y" (MvPolynomial.X "x" : Poly) = 0 := pderiv_X_ne (by decide)
    simp [this]
  · refine evaluates_mono (C30_right_derivative polyEngine_ok hS [] rfl hA (by decide)) ?_
    rintro l D ⟨rfl, -, h⟩
    have := h 0 [1] (by rw [h1]; decide) rfl (by rw [h1]; decide)
    rw [h4] at this
    show D.val [0, 1] = 0
    rw [this]
    show MvPolynomial.pderiv "x" (3 : Poly) = 0
    rw [show (3 : Poly) = MvPolynomial.C 3 from rfl, MvPolynomial.pderiv_C]

/-- C29: the hypotheses hold for the tensors of the plane. -/
example : ∃ (G : Ground Poly) (V : View Poly) (w : World Poly) (y : CalcObj) (B : TField Poly) (d : CalcObj),
    Scene G V w ∧ derivative .partialD ["c"] = .ok d ∧ Denotes G V y 4 B ∧ "c" ∉ y.labels ∧ "b" ∈ y.labels ∧
    y.labels.idxOf "b" ≤ 1 := by
  obtain ⟨G, V, w, A, B, hS, h1, h2, h3, -⟩ := plane_labels
  exact ⟨G, V, w, _, B, _, hS, rfl, h2, by decide, by decide, by decide⟩

/-- C29_false: a tensor with three indices on the plane. -/
example : ∃ (G : Ground Poly) (V : View Poly) (w : World Poly) (t : Id') (B : TField Poly) (d : CalcObj),
    Scene G V w ∧ derivative .partialD ["c"] = .ok d ∧ Denotes G V ⟨.tensor, some t, ["a", "b", "c"]⟩ t B ∧
    "c" ∈ ["a", "b", "c"] ∧ 2 ≤ ["a", "b", "c"].idxOf "c" := by
  obtain ⟨G, V, w, hS, h1, h2, -⟩ := plane
  obtain ⟨t, w', -, V', hS', -, ht⟩ := C21_scene_tensor hS "S" "S" (a := ⟨[2, 2, 2], [1, 0, MvPolynomial.X "x", 0, 3, 0, 0, 2]⟩)
    (ix := [1, -1, 1]) rfl (by rw [h1]; rfl) ⟨rfl, by simp⟩
  exact ⟨G, V', w', t, _, _, hS', rfl, ⟨⟨rfl, rfl, ht, by simp, rfl⟩, rfl⟩, by decide, by decide⟩

/-! ## C68: the number of labels -/

/-- **C68** is false of the code: any list of distinct labels is accepted, whatever its length. -/
theorem C68_false (hE : EngineOK E) (hS : Scene G V w) {t : Id'} {D : TField K} (ht : V t = some D)
    (hc : D.coords = G.c) {labels : List Sym} (hn : labels.Nodup) :
    Does (calcInit E t labels) w fun z _ => z = ⟨.tensor, some t, labels⟩ :=
  Does.mono (calcInit_nodup hE.simp_eq hS ht hc hn) fun _ _ h => h.2.2

/-- C68: three labels for a vector field. -/
example : ∃ (G : Ground Poly) (V : View Poly) (w : World Poly) (D : TField Poly), Scene G V w ∧ V 3 = some D ∧
    D.coords = G.c ∧ ["a", "b", "c"].Nodup ∧ ["a", "b", "c"].length ≠ D.ix.length := by
  obtain ⟨G, V, w, hS, h1, h2, h3, h4, h5, h6, h7, h8⟩ := plane
  exact ⟨G, V, w, _, hS, h7, h2.symm, by decide, by simp⟩

end PyOGRe
