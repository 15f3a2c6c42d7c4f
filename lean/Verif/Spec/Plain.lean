import Verif.Spec.Declared

/-!
# Examples over any ring

An engine with given derivatives, and the state after a coordinate system and one metric have been declared.
-/

namespace PyOGRe
open Spec Finset
variable {K : Type} [CommRing K]

open Classical in
/-- Given derivatives; nothing to simplify or to substitute; a matrix is inverted if it has an inverse, and then its
determinant is known. -/
noncomputable def plainEngine (d : Sym → K → K) : Engine K where
  simp x := x
  diff := d
  subst _ _ x := x
  inv a := if h : ∃ b : Arr K, ∃ n, a.shape = [n, n] ∧ b.WF ∧ b.shape = [n, n] ∧
      Inverse n (fun i j => a.get [i, j]) (fun i j => b.get [i, j]) then .ok h.choose
    else .error .nonInvertibleMatrixError
  det a := if ∃ n, a.shape = [n, n] ∧ ∃ N, Inverse n (fun i j => a.get [i, j]) N
      then Matrix.det fun i j : Fin (a.shape.getD 0 0) => a.get [i, j] else 0

theorem plainEngine_ok (d : Sym → K → K) : EngineOK (plainEngine d) where
  simp_eq _ := rfl
  inv_ok n a b hs hb := by
    unfold plainEngine at hb
    dsimp only at hb
    split_ifs at hb with h
    cases hb
    obtain ⟨m, h1, h2⟩ := h.choose_spec
    rw [hs] at h1
    cases h1
    exact h2

theorem plainEngine_total (d : Sym → K → K) : EngineTotal (plainEngine d) where
  inv_total n a N hs hN := by
    have h : ∃ b : Arr K, ∃ n, a.shape = [n, n] ∧ b.WF ∧ b.shape = [n, n] ∧
        Inverse n (fun i j => a.get [i, j]) (fun i j => b.get [i, j]) := by
      refine ⟨Arr.ofFn [n, n] fun idx => N (idx.getD 0 0) (idx.getD 1 0), n, hs, Arr.wf_ofFn _ _, rfl, ?_⟩
      refine inverse_congr hN (fun _ _ _ _ => rfl) ?_
      intro i j hi hj
      rw [Arr.get_ofFn (by rw [valid_cons, valid_cons, valid_nil]; exact ⟨hi, hj, rfl⟩)]
      rfl
    exact ⟨h.choose, by unfold plainEngine; dsimp only; rw [dif_pos h]⟩
  det_ok n a hs hd := by
    unfold plainEngine at hd
    dsimp only at hd
    split_ifs at hd with h
    · obtain ⟨m, h1, h2⟩ := h
      rw [hs] at h1
      cases h1
      exact h2
    · exact absurd rfl hd

theorem plainEngine_det [Nontrivial K] (d : Sym → K → K) {n : Nat} {a : Arr K} (hs : a.shape = [n, n]) {N : Nat → Nat → K}
    (hN : Inverse n (fun i j => a.get [i, j]) N) : (plainEngine d).det a ≠ 0 := by
  unfold plainEngine
  dsimp only
  rw [if_pos ⟨n, hs, N, hN⟩, hs]
  intro h
  have h1 := congrArg Matrix.det (inverse_iff.1 hN).1
  rw [Matrix.det_mul, Matrix.det_one] at h1
  exact one_ne_zero (h1.symm.trans ((congrArg (· * _) h).trans (zero_mul _)))

/-- The coordinates. -/
def plainWorld (K : Type) (syms : List Sym) : World K where
  objs := [
    { kind := .coordinates, name := "Chart", symbol := "x", indices := [1], coords := 0, metric := 0,
      comps := [], syms := syms, trans := [], jac := [], alive := true }]
  instances := [0]

omit [CommRing K] in
theorem plainWorld_registry (syms : List Sym) : RegistryOK (plainWorld K syms) := by
  refine ⟨by simp [plainWorld], fun i hi => ?_, fun i hi o ho t ht => ?_, fun i hi o ho hn => ?_⟩
  · have : i = 0 := by simpa [plainWorld] using hi
    subst this
    exact ⟨_, rfl, rfl⟩
  · have : i = 0 := by simpa [plainWorld] using hi
    subst this
    cases ho
    simp [Obj.uses, Dict.has] at ht
  · have : i = 0 := by simpa [plainWorld] using hi
    subst this
    cases ho
    exact absurd hn (by decide : "Chart" ≠ "TEMP")

/-- A metric with given components has been declared. -/
theorem plainDeclared_names [DecidableEq K] [Nontrivial K] (d : Sym → K → K) {syms : List Sym} {a b : Arr K} {ix : List Int}
    (hs : a.shape = [syms.length, syms.length]) (hw : a.WF)
    (hsym : ∀ i j, i < syms.length → j < syms.length → entry a i j = entry a j i)
    (hinv : Inverse syms.length (fun i j => a.get [i, j]) (fun i j => b.get [i, j])) (hix : ix = [-1, -1] ∨ ix = [1, 1])
    (hne : syms ≠ []) : ∃ (G : Ground K) (V : View K) (w : World K), Scene G V w ∧ G.n = syms.length ∧ G.syms = syms ∧
      AnyMetric G V ⟨"Given", 0, ix, a.get⟩ ∧ NoNames w "Given" ∧ (ix = [-1, -1] → ∀ i j, G.g i j = entry a i j) ∧
      (ix = [1, 1] → ∀ i j, G.gi i j = entry a i j) ∧
      ∀ i ∈ w.instances, ∀ o, w.objs[i]? = some o → o.name = "Chart" ∨ o.name = "Given" := by
  obtain ⟨m, w', h1, h0, o, h2, h3, h4, h5, h6⟩ :=
    (C20_metric_constructor (plainEngine d) (plainEngine_total d) _ _ _ _ _ _).1
      (show MetricArgsOK (plainEngine d) (plainWorld K syms) (.val "Given") (.val a) 0 (.tuple ix) (.val "g") from
        ⟨⟨_, rfl⟩, ⟨_, rfl⟩, hix.symm.elim (fun h => Or.inr (by rw [h])) (fun h => Or.inl (by rw [h])), _, a, rfl, rfl, rfl, rfl,
          hs, hsym, plainEngine_det d hs hinv⟩)
  obtain ⟨b', -, hS⟩ := scene_start (plainEngine_ok d) (plainWorld_registry syms) hw (by decide) rfl rfl hne h1
  have hnames : ∀ i ∈ w'.instances, ∀ o, w'.objs[i]? = some o → o.name = "Chart" ∨ o.name = "Given" := by
    intro i hi oi hoi
    rw [h0] at hi
    have : i = 0 ∨ i = m := by simpa [plainWorld] using hi
    rcases this with rfl | rfl
    · rw [h2] at hoi
      cases hoi
      exact Or.inl rfl
    · exact Or.inr (scene_object_name hS (if_pos rfl) hoi)
  refine ⟨_, _, w', hS, rfl, rfl, ⟨if_pos rfl, (by decide : "Given" ≠ "TEMP"), rfl⟩, ?_, ?_, ?_, hnames⟩
  · intro q i hi oi hoi hn
    rcases hnames i hi oi hoi with h | h <;> rw [h] at hn <;> cases q <;> exact absurd hn (by decide)
  · rintro rfl i j; rfl
  · rintro rfl i j; rfl

theorem plainDeclared [DecidableEq K] [Nontrivial K] (d : Sym → K → K) {syms : List Sym} {a b : Arr K} {ix : List Int}
    (hs : a.shape = [syms.length, syms.length]) (hw : a.WF)
    (hsym : ∀ i j, i < syms.length → j < syms.length → entry a i j = entry a j i)
    (hinv : Inverse syms.length (fun i j => a.get [i, j]) (fun i j => b.get [i, j])) (hix : ix = [-1, -1] ∨ ix = [1, 1])
    (hne : syms ≠ []) : ∃ (G : Ground K) (V : View K) (w : World K), Scene G V w ∧ G.n = syms.length ∧ G.syms = syms ∧
      AnyMetric G V ⟨"Given", 0, ix, a.get⟩ ∧ NoNames w "Given" ∧ (ix = [-1, -1] → ∀ i j, G.g i j = entry a i j) ∧
      (ix = [1, 1] → ∀ i j, G.gi i j = entry a i j) := by
  obtain ⟨G, V, w, h1, h2, h3, h4, h5, h6, h7, -⟩ := plainDeclared_names d hs hw hsym hinv hix hne
  exact ⟨G, V, w, h1, h2, h3, h4, h5, h6, h7⟩

end PyOGRe
