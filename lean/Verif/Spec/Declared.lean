import Verif.Lemmas.Nil
import Verif.Spec.Connection

/-!
# Metrics that have just been declared

The state after a coordinate system and one metric have been declared, for examples: polynomial components, any dimension, both
default configurations.
-/

namespace PyOGRe
open Spec Finset MvPolynomial

/-- The coordinates. -/
noncomputable def chartWorld (syms : List Sym) : World Poly where
  objs := [
    { kind := .coordinates, name := "Chart", symbol := "x", indices := [1], coords := 0, metric := 0,
      comps := [], syms := syms, trans := [], jac := [], alive := true }]
  instances := [0]

theorem chartWorld_registry (syms : List Sym) : RegistryOK (chartWorld syms) := by
  refine ⟨by simp [chartWorld], fun i hi => ?_, fun i hi o ho t ht => ?_, fun i hi o ho hn => ?_⟩
  · have : i = 0 := by simpa [chartWorld] using hi
    subst this
    exact ⟨_, rfl, rfl⟩
  · have : i = 0 := by simpa [chartWorld] using hi
    subst this
    cases ho
    simp [Obj.uses, Dict.has] at ht
  · have : i = 0 := by simpa [chartWorld] using hi
    subst this
    cases ho
    exact absurd hn (by decide : "Chart" ≠ "TEMP")

/-- A metric with given components has been declared; nothing else has a name. -/
theorem declared_all {syms : List Sym} {a b : Arr Poly} {ix : List Int} (hs : a.shape = [syms.length, syms.length]) (hw : a.WF)
    (hsym : ∀ i j, i < syms.length → j < syms.length → entry a i j = entry a j i)
    (hinv : Inverse syms.length (fun i j => a.get [i, j]) (fun i j => b.get [i, j])) (hix : ix = [-1, -1] ∨ ix = [1, 1])
    (hne : syms ≠ []) : ∃ (G : Ground Poly) (V : View Poly) (w : World Poly), Scene G V w ∧ G.n = syms.length ∧ G.syms = syms ∧
      AnyMetric G V ⟨"Given", 0, ix, a.get⟩ ∧ NoNames w "Given" ∧ (ix = [-1, -1] → ∀ i j, G.g i j = entry a i j) ∧
      (ix = [1, 1] → ∀ i j, G.gi i j = entry a i j) ∧
      (∀ i ∈ w.instances, ∀ o, w.objs[i]? = some o → o.name = "Chart" ∨ o.name = "Given") := by
  obtain ⟨m, w', h1, h0, o, h2, h3, h4, h5, h6⟩ :=
    (C20_metric_constructor polyEngine polyEngine_total _ _ _ _ _ _).1
      (show MetricArgsOK polyEngine (chartWorld syms) (.val "Given") (.val a) 0 (.tuple ix) (.val "g") from
        ⟨⟨_, rfl⟩, ⟨_, rfl⟩, hix.symm.elim (fun h => Or.inr (by rw [h])) (fun h => Or.inl (by rw [h])), _, a, rfl, rfl, rfl, rfl, hs, hsym, polyEngine_det hs hinv⟩)
  obtain ⟨b', -, hS⟩ := scene_start polyEngine_ok (chartWorld_registry syms) hw (by decide) rfl rfl hne h1
  have hnames : ∀ i ∈ w'.instances, ∀ o, w'.objs[i]? = some o → o.name = "Chart" ∨ o.name = "Given" := by
    intro i hi oi hoi
    rw [h0] at hi
    have : i = 0 ∨ i = m := by simpa [chartWorld] using hi
    rcases this with rfl | rfl
    · rw [h2] at hoi
      cases hoi
      exact Or.inl rfl
    · exact Or.inr (scene_object_name hS (if_pos rfl) hoi)
  refine ⟨_, _, w', hS, rfl, rfl, ⟨if_pos rfl, (by decide : "Given" ≠ "TEMP"), rfl⟩, ?_, ?_, ?_, hnames⟩
  · intro q i hi oi hoi hn
    rcases hnames i hi oi hoi with h | h <;> rw [h] at hn <;> cases q <;> exact absurd hn (by decide)
  · rintro rfl i j; rfl
  · rintro rfl i j; rfl

/-- A metric with given components has been declared. -/
theorem declared {syms : List Sym} {a b : Arr Poly} {ix : List Int} (hs : a.shape = [syms.length, syms.length]) (hw : a.WF)
    (hsym : ∀ i j, i < syms.length → j < syms.length → entry a i j = entry a j i)
    (hinv : Inverse syms.length (fun i j => a.get [i, j]) (fun i j => b.get [i, j])) (hix : ix = [-1, -1] ∨ ix = [1, 1])
    (hne : syms ≠ []) : ∃ (G : Ground Poly) (V : View Poly) (w : World Poly), Scene G V w ∧ G.n = syms.length ∧ G.syms = syms ∧
      AnyMetric G V ⟨"Given", 0, ix, a.get⟩ ∧ NoNames w "Given" ∧ (ix = [-1, -1] → ∀ i j, G.g i j = entry a i j) ∧
      (ix = [1, 1] → ∀ i j, G.gi i j = entry a i j) := by
  obtain ⟨G, V, w, h1, h2, h3, h4, h5, h6, h7, -⟩ := declared_all hs hw hsym hinv hix hne
  exact ⟨G, V, w, h1, h2, h3, h4, h5, h6, h7⟩

end PyOGRe
