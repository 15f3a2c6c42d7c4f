import Verif.Lemmas.Start
import Verif.Props.Represent

/-!
# A scene with tensors of the plane

Used in the examples beside the theorems about formulae: the flat metric of the plane (object 2), a vector
field (object 3) and a tensor field with one upper and one lower index (object 4).
-/

namespace PyOGRe.Spec
open MvPolynomial

/-- A tensor with polynomial components. -/
noncomputable def aTensor : Arr Poly := ⟨[2, 2], [X "x", X "y" ^ 2, 5, X "x" * X "y"]⟩

theorem uvWorld_registry : RegistryOK uvWorld := by
  refine ⟨by decide, fun i hi => ?_, fun i hi o ho t ht => ?_, fun i hi o ho hn => ?_⟩
  · have : i = 0 ∨ i = 1 := by simpa [uvWorld] using hi
    rcases this with rfl | rfl <;> exact ⟨_, rfl, rfl⟩
  · rcases uvWorld_cases ho with ⟨rfl, -, h1, h2, -⟩ | ⟨rfl, -, h1, h2, -⟩
    · have : 1 = t := by simpa [Obj.uses, h2, h1, Dict.has] using ht
      subst this
      exact ⟨_, rfl, Or.inl rfl⟩
    · have : 0 = t := by simpa [Obj.uses, h2, h1, Dict.has] using ht
      subst this
      exact ⟨_, rfl, Or.inl rfl⟩
  · match i, ho with
    | 0, ho => cases ho; exact absurd hn (by decide)
    | 1, ho => cases ho; exact absurd hn (by decide)
    | i + 2, ho => simp [uvWorld] at ho

/-- The scene, and the names of the registered objects. -/
theorem plane_named : ∃ (G : Ground Poly) (V : View Poly) (w : World Poly), Scene G V w ∧ G.n = 2 ∧ G.c = 0 ∧ G.m = 2 ∧
    G.syms = ["x", "y"] ∧ (∀ i j, i < 2 → j < 2 → G.g i j = delta i j) ∧
    V 2 = some ⟨"Flat", 0, [-1, -1], flat.get⟩ ∧ V 3 = some ⟨"V", 0, [1], aVector.get⟩ ∧
    V 4 = some ⟨"T", 0, [1, -1], aTensor.get⟩ ∧
    ∀ (i : Nat) (o : Obj Poly), w.objs[i]? = some o → o.name ∈ ["Cartesian", "Parabolic", "Flat", "V", "T"] := by
  obtain ⟨b, -, hS⟩ := scene_start polyEngine_ok uvWorld_registry (show flat.WF from rfl) (by decide) rfl rfl
    (by simp [uvWorld]) flatWorld_eq
  obtain ⟨o, h1, h1'⟩ := flatWorld_objs
  have hl : flatWorld.objs.length = 3 := by rw [h1]; rfl
  obtain ⟨ov, w1, -, hS1, -, k1, k1', kv⟩ := scene_new hS (kind := .tensor) (Or.inl rfl) "V" "v" (a := aVector)
    (f := aVector.get) (ix := [1]) ⟨rfl, rfl, fun _ _ _ => rfl⟩ ⟨rfl, by simp⟩
  have hl1 : w1.objs.length = 4 := by rw [k1, List.length_append, hl]; rfl
  obtain ⟨ot, w2, -, hS2, -, k2, k2', kt⟩ := scene_new hS1 (kind := .tensor) (Or.inl rfl) "T" "t" (a := aTensor)
    (f := aTensor.get) (ix := [1, -1]) ⟨rfl, rfl, fun _ _ _ => rfl⟩ ⟨rfl, by simp⟩
  refine ⟨_, _, w2, hS2, rfl, rfl, rfl, rfl, fun i j hi hj => flat_entry i j hi hj, ?_, ?_, ?_, ?_⟩
  · simp [View.add, hl, hl1]
  · rw [hl]; simp only [View.add, hl1]; simp; rfl
  · rw [hl1]; simp only [View.add]; simp; rfl
  · intro i oi hoi
    obtain ⟨o2, h2, h2'⟩ := hS2.shows 2 ⟨"Flat", 0, [-1, -1], flat.get⟩ (by simp [View.add, hl, hl1])
    rw [k2, k1, h1] at h2
    rw [k2, k1, h1] at hoi
    match i, hoi with
    | 0, hoi => cases hoi; simp
    | 1, hoi => cases hoi; simp
    | 2, hoi => cases h2; cases hoi; rw [h2'.name]; simp
    | 3, hoi => cases hoi; rw [k1']; simp
    | 4, hoi => cases hoi; rw [k2']; simp
    | i + 5, hoi => simp [uvWorld] at hoi

/-- The scene. -/
theorem plane : ∃ (G : Ground Poly) (V : View Poly) (w : World Poly), Scene G V w ∧ G.n = 2 ∧ G.c = 0 ∧ G.m = 2 ∧
    G.syms = ["x", "y"] ∧ (∀ i j, i < 2 → j < 2 → G.g i j = delta i j) ∧
    V 2 = some ⟨"Flat", 0, [-1, -1], flat.get⟩ ∧ V 3 = some ⟨"V", 0, [1], aVector.get⟩ ∧
    V 4 = some ⟨"T", 0, [1, -1], aTensor.get⟩ := by
  obtain ⟨G, V, w, h1, h2, h3, h4, h5, h6, h7, h8, h9, -⟩ := plane_named
  exact ⟨G, V, w, h1, h2, h3, h4, h5, h6, h7, h8, h9⟩

end PyOGRe.Spec
