import Verif.Lemmas.Rename
import Verif.Spec.Plane

/-!
# Nested formulae

C69 (evaluation gives the meaning) and C66 (summed labels).  The specification is `Spec/Formula.lean`.
-/

namespace PyOGRe
open Spec Finset
variable {K : Type} [CommRing K] {E : Engine K} {G : Ground K} {V : View K} {w : World K} {F : Id' → TField K}

/-- **C69** A formula of any depth evaluates to what it means: at all positions and values of its labels, the
result has the value that Einstein's conventions give from the components of the tensors in it.  The tensors in
view keep their components (`Evaluates`). -/
theorem C69_formula [DecidableEq K] [Algebra ℚ K] (hE : EngineOK E) (hS : Scene G V w) (letters : List Sym)
    {f : Formula K} (hf : f.OK G V F) :
    Evaluates G V w (f.eval E letters) fun l D => l = f.labels ∧ D.ix = (f.mean E G F).ix ∧
      ∀ pos ρ, Positions pos → Values G.n ρ → D.at G l pos ρ = (f.mean E G F).value pos ρ :=
  formula_eval hE.simp_eq letters hS hf

/-- **C69** The same for the tensor that `Calc` makes of it. -/
theorem C69_calc [DecidableEq K] [Algebra ℚ K] (hE : EngineOK E) (hS : Scene G V w) (letters : List Sym)
    {f : Formula K} (hf : f.OK G V F) {name symbol : String} (hname : name ≠ "TEMP") {order : List Sym}
    (hne : order ≠ []) (hi : order.Perm f.labels) :
    Yields G V w (do let x ← f.eval E letters; calcResult E x name symbol order) fun D => D.name = name ∧
      D.ix = order.map (posOf f.labels (f.mean E G F).ix) ∧
      ∀ pos ρ, Positions pos → Values G.n ρ → D.at G order pos ρ = (f.mean E G F).value pos ρ := by
  refine yields_after hS (C69_formula hE hS letters hf) fun z V' t D w' hS' hV hT hz ⟨h1, h2, h3⟩ => ?_
  refine Does.mono (yields_calc hE.simp_eq hS' hz hname (indices := order) (Or.inr (by rw [h1]; exact hi))) ?_
  rintro r w1 ⟨V'', D', k1, k2, k3, k0, k4, k5, k6, k7⟩
  obtain ⟨k8, k9⟩ := k7 order (by rw [if_neg hne])
  refine ⟨V'', D', k1, k2, k3, k0, k4, k5, k6, ?_, ?_⟩
  · rw [k8, h1, h2]
  · intro pos ρ hp hρ
    rw [k9 pos ρ hp hρ, h3 pos ρ hp hρ]

/-- **C66** Renaming summed labels, anywhere in a formula, does not change what it evaluates to. -/
theorem C66_dummy_labels [DecidableEq K] [Algebra ℚ K] (hE : EngineOK E) (hS : Scene G V w) (letters : List Sym)
    {f f' : Formula K} (hf : f.OK G V F) (hr : Renamed f f') :
    ∃ (l : List Sym) (ix : List Int) (T : (Sym → Int) → (Sym → Nat) → K),
      (Evaluates G V w (f.eval E letters) fun l' D => l' = l ∧ D.ix = ix ∧
        ∀ pos ρ, Positions pos → Values G.n ρ → D.at G l pos ρ = T pos ρ) ∧
      Evaluates G V w (f'.eval E letters) fun l' D => l' = l ∧ D.ix = ix ∧
        ∀ pos ρ, Positions pos → Values G.n ρ → D.at G l pos ρ = T pos ρ := by
  obtain ⟨h1, h2, h3, h4⟩ := renamed_mean hE.simp_eq hS hr hf
  refine ⟨f.labels, (f.mean E G F).ix, (f.mean E G F).value, ?_, ?_⟩
  · refine evaluates_mono (C69_formula hE hS letters hf) ?_
    rintro l D ⟨rfl, k2, k3⟩
    exact ⟨rfl, k2, k3⟩
  · refine evaluates_mono (C69_formula hE hS letters h1) ?_
    rintro l D ⟨rfl, k2, k3⟩
    refine ⟨h2, k2.trans h3, fun pos ρ hp hρ => ?_⟩
    rw [← h2, k3 pos ρ hp hρ, h4 pos ρ hp hρ]

/-- `V(a) @ T(a b) + PartialD(b) @ T(c c)` in the plane. -/
def Spec.aFormula : Formula Poly :=
  .add (.mul (.tensor 3 ["a"]) (.tensor 4 ["a", "b"])) (.diff "b" (.tensor 4 ["c", "c"]))

/-- C69, C66: this formula makes sense; the label `a` may be replaced by `c` in the first term. -/
example : ∃ (G : Ground Poly) (V : View Poly) (w : World Poly) (F : Id' → TField Poly), Scene G V w ∧
    aFormula.OK G V F ∧ aFormula.labels = ["b"] ∧
    Renamed aFormula (.add (.mul (.tensor 3 ["c"]) (.tensor 4 ["c", "b"])) (.diff "b" (.tensor 4 ["c", "c"]))) := by
  obtain ⟨G, V, w, hS, h1, h2, h3, h4, h5, h6, h7, h8⟩ := plane
  have hcount : ∀ (a b s : Sym), [a, b].count s ≤ 2 := fun a b s => by
    have := List.count_le_length (a := s) (l := [a, b]); simpa using this
  have hcount1 : ∀ (a s : Sym), [a].count s ≤ 2 := fun a s => by
    have := List.count_le_length (a := s) (l := [a]); simp only [List.length_singleton] at this; omega
  refine ⟨G, V, w, fun t => if t = 2 then ⟨"Flat", 0, [-1, -1], flat.get⟩ else if t = 3 then
    ⟨"V", 0, [1], aVector.get⟩ else ⟨"T", 0, [1, -1], aTensor.get⟩, hS, ⟨⟨⟨?_, ?_, rfl, hcount1 _, Or.inl (by decide)⟩,
    ⟨?_, ?_, rfl, hcount _ _, Or.inl (by decide)⟩⟩, ⟨⟨?_, ?_, rfl, hcount _ _, Or.inr ⟨?_, ?_⟩⟩, ?_⟩, ?_⟩, by decide, ?_⟩
  all_goals first
    | (rw [h3]; exact h6)
    | exact h7
    | exact h8
    | exact h2.symm
    | (rw [h3]; exact h2.symm)
    | decide
    | skip
  refine .add ?_ (.refl _)
  have := Renamed.dummies (K := Poly) (.mul (.tensor 3 ["a"]) (.tensor 4 ["a", "b"])) (Equiv.swap "a" "c")
    (Equiv.injective _) (by decide)
  exact this

end PyOGRe
