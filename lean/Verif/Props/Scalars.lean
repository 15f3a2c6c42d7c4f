import Verif.Props.ChartExamples
import Verif.Props.Simplify
import Verif.Props.Show
import Verif.Props.Calc
import Verif.Props.ExportLimits

/-!
# Scalars in other coordinates (C13, C22, C59, C74, C76)

The components of a scalar in coordinates other than those in which it was made are stored as an expression and not
as an array of rank zero.  When the default coordinates are changed to such a system, several operations break.
-/

namespace PyOGRe
open Spec
variable {K : Type} [CommRing K] {E : Engine K}

/-- **C13** is false of the code for scalars whose default coordinates are not those in which they were made: whatever
the rules are, a request in a system where the scalar has not been seen is never answered. -/
theorem C13_false {w : World K} {t c c' : Id'} {ix : List Int} {b : Arr K} (hk : Known E w .tensor t c ix b)
    (hu : Unseen w t c') (hn : ¬ Native w t c) (b' : Arr K) (w' : World K) :
    getComponents E t (some c') (some ix) w ≠ (.ok b', w') := by
  intro h
  obtain ⟨o, d, h1, h2, h3, h4, h5, h6, h7⟩ := known_stored hk
  have hnot : o.isArray o.coords = false := by
    cases hb : o.isArray o.coords with
    | false => rfl
    | true =>
      refine absurd (fun o' ho' hi => ?_) hn
      rw [h1] at ho'; cases ho'
      rw [h4] at hb
      exact head_isArray hb hi
  unfold getComponents at h
  obtain ⟨o1, w1, e1, g1⟩ := bind_ok h
  obtain ⟨rfl, -, -⟩ := getObj_inv e1
  rw [Option.getD_some, Option.getD_some] at g1
  unfold getRepresentation at g1
  obtain ⟨q, w2, e2, g2⟩ := bind_ok g1
  rw [isCoordinates_apply] at e2
  cases e2
  split_ifs at g2 with hq
  · cases g2
  obtain ⟨o2, w2, e3, g3⟩ := bind_ok g2
  obtain ⟨rfl, e4, -⟩ := getObj_inv e3
  rw [h1] at e4; cases e4
  obtain ⟨u, w3, e5, g4⟩ := bind_ok g3
  rw [PyM.lift_apply] at e5
  have e6 : w3 = w2 := (congrArg Prod.snd e5).symm
  subst e6
  obtain ⟨r, w4, e7, g5⟩ := bind_ok g4
  have hchk : checkRepresentation E t c' ix w3 = (.ok false, w3) := by
    rw [checkRepresentation_tensor t c' ix h1 h2 (by rw [h3]; decide)]
    unfold tensorCheck
    rw [PyM.bind_apply, getObj_ok h1 h2]
    dsimp only
    rw [hu o h1]
    rfl
  rw [hchk] at e7
  cases e7
  obtain ⟨u', w5, e8, -⟩ := bind_ok g5
  change transformCoordinates E t c' ix w3 = (.ok u', w5) at e8
  unfold transformCoordinates at e8
  obtain ⟨o3, w6, e9, g6⟩ := bind_ok e8
  obtain ⟨rfl, e10, -⟩ := getObj_inv e9
  rw [h1] at e10; cases e10
  rw [h3] at g6
  dsimp only at g6
  unfold tensorTransform at g6
  obtain ⟨o4, w7, e11, g7⟩ := bind_ok g6
  obtain ⟨rfl, e12, -⟩ := getObj_inv e11
  rw [h1] at e12; cases e12
  obtain ⟨r', w8, e13, g8⟩ := bind_ok g7
  have htc : tensorCheck E t o.coords ix w7 = (.ok true, w7) := by
    unfold tensorCheck
    rw [PyM.bind_apply, getObj_ok h1 h2]
    dsimp only
    rw [h4, h5]
    dsimp only
    rw [(Dict.has_iff _ _).2 ⟨b, h6⟩]
    rfl
  rw [htc] at e13
  cases e13
  obtain ⟨u2, w9, e14, g9⟩ := bind_ok g8
  have e15 : w9 = w7 := (congrArg Prod.snd e14).symm
  subst e15
  unfold baseTransform at g9
  obtain ⟨o5, w10, e16, g10⟩ := bind_ok g9
  obtain ⟨rfl, e17, -⟩ := getObj_inv e16
  rw [h1] at e17; cases e17
  obtain ⟨u3, w11, e18, g11⟩ := bind_ok g10
  obtain ⟨a, w12, e19, g12⟩ := bind_ok g11
  obtain ⟨oc, w13, e20, g13⟩ := bind_ok g12
  obtain ⟨j, w14, e21, g14⟩ := bind_ok g13
  obtain ⟨rules, w15, e22, g15⟩ := bind_ok g14
  obtain ⟨x, w16, e23, g16⟩ := bind_ok g15
  rw [PyM.lift_apply] at e23
  have := (needArray_inv (congrArg Prod.fst e23)).1
  rw [hnot] at this
  cases this

/-- **C22** is false of the code for such scalars: `-s` and `s / v` raise `TypeError`. -/
theorem C22_false {w : World K} {t c : Id'} {o : Obj K} {x : CalcObj} (hx : x.role = .tensor ∧ x.tensor = some t)
    (ho : w.objs[t]? = some o) (ha : o.alive = true) (hc : o.coords = c) (hn : ¬ Native w t c) (u : K) :
    Fails (calcNeg E x) w .typeError ∧ Fails (calcDiv E x u) w .typeError := by
  have h : requireArray x w = (.error .typeError, w) := by
    have hnot : o.isArray o.coords = false := by
      cases hb : o.isArray o.coords with
      | false => rfl
      | true =>
        refine absurd (fun o' ho' hi => ?_) hn
        rw [ho] at ho'; cases ho'
        rw [hc] at hb
        exact head_isArray hb hi
    have h1 : tensorOf x w = (.ok (t, o), w) := by
      unfold tensorOf
      rw [hx.2]
      dsimp only
      rw [PyM.bind_apply, getObj_ok ho ha]
      rfl
    unfold requireArray
    rw [if_neg (by simp [hx.1]), PyM.bind_apply, h1]
    dsimp only
    rw [hnot]
    rfl
  unfold calcNeg calcDiv
  exact ⟨⟨w, by rw [PyM.bind_apply, h]⟩, ⟨w, by rw [PyM.bind_apply, h]⟩⟩

/-! ### A session -/

/-- Three coordinate systems (objects 0, 1 and 2) of the plane with the same coordinates and rules between them, a
metric (object 3), and two scalars (objects 4 and 5), the first of which is moved to the second system. -/
def Spec.movedCalls : List (Call ℚ) :=
  [.coordinates (.val "A") (.val [2]) ["x", "y"] (.tuple [1]) (.val "x"),
   .coordinates (.val "B") (.val [2]) ["x", "y"] (.tuple [1]) (.val "x"),
   .coordinates (.val "C") (.val [2]) ["x", "y"] (.tuple [1]) (.val "x"),
   .transformation 0 1 (some []), .transformation 0 2 (some []), .transformation 1 2 (some []),
   .metric (.val "Flat") (.val ⟨[2, 2], [1, 0, 0, 1]⟩) 0 (.tuple [-1, -1]) (.val "g"),
   .tensor (.val "S") (.val ⟨[], [5]⟩) 3 0 (.tuple []) (.val "T"),
   .tensor (.val "R") (.val ⟨[], [5]⟩) 3 0 (.tuple []) (.val "T"),
   .setCoords 4 1]

/-- The session after these calls. -/
def Spec.movedWorld : World ℚ := history codeEngine [] movedCalls fresh

/-- The other scalar, which has not been moved, is shown in the third system; the one that has been moved is not. -/
example : (getComponents codeEngine 5 (some 2) (some []) movedWorld).1.toOption.map Arr.data = some [5] ∧
    (getComponents codeEngine 4 (some 1) (some []) movedWorld).1.toOption.map Arr.data = some [5] ∧
    (getComponents codeEngine 4 (some 2) (some []) movedWorld).1.toOption.map Arr.data = none := by
  decide +kernel

theorem moved_object : ∃ o, movedWorld.objs[4]? = some o ∧ o.kind = .tensor ∧ o.coords = 1 ∧ o.alive = true ∧
    o.indices = [] ∧ o.comps.head?.map (·.1) = some 0 ∧ o.comps.get? 2 = none ∧
    (o.comps.get? 1).bind (·.get? []) = some ⟨[], [5]⟩ := by
  refine ⟨(movedWorld.objs[4]?).getD (freshObj .tensor "" "" [] 0 0 []), ?_⟩
  decide +kernel

theorem moved_known : Known codeEngine movedWorld .tensor 4 1 [] ⟨[], [5]⟩ ∧ Unseen movedWorld 4 2 ∧
    ¬ Native movedWorld 4 1 := by
  obtain ⟨o, h1, h2, h3, h4, h5, h6, h7, h8⟩ := moved_object
  refine ⟨⟨⟨o, h1, h2, h3⟩, ?_⟩, ?_, ?_⟩
  · obtain ⟨d, k1, k2⟩ := Option.bind_eq_some_iff.1 h8
    have hc : ∃ oc, movedWorld.objs[1]? = some oc ∧ oc.kind = .coordinates := by
      refine ⟨(movedWorld.objs[1]?).getD (freshObj .tensor "" "" [] 0 0 []), ?_⟩
      decide +kernel
    obtain ⟨oc, c1, c2⟩ := hc
    rw [getComponents_eq h1 h4, Option.getD_some, Option.getD_some]
    unfold getRepresentation
    rw [PyM.bind_apply, isCoordinates_apply, c1]
    dsimp only
    rw [if_neg (by simp [c2]), PyM.bind_apply, getObj_ok h1 h4]
    dsimp only
    rw [PyM.bind_apply, PyM.lift_apply, h5]
    dsimp only [validateIndices]
    have htc : checkRepresentation codeEngine 4 1 [] movedWorld = (.ok true, movedWorld) := by
      rw [checkRepresentation_tensor 4 1 [] h1 h4 (by rw [h2]; decide)]
      unfold tensorCheck
      rw [PyM.bind_apply, getObj_ok h1 h4]
      dsimp only
      rw [k1]
      dsimp only
      rw [(Dict.has_iff _ _).2 ⟨_, k2⟩]
      rfl
    refine PyM.then_ok htc ?_
    exact readComps_ok h1 h4 k1 k2
  · intro o' ho'
    rw [h1] at ho'; cases ho'
    exact h7
  · intro hn
    have := hn o h1 h5
    rw [h6] at this
    simp at this

/-- C13, C22: the scalar that has been moved meets the hypotheses. -/
example : (∀ b' w', getComponents codeEngine 4 (some 2) (some []) movedWorld ≠ (.ok b', w')) ∧
    Fails (calcNeg codeEngine ⟨.tensor, some 4, []⟩) movedWorld .typeError ∧
    Fails (calcDiv codeEngine ⟨.tensor, some 4, []⟩ (1 / 2)) movedWorld .typeError := by
  obtain ⟨k1, k2, k3⟩ := moved_known
  obtain ⟨o, h1, -, h3, h4, -⟩ := moved_object
  exact ⟨C13_false k1 k2 k3, C22_false ⟨rfl, rfl⟩ h1 h4 h3 k3 _⟩

/-- C74, C76: so it does there. -/
example (P : Printers ℚ) (T : Typeset ℚ) (opt : Options) :
    getComponentsWith codeEngine P 4 (some 1) (some []) none (some fun x => 2 * x) "sympy" movedWorld =
        (.error .typeError, movedWorld) ∧
    showTensor codeEngine T opt 4 (some 1) (some []) (some fun x => 2 * x) none movedWorld =
        (.error .typeError, movedWorld) := by
  obtain ⟨k1, -, k3⟩ := moved_known
  obtain ⟨o, h1, -, h3, h4, -⟩ := moved_object
  exact ⟨C74_false codeEngine P none _ (by decide +kernel) k1.returns h1 k3,
    (C76_scalar_false codeEngine T opt k1.returns h1 h1 k3 _ none).1⟩

/-- C59 is false of such scalars: the components are exported without the braces that importing expects. -/
theorem C59_scalar_false : ∃ s, exportObj codePrinter movedWorld 4 = .ok s ∧ ∀ n, 800 ≤ n →
      (importFromString codeEngine codeImporter n s movedWorld).map Prod.fst = some (.error .typeError) := by
  refine ⟨textOf movedWorld 4, by decide +kernel, fun n hn => ?_⟩
  rw [import_enough (k := 800) (by decide +kernel) hn]
  decide +kernel

/-- C59: the scalar that has not been moved can be imported. -/
example : (importFromString codeEngine codeImporter 800 (textOf movedWorld 5) movedWorld).map
    (fun r => (r.1, (r.2.objs[6]?).map fun o => (o.name, (o.comps.get? 0).bind (·.get? [])))) =
      some (.ok 6, some ("R", some ⟨[], [5]⟩)) := by
  decide +kernel

end PyOGRe
