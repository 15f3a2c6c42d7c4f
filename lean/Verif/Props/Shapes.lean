import Verif.Lemmas.ShapeHistory
import Verif.Props.Attributes
import Verif.Props.Default
import Verif.Props.Display
import Verif.Props.Scalars

/-!
# The shapes of answers: C127

An array of components has one axis for every index of the tensor, and each axis should be as long as the coordinate
system in which the components are asked for.
-/

namespace PyOGRe
open Spec
variable {K : Type}

section
variable [CommRing K] [DecidableEq K] [Algebra ℚ K] {E : Engine K}

theorem tame_of_ok {n : Nat} (hE : EngineOK E) (hn : 0 < n) : Tame E n :=
  ⟨hn, hE.simp_eq, fun a b ha hb => (hE.inv_ok n a b ha hb).2.1⟩

theorem fits_history {n : Nat} [Tame E n] {letters : List Sym} {ks : List (Call K)} {w : World K}
    (hw : w = history E letters ks fresh) (hd : AllDim n w) : Fits n w := by
  subst hw
  exact (history_fits letters ks fresh hd).2 fun i o h => by
    rw [show (fresh : World K).objs = [] from rfl] at h; cases h

omit [DecidableEq K] [Algebra ℚ K] in
theorem asked_coordinates {E : Engine K} {t c : Id'} {ix : List Int} {a : Arr K} {w : World K}
    (h : (getRepresentation E t c ix w).1 = .ok a) : Sys w c := by
  unfold getRepresentation at h
  rw [PyM.bind_apply, show isCoordinates (K := K) c w = (.ok ((w.objs[c]?).any fun o => o.kind == .coordinates), w) from rfl] at h
  cases hb : (w.objs[c]?).any fun o => o.kind == .coordinates with
  | false => simp only [hb] at h; cases h
  | true =>
    obtain ⟨o, h1, h2⟩ := some_of_any hb
    exact ⟨o, h1, by simpa using h2⟩

omit [DecidableEq K] [Algebra ℚ K] in
theorem curve_asked_coordinates {E : Engine K} {C : Curves K} {t c : Id'} {ix : List Int} {a : Arr K} {w : World K}
    (h : (curveRepresentation E C t c ix w).1 = .ok a) : Sys w c := by
  unfold curveRepresentation at h
  rw [PyM.bind_apply, show isCoordinates (K := K) c w = (.ok ((w.objs[c]?).any fun o => o.kind == .coordinates), w) from rfl] at h
  cases hb : (w.objs[c]?).any fun o => o.kind == .coordinates with
  | false => simp only [hb] at h; cases h
  | true =>
    obtain ⟨o, h1, h2⟩ := some_of_any hb
    exact ⟨o, h1, by simpa using h2⟩

/-- **C127**, partly: in any session in which all coordinate systems have the same number of coordinates, whatever the
calls and whether they returned or raised, an answer of `get_components` has one axis for every index of the tensor, and
each axis is as long as the coordinate system in which the components were asked for.  Missing: coordinate systems with
different numbers of coordinates, for which `C127_false` shows that the full claim is false. -/
theorem C127_shapes_partial (hE : EngineOK E) {n : Nat} (hn : 0 < n) (letters : List Sym) (ks : List (Call K)) (w : World K)
    (hw : w = history E letters ks fresh)
    (hd : ∀ (i : Id') (o : Obj K), w.objs[i]? = some o → o.kind = .coordinates → o.syms.length = n)
    (t : Id') (c : Option Id') (ix : Option (List Int)) (a : Arr K) (w' : World K)
    (h : getComponents E t c ix w = (.ok a, w')) :
    ∃ o oc, w.objs[t]? = some o ∧ w.objs[c.getD o.coords]? = some oc ∧ oc.kind = .coordinates ∧
      (ix.getD o.indices).length = o.indices.length ∧
      a.shape = List.replicate o.indices.length oc.syms.length := by
  haveI := tame_of_ok hE hn
  have hf := fits_history hw hd
  unfold getComponents at h
  obtain ⟨o, w1, h1, h2⟩ := bind_ok h
  obtain ⟨hw1, ho, -⟩ := getObj_inv h1
  rw [hw1] at h2
  have h3 : (getRepresentation E t (c.getD o.coords) (ix.getD o.indices) w).1 = .ok a := by rw [h2]
  obtain ⟨oc, h4, h5⟩ := asked_coordinates h3
  have hc := (Sd.getRepresentation (E := E) t (c.getD o.coords) (ix.getD o.indices) hd w (Frame.refl _) hf).2.2 a h3
  obtain ⟨o', h6, -, h7, -⟩ := hc.rk
  rw [ho] at h6
  cases h6
  exact ⟨o, oc, ho, h4, h5, h7.symm, by rw [hc.shape, ← h7, hd _ _ h4 h5]⟩

/-- **C127**, partly, for the equations of motion, whose components are shown as functions of the curve parameter.  What
is missing is the same. -/
theorem C127_curve_partial (hE : EngineOK E) {n : Nat} (hn : 0 < n) (C : Curves K) (letters : List Sym) (ks : List (Call K))
    (w : World K) (hw : w = history E letters ks fresh)
    (hd : ∀ (i : Id') (o : Obj K), w.objs[i]? = some o → o.kind = .coordinates → o.syms.length = n)
    (t : Id') (c : Option Id') (ix : Option (List Int)) (a : Arr K) (w' : World K)
    (h : curveComponents E C t c ix w = (.ok a, w')) :
    ∃ o oc, w.objs[t]? = some o ∧ w.objs[c.getD o.coords]? = some oc ∧ oc.kind = .coordinates ∧
      (ix.getD o.indices).length = o.indices.length ∧
      a.shape = List.replicate o.indices.length oc.syms.length := by
  haveI := tame_of_ok hE hn
  have hf := fits_history hw hd
  unfold curveComponents at h
  obtain ⟨o, w1, h1, h2⟩ := bind_ok h
  obtain ⟨hw1, ho, -⟩ := getObj_inv h1
  rw [hw1] at h2
  obtain ⟨b, w2, h2, h8⟩ := bind_ok h2
  obtain ⟨oc', w3, h9, h10⟩ := bind_ok h8
  have h3 : (curveRepresentation E C t (c.getD o.coords) (ix.getD o.indices) w).1 = .ok b := by rw [h2]
  obtain ⟨oc, h4, h5⟩ := curve_asked_coordinates h3
  have hc := (Sd.curveRepresentation (E := E) (C := C) t (c.getD o.coords) (ix.getD o.indices) hd w (Frame.refl _) hf).2.2 b h3
  obtain ⟨o', h6, -, h7, -⟩ := hc.rk
  rw [ho] at h6
  cases h6
  have hs : a.shape = b.shape := by cases h10; rfl
  exact ⟨o, oc, ho, h4, h5, h7.symm, by rw [hs, hc.shape, ← h7, hd _ _ h4 h5]⟩

/-- **C127**, partly: the components of a new tensor set the shape of all its answers.  Whatever calls come after its
creation, and in whatever coordinates and index configuration it is asked for, the answer has the shape of the array with
which it was created.  What is missing is the same. -/
theorem C127_lasting_partial (hE : EngineOK E) {n : Nat} (hn : 0 < n) (letters : List Sym) (ks ks' : List (Call K))
    (name : Arg String) (a : Arr K) (m c : Id') (ix : IndicesArg) (symbol : Arg String) (t : Id')
    (w : World K) (hnew : newTensor .tensor name (.val a) m c ix symbol (history E letters ks fresh) = (.ok t, w))
    (w' : World K) (hw' : w' = history E letters ks' w)
    (hd : ∀ (i : Id') (o : Obj K), w'.objs[i]? = some o → o.kind = .coordinates → o.syms.length = n)
    (c' : Option Id') (ix' : Option (List Int)) (b : Arr K) (w'' : World K)
    (h : getComponents E t c' ix' w' = (.ok b, w'')) : b.shape = a.shape := by
  haveI := tame_of_ok hE hn
  subst hw'
  obtain ⟨hd1, hf1⟩ := history_fits (n := n) (E := E) letters ks' w hd
  have hsh := Sh.newTensor (n := n) .tensor name (.val a) m c ix symbol (K := K)
  have hd0 := hsh.1 (history E letters ks fresh) (by rw [hnew]; exact hd1)
  have hf0 := hsh.2 (history E letters ks fresh) (by rw [hnew]; exact hd1) (fits_history rfl hd0)
  rw [hnew] at hf0
  have hf := hf1 hf0
  obtain ⟨o, ho, hi⟩ : ∃ o, w.objs[t]? = some o ∧ o.indices.length = a.shape.length ∧ a.shape = List.replicate a.shape.length n := by
    unfold newTensor at hnew
    obtain ⟨b, w1, h1, h2⟩ := bind_ok hnew
    have hw1 : w1 = history E letters ks fresh := by cases h1; rfl
    subst hw1
    cases b with
    | false => cases h2
    | true =>
      rw [if_neg (by simp)] at h2
      rcases newBase_forms .tensor name (.val a) (some m) c ix symbol (history E letters ks fresh) with ⟨e, h3⟩ |
        ⟨oc, a', ix', o, g1, g2, g3, g4, g5, -, g7, -, g9, -, -, -, -, g14⟩
      · rw [h3] at h2; cases h2
      · rw [g14] at h2
        cases h2
        cases g3
        refine ⟨o, by simp, by rw [g9, g5], List.eq_replicate_of_mem fun d hm => ?_⟩
        rw [g7 d hm]
        exact hd0 _ _ g1 g2
  obtain ⟨o', ho', -, -, -, -, -, -, hl, -⟩ := C81_attributes E letters ks' w ho
  unfold getComponents at h
  obtain ⟨o2, w1, h1, h2⟩ := bind_ok h
  obtain ⟨hw1, ho2, -⟩ := getObj_inv h1
  rw [hw1] at h2
  have hc := (Sd.getRepresentation (E := E) t (c'.getD o2.coords) (ix'.getD o2.indices) hd _ (Frame.refl _) hf).2.2 b (by rw [h2])
  obtain ⟨o3, h6, -, h7, -⟩ := hc.rk
  rw [ho'] at h6
  cases h6
  rw [hc.shape, ← h7, hl, hi.1, ← hi.2]

end

/-! ### The full claim is false -/

/-- A line with one coordinate (object 0), a plane with two (object 1), rules from the first to the second, a metric
(object 2) and a vector (object 3). -/
def lineInPlane : List (Call ℚ) :=
  [.coordinates (.val "Line") (.val [1]) ["x"] (.tuple [1]) (.val "x"),
   .coordinates (.val "Plane") (.val [2]) ["u", "v"] (.tuple [1]) (.val "u"),
   .transformation 0 1 (some [some ("x", 210)]),
   .metric (.val "Flat") (.val ⟨[1, 1], [3]⟩) 0 (.tuple [-1, -1]) (.val "g"),
   .tensor (.val "V") (.val ⟨[1], [5]⟩) 2 0 (.tuple [1]) (.val "V")]

/-- **C127** in full is false: rules from one coordinate to two are accepted, and a vector asked for in the two
coordinates has one component. -/
theorem C127_false : ∃ (E : Engine ℚ) (w w' : World ℚ) (t c : Id') (o oc : Obj ℚ) (a : Arr ℚ), EngineOK E ∧
    w = history E [] lineInPlane fresh ∧ w.objs[t]? = some o ∧ w.objs[c]? = some oc ∧ oc.kind = .coordinates ∧
    getComponents E t (some c) none w = (.ok a, w') ∧ o.indices.length = 1 ∧ oc.syms.length = 2 ∧ a.shape = [1] := by
  obtain ⟨o, h1, h2⟩ := some_of_any (x := (history rodEngine [] lineInPlane fresh).objs[3]?)
    (p := fun o => o.indices.length == 1) (by decide +kernel)
  obtain ⟨oc, h3, h4⟩ := some_of_any (x := (history rodEngine [] lineInPlane fresh).objs[1]?)
    (p := fun o => o.kind == .coordinates && o.syms.length == 2) (by decide +kernel)
  simp only [Bool.and_eq_true, beq_iff_eq] at h2 h4
  have h5 : (getComponents rodEngine 3 (some 1) none (history rodEngine [] lineInPlane fresh)).1 = .ok ⟨[1], [5 / 2]⟩ := by
    decide +kernel
  exact ⟨rodEngine, _, (getComponents rodEngine 3 (some 1) none (history rodEngine [] lineInPlane fresh)).2, 3, 1, o, oc,
    ⟨[1], [5 / 2]⟩, rodEngine_ok, rfl, h1, h3, h4.1, Prod.ext h5 rfl, h2, h4.2, rfl⟩

/-! ### Sessions -/

theorem forall_of_all {α : Type} {l : List α} {p : α → Bool} (h : l.all p = true) {i : Nat} {a : α} (ha : l[i]? = some a) :
    p a = true := List.all_eq_true.1 h a (List.mem_of_getElem? ha)

/-- Two lines with rules between them, a metric (object 2) and a vector (object 3). -/
def twoLines : List (Call ℚ) :=
  [.coordinates (.val "Old") (.val [1]) ["x"] (.tuple [1]) (.val "x"),
   .coordinates (.val "New") (.val [1]) ["u"] (.tuple [1]) (.val "u"),
   .transformation 0 1 (some [some ("x", 210)]),
   .metric (.val "Flat") (.val ⟨[1, 1], [3]⟩) 0 (.tuple [-1, -1]) (.val "g"),
   .tensor (.val "V") (.val ⟨[1], [5]⟩) 2 0 (.tuple [1]) (.val "V")]

/-- All coordinate systems of the session have one coordinate, and its answers have one component. -/
example : EngineOK rodEngine ∧ (∀ (i : Id') (o : Obj ℚ), (history rodEngine [] twoLines fresh).objs[i]? = some o →
      o.kind = .coordinates → o.syms.length = 1) ∧
    (getComponents rodEngine 3 (some 1) none (history rodEngine [] twoLines fresh)).1 = .ok ⟨[1], [5 / 2]⟩ ∧
    (getComponents rodEngine 3 (some 1) (some [-1]) (history rodEngine [] twoLines fresh)).1 = .ok ⟨[1], [30]⟩ ∧
    (getComponents rodEngine 2 (some 1) none (history rodEngine [] twoLines fresh)).1 = .ok ⟨[1, 1], [12]⟩ := by
  refine ⟨rodEngine_ok, fun i o h hk => ?_, by decide +kernel, by decide +kernel, by decide +kernel⟩
  have := forall_of_all (l := (history rodEngine [] twoLines fresh).objs)
    (p := fun o => !(o.kind == .coordinates) || o.syms.length == 1) (by decide +kernel) h
  simpa [hk] using this

/-- The same with two coordinates: three systems of the plane, a metric and two scalars. -/
example : EngineOK codeEngine ∧ (∀ (i : Id') (o : Obj ℚ), (history codeEngine [] movedCalls fresh).objs[i]? = some o →
      o.kind = .coordinates → o.syms.length = 2) ∧
    (getComponents codeEngine 5 (some 2) none (history codeEngine [] movedCalls fresh)).1.toOption.map Arr.shape = some [] ∧
    (getComponents codeEngine 3 none (some [1, 1]) (history codeEngine [] movedCalls fresh)).1.toOption.map Arr.shape = some [2, 2] := by
  refine ⟨codeEngine_ok, fun i o h hk => ?_, by decide +kernel, by decide +kernel⟩
  have := forall_of_all (l := (history codeEngine [] movedCalls fresh).objs)
    (p := fun o => !(o.kind == .coordinates) || o.syms.length == 2) (by decide +kernel) h
  simpa [hk] using this

/-- The session with a geodesic equation. -/
def motionOnLines : World ℚ := history rodEngine [] (twoLines ++ [.curve rodCurves .fromChristoffel 2 none]) fresh

/-- The equation in the new coordinates. -/
example : ∃ t, (∀ (i : Id') (o : Obj ℚ), motionOnLines.objs[i]? = some o → o.kind = .coordinates → o.syms.length = 1) ∧
    (curveComponents rodEngine rodCurves t (some 1) none motionOnLines).1 = .ok ⟨[1], [102]⟩ := by
  have hall : (motionOnLines.objs.all fun o => !(o.kind == .coordinates) || o.syms.length == 1) = true := by decide +kernel
  refine ⟨21, fun i o h hk => ?_, by decide +kernel⟩
  have := forall_of_all hall h
  simpa [hk] using this

/-- A vector is created, moved to other coordinates, its index is lowered, and it still has one axis. -/
example : let r := newTensor .tensor (.val "W") (.val ⟨[1], [7]⟩) 2 0 (.tuple [1]) (.val "W") (history rodEngine [] twoLines fresh)
    r.1 = .ok 4 ∧ (∀ (i : Id') (o : Obj ℚ), (history rodEngine [] [.setCoords 4 1, .setIndices 4 [-1]] r.2).objs[i]? = some o →
      o.kind = .coordinates → o.syms.length = 1) ∧
    (getComponents rodEngine 4 none none (history rodEngine [] [.setCoords 4 1, .setIndices 4 [-1]] r.2)).1 = .ok ⟨[1], [42]⟩ := by
  refine ⟨by decide +kernel, fun i o h hk => ?_, by decide +kernel⟩
  have := forall_of_all (p := fun o : Obj ℚ => !(o.kind == .coordinates) || o.syms.length == 1) (by decide +kernel) h
  simpa [hk] using this

end PyOGRe
