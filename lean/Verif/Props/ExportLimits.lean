import Verif.Props.Export

/-!
# Exporting and importing: examples, and where the properties fail (C59-C61)

Sessions with numbers (`Spec/Codes.lean`), evaluated in full.
-/

namespace PyOGRe
open Spec

/-! ### Examples for C59 -/

/-- The coordinates, the metric and the vector of `codeWorld`. -/
def Spec.codeCoords : Obj ℚ :=
  { kind := .coordinates, name := "Plane", symbol := "x", indices := [1], coords := 0, metric := 0, comps := [],
    syms := ["x", "y"], trans := [], jac := [], alive := true }

def Spec.codeMetric : Obj ℚ :=
  { kind := .metric, name := "Flat", symbol := "g", indices := [-1, -1], coords := 0, metric := 1,
    comps := [(0, [([-1, -1], ⟨[2, 2], [1, 0, 0, 1]⟩), ([1, -1], ⟨[2, 2], [1, 0, 0, 1]⟩),
      ([-1, 1], ⟨[2, 2], [1, 0, 0, 1]⟩), ([1, 1], ⟨[2, 2], [1, 0, 0, 1]⟩)])],
    syms := [], trans := [], jac := [], alive := true }

def Spec.codeVector : Obj ℚ :=
  { kind := .tensor, name := "V", symbol := "v", indices := [1], coords := 0, metric := 1,
    comps := [(0, [([1], ⟨[2], [100, 2]⟩)])], syms := [], trans := [], jac := [], alive := true }

theorem codeWorld_eq : codeWorld = { objs := [codeCoords, codeMetric, codeVector], instances := [0, 1, 2] } := by
  decide +kernel

theorem expressed_word {K : Type} [DecidableEq K] [CommRing K] {R : Reader K} {w : List Char} (h : Word w) {x : K}
    (hx : R.atom w = .ok x) : Expressed R w x :=
  ⟨[.expr w], _, by simp [text, Tok.text], Block.word h, .ofTerm (.ofFactor (.ofBase (.word _))), by
    rw [visit, hx]; rfl⟩

/-- The coordinates can be exported. -/
theorem codeCoords_exportable : ExportableCoords codePrinter codeImporter codeWorld codeCoords where
  kind := rfl
  name := (legible_iff_check _).1 (by decide +kernel)
  symbol := ⟨by decide +kernel, 100, expressed_word ⟨by decide +kernel, by decide +kernel⟩ (by decide +kernel), by decide +kernel⟩
  indices := rfl
  syms := by
    intro s hs
    have : s = "x" ∨ s = "y" := by simpa [codeCoords] using hs
    rcases this with rfl | rfl
    · exact ⟨100, expressed_word ⟨by decide +kernel, by decide +kernel⟩ (by decide +kernel), by decide +kernel⟩
    · exact ⟨101, expressed_word ⟨by decide +kernel, by decide +kernel⟩ (by decide +kernel), by decide +kernel⟩
  big := by decide
  jac := by simp [codeCoords]
  trans := by simp [codeCoords]
  targets := by simp [codeCoords]

theorem codeWorld_coords : IsObj codeWorld 0 codeCoords := by rw [codeWorld_eq]; exact ⟨rfl, rfl⟩

theorem codeWorld_metric : IsObj codeWorld 1 codeMetric := by rw [codeWorld_eq]; exact ⟨rfl, rfl⟩

theorem codeWorld_vector : IsObj codeWorld 2 codeVector := by rw [codeWorld_eq]; exact ⟨rfl, rfl⟩

/-- The vector can be exported. -/
theorem codeVector_exportable : Exportable codePrinter codeImporter codeWorld codeVector codeCoords ⟨[2], [100, 2]⟩ where
  name := (legible_iff_check _).1 (by decide +kernel)
  symbol := ⟨by decide +kernel, 103, expressed_word ⟨by decide +kernel, by decide +kernel⟩ (by decide +kernel), by decide +kernel⟩
  indices := by simp [codeVector]
  coords := ⟨codeWorld_coords, rfl, codeCoords_exportable.name⟩
  keys := by unfold UniqueKeys; decide +kernel
  others := by
    intro p hp
    have : p = (0, [([1], ⟨[2], [100, 2]⟩)]) := by simpa [codeVector] using hp
    subst this
    exact ⟨by unfold UniqueKeys; decide +kernel, codeCoords, codeWorld_coords, codeCoords_exportable.name,
      fun h => absurd rfl h⟩
  arrays := by
    intro p hp q hq
    have : p = (0, [([1], ⟨[2], [100, 2]⟩)]) := by simpa [codeVector] using hp
    subst this
    have : q = ([1], ⟨[2], [100, 2]⟩) := by simpa using hq
    subst this
    refine ⟨by simp, rfl, ?_⟩
    intro x hx
    have : x = 100 ∨ x = 2 := by simpa using hx
    rcases this with rfl | rfl
    · exact expressed_word (w := ['x']) ⟨by decide +kernel, by decide +kernel⟩ (by decide +kernel)
    · exact expressed_word (w := ['2']) ⟨by decide +kernel, by decide +kernel⟩ (by decide +kernel)
  default := ⟨_, rfl, rfl⟩
  shape := rfl
  native := by decide
  big := by decide

/-- The metric can be exported. -/
theorem codeMetric_exportable :
    Exportable codePrinter codeImporter codeWorld codeMetric codeCoords ⟨[2, 2], [1, 0, 0, 1]⟩ where
  name := (legible_iff_check _).1 (by decide +kernel)
  symbol := ⟨by decide +kernel, 102, expressed_word ⟨by decide +kernel, by decide +kernel⟩ (by decide +kernel), by decide +kernel⟩
  indices := by simp [codeMetric]
  coords := ⟨codeWorld_coords, rfl, codeCoords_exportable.name⟩
  keys := by unfold UniqueKeys; decide +kernel
  others := by
    intro p hp
    have h1 : p.1 = 0 := by
      simp only [codeMetric, List.mem_singleton] at hp
      rw [hp]
    refine ⟨?_, codeCoords, by rw [h1]; exact codeWorld_coords, codeCoords_exportable.name, fun h => absurd h1 h⟩
    simp only [codeMetric, List.mem_singleton] at hp
    rw [hp]
    unfold UniqueKeys
    decide +kernel
  arrays := by
    intro p hp q hq
    simp only [codeMetric, List.mem_singleton] at hp
    subst hp
    have h2 : q.2 = ⟨[2, 2], [1, 0, 0, 1]⟩ ∧ ∀ i ∈ q.1, i = 1 ∨ i = -1 := by
      simp only [List.mem_cons, List.not_mem_nil, or_false] at hq
      rcases hq with rfl | rfl | rfl | rfl <;> simp
    refine ⟨h2.2, by rw [h2.1]; rfl, ?_⟩
    rw [h2.1]
    intro x hx
    have : x = 0 ∨ x = 1 := by simp at hx; tauto
    rcases this with rfl | rfl
    · exact expressed_word (w := ['0']) ⟨by decide +kernel, by decide +kernel⟩ (by decide +kernel)
    · exact expressed_word (w := ['1']) ⟨by decide +kernel, by decide +kernel⟩ (by decide +kernel)
  default := ⟨_, rfl, rfl⟩
  shape := rfl
  native := by decide
  big := by decide

/-- The vector of `codeWorld` comes back. -/
example : ∃ s, exportObj codePrinter codeWorld 2 = .ok s ∧ ∃ N, ∀ n, N ≤ n →
    importFromString codeEngine codeImporter n s codeWorld = some (.ok 3,
      { objs := [codeCoords, codeMetric, codeVector, codeVector], instances := [0, 1, 2, 3] }) := by
  have := C59_tensor_partial codeEngine codePrinter codeImporter codeWorld 2 codeVector codeCoords codeMetric
    ⟨[2], [100, 2]⟩ (by decide +kernel) (by norm_num) codeWorld_vector ⟨by decide, by decide⟩ codeVector_exportable
    (by decide +kernel) ⟨codeWorld_metric, rfl, codeMetric_exportable.name, by decide +kernel⟩ (by decide +kernel)
  rw [codeWorld_eq] at this ⊢
  exact this

/-- The metric of `codeWorld` comes back. -/
example : ∃ s, exportObj codePrinter codeWorld 1 = .ok s ∧ ∃ N, ∀ n, N ≤ n →
    importFromString codeEngine codeImporter n s codeWorld = some (.ok 3,
      { objs := [codeCoords, codeMetric, codeVector, { codeMetric with metric := 3 }],
        instances := [0, 1, 2, 3] }) := by
  have hsym : ∀ i < 2, ∀ j < 2, (⟨[2, 2], [1, 0, 0, 1]⟩ : Arr ℚ).get [i, j] =
      (⟨[2, 2], [1, 0, 0, 1]⟩ : Arr ℚ).get [j, i] := by decide +kernel
  have := C59_metric_partial codeEngine codePrinter codeImporter codeWorld 1 codeMetric codeCoords codeMetric
    ⟨[2, 2], [1, 0, 0, 1]⟩ ⟨[2, 2], [1, 0, 0, 1]⟩ (by decide +kernel) (by norm_num) codeWorld_metric rfl
    codeMetric_exportable (by decide +kernel) ⟨codeWorld_metric, codeMetric_exportable.name⟩ (Or.inl rfl)
    (fun i j hi hj => hsym i hi j hj) (by decide +kernel) (by decide +kernel) (by decide +kernel)
  rw [codeWorld_eq] at this ⊢
  exact this

/-- The coordinates of `codeWorld` come back. -/
example : ∃ s, exportObj codePrinter codeWorld 0 = .ok s ∧ ∃ N, ∀ n, N ≤ n →
    importFromString codeEngine codeImporter n s codeWorld = some (.ok 3,
      { objs := [codeCoords, codeMetric, codeVector, codeCoords], instances := [0, 1, 2, 3] }) := by
  have := C59_coordinates_partial codeEngine codePrinter codeImporter codeWorld 0 codeCoords (by decide +kernel)
    (by norm_num) codeWorld_coords codeCoords_exportable (by unfold UniqueKeys; decide +kernel)
    (by simp [codeCoords]) (by decide +kernel)
  rw [codeWorld_eq] at this ⊢
  exact this

/-! ### Where C59 and C61 fail -/

/-- C59 is false in one dimension: a vector of a line is exported, but its text cannot be imported, because the
list with its only component is taken for a scalar. -/
theorem C59_line_false : let w := history codeEngine [] (lineCalls "V" "W") fresh
    ∃ s, exportObj codePrinter w 2 = .ok s ∧ ∀ n, 800 ≤ n →
      (importFromString codeEngine codeImporter n s w).map Prod.fst = some (.error .indicesDimensionError) := by
  intro w
  refine ⟨textOf w 2, by decide +kernel, fun n hn => ?_⟩
  rw [import_enough (k := 800) (by decide +kernel) hn]
  decide +kernel

/-- Coordinates and a metric of the plane, and a vector with the given name and symbol. -/
def Spec.vectorCalls (name symbol : String) : List (Call ℚ) :=
  codeCalls ++ [.tensor (.val name) (.val ⟨[2], [2, 2]⟩) 1 0 (.tuple [1]) (.val symbol)]

/-- C59 is false of the name `Options`: the entry is skipped, and nothing is left to import. -/
theorem C59_options_false : let w := history codeEngine [] (vectorCalls "Options" "u") fresh
    ∃ s, exportObj codePrinter w 3 = .ok s ∧ ∀ n, 800 ≤ n →
      (importFromString codeEngine codeImporter n s w).map Prod.fst = some (.error .indexError) := by
  intro w
  refine ⟨textOf w 3, by decide +kernel, fun n hn => ?_⟩
  rw [import_enough (k := 800) (by decide +kernel) hn]
  decide +kernel

/-- C59 is false of a tensor without a symbol: the imported one has the symbol `T`. -/
theorem C59_symbol_false : let w := history codeEngine [] (vectorCalls "W" "") fresh
    ∃ s, exportObj codePrinter w 3 = .ok s ∧ (w.objs[3]?).map Obj.symbol = some "" ∧ ∀ n, 800 ≤ n →
      (importFromString codeEngine codeImporter n s w).map (fun r => (r.1, (r.2.objs[4]?).map Obj.symbol)) =
        some (.ok 4, some "T") := by
  intro w
  refine ⟨textOf w 3, by decide +kernel, by decide +kernel, fun n hn => ?_⟩
  rw [import_enough (k := 800) (by decide +kernel) hn]
  decide +kernel

/-- C59 is false of names with two spaces in a row: they come back with one. -/
theorem C59_name_false : let w := history codeEngine [] (vectorCalls "A  B" "u") fresh
    ∃ s, exportObj codePrinter w 3 = .ok s ∧ (w.objs[3]?).map Obj.name = some "A  B" ∧ ∀ n, 800 ≤ n →
      (importFromString codeEngine codeImporter n s w).map (fun r => (r.1, (r.2.objs[4]?).map Obj.name)) =
        some (.ok 4, some "A B") := by
  intro w
  refine ⟨textOf w 3, by decide +kernel, by decide +kernel, fun n hn => ?_⟩
  rw [import_enough (k := 800) (by decide +kernel) hn]
  decide +kernel

/-- C59 is false of geodesic equations, whose default symbol is `0`: the imported symbol is the number zero,
which the constructor refuses. -/
theorem C59_geodesic_false :
    let w := (newTensor .geodesicTime (.val "Geodesic") (.val ⟨[2], [0, 1]⟩) 1 0 (.tuple [1]) (.val "0") codeWorld).2
    ∃ s, exportObj codePrinter w 3 = .ok s ∧ ∀ n, 800 ≤ n →
      (importFromString codeEngine codeImporter n s w).map Prod.fst = some (.error .typeError) := by
  intro w
  refine ⟨textOf w 3, by decide +kernel, fun n hn => ?_⟩
  rw [import_enough (k := 800) (by decide +kernel) hn]
  decide +kernel

/-- C59 is false of a metric whose default indices have been changed to one upper and one lower: the
constructor refuses them. -/
theorem C59_metric_false : let w := (changeDefaultIndices codeEngine 1 [1, -1] codeWorld).2
    ∃ s, exportObj codePrinter w 1 = .ok s ∧ ∀ n, 2000 ≤ n →
      (importFromString codeEngine codeImporter n s w).map Prod.fst = some (.error .valueError) := by
  intro w
  refine ⟨textOf w 1, by decide +kernel, fun n hn => ?_⟩
  rw [import_enough (k := 2000) (by decide +kernel) hn]
  decide +kernel

/-- C61 is false when two objects have the same name, as all results of `Calc` have unless told otherwise:
only the last one comes back. -/
theorem C61_false : let w := history codeEngine [] (vectorCalls "V" "u") fresh
    ∃ s, exportAll codePrinter w = .ok s ∧ w.instances = [0, 1, 2, 3] ∧ ∀ n, 5000 ≤ n →
      (importAllFromString codeEngine codeImporter n s w).map (fun r =>
        (r.1, r.2.instances.map fun i => (r.2.objs[i]?).map Obj.symbol)) =
        some (.ok (), [some "x", some "g", some "u"]) := by
  intro w
  refine ⟨textOfAll w, by decide +kernel, by decide +kernel, fun n hn => ?_⟩
  rw [importAll_enough (k := 5000) (by decide +kernel) hn]
  decide +kernel

end PyOGRe
