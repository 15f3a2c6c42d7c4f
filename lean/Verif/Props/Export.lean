import Verif.Lemmas.ImportedAll
import Verif.Spec.Codes
import Verif.Spec.Line
import Verif.Props.Represent
import Verif.Props.Registry
import Verif.Props.Parser

/-!
# Exporting and importing (C59-C61)
-/

namespace PyOGRe
open Spec

section
variable {K : Type} [DecidableEq K] [CommRing K]

theorem says_object {R : Reader K} {name : String} (hn : Nameable name) {l : List (String × List Char × Val K)}
    (h : ∀ x ∈ l, Nameable x.1 ∧ Says R x.2.1 x.2.2) (hnd : ((l ++ [versionPart]).map Prod.fst).Nodup) :
    Says R (assocText [entryText (quotedText name)
      (assocText ((l.map fun y => entryText (quotedText y.1) y.2.1) ++ [entryText (quotedText "OGReVersion") versionText]))])
      (strDict [(name, partsVal (l ++ [versionPart]))]) := by
  have h1 : Says R (partsText (l ++ [versionPart])) (partsVal (l ++ [versionPart])) := by
    refine says_parts ?_ hnd
    intro x hx
    rcases List.mem_append.1 hx with hx | hx
    · exact h x hx
    · rw [List.mem_singleton] at hx; subst hx; exact versionPart_ok R
  have h2 := says_parts (R := R) (l := [(name, partsText (l ++ [versionPart]), partsVal (l ++ [versionPart]))])
    (by intro x hx; rw [List.mem_singleton] at hx; subst hx; exact ⟨hn, h1⟩) (by simp)
  have e : partsText [(name, partsText (l ++ [versionPart]), partsVal (l ++ [versionPart]))] =
      assocText [entryText (quotedText name) (assocText ((l.map fun y => entryText (quotedText y.1) y.2.1) ++
        [entryText (quotedText "OGReVersion") versionText]))] := by
    simp [partsText, versionPart]
  rw [e] at h2
  exact h2

theorem importFrom_says {E : Engine K} {I : Importer K} {s : List Char} {v : Val K} (h : Says I.toReader s v)
    {w : World K} {r : Except PyErr Id' × World K} (hr : importFromVal E I v w = r) :
    ∃ N, ∀ n, N ≤ n → importFromString E I n s w = some r := by
  obtain ⟨N, hN⟩ := h.readsAs
  refine ⟨N, fun n hn => ?_⟩
  unfold importFromString
  rw [hN n hn]
  simp only [hr]

theorem stringToTensors_one {I : Importer K} {w : World K} {name : String} {v : Val K} {x : Import K}
    (hn : name ≠ "Options") (h : importOne I w (.str name.toList) v = .ok x) :
    stringToTensors I w (strDict [(name, v)]) = .ok [x] := by
  unfold stringToTensors strDict
  simp only [List.map_cons, List.map_nil]
  rw [importEach, if_neg]
  · rw [h]; rfl
  · rw [same_str]; simpa using hn

/-- **C59**, tensors: exporting a tensor and importing the text creates a new object of the same class with
the same name, symbol, default indices, default coordinates, metric and default components, and changes
nothing else.

Partial: the texts of the components, the symbols and the names must be readable (`Exportable`), the symbol
must not be empty, the dimension must be at least two (`C59_line_false`), the name must not be `Options`
(`C59_options_false`), and the coordinates and the metric must be the ones found by their names. -/
theorem C59_tensor_partial (E : Engine K) (P : Printer K) (I : Importer K) (w : World K) (t : Id') (o c m : Obj K)
    (a : Arr K) (h1 : I.atom ['1'] = .ok 1) (hne : (1 : K) ≠ -1) (ht : IsObj w t o)
    (hk : o.kind ≠ .coordinates ∧ o.kind ≠ .metric) (hx : Exportable P I w o c a)
    (hc : (registeredAs w c.name).head? = some o.coords)
    (hm : IsObj w o.metric m ∧ m.kind = .metric ∧ Nameable m.name ∧
      (registeredAs w m.name).getLast? = some o.metric) (hn : o.name ≠ "Options") :
    ∃ s, exportObj P w t = .ok s ∧ ∃ N, ∀ n, N ≤ n → importFromString E I n s w =
      some (.ok w.objs.length,
        { objs := w.objs ++ [restored o a o.coords o.metric], instances := w.instances ++ [w.objs.length] }) := by
  obtain ⟨d, x, g1, g2, g3, g4, g5, g6⟩ := tensor_text h1 hx hk.1 hm.1 hm.2.2.1
  have hs := says_object (R := I.toReader) hx.name g6 (by
    simp [tensorParts, versionPart])
  refine ⟨_, ?_, importFrom_says hs ?_⟩
  · unfold exportObj
    rw [ht.1]
    simp only [ht.2, Bool.not_true, Bool.false_eq_true, if_false, g5, py_ok_bind]
    rfl
  · have e1 := stringToTensors_one hn (importOne_tensor (P := P) (I := I) (w := w) (mn := m.name) hne g1 g2 g3
      hx.indices hx.restores hk.1 g4 (Or.inr rfl))
    have e2 : metricRef w o.kind m.name = some (.obj o.metric) := by
      unfold metricRef
      rw [if_neg hk.2]
      have : namedInstances w (some m.name) = registeredAs w m.name := rfl
      rw [this, hm.2.2.2]
    have e3 : (namedInstances w (some c.name)).head? = some o.coords := hc
    have e4 : newTensor o.kind (.val o.name) (.val a) o.metric o.coords (.tuple o.indices) (.val o.symbol) w =
        (.ok w.objs.length,
          { objs := w.objs ++ [restored o a o.coords o.metric], instances := w.instances ++ [w.objs.length] }) :=
      newTensor_restored hx hx.coords.1.1 hx.coords.2.1 hx.coords.1.2 rfl hm.1.1 hm.2.1
    unfold importFromVal
    rw [PyM.bind_apply, PyM.world_apply]
    dsimp only
    rw [PyM.bind_apply, PyM.lift_apply, e1]
    dsimp only [tensorImport]
    rw [PyM.bind_apply]
    unfold firstNamed
    simp only [e3]
    unfold importTensor
    simp only [List.isEmpty_nil, Bool.not_true, Bool.false_eq_true, if_false, e2]
    rcases hkind : o.kind <;> first | exact absurd hkind hk.1 | exact absurd hkind hk.2 | skip
    all_goals (rw [hkind] at e4; exact e4)

/-- **C59**, metrics.  Partial as for tensors; moreover the default indices must be both lower or both
upper (`C59_metric_false`), and the default components must still pass the checks of the constructor, as they
did when the metric was created. -/
theorem C59_metric_partial (E : Engine K) (P : Printer K) (I : Importer K) (w : World K) (t : Id') (o c m : Obj K)
    (a b : Arr K) (h1 : I.atom ['1'] = .ok 1) (hne : (1 : K) ≠ -1) (ht : IsObj w t o)
    (hk : o.kind = .metric) (hx : Exportable P I w o c a)
    (hc : (registeredAs w c.name).head? = some o.coords) (hm : IsObj w o.metric m ∧ Nameable m.name)
    (hix : o.indices = [-1, -1] ∨ o.indices = [1, 1])
    (hs : ∀ i j, i < c.syms.length → j < c.syms.length → a.get [i, j] = a.get [j, i])
    (hdet : E.det a ≠ 0) (hinv : E.inv a = .ok b) (hn : o.name ≠ "Options") :
    ∃ s, exportObj P w t = .ok s ∧ ∃ N, ∀ n, N ≤ n → importFromString E I n s w =
      some (.ok w.objs.length,
        { objs := w.objs ++ [{ restored o a o.coords w.objs.length with
            comps := [(o.coords, [(o.indices, a), ([1, -1], eye c.syms.length), ([-1, 1], eye c.syms.length),
              (negIndices o.indices, b)])] }],
          instances := w.instances ++ [w.objs.length] }) := by
  have hk1 : o.kind ≠ .coordinates := by rw [hk]; decide
  obtain ⟨d, x, g1, g2, g3, g4, g5, g6⟩ := tensor_text h1 hx hk1 hm.1 hm.2
  have hsays := says_object (R := I.toReader) hx.name g6 (by simp [tensorParts, versionPart])
  refine ⟨_, ?_, importFrom_says hsays ?_⟩
  · unfold exportObj
    rw [ht.1]
    simp only [ht.2, Bool.not_true, Bool.false_eq_true, if_false, g5, py_ok_bind]
    rfl
  · have e1 := stringToTensors_one hn (importOne_tensor (P := P) (I := I) (w := w) (mn := m.name) hne g1 g2 g3
      hx.indices hx.restores hk1 g4 (Or.inr rfl))
    have e3 : (namedInstances w (some c.name)).head? = some o.coords := hc
    have e4 : newMetric E (.val o.name) (.val a) o.coords (.tuple o.indices) (.val o.symbol) w =
        (.ok w.objs.length,
        { objs := w.objs ++ [{ restored o a o.coords w.objs.length with
            comps := [(o.coords, [(o.indices, a), ([1, -1], eye c.syms.length), ([-1, 1], eye c.syms.length),
              (negIndices o.indices, b)])] }],
          instances := w.instances ++ [w.objs.length] }) :=
      newMetric_restored hx hk hx.coords.1.1 hx.coords.2.1 hx.coords.1.2 rfl hix hs hdet hinv
    unfold importFromVal
    rw [PyM.bind_apply, PyM.world_apply]
    dsimp only
    rw [PyM.bind_apply, PyM.lift_apply, e1]
    dsimp only [tensorImport]
    rw [PyM.bind_apply]
    unfold firstNamed
    simp only [e3]
    unfold importTensor
    simp only [List.isEmpty_nil, Bool.not_true, Bool.false_eq_true, if_false, hk]
    exact e4

/-- **C59**, coordinate systems: exporting a coordinate system and importing the text creates a new coordinate
system with the same name, symbol, coordinates and transformations, and changes nothing else.

Partial: the texts must be readable, the symbol must not be empty, there must be at least two coordinates, the
name must not be `Options`, and the targets of the transformations must be the only objects with their names;
rules that are `None` are dropped. -/
theorem C59_coordinates_partial (E : Engine K) (P : Printer K) (I : Importer K) (w : World K) (t : Id') (o : Obj K)
    (h1 : I.atom ['1'] = .ok 1) (hne : (1 : K) ≠ -1) (ht : IsObj w t o) (hx : ExportableCoords P I w o)
    (hkeys : UniqueKeys o.trans) (hreg : ∀ p ∈ o.trans, registeredAs w (nameIn w p.1) = [p.1]) (hn : o.name ≠ "Options") :
    ∃ s, exportObj P w t = .ok s ∧ ∃ N, ∀ n, N ≤ n → importFromString E I n s w =
      some (.ok w.objs.length,
        { objs := w.objs ++ [restoredCoords o], instances := w.instances ++ [w.objs.length] }) := by
  obtain ⟨jac, g1, g2, g3⟩ := coord_text h1 hx
  have hs := says_object (R := I.toReader) hx.name g3 (by
    rcases g1 with rfl | ⟨s, v, rfl⟩ <;> simp [coordParts, versionPart])
  refine ⟨_, ?_, importFrom_says hs ?_⟩
  · unfold exportObj
    rw [ht.1]
    simp only [ht.2, Bool.not_true, Bool.false_eq_true, if_false, g2, py_ok_bind]
    rfl
  · have e1 := stringToTensors_one hn (importOne_coords (w' := w) hne hx g1 (Or.inr rfl))
    have e2 : transOf w (o.trans.map fun p => (Val.str (nameIn w p.1).toList, rulesVal I P (rulesDict p.2))) =
        o.trans.map fun p => (Ref.obj p.1, rulesVal I P (rulesDict p.2)) := transOf_registered (f := fun r => rulesVal I P (rulesDict r)) _ hreg
    rw [e2] at e1
    unfold importFromVal
    rw [PyM.bind_apply, PyM.world_apply]
    dsimp only
    rw [PyM.bind_apply, PyM.lift_apply, e1]
    dsimp only [coordImport]
    exact importCoordinates_ok hx hkeys (fun p hp => ⟨p, hp, rfl⟩) rfl

/-- **C60**, one object: if `import_from_string` raises, nothing has changed. -/
theorem C60_one_partial (E : Engine K) (hT : EngineTotal E) (I : Importer K) (n : Nat) (s : List Char) (w w' : World K)
    (e : PyErr) (h : importFromString E I n s w = some (.error e, w')) : w' = w := by
  have hlift : ∀ {α : Type} (x : Py α) (f : α → PyM K Id') {v : World K}, (PyM.lift x >>= f) w = (.error e, v) →
      v = w ∨ ∃ a, x = .ok a ∧ f a w = (.error e, v) := by
    intro α x f v hx
    rw [PyM.bind_apply, PyM.lift_apply] at hx
    cases x with
    | error e' => cases hx; exact Or.inl rfl
    | ok a => exact Or.inr ⟨a, rfl, hx⟩
  unfold importFromString at h
  cases hp : parseStr I.toReader n s with
  | none => rw [hp] at h; cases h
  | some r =>
    rw [hp] at h
    cases r with
    | error e' => cases h; rfl
    | ok v =>
      simp only [Option.some.injEq] at h
      unfold importFromVal at h
      rw [PyM.bind_apply, PyM.world_apply] at h
      dsimp only at h
      rcases hlift _ _ h with h | ⟨l, -, h⟩
      · exact h
      cases l with
      | nil => cases h; rfl
      | cons x l =>
        dsimp only at h
        cases hc : x.coords with
        | none =>
          rw [hc] at h
          dsimp only at h
          unfold importCoordinates at h
          rcases hlift _ _ h with h | ⟨_, -, h⟩
          · exact h
          rcases hlift _ _ h with h | ⟨_, -, h⟩
          · exact h
          rcases hlift _ _ h with h | ⟨_, -, h⟩
          · exact h
          cases h
        | some r =>
          rw [hc] at h
          dsimp only at h
          have hr : ∃ c, (match c with
              | none => PyM.raise .exception
              | some c => importTensor E { x with coords := some (.obj c) } : PyM K Id') w = (.error e, w') := by
            cases r with
            | obj i => exact ⟨some i, h⟩
            | name s => exact ⟨_, h⟩
          obtain ⟨c, h⟩ := hr
          cases c with
          | none => cases h; rfl
          | some c =>
            dsimp only at h
            unfold importTensor at h
            dsimp only at h
            split_ifs at h with ht
            · cases h; rfl
            · cases hk : x.kind <;> rw [hk] at h
              case coordinates => cases h; rfl
              case metric =>
                dsimp only at h
                by_cases hA : MetricArgsOK E w x.name (.val x.comps) c (.tuple x.indices) x.symbol
                · obtain ⟨m, w'', h', -⟩ := (C20_metric_constructor E hT x.name (.val x.comps) c (.tuple x.indices)
                    x.symbol w).1 hA
                  rw [h'] at h; cases h
                · obtain ⟨e', w'', h', h''⟩ := (C20_metric_constructor E hT x.name (.val x.comps) c
                    (.tuple x.indices) x.symbol w).2 hA
                  rw [h'] at h; cases h
                  exact h'' (by simp)
              all_goals
                (cases hm : x.metric with
                | none => rw [hm] at h; cases h; rfl
                | some m =>
                  cases m with
                  | name s => rw [hm] at h; cases h; rfl
                  | obj m =>
                    rw [hm] at h
                    dsimp only at h
                    by_cases hA : TensorArgsOK w x.name (.val x.comps) m c (.tuple x.indices) x.symbol
                    · obtain ⟨t, w'', h'⟩ := newTensor_iff.1 hA
                      rw [h'] at h; cases h
                    · obtain ⟨e', h'⟩ := newTensor_iff.2 hA
                      rw [h'] at h; cases h; rfl)

/-- C60 is false of `import_all_from_string`: after any sequence of calls, if the text cannot be read the
registry has been emptied all the same. -/
theorem C60_false [Algebra ℚ K] (E : Engine K) (I : Importer K) (letters : List Sym) (calls : List (Call K)) (n : Nat)
    (s : List Char) (e : PyErr) (h : parseStr I.toReader n s = some (.error e)) :
    ∃ w', importAllFromString E I n s (history E letters calls fresh) = some (.error e, w') ∧ w'.instances = [] := by
  obtain ⟨w', h1, h2⟩ := C49_clear E letters calls
  refine ⟨w', ?_, h2⟩
  unfold importAllFromString
  rw [h1]
  simp only [h]

/-- The result does not depend on the bound once it is large enough. -/
theorem parseStr_settled (R : Reader K) {s : List Char} {ts : List Tok} {n : Nat}
    (ht : tokens (squeeze (strReplace holdMark [] s)) = some (.ok ts)) (hn : 8 * ts.length + 4 ≤ n) :
    parseStr R n s = parseStr R (8 * ts.length + 4) s := by
  unfold parseStr
  rw [ht]
  simp only [parse_settled hn]

end

/-! ### Examples -/

/-- The text of an object. -/
def Spec.textOf (w : World ℚ) (t : Id') : List Char := match exportObj codePrinter w t with
  | .ok s => s
  | .error _ => []

/-- The text of everything. -/
def Spec.textOfAll (w : World ℚ) : List Char := match exportAll codePrinter w with
  | .ok s => s
  | .error _ => []

/-- Number of steps after which the parser has ended. -/
def Spec.enough (k : Nat) (s : List Char) : Bool := match tokens (squeeze (strReplace holdMark [] s)) with
  | some (.ok ts) => decide (8 * ts.length + 4 ≤ k)
  | _ => false

theorem import_enough {w : World ℚ} {s : List Char} {k : Nat} (h : enough k s = true) {n : Nat} (hn : k ≤ n) :
    importFromString codeEngine codeImporter n s w = importFromString codeEngine codeImporter k s w := by
  unfold enough at h
  cases ht : tokens (squeeze (strReplace holdMark [] s)) with
  | none => rw [ht] at h; cases h
  | some r =>
    rw [ht] at h
    cases r with
    | error e => cases h
    | ok ts =>
      have hk : 8 * ts.length + 4 ≤ k := by simpa using h
      unfold importFromString
      rw [parseStr_settled _ ht hk, parseStr_settled _ ht (hk.trans hn)]

theorem importAll_enough {w : World ℚ} {s : List Char} {k : Nat} (h : enough k s = true) {n : Nat} (hn : k ≤ n) :
    importAllFromString codeEngine codeImporter n s w = importAllFromString codeEngine codeImporter k s w := by
  unfold enough at h
  cases ht : tokens (squeeze (strReplace holdMark [] s)) with
  | none => rw [ht] at h; cases h
  | some r =>
    rw [ht] at h
    cases r with
    | error e => cases h
    | ok ts =>
      have hk : 8 * ts.length + 4 ≤ k := by simpa using h
      unfold importAllFromString
      rw [parseStr_settled _ ht hk, parseStr_settled _ ht (hk.trans hn)]

end PyOGRe
