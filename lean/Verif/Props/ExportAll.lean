import Verif.Props.ExportLimits

/-!
# Exporting and importing everything (C61)
-/

namespace PyOGRe
open Spec

section
variable {K : Type} [DecidableEq K] [CommRing K]

omit [DecidableEq K] [CommRing K] in
theorem exportEach_ok {P : Printer K} {w : World K} {O : Id' → Obj K} {t : Id' → List (List Char)} :
    ∀ {l : List Id'}, (∀ i ∈ l, IsObj w i (O i) ∧ exportEntries P w (O i) = .ok (t i)) →
    exportEach P w l = .ok (l.map fun i => entryText (quotedText (O i).name) (assocText (t i)))
  | [], _ => rfl
  | i :: l, h => by
    obtain ⟨⟨h1, h2⟩, h3⟩ := h i (by simp)
    rw [exportEach, h1]
    simp only [h3, py_ok_bind,
      exportEach_ok fun j hj => h j (List.mem_cons_of_mem _ hj)]
    rfl

omit [DecidableEq K] [CommRing K] in
theorem exportAll_of {P : Printer K} {w : World K} {L : List (List Char)} (h : exportEach P w w.instances = .ok L)
    (hL : L ≠ []) : exportAll P w = .ok (assocText (entryText (quotedText "Options")
      (assocText [entryText (quotedText "OGReVersion") versionText]) :: L)) := by
  obtain ⟨j, js, rfl⟩ := List.exists_cons_of_ne_nil hL
  unfold exportAll
  rw [h, py_ok_bind]
  generalize entryText (quotedText "Options") _ = s
  unfold assocText
  rw [joinText]
  simp [List.append_assoc]

theorem importEach_all {I : Importer K} {w : World K} {nm : Id' → String} {val : Id' → Val K} {X : Id' → Import K} :
    ∀ {l : List Id'}, (∀ i ∈ l, nm i ≠ "Options" ∧ importOne I w (.str (nm i).toList) (val i) = .ok (X i)) →
    importEach I w (l.map fun i => (Val.str (nm i).toList, val i)) = .ok (l.map X)
  | [], _ => rfl
  | i :: l, h => by
    obtain ⟨h1, h2⟩ := h i (by simp)
    rw [List.map_cons, importEach, if_neg (by rw [same_str]; simpa using h1), h2,
      importEach_all fun j hj => h j (List.mem_cons_of_mem _ hj)]
    rfl

theorem recreated_exists {E : Engine K} {P : Printer K} {I : Importer K} {w : World K} (new : Id' → Id') {i : Id'}
    {o : Obj K} (ho : IsObj w i o)
    (h : ImportableCoords P I w i o ∨ ImportableMetric E P I w o ∨ ImportableTensor P I w o) :
    ∃ o', Recreated E w new i o' ∧ o'.alive = true := by
  unfold Recreated
  rcases h with h | h | h
  · exact ⟨_, ⟨o, ho, by rw [if_pos h.1.kind]⟩, rfl⟩
  · obtain ⟨hk, -, -, -, c, a, b, hx, -, -, hb⟩ := h
    obtain ⟨d, q1, q2⟩ := hx.default
    exact ⟨_, ⟨o, ho, by
      rw [if_neg (by rw [hk]; decide)]
      exact ⟨c, d, a, hx.coords.1, q1, q2, by rw [if_pos hk]; exact ⟨b, hb, rfl⟩⟩⟩, rfl⟩
  · obtain ⟨hk, hk', -, -, -, c, a, hx⟩ := h
    obtain ⟨d, q1, q2⟩ := hx.default
    exact ⟨_, ⟨o, ho, by
      rw [if_neg hk]
      exact ⟨c, d, a, hx.coords.1, q1, q2, by rw [if_neg hk']⟩⟩, rfl⟩

/-- The text of the options. -/
def optionsPart : String × List Char × Val K := ("Options", partsText [versionPart (K := K)], partsVal [versionPart])

theorem optionsPart_ok (R : Reader K) : Nameable (optionsPart (K := K)).1 ∧
    Says R (optionsPart (K := K)).2.1 optionsPart.2.2 := by
  refine ⟨nameable_key (s := "Options") (by decide), says_parts ?_ (by simp)⟩
  intro x hx
  rw [List.mem_singleton] at hx
  subst hx
  exact versionPart_ok _

/-- The whole text. -/
theorem all_says {I : Importer K} {l : List Id'} {nm : Id' → String} {p : Id' → List (String × List Char × Val K)}
    (hn : (l.map nm).Nodup) (ho : ∀ i ∈ l, nm i ≠ "Options")
    (h : ∀ i ∈ l, Nameable (nm i) ∧ (∀ y ∈ p i, Nameable y.1 ∧ Says I.toReader y.2.1 y.2.2) ∧ ((p i).map Prod.fst).Nodup) :
    Says I.toReader (assocText (entryText (quotedText "Options")
        (assocText [entryText (quotedText "OGReVersion") versionText]) ::
          l.map fun i => entryText (quotedText (nm i)) (assocText ((p i).map fun y => entryText (quotedText y.1) y.2.1))))
      (strDict (("Options", partsVal [versionPart]) :: l.map fun i => (nm i, partsVal (p i)))) := by
  have := says_parts (R := I.toReader) (l := optionsPart :: l.map fun i => (nm i, partsText (p i), partsVal (p i))) (by
      intro y hy
      rcases List.mem_cons.1 hy with rfl | hy
      · exact optionsPart_ok _
      · obtain ⟨i, hi, rfl⟩ := List.mem_map.1 hy
        exact ⟨(h i hi).1, says_parts (h i hi).2.1 (h i hi).2.2⟩) (by
      rw [List.map_cons, List.map_map, List.nodup_cons]
      refine ⟨?_, hn⟩
      intro h
      obtain ⟨i, hi, e⟩ := List.mem_map.1 h
      exact ho i hi e)
  unfold partsText partsVal at this
  rw [List.map_cons, List.map_cons, List.map_map, List.map_map] at this
  exact this

/-- **C61** Exporting everything and importing the text creates every registered coordinate system, metric and
tensor again: same class, name, symbol, default indices, default components, coordinates and
transformations, each over the new coordinates and with the new metric; nothing else is registered.

Partial: something must be registered, all names must be different (`C61_false`), the texts must be readable,
the coordinates, the metrics and the targets of the transformations must be registered, the dimension must be
at least two, and the metrics must still have both indices lower or upper. -/
theorem C61_partial (E : Engine K) (P : Printer K) (I : Importer K) (w : World K) (h1 : I.atom ['1'] = .ok 1)
    (hne : (1 : K) ≠ -1) (hs : Sound w) (hw : ImportableAll E P I w) (hsome : w.instances ≠ []) :
    ∃ s w0 w', exportAll P w = .ok s ∧ clearInstances w = (.ok (), w0) ∧
      (∃ N, ∀ n, N ≤ n → importAllFromString E I n s w = some (.ok (), w')) ∧
      w'.instances = (importOrder w).map (fun j => w0.objs.length + (importOrder w).idxOf j) ∧
      (importOrder w).Perm w.instances ∧
      ∀ i ∈ w.instances, ∃ o', IsObj w' (w0.objs.length + (importOrder w).idxOf i) o' ∧
        Recreated E w (fun j => w0.objs.length + (importOrder w).idxOf j) i o' := by
  obtain ⟨w0, hclear, h0⟩ := clear_returns hs
  have hex : ∀ i ∈ w.instances, ∃ o l x, IsObj w i o ∧
      exportEntries P w o = .ok (l.map fun y => entryText (quotedText y.1) y.2.1) ∧
      (∀ y ∈ l, Nameable y.1 ∧ Says I.toReader y.2.1 y.2.2) ∧ (l.map Prod.fst).Nodup ∧ Nameable o.name ∧
      importOne I w0 (.str o.name.toList) (partsVal l) = .ok x ∧ ReadAgain P I w o x ∧
      ∃ o', Recreated E w (fun j => w0.objs.length + (importOrder w).idxOf j) i o' ∧ o'.alive = true := by
    intro i hi
    obtain ⟨o, ho, h⟩ := hw.each i hi
    obtain ⟨l, x, g1, g2, g3, g4, g5, g6⟩ := importable_text (E := E) (P := P) h1 hne h0 h
    refine ⟨o, l, x, ho, g1, g2, g3, g4, g5, g6, ?_⟩
    exact recreated_exists _ ho h
  obtain ⟨i0, hi0⟩ := List.exists_mem_of_ne_nil _ hsome
  obtain ⟨o0, l0, x0, -⟩ := hex i0 hi0
  haveI : Nonempty (Obj K) := ⟨o0⟩
  haveI : Nonempty (Import K) := ⟨x0⟩
  choose! O l X hO hen hsay hkeys hnm hone hread f hf hal using hex
  have hname : ∀ i ∈ w.instances, nameIn w i = (O i).name := fun i hi => (hO i hi).nameIn
  have hnames : (w.instances.map fun i => (O i).name).Nodup := by
    have := hw.names
    rwa [List.map_congr_left hname] at this
  have hno : ∀ i ∈ w.instances, (O i).name ≠ "Options" := fun i hi => by
    rw [← hname i hi]; exact hw.options i hi
  have hsays := all_says (I := I) hnames hno fun i hi => ⟨hnm i hi, hsay i hi, hkeys i hi⟩
  have htext := exportAll_of (exportEach_ok fun i hi => ⟨hO i hi, hen i hi⟩) (by simpa using hsome)
  have hv : stringToTensors I w0 (strDict (("Options", partsVal [versionPart]) ::
      w.instances.map fun i => ((O i).name, partsVal (l i)))) = .ok (w.instances.map X) := by
    unfold stringToTensors strDict
    rw [List.map_cons, List.map_map]
    dsimp only
    rw [importEach, if_pos (by rw [same_str]; simp)]
    exact importEach_all (nm := fun i => (O i).name) (val := fun i => partsVal (l i)) fun i hi => ⟨hno i hi, hone i hi⟩
  have hmain := importAll_stages h0 hw hO hread hv hf
  refine ⟨_, w0, rebuilt w0 f (importOrder w), htext, hclear, ?_, ?_, importOrder_perm w, ?_⟩
  · obtain ⟨N, hN⟩ := hsays.readsAs
    refine ⟨N, fun n hn => ?_⟩
    unfold importAllFromString
    rw [hclear]
    simp only [hN n hn, hmain]
  · have hnd : (importOrder w).Nodup :=
      List.Nodup.of_map (nameIn w) ((((importOrder_perm w).map _).nodup_iff).2 hw.names)
    exact range'_idxOf _ hnd
  · intro i hi
    exact ⟨f i, ⟨rebuilt_obj w0 f ((importOrder_perm w).symm.subset hi), hal i hi⟩, hf i hi⟩

end

/-- Everything in `codeWorld` can be exported and imported. -/
theorem codeWorld_importable : ImportableAll codeEngine codePrinter codeImporter codeWorld where
  names := by decide +kernel
  options := by decide +kernel
  each := by
    intro i hi
    have : i = 0 ∨ i = 1 ∨ i = 2 := by
      rw [codeWorld_eq] at hi
      simpa using hi
    rcases this with rfl | rfl | rfl
    · exact ⟨codeCoords, codeWorld_coords, Or.inl ⟨codeCoords_exportable, by unfold UniqueKeys; decide +kernel,
        by simp [codeCoords]⟩⟩
    · have hsym : ∀ i < 2, ∀ j < 2, (⟨[2, 2], [1, 0, 0, 1]⟩ : Arr ℚ).get [i, j] =
          (⟨[2, 2], [1, 0, 0, 1]⟩ : Arr ℚ).get [j, i] := by decide +kernel
      exact ⟨codeMetric, codeWorld_metric, Or.inr (Or.inl ⟨rfl, by decide +kernel,
        ⟨codeMetric, codeWorld_metric, codeMetric_exportable.name⟩, Or.inl rfl, codeCoords, _, ⟨[2, 2], [1, 0, 0, 1]⟩,
        codeMetric_exportable, fun i j hi hj => hsym i hi j hj, by decide +kernel, by decide +kernel⟩)⟩
    · exact ⟨codeVector, codeWorld_vector, Or.inr (Or.inr ⟨by decide, by decide, by decide +kernel, by decide +kernel,
        ⟨codeMetric, codeWorld_metric, rfl, codeMetric_exportable.name⟩, codeCoords, _, codeVector_exportable⟩)⟩

/-- The whole of `codeWorld` comes back. -/
example : Sound codeWorld ∧ ImportableAll codeEngine codePrinter codeImporter codeWorld ∧ codeWorld.instances ≠ [] :=
  ⟨sound_history _ _ _ sound_fresh, codeWorld_importable, by rw [codeWorld_eq]; decide⟩

/-- The text of the empty registry has a superfluous comma, which the parser accepts. -/
example : (importAllFromString codeEngine codeImporter 300 (textOfAll fresh) (fresh : World ℚ)).map Prod.fst =
    some (.ok ()) := by decide +kernel

end PyOGRe
