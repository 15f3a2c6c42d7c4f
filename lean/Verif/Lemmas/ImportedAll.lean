import Verif.Lemmas.Rebuilt

/-!
# Importing everything that has been exported
-/

namespace PyOGRe
open Spec

section
variable {K : Type} [DecidableEq K] [CommRing K]

theorem Spec.Exportable.restores {P : Printer K} {I : Importer K} {w : World K} {o c : Obj K} {a : Arr K}
    (h : Exportable P I w o c a) : Restores a := by
  obtain ⟨d, h1, h2⟩ := h.default
  refine ⟨(h.arrays _ (Dict.get?_mem h1) _ (Dict.get?_mem h2)).2.1, ?_⟩
  have hb := h.big
  rw [h.shape]
  by_cases he : o.indices = []
  · left; rw [he]; rfl
  · right
    intro x hx
    rw [List.eq_of_mem_replicate hx]
    exact hb.resolve_left he

theorem Spec.Exportable.fits {P : Printer K} {I : Importer K} {w : World K} {o c : Obj K} {a : Arr K}
    (h : Exportable P I w o c a) : (∀ d ∈ a.shape, d = c.syms.length) ∧ IndicesFit a.shape.length (.tuple o.indices) := by
  rw [h.shape]
  refine ⟨fun d hd => List.eq_of_mem_replicate hd, Or.inr ⟨_, rfl, ?_, h.indices⟩⟩
  simp

/-- The constructor of tensors accepts what has been exported. -/
theorem newTensor_restored {P : Printer K} {I : Importer K} {w W : World K} {o c : Obj K} {a : Arr K}
    (hx : Exportable P I w o c a) {cc mm : Id'} {oc om : Obj K} (hc : W.objs[cc]? = some oc)
    (hck : oc.kind = .coordinates) (hca : oc.alive = true) (hcs : oc.syms = c.syms) (hm : W.objs[mm]? = some om)
    (hmk : om.kind = .metric) :
    newTensor o.kind (.val o.name) (.val a) mm cc (.tuple o.indices) (.val o.symbol) W =
      (.ok W.objs.length,
        { objs := W.objs ++ [restored o a cc mm], instances := W.instances ++ [W.objs.length] }) := by
  obtain ⟨i, w', hi⟩ := (newTensor_iff (kind := o.kind) (name := .val o.name) (comps := .val a) (m := mm)
    (c := cc) (ix := .tuple o.indices) (symbol := .val o.symbol) (w := W)).1
    ⟨⟨_, rfl⟩, ⟨_, rfl⟩, ⟨om, hm, hmk⟩, oc, a, hc, hck, hca, rfl, by rw [hcs]; exact hx.fits⟩
  rcases newTensor_cases o.kind (.val o.name) a mm cc (.tuple o.indices) (.val o.symbol) W with
    ⟨e, h⟩ | ⟨oc, om, -, -, -, -, -, -, h⟩
  · rw [hi] at h; cases h
  · rw [h]; rfl

/-- The constructor of metrics accepts what has been exported. -/
theorem newMetric_restored {E : Engine K} {P : Printer K} {I : Importer K} {w W : World K} {o c : Obj K} {a b : Arr K}
    (hx : Exportable P I w o c a) (hk : o.kind = .metric) {cc : Id'} {oc : Obj K} (hc : W.objs[cc]? = some oc)
    (hck : oc.kind = .coordinates) (hca : oc.alive = true) (hcs : oc.syms = c.syms)
    (hix : o.indices = [-1, -1] ∨ o.indices = [1, 1])
    (hs : ∀ i j, i < c.syms.length → j < c.syms.length → a.get [i, j] = a.get [j, i])
    (hdet : E.det a ≠ 0) (hinv : E.inv a = .ok b) :
    newMetric E (.val o.name) (.val a) cc (.tuple o.indices) (.val o.symbol) W =
      (.ok W.objs.length,
      { objs := W.objs ++ [{ restored o a cc W.objs.length with
          comps := [(cc, [(o.indices, a), ([1, -1], eye c.syms.length), ([-1, 1], eye c.syms.length),
            (negIndices o.indices, b)])] }],
        instances := W.instances ++ [W.objs.length] }) := by
  have hshape : a.shape = [c.syms.length, c.syms.length] := by
    rw [hx.shape]
    rcases hix with h | h <;> rw [h] <;> rfl
  have hok := newMetric_accepts (E := E) (name := .val o.name) (symbol := .val o.symbol) (w := W) (a := a)
    (c := cc) (ix := .tuple o.indices) ⟨⟨_, rfl⟩, ⟨_, rfl⟩, by rcases hix with h | h <;> rw [h] <;> simp,
      oc, a, hc, hck, hca, rfl, by rw [hcs]; exact hshape, by rw [hcs]; exact hs, hdet⟩ hinv
  rcases newMetric_cases E (.val o.name) a cc (.tuple o.indices) (.val o.symbol) W with
    ⟨e, he⟩ | ⟨oc', k1, k2, k3, k4, k5, k6, k7⟩
  · exact absurd ⟨e, W, he⟩ hok
  · rw [hc] at k1
    cases k1
    rcases k7 with ⟨e, h | h, -⟩ | ⟨b', h, h'⟩
    · cases h
    · rw [hinv] at h; cases h
    · rw [hinv] at h; cases h
      rw [h', restored, hk, hcs]
      rfl

/-- What is read from the text of an object, when the registry is empty. -/
def ReadAgain (P : Printer K) (I : Importer K) (w : World K) (o : Obj K) (x : Import K) : Prop :=
  if o.kind = .coordinates then
    x = coordImport P I o (o.trans.map fun p => (Ref.name (some (nameIn w p.1)), rulesVal I P (rulesDict p.2)))
  else ∃ c a, Exportable P I w o c a ∧ x = tensorImport o a (nameIn w o.coords)
    (if o.kind = .metric then none else some (.name (some (nameIn w o.metric))))

theorem transOf_empty {w0 : World K} (h0 : w0.instances = []) {β : Type} {g : β → String} {f : β → Val K} :
    ∀ (d : List β), transOf w0 (d.map fun p => (Val.str (g p).toList, f p)) = d.map fun p => (Ref.name (some (g p)), f p)
  | [] => rfl
  | p :: d => by
    rw [List.map_cons, transOf, string?_str, transOf_empty h0 d]
    have : namedInstances w0 (some (g p)) = [] := by simp [namedInstances, h0]
    rw [this]
    rfl

/-- The text of an object and what is read from it. -/
theorem importable_text {E : Engine K} {P : Printer K} {I : Importer K} (h1 : I.atom ['1'] = .ok 1)
    (hne : (1 : K) ≠ -1) {w w0 : World K} (h0 : w0.instances = []) {i : Id'} {o : Obj K}
    (h : ImportableCoords P I w i o ∨ ImportableMetric E P I w o ∨ ImportableTensor P I w o) :
    ∃ (l : List (String × List Char × Val K)) (x : Import K),
      exportEntries P w o = .ok (l.map fun y => entryText (quotedText y.1) y.2.1) ∧
      (∀ y ∈ l, Nameable y.1 ∧ Says I.toReader y.2.1 y.2.2) ∧ (l.map Prod.fst).Nodup ∧ Nameable o.name ∧
      importOne I w0 (.str o.name.toList) (partsVal l) = .ok x ∧ ReadAgain P I w o x := by
  have tensors : ∀ c m a, o.kind ≠ .coordinates → IsObj w o.metric m → Nameable m.name → Exportable P I w o c a →
      ∃ (l : List (String × List Char × Val K)) (x : Import K),
      exportEntries P w o = .ok (l.map fun y => entryText (quotedText y.1) y.2.1) ∧
      (∀ y ∈ l, Nameable y.1 ∧ Says I.toReader y.2.1 y.2.2) ∧ (l.map Prod.fst).Nodup ∧ Nameable o.name ∧
      importOne I w0 (.str o.name.toList) (partsVal l) = .ok x ∧ ReadAgain P I w o x := by
    intro c m a hk hm hmn hx
    obtain ⟨d, x, g1, g2, g3, g4, g5, g6⟩ := tensor_text h1 hx hk hm hmn
    have e := importOne_tensor (P := P) (I := I) (w := w0) (mn := m.name) hne g1 g2 g3
      hx.indices hx.restores hk g4 (Or.inl rfl)
    rw [List.append_nil] at e
    refine ⟨_, _, g5, g6, by simp [tensorParts], hx.name, e, ?_⟩
    unfold ReadAgain
    rw [if_neg hk]
    refine ⟨c, a, hx, ?_⟩
    rw [hx.coords.1.nameIn, hm.nameIn]
    congr 1
    unfold metricRef
    split_ifs with hk'
    · rfl
    · simp [namedInstances, h0]
  rcases h with h | h | h
  · obtain ⟨hx, hk, ht⟩ := h
    obtain ⟨jac, g1, g2, g3⟩ := coord_text h1 hx
    have e := importOne_coords (w' := w0) hne hx g1 (Or.inl rfl)
    rw [List.append_nil, transOf_empty h0] at e
    refine ⟨_, _, g2, g3, ?_, hx.name, e, ?_⟩
    · rcases g1 with rfl | ⟨s, v, rfl⟩ <;> simp [coordParts]
    · unfold ReadAgain
      rw [if_pos hx.kind]
  · obtain ⟨hk, -, ⟨m, hm, hmn⟩, -, c, a, b, hx, -⟩ := h
    exact tensors c m a (by rw [hk]; decide) hm hmn hx
  · obtain ⟨hk, -, -, -, ⟨m, hm, -, hmn⟩, c, a, hx⟩ := h
    exact tensors c m a hk hm hmn hx

omit [DecidableEq K] [CommRing K] in
theorem firstNamed_apply (s : Option String) (w : World K) :
    firstNamed s w = (.ok (namedInstances w s).head?, w) := rfl

omit [DecidableEq K] [CommRing K] in
theorem forEach_map {α β : Type} (f : β → PyM K Unit) (g : α → β) : ∀ l : List α,
    forEach f (l.map g) = forEach (fun a => f (g a)) l
  | [] => rfl
  | a :: l => by rw [List.map_cons, forEach, forEach_map f g l]; rfl

omit [DecidableEq K] [CommRing K] in
theorem mapEach_map {α β γ : Type} (f : β → PyM K γ) (g : α → β) : ∀ l : List α,
    mapEach f (l.map g) = mapEach (fun a => f (g a)) l
  | [] => rfl
  | a :: l => by rw [List.map_cons, mapEach, mapEach_map f g l]; rfl

omit [DecidableEq K] [CommRing K] in
/-- A loop that only checks. -/
theorem forEach_pass {α : Type} {f : α → PyM K Unit} {w : World K} {l : List α}
    (h : ∀ a ∈ l, f a w = (.ok (), w)) : forEach f l w = (.ok (), w) :=
  forEach_steps (fun _ => w) (fun l' a r e => h a (by rw [e]; simp))

omit [DecidableEq K] [CommRing K] in
theorem importOrder_perm (w : World K) : (importOrder w).Perm w.instances := by
  classical
  have h1 := List.filter_append_perm (fun i => decide (kindIn w i = some .coordinates)) w.instances
  have h2 := List.filter_append_perm (fun i => decide (kindIn w i = some .metric))
    (w.instances.filter fun i => !decide (kindIn w i = some .coordinates))
  refine List.Perm.trans ?_ h1
  unfold importOrder
  refine List.Perm.append_left _ ?_
  refine List.Perm.trans (List.Perm.of_eq ?_) h2
  rw [List.filter_filter, List.filter_filter]
  congr 1
  · refine List.filter_congr fun i _ => ?_
    by_cases h : kindIn w i = some .metric
    · rw [h]; decide
    · simp [h]
  · refine List.filter_congr fun i _ => ?_
    by_cases h : kindIn w i = some .metric <;> by_cases h' : kindIn w i = some .coordinates <;> simp [h, h']

/-- The stages of `import_all_from_string`. -/
theorem importAll_stages {E : Engine K} {P : Printer K} {I : Importer K} {w w0 : World K} (h0 : w0.instances = [])
    (hw : ImportableAll E P I w) {O : Id' → Obj K} (hO : ∀ i ∈ w.instances, IsObj w i (O i)) {X : Id' → Import K}
    (hX : ∀ i ∈ w.instances, ReadAgain P I w (O i) (X i)) {v : Val K}
    (hv : stringToTensors I w0 v = .ok (w.instances.map X)) {f : Id' → Obj K}
    (hf : ∀ i ∈ w.instances, Recreated E w (fun j => w0.objs.length + (importOrder w).idxOf j) i (f i)) :
    importAllFromVal E I v w0 = (.ok (), rebuilt w0 f (importOrder w)) := by
  have hperm := importOrder_perm w
  set new : Id' → Id' := fun j => w0.objs.length + (importOrder w).idxOf j with hnew
  set cs := w.instances.filter fun i => kindIn w i = some .coordinates with hcs
  set ms := w.instances.filter fun i => kindIn w i = some .metric with hms
  set ts := w.instances.filter fun i => kindIn w i ≠ some .coordinates ∧ kindIn w i ≠ some .metric with hts
  have horder : importOrder w = cs ++ (ms ++ ts) := rfl
  have hnames : ((importOrder w).map (nameIn w)).Nodup := ((hperm.map _).nodup_iff).2 hw.names
  have hnd : (importOrder w).Nodup := hnames.of_map
  have hkind : ∀ i ∈ w.instances, kindIn w i = some (O i).kind := by
    intro i hi; unfold kindIn; rw [(hO i hi).1]; rfl
  have hname : ∀ i ∈ w.instances, nameIn w i = (O i).name := fun i hi => (hO i hi).nameIn
  have hcase : ∀ i ∈ w.instances, ImportableCoords P I w i (O i) ∨ ImportableMetric E P I w (O i) ∨
      ImportableTensor P I w (O i) := by
    intro i hi
    obtain ⟨o, ho, h⟩ := hw.each i hi
    have : o = O i := by have := ho.1; rw [(hO i hi).1] at this; cases this; rfl
    rwa [this] at h
  have hXc : ∀ i ∈ w.instances, (O i).kind = .coordinates → X i = coordImport P I (O i)
      ((O i).trans.map fun p => (Ref.name (some (nameIn w p.1)), rulesVal I P (rulesDict p.2))) := by
    intro i hi hk
    have := hX i hi
    unfold ReadAgain at this
    rwa [if_pos hk] at this
  have hXt : ∀ i ∈ w.instances, (O i).kind ≠ .coordinates → ∃ c a, Exportable P I w (O i) c a ∧
      X i = tensorImport (O i) a (nameIn w (O i).coords)
        (if (O i).kind = .metric then none else some (.name (some (nameIn w (O i).metric)))) := by
    intro i hi hk
    have := hX i hi
    unfold ReadAgain at this
    rwa [if_neg hk] at this
  have hXkind : ∀ i ∈ w.instances, (X i).kind = (O i).kind := by
    intro i hi
    by_cases hk : (O i).kind = .coordinates
    · rw [hXc i hi hk, hk]; rfl
    · obtain ⟨c, a, -, h⟩ := hXt i hi hk
      rw [h]; rfl
  have hfo : ∀ i ∈ w.instances, ∀ o, IsObj w i o → o = O i := by
    intro i hi o ho
    have := ho.1; rw [(hO i hi).1] at this; cases this; rfl
  have hfc : ∀ i ∈ w.instances, (O i).kind = .coordinates →
      f i = { restoredCoords (O i) with trans := (O i).trans.map fun p => (new p.1, (rulesDict p.2).map some) } := by
    intro i hi hk
    obtain ⟨o, ho, h⟩ := hf i hi
    rw [hfo i hi o ho, if_pos hk] at h
    exact h
  have hfm : ∀ i ∈ w.instances, (O i).kind = .metric → ∀ c a b, Exportable P I w (O i) c a → E.inv a = .ok b →
      f i = { restored (O i) a (new (O i).coords) (new i) with
          comps := [(new (O i).coords, [((O i).indices, a), ([1, -1], eye c.syms.length),
            ([-1, 1], eye c.syms.length), (negIndices (O i).indices, b)])] } := by
    intro i hi hk c a b hx hb
    obtain ⟨o, ho, h⟩ := hf i hi
    rw [hfo i hi o ho, if_neg (by rw [hk]; decide)] at h
    obtain ⟨c', d, a', k1, k2, k3, k4⟩ := h
    rw [if_pos hk] at k4
    obtain ⟨b', k5, k6⟩ := k4
    obtain ⟨d', q1, q2⟩ := hx.default
    rw [k2] at q1; cases q1
    rw [k3] at q2; cases q2
    rw [hb] at k5; cases k5
    have := k1.1
    rw [hx.coords.1.1] at this; cases this
    exact k6
  have hft : ∀ i ∈ w.instances, (O i).kind ≠ .coordinates → (O i).kind ≠ .metric → ∀ c a, Exportable P I w (O i) c a →
      f i = restored (O i) a (new (O i).coords) (new (O i).metric) := by
    intro i hi hk hk' c a hx
    obtain ⟨o, ho, h⟩ := hf i hi
    rw [hfo i hi o ho, if_neg hk] at h
    obtain ⟨c', d, a', k1, k2, k3, k4⟩ := h
    rw [if_neg hk'] at k4
    obtain ⟨d', q1, q2⟩ := hx.default
    rw [k2] at q1; cases q1
    rw [k3] at q2; cases q2
    exact k4
  have hfname : ∀ i ∈ w.instances, (f i).name = nameIn w i := by
    intro i hi
    rw [hname i hi]
    by_cases hk : (O i).kind = .coordinates
    · rw [hfc i hi hk]; rfl
    · obtain ⟨o, ho, h⟩ := hf i hi
      rw [hfo i hi o ho, if_neg hk] at h
      obtain ⟨c', d, a', k1, k2, k3, k4⟩ := h
      split_ifs at k4
      · obtain ⟨b, -, k⟩ := k4; rw [k]; rfl
      · rw [k4]; rfl
  have hmemc : ∀ {i}, i ∈ cs ↔ i ∈ w.instances ∧ (O i).kind = .coordinates := by
    intro i
    rw [hcs, List.mem_filter]
    constructor
    · rintro ⟨h1, h2⟩
      refine ⟨h1, ?_⟩
      rw [hkind i h1] at h2; simpa using h2
    · rintro ⟨h1, h2⟩
      refine ⟨h1, ?_⟩
      rw [hkind i h1, h2]; simp
  have hmemm : ∀ {i}, i ∈ ms ↔ i ∈ w.instances ∧ (O i).kind = .metric := by
    intro i
    rw [hms, List.mem_filter]
    constructor
    · rintro ⟨h1, h2⟩
      refine ⟨h1, ?_⟩
      rw [hkind i h1] at h2; simpa using h2
    · rintro ⟨h1, h2⟩
      refine ⟨h1, ?_⟩
      rw [hkind i h1, h2]; simp
  have hmemt : ∀ {i}, i ∈ ts ↔ i ∈ w.instances ∧ (O i).kind ≠ .coordinates ∧ (O i).kind ≠ .metric := by
    intro i
    rw [hts, List.mem_filter]
    constructor
    · rintro ⟨h1, h2⟩
      refine ⟨h1, ?_⟩
      rw [hkind i h1] at h2; simpa using h2
    · rintro ⟨h1, h2⟩
      refine ⟨h1, ?_⟩
      rw [hkind i h1]; simpa using h2
  -- the new objects of a first part of the order
  have hnewi : ∀ l r, importOrder w = l ++ r → ∀ i ∈ l, new i = w0.objs.length + l.idxOf i := by
    intro l r e i hi
    rw [hnew]
    dsimp only
    rw [e, List.idxOf_append_of_mem hi]
  have hnewc : ∀ i ∈ cs, new i = w0.objs.length + cs.idxOf i := hnewi cs _ horder
  have hnext : ∀ l i r, importOrder w = l ++ i :: r → new i = w0.objs.length + l.length := by
    intro l i r e
    rw [hnew]
    dsimp only
    rw [e] at hnd ⊢
    have : i ∉ l := by
      intro hi
      rw [List.nodup_append] at hnd
      exact hnd.2.2 i hi i (by simp) rfl
    rw [List.idxOf_append_of_notMem this]
    simp
  have hpart : ∀ l r, importOrder w = l ++ r → (l.map (nameIn w)).Nodup := by
    intro l r e
    rw [e, List.map_append] at hnames
    exact hnames.of_append_left
  have hsub : ∀ l r, importOrder w = l ++ r → ∀ i ∈ l, i ∈ w.instances := by
    intro l r e i hi
    exact hperm.subset (by rw [e]; exact List.mem_append_left _ hi)
  have hfirst : ∀ l r, importOrder w = l ++ r → ∀ g : Id' → Obj K, (∀ i ∈ l, (g i).name = nameIn w i) →
      ∀ i ∈ l, namedInstances (rebuilt w0 g l) (some (nameIn w i)) = [new i] := by
    intro l r e g hg i hi
    rw [named_rebuilt (hpart l r e) hg hi, hnewi l r e i hi]
  have hobj : ∀ l r, importOrder w = l ++ r → ∀ g : Id' → Obj K, ∀ i ∈ l,
      (rebuilt w0 g l).objs[new i]? = some (g i) := by
    intro l r e g i hi
    rw [hnewi l r e i hi]
    exact rebuilt_obj w0 g hi
  -- the coordinates
  let f0 : Id' → Obj K := fun i => { restoredCoords (O i) with trans := [] }
  have s1 : forEach (fun x => do
      let _ ← importCoordinates I x []
      return ()) ((w.instances.map X).filter fun x => x.kind == .coordinates) w0 = (.ok (), rebuilt w0 f0 cs) := by
    have e : (w.instances.map X).filter (fun x => x.kind == .coordinates) = cs.map X := by
      rw [List.filter_map, hcs]
      congr 1
      refine List.filter_congr fun i hi => ?_
      rw [Function.comp_apply, hXkind i hi, hkind i hi]
      simp
      rfl
    rw [e, forEach_map]
    have e0 : w0 = rebuilt w0 f0 [] := by
      unfold rebuilt
      cases w0
      simpa using h0
    conv_lhs => rw [e0]
    refine forEach_steps (fun l => rebuilt w0 f0 l) ?_
    intro l i r hl
    have hi : i ∈ cs := by rw [hl]; simp
    obtain ⟨hi1, hi2⟩ := hmemc.1 hi
    have hx : ExportableCoords P I w (O i) := by
      rcases hcase i hi1 with h | h | h
      · exact h.1
      · rw [h.1] at hi2; cases hi2
      · exact absurd hi2 h.1
    have := importCoordinates_ok (w' := rebuilt w0 f0 l) hx (tr := []) (by simp [UniqueKeys]) (by simp)
      (hXc i hi1 hi2)
    rw [List.map_nil] at this
    rw [PyM.bind_apply, this]
    dsimp only
    rw [← rebuilt_add]
    rfl
  have hf0name : ∀ i ∈ cs, (f0 i).name = nameIn w i := by
    intro i hi
    rw [hname i (hmemc.1 hi).1]; rfl
  -- the coordinates of the others
  let X1 : Id' → Import K := fun i =>
    { X i with coords := if (O i).kind = .coordinates then none else some (.obj (new (O i).coords)) }
  have hcoords : ∀ i ∈ w.instances, (O i).kind ≠ .coordinates → (O i).coords ∈ cs := by
    intro i hi hk
    have hx : (O i).coords ∈ w.instances ∧ ∃ c a, Exportable P I w (O i) c a := by
      rcases hcase i hi with h | h | h
      · exact absurd h.1.kind hk
      · obtain ⟨-, h1, -, -, c, a, b, h2, -⟩ := h
        exact ⟨h1, c, a, h2⟩
      · obtain ⟨-, -, h1, -, -, c, a, h2⟩ := h
        exact ⟨h1, c, a, h2⟩
    obtain ⟨h1, c, a, h2⟩ := hx
    refine hmemc.2 ⟨h1, ?_⟩
    rw [← hfo _ h1 c h2.coords.1]
    exact h2.coords.2.1
  have s2 : mapEach (fun x : Import K => do
      let c ← resolve x.coords
      return { x with coords := c }) (w.instances.map X) (rebuilt w0 f0 cs) =
      (.ok (w.instances.map X1), rebuilt w0 f0 cs) := by
    rw [mapEach_map]
    refine mapEach_pure fun i hi => ?_
    show _ = (Except.ok (X1 i), _)
    by_cases hk : (O i).kind = .coordinates
    · have e : (X i).coords = none := by rw [hXc i hi hk]; rfl
      simp only [X1, e, hk, if_true]
      rfl
    · obtain ⟨c, a, hx, h⟩ := hXt i hi hk
      have e : (X i).coords = some (.name (some (nameIn w (O i).coords))) := by rw [h]; rfl
      have hfn := hfirst cs _ horder f0 hf0name _ (hcoords i hi hk)
      simp only [X1, e, hk, if_false]
      refine PyM.then_ok (a := some (.obj (new (O i).coords))) ?_ rfl
      unfold resolve
      refine PyM.then_ok (firstNamed_apply _ _) ?_
      rw [hfn]
      rfl
  -- the transformations
  have s3 : forEach (importTrans I) ((w.instances.map X1).filter fun x => x.kind == .coordinates) (rebuilt w0 f0 cs) =
      (.ok (), rebuilt w0 f cs) := by
    have e : (w.instances.map X1).filter (fun x => x.kind == .coordinates) = cs.map X1 := by
      rw [List.filter_map, hcs]
      congr 1
      refine List.filter_congr fun i hi => ?_
      rw [Function.comp_apply, hkind i hi]
      show ((X i).kind == _) = _
      rw [hXkind i hi]
      simp
      rfl
    rw [e, forEach_map]
    let g : List Id' → Id' → Obj K := fun l j => if j ∈ l then f j else f0 j
    have e1 : rebuilt w0 f0 cs = rebuilt w0 (g []) cs := by simp [g]
    have e2 : rebuilt w0 f cs = rebuilt w0 (g cs) cs := by
      unfold rebuilt
      congr 2
      exact List.map_congr_left fun i hi => by simp [g, hi]
    rw [e1, e2]
    refine forEach_steps (fun l => rebuilt w0 (g l) cs) ?_
    intro l i r hl
    have hi : i ∈ cs := by rw [hl]; simp
    have hil : i ∉ l := by
      have hn : cs.Nodup := (hpart cs _ horder).of_map
      rw [hl, List.nodup_append] at hn
      intro h
      exact hn.2.2 i h i (by simp) rfl
    have hlc : ∀ j ∈ l, j ∈ cs := fun j hj => by rw [hl]; exact List.mem_append_left _ hj
    obtain ⟨hi1, hi2⟩ := hmemc.1 hi
    obtain ⟨hx, hk, ht⟩ : ImportableCoords P I w i (O i) := by
      rcases hcase i hi1 with h | h | h
      · exact h
      · rw [h.1] at hi2; cases hi2
      · exact absurd hi2 h.1
    have hgname : ∀ j ∈ cs, (g l j).name = nameIn w j := by
      intro j hj
      by_cases h : j ∈ l
      · simp only [g, h, if_true]; exact hfname j (hmemc.1 hj).1
      · simp only [g, h, if_false]; exact hf0name j hj
    have hgkind : ∀ j ∈ cs, (g l j).kind = .coordinates := by
      intro j hj
      by_cases h : j ∈ l
      · simp only [g, h, if_true]; rw [hfc j (hmemc.1 hj).1 (hmemc.1 hj).2]; rfl
      · simp only [g, h, if_false]; rfl
    unfold importTrans
    rw [PyM.bind_apply, PyM.world_apply]
    have en : (X1 i).name = .val (nameIn w i) := by
      show (X i).name = _
      rw [hXc i hi1 hi2, hname i hi1]; rfl
    have et : (X1 i).trans = (O i).trans.map fun p =>
        (Ref.name (some (nameIn w p.1)), rulesVal I P (rulesDict p.2)) := by
      show (X i).trans = _
      rw [hXc i hi1 hi2]; rfl
    simp only [en]
    rw [hfirst cs _ horder (g l) hgname i hi]
    have hfil : [new i].filter (fun j => ((rebuilt w0 (g l) cs).objs[j]?).any fun o => o.kind == .coordinates) = [new i] := by
      rw [List.filter_cons_of_pos]
      · rfl
      · rw [hobj cs _ horder (g l) i hi]
        simp [hgkind i hi]
    rw [hfil, forEach]
    let tr : Dict Id' (List (Option (Sym × K))) → Dict Id' (List (Option (Sym × K))) :=
      fun d => d.map fun p => (new p.1, (rulesDict p.2).map some)
    let G : Dict Id' (List (Option (Sym × K))) → Id' → Obj K := fun d j =>
      if j = i then { restoredCoords (O i) with trans := tr d } else g l j
    have e3 : rebuilt w0 (g l) cs = rebuilt w0 (G []) cs := by
      congr 1
      funext j
      by_cases h : j = i
      · subst h; simp [G, g, hil, f0, tr]
      · simp [G, h]
    have e4 : rebuilt w0 (g (l ++ [i])) cs = rebuilt w0 (G (O i).trans) cs := by
      congr 1
      funext j
      by_cases h : j = i
      · subst h; simp only [G, g, if_true, tr]; rw [if_pos (by simp), hfc j hi1 hi2]
      · simp [G, h, g]
    have key := forEach_steps (K := K) (L := (O i).trans) (f := fun p => (do
        let target ← (match Ref.name (some (nameIn w p.1)) with
          | .obj _ => pure none
          | .name s => firstNamed s)
        match target with
        | none => PyM.raise .keyError
        | some c => do
          let rules ← PyM.lift (rulesOf I (rulesVal I P (rulesDict p.2)))
          addCoordTransformation (new i) c (some rules) : PyM K Unit)) (fun d => rebuilt w0 (G d) cs) (by
      intro d p r' hd
      have hp : p ∈ (O i).trans := by rw [hd]; simp
      obtain ⟨hp1, hp2, hp3⟩ := ht p hp
      have hpc : p.1 ∈ cs := by
        refine hmemc.2 ⟨hp1, ?_⟩
        rw [hkind _ hp1] at hp2; simpa using hp2
      have hGname : ∀ j ∈ cs, (G d j).name = nameIn w j := by
        intro j hj
        by_cases h : j = i
        · subst h; simp only [G, if_true]; rw [hname j hi1]; rfl
        · simp only [G, h, if_false]; exact hgname j hj
      have hGp : (G d p.1).kind = .coordinates := by
        simp only [G, hp3, if_false]; exact hgkind _ hpc
      have hfn := hfirst cs _ horder (G d) hGname _ hpc
      have hru : rulesOf I (rulesVal I P (rulesDict p.2)) = .ok ((rulesDict p.2).map some) := by
        obtain ⟨c', -, -, k⟩ := hx.trans p hp
        exact rulesOf_val fun r hr => (k r hr).1
      have hneq : ¬ new i = new p.1 := by
        rw [hnewc i hi, hnewc _ hpc]
        intro e
        have : cs.idxOf i = cs.idxOf p.1 := Nat.add_left_cancel e
        exact hp3 ((List.idxOf_inj hi).1 this).symm
      refine PyM.then_ok (firstNamed_apply _ _) ?_
      rw [hfn, List.head?_cons]
      dsimp only
      rw [PyM.bind_apply, PyM.lift_apply, hru]
      dsimp only
      unfold addCoordTransformation
      rw [PyM.bind_apply, isCoordinates_apply, hobj cs _ horder (G d) _ hpc]
      simp only [Option.any_some, hGp, beq_self_eq_true, Bool.not_true, Bool.false_eq_true, if_false, hneq]
      rw [PyM.bind_apply]
      unfold getObj
      rw [hobj cs _ horder (G d) _ hi]
      have hal : (G d i).alive = true := by simp [G, restoredCoords]
      simp only [hal, if_true]
      rw [hnewc i hi]
      refine rebuilt_modify w0 (G d) (G (d ++ [p])) (hpart cs _ horder).of_map hi ?_ ?_
      · simp only [G, if_true]
        congr 1
        have hnone : (tr d).get? (new p.1) = none := by
          refine Dict.get?_none_of_key ?_
          rw [List.map_map]
          intro hm
          obtain ⟨q, hq, e⟩ := List.mem_map.1 hm
          have hq' : q ∈ (O i).trans := by rw [hd]; exact List.mem_append_left _ hq
          obtain ⟨hq1, hq2, -⟩ := ht q hq'
          have hqc : q.1 ∈ cs := by
            refine hmemc.2 ⟨hq1, ?_⟩
            rw [hkind _ hq1] at hq2; simpa using hq2
          have e : new q.1 = new p.1 := e
          rw [hnewc _ hqc, hnewc _ hpc] at e
          have : q.1 = p.1 := (List.idxOf_inj hqc).1 (Nat.add_left_cancel e)
          unfold UniqueKeys at hk
          rw [hd, List.map_append, List.nodup_append] at hk
          exact hk.2.2 q.1 (List.mem_map_of_mem hq) p.1 (by simp) this
        rw [Dict.set_new _ _ _ hnone]
        simp [tr]
      · intro j hj
        simp [G, hj])
    rw [e3, e4]
    refine PyM.then_ok (w' := rebuilt w0 (G (O i).trans) cs) (a := ()) ?_ rfl
    rw [et, forEach_map]
    exact key
  have s4 : forEach (fun x => match x.coords with
      | some (.name _) => PyM.raise .exception
      | _ => pure ()) (w.instances.map X1) (rebuilt w0 f cs) = (.ok (), rebuilt w0 f cs) := by
    rw [forEach_map]
    refine forEach_pass fun i hi => ?_
    by_cases hk : (O i).kind = .coordinates
    · simp only [X1, hk, if_true]; rfl
    · simp only [X1, hk, if_false]; rfl
  have hfcobj : ∀ i ∈ cs, (f i).kind = .coordinates ∧ (f i).alive = true ∧ (f i).syms = (O i).syms := by
    intro i hi
    rw [hfc i (hmemc.1 hi).1 (hmemc.1 hi).2]
    exact ⟨rfl, rfl, rfl⟩
  have hexp : ∀ i ∈ w.instances, ∀ c a, Exportable P I w (O i) c a → (O i).coords ∈ cs → c = O (O i).coords :=
    fun i hi c a hx hc => hfo _ (hmemc.1 hc).1 c hx.coords.1
  -- the metrics
  have s5 : forEach (fun x => do
      let _ ← importTensor E x
      return ()) ((w.instances.map X1).filter fun x => x.kind == .metric) (rebuilt w0 f cs) =
      (.ok (), rebuilt w0 f (cs ++ ms)) := by
    have e : (w.instances.map X1).filter (fun x => x.kind == .metric) = ms.map X1 := by
      rw [List.filter_map, hms]
      congr 1
      refine List.filter_congr fun i hi => ?_
      rw [Function.comp_apply, hkind i hi]
      show ((X i).kind == _) = _
      rw [hXkind i hi]
      simp
      rfl
    rw [e, forEach_map]
    have := forEach_steps (K := K) (L := ms) (f := fun i => (do
      let _ ← importTensor E (X1 i)
      return () : PyM K Unit)) (fun l => rebuilt w0 f (cs ++ l)) (by
      intro l i r hl
      have hi : i ∈ ms := by rw [hl]; simp
      obtain ⟨hi1, hi2⟩ := hmemm.1 hi
      have hkc : (O i).kind ≠ .coordinates := by rw [hi2]; decide
      obtain ⟨-, -, -, hix, c, a, b, hx, hs, hdet, hinv⟩ : ImportableMetric E P I w (O i) := by
        rcases hcase i hi1 with h | h | h
        · exact absurd h.1.kind hkc
        · exact h
        · exact absurd hi2 h.2.1
      have hc := hcoords i hi1 hkc
      have hol : importOrder w = (cs ++ l) ++ i :: (r ++ ts) := by rw [horder, hl]; simp
      obtain ⟨c', a', hx', ex⟩ := hXt i hi1 hkc
      have ha : a' = a := by
        obtain ⟨d, q1, q2⟩ := hx.default
        obtain ⟨d', q3, q4⟩ := hx'.default
        rw [q1] at q3; cases q3
        rw [q2] at q4; cases q4; rfl
      subst ha
      have hob := hobj (cs ++ l) _ hol f (O i).coords (List.mem_append_left _ hc)
      obtain ⟨k1, k2, k3⟩ := hfcobj _ hc
      have hnewm := newMetric_restored (E := E) (W := rebuilt w0 f (cs ++ l)) hx hi2 hob k1 k2
        (by rw [k3, hexp i hi1 c a' hx hc]) hix hs hdet hinv
      have hlen : (rebuilt w0 f (cs ++ l)).objs.length = new i := by
        rw [hnext _ _ _ hol]; simp [rebuilt]
      have hf' := hfm i hi1 hi2 c a' b hx hinv
      rw [hlen, ← hf'] at hnewm
      have hadd := rebuilt_add w0 f (cs ++ l) i
      rw [hlen] at hadd
      rw [hadd] at hnewm
      show _ = (Except.ok (), rebuilt w0 f (cs ++ (l ++ [i])))
      rw [← List.append_assoc]
      refine PyM.then_ok (a := new i) ?_ rfl
      have e1 : (X1 i).trans = [] := by show (X i).trans = _; rw [ex]; rfl
      have e2 : (X1 i).kind = .metric := by rw [← hi2]; exact hXkind i hi1
      have e3 : (X1 i).coords = some (.obj (new (O i).coords)) := by simp only [X1, hkc, if_false]
      have e4 : (X1 i).name = .val (O i).name := by show (X i).name = _; rw [ex]; rfl
      have e5 : (X1 i).comps = a' := by show (X i).comps = _; rw [ex]; rfl
      have e6 : (X1 i).indices = (O i).indices := by show (X i).indices = _; rw [ex]; rfl
      have e7 : (X1 i).symbol = .val (O i).symbol := by show (X i).symbol = _; rw [ex]; rfl
      unfold importTensor
      simp only [e1, e2, e3, e4, e5, e6, e7, List.isEmpty_nil, Bool.not_true, Bool.false_eq_true, if_false]
      exact hnewm)
    simpa using this
  -- their use by the others
  let X2 : Id' → Import K := fun i =>
    { X1 i with metric := if (O i).kind = .coordinates ∨ (O i).kind = .metric then none
                          else some (.obj (new (O i).metric)) }
  have hmetric : ∀ i ∈ w.instances, (O i).kind ≠ .coordinates → (O i).kind ≠ .metric → (O i).metric ∈ ms := by
    intro i hi hk hk'
    rcases hcase i hi with h | h | h
    · exact absurd h.1.kind hk
    · exact absurd h.1 hk'
    · obtain ⟨-, -, -, h1, ⟨m, h2, h3, -⟩, -⟩ := h
      refine hmemm.2 ⟨h1, ?_⟩
      rw [← hfo _ h1 m h2]
      exact h3
  have horder' : importOrder w = (cs ++ ms) ++ ts := by rw [horder, List.append_assoc]
  have s6 : mapEach (fun x : Import K => do
      let m ← resolve x.metric
      match m with
      | some (.name _) => PyM.raise .exception
      | _ => return { x with metric := m }) (w.instances.map X1) (rebuilt w0 f (cs ++ ms)) =
      (.ok (w.instances.map X2), rebuilt w0 f (cs ++ ms)) := by
    rw [mapEach_map]
    refine mapEach_pure fun i hi => ?_
    show _ = (Except.ok (X2 i), _)
    by_cases hk : (O i).kind = .coordinates
    · have e : (X1 i).metric = none := by show (X i).metric = _; rw [hXc i hi hk]; rfl
      simp only [X2, e, hk, true_or, if_true]
      rfl
    · obtain ⟨c, a, hx, h⟩ := hXt i hi hk
      by_cases hk' : (O i).kind = .metric
      · have e : (X1 i).metric = none := by
          show (X i).metric = _
          rw [h, if_pos hk']; rfl
        simp only [X2, e, hk', or_true, if_true]
        rfl
      · have e : (X1 i).metric = some (.name (some (nameIn w (O i).metric))) := by
          show (X i).metric = _
          rw [h, if_neg hk']; rfl
        have hfn := hfirst (cs ++ ms) _ horder' f
          (fun j hj => hfname j (hsub _ _ horder' j hj)) _ (List.mem_append_right _ (hmetric i hi hk hk'))
        simp only [X2, e, hk, hk', or_self, if_false]
        refine PyM.then_ok (a := some (.obj (new (O i).metric))) ?_ rfl
        unfold resolve
        refine PyM.then_ok (firstNamed_apply _ _) ?_
        rw [hfn]
        rfl
  -- the tensors
  have s7 : forEach (fun x => do
      let _ ← importTensor E x
      return ()) ((w.instances.map X2).filter Import.plain) (rebuilt w0 f (cs ++ ms)) =
      (.ok (), rebuilt w0 f (importOrder w)) := by
    have e : (w.instances.map X2).filter Import.plain = ts.map X2 := by
      rw [List.filter_map, hts]
      congr 1
      refine List.filter_congr fun i hi => ?_
      rw [Function.comp_apply, hkind i hi]
      unfold Import.plain
      show (!((X i).kind == _ || (X i).kind == _)) = _
      rw [hXkind i hi]
      cases (O i).kind <;> rfl
    rw [e, forEach_map]
    have := forEach_steps (K := K) (L := ts) (f := fun i => (do
      let _ ← importTensor E (X2 i)
      return () : PyM K Unit)) (fun l => rebuilt w0 f ((cs ++ ms) ++ l)) (by
      intro l i r hl
      have hi : i ∈ ts := by rw [hl]; simp
      obtain ⟨hi1, hkc, hkm⟩ := hmemt.1 hi
      have hc := hcoords i hi1 hkc
      have hm := hmetric i hi1 hkc hkm
      have hol : importOrder w = ((cs ++ ms) ++ l) ++ i :: r := by rw [horder', hl]; simp
      obtain ⟨c, a, hx, ex⟩ := hXt i hi1 hkc
      have hob := hobj ((cs ++ ms) ++ l) _ hol f (O i).coords
        (List.mem_append_left _ (List.mem_append_left _ hc))
      have hom := hobj ((cs ++ ms) ++ l) _ hol f (O i).metric
        (List.mem_append_left _ (List.mem_append_right _ hm))
      obtain ⟨k1, k2, k3⟩ := hfcobj _ hc
      have hmk : (f (O i).metric).kind = .metric := by
        obtain ⟨hm1, hm2⟩ := hmemm.1 hm
        obtain ⟨-, -, -, -, c', a', b', hx', -, -, hinv'⟩ : ImportableMetric E P I w (O (O i).metric) := by
          rcases hcase _ hm1 with h | h | h
          · rw [h.1.kind] at hm2; cases hm2
          · exact h
          · exact absurd hm2 h.2.1
        rw [hfm _ hm1 hm2 c' a' b' hx' hinv']
        exact hm2
      have hnewt := newTensor_restored (W := rebuilt w0 f ((cs ++ ms) ++ l)) hx hob k1 k2
        (by rw [k3, hexp i hi1 c a hx hc]) hom hmk
      have hlen : (rebuilt w0 f ((cs ++ ms) ++ l)).objs.length = new i := by
        rw [hnext _ _ _ hol]; simp [rebuilt]
      rw [← hft i hi1 hkc hkm c a hx, rebuilt_add] at hnewt
      show _ = (Except.ok (), rebuilt w0 f ((cs ++ ms) ++ (l ++ [i])))
      rw [← List.append_assoc (cs ++ ms)]
      refine PyM.then_ok (a := (rebuilt w0 f ((cs ++ ms) ++ l)).objs.length) ?_ rfl
      have e1 : (X2 i).trans = [] := by show (X i).trans = _; rw [ex]; rfl
      have e2 : (X2 i).kind = (O i).kind := hXkind i hi1
      have e3 : (X2 i).coords = some (.obj (new (O i).coords)) := by simp only [X2, X1, hkc, if_false]
      have e4 : (X2 i).name = .val (O i).name := by show (X i).name = _; rw [ex]; rfl
      have e5 : (X2 i).comps = a := by show (X i).comps = _; rw [ex]; rfl
      have e6 : (X2 i).indices = (O i).indices := by show (X i).indices = _; rw [ex]; rfl
      have e7 : (X2 i).symbol = .val (O i).symbol := by show (X i).symbol = _; rw [ex]; rfl
      have e8 : (X2 i).metric = some (.obj (new (O i).metric)) := by simp only [X2, hkc, hkm, or_self, if_false]
      unfold importTensor
      simp only [e1, e2, e3, e4, e5, e6, e7, e8, List.isEmpty_nil, Bool.not_true, Bool.false_eq_true, if_false]
      rcases hkind' : (O i).kind <;> first | exact absurd hkind' hkc | exact absurd hkind' hkm | skip
      all_goals (rw [hkind'] at hnewt; exact hnewt))
    rw [horder']
    simpa using this
  unfold importAllFromVal
  refine PyM.then_ok (PyM.world_apply _) ?_
  refine PyM.then_ok (a := w.instances.map X) (w' := w0) (by rw [PyM.lift_apply, hv]) ?_
  refine PyM.then_ok s1 ?_
  refine PyM.then_ok s2 ?_
  refine PyM.then_ok s3 ?_
  refine PyM.then_ok s4 ?_
  refine PyM.then_ok s5 ?_
  exact PyM.then_ok s6 s7

end

end PyOGRe
